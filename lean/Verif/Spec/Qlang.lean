import Verif.Model.Qlang
import Verif.Spec.Builtin

/-
What the interpreter of qlang should do with variables, functions and control structures.
-/
namespace Tpl.Spec
open Tpl Qlang
variable {F : Type}

/-! ### Variables -/

/-- A value of the language: not the mark that a variable belongs to another function. -/
def Plain (v : QVal F) : Prop := ∀ e, v ≠ .extern e

/-- The function (interpreter) `t` has a variable `x` of its own, with this value. -/
def Own (s : QState F) (x : Str) (t : Nat) (v : QVal F) : Prop := (s.scopes t).vars x = some v ∧ Plain v

/-- The name `x` in function `p` stands for the variable of function `t`: its own, or one it
shares. -/
inductive Bound (s : QState F) (x : Str) (p : Nat) : Nat → Prop
  | own {v} : Own s x p v → Bound s x p p
  | shared {t v} : (s.scopes p).vars x = some (.extern t) → Own s x t v → Bound s x p t

/-- Names that functions inside may use. -/
def Inherits (x : Str) : Prop := ∃ c rest, x = c :: rest ∧ c ≠ 95

/-- `t` is the nearest of these enclosing functions where the name stands for something. -/
inductive Nearest (s : QState F) (x : Str) : List Nat → Nat → Prop
  | here {t ts} : (s.scopes t).vars x ≠ none → Nearest s x (t :: ts) t
  | there {t ts t'} : (s.scopes t).vars x = none → Nearest s x ts t' → Nearest s x (t :: ts) t'

/-- Operations on variables. -/
inductive VarOp (F : Type) where
  /-- `x = v` in function `p` -/
  | assign (p : Nat) (x : Str) (v : QVal F)
  /-- `x` -/
  | read (p : Nat) (x : Str)
  /-- `x++`, `x--` -/
  | inc (p : Nat) (x : Str)
  | dec (p : Nat) (x : Str)
  /-- `x += v`, ... -/
  | combine (op : Op2) (p : Nat) (x : Str) (v : QVal F)
  /-- `x, y, ... = vs` -/
  | multi (p : Nat) (xs : List Str) (vs : Sl)
  /-- a call: a function gets new variables -/
  | enter (vars : Str → Option (QVal F)) (parent : Nat)

/-- How the interpreter does them: operands on the stack. -/
def VarOp.code (L : Lib F) : VarOp F → QM F Unit
  | .assign p x v => do push v; Qlang.assign p x
  | .read p x => ref L p x
  | .inc p x => incDec Inc p x
  | .dec p x => incDec Dec p x
  | .combine op p x v => do push v; opAssign (op.apply L.fl) p x
  | .multi p xs vs => do
    modQ fun s => { s with stk := s.stk ++ xs.map .str ++ [.int (xs.length - 1), .slice vs] }
    multiAssign p
  | .enter vars parent => modQ fun s =>
    { s.setScope s.nscopes ⟨vars, .nil, none, parent :: (s.scopes parent).parents, [], s.stk.length⟩ with nscopes := s.nscopes + 1 }

/-- Every name that is shared stands for a variable.  (It does not after `unset`.) -/
def Sound (s : QState F) : Prop := ∀ p x e, (s.scopes p).vars x = some (.extern e) → ∃ v, Own s x e v

/-- The values an operation brings in are values of the language, and a call makes a new
interpreter. -/
def VarOp.Good (s : QState F) : VarOp F → Prop
  | .assign _ _ v => Plain v
  | .multi _ _ vs => ∀ v ∈ s.heap.elems vs, Plain v
  | .enter vars _ => (∀ x v, vars x = some v → Plain v) ∧ ∀ x, (s.scopes s.nscopes).vars x = none
  | _ => True

/-- Names and functions an operation writes to. -/
def VarOp.Writes : VarOp F → Nat → Str → Prop
  | .assign p x _, q, y => q = p ∧ y = x
  | .inc p x, q, y => q = p ∧ y = x
  | .dec p x, q, y => q = p ∧ y = x
  | .combine _ p x _, q, y => q = p ∧ y = x
  | .multi p xs _, q, y => q = p ∧ y ∈ xs
  | _, _, _ => False

/-- The state after an operation, whether it panics or not. -/
inductive VarStep (L : Lib F) (op : VarOp F) : QState F → QState F → Prop
  | ok {f m} {s s' : St (QEng F)} : (op.code L).run f m s = some (.ok () s') → VarStep L op s.u.u s'.u.u
  | panic {f m} {s s' : St (QEng F)} {e} : (op.code L).run f m s = some (.panic e s') → VarStep L op s.u.u s'.u.u

/-- Operations one after the other, in any functions. -/
inductive VarSteps (L : Lib F) : List (VarOp F) → QState F → QState F → Prop
  | nil s : VarSteps L [] s s
  | cons {op ops s s' s''} : op.Good s → VarStep L op s s' → VarSteps L ops s' s'' → VarSteps L (op :: ops) s s''

/-! ### Calls and deferred expressions -/

/-- How code ended: with a value or a panic, and the state. -/
abbrev QEnd (F α : Type) := Cb Str (QEng F) (IPanic QErr (QX (QVal F))) α

/-- The state when code ended. -/
def after {α : Type} : QEnd F α → QState F
  | .ok _ s => s.u.u
  | .panic _ s => s.u.u

/-- Pieces of code run one after the other; the first panic ends it. -/
inductive InTurn {α : Type} (ev : α → St (QEng F) → QEnd F Unit → Prop) : List α → St (QEng F) → QEnd F Unit → Prop
  | done s : InTurn ev [] s (.ok () s)
  | next {d ds s s' c} : ev d s (.ok () s') → InTurn ev ds s' c → InTurn ev (d :: ds) s c
  | panic {d ds s e s'} : ev d s (.panic e s') → InTurn ev (d :: ds) s (.panic e s')

/-- The variables a call begins with: every parameter has its argument (of parameters with
the same name the last one counts); the last parameter of a variadic function has a slice of
the remaining arguments. -/
inductive Params (fn : Fun) (args : List (QVal F)) (h : Heap F) (vars : Str → Option (QVal F)) : Prop
  | fixed : fn.variadic = false → (∀ x, vars x = lastOf x (fn.args.zip args)) → Params fn args h vars
  | rest {init last sl} : fn.variadic = true → fn.args = init ++ [last] → h.elems sl = args.drop init.length → sl.elem = .var →
    (∀ x, vars x = if x = last then some (.slice sl) else lastOf x (init.zip args)) → Params fn args h vars

/-- The state at the beginning of a call: a new interpreter with the parameters. -/
structure Entered (fn : Fun) (args : List (QVal F)) (s s' : QState F) : Prop where
  scope : ∃ vars, s'.scopes s.nscopes = ⟨vars, .nil, none, fn.parent :: (s.scopes fn.parent).parents, [], s.stk.length⟩ ∧
    Params fn args s'.heap vars
  others : ∀ i, i ≠ s.nscopes → s'.scopes i = s.scopes i
  count : s'.nscopes = s.nscopes + 1
  stk : s'.stk = s.stk
  arrs : ∀ a < s.heap.next, s'.heap.arrs a = s.heap.arrs a
  maps : s'.heap.maps = s.heap.maps
  objs : s'.heap.objs = s.heap.objs

/-- How many arguments a function takes. -/
def TakesArgs (fn : Fun) (n : Nat) : Prop := if fn.variadic then fn.args.length ≤ n + 1 else n = fn.args.length

/-- The panic of `return`. -/
def IsReturn (p : QPanic F) : Prop := ∃ g src, p = .user (.runtime g src (.err .return_))

/-- The panic of `os.Exit`. -/
def IsExit (p : QPanic F) : Prop := ∃ n, p = .user (.other (.exit n))

/-- The body of a function ended, by its end, an error, return or a panic; `rec` is what
deferred expressions can recover from. -/
inductive BodyEnds (run : St (QEng F) → Option (QEnd F (Option (SubErr Str)))) (s : St (QEng F)) : Option (QPanic F) → St (QEng F) → Prop
  | ends {r s'} : run s = some (.ok r s') → BodyEnds run s none s'
  | returns {p s'} : run s = some (.panic p s') → IsReturn p → BodyEnds run s none s'
  | panics {p s'} : run s = some (.panic p s') → ¬ IsReturn p → ¬ IsExit p → BodyEnds run s (some p) s'

/-- `defer` statements of function `p` executed one after the other, with anything in
between that does not change what it has deferred. -/
inductive Defers (p : Nat) : List (QVal F) → QState F → QState F → Prop
  | none s : Defers p [] s s
  | defer {d ds f m s'} {s s1 : St (QEng F)} : (do push d; defer_ p : QM F Unit).run f m s = some (.ok () s1) → Defers p ds s1.u.u s' →
    Defers p (d :: ds) s.u.u s'
  | other {ds s s1 s'} : (s1.scopes p).defers = (s.scopes p).defers → Defers p ds s1 s' → Defers p ds s s'

/-! ### Control -/

/-- `if` with conditions and bodies: how it ends.  `cond` says how a condition ends (its
value), `body` how a body does. -/
inductive IfRuns {S P C : Type} (cond : C → S → Except (P × S) (QVal F × S) → Prop) (body : C → S → Except (P × S) S → Prop)
    (notBool : P) (els : C) : List (C × C) → S → Except (P × S) S → Prop
  | first {c b more s s1 r} : cond c s (.ok (.bool true, s1)) → body b s1 r → IfRuns cond body notBool els ((c, b) :: more) s r
  | next {c b more s s1 r} : cond c s (.ok (.bool false, s1)) → IfRuns cond body notBool els more s1 r →
    IfRuns cond body notBool els ((c, b) :: more) s r
  | notBool {c b more s v s1} : cond c s (.ok (v, s1)) → (∀ x, v ≠ .bool x) →
    IfRuns cond body notBool els ((c, b) :: more) s (.error (notBool, s1))
  | panics {c b more s e} : cond c s (.error e) → IfRuns cond body notBool els ((c, b) :: more) s (.error e)
  | otherwise {s r} : body els s r → IfRuns cond body notBool els [] s r

/-- `switch`: the first case whose value is equal. -/
inductive SwitchRuns {S P C : Type} (cond : C → S → Except (P × S) (QVal F × S) → Prop) (body : C → S → Except (P × S) S → Prop)
    (eq : QVal F → Except P Bool) (default : C) : List (C × C) → S → Except (P × S) S → Prop
  | first {c b more s v s1 r} : cond c s (.ok (v, s1)) → eq v = .ok true → body b s1 r →
    SwitchRuns cond body eq default ((c, b) :: more) s r
  | next {c b more s v s1 r} : cond c s (.ok (v, s1)) → eq v = .ok false → SwitchRuns cond body eq default more s1 r →
    SwitchRuns cond body eq default ((c, b) :: more) s r
  | refused {c b more s v s1 e} : cond c s (.ok (v, s1)) → eq v = .error e →
    SwitchRuns cond body eq default ((c, b) :: more) s (.error (e, s1))
  | panics {c b more s e} : cond c s (.error e) → SwitchRuns cond body eq default ((c, b) :: more) s (.error e)
  | otherwise {s r} : body default s r → SwitchRuns cond body eq default [] s r

/-- `for`: the condition, the body and the step in turn while the condition holds. -/
inductive ForRuns {S P : Type} (cond : S → Except (P × S) (Bool × S) → Prop) (body step : S → Except (P × S) S → Prop) :
    S → Except (P × S) S → Prop
  | stop {s s1} : cond s (.ok (false, s1)) → ForRuns cond body step s (.ok s1)
  | round {s s1 s2 s3 r} : cond s (.ok (true, s1)) → body s1 (.ok s2) → step s2 (.ok s3) → ForRuns cond body step s3 r →
    ForRuns cond body step s r
  | condPanics {s e} : cond s (.error e) → ForRuns cond body step s (.error e)
  | bodyPanics {s s1 e} : cond s (.ok (true, s1)) → body s1 (.error e) → ForRuns cond body step s (.error e)
  | stepPanics {s s1 s2 e} : cond s (.ok (true, s1)) → body s1 (.ok s2) → step s2 (.error e) → ForRuns cond body step s (.error e)

/-- `x`, run with this fuel, ends like this. -/
def EndsIn {α : Type} (f : Nat) (m : Mat Str (QEng F) (IPanic QErr (QX (QVal F)))) (x : QM F α) (s : St (QEng F)) :
    Except (QPanic F × St (QEng F)) (α × St (QEng F)) → Prop
  | .ok (a, s') => x.run f m s = some (.ok a s')
  | .error (p, s') => x.run f m s = some (.panic p s')

/-- The same without the value. -/
def EndsUnit (f : Nat) (m : Mat Str (QEng F) (IPanic QErr (QX (QVal F)))) (x : QM F Unit) (s : St (QEng F)) :
    Except (QPanic F × St (QEng F)) (St (QEng F)) → Prop
  | .ok s' => x.run f m s = some (.ok () s')
  | .error (p, s') => x.run f m s = some (.panic p s')

/-- Conditions and bodies in one list. -/
def flat {C : Type} : List (C × C) → List C
  | [] => []
  | (c, b) :: more => c :: b :: flat more

/-- A condition: evaluate the code and take the value. -/
def condition (r : CompileRet Str) (U : Uni) (p : Nat) (code : QVal F) : QM F (QVal F) := do
  evalIn r U p (str "expr") code
  pop_

/-- What `==` answers, as a truth value. -/
def equal (M : Fl F) (a b : QVal F) : Except (QPanic F) Bool := match Qlang.EQ M a b with
  | .ok (.bool true) => .ok true
  | .ok _ => .ok false
  | .error e => .error e

/-- The condition of `for`; without one it holds. -/
def forCond (r : CompileRet Str) (U : Uni) (p : Nat) (cond : QVal F) : QM F Bool := match cond with
  | .nil => pure true
  | cond => evalCondS r U p cond

end Tpl.Spec
