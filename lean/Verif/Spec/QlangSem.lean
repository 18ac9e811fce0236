import Verif.Spec.QlangMarks
import Verif.Spec.Builtin
import Verif.Model.Qlang

/-!
What a qlang program does, by its syntax tree: a definitional interpreter.  It knows variables,
calls and values; it has no stack, no marks, no captured code and no matcher.

The values and the operators are those of package builtin (Model/Builtin).
-/
namespace Tpl.Qlang.Src
open Spec
variable {F : Type} {α β : Type}

/-! ### The world of a program -/

/-- A function that has been called, and not only while it runs: functions made in it still use
its variables.  Number 0 is the program itself. -/
structure Frame (F : Type) where
  /-- a name has a value, or stands for the variable of that name of another frame (`extern`) -/
  vars : Str → Option (QVal F)
  /-- what `return` said -/
  ret : QVal F
  /-- the panic that has not been recovered -/
  recov : Option (QPanic F)
  /-- the enclosing functions, the nearest first -/
  parents : List Nat
  /-- the deferred expressions, the newest first -/
  defers : List (QVal F)

structure World (F : Type) where
  frames : Nat → Frame F
  count : Nat
  heap : Heap F

/-- Code: gives a value or panics, and changes the world.  `none`: not finished in so many steps. -/
def Prog (F α : Type) := World F → Option (Except (QPanic F) α × World F)

def Prog.ret (a : α) : Prog F α := fun w => some (.ok a, w)

def Prog.andThen (x : Prog F α) (k : α → Prog F β) : Prog F β := fun w => match x w with
  | none => none
  | some (.ok a, w) => k a w
  | some (.error p, w) => some (.error p, w)

instance : Monad (Prog F) where
  pure := Prog.ret
  bind := Prog.andThen

def raise (p : QPanic F) : Prog F α := fun w => some (.error p, w)

def ofE : Except (QPanic F) α → Prog F α
  | .ok a => pure a
  | .error p => raise p

/-- Code that only works on the heap. -/
def onHeap (x : HM F α) : Prog F α := fun w => some ((x w.heap).1, { w with heap := (x w.heap).2 })

def theHeap : Prog F (Heap F) := fun w => some (.ok w.heap, w)

def frame (p : Nat) : Prog F (Frame F) := fun w => some (.ok (w.frames p), w)

def World.change (w : World F) (p : Nat) (f : Frame F → Frame F) : World F :=
  { w with frames := fun i => if i = p then f (w.frames p) else w.frames i }

def change (p : Nat) (f : Frame F → Frame F) : Prog F Unit := fun w => some (.ok (), w.change p f)

/-- How code ended, as a value. -/
def try_ (x : Prog F α) : Prog F (Except (QPanic F) α) := fun w => match x w with
  | none => none
  | some (r, w) => some (.ok r, w)

def newAddr : Prog F Nat := onHeap HM.alloc

/-- A panic that does not say yet where it happened gets the place: the grammar of a mark and
the tokens. -/
def placed (g : Gr Str) (ts : List Token) : QPanic F → QPanic F
  | .user (.str m) => .user (.runtime g ts (.msg m))
  | .user (.err e) => .user (.runtime g ts (.err e))
  | .user .value => .user (.runtime g ts .value)
  | .nilDeref => .user (.runtime g ts .nilDeref)
  | .slice => .user (.runtime g ts .slice)
  | .err .varNotAssigned => .user (.runtime g ts .varNotAssigned)
  | p => p

/-! ### What is given -/

/-- Go functions that can be called. -/
abbrev HostFn (F : Type) := GoFn (HM F) (QVal F)

/-- The host: floating-point numbers, literals, symbols, functions and members of its values. -/
structure Host (F : Type) where
  fl : Fl F
  unquote : Str → Option Str
  unquoteChar : Str → Option (Nat × Bool × Str)
  table : Str → Option (QVal F)
  fns : Str → Option (HostFn F)
  member : Heap F → QVal F → Str → Except (QPanic F) (QVal F)

/-- What the semantics is given: the host, the grammars that errors mention, and the trees of
function bodies and deferred expressions, which values only have the tokens of. -/
structure Setup (F : Type) where
  host : Host F
  site : String → Gr Str
  doc : List Token → Option (Tm .doc)
  expr : List Token → Option (Tm (.term 5))
  doc_ok : ∀ {ts d}, doc ts = some d → d.Ok ∧ d.toks = ts
  expr_ok : ∀ {ts e}, expr ts = some e → e.Ok ∧ e.toks = ts

/-- The code happens at this place. -/
def Setup.at (S : Setup F) (mark : String) (ts : List Token) (x : Prog F α) : Prog F α := fun w => match x w with
  | some (.error p, w) => some (.error (placed (S.site mark) ts p), w)
  | o => o

/-! ### Literals -/

def intLit (lit : Str) : Except (QPanic F) (QVal F) := match ParseInt lit with
  | .ok (.ok n) => .ok (.int n)
  | .ok (.error e) => .error (.user (.str (.arg (str "pushi") (.num e))))
  | .panic => .error .slice

def floatLit (H : Host F) (lit : Str) : Except (QPanic F) (QVal F) := match ParseFloat H.fl.lits lit with
  | .ok (.ok x) => .ok (.float x)
  | .ok (.error e) => .error (.user (.str (.arg (str "pushf") e)))
  | .panic => .error .slice

def stringLit (H : Host F) (lit : Str) : Except (QPanic F) (QVal F) := match H.unquote lit with
  | some s => .ok (.str s)
  | none => .error (failMsg (str "invalid string"))

def charLit (H : Host F) (lit : Str) : Except (QPanic F) (QVal F) :=
  match H.unquoteChar ((lit.drop 1).take (lit.length - 2)) with
  | some (c, false, []) => .ok (.byte c.toUInt8)
  | some _ => .error (failMsg (str "invalid char: " ++ lit))
  | none => .error (failMsg (str "invalid char"))

/-! ### Variables -/

def Frame.set (f : Frame F) (x : Str) (v : QVal F) : Frame F := { f with vars := fun y => if y = x then some v else f.vars y }
def Frame.get (f : Frame F) (x : Str) : QVal F := (f.vars x).getD .nil

/-- The nearest of these functions that has the name. -/
def World.owner (w : World F) (x : Str) (chain : List Nat) : Option Nat := chain.find? fun t => ((w.frames t).vars x).isSome

def enclosing (p : Nat) (x : Str) : Prog F (Option Nat) := fun w => some (.ok (w.owner x (w.frames p).parents), w)

/-- A name of the library. -/
def symbol (H : Host F) (x : Str) : Prog F (QVal F) :=
  match (builtinTable x).or (H.table x) with
  | some v => pure v
  | none => raise (failMsg (str "symbol not found: " ++ x))

/-- The value of a name in function `p`.  A name that an enclosing function has, and that does
not begin with `_`, stands for its variable from now on. -/
def readVar (H : Host F) (p : Nat) (x : Str) : Prog F (QVal F) := do
  if x = str "unset" then pure (.unset p)
  else match (← frame p).vars x with
    | some (.extern e) => do pure ((← frame e).get x)
    | some v => pure v
    | none =>
      match x with
      | [] => raise .slice
      | 95 :: _ => symbol H x
      | _ => do
        match ← enclosing p x with
        | none => symbol H x
        | some t =>
          match (← frame t).get x with
          | .extern e => do
            let v := (← frame e).get x
            change p fun f => f.set x (.extern e)
            pure v
          | v => do
            change p fun f => f.set x (.extern t)
            pure v

/-- The frame whose variable an assignment to `x` in function `p` changes. -/
def target (p : Nat) (x : Str) : Prog F Nat := do
  match (← frame p).vars x with
  | some (.extern e) => pure e
  | some _ => pure p
  | none =>
    match x with
    | [] => raise .slice
    | 95 :: _ => pure p
    | _ => do
      match ← enclosing p x with
      | none => pure p
      | some _ => raise (failMsg (str "variable exists in extern function: " ++ x))

def assignVar (p : Nat) (x : Str) (v : QVal F) : Prog F Unit := do
  let t ← target p x
  change t fun f => f.set x v

/-- The variable that `x++` and `x += v` change, and its value. -/
def current (p : Nat) (x : Str) : Prog F (Nat × QVal F) := do
  match (← frame p).vars x with
  | some (.extern e) => do pure (e, (← frame e).get x)
  | some v => pure (p, v)
  | none => raise (failMsg (str "variable not found: " ++ x))

/-- Replace the value of a variable. -/
def modifyVar (p : Nat) (x : Str) (g : QVal F → Except (QPanic F) (QVal F)) : Prog F (QVal F) := do
  let (t, v) ← current p x
  let v ← ofE (g v)
  change t fun f => f.set x v
  pure v

def assignAll_ (p : Nat) : List (Str × QVal F) → Prog F Unit
  | [] => pure ()
  | (x, v) :: more => do
    assignVar p x v
    assignAll_ p more

/-- `x, y, ... = v` -/
def assignMany (p : Nat) (xs : List Str) (v : QVal F) : Prog F (QVal F) := do
  match v with
  | .slice s =>
    if xs.length ≠ s.len then raise (failErr (.multi s.len xs.length))
    else do
      assignAll_ p (xs.zip ((← theHeap).elems s))
      pure v
  | _ => raise (failErr .notSlice)

/-! ### Values -/

/-- A slice of new values. -/
def sliceOf (H : Host F) (vs : List (QVal F)) : HM F Sl := do
  let s ← makeSlice H.fl .var 0 vs.length
  appendRaw H.fl s vs

/-- `v.x` -/
def getMember (H : Host F) (v : QVal F) (x : Str) : Prog F (QVal F) := do
  match v with
  | .obj a fns =>
    match (← theHeap).objs a x with
    | some w => pure w
    | none => match fns.lookup x with
      | some (_, f) => do pure (.method (← newAddr) (.obj a fns) f)
      | none => raise (failErr (.noMember x))
  | .cls _ fns => match fns.lookup x with
    | some (a, f) => pure (.fn a f)
    | none => raise (failErr (.noMember x))
  | .map k _ a =>
    if k = .string ∨ k = .var then match findKey H.fl (.str x) ((← theHeap).maps a) with
      | some w => pure w
      | none => raise (failErr (.noMember x))
    else raise reflectMsg
  | v => do ofE (H.member (← theHeap) v x)

/-! ### Calls of Go functions -/

/-- An argument for a parameter of type `t`: nil only if the type has it; numbers become
`float64`. -/
def pass (H : Host F) (t : GoTy) (v : QVal F) : Except (QPanic F) (QVal F) :=
  if t.kind = 20 ∨ t.kind = 22 then .ok v
  else match v.ty with
    | none => .error valueErr
    | some _ =>
      let ty := (qrefl H.fl).ty v
      if ty = t then .ok v
      else if t = GoTy.float64 ∧ 2 ≤ ty.kind ∧ ty.kind ≤ 13 then .ok ((qrefl H.fl).toFloat v)
      else .error (failErr (.call (.type_ t ty)))

def passAll (H : Host F) : List GoTy → List (QVal F) → Except (QPanic F) (List (QVal F))
  | t :: ts, v :: vs => do
    let v ← pass H t v
    let vs ← passAll H ts vs
    pure (v :: vs)
  | _, _ => .ok []

/-- All arguments; those for the variadic parameter are looked at first. -/
def passArgs (H : Host F) (ins : List GoTy) (rest : Option GoTy) (args : List (QVal F)) : Except (QPanic F) (List (QVal F)) := do
  let n := ins.length
  let ws ← match rest with
    | none => pure []
    | some t => passAll H (List.replicate (args.length - n) t) (args.drop n)
  let vs ← passAll H ins (args.take n)
  if ((vs ++ ws).zip (ins ++ List.replicate (args.length - n) (rest.getD anyTy))).all fun (v, t) => (qrefl H.fl).assignable v t then pure (vs ++ ws)
  else .error reflectMsg

/-- The value of a call, from the results. -/
def results (H : Host F) : List (QVal F) → HM F (QVal F)
  | [] => pure .nil
  | [v] => pure v
  | vs => do pure (.slice (← sliceOf H vs))

def callGo (H : Host F) (fn : HostFn F) (args : List (QVal F)) : Prog F (QVal F) := do
  match fn.rest with
  | none => if args.length ≠ fn.ins.length then raise (failErr (.call (.count fn.ins.length args.length)))
  | some _ => if args.length < fn.ins.length then raise (failErr (.call .notEnough))
  let args ← ofE (passArgs H fn.ins fn.rest args)
  onHeap do results H (← fn.body args)

/-- Functions of one, two, three parameters and of any number. -/
def go1 (f : QVal F → HM F (QVal F)) : HostFn F := ⟨[anyTy], none, fun
  | [a] => do pure [← f a]
  | _ => HM.throw reflectMsg⟩
def go2 (f : QVal F → QVal F → HM F (QVal F)) : HostFn F := ⟨[anyTy, anyTy], none, fun
  | [a, b] => do pure [← f a b]
  | _ => HM.throw reflectMsg⟩
def go3 (f : QVal F → QVal F → QVal F → HM F (QVal F)) : HostFn F := ⟨[anyTy, anyTy, anyTy], none, fun
  | [a, b, c] => do pure [← f a b c]
  | _ => HM.throw reflectMsg⟩
def goN (f : List (QVal F) → HM F (QVal F)) : HostFn F := ⟨[], some anyTy, fun vs => do pure [← f vs]⟩

/-- Package builtin. -/
def builtin (M : Fl F) (name : Str) : Option (HostFn F) :=
  if name = str "append" then some ⟨[anyTy], some anyTy, fun
    | a :: vs => do pure [← Append M a vs]
    | _ => HM.throw reflectMsg⟩
  else if name = str "delete" then some ⟨[anyTy, anyTy], none, fun
    | [m, k] => do Delete M m k; pure []
    | _ => HM.throw reflectMsg⟩
  else if name = str "get" then some (go2 fun m k => do HM.lift (Get M (← HM.get) m k))
  else if name = str "len" then some (go1 fun a => do pure (.int (← HM.lift (Len (← HM.get) a))))
  else if name = str "cap" then some (go1 fun a => do pure (.int (← HM.lift (Cap a))))
  else if name = str "mkmap" then some ⟨[anyTy], some GoTy.int, fun
    | t :: _ => do pure [← Mkmap t]
    | _ => HM.throw reflectMsg⟩
  else if name = str "mapFrom" then some (goN fun vs => MapFrom M vs)
  else if name = str "mapOf" then some (go2 fun k v => HM.lift (MapOf k v))
  else if name = str "panic" then some ⟨[anyTy], none, fun
    | [v] => HM.throw (panicOf v)
    | _ => HM.throw reflectMsg⟩
  else if name = str "set" then some ⟨[anyTy], some anyTy, fun
    | m :: vs => do Set M m vs; pure []
    | _ => HM.throw reflectMsg⟩
  else if name = str "slice" then some ⟨[anyTy], some anyTy, fun
    | t :: vs => do pure [← MakeSlice M t vs]
    | _ => HM.throw reflectMsg⟩
  else if name = str "sliceFrom" then some (goN fun vs => SliceFrom M vs)
  else if name = str "sliceOf" then some (go1 fun t => HM.lift (SliceOf t))
  else if name = str "string" then some (go1 fun a => do HM.lift (ToString (← HM.get) a))
  else if name = str "sub" then some (go3 fun a i j => do HM.lift (SubSlice (← HM.get) a i j))
  else if name = str "type" then some (go1 fun a => pure (match a.ty with
    | some t => .type t
    | none => .nil))
  else if name = str "float" then some (go1 fun a => HM.lift (ToFloat M a))
  else if name = str "int" then some (go1 fun a => HM.lift (ToInt M a))
  else if name = str "byte" then some (go1 fun a => HM.lift (ToByte M a))
  else if name = str "max" then some (goN fun vs => HM.lift (Max M vs))
  else if name = str "min" then some (goN fun vs => HM.lift (Min M vs))
  else none

/-! ### Calls of functions of the program -/

/-- Running the body of a function, or a deferred expression, in a frame. `lost` is for a deferred
value that is no piece of program: no statement of a program makes one. -/
structure Runs (F : Type) where
  body : List Token → Nat → Prog F (QVal F)
  expr : List Token → Nat → Prog F (QVal F)
  lost : Prog F Unit

def exit_ (n : Int) : Prog F α := raise (.user (.other (.exit n)))

/-- The variables a call begins with: the parameters have the arguments (of two with the same
name the last one counts); the last one of a variadic function has a slice of the others. -/
def bindTo (H : Host F) (f : Fun) (args : List (QVal F)) : Prog F (Str → Option (QVal F)) :=
  if f.variadic then
    match f.args.getLast? with
    | none => raise .slice
    | some last => do
      let n := f.args.length - 1
      let s ← onHeap (sliceOf H (args.drop n))
      pure fun x => if x = last then some (.slice s) else lastOf x ((f.args.take n).zip args)
  else pure fun x => lastOf x (f.args.zip args)

/-- A new frame. -/
def enter (f : Fun) (vars : Str → Option (QVal F)) : Prog F Nat := fun w =>
  some (.ok w.count, { w with
    frames := fun i => if i = w.count then ⟨vars, .nil, none, f.parent :: (w.frames f.parent).parents, []⟩ else w.frames i
    count := w.count + 1 })

def deferredOnes (R : Runs F) (p : Nat) : List (QVal F) → Prog F Unit
  | [] => pure ()
  | .code ts :: more => do
    let _ ← R.expr ts p
    deferredOnes R p more
  | _ :: _ => R.lost

/-- The deferred expressions of a function, the newest first. -/
def runDefers (R : Runs F) (p : Nat) : Prog F Unit := do
  deferredOnes R p (← frame p).defers
  change p fun f => { f with defers := [] }

/-- The panic of `return`. -/
def returning : QPanic F := .user (.runtime .nil [] (.err .return_))

/-- What a panic in the body means: `os.Exit` ends everything, `return` ends the body. -/
inductive Leaves (F : Type) where
  | exit (n : Int) | normal | panic (p : QPanic F)

def leaves : Except (QPanic F) (QVal F) → Leaves F
  | .ok _ => .normal
  | .error (.user (.other (.exit n))) => .exit n
  | .error (.user (.runtime _ _ (.err .return_))) => .normal
  | .error p => .panic p

/-- The end of a call: the deferred expressions run; a panic that they have not recovered goes
on; otherwise the value is what `return` said. -/
def finish (R : Runs F) (c : Nat) (e : Option (QPanic F)) : Prog F (QVal F) := do
  change c fun f => { f with recov := e }
  runDefers R c
  match (← frame c).recov with
  | some p => raise p
  | none => do pure (← frame c).ret

/-- Call a function: new variables; the body; the deferred expressions, also after a panic. -/
def apply (H : Host F) (R : Runs F) (f : Fun) (args : List (QVal F)) : Prog F (QVal F) :=
  if (if f.variadic then f.args.length ≤ args.length + 1 else args.length = f.args.length) then
    match f.body with
    | none => pure .nil
    | some body => do
      let vars ← bindTo H f args
      let c ← enter f vars
      match leaves (← try_ (R.body body c)) with
      | .exit n => exit_ n
      | .normal => finish R c none
      | .panic p => finish R c (some p)
  else raise (failMsg (str "function requires other number of arguments"))

/-- Call a value. -/
def callValue (H : Host F) (R : Runs F) (v : QVal F) (args : List (QVal F)) : Prog F (QVal F) :=
  match v with
  | .gofn name _ => match (builtin H.fl name).or (H.fns name) with
    | some fn => callGo H fn args
    | none => raise valueErr
  | .unset p => match args with
    | [.str x] => do
      change p fun f => { f with vars := fun y => if y = x then none else f.vars y }
      pure .nil
    | [v] => do
      let _ ← ofE (pass H ⟨24, 24⟩ v)
      raise reflectMsg
    | _ => raise (failErr (.call (.count 1 args.length)))
  | .fn _ f => apply H R f args
  | .method _ this f => apply H R f (this :: args)
  | _ => raise valueErr

/-- `f(..., s...)`: the elements of the last argument are arguments. -/
def spread (args : List (QVal F)) : Prog F (List (QVal F)) := do
  match args.getLast? with
  | none => raise (failMsg (str "what do you mean of `...`?"))
  | some (.slice s) => do pure (args.dropLast ++ (← theHeap).elems s)
  | some _ => raise (failMsg (str "apply `...` on non-slice object"))

/-- `return v` in function `p`; in the program itself it ends the process. -/
def returnFrom (R : Runs F) (p : Nat) (v : QVal F) : Prog F (QVal F) := do
  change p fun f => { f with ret := v }
  if (← frame p).parents ≠ [] then raise returning
  else do
    runDefers R p
    match (← frame p).ret with
    | .nil => exit_ 0
    | .int n => exit_ n
    | _ => raise (failMsg (str "must return `int` for main function"))

/-- `recover()` gives the panic of the enclosing function, and ends it. -/
def recovers (p : Nat) : Prog F (QVal F) := do
  match (← frame p).parents with
  | [] => pure .nil
  | q :: _ => do
    let e := (← frame q).recov
    change q fun f => { f with recov := none }
    pure (match e with
      | none => .nil
      | some (.user (.str (.text s))) => .str s
      | some (.user (.other (.val v))) => v
      | some e => .fault e)

/-- `main { ... }` -/
def runMain (H : Host F) (R : Runs F) (p : Nat) (body : Option (List Token)) : Prog F (QVal F) := do
  match ← apply H R ⟨[], body, p, false⟩ [] with
  | .nil => exit_ 0
  | .int n => exit_ n
  | _ => raise (failErr .conversion)

/-! ### Classes -/

def makeMethods (p : Nat) : List (Str × Fun) → List (Str × Nat × Fun) → Prog F (List (Str × Nat × Fun))
  | [], fns => pure fns
  | (x, f) :: more, fns => do
    let a ← newAddr
    makeMethods p more ((x, a, { f with args := str "this" :: f.args, parent := p }) :: fns)

/-- `class { ... }` in function `p`; of methods with the same name the last one counts. -/
def makeClass (p : Nat) (ms : List (Str × Fun)) : Prog F (QVal F) := do
  let a ← newAddr
  pure (.cls a (← makeMethods p ms []))

/-- `new c(args)` -/
def makeObject (H : Host F) (R : Runs F) (c : QVal F) (args : List (QVal F)) : Prog F (QVal F) := do
  match c with
  | .cls _ fns => do
    let a ← newAddr
    onHeap (HM.setObj a fun _ => none)
    match fns.lookup (str "_init") with
    | some (_, f) => do
      let _ ← apply H R f (.obj a fns :: args)
      pure (.obj a fns)
    | none => pure (.obj a fns)
  | _ => raise (failErr .notClass)

/-! ### Control -/

/-- `for ; cond; step { body }`, at most `n` rounds. -/
def rounds (cond step : Option (Prog F (QVal F))) (body : Prog F (QVal F)) : Nat → Prog F (QVal F)
  | 0 => fun _ => none
  | n + 1 => do
    let go ← match cond with
      | none => pure true
      | some c => do
        match ← c with
        | .bool b => pure b
        | _ => raise (failMsg (str "for loop condition isn't a boolean expression"))
    if go then do
      let _ ← body
      match step with
      | none => pure ()
      | some s => do let _ ← s
      rounds cond step body n
    else pure .nil

/-! ### Trees -/

/-- The names of a list. -/
def nameLits : Names → List Str
  | [] => []
  | (_, x) :: more => x.tok.lit :: nameLits more

def paramLits : Option (Tk IDENT × Names) → List Str
  | none => []
  | some (x, more) => x.tok.lit :: nameLits more

def BOp.fn (M : Fl F) {l : Nat} : BOp l → QVal F → QVal F → Except (QPanic F) (QVal F)
  | .mul => Mul M | .quo => Quo M | .mod => Mod
  | .add => Add M | .sub => Sub M
  | .lt => Qlang.LT M | .gt => Qlang.GT M | .eq => Qlang.EQ M | .le => Qlang.LE M | .ge => Qlang.GE M | .ne => Qlang.NE M

def AOp.fn (M : Fl F) : AOp → QVal F → QVal F → Except (QPanic F) (QVal F)
  | .add => Add M | .sub => Sub M | .mul => Mul M | .quo => Quo M | .mod => Mod

/-- What the trees of a sort are. -/
def Den (F : Type) : Cat → Type
  | .term _ => Prog F (QVal F)
  -- from the value of what stands in front
  | .tail _ => QVal F → Prog F (QVal F)
  | .prim => Prog F (QVal F)
  | .atom => QVal F → Prog F (QVal F)
  | .atoms => QVal F → Prog F (QVal F)
  | .optExpr => Option (Prog F (QVal F))
  | .args => Prog F (List (QVal F))
  | .moreArgs => Prog F (List (QVal F))
  | .pairs => Prog F (List (QVal F))
  | .morePairs => Prog F (List (QVal F))
  | .stmt => Prog F (QVal F)
  | .doc => Prog F (QVal F)
  | .docTail => QVal F → Prog F (QVal F)
  | .optDoc => Prog F (QVal F)
  -- from what is done if no condition holds
  | .elifs => Prog F (QVal F) → Prog F (QVal F)
  | .else_ => Prog F (QVal F)
  -- from the value to compare with, and what is done otherwise
  | .cases => QVal F → Prog F (QVal F) → Prog F (QVal F)
  | .default => Prog F (QVal F)
  | .parts => List (Prog F (QVal F))
  | .moreParts => List (Prog F (QVal F))
  | .fnBody => Fun
  | .methods => Prog F (List (Str × Fun))
  | .clsName => Prog F (QVal F)
  | .newArgs => Option (Prog F (List (QVal F)))

def condition_ (c : QVal F) (yes no : Prog F (QVal F)) : Prog F (QVal F) := match c with
  | .bool true => yes
  | .bool false => no
  | _ => raise (failErr .condNotBool)

/-- The tokens of a body, if there is one. -/
def bodyOf (ts : List Token) : Option (List Token) := if ts = [] then none else some ts

def optVal : Option (Prog F (QVal F)) → Prog F (QVal F)
  | some x => x
  | none => pure .nil

/-- What a tree means in function `p`; loops have at most `n` rounds. -/
def Tm.den (S : Setup F) (R : Runs F) (n p : Nat) : {c : Cat} → Tm c → Den F c
  -- expressions
  | _, .chain _ a b => do b.den S R n p (← a.den S R n p)
  | _, .noOp => fun v => pure v
  | .tail _, .bin o _ b more => fun v => do
    let w ← b.den S R n p
    more.den S R n p (← S.at o.mark b.toks (ofE (o.fn S.host.fl v w)))
  | _, .and _ b more => fun v => do
    more.den S R n p (← S.at "and" b.toks (match v with
      | .bool true => b.den S R n p
      | .bool false => pure (.bool false)
      | _ => raise (failMsg (str "left operand of && operator isn't a boolean expression"))))
  | _, .or _ b more => fun v => do
    more.den S R n p (← S.at "or" b.toks (match v with
      | .bool true => pure (.bool true)
      | .bool false => b.den S R n p
      | _ => raise (failMsg (str "left operand of || operator isn't a boolean expression"))))
  -- factors
  | _, .int t => S.at "pushi" [t.tok] (ofE (intLit t.tok.lit))
  | _, .float t => S.at "pushf" [t.tok] (ofE (floatLit S.host t.tok.lit))
  | _, .string t => S.at "pushs" [t.tok] (ofE (stringLit S.host t.tok.lit))
  | _, .char t => S.at "pushc" [t.tok] (ofE (charLit S.host t.tok.lit))
  | _, .post e ops => do ops.den S R n p (← e.den S R n p)
  | _, .if_ _ c _ b _ es el => S.at "if" el.toks do
    condition_ (← c.den S R n p) (b.den S R n p) (es.den S R n p (el.den S R n p))
  | _, .switch _ on _ cs d rb => S.at "switch" [rb.tok] do
    let v ← match on.den S R n p with
      | none => pure (.bool true)
      | some e => e
    cs.den S R n p v (d.den S R n p)
  | _, .for_ _ ps _ b rb => S.at "for" [rb.tok] (match ps.den S R n p with
    | [] => rounds none none (b.den S R n p) n
    | [cond] => rounds (some cond) none (b.den S R n p) n
    | [init, cond, step] => do
      let _ ← init
      rounds (some cond) (some step) (b.den S R n p) n
    | _ => raise (failErr .forForm))
  | _, .new _ c as => do
    let c ← c.den S R n p
    let args ← match as.den S R n p with
      | none => pure []
      | some vs => vs
    S.at "new" as.toks (makeObject S.host R c args)
  | _, .class_ _ _ ms rb => do
    let ms ← ms.den S R n p
    S.at "class" [rb.tok] (makeClass p ms)
  | _, .recover _ _ rp => S.at "recover" [rp.tok] (recovers p)
  | _, .main _ _ b rb => S.at "main" [rb.tok] (runMain S.host R p (bodyOf b.toks))
  | _, .map _ ps _ rb => do
    let vs ← ps.den S R n p
    S.at "map" [rb.tok] (onHeap (MapFrom S.host.fl vs))
  | _, .not _ e => do
    let v ← e.den S R n p
    S.at "not" e.toks (ofE (Not v))
  | _, .neg _ e => do
    let v ← e.den S R n p
    S.at "neg" e.toks (ofE (Neg S.host.fl v))
  | _, .pos _ e => e.den S R n p
  -- what operations can be appended to
  | _, .name x => S.at "ref" [x.tok] (readVar S.host p x.tok.lit)
  | _, .paren _ e _ => e.den S R n p
  | _, .fn _ f => S.at "fn" f.toks do pure (.fn (← newAddr) (f.den S R n p))
  | _, .slice _ es _ rb => do
    let vs ← es.den S R n p
    S.at "slice" [rb.tok] (onHeap (SliceFrom S.host.fl vs))
  | _, .noAtom => fun v => pure v
  | _, .atom a more => fun v => do more.den S R n p (← a.den S R n p v)
  | _, .call _ as s _ rp => fun v => do
    let args ← as.den S R n p
    S.at "call" [rp.tok] do
      callValue S.host R v (← if s.isSome then spread args else pure args)
  | _, .member _ x _ => fun v => S.at "mref" [x] (getMember S.host v x.lit)
  | _, .index _ i rb => fun v => do
    let i ← i.den S R n p
    S.at "index" [rb.tok] do ofE (Get S.host.fl (← theHeap) v i)
  | _, .range _ i _ j rb => fun v => do
    let i ← optVal (i.den S R n p)
    let j ← optVal (j.den S R n p)
    S.at "index" [rb.tok] do ofE (SubSlice (← theHeap) v i j)
  | _, .noIndex _ rb => fun _ => S.at "index" [rb.tok] (raise (failMsg (str "call operator[] without index")))
  | _, .index2 _ i j rb => fun v => do
    let i ← i.den S R n p
    let _ ← j.den S R n p
    S.at "index" [rb.tok] do ofE (Get S.host.fl (← theHeap) v i)
  -- lists
  | _, .noExpr => none
  | _, .expr e => some (e.den S R n p)
  | _, .noArgs => (pure [] : Prog F (List (QVal F)))
  | _, .args e more => do
    let v ← e.den S R n p
    let vs ← more.den S R n p
    pure (v :: vs)
  | _, .lastArg => (pure [] : Prog F (List (QVal F)))
  | _, .moreArgs _ e more => do
    let v ← e.den S R n p
    let vs ← more.den S R n p
    pure (v :: vs)
  | _, .noPairs => (pure [] : Prog F (List (QVal F)))
  | _, .pairs k _ v more => do
    let k ← k.den S R n p
    let v ← v.den S R n p
    let vs ← more.den S R n p
    pure (k :: v :: vs)
  | _, .lastPair => (pure [] : Prog F (List (QVal F)))
  | _, .morePairs _ k _ v more => do
    let k ← k.den S R n p
    let v ← v.den S R n p
    let vs ← more.den S R n p
    pure (k :: v :: vs)
  -- statements
  | _, .assign x op e => do
    let v ← e.den S R n p
    S.at "assign" (x.tok :: op.tok :: e.toks) do
      assignVar p x.tok.lit v
      pure v
  | _, .multi x _ y more _ e => do
    let v ← e.den S R n p
    S.at "massign" e.toks (assignMany p (x.tok.lit :: y.tok.lit :: nameLits more) v)
  | _, .inc x op => S.at "inc" [x.tok, op.tok] (modifyVar p x.tok.lit Inc)
  | _, .dec x op => S.at "dec" [x.tok, op.tok] (modifyVar p x.tok.lit Dec)
  | _, .opAssign o x op e => do
    let v ← e.den S R n p
    S.at o.mark (x.tok :: op.tok :: e.toks) (modifyVar p x.tok.lit fun old => o.fn S.host.fl old v)
  | _, .return_ _ e => do
    let v ← optVal (e.den S R n p)
    S.at "return" e.toks (returnFrom R p v)
  | _, .defer _ e => do
    change p fun f => { f with defers := .code e.toks :: f.defers }
    pure .nil
  | _, .eval e => e.den S R n p
  | _, .doc s more => do more.den S R n p (← s.den S R n p)
  | _, .endDoc => fun v => pure v
  | _, .next _ s more => fun _ => do more.den S R n p (← s.den S R n p)
  | _, .semi _ more => fun _ => more.den S R n p .nil
  | _, .noDoc => (pure .nil : Prog F (QVal F))
  | _, .someDoc d => d.den S R n p
  -- control
  | _, .noElif => fun els => els
  | _, .elif _ c _ b _ more => fun els => do
    condition_ (← c.den S R n p) (b.den S R n p) (more.den S R n p els)
  | _, .noElse => (pure .nil : Prog F (QVal F))
  | _, .else_ _ _ b _ => b.den S R n p
  | _, .noCase => fun _ dflt => dflt
  | _, .case _ e _ b more => fun v dflt => do
    match ← ofE (Qlang.EQ S.host.fl v (← e.den S R n p)) with
    | .bool true => b.den S R n p
    | _ => more.den S R n p v dflt
  | _, .noDefault => (pure .nil : Prog F (QVal F))
  | _, .default _ _ b => b.den S R n p
  | _, .noParts => ([] : List (Prog F (QVal F)))
  | _, .parts s more => s.den S R n p :: more.den S R n p
  | _, .lastPart => ([] : List (Prog F (QVal F)))
  | _, .moreParts _ s more => s.den S R n p :: more.den S R n p
  -- functions and classes
  | _, .fnBody _ ps s _ _ b _ => (⟨paramLits ps, bodyOf b.toks, p, s.isSome⟩ : Fun)
  | _, .noMethod => (pure [] : Prog F (List (Str × Fun)))
  | _, .method _ x f _ more => do
    let _ ← newAddr
    let ms ← more.den S R n p
    pure ((x.tok.lit, f.den S R n p) :: ms)
  | _, .clsName x => S.at "ref" [x.tok] (readVar S.host p x.tok.lit)
  | _, .clsParen _ x _ => S.at "ref" [x.tok] (readVar S.host p x.tok.lit)
  | _, .noNewArgs => none
  | _, .newArgs _ as _ => some (as.den S R n p)

/-- Function bodies and deferred expressions, calls nested at most `n` deep. -/
def runs (S : Setup F) : Nat → Runs F
  | 0 => ⟨fun _ _ _ => none, fun _ _ _ => none, fun _ => none⟩
  | n + 1 => ⟨fun ts p => match S.doc ts with
      | some d => d.den S (runs S n) n p
      | none => fun _ => none,
    fun ts p => match S.expr ts with
      | some e => e.den S (runs S n) n p
      | none => fun _ => none, fun _ => none⟩

/-- What a program does. -/
def Tm.does (S : Setup F) (n : Nat) (d : Tm .doc) : Prog F (QVal F) := d.den S (runs S n) n 0

/-- The same, but a piece of program that cannot be read ends everything with the exit code `j`.
(`runs` has no result then.) What has no result now has none because `n` is too small. -/
def runsOr (S : Setup F) (j : Int) : Nat → Runs F
  | 0 => ⟨fun _ _ _ => none, fun _ _ _ => none, exit_ j⟩
  | n + 1 => ⟨fun ts p => match S.doc ts with
      | some d => d.den S (runsOr S j n) n p
      | none => exit_ j,
    fun ts p => match S.expr ts with
      | some e => e.den S (runsOr S j n) n p
      | none => exit_ j, exit_ j⟩

def Tm.doesOr (S : Setup F) (j : Int) (n : Nat) (d : Tm .doc) : Prog F (QVal F) := d.den S (runsOr S j n) n 0

end Tpl.Qlang.Src
