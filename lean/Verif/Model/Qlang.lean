import Verif.Model.Builtin

/-
Model of tpl/qlang/cl (qlang.go, function.go, ctrl.go, class.go), of the table of
tpl/qlang/lib/builtin/exports.go and of tpl/qlang/engine.go: the interpreter of qlang as
a client of the engine.

Conventions and simplifications:
* An `*Interpreter` is an address into `QState.scopes`.  All of them share one stack.  The
  chain `p.parent`, `p.parent.parent`, ... never changes: it is kept as the list `parents`.
* The variables of an interpreter are a function from names.  The map itself is named by
  the address of the interpreter it belongs to.
* The stack is a list, bottom first.  Setting the frame above the top (`(*stk)[:n]` with
  `n > len`, which would bring old elements back) is a panic here.
* `os.Exit` is a panic that is never recovered; that the engine's deferred functions set
  their fields afterwards does not matter.
* The engine that functions remember (`Function.engine`) is always the one they run in.
* `strconv.Unquote` and `UnquoteChar`, members of host values (class.go:206-228) and the
  functions of the host are parameters (`Lib`).
* `castVal` (qlang.go:139-157) changes a result only if the function declares it of a numeric
  type other than int and float64.  Those of package builtin declare `interface{}`; functions
  of the host are taken with the conversion.
-/
namespace Tpl.Qlang
variable {F : Type}

/-- `Interpreter` (qlang.go:283-291). -/
structure Scope (F : Type) where
  vars : Str → Option (QVal F)
  ret : QVal F
  recov : Option (QPanic F)
  parents : List Nat
  /-- newest first -/
  defers : List (QVal F)
  base : Nat

/-- The interpreters, the stack and the heap. -/
structure QState (F : Type) where
  stk : List (QVal F)
  scopes : Nat → Scope F
  nscopes : Nat
  heap : Heap F

/-- `New` (qlang.go:293-298): the interpreter at address 0. -/
def QState.new : QState F :=
  ⟨[], fun _ => ⟨fun _ => none, .nil, none, [], [], 0⟩, 1, Heap.empty⟩

abbrev QEng (F : Type) := Eng Nat (QState F)
abbrev QM (F : Type) := Go Str (QEng F) (IPanic QErr (QX (QVal F)))

/-- What is left open. -/
structure Lib (F : Type) where
  fl : Fl F
  unquote : Str → Option Str
  /-- value, multibyte, tail -/
  unquoteChar : Str → Option (Nat × Bool × Str)
  /-- symbols of `Fntable` that are not of package builtin -/
  table : Str → Option (QVal F)
  /-- the functions among them -/
  fns : Str → Option (GoFn (QM F) (QVal F))
  /-- members of host values -/
  member : Heap F → QVal F → Str → Except (QPanic F) (QVal F)

/-! ### State -/

def getQ : QM F (QState F) := do pure (← Go.get).u

def modQ (f : QState F → QState F) : QM F Unit := Go.modify fun s => { s with u := f s.u }

def throwQ {α : Type} (p : QPanic F) : QM F α := Go.panic p

def liftE {α : Type} : Except (QPanic F) α → QM F α
  | .ok a => pure a
  | .error p => throwQ p

/-- Code on the heap. -/
def liftH {α : Type} (x : HM F α) : QM F α := do
  let s ← getQ
  let r := x s.heap
  modQ fun s => { s with heap := r.2 }
  liftE r.1

def QState.setScope (s : QState F) (p : Nat) (c : Scope F) : QState F :=
  { s with scopes := fun i => if i = p then c else s.scopes i }

def QState.modScope (s : QState F) (p : Nat) (f : Scope F → Scope F) : QState F := s.setScope p (f (s.scopes p))

def modScope (p : Nat) (f : Scope F → Scope F) : QM F Unit := modQ fun s => s.modScope p f

/-- `vars[name] = v` -/
def Scope.put (c : Scope F) (name : Str) (v : QVal F) : Scope F :=
  { c with vars := fun n => if n = name then some v else c.vars n }

def setVar (p : Nat) (name : Str) (v : QVal F) : QM F Unit := modScope p fun c => c.put name v

/-! ### Stack (qlang.go:85-234, function.go:26-39) -/

/-- `Push` (qlang.go:93-96). -/
def push (v : QVal F) : QM F Unit := modQ fun s => { s with stk := s.stk ++ [v] }

/-- `Pop` (qlang.go:129-137). -/
def pop : QM F (Option (QVal F)) := do
  match (← getQ).stk.getLast? with
  | none => pure none
  | some v => do
    modQ fun s => { s with stk := s.stk.dropLast }
    pure (some v)

/-- `v, _ := stk.Pop()` -/
def pop_ : QM F (QVal F) := do pure ((← pop).getD .nil)

/-- `PushByte` (qlang.go:108-118). -/
def pushByte (L : Lib F) (lit : Str) : QM F Unit :=
  match L.unquoteChar ((lit.drop 1).take (lit.length - 2)) with
  | none => throwQ (failMsg (str "invalid char"))
  | some (v, multibyte, tail) =>
    if tail ≠ [] ∨ multibyte then throwQ (failMsg (str "invalid char: " ++ lit)) else push (.byte v.toUInt8)

/-- `PushString` (qlang.go:120-127). -/
def pushString (L : Lib F) (lit : Str) : QM F Unit :=
  match L.unquote lit with
  | none => throwQ (failMsg (str "invalid string"))
  | some v => push (.str v)

/-- `PushRet` (qlang.go:159-174). -/
def pushRet (M : Fl F) (ret : List (QVal F)) : QM F (Option QErr) := do
  match ret with
  | [] => push .nil
  | [v] => push v
  | vs => do push (.slice (← liftH (do
      let s ← makeSlice M .var 0 vs.length
      appendRaw M s vs)))
  pure none

/-- `PopArgs` (qlang.go:176-189). -/
def popArgs (arity : Nat) : QM F (Option (List (Option (QVal F)))) := do
  let stk := (← getQ).stk
  if stk.length ≥ arity then do
    modQ fun s => { s with stk := stk.take (stk.length - arity) }
    pure (some ((stk.drop (stk.length - arity)).map fun
      | .nil => none
      | v => some v))
  else pure none

/-- `popNArgs` (qlang.go:191-205); `make` panics if the arity is negative. -/
def popNArgs (arity : Int) : QM F (List (QVal F)) := do
  let stk := (← getQ).stk
  if arity < 0 then throwQ .slice
  else if stk.length ≥ arity.toNat then do
    modQ fun s => { s with stk := stk.take (stk.length - arity.toNat) }
    pure (stk.drop (stk.length - arity.toNat))
  else throwQ (failMsg (str "unexpected argument count"))

/-- All elements as strings. -/
def asNames : List (QVal F) → Option (List Str)
  | [] => some []
  | .str s :: vs => (asNames vs).map (s :: ·)
  | _ :: _ => none

/-- `popFnArgs` (qlang.go:207-224). -/
def popFnArgs (arity : Int) : QM F (List Str) := do
  let stk := (← getQ).stk
  if arity < 0 then throwQ .slice
  else if stk.length ≥ arity.toNat then do
    match asNames (stk.drop (stk.length - arity.toNat)) with
    | none => throwQ (failMsg (str "function argument isn't a symbol?"))
    | some names => do
      modQ fun s => { s with stk := stk.take (stk.length - arity.toNat) }
      pure names
  else throwQ (failMsg (str "unexpected argument count"))

/-- `popArity` (qlang.go:226-234). -/
def popArity : QM F Int := do
  match ← pop with
  | some (.int n) => pure n
  | _ => throwQ (failMsg (str "no arity"))

/-- `SetFrame` (function.go:31-34). -/
def setFrame (n : Nat) : QM F Unit := do
  if n ≤ (← getQ).stk.length then modQ fun s => { s with stk := s.stk.take n }
  else throwQ .slice

/-- `Interpreter.Clear` (function.go:43-46). -/
def clear (p : Nat) : QM F Unit := do setFrame ((← getQ).scopes p).base

/-- `Index` (qlang.go:251-274). -/
def index (M : Fl F) : QM F Unit := do
  let arity2 ← popArity
  let arg2 ← if arity2 ≠ 0 then pop_ else pure .nil
  let arityMid ← popArity
  let arity1 ← popArity
  let args ← popNArgs (arity1 + 1)
  let h := (← getQ).heap
  let a0 := args.headD .nil
  let a1 := (args.drop 1).headD .nil
  if arityMid = 0 then
    if arity1 = 0 then throwQ (failMsg (str "call operator[] without index"))
    else do push (← liftE (Get M h a0 a1))
  else do push (← liftE (SubSlice h a0 (if arity1 ≠ 0 then a1 else .nil) arg2))

/-! ### Variables (function.go:53-253) -/

/-- `val = vars[name]`, nil if there is none. -/
def Scope.val (c : Scope F) (name : Str) : QVal F := (c.vars name).getD .nil

/-- `getVar` (function.go:75-87). -/
def getVar (p : Nat) (name : Str) : QM F (Nat × QVal F) := do
  let s ← getQ
  match (s.scopes p).vars name with
  | none => throwQ (failMsg (str "variable not found: " ++ name))
  | some (.extern e) => pure (e, (s.scopes e).val name)
  | some v => pure (p, v)

/-- `Inc` and `Dec` (function.go:53-69). -/
def incDec (op : QVal F → QRes F) (p : Nat) (name : Str) : QM F Unit := do
  let (vars, val) ← getVar p name
  let val ← liftE (op val)
  setVar vars name val
  push val

/-- `AddAssign`, `SubAssign`, `MulAssign`, `QuoAssign`, `ModAssign` (function.go:89-152). -/
def opAssign (op : QVal F → QVal F → QRes F) (p : Nat) (name : Str) : QM F Unit := do
  let (vars, val) ← getVar p name
  match ← pop with
  | none => throwQ (failErr .assignWithoutVal)
  | some v => do
    let val ← liftE (op val v)
    setVar vars name val
    push val

/-- `name[0] != '_'`: may the variable be inherited?  `none`: there is no `name[0]`. -/
def inheritable (name : Str) : Option Bool := match name with
  | [] => none
  | c :: _ => some (c != 95)

/-- The first interpreter in the list that has the variable. -/
def QState.owner (s : QState F) (name : Str) (chain : List Nat) : Option Nat :=
  chain.find? fun t => ((s.scopes t).vars name).isSome

/-- `getVars` (function.go:195-213): the variables to assign to. -/
def getVars (p : Nat) (name : Str) : QM F Nat := do
  let s ← getQ
  match (s.scopes p).vars name with
  | some (.extern e) => pure e
  | some _ => pure p
  | none =>
    match inheritable name with
    | none => throwQ .slice
    | some false => pure p
    | some true =>
      match s.owner name (s.scopes p).parents with
      | some _ => throwQ (failMsg (str "variable exists in extern function: " ++ name))
      | none => pure p

/-- `Assign` (function.go:184-193). -/
def assign (p : Nat) (name : Str) : QM F Unit := do
  let vars ← getVars p name
  match ← pop with
  | some v => do
    setVar vars name v
    push v
  | none => throwQ (failErr .assignWithoutVal)

/-- The loop of `MultiAssign` (function.go:174-178). -/
def assignAll (p : Nat) : List (Str × QVal F) → QM F Unit
  | [] => pure ()
  | (name, v) :: more => do
    setVar (← getVars p name) name v
    assignAll p more

/-- `MultiAssign` (function.go:154-182). -/
def multiAssign (p : Nat) : QM F Unit := do
  match ← pop with
  | none => throwQ (failErr .assignWithoutVal)
  | some val =>
    match val with
    | .slice sl => do
      let arity := (← popArity) + 1
      if arity ≠ sl.len then throwQ (failErr (.multi sl.len arity))
      else do
        let names ← popFnArgs arity
        assignAll p (names.zip ((← getQ).heap.elems sl))
        push val
    | _ => throwQ (failErr .notSlice)

/-- Symbols of package builtin (exports.go:13-42); the functions of package fmt are left to
the host. -/
def builtinTable (name : Str) : Option (QVal F) :=
  if name = str "undefined" then some .undefined
  else if name = str "nil" then some .nil
  else if name = str "true" then some (.bool true)
  else if name = str "false" then some (.bool false)
  else if name ∈ [str "panic", str "len", str "cap", str "type", str "float", str "int", str "byte", str "string", str "sliceOf"] then
    some (.gofn name 0)
  else if name ∈ [str "delete", str "get", str "mapOf"] then some (.gofn name 1)
  else if name = str "sub" then some (.gofn name 2)
  else if name ∈ [str "mapFrom", str "sliceFrom", str "max", str "min"] then some (.gofn name 3)
  else if name ∈ [str "append", str "set", str "slice"] then some (.gofn name 4)
  else if name = str "mkmap" then some (.gofn name 5)
  else none

/-- `Fntable[name]`. -/
def Lib.symbol (L : Lib F) (name : Str) : Option (QVal F) := match builtinTable name with
  | some v => some v
  | none => L.table name

/-- `getRef` (function.go:220-253). -/
def getRef (L : Lib F) (p : Nat) (name : Str) : QM F (QVal F) := do
  let global : QM F (QVal F) := match L.symbol name with
    | some v => pure v
    | none => throwQ (failMsg (str "symbol not found: " ++ name))
  if name = str "unset" then pure (.unset p)
  else do
    let s ← getQ
    match (s.scopes p).vars name with
    | some (.extern e) => pure ((s.scopes e).val name)
    | some v => pure v
    | none =>
      match inheritable name with
      | none => throwQ .slice
      | some false => global
      | some true =>
        match s.owner name (s.scopes p).parents with
        | none => global
        | some t =>
          match (s.scopes t).val name with
          | .extern e => do
            setVar p name (.extern e)
            pure ((s.scopes e).val name)
          | v => do
            setVar p name (.extern t)
            pure v

/-- `Ref` (function.go:215-218). -/
def ref (L : Lib F) (p : Nat) (name : Str) : QM F Unit := do push (← getRef L p name)

/-- `Unset` (function.go:48-51). -/
def unset (p : Nat) (name : Str) : QM F Unit :=
  modScope p fun c => { c with vars := fun n => if n = name then none else c.vars n }

/-! ### Evaluating code -/

/-- What `EvalSub` is given. -/
def srcOf : QVal F → SubSrc
  | .code toks => .tokens toks
  | .str s => .text s
  | _ => .other

/-- `panic(err)` for an error of `EvalCode`. -/
def subPanic : SubErr Str → QPanic F
  | .m (.match_ e) => .err e
  | e => failErr (.sub e)

/-- `Engine.EvalCode` with `panic(err)`, as in `ExecDefers` (function.go:304-307). -/
def evalPanic (r : CompileRet Str) (U : Uni) (p : Nat) (name : Str) (code : QVal F) : QM F Unit := do
  match ← Tpl.evalCode r U p name (srcOf code) with
  | none => pure ()
  | some e => throwQ (subPanic e)

/-- `evalCode` (ctrl.go:186-195).  A panic leaves `p.base` as it is. -/
def evalIn (r : CompileRet Str) (U : Uni) (p : Nat) (name : Str) (code : QVal F) : QM F Unit := do
  let s ← getQ
  let old := (s.scopes p).base
  modScope p fun c => { c with base := s.stk.length }
  let err ← Tpl.evalCode r U p name (srcOf code)
  modScope p fun c => { c with base := old }
  match err with
  | none => pure ()
  | some e => throwQ (subPanic e)

/-! ### Functions (function.go:255-421) -/

/-- A new address. -/
def allocQ : QM F Nat := liftH HM.alloc

/-- `Function` (function.go:255-275). -/
def function (p : Nat) : QM F Unit := do
  match ← pop with
  | none => throwQ (failErr .withoutBody)
  | some fnb => do
    let variadic ← popArity
    let arity ← popArity
    let args ← popFnArgs arity
    let body := match fnb with
      | .code toks => some toks
      | _ => none
    push (.fn (← allocQ) ⟨args, body, p, variadic ≠ 0⟩)

/-- `ErrReturn` (function.go:20-22). -/
def errReturn : QPanic F := .user (.runtime .nil [] (.err .return_))

def isReturn : QPanic F → Bool
  | .user (.runtime _ _ (.err .return_)) => true
  | _ => false

/-- `os.Exit(code)` -/
def exit {α : Type} (code : Int) : QM F α := throwQ (.user (.other (.exit code)))

/-- The loop of `ExecDefers` (function.go:304-308). -/
def deferLoop (r : CompileRet Str) (U : Uni) (p : Nat) : List (QVal F) → QM F Unit
  | [] => pure ()
  | d :: ds => do
    evalPanic r U p (str "expr") d
    deferLoop r U p ds

/-- `ExecDefers` (function.go:302-310). -/
def execDefers (r : CompileRet Str) (U : Uni) (p : Nat) : QM F Unit := do
  deferLoop r U p ((← getQ).scopes p).defers
  modScope p fun c => { c with defers := [] }

/-- `Return` (function.go:277-300). -/
def return_ (r : CompileRet Str) (U : Uni) (p : Nat) : QM F Unit := do
  let arity ← popArity
  if arity = 0 then modScope p fun c => { c with ret := .nil }
  else match ← pop with
    | some v => modScope p fun c => { c with ret := v }
    | none => pure ()
  if ((← getQ).scopes p).parents ≠ [] then throwQ errReturn
  else do
    execDefers r U p
    match ((← getQ).scopes p).ret with
    | .nil => exit 0
    | .int v => exit v
    | _ => throwQ (failMsg (str "must return `int` for main function"))

/-- `Defer` (function.go:312-321). -/
def defer_ (p : Nat) : QM F Unit := do
  match ← pop with
  | none => throwQ (failMsg (str "unreachable"))
  | some src => do
    modScope p fun c => { c with defers := src :: c.defers }
    push .nil

/-- The value of `recover()`. -/
def recovered : Option (QPanic F) → QVal F
  | none => .nil
  | some (.user (.str (.text s))) => .str s
  | some (.user (.other (.val v))) => v
  | some p => .fault p

/-- `Recover` (function.go:323-332). -/
def recover_ (p : Nat) : QM F Unit := do
  let s ← getQ
  match (s.scopes p).parents with
  | parent :: _ => do
    modScope parent fun c => { c with recov := none }
    push (recovered (s.scopes parent).recov)
  | [] => push .nil

/-- `vars[p.Args[i]] = args[i]` in order. -/
def bindArgs : List Str → List (QVal F) → (Str → Option (QVal F)) → (Str → Option (QVal F))
  | a :: as, v :: vs, vars => bindArgs as vs fun n => if n = a then some v else vars n
  | _, _, vars => vars

/-- Binding the parameters (function.go:375-384). -/
def bindParams (M : Fl F) (f : Fun) (args : List (QVal F)) : QM F (Str → Option (QVal F)) := do
  if f.variadic then
    match f.args.getLast? with
    | none => throwQ .slice -- p.Args[n-1]
    | some last => do
      let n := f.args.length - 1
      let rest := args.drop n
      let sl ← liftH (do
        let s ← makeSlice M .var 0 rest.length
        appendRaw M s rest)
      let vars := bindArgs (f.args.take n) (args.take n) fun _ => none
      pure fun x => if x = last then some (.slice sl) else vars x
  else pure (bindArgs f.args args fun _ => none)

/-- Does `Call` accept so many arguments? (function.go:347-356) -/
def Fun.accepts (f : Fun) (n : Nat) : Bool :=
  if f.variadic then decide (f.args.length ≤ n + 1) else decide (n = f.args.length)

/-- The deferred function of `Call` (function.go:388-397), after a panic with `e` (none if
there was none, or a return). -/
def leave (r : CompileRet Str) (U : Uni) (c base : Nat) (e : Option (QPanic F)) : QM F Unit := do
  modScope c fun s => { s with recov := e }
  execDefers r U c
  setFrame base
  match ((← getQ).scopes c).recov with
  | none => pure ()
  | some p => throwQ p

/-- How `EvalCode` ended inside of `Call`: with an error or nil, or with a panic. -/
def attempt {α : Type} (x : QM F α) : QM F (α ⊕ QPanic F) := Go.recover (do pure (.inl (← x))) fun p => pure (.inr p)

/-- `Function.Call` (function.go:345-402). -/
def fnCall (M : Fl F) (r : CompileRet Str) (U : Uni) (f : Fun) (args : List (QVal F)) : QM F (QVal F) := do
  if f.accepts args.length then
    match f.body with
    | none => pure .nil
    | some body => do
      let s ← getQ
      let base := s.stk.length
      let c := s.nscopes
      let vars ← bindParams M f args
      modQ fun s => { s.setScope c ⟨vars, .nil, none, f.parent :: (s.scopes f.parent).parents, [], base⟩ with nscopes := c + 1 }
      match ← attempt (Tpl.evalCode r U c (str "doc") (.tokens body)) with
      | .inr (.user (.other (.exit n))) => exit n
      | .inr p => do
        leave r U c base (if isReturn p then none else some p)
        pure ((← getQ).scopes c).ret
      | .inl err => do
        leave r U c base none
        match err with
        | some e => throwQ (subPanic e)
        | none => pure ((← getQ).scopes c).ret
  else throwQ (failMsg (str "function requires other number of arguments"))

/-- `Main` (function.go:406-421). -/
def main (M : Fl F) (r : CompileRet Str) (U : Uni) (p : Nat) : QM F Unit := do
  let body := match ← pop_ with
    | .code toks => some toks
    | _ => none
  match ← fnCall M r U ⟨[], body, p, false⟩ [] with
  | .nil => exit 0
  | .int n => exit n
  | _ => throwQ (failErr .conversion)

/-! ### Calls (qlang.go:338-374, call.go:105-145) -/

/-- `interface{}` -/
def anyTy : GoTy := ⟨20, 0⟩

/-- A number for a type, to tell types of the same kind apart. -/
def Ty.num : Ty → Nat
  | .slice t => 2 * t.num + 1
  | .map k v => 2 ^ (k.num + 1) * (2 * v.num + 3)
  | .fn n => n
  | .ptr n => n
  | .host n => n
  | t => t.kind

def Ty.go : Ty → GoTy
  | .int => GoTy.int
  | .float => GoTy.float64
  | t => ⟨t.kind, t.num⟩

/-- Reflection on values; a value fits a parameter of its own type and `interface{}`. -/
def qrefl (M : Fl F) : Reflect (QVal F) where
  ty v := match v.ty with
    | some t => t.go
    | none => ⟨0, 0⟩
  assignable v t := t = anyTy || (match v.ty with
    | some u => u.go = t
    | none => t.kind = 22)
  zero _ := .nil
  toFloat v := match v with
    | .int n => .float (M.lits.ofInt n)
    | .byte b => .float (M.lits.ofInt b.toNat)
    | v => v

/-- The stack as the engine sees it. -/
def qstack (M : Fl F) : StackI (QM F) QErr (QVal F) := ⟨popArgs, pushRet M⟩

/-- Functions of one or two parameters, or any number, of type `interface{}`. -/
def fn1 (f : QVal F → QM F (QVal F)) : GoFn (QM F) (QVal F) := ⟨[anyTy], none, fun
  | [a] => do pure [← f a]
  | _ => throwQ reflectMsg⟩
def fn2 (f : QVal F → QVal F → QM F (QVal F)) : GoFn (QM F) (QVal F) := ⟨[anyTy, anyTy], none, fun
  | [a, b] => do pure [← f a b]
  | _ => throwQ reflectMsg⟩
def fn3 (f : QVal F → QVal F → QVal F → QM F (QVal F)) : GoFn (QM F) (QVal F) := ⟨[anyTy, anyTy, anyTy], none, fun
  | [a, b, c] => do pure [← f a b c]
  | _ => throwQ reflectMsg⟩
def fnN (f : List (QVal F) → QM F (QVal F)) : GoFn (QM F) (QVal F) := ⟨[], some anyTy, fun vs => do pure [← f vs]⟩

/-- The functions of package builtin (exports.go:13-42). -/
def builtinFns (M : Fl F) (name : Str) : Option (GoFn (QM F) (QVal F)) :=
  if name = str "append" then some ⟨[anyTy], some anyTy, fun
    | a :: vs => do pure [← liftH (Append M a vs)]
    | _ => throwQ reflectMsg⟩
  else if name = str "delete" then some ⟨[anyTy, anyTy], none, fun
    | [m, k] => do liftH (Delete M m k); pure []
    | _ => throwQ reflectMsg⟩
  else if name = str "get" then some (fn2 fun m k => do liftE (Get M (← getQ).heap m k))
  else if name = str "len" then some (fn1 fun a => do pure (.int (← liftE (Len (← getQ).heap a))))
  else if name = str "cap" then some (fn1 fun a => do pure (.int (← liftE (Cap a))))
  else if name = str "mkmap" then some ⟨[anyTy], some GoTy.int, fun
    | t :: _ => do pure [← liftH (Mkmap t)]
    | _ => throwQ reflectMsg⟩
  else if name = str "mapFrom" then some (fnN fun vs => liftH (MapFrom M vs))
  else if name = str "mapOf" then some (fn2 fun k v => liftE (MapOf k v))
  else if name = str "panic" then some (⟨[anyTy], none, fun
    | [v] => throwQ (panicOf v)
    | _ => throwQ reflectMsg⟩)
  else if name = str "set" then some ⟨[anyTy], some anyTy, fun
    | m :: vs => do liftH (Set M m vs); pure []
    | _ => throwQ reflectMsg⟩
  else if name = str "slice" then some ⟨[anyTy], some anyTy, fun
    | t :: vs => do pure [← liftH (MakeSlice M t vs)]
    | _ => throwQ reflectMsg⟩
  else if name = str "sliceFrom" then some (fnN fun vs => liftH (SliceFrom M vs))
  else if name = str "sliceOf" then some (fn1 fun t => liftE (SliceOf t))
  else if name = str "string" then some (fn1 fun a => do liftE (ToString (← getQ).heap a))
  else if name = str "sub" then some (fn3 fun a i j => do liftE (SubSlice (← getQ).heap a i j))
  else if name = str "type" then some (fn1 fun a => pure (match a.ty with
    | some t => .type t
    | none => .nil))
  else if name = str "float" then some (fn1 fun a => liftE (ToFloat M a))
  else if name = str "int" then some (fn1 fun a => liftE (ToInt M a))
  else if name = str "byte" then some (fn1 fun a => liftE (ToByte M a))
  else if name = str "max" then some (fnN fun vs => liftE (Max M vs))
  else if name = str "min" then some (fnN fun vs => liftE (Min M vs))
  else none

/-- The function of the table with this name. -/
def Lib.fn (L : Lib F) (name : Str) : Option (GoFn (QM F) (QVal F)) := match builtinFns L.fl name with
  | some f => some f
  | none => L.fns name

/-- What `VCall` calls for a value (call.go:111-115): a Go function, or the method `Call` of
a `*Function` or `*thisDeref`. -/
def callee (L : Lib F) (r : CompileRet Str) (U : Uni) : QVal F → Option (GoFn (QM F) (QVal F))
  | .gofn name _ => L.fn name
  | .unset p => some ⟨[⟨24, 24⟩], none, fun
    | [.str name] => do unset p name; pure []
    | _ => throwQ reflectMsg⟩
  | .fn _ f => some (fnN fun vs => fnCall L.fl r U f vs)
  | .method _ this f => some (fnN fun vs => fnCall L.fl r U f (this :: vs))
  | _ => none

/-- `interpreter.VCall` (call.go:105-145). -/
def vcallN (L : Lib F) (r : CompileRet Str) (U : Uni) (arity : Nat) : QM F (Option (CallErr QErr)) := do
  match ← popArgs (arity + 1) with
  | some (some f :: ins) =>
    match callee L r U f with
    | none => throwQ valueErr
    | some fn =>
      let run : QM F (Option (CallErr QErr)) := do
        match ← validateArgs (qrefl L.fl) fn.ins fn.rest ins with
        | .error e => pure (some e)
        | .ok ins => do
          let out ← reflectCall (qrefl L.fl) fn ins
          match ← pushRet L.fl out with
          | none => pure none
          | some e => pure (some (.ret e))
      match fn.rest with
      | some _ => if arity < fn.ins.length then pure (some .notEnough) else run
      | none => if arity ≠ fn.ins.length then pure (some (.count fn.ins.length arity)) else run
  | some _ => throwQ valueErr
  | none => pure (some .damaged)

/-- A returned error is what the action panics with (interpreter.go:286-290). -/
def callResult (e : Option (CallErr QErr)) : QM F Unit := match e with
  | none => pure ()
  | some e => throwQ (failErr (.call e))

/-- `Interpreter.VCall` (qlang.go:350-374). -/
def vcall (L : Lib F) (r : CompileRet Str) (U : Uni) : QM F Unit := do
  let variadic ← popArity
  let arity ← popArity
  if variadic ≠ 0 then
    if arity = 0 then throwQ (failMsg (str "what do you mean of `...`?"))
    else match ← pop with
      | none => throwQ (failMsg (str "unexpected"))
      | some (.slice s) => do
        let vs := (← getQ).heap.elems s
        modQ fun q => { q with stk := q.stk ++ vs }
        callResult (← vcallN L r U (arity + (vs.length - 1)).toNat)
      | some _ => throwQ (failMsg (str "apply `...` on non-slice object"))
  else do callResult (← vcallN L r U arity.toNat)

/-- `VSlice` (qlang.go:344-348). -/
def vslice (M : Fl F) : QM F Unit := do
  let arity ← popArity
  callResult (← call (qrefl M) (qstack M) (fnN fun vs => liftH (SliceFrom M vs)) arity)

/-- `VMap` (qlang.go:338-342). -/
def vmap (M : Fl F) : QM F Unit := do
  let arity ← popArity
  callResult (← call (qrefl M) (qstack M) (fnN fun vs => liftH (MapFrom M vs)) (arity * 2))

/-! ### Control (ctrl.go) -/

/-- `Or` (ctrl.go:17-30). -/
def or_ (r : CompileRet Str) (U : Uni) (p : Nat) : QM F Unit := do
  let bCode ← pop_
  match ← pop_ with
  | .bool a => if a then push (.bool true) else evalIn r U p (str "term4") bCode
  | _ => throwQ (failMsg (str "left operand of || operator isn't a boolean expression"))

/-- `And` (ctrl.go:32-45). -/
def and_ (r : CompileRet Str) (U : Uni) (p : Nat) : QM F Unit := do
  let bCode ← pop_
  match ← pop_ with
  | .bool a => if !a then push (.bool false) else evalIn r U p (str "term3") bCode
  | _ => throwQ (failMsg (str "left operand of && operator isn't a boolean expression"))

/-- Run a body: nothing gives nil (ctrl.go:71-75, 79-83). -/
def runBody (r : CompileRet Str) (U : Uni) (p : Nat) (code : QVal F) : QM F Unit := match code with
  | .nil => push .nil
  | code => evalIn r U p (str "doc") code

/-- The loop of `If` (ctrl.go:62-84) over the branches. -/
def ifLoop (r : CompileRet Str) (U : Uni) (p : Nat) (elseCode : QVal F) : List (QVal F) → QM F Unit
  | cond :: body :: more => do
    evalIn r U p (str "expr") cond
    match ← pop_ with
    | .bool true => runBody r U p body
    | .bool false => ifLoop r U p elseCode more
    | _ => throwQ (failErr .condNotBool)
  | _ => runBody r U p elseCode

/-- `If` (ctrl.go:47-85). -/
def if_ (r : CompileRet Str) (U : Uni) (p : Nat) : QM F Unit := do
  let elseArity ← popArity
  let elseCode ← if elseArity = 1 then pop_ else pure .nil
  let condArity := (← popArity) + 1
  ifLoop r U p elseCode (← popNArgs (condArity * 2))

/-- The loop of `Switch` (ctrl.go:109-129). -/
def switchLoop (M : Fl F) (r : CompileRet Str) (U : Uni) (p : Nat) (on default : QVal F) : List (QVal F) → QM F Unit
  | cond :: body :: more => do
    evalIn r U p (str "expr") cond
    match ← liftE (EQ M on (← pop_)) with
    | .bool true => runBody r U p body
    | _ => switchLoop M r U p on default more
  | _ => runBody r U p default

/-- `Switch` (ctrl.go:87-130). -/
def switch_ (M : Fl F) (r : CompileRet Str) (U : Uni) (p : Nat) : QM F Unit := do
  let defaultArity ← popArity
  let default ← if defaultArity = 1 then pop_ else pure .nil
  let caseArity ← popArity
  let casebr ← popNArgs (caseArity * 2)
  let on ← match ← pop_ with
    | .nil => pure (.bool true)
    | code => do
      evalIn r U p (str "expr") code
      pop_
  switchLoop M r U p on default casebr

/-- `evalCondS` (ctrl.go:173-184). -/
def evalCondS (r : CompileRet Str) (U : Uni) (p : Nat) (cond : QVal F) : QM F Bool := do
  evalIn r U p (str "s") cond
  match ← pop with
  | some (.bool b) => pure b
  | some _ => throwQ (failMsg (str "for loop condition isn't a boolean expression"))
  | none => throwQ (failMsg (str "unexpected code in for statement"))

/-- Evaluate code and drop its value, unless there is no code (ctrl.go:162-169). -/
def evalDrop (r : CompileRet Str) (U : Uni) (p : Nat) (name : Str) (code : QVal F) : QM F Unit := match code with
  | .nil => pure ()
  | code => do
    evalIn r U p name code
    let _ ← pop

/-- One round of the loop of `For` (ctrl.go:161-170). -/
def forRound (r : CompileRet Str) (U : Uni) (p : Nat) (cond step body : QVal F) (_ : Unit) : QM F (Unit ⊕ Unit) := do
  let go ← match cond with
    | .nil => pure true
    | cond => evalCondS r U p cond
  if go then do
    evalDrop r U p (str "doc") body
    evalDrop r U p (str "s") step
    pure (.inl ())
  else pure (.inr ())

/-- `For` (ctrl.go:134-171). -/
def for_ (r : CompileRet Str) (U : Uni) (p : Nat) : QM F Unit := do
  let body ← pop_
  let arity ← popArity
  let run (cond step : QVal F) : QM F Unit := do
    Go.loop (forRound r U p cond step body) ()
    push .nil
  if arity = 3 then do
    match ← popNArgs 3 with
    | [init, cond, step] => do
      evalDrop r U p (str "s") init
      run cond step
    | _ => throwQ .slice
  else if arity = 1 then do
    match ← popNArgs 1 with
    | [cond] => run cond .nil
    | _ => throwQ .slice
  else if arity = 0 then run .nil .nil
  else throwQ (failErr .forForm)

/-! ### Classes (class.go) -/

/-- `MemberFuncDecl` (class.go:100-118). -/
def memberFuncDecl (p : Nat) : QM F Unit := do
  match ← pop with
  | none => throwQ (failErr .withoutBody)
  | some fnb => do
    let variadic ← popArity
    let arity ← popArity
    let args ← popFnArgs (arity + 1)
    let body := match fnb with
      | .code toks => some toks
      | _ => none
    push (.finfo (← allocQ) ⟨args, body, p, variadic ≠ 0⟩)

/-- The loop of `newClass` (class.go:83-96): the methods, the last one of a name wins. -/
def methods (p : Nat) : List (QVal F) → List (Str × Nat × Fun) → QM F (List (Str × Nat × Fun))
  | [], fns => pure fns
  | .finfo _ f :: m, fns =>
    match f.args with
    | [] => throwQ .slice
    | name :: args => do
      let a ← allocQ
      methods p m ((name, a, { f with args := str "this" :: args, parent := p }) :: fns)
  | _ :: _, _ => throwQ (failErr .conversion)

/-- `Class` (class.go:120-127) with `newClass` (class.go:79-98). -/
def class_ (p : Nat) : QM F Unit := do
  let arity ← popArity
  let args ← popNArgs arity
  let a ← allocQ
  push (.cls a (← methods p args []))

/-- `New` (class.go:129-159). -/
def new_ (M : Fl F) (r : CompileRet Str) (U : Uni) : QM F Unit := do
  let hasArgs ← popArity
  let args ← if hasArgs ≠ 0 then do popNArgs (← popArity) else pure []
  match ← pop with
  | none => throwQ (failErr .newWithoutClass)
  | some (.cls _ fns) => do
    let a ← allocQ
    liftH (HM.setObj a fun _ => none)
    match fns.lookup (str "_init") with
    | some (_, f) => do
      let _ ← fnCall M r U f (.obj a fns :: args)
      push (.obj a fns)
    | none => push (.obj a fns)
  | some _ => throwQ (failErr .notClass)

/-- `MemberRef` (class.go:168-230). -/
def memberRef (L : Lib F) (name : Str) : QM F Unit := do
  match ← pop with
  | none => throwQ (failErr .refWithoutObject)
  | some v => do
    let h := (← getQ).heap
    match v with
    | .obj a fns =>
      match h.objs a name with
      | some w => push w
      | none => match fns.lookup name with
        | some (_, f) => do push (.method (← allocQ) (.obj a fns) f)
        | none => throwQ (failErr (.noMember name))
    | .cls _ fns =>
      match fns.lookup name with
      | some (a, f) => push (.fn a f)
      | none => throwQ (failErr (.noMember name))
    | .map k _ a =>
      if k = .string ∨ k = .var then
        match findKey L.fl (.str name) (h.maps a) with
        | some w => push w
        | none => throwQ (failErr (.noMember name))
      else throwQ reflectMsg
    | v => do push (← liftE (L.member h v name))

/-! ### The table of marks (qlang.go:378-417, exports.go:44-58) -/

abbrev QEntry (F : Type) := Entry QErr (QX (QVal F)) Nat (QState F) F (QVal F)

/-- A function whose receiver is the stack, or the current interpreter (`p.Interpreter`). -/
def onStk (x : QM F Unit) : QEntry F := .recv [] true fun _ => x
def onIpt (x : Nat → QM F Unit) : QEntry F := .recv [] true fun _ => do x (← Go.get).ipt
/-- The same with a second parameter. -/
def onEng (x : Nat → QM F Unit) : QEntry F := .recv [.eng] true fun _ => do x (← Go.get).ipt
def onCtx (x : Nat → QM F Unit) : QEntry F := .recv [.ctx] true fun _ => do x (← Go.get).ipt
def onStr (x : Nat → Str → QM F Unit) : QEntry F := .recv [.string] true fun
  | [.str s] => do x (← Go.get).ipt s
  | _ => pure ()
def onLen : QEntry F := .recv [.int] true fun
  | [.len n] => push (.int n)
  | _ => pure ()
def op1 (f : QVal F → QRes F) : QEntry F := .plain (fn1 fun a => liftE (f a))
def op2 (f : QVal F → QVal F → QRes F) : QEntry F := .plain (fn2 fun a b => liftE (f a b))

/-- The entries `$mark`. -/
def marks (L : Lib F) (r : CompileRet Str) (U : Uni) : List (Str × QEntry F) := [
  (str "ARITY", onLen),
  (str "_ARITY", onLen),
  (str "_code", .recv [.intf] true fun
    | [.src []] => push .nil
    | [.src toks] => push (.code toks)
    | _ => pure ()),
  (str "index", onStk (index L.fl)),
  (str "name", onStr fun _ s => push (.str s)),
  (str "pushn", onStk (push .nil)),
  (str "pushi", .recv [.int] true fun
    | [.int n] => push (.int n)
    | _ => pure ()),
  (str "pushf", .recv [.float64] true fun
    | [.float x] => push (.float x)
    | _ => pure ()),
  (str "pushs", onStr fun _ s => pushString L s),
  (str "pushc", onStr fun _ s => pushByte L s),
  (str "mref", onStr fun _ s => memberRef L s),
  (str "ref", onStr fun p s => ref L p s),
  (str "slice", onStk (vslice L.fl)),
  (str "map", onStk (vmap L.fl)),
  (str "call", onStk (vcall L r U)),
  (str "assign", onStr assign),
  (str "massign", onIpt multiAssign),
  (str "inc", onStr (incDec Inc)),
  (str "dec", onStr (incDec Dec)),
  (str "adda", onStr (opAssign (Add L.fl))),
  (str "suba", onStr (opAssign (Sub L.fl))),
  (str "mula", onStr (opAssign (Mul L.fl))),
  (str "quoa", onStr (opAssign (Quo L.fl))),
  (str "moda", onStr (opAssign Mod)),
  (str "defer", onIpt defer_),
  (str "recover", onIpt recover_),
  (str "return", onEng (return_ r U)),
  (str "fn", onEng function),
  (str "main", onEng (main L.fl r U)),
  (str "mfn", onIpt memberFuncDecl),
  (str "class", onEng class_),
  (str "new", onStk (new_ L.fl r U)),
  (str "clear", onIpt clear),
  (str "if", onCtx (if_ r U)),
  (str "switch", onEng (switch_ L.fl r U)),
  (str "for", onEng (for_ r U)),
  (str "and", onEng (and_ r U)),
  (str "or", onEng (or_ r U)),
  (str "neg", op1 (Neg L.fl)),
  (str "mul", op2 (Mul L.fl)),
  (str "quo", op2 (Quo L.fl)),
  (str "mod", op2 Mod),
  (str "add", op2 (Add L.fl)),
  (str "sub", op2 (Sub L.fl)),
  (str "lt", op2 (LT L.fl)),
  (str "gt", op2 (GT L.fl)),
  (str "le", op2 (LE L.fl)),
  (str "ge", op2 (GE L.fl)),
  (str "eq", op2 (EQ L.fl)),
  (str "ne", op2 (NE L.fl)),
  (str "not", op1 Not)]

/-- qlang as client of the engine whose compiled grammar is `r`. -/
def client (L : Lib F) (r : CompileRet Str) (U : Uni) : Client QErr (QX (QVal F)) Nat (QState F) F (QVal F) where
  table mark := (marks L r U).lookup mark
  stack := qstack L.fl
  callFn := none
  lits := L.fl.lits
  refl := qrefl L.fl

/-- The text `Grammar` (qlang.go:14-76), line by line. -/
def grammarText : Str := List.flatten [
  str "\n",
  str "\n",
  str "term1 = factor *('*' factor/mul | '/' factor/quo | '%' factor/mod)\n",
  str "\n",
  str "term2 = term1 *('+' term1/add | '-' term1/sub)\n",
  str "\n",
  str "term3 = term2 *('<' term2/lt | '>' term2/gt | \"==\" term2/eq | \"<=\" term2/le | \">=\" term2/ge | \"!=\" term2/ne)\n",
  str "\n",
  str "term4 = term3 *(\"&&\"/_mute term3/_code/_unmute/and)\n",
  str "\n",
  str "expr = term4 *(\"||\"/_mute term4/_code/_unmute/or)\n",
  str "\n",
  str "s =\n",
  str "\t(IDENT '='! expr)/assign |\n",
  str "\t(IDENT ','!)/name IDENT/name % ','/ARITY '=' expr /massign |\n",
  str "\t(IDENT \"++\")/inc |\n",
  str "\t(IDENT \"--\")/dec |\n",
  str "\t(IDENT \"+=\"! expr)/adda |\n",
  str "\t(IDENT \"-=\"! expr)/suba |\n",
  str "\t(IDENT \"*=\"! expr)/mula |\n",
  str "\t(IDENT \"/=\"! expr)/quoa |\n",
  str "\t(IDENT \"%=\"! expr)/moda |\n",
  str "\t\"return\" ?expr/ARITY /return |\n",
  str "\t\"defer\"/_mute! expr/_code/_unmute/defer |\n",
  str "\texpr\n",
  str "\n",
  str "doc = s *(';'/clear s | ';'/pushn)\n",
  str "\n",
  str "ifbody = '{' ?doc/_code '}'\n",
  str "\n",
  str "swbody = *(\"case\"! expr/_code ':' ?doc/_code)/_ARITY ?(\"default\"! ':' ?doc/_code)/_ARITY\n",
  str "\n",
  str "fnbody = '(' IDENT/name %= ','/ARITY ?\"...\"/ARITY ')' '{'/_mute ?doc/_code '}'/_unmute\n",
  str "\n",
  str "clsname = '(' IDENT/ref ')' | IDENT/ref\n",
  str "\n",
  str "newargs = ?('(' expr %= ','/ARITY ')')/ARITY\n",
  str "\n",
  str "classb = \"fn\"! IDENT/name fnbody ?';'/mfn\n",
  str "\n",
  str "atom =\n",
  str "\t'(' expr %= ','/ARITY ?\"...\"/ARITY ?',' ')'/call |\n",
  str "\t'.' (IDENT|\"class\"|\"new\"|\"recover\"|\"main\")/mref |\n",
  str "\t'[' ?expr/ARITY ?':'/ARITY ?expr/ARITY ']'/index\n",
  str "\n",
  str "factor =\n",
  str "\tINT/pushi |\n",
  str "\tFLOAT/pushf |\n",
  str "\tSTRING/pushs |\n",
  str "\tCHAR/pushc |\n",
  str "\t(IDENT/ref | '('! expr ')' | \"fn\"! fnbody/fn | '[' expr %= ','/ARITY ?',' ']'/slice) *atom |\n",
  str "\t\"if\"/_mute! expr/_code ifbody *(\"elif\" expr/_code ifbody)/_ARITY ?(\"else\" ifbody)/_ARITY/_unmute/if |\n",
  str "\t\"switch\"/_mute! ?(~'{' expr)/_code '{' swbody '}'/_unmute/switch |\n",
  str "\t\"for\"/_mute! (~'{' s)/_code %= ';'/_ARITY '{' ?doc/_code '}'/_unmute/for |\n",
  str "\t\"new\"! clsname newargs /new |\n",
  str "\t\"class\"! '{' *classb/ARITY '}'/class |\n",
  str "\t\"recover\" '(' ')'/recover |\n",
  str "\t\"main\" '{'/_mute ?doc/_code '}'/_unmute/main |\n",
  str "\t'{'! (expr ':' expr) %= ','/ARITY ?',' '}'/map |\n",
  str "\t'!' factor/not |\n",
  str "\t'-' factor/neg |\n",
  str "\t'+' factor\n"]

end Tpl.Qlang
