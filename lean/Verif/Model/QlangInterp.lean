import Verif.Model.Interp

/-
Model of tpl/qlang/cl/interpreter/interpret.go: interpreters whose grammar and functions are
written in qlang.

Conventions and simplifications:
* The engine's state is `Eng`, as for tpl/interpreter; `u` is what qlang programs work on.
* qlang values, objects and classes are parameters (`Host`), seen through the type
  assertions and reflection the code uses.  What a qlang function does when it is called
  (`Function.Call`) is a parameter too: code that may change the state, panic, and run the
  engine again.
* Messages are kept as data as in Model/Interp: `PMsg.arg mark e` for
  "parse mark `mark` failed: ...".  The panic of `tokens[0]` for no tokens is an error of
  the Go runtime; it is kept as `IPanic.value`.
* `_tr` prints to the standard error; it has no effect in the model.
-/
namespace Tpl.QInterp

variable {E X Obj Cls τ F V W : Type}

/-- `*qlang.Function` (function.go): the class it belongs to, the number of parameters,
whether the last one is variadic, and `Call`. -/
structure Fun (M : Type → Type) (Cls V : Type) where
  cls : Option Cls
  arity : Nat
  variadic : Bool
  call : List V → M V

/-- An entry of the function table: nil, a qlang function, a Go function, another value. -/
inductive Item (M : Type → Type) (Cls V W : Type) where
  | nil
  | fn (f : Fun M Cls V)
  | go (f : GoFn M W)
  | other

/-- What the engine sees of qlang. -/
structure Host (E X Obj Cls τ F V W : Type) where
  cls : Obj → Cls
  /-- `o.Cls.Fns[name]` -/
  method : Cls → Str → Option (Fun (Go Str (Eng Obj τ) (IPanic E X)) Cls V)
  obj : Obj → V
  nil : V
  str : Str → V
  int : Int → V
  float : F → V
  toks : List Token → V
  /-- the engine itself -/
  eng : V
  /-- `v.(*qlang.Object)` -/
  asObj : V → Option Obj
  /-- `v.(string)` -/
  asStr : V → Option Str
  /-- `v.(map[string]interface{})`: what it holds under `"$" + mark`, in a state -/
  asTable : V → Option (τ → Str → Option (Item (Go Str (Eng Obj τ) (IPanic E X)) Cls V W))
  /-- the elements of a slice, as values of type interface{} -/
  elems : V → Option (List V)
  /-- the elements of a slice, as `reflect.Value.Index` gives them -/
  index : V → Option (List W)
  /-- `reflect.Value.Interface` -/
  iface : W → V
  refl : Reflect W
  /-- `strconv.ParseFloat(lit, 64)` -/
  parseFloat : Str → Option F

/-- `lastWord` (interpret.go:41-50).  (The letters looked for are ASCII, so bytes will do.) -/
def lastWord : Str → Str
  | [] => []
  | b :: rest =>
    match lastWord rest with
    | [] => if 65 ≤ b && b ≤ 90 then b :: rest else []
    | w => w

section
variable (H : Host E X Obj Cls τ F V W)

/-- `callN` (interpret.go:60-68) and, without arguments, `call` (interpret.go:52-58). -/
def callN (o : Obj) (name : Str) (args : List V) : Code E X Obj τ V :=
  match H.method (H.cls o) name with
  | some fn => fn.call (H.obj o :: args)
  | none => Go.panic (.user (.str (.text (Tpl.str "method not found: " ++ name))))

/-- "method stack.popArgs doesn't return a slice" -/
def notSlice : Panic Str (IPanic E X) := .user (.str (.text (Tpl.str "method stack.popArgs doesn't return a slice")))

/-- What is pushed for the results of a Go function (interpret.go:86-90). -/
def pushed (out : List W) : V :=
  match out with
  | [] => H.nil
  | w :: _ => H.iface w

/-- `callFn` (interpret.go:70-91); `arity > 0` where it is called. -/
def callFn (stk : Obj) (fn : GoFn (Go Str (Eng Obj τ) (IPanic E X)) W) (arity : Nat) : Code E X Obj τ Unit := do
  let ret ← callN H stk (Tpl.str "popArgs") [H.int arity]
  match H.index ret with
  | none => Go.panic notSlice
  | some ins =>
    let out ← reflectCall H.refl fn (ins.map some)
    let _ ← callN H stk (Tpl.str "push") [pushed H out]
    pure ()

/-- `callVfn` (interpret.go:93-111). -/
def callVfn (stk : Obj) (fn : Fun (Go Str (Eng Obj τ) (IPanic E X)) Cls V) (arity : Nat) : Code E X Obj τ Unit := do
  let v ← callN H stk (Tpl.str "popArgs") [H.int arity]
  match H.elems v with
  | none => Go.panic notSlice
  | some ins =>
    let ret ← fn.call ins
    let _ ← callN H stk (Tpl.str "push") [ret]
    pure ()

/-- The second argument of a function with a receiver (interpret.go:264-289).
`strconv.Atoi` reads decimal numbers; `tokens[0]` of no tokens panics. -/
def markArg (mark : Str) (toks : List Token) (g : Gr Str) : Code E X Obj τ V := do
  if isLenMark mark then pure (H.int (← Go.len g))
  else if lastWord mark = Tpl.str "Src" then pure (if toks.length ≠ 0 then H.toks toks else H.nil)
  else if lastWord mark = Tpl.str "Engine" then pure H.eng
  else match toks with
    | [] => Go.panic (.user .value)
    | tok :: _ =>
      if lastWord mark = Tpl.str "Float" then
        match H.parseFloat tok.lit with
        | some x => pure (H.float x)
        | none => Go.panic (.user (.str (.arg mark .float)))
      else if lastWord mark = Tpl.str "Int" then
        match strconvInt tok.lit 10 with
        | .ok v => pure (H.int v)
        | .error e => Go.panic (.user (.str (.arg mark (.num e))))
      else pure (H.str tok.lit)

/-- What `newEngine` gets from the methods of the object: the object, its stack and the
function table. -/
structure Parts (Obj T : Type) where
  ip : Obj
  stk : Obj
  table : Str → Option T

/-- The entries of the table. -/
abbrev Entries (E X Obj Cls τ V W : Type) := Parts Obj (Item (Go Str (Eng Obj τ) (IPanic E X)) Cls V W)

variable [DecidableEq Cls]

/-- A function of the class of the stack, or of the class of the interpreter
(interpret.go:236-241): its receiver is the stack, or the current interpreter. -/
def receiver (P : Entries E X Obj Cls τ V W) (f : Fun (Go Str (Eng Obj τ) (IPanic E X)) Cls V) : Nat :=
  if f.cls = some (H.cls P.stk) then 1 else if f.cls = some (H.cls P.ip) then 2 else 0

/-- `marker` (interpret.go:185-297): which marks are accepted. -/
def marker (P : Entries E X Obj Cls τ V W) : Marker Str := fun g mark =>
  match P.table mark with
  | none =>
    if mark = Tpl.str "_mute" ∨ mark = Tpl.str "_unmute" ∨ mark = Tpl.str "_tr" then .ok (.action mark g)
    else .error (Tpl.str "invalid grammar mark: " ++ mark)
  | some .nil => .error (Tpl.str "nil dereference") -- reflect.TypeOf(nil).Kind()
  | some .other => .error (Tpl.str "function table item not a function: " ++ mark)
  | some (.go f) =>
    if f.rest.isSome then .error (Tpl.str "invalid mark - doesn't support variadic function: " ++ mark)
    else if f.ins.length < 1 then .error (Tpl.str "invalid function (no param): " ++ mark)
    else .ok (.action mark g)
  | some (.fn f) =>
    if f.variadic then .error (Tpl.str "invalid mark - doesn't support variadic function: " ++ mark)
    else if f.arity < 1 then .error (Tpl.str "invalid function (no param): " ++ mark)
    else if receiver H P f > 0 ∧ f.arity > 2 then .error (Tpl.str "invalid function (too many params): " ++ mark)
    else match lenChar mark with
      | some _ => .ok (.action mark g)
      | none => .error (Tpl.str "index out of range")

/-- What an action does unless it is muted (interpret.go:223, 256-294). -/
def perform (P : Entries E X Obj Cls τ V W) (mark : Str) (e : Item (Go Str (Eng Obj τ) (IPanic E X)) Cls V W)
    (toks : List Token) (g : Gr Str) : Code E X Obj τ Unit :=
  match e with
  | .go f => callFn H P.stk f f.ins.length
  | .fn f =>
    if receiver H P f > 0 then do
      let cur := (← Go.get).ipt
      let this := H.obj (if receiver H P f = 1 then P.stk else cur)
      if f.arity = 2 then
        let a ← markArg H mark toks g
        let _ ← f.call [this, a]
        pure ()
      else
        let _ ← f.call [this]
        pure ()
    else callVfn H P.stk f f.arity
  | _ => pure () -- not accepted by the marker

/-- The actions of the engine (interpret.go:190-199, 217-224, 250-295). -/
def action (P : Entries E X Obj Cls τ V W) (mark : Str) (g : Gr Str) (toks : List Token) : Code E X Obj τ Unit := do
  match P.table mark with
  | none =>
    if mark = Tpl.str "_mute" then Go.modify fun s => { s with mute := s.mute + 1 }
    else if mark = Tpl.str "_unmute" then Go.modify fun s => { s with mute := s.mute - 1 }
    else pure ()
  | some e => if muted (← Go.get).mute mark then pure () else perform H P mark e toks g

/-- The callbacks of the compiled grammar. -/
def sem (P : Entries E X Obj Cls τ V W) : Sem Str (Eng Obj τ) Unit (IPanic E X) where
  act f m a g toks s := (action H P a g toks).run f m s
  start _ s := .ok () s
  finish _ _ _ s := .ok () s
  act_mono := by intro f f' m m' hf hm a g toks s r h; exact (action H P a g toks).mono f f' m m' hf hm s r h

/-- `p.MatchExactly` of the engine (match.go:102-118 with `initer`, interpret.go:182-184). -/
def matchExactly (P : Entries E X Obj Cls τ V W) (r : CompileRet Str) (U : Uni) (fuel : Nat) (src : Str) (s : St (Eng Obj τ)) :
    Option (MRes Str (Eng Obj τ) (IPanic E X) Unit) :=
  let m : Matcher Str (Eng Obj τ) Unit (IPanic E X) :=
    ⟨r.root, r.mode, engInit (s.u.scanner.tokenize U src r.mode).2, r.env, sem H P⟩
  (m.matchExactly U fuel s.u.scanner src s).1

omit [DecidableEq Cls] in
/-- The deferred functions of `New` and `Exec` (interpret.go:115-126, 134-145): a panic with a
string or an error is returned as an error. -/
def returned : Panic Str (IPanic E X) → Bool
  | .user (.other _) => false
  | _ => true

/-- Errors of `Exec`: that of the match, or what a panic was made of. -/
inductive ExecErr (E X : Type) where
  | matched (e : MErr Str)
  | panicked (p : Panic Str (IPanic E X))

/-- `Exec` (interpret.go:132-149); `Eval` (interpret.go:151-154) is the same. -/
def exec (P : Entries E X Obj Cls τ V W) (r : CompileRet Str) (U : Uni) (fuel : Nat) (src : Str) (s : St (Eng Obj τ)) :
    Option (Cb Str (Eng Obj τ) (IPanic E X) (Option (ExecErr E X))) :=
  match matchExactly H P r U fuel src s with
  | none => none
  | some (.ok _ s) => some (.ok none s)
  | some (.err e s) => some (.ok (some (.matched e)) s)
  | some (.panic p s) => if returned p then some (.ok (some (.panicked p)) s) else some (.panic p s)

/-- The methods `stack`, `fntable` and `grammar` of the object (interpret.go:162-178,
299-303).  The table is read when the grammar is compiled. -/
def prepare (ip1 : V) : Code E X Obj τ (Entries E X Obj Cls τ V W × Str) := do
  match H.asObj ip1 with
  | none => Go.panic (.user (.str (.text (Tpl.str "not object"))))
  | some ip =>
    match H.asObj (← callN H ip (Tpl.str "stack") []) with
    | none => Go.panic (.user (.str (.text (Tpl.str "stack isn't an object"))))
    | some stk =>
      match H.asTable (← callN H ip (Tpl.str "fntable") []) with
      | none => Go.panic (.user (.str (.text (Tpl.str "fntable isn't a map[string]interface{} object"))))
      | some table =>
        match H.asStr (← callN H ip (Tpl.str "grammar") []) with
        | none => Go.panic (.user (.str (.text (Tpl.str "grammar isn't a string object"))))
        | some grammar => pure (⟨ip, stk, table (← Go.get).u⟩, grammar)

/-- Outcome of `New`: an engine, an error, or a panic. -/
inductive NewRes (E X Obj T : Type) where
  | engine (P : Parts Obj T) (r : CompileRet Str)
  | compile (c : ClRes Str)
  | error (p : Panic Str (IPanic E X))
  | panic (p : Panic Str (IPanic E X))

/-- `New` (interpret.go:113-130, 156-318): the methods run (`m` is the matcher of other
engines they may use), then the grammar is compiled; the panics of `Cl` are strings and
errors.  The new engine has `ip` as its interpreter and 0 as counter. -/
def new (ip1 : V) (mode : Mode) (U : Uni) (fuel : Nat) (m : Mat Str (Eng Obj τ) (IPanic E X)) (s : St (Eng Obj τ)) :
    Option (NewRes E X Obj (Item (Go Str (Eng Obj τ) (IPanic E X)) Cls V W) × St (Eng Obj τ)) :=
  match (prepare H ip1).run fuel m s with
  | none => none
  | some (.panic p s) => some (if returned p then .error p else .panic p, s)
  | some (.ok (P, grammar) s) =>
    match Compiler.cl ⟨grammar, marker H P, mode⟩ U fuel KwScanner.zero with
    | none => none
    | some (.ok r) => some (.engine P r, ⟨fun _ => 0, ⟨0, P.ip, r.tab.scanner, s.u.u⟩⟩)
    | some c => some (.compile c, s)

end

end Tpl.QInterp
