import Verif.Model.Go
import Verif.Model.Compiler

/-
Model of tpl/interpreter/interpreter.go and tpl/interpreter.util/call.go.

Conventions and simplifications:
* The engine's mutable state is `Eng`: the mute counter, the current interpreter
  (`p.Interpreter`), the scanner, and `u`: everything the client's functions work on.
* A grammar mark is its own action label: a Marker turns `g` into `.action mark g`.
* Text of messages is kept as data (`PMsg`); where a message is made from an error the
  error is kept.
* An entry of the function table is described by what reflection sees of it (`Entry`).
  A function that returns a non-nil error is one that panics with it: that is what the
  action does with a returned error (interpreter.go:286-290).
* `float64` is a parameter (`Lits`), with the conversion from integers and
  `strconv.ParseFloat`; `strconv.ParseInt` is modelled.
* `_tr` prints to the standard error; it has no effect in the model.
* Values are seen through `Reflect`; the zero `reflect.Value` is `none`.
-/
namespace Tpl

/-! ### Literals -/

/-- Value of an alphanumeric character as digit. -/
def digitVal (b : UInt8) : Option Nat :=
  if 48 ≤ b ∧ b ≤ 57 then some (b.toNat - 48)
  else if 97 ≤ b ∧ b ≤ 122 then some (b.toNat - 87)
  else if 65 ≤ b ∧ b ≤ 90 then some (b.toNat - 55)
  else none

/-- The digits of `s` in base `base`, after `acc`. -/
def parseDigits (base : Nat) : Nat → Str → Option Nat
  | acc, [] => some acc
  | acc, b :: s =>
    match digitVal b with
    | some d => if d < base then parseDigits base (acc * base + d) s else none
    | none => none

/-- Errors of strconv.ParseInt. -/
inductive NumErr where
  | syntax_ | range
deriving DecidableEq, Repr

/-- An unsigned numeral. -/
def parseUint (base : Nat) (s : Str) : Option Nat :=
  match s with
  | [] => none
  | s => parseDigits base 0 s

/-- `strconv.ParseInt(s, base, 64)` for a base from 2 to 36 (Go standard library). -/
def strconvInt (s : Str) (base : Nat) : Except NumErr Int :=
  match s with
  | 45 :: ds => match parseUint base ds with
    | none => .error .syntax_
    | some v => if v ≤ 2 ^ 63 then .ok (-(v : Int)) else .error .range
  | 43 :: ds => match parseUint base ds with
    | none => .error .syntax_
    | some v => if v < 2 ^ 63 then .ok v else .error .range
  | ds => match parseUint base ds with
    | none => .error .syntax_
    | some v => if v < 2 ^ 63 then .ok v else .error .range

/-- `ParseInt` (interpreter.go:23-38); `lit[0]` of the empty string panics. -/
def ParseInt (lit : Str) : GoRes (Except NumErr Int) :=
  match lit with
  | [] => .panic
  | [48] => .ok (.ok 0)
  | 48 :: c :: ds => .ok (if c = 120 ∨ c = 88 then strconvInt ds 16 else strconvInt (c :: ds) 8)
  | ds => .ok (strconvInt ds 10)

/-- The type float64: conversion from int64 and `strconv.ParseFloat(lit, 64)`. -/
structure Lits (F : Type) where
  ofInt : Int → F
  parse : Str → Option F

variable {F W : Type}

/-- Errors of literals. -/
inductive LitErr where
  | num (e : NumErr) | float | unsupported
deriving DecidableEq, Repr

/-- `ParseFloat` (interpreter.go:41-59). -/
def ParseFloat (L : Lits F) (lit : Str) : GoRes (Except LitErr F) :=
  let rest := match L.parse lit with
    | some x => .ok x
    | none => .error .float
  match lit with
  | [] => .panic
  | [48] => .ok (.ok (L.ofInt 0))
  | 48 :: c :: ds =>
    if c = 120 ∨ c = 88 then
      .ok (match strconvInt ds 16 with
        | .ok v => .ok (L.ofInt v)
        | .error e => .error (.num e))
    else match strconvInt (c :: ds) 8 with
      | .ok v => .ok (.ok (L.ofInt v))
      | .error _ => .ok rest
  | _ => .ok rest

/-! ### Functions of the table -/

/-- Type of the second parameter of a function with a receiver (interpreter.go:255-282):
`*Context`, `interface{}`, `Engine`, or a predeclared type.  `*FileLine` is a type like any
other here; see Model/StaticInterp.  (A type defined as one of the predeclared types, or as the
empty interface, is not modelled: for the former the call panics after `GetValue`.) -/
inductive ArgTy where
  | ctx | fline | intf | eng | string | float64 | int64 | int | other
deriving DecidableEq, Repr

/-- `interpreter.Context` (call.go:50-55): the tokens; `Pos` and `End` are those of the
first and last one. -/
structure Ctx where
  src : List Token
  pos : Nat
  end_ : Int
deriving DecidableEq, Repr

/-- What a function with a receiver is called with. -/
inductive Arg (F : Type) where
  | len (n : Int)
  | ctx (c : Ctx)
  /-- `*FileLine`: the line (the file name is not modelled) -/
  | fline (line : Nat)
  /-- `interface{}`: the tokens, nil if there are none -/
  | src (toks : List Token)
  | eng
  | str (s : Str)
  | float (x : F)
  | int (v : Int)

/-- `reflect.Type`: its kind (numbered as in package reflect) and its identity. -/
structure GoTy where
  kind : Nat
  id : Nat
deriving DecidableEq, Repr

def GoTy.float64 : GoTy := ⟨14, 0⟩
def GoTy.int : GoTy := ⟨2, 0⟩

/-- What reflection tells about values: the type, whether a value may be passed for a
parameter, the zero value of a type, and conversion of a number to float64. -/
structure Reflect (W : Type) where
  ty : W → GoTy
  assignable : W → GoTy → Bool
  zero : GoTy → W
  toFloat : W → W

/-- A function value: parameter types, for a variadic function the type of the elements
of the last one, and what it does.  `M` is the monad it runs in. -/
structure GoFn (M : Type → Type) (W : Type) where
  ins : List GoTy
  rest : Option GoTy
  body : List W → M (List W)

/-- The types of `n` arguments. -/
def GoFn.types {M : Type → Type} (fn : GoFn M W) (n : Nat) : List GoTy :=
  match fn.rest with
  | some t => fn.ins ++ List.replicate (n - fn.ins.length) t
  | none => fn.ins

/-- Errors of `Call`; `E` are those of `PushRet`. -/
inductive CallErr (E : Type) where
  | notEnough
  | count (require got : Int)
  | damaged
  | type_ (require got : GoTy)
  | ret (e : E)
deriving DecidableEq

/-- Strings an action panics with. -/
inductive PMsg (E : Type) where
  /-- "invalid function (second argument type isn't int)" -/
  | notInt (mark : Str)
  /-- "invalid function `mark` argument, ..." -/
  | arg (mark : Str) (e : LitErr)
  /-- "call function `$mark`: ..." -/
  | call (mark : Str) (e : CallErr E)
  /-- package reflect: a wrong argument of a call -/
  | reflect
  /-- others -/
  | text (s : Str)

/-- The error inside a RuntimeError. -/
inductive Cause (E : Type) where
  | msg (m : PMsg E)
  | err (e : E)
  | value
  | nilDeref
  | slice
  | varNotAssigned

/-- Panic values of the client's functions and of the engine. -/
inductive IPanic (E X : Type) where
  /-- a string -/
  | str (m : PMsg E)
  /-- a value of type error -/
  | err (e : E)
  /-- `*reflect.ValueError`, an error too -/
  | value
  /-- `*RuntimeError` (interpreter.go:95-100) -/
  | runtime (g : Gr Str) (src : List Token) (e : Cause E)
  /-- anything else -/
  | other (x : X)

variable {E X I τ : Type}

/-- State of the engine (interpreter.go:123-127). -/
structure Eng (I τ : Type) where
  mute : Int
  ipt : I
  scanner : KwScanner
  u : τ

/-- Code of the client, run by the engine. -/
abbrev Code (E X I τ α : Type) := Go Str (Eng I τ) (IPanic E X) α

/-- The interface `Stack` (call.go:29-32). -/
structure StackI (M : Type → Type) (E W : Type) where
  popArgs : Nat → M (Option (List (Option W)))
  pushRet : List W → M (Option E)

/-- A stack kept in a slice of `T`, bottom first: where it is in the state, how a value is
passed to functions (`reflect.ValueOf`), and how a result is turned into a value.  The
stacks of number (number.go:158-194), rat (big.go:147-180) and cmplx are of this kind. -/
structure SliceStack (τ T W E : Type) where
  get : τ → List T
  set : List T → τ → τ
  view : T → W
  conv : W → Except E T
  get_set : ∀ l u, get (set l u) = l
  set_get : ∀ u, set (get u) u = u
  set_set : ∀ l l' u, set l (set l' u) = set l u

/-- The stack is changed by `f`. -/
def Eng.onStack {T : Type} (k : SliceStack τ T W E) (f : List T → List T) (s : Eng I τ) : Eng I τ :=
  { s with u := k.set (f (k.get s.u)) s.u }

/-- The loop of `PushRet` (number.go:160-175, big.go:149-156). -/
def SliceStack.push {T : Type} (k : SliceStack τ T W E) : List W → Code E X I τ (Option E)
  | [] => pure none
  | w :: ws =>
    match k.conv w with
    | .error e => pure (some e)
    | .ok v => do
      Go.modify (Eng.onStack k (· ++ [v]))
      k.push ws

/-- `PopArgs` (number.go:179-192, big.go:160-173) and `PushRet`. -/
def SliceStack.iface {T : Type} (k : SliceStack τ T W E) : StackI (Go Str (Eng I τ) (IPanic E X)) E W where
  popArgs arity := do
    let stk := k.get (← Go.get).u
    if stk.length ≥ arity then
      Go.modify (Eng.onStack k fun l => l.take (l.length - arity))
      pure (some ((stk.drop (stk.length - arity)).map fun v => some (k.view v)))
    else pure none
  pushRet := k.push

/-- An entry `$mark` of the function table, as `New` looks at it. -/
inductive Entry (E X I τ F W : Type) where
  | notFunc
  | variadic
  | noParam
  /-- first parameter is the type of the stack or of the interpreter: the types of the
  others, whether the results are none or one error, and what it does -/
  | recv (params : List ArgTy) (outsOk : Bool) (body : List (Arg F) → Code E X I τ Unit)
  /-- another function -/
  | plain (fn : GoFn (Go Str (Eng I τ) (IPanic E X)) W)

/-- What `New` gets from the client (call.go:35-39 and interpreter.go:129-131). -/
structure Client (E X I τ F W : Type) where
  table : Str → Option (Entry E X I τ F W)
  stack : StackI (Go Str (Eng I τ) (IPanic E X)) E W
  /-- `CallFn`, if the client has that method -/
  callFn : Option (GoFn (Go Str (Eng I τ) (IPanic E X)) W → Code E X I τ Unit)
  lits : Lits F
  refl : Reflect W

/-- The checks of the marker that do not depend on the function table
(interpreter.go:213-217): `mark[idxLen]`. -/
def lenChar (mark : Str) : Option UInt8 :=
  match mark with
  | [] => none
  | 95 :: rest => rest.head?
  | c :: _ => some c

/-- `isLen` (interpreter.go:217). -/
def isLenMark (mark : Str) : Bool :=
  match lenChar mark with
  | some c => 65 ≤ c && c ≤ 90
  | none => false

/-- `marker` (interpreter.go:163-303): which marks are accepted. -/
def Client.marker (c : Client E X I τ F W) : Marker Str := fun g mark =>
  let checked : Except Str (Gr Str) := match lenChar mark with
    | some _ => .ok (.action mark g)
    | none => .error (str "index out of range")
  match c.table mark with
  | none =>
    if mark = str "_mute" ∨ mark = str "_unmute" ∨ mark = str "_tr" then .ok (.action mark g)
    else .error (str "invalid grammar mark: " ++ mark)
  | some .notFunc => .error (str "function table item not a function: " ++ mark)
  | some .variadic => .error (str "invalid mark - doesn't support variadic function: " ++ mark)
  | some .noParam => .error (str "invalid function (no param): " ++ mark)
  | some (.recv params outsOk _) =>
    if params.length > 2 then .error (str "invalid function (too many params): " ++ mark)
    else if outsOk then checked
    else .error (str "invalid function (return values): " ++ mark)
  | some (.plain _) => checked

/-! ### Calls -/

/-- `validateType` (call.go:147-178).  The kinds: Interface 20, Ptr 22, Int 2 to Int64 6,
Uint 7 to Uintptr 12, Float32 13.  `in.Type()` of the zero Value panics. -/
def validateType (R : Reflect W) (v : Option W) (t : GoTy) : Code E X I τ (Except (CallErr E) (Option W)) :=
  if t.kind = 20 ∨ t.kind = 22 then pure (.ok (some (v.getD (R.zero t))))
  else match v with
    | none => Go.panic (.user .value)
    | some w =>
      if R.ty w = t then pure (.ok (some w))
      else if t = GoTy.float64 ∧ 2 ≤ (R.ty w).kind ∧ (R.ty w).kind ≤ 13 then pure (.ok (some (R.toFloat w)))
      else pure (.error (.type_ t (R.ty w)))

/-- The loops over the arguments of `DoCall` (call.go:85-97), for one list of types. -/
def validateAll (R : Reflect W) : List (Option W) → List GoTy → Code E X I τ (Except (CallErr E) (List (Option W)))
  | v :: vs, t :: ts => do
    match ← validateType R v t with
    | .error e => pure (.error e)
    | .ok w =>
      match ← validateAll R vs ts with
      | .error e => pure (.error e)
      | .ok ws => pure (.ok (w :: ws))
  | _, _ => pure (.ok [])

/-- `reflect.Value.Call`: the arguments are checked. -/
def reflectCall (R : Reflect W) (fn : GoFn (Go Str (Eng I τ) (IPanic E X)) W) (ins : List (Option W)) : Code E X I τ (List W) :=
  if ins.length = (fn.types ins.length).length ∧ (ins.zip (fn.types ins.length)).all (fun (v, t) => match v with
      | none => false
      | some w => R.assignable w t) then fn.body (ins.filterMap id)
  else Go.panic (.user (.str .reflect))

/-- The validation of arguments by `DoCall` (call.go:84-97): the variadic ones first. -/
def validateArgs (R : Reflect W) (ins : List GoTy) (rest : Option GoTy) (args : List (Option W)) :
    Code E X I τ (Except (CallErr E) (List (Option W))) := do
  match rest with
  | none => validateAll R args ins
  | some t =>
    match ← validateAll R (args.drop ins.length) (List.replicate (args.length - ins.length) t) with
    | .error e => pure (.error e)
    | .ok rs =>
      match ← validateAll R (args.take ins.length) ins with
      | .error e => pure (.error e)
      | .ok fs => pure (.ok (fs ++ rs))

/-- `DoCall` (call.go:75-102); `arity` is not negative where it is called. -/
def doCall (R : Reflect W) (stk : StackI (Go Str (Eng I τ) (IPanic E X)) E W) (fn : GoFn (Go Str (Eng I τ) (IPanic E X)) W)
    (arity : Nat) : Code E X I τ (Option (CallErr E)) := do
  let finish (ins : List (Option W)) : Code E X I τ (Option (CallErr E)) := do
    let out ← reflectCall R fn ins
    match ← stk.pushRet out with
    | none => pure none
    | some e => pure (some (.ret e))
  if arity > 0 then
    match ← stk.popArgs arity with
    | none => pure (some .damaged)
    | some args =>
      match ← validateArgs R fn.ins fn.rest args with
      | .error e => pure (some e)
      | .ok ins => finish ins
  else finish []

/-- `Call` (call.go:58-72). -/
def call (R : Reflect W) (stk : StackI (Go Str (Eng I τ) (IPanic E X)) E W) (fn : GoFn (Go Str (Eng I τ) (IPanic E X)) W)
    (arity : Int) : Code E X I τ (Option (CallErr E)) :=
  let n := fn.ins.length
  match fn.rest with
  | some _ => if arity < n then pure (some .notEnough) else doCall R stk fn arity.toNat
  | none => if arity ≠ n then pure (some (.count n arity)) else doCall R stk fn arity.toNat

/-! ### Actions -/

/-- `ctxValue` (interpreter.go:322-329). -/
def ctxValue (toks : List Token) : Code E X I τ Ctx :=
  match toks.head?, toks.getLast? with
  | some t, some l => match l.End with
    | .ok e => pure ⟨toks, t.pos, e⟩
    | .panic => Go.panic .slice
  | _, _ => pure ⟨toks, 0, 0⟩

/-- `GetValue` (interpreter.go:62-90) of the first token, as second argument
(interpreter.go:276-281). -/
def litArg (L : Lits F) (mark : Str) (t : ArgTy) (toks : List Token) : Code E X I τ (Arg F) :=
  match toks with
  | [] => Go.panic .slice
  | tok :: _ =>
    match t with
    | .string => pure (.str tok.lit)
    | .float64 => match ParseFloat L tok.lit with
      | .panic => Go.panic .slice
      | .ok (.ok x) => pure (.float x)
      | .ok (.error e) => Go.panic (.user (.str (.arg mark e)))
    | .int64 | .int => match ParseInt tok.lit with
      | .panic => Go.panic .slice
      | .ok (.ok v) => pure (.int v)
      | .ok (.error e) => Go.panic (.user (.str (.arg mark (.num e))))
    | _ => Go.panic (.user (.str (.arg mark .unsupported)))

/-- The arguments behind the receiver (interpreter.go:250-285).  A third parameter that is
neither a `*Context` nor an `interface{}` makes the call panic. -/
def markArgs (L : Lits F) (mark : Str) (params : List ArgTy) (toks : List Token) (g : Gr Str) : Code E X I τ (List (Arg F)) := do
  match params with
  | [] => pure []
  | t :: more =>
    let a ← if isLenMark mark then
        if t = .int then do pure (.len (← Go.len g)) else Go.panic (.user (.str (.notInt mark)))
      else match t with
        | .ctx => do pure (.ctx (← ctxValue toks))
        | .intf => pure (.src toks)
        | .eng => pure .eng
        | t => litArg L mark t toks
    match more with
    | [] => pure [a]
    | t2 :: _ =>
      let c ← ctxValue toks
      if t2 = .ctx ∨ t2 = .intf then pure [a, .ctx c] else Go.panic (.user (.str .reflect))

/-- The body of an action inside the deferred function (interpreter.go:249-300). -/
def Client.perform (c : Client E X I τ F W) (mark : Str) (e : Entry E X I τ F W) (toks : List Token) (g : Gr Str) :
    Code E X I τ Unit := do
  match e with
  | .recv params _ body => body (← markArgs c.lits mark params toks g)
  | .plain fn =>
    match c.callFn with
    | some callFn => callFn fn
    | none =>
      match ← doCall c.refl c.stack fn fn.ins.length with
      | none => pure ()
      | some err => Go.panic (.user (.str (.call mark err)))
  | _ => pure () -- not accepted by the marker

/-- What the deferred function of an action makes of a panic (interpreter.go:225-247). -/
def rewrap (g : Gr Str) (toks : List Token) : Panic Str (IPanic E X) → Panic Str (IPanic E X)
  | .user (.runtime g' src e) => .user (.runtime g' src e)
  | .err (.mismatch g' src e i) => .err (.mismatch g' src e i)
  | .err .varNotAssigned => .user (.runtime g toks .varNotAssigned)
  | .nilDeref => .user (.runtime g toks .nilDeref)
  | .slice => .user (.runtime g toks .slice)
  | .user (.str m) => .user (.runtime g toks (.msg m))
  | .user (.err e) => .user (.runtime g toks (.err e))
  | .user .value => .user (.runtime g toks .value)
  | .user (.other x) => .user (.other x)

/-- Muting (interpreter.go:219-223): the action returns at once. -/
def muted (mute : Int) (mark : Str) : Bool := mute > 0 && (mark.head? != some 95 || mute > 1)

/-- The actions of the engine (interpreter.go:167-181, 218-302). -/
def Client.action (c : Client E X I τ F W) (mark : Str) (g : Gr Str) (toks : List Token) : Code E X I τ Unit := do
  match c.table mark with
  | none =>
    if mark = str "_mute" then Go.modify fun s => { s with mute := s.mute + 1 }
    else if mark = str "_unmute" then Go.modify fun s => { s with mute := s.mute - 1 }
    else pure ()
  | some e =>
    if muted (← Go.get).mute mark then pure ()
    else Go.recover (c.perform mark e toks g) fun p => Go.panic (rewrap g toks p)

/-- The callbacks of the compiled grammar. -/
def Client.sem (c : Client E X I τ F W) : Sem Str (Eng I τ) Unit (IPanic E X) where
  act f m a g toks s := (c.action a g toks).run f m s
  start _ s := .ok () s
  finish _ _ _ s := .ok () s
  act_mono := by intro f f' m m' hf hm a g toks s r h; exact (c.action a g toks).mono f f' m m' hf hm s r h

/-! ### The engine -/

/-- `initer` (interpreter.go:160-162). -/
def Eng.reset (s : Eng I τ) : Eng I τ := { s with mute := 0 }

/-- `Matcher.Init` of the engine; the scanner has tokenized the text by then. -/
def engInit (k : KwScanner) (s : St (Eng I τ)) : Cb Str (Eng I τ) (IPanic E X) Unit :=
  .ok () { s with u := { s.u.reset with scanner := k } }

/-- `Engine.Eval` and `MatchExactly` (match.go:102-118 with `initer`), of an engine whose
compiled grammar is `r`. -/
def Client.eval (c : Client E X I τ F W) (r : CompileRet Str) (U : Uni) (fuel : Nat) (src : Str) (s : St (Eng I τ)) :
    Option (MRes Str (Eng I τ) (IPanic E X) Unit) :=
  let m : Matcher Str (Eng I τ) Unit (IPanic E X) :=
    ⟨r.root, r.mode, engInit (s.u.scanner.tokenize U src r.mode).2, r.env, c.sem⟩
  (m.matchExactly U fuel s.u.scanner src s).1

/-- `New` (interpreter.go:146-320): compile the grammar with the marker. -/
def Client.new (c : Client E X I τ F W) (grammar : Str) (mode : Mode) (U : Uni) (fuel : Nat) : Option (ClRes Str) :=
  Compiler.cl ⟨grammar, c.marker, mode⟩ U fuel KwScanner.zero

/-- `EvalSub` (compiler.go:77-111) as called by the engine.  On a text `Init` is not
called. -/
def engSub (r : CompileRet Str) (U : Uni) (name : Str) (src : SubSrc) : Code E X I τ (Option (SubErr Str)) := do
  match r.tab.grammars.lookup name with
  | none => pure (some (.m .noGrammar))
  | some g =>
    match src with
    | .tokens doc =>
      Go.modify Eng.reset
      match ← Go.match_ g doc with
      | (_, some e) => pure (some (.m (.match_ e)))
      | (n, none) => if doc.length ≠ n then pure (some (.m (.match_ (mismatch .eof doc)))) else pure none
    | .text t =>
      match g with
      | .nil => pure (some (.m .noGrammar))
      | g =>
        match (← Go.get).scanner.tokenize U t r.mode with
        | ((_, some (off, msg)), k) =>
          Go.modify fun s => { s with scanner := k }
          pure (some (.m (.tokenize off msg)))
        | ((toks, none), k) =>
          Go.modify fun s => { s with scanner := k }
          match ← Go.match_ g toks with
          | (_, some e) => pure (some (.m (.match_ e)))
          | (n, none) =>
            if n ≤ toks.length then
              if (toks.drop n).length ≠ 0 then pure (some (.m (.match_ (mismatch .eof (toks.drop n))))) else pure none
            else Go.panic .slice
    | .other => pure (some .unsupported)

/-- `Engine.EvalCode` (interpreter.go:349-358). -/
def evalCode (r : CompileRet Str) (U : Uni) (fn : I) (name : Str) (src : SubSrc) : Code E X I τ (Option (SubErr Str)) := do
  let old ← Go.get
  Go.modify fun s => { s with ipt := fn }
  Go.deferred (engSub r U name src) (Go.modify fun s => { s with ipt := old.ipt, mute := old.mute })

end Tpl
