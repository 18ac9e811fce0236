import Verif.Model.Interp

/-
Model of the calculators tpl/number/number.go, tpl/rat/big.go and tpl/cmplx/cmplx.go:
interpreters (clients of the engine) that work on a stack of numbers.

The three differ in the type of numbers, in the literals they know, in `%` and in
constants.  `Calc` holds what differs; the code they share is modelled once.

Simplifications:
* `float64` and `complex128` are parameters with their operations; `*big.Rat` is
  `Option Rat` (the nil pointer is `none`).
* The functions of the tables take and return numbers of the type of the stack, as all of
  them do; other types that `PushRet` converts do not occur.
* A function that returns a value and one that panics are the two cases of `Except`.
-/
namespace Tpl

/-- Errors of the calculators (number.go:29-32 and Call, 233-246). -/
inductive CalcErr where
  | unsupportedRet
  | withoutArity
  | notFound (name : Str)
  | failed (name : Str) (e : CallErr CalcErr)

/-- What a function of a calculator panics with: a string, or an error. -/
abbrev Fault := Cause CalcErr

/-- The panic that has this cause. -/
def Cause.panic {E X : Type} : Cause E → Panic Str (IPanic E X)
  | .msg m => .user (.str m)
  | .err e => .user (.err e)
  | .value => .user .value
  | .nilDeref => .nilDeref
  | .slice => .slice
  | .varNotAssigned => .err .varNotAssigned

/-- A function of the table: number of parameters (without the last one if it is
variadic), and what it does. -/
structure CalcFn (V : Type) where
  params : Nat
  variadic : Bool
  body : List V → Except Fault V

inductive BinOp where
  | mul | quo | mod | add | sub
deriving DecidableEq, Repr

/-- Their marks. -/
def BinOp.mark : BinOp → Str
  | .mul => str "mul"
  | .quo => str "quo"
  | .mod => str "mod"
  | .add => str "add"
  | .sub => str "sub"

/-- A literal `KIND/mark`: the parameter type of the function `$mark`, and the number it
pushes. -/
structure LitRule (V F : Type) where
  kind : Nat
  mark : Str
  ty : ArgTy
  push : Arg F → Except Fault V

/-- A calculator with numbers of type `V`. -/
structure Calc (V F : Type) where
  /-- the Go type of numbers -/
  ty : GoTy
  lits : Lits F
  litRules : List (LitRule V F)
  /-- the operators of a term -/
  mulOps : List (Nat × BinOp)
  /-- constants, if there are any -/
  ident : Option (Str → Except Fault V)
  neg : V → Except Fault V
  bin : BinOp → V → V → Except Fault V
  /-- the functions of the table -/
  fns : Str → Option (CalcFn V)
  ofArity : Int → V
  /-- the count that `Call` gets from the top of the stack -/
  toArity : V → Except Fault Int

namespace Calc
variable {V F : Type}

/-- State: the stack, bottom first. -/
abbrev Eng (V : Type) := Tpl.Eng Unit (List V)

abbrev Code (V α : Type) := Tpl.Code CalcErr Empty Unit (List V) α

def lift {α : Type} : Except Fault α → Code V α
  | .ok a => pure a
  | .error c => Go.panic c.panic

/-- `Stack` (number.go:112-192, big.go:108-173, cmplx.go:95-180). -/
def stack : SliceStack (List V) V V CalcErr where
  get u := u
  set l _ := l
  view v := v
  conv w := .ok w
  get_set _ _ := rfl
  set_get _ := rfl
  set_set _ _ _ := rfl

/-- `Stack.Push` (number.go:125-128, big.go:121-124, cmplx.go:107-110). -/
def push (v : V) : Code V Unit := Go.modify (Eng.onStack stack (· ++ [v]))

/-- `Stack.Pop` (number.go:150-158, big.go:138-146, cmplx.go:123-131). -/
def pop : Code V (Option V) := do
  match (← Go.get).u.getLast? with
  | none => pure none
  | some v =>
    Go.modify (Eng.onStack stack List.dropLast)
    pure (some v)

/-- Reflection: there is one type only. -/
def refl (C : Calc V F) : Reflect V := ⟨fun _ => C.ty, fun _ t => t = C.ty, fun _ => C.ofArity 0, id⟩

/-- A function of the table as a Go function. -/
def goFn (C : Calc V F) (f : CalcFn V) : GoFn (Go Str (Eng V) (IPanic CalcErr Empty)) V where
  ins := List.replicate f.params C.ty
  rest := if f.variadic then some C.ty else none
  body ws := do pure [← lift (f.body ws)]

/-- `Neg` (number.go:36, big.go:56, cmplx.go:42) and the operators (number.go:40-54,
big.go:60-74, cmplx.go:46-60) as functions of the table. -/
def negFn (C : Calc V F) : CalcFn V := ⟨1, false, fun
  | [x] => C.neg x
  | _ => .error .value⟩

def binFn (C : Calc V F) (o : BinOp) : CalcFn V := ⟨2, false, fun
  | [x, y] => C.bin o x y
  | _ => .error .value⟩

/-- `Calculator.Call` (number.go:233-246, big.go:214-227, cmplx.go:205-218). -/
def callFn (C : Calc V F) (name : Str) : Code V Unit := do
  match C.fns name with
  | none => Go.panic (.user (.err (.notFound name)))
  | some fn =>
    match ← pop with
    | none => Go.panic (.user (.err .withoutArity))
    | some a =>
      let n ← lift (C.toArity a)
      match ← call C.refl stack.iface (C.goFn fn) n with
      | none => pure ()
      | some e => Go.panic (.user (.err (.failed name e)))

/-- `$push` and `$pushi`: (number.go:125-128, big.go:132-136, cmplx.go:107-121). -/
def litBody (r : LitRule V F) : List (Arg F) → Code V Unit
  | [a] => do push (← lift (r.push a))
  | _ => pure ()

/-- `Arity` (number.go:194-197, big.go:175-178, cmplx.go:182-185). -/
def arityBody (C : Calc V F) : List (Arg F) → Code V Unit
  | [.len n] => push (C.ofArity n)
  | _ => pure ()

def callBody (C : Calc V F) : List (Arg F) → Code V Unit
  | [.str name] => C.callFn name
  | _ => pure ()

/-- `PushIdent` (number.go:130-148). -/
def identBody (f : Str → Except Fault V) : List (Arg F) → Code V Unit
  | [.str name] => do push (← lift (f name))
  | _ => pure ()

/-- The entries `$mark` of the tables (number.go:308-317, big.go:245-252, cmplx.go). -/
def table (C : Calc V F) (mark : Str) : Option (Entry CalcErr Empty Unit (List V) F V) :=
  match C.litRules.find? (·.mark = mark) with
  | some r => some (.recv [r.ty] true (litBody r))
  | none =>
    if mark = str "neg" then some (.plain (C.goFn C.negFn))
    else match ((C.mulOps.map (·.2)) ++ [BinOp.add, .sub]).find? (·.mark = mark) with
    | some o => some (.plain (C.goFn (C.binFn o)))
    | none =>
      if mark = str "ARITY" then some (.recv [.int] true C.arityBody)
      else if mark = str "call" then some (.recv [.string] true C.callBody)
      else match C.ident with
      | some f => if mark = str "ident" then some (.recv [.string] true (identBody f)) else none
      | none => none

/-- The calculator as client of the engine. -/
def client (C : Calc V F) : Client CalcErr Empty Unit (List V) F V where
  table := C.table
  stack := stack.iface
  callFn := none
  lits := C.lits
  refl := C.refl

/-! ### The grammar

What the compiler makes of the texts `Grammar` (shown below). -/

/-- `term = factor *('*' factor/mul | ...)` -/
def term (C : Calc V F) : Gr Str :=
  .and [.var 0, .rep0 0 (.or (C.mulOps.map fun p => .and [.tok p.1, .action p.2.mark (.var 0)]))]

/-- `doc = term *('+' term/add | '-' term/sub)` -/
def doc (C : Calc V F) : Gr Str :=
  .and [.named (str "term") C.term, .rep0 1 (.or [
    .and [.tok 43, .action (str "add") (.named (str "term") C.term)],
    .and [.tok 45, .action (str "sub") (.named (str "term") C.term)]])]

def litAlts (C : Calc V F) : List (Gr Str) := C.litRules.map fun r => .action r.mark (.tok r.kind)
def negAlt : Gr Str := .and [.tok 45, .action (str "neg") (.var 0)]
def parenAlt (C : Calc V F) : Gr Str := .and [.tok 40, .named (str "doc") C.doc, .tok 41]
def callAlt (C : Calc V F) : Gr Str :=
  .action (str "call") (.and [.tok IDENT, .tok 40, .action (str "ARITY") (.list 2 (.named (str "doc") C.doc) (.tok 44) true), .tok 41])
def identAlts (C : Calc V F) : List (Gr Str) := match C.ident with
  | some _ => [.action (str "ident") (.tok IDENT)]
  | none => []
def posAlt : Gr Str := .and [.tok 43, .var 0]

/-- `factor = FLOAT/push | '-' factor/neg | '(' doc ')' | (IDENT '(' doc %= ','/ARITY ')')/call | ...` -/
def factor (C : Calc V F) : Gr Str :=
  .or (C.litAlts ++ (negAlt :: C.parenAlt :: C.callAlt :: (C.identAlts ++ [posAlt])))

def env (C : Calc V F) : Env Str := fun v => if v = 0 then some C.factor else none

/-- `Ret` (number.go:226-231, big.go:207-212, cmplx.go:198-203): the value, and the stack
is cleared. -/
def ret (stk : List V) : Option V × List V := (stk.getLast?, [])

end Calc

/-! ### Package number -/

/-- float64 with the functions of package math used; `gt` is `>`. -/
structure Float64 (F : Type) where
  lits : Lits F
  neg : F → F
  add : F → F → F
  sub : F → F → F
  mul : F → F → F
  quo : F → F → F
  /-- `math.Mod` -/
  mod : F → F → F
  gt : F → F → Bool
  e : F
  pi : F
  phi : F
  inf : F
  nan : F
  /-- `float64(n)` and `int(x)` -/
  ofInt : Int → F
  toInt : F → Int
  zero : F
  /-- the other functions of the table -/
  fn : Str → List F → F

variable {F V : Type}

/-- The loop of `Max` and `Min`: `better x y` if `x` replaces `y`
(number.go:80-108, big.go:76-104). -/
def pickBest {α : Type} (better : α → α → Bool) : α → List α → α
  | best, [] => best
  | best, x :: xs => pickBest better (if better x best then x else best) xs

/-- `Max` (number.go:80-93). -/
def Float64.max (M : Float64 F) : List F → F
  | [] => M.zero
  | x :: xs => pickBest M.gt x xs

/-- `Min` (number.go:95-108). -/
def Float64.min (M : Float64 F) : List F → F
  | [] => M.zero
  | x :: xs => pickBest (fun a b => M.gt b a) x xs

def numberUnary : List Str := ["abs", "acos", "acosh", "asin", "asinh", "atan", "atanh", "cbrt", "ceil", "cos", "cosh",
  "erf", "erfc", "exp", "exp2", "expm1", "floor", "gamma", "inf", "j0", "j1", "ln", "log", "log10", "log1p", "log2", "logb", "pow10",
  "sin", "sinh", "sqrt", "tan", "tanh", "trunc", "y0", "y1"].map str

def numberBinary : List Str := ["atan2", "copysign", "dim", "hypot", "jn", "ldexp", "mod", "nextafter", "pow", "remainder", "yn"].map str

/-- `Fntable` (number.go:256-306), without the entries for marks. -/
def numberFns (M : Float64 F) (name : Str) : Option (CalcFn F) :=
  if name = str "max" then some ⟨0, true, fun vs => .ok (M.max vs)⟩
  else if name = str "min" then some ⟨0, true, fun vs => .ok (M.min vs)⟩
  else if name = str "NaN" then some ⟨0, false, fun _ => .ok M.nan⟩
  else if name ∈ numberUnary then some ⟨1, false, fun vs => .ok (M.fn name vs)⟩
  else if name ∈ numberBinary then some ⟨2, false, fun vs => .ok (M.fn name vs)⟩
  else none

/-- `PushIdent` (number.go:130-148). -/
def numberIdent (M : Float64 F) (v : Str) : Except Fault F :=
  if v = str "e" then .ok M.e
  else if v = str "pi" then .ok M.pi
  else if v = str "phi" then .ok M.phi
  else if v = str "Inf" then .ok M.inf
  else if v = str "NaN" then .ok M.nan
  else .error (.msg (.text (str "undefined symbol: " ++ v)))

/-- Package number. -/
def number (M : Float64 F) : Calc F F where
  ty := GoTy.float64
  lits := M.lits
  litRules := [⟨FLOAT, str "push", .float64, fun
    | .float x => .ok x
    | _ => .error .value⟩]
  mulOps := [(42, .mul), (47, .quo), (37, .mod)]
  ident := some (numberIdent M)
  neg x := .ok (M.neg x)
  bin o x y := .ok (match o with
    | .mul => M.mul x y
    | .quo => M.quo x y
    | .mod => M.mod x y
    | .add => M.add x y
    | .sub => M.sub x y)
  fns := numberFns M
  ofArity := M.ofInt
  toArity x := .ok (M.toInt x)

/-- The text `Grammar` (number.go:14-27). -/
def numberGrammar : Str := str "

term = factor *('*' factor/mul | '/' factor/quo | '%' factor/mod)

doc = term *('+' term/add | '-' term/sub)

factor =
	FLOAT/push |
	'-' factor/neg |
	'(' doc ')' |
	(IDENT '(' doc %= ','/ARITY ')')/call |
	IDENT/ident |
	'+' factor
"

/-! ### Package rat -/

/-- Operations of math/big: a nil pointer panics. -/
def ratOp2 (f : Rat → Rat → Except Fault Rat) : Option Rat → Option Rat → Except Fault (Option Rat)
  | some x, some y => (f x y).map some
  | _, _ => .error .nilDeref

def ratOp1 (f : Rat → Except Fault Rat) : Option Rat → Except Fault (Option Rat)
  | some x => (f x).map some
  | none => .error .nilDeref

/-- `Rat.Quo` panics for 0. -/
def ratQuo (x y : Rat) : Except Fault Rat :=
  if y = 0 then .error (.msg (.text (str "division by zero"))) else .ok (x / y)

/-- The loop of `Max` and `Min` (big.go:82-88, 97-103); `Cmp` of a nil pointer panics. -/
def ratPick (better : Rat → Rat → Bool) : Option Rat → List (Option Rat) → Except Fault (Option Rat)
  | best, [] => .ok best
  | some best, some x :: xs => ratPick better (if better x best then some x else some best) xs
  | _, _ => .error .nilDeref

/-- `Max` (big.go:76-89). -/
def ratMax : List (Option Rat) → Except Fault (Option Rat)
  | [] => .ok (some 0)
  | x :: xs => ratPick (fun a b => decide (b < a)) x xs

/-- `Min` (big.go:91-104). -/
def ratMin : List (Option Rat) → Except Fault (Option Rat)
  | [] => .ok (some 0)
  | x :: xs => ratPick (fun a b => decide (a < b)) x xs

/-- `Fntable` (big.go:237-243), without the entries for marks. -/
def ratFns (name : Str) : Option (CalcFn (Option Rat)) :=
  let one (f : Rat → Except Fault Rat) : Option (CalcFn (Option Rat)) := some ⟨1, false, fun
    | [x] => ratOp1 f x
    | _ => .error .value⟩
  if name = str "abs" then one fun x => .ok (if x < 0 then -x else x)
  else if name = str "inv" then one fun x => ratQuo 1 x
  else if name = str "max" then some ⟨0, true, ratMax⟩
  else if name = str "min" then some ⟨0, true, ratMin⟩
  else if name = str "denom" then one fun x => .ok x.den
  else if name = str "num" then one fun x => .ok x.num
  else none

/-- Package rat; `setString` is `(*big.Rat).SetString`.  Its failure is ignored: the nil
pointer is pushed (big.go:132-136). -/
def rat (L : Lits F) (setString : Str → Option Rat) : Calc (Option Rat) F where
  ty := ⟨22, 1⟩
  lits := L
  litRules := [⟨INT, str "push", .string, fun
    | .str s => .ok (setString s)
    | _ => .error .value⟩]
  mulOps := [(42, .mul), (47, .quo)]
  ident := none
  neg := ratOp1 fun x => .ok (-x)
  bin o := ratOp2 (match o with
    | .mul => fun x y => .ok (x * y)
    | .quo => ratQuo
    | .mod => fun _ _ => .error .value -- not in the table
    | .add => fun x y => .ok (x + y)
    | .sub => fun x y => .ok (x - y))
  fns := ratFns
  ofArity n := some n
  toArity
    | none => .error .nilDeref
    | some x => if x.den = 1 then .ok x.num else .error (.err .withoutArity)

/-- The text `Grammar` (big.go:14-26). -/
def ratGrammar : Str := str "

term = factor *('*' factor/mul | '/' factor/quo)

doc = term *('+' term/add | '-' term/sub)

factor =
	INT/push |
	'-' factor/neg |
	'(' doc ')' |
	(IDENT '(' doc %= ','/ARITY ')')/call |
	'+' factor
"

/-! ### Package cmplx -/

/-- complex128 with the functions of package math/cmplx used. -/
structure Complex128 (F Z : Type) where
  lits : Lits F
  ofReal : F → Z
  /-- `complex(0, x)` -/
  ofImag : F → Z
  /-- what `strconv.ParseFloat` returns for a text, with or without an error -/
  parseAny : Str → F
  neg : Z → Z
  add : Z → Z → Z
  sub : Z → Z → Z
  mul : Z → Z → Z
  quo : Z → Z → Z
  isReal : Z → Bool
  /-- `complex(float64(n), 0)` and `int(real(z))` -/
  ofInt : Int → Z
  toInt : Z → Int
  fn : Str → List Z → Z

variable {Z : Type}

def cmplxNullary : List Str := ["inf", "NaN"].map str

def cmplxUnary : List Str := ["abs", "acos", "acosh", "asin", "asinh", "atan", "atanh", "conj", "cos", "cosh", "cot", "exp", "log",
  "log10", "phase", "sin", "sinh", "sqrt", "tan", "tanh", "real", "imag"].map str

/-- `Fntable` (cmplx.go:230-262), without the entries for marks; `Rect` (cmplx.go:66-71)
and `Complex` (cmplx.go:83-88) want real arguments. -/
def cmplxFns (M : Complex128 F Z) (name : Str) : Option (CalcFn Z) :=
  if name ∈ cmplxNullary then some ⟨0, false, fun vs => .ok (M.fn name vs)⟩
  else if name ∈ cmplxUnary then some ⟨1, false, fun vs => .ok (M.fn name vs)⟩
  else if name = str "pow" then some ⟨2, false, fun vs => .ok (M.fn name vs)⟩
  else if name = str "rect" ∨ name = str "complex" then some ⟨2, false, fun vs =>
    if vs.all M.isReal then .ok (M.fn name vs)
    else .error (.msg (.text (str "function `" ++ name ++ str "` argument type must be `float64`")))⟩
  else none

/-- Package cmplx.  `PushImag` (cmplx.go:117-121) ignores the error of
`strconv.ParseFloat`; `v[:len(v)-1]` panics for the empty text. -/
def cmplx (M : Complex128 F Z) : Calc Z F where
  ty := ⟨16, 0⟩
  lits := M.lits
  litRules := [⟨FLOAT, str "push", .float64, fun
      | .float x => .ok (M.ofReal x)
      | _ => .error .value⟩,
    ⟨IMAG, str "pushi", .string, fun
      | .str s => if s = [] then .error .slice else .ok (M.ofImag (M.parseAny s.dropLast))
      | _ => .error .value⟩]
  mulOps := [(42, .mul), (47, .quo)]
  ident := none
  neg x := .ok (M.neg x)
  bin o x y := match o with
    | .mul => .ok (M.mul x y)
    | .quo => .ok (M.quo x y)
    | .mod => .error .value -- not in the table
    | .add => .ok (M.add x y)
    | .sub => .ok (M.sub x y)
  fns := cmplxFns M
  ofArity := M.ofInt
  toArity x := if M.isReal x then .ok (M.toInt x) else .error (.err .withoutArity)

/-- The text `Grammar` (cmplx.go:15-28). -/
def cmplxGrammar : Str := str "

term = factor *('*' factor/mul | '/' factor/quo)

doc = term *('+' term/add | '-' term/sub)

factor =
	FLOAT/push |
	IMAG/pushi |
	'-' factor/neg |
	'(' doc ')' |
	(IDENT '(' doc %= ','/ARITY ')')/call |
	'+' factor
"

end Tpl
