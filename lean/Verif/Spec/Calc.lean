import Verif.Model.Calc

/-
Arithmetic expressions: what a sequence of tokens means, and its value.
-/
namespace Tpl.Spec
open Tpl
variable {V F : Type}

/-- Expressions. -/
inductive Ex where
  | num (t : Token)
  | name (t : Token)
  | neg (e : Ex)
  | bin (o : BinOp) (a b : Ex)
  | call (f : Token) (args : List Ex)

/-- The rule for a literal, if the token is one. -/
def litRule? (C : Calc V F) (t : Token) : Option (LitRule V F) :=
  C.litRules.find? fun r => t.kind = r.kind ∨ (t.kind = INT ∧ r.kind = FLOAT)

mutual
/-- Level 0: sums, level 1: products, level 2: factors.  Operators of a level associate to
the left, those of a higher level bind tighter. -/
inductive Reads (C : Calc V F) : Nat → List Token → Ex → Prop
  | sum {ts e} : Reads C 1 ts e → Reads C 0 ts e
  | add {ts us a b t} : Reads C 0 ts a → t.kind = 43 → Reads C 1 us b → Reads C 0 (ts ++ t :: us) (.bin .add a b)
  | sub {ts us a b t} : Reads C 0 ts a → t.kind = 45 → Reads C 1 us b → Reads C 0 (ts ++ t :: us) (.bin .sub a b)
  | product {ts e} : Reads C 2 ts e → Reads C 1 ts e
  | mul {ts us a b t o} : Reads C 1 ts a → (t.kind, o) ∈ C.mulOps → Reads C 2 us b → Reads C 1 (ts ++ t :: us) (.bin o a b)
  | num {t r} : litRule? C t = some r → Reads C 2 [t] (.num t)
  | name {t} : t.kind = IDENT → C.ident.isSome → Reads C 2 [t] (.name t)
  | neg {t ts e} : t.kind = 45 → Reads C 2 ts e → Reads C 2 (t :: ts) (.neg e)
  | pos {t ts e} : t.kind = 43 → Reads C 2 ts e → Reads C 2 (t :: ts) e
  | paren {t ts t' e} : t.kind = 40 → Reads C 0 ts e → t'.kind = 41 → Reads C 2 (t :: (ts ++ [t'])) e
  | call {f t ts t' es} : f.kind = IDENT → t.kind = 40 → ReadsArgs C ts es → t'.kind = 41 →
      Reads C 2 (f :: t :: (ts ++ [t'])) (.call f es)
/-- Arguments, separated by commas. -/
inductive ReadsArgs (C : Calc V F) : List Token → List Ex → Prop
  | nil : ReadsArgs C [] []
  | some {ts us e es} : Reads C 0 ts e → ReadsMore C us es → ReadsArgs C (ts ++ us) (e :: es)
inductive ReadsMore (C : Calc V F) : List Token → List Ex → Prop
  | nil : ReadsMore C [] []
  | cons {t ts us e es} : t.kind = 44 → Reads C 0 ts e → ReadsMore C us es → ReadsMore C (t :: (ts ++ us)) (e :: es)
end

/-- The number a literal stands for. -/
def litValue (C : Calc V F) (t : Token) : Except Fault V :=
  match litRule? C t with
  | none => .error .value
  | some r => match r.ty with
    | .string => r.push (.str t.lit)
    | .float64 => match ParseFloat C.lits t.lit with
      | .ok (.ok x) => r.push (.float x)
      | .ok (.error e) => .error (.msg (.arg r.mark e))
      | .panic => .error .slice
    | _ => .error .value

/-- The function `f`, found under `name`, applied to values. -/
def applyFn (f : Option (CalcFn V)) (name : Str) (vs : List V) : Except Fault V :=
  match f with
  | none => .error (.err (.notFound name))
  | some f =>
    if f.variadic then
      if vs.length < f.params then .error (.err (.failed name .notEnough)) else f.body vs
    else if vs.length ≠ f.params then .error (.err (.failed name (.count f.params vs.length))) else f.body vs

/-- The function `name` applied to values. -/
def apply (C : Calc V F) (name : Str) (vs : List V) : Except Fault V := applyFn (C.fns name) name vs

mutual
/-- The value of an expression; parts are evaluated from left to right. -/
def Ex.eval (C : Calc V F) : Ex → Except Fault V
  | .num t => litValue C t
  | .name t => match C.ident with
    | some f => f t.lit
    | none => .error .value
  | .neg e => (e.eval C).bind C.neg
  | .bin o a b => (a.eval C).bind fun x => (b.eval C).bind fun y => C.bin o x y
  | .call f args => (evalArgs C args).bind fun vs => apply C f.lit vs
def evalArgs (C : Calc V F) : List Ex → Except Fault (List V)
  | [] => .ok []
  | e :: es => (e.eval C).bind fun v => (evalArgs C es).bind fun vs => .ok (v :: vs)
end

/-! ### The value of an expression for each of the packages

The same without reference to the tables of the packages (but for the functions). -/

mutual
/-- Package number. -/
def numberValue (M : Float64 F) : Ex → Except Fault F
  | .num t => match ParseFloat M.lits t.lit with
    | .ok (.ok x) => .ok x
    | .ok (.error e) => .error (.msg (.arg (str "push") e))
    | .panic => .error .slice
  | .name t =>
    if t.lit = str "e" then .ok M.e
    else if t.lit = str "pi" then .ok M.pi
    else if t.lit = str "phi" then .ok M.phi
    else if t.lit = str "Inf" then .ok M.inf
    else if t.lit = str "NaN" then .ok M.nan
    else .error (.msg (.text (str "undefined symbol: " ++ t.lit)))
  | .neg e => (numberValue M e).bind fun x => .ok (M.neg x)
  | .bin o a b => (numberValue M a).bind fun x => (numberValue M b).bind fun y => .ok (match o with
    | .mul => M.mul x y
    | .quo => M.quo x y
    | .mod => M.mod x y
    | .add => M.add x y
    | .sub => M.sub x y)
  | .call f args => (numberValues M args).bind fun vs => applyFn (numberFns M f.lit) f.lit vs
def numberValues (M : Float64 F) : List Ex → Except Fault (List F)
  | [] => .ok []
  | e :: es => (numberValue M e).bind fun v => (numberValues M es).bind fun vs => .ok (v :: vs)
end

/-- The functions of package rat. -/
def ratCall (name : Str) (vs : List Rat) : Except Fault Rat :=
  let one (f : Rat → Except Fault Rat) : Except Fault Rat := match vs with
    | [x] => f x
    | vs => .error (.err (.failed name (.count 1 vs.length)))
  if name = str "abs" then one fun x => .ok x.abs
  else if name = str "inv" then one fun x => if x = 0 then .error (.msg (.text (str "division by zero"))) else .ok (1 / x)
  else if name = str "max" then .ok (vs.max?.getD 0)
  else if name = str "min" then .ok (vs.min?.getD 0)
  else if name = str "denom" then one fun x => .ok x.den
  else if name = str "num" then one fun x => .ok x.num
  else .error (.err (.notFound name))

mutual
/-- Package rat; `lit` are the values of literals. -/
def ratValue (lit : Str → Rat) : Ex → Except Fault Rat
  | .num t => .ok (lit t.lit)
  | .name _ => .error .value
  | .neg e => (ratValue lit e).bind fun x => .ok (-x)
  | .bin o a b => (ratValue lit a).bind fun x => (ratValue lit b).bind fun y => match o with
    | .mul => .ok (x * y)
    | .quo => if y = 0 then .error (.msg (.text (str "division by zero"))) else .ok (x / y)
    | .mod => .error .value
    | .add => .ok (x + y)
    | .sub => .ok (x - y)
  | .call f args => (ratValues lit args).bind fun vs => ratCall f.lit vs
def ratValues (lit : Str → Rat) : List Ex → Except Fault (List Rat)
  | [] => .ok []
  | e :: es => (ratValue lit e).bind fun v => (ratValues lit es).bind fun vs => .ok (v :: vs)
end

mutual
/-- All literals of an expression. -/
def Ex.AllNums (P : Token → Prop) : Ex → Prop
  | .num t => P t
  | .name _ => True
  | .neg e => e.AllNums P
  | .bin _ a b => a.AllNums P ∧ b.AllNums P
  | .call _ args => allNums P args
def allNums (P : Token → Prop) : List Ex → Prop
  | [] => True
  | e :: es => e.AllNums P ∧ allNums P es
end

variable {Z : Type}

mutual
/-- Package cmplx: a literal of kind IMAG is the number before its last character, times
the imaginary unit. -/
def cmplxValue (M : Complex128 F Z) : Ex → Except Fault Z
  | .num t =>
    if t.kind = IMAG then
      if t.lit = [] then .error .slice else .ok (M.ofImag (M.parseAny t.lit.dropLast))
    else match ParseFloat M.lits t.lit with
      | .ok (.ok x) => .ok (M.ofReal x)
      | .ok (.error e) => .error (.msg (.arg (str "push") e))
      | .panic => .error .slice
  | .name _ => .error .value
  | .neg e => (cmplxValue M e).bind fun x => .ok (M.neg x)
  | .bin o a b => (cmplxValue M a).bind fun x => (cmplxValue M b).bind fun y => match o with
    | .mul => .ok (M.mul x y)
    | .quo => .ok (M.quo x y)
    | .mod => .error .value
    | .add => .ok (M.add x y)
    | .sub => .ok (M.sub x y)
  | .call f args => (cmplxValues M args).bind fun vs => applyFn (cmplxFns M f.lit) f.lit vs
def cmplxValues (M : Complex128 F Z) : List Ex → Except Fault (List Z)
  | [] => .ok []
  | e :: es => (cmplxValue M e).bind fun v => (cmplxValues M es).bind fun vs => .ok (v :: vs)
end

end Tpl.Spec
