import Verif.Model.Builtin

/-
What the operators and the slice and map literals of qlang should do.
-/
namespace Tpl.Spec
open Tpl Qlang
variable {F : Type}

/-! ### Integers -/

/-- In the range of a signed 64 bit integer. -/
def Is64 (n : Int) : Prop := -2 ^ 63 ≤ n ∧ n < 2 ^ 63

/-- `r` is `x` reduced to 64 bits: the only integer in range that differs from `x` by a
multiple of `2 ^ 64`. -/
def Reduced (x r : Int) : Prop := Is64 r ∧ ∃ k : Int, r = x + k * 2 ^ 64

/-- `q` and `m` are quotient and remainder of a division that truncates. -/
structure Truncated (a b q m : Int) : Prop where
  eq : q * b + m = a
  small : m.natAbs < b.natAbs
  pos : 0 ≤ a → 0 ≤ m
  neg : a ≤ 0 → m ≤ 0

/-- Ints and floats. -/
inductive IsNum : QVal F → Prop
  | int n : IsNum (.int n)
  | float x : IsNum (.float x)

inductive IsStr : QVal F → Prop
  | str s : IsStr (.str s)

/-- The operators with two operands. -/
inductive Op2 where
  | add | sub | mul | quo | mod

def Op2.apply (M : Fl F) : Op2 → QVal F → QVal F → Except (QPanic F) (QVal F)
  | .add => Add M
  | .sub => Sub M
  | .mul => Mul M
  | .quo => Quo M
  | .mod => Mod

/-- The operand types an operator is defined for. -/
def Op2.defined : Op2 → QVal F → QVal F → Prop
  | .add, a, b => (IsNum a ∧ IsNum b) ∨ (IsStr a ∧ IsStr b)
  | .mod, a, b => (∃ n, a = .int n) ∧ ∃ n, b = .int n
  | _, a, b => IsNum a ∧ IsNum b

/-- The number of a float or int. -/
def toFloat (M : Fl F) : QVal F → F
  | .float x => x
  | .int n => M.lits.ofInt n
  | _ => M.lits.ofInt 0

/-! ### Lists of values -/

def AllInt (vs : List (QVal F)) : Prop := ∀ v ∈ vs, ∃ n, v = .int n
def AllStr (vs : List (QVal F)) : Prop := ∀ v ∈ vs, IsStr v
/-- Numbers, and a float among them. -/
def SomeFloat (vs : List (QVal F)) : Prop := (∀ v ∈ vs, IsNum v) ∧ ∃ x, .float x ∈ vs

/-- The type of the elements of a literal. -/
inductive Common : List (QVal F) → Ty → Prop
  | int {vs} : vs ≠ [] → AllInt vs → Common vs .int
  | float {vs} : SomeFloat vs → Common vs .float
  | string {vs} : vs ≠ [] → AllStr vs → Common vs .string
  | var {vs} : (vs = [] ∨ ¬ AllInt vs) → ¬ SomeFloat vs → (vs = [] ∨ ¬ AllStr vs) → Common vs .var

/-- A value as element of a literal with this type. -/
def asElem (M : Fl F) : Ty → QVal F → QVal F
  | .float, v => .float (toFloat M v)
  | _, v => v

/-! ### Maps -/

/-- The arguments `mapFrom(k1, v1, k2, v2, ...)`. -/
def mapArgs {α : Type} (key : α → QVal F) : List (α × QVal F) → List (QVal F)
  | [] => []
  | (k, v) :: l => key k :: v :: mapArgs key l

/-- The entries of the literal.  In a map that takes all values the undefined value leaves an
entry out. -/
def entriesOf {α : Type} (M : Fl F) : Ty → List (α × QVal F) → List (α × QVal F)
  | .var, l => l.filter fun p => !(p.2 matches .undefined)
  | t, l => l.map fun p => (p.1, asElem M t p.2)

/-- The last value given for a key. -/
def lastOf {α β : Type} [DecidableEq α] (k : α) : List (α × β) → Option β
  | [] => none
  | (k', v) :: l => match lastOf k l with
    | some w => some w
    | none => if k' = k then some v else none

/-! ### Symbols -/

/-- Symbol tables that a sequence of imports leads to, whether they panic or not.  Go ranges
over a map in any order; `table` is that order. -/
inductive Imports {α : Type} (mk : List (Str × Sym α) → α) : (Str → Option (Sym α)) → (Str → Option (Sym α)) → Prop
  | none tab : Imports mk tab tab
  | import_ {tab tab' tab'' : Str → Option (Sym α)} {r : Option Str} (mod : Str) (table : List (Str × Sym α)) :
    Import mk tab mod table = (r, tab') → Imports mk tab' tab'' → Imports mk tab tab''

/-- A symbol that is not a placeholder. -/
def Taken {α : Type} (tab : Str → Option (Sym α)) (n : Str) : Prop := ∃ a, tab n = some (.def_ a)

end Tpl.Spec
