import Verif.Model.Strconv

/-
Model of `(*big.Rat).SetString` of package math/big, as far as package rat uses it: for texts that
are neither fractions nor numbers with the prefixes `0b` and `0o`, a hexadecimal point or a binary
exponent, or underscores.  (No INT token of TPL text is written so.)
-/
namespace Tpl

/-- `(*big.Rat).SetString`; `none` if it fails.  `prefixes`: Go 1.14 and later read `0x10` as 16,
before that it is an error.  A leading 0 has no meaning. -/
def setRat (prefixes : Bool) (s : Str) : Option Rat :=
  match s with
  | 48 :: c :: ds =>
    if prefixes ∧ (c = 120 ∨ c = 88) then (parseUint 16 ds).map fun n : Nat => (n : Rat)
    else readFloat s
  | s => readFloat s

end Tpl
