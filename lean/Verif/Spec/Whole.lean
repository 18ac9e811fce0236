import Verif.Spec.Number

/-
The value of whole numbers (C121), as a function.
-/
namespace Tpl.Spec

/-- The value of a whole number: hexadecimal behind `0x`, octal behind `0`, otherwise decimal. -/
def wholeValue : Str → Rat
  | 48 :: c :: ds => if c = 120 ∨ c = 88 then (numeral 16 ds : Nat) else (numeral 8 (c :: ds) : Nat)
  | ds => (numeral 10 ds : Nat)

/-- The number does not begin with a 0, or is 0. -/
def PlainDecimal (x : Str) : Prop := x.head? ≠ some 48 ∨ x = [48]

/-- A hexadecimal number. -/
def Hexadecimal (x : Str) : Prop := ∃ c ds, x = 48 :: c :: ds ∧ (c = 120 ∨ c = 88)

end Tpl.Spec
