import Verif.Spec.Literal

/-
The value of numbers (C119).
-/
namespace Tpl.Spec
open Tpl

/-- The exponent at the end of a number: nothing, or `e`, a sign or none, and digits. -/
inductive ExpValue : Str → Int → Prop
  | none : ExpValue [] 0
  | plus {e sg ds} : e = 101 ∨ e = 69 → sg = [] ∨ sg = [43] → (∀ b ∈ ds, IsDec b) → ds ≠ [] → ExpValue (e :: (sg ++ ds)) (numeral 10 ds)
  | minus {e ds} : e = 101 ∨ e = 69 → (∀ b ∈ ds, IsDec b) → ds ≠ [] → ExpValue (e :: 45 :: ds) (-(numeral 10 ds : Int))

/-- The value of a decimal number: digits, or digits, a point and digits (some digits before or behind
it), and an exponent. -/
inductive DecimalValue : Str → Rat → Prop
  | whole {ds ex e} : (∀ b ∈ ds, IsDec b) → ds ≠ [] → ExpValue ex e → DecimalValue (ds ++ ex) (numeral 10 ds * 10 ^ e)
  | point {ds fs ex e} : (∀ b ∈ ds, IsDec b) → (∀ b ∈ fs, IsDec b) → ds ++ fs ≠ [] → ExpValue ex e →
      DecimalValue (ds ++ 46 :: (fs ++ ex)) ((numeral 10 ds + numeral 10 fs / 10 ^ fs.length) * 10 ^ e)

/-- Digits and points with an exponent without digits. -/
def BareExponent (x : Str) : Prop :=
  ∃ y e sg, x = y ++ e :: sg ∧ (∀ b ∈ y, IsDec b ∨ b = 46) ∧ (e = 101 ∨ e = 69) ∧ (sg = [] ∨ sg = [43] ∨ sg = [45])

/-- The value of a number token. -/
inductive NumberValue (t : Token) : Rat → Prop
  | int {n : Nat} : t.kind = INT → IntValue t.lit n → NumberValue t n
  | float {v} : t.kind = FLOAT → DecimalValue t.lit v → NumberValue t v

end Tpl.Spec
