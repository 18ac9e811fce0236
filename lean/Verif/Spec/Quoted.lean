import Verif.Spec.Lexical
import Verif.Spec.TplText

/-
What a quoted text in a grammar stands for (C117).
-/
namespace Tpl.Spec
open Tpl

/-- The factor of a grammar quotes the text `w`: `'w'`, or `"w"` if `double`. -/
inductive Quotes : Fac → Bool → Str → Prop
  | char (w) : Quotes (.char (39 :: (w ++ [39]))) false w
  | string (w) : Quotes (.string (34 :: (w ++ [34]))) true w

/-- The token is an identifier or an operator, and `w` is how it is spelled.  The automatic
semicolon is spelled `;`. -/
def SpelledAs (w : Str) (t : Token) : Prop :=
  (t.kind = IDENT ∧ t.lit = w) ∨ ∃ s, (t.kind, s) ∈ operators ∧ w = bytes s

/-- `w` is an operator of one character. -/
def OneChar (w : Str) : Prop := ∃ k s, (k, s) ∈ operators ∧ s.length = 1 ∧ w = bytes s

end Tpl.Spec
