import Verif.Spec.Lexical

/-
What the message of an error shows of the text.
-/
namespace Tpl.Spec

/-- `x` is what a message shows of `all`, the text from the first token of the error to the end, if
the tokens the error is about end before the offset `reach` of it: everything if that is less than nine lines, otherwise
nine lines, or up to `reach` if that is more. -/
inductive Excerpt (all : Str) (reach : Nat) : Str → Prop
  | all : all.count 10 < 9 → Excerpt all reach all
  | lines {x} : x <+: all → x.count 10 = 9 → x.getLast? = some 10 → reach ≤ x.length → Excerpt all reach x
  | token {x} : x <+: all → 9 ≤ x.count 10 → x.length = reach → Excerpt all reach x

end Tpl.Spec
