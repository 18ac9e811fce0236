import Verif.Spec.Lexical

/-
Writing tokens down: the text of a token, and texts in which given tokens are written one after the
other with white space between them.
-/
namespace Tpl.Spec
open Tpl

/-- The text of a token: its literal, which is a newline for an automatic semicolon; for the other
operators their spelling.  Nothing but `..` is read as a token that has neither. -/
def tokenText (t : Token) : Str :=
  if t.lit ≠ [] then t.lit
  else match operators.find? (·.1 = t.kind) with
    | some p => bytes p.2
    | none => [46, 46]

/-- The tokens `ts` written from offset `o` on with white space after each of them: the text, and
the tokens with their new positions.  `nl`: newlines count as white space. -/
inductive LaidOut (nl : Bool) : Nat → List Token → Str → List Token → Prop
  | nil {o} : LaidOut nl o [] [] []
  | cons {o t w ts txt ts'} : w ≠ [] → (∀ b ∈ w, Space nl b) →
      LaidOut nl (o + (tokenText t).length + w.length) ts txt ts' →
      LaidOut nl o (t :: ts) (tokenText t ++ (w ++ txt)) ({ t with pos := o } :: ts')

end Tpl.Spec
