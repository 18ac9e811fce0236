import Verif.Spec.Errors
import Verif.Spec.Share
import Verif.Spec.TplText

/-
Vocabulary for texts that have the same tokens at different places.
-/
namespace Tpl.Spec
variable {A σ V P : Type}

/-- A token without its position. -/
def kindLit (t : Token) : Nat × Str := (t.kind, t.lit)

/-- `Tokenize` accepts both texts and reads tokens of the same kinds with the same literals. -/
def SameText (U : Uni) (k : KwScanner) (mode : Mode) (src src' : Str) : Prop :=
  ∃ ts eof ts' eof', Tokenizes U k src mode ts eof ∧ Tokenizes U k src' mode ts' eof' ∧ ts.map kindLit = ts'.map kindLit

/-- The callbacks do not look at the positions of tokens. -/
structure PlaceBlind (sem : Sem A σ V P) : Prop where
  act : ∀ f m m' a g ts ts' s,
    (∀ g ts ts' s, ts.map kindLit = ts'.map kindLit → SameRes (m g ts s) (m' g ts' s)) → ts.map kindLit = ts'.map kindLit →
    SameCb (sem.act f m a g ts s) (sem.act f m' a g ts' s)
  finish : ∀ a v e e' s, SameCb (some (sem.finish a v (some e) s)) (some (sem.finish a v (some e') s))

/-- The scanner `k` with the text, the position and the errors of `k'`. -/
def atText (k k' : KwScanner) : KwScanner := { k with sc := k'.sc }

end Tpl.Spec
