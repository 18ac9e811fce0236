import Verif.Spec.TplText
import Verif.Spec.Share
import Verif.Spec.Trace

/-
Vocabulary for the order of rules in a grammar text (C126).
-/
namespace Tpl.Spec
variable {A B σ V P α : Type}

/-- What the marker does with a mark does not depend on the grammar that is marked: it wraps
every grammar in the same way, or refuses the mark. -/
def Uniform (mk : Marker B) : Prop :=
  ∀ n, (∀ g, mk g n = .ok g) ∨ (∃ l, ∀ g, mk g n = .ok (.action l g)) ∨ (∃ l, ∀ g, mk g n = .ok (.trans l g)) ∨ ∃ e, ∀ g, mk g n = .error e

/-- The same callback, given the same number of items and the same tokens up to their kinds. -/
inductive SameEv (R : Nat → Nat → Prop) : Ev A → Ev A → Prop
  | act {a g g' toks toks' l} : SameToks R Eq toks toks' → SameEv R (.act a g toks l) (.act a g' toks' l)
  | opens {t} : SameEv R (.opens t) (.opens t)
  | closes {t b} : SameEv R (.closes t b) (.closes t b)

/-- The same callbacks in the same order. -/
inductive SameEvs (R : Nat → Nat → Prop) : List (Ev A) → List (Ev A) → Prop
  | nil : SameEvs R [] []
  | cons {x y xs ys} : SameEv R x y → SameEvs R xs ys → SameEvs R (x :: xs) (y :: ys)

/-- The callbacks look at texts and positions of tokens and at the number of items, not at the
numbers of token kinds and not at the grammar. -/
def TextOnly (c : Calls A σ V P) : Prop :=
  ∀ a g g' toks toks' l u, SameToks (fun _ _ => True) Eq toks toks' → c.act a g toks l u = c.act a g' toks' l u

/-- The compiled grammar has the rule `n`, and it stands for `x`. -/
def Def (t : Tab B) (n : Str) (x : Gr B) : Prop := t.grammars.lookup n = some x ∨ ∃ v : Nat, t.vars[v]? = some (n, some x)

/-- How `MatchExactly` ends. -/
inductive Verdict where
  | accepted | rejected | panicked
deriving DecidableEq, Repr

/-- How `MatchExactly` ended, and the state the callbacks have left. -/
def verdict : MRes A σ P α → Verdict × σ
  | .ok _ s => (.accepted, s.u)
  | .err _ s => (.rejected, s.u)
  | .panic _ s => (.panicked, s.u)

end Tpl.Spec
