import Verif.Model.Compiler
import Verif.Spec.Token

/-
Vocabulary for scanners that are used for several grammars: the same grammar and the same
tokens when keywords have other kinds.
-/
namespace Tpl.Spec
variable {A σ V P α : Type}

/-- The kinds `a` and `b` mean the same for the scanners `k` and `k'`: a token of the language,
or a keyword both know. -/
def SameKind (k k' : KwScanner) (a b : Nat) : Prop :=
  (a = b ∧ a < 0xb0) ∨ ∃ w, k.keywords.get w = some a ∧ k'.keywords.get w = some b

mutual
/-- The grammars are the same up to the kinds of tokens. -/
inductive SameGr (R : Nat → Nat → Prop) : Gr A → Gr A → Prop
  | nil : SameGr R .nil .nil
  | tok {a b} : R a b → SameGr R (.tok a) (.tok b)
  | tru : SameGr R .tru .tru
  | eof : SameGr R .eof .eof
  | peek {g g'} : SameGr R g g' → SameGr R (.peek g) (.peek g')
  | not {g g'} : SameGr R g g' → SameGr R (.not g) (.not g')
  | and {gs gs'} : SameGrs R gs gs' → SameGr R (.and gs) (.and gs')
  | or {gs gs'} : SameGrs R gs gs' → SameGr R (.or gs) (.or gs')
  | rep0 {id g g'} : SameGr R g g' → SameGr R (.rep0 id g) (.rep0 id g')
  | rep1 {id g g'} : SameGr R g g' → SameGr R (.rep1 id g) (.rep1 id g')
  | rep01 {id g g'} : SameGr R g g' → SameGr R (.rep01 id g) (.rep01 id g')
  | list {id a b a' b' l} : SameGr R a a' → SameGr R b b' → SameGr R (.list id a b l) (.list id a' b' l)
  | var {v} : SameGr R (.var v) (.var v)
  | named {n g g'} : SameGr R g g' → SameGr R (.named n g) (.named n g')
  | action {a g g'} : SameGr R g g' → SameGr R (.action a g) (.action a g')
  | trans {a g g'} : SameGr R g g' → SameGr R (.trans a g) (.trans a g')
inductive SameGrs (R : Nat → Nat → Prop) : List (Gr A) → List (Gr A) → Prop
  | nil : SameGrs R [] []
  | cons {g g' gs gs'} : SameGr R g g' → SameGrs R gs gs' → SameGrs R (g :: gs) (g' :: gs')
end

/-- The tokens are the same up to their kinds and positions. -/
inductive SameToks (R Q : Nat → Nat → Prop) : List Token → List Token → Prop
  | nil : SameToks R Q [] []
  | cons {a b pos pos' lit ts ts'} : R a b → Q pos pos' → SameToks R Q ts ts' → SameToks R Q (⟨a, pos, lit⟩ :: ts) (⟨b, pos', lit⟩ :: ts')

/-- Results that differ in errors and panic values at most. -/
inductive SameRes : Option (Res A σ P) → Option (Res A σ P) → Prop
  | none : SameRes none none
  | ok {n s} : SameRes (some (.ok n s)) (some (.ok n s))
  | fail {n e e' s} : SameRes (some (.fail n e s)) (some (.fail n e' s))
  | panic {p p' s} : SameRes (some (.panic p s)) (some (.panic p' s))

/-- The same for callbacks. -/
inductive SameCb : Option (Cb A σ P α) → Option (Cb A σ P α) → Prop
  | none : SameCb none none
  | ok {x s} : SameCb (some (.ok x s)) (some (.ok x s))
  | panic {p p' s} : SameCb (some (.panic p s)) (some (.panic p' s))

/-- Matchers that do the same. -/
def SameMat (R Q : Nat → Nat → Prop) (m m' : Mat A σ P) : Prop :=
  ∀ g g' ts ts' s, SameGr R g g' → SameToks R Q ts ts' → SameRes (m g ts s) (m' g' ts' s)

/-- The marker does not look at the kinds of tokens. -/
def BlindMarker (mk : Marker A) : Prop :=
  ∀ R g g' n, SameGr R g g' → (∃ e, mk g n = .error e ∧ mk g' n = .error e) ∨
    ∃ x x', mk g n = .ok x ∧ mk g' n = .ok x' ∧ SameGr R x x'

/-- The callbacks do the same with other kinds (`R`) and other positions (`Q`). -/
structure Blind (R Q : Nat → Nat → Prop) (sem : Sem A σ V P) : Prop where
  act : ∀ f m m' a g g' ts ts' s, SameMat R Q m m' → SameGr R g g' → SameToks R Q ts ts' →
    SameCb (sem.act f m a g ts s) (sem.act f m' a g' ts' s)
  finish : ∀ a v e e' s, SameCb (some (sem.finish a v (some e) s)) (some (sem.finish a v (some e') s))

/-- The callbacks do not look at the kinds of tokens. -/
def BlindSem (sem : Sem A σ V P) : Prop := ∀ R, Blind R Eq sem

/-- Answers of `MatchExactly` that differ in errors and panic values at most. -/
inductive SameAns : Option (MRes A σ P α) → Option (MRes A σ P α) → Prop
  | none : SameAns none none
  | ok {x s} : SameAns (some (.ok x s)) (some (.ok x s))
  | err {e e' s} : SameAns (some (.err e s)) (some (.err e' s))
  | panic {p p' s} : SameAns (some (.panic p s)) (some (.panic p' s))

/-- The identifiers of a text. -/
def IdentIn (U : Uni) (src : Str) (mode : Mode) (w : Str) : Prop :=
  ∃ ts s' t, Run U (Scanner.init Scanner.zero src mode) ts s' ∧ t ∈ ts ∧ t.kind = IDENT ∧ t.lit = w

/-- The words a grammar text has in double quotes. -/
def QuotedIn (U : Uni) (src : Str) (w : Str) : Prop :=
  ∃ ts s' t, Run U (Scanner.init Scanner.zero src ⟨false, true⟩) ts s' ∧ t ∈ ts ∧ t.kind = STRING ∧ t.lit = 34 :: (w ++ [34])

end Tpl.Spec
