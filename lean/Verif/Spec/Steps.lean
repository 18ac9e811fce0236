import Verif.Model.Grammar

/-
Vocabulary for statements about single combinators.  `E g src s r` stands for
"`g.Match(src, ctx)` in state `s` comes to the end `r`".
-/
namespace Tpl.Spec
variable {A σ P : Type}

section
variable (E : Gr A → List Token → St σ → Res A σ P → Prop)

/-- The alternatives `gs`, tried one after the other at `src`, all fail; `fs` are
their failures (position and error). -/
inductive AllFail (src : List Token) : List (Gr A) → St σ → List (Nat × Err A) → St σ → Prop
  | nil {s} : AllFail src [] s [] s
  | cons {g gs s n e s1 fs s'} : E g src s (.fail n e s1) → AllFail src gs s1 fs s' →
      AllFail src (g :: gs) s ((n, e) :: fs) s'

/-- `g` matches `k` times in a row, `n` tokens in all. -/
inductive Items (g : Gr A) : List Token → St σ → Nat → Nat → St σ → Prop
  | nil {src s} : Items g src s 0 0 s
  | cons {src s n s1 k m s'} : E g src s (.ok n s1) → Items g (src.drop n) s1 k m s' →
      Items g src s (k + 1) (n + m) s'

/-- The parts `gs` of a sequence match one after the other, `n` tokens in all;
markers `!` are passed over. -/
inductive Parts : List (Gr A) → List Token → St σ → Nat → St σ → Prop
  | nil {src s} : Parts [] src s 0 s
  | mark {gs src s n s'} : Parts gs src s n s' → Parts (.nil :: gs) src s n s'
  | cons {g gs src s n s1 m s'} : g ≠ .nil → E g src s (.ok n s1) → Parts gs (src.drop n) s1 m s' →
      Parts (g :: gs) src s (n + m) s'

end

/-- The largest failure position. -/
def furthest {A : Type} (fs : List (Nat × Err A)) : Nat := (fs.map (·.1)).foldr max 0

/-- The results are the same except for the contents of the `len` cells in `ids`. -/
def SameBut (ids : List Nat) (r r' : Res A σ P) : Prop :=
  let same (s s' : St σ) : Prop := s.u = s'.u ∧ ∀ i, i ∉ ids → s.len i = s'.len i
  match r, r' with
  | .ok n s, .ok n' s' => n = n' ∧ same s s'
  | .fail n e s, .fail n' e' s' => n = n' ∧ e = e' ∧ same s s'
  | .panic p s, .panic p' s' => p = p' ∧ same s s'
  | _, _ => False

/-- `g` and `g'` behave the same, except for the contents of the cells in `ids`
afterwards. -/
def Behaves (E : Gr A → List Token → St σ → Res A σ P → Prop) (ids : List Nat) (g g' : Gr A) : Prop :=
  ∀ src s, (∀ r, E g src s r → ∃ r', E g' src s r' ∧ SameBut ids r r') ∧
    (∀ r', E g' src s r' → ∃ r, E g src s r ∧ SameBut ids r r')

/-- While matching `g` at `src` in state `s`, `g'` is matched at `src'` in state `s'`. -/
inductive Reach (env : Env A) {V : Type} (sem : Sem A σ V P) :
    Gr A → List Token → St σ → Gr A → List Token → St σ → Prop
  | here {g src s} : Reach env sem g src s g src s
  | peek {g src s g' src' s'} : Reach env sem g src s g' src' s' → Reach env sem (.peek g) src s g' src' s'
  | not {g src s g' src' s'} : Reach env sem g src s g' src' s' → Reach env sem (.not g) src s g' src' s'
  | opt {id g src s g' src' s'} : Reach env sem g src s g' src' s' → Reach env sem (.rep01 id g) src s g' src' s'
  | named {nm g src s g' src' s'} : Reach env sem g src s g' src' s' → Reach env sem (.named nm g) src s g' src' s'
  | var {v g src s g' src' s'} : env v = some g → Reach env sem g src s g' src' s' →
      Reach env sem (.var v) src s g' src' s'
  | action {a g src s g' src' s'} : Reach env sem g src s g' src' s' → Reach env sem (.action a g) src s g' src' s'
  | trans {t v g src s s1 g' src' s'} : sem.start t s = .ok v s1 → Reach env sem g src s1 g' src' s' →
      Reach env sem (.trans t g) src s g' src' s'
  | and {pre g post src s n s1 g' src' s'} : Parts (Eval env sem) pre src s n s1 → g ≠ .nil →
      Reach env sem g (src.drop n) s1 g' src' s' → Reach env sem (.and (pre ++ g :: post)) src s g' src' s'
  | or {pre g post src s fs s1 g' src' s'} : AllFail (Eval env sem) src pre s fs s1 →
      Reach env sem g src s1 g' src' s' → Reach env sem (.or (pre ++ g :: post)) src s g' src' s'
  | rep0 {id g src s k n s1 g' src' s'} : Items (Eval env sem) g src s k n s1 →
      Reach env sem g (src.drop n) s1 g' src' s' → Reach env sem (.rep0 id g) src s g' src' s'
  | rep1 {id g src s k n s1 g' src' s'} : Items (Eval env sem) g src s k n s1 →
      Reach env sem g (src.drop n) s1 g' src' s' → Reach env sem (.rep1 id g) src s g' src' s'
  | listFirst {id a b l0 src s g' src' s'} : Reach env sem a src s g' src' s' →
      Reach env sem (.list id a b l0) src s g' src' s'
  | listRest {id a b l0 src s n1 s1 k n s2 g' src' s'} : Eval env sem a src s (.ok n1 s1) →
      Items (Eval env sem) (.and [b, a]) (src.drop n1) s1 k n s2 →
      Reach env sem (.and [b, a]) (src.drop (n1 + n)) s2 g' src' s' →
      Reach env sem (.list id a b l0) src s g' src' s'

end Tpl.Spec
