import Verif.Proof.Match

/-!
If the callbacks do the same in related states, so does matching.
-/
namespace Tpl
variable {A σ σ' V V' P α α' : Type}

/-- The same outcome, in related states. -/
inductive RelRes (R : St σ → St σ' → Prop) : Option (Res A σ P) → Option (Res A σ' P) → Prop
  | none : RelRes R none none
  | ok {n s s'} : R s s' → RelRes R (some (.ok n s)) (some (.ok n s'))
  | fail {n e s s'} : R s s' → RelRes R (some (.fail n e s)) (some (.fail n e s'))
  | panic {p s s'} : RelRes R (some (.panic p s)) (some (.panic p s'))

inductive RelLoop (R : St σ → St σ' → Prop) : Option (LoopRes A σ P) → Option (LoopRes A σ' P) → Prop
  | none : RelLoop R none none
  | done {n k s s'} : R s s' → RelLoop R (some (.done n k s)) (some (.done n k s'))
  | panic {p s s'} : RelLoop R (some (.panic p s)) (some (.panic p s'))

inductive RelCb (R : St σ → St σ' → Prop) : Cb A σ P α → Cb A σ' P α' → Prop
  | ok {a a' s s'} : R s s' → RelCb R (.ok a s) (.ok a' s')
  | panic {p s s'} : RelCb R (.panic p s) (.panic p s')

inductive RelAct (R : St σ → St σ' → Prop) : Option (Cb A σ P α) → Option (Cb A σ' P α') → Prop
  | none : RelAct R none none
  | some {c c'} : RelCb R c c' → RelAct R (some c) (some c')

/-- `m` and `m'` do the same. -/
def RelMat (R : St σ → St σ' → Prop) (m : Mat A σ P) (m' : Mat A σ' P) : Prop :=
  ∀ g src s s', R s s' → RelRes R (m g src s) (m' g src s')

/-- The callbacks do the same. -/
structure Relates (R : St σ → St σ' → Prop) (sem : Sem A σ V P) (sem' : Sem A σ' V' P) : Prop where
  setLen : ∀ s s' id n, R s s' → R (s.setLen id n) (s'.setLen id n)
  act : ∀ f m m', RelMat R m m' → ∀ a g toks s s', R s s' → RelAct R (sem.act f m a g toks s) (sem'.act f m' a g toks s')
  start : ∀ a s s', R s s' → RelCb R (sem.start a s) (sem'.start a s')
  finish : ∀ a v v' e s s', R s s' → RelCb R (sem.finish a v e s) (sem'.finish a v' e s')

variable {R : St σ → St σ' → Prop} {m : Mat A σ P} {m' : Mat A σ' P}

theorem andLoop_rel (hm : RelMat R m m') (all : Gr A) (src : List Token) : ∀ gs ff n s s', R s s' →
    RelRes R (andLoop m all src gs ff n s) (andLoop m' all src gs ff n s') := by
  intro gs
  induction gs with
  | nil => intro ff n s s' h; simp only [andLoop]; exact .ok h
  | cons g gs ih =>
    intro ff n s s' h
    by_cases hg : g = .nil
    · subst hg
      simp only [andLoop]
      exact ih _ _ _ _ h
    · rw [andLoop.eq_3 _ _ _ _ _ _ _ _ hg, andLoop.eq_3 _ _ _ _ _ _ _ _ hg]
      by_cases hn : n ≤ src.length
      · rw [if_pos hn, if_pos hn]
        have := hm g (src.drop n) s s' h
        generalize m g (src.drop n) s = x at this
        generalize m' g (src.drop n) s' = x' at this
        cases this with
        | none => exact .none
        | ok h => exact ih _ _ _ _ h
        | fail h =>
          dsimp only
          cases ff with
          | true => exact .panic
          | false => exact .fail h
        | panic => exact .panic
      · rw [if_neg hn, if_neg hn]
        exact .panic

theorem orLoop_rel (hm : RelMat R m m') (all : Gr A) (src : List Token) : ∀ gs nMax errMax multi s s', R s s' →
    RelRes R (orLoop m all src gs nMax errMax multi s) (orLoop m' all src gs nMax errMax multi s') := by
  intro gs
  induction gs with
  | nil =>
    intro nMax errMax multi s s' h
    simp only [orLoop]
    cases multi with
    | true => exact .fail h
    | false =>
      cases errMax with
      | none => exact .ok h
      | some e => exact .fail h
  | cons g gs ih =>
    intro nMax errMax multi s s' h
    simp only [orLoop]
    have := hm g src s s' h
    generalize m g src s = x at this
    generalize m' g src s' = x' at this
    cases this with
    | none => exact .none
    | ok h => exact .ok h
    | @fail n e s s' h =>
      dsimp only
      by_cases h1 : n ≥ nMax
      · rw [if_pos h1, if_pos h1]
        by_cases h2 : n = nMax
        · rw [if_pos h2, if_pos h2]; exact ih _ _ _ _ _ h
        · rw [if_neg h2, if_neg h2]; exact ih _ _ _ _ _ h
      · rw [if_neg h1, if_neg h1]; exact ih _ _ _ _ _ h
    | panic => exact .panic

theorem repLoop_rel (hm : RelMat R m m') (g : Gr A) : ∀ f src n k s s', R s s' →
    RelLoop R (repLoop m g f src n k s) (repLoop m' g f src n k s') := by
  intro f
  induction f with
  | zero => intro src n k s s' h; exact .none
  | succ f ih =>
    intro src n k s s' h
    simp only [repLoop]
    have := hm g src s s' h
    generalize m g src s = x at this
    generalize m' g src s' = x' at this
    cases this with
    | none => exact .none
    | @ok n1 s s' h =>
      dsimp only
      by_cases h1 : n1 ≤ src.length
      · rw [if_pos h1, if_pos h1]; exact ih _ _ _ _ _ h
      · rw [if_neg h1, if_neg h1]; exact .panic
    | fail h => exact .done h
    | panic => exact .panic

theorem matchG_rel {env : Env A} {sem : Sem A σ V P} {sem' : Sem A σ' V' P} (hr : Relates R sem sem') : ∀ f,
    RelMat R (matchG env sem f) (matchG env sem' f) := by
  intro f
  induction f with
  | zero => intro g src s s' _; exact .none
  | succ f ih =>
    intro g src s s' h
    simp only [matchG]
    cases g with
    | nil => exact .panic
    | tok k =>
      cases src with
      | nil => exact .fail h
      | cons t src =>
        simp only [matchStep]
        by_cases hk : t.kind = k ∨ (t.kind = INT ∧ k = FLOAT)
        · rw [if_pos hk, if_pos hk]; exact .ok h
        · rw [if_neg hk, if_neg hk]; exact .fail h
    | tru => exact .ok h
    | eof =>
      simp only [matchStep]
      by_cases hk : src.length ≠ 0
      · rw [if_pos hk, if_pos hk]; exact .fail h
      · rw [if_neg hk, if_neg hk]; exact .ok h
    | peek g =>
      simp only [matchStep]
      have := ih g src s s' h
      generalize matchG env sem f g src s = x at this
      generalize matchG env sem' f g src s' = x' at this
      cases this with
      | none => exact .none
      | ok h => exact .ok h
      | fail h => exact .fail h
      | panic => exact .panic
    | not g =>
      simp only [matchStep]
      have := ih g src s s' h
      generalize matchG env sem f g src s = x at this
      generalize matchG env sem' f g src s' = x' at this
      cases this with
      | none => exact .none
      | ok h => exact .fail h
      | fail h => exact .ok h
      | panic => exact .panic
    | and gs => exact andLoop_rel ih _ _ _ _ _ _ _ h
    | or gs => exact orLoop_rel ih _ _ _ _ _ _ _ _ h
    | rep0 id g =>
      simp only [matchStep]
      have := repLoop_rel ih g f src 0 0 s s' h
      generalize repLoop (matchG env sem f) g f src 0 0 s = x at this
      generalize repLoop (matchG env sem' f) g f src 0 0 s' = x' at this
      cases this with
      | none => exact .none
      | done h => exact .ok (hr.setLen _ _ _ _ h)
      | panic => exact .panic
    | rep1 id g =>
      simp only [matchStep]
      have := ih g src s s' h
      generalize matchG env sem f g src s = x at this
      generalize matchG env sem' f g src s' = x' at this
      cases this with
      | none => exact .none
      | @ok n s s' h =>
        dsimp only
        by_cases h1 : n ≤ src.length
        · rw [if_pos h1, if_pos h1]
          have := repLoop_rel ih g f (src.drop n) 0 0 s s' h
          generalize repLoop (matchG env sem f) g f (src.drop n) 0 0 s = x at this
          generalize repLoop (matchG env sem' f) g f (src.drop n) 0 0 s' = x' at this
          cases this with
          | none => exact .none
          | done h => exact .ok (hr.setLen _ _ _ _ h)
          | panic => exact .panic
        · rw [if_neg h1, if_neg h1]; exact .panic
      | fail h => exact .fail (hr.setLen _ _ _ _ h)
      | panic => exact .panic
    | rep01 id g =>
      simp only [matchStep]
      have := ih g src s s' h
      generalize matchG env sem f g src s = x at this
      generalize matchG env sem' f g src s' = x' at this
      cases this with
      | none => exact .none
      | ok h => exact .ok (hr.setLen _ _ _ _ h)
      | fail h => exact .ok (hr.setLen _ _ _ _ h)
      | panic => exact .panic
    | list id a b l0 =>
      simp only [matchStep]
      have := ih a src s s' h
      generalize matchG env sem f a src s = x at this
      generalize matchG env sem' f a src s' = x' at this
      cases this with
      | none => exact .none
      | @ok n s s' h =>
        dsimp only
        by_cases h1 : n ≤ src.length
        · rw [if_pos h1, if_pos h1]
          have := repLoop_rel ih (.and [b, a]) f (src.drop n) n 1 s s' h
          generalize repLoop (matchG env sem f) (.and [b, a]) f (src.drop n) n 1 s = x at this
          generalize repLoop (matchG env sem' f) (.and [b, a]) f (src.drop n) n 1 s' = x' at this
          cases this with
          | none => exact .none
          | done h => exact .ok (hr.setLen _ _ _ _ h)
          | panic => exact .panic
        · rw [if_neg h1, if_neg h1]; exact .panic
      | fail h =>
        dsimp only
        cases l0 with
        | true => exact .ok (hr.setLen _ _ _ _ h)
        | false => exact .fail (hr.setLen _ _ _ _ h)
      | panic => exact .panic
    | var v =>
      simp only [matchStep]
      cases env v with
      | none => exact .fail h
      | some g => exact ih g src s s' h
    | named _ g => exact ih g src s s' h
    | action a g =>
      simp only [matchStep]
      have := ih g src s s' h
      generalize matchG env sem f g src s = x at this
      generalize matchG env sem' f g src s' = x' at this
      cases this with
      | none => exact .none
      | @ok n s s' h =>
        dsimp only
        by_cases h1 : n ≤ src.length
        · rw [if_pos h1, if_pos h1]
          have := hr.act f _ _ ih a g (src.take n) s s' h
          generalize sem.act f (matchG env sem f) a g (src.take n) s = x at this
          generalize sem'.act f (matchG env sem' f) a g (src.take n) s' = x' at this
          cases this with
          | none => exact .none
          | some h =>
            cases h with
            | ok h => exact .ok h
            | panic => exact .panic
        · rw [if_neg h1, if_neg h1]; exact .panic
      | fail h => exact .fail h
      | panic => exact .panic
    | trans a g =>
      simp only [matchStep]
      have := hr.start a s s' h
      generalize sem.start a s = x at this
      generalize sem'.start a s' = x' at this
      cases this with
      | panic => exact .panic
      | @ok v v' s s' h =>
        dsimp only
        have := ih g src s s' h
        generalize matchG env sem f g src s = x at this
        generalize matchG env sem' f g src s' = x' at this
        cases this with
        | none => exact .none
        | @ok n s s' h =>
          dsimp only
          have := hr.finish a v v' none s s' h
          generalize sem.finish a v none s = x at this
          generalize sem'.finish a v' none s' = x' at this
          cases this with
          | ok h => exact .ok h
          | panic => exact .panic
        | @fail n e s s' h =>
          dsimp only
          have := hr.finish a v v' (some e) s s' h
          generalize sem.finish a v (some e) s = x at this
          generalize sem'.finish a v' (some e) s' = x' at this
          cases this with
          | ok h => exact .fail h
          | panic => exact .panic
        | panic => exact .panic

end Tpl
