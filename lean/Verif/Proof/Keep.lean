import Verif.Proof.Go
import Verif.Proof.Keeps

/-! What code of actions keeps, matching keeps. -/
namespace Tpl
variable {A σ V P α β : Type} {I : σ → Prop}

/-- The matcher keeps `I`. -/
def Mat.Keep (I : σ → Prop) (m : Mat A σ P) : Prop := ∀ g src s r, m g src s = some r → I s.u → I r.st.u

variable {ι : Type} {J : ι → σ → Prop}

/-- The code keeps each `J i`. -/
structure Go.Keep (J : ι → σ → Prop) (x : Go A σ P α) : Prop where
  run : ∀ i f m s c, (∀ j, Mat.Keep (J j) m) → x.run f m s = some c → J i s.u → J i c.st.u

/-- The callbacks keep each `J i`. -/
structure Sem.Keep (J : ι → σ → Prop) (sem : Sem A σ V P) : Prop where
  act : ∀ i f m a g toks s c, (∀ j, Mat.Keep (J j) m) → sem.act f m a g toks s = some c → J i s.u → J i c.st.u
  start : ∀ i a s, J i s.u → J i (sem.start a s).st.u
  finish : ∀ i a v e s, J i s.u → J i (sem.finish a v e s).st.u

theorem andLoop_keep {m : Mat A σ P} (h : Mat.Keep I m) (all : Gr A) (src : List Token) :
    ∀ gs ff n s r, andLoop m all src gs ff n s = some r → I s.u → I r.st.u := by
  intro gs
  induction gs with
  | nil => intro ff n s r e hs; cases e; exact hs
  | cons g gs ih =>
    intro ff n s r e hs
    by_cases hg : g = .nil
    · subst hg
      exact ih _ _ _ _ e hs
    · rw [andLoop.eq_3 _ _ _ _ _ _ _ _ hg] at e
      split at e
      · cases hm : m g (src.drop n) s with
        | none => rw [hm] at e; cases e
        | some r1 =>
          rw [hm] at e
          have h1 := h _ _ _ _ hm hs
          cases r1 with
          | ok n1 s1 => exact ih _ _ _ _ e h1
          | fail n1 e1 s1 =>
            dsimp only at e
            split at e <;> cases e <;> exact h1
          | panic p s1 => cases e; exact h1
      · cases e; exact hs

theorem orLoop_keep {m : Mat A σ P} (h : Mat.Keep I m) (all : Gr A) (src : List Token) :
    ∀ gs nMax errMax multi s r, orLoop m all src gs nMax errMax multi s = some r → I s.u → I r.st.u := by
  intro gs
  induction gs with
  | nil =>
    intro nMax errMax multi s r e hs
    unfold orLoop at e
    split at e
    · cases e; exact hs
    · split at e <;> cases e <;> exact hs
  | cons g gs ih =>
    intro nMax errMax multi s r e hs
    unfold orLoop at e
    cases hm : m g src s with
    | none => rw [hm] at e; cases e
    | some r1 =>
      rw [hm] at e
      have h1 := h _ _ _ _ hm hs
      cases r1 with
      | ok n1 s1 => cases e; exact h1
      | panic p s1 => cases e; exact h1
      | fail n1 e1 s1 =>
        dsimp only at e
        split at e
        · split at e
          · exact ih _ _ _ _ _ e h1
          · exact ih _ _ _ _ _ e h1
        · exact ih _ _ _ _ _ e h1

theorem repLoop_keep {m : Mat A σ P} (h : Mat.Keep I m) (g : Gr A) :
    ∀ f src n k s r, repLoop m g f src n k s = some r → I s.u → I r.st.u := by
  intro f
  induction f with
  | zero => intro src n k s r e; cases e
  | succ f ih =>
    intro src n k s r e hs
    unfold repLoop at e
    cases hm : m g src s with
    | none => rw [hm] at e; cases e
    | some r1 =>
      rw [hm] at e
      have h1 := h _ _ _ _ hm hs
      cases r1 with
      | fail n1 e1 s1 => cases e; exact h1
      | panic p s1 => cases e; exact h1
      | ok n1 s1 =>
        dsimp only at e
        split at e
        · exact ih _ _ _ _ _ e h1
        · cases e; exact h1

theorem matchStep_keep (env : Env A) {sem : Sem A σ V P} (hsem : sem.Keep J) {m : Mat A σ P} (hall : ∀ j, Mat.Keep (J j) m) (f : Nat) (j : ι) :
    Mat.Keep (J j) (matchStep env sem m f) := by
  have h := hall j
  intro g src s r e hs
  cases g with
  | nil => cases e; exact hs
  | tok k =>
    simp only [matchStep] at e
    split at e
    · split at e <;> cases e <;> exact hs
    · cases e; exact hs
  | tru => cases e; exact hs
  | eof =>
    simp only [matchStep] at e
    split at e <;> cases e <;> exact hs
  | and gs => exact andLoop_keep h _ _ _ _ _ _ _ e hs
  | or gs => exact orLoop_keep h _ _ _ _ _ _ _ _ e hs
  | rep0 id g =>
    simp only [matchStep] at e
    cases hm : repLoop m g f src 0 0 s with
    | none => rw [hm] at e; cases e
    | some r1 =>
      rw [hm] at e
      have h1 := repLoop_keep h _ _ _ _ _ _ _ hm hs
      cases r1 <;> cases e <;> exact h1
  | var v =>
    simp only [matchStep] at e
    cases hv : env v with
    | none => rw [hv] at e; cases e; exact hs
    | some g => rw [hv] at e; exact h _ _ _ _ e hs
  | named n g => exact h _ _ _ _ e hs
  | peek g | not g | rep01 id g =>
    simp only [matchStep] at e
    cases hm : m g src s with
    | none => rw [hm] at e; cases e
    | some r1 =>
      rw [hm] at e
      have h1 := h _ _ _ _ hm hs
      cases r1 <;> cases e <;> exact h1
  | rep1 id g =>
    simp only [matchStep] at e
    cases hm : m g src s with
    | none => rw [hm] at e; cases e
    | some r1 =>
      rw [hm] at e
      have h1 := h _ _ _ _ hm hs
      cases r1 with
      | fail n1 e1 s1 => cases e; exact h1
      | panic p s1 => cases e; exact h1
      | ok n1 s1 =>
        dsimp only at e
        split at e
        · cases hm : repLoop m g f (src.drop n1) 0 0 s1 with
          | none => rw [hm] at e; cases e
          | some r1 =>
            rw [hm] at e
            have h2 := repLoop_keep h _ _ _ _ _ _ _ hm h1
            cases r1 <;> cases e <;> exact h2
        · cases e; exact h1
  | list id a b l0 =>
    simp only [matchStep] at e
    cases hm : m a src s with
    | none => rw [hm] at e; cases e
    | some r1 =>
      rw [hm] at e
      have h1 := h _ _ _ _ hm hs
      cases r1 with
      | fail n1 e1 s1 =>
        dsimp only at e
        split at e <;> cases e <;> exact h1
      | panic p s1 => cases e; exact h1
      | ok n1 s1 =>
        dsimp only at e
        split at e
        · cases hm : repLoop m (.and [b, a]) f (src.drop n1) n1 1 s1 with
          | none => rw [hm] at e; cases e
          | some r1 =>
            rw [hm] at e
            have h2 := repLoop_keep h _ _ _ _ _ _ _ hm h1
            cases r1 <;> cases e <;> exact h2
        · cases e; exact h1
  | action a g =>
    simp only [matchStep] at e
    cases hm : m g src s with
    | none => rw [hm] at e; cases e
    | some r1 =>
      rw [hm] at e
      have h1 := h _ _ _ _ hm hs
      cases r1 with
      | fail n1 e1 s1 => cases e; exact h1
      | panic p s1 => cases e; exact h1
      | ok n1 s1 =>
        dsimp only at e
        split at e
        · cases hm : sem.act f m a g (src.take n1) s1 with
          | none => rw [hm] at e; cases e
          | some c =>
            rw [hm] at e
            have h2 := hsem.act _ _ _ _ _ _ _ _ hall hm h1
            cases c <;> cases e <;> exact h2
        · cases e; exact h1
  | trans a g =>
    simp only [matchStep] at e
    have h0 := hsem.start j a s hs
    cases hst : sem.start a s with
    | panic p s1 => rw [hst] at e h0; cases e; exact h0
    | ok v s1 =>
      rw [hst] at e h0
      dsimp only at e
      cases hm : m g src s1 with
      | none => rw [hm] at e; cases e
      | some r1 =>
        rw [hm] at e
        have h1 := h _ _ _ _ hm h0
        cases r1 with
        | panic p s1 => cases e; exact h1
        | ok n s2 =>
          dsimp only at e
          have h2 := hsem.finish j a v none s2 h1
          cases hf : sem.finish a v none s2 <;> rw [hf] at e h2 <;> cases e <;> exact h2
        | fail n er s2 =>
          dsimp only at e
          have h2 := hsem.finish j a v (some er) s2 h1
          cases hf : sem.finish a v (some er) s2 <;> rw [hf] at e h2 <;> cases e <;> exact h2

theorem matchG_keep (env : Env A) {sem : Sem A σ V P} (hsem : sem.Keep J) : ∀ f j, Mat.Keep (J j) (matchG env sem f)
  | 0 => fun _ _ _ _ _ e => by cases e
  | f + 1 => matchStep_keep env hsem (matchG_keep env hsem f) f

/-! ### Code -/
namespace Go.Keep

theorem pure {a : α} : Go.Keep (A := A) (P := P) J (pure a) := by
  constructor; intro i f m s c _ e hs; cases e; exact hs

theorem panic {p : Panic A P} : Go.Keep J (Go.panic p : Go A σ P α) := by
  constructor; intro i f m s c _ e hs; cases e; exact hs

theorem get : Go.Keep J (Go.get : Go A σ P σ) := by
  constructor; intro i f m s c _ e hs; cases e; exact hs

theorem len {g : Gr A} : Go.Keep J (Go.len g : Go A σ P Int) := by
  constructor; intro i f m s c _ e hs; cases e; exact hs

theorem modify {g : σ → σ} (h : ∀ i u, J i u → J i (g u)) : Go.Keep J (Go.modify g : Go A σ P Unit) := by
  constructor; intro i f m s c _ e hs; cases e; exact h _ _ hs

theorem bind {x : Go A σ P β} {k : β → Go A σ P α} (hx : Go.Keep J x) (hk : ∀ b, Go.Keep J (k b)) : Go.Keep J (x >>= k) := by
  constructor
  intro i f m s c hm e hs
  rw [Go.run_bind] at e
  cases hr : x.run f m s with
  | none => rw [hr] at e; cases e
  | some c1 =>
    rw [hr] at e
    have h1 := hx.run _ _ _ _ _ hm hr hs
    cases c1 with
    | panic p s1 => cases e; exact h1
    | ok b s1 => exact (hk b).run _ _ _ _ _ hm e h1

/-- What is read satisfies some `J i`. -/
theorem get_bind {k : σ → Go A σ P α} (h : ∀ i u, J i u → Go.Keep J (k u)) : Go.Keep J (Go.get >>= k) := by
  constructor
  intro i f m s c hm e hs
  exact (h i s.u hs).run i f m s c hm e hs

theorem recover {x : Go A σ P α} {k : Panic A P → Go A σ P α} (hx : Go.Keep J x) (hk : ∀ p, Go.Keep J (k p)) : Go.Keep J (Go.recover x k) := by
  constructor
  intro i f m s c hm e hs
  dsimp only [Go.recover] at e
  cases hr : x.run f m s with
  | none => rw [hr] at e; cases e
  | some c1 =>
    rw [hr] at e
    have h1 := hx.run _ _ _ _ _ hm hr hs
    cases c1 with
    | panic p s1 => exact (hk p).run _ _ _ _ _ hm e h1
    | ok b s1 => cases e; exact h1

theorem deferred {x : Go A σ P α} {y : Go A σ P Unit} (hx : Go.Keep J x) (hy : Go.Keep J y) : Go.Keep J (Go.deferred x y) := by
  constructor
  intro i f m s c hm e hs
  dsimp only [Go.deferred] at e
  cases hr : x.run f m s with
  | none => rw [hr] at e; cases e
  | some c1 =>
    rw [hr] at e
    have h1 := hx.run _ _ _ _ _ hm hr hs
    cases c1 with
    | panic p s1 => exact (bind hy (fun _ => panic (p := p))).run _ _ _ _ _ hm e h1
    | ok b s1 => exact (bind hy (fun _ => pure (a := b))).run _ _ _ _ _ hm e h1

theorem match_ {g : Gr A} {src : List Token} : Go.Keep J (Go.match_ g src : Go A σ P _) := by
  constructor
  intro i f m s c hm e hs
  dsimp only [Go.match_] at e
  cases hr : m g src s with
  | none => rw [hr] at e; cases e
  | some c1 =>
    rw [hr] at e
    have h1 := hm _ _ _ _ _ hr hs
    cases c1 <;> cases e <;> exact h1

theorem loop {body : β → Go A σ P (β ⊕ α)} {b : β} (h : ∀ b, Go.Keep J (body b)) : Go.Keep J (Go.loop body b) := by
  constructor
  intro i f m s c hm e hs
  have : ∀ n b s, Go.loopN body f m n b s = some c → J i s.u → J i c.st.u := by
    intro n
    induction n with
    | zero => intro b s e; cases e
    | succ n ih =>
      intro b s e hs
      unfold Go.loopN at e
      cases hr : (body b).run f m s with
      | none => rw [hr] at e; cases e
      | some c1 =>
        rw [hr] at e
        have h1 := (h b).run _ _ _ _ _ hm hr hs
        match c1, e, h1 with
        | .panic p s1, e, h1 => cases e; exact h1
        | .ok (.inl b) s1, e, h1 => exact ih _ _ e h1
        | .ok (.inr a) s1, e, h1 => cases e; exact h1
  exact this f b s e hs

end Go.Keep
end Tpl
