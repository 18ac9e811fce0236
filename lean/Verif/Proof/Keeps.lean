import Verif.Proof.MatchBound

/-!
What callbacks preserve, matching preserves: a reflexive and transitive relation between
the states before and after, and a property of panics.
-/
namespace Tpl
variable {A σ V P : Type}

def Res.st : Res A σ P → St σ
  | .ok _ s => s
  | .fail _ _ s => s
  | .panic _ s => s

def LoopRes.st : LoopRes A σ P → St σ
  | .done _ _ s => s
  | .panic _ s => s

def Cb.st {α : Type} : Cb A σ P α → St σ
  | .ok _ s => s
  | .panic _ s => s

/-- A result that keeps to `Rel` and `Q`. -/
def Res.Kept (Rel : St σ → St σ → Prop) (Q : Panic A P → Prop) (s : St σ) (r : Res A σ P) : Prop :=
  Rel s r.st ∧ ∀ p s', r = .panic p s' → Q p

def LoopRes.Kept (Rel : St σ → St σ → Prop) (Q : Panic A P → Prop) (s : St σ) (r : LoopRes A σ P) : Prop :=
  Rel s r.st ∧ ∀ p s', r = .panic p s' → Q p

def Cb.Kept {α : Type} (Rel : St σ → St σ → Prop) (Q : Panic A P → Prop) (s : St σ) (r : Cb A σ P α) : Prop :=
  Rel s r.st ∧ ∀ p s', r = .panic p s' → Q p

def Mat.Keeps (Rel : St σ → St σ → Prop) (Q : Panic A P → Prop) (m : Mat A σ P) : Prop :=
  ∀ g src s r, m g src s = some r → r.Kept Rel Q s

/-- The callbacks keep to `Rel` and `Q`. -/
structure Keeping (env : Env A) (sem : Sem A σ V P) (Rel : St σ → St σ → Prop) (Q : Panic A P → Prop) : Prop where
  refl : ∀ s, Rel s s
  trans : ∀ {s s' s''}, Rel s s' → Rel s' s'' → Rel s s''
  setLen : ∀ s id n, Rel s (s.setLen id n)
  cut : ∀ g src e i, Q (.err (.mismatch g src e i))
  nilDeref : Q .nilDeref
  act : ∀ f, Mat.Keeps Rel Q (matchG env sem f) → ∀ a g src n s0 s c, matchG env sem f g src s0 = some (.ok n s) →
    n ≤ src.length → sem.act f (matchG env sem f) a g (src.take n) s = some c → c.Kept Rel Q s
  start : ∀ a s, (sem.start a s).Kept Rel Q s
  finish : ∀ a v e s, (sem.finish a v e s).Kept Rel Q s

section
variable {E : Gr A → List Token → St σ → Res A σ P → Prop} {Rel : St σ → St σ → Prop} {Q : Panic A P → Prop}

theorem AndRun.kept (refl : ∀ s, Rel s s) (trans : ∀ {s s' s''}, Rel s s' → Rel s' s'' → Rel s s'')
    (cut : ∀ g src e i, Q (.err (.mismatch g src e i)))
    (hE : ∀ g src s r, E g src s r → r.Kept Rel Q s) (hS : ∀ g src s r, E g src s r → r.Short src.length)
    {all : Gr A} {src gs ff n s r} (h : AndRun E all src gs ff n s r) (hn : n ≤ src.length) : r.Kept Rel Q s := by
  induction h with
  | nil => exact ⟨refl _, nofun⟩
  | mark _ ih => exact ih hn
  | ok _ _ h1 _ ih =>
    have h2 := hS _ _ _ _ h1
    simp only [Res.Short, List.length_drop] at h2
    have := ih (by omega)
    exact ⟨trans (hE _ _ _ _ h1).1 this.1, this.2⟩
  | fail _ _ h1 => exact ⟨(hE _ _ _ _ h1).1, nofun⟩
  | cut _ _ h1 =>
    refine ⟨(hE _ _ _ _ h1).1, ?_⟩
    intro p s' e
    cases e
    exact cut _ _ _ _
  | panic _ _ h1 => exact hE _ (src.drop _) _ _ h1
  | slice _ h => exact absurd hn h

theorem OrRun.kept (refl : ∀ s, Rel s s) (trans : ∀ {s s' s''}, Rel s s' → Rel s' s'' → Rel s s'')
    (hE : ∀ g src s r, E g src s r → r.Kept Rel Q s)
    {all : Gr A} {src gs nMax errMax multi s r} (h : OrRun E all src gs nMax errMax multi s r) : r.Kept Rel Q s := by
  induction h with
  | multi | single | none => exact ⟨refl _, nofun⟩
  | ok h1 => exact hE _ _ _ _ h1
  | panic h1 => exact hE _ _ _ _ h1
  | same h1 _ ih => exact ⟨trans (hE _ _ _ _ h1).1 ih.1, ih.2⟩
  | more h1 _ _ ih => exact ⟨trans (hE _ _ _ _ h1).1 ih.1, ih.2⟩
  | less h1 _ _ ih => exact ⟨trans (hE _ _ _ _ h1).1 ih.1, ih.2⟩

theorem RepRun.kept (trans : ∀ {s s' s''}, Rel s s' → Rel s' s'' → Rel s s'')
    (hE : ∀ g src s r, E g src s r → r.Kept Rel Q s) (hS : ∀ g src s r, E g src s r → r.Short src.length)
    {g : Gr A} {src n k s r} (h : RepRun E g src n k s r) : r.Kept Rel Q s := by
  induction h with
  | stop h1 => exact ⟨(hE _ _ _ _ h1).1, nofun⟩
  | panic h1 => exact ⟨(hE _ _ _ _ h1).1, by intro p s' e; cases e; exact (hE _ _ _ _ h1).2 _ _ rfl⟩
  | slice h1 hb => exact absurd (hS _ _ _ _ h1) hb
  | more h1 hl _ ih => exact ⟨trans (hE _ _ _ _ h1).1 ih.1, ih.2⟩
end

variable {env : Env A} {sem : Sem A σ V P} {Rel : St σ → St σ → Prop} {Q : Panic A P → Prop}

theorem matchG_kept (K : Keeping env sem Rel Q) : ∀ f, Mat.Keeps Rel Q (matchG env sem f) := by
  intro f
  induction f with
  | zero => intro g src s r h; cases h
  | succ f ih =>
    intro g src s r h
    have hS := @matchG_short A σ V P env sem f
    cases g with
    | nil => cases h; exact ⟨K.refl _, by intro p s' e; cases e; exact K.nilDeref⟩
    | tok k =>
      simp only [matchG, matchStep] at h
      cases src with
      | nil => cases h; exact ⟨K.refl _, nofun⟩
      | cons t src =>
        dsimp only at h
        split at h <;> (cases h; exact ⟨K.refl _, nofun⟩)
    | tru => cases h; exact ⟨K.refl _, nofun⟩
    | eof =>
      simp only [matchG, matchStep] at h
      split at h <;> (cases h; exact ⟨K.refl _, nofun⟩)
    | peek g =>
      simp only [matchG, matchStep] at h
      cases hm : matchG env sem f g src s with
      | none => rw [hm] at h; cases h
      | some r1 =>
        rw [hm] at h
        have h1 := ih _ _ _ _ hm
        cases r1 <;> cases h
        · exact ⟨h1.1, nofun⟩
        · exact ⟨h1.1, nofun⟩
        · exact h1
    | not g =>
      simp only [matchG, matchStep] at h
      cases hm : matchG env sem f g src s with
      | none => rw [hm] at h; cases h
      | some r1 =>
        rw [hm] at h
        have h1 := ih _ _ _ _ hm
        cases r1 <;> cases h
        · exact ⟨h1.1, nofun⟩
        · exact ⟨h1.1, nofun⟩
        · exact h1
    | and gs =>
      simp only [matchG, matchStep] at h
      exact AndRun.kept K.refl K.trans K.cut ih hS (andLoop_iff.mp h) (Nat.zero_le _)
    | or gs =>
      simp only [matchG, matchStep] at h
      exact OrRun.kept K.refl K.trans ih (orLoop_iff.mp h)
    | rep0 id g =>
      simp only [matchG, matchStep] at h
      cases hl : repLoop (matchG env sem f) g f src 0 0 s with
      | none => rw [hl] at h; cases h
      | some r1 =>
        rw [hl] at h
        have h1 := RepRun.kept (Rel := Rel) (Q := Q) K.trans ih hS (repLoop_run hl)
        cases r1 with
        | done n k s1 => cases h; exact ⟨K.trans h1.1 (K.setLen _ _ _), nofun⟩
        | panic p s1 => cases h; exact ⟨h1.1, by intro p s' e; cases e; exact h1.2 _ _ rfl⟩
    | rep1 id g =>
      simp only [matchG, matchStep] at h
      cases hm : matchG env sem f g src s with
      | none => rw [hm] at h; cases h
      | some r1 =>
        rw [hm] at h
        have h1 := ih _ _ _ _ hm
        cases r1 with
        | fail n er s1 => cases h; exact ⟨K.trans h1.1 (K.setLen _ _ _), nofun⟩
        | panic p s1 => cases h; exact h1
        | ok n s1 =>
          dsimp only at h
          rw [if_pos (show n ≤ src.length from hS _ _ _ _ hm)] at h
          cases hl : repLoop (matchG env sem f) g f (src.drop n) 0 0 s1 with
          | none => rw [hl] at h; cases h
          | some r2 =>
            rw [hl] at h
            have h2 := RepRun.kept (Rel := Rel) (Q := Q) K.trans ih hS (repLoop_run hl)
            cases r2 with
            | done n k s2 => cases h; exact ⟨K.trans h1.1 (K.trans h2.1 (K.setLen _ _ _)), nofun⟩
            | panic p s2 => cases h; exact ⟨K.trans h1.1 h2.1, by intro p s' e; cases e; exact h2.2 _ _ rfl⟩
    | rep01 id g =>
      simp only [matchG, matchStep] at h
      cases hm : matchG env sem f g src s with
      | none => rw [hm] at h; cases h
      | some r1 =>
        rw [hm] at h
        have h1 := ih _ _ _ _ hm
        cases r1 <;> cases h
        · exact ⟨K.trans h1.1 (K.setLen _ _ _), nofun⟩
        · exact ⟨K.trans h1.1 (K.setLen _ _ _), nofun⟩
        · exact h1
    | list id a b l0 =>
      simp only [matchG, matchStep] at h
      cases hm : matchG env sem f a src s with
      | none => rw [hm] at h; cases h
      | some r1 =>
        rw [hm] at h
        have h1 := ih _ _ _ _ hm
        cases r1 with
        | fail n er s1 => cases l0 <;> (cases h; exact ⟨K.trans h1.1 (K.setLen _ _ _), nofun⟩)
        | panic p s1 => cases h; exact h1
        | ok n s1 =>
          dsimp only at h
          rw [if_pos (show n ≤ src.length from hS _ _ _ _ hm)] at h
          cases hl : repLoop (matchG env sem f) (.and [b, a]) f (src.drop n) n 1 s1 with
          | none => rw [hl] at h; cases h
          | some r2 =>
            rw [hl] at h
            have h2 := RepRun.kept (Rel := Rel) (Q := Q) K.trans ih hS (repLoop_run hl)
            cases r2 with
            | done n k s2 => cases h; exact ⟨K.trans h1.1 (K.trans h2.1 (K.setLen _ _ _)), nofun⟩
            | panic p s2 => cases h; exact ⟨K.trans h1.1 h2.1, by intro p s' e; cases e; exact h2.2 _ _ rfl⟩
    | var v =>
      simp only [matchG, matchStep] at h
      cases hv : env v with
      | none => rw [hv] at h; cases h; exact ⟨K.refl _, nofun⟩
      | some g => rw [hv] at h; exact ih _ _ _ _ h
    | named nm g => exact ih g _ _ _ h
    | action a g =>
      simp only [matchG, matchStep] at h
      cases hm : matchG env sem f g src s with
      | none => rw [hm] at h; cases h
      | some r1 =>
        rw [hm] at h
        have h1 := ih _ _ _ _ hm
        cases r1 with
        | fail n er s1 => cases h; exact ⟨h1.1, nofun⟩
        | panic p s1 => cases h; exact h1
        | ok n s1 =>
          dsimp only at h
          have hn : n ≤ src.length := hS _ _ _ _ hm
          rw [if_pos hn] at h
          cases hc : sem.act f (matchG env sem f) a g (src.take n) s1 with
          | none => rw [hc] at h; cases h
          | some c =>
            rw [hc] at h
            have h2 := K.act f ih _ _ _ _ _ _ _ hm hn hc
            cases c with
            | ok => cases h; exact ⟨K.trans h1.1 h2.1, nofun⟩
            | panic p s2 => cases h; exact ⟨K.trans h1.1 h2.1, by intro p s' e; cases e; exact h2.2 _ _ rfl⟩
    | trans t g =>
      simp only [matchG, matchStep] at h
      have h0 := K.start t s
      cases hs : sem.start t s with
      | panic p s1 => rw [hs] at h h0; cases h; exact ⟨h0.1, by intro p s' e; cases e; exact h0.2 _ _ rfl⟩
      | ok v s2 =>
        rw [hs] at h h0
        dsimp only at h
        cases hm : matchG env sem f g src s2 with
        | none => rw [hm] at h; cases h
        | some r1 =>
          rw [hm] at h
          have h1 := ih _ _ _ _ hm
          have h01 := K.trans h0.1 h1.1
          cases r1 with
          | panic p s1 => cases h; exact ⟨h01, h1.2⟩
          | ok n s1 =>
            dsimp only at h
            have h2 := K.finish t v none s1
            cases hf : sem.finish t v none s1 with
            | ok => rw [hf] at h h2; cases h; exact ⟨K.trans h01 h2.1, nofun⟩
            | panic p s3 => rw [hf] at h h2; cases h; exact ⟨K.trans h01 h2.1, by intro p s' e; cases e; exact h2.2 _ _ rfl⟩
          | fail n e s1 =>
            dsimp only at h
            have h2 := K.finish t v (some e) s1
            cases hf : sem.finish t v (some e) s1 with
            | ok => rw [hf] at h h2; cases h; exact ⟨K.trans h01 h2.1, nofun⟩
            | panic p s3 => rw [hf] at h h2; cases h; exact ⟨K.trans h01 h2.1, by intro p s' e; cases e; exact h2.2 _ _ rfl⟩

theorem Eval.kept (K : Keeping env sem Rel Q) {g : Gr A} {src : List Token} {s : St σ} {r} (h : Eval env sem g src s r) :
    r.Kept Rel Q s := by
  obtain ⟨f, h⟩ := h
  exact matchG_kept K f _ _ _ _ h

end Tpl
