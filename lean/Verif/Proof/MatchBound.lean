import Verif.Proof.Match

/-! Matching stays within its input. -/
namespace Tpl
variable {A σ V P : Type}

/-- Counts are within `m`; a panic is not one of slicing. -/
def Res.Within (m : Nat) : Res A σ P → Prop
  | .ok n _ => n ≤ m
  | .fail n _ _ => n ≤ m
  | .panic p _ => p ≠ .slice

/-- The callbacks do not panic with a slice error of their own when the matcher they
are given does not. -/
structure NoSlice (sem : Sem A σ V P) : Prop where
  act : ∀ (f : Nat) (m : Mat A σ P), (∀ g src s r, m g src s = some r → r.Within src.length) →
    ∀ a g toks s p s', sem.act f m a g toks s = some (.panic p s') → p ≠ .slice
  start : ∀ a s p s', sem.start a s = .panic p s' → p ≠ .slice
  finish : ∀ a v e s p s', sem.finish a v e s = .panic p s' → p ≠ .slice

/-- Counts only. -/
def Res.Short (m : Nat) : Res A σ P → Prop
  | .ok n _ => n ≤ m
  | .fail n _ _ => n ≤ m
  | .panic _ _ => True

def LoopRes.Short (m : Nat) : LoopRes A σ P → Prop
  | .done n _ _ => n ≤ m
  | .panic _ _ => True

def LoopRes.Within (m : Nat) : LoopRes A σ P → Prop
  | .done n _ _ => n ≤ m
  | .panic p _ => p ≠ .slice

section
variable {E : Gr A → List Token → St σ → Res A σ P → Prop}

theorem AndRun.short (hE : ∀ g src s r, E g src s r → r.Short src.length)
    {all : Gr A} {src gs ff n s r} (h : AndRun E all src gs ff n s r) (hn : n ≤ src.length) : r.Short src.length := by
  induction h with
  | nil => exact hn
  | mark _ ih => exact ih hn
  | @ok g gs ff n s n1 s1 r _ _ h1 _ ih =>
    have := hE _ _ _ _ h1
    simp only [Res.Short, List.length_drop] at this
    exact ih (by omega)
  | fail _ _ h1 =>
    have := hE _ _ _ _ h1
    simp only [Res.Short, List.length_drop] at this ⊢
    omega
  | cut | panic | slice => trivial

theorem AndRun.within (hE : ∀ g src s r, E g src s r → r.Within src.length)
    {all : Gr A} {src gs ff n s r} (h : AndRun E all src gs ff n s r) (hn : n ≤ src.length) : r.Within src.length := by
  induction h with
  | nil => exact hn
  | mark _ ih => exact ih hn
  | @ok g gs ff n s n1 s1 r _ _ h1 _ ih =>
    have := hE _ _ _ _ h1
    simp only [Res.Within, List.length_drop] at this
    exact ih (by omega)
  | fail _ _ h1 =>
    have := hE _ _ _ _ h1
    simp only [Res.Within, List.length_drop] at this ⊢
    omega
  | cut => nofun
  | panic _ _ h1 => exact hE _ (src.drop _) _ _ h1
  | slice _ h => exact absurd hn h

theorem OrRun.short (hE : ∀ g src s r, E g src s r → r.Short src.length)
    {all : Gr A} {src gs nMax errMax multi s r} (h : OrRun E all src gs nMax errMax multi s r) (hn : nMax ≤ src.length) :
    r.Short src.length := by
  induction h with
  | multi | single | none => exact hn
  | ok h1 => exact hE _ _ _ _ h1
  | panic => trivial
  | same _ _ ih => exact ih hn
  | more h1 _ _ ih => exact ih (hE _ _ _ _ h1)
  | less _ _ _ ih => exact ih hn

theorem OrRun.within (hE : ∀ g src s r, E g src s r → r.Within src.length)
    {all : Gr A} {src gs nMax errMax multi s r} (h : OrRun E all src gs nMax errMax multi s r) (hn : nMax ≤ src.length) :
    r.Within src.length := by
  induction h with
  | multi | single | none => exact hn
  | ok h1 => exact hE _ _ _ _ h1
  | panic h1 => exact hE _ _ _ _ h1
  | same _ _ ih => exact ih hn
  | more h1 _ _ ih => exact ih (hE _ _ _ _ h1)
  | less _ _ _ ih => exact ih hn

theorem RepRun.short {g : Gr A} {src n k s r} (h : RepRun E g src n k s r) (m : Nat) (hn : n + src.length ≤ m) :
    r.Short m := by
  induction h with
  | stop => exact Nat.le_trans (Nat.le_add_right _ _) hn
  | panic | slice => trivial
  | more _ hl _ ih => exact ih (by rw [List.length_drop]; omega)

theorem RepRun.within (hE : ∀ g src s r, E g src s r → r.Within src.length) {g : Gr A} {src n k s r}
    (h : RepRun E g src n k s r) (m : Nat) (hn : n + src.length ≤ m) :
    r.Within m := by
  induction h with
  | stop => exact Nat.le_trans (Nat.le_add_right _ _) hn
  | panic h1 => exact hE _ _ _ _ h1
  | slice h1 hb => exact absurd (hE _ _ _ _ h1) hb
  | more _ hl _ ih => exact ih (by rw [List.length_drop]; omega)
end

variable {env : Env A} {sem : Sem A σ V P}

theorem matchG_short : ∀ f g src s r, matchG env sem f g src s = some r → r.Short src.length := by
  intro f
  induction f with
  | zero => intro g src s r h; cases h
  | succ f ih =>
    intro g src s r h
    cases g with
    | nil => cases h; trivial
    | tok k =>
      simp only [matchG, matchStep] at h
      cases src with
      | nil => cases h; exact Nat.le_refl _
      | cons t src => dsimp only at h; split at h <;> (cases h; simp [Res.Short])
    | tru => cases h; exact Nat.zero_le _
    | eof => cases src <;> (cases h; exact Nat.zero_le _)
    | peek g | not g =>
      simp only [matchG, matchStep] at h
      split at h <;> cases h <;> first | trivial | exact Nat.zero_le _
    | and gs => exact (andLoop_iff.mp h).short ih (Nat.zero_le _)
    | or gs => exact (orLoop_iff.mp h).short ih (Nat.zero_le _)
    | rep0 id g =>
      simp only [matchG, matchStep] at h
      cases hm : repLoop (matchG env sem f) g f src 0 0 s with
      | none => rw [hm] at h; cases h
      | some r1 =>
        rw [hm] at h
        have := (repLoop_run hm).short src.length (by omega)
        cases r1 <;> (cases h; exact this)
    | rep1 id g =>
      simp only [matchG, matchStep] at h
      cases hm : matchG env sem f g src s with
      | none => rw [hm] at h; cases h
      | some r1 =>
        rw [hm] at h
        have h1 := ih _ _ _ _ hm
        cases r1 with
        | fail n er s1 => cases h; exact h1
        | panic p s1 => cases h; trivial
        | ok n s1 =>
          dsimp only at h
          have h1 : n ≤ src.length := h1
          rw [if_pos h1] at h
          cases hl : repLoop (matchG env sem f) g f (src.drop n) 0 0 s1 with
          | none => rw [hl] at h; cases h
          | some r2 =>
            rw [hl] at h
            have := (repLoop_run hl).short (src.length - n) (by rw [List.length_drop]; omega)
            cases r2 with
            | done n2 k s2 => cases h; dsimp only [Res.Short, LoopRes.Short] at this ⊢; omega
            | panic p s2 => cases h; trivial
    | rep01 id g =>
      simp only [matchG, matchStep] at h
      cases hm : matchG env sem f g src s with
      | none => rw [hm] at h; cases h
      | some r1 =>
        rw [hm] at h
        have h1 := ih _ _ _ _ hm
        cases r1 <;> cases h
        · exact h1
        · exact Nat.zero_le _
        · trivial
    | list id a b l0 =>
      simp only [matchG, matchStep] at h
      cases hm : matchG env sem f a src s with
      | none => rw [hm] at h; cases h
      | some r1 =>
        rw [hm] at h
        have h1 := ih _ _ _ _ hm
        cases r1 with
        | fail n er s1 => cases l0 <;> cases h; · exact h1
                          · exact Nat.zero_le _
        | panic p s1 => cases h; trivial
        | ok n s1 =>
          dsimp only at h
          have h1 : n ≤ src.length := h1
          rw [if_pos h1] at h
          cases hl : repLoop (matchG env sem f) (.and [b, a]) f (src.drop n) n 1 s1 with
          | none => rw [hl] at h; cases h
          | some r2 =>
            rw [hl] at h
            have := (repLoop_run hl).short src.length (by rw [List.length_drop]; omega)
            cases r2 <;> (cases h; exact this)
    | var v =>
      simp only [matchG, matchStep] at h
      cases hv : env v with
      | none => rw [hv] at h; cases h; exact Nat.zero_le _
      | some g => rw [hv] at h; exact ih _ _ _ _ h
    | named nm g => exact ih g _ _ _ h
    | action a g =>
      simp only [matchG, matchStep] at h
      cases hm : matchG env sem f g src s with
      | none => rw [hm] at h; cases h
      | some r1 =>
        rw [hm] at h
        have h1 := ih _ _ _ _ hm
        cases r1 with
        | fail n er s1 => cases h; exact h1
        | panic p s1 => cases h; trivial
        | ok n s1 =>
          dsimp only at h
          have h1 : n ≤ src.length := h1
          rw [if_pos h1] at h
          split at h <;> cases h <;> first | trivial | exact h1
    | trans t g =>
      simp only [matchG, matchStep] at h
      cases hs : sem.start t s with
      | panic p s1 => rw [hs] at h; cases h; trivial
      | ok v s2 =>
        rw [hs] at h
        dsimp only at h
        cases hm : matchG env sem f g src s2 with
        | none => rw [hm] at h; cases h
        | some r1 =>
          rw [hm] at h
          have h1 := ih _ _ _ _ hm
          cases r1 with
          | panic p s1 => cases h; trivial
          | ok n s1 => dsimp only at h; split at h <;> cases h <;> first | trivial | exact h1
          | fail n e s1 => dsimp only at h; split at h <;> cases h <;> first | trivial | exact h1

theorem eval_short {g : Gr A} {src s r} (h : Eval env sem g src s r) : r.Short src.length := by
  obtain ⟨f, h⟩ := h
  exact matchG_short f g src s r h

theorem eval_le {g : Gr A} {src s n s'} (h : Eval env sem g src s (.ok n s')) : n ≤ src.length := eval_short h

theorem matchG_within (hsem : NoSlice sem) : ∀ f g src s r, matchG env sem f g src s = some r → r.Within src.length := by
  intro f
  induction f with
  | zero => intro g src s r h; cases h
  | succ f ih =>
    intro g src s r h
    have short := matchG_short _ _ _ _ _ h
    -- only panics are left
    cases r with
    | ok n s' => exact short
    | fail n e s' => exact short
    | panic p s' =>
    cases g with
    | nil => cases h; nofun
    | tok k =>
      simp only [matchG, matchStep] at h
      cases src with
      | nil => cases h
      | cons t src => dsimp only at h; split at h <;> cases h
    | tru => cases h
    | eof => cases src <;> cases h
    | peek g | not g =>
      simp only [matchG, matchStep] at h
      cases hm : matchG env sem f g src s with
      | none => rw [hm] at h; cases h
      | some r1 =>
        rw [hm] at h
        have h1 := ih _ _ _ _ hm
        cases r1 <;> cases h
        exact h1
    | and gs => exact (andLoop_iff.mp h).within ih (Nat.zero_le _)
    | or gs => exact (orLoop_iff.mp h).within ih (Nat.zero_le _)
    | rep0 id g =>
      simp only [matchG, matchStep] at h
      cases hm : repLoop (matchG env sem f) g f src 0 0 s with
      | none => rw [hm] at h; cases h
      | some r1 =>
        rw [hm] at h
        have := (repLoop_run hm).within ih src.length (by omega)
        cases r1 <;> cases h <;> exact this
    | rep1 id g =>
      simp only [matchG, matchStep] at h
      cases hm : matchG env sem f g src s with
      | none => rw [hm] at h; cases h
      | some r1 =>
        rw [hm] at h
        have h1 := ih _ _ _ _ hm
        cases r1 with
        | fail n er s1 => cases h
        | panic p s1 => cases h; exact h1
        | ok n s1 =>
          dsimp only at h
          have h1 : n ≤ src.length := h1
          rw [if_pos h1] at h
          cases hl : repLoop (matchG env sem f) g f (src.drop n) 0 0 s1 with
          | none => rw [hl] at h; cases h
          | some r2 =>
            rw [hl] at h
            have := (repLoop_run hl).within ih (src.length - n) (by rw [List.length_drop]; omega)
            cases r2 with
            | done n2 k s2 => cases h
            | panic p s2 => cases h; exact this
    | rep01 id g =>
      simp only [matchG, matchStep] at h
      cases hm : matchG env sem f g src s with
      | none => rw [hm] at h; cases h
      | some r1 =>
        rw [hm] at h
        have h1 := ih _ _ _ _ hm
        cases r1 <;> cases h
        exact h1
    | list id a b l0 =>
      simp only [matchG, matchStep] at h
      cases hm : matchG env sem f a src s with
      | none => rw [hm] at h; cases h
      | some r1 =>
        rw [hm] at h
        have h1 := ih _ _ _ _ hm
        cases r1 with
        | fail n er s1 => cases l0 <;> cases h
        | panic p s1 => cases h; exact h1
        | ok n s1 =>
          dsimp only at h
          have h1 : n ≤ src.length := h1
          rw [if_pos h1] at h
          cases hl : repLoop (matchG env sem f) (.and [b, a]) f (src.drop n) n 1 s1 with
          | none => rw [hl] at h; cases h
          | some r2 =>
            rw [hl] at h
            have := (repLoop_run hl).within ih src.length (by rw [List.length_drop]; omega)
            cases r2 <;> cases h <;> exact this
    | var v =>
      simp only [matchG, matchStep] at h
      cases hv : env v with
      | none => rw [hv] at h; cases h
      | some g => rw [hv] at h; exact ih _ _ _ _ h
    | named nm g => exact ih g _ _ _ h
    | action a g =>
      simp only [matchG, matchStep] at h
      cases hm : matchG env sem f g src s with
      | none => rw [hm] at h; cases h
      | some r1 =>
        rw [hm] at h
        have h1 := ih _ _ _ _ hm
        cases r1 with
        | fail n er s1 => cases h
        | panic p s1 => cases h; exact h1
        | ok n s1 =>
          dsimp only at h
          have h1 : n ≤ src.length := h1
          rw [if_pos h1] at h
          cases hc : sem.act f (matchG env sem f) a g (src.take n) s1 with
          | none => rw [hc] at h; cases h
          | some c =>
            rw [hc] at h
            cases c with
            | ok => cases h
            | panic p s2 => cases h; exact hsem.act _ _ ih _ _ _ _ _ _ hc
    | trans t g =>
      simp only [matchG, matchStep] at h
      cases hs : sem.start t s with
      | panic p s1 => rw [hs] at h; cases h; exact hsem.start _ _ _ _ hs
      | ok v s2 =>
        rw [hs] at h
        dsimp only at h
        cases hm : matchG env sem f g src s2 with
        | none => rw [hm] at h; cases h
        | some r1 =>
          rw [hm] at h
          have h1 := ih _ _ _ _ hm
          cases r1 with
          | panic p s1 => cases h; exact h1
          | ok n s1 =>
            dsimp only at h
            cases hf : sem.finish t v none s1 with
            | ok => rw [hf] at h; cases h
            | panic p s3 => rw [hf] at h; cases h; exact hsem.finish _ _ _ _ _ _ hf
          | fail n e s1 =>
            dsimp only at h
            cases hf : sem.finish t v (some e) s1 with
            | ok => rw [hf] at h; cases h
            | panic p s3 => rw [hf] at h; cases h; exact hsem.finish _ _ _ _ _ _ hf

end Tpl
