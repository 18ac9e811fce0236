import Verif.Model.Grammar

/-! Fuel monotonicity of matching and the resulting evaluation rules. -/
namespace Tpl
variable {A σ V P : Type}

theorem andLoop_mono {m m' : Mat A σ P} (h : Mat.le m m') (all : Gr A) (src : List Token) :
    ∀ gs ff n s r, andLoop m all src gs ff n s = some r → andLoop m' all src gs ff n s = some r := by
  intro gs
  induction gs with
  | nil => intro ff n s r e; exact e
  | cons g gs ih =>
    intro ff n s r e
    by_cases hg : g = .nil
    · subst hg
      exact ih _ _ _ _ e
    · rw [andLoop.eq_3 _ _ _ _ _ _ _ _ hg] at e ⊢
      split at e
      · rename_i hn
        rw [if_pos hn]
        cases hm : m g (src.drop n) s with
        | none => rw [hm] at e; cases e
        | some r1 =>
          rw [hm] at e
          rw [h _ _ _ _ hm]
          cases r1 with
          | ok n1 s1 => exact ih _ _ _ _ e
          | fail n1 e1 s1 => exact e
          | panic p s1 => exact e
      · rename_i hn
        rw [if_neg hn]
        exact e

theorem orLoop_mono {m m' : Mat A σ P} (h : Mat.le m m') (all : Gr A) (src : List Token) :
    ∀ gs nMax errMax multi s r, orLoop m all src gs nMax errMax multi s = some r →
      orLoop m' all src gs nMax errMax multi s = some r := by
  intro gs
  induction gs with
  | nil => intro _ _ _ s r e; exact e
  | cons g gs ih =>
    intro nMax errMax multi s r e
    unfold orLoop at e ⊢
    cases hm : m g src s with
    | none => rw [hm] at e; cases e
    | some r1 =>
      rw [hm] at e
      rw [h _ _ _ _ hm]
      cases r1 with
      | ok n1 s1 => exact e
      | panic p s1 => exact e
      | fail n1 e1 s1 =>
        dsimp only at e ⊢
        by_cases h1 : n1 ≥ nMax
        · rw [if_pos h1] at e ⊢
          by_cases h2 : n1 = nMax
          · rw [if_pos h2] at e ⊢
            exact ih _ _ _ _ _ e
          · rw [if_neg h2] at e ⊢
            exact ih _ _ _ _ _ e
        · rw [if_neg h1] at e ⊢
          exact ih _ _ _ _ _ e

theorem repLoop_mono {m m' : Mat A σ P} (h : Mat.le m m') (g : Gr A) :
    ∀ f f' src n k s r, f ≤ f' → repLoop m g f src n k s = some r → repLoop m' g f' src n k s = some r := by
  intro f
  induction f with
  | zero => intro f' src n k s r _ e; cases e
  | succ f ih =>
    intro f' src n k s r hf e
    obtain ⟨f', rfl⟩ : ∃ q, f' = q + 1 := ⟨f' - 1, by omega⟩
    unfold repLoop at e ⊢
    cases hm : m g src s with
    | none => rw [hm] at e; cases e
    | some r1 =>
      rw [hm] at e
      rw [h _ _ _ _ hm]
      cases r1 with
      | fail n1 e1 s1 => exact e
      | panic p s1 => exact e
      | ok n1 s1 =>
        dsimp only at e ⊢
        by_cases h1 : n1 ≤ src.length
        · rw [if_pos h1] at e ⊢
          exact ih _ _ _ _ _ _ (by omega) e
        · rw [if_neg h1] at e ⊢
          exact e

theorem matchStep_mono (env : Env A) (sem : Sem A σ V P) {m m' : Mat A σ P} (h : Mat.le m m') {f f' : Nat} (hf : f ≤ f') :
    Mat.le (matchStep env sem m f) (matchStep env sem m' f') := by
  intro g src s r e
  cases g with
  | nil | tok | tru | eof => exact e
  | and gs => exact andLoop_mono h _ _ _ _ _ _ _ e
  | or gs => exact orLoop_mono h _ _ _ _ _ _ _ _ e
  | rep0 id g =>
    simp only [matchStep] at e ⊢
    cases hm : repLoop m g f src 0 0 s with
    | none => rw [hm] at e; cases e
    | some r1 => rw [hm] at e; rw [repLoop_mono h g _ _ _ _ _ _ _ hf hm]; exact e
  | var v =>
    simp only [matchStep] at e ⊢
    cases hv : env v with
    | none => rw [hv] at e; exact e
    | some g => rw [hv] at e; exact h _ _ _ _ e
  | named n g => exact h _ _ _ _ e
  | peek g | not g | rep01 id g =>
    simp only [matchStep] at e ⊢
    cases hm : m g src s with
    | none => rw [hm] at e; cases e
    | some r1 => rw [hm] at e; rw [h _ _ _ _ hm]; exact e
  | rep1 id g =>
    simp only [matchStep] at e ⊢
    cases hm : m g src s with
    | none => rw [hm] at e; cases e
    | some r1 =>
      rw [hm] at e; rw [h _ _ _ _ hm]
      cases r1 with
      | fail n1 e1 s1 => exact e
      | panic p s1 => exact e
      | ok n1 s1 =>
        dsimp only at e ⊢
        by_cases h1 : n1 ≤ src.length
        · rw [if_pos h1] at e ⊢
          cases hm : repLoop m g f (src.drop n1) 0 0 s1 with
          | none => rw [hm] at e; cases e
          | some r1 => rw [hm] at e; rw [repLoop_mono h g _ _ _ _ _ _ _ hf hm]; exact e
        · rw [if_neg h1] at e ⊢
          exact e
  | list id a b l0 =>
    simp only [matchStep] at e ⊢
    cases hm : m a src s with
    | none => rw [hm] at e; cases e
    | some r1 =>
      rw [hm] at e; rw [h _ _ _ _ hm]
      cases r1 with
      | fail n1 e1 s1 => exact e
      | panic p s1 => exact e
      | ok n1 s1 =>
        dsimp only at e ⊢
        by_cases h1 : n1 ≤ src.length
        · rw [if_pos h1] at e ⊢
          cases hm : repLoop m (.and [b, a]) f (src.drop n1) n1 1 s1 with
          | none => rw [hm] at e; cases e
          | some r1 => rw [hm] at e; rw [repLoop_mono h _ _ _ _ _ _ _ _ hf hm]; exact e
        · rw [if_neg h1] at e ⊢
          exact e
  | action a g =>
    simp only [matchStep] at e ⊢
    cases hm : m g src s with
    | none => rw [hm] at e; cases e
    | some r1 =>
      rw [hm] at e; rw [h _ _ _ _ hm]
      cases r1 with
      | fail n1 e1 s1 => exact e
      | panic p s1 => exact e
      | ok n1 s1 =>
        dsimp only at e ⊢
        by_cases h1 : n1 ≤ src.length
        · rw [if_pos h1] at e ⊢
          cases hm : sem.act f m a g (src.take n1) s1 with
          | none => rw [hm] at e; cases e
          | some r1 => rw [hm] at e; rw [sem.act_mono _ _ _ _ hf h _ _ _ _ _ hm]; exact e
        · rw [if_neg h1] at e ⊢
          exact e
  | trans a g =>
    simp only [matchStep] at e ⊢
    cases hs : sem.start a s with
    | panic p s1 => rw [hs] at e; exact e
    | ok v s1 =>
      rw [hs] at e
      dsimp only at e ⊢
      cases hm : m g src s1 with
      | none => rw [hm] at e; cases e
      | some r1 => rw [hm] at e; rw [h _ _ _ _ hm]; exact e

theorem matchG_succ (env : Env A) (sem : Sem A σ V P) (f : Nat) : Mat.le (matchG env sem f) (matchG env sem (f + 1)) := by
  induction f with
  | zero => intro g src s r e; cases e
  | succ f ih => exact matchStep_mono env sem ih (Nat.le_succ f)

/-- More fuel never changes an answer. -/
theorem matchG_mono (env : Env A) (sem : Sem A σ V P) {f f' : Nat} (h : f ≤ f') :
    Mat.le (matchG env sem f) (matchG env sem f') := by
  induction h with
  | refl => intro g src s r e; exact e
  | step _ ih => intro g src s r e; exact matchG_succ env sem _ _ _ _ _ (ih _ _ _ _ e)

theorem Eval.unique {env : Env A} {sem : Sem A σ V P} {g : Gr A} {src : List Token} {s : St σ} {r r' : Res A σ P}
    (h : Eval env sem g src s r) (h' : Eval env sem g src s r') : r = r' := by
  obtain ⟨f, h⟩ := h
  obtain ⟨f', h'⟩ := h'
  have a := matchG_mono env sem (Nat.le_max_left f f') _ _ _ _ h
  have b := matchG_mono env sem (Nat.le_max_right f f') _ _ _ _ h'
  rw [a] at b
  exact Option.some.inj b

theorem Eval.at {env : Env A} {sem : Sem A σ V P} {g : Gr A} {src : List Token} {s : St σ} {r : Res A σ P}
    (h : Eval env sem g src s r) : ∃ f, ∀ f', f ≤ f' → matchG env sem f' g src s = some r := by
  obtain ⟨f, h⟩ := h
  exact ⟨f, fun f' hf => matchG_mono env sem hf _ _ _ _ h⟩

/-! ### Relations for the loops -/

/-- The loop of `grAnd.Match` when `E` is what calling `Match` does. -/
inductive AndRun (E : Gr A → List Token → St σ → Res A σ P → Prop) (all : Gr A) (src : List Token) :
    List (Gr A) → Bool → Nat → St σ → Res A σ P → Prop
  | nil {ff n s} : AndRun E all src [] ff n s (.ok n s)
  | mark {gs ff n s r} : AndRun E all src gs true n s r → AndRun E all src (.nil :: gs) ff n s r
  | ok {g gs ff n s n1 s1 r} : g ≠ .nil → n ≤ src.length → E g (src.drop n) s (.ok n1 s1) →
      AndRun E all src gs ff (n + n1) s1 r → AndRun E all src (g :: gs) ff n s r
  | fail {g gs n s n1 e1 s1} : g ≠ .nil → n ≤ src.length → E g (src.drop n) s (.fail n1 e1 s1) →
      AndRun E all src (g :: gs) false n s (.fail (n + n1) e1 s1)
  | cut {g gs n s n1 e1 s1} : g ≠ .nil → n ≤ src.length → E g (src.drop n) s (.fail n1 e1 s1) →
      AndRun E all src (g :: gs) true n s (.panic (.err (.mismatch all src (some e1) (n + n1))) s1)
  | panic {g gs ff n s p s1} : g ≠ .nil → n ≤ src.length → E g (src.drop n) s (.panic p s1) →
      AndRun E all src (g :: gs) ff n s (.panic p s1)
  | slice {g gs ff n s} : g ≠ .nil → ¬ n ≤ src.length → AndRun E all src (g :: gs) ff n s (.panic .slice s)

/-- The loop of `grOr.Match`. -/
inductive OrRun (E : Gr A → List Token → St σ → Res A σ P → Prop) (all : Gr A) (src : List Token) :
    List (Gr A) → Nat → Option (Err A) → Bool → St σ → Res A σ P → Prop
  | multi {nMax errMax s} : OrRun E all src [] nMax errMax true s (.fail nMax (mismatch all src) s)
  | single {nMax e s} : OrRun E all src [] nMax (some e) false s (.fail nMax e s)
  | none {nMax s} : OrRun E all src [] nMax none false s (.ok nMax s)
  | ok {g gs nMax errMax multi s n s1} : E g src s (.ok n s1) → OrRun E all src (g :: gs) nMax errMax multi s (.ok n s1)
  | panic {g gs nMax errMax multi s p s1} : E g src s (.panic p s1) →
      OrRun E all src (g :: gs) nMax errMax multi s (.panic p s1)
  | same {g gs nMax errMax multi s e s1 r} : E g src s (.fail nMax e s1) →
      OrRun E all src gs nMax errMax true s1 r → OrRun E all src (g :: gs) nMax errMax multi s r
  | more {g gs nMax errMax multi s n e s1 r} : E g src s (.fail n e s1) → nMax < n →
      OrRun E all src gs n (some e) false s1 r → OrRun E all src (g :: gs) nMax errMax multi s r
  | less {g gs nMax errMax multi s n e s1 r} : E g src s (.fail n e s1) → n < nMax →
      OrRun E all src gs nMax errMax multi s1 r → OrRun E all src (g :: gs) nMax errMax multi s r

/-- The repetition loops. -/
inductive RepRun (E : Gr A → List Token → St σ → Res A σ P → Prop) (g : Gr A) :
    List Token → Nat → Nat → St σ → LoopRes A σ P → Prop
  | stop {src n k s n1 e s1} : E g src s (.fail n1 e s1) → RepRun E g src n k s (.done n k s1)
  | panic {src n k s p s1} : E g src s (.panic p s1) → RepRun E g src n k s (.panic p s1)
  | more {src n k s n1 s1 r} : E g src s (.ok n1 s1) → n1 ≤ src.length →
      RepRun E g (src.drop n1) (n + n1) (k + 1) s1 r → RepRun E g src n k s r
  | slice {src n k s n1 s1} : E g src s (.ok n1 s1) → ¬ n1 ≤ src.length → RepRun E g src n k s (.panic .slice s1)

theorem andLoop_iff {m : Mat A σ P} {all : Gr A} {src : List Token} : ∀ {gs ff n s r},
    andLoop m all src gs ff n s = some r ↔ AndRun (fun g src s r => m g src s = some r) all src gs ff n s r := by
  intro gs
  induction gs with
  | nil =>
    intro ff n s r
    constructor
    · intro e; cases e; exact .nil
    · intro h; cases h; rfl
  | cons g gs ih =>
    intro ff n s r
    by_cases hg : g = .nil
    · subst hg
      rw [show andLoop m all src (.nil :: gs) ff n s = andLoop m all src gs true n s from rfl]
      rw [ih]
      constructor
      · exact .mark
      · intro h
        cases h with
        | mark h => exact h
        | ok h | fail h | cut h | panic h | slice h => exact absurd rfl h
    · rw [andLoop.eq_3 _ _ _ _ _ _ _ _ hg]
      constructor
      · intro e
        by_cases hn : n ≤ src.length
        · rw [if_pos hn] at e
          cases hm : m g (src.drop n) s with
          | none => rw [hm] at e; cases e
          | some r1 =>
            rw [hm] at e
            cases r1 with
            | ok n1 s1 => exact .ok hg hn hm (ih.mp e)
            | panic p s1 => cases e; exact .panic hg hn hm
            | fail n1 e1 s1 =>
              dsimp only at e
              cases ff
              · cases e; exact .fail hg hn hm
              · cases e; exact .cut hg hn hm
        · rw [if_neg hn] at e
          cases e
          exact .slice hg hn
      · intro h
        cases h with
        | mark h => exact absurd rfl hg
        | ok _ hn h1 h2 => rw [if_pos hn, h1]; exact ih.mpr h2
        | fail _ hn h1 => rw [if_pos hn, h1]; rfl
        | cut _ hn h1 => rw [if_pos hn, h1]; rfl
        | panic _ hn h1 => rw [if_pos hn, h1]
        | slice _ hn => rw [if_neg hn]

theorem orLoop_iff {m : Mat A σ P} {all : Gr A} {src : List Token} : ∀ {gs nMax errMax multi s r},
    orLoop m all src gs nMax errMax multi s = some r ↔
      OrRun (fun g src s r => m g src s = some r) all src gs nMax errMax multi s r := by
  intro gs
  induction gs with
  | nil =>
    intro nMax errMax multi s r
    constructor
    · intro e
      cases multi
      · cases errMax <;> (cases e; constructor)
      · cases e; exact .multi
    · intro h; cases h <;> rfl
  | cons g gs ih =>
    intro nMax errMax multi s r
    unfold orLoop
    constructor
    · intro e
      cases hm : m g src s with
      | none => rw [hm] at e; cases e
      | some r1 =>
        rw [hm] at e
        cases r1 with
        | ok n s1 => cases e; exact .ok hm
        | panic p s1 => cases e; exact .panic hm
        | fail n e1 s1 =>
          dsimp only at e
          by_cases h1 : n ≥ nMax
          · rw [if_pos h1] at e
            by_cases h2 : n = nMax
            · subst h2
              rw [if_pos rfl] at e
              exact .same hm (ih.mp e)
            · rw [if_neg h2] at e
              exact .more hm (by omega) (ih.mp e)
          · rw [if_neg h1] at e
            exact .less hm (by omega) (ih.mp e)
    · intro h
      cases h with
      | ok h => rw [h]
      | panic h => rw [h]
      | same h h2 => rw [h]; dsimp only; rw [if_pos (Nat.le_refl _), if_pos rfl]; exact ih.mpr h2
      | more h hn h2 => rw [h]; dsimp only; rw [if_pos (by omega), if_neg (by omega)]; exact ih.mpr h2
      | less h hn h2 => rw [h]; dsimp only; rw [if_neg (by omega)]; exact ih.mpr h2

theorem repLoop_run {m : Mat A σ P} {g : Gr A} : ∀ {f src n k s r},
    repLoop m g f src n k s = some r → RepRun (fun g src s r => m g src s = some r) g src n k s r := by
  intro f
  induction f with
  | zero => intro src n k s r e; cases e
  | succ f ih =>
    intro src n k s r e
    unfold repLoop at e
    cases hm : m g src s with
    | none => rw [hm] at e; cases e
    | some r1 =>
      rw [hm] at e
      cases r1 with
      | fail n1 e1 s1 => cases e; exact .stop hm
      | panic p s1 => cases e; exact .panic hm
      | ok n1 s1 =>
        dsimp only at e
        by_cases h1 : n1 ≤ src.length
        · rw [if_pos h1] at e
          exact .more hm h1 (ih e)
        · rw [if_neg h1] at e
          cases e
          exact .slice hm h1

theorem AndRun.imp {E E' : Gr A → List Token → St σ → Res A σ P → Prop} (hE : ∀ g src s r, E g src s r → E' g src s r)
    {all : Gr A} {src : List Token} {gs ff n s r} (h : AndRun E all src gs ff n s r) : AndRun E' all src gs ff n s r := by
  induction h with
  | nil => exact .nil
  | mark _ ih => exact .mark ih
  | ok h1 h2 h3 _ ih => exact .ok h1 h2 (hE _ _ _ _ h3) ih
  | fail h1 h2 h3 => exact .fail h1 h2 (hE _ _ _ _ h3)
  | cut h1 h2 h3 => exact .cut h1 h2 (hE _ _ _ _ h3)
  | panic h1 h2 h3 => exact .panic h1 h2 (hE _ _ _ _ h3)
  | slice h1 h2 => exact .slice h1 h2

theorem OrRun.imp {E E' : Gr A → List Token → St σ → Res A σ P → Prop} (hE : ∀ g src s r, E g src s r → E' g src s r)
    {all : Gr A} {src : List Token} {gs a b c s r} (h : OrRun E all src gs a b c s r) : OrRun E' all src gs a b c s r := by
  induction h with
  | multi => exact .multi
  | single => exact .single
  | none => exact .none
  | ok h => exact .ok (hE _ _ _ _ h)
  | panic h => exact .panic (hE _ _ _ _ h)
  | same h _ ih => exact .same (hE _ _ _ _ h) ih
  | more h hn _ ih => exact .more (hE _ _ _ _ h) hn ih
  | less h hn _ ih => exact .less (hE _ _ _ _ h) hn ih

theorem RepRun.imp {E E' : Gr A → List Token → St σ → Res A σ P → Prop} (hE : ∀ g src s r, E g src s r → E' g src s r)
    {g : Gr A} {src n k s r} (h : RepRun E g src n k s r) : RepRun E' g src n k s r := by
  induction h with
  | stop h => exact .stop (hE _ _ _ _ h)
  | panic h => exact .panic (hE _ _ _ _ h)
  | more h hn _ ih => exact .more (hE _ _ _ _ h) hn ih
  | slice h hn => exact .slice (hE _ _ _ _ h) hn

variable {env : Env A} {sem : Sem A σ V P}

/-- Finitely many evaluations have a common fuel. -/
theorem AndRun.fuel {all : Gr A} {src : List Token} {gs ff n s r} (h : AndRun (Eval env sem) all src gs ff n s r) :
    ∃ f, andLoop (matchG env sem f) all src gs ff n s = some r := by
  have key : ∃ f, AndRun (fun g src s r => matchG env sem f g src s = some r) all src gs ff n s r := by
    induction h with
    | nil => exact ⟨0, .nil⟩
    | mark _ ih => obtain ⟨f, ih⟩ := ih; exact ⟨f, .mark ih⟩
    | ok h1 h2 h3 _ ih =>
      obtain ⟨f, ih⟩ := ih
      obtain ⟨f', h3⟩ := h3
      refine ⟨max f f', .ok h1 h2 (matchG_mono env sem (Nat.le_max_right f f') _ _ _ _ h3) (ih.imp ?_)⟩
      exact fun g src s r e => matchG_mono env sem (Nat.le_max_left f f') _ _ _ _ e
    | fail h1 h2 h3 => obtain ⟨f, h3⟩ := h3; exact ⟨f, .fail h1 h2 h3⟩
    | cut h1 h2 h3 => obtain ⟨f, h3⟩ := h3; exact ⟨f, .cut h1 h2 h3⟩
    | panic h1 h2 h3 => obtain ⟨f, h3⟩ := h3; exact ⟨f, .panic h1 h2 h3⟩
    | slice h1 h2 => exact ⟨0, .slice h1 h2⟩
  obtain ⟨f, h⟩ := key
  exact ⟨f, andLoop_iff.mpr h⟩

theorem OrRun.fuel {all : Gr A} {src : List Token} {gs a b c s r} (h : OrRun (Eval env sem) all src gs a b c s r) :
    ∃ f, orLoop (matchG env sem f) all src gs a b c s = some r := by
  have mono := fun (f f' : Nat) (g : Gr A) (src : List Token) (s : St σ) (r : Res A σ P)
    (e : matchG env sem f g src s = some r) => matchG_mono env sem (Nat.le_max_left f f') _ _ _ _ e
  have key : ∃ f, OrRun (fun g src s r => matchG env sem f g src s = some r) all src gs a b c s r := by
    induction h with
    | multi => exact ⟨0, .multi⟩
    | single => exact ⟨0, .single⟩
    | none => exact ⟨0, .none⟩
    | ok h => obtain ⟨f, h⟩ := h; exact ⟨f, .ok h⟩
    | panic h => obtain ⟨f, h⟩ := h; exact ⟨f, .panic h⟩
    | same h _ ih =>
      obtain ⟨f, ih⟩ := ih
      obtain ⟨f', h⟩ := h
      exact ⟨max f f', .same (matchG_mono env sem (Nat.le_max_right f f') _ _ _ _ h) (ih.imp (mono f f'))⟩
    | more h hn _ ih =>
      obtain ⟨f, ih⟩ := ih
      obtain ⟨f', h⟩ := h
      exact ⟨max f f', .more (matchG_mono env sem (Nat.le_max_right f f') _ _ _ _ h) hn (ih.imp (mono f f'))⟩
    | less h hn _ ih =>
      obtain ⟨f, ih⟩ := ih
      obtain ⟨f', h⟩ := h
      exact ⟨max f f', .less (matchG_mono env sem (Nat.le_max_right f f') _ _ _ _ h) hn (ih.imp (mono f f'))⟩
  obtain ⟨f, h⟩ := key
  exact ⟨f, orLoop_iff.mpr h⟩

theorem RepRun.fuel {g : Gr A} {src n k s r} (h : RepRun (Eval env sem) g src n k s r) :
    ∃ f, repLoop (matchG env sem f) g f src n k s = some r := by
  induction h with
  | stop h => obtain ⟨f, h⟩ := h; exact ⟨f + 1, by unfold repLoop; rw [matchG_succ _ _ _ _ _ _ _ h]⟩
  | panic h => obtain ⟨f, h⟩ := h; exact ⟨f + 1, by unfold repLoop; rw [matchG_succ _ _ _ _ _ _ _ h]⟩
  | slice h hn =>
    obtain ⟨f, h⟩ := h
    exact ⟨f + 1, by unfold repLoop; rw [matchG_succ _ _ _ _ _ _ _ h]; dsimp only; rw [if_neg hn]⟩
  | more h hn _ ih =>
    obtain ⟨f, ih⟩ := ih
    obtain ⟨f', h⟩ := h
    refine ⟨max f f' + 1, ?_⟩
    unfold repLoop
    rw [matchG_mono env sem (show f' ≤ max f f' + 1 by omega) _ _ _ _ h]
    dsimp only
    rw [if_pos hn]
    exact repLoop_mono (matchG_mono env sem (show f ≤ max f f' + 1 by omega)) _ _ _ _ _ _ _ _ (by omega) ih

/-! ### Evaluation rules -/

theorem eval_step {g : Gr A} {src : List Token} {s : St σ} {r : Res A σ P} :
    Eval env sem g src s r ↔ ∃ f, matchStep env sem (matchG env sem f) f g src s = some r := by
  constructor
  · rintro ⟨f, h⟩
    cases f with
    | zero => cases h
    | succ f => exact ⟨f, h⟩
  · rintro ⟨f, h⟩
    exact ⟨f + 1, h⟩

theorem matchG_eval {f : Nat} {g : Gr A} {src : List Token} {s : St σ} {r : Res A σ P}
    (h : matchG env sem f g src s = some r) : Eval env sem g src s r := ⟨f, h⟩

theorem eval_nil {src : List Token} {s : St σ} {r : Res A σ P} :
    Eval env sem .nil src s r ↔ r = .panic .nilDeref s := by
  rw [eval_step]
  constructor
  · rintro ⟨f, h⟩; cases h; rfl
  · rintro rfl; exact ⟨0, rfl⟩

/-- The token test of `grString.Match`. -/
def TokFits (k : Nat) (t : Token) : Prop := t.kind = k ∨ (t.kind = INT ∧ k = FLOAT)

instance (k : Nat) (t : Token) : Decidable (TokFits k t) := inferInstanceAs (Decidable (_ ∨ _))

theorem eval_tok_nil {k : Nat} {s : St σ} {r : Res A σ P} :
    Eval env sem (.tok k) [] s r ↔ r = .fail 0 (mismatch (.tok k) []) s := by
  rw [eval_step]
  constructor
  · rintro ⟨f, h⟩; cases h; rfl
  · rintro rfl; exact ⟨0, rfl⟩

theorem eval_tok_cons {k : Nat} {t : Token} {src : List Token} {s : St σ} {r : Res A σ P} :
    Eval env sem (.tok k) (t :: src) s r ↔
      r = if TokFits k t then .ok 1 s else .fail 0 (mismatch (.tok k) (t :: src)) s := by
  rw [eval_step]
  have key : ∀ f, matchStep env sem (matchG env sem f) f (.tok k) (t :: src) s =
      some (if TokFits k t then .ok 1 s else .fail 0 (mismatch (.tok k) (t :: src)) s) := by
    intro f
    simp only [matchStep]
    by_cases h : TokFits k t
    · rw [if_pos h]; exact if_pos h
    · rw [if_neg h]; exact if_neg h
  constructor
  · rintro ⟨f, h⟩
    rw [key] at h
    exact (Option.some.inj h).symm
  · intro h
    exact ⟨0, by rw [key, h]⟩

theorem eval_tru {src : List Token} {s : St σ} {r : Res A σ P} : Eval env sem .tru src s r ↔ r = .ok 0 s := by
  rw [eval_step]
  constructor
  · rintro ⟨f, h⟩; cases h; rfl
  · rintro rfl; exact ⟨0, rfl⟩

theorem eval_eof {src : List Token} {s : St σ} {r : Res A σ P} :
    Eval env sem .eof src s r ↔ r = if src = [] then .ok 0 s else .fail 0 (mismatch .eof src) s := by
  rw [eval_step]
  cases src with
  | nil =>
    constructor
    · rintro ⟨f, h⟩; cases h; rfl
    · rintro rfl; exact ⟨0, rfl⟩
  | cons t src =>
    constructor
    · rintro ⟨f, h⟩; cases h; rfl
    · rintro rfl; exact ⟨0, rfl⟩

/-- Lifting of the unary combinators. -/
theorem eval_unary {g g' : Gr A} {src : List Token} {s : St σ} {r : Res A σ P} (k : Res A σ P → Res A σ P)
    (hk : ∀ m f, matchStep env sem m f g src s = (m g' src s).map k) :
    Eval env sem g src s r ↔ ∃ r1, Eval env sem g' src s r1 ∧ r = k r1 := by
  rw [eval_step]
  constructor
  · rintro ⟨f, h⟩
    rw [hk] at h
    cases hm : matchG env sem f g' src s with
    | none => rw [hm] at h; cases h
    | some r1 => rw [hm] at h; cases h; exact ⟨r1, ⟨f, hm⟩, rfl⟩
  · rintro ⟨r1, ⟨f, h⟩, rfl⟩
    exact ⟨f, by rw [hk, h]; rfl⟩

theorem eval_peek {g : Gr A} {src : List Token} {s : St σ} {r : Res A σ P} :
    Eval env sem (.peek g) src s r ↔ ∃ r1, Eval env sem g src s r1 ∧ r = (match r1 with
      | .ok _ s => .ok 0 s
      | .fail _ _ s => .fail 0 (mismatch (.peek g) src) s
      | .panic p s => .panic p s) := by
  refine eval_unary (fun r1 => _) ?_
  intro m f
  simp only [matchStep]
  cases m g src s with
  | none => rfl
  | some r => cases r <;> rfl

theorem eval_not {g : Gr A} {src : List Token} {s : St σ} {r : Res A σ P} :
    Eval env sem (.not g) src s r ↔ ∃ r1, Eval env sem g src s r1 ∧ r = (match r1 with
      | .ok _ s => .fail 0 (mismatch (.not g) src) s
      | .fail _ _ s => .ok 0 s
      | .panic p s => .panic p s) := by
  refine eval_unary (fun r1 => _) ?_
  intro m f
  simp only [matchStep]
  cases m g src s with
  | none => rfl
  | some r => cases r <;> rfl

theorem eval_rep01 {id : Nat} {g : Gr A} {src : List Token} {s : St σ} {r : Res A σ P} :
    Eval env sem (.rep01 id g) src s r ↔ ∃ r1, Eval env sem g src s r1 ∧ r = (match r1 with
      | .ok n s => .ok n (s.setLen id 1)
      | .fail _ _ s => .ok 0 (s.setLen id 0)
      | .panic p s => .panic p s) := by
  refine eval_unary (fun r1 => _) ?_
  intro m f
  simp only [matchStep]
  cases m g src s with
  | none => rfl
  | some r => cases r <;> rfl

theorem eval_named {nm : Str} {g : Gr A} {src : List Token} {s : St σ} {r : Res A σ P} :
    Eval env sem (.named nm g) src s r ↔ Eval env sem g src s r := by
  rw [eval_step]
  exact Iff.rfl

theorem eval_var {v : Nat} {src : List Token} {s : St σ} {r : Res A σ P} :
    Eval env sem (.var v) src s r ↔ match env v with
      | none => r = .fail 0 .varNotAssigned s
      | some g => Eval env sem g src s r := by
  rw [eval_step]
  simp only [matchStep]
  cases env v with
  | none =>
    constructor
    · rintro ⟨f, h⟩; cases h; rfl
    · rintro rfl; exact ⟨0, rfl⟩
  | some g => exact Iff.rfl

theorem eval_and {gs : List (Gr A)} {src : List Token} {s : St σ} {r : Res A σ P} :
    Eval env sem (.and gs) src s r ↔ AndRun (Eval env sem) (.and gs) src gs false 0 s r := by
  rw [eval_step]
  constructor
  · rintro ⟨f, h⟩
    exact (andLoop_iff.mp h).imp (fun _ _ _ _ => matchG_eval)
  · intro h
    exact h.fuel

theorem eval_or {gs : List (Gr A)} {src : List Token} {s : St σ} {r : Res A σ P} :
    Eval env sem (.or gs) src s r ↔ OrRun (Eval env sem) (.or gs) src gs 0 none true s r := by
  rw [eval_step]
  constructor
  · rintro ⟨f, h⟩
    exact (orLoop_iff.mp h).imp (fun _ _ _ _ => matchG_eval)
  · intro h
    exact h.fuel

theorem eval_rep0 {id : Nat} {g : Gr A} {src : List Token} {s : St σ} {r : Res A σ P} :
    Eval env sem (.rep0 id g) src s r ↔ ∃ r1, RepRun (Eval env sem) g src 0 0 s r1 ∧ r = (match r1 with
      | .done n k s => .ok n (s.setLen id k)
      | .panic p s => .panic p s) := by
  rw [eval_step]
  constructor
  · rintro ⟨f, h⟩
    simp only [matchStep] at h
    cases hm : repLoop (matchG env sem f) g f src 0 0 s with
    | none => rw [hm] at h; cases h
    | some r1 =>
      rw [hm] at h
      refine ⟨r1, (repLoop_run hm).imp (fun _ _ _ _ => matchG_eval), ?_⟩
      cases r1 <;> (cases h; rfl)
  · rintro ⟨r1, h, rfl⟩
    obtain ⟨f, h⟩ := h.fuel
    refine ⟨f, ?_⟩
    simp only [matchStep]
    rw [h]
    cases r1 <;> rfl

theorem eval_rep1 {id : Nat} {g : Gr A} {src : List Token} {s : St σ} {r : Res A σ P} :
    Eval env sem (.rep1 id g) src s r ↔ ∃ r1, Eval env sem g src s r1 ∧ (match r1 with
      | .fail n e s => r = .fail n e (s.setLen id 0)
      | .panic p s => r = .panic p s
      | .ok n s =>
        (¬ n ≤ src.length ∧ r = .panic .slice s) ∨
        (n ≤ src.length ∧ ∃ r2, RepRun (Eval env sem) g (src.drop n) 0 0 s r2 ∧ r = (match r2 with
          | .done n2 k s => .ok (n + n2) (s.setLen id (k + 1))
          | .panic p s => .panic p s))) := by
  rw [eval_step]
  constructor
  · rintro ⟨f, h⟩
    simp only [matchStep] at h
    cases hm : matchG env sem f g src s with
    | none => rw [hm] at h; cases h
    | some r1 =>
      rw [hm] at h
      refine ⟨r1, ⟨f, hm⟩, ?_⟩
      cases r1 with
      | fail n e s => cases h; rfl
      | panic p s => cases h; rfl
      | ok n s1 =>
        dsimp only at h ⊢
        by_cases hn : n ≤ src.length
        · rw [if_pos hn] at h
          cases hl : repLoop (matchG env sem f) g f (src.drop n) 0 0 s1 with
          | none => rw [hl] at h; cases h
          | some r2 =>
            rw [hl] at h
            refine .inr ⟨hn, r2, (repLoop_run hl).imp (fun _ _ _ _ => matchG_eval), ?_⟩
            cases r2 <;> (cases h; rfl)
        · rw [if_neg hn] at h
          cases h
          exact .inl ⟨hn, rfl⟩
  · rintro ⟨r1, ⟨f, hf⟩, h⟩
    cases r1 with
    | fail n e s => subst h; exact ⟨f, by simp only [matchStep]; rw [hf]⟩
    | panic p s => subst h; exact ⟨f, by simp only [matchStep]; rw [hf]⟩
    | ok n s1 =>
      rcases h with ⟨hn, rfl⟩ | ⟨hn, r2, h2, rfl⟩
      · exact ⟨f, by simp only [matchStep]; rw [hf]; dsimp only; rw [if_neg hn]⟩
      · obtain ⟨f', h2⟩ := h2.fuel
        refine ⟨max f f', ?_⟩
        simp only [matchStep]
        rw [matchG_mono env sem (Nat.le_max_left f f') _ _ _ _ hf]
        dsimp only
        rw [if_pos hn, repLoop_mono (matchG_mono env sem (Nat.le_max_right f f')) _ _ _ _ _ _ _ _ (Nat.le_max_right f f') h2]
        cases r2 <;> rfl

theorem eval_list {id : Nat} {a b : Gr A} {l0 : Bool} {src : List Token} {s : St σ} {r : Res A σ P} :
    Eval env sem (.list id a b l0) src s r ↔ ∃ r1, Eval env sem a src s r1 ∧ (match r1 with
      | .fail n e s => r = if l0 then .ok 0 (s.setLen id 0) else .fail n e (s.setLen id 0)
      | .panic p s => r = .panic p s
      | .ok n s =>
        (¬ n ≤ src.length ∧ r = .panic .slice s) ∨
        (n ≤ src.length ∧ ∃ r2, RepRun (Eval env sem) (.and [b, a]) (src.drop n) n 1 s r2 ∧ r = (match r2 with
          | .done n2 k s => .ok n2 (s.setLen id k)
          | .panic p s => .panic p s))) := by
  rw [eval_step]
  constructor
  · rintro ⟨f, h⟩
    simp only [matchStep] at h
    cases hm : matchG env sem f a src s with
    | none => rw [hm] at h; cases h
    | some r1 =>
      rw [hm] at h
      refine ⟨r1, ⟨f, hm⟩, ?_⟩
      cases r1 with
      | fail n e s => cases l0 <;> (cases h; rfl)
      | panic p s => cases h; rfl
      | ok n s1 =>
        dsimp only at h ⊢
        by_cases hn : n ≤ src.length
        · rw [if_pos hn] at h
          cases hl : repLoop (matchG env sem f) (.and [b, a]) f (src.drop n) n 1 s1 with
          | none => rw [hl] at h; cases h
          | some r2 =>
            rw [hl] at h
            refine .inr ⟨hn, r2, (repLoop_run hl).imp (fun _ _ _ _ => matchG_eval), ?_⟩
            cases r2 <;> (cases h; rfl)
        · rw [if_neg hn] at h
          cases h
          exact .inl ⟨hn, rfl⟩
  · rintro ⟨r1, ⟨f, hf⟩, h⟩
    cases r1 with
    | fail n e s => subst h; exact ⟨f, by simp only [matchStep]; rw [hf]; cases l0 <;> rfl⟩
    | panic p s => subst h; exact ⟨f, by simp only [matchStep]; rw [hf]⟩
    | ok n s1 =>
      rcases h with ⟨hn, rfl⟩ | ⟨hn, r2, h2, rfl⟩
      · exact ⟨f, by simp only [matchStep]; rw [hf]; dsimp only; rw [if_neg hn]⟩
      · obtain ⟨f', h2⟩ := h2.fuel
        refine ⟨max f f', ?_⟩
        simp only [matchStep]
        rw [matchG_mono env sem (Nat.le_max_left f f') _ _ _ _ hf]
        dsimp only
        rw [if_pos hn, repLoop_mono (matchG_mono env sem (Nat.le_max_right f f')) _ _ _ _ _ _ _ _ (Nat.le_max_right f f') h2]
        cases r2 <;> rfl

/-- What an action callback does: with some fuel for the matcher it may call. -/
def ActEval (env : Env A) (sem : Sem A σ V P) (a : A) (g : Gr A) (toks : List Token) (s : St σ) (c : Cb A σ P Unit) : Prop :=
  ∃ f, sem.act f (matchG env sem f) a g toks s = some c

theorem eval_action {a : A} {g : Gr A} {src : List Token} {s : St σ} {r : Res A σ P} :
    Eval env sem (.action a g) src s r ↔ ∃ r1, Eval env sem g src s r1 ∧ (match r1 with
      | .fail n e s => r = .fail n e s
      | .panic p s => r = .panic p s
      | .ok n s =>
        (¬ n ≤ src.length ∧ r = .panic .slice s) ∨
        (n ≤ src.length ∧ ∃ c, ActEval env sem a g (src.take n) s c ∧ r = (match c with
          | .ok _ s => .ok n s
          | .panic p s => .panic p s))) := by
  rw [eval_step]
  constructor
  · rintro ⟨f, h⟩
    simp only [matchStep] at h
    cases hm : matchG env sem f g src s with
    | none => rw [hm] at h; cases h
    | some r1 =>
      rw [hm] at h
      refine ⟨r1, ⟨f, hm⟩, ?_⟩
      cases r1 with
      | fail n e s => cases h; rfl
      | panic p s => cases h; rfl
      | ok n s1 =>
        dsimp only at h ⊢
        by_cases hn : n ≤ src.length
        · rw [if_pos hn] at h
          cases hl : sem.act f (matchG env sem f) a g (src.take n) s1 with
          | none => rw [hl] at h; cases h
          | some c =>
            rw [hl] at h
            refine .inr ⟨hn, c, ⟨f, hl⟩, ?_⟩
            cases c <;> (cases h; rfl)
        · rw [if_neg hn] at h
          cases h
          exact .inl ⟨hn, rfl⟩
  · rintro ⟨r1, ⟨f, hf⟩, h⟩
    cases r1 with
    | fail n e s => subst h; exact ⟨f, by simp only [matchStep]; rw [hf]⟩
    | panic p s => subst h; exact ⟨f, by simp only [matchStep]; rw [hf]⟩
    | ok n s1 =>
      rcases h with ⟨hn, rfl⟩ | ⟨hn, c, ⟨f', h2⟩, rfl⟩
      · exact ⟨f, by simp only [matchStep]; rw [hf]; dsimp only; rw [if_neg hn]⟩
      · refine ⟨max f f', ?_⟩
        simp only [matchStep]
        rw [matchG_mono env sem (Nat.le_max_left f f') _ _ _ _ hf]
        dsimp only
        rw [if_pos hn, sem.act_mono _ _ _ _ (Nat.le_max_right f f') (matchG_mono env sem (Nat.le_max_right f f')) _ _ _ _ _ h2]
        cases c <;> rfl

theorem eval_trans {a : A} {g : Gr A} {src : List Token} {s : St σ} {r : Res A σ P} :
    Eval env sem (.trans a g) src s r ↔ (match sem.start a s with
      | .panic p s => r = .panic p s
      | .ok v s => ∃ r1, Eval env sem g src s r1 ∧ r = (match r1 with
        | .panic p s => .panic p s
        | .ok n s => match sem.finish a v none s with
          | .panic p s => .panic p s
          | .ok _ s => .ok n s
        | .fail n e s => match sem.finish a v (some e) s with
          | .panic p s => .panic p s
          | .ok _ s => .fail n e s)) := by
  rw [eval_step]
  simp only [matchStep]
  cases sem.start a s with
  | panic p s =>
    constructor
    · rintro ⟨f, h⟩; cases h; rfl
    · rintro rfl; exact ⟨0, rfl⟩
  | ok v s =>
    dsimp only
    constructor
    · rintro ⟨f, h⟩
      cases hm : matchG env sem f g src s with
      | none => rw [hm] at h; cases h
      | some r1 =>
        rw [hm] at h
        refine ⟨r1, ⟨f, hm⟩, ?_⟩
        cases r1 with
        | panic p s => cases h; rfl
        | ok n s => dsimp only at h ⊢; cases hc : sem.finish a v none s <;> (rw [hc] at h; cases h; rfl)
        | fail n e s => dsimp only at h ⊢; cases hc : sem.finish a v (some e) s <;> (rw [hc] at h; cases h; rfl)
    · rintro ⟨r1, ⟨f, hf⟩, rfl⟩
      refine ⟨f, ?_⟩
      rw [hf]
      cases r1 with
      | panic p s => rfl
      | ok n s => dsimp only; cases hc : sem.finish a v none s <;> rfl
      | fail n e s => dsimp only; cases hc : sem.finish a v (some e) s <;> rfl

end Tpl
