import Verif.Proof.Does

/-!
A kit for callbacks that keep a stack: a lower bound for the height of the stack after
matching, a lower bound for the number of tokens matched, an invariant, and which panics
there may be.  `UpTo H f need c k g`: with at least `need` elements on the stack and fuel
at most `f`, a match of `g` takes at least `c` tokens and leaves `k` more elements, a
failing one leaves the elements that were there, and panics are as allowed.
-/
namespace Tpl
variable {A σ V P : Type}

/-- What is observed. -/
structure HCfg (A σ P : Type) where
  ht : σ → Nat
  inv : σ → Prop
  tok : Token → Prop
  may : Panic A P → Prop

/-- The outcome is fine. -/
def HCfg.Fine (H : HCfg A σ P) (h c k : Nat) : Res A σ P → Prop
  | .ok n s => H.inv s.u ∧ h + k ≤ H.ht s.u ∧ c ≤ n
  | .fail _ _ s => H.inv s.u ∧ h ≤ H.ht s.u
  | .panic p _ => H.may p

theorem HCfg.Fine.le {H : HCfg A σ P} {h c k h' c' k' : Nat} {r : Res A σ P} (hr : H.Fine h c k r)
    (h1 : h' + k' ≤ h + k) (h2 : h' ≤ h) (h3 : c' ≤ c) : H.Fine h' c' k' r := by
  cases r with
  | ok n s => exact ⟨hr.1, Nat.le_trans h1 hr.2.1, Nat.le_trans h3 hr.2.2⟩
  | fail n e s => exact ⟨hr.1, Nat.le_trans h2 hr.2⟩
  | panic p s => exact hr

section
variable (H : HCfg A σ P) (E : Gr A → List Token → St σ → Res A σ P → Prop)

/-- `E` is fine for `g`. -/
def Up (need c k : Nat) (g : Gr A) : Prop :=
  ∀ src s r, E g src s r → (∀ t ∈ src, H.tok t) → H.inv s.u → need ≤ H.ht s.u → H.Fine (H.ht s.u) c k r

/-- One after the other. -/
inductive AndUp : Nat → Nat → Nat → List (Gr A) → Prop
  | nil {need} : AndUp need 0 0 []
  | cons {need c k c' k' g gs} : g ≠ .nil → Up H E need c k g → AndUp (need + k) c' k' gs → AndUp need (c + c') (k + k') (g :: gs)

variable {H E}

theorem AndUp.run (hE : ∀ g src s r, E g src s r → r.Short src.length) {all : Gr A} {src : List Token}
    (hsrc : ∀ t ∈ src, H.tok t) {need c k : Nat} {gs : List (Gr A)} (hu : AndUp H E need c k gs) :
    ∀ {n s r}, AndRun E all src gs false n s r → n ≤ src.length → H.inv s.u → need ≤ H.ht s.u →
      H.Fine (H.ht s.u) (n + c) k r := by
  induction hu with
  | nil =>
    intro n s r h hn hi hh
    cases h
    exact ⟨hi, Nat.le_refl _, Nat.le_refl _⟩
  | @cons need c k c' k' g gs hg h1 _ ih =>
    intro n s r h hn hi hh
    have hd : ∀ t ∈ src.drop n, H.tok t := fun t ht => hsrc t (List.mem_of_mem_drop ht)
    cases h with
    | mark => exact absurd rfl hg
    | ok _ _ he hr =>
      have hf := h1 _ _ _ he hd hi hh
      have hs := hE _ _ _ _ he
      simp only [Res.Short, List.length_drop] at hs
      simp only [HCfg.Fine] at hf
      have := ih hr (by omega) hf.1 (by omega)
      exact this.le (by omega) (by omega) (by omega)
    | fail _ _ he =>
      exact h1 _ _ _ he hd hi hh
    | panic _ _ he => exact h1 _ _ _ he hd hi hh
    | slice _ hn' => exact absurd hn hn'

theorem OrRun.up {all : Gr A} {src : List Token} (hsrc : ∀ t ∈ src, H.tok t) {need c k : Nat} {gs : List (Gr A)}
    {nMax errMax multi s r} (h : OrRun E all src gs nMax errMax multi s r) (hm : multi = false → errMax ≠ Option.none)
    (hu : ∀ g ∈ gs, Up H E need c k g) (hi : H.inv s.u) (hh : need ≤ H.ht s.u) : H.Fine (H.ht s.u) c k r := by
  induction h with
  | multi | single => exact ⟨hi, Nat.le_refl _⟩
  | none => exact absurd rfl (hm rfl)
  | ok he | panic he => exact hu _ (List.mem_cons_self ..) _ _ _ he hsrc hi hh
  | same he _ ih =>
    have hf := hu _ (List.mem_cons_self ..) _ _ _ he hsrc hi hh
    exact (ih (by simp) (fun g hg => hu g (List.mem_cons_of_mem _ hg)) hf.1 (Nat.le_trans hh hf.2)).le (by have := hf.2; omega) hf.2 (Nat.le_refl _)
  | more he _ _ ih =>
    have hf := hu _ (List.mem_cons_self ..) _ _ _ he hsrc hi hh
    exact (ih (by simp) (fun g hg => hu g (List.mem_cons_of_mem _ hg)) hf.1 (Nat.le_trans hh hf.2)).le (by have := hf.2; omega) hf.2 (Nat.le_refl _)
  | less he _ _ ih =>
    have hf := hu _ (List.mem_cons_self ..) _ _ _ he hsrc hi hh
    exact (ih hm (fun g hg => hu g (List.mem_cons_of_mem _ hg)) hf.1 (Nat.le_trans hh hf.2)).le (by have := hf.2; omega) hf.2 (Nat.le_refl _)

/-- A loop is fine: each item adds `k` elements. -/
def HCfg.FineL (H : HCfg A σ P) (h k k0 n0 : Nat) : LoopRes A σ P → Prop
  | .done n j s => H.inv s.u ∧ k0 ≤ j ∧ h + (j - k0) * k ≤ H.ht s.u ∧ n0 ≤ n
  | .panic p _ => H.may p

theorem RepRun.up (hE : ∀ g src s r, E g src s r → r.Short src.length) {g : Gr A} {src n j s r}
    (h : RepRun E g src n j s r) {need c k : Nat} (hu : Up H E need c k g) (hsrc : ∀ t ∈ src, H.tok t)
    (hi : H.inv s.u) (hh : need ≤ H.ht s.u) : H.FineL (H.ht s.u) k j n r := by
  induction h with
  | stop he =>
    have hf := hu _ _ _ he hsrc hi hh
    refine ⟨hf.1, Nat.le_refl _, ?_, Nat.le_refl _⟩
    rw [Nat.sub_self, Nat.zero_mul]
    exact hf.2
  | panic he => exact hu _ _ _ he hsrc hi hh
  | @more src n j s n1 s1 r he hl _ ih =>
    have hf := hu _ _ _ he hsrc hi hh
    simp only [HCfg.Fine] at hf
    have := ih (fun t ht => hsrc t (List.mem_of_mem_drop ht)) hf.1 (by omega)
    cases r with
    | panic p s => exact this
    | done n' j' s' =>
      obtain ⟨h1, h2, h3, h4⟩ := this
      refine ⟨h1, by omega, ?_, by omega⟩
      obtain ⟨d, rfl⟩ : ∃ d, j' = j + 1 + d := ⟨j' - (j + 1), by omega⟩
      rw [show j + 1 + d - (j + 1) = d by omega] at h3
      rw [show j + 1 + d - j = d + 1 by omega, Nat.succ_mul]
      omega
  | slice he hl =>
    have := hE _ _ _ _ he
    exact absurd this hl
end

variable (env : Env A) (sem : Sem A σ V P) (H : HCfg A σ P)

/-- `Up` for all fuels up to `f`. -/
def UpTo (f need c k : Nat) (g : Gr A) : Prop :=
  ∀ f' ≤ f, Up H (fun g src s r => matchG env sem f' g src s = some r) need c k g

/-- Like `UpTo`, and `len` elements per item more (an item being what `g.Len()` counts),
at least one item. -/
def UpLen (f need c k : Nat) (g : Gr A) : Prop :=
  ∀ f' ≤ f, ∀ src s r, matchG env sem f' g src s = some r → (∀ t ∈ src, H.tok t) → H.inv s.u → need ≤ H.ht s.u →
    match r with
    | .ok n s' => H.inv s'.u ∧ 1 ≤ g.len s'.len ∧ H.ht s.u + k * (g.len s'.len).toNat ≤ H.ht s'.u ∧ c ≤ n
    | .fail _ _ s' => H.inv s'.u ∧ H.ht s.u ≤ H.ht s'.u
    | .panic p _ => H.may p

/-- Several parts. -/
inductive AndUpTo (env : Env A) (sem : Sem A σ V P) (H : HCfg A σ P) (fuel : Nat) : Nat → Nat → Nat → List (Gr A) → Prop
  | nil {need} : AndUpTo env sem H fuel need 0 0 []
  | cons {need c k c' k' : Nat} {g : Gr A} {gs : List (Gr A)} : g ≠ .nil → UpTo env sem H fuel need c k g → AndUpTo env sem H fuel (need + k) c' k' gs →
      AndUpTo env sem H fuel need (c + c') (k + k') (g :: gs)

variable {env sem H}
variable {f need c k : Nat} {g : Gr A}

theorem UpTo.mono {need' c' k' : Nat} (h : UpTo env sem H f need c k g) (h1 : need ≤ need') (h2 : c' ≤ c) (h3 : k' ≤ k) :
    UpTo env sem H f need' c' k' g := by
  intro f' hf src s r e hsrc hi hh
  exact (h f' hf src s r e hsrc hi (by omega)).le (by omega) (Nat.le_refl _) h2

theorem upTo_tok {kind : Nat} : UpTo env sem H f need 1 0 (.tok kind) := by
  intro f' _ src s r e hsrc hi hh
  cases f' with
  | zero => cases e
  | succ f' =>
    change matchStep env sem _ _ (.tok kind) src s = some r at e
    cases src with
    | nil => cases e; exact ⟨hi, Nat.le_refl _⟩
    | cons t ts =>
      simp only [matchStep] at e
      split at e <;> (cases e)
      · exact ⟨hi, Nat.le_refl _, Nat.le_refl _⟩
      · exact ⟨hi, Nat.le_refl _⟩

theorem upTo_tru : UpTo env sem H f need 0 0 .tru := by
  intro f' _ src s r e hsrc hi hh
  cases f' with
  | zero => cases e
  | succ f' => cases e; exact ⟨hi, Nat.le_refl _, Nat.le_refl _⟩

theorem upTo_and {gs : List (Gr A)} (h : AndUpTo env sem H f need c k gs) : UpTo env sem H f need c k (.and gs) := by
  intro f' hf src s r e hsrc hi hh
  cases f' with
  | zero => cases e
  | succ f' =>
    change andLoop _ _ src gs false 0 s = some r at e
    have hu : AndUp H (fun g src s r => matchG env sem f' g src s = some r) need c k gs := by
      clear e hh hi
      induction h with
      | nil => exact .nil
      | cons hg h1 _ ih => exact .cons hg (h1 f' (by omega)) ih
    have := hu.run (fun g src s r => matchG_short f' g src s r) hsrc (andLoop_iff.mp e) (Nat.zero_le _) hi hh
    rwa [Nat.zero_add] at this

theorem upTo_or {gs : List (Gr A)} (h : ∀ g ∈ gs, UpTo env sem H f need c k g) : UpTo env sem H f need c k (.or gs) := by
  intro f' hf src s r e hsrc hi hh
  cases f' with
  | zero => cases e
  | succ f' =>
    change orLoop _ _ src gs 0 none true s = some r at e
    exact (orLoop_iff.mp e).up hsrc (by simp) (fun g hg => h g hg f' (by omega)) hi hh

theorem upTo_rep0 {id : Nat} (h : UpTo env sem H f need c k g) : UpTo env sem H f need 0 0 (.rep0 id g) := by
  intro f' hf src s r e hsrc hi hh
  cases f' with
  | zero => cases e
  | succ f' =>
    change matchStep env sem _ _ (.rep0 id g) src s = some r at e
    simp only [matchStep] at e
    cases hl : repLoop (matchG env sem f') g f' src 0 0 s with
    | none => rw [hl] at e; cases e
    | some l =>
      rw [hl] at e
      have := (repLoop_run hl).up (fun g src s r => matchG_short f' g src s r) (h f' (by omega)) hsrc hi hh
      cases l with
      | panic p s => cases e; exact this
      | done n j s' =>
        cases e
        obtain ⟨h1, _, h3, _⟩ := this
        exact ⟨h1, Nat.le_trans (Nat.le_add_right _ _) h3, Nat.zero_le _⟩

theorem upLen_rep1 {id : Nat} (h : UpTo env sem H f need c k g) : UpLen env sem H f need c k (.rep1 id g) := by
  intro f' hf src s r e hsrc hi hh
  cases f' with
  | zero => cases e
  | succ f' =>
    change matchStep env sem _ _ (.rep1 id g) src s = some r at e
    simp only [matchStep] at e
    cases h1 : matchG env sem f' g src s with
    | none => rw [h1] at e; cases e
    | some r1 =>
      rw [h1] at e
      have hf1 := h f' (by omega) _ _ _ h1 hsrc hi hh
      have hs1 := matchG_short f' _ _ _ _ h1
      cases r1 with
      | panic p s => cases e; exact hf1
      | fail n1 e1 s1 => cases e; exact hf1
      | ok n1 s1 =>
        dsimp only at e
        simp only [HCfg.Fine] at hf1
        rw [if_pos (show n1 ≤ src.length from hs1)] at e
        cases hl : repLoop (matchG env sem f') g f' (src.drop n1) 0 0 s1 with
        | none => rw [hl] at e; cases e
        | some l =>
          rw [hl] at e
          have := (repLoop_run hl).up (fun g src s r => matchG_short f' g src s r) (h f' (by omega))
            (fun t ht => hsrc t (List.mem_of_mem_drop ht)) hf1.1 (by omega)
          cases l with
          | panic p s => cases e; exact this
          | done n j s' =>
            cases e
            obtain ⟨a1, _, a3, _⟩ := this
            simp only [Gr.len, St.setLen, if_true]
            refine ⟨a1, by omega, ?_, by omega⟩
            rw [show ((j + 1 : Nat) : Int).toNat = j + 1 from rfl, Nat.mul_succ]
            rw [Nat.sub_zero, Nat.mul_comm j k] at a3
            omega

theorem upLen_list {id : Nat} {b : Gr A} {c' k' : Nat} (h : UpTo env sem H f need c k g)
    (hb : UpTo env sem H f need c' k' (.and [b, g])) (hk : k ≤ k') : UpLen env sem H f need c k (.list id g b false) := by
  intro f' hf src s r e hsrc hi hh
  cases f' with
  | zero => cases e
  | succ f' =>
    change matchStep env sem _ _ (.list id g b false) src s = some r at e
    simp only [matchStep] at e
    cases h1 : matchG env sem f' g src s with
    | none => rw [h1] at e; cases e
    | some r1 =>
      rw [h1] at e
      have hf1 := h f' (by omega) _ _ _ h1 hsrc hi hh
      have hs1 := matchG_short f' _ _ _ _ h1
      cases r1 with
      | panic p s => cases e; exact hf1
      | fail n1 e1 s1 => cases e; exact hf1
      | ok n1 s1 =>
        dsimp only at e
        simp only [HCfg.Fine] at hf1
        rw [if_pos (show n1 ≤ src.length from hs1)] at e
        cases hl : repLoop (matchG env sem f') (.and [b, g]) f' (src.drop n1) n1 1 s1 with
        | none => rw [hl] at e; cases e
        | some l =>
          rw [hl] at e
          have := (repLoop_run hl).up (fun g src s r => matchG_short f' g src s r) (hb f' (by omega))
            (fun t ht => hsrc t (List.mem_of_mem_drop ht)) hf1.1 (by omega)
          cases l with
          | panic p s => cases e; exact this
          | done n j s' =>
            cases e
            obtain ⟨a1, a2, a3, a4⟩ := this
            simp only [Gr.len, St.setLen, if_true]
            refine ⟨a1, by omega, ?_, by omega⟩
            obtain ⟨d, rfl⟩ : ∃ d, j = 1 + d := ⟨j - 1, by omega⟩
            rw [show ((1 + d : Nat) : Int).toNat = 1 + d from rfl, Nat.mul_add, Nat.mul_one]
            rw [show 1 + d - 1 = d by omega, Nat.mul_comm] at a3
            have := Nat.mul_le_mul_right d hk
            omega

theorem UpLen.upTo (h : UpLen env sem H f need c k g) : UpTo env sem H f need c k g := by
  intro f' hf src s r e hsrc hi hh
  have := h f' hf src s r e hsrc hi hh
  cases r with
  | panic p s => exact this
  | fail n e s => exact this
  | ok n s' =>
    obtain ⟨h1, h2, h3, h4⟩ := this
    refine ⟨h1, ?_, h4⟩
    have : 1 ≤ (g.len s'.len).toNat := by omega
    have := Nat.mul_le_mul_left k this
    omega

variable {E : Type} {R : Panic A P → E → Prop} {act : A → List Token → Int → σ → Except E σ}

/-- The outcome of a callback is fine: the height is at least `h`. -/
def HCfg.After (H : HCfg A σ P) (R : Panic A P → E → Prop) (h : Nat) (o : Except E σ) : Prop :=
  match o with
  | .ok u' => H.inv u' ∧ h ≤ H.ht u'
  | .error e => ∀ q, R q e → H.may q

theorem HCfg.After.le {h h' : Nat} {o : Except E σ} (ha : H.After R h o) (hh : h' ≤ h) : H.After R h' o := by
  cases o with
  | ok u => exact ⟨ha.1, Nat.le_trans hh ha.2⟩
  | error p => exact ha

/-- `hact`: the callback, given what `g` left. -/
theorem upTo_action_gen {a : A} {k' : Nat} (hp : Plain sem R act)
    (h : ∀ f' ≤ f, ∀ src s r, matchG env sem f' g src s = some r → (∀ t ∈ src, H.tok t) → H.inv s.u → need ≤ H.ht s.u →
      match r with
      | .ok n s' => c ≤ n ∧ H.After R (H.ht s.u + k') (act a (src.take n) (g.len s'.len) s'.u)
      | .fail _ _ s' => H.inv s'.u ∧ H.ht s.u ≤ H.ht s'.u
      | .panic p _ => H.may p) : UpTo env sem H f need c k' (.action a g) := by
  intro f' hf src s r e hsrc hi hh
  cases f' with
  | zero => cases e
  | succ f' =>
    change matchStep env sem _ _ (.action a g) src s = some r at e
    simp only [matchStep] at e
    cases h1 : matchG env sem f' g src s with
    | none => rw [h1] at e; cases e
    | some r1 =>
      rw [h1] at e
      have hf1 := h f' (by omega) _ _ _ h1 hsrc hi hh
      have hs1 := matchG_short f' _ _ _ _ h1
      cases r1 with
      | panic p s => cases e; exact hf1
      | fail n1 e1 s1 => cases e; exact hf1
      | ok n1 s1 =>
        dsimp only at e hf1
        rw [if_pos (show n1 ≤ src.length from hs1)] at e
        obtain ⟨hc, hf1⟩ := hf1
        have hact := hp.act f' (matchG env sem f') a g (src.take n1) s1
        cases ha : act a (src.take n1) (g.len s1.len) s1.u with
        | ok u' => rw [ha] at hact hf1; rw [show sem.act _ _ a g _ s1 = _ from hact] at e; cases e; exact ⟨hf1.1, hf1.2, hc⟩
        | error p =>
          rw [ha] at hact hf1
          obtain ⟨q, s', hq, hR⟩ := hact
          rw [hq] at e
          cases e
          exact hf1 q hR

theorem upTo_action {a : A} {k' : Nat} (hp : Plain sem R act) (h : UpTo env sem H f need c k g)
    (hact : ∀ toks l u, (∀ t ∈ toks, H.tok t) → c ≤ toks.length → H.inv u → need + k ≤ H.ht u →
      H.After R (H.ht u + k' - k) (act a toks l u)) : UpTo env sem H f need c k' (.action a g) := by
  refine upTo_action_gen hp ?_
  intro f' hf src s r e hsrc hi hh
  have h1 := h f' hf src s r e hsrc hi hh
  have hs := matchG_short f' _ _ _ _ e
  cases r with
  | panic p s => exact h1
  | fail n e s => exact h1
  | ok n s' =>
    obtain ⟨a1, a2, a3⟩ := h1
    refine ⟨a3, ?_⟩
    exact (hact (src.take n) (g.len s'.len) s'.u (fun t ht => hsrc t (List.mem_of_mem_take ht))
      (by rw [List.length_take]; simp only [Res.Short] at hs; omega) a1 (by omega)).le (by omega)

/-- An action on one token. -/
theorem upTo_leaf {a : A} {kind k' : Nat} (hp : Plain sem R act)
    (hact : ∀ t l u, TokFits kind t → H.tok t → H.inv u → need ≤ H.ht u →
      H.After R (H.ht u + k') (act a [t] l u)) : UpTo env sem H f need 1 k' (.action a (.tok kind)) := by
  refine upTo_action_gen hp ?_
  intro f' hf src s r e hsrc hi hh
  cases f' with
  | zero => cases e
  | succ f' =>
    change matchStep env sem _ _ (.tok kind) src s = some r at e
    cases src with
    | nil => cases e; exact ⟨hi, Nat.le_refl _⟩
    | cons t ts =>
      simp only [matchStep] at e
      split at e <;> (cases e)
      · rename_i h
        exact ⟨Nat.le_refl _, hact t _ _ h (hsrc t (List.mem_cons_self ..)) hi hh⟩
      · exact ⟨hi, Nat.le_refl _⟩

/-- An action that looks at the number of items. -/
theorem upTo_action_len {a : A} {k' : Nat} (hp : Plain sem R act) (h : UpLen env sem H f need c k g)
    (hact : ∀ toks (l : Nat) u h0, (∀ t ∈ toks, H.tok t) → c ≤ toks.length → H.inv u → 1 ≤ l → need ≤ h0 →
      h0 + k * l ≤ H.ht u →
      H.After R (h0 + k') (act a toks l u)) : UpTo env sem H f need c k' (.action a g) := by
  refine upTo_action_gen hp ?_
  intro f' hf src s r e hsrc hi hh
  have h1 := h f' hf src s r e hsrc hi hh
  have hs := matchG_short f' _ _ _ _ e
  cases r with
  | panic p s => exact h1
  | fail n e s => exact h1
  | ok n s' =>
    obtain ⟨a1, a2, a3, a4⟩ := h1
    refine ⟨a4, ?_⟩
    have := hact (src.take n) (g.len s'.len).toNat s'.u (H.ht s.u) (fun t ht => hsrc t (List.mem_of_mem_take ht))
      (by rw [List.length_take]; simp only [Res.Short] at hs; omega) a1 (by omega) hh a3
    rwa [Int.toNat_of_nonneg (by omega)] at this

theorem upTo_named {nm : Str} (h : UpTo env sem H f need c k g) : UpTo env sem H f need c k (.named nm g) := by
  intro f' hf src s r e hsrc hi hh
  cases f' with
  | zero => cases e
  | succ f' => exact h f' (by omega) _ _ _ e hsrc hi hh

theorem upTo_rep01 {id : Nat} (h : UpTo env sem H f need c k g) : UpTo env sem H f need 0 0 (.rep01 id g) := by
  intro f' hf src s r e hsrc hi hh
  cases f' with
  | zero => cases e
  | succ f' =>
    change matchStep env sem _ _ (.rep01 id g) src s = some r at e
    simp only [matchStep] at e
    cases h1 : matchG env sem f' g src s with
    | none => rw [h1] at e; cases e
    | some r1 =>
      rw [h1] at e
      have hf1 := h f' (by omega) _ _ _ h1 hsrc hi hh
      cases r1 with
      | panic p s => cases e; exact hf1
      | fail n1 e1 s1 => cases e; exact ⟨hf1.1, hf1.2, Nat.zero_le _⟩
      | ok n1 s1 => cases e; exact ⟨hf1.1, by have := hf1.2.1; simp only [St.setLen]; omega, Nat.zero_le _⟩

/-- A variable one step later. -/
theorem upTo_var {v : Nat} (hv : env v = some g) (h : UpTo env sem H f need c k g) : UpTo env sem H (f + 1) need c k (.var v) := by
  intro f' hf src s r e hsrc hi hh
  cases f' with
  | zero => cases e
  | succ f' =>
    change matchStep env sem _ _ (.var v) src s = some r at e
    simp only [matchStep, hv] at e
    exact h f' (by omega) _ _ _ e hsrc hi hh

theorem upTo_zero : UpTo env sem H 0 need c k g := by
  intro f' hf src s r e
  obtain rfl : f' = 0 := by omega
  cases e

theorem upTo_nil : AndUpTo env sem H f need 0 0 [] := .nil

end Tpl
