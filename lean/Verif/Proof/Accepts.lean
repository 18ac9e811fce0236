import Verif.Proof.CalcParse

/-!
Rules to find out what a grammar accepts, with what follows: `Acc env g Q L` says that on an
input of at most `L` tokens the part `g` matches and the rest satisfy `Q`.  `AccS` is the same
for the items of a sequence.
-/
namespace Tpl
open Spec

variable {env : Env Str} {Q Q1 Q2 : List Token → List Token → Prop} {L : Nat} {g : Gr Str} {gs : List (Gr Str)} {ff : Bool}

def AccP (env : Env Str) (p : Peg Nat) (Q : List Token → List Token → Prop) (L : Nat) : Prop :=
  ∀ toks : List Token, toks.length ≤ L → ∀ n, PegEval (toRules env) p (kinds toks) (.succ n) →
    ∃ t1 t2, toks = t1 ++ t2 ∧ t1.length = n ∧ Q t1 t2

abbrev Acc (env : Env Str) (g : Gr Str) (Q : List Token → List Token → Prop) (L : Nat) : Prop := AccP env (toPeg g) Q L
abbrev AccS (env : Env Str) (ff : Bool) (gs : List (Gr Str)) (Q : List Token → List Token → Prop) (L : Nat) : Prop :=
  AccP env (seqOf (toItems gs) ff) Q L

theorem AccP.imp {p : Peg Nat} (h : AccP env p Q L) (hq : ∀ t r, Q t r → Q1 t r) : AccP env p Q1 L := by
  intro toks hl n hp
  obtain ⟨t1, t2, h1, h2, h3⟩ := h toks hl n hp
  exact ⟨t1, t2, h1, h2, hq _ _ h3⟩

theorem AccP.le {p : Peg Nat} {L' : Nat} (h : AccP env p Q L) (hl : L' ≤ L) : AccP env p Q L' :=
  fun toks h' => h toks (Nat.le_trans h' hl)

/-- A token of kind `k`. -/
theorem fits_kind {k : Nat} {t : Token} (h : kindFits k t.kind = true) : t.kind = k ∨ (k = FLOAT ∧ t.kind = INT) := by
  unfold kindFits at h
  simpa [and_comm] using h

theorem acc_tok {k : Nat} (hk : k ≠ FLOAT) (h : ∀ t : Token, ∀ r, t.kind = k → Q [t] r) : Acc env (.tok k) Q L := by
  intro toks hl n hp
  cases toks with
  | nil => cases hp
  | cons t ts =>
    cases hp with
    | sym h' =>
      refine ⟨[t], ts, rfl, rfl, h t ts ?_⟩
      rcases fits_kind h' with h | ⟨h, _⟩
      · exact h
      · exact absurd h hk

theorem acc_float (h : ∀ t : Token, ∀ r, t.kind = FLOAT ∨ t.kind = INT → Q [t] r) : Acc env (.tok FLOAT) Q L := by
  intro toks hl n hp
  cases toks with
  | nil => cases hp
  | cons t ts =>
    cases hp with
    | sym h' =>
      refine ⟨[t], ts, rfl, rfl, h t ts ?_⟩
      rcases fits_kind h' with h | ⟨_, h⟩
      · exact .inl h
      · exact .inr h

theorem acc_or : (∀ g ∈ gs, Acc env g Q L) → Acc env (.or gs) Q L := by
  intro h
  change AccP env (altOf (toPegs gs)) Q L
  induction gs with
  | nil => intro toks hl n hp; cases hp.unique peg_never
  | cons g gs ih =>
    intro toks hl n hp
    cases hp with
    | altHit h' => exact h g (.head _) toks hl n h'
    | altNext _ h' => exact ih (fun g hg => h g (.tail _ hg)) toks hl n h'

theorem acc_var {v : Nat} (hv : env v = some g) (h : Acc env g Q L) : Acc env (.var v) Q L := by
  intro toks hl n hp
  cases hp with
  | rule h' hp =>
    unfold toRules at h'
    rw [hv] at h'
    cases h'
    exact h toks hl n hp

/-- An optional part: if it is not there, it cannot be there. -/
theorem acc_opt {id : Nat} (h : Acc env g Q L) (h0 : ∀ toks, PegEval (toRules env) (toPeg g) (kinds toks) .fail → Q [] toks) :
    Acc env (.rep01 id g) Q L := by
  intro toks hl n hp
  cases hp with
  | altHit h' => exact h toks hl n h'
  | altNext hf h' =>
    cases h'
    exact ⟨[], toks, rfl, rfl, h0 toks hf⟩

theorem accp_star {p : Peg Nat} (h : AccP env p Q1 L) (h0 : ∀ r, Q [] r) (hs : ∀ t1 t2 r, Q1 t1 (t2 ++ r) → Q t2 r → Q (t1 ++ t2) r) :
    AccP env (.star p) Q L := by
  intro toks hl n hp
  generalize hw : kinds toks = w at hp
  generalize ho : POut.succ n = o at hp
  generalize hsp : Peg.star p = q at hp
  induction hp generalizing toks n with
  | starEnd _ =>
    cases ho
    exact ⟨[], toks, rfl, rfl, h0 _⟩
  | starMore ha hb iha ihb =>
    cases hsp
    cases ho
    subst hw
    obtain ⟨t1, t2, rfl, rfl, hq⟩ := h _ hl _ ha
    rw [← kinds_drop, List.drop_left] at ihb
    obtain ⟨t3, t4, rfl, hl3, ht⟩ := ihb t2 (by simp at hl; omega) _ rfl rfl rfl
    exact ⟨t1 ++ t3, t4, by simp, by simp [hl3], hs _ _ _ hq ht⟩
  | _ => first | (cases hsp; done) | (cases ho; done)

theorem acc_rep0 {id : Nat} (h : Acc env g Q1 L) (h0 : ∀ r, Q [] r) (hs : ∀ t1 t2 r, Q1 t1 (t2 ++ r) → Q t2 r → Q (t1 ++ t2) r) :
    Acc env (.rep0 id g) Q L := accp_star h h0 hs

theorem accp_seq {a b : Peg Nat} (h1 : AccP env a Q1 L) (h2 : ∀ t1 r1, Q1 t1 r1 → AccP env b (fun t2 r => r1 = t2 ++ r → Q (t1 ++ t2) r) L) :
    AccP env (.seq a b) Q L := by
  intro toks hl n hp
  cases hp with
  | seq ha hb =>
    obtain ⟨t1, t2, rfl, rfl, hq⟩ := h1 _ hl _ ha
    rw [← kinds_drop, List.drop_left] at hb
    obtain ⟨t3, t4, rfl, rfl, hq2⟩ := h2 t1 t2 hq t2 (by simp at hl; omega) _ hb
    exact ⟨t1 ++ t3, t4, by simp, by simp, hq2 rfl⟩

theorem accp_must {p : Peg Nat} (h : AccP env p Q L) : AccP env (.must p) Q L := by
  intro toks hl n hp
  cases hp with
  | must hp => exact h toks hl n hp

theorem accs_nil (h : ∀ r, Q [] r) : AccS env ff [] Q L := by
  intro toks hl n hp
  cases hp
  exact ⟨[], toks, rfl, rfl, h _⟩

theorem accs_cut (h : AccS env true gs Q L) : AccS env ff (.nil :: gs) Q L := by
  unfold AccS
  rw [toItems_nil, seqOf]
  exact h

theorem accs_split {p : Peg Nat} {b : Bool} (h : AccP env (.seq p (seqOf (toItems gs) b)) Q L) (hb : b = ff) (hg : g ≠ .nil) (hp : p = toPeg g) :
    AccS env ff (g :: gs) Q L := by
  subst hb hp
  unfold AccS
  rw [toItems_cons hg]
  cases b with
  | false => exact h
  | true =>
    intro toks hl n hq
    cases hq with
    | seq ha hb =>
      cases ha with
      | must ha => exact h toks hl _ (.seq ha hb)

theorem accs_cons (hg : isNil g = false) (h1 : Acc env g Q1 L) (h2 : ∀ t1 r1, Q1 t1 r1 → AccS env ff gs (fun t2 r => r1 = t2 ++ r → Q (t1 ++ t2) r) L) :
    AccS env ff (g :: gs) Q L :=
  accs_split (accp_seq h1 h2) rfl (by intro h; rw [h] at hg; cases hg) rfl

theorem accs_tok {k : Nat} (hk : k ≠ FLOAT) (h : ∀ (t : Token) L', t.kind = k → L' < L → AccS env ff gs (fun t2 r => Q (t :: t2) r) L') :
    AccS env ff (.tok k :: gs) Q L := by
  refine accs_split (p := toPeg (.tok k : Gr Str)) (b := ff) ?_ rfl nofun rfl
  intro toks hl n hp
  cases hp with
  | seq ha hb =>
    cases toks with
    | nil => cases ha
    | cons t ts =>
      cases ha with
      | sym h' =>
        have hkt : t.kind = k := by
          rcases fits_kind h' with h | ⟨h, _⟩
          · exact h
          · exact absurd h hk
        rw [← kinds_drop] at hb
        obtain ⟨t3, t4, h3, rfl, hq⟩ := h t ts.length hkt (Nat.lt_of_lt_of_le (Nat.lt_succ_self _) hl) ts (Nat.le_refl _) _ hb
        exact ⟨t :: t3, t4, by rw [h3]; rfl, by simp; omega, hq⟩

/-- A token that is not the first one. -/
theorem accs_tok1 {k : Nat} (hk : k ≠ FLOAT) (h : ∀ t : Token, t.kind = k → AccS env ff gs (fun t2 r => Q (t :: t2) r) L) :
    AccS env ff (.tok k :: gs) Q L := accs_tok hk fun t _ ht hl => (h t ht).le (Nat.le_of_lt hl)

theorem accs_actTok {k : Nat} {m : Str} (hk : k ≠ FLOAT) (h : ∀ (t : Token) L', t.kind = k → L' < L → AccS env ff gs (fun t2 r => Q (t :: t2) r) L') :
    AccS env ff (.action m (.tok k) :: gs) Q L := accs_tok hk h

theorem accs_notTok {k : Nat} (h : AccS env ff gs (fun t r => (∀ x more, t ++ r = x :: more → x.kind ≠ k) → Q t r) L) :
    AccS env ff (.not (.tok k) :: gs) Q L := by
  refine accs_split (p := toPeg (.not (.tok k) : Gr Str)) (b := ff) ?_ rfl nofun rfl
  intro toks hl n hp
  cases hp with
  | seq ha hb =>
    cases ha with
    | neg ha =>
      obtain ⟨t1, t2, rfl, rfl, hq⟩ := h toks hl _ hb
      refine ⟨t1, t2, rfl, by simp, hq ?_⟩
      intro x more hx hk
      rw [hx] at ha
      cases ha with
      | symNot ha =>
        unfold kindFits at ha
        have hk : (fun x : Token => x.kind) x = k := hk
        rw [hk] at ha
        simp at ha

/-- A list that may be empty. -/
theorem acc_list {id k : Nat} {l0 : Bool} (hk : k ≠ FLOAT) (hg : isNil g = false) (ha : Acc env g Q1 L) (h0 : l0 = true → ∀ r, Q [] r)
    (h1 : ∀ t1 t2 r, Q1 t1 (t2 ++ r) → Q2 t2 r → Q (t1 ++ t2) r) (hnil : ∀ r, Q2 [] r)
    (hmore : ∀ (t : Token) t1 t2 r, t.kind = k → Q1 t1 (t2 ++ r) → Q2 t2 r → Q2 (t :: (t1 ++ t2)) r) :
    Acc env (.list id g (.tok k) l0) Q L := by
  have hstar : AccP env (.star (toPeg (.and [.tok k, g]))) Q2 L := by
    refine accp_star (Q1 := fun t r => ∃ x t1, t = x :: t1 ∧ x.kind = k ∧ Q1 t1 r) ?_ hnil ?_
    · refine accs_tok hk fun t L' ht hL' => ?_
      refine accs_cons hg (ha.le (Nat.le_of_lt hL')) fun t1 r1 h => accs_nil fun r hr => ?_
      exact ⟨t, t1, by simp, ht, by rw [hr] at h; exact h⟩
    · rintro t1 t2 r ⟨x, t1, rfl, hx, h⟩ h2
      exact hmore x t1 t2 r hx h h2
  have hseq : AccP env (.seq (toPeg g) (.star (toPeg (.and [.tok k, g])))) Q L :=
    accp_seq ha fun t1 r1 hq => hstar.imp fun t2 r h2 hr => h1 t1 t2 r (hr ▸ hq) h2
  unfold Acc
  rw [toPeg_list]
  cases l0 with
  | false => exact hseq
  | true =>
    intro toks hl n hp
    cases hp with
    | altHit h => exact hseq toks hl n h
    | altNext _ h => cases h; exact ⟨[], toks, rfl, rfl, h0 rfl _⟩

end Tpl
