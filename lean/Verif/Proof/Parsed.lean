import Verif.Proof.Peg

/-!
Rules to find out what a parsing expression accepts: `Parsed p Q L` says that on an
input of at most `L` tokens the part `p` matches satisfies `Q`.
-/
namespace Tpl
open Spec

variable {rules : Nat → Option (Peg Nat)}

def Parsed (rules : Nat → Option (Peg Nat)) (p : Peg Nat) (Q : List Token → Prop) (L : Nat) : Prop :=
  ∀ toks : List Token, toks.length ≤ L → ∀ n, PegEval rules p (kinds toks) (.succ n) →
    ∃ t1 t2, toks = t1 ++ t2 ∧ t1.length = n ∧ Q t1

theorem Parsed.imp {p : Peg Nat} {Q Q' : List Token → Prop} {L : Nat} (h : Parsed rules p Q L) (hq : ∀ t, Q t → Q' t) :
    Parsed rules p Q' L := by
  intro toks hl n hp
  obtain ⟨t1, t2, h1, h2, h3⟩ := h toks hl n hp
  exact ⟨t1, t2, h1, h2, hq _ h3⟩

theorem Parsed.le {p : Peg Nat} {Q : List Token → Prop} {L L' : Nat} (h : Parsed rules p Q L) (hl : L' ≤ L) :
    Parsed rules p Q L' := fun toks h' => h toks (Nat.le_trans h' hl)

theorem parsed_empty {Q : List Token → Prop} {L : Nat} (h : Q []) : Parsed rules .empty Q L := by
  intro toks hl n hp
  cases hp
  exact ⟨[], toks, rfl, rfl, h⟩

theorem parsed_sym {q : Nat → Bool} {L : Nat} : Parsed rules (.sym q) (fun ts => ∃ t : Token, ts = [t] ∧ q t.kind = true) L := by
  intro toks hl n hp
  cases toks with
  | nil => cases hp
  | cons t ts =>
    cases hp with
    | sym h => exact ⟨[t], ts, rfl, rfl, t, rfl, h⟩

theorem parsed_never {Q : List Token → Prop} {L : Nat} : Parsed rules .never Q L := by
  intro toks hl n hp
  have := hp.unique peg_never
  cases this

theorem parsed_seq {a b : Peg Nat} {Q1 Q2 : List Token → Prop} {L : Nat} (h1 : Parsed rules a Q1 L) (h2 : Parsed rules b Q2 L) :
    Parsed rules (.seq a b) (fun t => ∃ t1 t2, t = t1 ++ t2 ∧ Q1 t1 ∧ Q2 t2) L := by
  intro toks hl n hp
  cases hp with
  | seq ha hb =>
    obtain ⟨t1, t2, rfl, rfl, hq⟩ := h1 _ hl _ ha
    rw [← kinds_drop, List.drop_left] at hb
    obtain ⟨t3, t4, rfl, rfl, hq2⟩ := h2 t2 (by simp at hl; omega) _ hb
    exact ⟨t1 ++ t3, t4, by simp, by simp, t1, t3, rfl, hq, hq2⟩

/-- If the first part consumes, the second has less. -/
theorem parsed_seq_lt {a b : Peg Nat} {Q1 Q2 : List Token → Prop} {L : Nat} (h1 : Parsed rules a Q1 L)
    (hne : ∀ t, Q1 t → t ≠ []) (h2 : ∀ L', L' < L → Parsed rules b Q2 L') :
    Parsed rules (.seq a b) (fun t => ∃ t1 t2, t = t1 ++ t2 ∧ Q1 t1 ∧ Q2 t2) L := by
  intro toks hl n hp
  cases hp with
  | seq ha hb =>
    obtain ⟨t1, t2, rfl, rfl, hq⟩ := h1 _ hl _ ha
    have := List.length_pos_iff.mpr (hne t1 hq)
    rw [← kinds_drop, List.drop_left] at hb
    obtain ⟨t3, t4, rfl, rfl, hq2⟩ := h2 t2.length (by simp at hl; omega) t2 (Nat.le_refl _) _ hb
    exact ⟨t1 ++ t3, t4, by simp, by simp, t1, t3, rfl, hq, hq2⟩

theorem parsed_alt {a b : Peg Nat} {Q : List Token → Prop} {L : Nat} (h1 : Parsed rules a Q L) (h2 : Parsed rules b Q L) :
    Parsed rules (.alt a b) Q L := by
  intro toks hl n hp
  cases hp with
  | altHit h => exact h1 toks hl n h
  | altNext _ h => exact h2 toks hl n h

theorem parsed_star {a : Peg Nat} {Q : List Token → Prop} {L : Nat} (h : Parsed rules a Q L) :
    Parsed rules (.star a) (fun t => ∃ ts : List (List Token), t = ts.flatten ∧ ∀ x ∈ ts, Q x) L := by
  intro toks hl n hp
  generalize hw : kinds toks = w at hp
  generalize ho : POut.succ n = o at hp
  generalize hs : Peg.star a = p at hp
  induction hp generalizing toks n with
  | starEnd _ =>
    cases ho
    exact ⟨[], toks, rfl, rfl, [], rfl, nofun⟩
  | starMore ha hb iha ihb =>
    cases hs
    cases ho
    subst hw
    obtain ⟨t1, t2, rfl, rfl, hq⟩ := h _ hl _ ha
    rw [← kinds_drop, List.drop_left] at ihb
    obtain ⟨t3, t4, rfl, hl3, ts, rfl, hts⟩ := ihb t2 (by simp at hl; omega) _ rfl rfl rfl
    refine ⟨t1 ++ ts.flatten, t4, by simp, by simp [hl3], t1 :: ts, by simp, ?_⟩
    intro x hx
    cases hx with
    | head => exact hq
    | tail _ hx => exact hts x hx
  | _ => first | (cases hs; done) | (cases ho; done)

theorem parsed_rule {r : Nat} {p : Peg Nat} {Q : List Token → Prop} {L : Nat} (hr : rules r = some p) (h : Parsed rules p Q L) :
    Parsed rules (.rule r) Q L := by
  intro toks hl n hp
  cases hp with
  | rule h' hp =>
    rw [hr] at h'
    cases h'
    exact h toks hl n hp

end Tpl
