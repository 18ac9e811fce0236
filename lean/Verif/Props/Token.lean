import Verif.Model.Token
import Verif.Spec.Token

/-! C01, C02: the token table. -/
namespace Tpl.Props
open Tpl

theorem tokens_eq : tokens = (List.range 154).map (fun i =>
    match Spec.names.lookup i with | some s => Spec.bytes s | none => []) := by
  decide +kernel

theorem rtokens_spec : ∀ e ∈ rtokens, ∃ s, (e.2, s) ∈ Spec.names ∧ e.1 = Spec.bytes s := by
  have h : rtokens.all (fun e => Spec.names.any (fun n => n.1 == e.2 && e.1 == Spec.bytes n.2)) := by
    decide +kernel
  intro e he
  have := List.all_eq_true.mp h e he
  obtain ⟨n, hn, hc⟩ := List.any_eq_true.mp this
  simp only [Bool.and_eq_true, beq_iff_eq] at hc
  exact ⟨n.2, by rw [← hc.1]; exact hn, hc.2⟩

/-- C01: `Lit2Token` inverts `Token2Lit` on every named kind. -/
theorem C01_lit2token_token2lit (k : Nat) (s : String) (h : (k, s) ∈ Spec.names) :
    Token2Lit k = .ok (Spec.bytes s) ∧ Lit2Token (Spec.bytes s) = k := by
  have : Spec.names.all (fun n => decide (Token2Lit n.1 = .ok (Spec.bytes n.2)) &&
      decide (Lit2Token (Spec.bytes n.2) = n.1)) := by decide +kernel
  have := List.all_eq_true.mp this _ h
  simpa using this

/-- C01: kinds outside the vocabulary have no name: `Token2Lit` gives the empty
string for a gap in the table and panics beyond it. -/
theorem C01_token2lit_unnamed (k : Nat) (h : ∀ s, (k, s) ∉ Spec.names) :
    Token2Lit k = if k < 154 then .ok [] else .panic := by
  by_cases hk : k < 154
  · have : (List.range 154).all (fun k =>
        (Spec.names.any (fun n => n.1 == k)) || decide (Token2Lit k = .ok [])) := by decide +kernel
    have := List.all_eq_true.mp this k (List.mem_range.mpr hk)
    simp only [Bool.or_eq_true, decide_eq_true_eq] at this
    rcases this with h1 | h1
    · obtain ⟨n, hn, hc⟩ := List.any_eq_true.mp h1
      have e : n.1 = k := by simpa using hc
      exact absurd (e ▸ hn) (h n.2)
    · simpa [hk] using h1
  · have : tokens[k]? = none := by
      apply List.getElem?_eq_none
      have : tokens.length = 154 := by decide +kernel
      omega
    simp [Token2Lit, this, hk]

/-- C01: a string that is not a token name maps to ILLEGAL (0). -/
theorem C01_lit2token_other (lit : Str) (h : ∀ k s, (k, s) ∈ Spec.names → lit ≠ Spec.bytes s) :
    Lit2Token lit = ILLEGAL := by
  have : rtokens.lookup lit = none := by
    rw [List.lookup_eq_none_iff]
    intro p hp
    obtain ⟨s, hs, e⟩ := rtokens_spec p hp
    simpa [e] using h _ s hs
  simp [Lit2Token, this]

/-- C01: different named kinds have different names. -/
theorem C01_names_injective (k k' : Nat) (s : String)
    (h : (k, s) ∈ Spec.names) (h' : (k', s) ∈ Spec.names) : k = k' := by
  rw [← (C01_lit2token_token2lit k s h).2, ← (C01_lit2token_token2lit k' s h').2]

example : Lit2Token (str "\"<<=\"") = SHL_ASSIGN := by decide +kernel
example : ∀ k s, (k, s) ∈ Spec.names → str "while" ≠ Spec.bytes s := by
  have : Spec.names.all (fun n => decide (str "while" ≠ Spec.bytes n.2)) := by decide +kernel
  intro k s h
  simpa using List.all_eq_true.mp this (k, s) h

/-- C02, the part that holds: right for every operator, for every class and for
every kind above the table. -/
theorem C02_tokenLen_partial (k : Nat) :
    (∀ s, (k, s) ∈ Spec.operators → TokenLen k = .ok (s.length : Int)) ∧
    (k ≤ 32 ∨ 154 < k → TokenLen k = .ok 0) := by
  have hl : tokens.length = 154 := by decide +kernel
  constructor
  · intro s h
    have : Spec.operators.all (fun n => decide (TokenLen n.1 = .ok (n.2.length : Int))) := by
      decide +kernel
    simpa using List.all_eq_true.mp this _ h
  · intro h
    unfold TokenLen
    rw [if_neg]
    omega

/-- C02 is false as stated: `TokenLen` panics at the table length (`<=` instead
of `<`) and is negative for a gap in the table. -/
theorem C02_tokenLen_violated :
    TokenLen 154 = .panic ∧ TokenLen 0x22 = .ok (-2) ∧
    (∀ s, (0x22, s) ∉ Spec.operators) := by
  refine ⟨by decide +kernel, by decide +kernel, ?_⟩
  have : Spec.operators.all (fun n => n.1 != 0x22) := by decide +kernel
  intro s h
  simpa using List.all_eq_true.mp this _ h

/-- C02: exactly which kinds go wrong. -/
theorem C02_tokenLen_exact (k : Nat) :
    (TokenLen k = .panic ↔ k = 154) ∧
    (TokenLen k = .ok (-2) ↔ 32 < k ∧ k < 154 ∧ ∀ s, (k, s) ∉ Spec.operators) := by
  have hl : tokens.length = 154 := by decide +kernel
  by_cases hk : k ≤ 154
  · have hall : (List.range 155).all (fun k =>
        decide ((TokenLen k = .panic ↔ k = 154) ∧
        (TokenLen k = .ok (-2) ↔ 32 < k ∧ k < 154 ∧ Spec.operators.all (fun n => n.1 != k)))) := by
      decide +kernel
    have := List.all_eq_true.mp hall k (List.mem_range.mpr (by omega))
    simp only [decide_eq_true_eq] at this
    refine ⟨this.1, this.2.trans (and_congr_right' (and_congr_right' ?_))⟩
    rw [List.all_eq_true]
    constructor
    · intro h s hs; simpa using h _ hs
    · intro h n hn
      simp only [bne_iff_ne, ne_eq]
      intro e
      exact h n.2 (e ▸ hn)
  · have : TokenLen k = .ok 0 := (C02_tokenLen_partial k).2 (Or.inr (by omega))
    rw [this]
    constructor <;> constructor <;> intro h
    · cases h
    · omega
    · simp at h
    · omega

end Tpl.Props
