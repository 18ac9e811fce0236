import Verif.Spec.Literal
import Verif.Proof.ScannerSpell

/-! UTF-8: encoding and decoding are inverse to each other. -/
namespace Tpl
open Spec Scanner

theorem toUInt8_toNat {n : Nat} (h : n < 256) : n.toUInt8.toNat = n := by
  simp only [Nat.toUInt8, UInt8.toNat_ofNat']
  omega

theorem toNat_toUInt8 (b : UInt8) : b.toNat.toUInt8 = b := by
  simp [Nat.toUInt8]

/-- Encoding a character gives its encoding. -/
theorem utf8_encode {n : Nat} (h : ValidRune n) : Utf8 (encodeRune n) n := by
  obtain ⟨h1, h2⟩ := h
  unfold encodeRune
  by_cases c1 : n < 0x80
  · rw [if_pos c1]
    refine ⟨by simp, ?_, by simp only [RuneError, List.length_singleton]; omega⟩
    rw [decodeRune_cons, toUInt8_toNat (by omega), if_pos c1]
    rfl
  rw [if_neg c1]
  by_cases c2 : n < 0x800
  · rw [if_pos c2]
    refine ⟨by simp, ?_, by simp⟩
    rw [decodeRune_cons, toUInt8_toNat (by omega), if_neg (by omega), if_neg (by omega), if_pos (by omega)]
    unfold decode2
    dsimp only
    rw [if_pos (by rw [inRange_iff, toUInt8_toNat (by omega)]; omega), toUInt8_toNat (by omega)]
    simp only [List.length_cons, List.length_nil, Prod.mk.injEq, and_true]
    omega
  rw [if_neg c2, if_neg (by omega)]
  by_cases c3 : n < 0x10000
  · rw [if_pos c3]
    refine ⟨by simp, ?_, by simp⟩
    rw [decodeRune_cons, toUInt8_toNat (by omega), if_neg (by omega), if_neg (by omega), if_neg (by omega), if_pos (by omega)]
    unfold decode3
    dsimp only
    rw [if_pos ?_, toUInt8_toNat (by omega), toUInt8_toNat (by omega)]
    · simp only [List.length_cons, List.length_nil, Prod.mk.injEq, and_true]
      omega
    · rw [Bool.and_eq_true, inRange_iff, inRange_iff, toUInt8_toNat (by omega), toUInt8_toNat (by omega)]
      unfold lo3 hi3
      refine ⟨⟨?_, ?_⟩, ?_⟩
      · split <;> omega
      · split <;> omega
      · omega
  · rw [if_neg c3]
    refine ⟨by simp, ?_, by simp⟩
    rw [decodeRune_cons, toUInt8_toNat (by omega), if_neg (by omega), if_neg (by omega), if_neg (by omega), if_neg (by omega), if_pos (by omega)]
    unfold decode4
    dsimp only
    rw [if_pos ?_, toUInt8_toNat (by omega), toUInt8_toNat (by omega), toUInt8_toNat (by omega)]
    · simp only [List.length_cons, List.length_nil, Prod.mk.injEq, and_true]
      omega
    · rw [Bool.and_eq_true, Bool.and_eq_true, inRange_iff, inRange_iff, inRange_iff, toUInt8_toNat (by omega), toUInt8_toNat (by omega), toUInt8_toNat (by omega)]
      unfold lo4 hi4
      refine ⟨⟨⟨?_, ?_⟩, ?_⟩, ?_⟩
      · split <;> omega
      · split <;> omega
      · omega
      · omega

theorem uint8_ext {a b : UInt8} (h : a.toNat = b.toNat) : a = b := UInt8.toNat_inj.1 h

/-- An encoding is what encoding gives. -/
theorem encode_utf8 {u : Str} {n : Nat} (h : Utf8 u n) : encodeRune n = u := by
  obtain ⟨h1, h2, h3⟩ := h
  cases u with
  | nil => exact absurd rfl h1
  | cons b0 t =>
    clear h1
    have bad : ∀ {P : Prop}, (RuneError, 1) = (n, (b0 :: t).length) → P := by
      intro P e
      injection e with e1 e2
      exact absurd ⟨e1.symm, e2.symm⟩ h3
    have hb : b0.toNat < 256 := b0.toNat_lt
    rw [decodeRune_cons] at h2
    unfold encodeRune
    split at h2
    · injection h2 with e1 e2
      have : t = [] := by cases t with | nil => rfl | cons => simp at e2
      subst this
      subst e1
      rw [if_pos (by assumption), toNat_toUInt8]
    split at h2
    · exact bad h2
    split at h2
    · unfold decode2 at h2
      split at h2
      · rename_i b1 t1
        split at h2
        · rename_i hr
          rw [inRange_iff] at hr
          injection h2 with e1 e2
          have : t1 = [] := by cases t1 with | nil => rfl | cons => simp at e2
          subst this
          rw [if_neg (by omega), if_pos (by omega)]
          congr 1
          · apply uint8_ext; rw [toUInt8_toNat (by omega)]; omega
          · congr 1; apply uint8_ext; rw [toUInt8_toNat (by omega)]; omega
        · exact bad h2
      · exact bad h2
    split at h2
    · unfold decode3 at h2
      split at h2
      · rename_i b1 b2 t1
        split at h2
        · rename_i hr
          rw [Bool.and_eq_true, inRange_iff, inRange_iff] at hr
          have hlo : 0x80 ≤ lo3 b0.toNat ∧ (b0.toNat = 0xE0 → lo3 b0.toNat = 0xA0) := by unfold lo3; split <;> omega
          have hhi : hi3 b0.toNat ≤ 0xBF ∧ (b0.toNat = 0xED → hi3 b0.toNat = 0x9F) := by unfold hi3; split <;> omega
          injection h2 with e1 e2
          have : t1 = [] := by cases t1 with | nil => rfl | cons => simp at e2
          subst this
          rw [if_neg (by omega), if_neg (by omega), if_neg (by omega), if_pos (by omega)]
          congr 1
          · apply uint8_ext; rw [toUInt8_toNat (by omega)]; omega
          · congr 1
            · apply uint8_ext; rw [toUInt8_toNat (by omega)]; omega
            · congr 1; apply uint8_ext; rw [toUInt8_toNat (by omega)]; omega
        · exact bad h2
      · exact bad h2
    split at h2
    · unfold decode4 at h2
      split at h2
      · rename_i b1 b2 b3 t1
        split at h2
        · rename_i hr
          rw [Bool.and_eq_true, Bool.and_eq_true, inRange_iff, inRange_iff, inRange_iff] at hr
          have hlo : 0x80 ≤ lo4 b0.toNat ∧ (b0.toNat = 0xF0 → lo4 b0.toNat = 0x90) := by unfold lo4; split <;> omega
          have hhi : hi4 b0.toNat ≤ 0xBF ∧ (b0.toNat = 0xF4 → hi4 b0.toNat = 0x8F) := by unfold hi4; split <;> omega
          injection h2 with e1 e2
          have : t1 = [] := by cases t1 with | nil => rfl | cons => simp at e2
          subst this
          rw [if_neg (by omega), if_neg (by omega), if_neg (by omega), if_neg (by omega)]
          congr 1
          · apply uint8_ext; rw [toUInt8_toNat (by omega)]; omega
          · congr 1
            · apply uint8_ext; rw [toUInt8_toNat (by omega)]; omega
            · congr 1
              · apply uint8_ext; rw [toUInt8_toNat (by omega)]; omega
              · congr 1; apply uint8_ext; rw [toUInt8_toNat (by omega)]; omega
        · exact bad h2
      · exact bad h2
    · exact bad h2

/-- The first character of a text in UTF-8. -/
theorem utf8_clean {r : Str} (h : Clean r) (hne : r ≠ []) : ∃ u t c, r = u ++ t ∧ Utf8 u c ∧ Clean t := by
  obtain ⟨u, t, c, rfl, h1, h2, _, _, h5, h6⟩ := clean_first h hne
  have := decode_stable h1 h2 h5 []
  rw [List.append_nil] at this
  exact ⟨u, t, c, rfl, ⟨h1, this, h5⟩, h6⟩

/-- An encoding is one ASCII byte, or has none. -/
theorem utf8_cases {u : Str} {c : Nat} (h : Utf8 u c) : (∃ b : UInt8, u = [b] ∧ c = b.toNat ∧ b.toNat < 0x80) ∨ (0x80 ≤ c ∧ ∀ b ∈ u, 0x80 ≤ b.toNat) := by
  obtain ⟨h1, h2, h3⟩ := h
  match u, h1 with
  | b :: t, _ =>
    by_cases hb : 0x80 ≤ b.toNat
    · right
      have h4 := decodeRune_ge b t hb
      have h5 := decodeRune_bytes b t hb
      rw [h2] at h4 h5
      refine ⟨h4, fun x hx => h5 x ?_⟩
      rw [List.take_length]
      exact hx
    · left
      rw [decodeRune_ascii (by omega)] at h2
      injection h2 with e1 e2
      have : t = [] := by cases t with | nil => rfl | cons => simp at e2
      subst this
      exact ⟨b, rfl, e1.symm, by omega⟩

end Tpl
