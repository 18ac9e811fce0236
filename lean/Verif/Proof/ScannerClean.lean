import Verif.Proof.ScannerRun

/-! When `next` reports errors: exactly on text that is not clean. -/
namespace Tpl
namespace Scanner
open Spec

/-- The first character is one `next` does not complain about. -/
def HeadOk (r : Str) : Prop := r = [] ∨ ((decodeRune r).1 ≠ 0 ∧ (decodeRune r).1 ≠ 0xFEFF ∧ ¬ ((decodeRune r).1 = RuneError ∧ (decodeRune r).2 = 1))

theorem clean_head {r : Str} (h : Clean r) : HeadOk r := by
  cases h with
  | nil => exact .inl rfl
  | cons h1 h2 h3 h4 h5 _ =>
    right
    rw [h2]
    exact ⟨h3, h4, h5⟩

theorem clean_tail {u t : Str} (h : Clean (u ++ t)) (hu : u ≠ []) (hd : (decodeRune (u ++ t)).2 = u.length) : Clean t := by
  generalize he : u ++ t = r at h
  cases h with
  | nil => simp [hu] at he
  | cons h1 h2 h3 h4 h5 h6 =>
    rename_i u' t' c
    rw [he, h2] at hd
    obtain ⟨_, rfl⟩ := List.append_inj he (by simpa using hd.symm)
    exact h6

theorem nextRune_none {src : Str} {rd off : Nat} (h : rd < src.length) (h0 : 0 < off) :
    (nextRune src rd off).2.2 = none ↔ HeadOk (src.drop rd) := by
  have hl : (src.drop rd).length = src.length - rd := List.length_drop
  unfold nextRune HeadOk
  split
  · rename_i e; rw [e] at hl; simp at hl; omega
  · rename_i b t e
    rw [e]
    by_cases hz : b.toNat = 0
    · rw [if_pos hz, decodeRune_ascii (by omega)]
      simp [hz]
    · rw [if_neg hz]
      by_cases h8 : b.toNat ≥ 0x80
      · rw [if_pos h8]
        have hge := decodeRune_ge b t h8
        dsimp only
        by_cases h1 : (decodeRune (b :: t)).1 = RuneError ∧ (decodeRune (b :: t)).2 = 1
        · rw [if_pos h1]
          simp [h1]
        · rw [if_neg h1]
          by_cases h2 : (decodeRune (b :: t)).1 = 0xFEFF ∧ off > 0
          · rw [if_pos h2]
            simp [h2.1]
          · rw [if_neg h2]
            simp only [true_iff]
            right
            exact ⟨by omega, fun e => h2 ⟨e, h0⟩, h1⟩
      · rw [if_neg h8, decodeRune_ascii (by omega)]
        simp only [true_iff]
        right
        refine ⟨hz, by omega, ?_⟩
        simp only [RuneError]
        omega

theorem next_quiet {s : Scanner} (h : s.rdOffset ≤ s.src.length) (h0 : 0 < s.rdOffset ∨ s.src = []) :
    Quiet s s.next ↔ HeadOk (s.src.drop s.rdOffset) := by
  unfold Quiet
  by_cases hlt : s.rdOffset < s.src.length
  · have h0' : 0 < s.rdOffset := by
      rcases h0 with h0 | h0
      · exact h0
      · rw [h0] at hlt; simp at hlt
    rw [← nextRune_none (off := s.rdOffset) hlt h0']
    unfold Scanner.next
    rw [if_pos hlt]
    have e1 : (s.nextLine s.rdOffset).src = s.src ∧ (s.nextLine s.rdOffset).rdOffset = s.rdOffset ∧ (s.nextLine s.rdOffset).offset = s.rdOffset ∧
        (s.nextLine s.rdOffset).errs = s.errs := by
      unfold nextLine
      split <;> simp [addLine]
    dsimp only
    rw [e1.1, e1.2.1, e1.2.2.1]
    generalize nextRune _ _ _ = q
    obtain ⟨r, w, e⟩ := q
    cases e with
    | none => simp [e1.2.2.2]
    | some m =>
      simp only [reduceCtorEq, iff_false]
      show ¬ ((_, m) :: (s.nextLine s.rdOffset).errs) = s.errs
      rw [e1.2.2.2]
      intro e
      have := congrArg List.length e
      simp at this
  · have e : s.src.drop s.rdOffset = [] := List.drop_eq_nil_of_le (by omega)
    rw [e]
    unfold Scanner.next
    rw [if_neg hlt]
    simp only [HeadOk, true_or, iff_true]
    unfold nextLine
    split <;> simp [addLine]

theorem Sync.next_rest {s : Scanner} (h : Sync s) : s.next.rest = s.src.drop s.rdOffset := by
  unfold Scanner.rest
  rw [next_src, h.next_offset]

theorem Sync.quiet_iff {s : Scanner} (h : Sync s) : Quiet s s.next ↔ HeadOk s.next.rest := by
  rw [next_quiet h.rd_le h.rd_pos, h.next_rest]

theorem Sync.clean_next {s : Scanner} (h : Sync s) (hc : Clean s.rest) : Clean s.next.rest := by
  by_cases h0 : 0 ≤ s.ch
  · obtain ⟨u, he, hne, hd, _⟩ := h.eatNext h0
    rw [he.rest] at hc hd
    exact clean_tail hc hne (by rw [hd])
  · have hr := h.rest_eof (by omega)
    have e : s.next.rest = [] := by
      have h1 := h.next.rest_length
      have h2 := h.eof_iff.mp (by omega)
      have h3 := h.offset_le_next
      rw [next_src] at h1
      exact List.eq_nil_of_length_eq_zero (by omega)
    rw [e]
    exact .nil

theorem Sync.quiet_next {s : Scanner} (h : Sync s) (hc : Clean s.rest) : Quiet s s.next :=
  h.quiet_iff.mpr (clean_head (h.clean_next hc))

theorem Steps.clean {s s' : Scanner} (h : Steps s s') (hs : Sync s) (hc : Clean s.rest) : Clean s'.rest := by
  induction h with
  | refl => exact hc
  | next h ih => exact (h.sync hs).1.clean_next ih
  | error o m _ ih => simpa using ih

theorem Go.clean {s s' : Scanner} (h : Go s s') (hs : Sync s) (hc : Clean s.rest) : Clean s'.rest := by
  induction h with
  | refl => exact hc
  | next h ih => exact (h.sync hs).clean_next ih
  | error o m _ ih => simpa using ih
  | semi b _ ih => exact ih

theorem Quiet.refl (s : Scanner) : Quiet s s := rfl
theorem Quiet.trans {a b c : Scanner} (h : Quiet a b) (h' : Quiet b c) : Quiet a c := by
  unfold Quiet at *; rw [h', h]

/-- Text read without an error is clean. -/
theorem Go.was_clean {s s' : Scanner} (h : Go s s') (hs : Sync s) (hq : s'.errs = s.errs) (hh : HeadOk s.rest) :
    HeadOk s'.rest ∧ (Clean s'.rest → Clean s.rest) := by
  induction h with
  | refl => exact ⟨hh, id⟩
  | next h ih =>
    rename_i s1
    obtain ⟨l, e⟩ := h.errs
    obtain ⟨l', e'⟩ := next_errs s1
    have hs1 := h.sync hs
    have h1 : s1.errs = s.errs := by
      rw [e', e] at hq
      have hlen := congrArg List.length hq
      simp at hlen
      have : l = [] := List.eq_nil_of_length_eq_zero (by omega)
      rw [e, this]; rfl
    obtain ⟨ih1, ih2⟩ := ih h1
    have hq1 : Quiet s1 s1.next := by unfold Quiet; rw [hq, h1]
    have hh1 := hs1.quiet_iff.mp hq1
    refine ⟨hh1, fun hc => ih2 ?_⟩
    by_cases h0 : 0 ≤ s1.ch
    · obtain ⟨u, he, hne, hd, _⟩ := hs1.eatNext h0
      rcases ih1 with ih1 | ⟨ha, hb, hc'⟩
      · rw [ih1]; exact .nil
      · rw [he.rest] at hd ha hb hc' ⊢
        exact .cons (c := (decodeRune (u ++ s1.next.rest)).1) hne hd ha hb (fun hx => hc' ⟨hx.1, by rw [hd]; exact hx.2⟩) hc
    · rw [hs1.rest_eof (by omega)]; exact .nil
  | error o m h ih =>
    exfalso
    obtain ⟨l, e⟩ := h.errs
    rw [show (Scanner.error _ o m).errs = (o, m) :: _ from rfl, e] at hq
    have := congrArg List.length hq
    simp at this
    omega
  | semi b _ ih => exact ih hq

end Scanner
end Tpl
