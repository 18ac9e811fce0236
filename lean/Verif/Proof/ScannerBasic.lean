import Verif.Model.Scanner

/-! Basic facts about `next`: progress, synchronisation with the source text. -/
namespace Tpl
namespace Scanner

/-- Rune (or -1) and width at an offset of the source. -/
def peek (src : Str) (off : Nat) : Int × Nat :=
  match src.drop off with
  | [] => (-1, 0)
  | b :: t => if b.toNat ≥ 0x80 then ((decodeRune (b :: t)).1, (decodeRune (b :: t)).2) else (b.toNat, 1)

/-- The look-ahead agrees with the source at the current offset. -/
structure Sync (s : Scanner) : Prop where
  le : s.offset ≤ s.src.length
  ch : s.ch = (peek s.src s.offset).1
  rd : s.rdOffset = s.offset + (peek s.src s.offset).2

/-- Remaining source text. -/
def rest (s : Scanner) : Str := s.src.drop s.offset

theorem inRange_iff (b : UInt8) (lo hi : Nat) : inRange b lo hi = true ↔ lo ≤ b.toNat ∧ b.toNat ≤ hi := by
  simp [inRange]

/-- What is proved of every multi-byte decoder: width, rune at least 0x80, bytes at least 0x80. -/
def DecOk (b : UInt8) (t : Str) (r : Nat × Nat) : Prop :=
  1 ≤ r.2 ∧ r.2 ≤ t.length + 1 ∧ 0x80 ≤ r.1 ∧ ∀ x ∈ (b :: t).take r.2, 0x80 ≤ x.toNat

theorem decOk_error (b : UInt8) (t : Str) (h : 0x80 ≤ b.toNat) : DecOk b t (RuneError, 1) := by
  refine ⟨by simp, by simp, by simp [RuneError], ?_⟩
  intro x hx; simp at hx; rw [hx]; exact h

theorem decode2_ok (b : UInt8) (t : Str) (h : 0xC2 ≤ b.toNat) (h' : b.toNat < 0xE0) :
    DecOk b t (decode2 b.toNat t) := by
  unfold decode2
  split
  · split
    · rename_i h1
      rw [inRange_iff] at h1
      refine ⟨by simp, by simp, by simp only; omega, ?_⟩
      intro x hx
      simp at hx
      rcases hx with rfl | rfl <;> omega
    · exact decOk_error b _ (by omega)
  · exact decOk_error b _ (by omega)

theorem decode3_ok (b : UInt8) (t : Str) (h : 0xE0 ≤ b.toNat) (h' : b.toNat < 0xF0) :
    DecOk b t (decode3 b.toNat t) := by
  unfold decode3
  split
  · split
    · rename_i h1
      rw [Bool.and_eq_true, inRange_iff, inRange_iff] at h1
      have h2 : 0x80 ≤ lo3 b.toNat := by unfold lo3; split <;> omega
      have h3 : b.toNat = 0xE0 → lo3 b.toNat = 0xA0 := by intro h; simp [lo3, h]
      refine ⟨by simp, by simp, ?_, ?_⟩
      · simp only
        have hhi : hi3 b.toNat ≤ 0xBF ∧ hi4 b.toNat ≤ 0xBF := by unfold hi3 hi4; constructor <;> split <;> omega
        omega
      · intro x hx
        simp at hx
        rcases hx with rfl | rfl | rfl <;> omega
    · exact decOk_error b _ (by omega)
  · exact decOk_error b _ (by omega)

theorem decode4_ok (b : UInt8) (t : Str) (h : 0xF0 ≤ b.toNat) (h' : b.toNat < 0xF5) :
    DecOk b t (decode4 b.toNat t) := by
  unfold decode4
  split
  · split
    · rename_i h1
      rw [Bool.and_eq_true, Bool.and_eq_true, inRange_iff, inRange_iff, inRange_iff] at h1
      have h2 : 0x80 ≤ lo4 b.toNat := by unfold lo4; split <;> omega
      have h3 : b.toNat = 0xF0 → lo4 b.toNat = 0x90 := by intro h; simp [lo4, h]
      refine ⟨by simp, by simp, ?_, ?_⟩
      · simp only
        have hhi : hi3 b.toNat ≤ 0xBF ∧ hi4 b.toNat ≤ 0xBF := by unfold hi3 hi4; constructor <;> split <;> omega
        omega
      · intro x hx
        simp at hx
        rcases hx with rfl | rfl | rfl | rfl <;> omega
    · exact decOk_error b _ (by omega)
  · exact decOk_error b _ (by omega)

theorem decodeRune_ok (b : UInt8) (t : Str) (h : 0x80 ≤ b.toNat) : DecOk b t (decodeRune (b :: t)) := by
  show DecOk b t (if b.toNat < 0x80 then _ else _)
  rw [if_neg (by omega)]
  split
  · exact decOk_error b t h
  · split
    · exact decode2_ok b t (by omega) (by omega)
    · split
      · exact decode3_ok b t (by omega) (by omega)
      · split
        · exact decode4_ok b t (by omega) (by omega)
        · exact decOk_error b t h

theorem decodeRune_width (b : UInt8) (t : Str) :
    1 ≤ (decodeRune (b :: t)).2 ∧ (decodeRune (b :: t)).2 ≤ (b :: t).length := by
  by_cases h : 0x80 ≤ b.toNat
  · have := decodeRune_ok b t h
    exact ⟨this.1, this.2.1⟩
  · have h' : b.toNat < 0x80 := by omega
    simp [decodeRune, h']

theorem decodeRune_ge (b : UInt8) (t : Str) (h : 0x80 ≤ b.toNat) : 0x80 ≤ (decodeRune (b :: t)).1 :=
  (decodeRune_ok b t h).2.2.1

/-- All bytes of a non-ASCII rune are ≥ 0x80. -/
theorem decodeRune_bytes (b : UInt8) (t : Str) (h : 0x80 ≤ b.toNat) :
    ∀ x ∈ (b :: t).take (decodeRune (b :: t)).2, 0x80 ≤ x.toNat :=
  (decodeRune_ok b t h).2.2.2

theorem peek_eof {src : Str} {off : Nat} (h : src.length ≤ off) : peek src off = (-1, 0) := by
  simp [peek, List.drop_eq_nil_of_le h]

theorem peek_width {src : Str} {off : Nat} (h : off < src.length) :
    1 ≤ (peek src off).2 ∧ off + (peek src off).2 ≤ src.length := by
  have hl : (src.drop off).length = src.length - off := List.length_drop
  unfold peek
  split
  · rename_i e; rw [e] at hl; simp at hl; omega
  · rename_i b t e
    rw [e] at hl
    split
    · have := decodeRune_width b t
      simp only; omega
    · simp at hl; simp; omega

theorem peek_nonneg {src : Str} {off : Nat} (h : off < src.length) : 0 ≤ (peek src off).1 := by
  have hl : (src.drop off).length = src.length - off := List.length_drop
  unfold peek
  split
  · rename_i e; rw [e] at hl; simp at hl; omega
  · split <;> simp

theorem nextRune_eq {src : Str} {rd off : Nat} (h : rd < src.length) :
    ((nextRune src rd off).1 : Int) = (peek src rd).1 ∧ (nextRune src rd off).2.1 = (peek src rd).2 := by
  have hl : (src.drop rd).length = src.length - rd := List.length_drop
  unfold nextRune peek
  split
  · rename_i e; rw [e] at hl; simp at hl; omega
  · rename_i b t e
    simp only [e]
    split
    · rename_i h0; simp [h0]
    · split
      · split
        · simp
        · split <;> simp
      · simp

/-! ### `next` -/

@[simp] theorem addLine_src (s : Scanner) (o) : (s.addLine o).src = s.src := rfl
@[simp] theorem addLine_ch (s : Scanner) (o) : (s.addLine o).ch = s.ch := rfl
@[simp] theorem addLine_offset (s : Scanner) (o) : (s.addLine o).offset = s.offset := rfl
@[simp] theorem addLine_rdOffset (s : Scanner) (o) : (s.addLine o).rdOffset = s.rdOffset := rfl
@[simp] theorem addLine_mode (s : Scanner) (o) : (s.addLine o).mode = s.mode := rfl
@[simp] theorem addLine_insertSemi (s : Scanner) (o) : (s.addLine o).insertSemi = s.insertSemi := rfl
@[simp] theorem addLine_bad (s : Scanner) (o) : (s.addLine o).bad = s.bad := rfl
@[simp] theorem addLine_errs (s : Scanner) (o) : (s.addLine o).errs = s.errs := rfl
@[simp] theorem addLine_errorCount (s : Scanner) (o) : (s.addLine o).errorCount = s.errorCount := rfl

@[simp] theorem nextLine_src (s : Scanner) (o) : (s.nextLine o).src = s.src := by
  unfold nextLine; split <;> simp
@[simp] theorem nextLine_ch (s : Scanner) (o) : (s.nextLine o).ch = s.ch := by
  unfold nextLine; split <;> simp
@[simp] theorem nextLine_offset (s : Scanner) (o) : (s.nextLine o).offset = o := by
  unfold nextLine; split <;> simp
@[simp] theorem nextLine_rdOffset (s : Scanner) (o) : (s.nextLine o).rdOffset = s.rdOffset := by
  unfold nextLine; split <;> simp
@[simp] theorem nextLine_mode (s : Scanner) (o) : (s.nextLine o).mode = s.mode := by
  unfold nextLine; split <;> simp
@[simp] theorem nextLine_insertSemi (s : Scanner) (o) : (s.nextLine o).insertSemi = s.insertSemi := by
  unfold nextLine; split <;> simp
@[simp] theorem nextLine_bad (s : Scanner) (o) : (s.nextLine o).bad = s.bad := by
  unfold nextLine; split <;> simp
@[simp] theorem nextLine_errs (s : Scanner) (o) : (s.nextLine o).errs = s.errs := by
  unfold nextLine; split <;> simp
@[simp] theorem nextLine_errorCount (s : Scanner) (o) : (s.nextLine o).errorCount = s.errorCount := by
  unfold nextLine; split <;> simp

@[simp] theorem error_src (s : Scanner) (o m) : (s.error o m).src = s.src := rfl
@[simp] theorem error_ch (s : Scanner) (o m) : (s.error o m).ch = s.ch := rfl
@[simp] theorem error_offset (s : Scanner) (o m) : (s.error o m).offset = s.offset := rfl
@[simp] theorem error_rdOffset (s : Scanner) (o m) : (s.error o m).rdOffset = s.rdOffset := rfl
@[simp] theorem error_mode (s : Scanner) (o m) : (s.error o m).mode = s.mode := rfl
@[simp] theorem error_insertSemi (s : Scanner) (o m) : (s.error o m).insertSemi = s.insertSemi := rfl
@[simp] theorem error_bad (s : Scanner) (o m) : (s.error o m).bad = s.bad := rfl
@[simp] theorem error_lines (s : Scanner) (o m) : (s.error o m).lines = s.lines := rfl
@[simp] theorem error_errs (s : Scanner) (o m) : (s.error o m).errs = (o, m) :: s.errs := rfl
@[simp] theorem error_errorCount (s : Scanner) (o m) : (s.error o m).errorCount = s.errorCount + 1 := rfl
@[simp] theorem error_rest (s : Scanner) (o m) : (s.error o m).rest = s.rest := rfl
@[simp] theorem error_mu (s : Scanner) (o m) : (s.error o m).mu = s.mu := rfl

theorem next_fields (s : Scanner) :
    s.next.src = s.src ∧ s.next.mode = s.mode ∧ s.next.insertSemi = s.insertSemi ∧
    s.next.bad = s.bad := by
  unfold next
  split
  · dsimp only
    generalize (nextRune _ _ _).2.2 = e
    cases e <;> simp
  · simp

@[simp] theorem next_src (s : Scanner) : s.next.src = s.src := (next_fields s).1
@[simp] theorem next_mode (s : Scanner) : s.next.mode = s.mode := (next_fields s).2.1
@[simp] theorem next_insertSemi (s : Scanner) : s.next.insertSemi = s.insertSemi := (next_fields s).2.2.1
@[simp] theorem next_bad (s : Scanner) : s.next.bad = s.bad := (next_fields s).2.2.2

theorem next_in {s : Scanner} (h : s.rdOffset < s.src.length) :
    s.next.offset = s.rdOffset ∧ s.next.ch = (peek s.src s.rdOffset).1 ∧
    s.next.rdOffset = s.rdOffset + (peek s.src s.rdOffset).2 := by
  have hr := @nextRune_eq s.src s.rdOffset s.rdOffset h
  unfold next
  rw [if_pos h]
  simp only [nextLine_src, nextLine_rdOffset, nextLine_offset]
  generalize nextRune s.src s.rdOffset s.rdOffset = x at hr
  obtain ⟨r, w, e⟩ := x
  simp only at hr
  cases e <;> simp [hr.1, hr.2]

theorem next_out {s : Scanner} (h : ¬ s.rdOffset < s.src.length) :
    s.next.offset = s.src.length ∧ s.next.ch = -1 ∧ s.next.rdOffset = s.rdOffset := by
  unfold next
  rw [if_neg h]
  simp

/-- `next` always resynchronises. -/
theorem next_sync' {s : Scanner} (h : s.rdOffset ≤ s.src.length) :
    Sync s.next ∧ s.next.offset = s.rdOffset := by
  by_cases h1 : s.rdOffset < s.src.length
  · have := next_in h1
    refine ⟨⟨?_, ?_, ?_⟩, this.1⟩
    · rw [this.1, next_src]; omega
    · rw [this.1, next_src]; exact this.2.1
    · rw [this.1, next_src]; exact this.2.2
  · have := next_out h1
    have e : s.rdOffset = s.src.length := by omega
    refine ⟨⟨?_, ?_, ?_⟩, by rw [this.1, e]⟩
    · rw [this.1, next_src]; omega
    · rw [this.1, next_src, peek_eof (by omega)]; exact this.2.1
    · rw [this.1, next_src, peek_eof (by omega), this.2.2]; exact e

theorem Sync.rd_le {s : Scanner} (h : Sync s) : s.rdOffset ≤ s.src.length := by
  rw [h.rd]
  by_cases h1 : s.offset < s.src.length
  · exact (peek_width h1).2
  · rw [peek_eof (by omega)]; have := h.le; simp; omega

theorem Sync.next {s : Scanner} (h : Sync s) : Sync s.next := (next_sync' h.rd_le).1
theorem Sync.next_offset {s : Scanner} (h : Sync s) : s.next.offset = s.rdOffset := (next_sync' h.rd_le).2

theorem Sync.offset_le_next {s : Scanner} (h : Sync s) : s.offset ≤ s.next.offset := by
  rw [h.next_offset, h.rd]; omega

theorem Sync.eof_iff {s : Scanner} (h : Sync s) : s.ch < 0 ↔ s.offset = s.src.length := by
  rw [h.ch]
  constructor
  · intro h1
    have := h.le
    apply Classical.byContradiction
    intro h2
    have := @peek_nonneg s.src s.offset (by omega)
    omega
  · intro h1; rw [peek_eof (by omega)]; simp

theorem Sync.eof_ch {s : Scanner} (h : Sync s) (h1 : s.ch < 0) : s.ch = -1 := by
  have := h.eof_iff.mp h1
  rw [h.ch, peek_eof (by omega)]

theorem Sync.ge_neg1 {s : Scanner} (h : Sync s) : -1 ≤ s.ch := by
  by_cases h1 : s.ch < 0
  · rw [h.eof_ch h1]; omega
  · omega

theorem Sync.error {s : Scanner} (h : Sync s) (o m) : Sync (s.error o m) := ⟨h.le, h.ch, h.rd⟩

theorem next_mu_lt {s : Scanner} (h : 0 ≤ s.ch) : s.next.mu < s.mu := by
  unfold mu
  rw [next_src]
  have h0 : ¬ s.ch < 0 := by omega
  by_cases h1 : s.rdOffset < s.src.length
  · have := next_in h1
    have hw := peek_width h1
    rw [this.2.2, if_neg h0]
    split <;> omega
  · have := next_out h1
    rw [this.2.2, this.2.1, if_neg h0]
    simp

theorem next_mu_le (s : Scanner) : s.next.mu ≤ s.mu := by
  unfold mu
  rw [next_src]
  by_cases h1 : s.rdOffset < s.src.length
  · have := next_in h1
    have hw := peek_width h1
    rw [this.2.2]
    split <;> split <;> omega
  · have := next_out h1
    rw [this.2.2, this.2.1]
    simp

theorem mu_zero {s : Scanner} (h : s.mu = 0) : s.ch < 0 := by
  unfold mu at h
  by_cases h1 : s.ch < 0
  · exact h1
  · simp [h1] at h

/-! ### Reading the remaining text -/

theorem Sync.rest_ascii {s : Scanner} (h : Sync s) (h0 : 0 ≤ s.ch) (h1 : s.ch < 0x80) :
    ∃ b : UInt8, (b.toNat : Int) = s.ch ∧ s.rest = b :: s.next.rest := by
  have hne : ¬ s.ch < 0 := by omega
  have hlt : s.offset < s.src.length := by
    have := h.le
    have := h.eof_iff
    omega
  unfold rest
  rw [next_src, h.next_offset]
  have hch := h.ch
  have hrd := h.rd
  unfold peek at hch hrd
  rw [List.drop_eq_getElem_cons hlt] at hch hrd
  simp only at hch hrd
  have hg := decodeRune_ge s.src[s.offset] (s.src.drop (s.offset + 1))
  split at hch
  · rename_i hb
    have := hg hb
    simp only at hch
    omega
  · rename_i hb
    rw [if_neg hb] at hrd
    refine ⟨s.src[s.offset], hch.symm, ?_⟩
    rw [hrd, List.drop_eq_getElem_cons hlt]

/-- One step over any character: the bytes are either the ASCII character or
all at least 0x80. -/
theorem Sync.rest_next {s : Scanner} (h : Sync s) (h0 : 0 ≤ s.ch) :
    ∃ u : Str, s.rest = u ++ s.next.rest ∧ u ≠ [] ∧
      ((s.ch < 0x80 ∧ ∃ b : UInt8, u = [b] ∧ (b.toNat : Int) = s.ch) ∨
       (0x80 ≤ s.ch ∧ ∀ x ∈ u, 0x80 ≤ x.toNat)) := by
  have hlt : s.offset < s.src.length := by
    have := h.le
    have := h.eof_iff
    omega
  have hw := peek_width hlt
  refine ⟨s.rest.take (peek s.src s.offset).2, ?_, ?_, ?_⟩
  · unfold rest
    rw [next_src, h.next_offset, h.rd, ← List.drop_drop, List.take_append_drop]
  · intro e
    have := congrArg List.length e
    simp [rest, List.length_take] at this
    omega
  · have hch := h.ch
    unfold rest
    rw [List.drop_eq_getElem_cons hlt]
    have hge := decodeRune_ge s.src[s.offset] (s.src.drop (s.offset + 1))
    have hby := decodeRune_bytes s.src[s.offset] (s.src.drop (s.offset + 1))
    have hpk2 : peek s.src s.offset = if s.src[s.offset].toNat ≥ 0x80 then
        (((decodeRune (s.src[s.offset] :: s.src.drop (s.offset + 1))).1 : Int),
          (decodeRune (s.src[s.offset] :: s.src.drop (s.offset + 1))).2)
        else ((s.src[s.offset].toNat : Int), 1) := by
      unfold peek
      rw [List.drop_eq_getElem_cons hlt]
    by_cases hb : 0x80 ≤ s.src[s.offset].toNat
    · rw [if_pos hb] at hpk2
      right
      rw [hch, hpk2]
      refine ⟨by have := hge hb; simp only; omega, hby hb⟩
    · rw [if_neg hb] at hpk2
      left
      rw [hch, hpk2]
      refine ⟨by simp only; omega, s.src[s.offset], rfl, rfl⟩

theorem Sync.rest_eof {s : Scanner} (h : Sync s) (h0 : s.ch < 0) : s.rest = [] := by
  unfold rest
  rw [h.eof_iff.mp h0, List.drop_length]

theorem Sync.rest_length {s : Scanner} (h : Sync s) : s.offset + s.rest.length = s.src.length := by
  unfold rest
  rw [List.length_drop]
  have := h.le
  omega

/-- The current character is determined by the remaining text. -/
theorem Sync.ch_of_rest {s : Scanner} (h : Sync s) {b : UInt8} {t : Str} (hr : s.rest = b :: t)
    (hb : b.toNat < 0x80) : s.ch = b.toNat := by
  rw [h.ch]
  unfold rest at hr
  unfold peek
  rw [hr]
  simp only
  rw [if_neg (by omega)]

end Scanner
end Tpl
