import Verif.Proof.ScannerBasic
import Verif.Spec.Lexical

/-! `Steps`: everything the scanner's helpers do is a sequence of `next` and
`error`; `Eat` adds the text that was consumed. -/
namespace Tpl
namespace Scanner
open Spec (headRune)

inductive Steps : Scanner → Scanner → Prop
  | refl (s) : Steps s s
  | next {s s'} : Steps s s' → Steps s s'.next
  | error {s s'} (o m) : Steps s s' → Steps s (s'.error o m)

theorem Steps.trans {a b c : Scanner} (h : Steps a b) (h' : Steps b c) : Steps a c := by
  induction h' with
  | refl => exact h
  | next _ ih => exact ih.next
  | error o m _ ih => exact ih.error o m

theorem next_errs (s : Scanner) : ∃ l, s.next.errs = l ++ s.errs := by
  unfold Scanner.next
  split
  · dsimp only
    generalize (nextRune _ _ _).2.2 = e
    cases e with
    | none => exact ⟨[], by simp⟩
    | some m => exact ⟨[_], by simp; rfl⟩
  · exact ⟨[], by simp⟩

theorem next_count (s : Scanner) :
    s.next.errorCount + s.errs.length = s.errorCount + s.next.errs.length := by
  unfold Scanner.next
  split
  · dsimp only
    generalize (nextRune _ _ _).2.2 = e
    cases e with
    | none => simp
    | some m => simp; omega
  · simp

theorem Steps.fields {s s' : Scanner} (h : Steps s s') :
    s'.src = s.src ∧ s'.mode = s.mode ∧ s'.insertSemi = s.insertSemi ∧ s'.bad = s.bad := by
  induction h with
  | refl => simp
  | next _ ih => simpa using ih
  | error _ _ _ ih => simpa using ih

theorem Steps.src {s s' : Scanner} (h : Steps s s') : s'.src = s.src := h.fields.1
theorem Steps.mode {s s' : Scanner} (h : Steps s s') : s'.mode = s.mode := h.fields.2.1
theorem Steps.insertSemi {s s' : Scanner} (h : Steps s s') : s'.insertSemi = s.insertSemi :=
  h.fields.2.2.1
theorem Steps.bad {s s' : Scanner} (h : Steps s s') : s'.bad = s.bad := h.fields.2.2.2

theorem Steps.errs {s s' : Scanner} (h : Steps s s') : ∃ l, s'.errs = l ++ s.errs := by
  induction h with
  | refl => exact ⟨[], rfl⟩
  | next _ ih =>
    obtain ⟨l, e⟩ := ih
    obtain ⟨l', e'⟩ := next_errs _
    exact ⟨l' ++ l, by rw [e', e, List.append_assoc]⟩
  | error o m _ ih =>
    obtain ⟨l, e⟩ := ih
    exact ⟨(o, m) :: l, by simp [e]⟩

theorem Steps.count {s s' : Scanner} (h : Steps s s') :
    s'.errorCount + s.errs.length = s.errorCount + s'.errs.length := by
  induction h with
  | refl => rfl
  | next _ ih => have := next_count ‹_›; omega
  | error o m _ ih => simp; omega

theorem Steps.mu {s s' : Scanner} (h : Steps s s') : s'.mu ≤ s.mu := by
  induction h with
  | refl => exact Nat.le_refl _
  | next _ ih => exact Nat.le_trans (next_mu_le _) ih
  | error o m _ ih => simpa using ih

theorem Steps.sync {s s' : Scanner} (h : Steps s s') (hs : Sync s) : Sync s' ∧ s.offset ≤ s'.offset := by
  induction h with
  | refl => exact ⟨hs, Nat.le_refl _⟩
  | next _ ih => exact ⟨ih.1.next, Nat.le_trans ih.2 ih.1.offset_le_next⟩
  | error o m _ ih => exact ⟨ih.1.error o m, by simpa using ih.2⟩

/-- No error was reported between two states. -/
def Quiet (s s' : Scanner) : Prop := s'.errs = s.errs

theorem Quiet.split {a b c : Scanner} (h : Steps a b) (h' : Steps b c) (q : Quiet a c) :
    Quiet a b ∧ Quiet b c := by
  obtain ⟨l, e⟩ := h.errs
  obtain ⟨l', e'⟩ := h'.errs
  unfold Quiet at *
  rw [e', e] at q
  have hl := congrArg List.length q
  simp at hl
  have h1 : l = [] := List.eq_nil_of_length_eq_zero (by omega)
  have h2 : l' = [] := List.eq_nil_of_length_eq_zero (by omega)
  subst h1 h2
  simp_all

theorem not_quiet_error {s s' : Scanner} (h : Steps s s') (o m) : ¬ Quiet s (s'.error o m) := by
  intro q
  obtain ⟨l, e⟩ := h.errs
  unfold Quiet at q
  simp [e] at q
  have := congrArg List.length q
  simp at this
  omega

/-! ### Consumed text -/

structure Eat (s : Scanner) (x : Str) (s' : Scanner) : Prop where
  sync0 : Sync s
  steps : Steps s s'
  rest : s.rest = x ++ s'.rest

theorem Eat.sync {s x s'} (h : Eat s x s') : Sync s' := (h.steps.sync h.sync0).1

theorem Eat.refl {s} (h : Sync s) : Eat s [] s := ⟨h, .refl s, rfl⟩

theorem Eat.trans {a x b y c} (h : Eat a x b) (h' : Eat b y c) : Eat a (x ++ y) c :=
  ⟨h.sync0, h.steps.trans h'.steps, by rw [h.rest, h'.rest, List.append_assoc]⟩

theorem Eat.error {s x s'} (h : Eat s x s') (o m) : Eat s x (s'.error o m) :=
  ⟨h.sync0, h.steps.error o m, by simpa using h.rest⟩

theorem Eat.offset {s x s'} (h : Eat s x s') : s'.offset = s.offset + x.length := by
  have h1 := h.sync0.rest_length
  have h2 := h.sync.rest_length
  rw [h.steps.src] at h2
  rw [h.rest] at h1
  simp at h1
  omega

theorem Eat.slice {s x s'} (h : Eat s x s') : s'.slice s.offset = x := by
  unfold Scanner.slice
  rw [h.offset, h.steps.src]
  have : s.offset + x.length - s.offset = x.length := by omega
  rw [this]
  show s.rest.take x.length = x
  rw [h.rest]
  simp

theorem Eat.check {s x s'} (h : Eat s x s') : s'.check s.offset = s' := by
  unfold Scanner.check
  rw [if_pos]
  exact ⟨by rw [h.offset]; omega, h.sync.le⟩

theorem decodeRune_ascii {b : UInt8} {t : Str} (h : b.toNat < 0x80) :
    decodeRune (b :: t) = (b.toNat, 1) := by
  show (if b.toNat < 0x80 then _ else _) = _
  rw [if_pos h]

theorem peek_eq (src : Str) (o : Nat) :
    peek src o = if src.drop o = [] then (-1, 0) else
      (((decodeRune (src.drop o)).1 : Int), (decodeRune (src.drop o)).2) := by
  unfold peek
  generalize src.drop o = l
  cases l with
  | nil => simp
  | cons b t =>
    simp only [reduceCtorEq, if_false]
    split
    · rfl
    · rw [decodeRune_ascii (by omega)]

theorem Sync.head {s : Scanner} (h : Sync s) : s.ch = headRune s.rest := by
  rw [h.ch, peek_eq]
  unfold headRune Scanner.rest
  split <;> rfl

/-- Consuming the current character. -/
theorem Sync.eatNext {s : Scanner} (h : Sync s) (h0 : 0 ≤ s.ch) :
    ∃ u : Str, Eat s u s.next ∧ u ≠ [] ∧
      decodeRune s.rest = ((decodeRune s.rest).1, u.length) ∧
      ((s.ch < 0x80 ∧ ∃ b : UInt8, u = [b] ∧ (b.toNat : Int) = s.ch) ∨
       (0x80 ≤ s.ch ∧ ∀ x ∈ u, 0x80 ≤ x.toNat)) := by
  obtain ⟨u, hu, hne, hd⟩ := h.rest_next h0
  have he : Eat s u s.next := ⟨h, (Steps.refl s).next, hu⟩
  refine ⟨u, he, hne, ?_, hd⟩
  have h1 := he.offset
  rw [h.next_offset, h.rd, peek_eq] at h1
  have : ¬ s.src.drop s.offset = [] := by
    intro e
    have : s.rest = [] := e
    rw [this] at hu
    have := List.append_eq_nil_iff.mp hu.symm
    exact hne this.1
  rw [if_neg this] at h1
  simp only at h1
  have h2 : (decodeRune s.rest).2 = u.length := by
    show (decodeRune (s.src.drop s.offset)).2 = u.length
    omega
  rw [← h2]

theorem toUInt8_eq {b c : UInt8} (h : b.toNat = c.toNat) : b = c := UInt8.toNat_inj.mp h

/-- Consuming a known ASCII character. -/
theorem Sync.eatAscii {s : Scanner} (h : Sync s) (c : UInt8) (hc : c.toNat < 0x80)
    (h0 : s.ch = c.toNat) : Eat s [c] s.next := by
  obtain ⟨b, hb, hr⟩ := h.rest_ascii (by omega) (by omega)
  have : b = c := toUInt8_eq (by omega)
  subst this
  exact ⟨h, (Steps.refl s).next, by simpa using hr⟩

theorem Sync.ch_of_head {s : Scanner} (h : Sync s) {b : UInt8} {t : Str} (hr : s.rest = b :: t)
    (hb : b.toNat < 0x80) : s.ch = b.toNat := h.ch_of_rest hr hb

/-- What follows, in terms of `ch`. -/
theorem Sync.charNext {s : Scanner} (h : Sync s) (c : UInt8) (hc : c.toNat < 0x80) :
    Spec.CharNext c s.rest ↔ s.ch = c.toNat := by
  constructor
  · rintro ⟨t, ht⟩; exact h.ch_of_rest ht hc
  · intro h0
    obtain ⟨_, _, e⟩ := h.eatAscii c hc h0
    exact ⟨s.next.rest, by simpa using e⟩

end Scanner
end Tpl
