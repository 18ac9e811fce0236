import Verif.Proof.ScannerPass

/-! The scanning helpers depend only on source, position and look-ahead. -/
namespace Tpl
namespace Scanner
open Spec

structure Same (a b : Scanner) : Prop where
  src : a.src = b.src
  ch : a.ch = b.ch
  offset : a.offset = b.offset
  rd : a.rdOffset = b.rdOffset

/-- Equal results and states that agree. -/
def PSame {α : Type} (x y : α × Scanner) : Prop := x.1 = y.1 ∧ Same x.2 y.2

theorem Same.refl (a : Scanner) : Same a a := ⟨rfl, rfl, rfl, rfl⟩
theorem Same.symm {a b : Scanner} (h : Same a b) : Same b a := ⟨h.src.symm, h.ch.symm, h.offset.symm, h.rd.symm⟩
theorem Same.trans {a b c : Scanner} (h : Same a b) (h' : Same b c) : Same a c :=
  ⟨h.src.trans h'.src, h.ch.trans h'.ch, h.offset.trans h'.offset, h.rd.trans h'.rd⟩

theorem Same.sync {a b : Scanner} (h : Same a b) (hs : Sync a) : Sync b := by
  refine ⟨?_, ?_, ?_⟩
  · rw [← h.src, ← h.offset]; exact hs.le
  · rw [← h.src, ← h.offset, ← h.ch]; exact hs.ch
  · rw [← h.src, ← h.offset, ← h.rd]; exact hs.rd

theorem Same.rest {a b : Scanner} (h : Same a b) : a.rest = b.rest := by
  unfold Scanner.rest; rw [h.src, h.offset]

theorem Same.mu {a b : Scanner} (h : Same a b) : a.mu = b.mu := by
  unfold Scanner.mu; rw [h.src, h.ch, h.rd]

theorem Same.offsetM1 {a b : Scanner} (h : Same a b) : a.offsetM1 = b.offsetM1 := by
  unfold Scanner.offsetM1; rw [h.src, h.offset]

theorem Same.slice {a b : Scanner} (h : Same a b) (o) : a.slice o = b.slice o := by
  unfold Scanner.slice; rw [h.src, h.offset]

theorem Same.check {a b : Scanner} (h : Same a b) (o) : Same (a.check o) (b.check o) := by
  unfold Scanner.check
  rw [h.src, h.offset]
  split
  · exact h
  · exact ⟨rfl, h.ch, rfl, h.rd⟩

theorem Same.error {a b : Scanner} (h : Same a b) (o m o' m') : Same (a.error o m) (b.error o' m') :=
  ⟨h.src, h.ch, h.offset, h.rd⟩
theorem Same.error_l {a b : Scanner} (h : Same a b) (o m) : Same (a.error o m) b :=
  ⟨h.src, h.ch, h.offset, h.rd⟩
theorem same_addErrs (a : Scanner) (l) : Same (a.addErrs l) a := ⟨rfl, rfl, rfl, rfl⟩
theorem Same.semi {a b : Scanner} (h : Same a b) (x y : Bool) :
    Same { a with insertSemi := x } { b with insertSemi := y } := ⟨h.src, h.ch, h.offset, h.rd⟩
theorem Same.semi_l {a b : Scanner} (h : Same a b) (x : Bool) :
    Same { a with insertSemi := x } b := ⟨h.src, h.ch, h.offset, h.rd⟩
theorem Same.semi_r {a b : Scanner} (h : Same a b) (x : Bool) :
    Same a { b with insertSemi := x } := ⟨h.src, h.ch, h.offset, h.rd⟩

theorem Same.next {a b : Scanner} (h : Same a b) : Same a.next b.next := by
  by_cases h1 : a.rdOffset < a.src.length
  · have ha := next_in h1
    have hb := next_in (s := b) (by rw [← h.src, ← h.rd]; exact h1)
    refine ⟨by simpa using h.src, ?_, ?_, ?_⟩
    · rw [ha.2.1, hb.2.1, h.src, h.rd]
    · rw [ha.1, hb.1, h.rd]
    · rw [ha.2.2, hb.2.2, h.src, h.rd]
  · have ha := next_out h1
    have hb := next_out (s := b) (by rw [← h.src, ← h.rd]; exact h1)
    refine ⟨by simpa using h.src, ?_, ?_, ?_⟩
    · rw [ha.2.1, hb.2.1]
    · rw [ha.1, hb.1, h.src]
    · rw [ha.2.2, hb.2.2, h.rd]

theorem Same.whileCh {a b : Scanner} (p) (f : Nat) (h : Same a b) : Same (whileCh p f a) (whileCh p f b) := by
  induction f generalizing a b with
  | zero => exact h
  | succ f ih =>
    unfold Scanner.whileCh
    rw [h.ch]
    split
    · exact ih h.next
    · exact h

theorem Same.lineCommentLoop {a b : Scanner} (f : Nat) (cr) (h : Same a b) :
    PSame (lineCommentLoop f cr a) (lineCommentLoop f cr b) := by
  induction f generalizing a b cr with
  | zero => exact ⟨rfl, h⟩
  | succ f ih =>
    unfold Scanner.lineCommentLoop
    rw [h.ch]
    split
    · exact ih _ h.next
    · exact ⟨rfl, h⟩

theorem Same.blockCommentLoop {a b : Scanner} (f : Nat) (cr) (h : Same a b) :
    (blockCommentLoop f cr a).1 = (blockCommentLoop f cr b).1 ∧
      PSame (blockCommentLoop f cr a).2 (blockCommentLoop f cr b).2 := by
  induction f generalizing a b cr with
  | zero => exact ⟨rfl, rfl, h⟩
  | succ f ih =>
    unfold Scanner.blockCommentLoop
    rw [h.ch]
    simp only
    rw [h.next.ch]
    split
    · split
      · exact ⟨rfl, rfl, h.next.next⟩
      · exact ih _ h.next
    · exact ⟨rfl, rfl, h⟩

theorem Same.scanComment {a b : Scanner} (h : Same a b) : PSame (scanComment a) (scanComment b) := by
  unfold Scanner.scanComment
  simp only
  rw [h.ch, h.offsetM1, h.next.mu]
  split
  · obtain ⟨h1, h2⟩ := h.next.lineCommentLoop b.next.mu false
    generalize Scanner.lineCommentLoop b.next.mu false a.next = x at h1 h2
    generalize Scanner.lineCommentLoop b.next.mu false b.next = y at h1 h2
    obtain ⟨c, s⟩ := x
    obtain ⟨c', s'⟩ := y
    dsimp only at h1 h2 ⊢
    subst h1
    exact ⟨by simp only [(h2.check b.offsetM1).slice], h2.check _⟩
  · obtain ⟨h1, h2, h3⟩ := h.next.blockCommentLoop b.next.mu false
    generalize Scanner.blockCommentLoop b.next.mu false a.next = x at h1 h2 h3
    generalize Scanner.blockCommentLoop b.next.mu false b.next = y at h1 h2 h3
    obtain ⟨c, d, s⟩ := x
    obtain ⟨c', d', s'⟩ := y
    dsimp only at h1 h2 h3 ⊢
    subst h1 h2
    have h4 : Same (if c = true then s else s.error b.offsetM1 .commentNotTerminated)
        (if c = true then s' else s'.error b.offsetM1 .commentNotTerminated) := by
      split
      · exact h3
      · exact h3.error _ _ _ _
    exact ⟨by simp only [(h4.check b.offsetM1).slice], h4.check _⟩

theorem Same.scanIdentifier {a b : Scanner} (U) (h : Same a b) : PSame (scanIdentifier U a) (scanIdentifier U b) := by
  unfold Scanner.scanIdentifier
  simp only
  rw [h.offset, h.mu]
  have h1 := (h.whileCh (fun c => isLetter U c || isDigit U c) b.mu).check b.offset
  exact ⟨h1.slice _, h1⟩

theorem Same.scanMantissa {a b : Scanner} (base) (h : Same a b) : Same (scanMantissa base a) (scanMantissa base b) := by
  unfold Scanner.scanMantissa
  rw [h.mu]
  exact h.whileCh _ _

theorem Same.ite_next {a b : Scanner} (c : Prop) [Decidable c] (h : Same a b) :
    Same (if c then a.next else a) (if c then b.next else b) := by
  split
  · exact h.next
  · exact h

theorem Same.scanExponent {a b : Scanner} (tok) (h : Same a b) : PSame (scanExponent tok a) (scanExponent tok b) := by
  unfold Scanner.scanExponent
  simp only
  rw [h.ch, h.next.ch]
  have key : PSame
      (if b.ch = 101 ∨ b.ch = 69 then
        (FLOAT, Scanner.scanMantissa 10 (if b.next.ch = 45 ∨ b.next.ch = 43 then a.next.next else a.next))
       else (tok, a))
      (if b.ch = 101 ∨ b.ch = 69 then
        (FLOAT, Scanner.scanMantissa 10 (if b.next.ch = 45 ∨ b.next.ch = 43 then b.next.next else b.next))
       else (tok, b)) := by
    split
    · exact ⟨rfl, (h.next.ite_next _).scanMantissa _⟩
    · exact ⟨rfl, h⟩
  revert key
  generalize (if b.ch = 101 ∨ b.ch = 69 then
        (FLOAT, Scanner.scanMantissa 10 (if b.next.ch = 45 ∨ b.next.ch = 43 then a.next.next else a.next))
       else (tok, a)) = x
  generalize (if b.ch = 101 ∨ b.ch = 69 then
        (FLOAT, Scanner.scanMantissa 10 (if b.next.ch = 45 ∨ b.next.ch = 43 then b.next.next else b.next))
       else (tok, b)) = y
  rintro ⟨h1, h2⟩
  rw [h2.ch]
  split
  · exact ⟨rfl, h2.next⟩
  · exact ⟨h1, h2⟩

theorem Same.scanFraction {a b : Scanner} (tok) (h : Same a b) : PSame (scanFraction tok a) (scanFraction tok b) := by
  unfold Scanner.scanFraction
  rw [h.ch]
  split
  · exact (h.next.scanMantissa 10).scanExponent _
  · exact h.scanExponent _

theorem Same.ite_error {a b : Scanner} (c : Prop) [Decidable c] (o m) (h : Same a b) :
    Same (if c then a.error o m else a) (if c then b.error o m else b) := by
  split
  · exact h.error _ _ _ _
  · exact h

theorem Same.scanNumberBody {a b : Scanner} (d) (h : Same a b) : PSame (scanNumberBody d a) (scanNumberBody d b) := by
  unfold Scanner.scanNumberBody
  simp only
  rw [h.ch, h.next.ch, h.offset, (h.next.next.scanMantissa 16).offset]
  split
  · exact (h.scanMantissa 10).scanExponent _
  · split
    · split
      · exact ⟨rfl, (h.next.next.scanMantissa 16).ite_error _ _ _⟩
      · have h1 := h.next.scanMantissa 8
        simp only [h1.ch]
        split
        · have h2 := h1.scanMantissa 10
          rw [h2.ch]
          split
          · exact h2.scanFraction _
          · exact ⟨rfl, h2.error _ _ _ _⟩
        · rw [h1.ch]
          split
          · exact h1.scanFraction _
          · exact ⟨rfl, h1⟩
    · exact (h.scanMantissa 10).scanFraction _

theorem Same.scanNumber {a b : Scanner} (d) (h : Same a b) :
    (scanNumber d a).1 = (scanNumber d b).1 ∧ PSame (scanNumber d a).2 (scanNumber d b).2 := by
  obtain ⟨h1, h2⟩ := h.scanNumberBody d
  unfold Scanner.scanNumber
  simp only
  rw [h.offset, h.offsetM1]
  have h3 := h2.check (if d = true then b.offsetM1 else b.offset)
  exact ⟨h1, h3.slice _, h3⟩

theorem Same.escapeDigits {a b : Scanner} (base n x) (h : Same a b) :
    PSame (escapeDigits base n x a) (escapeDigits base n x b) := by
  induction n generalizing a b x with
  | zero => exact ⟨rfl, h⟩
  | succ n ih =>
    unfold Scanner.escapeDigits
    rw [h.ch]
    split
    · exact ⟨rfl, h.error _ _ _ _⟩
    · exact ih _ h.next

theorem Same.escapeTail {a b : Scanner} (o o' n base max) (h : Same a b) :
    PSame (escapeTail o n base max a) (escapeTail o' n base max b) := by
  obtain ⟨h1, h2⟩ := h.escapeDigits base n 0
  unfold Scanner.escapeTail
  generalize Scanner.escapeDigits base n 0 a = x at h1 h2
  generalize Scanner.escapeDigits base n 0 b = y at h1 h2
  obtain ⟨c, s⟩ := x
  obtain ⟨c', s'⟩ := y
  dsimp only at h1 h2 ⊢
  subst h1
  cases c with
  | none => exact ⟨rfl, h2⟩
  | some v =>
    dsimp only
    split
    · exact ⟨rfl, h2.error _ _ _ _⟩
    · exact ⟨rfl, h2⟩

theorem Same.scanEscape {a b : Scanner} (q) (h : Same a b) : PSame (scanEscape q a) (scanEscape q b) := by
  unfold Scanner.scanEscape
  simp only
  rw [h.ch]
  split
  · exact ⟨rfl, h.next⟩
  · split
    · exact h.escapeTail _ _ _ _ _
    · split
      · exact h.next.escapeTail _ _ _ _ _
      · split
        · exact h.next.escapeTail _ _ _ _ _
        · split
          · exact h.next.escapeTail _ _ _ _ _
          · exact ⟨rfl, h.error _ _ _ _⟩

theorem Same.scanRuneLoop {a b : Scanner} (o f v n) (h : Same a b) :
    (scanRuneLoop o f v n a).1 = (scanRuneLoop o f v n b).1 ∧
      PSame (scanRuneLoop o f v n a).2 (scanRuneLoop o f v n b).2 := by
  induction f generalizing a b v n with
  | zero => exact ⟨rfl, rfl, h⟩
  | succ f ih =>
    unfold Scanner.scanRuneLoop
    simp only
    rw [h.ch]
    split
    · split
      · exact ⟨rfl, rfl, h.error _ _ _ _⟩
      · exact ⟨rfl, rfl, h⟩
    · split
      · exact ⟨rfl, rfl, h.next⟩
      · split
        · obtain ⟨h1, h2⟩ := h.next.scanEscape 39
          rw [h1]
          exact ih _ _ h2
        · exact ih _ _ h.next

theorem Same.scanRune {a b : Scanner} (h : Same a b) : PSame (scanRune a) (scanRune b) := by
  unfold Scanner.scanRune
  simp only
  rw [h.offsetM1, h.mu]
  obtain ⟨h1, h2, h3⟩ := h.scanRuneLoop b.offsetM1 (b.mu + 1) true 0
  rw [h1, h2]
  have h4 := (h3.ite_error ((Scanner.scanRuneLoop b.offsetM1 (b.mu + 1) true 0 b).1 = true ∧
    (Scanner.scanRuneLoop b.offsetM1 (b.mu + 1) true 0 b).2.1 ≠ 1) b.offsetM1 .illegalRune).check b.offsetM1
  exact ⟨h4.slice _, h4⟩

theorem Same.scanSharpComment {a b : Scanner} (h : Same a b) : PSame (scanSharpComment a) (scanSharpComment b) := by
  unfold Scanner.scanSharpComment
  simp only
  rw [h.offsetM1, h.mu]
  have h1 := (h.whileCh (fun c => decide ¬(c = 10 ∨ c < 0)) b.mu).check b.offsetM1
  exact ⟨h1.slice _, h1⟩

theorem Same.scanStringLoop {a b : Scanner} (o f) (h : Same a b) : Same (scanStringLoop o f a) (scanStringLoop o f b) := by
  induction f generalizing a b with
  | zero => exact h
  | succ f ih =>
    unfold Scanner.scanStringLoop
    simp only
    rw [h.ch]
    split
    · exact h.error _ _ _ _
    · split
      · exact h.next
      · split
        · exact ih (h.next.scanEscape 34).2
        · exact ih h.next

theorem Same.scanString {a b : Scanner} (h : Same a b) : PSame (scanString a) (scanString b) := by
  unfold Scanner.scanString
  simp only
  rw [h.offsetM1, h.mu]
  have h1 := (h.scanStringLoop b.offsetM1 (b.mu + 1)).check b.offsetM1
  exact ⟨h1.slice _, h1⟩

theorem Same.scanRawStringLoop {a b : Scanner} (o f cr) (h : Same a b) :
    PSame (scanRawStringLoop o f cr a) (scanRawStringLoop o f cr b) := by
  induction f generalizing a b cr with
  | zero => exact ⟨rfl, h⟩
  | succ f ih =>
    unfold Scanner.scanRawStringLoop
    simp only
    rw [h.ch]
    split
    · exact ⟨rfl, h.error _ _ _ _⟩
    · split
      · exact ⟨rfl, h.next⟩
      · exact ih _ h.next

theorem Same.scanRawString {a b : Scanner} (h : Same a b) : PSame (scanRawString a) (scanRawString b) := by
  unfold Scanner.scanRawString
  simp only
  rw [h.offsetM1, h.mu]
  obtain ⟨h1, h2⟩ := h.scanRawStringLoop b.offsetM1 (b.mu + 1) false
  rw [h1]
  have h3 := h2.check b.offsetM1
  exact ⟨by simp only [h3.slice], h3⟩

theorem Same.switch2 {a b : Scanner} (x y) (h : Same a b) : PSame (a.switch2 x y) (b.switch2 x y) := by
  unfold Scanner.switch2
  rw [h.ch]
  split
  · exact ⟨rfl, h.next⟩
  · exact ⟨rfl, h⟩

theorem Same.switch3 {a b : Scanner} (x y c z) (h : Same a b) : PSame (a.switch3 x y c z) (b.switch3 x y c z) := by
  unfold Scanner.switch3
  rw [h.ch]
  split
  · exact ⟨rfl, h.next⟩
  · split
    · exact ⟨rfl, h.next⟩
    · exact ⟨rfl, h⟩

theorem Same.switch4 {a b : Scanner} (x y c z w) (h : Same a b) :
    PSame (a.switch4 x y c z w) (b.switch4 x y c z w) := by
  unfold Scanner.switch4
  simp only
  rw [h.ch, h.next.ch]
  split
  · exact ⟨rfl, h.next⟩
  · split
    · split
      · exact ⟨rfl, h.next.next⟩
      · exact ⟨rfl, h.next⟩
    · exact ⟨rfl, h⟩

/-- Both `none`, or equal kinds and agreeing states. -/
def OSame (x y : Option (Nat × Scanner)) : Prop :=
  (x = none ∧ y = none) ∨ ∃ p q, x = some p ∧ y = some q ∧ PSame p q

theorem OSame.some {p q : Nat × Scanner} (h : PSame p q) : OSame (some p) (some q) := .inr ⟨p, q, rfl, rfl, h⟩

theorem OSame.ite {c : Prop} [Decidable c] {x y x' y' : Option (Nat × Scanner)} (h1 : OSame x x')
    (h2 : OSame y y') : OSame (if c then x else y) (if c then x' else y') := by
  by_cases h : c
  · rw [if_pos h, if_pos h]; exact h1
  · rw [if_neg h, if_neg h]; exact h2

theorem Same.scanOp {a b : Scanner} (ch) (h : Same a b) : OSame (scanOp ch a) (scanOp ch b) := by
  unfold Scanner.scanOp
  rw [h.ch]
  have h1 : ∀ k, OSame (.some (k, a)) (.some (k, b)) := fun k => .some ⟨rfl, h⟩
  have h2 : ∀ k, OSame (.some (k, a.next)) (.some (k, b.next)) := fun k => .some ⟨rfl, h.next⟩
  have s2 : ∀ k k', OSame (.some (a.switch2 k k')) (.some (b.switch2 k k')) := fun _ _ => .some (h.switch2 _ _)
  have s3 : ∀ k k' c k2, OSame (.some (a.switch3 k k' c k2)) (.some (b.switch3 k k' c k2)) :=
    fun _ _ _ _ => .some (h.switch3 _ _ _ _)
  have s4 : ∀ k k' c k2 k3, OSame (.some (a.switch4 k k' c k2 k3)) (.some (b.switch4 k k' c k2 k3)) :=
    fun _ _ _ _ _ => .some (h.switch4 _ _ _ _ _)
  refine .ite (s2 _ _) (.ite (.ite ?_ (h1 _)) ?_)
  · dsimp only
    rw [h.next.ch]
    exact .ite (.some ⟨rfl, h.next.next⟩) (h2 _)
  refine .ite (h1 _) (.ite (h1 _) (.ite (h1 _) (.ite (h1 _) (.ite (h1 _) (.ite (h1 _) (.ite (h1 _)
    (.ite (h1 _) ?_)))))))
  refine .ite (s3 _ _ _ _) (.ite (s3 _ _ _ _) (.ite (s2 _ _) (.ite (s2 _ _) (.ite (s2 _ _) (.ite (s2 _ _) ?_)))))
  refine .ite (.ite (h2 _) (s4 _ _ _ _ _)) (.ite (s4 _ _ _ _ _) (.ite (s2 _ _) (.ite (s2 _ _) ?_)))
  refine .ite (.ite (.some (h.next.switch2 _ _)) (s3 _ _ _ _)) (.ite (s3 _ _ _ _) ?_)
  exact .ite (h1 _) (.ite (h1 _) (.ite (h1 _) (.inl ⟨rfl, rfl⟩)))

end Scanner
end Tpl
