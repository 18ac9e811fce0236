import Verif.Proof.ScannerSame
import Verif.Model.Tokener

/-! Comparing runs of the scanner in different modes. -/
namespace Tpl
namespace Scanner
open Spec

/-! ### the loop equation of `Scan` -/

theorem skip_inv {s : Scanner} (h : Inv s) : Inv s.skipWhitespace ∧ s.skipWhitespace.mu ≤ s.mu ∧
    s.skipWhitespace.insertSemi = s.insertSemi ∧ s.skipWhitespace.mode = s.mode ∧
    isSpace s.insertSemi s.skipWhitespace.ch = false := by
  obtain ⟨g, he, _, hs⟩ := skipWhitespace_spec h.sync
  refine ⟨⟨he.sync, he.steps.bom h.sync h.bom, ?_⟩, he.steps.mu, he.steps.insertSemi, he.steps.mode, hs⟩
  rw [he.steps.insertSemi, he.steps.mode]
  exact h.semi

theorem pass_again {U : Uni} {s s' : Scanner} (h : Inv s)
    (hp : scanPass U s.skipWhitespace = (.again, s')) : Inv s' ∧ s'.mu < s.mu ∧ s'.mode = s.mode := by
  obtain ⟨hi, hmu, hse, hm, hsp⟩ := skip_inv h
  have := scanPass_spec U hi.sync (by rw [hse]; exact hsp) hi.bom
  rw [hp] at this
  obtain ⟨x, s1, he, rfl, hne, _⟩ := this
  have hgo : Go s.skipWhitespace { s1 with insertSemi := false } := he.steps.go.semi _
  refine ⟨⟨he.sync.semi _, hgo.bom hi.sync hi.bom, by simp⟩, ?_, ?_⟩
  · have := he.steps.mu_lt hi.sync (by
      rw [he.offset]
      have : 0 < x.length := List.length_pos_iff.mpr hne
      omega)
    show s1.mu < s.mu
    omega
  · show s1.mode = s.mode
    rw [he.steps.mode, hm]

theorem scanLoop_fuel (U : Uni) : ∀ (f g : Nat) (s : Scanner), Inv s → s.mu < f → s.mu < g →
    scanLoop U f s = scanLoop U g s := by
  intro f
  induction f with
  | zero => intro g s _ hf; omega
  | succ f ih =>
    intro g s h hf hg
    cases g with
    | zero => omega
    | succ g =>
      simp only [scanLoop]
      cases hp : scanPass U s.skipWhitespace with
      | mk p s' =>
        cases p with
        | token t semi => rfl
        | ret t => rfl
        | again =>
          obtain ⟨hi, hmu, _⟩ := pass_again h hp
          exact ih g s' hi (by omega) (by omega)

/-- The equation of `Scan` with its `goto scanAgain`. -/
theorem scan_unfold (U : Uni) {s : Scanner} (h : Inv s) : scan U s =
    match scanPass U s.skipWhitespace with
    | (.token t semi, s) => (t, if s.mode.insertSemis then { s with insertSemi := semi } else s)
    | (.ret t, s) => (t, s)
    | (.again, s) => scan U s := by
  show scanLoop U (s.mu + 1) s = _
  simp only [scanLoop]
  cases hp : scanPass U s.skipWhitespace with
  | mk p s' =>
    cases p with
    | token t semi => rfl
    | ret t => rfl
    | again =>
      obtain ⟨hi, hmu, _⟩ := pass_again h hp
      exact scanLoop_fuel U _ _ s' hi (by omega) (by omega)

theorem scan_congr (U : Uni) {a b : Scanner} (ha : Inv a) (hb : Inv b)
    (h : a.skipWhitespace = b.skipWhitespace) : scan U a = scan U b := by
  rw [scan_unfold U ha, scan_unfold U hb, h]

/-! ### white space with and without newlines -/

theorem whileCh_sub (p q : Int → Bool) (hp : ∀ c, p c = true → 0 ≤ c) (hq : ∀ c, q c = true → p c = true) :
    ∀ (f : Nat) (s : Scanner), whileCh p s.mu s = whileCh p (whileCh q f s).mu (whileCh q f s) := by
  intro f
  induction f with
  | zero => intro s; rfl
  | succ f ih =>
    intro s
    have hu : Scanner.whileCh q (f + 1) s = if q s.ch = true then Scanner.whileCh q f s.next else s := rfl
    rw [hu]
    by_cases h : q s.ch = true
    · rw [if_pos h, ← ih s.next]
      have := whileCh_unfold p hp s
      rw [hq _ h] at this
      simp only [if_true] at this
      exact this
    · rw [if_neg h]

theorem skip_eq {s : Scanner} (h : isSpace s.insertSemi s.ch = false) : s.skipWhitespace = s := by
  unfold skipWhitespace
  rw [whileCh_unfold _ (fun c => isSpace_nonneg), h]
  simp

theorem skip_next {s : Scanner} (h : isSpace s.insertSemi s.ch = true) : s.skipWhitespace = s.next.skipWhitespace := by
  unfold skipWhitespace
  rw [whileCh_unfold _ (fun c => isSpace_nonneg), h]
  simp

theorem Same.skip {a b : Scanner} (h : Same a b) (hs : a.insertSemi = b.insertSemi) :
    Same a.skipWhitespace b.skipWhitespace := by
  unfold skipWhitespace
  rw [h.mu, hs]
  exact h.whileCh _ _

/-! ### one pass in two scanners that agree -/

/-- Characters whose treatment depends on the modes. -/
def Special (s : Scanner) : Prop :=
  s.ch = -1 ∨ s.ch = 10 ∨ (s.ch = 47 ∧ (s.next.ch = 47 ∨ s.next.ch = 42)) ∨ s.ch = 35

/-- An automatically inserted semicolon. -/
def isAuto (t : Token) : Bool := t.kind == SEMICOLON && t.lit == [10]

theorem op_kind {s : Scanner} (h : Sync s) {k : Nat} {s' : Scanner} (hs : scanOp s.ch s.next = some (k, s')) :
    k ≠ COMMENT ∧ k ≠ EOF := by
  rcases scanOp_spec h hs with ⟨str, hm, _⟩ | ⟨rfl, _⟩
  · have : operators.all (fun p => p.1 != COMMENT && p.1 != EOF) = true := by decide +kernel
    have := List.all_eq_true.mp this _ hm
    simpa using this
  · decide

theorem number_kind {s : Scanner} (h : Sync s) (hD : 48 ≤ s.ch ∧ s.ch ≤ 57) :
    (scanNumber false s).1 = INT ∨ (scanNumber false s).1 = FLOAT ∨ (scanNumber false s).1 = IMAG := by
  obtain ⟨x, he, hl, hn⟩ := scanNumber_spec h hD
  rcases hn false (by simp) with ⟨e, _⟩ | ⟨e, _⟩ | ⟨e, _⟩
  · exact .inl e
  · exact .inr (.inl e)
  · exact .inr (.inr e)

theorem number_dot_kind {s : Scanner} (h : Sync s) (h46 : s.ch = 46 ∧ 48 ≤ s.next.ch ∧ s.next.ch ≤ 57) :
    (scanNumber true s.next).1 = INT ∨ (scanNumber true s.next).1 = FLOAT ∨ (scanNumber true s.next).1 = IMAG := by
  obtain ⟨x, he, hl, hn⟩ := scanNumber_dot_spec (h.eatAscii 46 (by decide) h46.1) h46.2
  rcases hn false with ⟨e, _⟩ | ⟨e, _⟩ | ⟨e, _⟩
  · exact .inl e
  · exact .inr (.inl e)
  · exact .inr (.inr e)

theorem isAuto_kind {t : Token} (h : t.kind ≠ SEMICOLON) : isAuto t = false := by simp [isAuto, h]

theorem num_kinds {k : Nat} (h : k = INT ∨ k = FLOAT ∨ k = IMAG) : k ≠ COMMENT ∧ k ≠ EOF ∧ k ≠ SEMICOLON := by
  rcases h with rfl | rfl | rfl <;> decide

/-- Ordinary tokens do not depend on the modes. -/
theorem pass_plain (U : Uni) {a b : Scanner} (h : Same a b) (ha : Sync a) (hn : ¬ Special a) :
    ∃ t semi semi' a' b', scanPass U a = (.token t semi, a') ∧ scanPass U b = (.token t semi', b') ∧
      Same a' b' ∧ t.kind ≠ COMMENT ∧ t.kind ≠ EOF ∧ isAuto t = false ∧ (a.insertSemi = b.insertSemi → semi = semi') := by
  unfold Special at hn
  have hE : ¬ b.ch = -1 := by rw [← h.ch]; exact fun e => hn (.inl e)
  have h10 : ¬ b.ch = 10 := by rw [← h.ch]; exact fun e => hn (.inr (.inl e))
  have h47 : ¬ (b.ch = 47 ∧ (b.next.ch = 47 ∨ b.next.ch = 42)) := by
    rw [← h.ch, ← h.next.ch]; exact fun e => hn (.inr (.inr (.inl e)))
  have h35 : ¬ b.ch = 35 := by rw [← h.ch]; exact fun e => hn (.inr (.inr (.inr e)))
  have hbs := h.sync ha
  unfold scanPass
  simp only [h.ch, h.offset, h.next.ch, hE, h10, h47, h35, if_false]
  by_cases hL : isLetter U b.ch = true
  · simp only [hL, if_true]
    obtain ⟨h1, h2⟩ := h.scanIdentifier U
    rw [h1]
    exact ⟨_, _, _, _, _, rfl, rfl, h2, (show (IDENT : Nat) ≠ COMMENT by decide), (show (IDENT : Nat) ≠ EOF by decide), isAuto_kind (show (IDENT : Nat) ≠ SEMICOLON by decide), fun _ => rfl⟩
  simp only [hL]
  by_cases hD : 48 ≤ b.ch ∧ b.ch ≤ 57
  · simp only [hD, and_self, Bool.false_eq_true, if_true, if_false]
    obtain ⟨h1, h2, h3⟩ := h.scanNumber false
    have hk := number_kind hbs hD
    rw [h1, h2]
    refine ⟨_, _, _, _, _, rfl, rfl, h3, ?_, ?_, ?_, fun _ => rfl⟩
    · exact (num_kinds hk).1
    · exact (num_kinds hk).2.1
    · exact isAuto_kind (num_kinds hk).2.2
  simp only [hD, Bool.false_eq_true, if_false]
  by_cases h34 : b.ch = 34
  · simp only [h34, if_true]
    obtain ⟨h1, h2⟩ := h.next.scanString
    rw [h1]
    exact ⟨_, _, _, _, _, rfl, rfl, h2, (show (STRING : Nat) ≠ COMMENT by decide), (show (STRING : Nat) ≠ EOF by decide), isAuto_kind (show (STRING : Nat) ≠ SEMICOLON by decide), fun _ => rfl⟩
  simp only [h34, if_false]
  by_cases h39 : b.ch = 39
  · simp only [h39, if_true]
    obtain ⟨h1, h2⟩ := h.next.scanRune
    rw [h1]
    exact ⟨_, _, _, _, _, rfl, rfl, h2, (show (CHAR : Nat) ≠ COMMENT by decide), (show (CHAR : Nat) ≠ EOF by decide), isAuto_kind (show (CHAR : Nat) ≠ SEMICOLON by decide), fun _ => rfl⟩
  simp only [h39, if_false]
  by_cases h96 : b.ch = 96
  · simp only [h96, if_true]
    obtain ⟨h1, h2⟩ := h.next.scanRawString
    rw [h1]
    exact ⟨_, _, _, _, _, rfl, rfl, h2, (show (STRING : Nat) ≠ COMMENT by decide), (show (STRING : Nat) ≠ EOF by decide), isAuto_kind (show (STRING : Nat) ≠ SEMICOLON by decide), fun _ => rfl⟩
  simp only [h96, if_false]
  by_cases h46 : b.ch = 46 ∧ 48 ≤ b.next.ch ∧ b.next.ch ≤ 57
  · rw [if_pos h46, if_pos h46]
    obtain ⟨h1, h2, h3⟩ := h.next.scanNumber true
    have hk := number_dot_kind hbs h46
    rw [h1, h2]
    refine ⟨_, _, _, _, _, rfl, rfl, h3, ?_, ?_, ?_, fun _ => rfl⟩
    · exact (num_kinds hk).1
    · exact (num_kinds hk).2.1
    · exact isAuto_kind (num_kinds hk).2.2
  rw [if_neg h46, if_neg h46]
  rcases h.next.scanOp b.ch with ⟨e1, e2⟩ | ⟨⟨k, sa⟩, ⟨k', sb⟩, e1, e2, hk, hs⟩
  · rw [e1, e2]
    dsimp only
    have h1 := h.next.ite_error (b.ch ≠ 0xFEFF) b.offset .illegalChar
    refine ⟨_, _, _, _, _, rfl, rfl, h1, (show (ILLEGAL : Nat) ≠ COMMENT by decide), (show (ILLEGAL : Nat) ≠ EOF by decide), isAuto_kind (show (ILLEGAL : Nat) ≠ SEMICOLON by decide), ?_⟩
    intro e
    split <;> simpa using e
  · rw [e1, e2]
    dsimp only at hk hs ⊢
    subst hk
    obtain ⟨k1, k2⟩ := op_kind hbs e2
    refine ⟨_, _, _, _, _, rfl, rfl, hs, k1, k2, ?_, fun _ => rfl⟩
    by_cases hsc : k = SEMICOLON
    · subst hsc; rfl
    · exact isAuto_kind hsc

/-- Conditions shared by the special characters. -/
theorem special_not {U : Uni} {s : Scanner} (h : Special s) :
    isLetter U s.ch = false ∧ ¬ (48 ≤ s.ch ∧ s.ch ≤ 57) := by
  have : s.ch = -1 ∨ s.ch = 10 ∨ s.ch = 47 ∨ s.ch = 35 := by
    unfold Special at h
    omega
  refine ⟨?_, by omega⟩
  cases hl : isLetter U s.ch
  · rfl
  · have := (isLetter_iff U s.ch).mp hl
    unfold Letter at this
    omega

/-- The comment cases of a pass when no semicolon is due or the look-ahead says no. -/
theorem pass_comment (U : Uni) {s : Scanner} (h : Sync s) (hc : s.ch = 47 ∧ (s.next.ch = 47 ∨ s.next.ch = 42))
    (hn : s.insertSemi = true → ¬ LineAhead s.rest) :
    ∃ s1, Same s1 s.next ∧ s1.mode = s.mode ∧ scanPass U s =
      if (scanComment s1).2.mode.scanComments then (.token ⟨COMMENT, s.offset, (scanComment s1).1⟩ false, (scanComment s1).2)
      else (.again, { (scanComment s1).2 with insertSemi := false }) := by
  have hsp : Special s := .inr (.inr (.inl hc))
  obtain ⟨hL, hD⟩ := special_not (U := U) hsp
  have h1 := h.eatAscii 47 (by decide) hc.1
  have key : ∃ s1, (if s.next.insertSemi = true then findLineEnd s.next else (false, s.next)) = (false, s1) ∧
      Same s1 s.next ∧ s1.mode = s.mode := by
    rw [next_insertSemi]
    by_cases hs : s.insertSemi = true
    · rw [if_pos hs]
      obtain ⟨l, hl⟩ := findLineEnd_state h1 hc.2 (by simpa using hs)
      have hsp := findLineEnd_spec h1 (by simpa using hs)
      refine ⟨(findLineEnd s.next).2, ?_, ?_, ?_⟩
      · cases hb : (findLineEnd s.next).1
        · rw [← hb]
        · exact absurd (hsp.mp hb) (hn hs)
      · rw [hl]; exact same_addErrs _ _
      · rw [hl]; exact next_mode s
    · rw [if_neg hs]
      exact ⟨s.next, rfl, .refl _, next_mode s⟩
  obtain ⟨s1, hk, hsame, hmode⟩ := key
  refine ⟨s1, hsame, hmode, ?_⟩
  have e1 : ¬ s.ch = -1 := by omega
  have e2 : ¬ s.ch = 10 := by omega
  have e3 : ¬ s.ch = 34 := by omega
  have e4 : ¬ s.ch = 39 := by omega
  have e5 : ¬ s.ch = 96 := by omega
  have e6 : ¬ (s.ch = 46 ∧ 48 ≤ s.next.ch ∧ s.next.ch ≤ 57) := by omega
  unfold scanPass
  rw [if_neg (by rw [hL]; simp), if_neg hD, if_neg e1, if_neg e2, if_neg e3, if_neg e4, if_neg e5, if_neg e6, if_pos hc]
  simp only [hk]

/-- Automatic semicolon before a comment that reaches a line end. -/
theorem pass_comment_semi (U : Uni) {s : Scanner} (h : Sync s) (hc : s.ch = 47 ∧ (s.next.ch = 47 ∨ s.next.ch = 42))
    (hs : s.insertSemi = true) (hn : LineAhead s.rest) :
    ∃ s1, Same s1 s ∧ Go s s1 ∧ s1.insertSemi = false ∧ scanPass U s = (.ret ⟨SEMICOLON, s.offset, [10]⟩, s1) := by
  have hsp : Special s := .inr (.inr (.inl hc))
  obtain ⟨hL, hD⟩ := special_not (U := U) hsp
  have h1 := h.eatAscii 47 (by decide) hc.1
  obtain ⟨l, hl⟩ := findLineEnd_state h1 hc.2 (by simpa using hs)
  have hspc := findLineEnd_spec h1 (by simpa using hs)
  have e1 : ¬ s.ch = -1 := by omega
  have e2 : ¬ s.ch = 10 := by omega
  have e3 : ¬ s.ch = 34 := by omega
  have e4 : ¬ s.ch = 39 := by omega
  have e5 : ¬ s.ch = 96 := by omega
  have e6 : ¬ (s.ch = 46 ∧ 48 ≤ s.next.ch ∧ s.next.ch ≤ 57) := by omega
  have hk : (if s.next.insertSemi = true then findLineEnd s.next else (false, s.next)) = (true, s.next.addErrs l) := by
    rw [next_insertSemi, if_pos hs, ← hl, ← hspc.mpr hn]
  have hrd : s.rdOffset = s.offset + 1 := by
    have := h1.offset
    rw [h.next_offset] at this
    simpa using this
  obtain ⟨l', c', o', r', e⟩ := next_flat (s := s) (by omega)
  refine ⟨{ s.next.addErrs l with ch := 47, offset := s.offset, rdOffset := s.offset + 1, insertSemi := false },
    ⟨by show s.next.src = s.src; simp, hc.1.symm, rfl, hrd.symm⟩, ?_, rfl, ?_⟩
  · have hgo : Go s { s.addErrs (l ++ l') with insertSemi := false } := (addErrs_steps _ _).go.semi _
    have heq : ({ s.next.addErrs l with ch := 47, offset := s.offset, rdOffset := s.offset + 1, insertSemi := false } : Scanner)
        = { s.addErrs (l ++ l') with insertSemi := false } := by
      rw [e]
      simp [addErrs, hrd, hc.1]; omega
    rw [heq]
    exact hgo
  · unfold scanPass
    rw [if_neg (by rw [hL]; simp), if_neg hD, if_neg e1, if_neg e2, if_neg e3, if_neg e4, if_neg e5, if_neg e6, if_pos hc]
    simp only [hk]

theorem pass_sharp (U : Uni) {s : Scanner} (hc : s.ch = 35) (hs : s.insertSemi = false) :
    scanPass U s =
      if (scanSharpComment s.next).2.mode.scanComments then
        (.token ⟨COMMENT, s.offset, (scanSharpComment s.next).1⟩ false, (scanSharpComment s.next).2)
      else (.again, (scanSharpComment s.next).2) := by
  have hsp : Special s := .inr (.inr (.inr hc))
  obtain ⟨hL, hD⟩ := special_not (U := U) hsp
  have e7 : s.next.insertSemi = false := by simpa using hs
  have e8 : ¬ ((35 : Int) = 47 ∧ (s.next.ch = 47 ∨ s.next.ch = 42)) := by omega
  have e6 : ¬ ((35 : Int) = 46 ∧ 48 ≤ s.next.ch ∧ s.next.ch ≤ 57) := by omega
  rw [hc] at hL hD
  unfold scanPass
  simp only [hc, hL, hD, e7, if_true, if_false, Bool.false_eq_true, show ¬ ((35 : Int) = -1) by decide,
    show ¬ ((35 : Int) = 10) by decide, show ¬ ((35 : Int) = 34) by decide, show ¬ ((35 : Int) = 39) by decide,
    show ¬ ((35 : Int) = 96) by decide, e8, e6]

theorem pass_sharp_semi (U : Uni) {s : Scanner} (h : Sync s) (hc : s.ch = 35) (hs : s.insertSemi = true) :
    ∃ s1, Same s1 s ∧ Go s s1 ∧ s1.insertSemi = false ∧ scanPass U s = (.ret ⟨SEMICOLON, s.offset, [10]⟩, s1) := by
  have hsp : Special s := .inr (.inr (.inr hc))
  obtain ⟨hL, hD⟩ := special_not (U := U) hsp
  have h1 := h.eatAscii 35 (by decide) hc
  have e7 : s.next.insertSemi = true := by simpa using hs
  have e8 : ¬ ((35 : Int) = 47 ∧ (s.next.ch = 47 ∨ s.next.ch = 42)) := by omega
  have e6 : ¬ ((35 : Int) = 46 ∧ 48 ≤ s.next.ch ∧ s.next.ch ≤ 57) := by omega
  have hrd : s.rdOffset = s.offset + 1 := by
    have := h1.offset
    rw [h.next_offset] at this
    simpa using this
  obtain ⟨l', c', o', r', e⟩ := next_flat (s := s) (by omega)
  refine ⟨{ s.next with ch := 35, offset := s.offset, rdOffset := s.offset + 1, insertSemi := false },
    ⟨by simp, hc.symm, rfl, hrd.symm⟩, ?_, rfl, ?_⟩
  · have hgo : Go s { s.addErrs l' with insertSemi := false } := (addErrs_steps _ _).go.semi _
    have heq : ({ s.next with ch := 35, offset := s.offset, rdOffset := s.offset + 1, insertSemi := false } : Scanner)
        = { s.addErrs l' with insertSemi := false } := by
      rw [e]
      simp [addErrs, hrd, hc]
    rw [heq]
    exact hgo
  · rw [hc] at hL hD
    unfold scanPass
    simp only [hc, hL, hD, e7, if_true, if_false, Bool.false_eq_true, show ¬ ((35 : Int) = -1) by decide,
      show ¬ ((35 : Int) = 10) by decide, show ¬ ((35 : Int) = 34) by decide, show ¬ ((35 : Int) = 39) by decide,
      show ¬ ((35 : Int) = 96) by decide, e8, e6]

theorem pass_eof (U : Uni) {s : Scanner} (hc : s.ch = -1) : scanPass U s =
    if s.insertSemi then (.ret ⟨SEMICOLON, s.offset, [10]⟩, { s.next with insertSemi := false })
    else (.token ⟨EOF, s.offset, []⟩ false, s.next) := by
  have hsp : Special s := .inl hc
  obtain ⟨hL, hD⟩ := special_not (U := U) hsp
  rw [hc] at hL hD
  unfold scanPass
  simp only [hc, hL, hD, if_true, if_false, Bool.false_eq_true, next_insertSemi]

theorem pass_newline (U : Uni) {s : Scanner} (hc : s.ch = 10) : scanPass U s =
    (.ret ⟨SEMICOLON, s.offset, [10]⟩, { s.next with insertSemi := false }) := by
  have hsp : Special s := .inr (.inl hc)
  obtain ⟨hL, hD⟩ := special_not (U := U) hsp
  rw [hc] at hL hD
  unfold scanPass
  simp only [hc, hL, hD, if_true, if_false, Bool.false_eq_true, show ¬ ((10 : Int) = -1) by decide]

theorem eof_next {s : Scanner} (h : Sync s) (hc : s.ch = -1) : s.next = s := by
  have ho := h.eof_iff.mp (by omega)
  have hr := h.rd
  rw [peek_eof (by omega)] at hr
  unfold Scanner.next
  rw [if_neg (by simp at hr; omega)]
  unfold nextLine
  rw [if_neg (by omega)]
  rw [← ho, ← hc]

/-! ### token sequences -/

theorem _root_.Tpl.Run.functional {U : Uni} {s : Scanner} {ts ts' : List Token} {e e' : Scanner}
    (h : Run U s ts e) (h' : Run U s ts' e') : ts = ts' ∧ e = e' := by
  induction h generalizing ts' e' with
  | eof h1 h2 =>
    cases h' with
    | eof h3 h4 => rw [h1] at h3; cases h3; exact ⟨rfl, rfl⟩
    | cons h3 h4 _ => rw [h1] at h3; cases h3; exact absurd h2 h4
  | cons h1 h2 _ ih =>
    cases h' with
    | eof h3 h4 => rw [h1] at h3; cases h3; exact absurd h4 h2
    | cons h3 h4 h5 =>
      rw [h1] at h3; cases h3
      obtain ⟨e1, e2⟩ := ih h5
      exact ⟨by rw [e1], e2⟩

theorem _root_.Tpl.Run.congr {U : Uni} {a b : Scanner} (h : scan U a = scan U b) {ts e} (ht : Run U b ts e) :
    Run U a ts e := by
  cases ht with
  | eof h1 h2 => exact .eof (h.trans h1) h2
  | cons h1 h2 h3 => exact .cons (h.trans h1) h2 h3

theorem inv_of_go {s s' : Scanner} (h : Inv s) (hg : Go s s') (hs : s'.insertSemi = true → s.mode.insertSemis = true) :
    Inv s' := ⟨hg.sync h.sync, hg.bom h.sync h.bom, by rw [hg.mode]; exact hs⟩

theorem Inv.setSemi {s : Scanner} (h : Inv s) (b : Bool) (hb : b = true → s.mode.insertSemis = true) :
    Inv { s with insertSemi := b } := inv_of_go h ((Go.refl s).semi b) hb

theorem Inv.next {s : Scanner} (h : Inv s) : Inv s.next :=
  inv_of_go h (Go.refl s).next (by simpa using h.semi)

theorem Eat.inv {s x s'} (h : Eat s x s') (hi : Inv s) : Inv s' :=
  inv_of_go hi h.steps.go (by rw [h.steps.insertSemi]; exact hi.semi)

/-- The state after a pass that returned a token. -/
theorem pass_token_inv {U : Uni} {s s' : Scanner} {t : Token} {semi : Bool} (h : Inv s)
    (hp : scanPass U s.skipWhitespace = (.token t semi, s')) :
    Inv (if s'.mode.insertSemis then { s' with insertSemi := semi } else s') ∧ s'.mode = s.mode ∧
    s'.insertSemi = s.insertSemi := by
  obtain ⟨hi, hmu, hse, hm, hsp⟩ := skip_inv h
  have := scanPass_spec U hi.sync (by rw [hse]; exact hsp) hi.bom
  rw [hp] at this
  obtain ⟨x, he, _⟩ := this
  have h1 : Inv s' := inv_of_go hi he.steps.go (by rw [he.steps.insertSemi]; exact hi.semi)
  refine ⟨?_, by rw [he.steps.mode, hm], by rw [he.steps.insertSemi, hse]⟩
  split
  · rename_i hs
    exact h1.setSemi semi (fun _ => hs)
  · exact h1

theorem setSemi_mode (s : Scanner) (c b : Bool) : (if c then { s with insertSemi := b } else s).mode = s.mode := by
  cases c <;> rfl

theorem same_setSemi {a b : Scanner} (h : Same a b) (c d : Bool) (x y : Bool) :
    Same (if c then { a with insertSemi := x } else a) (if d then { b with insertSemi := y } else b) := by
  cases c <;> cases d <;> exact ⟨h.src, h.ch, h.offset, h.rd⟩

/-! ### with and without automatic semicolons -/

structure R8 (a b : Scanner) : Prop where
  inva : Inv a
  invb : Inv b
  same : Same a b
  comments : a.mode.scanComments = b.mode.scanComments
  semia : a.mode.insertSemis = true
  semib : b.mode.insertSemis = false

theorem R8.bsemi {a b : Scanner} (h : R8 a b) : b.insertSemi = false := by
  cases hb : b.insertSemi
  · rfl
  · have := h.invb.semi hb; rw [h.semib] at this; cases this

/-- The result of comparing one `Scan`. -/
def Step8 (U : Uni) (a b : Scanner) : Prop :=
  (isAuto (scan U a).1 = true ∧ (scan U a).1.kind ≠ EOF ∧ ∃ b', R8 (scan U a).2 b' ∧ scan U b = scan U b') ∨
  (isAuto (scan U a).1 = false ∧ ∃ b', scan U b = ((scan U a).1, b') ∧ R8 (scan U a).2 b')

/-- One pass after white space, when both scanners stand at the same character. -/
theorem step8_pass (U : Uni) {a b : Scanner} (h : R8 a b) (hsp : isSpace a.insertSemi a.ch = false)
    (hspb : isSpace false a.ch = false ∨ a.ch = 10)
    (ih : ∀ a' b', a'.mu < a.mu → R8 a' b' → Step8 U a' b') : Step8 U a b := by
  have ha := skip_eq hsp
  have hbs := h.bsemi
  by_cases h10 : a.ch = 10
  · -- a newline where a semicolon is due
    have hu := scan_unfold U h.inva
    rw [ha, pass_newline U h10] at hu
    left
    rw [hu]
    refine ⟨rfl, (show SEMICOLON ≠ EOF by decide), b.next, ⟨?_, h.invb.next, h.same.next.semi_l _, ?_, ?_, ?_⟩, ?_⟩
    · exact h.inva.next.setSemi false (by simp)
    · simpa using h.comments
    · simpa using h.semia
    · simpa using h.semib
    · apply scan_congr U h.invb h.invb.next
      apply skip_next
      rw [hbs, ← h.same.ch, h10]
      decide
  have hspb' : isSpace false a.ch = false := by
    rcases hspb with e | e
    · exact e
    · exact absurd e h10
  have hb : b.skipWhitespace = b := skip_eq (by rw [hbs, ← h.same.ch]; exact hspb')
  have hua := scan_unfold U h.inva
  have hub := scan_unfold U h.invb
  rw [ha] at hua
  rw [hb] at hub
  by_cases hE : a.ch = -1
  · have hEb : b.ch = -1 := by rw [← h.same.ch]; exact hE
    rw [pass_eof U hE] at hua
    rw [pass_eof U hEb, hbs] at hub
    rw [eof_next h.inva.sync hE] at hua
    rw [eof_next h.invb.sync hEb] at hub
    by_cases hs : a.insertSemi = true
    · rw [hs] at hua
      simp only [if_true] at hua
      left
      rw [hua]
      refine ⟨rfl, (show SEMICOLON ≠ EOF by decide), b, ⟨h.inva.setSemi false (by simp), h.invb, h.same.semi_l _, h.comments,
        h.semia, h.semib⟩, rfl⟩
    · have hs' : a.insertSemi = false := by simpa using hs
      rw [hs'] at hua
      simp only [if_true, Bool.false_eq_true, if_false, h.semia] at hua
      simp only [Bool.false_eq_true, if_false, h.semib] at hub
      right
      rw [hua, hub]
      refine ⟨isAuto_kind (show EOF ≠ SEMICOLON by decide), b, by rw [h.same.offset], ?_⟩
      exact ⟨h.inva.setSemi false (by simp), h.invb, h.same.semi_l _, h.comments, h.semia, h.semib⟩
  by_cases h47 : a.ch = 47 ∧ (a.next.ch = 47 ∨ a.next.ch = 42)
  · have h47b : b.ch = 47 ∧ (b.next.ch = 47 ∨ b.next.ch = 42) := by
      rw [← h.same.ch, ← h.same.next.ch]; exact h47
    obtain ⟨sb, hsb, hmb, hpb⟩ := pass_comment U h.invb.sync h47b (by rw [hbs]; simp)
    by_cases hsemi : a.insertSemi = true ∧ LineAhead a.rest
    · obtain ⟨s1, hs1, hgo, hs1f, hpa⟩ := pass_comment_semi U h.inva.sync h47 hsemi.1 hsemi.2
      rw [hpa] at hua
      left
      rw [hua]
      refine ⟨rfl, (show SEMICOLON ≠ EOF by decide), b, ⟨?_, h.invb, hs1.trans h.same, ?_, ?_, h.semib⟩, rfl⟩
      · exact inv_of_go h.inva hgo (by rw [hs1f]; simp)
      · show s1.mode.scanComments = _
        rw [hgo.mode]; exact h.comments
      · show s1.mode.insertSemis = _
        rw [hgo.mode]; exact h.semia
    · obtain ⟨sa, hsa, hma, hpa⟩ := pass_comment U h.inva.sync h47 (fun e hA => hsemi ⟨e, hA⟩)
      have hs : Same sa sb := hsa.trans (h.same.next.trans hsb.symm)
      obtain ⟨hlit, hst⟩ := hs.scanComment
      -- modes after the comment
      have hpai : PassOk U a (scanPass U a) := scanPass_spec U h.inva.sync hsp h.inva.bom
      have hpbi : PassOk U b (scanPass U b) := scanPass_spec U h.invb.sync
        (by rw [hbs, ← h.same.ch]; exact hspb') h.invb.bom
      have hca : (scanComment sa).2.mode = a.mode := by
        rw [hpa] at hpai
        split at hpai
        · obtain ⟨x, he, _⟩ := hpai; exact he.steps.mode
        · obtain ⟨x, s1, he, e, _⟩ := hpai
          have := congrArg Scanner.mode e
          simp only at this
          rw [this, he.steps.mode]
      have hcb : (scanComment sb).2.mode = b.mode := by
        rw [hpb] at hpbi
        split at hpbi
        · obtain ⟨x, he, _⟩ := hpbi; exact he.steps.mode
        · obtain ⟨x, s1, he, e, _⟩ := hpbi
          have := congrArg Scanner.mode e
          simp only at this
          rw [this, he.steps.mode]
      by_cases hcm : b.mode.scanComments = true
      · rw [if_pos (by rw [hca, h.comments]; exact hcm)] at hpa
        rw [if_pos (by rw [hcb]; exact hcm)] at hpb
        have hia := pass_token_inv (U := U) h.inva (by rw [ha]; exact hpa)
        have hib := pass_token_inv (U := U) h.invb (by rw [hb]; exact hpb)
        rw [hpa] at hua
        rw [hpb] at hub
        dsimp only at hua hub
        right
        rw [hua, hub]
        refine ⟨isAuto_kind (show COMMENT ≠ SEMICOLON by decide), _, by rw [hlit, h.same.offset], ?_⟩
        refine ⟨hia.1, hib.1, same_setSemi hst _ _ _ _, ?_, ?_, ?_⟩
        · rw [setSemi_mode, setSemi_mode, hca, hcb]; exact h.comments
        · rw [setSemi_mode, hca]; exact h.semia
        · rw [setSemi_mode, hcb]; exact h.semib
      · rw [if_neg (by rw [hca, h.comments]; exact hcm)] at hpa
        rw [if_neg (by rw [hcb]; exact hcm)] at hpb
        have hia := pass_again (U := U) h.inva (by rw [ha]; exact hpa)
        have hib := pass_again (U := U) h.invb (by rw [hb]; exact hpb)
        rw [hpa] at hua
        rw [hpb] at hub
        dsimp only at hua hub
        have hr := ih _ _ hia.2.1 ⟨hia.1, hib.1, hst.semi _ _, by
          rw [hia.2.2, hib.2.2]; exact h.comments, by rw [hia.2.2]; exact h.semia,
          by rw [hib.2.2]; exact h.semib⟩
        unfold Step8 at hr ⊢
        rw [hua, hub]
        exact hr
  by_cases h35 : a.ch = 35
  · have h35b : b.ch = 35 := by rw [← h.same.ch]; exact h35
    have hpb := pass_sharp U h35b hbs
    by_cases hsemi : a.insertSemi = true
    · obtain ⟨s1, hs1, hgo, hs1f, hpa⟩ := pass_sharp_semi U h.inva.sync h35 hsemi
      rw [hpa] at hua
      left
      rw [hua]
      refine ⟨rfl, (show SEMICOLON ≠ EOF by decide), b, ⟨?_, h.invb, hs1.trans h.same, ?_, ?_, h.semib⟩, rfl⟩
      · exact inv_of_go h.inva hgo (by rw [hs1f]; simp)
      · show s1.mode.scanComments = _
        rw [hgo.mode]; exact h.comments
      · show s1.mode.insertSemis = _
        rw [hgo.mode]; exact h.semia
    · have hsemi' : a.insertSemi = false := by simpa using hsemi
      have hpa := pass_sharp U h35 hsemi'
      obtain ⟨hlit, hst⟩ := h.same.next.scanSharpComment
      have hea := h.inva.sync.eatAscii 35 (by decide) h35
      have heb := h.invb.sync.eatAscii 35 (by decide) h35b
      obtain ⟨xa, hxa, _⟩ := scanSharpComment_spec hea
      obtain ⟨xb, hxb, _⟩ := scanSharpComment_spec heb
      have hca := hxa.steps.mode
      have hcb := hxb.steps.mode
      by_cases hcm : b.mode.scanComments = true
      · rw [if_pos (by rw [hca, h.comments]; exact hcm)] at hpa
        rw [if_pos (by rw [hcb]; exact hcm)] at hpb
        have hia := pass_token_inv (U := U) h.inva (by rw [ha]; exact hpa)
        have hib := pass_token_inv (U := U) h.invb (by rw [hb]; exact hpb)
        rw [hpa] at hua
        rw [hpb] at hub
        dsimp only at hua hub
        right
        rw [hua, hub]
        refine ⟨isAuto_kind (show COMMENT ≠ SEMICOLON by decide), _, by rw [hlit, h.same.offset], ?_⟩
        refine ⟨hia.1, hib.1, same_setSemi hst _ _ _ _, ?_, ?_, ?_⟩
        · rw [setSemi_mode, setSemi_mode, hca, hcb]; exact h.comments
        · rw [setSemi_mode, hca]; exact h.semia
        · rw [setSemi_mode, hcb]; exact h.semib
      · rw [if_neg (by rw [hca, h.comments]; exact hcm)] at hpa
        rw [if_neg (by rw [hcb]; exact hcm)] at hpb
        have hia := pass_again (U := U) h.inva (by rw [ha]; exact hpa)
        have hib := pass_again (U := U) h.invb (by rw [hb]; exact hpb)
        rw [hpa] at hua
        rw [hpb] at hub
        dsimp only at hua hub
        have hr := ih _ _ hia.2.1 ⟨hia.1, hib.1, hst, by
          rw [hia.2.2, hib.2.2]; exact h.comments, by rw [hia.2.2]; exact h.semia,
          by rw [hib.2.2]; exact h.semib⟩
        unfold Step8 at hr ⊢
        rw [hua, hub]
        exact hr
  -- ordinary tokens
  obtain ⟨t, semi, semi', a', b', hpa, hpb, hst, hk1, hk2, hau, _⟩ := pass_plain U h.same h.inva.sync (by
    unfold Special
    rintro (e | e | e | e)
    · exact hE e
    · exact h10 e
    · exact h47 e
    · exact h35 e)
  have hia := pass_token_inv (U := U) h.inva (by rw [ha]; exact hpa)
  have hib := pass_token_inv (U := U) h.invb (by rw [hb]; exact hpb)
  rw [hpa] at hua
  rw [hpb] at hub
  dsimp only at hua hub
  right
  rw [hua, hub]
  refine ⟨hau, _, rfl, ?_⟩
  refine ⟨hia.1, hib.1, same_setSemi hst _ _ _ _, ?_, ?_, ?_⟩
  · rw [setSemi_mode, setSemi_mode, hia.2.1, hib.2.1]; exact h.comments
  · rw [setSemi_mode, hia.2.1]; exact h.semia
  · rw [setSemi_mode, hib.2.1]; exact h.semib

theorem step8 (U : Uni) : ∀ (n : Nat) (a b : Scanner), a.mu < n → R8 a b → Step8 U a b := by
  intro n
  induction n with
  | zero => intro a b hm; omega
  | succ n ih =>
    intro a b hm h
    -- skip white space in both, stopping before newlines if a semicolon is due
    obtain ⟨hai, hamu, hase, hamo, hasp⟩ := skip_inv h.inva
    have hbs := h.bsemi
    let b0 := whileCh (isSpace a.insertSemi) b.mu b
    obtain ⟨g, he, _⟩ := whileCh_spec (isSpace a.insertSemi) (fun c => isSpace_nonneg) b.mu b h.invb.sync (Nat.le_refl _)
    have hb0 : Inv b0 := he.inv h.invb
    have hb0s : b0.insertSemi = false := by
      show (whileCh (isSpace a.insertSemi) b.mu b).insertSemi = false
      rw [he.steps.insertSemi]; exact hbs
    have hb0m : b0.mode = b.mode := he.steps.mode
    have hsame : Same a.skipWhitespace b0 := by
      show Same (whileCh _ _ _) (whileCh _ _ _)
      rw [h.same.mu]
      exact h.same.whileCh _ _
    have hskip : b.skipWhitespace = b0.skipWhitespace := by
      unfold skipWhitespace
      rw [hb0s, hbs]
      refine whileCh_sub _ _ (fun c => isSpace_nonneg) ?_ _ _
      intro c hc
      cases hsx : a.insertSemi
      · rw [hsx] at hc; exact hc
      · rw [hsx] at hc
        unfold isSpace at hc ⊢
        simp only [Bool.or_eq_true, beq_iff_eq, Bool.and_eq_true, Bool.not_true, Bool.false_eq_true, and_false,
          or_false, Bool.not_false, and_true] at hc ⊢
        omega
    have hR : R8 a.skipWhitespace b0 := ⟨hai, hb0, hsame, by rw [hamo, hb0m]; exact h.comments,
      by rw [hamo]; exact h.semia, by rw [hb0m]; exact h.semib⟩
    have hstep := step8_pass U hR (by rw [hase]; exact hasp) (by
      cases hsx : a.insertSemi
      · rw [hsx] at hasp; exact .inl hasp
      · rw [hsx] at hasp
        by_cases e : a.skipWhitespace.ch = 10
        · exact .inr e
        · left
          unfold isSpace at hasp ⊢
          simp only [Bool.or_eq_false_iff, beq_eq_false_iff_ne, Bool.and_eq_false_iff] at hasp ⊢
          exact ⟨⟨⟨hasp.1.1.1, hasp.1.1.2⟩, .inl e⟩, hasp.2⟩)
      (fun a' b' hlt hr => ih a' b' (by omega) hr)
    have e1 : scan U a = scan U a.skipWhitespace :=
      scan_congr U h.inva hai (by
        rw [skip_eq (s := a.skipWhitespace) (by rw [hase]; exact hasp)])
    have e2 : scan U b = scan U b0 := scan_congr U h.invb hb0 hskip
    unfold Step8 at hstep ⊢
    rw [e1, e2]
    exact hstep

theorem erase_semis (U : Uni) {a b : Scanner} {ts : List Token} {e : Scanner} (h : R8 a b) (ht : Run U a ts e) :
    ∃ e', Run U b (ts.filter (fun t => !isAuto t)) e' := by
  induction ht generalizing b with
  | eof h1 h2 =>
    rename_i s t s'
    rcases step8 U (s.mu + 1) s b (by omega) h with ⟨_, h3, _⟩ | ⟨h3, b', h4, _⟩
    · rw [h1] at h3; exact absurd h2 h3
    · rw [h1] at h3 h4
      dsimp only at h3 h4
      simp only [List.filter_cons, h3, Bool.not_false, if_true, List.filter_nil]
      exact ⟨_, .eof h4 h2⟩
  | cons h1 h2 _ ih =>
    rename_i s t s' ts _ _
    rcases step8 U (s.mu + 1) s b (by omega) h with ⟨h3, _, b', h4, h5⟩ | ⟨h3, b', h4, h5⟩
    · rw [h1] at h3 h4
      dsimp only at h3 h4
      simp only [List.filter_cons, h3, Bool.not_true, Bool.false_eq_true, if_false]
      obtain ⟨e, he⟩ := ih h4
      exact ⟨e, he.congr h5⟩
    · rw [h1] at h3 h4 h5
      dsimp only at h3 h4 h5
      simp only [List.filter_cons, h3, Bool.not_false, if_true]
      obtain ⟨e, he⟩ := ih h5
      exact ⟨e, .cons h4 h2 he⟩

/-! ### with and without comments -/

structure R9 (a b : Scanner) : Prop where
  inva : Inv a
  invb : Inv b
  same : Same a b
  semi : a.insertSemi = b.insertSemi
  semis : a.mode.insertSemis = b.mode.insertSemis
  coma : a.mode.scanComments = true
  comb : b.mode.scanComments = false

def Step9 (U : Uni) (a b : Scanner) : Prop :=
  ((scan U a).1.kind = COMMENT ∧ ∃ b', R9 (scan U a).2 b' ∧ scan U b = scan U b') ∨
  ((scan U a).1.kind ≠ COMMENT ∧ ∃ b', scan U b = ((scan U a).1, b') ∧ R9 (scan U a).2 b')

theorem step9 (U : Uni) {a0 b0 : Scanner} (h0 : R9 a0 b0) : Step9 U a0 b0 := by
  obtain ⟨hai, _, hase, hamo, hasp⟩ := skip_inv h0.inva
  obtain ⟨hbi, _, hbse, hbmo, hbsp⟩ := skip_inv h0.invb
  have e1 : scan U a0 = scan U a0.skipWhitespace :=
    scan_congr U h0.inva hai (by rw [skip_eq (s := a0.skipWhitespace) (by rw [hase]; exact hasp)])
  have e2 : scan U b0 = scan U b0.skipWhitespace :=
    scan_congr U h0.invb hbi (by rw [skip_eq (s := b0.skipWhitespace) (by rw [hbse]; exact hbsp)])
  unfold Step9
  rw [e1, e2]
  have h : R9 a0.skipWhitespace b0.skipWhitespace := ⟨hai, hbi, h0.same.skip h0.semi, by rw [hase, hbse]; exact h0.semi,
    by rw [hamo, hbmo]; exact h0.semis, by rw [hamo]; exact h0.coma, by rw [hbmo]; exact h0.comb⟩
  rw [← hase] at hasp
  rw [← hbse] at hbsp
  clear e1 e2 hai hase hamo hbi hbse hbmo h0
  generalize a0.skipWhitespace = a at *
  generalize b0.skipWhitespace = b at *
  have ha := skip_eq hasp
  have hb := skip_eq hbsp
  have hua := scan_unfold U h.inva
  have hub := scan_unfold U h.invb
  rw [ha] at hua
  rw [hb] at hub
  -- after an automatic semicolon
  have mk : ∀ a' b' : Scanner, Same a' b' → Go a a' → Go b b' → a'.insertSemi = false → b'.insertSemi = false →
      R9 a' b' := by
    intro a' b' hs ga gb sa sb
    exact ⟨inv_of_go h.inva ga (by rw [sa]; simp), inv_of_go h.invb gb (by rw [sb]; simp), hs, by rw [sa, sb],
      by rw [ga.mode, gb.mode]; exact h.semis, by rw [ga.mode]; exact h.coma, by rw [gb.mode]; exact h.comb⟩
  -- after a token
  have mkt : ∀ (a' b' : Scanner) (ta tb : Token) (sa sb : Bool), Same a' b' → scanPass U a = (.token ta sa, a') →
      scanPass U b = (.token tb sb, b') → sa = sb →
      R9 (if a'.mode.insertSemis then { a' with insertSemi := sa } else a')
        (if b'.mode.insertSemis then { b' with insertSemi := sb } else b') := by
    intro a' b' ta tb sa sb hs hpa hpb e
    subst e
    have hia := pass_token_inv (U := U) h.inva (by rw [ha]; exact hpa)
    have hib := pass_token_inv (U := U) h.invb (by rw [hb]; exact hpb)
    refine ⟨hia.1, hib.1, same_setSemi hs _ _ _ _, ?_, ?_, ?_, ?_⟩
    · rw [hia.2.1, hib.2.1, h.semis]
      split
      · rfl
      · rw [hia.2.2, hib.2.2]; exact h.semi
    · rw [setSemi_mode, setSemi_mode, hia.2.1, hib.2.1]; exact h.semis
    · rw [setSemi_mode, hia.2.1]; exact h.coma
    · rw [setSemi_mode, hib.2.1]; exact h.comb
  by_cases h10 : a.ch = 10
  · have h10b : b.ch = 10 := by rw [← h.same.ch]; exact h10
    rw [pass_newline U h10] at hua
    rw [pass_newline U h10b] at hub
    right
    rw [hua, hub]
    refine ⟨(show SEMICOLON ≠ COMMENT by decide), _, by rw [h.same.offset], ?_⟩
    exact mk _ _ (h.same.next.semi _ _) ((Go.refl a).next.semi _) ((Go.refl b).next.semi _) rfl rfl
  by_cases hE : a.ch = -1
  · have hEb : b.ch = -1 := by rw [← h.same.ch]; exact hE
    have hpa := pass_eof U hE
    have hpb := pass_eof U hEb
    rw [← h.semi] at hpb
    by_cases hs : a.insertSemi = true
    · rw [if_pos hs] at hpa hpb
      rw [hpa] at hua
      rw [hpb] at hub
      dsimp only at hua hub
      right
      rw [hua, hub]
      refine ⟨(show SEMICOLON ≠ COMMENT by decide), _, by rw [h.same.offset], ?_⟩
      exact mk _ _ (h.same.next.semi _ _) ((Go.refl a).next.semi _) ((Go.refl b).next.semi _) rfl rfl
    · rw [if_neg hs] at hpa hpb
      rw [hpa] at hua
      rw [hpb] at hub
      dsimp only at hua hub
      right
      rw [hua, hub]
      refine ⟨(show EOF ≠ COMMENT by decide), _, by rw [h.same.offset], ?_⟩
      exact mkt _ _ _ _ _ _ h.same.next hpa hpb rfl
  by_cases h47 : a.ch = 47 ∧ (a.next.ch = 47 ∨ a.next.ch = 42)
  · have h47b : b.ch = 47 ∧ (b.next.ch = 47 ∨ b.next.ch = 42) := by
      rw [← h.same.ch, ← h.same.next.ch]; exact h47
    by_cases hsemi : a.insertSemi = true ∧ LineAhead a.rest
    · obtain ⟨s1, hs1, hgo, hs1f, hpa⟩ := pass_comment_semi U h.inva.sync h47 hsemi.1 hsemi.2
      obtain ⟨s2, hs2, hgo2, hs2f, hpb⟩ := pass_comment_semi U h.invb.sync h47b (by rw [← h.semi]; exact hsemi.1)
        (by rw [← h.same.rest]; exact hsemi.2)
      rw [hpa] at hua
      rw [hpb] at hub
      dsimp only at hua hub
      right
      rw [hua, hub]
      refine ⟨(show SEMICOLON ≠ COMMENT by decide), _, by rw [h.same.offset], ?_⟩
      exact mk _ _ (hs1.trans (h.same.trans hs2.symm)) hgo hgo2 hs1f hs2f
    · obtain ⟨sa, hsa, hma, hpa⟩ := pass_comment U h.inva.sync h47 (fun e hA => hsemi ⟨e, hA⟩)
      obtain ⟨sb, hsb, hmb, hpb⟩ := pass_comment U h.invb.sync h47b (fun e hA => hsemi ⟨by rw [h.semi]; exact e,
        by rw [h.same.rest]; exact hA⟩)
      have hs : Same sa sb := hsa.trans (h.same.next.trans hsb.symm)
      obtain ⟨hlit, hst⟩ := hs.scanComment
      have hpai : PassOk U a (scanPass U a) := scanPass_spec U h.inva.sync hasp h.inva.bom
      have hpbi : PassOk U b (scanPass U b) := scanPass_spec U h.invb.sync hbsp h.invb.bom
      have hca : (scanComment sa).2.mode = a.mode := by
        rw [hpa] at hpai
        split at hpai
        · obtain ⟨x, he, _⟩ := hpai; exact he.steps.mode
        · obtain ⟨x, s1, he, e, _⟩ := hpai
          have := congrArg Scanner.mode e
          simp only at this
          rw [this, he.steps.mode]
      have hcb : (scanComment sb).2.mode = b.mode := by
        rw [hpb] at hpbi
        split at hpbi
        · obtain ⟨x, he, _⟩ := hpbi; exact he.steps.mode
        · obtain ⟨x, s1, he, e, _⟩ := hpbi
          have := congrArg Scanner.mode e
          simp only at this
          rw [this, he.steps.mode]
      rw [if_pos (by rw [hca]; exact h.coma)] at hpa
      rw [if_neg (by rw [hcb, h.comb]; simp)] at hpb
      have hia := pass_token_inv (U := U) h.inva (by rw [ha]; exact hpa)
      have hib := pass_again (U := U) h.invb (by rw [hb]; exact hpb)
      rw [hpa] at hua
      rw [hpb] at hub
      dsimp only at hua hub
      left
      rw [hua, hub]
      refine ⟨rfl, _, ?_, rfl⟩
      refine ⟨hia.1, hib.1, ?_, ?_, ?_, ?_, ?_⟩
      · have := same_setSemi hst ((scanComment sa).2.mode.insertSemis) true false false
        simpa using this
      · rw [hca]
        split
        · rfl
        · rename_i hne
          rw [hia.2.2]
          cases hx : a.insertSemi
          · rfl
          · exact absurd (h.inva.semi hx) hne
      · rw [hib.2.2]
        rw [setSemi_mode, hca]; exact h.semis
      · rw [setSemi_mode, hca]; exact h.coma
      · rw [hib.2.2]; exact h.comb
  by_cases h35 : a.ch = 35
  · have h35b : b.ch = 35 := by rw [← h.same.ch]; exact h35
    by_cases hsemi : a.insertSemi = true
    · obtain ⟨s1, hs1, hgo, hs1f, hpa⟩ := pass_sharp_semi U h.inva.sync h35 hsemi
      obtain ⟨s2, hs2, hgo2, hs2f, hpb⟩ := pass_sharp_semi U h.invb.sync h35b (by rw [← h.semi]; exact hsemi)
      rw [hpa] at hua
      rw [hpb] at hub
      dsimp only at hua hub
      right
      rw [hua, hub]
      refine ⟨(show SEMICOLON ≠ COMMENT by decide), _, by rw [h.same.offset], ?_⟩
      exact mk _ _ (hs1.trans (h.same.trans hs2.symm)) hgo hgo2 hs1f hs2f
    · have hsemi' : a.insertSemi = false := by simpa using hsemi
      have hsemib : b.insertSemi = false := by rw [← h.semi]; exact hsemi'
      have hpa := pass_sharp U h35 hsemi'
      have hpb := pass_sharp U h35b hsemib
      obtain ⟨hlit, hst⟩ := h.same.next.scanSharpComment
      have hea := h.inva.sync.eatAscii 35 (by decide) h35
      have heb := h.invb.sync.eatAscii 35 (by decide) h35b
      obtain ⟨xa, hxa, _⟩ := scanSharpComment_spec hea
      obtain ⟨xb, hxb, _⟩ := scanSharpComment_spec heb
      have hca := hxa.steps.mode
      have hcb := hxb.steps.mode
      rw [if_pos (by rw [hca]; exact h.coma)] at hpa
      rw [if_neg (by rw [hcb, h.comb]; simp)] at hpb
      have hia := pass_token_inv (U := U) h.inva (by rw [ha]; exact hpa)
      have hib := pass_again (U := U) h.invb (by rw [hb]; exact hpb)
      rw [hpa] at hua
      rw [hpb] at hub
      dsimp only at hua hub
      left
      rw [hua, hub]
      refine ⟨rfl, _, ?_, rfl⟩
      refine ⟨hia.1, hib.1, ?_, ?_, ?_, ?_, ?_⟩
      · have := same_setSemi hst ((scanSharpComment a.next).2.mode.insertSemis) false false false
        simpa using this
      · rw [hxb.steps.insertSemi, hsemib]
        split
        · rfl
        · rw [hia.2.2]; exact hsemi'
      · rw [hib.2.2]
        rw [setSemi_mode, hca]; exact h.semis
      · rw [setSemi_mode, hca]; exact h.coma
      · rw [hib.2.2]; exact h.comb
  obtain ⟨t, semi, semi', a', b', hpa, hpb, hst, hk1, hk2, hau, hse⟩ := pass_plain U h.same h.inva.sync (by
    unfold Special
    rintro (e | e | e | e)
    · exact hE e
    · exact h10 e
    · exact h47 e
    · exact h35 e)
  rw [hpa] at hua
  rw [hpb] at hub
  dsimp only at hua hub
  right
  rw [hua, hub]
  exact ⟨hk1, _, rfl, mkt _ _ _ _ _ _ hst hpa hpb (hse h.semi)⟩

theorem erase_comments (U : Uni) {a b : Scanner} {ts : List Token} {e : Scanner} (h : R9 a b) (ht : Run U a ts e) :
    ∃ e', Run U b (ts.filter (fun t => t.kind != COMMENT)) e' := by
  induction ht generalizing b with
  | eof h1 h2 =>
    rename_i s t s'
    rcases step9 U h with ⟨h3, _⟩ | ⟨h3, b', h4, _⟩
    · rw [h1] at h3
      dsimp only at h3
      rw [h2] at h3; cases h3
    · rw [h1] at h3 h4
      dsimp only at h3 h4
      simp only [List.filter_cons, bne_iff_ne, ne_eq, h3, not_false_eq_true, if_true, List.filter_nil]
      exact ⟨_, .eof h4 h2⟩
  | cons h1 h2 _ ih =>
    rename_i s t s' ts _ _
    rcases step9 U h with ⟨h3, b', h4, h5⟩ | ⟨h3, b', h4, h5⟩
    · rw [h1] at h3 h4
      dsimp only at h3 h4
      simp only [List.filter_cons, h3, bne_self_eq_false, Bool.false_eq_true, if_false]
      obtain ⟨e, he⟩ := ih h4
      exact ⟨e, he.congr h5⟩
    · rw [h1] at h3 h4 h5
      dsimp only at h3 h4 h5
      simp only [List.filter_cons, bne_iff_ne, ne_eq, h3, not_false_eq_true, if_true]
      obtain ⟨e, he⟩ := ih h5
      exact ⟨e, .cons h4 h2 he⟩

end Scanner
end Tpl
