import Verif.Proof.ScannerReads

/-! The scanner reads well-formed text as the lexical grammar says, continued:
comments, operators, tokens, whole texts. -/
namespace Tpl
namespace Scanner
open Spec

/-! ### Comments -/

theorem lineEnd_ten {r : Str} (h : LineEnd r) : ∀ c, r.head? = some c → ¬ c ≠ 10 := by
  intro c hc hn
  rcases h with rfl | ⟨t, rfl⟩
  · cases hc
  · injection hc with hc
    exact hn hc.symm

theorem At.lineComment {b r : Str} (hb : 10 ∉ b) (hr : LineEnd r) {s : Scanner} (h : At s (47 :: 47 :: b ++ r)) :
    s.ch = 47 ∧ s.next.ch = 47 ∧ (scanComment s.next).1 = (47 :: 47 :: b).filter (· ≠ 13) ∧ Reads s (47 :: 47 :: b) (scanComment s.next).2 := by
  obtain ⟨c1, r1, a1⟩ := At.one (c := 47) (r := 47 :: b ++ r) h (by decide)
  obtain ⟨c2, r2, a2⟩ := At.one (c := 47) (r := b ++ r) a1 (by decide)
  have c2' : s.next.ch = 47 := c2
  obtain ⟨x, he, hnl, hle, hcr⟩ := lineCommentLoop_spec s.next.next.mu false s.next.next a2.sync (Nat.le_refl _)
  have hns := lineCommentLoop_nsteps s.next.next.mu false s.next.next
  have e := he.rest
  rw [a2.rest] at e
  obtain ⟨rfl, hrr⟩ := split_ws (P := fun c => c ≠ 10) e (fun c hc e => hb (e ▸ hc)) (fun c hc e => hnl (e ▸ hc)) (lineEnd_ten hr) (lineEnd_ten hle)
  have hre : Reads s (47 :: 47 :: b) (lineCommentLoop s.next.next.mu false s.next.next).2 := r1.trans (r2.trans (a2.nreads he hns))
  refine ⟨c1, c2', ?_, ?_⟩
  · unfold scanComment
    simp only [r1.eat.offsetM1, if_pos c2', hre.eat.check, hre.eat.slice]
    apply stripCR_ite
    intro hf
    have := (hcr hf).2
    simp [this]
  · unfold scanComment
    simp only [r1.eat.offsetM1, if_pos c2', hre.eat.check]
    exact hre

theorem At.blockComment {b r : Str} (hb : noClose (b ++ [42]) = true) {s : Scanner} (h : At s (47 :: 42 :: (b ++ [42, 47]) ++ r)) :
    s.ch = 47 ∧ s.next.ch = 42 ∧ (scanComment s.next).1 = (47 :: 42 :: (b ++ [42, 47])).filter (· ≠ 13) ∧
      Reads s (47 :: 42 :: (b ++ [42, 47])) (scanComment s.next).2 := by
  obtain ⟨c1, r1, a1⟩ := At.one (c := 47) (r := 42 :: (b ++ [42, 47]) ++ r) h (by decide)
  obtain ⟨c2, r2, a2⟩ := At.one (c := 42) (r := b ++ [42, 47] ++ r) a1 (by decide)
  have c2' : s.next.ch = 42 := c2
  have c2n : ¬ s.next.ch = 47 := by omega
  obtain ⟨x, he, ht, hf, hcr⟩ := blockCommentLoop_spec s.next.next.mu false s.next.next a2.sync (Nat.le_refl _)
  have hns := blockCommentLoop_nsteps s.next.next.mu false s.next.next
  have hq := he.rest
  rw [a2.rest] at hq
  have hcl : (blockCommentLoop s.next.next.mu false s.next.next).1 = true := by
    cases hc : (blockCommentLoop s.next.next.mu false s.next.next).1 with
    | true => rfl
    | false =>
      obtain ⟨h1, h2⟩ := hf hc
      rw [h2, List.append_nil] at hq
      rw [← hq] at h1
      have := noClose_false (b := b) (t := r)
      rw [show b ++ [42, 47] ++ r = b ++ 42 :: 47 :: r by simp] at h1
      rw [h1] at this
      cases this
  obtain ⟨b', rfl, hb'⟩ := ht hcl
  have hq' : b ++ 42 :: 47 :: r = b' ++ 42 :: 47 :: (blockCommentLoop s.next.next.mu false s.next.next).2.2.rest := by simpa using hq
  obtain ⟨rfl, _⟩ := split_close hq' hb hb'
  have hre : Reads s (47 :: 42 :: (b ++ [42, 47])) (blockCommentLoop s.next.next.mu false s.next.next).2.2 := r1.trans (r2.trans (a2.nreads he hns))
  refine ⟨c1, c2', ?_, ?_⟩
  · unfold scanComment
    simp only [r1.eat.offsetM1, if_neg c2n]
    generalize blockCommentLoop s.next.next.mu false s.next.next = q at hcl hre hcr ⊢
    obtain ⟨cl, cr, s'⟩ := q
    dsimp only at hcl hre hcr ⊢
    subst hcl
    simp only [if_true, hre.eat.check, hre.eat.slice]
    apply stripCR_ite
    intro hf
    have := (hcr hf).2
    simp at this
    simp [this]
  · unfold scanComment
    simp only [r1.eat.offsetM1, if_neg c2n]
    generalize blockCommentLoop s.next.next.mu false s.next.next = q at hcl hre hcr ⊢
    obtain ⟨cl, cr, s'⟩ := q
    dsimp only at hcl hre hcr ⊢
    subst hcl
    simp only [if_true, hre.eat.check]
    exact hre

/-- Comments that start with a slash. -/
theorem At.slashComment {x r : Str} (hx : CommentText true x r) (h35 : ¬ CharNext 35 x) {s : Scanner} (h : At s (x ++ r)) :
    s.ch = 47 ∧ (s.next.ch = 47 ∨ s.next.ch = 42) ∧ (scanComment s.next).1 = x.filter (· ≠ 13) ∧ Reads s x (scanComment s.next).2 := by
  cases hx with
  | line h1 h2 => obtain ⟨q1, q2, q3⟩ := At.lineComment h1 h2 h; exact ⟨q1, .inl q2, q3⟩
  | sharp => exact absurd ⟨_, rfl⟩ h35
  | block h1 => obtain ⟨q1, q2, q3⟩ := At.blockComment h1 h; exact ⟨q1, .inr q2, q3⟩
  | unclosed h1 => cases h1

theorem At.sharpComment {x r : Str} (hx : CommentText true x r) (h35 : CharNext 35 x) {s : Scanner} (h : At s (x ++ r)) :
    s.ch = 35 ∧ (scanSharpComment s.next).1 = x ∧ Reads s x (scanSharpComment s.next).2 := by
  obtain ⟨t, rfl⟩ := h35
  cases hx with
  | sharp h1 h2 =>
    obtain ⟨c1, r1, a1⟩ := At.one (c := 35) (r := t ++ r) h (by decide)
    obtain ⟨x, he, hl, hc, hx⟩ := scanSharpComment_spec r1.eat
    obtain ⟨y, rfl⟩ := hc
    have hxf := hx false
    cases hxf with
    | sharp h3 h4 =>
      have e := he.rest
      rw [h.rest] at e
      simp only [List.cons_append, List.cons.injEq, true_and] at e
      obtain ⟨rfl, hrr⟩ := split_ws (P := fun c => c ≠ 10) e (fun c hc e => h1 (e ▸ hc)) (fun c hc e => h3 (e ▸ hc)) (lineEnd_ten h2) (lineEnd_ten h4)
      refine ⟨c1, hl, he, ?_⟩
      have hst : (scanSharpComment s.next).2 = whileCh (fun c => decide ¬(c = 10 ∨ c < 0)) s.next.mu s.next := by
        unfold scanSharpComment
        obtain ⟨z, hz, _⟩ := whileCh_spec (fun c => decide ¬(c = 10 ∨ c < 0)) (by intro c hc; simp at hc; omega) s.next.mu s.next a1.sync (Nat.le_refl _)
        have := r1.eat.trans hz
        simp only [r1.eat.offsetM1, this.check]
      rw [hst]
      exact ((NSteps.one s).trans (whileCh_nsteps _ _ _)).quiet h.sync (by rw [h.rest]; exact h.clean)

/-- The look-ahead changes nothing on clean text. -/
theorem At.lookahead {s : Scanner} {t : Str} (h : At s (47 :: t)) (hc : s.next.ch = 47 ∨ s.next.ch = 42) (hsemi : s.insertSemi = true) :
    (findLineEnd s.next).2 = s.next := by
  obtain ⟨c1, r1, a1⟩ := At.one (c := 47) (r := t) h (by decide)
  have hs1 : s.next.insertSemi = true := by rw [next_insertSemi]; exact hsemi
  obtain ⟨l, e⟩ := findLineEnd_state r1.eat hc hs1
  have hl : l = [] := by
    have hf := findLineEndLoop_fsteps (s.next.mu + 1) s.next hs1
    have hq := hf.nsteps.quiet a1.sync (by rw [a1.rest]; exact a1.clean)
    have e2 := congrArg Scanner.errs e
    unfold findLineEnd at e2
    simp only [r1.eat.offsetM1] at e2
    generalize findLineEndLoop (s.next.mu + 1) s.next = q at hf hq e2
    obtain ⟨r, s'⟩ := q
    dsimp only at hf hq e2
    obtain ⟨b, hb, hr⟩ := a1.sync.rest_ascii (by omega) (by omega)
    have hd : s'.src.drop (s.offset + 1) = b :: s.next.next.rest := by
      rw [hf.steps.src, ← hr]; unfold Scanner.rest; rw [r1.eat.offset]; rfl
    rw [next_ascii (b := b) (t := s.next.next.rest) (by simp) hd (by omega) (by omega)] at e2
    have e3 : s'.errs = s.next.errs := hq
    have e4 : (s.next.addErrs l).errs = l ++ s.next.errs := rfl
    dsimp only at e2
    rw [e3, e4] at e2
    have := congrArg List.length e2
    simp only [List.length_append] at this
    exact List.eq_nil_of_length_eq_zero (by omega)
  rw [e, hl]
  rfl

/-! ### Operators -/

theorem op_inj : ∀ p ∈ operators, ∀ q ∈ operators, bytes p.2 = bytes q.2 → p = q := by decide +kernel

theorem op_start (b : UInt8) (hb : b ∈ opStarts) : b.toNat < 0x80 := by revert b; decide

theorem op_dots : ∀ p ∈ operators, (bytes p.2).head? = some 46 → p = (PERIOD, ".") ∨ p = (ELLIPSIS, "...") := by decide +kernel
theorem op_quo : ∀ p ∈ operators, (bytes p.2).head? = some 47 → p = (QUO, "/") ∨ p = (QUO_ASSIGN, "/=") := by decide +kernel

theorem At.op {k : Nat} {str : String} {r : Str} (hm : (k, str) ∈ operators) (hl : Longest str r) (hd : ¬ (k = PERIOD ∧ CharNext 46 r))
    {s : Scanner} (h : At s (bytes str ++ r)) : ∃ s', scanOp s.ch s.next = some (k, s') ∧ Reads s (bytes str) s' := by
  obtain ⟨b, t, hb, hbs⟩ := opStarts_spec _ hm
  dsimp only at hb
  have hch : s.ch = b.toNat := h.sync.ch_of_rest (b := b) (t := t ++ r) (by rw [h.rest, hb]; rfl) (op_start b hbs)
  cases hs : scanOp s.ch s.next with
  | none => exact absurd hch (scanOp_none hs b hbs)
  | some q =>
    obtain ⟨k', s'⟩ := q
    have hns : NSteps s.next s' := scanOp_nsteps (k', s') hs
    rcases scanOp_spec h.sync hs with ⟨str', hm', he, hl'⟩ | ⟨rfl, he, hn⟩
    · have e := he.rest
      rw [h.rest] at e
      have l1 := op_len _ hm
      have l2 := op_len _ hm'
      dsimp only at l1 l2
      have h1 := hl k' str' hm' ⟨s'.rest, e.symm⟩
      have h2 := hl' k str hm ⟨r, e⟩
      obtain ⟨e1, _⟩ := List.append_inj e (by omega)
      obtain ⟨rfl, rfl⟩ := Prod.mk.inj (op_inj _ hm _ hm' e1)
      exact ⟨s', rfl, h.nreads he ((NSteps.one s).trans hns)⟩
    · exfalso
      have e := he.rest
      rw [h.rest] at e
      have hhd : (bytes str).head? = some 46 := by
        rw [hb] at e ⊢
        injection e with e _
        rw [e]; rfl
      rcases op_dots _ hm hhd with e1 | e1
      · obtain ⟨rfl, rfl⟩ := Prod.mk.inj e1
        apply hd
        refine ⟨rfl, s'.rest, ?_⟩
        rw [show bytes "." = [46] by decide +kernel] at e
        injection e
      · obtain ⟨rfl, rfl⟩ := Prod.mk.inj e1
        apply hn
        rw [show bytes "..." = [46, 46, 46] by decide +kernel] at e
        simp only [List.cons_append, List.nil_append, List.cons.injEq, true_and] at e
        exact ⟨r, e.symm⟩

theorem At.dots {r : Str} (hn : ¬ CharNext 46 r) {s : Scanner} (h : At s (46 :: 46 :: r)) :
    s.ch = 46 ∧ s.next.ch = 46 ∧ ∃ s', scanOp s.ch s.next = some (ILLEGAL, s') ∧ Reads s [46, 46] s' := by
  obtain ⟨c1, r1, a1⟩ := At.one (c := 46) (r := 46 :: r) h (by decide)
  obtain ⟨c2, r2, a2⟩ := At.one (c := 46) (r := r) a1 (by decide)
  rw [charNext_ch a2 46 (by decide)] at hn
  have c1' : s.ch = 46 := c1
  have c2' : s.next.ch = 46 := c2
  have hn' : ¬ s.next.next.ch = 46 := hn
  refine ⟨c1', c2', s.next.next, ?_, r1.trans r2⟩
  unfold scanOp
  rw [c1', if_neg (by decide), if_pos rfl, if_pos c2']
  dsimp only
  rw [if_neg hn']

/-! ### One pass -/

/-- What one pass of `Scan` does before the text `x` of the token `t`. -/
def PassReads (U : Uni) (s : Scanner) (t : Token) (x : Str) (semi2 : Bool) : Prop :=
  isSpace s.insertSemi s.ch = false ∧
    ((∃ s', scanPass U s = (.token t semi2, s') ∧ Reads s x s') ∨
     (∃ s1 : Scanner, scanPass U s = (.ret t, { s1 with insertSemi := false }) ∧ Reads s x s1 ∧ semi2 = false))

theorem notSpace {semi : Bool} {c : Int} (h : c ≠ 32 ∧ c ≠ 9 ∧ c ≠ 10 ∧ c ≠ 13) : isSpace semi c = false := by
  unfold isSpace
  simp [h.1, h.2.1, h.2.2.1, h.2.2.2]

theorem notLetter (U : Uni) {c : Int} (h : c < 0x80) (h1 : ¬ (97 ≤ c ∧ c ≤ 122)) (h2 : ¬ (65 ≤ c ∧ c ≤ 90)) (h3 : c ≠ 95) : ¬ isLetter U c = true := by
  rw [isLetter_iff]
  unfold Letter
  omega

theorem Reads.pos {s s' : Scanner} {x : Str} (h : Reads s x s') : s'.offset = s.offset + x.length := h.eat.offset

theorem At.pass_num {U : Uni} {k p : Nat} {x r : Str} (hx : NumText true k x r) {s : Scanner} (h : At s (x ++ r)) (hp : p = s.offset) :
    PassReads U s ⟨k, p, x⟩ x true := by
  subst hp
  rcases At.num hx h with ⟨h1, h2, s', h3, h4⟩ | ⟨h1, h2, h2', s', h3, h4⟩
  · refine ⟨notSpace (by omega), .inl ⟨s', ?_, h4⟩⟩
    unfold scanPass
    dsimp only
    rw [if_neg (notLetter U (by omega) (by omega) (by omega) (by omega)), if_pos ⟨h1, h2⟩, h3]
  · refine ⟨notSpace (by omega), .inl ⟨s', ?_, h4⟩⟩
    unfold scanPass
    dsimp only
    rw [if_neg (notLetter U (by omega) (by omega) (by omega) (by omega)), if_neg (by omega), if_neg (by omega), if_neg (by omega), if_neg (by omega),
      if_neg (by omega), if_neg (by omega), if_pos ⟨h1, h2, h2'⟩, h3]

theorem lineAhead_no35 {r : Str} (h : LineAhead r) : ¬ CharNext 35 r := by
  rintro ⟨t, rfl⟩
  obtain ⟨t', e⟩ := lineAhead_head h
  cases e

theorem At.back {s : Scanner} {c : UInt8} {t : Str} (h : At s (c :: t)) (hc : c.toNat < 0x80) (h10 : c ≠ 10) :
    ({ s.next with ch := c.toNat, offset := s.offset, rdOffset := s.offset + 1, insertSemi := false } : Scanner) = { s with insertSemi := false } := by
  obtain ⟨c1, r1, _⟩ := At.one h hc
  obtain ⟨l, c', o, r, e⟩ := next_flat (s := s) (by
    rw [c1]; intro e; apply h10; exact toUInt8_eq (by show c.toNat = 10; omega))
  have hl : l = [] := by
    have hq : s.next.errs = s.errs := r1.quiet
    rw [e] at hq
    have : (s.addErrs l).errs = s.errs := hq
    have := congrArg List.length this
    simp [addErrs] at this
    exact this
  have hrd : s.rdOffset = s.offset + 1 := by
    have := r1.eat.offset
    rw [h.sync.next_offset] at this
    simpa using this
  rw [e, hl]
  simp [addErrs, hrd, c1]

theorem At.pass_comment {U : Uni} {x r : Str} (hx : CommentText true x r) {s : Scanner} (h : At s (x ++ r))
    (hs : s.insertSemi = true → ¬ LineAhead (x ++ r) ∧ ¬ CharNext 35 x) :
    isSpace s.insertSemi s.ch = false ∧ x ≠ [] ∧
    ∃ s', Reads s x s' ∧ scanPass U s = (if s.mode.scanComments then
      (.token ⟨COMMENT, s.offset, if x.head? = some 35 then x else x.filter (· ≠ 13)⟩ false, s') else (.again, { s' with insertSemi := false })) := by
  by_cases h35 : CharNext 35 x
  · have hsemi : s.insertSemi = false := by
      cases e : s.insertSemi with
      | false => rfl
      | true => exact absurd h35 (hs e).2
    obtain ⟨h1, h2, h3⟩ := At.sharpComment hx h35 h
    have hne : x ≠ [] := by obtain ⟨t, rfl⟩ := h35; simp
    have hhd : x.head? = some 35 := by obtain ⟨t, rfl⟩ := h35; rfl
    refine ⟨notSpace (by omega), hne, (scanSharpComment s.next).2, h3, ?_⟩
    have hst : s.next.insertSemi = false := by rw [next_insertSemi]; exact hsemi
    have hmd : (scanSharpComment s.next).2.mode = s.mode := h3.eat.steps.mode
    have hse : (scanSharpComment s.next).2.insertSemi = false := by rw [h3.eat.steps.insertSemi]; exact hsemi
    unfold scanPass
    dsimp only
    rw [if_neg (notLetter U (by omega) (by omega) (by omega) (by omega)), if_neg (by omega), if_neg (by omega), if_neg (by omega), if_neg (by omega),
      if_neg (by omega), if_neg (by omega), if_neg (by omega), if_neg (by omega), if_pos h1, if_neg (by rw [hst]; simp)]
    rw [hmd, h2, if_pos hhd]
    split
    · rfl
    · generalize (scanSharpComment s.next).2 = s2 at hse hmd
      cases s2
      dsimp only at hse hmd ⊢
      subst hse hmd
      rfl
  · obtain ⟨h1, h2, h3, h4⟩ := At.slashComment hx h35 h
    have hhd : ¬ x.head? = some 35 := by
      intro e
      apply h35
      cases x with
      | nil => cases e
      | cons a x => injection e with e; subst e; exact ⟨x, rfl⟩
    have hne : x ≠ [] := by
      intro e
      have := h4.pos
      cases hx <;> cases e
    obtain ⟨t, ht⟩ : ∃ t, x ++ r = 47 :: t := by cases hx <;> first | exact ⟨_, rfl⟩ | exact absurd ⟨_, rfl⟩ h35
    refine ⟨notSpace (by omega), hne, (scanComment s.next).2, h4, ?_⟩
    have hmd : (scanComment s.next).2.mode = s.mode := h4.eat.steps.mode
    have hla : (if s.next.insertSemi = true then findLineEnd s.next else (false, s.next)) = (false, s.next) := by
      rw [next_insertSemi]
      split
      · rename_i hsemi
        have e1 := At.lookahead (ht ▸ h) h2 hsemi
        have h1n := (At.one (c := 47) (r := t) (ht ▸ h) (by decide)).2.1
        have e2 := findLineEnd_spec h1n.eat (by rw [next_insertSemi]; exact hsemi)
        have e3 : (findLineEnd s.next).1 = false := by
          cases e : (findLineEnd s.next).1 with
          | false => rfl
          | true =>
            have := e2.mp e
            rw [h.rest] at this
            exact absurd this (hs hsemi).1
        exact Prod.ext e3 e1
      · rfl
    unfold scanPass
    dsimp only
    rw [if_neg (notLetter U (by omega) (by omega) (by omega) (by omega)), if_neg (by omega), if_neg (by omega), if_neg (by omega), if_neg (by omega),
      if_neg (by omega), if_neg (by omega), if_neg (by omega), if_pos ⟨h1, h2⟩, hla]
    dsimp only
    rw [hmd, h3, if_neg hhd]

theorem a1dec {s : Scanner} {r : Str} (h : At s r) : DecNext r ↔ 48 ≤ s.ch ∧ s.ch ≤ 57 := by
  rw [← h.sync.decNext, h.rest]

theorem At.end_ {s : Scanner} (h : At s []) : Reads s [] s.next := by
  refine At.nreads (r := []) h ?_ (.one s)
  refine ⟨h.sync, (Steps.refl s).next, ?_⟩
  have hch : s.ch = -1 := by rw [h.ch]; exact headRune_nil
  have h1 := h.sync.next.rest_length
  have h2 := h.sync.eof_iff.mp (by omega)
  have h3 := h.sync.offset_le_next
  rw [next_src] at h1
  rw [h.rest, List.eq_nil_of_length_eq_zero (show s.next.rest.length = 0 by omega)]
  rfl

theorem At.pass {U : Uni} {c semi semi2 : Bool} {t : Token} {x r : Str} (hx : TokText U true c semi t x r semi2) {s : Scanner}
    (h : At s (x ++ r)) (hc : s.mode.scanComments = c) (hsemi : s.insertSemi = semi) (hp : t.pos = s.offset) : PassReads U s t x semi2 := by
  cases hx with
  | ident h1 h2 h3 h4 =>
    rename_i p
    obtain rfl : p = s.offset := hp
    have hL : isLetter U s.ch = true := by rw [isLetter_iff, h.ch]; exact h2
    have hw := At.while_ (p := fun c => isLetter U c || isDigit U c) (x := x) (r := r)
      (by
        intro c hc
        simp only [Bool.or_eq_true, isLetter_iff, isDigit_iff] at hc
        rcases hc with hc | hc
        · exact Letter.nonneg hc
        · exact Digit.nonneg hc)
      (Runes.mono (by intro c hc; simpa only [Bool.or_eq_true, isLetter_iff, isDigit_iff] using hc) h3)
      (by
        rw [Bool.eq_false_iff]
        simpa only [ne_eq, Bool.or_eq_true, isLetter_iff, isDigit_iff] using h4) h
    refine ⟨notSpace (by rw [← h.ch] at h2; unfold Letter at h2; omega), .inl ⟨_, ?_, hw.1⟩⟩
    unfold scanPass
    dsimp only
    rw [if_pos hL]
    unfold scanIdentifier
    simp only [hw.1.eat.check, hw.1.eat.slice]
  | int h1 => exact At.pass_num (.inl ⟨rfl, h1⟩) h hp
  | float h1 h2 => exact At.pass_num (.inr (.inl ⟨rfl, h1, h2⟩)) h hp
  | imag h1 => exact At.pass_num (.inr (.inr ⟨rfl, h1⟩)) h hp
  | char h1 h2 =>
    rename_i p
    obtain rfl : p = s.offset := hp
    obtain ⟨b, rfl, hb⟩ := h2 rfl
    obtain ⟨q1, q2, q3⟩ := At.char hb h
    refine ⟨notSpace (by omega), .inl ⟨_, ?_, q3⟩⟩
    unfold scanPass
    dsimp only
    rw [if_neg (notLetter U (by omega) (by omega) (by omega) (by omega)), if_neg (by omega), if_neg (by omega), if_neg (by omega), if_neg (by omega),
      if_pos q1, q2]
  | string h1 h2 =>
    rename_i p
    obtain rfl : p = s.offset := hp
    obtain ⟨b, rfl, hb⟩ := h2 rfl
    obtain ⟨q1, q2, q3⟩ := At.string hb h
    refine ⟨notSpace (by omega), .inl ⟨_, ?_, q3⟩⟩
    unfold scanPass
    dsimp only
    rw [if_neg (notLetter U (by omega) (by omega) (by omega) (by omega)), if_neg (by omega), if_neg (by omega), if_neg (by omega), if_pos q1, q2]
  | raw h1 h2 =>
    rename_i p
    obtain rfl : p = s.offset := hp
    obtain ⟨b, rfl, hb⟩ := h2 rfl
    obtain ⟨q1, q2, q3⟩ := At.raw hb h
    refine ⟨notSpace (by omega), .inl ⟨_, ?_, q3⟩⟩
    unfold scanPass
    dsimp only
    rw [if_neg (notLetter U (by omega) (by omega) (by omega) (by omega)), if_neg (by omega), if_neg (by omega), if_neg (by omega), if_neg (by omega),
      if_neg (by omega), if_pos q1, q2]
  | comment h1 h2 h3 =>
    rename_i p
    obtain rfl : p = s.offset := hp
    obtain ⟨q1, _, s', q2, q3⟩ := At.pass_comment (U := U) h2 h (fun e => h3 (hsemi ▸ e))
    rw [hc, if_pos h1] at q3
    exact ⟨q1, .inl ⟨s', q3, q2⟩⟩
  | op h1 h2 h3 h4 =>
    rename_i p k str
    obtain rfl : p = s.offset := hp
    obtain ⟨s', q1, q2⟩ := At.op h1 h2 (fun e => h4 ⟨e.1, .inr e.2⟩) h
    obtain ⟨b, t, hb, hbs⟩ := opStarts_spec _ h1
    dsimp only at hb
    have hch : s.ch = b.toNat := h.sync.ch_of_rest (b := b) (t := t ++ r) (by rw [h.rest, hb]; rfl) (op_start b hbs)
    have hfacts : ∀ b ∈ opStarts, b ∉ ([32, 9, 13, 10, 34, 39, 96, 35, 95] : List UInt8) ∧ ¬ (97 ≤ b.toNat ∧ b.toNat ≤ 122) ∧
      ¬ (65 ≤ b.toNat ∧ b.toNat ≤ 90) ∧ ¬ (48 ≤ b.toNat ∧ b.toNat ≤ 57) ∧ b.toNat ≠ 32 ∧ b.toNat ≠ 9 ∧ b.toNat ≠ 13 ∧ b.toNat ≠ 10 ∧ b.toNat ≠ 34 ∧
      b.toNat ≠ 39 ∧ b.toNat ≠ 96 ∧ b.toNat ≠ 35 ∧ b.toNat ≠ 95 := by decide
    obtain ⟨_, f1, f2, f3, f4, f5, f6, f7, f8, f9, f10, f11, f12⟩ := hfacts b hbs
    have h80 := op_start b hbs
    have hat1 : At s.next (t ++ r) := (At.one (c := b) (r := t ++ r) (by rw [hb] at h; exact h) h80).2.2
    have n46 : ¬ (s.ch = 46 ∧ 48 ≤ s.next.ch ∧ s.next.ch ≤ 57) := by
      rintro ⟨e1, e2⟩
      have eb : b = 46 := toUInt8_eq (by show b.toNat = 46; omega)
      subst eb
      rw [← a1dec hat1] at e2
      rcases op_dots _ h1 (by show (bytes str).head? = some 46; rw [hb]; rfl) with e3 | e3
      · obtain ⟨rfl, rfl⟩ := Prod.mk.inj e3
        rw [show bytes "." = [46] by decide +kernel] at hb
        injection hb with _ hb
        subst hb
        exact h4 ⟨rfl, .inl e2⟩
      · obtain ⟨rfl, rfl⟩ := Prod.mk.inj e3
        rw [show bytes "..." = [46, 46, 46] by decide +kernel] at hb
        injection hb with _ hb
        subst hb
        obtain ⟨d, t', e4, e5⟩ := e2
        injection e4 with e4 _
        subst e4
        exact absurd e5.1 (by decide)
    have n47 : ¬ (s.ch = 47 ∧ (s.next.ch = 47 ∨ s.next.ch = 42)) := by
      rintro ⟨e1, e2⟩
      have eb : b = 47 := toUInt8_eq (by show b.toNat = 47; omega)
      subst eb
      have e2' : CharNext 47 (t ++ r) ∨ CharNext 42 (t ++ r) := by
        rw [charNext_ch hat1 47 (by decide), charNext_ch hat1 42 (by decide)]; exact e2
      rcases op_quo _ h1 (by show (bytes str).head? = some 47; rw [hb]; rfl) with e3 | e3
      · obtain ⟨rfl, rfl⟩ := Prod.mk.inj e3
        rw [show bytes "/" = [47] by decide +kernel] at hb
        injection hb with _ hb
        subst hb
        exact h3 ⟨rfl, e2'⟩
      · obtain ⟨rfl, rfl⟩ := Prod.mk.inj e3
        rw [show bytes "/=" = [47, 61] by decide +kernel] at hb
        injection hb with _ hb
        subst hb
        rcases e2' with ⟨t', e4⟩ | ⟨t', e4⟩ <;> injection e4 with e4 _ <;> exact absurd e4 (by decide)
    refine ⟨notSpace (by omega), .inl ⟨s', ?_, q2⟩⟩
    unfold scanPass
    dsimp only
    rw [if_neg (notLetter U (by omega) (by omega) (by omega) (by omega)), if_neg (by omega), if_neg (by omega), if_neg (by omega), if_neg (by omega),
      if_neg (by omega), if_neg (by omega), if_neg n46, if_neg n47, if_neg (by omega), q1]
    dsimp only
    rw [opInsertSemi_eq _ h1]
  | newline =>
    rename_i p
    obtain rfl : p = s.offset := hp
    obtain ⟨q1, q2, _⟩ := At.one (c := 10) (r := r) h (by decide)
    have q1' : s.ch = 10 := q1
    refine ⟨by rw [hsemi, q1']; decide, .inr ⟨s.next, ?_, q2, rfl⟩⟩
    unfold scanPass
    dsimp only
    rw [if_neg (notLetter U (by omega) (by omega) (by omega) (by omega)), if_neg (by omega), if_neg (by omega), if_pos q1']
  | semiAtComment h1 =>
    rename_i p
    obtain rfl : p = s.offset := hp
    rw [List.nil_append] at h
    rcases h1 with h1 | ⟨t, rfl⟩
    · obtain ⟨t, rfl⟩ := lineAhead_head h1
      obtain ⟨q1, q2, q3⟩ := At.one (c := 47) (r := t) h (by decide)
      have q1' : s.ch = 47 := q1
      have q4 : s.next.ch = 47 ∨ s.next.ch = 42 := by
        have : CharNext 47 t ∨ CharNext 42 t := by
          cases h1 <;> first | exact .inl ⟨_, rfl⟩ | exact .inr ⟨_, rfl⟩
        rw [charNext_ch q3 47 (by decide), charNext_ch q3 42 (by decide)] at this
        exact this
      have hla : (if s.next.insertSemi = true then findLineEnd s.next else (false, s.next)) = (true, s.next) := by
        rw [next_insertSemi, if_pos hsemi]
        have e1 := At.lookahead h q4 hsemi
        have e2 := (findLineEnd_spec q2.eat (by rw [next_insertSemi]; exact hsemi)).mpr (by rw [h.rest]; exact h1)
        exact Prod.ext e2 e1
      refine ⟨notSpace (by omega), .inr ⟨s, ?_, .refl h.sync, rfl⟩⟩
      unfold scanPass
      dsimp only
      rw [if_neg (notLetter U (by omega) (by omega) (by omega) (by omega)), if_neg (by omega), if_neg (by omega), if_neg (by omega), if_neg (by omega),
        if_neg (by omega), if_neg (by omega), if_neg (by omega), if_pos ⟨q1', q4⟩, hla]
      dsimp only
      rw [← At.back h (by decide) (by decide)]
      rfl
    · obtain ⟨q1, q2, q3⟩ := At.one (c := 35) (r := t) h (by decide)
      have q1' : s.ch = 35 := q1
      refine ⟨notSpace (by omega), .inr ⟨s, ?_, .refl h.sync, rfl⟩⟩
      unfold scanPass
      dsimp only
      rw [if_neg (notLetter U (by omega) (by omega) (by omega) (by omega)), if_neg (by omega), if_neg (by omega), if_neg (by omega), if_neg (by omega),
        if_neg (by omega), if_neg (by omega), if_neg (by omega), if_neg (by omega), if_pos q1', if_pos (by rw [next_insertSemi]; exact hsemi)]
      rw [← At.back h (by decide) (by decide)]
      rfl
  | semiAtEnd =>
    rename_i p
    obtain rfl : p = s.offset := hp
    have hr : s.rest = [] := h.rest
    have hch : s.ch = -1 := by rw [h.ch]; exact headRune_nil
    refine ⟨notSpace (by omega), .inr ⟨s.next, ?_, At.end_ h, rfl⟩⟩
    unfold scanPass
    dsimp only
    rw [if_neg (notLetter U (by omega) (by omega) (by omega) (by omega)), if_neg (by omega), if_pos hch, if_pos (by rw [next_insertSemi]; exact hsemi)]
  | eof =>
    rename_i p
    obtain rfl : p = s.offset := hp
    have hr : s.rest = [] := h.rest
    have hch : s.ch = -1 := by rw [h.ch]; exact headRune_nil
    refine ⟨notSpace (by omega), .inl ⟨s.next, ?_, At.end_ h⟩⟩
    unfold scanPass
    dsimp only
    rw [if_neg (notLetter U (by omega) (by omega) (by omega) (by omega)), if_neg (by omega), if_pos hch, if_neg (by rw [next_insertSemi, hsemi]; simp)]
  | dots h1 =>
    rename_i p
    obtain rfl : p = s.offset := hp
    obtain ⟨q1, q2, s', q3, q4⟩ := At.dots h1 h
    refine ⟨notSpace (by omega), .inl ⟨s', ?_, q4⟩⟩
    unfold scanPass
    dsimp only
    rw [if_neg (notLetter U (by omega) (by omega) (by omega) (by omega)), if_neg (by omega), if_neg (by omega), if_neg (by omega), if_neg (by omega),
      if_neg (by omega), if_neg (by omega), if_neg (by omega), if_neg (by omega), if_neg (by omega), q3]
    rfl
  | illegal h1 => cases h1

/-! ### `Scan` -/

/-- The scanner has read `x`, without errors, and stands before `r`. -/
structure After (s : Scanner) (x r : Str) (semi : Bool) (s' : Scanner) : Prop where
  at_ : At s' r
  quiet : s'.errs = s.errs
  mode : s'.mode = s.mode
  semi : s'.insertSemi = semi
  offset : s'.offset = s.offset + x.length

theorem Reads.after {s s' : Scanner} {x r : Str} (h : At s (x ++ r)) (hr : Reads s x s') (b : Bool) : After s x r b { s' with insertSemi := b } := by
  have ha := h.reads hr
  exact ⟨⟨ha.sync.semi b, ha.clean, ha.rest⟩, hr.quiet, hr.eat.steps.mode, rfl, hr.pos⟩

theorem skip_none {s : Scanner} (h : isSpace s.insertSemi s.ch = false) : s.skipWhitespace = s := by
  unfold skipWhitespace
  rw [whileCh_unfold _ (fun c => isSpace_nonneg), h]
  rfl

theorem skip_one {s : Scanner} (h : isSpace s.insertSemi s.ch = true) : s.skipWhitespace = s.next.skipWhitespace := by
  unfold skipWhitespace
  rw [whileCh_unfold _ (fun c => isSpace_nonneg), h, if_pos rfl, next_insertSemi]

theorem space_iff {semi : Bool} {b : UInt8} (h : Space (!semi) b) : b.toNat < 0x80 ∧ isSpace semi b.toNat = true := by
  unfold Space at h
  rcases h with rfl | rfl | rfl | ⟨rfl, h⟩
  · exact ⟨by decide, by cases semi <;> decide⟩
  · exact ⟨by decide, by cases semi <;> decide⟩
  · exact ⟨by decide, by cases semi <;> decide⟩
  · exact ⟨by decide, by cases semi <;> simp_all [isSpace]⟩

theorem scanLoop_reads {U : Uni} {c semi semi1 semi2 : Bool} {t : Token} {g x r R : Str} (hg : Gap true c semi g R semi1) (hR : R = x ++ r)
    (hx : TokText U true c semi1 t x r semi2) :
    ∀ (f : Nat) (s : Scanner), At s (g ++ R) → s.mode.scanComments = c → s.insertSemi = semi → (semi = true → s.mode.insertSemis = true) →
      t.pos = s.offset + g.length → s.mu < f →
      ∃ s', scanLoop U f s = (t, s') ∧ After s (g ++ x) r (semi2 && s.mode.insertSemis) s' := by
  induction hg with
  | nil =>
    rename_i semi R
    subst hR
    intro f s h hc hs hi hp hf
    obtain ⟨f, rfl⟩ : ∃ k, f = k + 1 := ⟨f - 1, by omega⟩
    obtain ⟨h1, h2⟩ := At.pass hx h hc hs hp
    simp only [scanLoop, skip_none h1]
    rcases h2 with ⟨s', e, hr⟩ | ⟨s1, e, hr, rfl⟩
    · rw [e]
      dsimp only
      refine ⟨_, rfl, ?_⟩
      have hm : s'.mode = s.mode := hr.eat.steps.mode
      have hsf : (if s'.mode.insertSemis = true then { s' with insertSemi := semi2 } else s') =
          { s' with insertSemi := semi2 && s.mode.insertSemis } := by
        have hmm : s'.mode.insertSemis = s.mode.insertSemis := by rw [hm]
        cases hi2 : s.mode.insertSemis with
        | true => rw [hi2] at hmm; rw [if_pos hmm]; simp
        | false =>
          rw [hi2] at hmm
          rw [if_neg (by rw [hmm]; simp)]
          have : s'.insertSemi = false := by
            rw [hr.eat.steps.insertSemi, hs]
            cases hsx : semi
            · rfl
            · rw [hi hsx] at hi2; cases hi2
          simp only [Bool.and_false]
          rw [← this]
      rw [hsf]
      exact Reads.after (x := x) h hr _
    · rw [e]
      dsimp only
      refine ⟨_, rfl, ?_⟩
      exact Reads.after (x := x) h hr _
  | space h1 hg' ih =>
    rename_i semi b g R semi'
    intro f s h hc hs hi hp hf
    obtain ⟨h80, hsp⟩ := space_iff h1
    obtain ⟨q1, q2, q3⟩ := At.one (c := b) (r := g ++ R) h h80
    have hsp' : isSpace s.insertSemi s.ch = true := by rw [hs, q1]; exact hsp
    have hmu := next_mu_lt (s := s) (by omega)
    obtain ⟨s', e, ha⟩ := ih hR hx f s.next q3 (by rw [next_mode]; exact hc) (by rw [next_insertSemi]; exact hs)
      (by rw [next_mode]; exact hi) (by rw [q2.pos, hp]; simp; omega) (by omega)
    obtain ⟨f, rfl⟩ : ∃ k, f = k + 1 := ⟨f - 1, by omega⟩
    refine ⟨s', ?_, ?_⟩
    · simp only [scanLoop] at e ⊢
      rw [skip_one hsp']
      exact e
    · refine ⟨ha.at_, ha.quiet.trans q2.quiet, by rw [ha.mode, next_mode], by rw [ha.semi, next_mode], ?_⟩
      rw [ha.offset, q2.pos]
      simp; omega
  | comment h1 h2 h3 hg' ih =>
    rename_i semi y g R semi'
    intro f s h hc hs hi hp hf
    rw [List.append_assoc] at h
    obtain ⟨q1, hne, s1, q2, q3⟩ := At.pass_comment (U := U) h2 h (fun e => h3 (hs ▸ e))
    rw [hc, h1] at q3
    simp only [Bool.false_eq_true, if_false] at q3
    have ha1 := Reads.after h q2 false
    have hmu : ({ s1 with insertSemi := false } : Scanner).mu < s.mu := q2.eat.steps.mu_lt h.sync (by
      rw [q2.pos]
      have := List.length_pos_iff.mpr hne
      omega)
    obtain ⟨f, rfl⟩ : ∃ k, f = k + 1 := ⟨f - 1, by omega⟩
    obtain ⟨s', e, ha⟩ := ih hR hx f _ ha1.at_ (by rw [ha1.mode]; exact hc) ha1.semi (by simp) (by rw [ha1.offset, hp]; simp; omega) (by omega)
    refine ⟨s', ?_, ?_⟩
    · simp only [scanLoop, skip_none q1, q3]
      exact e
    · refine ⟨ha.at_, ha.quiet.trans ha1.quiet, ha.mode.trans ha1.mode, by rw [ha.semi, ha1.mode], ?_⟩
      rw [ha.offset, ha1.offset]
      simp; omega

theorem scan_reads {U : Uni} {s : Scanner} {semi1 semi2 : Bool} {t : Token} {g x r : Str}
    (hg : Gap true s.mode.scanComments s.insertSemi g (x ++ r) semi1)
    (hx : TokText U true s.mode.scanComments semi1 t x r semi2) (h : At s (g ++ (x ++ r))) (hi : s.insertSemi = true → s.mode.insertSemis = true)
    (hp : t.pos = s.offset + g.length) : ∃ s', scan U s = (t, s') ∧ After s (g ++ x) r (semi2 && s.mode.insertSemis) s' :=
  scanLoop_reads hg rfl hx _ s h rfl rfl hi hp (by omega)

/-- A clean text with a token sequence: the scanner returns that sequence, without errors. -/
theorem lexes_run {U : Uni} {mode : Mode} {o : Nat} {txt : Str} {semi : Bool} {ts : List Token} (hl : Lexes U true mode o txt semi ts) :
    ∀ (s : Scanner), At s txt → s.mode = mode → s.offset = o → s.insertSemi = semi → (semi = true → mode.insertSemis = true) →
      ∃ s', Run U s ts s' ∧ s'.errs = s.errs ∧ s'.rest = [] := by
  induction hl with
  | eof h1 h2 =>
    intro s h hm ho hs hi
    subst hm ho hs
    obtain ⟨s', e, ha⟩ := scan_reads (U := U) (x := []) (r := []) h1 (.eof (p := _)) (by simpa using h) hi h2
    exact ⟨s', .eof e rfl, ha.quiet, ha.at_.rest⟩
  | cons h1 h2 h3 h4 _ ih =>
    intro s h hm ho hs hi
    subst hm ho hs
    obtain ⟨s1, e, ha⟩ := scan_reads (U := U) h2 h4 h hi h3
    obtain ⟨s', hr, hq, hrest⟩ := ih s1 ha.at_ ha.mode (by rw [ha.offset]; simp; omega) ha.semi (by
      intro e; simp only [Bool.and_eq_true] at e; exact e.2)
    exact ⟨s', .cons e h1 hr, hq.trans ha.quiet, hrest⟩

/-! ### Whole texts -/

theorem nextRune_first {src : Str} {rd : Nat} (h : rd < src.length) :
    (nextRune src rd 0).2.2 = none ↔ (decodeRune (src.drop rd)).1 ≠ 0 ∧ ¬ ((decodeRune (src.drop rd)).1 = RuneError ∧ (decodeRune (src.drop rd)).2 = 1) := by
  have hl : (src.drop rd).length = src.length - rd := List.length_drop
  unfold nextRune
  split
  · rename_i e; rw [e] at hl; simp at hl; omega
  · rename_i b t e
    rw [e]
    by_cases hz : b.toNat = 0
    · rw [if_pos hz, decodeRune_ascii (by omega)]
      simp [hz]
    · rw [if_neg hz]
      by_cases h8 : b.toNat ≥ 0x80
      · rw [if_pos h8]
        have hge := decodeRune_ge b t h8
        dsimp only
        by_cases h1 : (decodeRune (b :: t)).1 = RuneError ∧ (decodeRune (b :: t)).2 = 1
        · rw [if_pos h1]
          simp [h1]
        · rw [if_neg h1]
          have h2 : ¬ ((decodeRune (b :: t)).1 = 0xFEFF ∧ 0 > 0) := by omega
          rw [if_neg h2]
          simp only [true_iff]
          exact ⟨by omega, h1⟩
      · rw [if_neg h8, decodeRune_ascii (by omega)]
        simp only [true_iff]
        refine ⟨hz, ?_⟩
        simp only [RuneError]
        omega

theorem next_first {s : Scanner} (h0 : s.rdOffset = 0) :
    Quiet s s.next ↔ s.src = [] ∨ ((decodeRune s.src).1 ≠ 0 ∧ ¬ ((decodeRune s.src).1 = RuneError ∧ (decodeRune s.src).2 = 1)) := by
  unfold Quiet
  by_cases hlt : s.rdOffset < s.src.length
  · have hn := nextRune_first hlt
    rw [h0, List.drop_zero] at hn
    have hne : s.src ≠ [] := by intro e; rw [e] at hlt; simp at hlt
    simp only [hne, false_or]
    rw [← hn]
    unfold Scanner.next
    rw [if_pos hlt]
    have e1 : (s.nextLine s.rdOffset).src = s.src ∧ (s.nextLine s.rdOffset).rdOffset = s.rdOffset ∧ (s.nextLine s.rdOffset).offset = s.rdOffset ∧
        (s.nextLine s.rdOffset).errs = s.errs := by
      unfold nextLine
      split <;> simp [addLine]
    dsimp only
    rw [e1.1, e1.2.1, e1.2.2.1, h0]
    generalize nextRune _ _ _ = q
    obtain ⟨r, w, e⟩ := q
    have e2 : (s.nextLine 0).errs = s.errs := by rw [← h0]; exact e1.2.2.2
    cases e with
    | none => simp [e2]
    | some m =>
      simp only [reduceCtorEq, iff_false]
      show ¬ ((_, m) :: (s.nextLine 0).errs) = s.errs
      rw [e2]
      intro e
      have := congrArg List.length e
      simp at this
  · have e : s.src = [] := List.eq_nil_of_length_eq_zero (by omega)
    simp only [e, true_or, iff_true]
    unfold Scanner.next
    rw [if_neg hlt]
    unfold nextLine
    split <;> simp [addLine]

/-- `Init` reports an error exactly if the first character of the text is bad. -/
theorem init_errs (s0 : Scanner) (src : Str) (mode : Mode) : (init s0 src mode).errs = [] ↔ HeadOk (src.drop (bomLen src)) := by
  have hrest := init_rest s0 src mode
  revert hrest
  unfold init
  generalize hs : ({ s0 with
    src := src, mode := mode, lines := [0], errs := [],
    ch := 32, offset := 0, rdOffset := 0, lineOffset := 0, insertSemi := false,
    errorCount := 0 } : Scanner) = s
  intro hrest
  have h0 : s.rdOffset = 0 := by rw [← hs]
  have h1 : s.src = src := by rw [← hs]
  have h2 : s.errs = [] := by rw [← hs]
  have h := next_sync' (s := s) (by omega)
  have hr1 : s.next.rest = src := by
    unfold rest
    rw [h.2, h0, next_src, h1]; rfl
  have hhead := h.1.head
  rw [hr1] at hhead
  have hb : s.next.ch = 0xFEFF ↔ [0xEF, 0xBB, 0xBF] <+: src := by
    rw [hhead, ← decode_bom]
    unfold headRune
    split
    · rename_i e; subst e; simp [decodeRune, RuneError]
    · omega
  have hq := next_first h0
  unfold Quiet at hq
  rw [h1, h2] at hq
  by_cases hp : [0xEF, 0xBB, 0xBF] <+: src
  · simp only [hb.mpr hp, if_true] at hrest ⊢
    rw [← hrest, ← h.1.quiet_iff]
    have hd := (decode_bom src).mpr hp
    have hq' : s.next.errs = [] := by
      rw [hq]
      right
      rw [hd]
      simp only [RuneError]
      omega
    unfold Quiet
    rw [hq']
  · have hnb : ¬ s.next.ch = 0xFEFF := fun e => hp (hb.mp e)
    simp only [hnb, if_false] at hrest ⊢
    rw [hq, ← hrest, hr1]
    unfold HeadOk
    constructor
    · rintro (e | ⟨e1, e2⟩)
      · exact .inl e
      · exact .inr ⟨e1, fun e => hp ((decode_bom src).mp e), e2⟩
    · rintro (e | ⟨e1, _, e2⟩)
      · exact .inl e
      · exact .inr ⟨e1, e2⟩

theorem run_rest {U : Uni} {s s' : Scanner} {ts : List Token} (h : Run U s ts s') (hi : Inv s) : s'.rest = [] := by
  induction h with
  | eof h1 h2 =>
    obtain ⟨g, x, semi1, semi2, ho⟩ := scan_spec U hi
    rw [h1] at ho
    exact (tokText_eof (ho.text false (by simp)).2 h2).2.1
  | cons h1 h2 _ ih =>
    obtain ⟨g, x, semi1, semi2, ho⟩ := scan_spec U hi
    rw [h1] at ho
    exact ih (ho.inv hi)

/-- The token sequences of clean texts are those the scanner returns without errors. -/
theorem run_iff (U : Uni) (s0 : Scanner) (src : Str) (mode : Mode) (ts : List Token) :
    (∃ s', Run U (init s0 src mode) ts s' ∧ s'.errs = []) ↔
      Clean (src.drop (bomLen src)) ∧ Lexes U true mode (bomLen src) (src.drop (bomLen src)) false ts := by
  have hi := init_inv s0 src mode
  obtain ⟨f1, f2, f3, f4⟩ := init_fields s0 src mode
  have hr := init_rest s0 src mode
  have ho := init_offset s0 src mode
  constructor
  · rintro ⟨s', h, he⟩
    obtain ⟨hg, hi'⟩ := run_go h hi
    have he0 := clean_of_go hg he
    have hh := (init_errs s0 src mode).mp he0
    constructor
    · have := (hg.was_clean hi.sync (by rw [he, he0]) (by rw [hr]; exact hh)).2
      rw [hr] at this
      apply this
      rw [run_rest h hi]
      exact .nil
    · have := run_lexes h hi true (fun _ => he)
      rw [f2, f3, hr, ho] at this
      exact this
  · rintro ⟨hc, hl⟩
    obtain ⟨s', h1, h2, _⟩ := lexes_run hl (init s0 src mode) ⟨hi.sync, hc, hr⟩ f2 ho f3 (by simp)
    refine ⟨s', h1, ?_⟩
    rw [h2]
    exact (init_errs s0 src mode).mpr (clean_head hc)

end Scanner
end Tpl
