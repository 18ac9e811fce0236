import Verif.Proof.ScannerOp

/-! One pass of `Scan`, and `Scan` itself, against the lexical specification. -/
namespace Tpl
namespace Scanner
open Spec

/-- A byte order mark that is the current character has been reported. -/
def BomInv (s : Scanner) : Prop := s.ch = 0xFEFF → s.errs ≠ []

theorem next_bom {s : Scanner} (h : Sync s) (h0 : 0 < s.rdOffset) : BomInv s.next := by
  intro hc
  unfold Scanner.next at hc ⊢
  by_cases h1 : s.rdOffset < s.src.length
  · rw [if_pos h1] at hc ⊢
    dsimp only at hc ⊢
    simp only [nextLine_src, nextLine_rdOffset, nextLine_offset] at hc ⊢
    have : (nextRune s.src s.rdOffset s.rdOffset).2.2 ≠ none := by
      revert hc
      unfold nextRune
      generalize s.src.drop s.rdOffset = l
      intro hc
      cases l with
      | nil => simp at hc
      | cons b t =>
        dsimp only at hc ⊢
        split
        · simp
        · rename_i hb0
          rw [if_neg hb0] at hc
          split
          · rename_i hb1
            rw [if_pos hb1] at hc
            split
            · simp
            · rename_i hne
              rw [if_neg hne] at hc
              split
              · simp
              · rename_i hne2
                rw [if_neg hne2] at hc
                dsimp only at hc
                exact absurd ⟨by omega, h0⟩ hne2
          · rename_i hb1
            rw [if_neg hb1] at hc
            dsimp only at hc
            omega
    generalize hx : (nextRune s.src s.rdOffset s.rdOffset).2.2 = e at this
    cases e with
    | none => exact absurd rfl this
    | some m => simp
  · rw [if_neg h1] at hc
    simp at hc

theorem Sync.rd_pos {s : Scanner} (h : Sync s) : 0 < s.rdOffset ∨ s.src = [] := by
  rw [h.rd]
  by_cases h1 : s.offset < s.src.length
  · have := peek_width h1; left; omega
  · rw [peek_eof (by omega)]
    have := h.le
    by_cases h2 : s.src = []
    · exact .inr h2
    · left
      have : 0 < s.src.length := List.length_pos_iff.mpr h2
      simp; omega

theorem Steps.bom {s s' : Scanner} (h : Steps s s') (hs : Sync s) (hb : BomInv s) : BomInv s' := by
  induction h with
  | refl => exact hb
  | next h ih =>
    rename_i s'
    have hs' := (h.sync hs).1
    rcases hs'.rd_pos with h1 | h1
    · exact next_bom hs' h1
    · intro hc
      have := next_out (s := s') (by rw [h1]; simp)
      rw [this.2.1] at hc
      omega
  | error o m _ ih => intro hc; simp

theorem quiet_of_clean {s s' : Scanner} (h : Steps s s') (hc : s'.errs = []) : Quiet s s' ∧ s.errs = [] := by
  obtain ⟨l, e⟩ := h.errs
  rw [hc] at e
  have := List.append_eq_nil_iff.mp e.symm
  exact ⟨by unfold Quiet; rw [hc, this.2], this.2⟩

theorem opInsertSemi_eq : ∀ p ∈ operators, opInsertSemi p.1 = endsStatement p.1 := by decide +kernel

/-- First characters of operators. -/
def opStarts : List UInt8 := [58, 46, 44, 59, 40, 41, 91, 93, 123, 125, 43, 45, 42, 47, 37, 94, 60, 62,
  61, 33, 38, 124, 63, 126, 64]

theorem opStarts_spec : ∀ p ∈ operators, ∃ b t, bytes p.2 = b :: t ∧ b ∈ opStarts := by
  have : operators.all (fun p => match bytes p.2 with | [] => false | b :: _ => opStarts.contains b) = true := by
    decide +kernel
  intro p hp
  have := List.all_eq_true.mp this p hp
  cases hb : bytes p.2 with
  | nil => rw [hb] at this; cases this
  | cons b t => rw [hb] at this; exact ⟨b, t, rfl, by simpa using this⟩

theorem scanOp_none {ch : Int} {s : Scanner} (h : scanOp ch s = none) : ∀ b ∈ opStarts, ch ≠ b.toNat := by
  intro b hb e
  subst e
  revert h
  have key : ∀ c : UInt8, c ∈ opStarts → scanOp c.toNat s ≠ none := by
    unfold opStarts
    simp only [List.forall_mem_cons]
    refine ⟨?_, ?_, ?_, ?_, ?_, ?_, ?_, ?_, ?_, ?_, ?_, ?_, ?_, ?_, ?_, ?_, ?_, ?_, ?_, ?_, ?_, ?_, ?_, ?_,
      ?_, by simp⟩ <;> simp [scanOp] <;> split <;> (try split) <;> simp
  exact key b hb

/-- What one pass of `Scan` guarantees. -/
def PassOk (U : Uni) (s : Scanner) : Pass × Scanner → Prop
  | (.token t semi, s') => ∃ x, Eat s x s' ∧ t.pos = s.offset ∧
      ∀ ok : Bool, (ok = true → s'.errs = []) → TokText U ok s.mode.scanComments s.insertSemi t x s'.rest semi
  | (.ret t, s') => ∃ x s1, Eat s x s1 ∧ s' = { s1 with insertSemi := false } ∧ t.pos = s.offset ∧
      ∀ ok : Bool, TokText U ok s.mode.scanComments s.insertSemi t x s'.rest false
  | (.again, s') => ∃ x s1, Eat s x s1 ∧ s' = { s1 with insertSemi := false } ∧ x ≠ [] ∧
      s.mode.scanComments = false ∧ (s.insertSemi = true → ¬ LineAhead s.rest ∧ ¬ CharNext 35 x) ∧
      ∀ ok : Bool, (ok = true → s'.errs = []) → CommentText ok x s'.rest

theorem numTok {U : Uni} {ok c semi : Bool} {k p : Nat} {x r : Str} (h : NumText ok k x r) :
    TokText U ok c semi ⟨k, p, x⟩ x r true := by
  rcases h with ⟨rfl, h⟩ | ⟨rfl, h, h'⟩ | ⟨rfl, h⟩
  · exact .int h
  · exact .float h h'
  · exact .imag h

theorem noToken_of {U : Uni} {s : Scanner} (h : Sync s) (h1 : ¬ isLetter U s.ch = true)
    (h2 : ¬ (48 ≤ s.ch ∧ s.ch ≤ 57)) (hsp : isSpace s.insertSemi s.ch = false)
    (h3 : ∀ c ∈ [10, 34, 39, 96, 35], s.ch ≠ c)
    (h4 : scanOp s.ch s.next = none) : NoToken U s.rest := by
  refine ⟨?_, ?_, ?_, ?_⟩
  · rw [← h.head, ← isLetter_iff]; exact h1
  · rw [h.decNext]; exact h2
  · intro c hc hn
    have hc80 : c.toNat < 0x80 := by
      clear hn
      revert c
      decide
    have e := (h.charNext c hc80).mp hn
    simp only [List.mem_cons, List.not_mem_nil, or_false] at hc
    unfold isSpace at hsp
    simp only [Bool.or_eq_false_iff, beq_eq_false_iff_ne, Bool.and_eq_false_iff] at hsp
    simp only [List.mem_cons, List.not_mem_nil, or_false, forall_eq_or_imp, forall_eq] at h3
    rcases hc with rfl | rfl | rfl | rfl | rfl | rfl | rfl | rfl
    · exact hsp.1.1.1 e
    · exact hsp.1.1.2 e
    · exact hsp.2 e
    · exact h3.1 e
    · exact h3.2.1 e
    · exact h3.2.2.1 e
    · exact h3.2.2.2.1 e
    · exact h3.2.2.2.2 e
  · intro k str hm hp
    obtain ⟨b, t, hb, hbs⟩ := opStarts_spec _ hm
    dsimp only at hb
    rw [hb] at hp
    obtain ⟨y, hy⟩ := hp
    have hb80 : b.toNat < 0x80 := by
      clear hb hy
      revert b
      decide
    have e := (h.charNext b hb80).mp ⟨t ++ y, by rw [← hy]; rfl⟩
    exact scanOp_none h4 b hbs e

theorem scanPass_spec (U : Uni) {s : Scanner} (h : Sync s) (hsp : isSpace s.insertSemi s.ch = false)
    (hbom : BomInv s) : PassOk U s (scanPass U s) := by
  unfold scanPass
  by_cases hL : isLetter U s.ch = true
  · -- identifier
    simp only [hL, if_true]
    obtain ⟨x, he, hl, hr, hn⟩ := scanIdentifier_spec U h
    refine ⟨x, he, rfl, ?_⟩
    intro ok _
    rw [hl]
    have hlet : Letter U (headRune s.rest) := by rw [← h.head]; exact (isLetter_iff U s.ch).mp hL
    refine .ident ?_ ?_ hr hn
    · intro e
      apply hn
      left
      have : s.rest = (scanIdentifier U s).2.rest := by rw [he.rest, e]; rfl
      rw [← this]; exact hlet
    · rw [← he.rest]; exact hlet
  simp only [hL]
  by_cases hD : 48 ≤ s.ch ∧ s.ch ≤ 57
  · -- number
    rw [if_neg (by simp), if_pos hD]
    obtain ⟨x, he, hl, hn⟩ := scanNumber_spec h hD
    refine ⟨x, he, rfl, ?_⟩
    intro ok hok
    rw [hl]
    exact numTok (hn ok (fun e => (quiet_of_clean he.steps (hok e)).1))
  rw [if_neg (by simp), if_neg hD]
  by_cases hE : s.ch = -1
  · -- end of text
    have hr := h.rest_eof (by omega)
    have he : Eat s [] s.next := by
      refine ⟨h, (Steps.refl s).next, ?_⟩
      have := h.next.rest_length
      have h2 := h.eof_iff.mp (by omega)
      have h3 := h.offset_le_next
      rw [next_src] at this
      rw [hr]
      have : s.next.rest = [] := List.eq_nil_of_length_eq_zero (by omega)
      rw [this]; rfl
    have hr' : s.next.rest = [] := by
      have := he.rest
      rw [hr] at this
      simpa using this.symm
    simp only [hE, if_true]
    by_cases hsm : s.insertSemi = true
    · have : s.next.insertSemi = true := by simpa using hsm
      simp only [this, if_true]
      refine ⟨[], s.next, he, rfl, rfl, ?_⟩
      intro ok
      have hr2 : ({ s.next with insertSemi := false } : Scanner).rest = [] := hr'
      rw [hr2, hsm]
      exact .semiAtEnd
    · have hsm' : s.insertSemi = false := by simpa using hsm
      have : s.next.insertSemi = false := by simpa using hsm
      simp only [this, Bool.false_eq_true, if_false]
      refine ⟨[], he, rfl, ?_⟩
      intro ok _
      rw [hr', hsm']
      exact .eof
  rw [if_neg hE]
  have hge := h.ge_neg1
  have h0 : 0 ≤ s.ch := by omega
  by_cases h10 : s.ch = 10
  · rw [if_pos h10]
    have he := h.eatAscii 10 (by decide) h10
    have hsm : s.insertSemi = true := by
      unfold isSpace at hsp
      simp [h10] at hsp
      exact hsp
    refine ⟨[10], s.next, he, rfl, rfl, ?_⟩
    intro ok
    rw [hsm]
    exact .newline
  rw [if_neg h10]
  by_cases h34 : s.ch = 34
  · rw [if_pos h34]
    obtain ⟨hst, x, he, hl, hc, hx⟩ := scanString_spec (h.eatAscii 34 (by decide) h34)
    refine ⟨x, he, rfl, ?_⟩
    intro ok hok
    rw [hl]
    exact .string hc (fun e => hx (quiet_of_clean hst (hok e)).1)
  rw [if_neg h34]
  by_cases h39 : s.ch = 39
  · rw [if_pos h39]
    obtain ⟨hst, x, he, hl, hc, hx⟩ := scanRune_spec (h.eatAscii 39 (by decide) h39)
    refine ⟨x, he, rfl, ?_⟩
    intro ok hok
    rw [hl]
    exact .char hc (fun e => hx (quiet_of_clean hst (hok e)).1)
  rw [if_neg h39]
  by_cases h96 : s.ch = 96
  · rw [if_pos h96]
    obtain ⟨hst, x, he, hl, hc, hx⟩ := scanRawString_spec (h.eatAscii 96 (by decide) h96)
    refine ⟨x, he, rfl, ?_⟩
    intro ok hok
    rw [hl]
    exact .raw hc (fun e => hx (quiet_of_clean hst (hok e)).1)
  rw [if_neg h96]
  by_cases h46 : s.ch = 46 ∧ 48 ≤ s.next.ch ∧ s.next.ch ≤ 57
  · rw [if_pos h46]
    obtain ⟨x, he, hl, hn⟩ := scanNumber_dot_spec (h.eatAscii 46 (by decide) h46.1) h46.2
    refine ⟨x, he, rfl, ?_⟩
    intro ok hok
    rw [hl]
    exact numTok (hn ok)
  rw [if_neg h46]
  by_cases h47 : s.ch = 47 ∧ (s.next.ch = 47 ∨ s.next.ch = 42)
  · rw [if_pos h47]
    have h1 := h.eatAscii 47 (by decide) h47.1
    -- the state after the look-ahead
    have key : ∀ r : Bool × Scanner, r = (if s.next.insertSemi = true then findLineEnd s.next else (false, s.next)) →
        Eat s [47] r.2 ∧ r.2.ch = s.next.ch ∧ (∃ l, r.2 = s.next.addErrs l) ∧
        (r.1 = true → s.insertSemi = true ∧ LineAhead s.rest) ∧
        (r.1 = false → s.insertSemi = true → ¬ LineAhead s.rest) := by
      intro r hr
      rw [next_insertSemi] at hr
      by_cases hsm : s.insertSemi = true
      · rw [if_pos hsm] at hr
        subst hr
        obtain ⟨l, hl⟩ := findLineEnd_state h1 h47.2 (by simpa using hsm)
        have hs := findLineEnd_spec h1 (by simpa using hsm)
        refine ⟨?_, by rw [hl]; rfl, ⟨l, hl⟩, ?_, ?_⟩
        · rw [hl]
          exact ⟨h, h1.steps.trans (addErrs_steps _ _), h1.rest⟩
        · intro e; exact ⟨hsm, hs.mp e⟩
        · intro e _ hA
          rw [hs.mpr hA] at e; cases e
      · rw [if_neg hsm] at hr
        subst hr
        refine ⟨h1, rfl, ⟨[], rfl⟩, by simp, ?_⟩
        intro _ e; exact absurd e hsm
    generalize hr : (if s.next.insertSemi = true then findLineEnd s.next else (false, s.next)) = r
    obtain ⟨hr1, hr2, ⟨l, hr3⟩, hr4, hr5⟩ := key r hr.symm
    obtain ⟨b, s1⟩ := r
    dsimp only at hr1 hr2 hr3 hr4 hr5 ⊢
    cases b with
    | true =>
      dsimp only
      obtain ⟨hsm, hA⟩ := hr4 rfl
      obtain ⟨l', c', o', r', e⟩ := next_flat (s := s) (by omega)
      have hrd : s.rdOffset = s.offset + 1 := by
        have := h1.offset
        rw [h.next_offset] at this
        simpa using this
      refine ⟨[], s.addErrs (l ++ l'), ⟨h, addErrs_steps _ _, rfl⟩, ?_, rfl, ?_⟩
      · rw [hr3, e]
        simp [addErrs, hrd, h47.1]; omega
      · intro ok
        rw [hsm]
        have hrr : ({ s1 with ch := 47, offset := s.offset, rdOffset := s.offset + 1, insertSemi := false } :
            Scanner).rest = s.rest := by
          show s1.src.drop s.offset = s.src.drop s.offset
          rw [hr1.steps.src]
        rw [hrr]
        exact .semiAtComment (.inl hA)
    | false =>
      dsimp only
      obtain ⟨hst, x, he, hl, h35, htk, hx⟩ := scanComment_spec hr1 (by rw [hr2]; exact h47.2)
      have hne : x ≠ [] := by intro e; simp [e] at htk
      have h35' : ¬ CharNext 35 x := by rintro ⟨t, rfl⟩; simp at h35
      have hmode : (scanComment s1).2.mode = s.mode := he.steps.mode
      rw [hmode]
      by_cases hcm : s.mode.scanComments = true
      · simp only [hcm, if_true]
        refine ⟨x, he, rfl, ?_⟩
        intro ok hok
        rw [hl]
        have := TokText.comment (U := U) (p := s.offset) hcm (hx ok (fun e => (quiet_of_clean hst (hok e)).1))
          (semi := s.insertSemi) (fun e => ⟨by rw [← he.rest]; exact hr5 rfl e, h35'⟩)
        rw [if_neg h35] at this
        exact this
      · have hcm' : s.mode.scanComments = false := by simpa using hcm
        simp only [hcm', Bool.false_eq_true, if_false]
        refine ⟨x, (scanComment s1).2, he, by rw [hmode], hne, hcm', fun e => ⟨hr5 rfl e, h35'⟩, ?_⟩
        intro ok hok
        exact hx ok (fun e => (quiet_of_clean hst (hok e)).1)
  rw [if_neg h47]
  by_cases h35 : s.ch = 35
  · rw [if_pos h35]
    have h1 := h.eatAscii 35 (by decide) h35
    rw [next_insertSemi]
    by_cases hsm : s.insertSemi = true
    · rw [if_pos hsm]
      obtain ⟨l', c', o', r', e⟩ := next_flat (s := s) (by omega)
      have hrd : s.rdOffset = s.offset + 1 := by
        have := h1.offset
        rw [h.next_offset] at this
        simpa using this
      refine ⟨[], s.addErrs l', ⟨h, addErrs_steps _ _, rfl⟩, ?_, rfl, ?_⟩
      · rw [e]
        simp [addErrs, hrd, h35]
      · intro ok
        rw [hsm]
        have hrr : ({ s.next with ch := 35, offset := s.offset, rdOffset := s.offset + 1, insertSemi := false } :
            Scanner).rest = s.rest := by
          show s.next.src.drop s.offset = s.src.drop s.offset
          rw [next_src]
        rw [hrr]
        exact .semiAtComment (.inr ((h.charNext 35 (by decide)).mpr h35))
    · rw [if_neg hsm]
      obtain ⟨x, he, hl, hc, hx⟩ := scanSharpComment_spec h1
      have hmode : (scanSharpComment s.next).2.mode = s.mode := he.steps.mode
      have hsm' : s.insertSemi = false := by simpa using hsm
      rw [hmode]
      have hx35 : x.head? = some 35 := by obtain ⟨t, rfl⟩ := hc; rfl
      by_cases hcm : s.mode.scanComments = true
      · rw [if_pos hcm]
        refine ⟨x, he, rfl, ?_⟩
        intro ok hok
        rw [hl]
        have := TokText.comment (U := U) (p := s.offset) hcm (hx ok)
          (semi := s.insertSemi) (fun e => absurd e hsm)
        rw [if_pos hx35] at this
        exact this
      · have hcm' : s.mode.scanComments = false := by simpa using hcm
        rw [if_neg hcm]
        refine ⟨x, (scanSharpComment s.next).2, he, ?_, ?_, hcm', fun e => absurd e hsm, ?_⟩
        · have : (scanSharpComment s.next).2.insertSemi = false := by rw [he.steps.insertSemi]; exact hsm'
          rw [← this]
        · intro e; rw [e] at hx35; simp at hx35
        · intro ok hok
          exact hx ok
  rw [if_neg h35]
  cases hop : scanOp s.ch s.next with
  | some q =>
    obtain ⟨k, s'⟩ := q
    dsimp only
    rcases scanOp_spec h hop with ⟨str, hm, he, hlong⟩ | ⟨hk, he, hn⟩
    · refine ⟨bytes str, he, rfl, ?_⟩
      intro ok _
      rw [opInsertSemi_eq _ hm]
      refine .op hm hlong ?_ ?_
      · rintro ⟨rfl, hcn⟩
        apply h47
        have hb : bytes str = [47] := by
          have : operators.all (fun p => p.1 != QUO || bytes p.2 == [47]) = true := by decide +kernel
          have := List.all_eq_true.mp this _ hm
          simpa using this
        rw [hb] at he
        have hch := h.head_of_rest (b := 47) (by decide) (by rw [he.rest]; rfl)
        have h1 := h.eatAscii 47 (by decide) hch
        have hrr : s.next.rest = s'.rest := by
          have := h1.rest
          rw [he.rest] at this
          simpa using this.symm
        refine ⟨hch, ?_⟩
        rw [← hrr] at hcn
        rcases hcn with hcn | hcn
        · exact .inl ((h1.sync.charNext 47 (by decide)).mp hcn)
        · exact .inr ((h1.sync.charNext 42 (by decide)).mp hcn)
      · rintro ⟨rfl, hcn⟩
        have hb : bytes str = [46] := by
          have : operators.all (fun p => p.1 != PERIOD || bytes p.2 == [46]) = true := by decide +kernel
          have := List.all_eq_true.mp this _ hm
          simpa using this
        rw [hb] at he
        have hch := h.head_of_rest (b := 46) (by decide) (by rw [he.rest]; rfl)
        have h1 := h.eatAscii 46 (by decide) hch
        have hrr : s.next.rest = s'.rest := by
          have := h1.rest
          rw [he.rest] at this
          simpa using this.symm
        rw [← hrr] at hcn
        rcases hcn with hcn | hcn
        · exact h46 ⟨hch, h1.sync.decNext.mp hcn⟩
        · have h2 := (h1.sync.charNext 46 (by decide)).mp hcn
          have h2' : s.next.ch = 46 := h2
          rw [show s.ch = 46 from hch] at hop
          simp only [scanOp, h2'] at hop
          revert hop
          simp only [show ¬ (46 : Int) = 58 by decide, if_false, if_true]
          split <;> (intro e; injection e with e; injection e with e; exact absurd e (by decide))
    · subst hk
      refine ⟨[46, 46], he, rfl, ?_⟩
      intro ok _
      exact .dots hn
  | none =>
    dsimp only
    obtain ⟨u, he, hne, hd, _⟩ := h.eatNext h0
    have hno := noToken_of h hL hD hsp (by
      intro c hc
      simp only [List.mem_cons, List.not_mem_nil, or_false] at hc
      rcases hc with rfl | rfl | rfl | rfl | rfl <;> assumption) hop
    have hse : (if s.ch ≠ 0xFEFF then s.next.error s.offset .illegalChar else s.next).insertSemi = s.insertSemi := by
      split <;> simp
    refine ⟨u, he.ite_error _ _, rfl, ?_⟩
    intro ok hok
    have hkf : ok = false := by
      cases ok with
      | false => rfl
      | true =>
        exfalso
        have hclean := hok rfl
        by_cases hF : s.ch = 0xFEFF
        · exact hbom hF (quiet_of_clean (he.ite_error _ _).steps hclean).2
        · rw [if_pos hF] at hclean
          simp at hclean
    rw [hse, ite_error_rest]
    have hch : s.ch.toNat = (decodeRune (u ++ s.next.rest)).1 := by
      have e := h.head
      rw [he.rest] at e
      unfold headRune at e
      rw [if_neg (by simp [hne])] at e
      rw [e]; simp
    rw [hch]
    rw [he.rest] at hd hno
    exact .illegal hkf hne hd hno

/-! ### `Scan` -/

/-- What `Scan` does to the scanner: `next`, errors, and setting `insertSemi`. -/
inductive Go : Scanner → Scanner → Prop
  | refl (s) : Go s s
  | next {s s'} : Go s s' → Go s s'.next
  | error {s s'} (o m) : Go s s' → Go s (s'.error o m)
  | semi {s s'} (b : Bool) : Go s s' → Go s { s' with insertSemi := b }

theorem Go.trans {a b c : Scanner} (h : Go a b) (h' : Go b c) : Go a c := by
  induction h' with
  | refl => exact h
  | next _ ih => exact ih.next
  | error o m _ ih => exact ih.error o m
  | semi b _ ih => exact ih.semi b

theorem Steps.go {s s' : Scanner} (h : Steps s s') : Go s s' := by
  induction h with
  | refl => exact .refl _
  | next _ ih => exact ih.next
  | error o m _ ih => exact ih.error o m

theorem Go.src {s s' : Scanner} (h : Go s s') : s'.src = s.src := by
  induction h <;> simp_all
theorem Go.mode {s s' : Scanner} (h : Go s s') : s'.mode = s.mode := by
  induction h <;> simp_all
theorem Go.bad {s s' : Scanner} (h : Go s s') : s'.bad = s.bad := by
  induction h <;> simp_all

theorem Go.errs {s s' : Scanner} (h : Go s s') : ∃ l, s'.errs = l ++ s.errs := by
  induction h with
  | refl => exact ⟨[], rfl⟩
  | next _ ih =>
    obtain ⟨l, e⟩ := ih
    obtain ⟨l', e'⟩ := next_errs _
    exact ⟨l' ++ l, by rw [e', e, List.append_assoc]⟩
  | error o m _ ih =>
    obtain ⟨l, e⟩ := ih
    exact ⟨(o, m) :: l, by simp [e]⟩
  | semi b _ ih => exact ih

theorem Go.count {s s' : Scanner} (h : Go s s') :
    s'.errorCount + s.errs.length = s.errorCount + s'.errs.length := by
  induction h with
  | refl => rfl
  | next _ ih => have := next_count ‹_›; omega
  | error o m _ ih => simp; omega
  | semi b _ ih => exact ih

theorem Sync.semi {s : Scanner} (h : Sync s) (b : Bool) : Sync { s with insertSemi := b } :=
  ⟨h.le, h.ch, h.rd⟩

theorem Go.sync {s s' : Scanner} (h : Go s s') (hs : Sync s) : Sync s' := by
  induction h with
  | refl => exact hs
  | next _ ih => exact ih.next
  | error o m _ ih => exact ih.error o m
  | semi b _ ih => exact ih.semi b

theorem Go.bom {s s' : Scanner} (h : Go s s') (hs : Sync s) (hb : BomInv s) : BomInv s' := by
  induction h with
  | refl => exact hb
  | next h ih => exact ((Steps.refl _).next).bom (h.sync hs) ih
  | error o m h ih => exact ((Steps.refl _).error o m).bom (h.sync hs) ih
  | semi b _ ih => exact ih

theorem clean_of_go {s s' : Scanner} (h : Go s s') (hc : s'.errs = []) : s.errs = [] := by
  obtain ⟨l, e⟩ := h.errs
  rw [hc] at e
  exact (List.append_eq_nil_iff.mp e.symm).2

theorem Steps.mu_lt {s s' : Scanner} (h : Steps s s') (hs : Sync s) (hne : s'.offset ≠ s.offset) :
    s'.mu < s.mu := by
  induction h with
  | refl => exact absurd rfl hne
  | next h ih =>
    rename_i s'
    by_cases e : s'.offset = s.offset
    · have hsy := (h.sync hs).1
      have h0 : 0 ≤ s'.ch := by
        apply Classical.byContradiction
        intro hc
        have h1 := hsy.eof_iff.mp (by omega)
        have h2 := hsy.offset_le_next
        have h3 := hsy.next.le
        rw [next_src] at h3
        exact hne (by omega)
      have := next_mu_lt h0
      have := h.mu
      omega
    · have := ih e
      have := next_mu_le s'
      omega
  | error o m _ ih => exact ih hne

/-- What `Scan` guarantees: the text between two states is a gap followed by
the text of the token. -/
structure ScanOk (U : Uni) (s : Scanner) (t : Token) (g x : Str) (semi1 semi2 : Bool) (s' : Scanner) : Prop where
  go : Go s s'
  rest : s.rest = g ++ (x ++ s'.rest)
  pos : t.pos = s.offset + g.length
  semi : s'.insertSemi = (semi2 && s.mode.insertSemis)
  text : ∀ ok : Bool, (ok = true → s'.errs = []) →
    Gap ok s.mode.scanComments s.insertSemi g (x ++ s'.rest) semi1 ∧
    TokText U ok s.mode.scanComments semi1 t x s'.rest semi2

theorem gap_spaces {ok c semi : Bool} {g r : Str} {semi' : Bool} (h : Gap ok c semi g r semi') :
    ∀ ws : Str, (∀ b ∈ ws, Space (!semi) b) → Gap ok c semi (ws ++ g) r semi' := by
  intro ws
  induction ws with
  | nil => intro _; exact h
  | cons b ws ih =>
    intro hs
    exact .space (hs b (by simp)) (ih (fun c hc => hs c (by simp [hc])))

theorem scanLoop_spec (U : Uni) : ∀ (f : Nat) (s : Scanner), Sync s → s.mu < f → BomInv s →
    (s.insertSemi = true → s.mode.insertSemis = true) →
    ∃ g x semi1 semi2, ScanOk U s (scanLoop U f s).1 g x semi1 semi2 (scanLoop U f s).2 := by
  intro f
  induction f with
  | zero => intro s _ hf; omega
  | succ f ih =>
    intro s h hf hbom hinv
    obtain ⟨ws, hew, hws, hns⟩ := skipWhitespace_spec h
    have hsemi := hew.steps.insertSemi
    have hmode := hew.steps.mode
    have hp := scanPass_spec U hew.sync (by rw [hsemi]; exact hns) (hew.steps.bom h hbom)
    simp only [scanLoop]
    generalize scanPass U s.skipWhitespace = q at hp
    obtain ⟨p, s'⟩ := q
    cases p with
    | token t semi =>
      obtain ⟨x, he, hpos, htx⟩ := hp
      dsimp only
      have hall := hew.trans he
      have hm' : s'.mode = s.mode := hall.steps.mode
      have hsf : (if s'.mode.insertSemis = true then { s' with insertSemi := semi } else s') =
          { s' with insertSemi := semi && s.mode.insertSemis } := by
        have hmm : s'.mode.insertSemis = s.mode.insertSemis := by rw [hm']
        cases hi : s.mode.insertSemis with
        | true => rw [hi] at hmm; rw [if_pos hmm]; simp
        | false =>
          rw [hi] at hmm
          rw [if_neg (by rw [hmm]; simp)]
          have : s'.insertSemi = false := by
            rw [hall.steps.insertSemi]
            cases hsx : s.insertSemi
            · rfl
            · rw [hinv hsx] at hi; cases hi
          simp only [Bool.and_false]
          rw [← this]
      rw [hsf]
      refine ⟨ws, x, s.insertSemi, semi, (hew.steps.trans he.steps).go.semi _, ?_, ?_, rfl, ?_⟩
      · rw [hew.rest, he.rest]; rfl
      · rw [hpos, hew.offset]
      · intro ok hok
        rw [hsemi, hmode] at htx
        refine ⟨?_, htx ok hok⟩
        have := gap_spaces (ok := ok) (c := s.mode.scanComments) (r := x ++ s'.rest) (.nil) ws hws
        rw [List.append_nil] at this
        exact this
    | ret t =>
      obtain ⟨x, s1, he, rfl, hpos, htx⟩ := hp
      dsimp only
      refine ⟨ws, x, s.insertSemi, false, (hew.steps.trans he.steps).go.semi _, ?_, ?_, by simp, ?_⟩
      · rw [hew.rest, he.rest]; rfl
      · rw [hpos, hew.offset]
      · intro ok hok
        rw [hsemi, hmode] at htx
        refine ⟨?_, htx ok⟩
        have := gap_spaces (ok := ok) (c := s.mode.scanComments) (r := x ++ s1.rest) (.nil) ws hws
        rw [List.append_nil] at this
        exact this
    | again =>
      obtain ⟨x, s1, he, rfl, hne, hcm, hla, htx⟩ := hp
      dsimp only
      have hall := hew.trans he
      have hmu : ({ s1 with insertSemi := false } : Scanner).mu < f := by
        have h1 := he.steps.mu_lt hew.sync (by
          rw [he.offset]
          have : 0 < x.length := List.length_pos_iff.mpr hne
          omega)
        have h2 := hew.steps.mu
        show s1.mu < f
        omega
      have hgo : Go s { s1 with insertSemi := false } := (hew.steps.trans he.steps).go.semi _
      have hm2 : ({ s1 with insertSemi := false } : Scanner).mode = s.mode := hall.steps.mode
      have hr2 : ({ s1 with insertSemi := false } : Scanner).rest = s1.rest := rfl
      have ho2 : ({ s1 with insertSemi := false } : Scanner).offset = s1.offset := rfl
      have hi2 : ({ s1 with insertSemi := false } : Scanner).insertSemi = false := rfl
      have hs2 := he.sync.semi false
      generalize ({ s1 with insertSemi := false } : Scanner) = s2 at *
      obtain ⟨g, y, semi1, semi2, ho⟩ := ih s2 hs2 hmu (hgo.bom h hbom) (by simp [hi2])
      have hr1 : s1.rest = g ++ (y ++ (scanLoop U f s2).2.rest) := by rw [← hr2]; exact ho.rest
      refine ⟨ws ++ (x ++ g), y, semi1, semi2, hgo.trans ho.go, ?_, ?_, ?_, ?_⟩
      · rw [hew.rest, he.rest, hr1]
        simp
      · rw [ho.pos, ho2, he.offset, hew.offset]
        simp; omega
      · rw [ho.semi, hm2]
      · intro ok hok
        obtain ⟨hg, ht⟩ := ho.text ok hok
        rw [hm2] at ht hg
        rw [hi2] at hg
        refine ⟨gap_spaces ?_ ws hws, ht⟩
        rw [hsemi] at hla
        rw [hmode] at hcm
        refine .comment hcm ?_ ?_ hg
        · rw [← hr1, ← hr2]
          exact htx ok (fun e => clean_of_go ho.go (hok e))
        · intro e
          rw [← hr1, ← he.rest]
          exact hla e

/-- States between calls of `Scan`. -/
structure Inv (s : Scanner) : Prop where
  sync : Sync s
  bom : BomInv s
  semi : s.insertSemi = true → s.mode.insertSemis = true

theorem scan_spec (U : Uni) {s : Scanner} (h : Inv s) :
    ∃ g x semi1 semi2, ScanOk U s (scan U s).1 g x semi1 semi2 (scan U s).2 :=
  scanLoop_spec U (s.mu + 1) s h.sync (by omega) h.bom h.semi

theorem ScanOk.inv {U s t g x semi1 semi2 s'} (h : ScanOk U s t g x semi1 semi2 s') (hi : Inv s) : Inv s' :=
  ⟨h.go.sync hi.sync, h.go.bom hi.sync hi.bom, by
    rw [h.semi, h.go.mode]
    intro e
    simp only [Bool.and_eq_true] at e
    exact e.2⟩

theorem ScanOk.offset {U s t g x semi1 semi2 s'} (h : ScanOk U s t g x semi1 semi2 s') (hi : Inv s) :
    s'.offset = s.offset + g.length + x.length := by
  have h1 := hi.sync.rest_length
  have h2 := (h.inv hi).sync.rest_length
  rw [h.go.src] at h2
  rw [h.rest] at h1
  simp at h1
  omega

theorem scan_inv (U : Uni) {s : Scanner} (h : Inv s) : Inv (scan U s).2 := by
  obtain ⟨g, x, a, b, ho⟩ := scan_spec U h
  exact ho.inv h

/-- `Init`. -/
theorem init_sync (s0 : Scanner) (src : Str) (mode : Mode) : Sync (init s0 src mode) := by
  unfold init
  dsimp only
  have h := (next_sync' (s := { s0 with
    src := src, mode := mode, lines := [0], errs := [],
    ch := 32, offset := 0, rdOffset := 0, lineOffset := 0, insertSemi := false,
    errorCount := 0 }) (by simp)).1
  split
  · exact h.next
  · exact h

theorem init_inv (s0 : Scanner) (src : Str) (mode : Mode) : Inv (init s0 src mode) := by
  refine ⟨init_sync s0 src mode, ?_, ?_⟩
  · unfold init
    dsimp only
    have h := next_sync' (s := { s0 with
      src := src, mode := mode, lines := [0], errs := [],
      ch := 32, offset := 0, rdOffset := 0, lineOffset := 0, insertSemi := false,
      errorCount := 0 }) (by simp)
    split
    · rename_i hc
      rcases h.1.rd_pos with h1 | h1
      · exact next_bom h.1 h1
      · exfalso
        simp only [next_src] at h1
        subst h1
        rw [h.1.ch] at hc
        simp [peek] at hc
    · rename_i hc
      intro e; exact absurd e hc
  · unfold init
    dsimp only
    split <;> simp

end Scanner
end Tpl
