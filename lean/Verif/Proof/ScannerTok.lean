import Verif.Proof.ScannerRun

/-! Tokenize, end of input, line numbers and keywords. -/
namespace Tpl
namespace Scanner
open Spec

/-! ### end of input -/

theorem scan_eof_again (U : Uni) {s : Scanner} (h : Inv s) {t : Token} {s' : Scanner} (hs : scan U s = (t, s'))
    (hk : t.kind = EOF) : scan U s' = (t, s') := by
  obtain ⟨g, x, semi1, semi2, ho⟩ := scan_spec U h
  rw [hs] at ho
  obtain ⟨hg, ht⟩ := ho.text false (by simp)
  obtain ⟨rfl, hr, rfl, hl, hsemi2⟩ := tokText_eof ht hk
  have hi' := ho.inv h
  have hoff := ho.offset h
  have hpos := ho.pos
  dsimp only at hr hoff hpos hi'
  simp only [List.length_nil, Nat.add_zero] at hoff
  have hsemi := ho.semi
  rw [hsemi2] at hsemi
  simp only [Bool.false_and] at hsemi
  have hch : s'.ch = -1 := by
    rw [hi'.sync.head, hr]; rfl
  have hsk : s'.skipWhitespace = s' := skip_eq (by rw [hch]; rfl)
  rw [scan_unfold U hi', hsk, pass_eof U hch, hsemi, eof_next hi'.sync hch]
  obtain ⟨k, p, l⟩ := t
  obtain rfl : k = EOF := hk
  obtain rfl : l = [] := hl
  dsimp only at hpos ⊢
  simp only [Bool.false_eq_true, if_false]
  have hs2 : { s' with insertSemi := false } = s' := by rw [← hsemi]
  have hp : s'.offset = p := by omega
  rw [hs2, hp]
  split <;> rfl

theorem scans_eof (U : Uni) {s : Scanner} {t : Token} (hs : scan U s = (t, s)) :
    ∀ n, scans U n s = (List.replicate n t, s) := by
  intro n
  induction n with
  | zero => rfl
  | succ n ih => simp only [scans, hs, ih, List.replicate_succ]

/-! ### Tokenize -/

/-- The kind `AutoKwScanner` gives to a token. -/
def kwTok (kw : Str → Option Nat) (t : Token) : Token :=
  if t.kind = IDENT then
    match kw t.lit with
    | some k => { t with kind := k }
    | none => t
  else t

theorem kwScan_eq (U : Uni) (kw : Str → Option Nat) (s : Scanner) :
    kwScan U kw s = (kwTok kw (scan U s).1, (scan U s).2) := by
  unfold kwScan kwTok
  cases scan U s
  rename_i t s'
  dsimp only
  split
  · cases kw t.lit <;> rfl
  · rfl

theorem kwTok_eof {kw : Str → Option Nat} (hkw : ∀ w k, kw w = some k → k ≠ EOF) (t : Token) :
    (kwTok kw t).kind = EOF ↔ t.kind = EOF := by
  unfold kwTok
  split
  · rename_i h
    cases e : kw t.lit with
    | none => simp
    | some k =>
      simp only
      have := hkw _ _ e
      rw [h]
      constructor
      · intro e; exact absurd e this
      · intro e; exact absurd e (by decide)
  · rfl

theorem kwTok_noKw (t : Token) : kwTok noKw t = t := by
  unfold kwTok noKw
  split <;> rfl

theorem tokenizeLoop_ok {U : Uni} {kw : Str → Option Nat} (hkw : ∀ w k, kw w = some k → k ≠ EOF)
    {s s' : Scanner} {ts : List Token} (h : Run U s ts s') (hi : Inv s) (he : s'.errs = []) :
    ∀ f, ts.length ≤ f → tokenizeLoop U kw f s = (ts.dropLast.map (kwTok kw), none, s') := by
  induction h with
  | eof h1 h2 =>
    intro f hf
    cases f with
    | zero => simp at hf
    | succ f =>
      unfold tokenizeLoop
      rw [kwScan_eq, h1]
      dsimp only
      rw [he]
      dsimp only
      rw [if_pos ((kwTok_eof hkw _).mpr h2)]
      rfl
  | cons h1 h2 hr ih =>
    rename_i s t s1 ts s2
    intro f hf
    have hi1 : Inv s1 := by have := scan_inv U hi; rw [h1] at this; exact this
    have he1 : s1.errs = [] := clean_of_go (run_go hr hi1).1 he
    cases f with
    | zero => simp at hf
    | succ f =>
      unfold tokenizeLoop
      rw [kwScan_eq, h1]
      dsimp only
      rw [he1]
      dsimp only
      rw [if_neg (fun e => h2 ((kwTok_eof hkw _).mp e)), ih hi1 he f (by simpa using hf)]
      have hne : ts ≠ [] := by cases hr <;> simp
      rw [List.dropLast_cons_of_ne_nil hne]
      simp

theorem tokenizeLoop_err {U : Uni} {kw : Str → Option Nat} (hkw : ∀ w k, kw w = some k → k ≠ EOF)
    {s s' : Scanner} {ts : List Token} (h : Run U s ts s') (hi : Inv s) (he : s'.errs ≠ []) :
    ∀ f, ts.length ≤ f → ∃ us e s1, tokenizeLoop U kw f s = (us, some e, s1) ∧ us <+: ts.map (kwTok kw) ∧
      e ∈ s'.errs := by
  induction h with
  | eof h1 h2 =>
    intro f hf
    rename_i s t s'
    cases f with
    | zero => simp at hf
    | succ f =>
      unfold tokenizeLoop
      rw [kwScan_eq, h1]
      dsimp only
      cases hx : s'.errs with
      | nil => exact absurd hx he
      | cons e l => exact ⟨[], e, s', rfl, List.nil_prefix, by simp⟩
  | cons h1 h2 hr ih =>
    rename_i s t s1 ts s2
    intro f hf
    have hi1 : Inv s1 := by have := scan_inv U hi; rw [h1] at this; exact this
    cases f with
    | zero => simp at hf
    | succ f =>
      unfold tokenizeLoop
      rw [kwScan_eq, h1]
      dsimp only
      obtain ⟨l', hl'⟩ := (run_go hr hi1).1.errs
      cases hx : s1.errs with
      | cons e l => exact ⟨[], e, s1, rfl, List.nil_prefix, by rw [hl', hx]; simp⟩
      | nil =>
        dsimp only
        rw [if_neg (fun e => h2 ((kwTok_eof hkw _).mp e))]
        obtain ⟨us, e, s3, h3, h4, h5⟩ := ih hi1 he f (by simpa using hf)
        rw [h3]
        refine ⟨kwTok kw t :: us, e, s3, rfl, ?_, h5⟩
        simp only [List.map_cons]
        exact (List.cons_prefix_cons).mpr ⟨rfl, h4⟩

/-! ### line numbers -/

/-- The line table covers the text up to the current offset. -/
structure LInv (s : Scanner) : Prop where
  le : ∀ l ∈ s.lines, l ≤ s.offset
  ne : s.lines ≠ []
  line : ∀ p, p ≤ s.offset → p < s.src.length ∨ s.src.getLast? ≠ some 10 → s.line p = 1 + newlinesBefore s.src p

theorem filter_all_le {l : List Nat} {p : Nat} (h : ∀ x ∈ l, x ≤ p) : l.filter (· ≤ p) = l := by
  rw [List.filter_eq_self]
  intro a ha
  simpa using h a ha

theorem next_lines (s : Scanner) (h : Sync s) : s.next.lines =
    if s.ch = 10 then addLineTo s.lines s.rdOffset s.src.length else s.lines := by
  have hrd := h.rd_le
  unfold Scanner.next
  split
  · dsimp only
    generalize nextRune (s.nextLine s.rdOffset).src (s.nextLine s.rdOffset).rdOffset (s.nextLine s.rdOffset).offset = x
    obtain ⟨r, w, e⟩ := x
    have : (s.nextLine s.rdOffset).lines = if s.ch = 10 then addLineTo s.lines s.rdOffset s.src.length else s.lines := by
      unfold nextLine
      split <;> rfl
    cases e <;> simp [this]
  · rename_i hc
    have e : s.src.length = s.rdOffset := by omega
    dsimp only
    rw [← e]
    unfold nextLine
    split <;> rfl

theorem newlinesBefore_step {src : Str} {o : Nat} {u : Str} (h : ∀ b ∈ u, b ≠ 10) {r : Str}
    (hr : src.drop o = u ++ r) {p : Nat} (h1 : o ≤ p) (h2 : p ≤ o + u.length) :
    newlinesBefore src p = newlinesBefore src o := by
  unfold newlinesBefore
  have : src.take p = src.take o ++ (src.drop o).take (p - o) := by
    have := List.take_add (l := src) (i := o) (j := p - o)
    rw [show o + (p - o) = p by omega] at this
    exact this
  rw [this, List.count_append, hr, List.take_append_of_le_length (by omega)]
  have : List.count 10 (u.take (p - o)) = 0 := by
    rw [List.count_eq_zero]
    intro hm
    exact h _ (List.mem_of_mem_take hm) rfl
  omega

theorem LInv.next {s : Scanner} (hl : LInv s) (h : Sync s) : LInv s.next := by
  have hlines := next_lines s h
  have hoff := h.next_offset
  have hle := h.offset_le_next
  by_cases hE : s.ch < 0
  · -- end of input: nothing changes
    have hn := eof_next h (h.eof_ch hE)
    rw [hn]; exact hl
  have hlt : s.offset < s.src.length := by
    have := h.le
    have := h.eof_iff
    omega
  obtain ⟨u, hu, hne, hcase⟩ := h.rest_next (by omega)
  have hlen : s.next.offset = s.offset + u.length := by
    have h1 := h.rest_length
    have h2 := h.next.rest_length
    rw [hu] at h1
    rw [next_src] at h2
    simp only [List.length_append] at h1
    omega
  by_cases h10 : s.ch = 10
  · rw [if_pos h10] at hlines
    obtain ⟨b, rfl, hb⟩ : ∃ b : UInt8, u = [b] ∧ (b.toNat : Int) = 10 := by
      rcases hcase with ⟨_, b, e1, e2⟩ | ⟨h8, _⟩
      · exact ⟨b, e1, by omega⟩
      · omega
    have hb10 : b = 10 := toUInt8_eq (by rw [show (10 : UInt8).toNat = 10 from rfl]; omega)
    subst hb10
    simp only [List.length_singleton] at hlen
    have hcount : newlinesBefore s.src (s.offset + 1) = newlinesBefore s.src s.offset + 1 := by
      unfold newlinesBefore
      have := List.take_add (l := s.src) (i := s.offset) (j := 1)
      rw [this, List.count_append]
      unfold rest at hu
      rw [hu]
      simp
    by_cases hsz : s.rdOffset < s.src.length
    · have hl2 : s.next.lines = s.rdOffset :: s.lines := by
        rw [hlines]
        unfold addLineTo
        rw [if_pos hsz]
        cases hll : s.lines with
        | nil => exact absurd hll hl.ne
        | cons l ls =>
          dsimp only
          have := hl.le l (by rw [hll]; simp)
          rw [if_pos (by omega)]
      refine ⟨?_, by rw [hl2]; simp, ?_⟩
      · rw [hl2]
        intro l hm
        rcases List.mem_cons.mp hm with rfl | hm
        · omega
        · have := hl.le l hm; omega
      · intro p hp hcond
        rw [next_src] at hcond ⊢
        by_cases hpo : p ≤ s.offset
        · have h1 := hl.line p hpo hcond
          unfold Scanner.line at h1 ⊢
          rw [hl2]
          have : ¬ s.rdOffset ≤ p := by omega
          simp only [List.filter_cons, this, decide_false, Bool.false_eq_true, if_false]
          exact h1
        · have hpe : p = s.offset + 1 := by omega
          have h1 := hl.line s.offset (Nat.le_refl _) (.inl hlt)
          unfold Scanner.line at h1 ⊢
          rw [hl2, filter_all_le (by
            intro l hm
            rcases List.mem_cons.mp hm with rfl | hm
            · omega
            · have := hl.le l hm; omega)]
          rw [filter_all_le hl.le] at h1
          rw [hpe, hcount]
          simp only [List.length_cons]
          omega
    · have hl2 : s.next.lines = s.lines := by
        rw [hlines]
        unfold addLineTo
        rw [if_neg hsz]
      refine ⟨?_, by rw [hl2]; exact hl.ne, ?_⟩
      · rw [hl2]
        intro l hm
        have := hl.le l hm; omega
      · intro p hp hcond
        rw [next_src] at hcond ⊢
        have hrest : s.next.rest = [] := by
          have h2 := h.next.rest_length
          rw [next_src] at h2
          apply List.eq_nil_of_length_eq_zero
          omega
        rw [hrest] at hu
        have hlast : s.src.getLast? = some 10 := by
          unfold rest at hu
          have : s.src = s.src.take s.offset ++ [10] := by
            conv => lhs; rw [← List.take_append_drop s.offset s.src, hu]
            simp
          rw [this]; simp
        have hpl : p < s.src.length := by
          rcases hcond with h1 | h1
          · exact h1
          · exact absurd hlast h1
        have h1 := hl.line p (by omega) hcond
        unfold Scanner.line at h1 ⊢
        rw [hl2]; exact h1
  · rw [if_neg h10] at hlines
    refine ⟨?_, by rw [hlines]; exact hl.ne, ?_⟩
    · rw [hlines]
      intro l hm
      have := hl.le l hm; omega
    · intro p hp hcond
      rw [next_src] at hcond ⊢
      by_cases hpo : p ≤ s.offset
      · have h1 := hl.line p hpo hcond
        unfold Scanner.line at h1 ⊢
        rw [hlines]; exact h1
      · have h1 := hl.line s.offset (Nat.le_refl _) (.inl hlt)
        have hstep := newlinesBefore_step (src := s.src) (o := s.offset) (u := u) (r := s.next.rest) (by
          intro b hb e
          subst e
          rcases hcase with ⟨_, b', e1, e2⟩ | ⟨_, h8⟩
          · rw [e1] at hb
            simp only [List.mem_singleton] at hb
            subst hb
            exact h10 e2.symm
          · have := h8 _ hb
            revert this; decide) hu (p := p) (by omega) (by omega)
        rw [hstep]
        unfold Scanner.line at h1 ⊢
        rw [hlines, filter_all_le (by intro l hm; have := hl.le l hm; omega)]
        rw [filter_all_le hl.le] at h1
        exact h1

theorem Go.lines {s s' : Scanner} (h : Go s s') (hs : Sync s) (hl : LInv s) : LInv s' := by
  induction h with
  | refl => exact hl
  | next h ih => exact ih.next (h.sync hs)
  | error o m _ ih => exact ⟨ih.le, ih.ne, ih.line⟩
  | semi b _ ih => exact ⟨ih.le, ih.ne, ih.line⟩

theorem init_lines (s0 : Scanner) (src : Str) (mode : Mode) : LInv (init s0 src mode) := by
  unfold init
  generalize hs : ({ s0 with
    src := src, mode := mode, lines := [0], errs := [],
    ch := 32, offset := 0, rdOffset := 0, lineOffset := 0, insertSemi := false,
    errorCount := 0 } : Scanner) = s
  have h0 : s.rdOffset = 0 := by rw [← hs]
  have h1 : s.lines = [0] := by rw [← hs]
  have h2 : s.ch = 32 := by rw [← hs]
  have h := next_sync' (s := s) (by omega)
  have hln : s.next.lines = [0] := by
    have hnl : ∀ o, (s.nextLine o).lines = [0] := by
      intro o
      unfold nextLine
      rw [if_neg (by rw [h2]; decide)]
      exact h1
    unfold Scanner.next
    split
    · dsimp only
      generalize nextRune _ _ _ = x
      obtain ⟨r, w, e⟩ := x
      cases e <;> simp [hnl]
    · simp [hnl]
  have hl : LInv s.next := by
    refine ⟨?_, by rw [hln]; simp, ?_⟩
    · rw [hln, h.2]; simp
    · intro p hp _
      rw [h.2, h0] at hp
      obtain rfl : p = 0 := by omega
      unfold Scanner.line newlinesBefore
      rw [hln]
      rfl
  dsimp only
  split
  · exact hl.next h.1
  · exact hl

end Scanner

/-! ### keywords -/
namespace KwScanner

/-- A quoted word that is no built-in token name. -/
def Keyword (lit : Str) : Prop := (∃ w, lit = 34 :: (w ++ [34])) ∧ Lit2Token lit = ILLEGAL

/-- What can be done with an AutoKwScanner: `Init`, `Scan`, and `Ltot` of a
literal that is a complete quoted word or does not start with a quote. -/
inductive Step (U : Uni) : KwScanner → KwScanner → Prop
  | init (k src mode) : Step U k (k.init src mode)
  | scan (k) : Step U k (k.scan U).2
  | ltot {k lit t k'} : (∃ w, lit = 34 :: (w ++ [34])) ∨ lit.head? ≠ some 34 → k.ltot lit = .ok (t, k') → Step U k k'

/-- Any number of steps. -/
inductive Steps (U : Uni) : KwScanner → KwScanner → Prop
  | refl (k) : Steps U k k
  | step {a b c} : Steps U a b → Step U b c → Steps U a c

/-- The word in a quoted literal. -/
def word (lit : Str) : Str := lit.tail.dropLast

theorem word_quoted (w : Str) : word (34 :: (w ++ [34])) = w := by simp [word]

structure KInv (k : KwScanner) : Prop where
  nil : k.keywords = none → k.tokens = []
  quoted : ∀ lit ∈ k.tokens, Keyword lit
  get : ∀ w t, k.keywords.get w = some t → ∃ i lit, t = userTokenBegin + i ∧ k.tokens[i]? = some lit ∧ word lit = w
  put : ∀ (i : Nat) lit, k.tokens[i]? = some lit → k.keywords.get (word lit) = some (userTokenBegin + i)

theorem zero_inv : KInv zero := by
  refine ⟨fun _ => rfl, by simp [zero], ?_, by simp [zero]⟩
  intro w t h
  cases h

theorem init_inv {k : KwScanner} (h : KInv k) (src : Str) (mode : Mode) : KInv (k.init src mode) := by
  obtain ⟨h1, h2, h3, h4⟩ := h
  unfold init
  cases hk : k.keywords with
  | none =>
    have ht := h1 hk
    refine ⟨by simp, by simpa using h2, ?_, ?_⟩
    · intro w t e
      simp [KwMap.get] at e
    · intro i lit e
      rw [ht] at e; simp at e
  | some m =>
    rw [hk] at h3 h4
    exact ⟨by simp, h2, h3, h4⟩

theorem scan_inv (U : Uni) {k : KwScanner} (h : KInv k) : KInv (k.scan U).2 := by
  unfold scan
  exact ⟨h.nil, h.quoted, h.get, h.put⟩

theorem mem_of_lit {k : KwScanner} (h : KInv k) {i : Nat} {lit : Str} (e : k.tokens[i]? = some lit) : Keyword lit :=
  h.quoted lit (List.mem_of_getElem? e)

theorem word_inj {a b : Str} (ha : Keyword a) (hb : Keyword b) (h : word a = word b) : a = b := by
  obtain ⟨⟨u, rfl⟩, _⟩ := ha
  obtain ⟨⟨v, rfl⟩, _⟩ := hb
  rw [word_quoted, word_quoted] at h
  rw [h]

/-- `Ltot` of a keyword. -/
theorem ltot_keyword {k : KwScanner} {lit : Str} (h : Keyword lit) : k.ltot lit =
    match k.keywords.get (word lit) with
    | some t => .ok (t, k)
    | none =>
      match k.keywords with
      | none => .panic
      | some m => .ok (userTokenBegin + k.tokens.length,
          { k with keywords := some ((word lit, userTokenBegin + k.tokens.length) :: m), tokens := k.tokens ++ [lit] }) := by
  obtain ⟨⟨w, rfl⟩, hi⟩ := h
  unfold ltot
  simp only [hi, ne_eq, not_true_eq_false, if_false, if_true, word_quoted]
  rw [if_neg (by simp)]
  simp only [List.dropLast_concat]
  rfl

theorem ltot_other {k : KwScanner} {lit : Str} (h : Lit2Token lit ≠ ILLEGAL ∨ lit.head? ≠ some 34) {t : Nat}
    {k' : KwScanner} (e : k.ltot lit = .ok (t, k')) : k' = k ∧ t = Lit2Token lit := by
  unfold ltot at e
  by_cases h1 : Lit2Token lit ≠ ILLEGAL
  · dsimp only at e
    rw [if_pos h1] at e
    cases e
    exact ⟨rfl, rfl⟩
  · have h2 : lit.head? ≠ some 34 := by
      rcases h with h | h
      · exact absurd h h1
      · exact h
    dsimp only at e
    rw [if_neg h1] at e
    cases lit with
    | nil => cases e
    | cons c r =>
      simp only [List.head?_cons, Option.some.injEq, ne_eq] at h2
      dsimp only at e
      rw [if_neg h2] at e
      cases e
      exact ⟨rfl, rfl⟩

theorem ltot_inv {k : KwScanner} (h : KInv k) {lit : Str} (hq : (∃ w, lit = 34 :: (w ++ [34])) ∨ lit.head? ≠ some 34)
    {t : Nat} {k' : KwScanner} (e : k.ltot lit = .ok (t, k')) :
    KInv k' ∧ (∀ (i : Nat) l, k.tokens[i]? = some l → k'.tokens[i]? = some l) ∧
    (∀ w t, k.keywords.get w = some t → k'.keywords.get w = some t) := by
  by_cases hi : Lit2Token lit ≠ ILLEGAL ∨ lit.head? ≠ some 34
  · obtain ⟨rfl, _⟩ := ltot_other hi e
    exact ⟨h, fun _ _ e => e, fun _ _ e => e⟩
  have hi1 : Lit2Token lit = ILLEGAL := Classical.byContradiction fun c => hi (.inl c)
  have hi2 : lit.head? = some 34 := Classical.byContradiction fun c => hi (.inr c)
  have hkw : Keyword lit := by
    rcases hq with hq | hq
    · exact ⟨hq, hi1⟩
    · exact absurd hi2 hq
  rw [ltot_keyword hkw] at e
  cases hg : k.keywords.get (word lit) with
  | some t' =>
    rw [hg] at e
    cases e
    exact ⟨h, fun _ _ e => e, fun _ _ e => e⟩
  | none =>
    rw [hg] at e
    cases hm : k.keywords with
    | none => rw [hm] at e; cases e
    | some m =>
      rw [hm] at e hg
      cases e
      have hgetOld : ∀ w, w ≠ word lit → KwMap.get (some ((word lit, userTokenBegin + k.tokens.length) :: m)) w = KwMap.get (some m) w := by
        intro w hw
        unfold KwMap.get
        simp only [List.lookup_cons]
        have : (w == word lit) = false := by simpa using hw
        rw [this]
      have hgetNew : KwMap.get (some ((word lit, userTokenBegin + k.tokens.length) :: m)) (word lit) = some (userTokenBegin + k.tokens.length) := by
        unfold KwMap.get
        simp [List.lookup_cons]
      have hne : ∀ w t, KwMap.get (some m) w = some t → w ≠ word lit := by
        intro w t e1 e2
        subst e2
        rw [hg] at e1; cases e1
      refine ⟨⟨by simp, ?_, ?_, ?_⟩, ?_, ?_⟩
      · intro l hl
        simp only [List.mem_append, List.mem_singleton] at hl
        rcases hl with hl | rfl
        · exact h.quoted l hl
        · exact hkw
      · intro w t e
        by_cases hw : w = word lit
        · subst hw
          dsimp only at e
          rw [hgetNew] at e
          cases e
          exact ⟨k.tokens.length, lit, rfl, by simp, rfl⟩
        · dsimp only at e
          rw [hgetOld w hw] at e
          have := h.get w t (by rw [hm]; exact e)
          obtain ⟨i, l, e1, e2, e3⟩ := this
          refine ⟨i, l, e1, ?_, e3⟩
          dsimp only
          rw [List.getElem?_append_left (List.getElem?_eq_some_iff.mp e2).1]
          exact e2
      · intro i l e
        dsimp only at e ⊢
        by_cases hil : i < k.tokens.length
        · rw [List.getElem?_append_left hil] at e
          have := h.put i l e
          rw [hm] at this
          rw [hgetOld _ (hne _ _ this)]
          exact this
        · rw [List.getElem?_append_right (by omega)] at e
          have : i - k.tokens.length = 0 := by
            apply Classical.byContradiction
            intro hc
            rw [List.getElem?_eq_none (by simp; omega)] at e
            cases e
          rw [this] at e
          simp only [List.getElem?_cons_zero, Option.some.injEq] at e
          subst e
          rw [hgetNew]
          congr 1
          omega
      · intro i l e
        dsimp only
        rw [List.getElem?_append_left (List.getElem?_eq_some_iff.mp e).1]
        exact e
      · intro w t e
        dsimp only
        rw [hgetOld w (hne w t e)]
        exact e

theorem Step.inv {U : Uni} {k k' : KwScanner} (h : Step U k k') (hi : KInv k) :
    KInv k' ∧ (∀ (i : Nat) l, k.tokens[i]? = some l → k'.tokens[i]? = some l) ∧
    (∀ w t, k.keywords.get w = some t → k'.keywords.get w = some t) := by
  cases h with
  | init src mode =>
    refine ⟨init_inv hi src mode, fun _ _ e => e, ?_⟩
    intro w t e
    unfold KwScanner.init
    cases hk : k.keywords with
    | none => rw [hk] at e; cases e
    | some m => rw [hk] at e; exact e
  | scan => exact ⟨scan_inv U hi, fun _ _ e => e, fun _ _ e => e⟩
  | ltot hq e => exact ltot_inv hi hq e

theorem Steps.inv {U : Uni} {k k' : KwScanner} (h : Steps U k k') (hi : KInv k) :
    KInv k' ∧ (∀ (i : Nat) l, k.tokens[i]? = some l → k'.tokens[i]? = some l) ∧
    (∀ w t, k.keywords.get w = some t → k'.keywords.get w = some t) := by
  induction h with
  | refl => exact ⟨hi, fun _ _ e => e, fun _ _ e => e⟩
  | step _ h2 ih =>
    obtain ⟨a, b, c⟩ := ih
    obtain ⟨a', b', c'⟩ := h2.inv a
    exact ⟨a', fun i l e => b' i l (b i l e), fun w t e => c' w t (c w t e)⟩

/-- After `Ltot` of a keyword the table knows it. -/
theorem ltot_registered {k : KwScanner} (h : KInv k) {lit : Str} (hk : Keyword lit) {t : Nat} {k' : KwScanner}
    (e : k.ltot lit = .ok (t, k')) :
    ∃ i, t = userTokenBegin + i ∧ k'.tokens[i]? = some lit ∧ k'.keywords.get (word lit) = some t := by
  rw [ltot_keyword hk] at e
  cases hg : k.keywords.get (word lit) with
  | some t' =>
    rw [hg] at e
    cases e
    obtain ⟨i, l, e1, e2, e3⟩ := h.get _ _ hg
    have := word_inj (mem_of_lit h e2) hk e3
    subst this
    exact ⟨i, e1, e2, hg⟩
  | none =>
    rw [hg] at e
    cases hm : k.keywords with
    | none => rw [hm] at e; cases e
    | some m =>
      rw [hm] at e
      cases e
      refine ⟨k.tokens.length, rfl, by simp, ?_⟩
      unfold KwMap.get
      simp [List.lookup_cons]

end KwScanner
end Tpl
