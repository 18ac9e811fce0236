import Verif.Proof.ScannerView
import Verif.Props.Token

/-! C03–C21: the scanner and the tokenizer.

`Run U (Scanner.init s0 src mode) ts s'` says that `Init` followed by calls of
`Scan` up to EOF returns the tokens `ts` (the last one is EOF) and ends in `s'`.
`s0` is the state of the scanner before `Init`. -/
namespace Tpl.Props
open Tpl Tpl.Spec Tpl.Scanner

/-- No letters or digits above 0x7f: enough for the examples. -/
def ascii : Uni := ⟨fun _ => false, fun _ => false⟩
def plain : Mode := ⟨false, false⟩
def withSemis : Mode := ⟨false, true⟩
def withComments : Mode := ⟨true, false⟩

theorem run_lexes_init {U : Uni} {s0 s' : Scanner} {src : Str} {mode : Mode} {ts : List Token}
    (h : Run U (Scanner.init s0 src mode) ts s') (ok : Bool) (hok : ok = true → s'.errs = []) :
    Lexes U ok mode (bomLen src) (src.drop (bomLen src)) false ts := by
  have := run_lexes h (init_inv s0 src mode) ok hok
  obtain ⟨_, h2, h3, _⟩ := init_fields s0 src mode
  rwa [h2, h3, init_offset, init_rest] at this

theorem bomLen_le (src : Str) : bomLen src ≤ src.length := by
  unfold bomLen
  split
  · rename_i h
    have : [0xEF, 0xBB, 0xBF] <+: src := by simpa using h
    have := this.length_le
    simpa using this
  · exact Nat.zero_le _

/-- What a token was read from. -/
theorem run_mem {U : Uni} {s0 s' : Scanner} {src : Str} {mode : Mode} {ts : List Token}
    (h : Run U (Scanner.init s0 src mode) ts s') (ok : Bool) (hok : ok = true → s'.errs = []) {t : Token} (ht : t ∈ ts) :
    ∃ x r semi1 semi2, src.drop t.pos = x ++ r ∧ TokText U ok mode.scanComments semi1 t x r semi2 ∧
      (semi1 = true → mode.insertSemis = true) := by
  obtain ⟨pre, x, r, s1, s2, h1, h2, h3, h4⟩ := lexes_mem (run_lexes_init h ok hok) ht
  refine ⟨x, r, s1, s2, ?_, h3, fun h => by simpa using h4 h⟩
  rw [h2, ← List.drop_drop, h1, List.drop_left]

/-! ### C03 -/

/-- C03: scanning reaches EOF after at most two calls per source byte plus two. -/
theorem C03_terminates (U : Uni) (s0 : Scanner) (src : Str) (mode : Mode) :
    ∃ ts s', Run U (Scanner.init s0 src mode) ts s' ∧ ts.length ≤ 2 * src.length + 2 := by
  obtain ⟨ts, s', h, hl⟩ := run_exists U _ _ (Nat.lt_succ_self _) (init_inv s0 src mode)
  have := init_phi s0 src mode
  exact ⟨ts, s', h, by omega⟩

/-- C03: every single call returns: the loop of `Scan` (the `goto redo` of
skipped comments) satisfies its own recursion equation in every state reachable
from `Init`, whatever number of calls came before, and any larger bound on the
number of its iterations gives the same result. -/
theorem C03_scan_returns (U : Uni) (s0 : Scanner) (src : Str) (mode : Mode) (n : Nat) :
    let s := (scans U n (Scanner.init s0 src mode)).2
    (∀ fuel, s.mu < fuel → Scanner.scanLoop U fuel s = Scanner.scan U s) ∧
    Scanner.scan U s = match Scanner.scanPass U s.skipWhitespace with
      | (.token t semi, s) => (t, if s.mode.insertSemis then { s with insertSemi := semi } else s)
      | (.ret t, s) => (t, s)
      | (.again, s) => Scanner.scan U s := by
  have hi : ∀ (n : Nat) (s : Scanner), Inv s → Inv (scans U n s).2 := by
    intro n
    induction n with
    | zero => intro s h; exact h
    | succ n ih =>
      intro s h
      have := ih _ (Scanner.scan_inv U h)
      simpa [scans] using this
  have h := hi n _ (init_inv s0 src mode)
  exact ⟨fun fuel hf => scanLoop_fuel U fuel _ _ h hf (Nat.lt_succ_self _), scan_unfold U h⟩

/-- The sequence of tokens is determined by the source. -/
theorem C03_unique (U : Uni) (s : Scanner) (ts ts' : List Token) (e e' : Scanner)
    (h : Run U s ts e) (h' : Run U s ts' e') : ts = ts' ∧ e = e' := h.functional h'

/-! ### C04, C05, C06 -/

/-- C04: the tokens occupy intervals of the source that follow each other, and
each token is read from its interval. -/
theorem C04_ordered (U : Uni) (s0 s' : Scanner) (src : Str) (mode : Mode) (ts : List Token)
    (h : Run U (Scanner.init s0 src mode) ts s') :
    ∃ l : List (Token × Nat), l.map (·.1) = ts ∧ InOrder (bomLen src) l ∧
      ∀ q ∈ l, q.2 ≤ src.length ∧ ∃ x r, src.drop q.1.pos = x ++ r ∧ q.2 = q.1.pos + x.length ∧
        ReadFrom U mode.scanComments q.1 x r :=
  lexes_order (run_lexes_init h false (by simp)) rfl (bomLen_le src)

/-- C04: positions never decrease and stay inside the source. -/
theorem C04_positions (U : Uni) (s0 s' : Scanner) (src : Str) (mode : Mode) (ts : List Token)
    (h : Run U (Scanner.init s0 src mode) ts s') :
    ts.Pairwise (fun a b => a.pos ≤ b.pos) ∧ ∀ t ∈ ts, t.pos ≤ src.length := by
  obtain ⟨l, rfl, h2, h3⟩ := C04_ordered U s0 s' src mode ts h
  refine ⟨(inOrder_pairwise h2).2, ?_⟩
  intro t ht
  obtain ⟨q, hq, rfl⟩ := List.mem_map.mp ht
  obtain ⟨h4, x, r, _, h5, _⟩ := h3 q hq
  omega

/-- C05: literals are source text. -/
theorem C05_verbatim (U : Uni) (s0 s' : Scanner) (src : Str) (mode : Mode) (ts : List Token)
    (h : Run U (Scanner.init s0 src mode) ts s') (t : Token) (ht : t ∈ ts)
    (hk : t.kind ∈ [IDENT, INT, FLOAT, IMAG, CHAR, STRING]) :
    t.lit <+: src.drop t.pos ∨
      (t.kind = STRING ∧ ∃ x, x <+: src.drop t.pos ∧ x.head? = some 96 ∧ t.lit = x.filter (· ≠ 13)) := by
  obtain ⟨x, r, s1, s2, h1, h2, _⟩ := run_mem h false (by simp) ht
  rw [h1]
  cases h2 with
  | ident | int | float | imag | char | string => exact .inl (List.prefix_append _ _)
  | raw hc =>
    refine .inr ⟨rfl, x, List.prefix_append _ _, ?_, rfl⟩
    obtain ⟨_, rfl⟩ := hc
    rfl
  | op hop => exact absurd hk (operators_ne _ hop).2.2.2.2
  | _ => exact absurd hk (by simp only []; decide)

/-- C05: the literal is the *whole* text the token is read from (Spec/Lexical says how far
that goes), up to the removed carriage returns. -/
theorem C05_whole (U : Uni) (s0 s' : Scanner) (src : Str) (mode : Mode) (ts : List Token)
    (h : Run U (Scanner.init s0 src mode) ts s') (t : Token) (ht : t ∈ ts)
    (hk : t.kind ∈ [IDENT, INT, FLOAT, IMAG, CHAR, STRING]) :
    ∃ x r, src.drop t.pos = x ++ r ∧ ReadFrom U mode.scanComments t x r ∧
      (t.lit = x ∨ (t.kind = STRING ∧ x.head? = some 96 ∧ t.lit = x.filter (· ≠ 13))) := by
  obtain ⟨x, r, s1, s2, h1, h2, _⟩ := run_mem h false (by simp) ht
  refine ⟨x, r, h1, ⟨s1, s2, h2⟩, ?_⟩
  cases h2 with
  | ident | int | float | imag | char | string => exact .inl rfl
  | raw hc =>
    refine .inr ⟨rfl, ?_, rfl⟩
    obtain ⟨_, rfl⟩ := hc
    rfl
  | op hop => exact absurd hk (operators_ne _ hop).2.2.2.2
  | _ => exact absurd hk (by simp only []; decide)

/-- C05: COMMENT literals are source text up to removed carriage returns, and
are complete comments. -/
theorem C05_comment (U : Uni) (s0 s' : Scanner) (src : Str) (mode : Mode) (ts : List Token)
    (h : Run U (Scanner.init s0 src mode) ts s') (t : Token) (ht : t ∈ ts) (hk : t.kind = COMMENT) :
    ∃ x r, src.drop t.pos = x ++ r ∧ CommentText false x r ∧ (t.lit = x ∨ t.lit = x.filter (· ≠ 13)) := by
  obtain ⟨x, r, s1, s2, h1, h2, _⟩ := run_mem h false (by simp) ht
  cases h2 with
  | comment _ hc =>
    refine ⟨x, r, h1, hc, ?_⟩
    dsimp only
    split
    · exact .inl rfl
    · exact .inr rfl
  | op hop => exact absurd hk (operators_ne _ hop).2.1
  | _ => exact absurd hk (by simp only []; decide)

/-- C06: the source (after a byte order mark) is a sequence of gaps and token
texts; the gaps are white space and, if comments are skipped, comments. -/
theorem C06_nothing_lost (U : Uni) (s0 s' : Scanner) (src : Str) (mode : Mode) (ts : List Token)
    (h : Run U (Scanner.init s0 src mode) ts s') :
    ∃ parts : List (Str × Str × Token), parts.map (·.2.2) = ts ∧
      src.drop (bomLen src) = (parts.map (fun p => p.1 ++ p.2.1)).flatten ∧
      (∀ p ∈ parts, Blank mode.scanComments p.1 ∧
        ∃ r, ReadFrom U mode.scanComments p.2.2 p.2.1 r ∧ (p.2.1 ++ r) <:+ src.drop (bomLen src)) ∧
      (∀ l p l', parts = l ++ p :: l' →
        p.2.2.pos = bomLen src + (l.map (fun p => p.1 ++ p.2.1)).flatten.length + p.1.length) :=
  lexes_parts (run_lexes_init h false (by simp))

/-- C06: the whole token sequence follows the lexical grammar. -/
theorem C06_lexical_grammar (U : Uni) (s0 s' : Scanner) (src : Str) (mode : Mode) (ts : List Token)
    (h : Run U (Scanner.init s0 src mode) ts s') :
    Lexes U false mode (bomLen src) (src.drop (bomLen src)) false ts ∧
    (s'.errs = [] → Lexes U true mode (bomLen src) (src.drop (bomLen src)) false ts) :=
  ⟨run_lexes_init h false (by simp), fun he => run_lexes_init h true (fun _ => he)⟩

/-! ### C07 -/

theorem run_last {U : Uni} {s s' : Scanner} {ts : List Token} (h : Run U s ts s') (hi : Inv s) :
    ∃ t, ts.getLast? = some t ∧ t.kind = EOF ∧ Scanner.scan U s' = (t, s') := by
  induction h with
  | eof hs hk => exact ⟨_, rfl, hk, scan_eof_again U hi hs hk⟩
  | cons hs hk hr ih =>
    have hi' := Scanner.scan_inv U hi
    rw [hs] at hi'
    obtain ⟨t, h1, h2⟩ := ih hi'
    refine ⟨t, ?_, h2⟩
    rw [List.getLast?_cons]
    rw [h1]
    rfl

/-- C07: after EOF any number of further calls return the same EOF token and
leave the scanner as it is. -/
theorem C07_eof_sticky (U : Uni) (s0 s' : Scanner) (src : Str) (mode : Mode) (ts : List Token)
    (h : Run U (Scanner.init s0 src mode) ts s') :
    ∃ t, ts.getLast? = some t ∧ t.kind = EOF ∧ ∀ n, scans U n s' = (List.replicate n t, s') := by
  obtain ⟨t, h1, h2, h3⟩ := run_last h (init_inv s0 src mode)
  exact ⟨t, h1, h2, scans_eof U h3⟩

/-! ### C08, C09 -/

theorem next_same {a b : Scanner} (h : Same a b) : Same a.next b.next := Same.next h

theorem init_same (s0 s1 : Scanner) (src : Str) (m m' : Mode) :
    Same (Scanner.init s0 src m) (Scanner.init s1 src m') := by
  unfold Scanner.init
  dsimp only
  have h : Same (Scanner.next { s0 with
      src := src, mode := m, lines := [0], errs := [],
      ch := 32, offset := 0, rdOffset := 0, lineOffset := 0, insertSemi := false,
      errorCount := 0 }) (Scanner.next { s1 with
      src := src, mode := m', lines := [0], errs := [],
      ch := 32, offset := 0, rdOffset := 0, lineOffset := 0, insertSemi := false,
      errorCount := 0 }) := Same.next ⟨rfl, rfl, rfl, rfl⟩
  rw [h.ch]
  split
  · exact h.next
  · exact h

/-- C08: deleting the automatic semicolons gives the tokens of the mode without InsertSemis. -/
theorem C08_erase_semis (U : Uni) (s0 s1 s' : Scanner) (src : Str) (comments : Bool) (ts : List Token)
    (h : Run U (Scanner.init s0 src ⟨comments, true⟩) ts s') :
    ∃ s'', Run U (Scanner.init s1 src ⟨comments, false⟩) (ts.filter (fun t => decide (¬ Automatic t))) s'' := by
  have r8 : R8 (Scanner.init s0 src ⟨comments, true⟩) (Scanner.init s1 src ⟨comments, false⟩) := by
    refine ⟨init_inv .., init_inv .., init_same .., ?_, ?_, ?_⟩ <;> simp [(init_fields _ _ _).2.1]
  obtain ⟨e, he⟩ := erase_semis U r8 h
  refine ⟨e, ?_⟩
  have : (fun t => decide (¬ Automatic t)) = (fun t => !isAuto t) := by
    funext t
    unfold isAuto Automatic
    by_cases h1 : t.kind = SEMICOLON <;> by_cases h2 : t.lit = [10] <;> simp [h1, h2]
  rw [this]
  exact he

/-- C09: deleting the COMMENT tokens gives the tokens of the mode without ScanComments. -/
theorem C09_erase_comments (U : Uni) (s0 s1 s' : Scanner) (src : Str) (semis : Bool) (ts : List Token)
    (h : Run U (Scanner.init s0 src ⟨true, semis⟩) ts s') :
    ∃ s'', Run U (Scanner.init s1 src ⟨false, semis⟩) (ts.filter (fun t => t.kind != COMMENT)) s'' := by
  have r9 : R9 (Scanner.init s0 src ⟨true, semis⟩) (Scanner.init s1 src ⟨false, semis⟩) := by
    refine ⟨init_inv .., init_inv .., init_same .., ?_, ?_, ?_, ?_⟩ <;>
      simp [(init_fields _ _ _).2.1, (init_fields _ _ _).2.2.1]
  exact erase_comments U r9 h

/-! ### C10, C11 -/

/-- C10: without InsertSemis a SEMICOLON token stands for a `;`. -/
theorem C10_no_invented_semis (U : Uni) (s0 s' : Scanner) (src : Str) (mode : Mode) (hm : mode.insertSemis = false)
    (ts : List Token) (h : Run U (Scanner.init s0 src mode) ts s') (t : Token) (ht : t ∈ ts) (hk : t.kind = SEMICOLON) :
    t.lit = [59] ∧ src[t.pos]? = some 59 := by
  obtain ⟨x, r, s1, s2, h1, h2, h3⟩ := run_mem h false (by simp) ht
  have h3 : s1 = false := by
    cases s1
    · rfl
    · have := h3 rfl; rw [hm] at this; cases this
  subst h3
  generalize hb : false = b at h2
  have hget : ∀ b z, src.drop t.pos = b :: z → src[t.pos]? = some b := by
    intro b z hz
    have := congrArg (·[0]?) hz
    simpa using this
  cases h2 with
  | op hop =>
    rename_i k s
    dsimp only at hk
    subst hk
    have : ∀ p ∈ operators, p.1 = SEMICOLON → p.2 = ";" := by decide +kernel
    have hs := this _ hop rfl
    dsimp only at hs
    subst hs
    refine ⟨by simp, ?_⟩
    exact hget 59 r h1
  | newline => cases hb
  | semiAtComment => cases hb
  | semiAtEnd => cases hb
  | _ => simp only [] at hk; first | exact absurd hk (by decide) | (injection hk with hk; cases hk)

/-- C11: an automatic semicolon directly follows a token that can end a statement
and stands at a newline, a comment or the end.  (For texts that scan with errors
the preceding token can also be ILLEGAL.) -/
theorem C11_after_operand (U : Uni) (s0 s' : Scanner) (src : Str) (mode : Mode) (l1 l2 : List Token) (t : Token)
    (h : Run U (Scanner.init s0 src mode) (l1 ++ t :: l2) s') (ha : Automatic t) :
    (∃ l0 t0, l1 = l0 ++ [t0] ∧ (endsStatement t0.kind = true ∨ (t0.kind = ILLEGAL ∧ s'.errs ≠ []))) ∧
    (src[t.pos]? = some 10 ∨ [47, 47] <+: src.drop t.pos ∨ [47, 42] <+: src.drop t.pos ∨
      src[t.pos]? = some 35 ∨ t.pos = src.length) := by
  constructor
  · by_cases he : s'.errs = []
    · rcases lexes_auto (run_lexes_init h true (fun _ => he)) rfl ha with ⟨_, h⟩ | ⟨l0, t0, e, h, _⟩
      · cases h
      · refine ⟨l0, t0, e, ?_⟩
        rcases h with h | ⟨_, h⟩
        · exact .inl h
        · cases h
    · rcases lexes_auto (run_lexes_init h false (by simp)) rfl ha with ⟨_, h⟩ | ⟨l0, t0, e, h, _⟩
      · cases h
      · refine ⟨l0, t0, e, ?_⟩
        rcases h with h | ⟨h, _⟩
        · exact .inl h
        · exact .inr ⟨h, he⟩
  · have hle := (C04_positions U s0 s' src mode _ h).2 t (by simp)
    obtain ⟨x, r, s1, s2, h1, h2, _⟩ := run_mem h false (by simp) (show t ∈ l1 ++ t :: l2 by simp)
    obtain ⟨_, h3⟩ := tokText_auto h2 ha
    have hget : ∀ b z, src.drop t.pos = b :: z → src[t.pos]? = some b := by
      intro b z hz
      have := congrArg (·[0]?) hz
      simpa using this
    rcases h3 with rfl | ⟨rfl, h3⟩
    · exact .inl (hget 10 r h1)
    · rcases h3 with h3 | h3 | rfl
      · cases h3 with
        | line => exact .inr (.inl ⟨_, h1.symm⟩)
        | inside => exact .inr (.inr (.inl ⟨_, h1.symm⟩))
        | unclosed => exact .inr (.inr (.inl ⟨_, h1.symm⟩))
        | after => exact .inr (.inr (.inl ⟨_, h1.symm⟩))
        | chain => exact .inr (.inr (.inl ⟨_, h1.symm⟩))
      · obtain ⟨z, rfl⟩ := h3
        exact .inr (.inr (.inr (.inl (hget 35 z h1))))
      · have := congrArg List.length h1
        simp at this
        exact .inr (.inr (.inr (.inr (by omega))))

theorem endsStatement_text {U : Uni} {ok c : Bool} {semi semi2 : Bool} {t : Token} {x r : Str}
    (h : TokText U ok c semi t x r semi2) (he : endsStatement t.kind = true) : semi2 = true := by
  cases h with
  | ident | int | float | imag | char | string | raw => rfl
  | op => exact he
  | _ => simp only [] at he; exact absurd he (by decide)

/-- C11: with InsertSemis an operand followed, up to blanks, by a newline is
followed by an automatic semicolon at that newline.  `x` is the text of the
operand. -/
theorem C11_newline_partial (U : Uni) (s0 s' : Scanner) (src : Str) (comments : Bool) (l1 l2 : List Token) (t : Token)
    (h : Run U (Scanner.init s0 src ⟨comments, true⟩) (l1 ++ t :: l2) s') (ht : endsStatement t.kind = true) :
    ∃ x r, src.drop t.pos = x ++ r ∧ ReadFrom U comments t x r ∧
      ∀ ws r', r = ws ++ 10 :: r' → (∀ b ∈ ws, b = 32 ∨ b = 9 ∨ b = 13) →
        ∃ l, l2 = ⟨SEMICOLON, t.pos + x.length + ws.length, [10]⟩ :: l := by
  have hl := run_lexes_init h false (by simp)
  have key : ∀ (l1 : List Token) (o : Nat) (txt : Str) (semi : Bool), Lexes U false ⟨comments, true⟩ o txt semi (l1 ++ t :: l2) →
      src.drop o = txt → ∃ x r, src.drop t.pos = x ++ r ∧ ReadFrom U comments t x r ∧
        ∀ ws r', r = ws ++ 10 :: r' → (∀ b ∈ ws, b = 32 ∨ b = 9 ∨ b = 13) →
          ∃ l, l2 = ⟨SEMICOLON, t.pos + x.length + ws.length, [10]⟩ :: l := by
    intro l1
    induction l1 with
    | nil =>
      intro o txt semi hx hs
      generalize hL : [] ++ t :: l2 = L at hx
      cases hx with
      | eof =>
        simp only [List.nil_append, List.cons.injEq] at hL
        rw [hL.1] at ht
        simp only [] at ht
        exact absurd ht (by decide)
      | cons hk hg hp htt hrest =>
        rename_i g x r semi1 semi2 t' ts
        simp only [List.nil_append, List.cons.injEq] at hL
        obtain ⟨rfl, rfl⟩ := hL
        refine ⟨x, r, ?_, ⟨semi1, semi2, htt⟩, ?_⟩
        · rw [hp, ← List.drop_drop, hs, List.drop_left]
        · intro ws r' hr hws
          rw [endsStatement_text htt ht] at hrest
          have := lexes_newline hrest hr hws
          rw [hp]
          exact this
    | cons a l1 ih =>
      intro o txt semi hx hs
      generalize hL : (a :: l1) ++ t :: l2 = L at hx
      cases hx with
      | eof => simp at hL
      | cons hk hg hp htt hrest =>
        rename_i g x r semi1 semi2 t' ts
        simp only [List.cons_append, List.cons.injEq] at hL
        obtain ⟨rfl, rfl⟩ := hL
        refine ih _ _ _ hrest ?_
        rw [← List.drop_drop, ← List.drop_drop, hs, List.drop_left, List.drop_left]
  exact key l1 _ _ _ hl rfl

/-- C11 does not hold when a block comment and a `#` comment stand between the
operand and the newline: no semicolon is inserted in `a /*c*/ #x⏎b`, although
one is in `a #x⏎b` and in `a /*c*/ ⏎b`. -/
theorem C11_violated :
    (tokenize ascii noKw Scanner.zero (bytes "a /*c*/ #x\nb") withSemis).1.map (·.kind) = [IDENT, IDENT, SEMICOLON] ∧
    (tokenize ascii noKw Scanner.zero (bytes "a #x\nb") withSemis).1.map (·.kind) = [IDENT, SEMICOLON, IDENT, SEMICOLON] ∧
    (tokenize ascii noKw Scanner.zero (bytes "a /*c*/ \nb") withSemis).1.map (·.kind) = [IDENT, SEMICOLON, IDENT, SEMICOLON] := by
  decide +kernel

/-! ### C12, C13 -/

/-- C12: operators are spelled in the source and are the longest ones spelled there. -/
theorem C12_longest_operator (U : Uni) (s0 s' : Scanner) (src : Str) (mode : Mode) (ts : List Token)
    (h : Run U (Scanner.init s0 src mode) ts s') (t : Token) (ht : t ∈ ts) (s : String)
    (hop : (t.kind, s) ∈ operators) (ha : ¬ Automatic t) :
    bytes s <+: src.drop t.pos ∧
    ∀ k' s', (k', s') ∈ operators → bytes s' <+: src.drop t.pos → s'.length ≤ s.length := by
  obtain ⟨x, r, s1, s2, h1, h2, _⟩ := run_mem h false (by simp) ht
  rw [h1]
  cases h2 with
  | op h3 h4 =>
    rename_i k s0'
    have hf : operators.all (fun p => operators.all (fun q => p.1 != q.1 || p.2 == q.2)) = true := by decide +kernel
    have := List.all_eq_true.mp (List.all_eq_true.mp hf _ hop) _ h3
    simp only [bne_self_eq_false, Bool.false_or, beq_iff_eq] at this
    subst this
    exact ⟨List.prefix_append _ _, h4⟩
  | newline => exact absurd ⟨rfl, rfl⟩ ha
  | semiAtComment => exact absurd ⟨rfl, rfl⟩ ha
  | semiAtEnd => exact absurd ⟨rfl, rfl⟩ ha
  | _ =>
    exfalso
    have hno : operators.all (fun p => p.1 != IDENT && p.1 != INT && p.1 != FLOAT && p.1 != IMAG && p.1 != CHAR &&
      p.1 != STRING && p.1 != COMMENT && p.1 != EOF && p.1 != ILLEGAL) = true := by decide +kernel
    have := List.all_eq_true.mp hno _ hop
    revert this
    simp

/-- C13: identifiers are maximal runs of letters and digits starting with a letter. -/
theorem C13_ident_maximal (U : Uni) (s0 s' : Scanner) (src : Str) (mode : Mode) (ts : List Token)
    (h : Run U (Scanner.init s0 src mode) ts s') (t : Token) (ht : t ∈ ts) (hk : t.kind = IDENT) :
    ∃ r, src.drop t.pos = t.lit ++ r ∧ t.lit ≠ [] ∧ Letter U (headRune (t.lit ++ r)) ∧
      Runes (fun c => Letter U c ∨ Digit U c) t.lit r ∧ ¬ (Letter U (headRune r) ∨ Digit U (headRune r)) := by
  obtain ⟨x, r, s1, s2, h1, h2, _⟩ := run_mem h false (by simp) ht
  cases h2 with
  | ident a b c d => exact ⟨r, h1, a, b, c, d⟩
  | op hop => dsimp only at hk; subst hk; exact absurd (by simp only []; decide) (operators_ne _ hop).2.2.2.2
  | _ => simp only [] at hk; first | exact absurd hk (by decide) | (injection hk with hk; cases hk)

/-- C13: INT literals are numerals that the next character does not extend. -/
theorem C13_int_maximal (U : Uni) (s0 s' : Scanner) (src : Str) (mode : Mode) (ts : List Token)
    (h : Run U (Scanner.init s0 src mode) ts s') (t : Token) (ht : t ∈ ts) (hk : t.kind = INT) :
    ∃ r, src.drop t.pos = t.lit ++ r ∧ IntText false t.lit r := by
  obtain ⟨x, r, s1, s2, h1, h2, _⟩ := run_mem h false (by simp) ht
  cases h2 with
  | int a => exact ⟨r, h1, a⟩
  | op hop => dsimp only at hk; subst hk; exact absurd (by simp only []; decide) (operators_ne _ hop).2.2.2.2
  | _ => simp only [] at hk; first | exact absurd hk (by decide) | (injection hk with hk; cases hk)

/-! ### C14 -/

/-- C14: `ErrorCount` is the number of errors reported since `Init`. -/
theorem C14_error_count (U : Uni) (s0 : Scanner) (src : Str) (mode : Mode) (n : Nat) :
    (scans U n (Scanner.init s0 src mode)).2.errorCount = (scans U n (Scanner.init s0 src mode)).2.errs.length := by
  have key : ∀ (n : Nat) (s : Scanner), Inv s → s.errorCount = s.errs.length →
      (scans U n s).2.errorCount = (scans U n s).2.errs.length := by
    intro n
    induction n with
    | zero => intro s _ h; exact h
    | succ n ih =>
      intro s hi h
      obtain ⟨g, x, a, b, hok⟩ := scan_spec U hi
      have := hok.go.count
      have := ih _ (Scanner.scan_inv U hi) (by omega)
      simpa [scans] using this
  exact key n _ (init_inv ..) (init_count ..)

/-- C14: `Tokenize` reports an error exactly if scanning reported one, and
otherwise returns all tokens before EOF (with keyword kinds applied). -/
theorem C14_tokenize (U : Uni) (kw : Str → Option Nat) (hkw : ∀ w k, kw w = some k → k ≠ EOF)
    (s0 s' : Scanner) (src : Str) (mode : Mode) (ts : List Token) (h : Run U (Scanner.init s0 src mode) ts s') :
    (s'.errorCount = 0 → tokenize U kw s0 src mode = (ts.dropLast.map (kwTok kw), none, s')) ∧
    (s'.errorCount ≠ 0 → ∃ us e s1, tokenize U kw s0 src mode = (us, some e, s1) ∧ us <+: ts.map (kwTok kw) ∧ e ∈ s'.errs) := by
  obtain ⟨ts', s'', h', hl⟩ := C03_terminates U s0 src mode
  obtain ⟨rfl, rfl⟩ := h.functional h'
  have hcount : s'.errorCount = s'.errs.length := by
    have := (run_go h (init_inv s0 src mode)).1.count
    have := init_count s0 src mode
    omega
  constructor
  · intro he
    exact tokenizeLoop_ok hkw h (init_inv ..) (List.length_eq_zero_iff.mp (by omega)) _ hl
  · intro he
    refine tokenizeLoop_err hkw h (init_inv ..) ?_ _ hl
    intro e
    rw [hcount, e] at he
    exact he rfl

/-- What a successful `Tokenize` returns. -/
theorem tokenize_ok (U : Uni) (kw : Str → Option Nat) (hkw : ∀ w k, kw w = some k → k ≠ EOF)
    (s0 : Scanner) (src : Str) (mode : Mode) (he : (tokenize U kw s0 src mode).2.1 = none) :
    ∃ ts s', Run U (Scanner.init s0 src mode) ts s' ∧ s'.errs = [] ∧
      (tokenize U kw s0 src mode).1 = ts.dropLast.map (kwTok kw) := by
  obtain ⟨ts, s', h, _⟩ := C03_terminates U s0 src mode
  obtain ⟨h1, h2⟩ := C14_tokenize U kw hkw s0 s' src mode ts h
  by_cases hc : s'.errorCount = 0
  · have := (run_go h (init_inv s0 src mode)).1.count
    have hi := init_count s0 src mode
    exact ⟨ts, s', h, List.length_eq_zero_iff.mp (by omega), by rw [h1 hc]⟩
  · obtain ⟨us, e, s1, h3, _⟩ := h2 hc
    rw [h3] at he
    cases he

theorem kwTok_id {kw : Str → Option Nat} (hkw : ∀ w k, kw w = some k → 0xb0 ≤ k) {t : Token}
    (h : (kwTok kw t).kind < 0xb0) : kwTok kw t = t := by
  unfold kwTok at h ⊢
  split
  · rename_i hi
    rw [if_pos hi] at h
    split
    · rename_i k hk
      rw [hk] at h
      have := hkw _ _ hk
      dsimp only at h
      omega
    · rfl
  · rfl

theorem tokenize_mem (U : Uni) (kw : Str → Option Nat) (hkw : ∀ w k, kw w = some k → 0xb0 ≤ k)
    (s0 : Scanner) (src : Str) (mode : Mode) (he : (tokenize U kw s0 src mode).2.1 = none) (t : Token)
    (ht : t ∈ (tokenize U kw s0 src mode).1) (hk : t.kind < 0xb0) :
    ∃ x r semi1 semi2, src.drop t.pos = x ++ r ∧ TokText U true mode.scanComments semi1 t x r semi2 := by
  obtain ⟨ts, s', h, h1, h2⟩ := tokenize_ok U kw (fun w k h e => by have := hkw w k h; subst e; exact absurd this (by decide)) s0 src mode he
  rw [h2] at ht
  obtain ⟨t', ht', rfl⟩ := List.mem_map.mp ht
  rw [kwTok_id hkw hk]
  obtain ⟨x, r, a, b, e1, e2, _⟩ := run_mem h true (fun _ => h1) (List.dropLast_subset _ ht')
  exact ⟨x, r, a, b, e1, e2⟩

/-! ### C15, C16, C17 -/

/-- C15 (what holds): if `Tokenize` succeeds, an ILLEGAL token is the text `..`
not followed by a third dot. -/
theorem C15_illegal_partial (U : Uni) (kw : Str → Option Nat) (hkw : ∀ w k, kw w = some k → 0xb0 ≤ k)
    (s0 : Scanner) (src : Str) (mode : Mode) (he : (tokenize U kw s0 src mode).2.1 = none) (t : Token)
    (ht : t ∈ (tokenize U kw s0 src mode).1) (hk : t.kind = ILLEGAL) :
    ∃ r, src.drop t.pos = 46 :: 46 :: r ∧ r.head? ≠ some 46 := by
  obtain ⟨x, r, a, b, e1, e2⟩ := tokenize_mem U kw hkw s0 src mode he t ht (by rw [hk]; decide)
  cases e2 with
  | dots h =>
    refine ⟨r, e1, ?_⟩
    intro hr
    apply h
    cases r with
    | nil => cases hr
    | cons c r => simp at hr; exact ⟨r, by rw [hr]⟩
  | illegal h => cases h
  | op hop => exact absurd hk (operators_ne _ hop).2.2.1
  | _ => simp only [] at hk; first | exact absurd hk (by decide) | (injection hk with hk; cases hk)

/-- C15 is violated by the text `..`: no error, one ILLEGAL token with an empty literal. -/
theorem C15_violated : (tokenize ascii noKw Scanner.zero (bytes "..") plain).1 = [⟨ILLEGAL, 0, []⟩] ∧
    (tokenize ascii noKw Scanner.zero (bytes "..") plain).2.1 = none := by
  decide +kernel

/-- C16: string literals of accepted text are closed; interpreted ones are made
of characters other than newline, quote and backslash, and escapes. -/
theorem C16_strings_closed (U : Uni) (kw : Str → Option Nat) (hkw : ∀ w k, kw w = some k → 0xb0 ≤ k)
    (s0 : Scanner) (src : Str) (mode : Mode) (he : (tokenize U kw s0 src mode).2.1 = none) (t : Token)
    (ht : t ∈ (tokenize U kw s0 src mode).1) (hk : t.kind = STRING) :
    (∃ b, t.lit = 34 :: (b ++ [34]) ∧ StrBody 34 b) ∨ (∃ b, t.lit = 96 :: (b ++ [96]) ∧ 96 ∉ b) := by
  obtain ⟨x, r, a, b, e1, e2⟩ := tokenize_mem U kw hkw s0 src mode he t ht (by rw [hk]; decide)
  cases e2 with
  | string _ h => exact .inl (h rfl)
  | raw _ h =>
    obtain ⟨b, rfl, hb⟩ := h rfl
    refine .inr ⟨b.filter (· ≠ 13), ?_, fun h => hb (List.mem_filter.mp h).1⟩
    simp
  | op hop => dsimp only at hk; subst hk; exact absurd (by simp only []; decide) (operators_ne _ hop).2.2.2.2
  | _ => simp only [] at hk; first | exact absurd hk (by decide) | (injection hk with hk; cases hk)

theorem escape_no_newline {q : UInt8} (hq : q ≠ 10) {e : Str} (h : Escape q e) : 10 ∉ e := by
  have oct : ∀ ds : Str, (∀ b ∈ ds, IsOct b) → (10 : UInt8) ∉ ds := by
    intro ds h hm
    exact absurd (h 10 hm) (by unfold IsOct; decide)
  have hex : ∀ ds : Str, (∀ b ∈ ds, IsHex b) → (10 : UInt8) ∉ ds := by
    intro ds h hm
    exact absurd (h 10 hm) (by unfold IsHex; decide)
  cases h with
  | simple h =>
    intro hm
    simp only [List.mem_cons, List.not_mem_nil, or_false] at hm h
    rcases hm with hm | rfl
    · exact absurd hm (by decide)
    · rcases h with h | h | h | h | h | h | h | h | h
      all_goals first | exact absurd h (by decide) | exact hq h.symm
  | oct _ h => simpa using oct _ h
  | hex _ h => simpa using hex _ h
  | u4 _ h => simpa using hex _ h
  | u8 _ h => simpa using hex _ h

theorem strBody_no_newline {q : UInt8} (hq : q ≠ 10) {b : Str} (h : StrBody q b) : 10 ∉ b := by
  induction h with
  | nil => simp
  | plain h _ _ _ ih =>
    intro hm
    rcases List.mem_cons.mp hm with e | hm
    · exact h e.symm
    · exact ih hm
  | esc h _ ih =>
    intro hm
    rcases List.mem_append.mp hm with hm | hm
    · exact escape_no_newline hq h hm
    · exact ih hm

/-- C16: an interpreted string literal contains no newline. -/
theorem C16_no_newline (U : Uni) (kw : Str → Option Nat) (hkw : ∀ w k, kw w = some k → 0xb0 ≤ k)
    (s0 : Scanner) (src : Str) (mode : Mode) (he : (tokenize U kw s0 src mode).2.1 = none) (t : Token)
    (ht : t ∈ (tokenize U kw s0 src mode).1) (hk : t.kind = STRING) (hq : t.lit.head? = some 34) : 10 ∉ t.lit := by
  rcases C16_strings_closed U kw hkw s0 src mode he t ht hk with ⟨b, e, hb⟩ | ⟨b, e, _⟩
  · rw [e]
    have := strBody_no_newline (by decide) hb
    simpa using this
  · rw [e] at hq
    simp at hq

/-- C16: character literals of accepted text hold one character or escape between single quotes. -/
theorem C16_chars_closed (U : Uni) (kw : Str → Option Nat) (hkw : ∀ w k, kw w = some k → 0xb0 ≤ k)
    (s0 : Scanner) (src : Str) (mode : Mode) (he : (tokenize U kw s0 src mode).2.1 = none) (t : Token)
    (ht : t ∈ (tokenize U kw s0 src mode).1) (hk : t.kind = CHAR) :
    ∃ b r, t.lit = 39 :: (b ++ [39]) ∧ CharBody b (39 :: r) := by
  obtain ⟨x, r, a, b, e1, e2⟩ := tokenize_mem U kw hkw s0 src mode he t ht (by rw [hk]; decide)
  cases e2 with
  | char _ h => obtain ⟨b, h1, h2⟩ := h rfl; exact ⟨b, r, h1, h2⟩
  | op hop => dsimp only at hk; subst hk; exact absurd (by simp only []; decide) (operators_ne _ hop).2.2.2.2
  | _ => simp only [] at hk; first | exact absurd hk (by decide) | (injection hk with hk; cases hk)

/-- C17: INT literals of accepted text are well-formed decimal, octal or hexadecimal numerals. -/
theorem C17_int_wellformed (U : Uni) (kw : Str → Option Nat) (hkw : ∀ w k, kw w = some k → 0xb0 ≤ k)
    (s0 : Scanner) (src : Str) (mode : Mode) (he : (tokenize U kw s0 src mode).2.1 = none) (t : Token)
    (ht : t ∈ (tokenize U kw s0 src mode).1) (hk : t.kind = INT) :
    (∃ d ds, t.lit = d :: ds ∧ IsDec d ∧ d ≠ 48 ∧ ∀ b ∈ ds, IsDec b) ∨
    (∃ ds, t.lit = 48 :: ds ∧ ∀ b ∈ ds, IsOct b) ∨
    (∃ x ds, t.lit = 48 :: x :: ds ∧ (x = 120 ∨ x = 88) ∧ ds ≠ [] ∧ ∀ b ∈ ds, IsHex b) := by
  obtain ⟨x, r, a, b, e1, e2⟩ := tokenize_mem U kw hkw s0 src mode he t ht (by rw [hk]; decide)
  cases e2 with
  | int h =>
    cases h with
    | dec h1 h2 h3 => exact .inl ⟨_, _, rfl, h1, h2, h3⟩
    | oct h => exact .inr (.inl ⟨_, rfl, fun b hb => by simpa using h b hb⟩)
    | hex h1 h2 h3 => exact .inr (.inr ⟨_, _, rfl, h1, h3 rfl, h2⟩)
  | op hop => dsimp only at hk; subst hk; exact absurd (by simp only []; decide) (operators_ne _ hop).2.2.2.2
  | _ => simp only [] at hk; first | exact absurd hk (by decide) | (injection hk with hk; cases hk)

/-! ### C18 -/

/-- C18 (what holds): the line of a token is one plus the number of newlines
before it, except for a token at the very end of a text that ends in a newline. -/
theorem C18_lines_partial (U : Uni) (s0 s' : Scanner) (src : Str) (mode : Mode) (ts : List Token)
    (h : Run U (Scanner.init s0 src mode) ts s') (t : Token) (ht : t ∈ ts)
    (hp : t.pos < src.length ∨ src.getLast? ≠ some 10) : s'.line t.pos = 1 + newlinesBefore src t.pos := by
  have hi := init_inv s0 src mode
  have hg := run_go h hi
  have hl := hg.1.lines hi.sync (init_lines s0 src mode)
  have hsrc : s'.src = src := by rw [hg.1.src, (init_fields s0 src mode).1]
  have hend : s'.offset = src.length := by
    obtain ⟨e, h1, h2, h3⟩ := run_last h hi
    obtain ⟨g, x, a, b, hok⟩ := scan_spec U hg.2
    rw [h3] at hok
    obtain ⟨ex, er, _⟩ := tokText_eof (hok.text false (by simp)).2 h2
    have hsy := hg.2.sync
    have hlen := congrArg List.length er
    have h5 : s'.rest = s'.src.drop s'.offset := rfl
    have h6 := hsy.le
    rw [h5, List.length_drop] at hlen
    rw [← hsrc]
    simp at hlen
    omega
  have := hl.line t.pos (by have := (C04_positions U s0 s' src mode ts h).2 t ht; omega) (by rw [hsrc]; exact hp)
  rwa [hsrc] at this

/-- C18 is violated by the EOF token of `a⏎`: it stands after a newline but is
reported on line 1. -/
theorem C18_violated :
    let r := scans ascii 2 (Scanner.init Scanner.zero (bytes "a\n") plain)
    r.1 = [⟨IDENT, 0, [97]⟩, ⟨EOF, 2, []⟩] ∧ r.2.line 2 = 1 ∧ newlinesBefore (bytes "a\n") 2 = 1 := by
  decide +kernel

/-! ### C19 -/

/-- C19: the result of `Tokenize` does not depend on the previous use of the
scanner.  (`bad` is the model's mark of a slice panic.) -/
theorem C19_reuse (U : Uni) (kw : Str → Option Nat) (s0 s1 : Scanner) (h0 : s0.bad = false) (h1 : s1.bad = false)
    (src : Str) (mode : Mode) : tokenize U kw s0 src mode = tokenize U kw s1 src mode := by
  unfold tokenize
  rw [init_reset s0 s1 (by rw [h0, h1])]

/-- C19: no use of a scanner ever panics, so the condition of `C19_reuse` is met
after any number of `Init`s and `Scan`s. -/
theorem C19_never_panics (U : Uni) (s0 : Scanner) (h0 : s0.bad = false) (src : Str) (mode : Mode) (n : Nat) :
    (scans U n (Scanner.init s0 src mode)).2.bad = false := by
  have key : ∀ (n : Nat) (s : Scanner), Inv s → s.bad = false → (scans U n s).2.bad = false := by
    intro n
    induction n with
    | zero => intro s _ h; exact h
    | succ n ih =>
      intro s hi h
      obtain ⟨g, x, a, b, hok⟩ := scan_spec U hi
      have := ih _ (Scanner.scan_inv U hi) (by rw [hok.go.bad]; exact h)
      simpa [scans] using this
  exact key n _ (init_inv ..) (by rw [(init_fields ..).2.2.2]; exact h0)

/-! ### C20, C21 -/

theorem lit2token_lt (s : Str) : Lit2Token s < 0xb0 := by
  unfold Lit2Token
  cases h : rtokens.lookup s with
  | none => decide
  | some k =>
    have : ∀ e ∈ rtokens, e.2 < 0xb0 := by decide +kernel
    have hm : (s, k) ∈ rtokens := by
      generalize rtokens = l at h
      induction l with
      | nil => cases h
      | cons a l ih =>
        rw [List.lookup_cons] at h
        split at h
        · rename_i hs
          have : s = a.1 := by simpa using hs
          cases h
          subst this
          exact List.mem_cons_self
        · exact List.mem_cons_of_mem _ (ih h)
    exact this _ hm

theorem ltot_total {k : KwScanner} {lit : Str} (hl : KwScanner.Keyword lit) (hi : k.keywords ≠ none) :
    ∃ t k', k.ltot lit = .ok (t, k') := by
  rw [KwScanner.ltot_keyword hl]
  cases k.keywords.get (KwScanner.word lit) with
  | some t => exact ⟨_, _, rfl⟩
  | none =>
    cases hk : k.keywords with
    | none => exact absurd hk hi
    | some m => exact ⟨_, _, rfl⟩

open KwScanner in
/-- C20: `Ltot` of a keyword (a quoted word that is not a built-in literal), after
any use `Steps` of a new AutoKwScanner that has been initialised, yields a kind
≥ 0xb0 whose `Ttol` is the quoted keyword, now and after any further use, and a
later `Ltot` gives the same kind. -/
theorem C20_keyword_kind (U : Uni) (k : KwScanner) (hk : Steps U KwScanner.zero k) (hi : k.keywords ≠ none)
    (lit : Str) (hl : Keyword lit) :
    ∃ t k', k.ltot lit = .ok (t, k') ∧ 0xb0 ≤ t ∧ (∀ s, Lit2Token s ≠ t) ∧
      ∀ k'', Steps U k' k'' → k''.ttol t = .ok lit ∧ k''.ltot lit = .ok (t, k'') := by
  obtain ⟨hinv, _⟩ := Steps.inv hk zero_inv
  obtain ⟨t, k', h1⟩ := ltot_total hl hi
  obtain ⟨h2, _⟩ := ltot_inv hinv (.inl hl.1) h1
  obtain ⟨i, e1, e2, e3⟩ := ltot_registered hinv hl h1
  have hge : 0xb0 ≤ t := by rw [e1]; unfold userTokenBegin; omega
  refine ⟨t, k', h1, hge, ?_, ?_⟩
  · intro s h
    have := lit2token_lt s
    omega
  · intro k'' hs
    obtain ⟨h3, h4, h5⟩ := Steps.inv hs h2
    have hi' : k''.tokens[i]? = some lit := h4 i lit e2
    constructor
    · unfold ttol
      rw [if_pos (by rw [e1]; unfold userTokenBegin; omega)]
      rw [e1, Nat.add_sub_cancel_left, hi']
    · rw [ltot_keyword hl, h3.put i lit hi', e1]

open KwScanner in
/-- C20: different keywords have different kinds. -/
theorem C20_injective (U : Uni) (k k1 k2 k3 : KwScanner) (hk : Steps U KwScanner.zero k) (hi : k.keywords ≠ none)
    (l1 l2 : Str) (h1 : Keyword l1) (h2 : Keyword l2) (t : Nat)
    (e1 : k.ltot l1 = .ok (t, k1)) (hs : Steps U k1 k2) (e2 : k2.ltot l2 = .ok (t, k3)) : l1 = l2 := by
  obtain ⟨t', k1', f1, _, _, f2⟩ := C20_keyword_kind U k hk hi l1 h1
  rw [e1] at f1
  cases f1
  have hz : Steps U KwScanner.zero k2 := by
    have h3 : Steps U KwScanner.zero k1 := .step hk (.ltot (.inl h1.1) e1)
    clear f2 e2
    induction hs with
    | refl => exact h3
    | step _ h ih => exact .step ih h
  obtain ⟨t2, k3', f3, _, _, f4⟩ := C20_keyword_kind U k2 hz (by
    obtain ⟨hinv, _⟩ := Steps.inv hz zero_inv
    intro hn
    have := hinv.nil hn
    obtain ⟨hinv1, _⟩ := Steps.inv hk zero_inv
    obtain ⟨g2, _⟩ := ltot_inv hinv1 (.inl h1.1) e1
    obtain ⟨i, g3, g4, _⟩ := ltot_registered hinv1 h1 e1
    have := (Steps.inv hs g2).2.1 i l1 g4
    rw [‹k2.tokens = []›] at this
    cases this) l2 h2
  rw [e2] at f3
  cases f3
  have a := (f2 k3 (.step hs (.ltot (.inl h2.1) e2))).1
  have b := (f4 k3 (.refl _)).1
  rw [a] at b
  exact GoRes.ok.inj b

open KwScanner in
/-- C21: `AutoKwScanner.Scan` returns the token of `Scanner.Scan` except that an
IDENT whose text is a registered keyword gets the keyword's kind. -/
theorem C21_keyword_recognition (U : Uni) (k : KwScanner) :
    (k.scan U).2 = { k with sc := (Scanner.scan U k.sc).2 } ∧
    (∀ kd, (Scanner.scan U k.sc).1.kind = IDENT → k.keywords.get (Scanner.scan U k.sc).1.lit = some kd →
      (k.scan U).1 = { (Scanner.scan U k.sc).1 with kind := kd }) ∧
    ((Scanner.scan U k.sc).1.kind ≠ IDENT ∨ k.keywords.get (Scanner.scan U k.sc).1.lit = none →
      (k.scan U).1 = (Scanner.scan U k.sc).1) := by
  unfold KwScanner.scan kwScan
  generalize Scanner.scan U k.sc = r
  obtain ⟨t, s⟩ := r
  dsimp only
  refine ⟨?_, ?_, ?_⟩
  · by_cases h : t.kind = IDENT
    · rw [if_pos h]
      cases k.keywords.get t.lit <;> rfl
    · rw [if_neg h]
  · intro kd h1 h2
    rw [if_pos h1, h2]
  · intro h
    by_cases h1 : t.kind = IDENT
    · rw [if_pos h1]
      rcases h with h | h
      · exact absurd h1 h
      · rw [h]
    · rw [if_neg h1]

open KwScanner in
/-- C21: and a keyword's kind is never IDENT, so IDENT does not match it: it is
≥ 0xb0 and its `Ttol` is the quoted text of the token. -/
theorem C21_not_ident (U : Uni) (k : KwScanner) (hk : Steps U KwScanner.zero k) (w : Str) (kd : Nat)
    (h : k.keywords.get w = some kd) : 0xb0 ≤ kd ∧ kd ≠ IDENT ∧ k.ttol kd = .ok (34 :: (w ++ [34])) := by
  obtain ⟨hinv, _⟩ := Steps.inv hk zero_inv
  obtain ⟨i, lit, e, h1, h2⟩ := hinv.get w kd h
  have hge : 0xb0 ≤ kd := by rw [e]; unfold userTokenBegin; omega
  refine ⟨hge, fun h => absurd (h ▸ hge) (by decide), ?_⟩
  unfold ttol
  rw [if_pos (show kd ≥ userTokenBegin from hge), e, Nat.add_sub_cancel_left, h1]
  obtain ⟨w', hw'⟩ := (mem_of_lit hinv h1).1
  rw [hw', word_quoted] at h2
  subst h2
  rw [hw']

/-! ### The hypotheses are met -/

example : tokenize ascii noKw Scanner.zero (bytes "x1 := 0x1F + \"a\\n\" // c\n 'b' <<= 3.5i") ⟨true, true⟩ =
    ([⟨IDENT, 0, bytes "x1"⟩, ⟨DEFINE, 3, []⟩, ⟨INT, 6, bytes "0x1F"⟩, ⟨ADD, 11, []⟩, ⟨STRING, 13, bytes "\"a\\n\""⟩,
      ⟨SEMICOLON, 19, [10]⟩, ⟨COMMENT, 19, bytes "// c"⟩, ⟨CHAR, 25, bytes "'b'"⟩, ⟨SHL_ASSIGN, 29, []⟩, ⟨IMAG, 33, bytes "3.5i"⟩,
      ⟨SEMICOLON, 37, [10]⟩], none,
     (tokenize ascii noKw Scanner.zero (bytes "x1 := 0x1F + \"a\\n\" // c\n 'b' <<= 3.5i") ⟨true, true⟩).2.2) := by
  decide +kernel

example : ∃ ts s', Run ascii (Scanner.init Scanner.zero (bytes "a ; 08 $") plain) ts s' ∧ s'.errorCount = 2 ∧
    ts.map (·.kind) = [IDENT, SEMICOLON, INT, ILLEGAL, EOF] := by
  obtain ⟨ts, s', h, hl⟩ := C03_terminates ascii Scanner.zero (bytes "a ; 08 $") plain
  refine ⟨ts, s', h, ?_⟩
  have e : Run ascii (Scanner.init Scanner.zero (bytes "a ; 08 $") plain)
      (scans ascii 5 (Scanner.init Scanner.zero (bytes "a ; 08 $") plain)).1
      (scans ascii 5 (Scanner.init Scanner.zero (bytes "a ; 08 $") plain)).2 := by
    refine .cons (s' := (scans ascii 1 (Scanner.init Scanner.zero (bytes "a ; 08 $") plain)).2) (by decide +kernel) (by decide +kernel) ?_
    refine .cons (s' := (scans ascii 2 (Scanner.init Scanner.zero (bytes "a ; 08 $") plain)).2) (by decide +kernel) (by decide +kernel) ?_
    refine .cons (s' := (scans ascii 3 (Scanner.init Scanner.zero (bytes "a ; 08 $") plain)).2) (by decide +kernel) (by decide +kernel) ?_
    refine .cons (s' := (scans ascii 4 (Scanner.init Scanner.zero (bytes "a ; 08 $") plain)).2) (by decide +kernel) (by decide +kernel) ?_
    exact .eof (by decide +kernel) (by decide +kernel)
  obtain ⟨rfl, rfl⟩ := h.functional e
  exact ⟨by decide +kernel, by decide +kernel⟩

open KwScanner in
example : ∃ k, Steps ascii KwScanner.zero k ∧ k.keywords ≠ none ∧ k.keywords.get (bytes "if") = some 0xb0 ∧
    k.keywords.get (bytes "for") = some 0xb1 ∧ Keyword (bytes "\"for\"") := by
  refine ⟨⟨(KwScanner.zero.init [] plain).sc, [bytes "\"if\"", bytes "\"for\""], some [(bytes "for", 0xb1), (bytes "if", 0xb0)]⟩, ?_, by simp, by decide +kernel, by decide +kernel, ?_⟩
  · refine .step (.step (.step (.refl _) (.init _ [] plain)) (.ltot (lit := bytes "\"if\"") (t := 0xb0) (k' := ⟨(KwScanner.zero.init [] plain).sc, [bytes "\"if\""], some [(bytes "if", 0xb0)]⟩) (.inl ⟨bytes "if", by decide +kernel⟩) (by rfl)))
      (.ltot (lit := bytes "\"for\"") (t := 0xb1) (.inl ⟨bytes "for", by decide +kernel⟩) rfl)
  · exact ⟨⟨bytes "for", rfl⟩, by decide +kernel⟩

end Tpl.Props
