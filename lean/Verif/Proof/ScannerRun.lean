import Verif.Proof.ScannerErase

/-! Whole runs of the scanner: termination, and the token sequence satisfies the
lexical specification. -/
namespace Tpl
namespace Scanner
open Spec

theorem gap_false {ok c : Bool} {g r : Str} {a b : Bool} (h : Gap ok c a g r b) : b = true → a = true := by
  induction h with
  | nil => exact id
  | space _ _ ih => exact ih
  | comment _ _ _ _ ih => intro e; exact absurd (ih e) (by simp)

theorem operators_ne : ∀ p ∈ operators, p.1 ≠ EOF ∧ p.1 ≠ COMMENT ∧ p.1 ≠ ILLEGAL ∧ bytes p.2 ≠ [] ∧
    ¬ p.1 ∈ [IDENT, INT, FLOAT, IMAG, CHAR, STRING] := by decide +kernel

theorem tokText_eof {U : Uni} {ok c : Bool} {semi semi2 : Bool} {t : Token} {x r : Str}
    (h : TokText U ok c semi t x r semi2) (hk : t.kind = EOF) :
    x = [] ∧ r = [] ∧ semi = false ∧ t.lit = [] ∧ semi2 = false := by
  cases h with
  | eof => exact ⟨rfl, rfl, rfl, rfl, rfl⟩
  | op h1 => exact absurd hk (operators_ne _ h1).1
  | _ => simp only [] at hk; first | exact absurd hk (by decide) | (injection hk with hk; cases hk)

theorem tokText_progress {U : Uni} {ok c : Bool} {semi semi2 : Bool} {t : Token} {x r : Str}
    (h : TokText U ok c semi t x r semi2) (hk : t.kind ≠ EOF) :
    x ≠ [] ∨ (semi = true ∧ semi2 = false) := by
  cases h with
  | eof => exact absurd rfl hk
  | ident h1 => exact .inl h1
  | int h1 => left; cases h1 <;> simp
  | float h1 => left; cases h1 with
    | frac => simp
    | exp _ h => simp [h]
  | imag h1 => left; cases h1 <;> simp
  | char h1 => left; obtain ⟨t, rfl⟩ := h1; simp
  | string h1 => left; obtain ⟨t, rfl⟩ := h1; simp
  | raw h1 => left; obtain ⟨t, rfl⟩ := h1; simp
  | comment _ h1 => left; cases h1 <;> simp
  | op h1 => exact .inl (operators_ne _ h1).2.2.2.1
  | newline => left; simp
  | semiAtComment => exact .inr ⟨rfl, rfl⟩
  | semiAtEnd => exact .inr ⟨rfl, rfl⟩
  | dots => left; simp
  | illegal _ h => exact .inl h

/-- Potential: bounds the number of tokens still to come. -/
def phi (s : Scanner) : Nat := 2 * s.rest.length + (if s.insertSemi then 1 else 0)

theorem ScanOk.phi {U s t g x semi1 semi2 s'} (h : ScanOk U s t g x semi1 semi2 s') (hk : t.kind ≠ EOF) :
    s'.phi < s.phi := by
  obtain ⟨hg, ht⟩ := h.text false (by simp)
  unfold Scanner.phi
  rw [h.rest]
  simp only [List.length_append]
  rcases tokText_progress ht hk with hx | ⟨h1, h2⟩
  · have := List.length_pos_iff.mpr hx
    split <;> split <;> omega
  · have h3 := gap_false hg h1
    rw [h.semi, h2, h3]
    simp
    omega

theorem run_exists (U : Uni) : ∀ (n : Nat) (s : Scanner), s.phi < n → Inv s →
    ∃ ts s', Run U s ts s' ∧ ts.length ≤ s.phi + 1 := by
  intro n
  induction n with
  | zero => intro s h; omega
  | succ n ih =>
    intro s hn h
    obtain ⟨g, x, semi1, semi2, ho⟩ := scan_spec U h
    by_cases hk : (scan U s).1.kind = EOF
    · exact ⟨_, _, .eof rfl hk, by simp⟩
    · have hphi := ho.phi hk
      obtain ⟨ts, s', hr, hl⟩ := ih _ (by omega) (ho.inv h)
      exact ⟨_, _, .cons rfl hk hr, by simp; omega⟩

theorem run_go {U : Uni} {s s' : Scanner} {ts : List Token} (h : Run U s ts s') (hi : Inv s) : Go s s' ∧ Inv s' := by
  induction h with
  | eof h1 h2 =>
    rename_i s t s'
    obtain ⟨g, x, semi1, semi2, ho⟩ := scan_spec U hi
    rw [h1] at ho
    exact ⟨ho.go, ho.inv hi⟩
  | cons h1 h2 _ ih =>
    obtain ⟨g, x, semi1, semi2, ho⟩ := scan_spec U hi
    rw [h1] at ho
    obtain ⟨h3, h4⟩ := ih (ho.inv hi)
    exact ⟨ho.go.trans h3, h4⟩

/-- The tokens of a run satisfy the lexical specification. -/
theorem run_lexes {U : Uni} {s s' : Scanner} {ts : List Token} (h : Run U s ts s') (hi : Inv s) (ok : Bool)
    (hok : ok = true → s'.errs = []) : Lexes U ok s.mode s.offset s.rest s.insertSemi ts := by
  induction h with
  | eof h1 h2 =>
    rename_i s t s'
    obtain ⟨g, x, semi1, semi2, ho⟩ := scan_spec U hi
    rw [h1] at ho
    obtain ⟨hg, ht⟩ := ho.text ok hok
    obtain ⟨rfl, hr, rfl, hl, _⟩ := tokText_eof ht h2
    have hrest := ho.rest
    rw [hr] at hrest hg
    simp only [List.append_nil] at hrest hg
    rw [hrest]
    obtain ⟨k, p, l⟩ := t
    obtain rfl : k = EOF := h2
    obtain rfl : l = [] := hl
    exact .eof hg ho.pos
  | cons h1 h2 hr ih =>
    rename_i s t s' ts s''
    obtain ⟨g, x, semi1, semi2, ho⟩ := scan_spec U hi
    rw [h1] at ho
    have hi' := ho.inv hi
    obtain ⟨hg, ht⟩ := ho.text ok (fun e => clean_of_go (run_go hr hi').1 (hok e))
    have hl := ih hi' hok
    rw [ho.rest]
    refine .cons h2 hg ho.pos ht ?_
    rw [← ho.semi, ← ho.offset hi]
    have := ho.go.mode
    dsimp only at this
    rw [this] at hl
    exact hl

/-! ### Init -/

theorem decode_bom (r : Str) : (decodeRune r).1 = 0xFEFF ↔ [0xEF, 0xBB, 0xBF] <+: r := by
  constructor
  · intro h
    unfold decodeRune RuneError at h
    split at h
    · simp at h
    · rename_i b0 rest
      split at h
      · simp only at h; omega
      · split at h
        · simp at h
        · split at h
          · unfold decode2 at h
            split at h
            · rename_i b1 _
              have := b1.toNat_lt
              split at h
              · simp only at h; omega
              · simp [RuneError] at h
            · simp [RuneError] at h
          · split at h
            · unfold decode3 at h
              split at h
              · rename_i b1 b2 t
                split at h
                · rename_i hr
                  simp only [Bool.and_eq_true, inRange_iff] at hr
                  simp only at h
                  have h1 : b0.toNat = 0xEF := by omega
                  have hl : 0x80 ≤ lo3 b0.toNat := by unfold lo3; split <;> omega
                  have hh : hi3 b0.toNat ≤ 0xBF := by unfold hi3; split <;> omega
                  have h2 : b1.toNat = 0xBB := by omega
                  have h3 : b2.toNat = 0xBF := by omega
                  have e0 : b0 = 0xEF := toUInt8_eq h1
                  have e1 : b1 = 0xBB := toUInt8_eq h2
                  have e2 : b2 = 0xBF := toUInt8_eq h3
                  exact ⟨t, by rw [e0, e1, e2]; rfl⟩
                · simp [RuneError] at h
              · simp [RuneError] at h
            · split at h
              · unfold decode4 at h
                split at h
                · rename_i b1 b2 b3 t
                  split at h
                  · rename_i hr
                    simp only [Bool.and_eq_true, inRange_iff] at hr
                    simp only at h
                    exfalso
                    have hh : hi4 b0.toNat ≤ 0xBF := by unfold hi4; split <;> omega
                    unfold lo4 at hr
                    split at hr <;> omega
                  · simp [RuneError] at h
                · simp [RuneError] at h
              · simp at h
  · rintro ⟨t, rfl⟩
    rfl

theorem init_fields (s0 : Scanner) (src : Str) (mode : Mode) :
    (init s0 src mode).src = src ∧ (init s0 src mode).mode = mode ∧ (init s0 src mode).insertSemi = false ∧
    (init s0 src mode).bad = s0.bad := by
  unfold init
  dsimp only
  split <;> simp

theorem init_offset (s0 : Scanner) (src : Str) (mode : Mode) : (init s0 src mode).offset = bomLen src := by
  unfold init
  generalize hs : ({ s0 with
    src := src, mode := mode, lines := [0], errs := [],
    ch := 32, offset := 0, rdOffset := 0, lineOffset := 0, insertSemi := false,
    errorCount := 0 } : Scanner) = s
  have h0 : s.rdOffset = 0 := by rw [← hs]
  have h1 : s.src = src := by rw [← hs]
  have h := next_sync' (s := s) (by omega)
  have hrest : s.next.rest = src := by
    unfold rest
    rw [h.2, h0, next_src, h1]; rfl
  have hhead := h.1.head
  rw [hrest] at hhead
  have hb : s.next.ch = 0xFEFF ↔ [0xEF, 0xBB, 0xBF] <+: src := by
    rw [hhead, ← decode_bom]
    unfold headRune
    split
    · rename_i e; subst e; simp [decodeRune, RuneError]
    · omega
  unfold bomLen
  dsimp only
  by_cases hp : [0xEF, 0xBB, 0xBF] <+: src
  · rw [if_pos (hb.mpr hp), if_pos (by rw [List.isPrefixOf_iff_prefix]; exact hp), h.1.next_offset, h.1.rd, h.2, h0, next_src, h1]
    obtain ⟨t, rfl⟩ := hp
    rfl
  · rw [if_neg (fun e => hp (hb.mp e)), if_neg (by rw [List.isPrefixOf_iff_prefix]; exact hp), h.2, h0]

theorem init_rest (s0 : Scanner) (src : Str) (mode : Mode) : (init s0 src mode).rest = src.drop (bomLen src) := by
  unfold rest
  rw [(init_fields s0 src mode).1, init_offset]

/-- `Init` forgets everything about the previous use of the scanner. -/
theorem init_reset (s0 s1 : Scanner) (h : s0.bad = s1.bad) (src : Str) (mode : Mode) :
    init s0 src mode = init s1 src mode := by
  unfold init
  rw [h]

theorem init_phi (s0 : Scanner) (src : Str) (mode : Mode) : (init s0 src mode).phi ≤ 2 * src.length := by
  unfold phi
  rw [init_rest, (init_fields s0 src mode).2.2.1]
  simp
  omega

theorem init_count (s0 : Scanner) (src : Str) (mode : Mode) :
    (init s0 src mode).errorCount = (init s0 src mode).errs.length := by
  unfold init
  dsimp only
  generalize hs : ({ s0 with
    src := src, mode := mode, lines := [0], errs := [],
    ch := 32, offset := 0, rdOffset := 0, lineOffset := 0, insertSemi := false,
    errorCount := 0 } : Scanner) = s
  have h1 := next_count s
  have h2 := next_count s.next
  have h3 : s.errorCount = 0 := by rw [← hs]
  have h4 : s.errs = [] := by rw [← hs]
  rw [h4] at h1
  simp only [List.length_nil] at h1
  split <;> omega

/-! ### tokens and where they come from -/

/-- A token of a lexed text with its source text. -/
theorem lexes_mem {U : Uni} {ok : Bool} {mode : Mode} {o : Nat} {txt : Str} {semi : Bool} {ts : List Token}
    (h : Lexes U ok mode o txt semi ts) {t : Token} (ht : t ∈ ts) :
    ∃ pre x r semi1 semi2, txt = pre ++ (x ++ r) ∧ t.pos = o + pre.length ∧
      TokText U ok mode.scanComments semi1 t x r semi2 ∧ (semi1 = true → semi = true ∨ mode.insertSemis = true) := by
  induction h with
  | eof hg hp =>
    rename_i o g semi p
    simp only [List.mem_singleton] at ht
    subst ht
    exact ⟨g, [], [], false, false, by simp, hp, .eof, by simp⟩
  | cons hk hg hp htt _ ih =>
    rename_i o g x r semi semi1 semi2 t' ts _
    rcases List.mem_cons.mp ht with rfl | hm
    · exact ⟨g, x, r, semi1, semi2, rfl, hp, htt, fun e => .inl (gap_false hg e)⟩
    · obtain ⟨pre, x', r', a, b, e, hp', ht', hs⟩ := ih hm
      refine ⟨g ++ (x ++ pre), x', r', a, b, by rw [e]; simp, ?_, ht', ?_⟩
      · rw [hp']; simp; omega
      · intro e
        rcases hs e with h | h
        · simp only [Bool.and_eq_true] at h
          exact .inr h.2
        · exact .inr h

end Scanner
end Tpl
