import Verif.Props.Scanner
import Verif.Props.Token

/-! C111: where tokens end. -/
namespace Tpl.Props
open Tpl Tpl.Spec Scanner
variable {U : Uni}

/-- `t` is read from `x`; a keyword is an identifier that has got a kind of its own. -/
def ReadAs (U : Uni) (comments : Bool) (t : Token) (x r : Str) : Prop :=
  ∃ kind semi semi', TokText U true comments semi { t with kind := kind } x r semi' ∧ (kind = t.kind ∨ kind = IDENT ∧ 0xb0 ≤ t.kind)

/-- What `End` gives for a token that is read from `x`. -/
theorem end_of {comments : Bool} {semi semi' : Bool} {t : Token} {x r : Str} (h : TokText U true comments semi t x r semi') :
    (t.kind ≠ SEMICOLON → t.kind ≠ ILLEGAL → (t.kind = STRING ∨ t.kind = COMMENT → 13 ∉ x) → t.End = .ok (t.pos + x.length)) ∧
    (t.kind = SEMICOLON → t.End = .ok (t.pos + 2) ∧ x.length ≤ 1) ∧
    (t.kind = ILLEGAL → t.End = .ok t.pos ∧ x.length = 2) ∧
    (t.kind = STRING ∨ t.kind = COMMENT → t.End = .ok (t.pos + x.length) ∨ t.End = .ok (t.pos + (x.filter (· ≠ 13)).length)) := by
  have hf : ∀ y : Str, 13 ∉ y → y.filter (· ≠ 13) = y := by
    intro y hy
    rw [List.filter_eq_self]
    intro a ha
    simp only [ne_eq, decide_eq_true_eq]
    rintro rfl
    exact hy ha
  have e : ∀ k p l, TokenLen k = .ok 0 → (⟨k, p, l⟩ : Token).End = .ok (p + (l.length : Int)) := by
    intro k p l hk
    unfold Token.End
    rw [hk]
    simp
  cases h with
  | ident | int | float | imag | char | string =>
    refine ⟨fun _ _ _ => e _ _ _ (by decide +kernel), fun h => absurd h (by dsimp only; decide), fun h => absurd h (by dsimp only; decide), fun _ => .inl (e _ _ _ (by decide +kernel))⟩
  | raw =>
    refine ⟨fun _ _ h => ?_, fun h => absurd h (by dsimp only; decide), fun h => absurd h (by dsimp only; decide), fun _ => .inr (e _ _ _ (by decide +kernel))⟩
    rw [e _ _ _ (by decide +kernel), hf x (h (.inl rfl))]
  | comment =>
    refine ⟨fun _ _ h => ?_, fun h => absurd h (by dsimp only; decide), fun h => absurd h (by dsimp only; decide), fun _ => ?_⟩
    · rw [e _ _ _ (by decide +kernel), hf x (h (.inr rfl))]
      simp
    · rw [e _ _ _ (by decide +kernel)]
      dsimp only
      split
      · exact .inl rfl
      · exact .inr rfl
  | op hop =>
    rename_i _ k s _ _ _
    have hl := (C02_tokenLen_partial k).1 s hop
    have hn := operators_ne _ hop
    have hb : (bytes s).length = s.length := by
      have : Spec.operators.all (fun n => decide ((bytes n.2).length = n.2.length)) := by decide +kernel
      simpa using List.all_eq_true.mp this _ hop
    have hs : k = SEMICOLON → s.length = 1 := by
      intro hk
      have : Spec.operators.all (fun n => decide (n.1 = SEMICOLON → n.2.length = 1)) := by decide +kernel
      have := List.all_eq_true.mp this _ hop
      simp only [decide_eq_true_eq] at this
      exact this hk
    have hi : k ≠ ILLEGAL ∧ k ≠ STRING ∧ k ≠ COMMENT := by
      have : Spec.operators.all (fun n => decide (n.1 ≠ ILLEGAL ∧ n.1 ≠ STRING ∧ n.1 ≠ COMMENT)) := by decide +kernel
      simpa using List.all_eq_true.mp this _ hop
    refine ⟨fun h _ _ => ?_, fun h => ?_, fun h => absurd h hi.1, fun h => ?_⟩
    · unfold Token.End
      dsimp only at h ⊢
      rw [hl, if_neg h, hb]
      simp
    · dsimp only at h
      unfold Token.End
      dsimp only
      rw [hl, if_pos h, hb, hs h]
      simp
    · rcases h with h | h
      · exact absurd h hi.2.1
      · exact absurd h hi.2.2
  | newline | semiAtComment | semiAtEnd =>
    refine ⟨fun h => absurd rfl h, fun _ => ⟨?_, by simp⟩, fun h => absurd h (by dsimp only; decide), fun h => absurd h (by dsimp only; decide)⟩
    unfold Token.End
    rw [show TokenLen SEMICOLON = .ok 1 by decide +kernel]
    simp
  | eof =>
    exact ⟨fun _ _ _ => e _ _ _ (by decide +kernel), fun h => absurd h (by dsimp only; decide), fun h => absurd h (by dsimp only; decide), fun h => absurd h (by dsimp only; decide)⟩
  | dots =>
    refine ⟨fun _ h => absurd rfl h, fun h => absurd h (by dsimp only; decide), fun _ => ⟨?_, rfl⟩, fun h => absurd h (by dsimp only; decide)⟩
    rw [e _ _ _ (by decide +kernel)]
    simp
  | illegal h => cases h

/-- C111 (partial): in a text that `Tokenize` accepts, `End` of a token is the offset behind the text
`x` it was read from, except for semicolons and the illegal token `..`, and except for raw strings
and comments with carriage returns; and what it is for those.  Missing is that it is also right for
them, which is false (`C111_violated`). -/
theorem C111_end_partial (kw : Str → Option Nat) (hkw : ∀ w k, kw w = some k → 0xb0 ≤ k) (s0 : Scanner) (src : Str) (mode : Mode)
    (he : (tokenize U kw s0 src mode).2.1 = none) (t : Token) (ht : t ∈ (tokenize U kw s0 src mode).1) :
    ∃ x r, src.drop t.pos = x ++ r ∧ ReadAs U mode.scanComments t x r ∧
      (t.kind ≠ SEMICOLON → t.kind ≠ ILLEGAL → (t.kind = STRING ∨ t.kind = COMMENT → 13 ∉ x) → t.End = .ok (t.pos + x.length)) ∧
      (t.kind = SEMICOLON → t.End = .ok (t.pos + 2) ∧ x.length ≤ 1) ∧
      (t.kind = ILLEGAL → t.End = .ok t.pos ∧ x.length = 2) ∧
      (t.kind = STRING ∨ t.kind = COMMENT → t.End = .ok (t.pos + x.length) ∨ t.End = .ok (t.pos + (x.filter (· ≠ 13)).length)) := by
  obtain ⟨ts, s', h, h1, h2⟩ := tokenize_ok U kw (fun w k h e => by have := hkw w k h; subst e; exact absurd this (by decide)) s0 src mode he
  rw [h2] at ht
  obtain ⟨t', ht', rfl⟩ := List.mem_map.mp ht
  have ht'' : t' ∈ ts := List.dropLast_subset _ ht'
  obtain ⟨x, r, a, b, e1, e2, _⟩ := run_mem h true (fun _ => h1) ht''
  unfold kwTok
  split
  · rename_i hi
    split
    · rename_i k hk
      refine ⟨x, r, e1, ⟨t'.kind, a, b, e2, .inr ⟨hi, hkw _ _ hk⟩⟩, ?_⟩
      have hk := hkw _ _ hk
      obtain ⟨h3, _⟩ := end_of e2
      have h4 := h3 (by rw [hi]; decide) (by rw [hi]; decide) (fun h => by rw [hi] at h; exact absurd h (by decide))
      have hE : ({ t' with kind := k } : Token).End = t'.End := by
        unfold Token.End
        dsimp only
        rw [hi, (C02_tokenLen_partial k).2 (.inr (by omega)), (C02_tokenLen_partial IDENT).2 (.inl (by decide))]
      have hne : k ≠ SEMICOLON ∧ k ≠ ILLEGAL ∧ k ≠ STRING ∧ k ≠ COMMENT := by
        refine ⟨?_, ?_, ?_, ?_⟩ <;> (rintro rfl; exact absurd hk (by decide))
      exact ⟨fun _ _ _ => hE.trans h4, fun h => absurd h hne.1, fun h => absurd h hne.2.1, fun _ => .inl (hE.trans h4)⟩
    · exact ⟨x, r, e1, ⟨t'.kind, a, b, e2, .inl rfl⟩, end_of e2⟩
  · exact ⟨x, r, e1, ⟨t'.kind, a, b, e2, .inl rfl⟩, end_of e2⟩

/-- The tokens of a text, each with its `End`. -/
def tokenEnds (src : Str) (mode : Mode) : List (Nat × Nat × GoRes Int) :=
  (tokenize ascii noKw Scanner.zero src mode).1.map fun t => (t.kind, t.pos, t.End)

/-- A semicolon, a semicolon for a line end, and one for the end of the text; a raw string with a
carriage return; `..`. -/
theorem C111_violated :
    tokenEnds (bytes "a; b") ⟨false, false⟩ = [(IDENT, 0, .ok 1), (SEMICOLON, 1, .ok 3), (IDENT, 3, .ok 4)] ∧
    tokenEnds (bytes "a\nb") ⟨false, true⟩ = [(IDENT, 0, .ok 1), (SEMICOLON, 1, .ok 3), (IDENT, 2, .ok 3), (SEMICOLON, 3, .ok 5)] ∧
    tokenEnds (bytes "`a\r\n`") ⟨false, false⟩ = [(STRING, 0, .ok 4)] ∧
    tokenEnds (bytes "..") ⟨false, false⟩ = [(ILLEGAL, 0, .ok 0)] ∧
    (tokenize ascii noKw Scanner.zero (bytes "..") ⟨false, false⟩).2.1 = none := by decide +kernel

example : tokenEnds (bytes "x <<= \"ab\" + 0x1F") ⟨false, false⟩ = [(IDENT, 0, .ok 1), (SHL_ASSIGN, 2, .ok 5), (STRING, 6, .ok 10), (43, 11, .ok 12), (INT, 13, .ok 17)] ∧
    (tokenize ascii noKw Scanner.zero (bytes "x <<= \"ab\" + 0x1F") ⟨false, false⟩).2.1 = none := by decide +kernel

end Tpl.Props
