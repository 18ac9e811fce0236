import Verif.Props.Scanner
import Verif.Proof.ScannerAccept

/-! C78: which texts are accepted.

`Clean txt`: the text is UTF-8 and contains neither NUL characters nor byte order
marks.  `Lexes U true mode o txt false ts`: the text, which starts at offset `o`,
is a sequence of well-formed tokens, white space and comments, and its tokens
are `ts` (see `Verif/Spec/Lexical.lean`). -/
namespace Tpl.Props
open Tpl Tpl.Spec Tpl.Scanner

theorem run_snoc {U : Uni} {s s' : Scanner} {ts : List Token} (h : Run U s ts s') : ∃ us e, ts = us ++ [e] := by
  induction h with
  | eof => exact ⟨[], _, rfl⟩
  | cons _ _ _ ih =>
    obtain ⟨us, e, rfl⟩ := ih
    exact ⟨_ :: us, e, rfl⟩

/-- C78: scanning a text reports no error exactly if the text is well-formed,
and then the tokens returned are those of the lexical grammar. -/
theorem C78_scan (U : Uni) (s0 : Scanner) (src : Str) (mode : Mode) (ts : List Token) :
    (∃ s', Run U (Scanner.init s0 src mode) ts s' ∧ s'.errorCount = 0) ↔
      Clean (src.drop (bomLen src)) ∧ Lexes U true mode (bomLen src) (src.drop (bomLen src)) false ts := by
  rw [← run_iff U s0 src mode ts]
  have key : ∀ s', Run U (Scanner.init s0 src mode) ts s' → (s'.errorCount = 0 ↔ s'.errs = []) := by
    intro s' h
    have h1 := (run_go h (init_inv s0 src mode)).1.count
    have h2 := init_count s0 src mode
    rw [← List.length_eq_zero_iff]
    omega
  constructor
  · rintro ⟨s', h, he⟩
    exact ⟨s', h, (key s' h).mp he⟩
  · rintro ⟨s', h, he⟩
    exact ⟨s', h, (key s' h).mpr he⟩

/-- C78: `Tokenize` succeeds on exactly the well-formed texts and returns the
tokens of the lexical grammar before EOF, with keyword kinds applied. -/
theorem C78_tokenize (U : Uni) (kw : Str → Option Nat) (hkw : ∀ w k, kw w = some k → k ≠ EOF)
    (s0 : Scanner) (src : Str) (mode : Mode) (ts : List Token) :
    (∃ s', tokenize U kw s0 src mode = (ts, none, s')) ↔
      Clean (src.drop (bomLen src)) ∧ ∃ us eof,
        Lexes U true mode (bomLen src) (src.drop (bomLen src)) false (us ++ [eof]) ∧ ts = us.map (kwTok kw) := by
  constructor
  · rintro ⟨s', h⟩
    obtain ⟨us, s1, h1, h2, h3⟩ := tokenize_ok U kw hkw s0 src mode (by rw [h])
    rw [h] at h3
    obtain ⟨hc, hl⟩ := (run_iff U s0 src mode us).mp ⟨s1, h1, h2⟩
    obtain ⟨us, e, rfl⟩ := run_snoc h1
    rw [List.dropLast_concat] at h3
    exact ⟨hc, us, e, hl, h3⟩
  · rintro ⟨hc, us, e, hl, rfl⟩
    obtain ⟨s', h1, h2⟩ := (run_iff U s0 src mode _).mpr ⟨hc, hl⟩
    have hcount : s'.errorCount = 0 := by
      have h1 := (run_go h1 (init_inv s0 src mode)).1.count
      have h3 := init_count s0 src mode
      have h4 := List.length_eq_zero_iff.mpr h2
      omega
    have := (C14_tokenize U kw hkw s0 s' src mode _ h1).1 hcount
    rw [List.dropLast_concat] at this
    exact ⟨s', this⟩

/-- C78: the lexical grammar is unambiguous. -/
theorem C78_unambiguous (U : Uni) (mode : Mode) (txt : Str) (hb : bomLen txt = 0) (hc : Clean txt) (ts us : List Token)
    (h1 : Lexes U true mode 0 txt false ts) (h2 : Lexes U true mode 0 txt false us) : ts = us := by
  have key : ∀ vs, Lexes U true mode 0 txt false vs → ∃ s', Run U (Scanner.init Scanner.zero txt mode) vs s' := by
    intro vs h
    obtain ⟨s', h, _⟩ := (run_iff U Scanner.zero txt mode vs).mpr (by rw [hb]; exact ⟨hc, h⟩)
    exact ⟨s', h⟩
  obtain ⟨_, r1⟩ := key ts h1
  obtain ⟨_, r2⟩ := key us h2
  exact (r1.functional r2).1

/-- ASCII text without NUL is clean. -/
theorem clean_ascii : ∀ (txt : Str), (∀ b ∈ txt, b.toNat ≠ 0 ∧ b.toNat < 0x80) → Clean txt := by
  intro txt
  induction txt with
  | nil => intro _; exact .nil
  | cons b t ih =>
    intro h
    have hb := h b (by simp)
    refine Clean.cons (u := [b]) (c := b.toNat) (by simp) ?_ hb.1 (by omega) ?_ (ih fun c hc => h c (by simp [hc]))
    · rw [List.singleton_append, decodeRune_ascii hb.2]; rfl
    · simp only [RuneError]; omega

/-- `x = 07 /* */` and a newline: identifier, operator, octal number, automatic semicolon. -/
example (U : Uni) : ∃ s', tokenize U noKw Scanner.zero (bytes "x = 07 /* */\n") ⟨false, true⟩ =
    ([⟨IDENT, 0, bytes "x"⟩, ⟨ASSIGN, 2, []⟩, ⟨INT, 4, bytes "07"⟩, ⟨SEMICOLON, 7, [10]⟩], none, s') := by
  refine (C78_tokenize U noKw (by intro w k h; cases h) _ _ _ _).mpr ?_
  have e : bytes "x = 07 /* */\n" = [120, 32, 61, 32, 48, 55, 32, 47, 42, 32, 42, 47, 10] := by decide +kernel
  rw [e]
  refine ⟨clean_ascii _ (by decide +kernel), [⟨IDENT, 0, [120]⟩, ⟨ASSIGN, 2, []⟩, ⟨INT, 4, [48, 55]⟩, ⟨SEMICOLON, 7, [10]⟩], ⟨EOF, 13, []⟩, ?_, ?_⟩
  · have hL : ∀ c : Int, c = 120 → Letter U c := by intro c h; subst h; exact .inl ⟨by decide, by decide⟩
    have hN : ∀ c : Int, c = 32 → ¬ (Letter U c ∨ Digit U c) := by intro c h; subst h; unfold Letter Digit; omega
    refine Lexes.cons (g := []) (x := [120]) (r := [32, 61, 32, 48, 55, 32, 47, 42, 32, 42, 47, 10]) (semi1 := false) (semi2 := true)
      (by decide) .nil rfl (.ident (by simp) (hL _ (by decide +kernel)) (.cons (u := [120]) (by simp) (by decide +kernel) (.inl (hL _ (by decide +kernel))) (.nil _))
        (hN _ (by decide +kernel))) ?_
    refine Lexes.cons (g := [32]) (x := bytes "=") (r := [32, 48, 55, 32, 47, 42, 32, 42, 47, 10]) (semi1 := true) (semi2 := endsStatement ASSIGN)
      (by decide) (.space (.inl rfl) .nil) rfl (.op (s := "=") (by decide +kernel) (fun k s h => ?_) (fun h => absurd h.1 (by decide)) (fun h => absurd h.1 (by decide))) ?_
    · have key : ∀ p ∈ operators, bytes p.2 <+: bytes "=" ++ [32, 48, 55, 32, 47, 42, 32, 42, 47, 10] → p.2.length ≤ "=".length := by decide +kernel
      exact key (k, s) h
    refine Lexes.cons (g := [32]) (x := [48, 55]) (r := [32, 47, 42, 32, 42, 47, 10]) (semi1 := false) (semi2 := true)
      (by decide) (.space (.inl rfl) .nil) rfl (.int (.oct (ds := [55]) ?_ ?_ ?_ ?_)) ?_
    · intro b hb
      obtain rfl : b = 55 := by simpa using hb
      exact ⟨by decide, by decide⟩
    · rintro ⟨b, t, h, hb⟩
      injection h with h _
      subst h
      exact absurd hb.1 (by decide)
    · rintro (⟨t, h⟩ | ⟨t, h⟩ | ⟨t, h⟩ | ⟨t, h⟩) <;> injection h with h _ <;> exact absurd h (by decide)
    · rintro ⟨h, _⟩; cases h
    refine Lexes.cons (g := [32]) (x := []) (r := [47, 42, 32, 42, 47, 10]) (semi1 := true) (semi2 := false)
      (by decide) (.space (.inl rfl) .nil) rfl (.semiAtComment (.inl ?_)) ?_
    · exact LineAhead.after (b := [32]) (ws := []) (t := [10]) (by decide) (by decide) (by simp) (.inr ⟨[], rfl⟩)
    refine Lexes.eof (g := [47, 42, 32, 42, 47, 10]) ?_ rfl
    exact Gap.comment (c := [47, 42, 32, 42, 47]) (g := [10]) rfl (.block (b := [32]) (by decide)) (by simp) (.space (.inr (.inr (.inr ⟨rfl, rfl⟩))) .nil)
  · simp only [List.map, kwTok_noKw]
    decide +kernel

/-- A text with an unclosed string has no token sequence, so `Tokenize` fails on it. -/
example (mode : Mode) (ts : List Token) : ¬ Lexes ascii true mode 0 (bytes "\"a") false ts := by
  intro h
  have e : bytes "\"a" = [34, 97] := by decide +kernel
  rw [e] at h
  have hc : Clean [34, 97] := clean_ascii _ (by decide +kernel)
  obtain ⟨s', h1, h2⟩ := (run_iff ascii Scanner.zero [34, 97] mode ts).mpr ⟨hc, h⟩
  obtain ⟨m1, m2⟩ := mode
  have key : ∀ m1 m2 : Bool, ∃ ts s', Run ascii (Scanner.init Scanner.zero [34, 97] ⟨m1, m2⟩) ts s' ∧ s'.errs ≠ [] := by
    intro m1 m2
    obtain ⟨us, s1, hr⟩ := C03_terminates ascii Scanner.zero [34, 97] ⟨m1, m2⟩
    refine ⟨us, s1, hr.1, ?_⟩
    intro he
    have := (C14_tokenize ascii noKw (by intro w k h; cases h) Scanner.zero s1 [34, 97] ⟨m1, m2⟩ us hr.1).1 (by
      have h1 := (run_go hr.1 (init_inv Scanner.zero [34, 97] ⟨m1, m2⟩)).1.count
      have h3 := init_count Scanner.zero [34, 97] ⟨m1, m2⟩
      have h4 := List.length_eq_zero_iff.mpr he
      omega)
    have e2 : (tokenize ascii noKw Scanner.zero [34, 97] ⟨m1, m2⟩).2.1 = none := by rw [this]
    revert e2
    cases m1 <;> cases m2 <;> decide +kernel
  obtain ⟨us, s1, h3, h4⟩ := key m1 m2
  obtain ⟨_, rfl⟩ := h1.functional h3
  exact h4 h2

end Tpl.Props
