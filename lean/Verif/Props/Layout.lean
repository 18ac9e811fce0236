import Verif.Props.Lexer
import Verif.Proof.Layout

/-! C114: white space and comments only separate tokens. -/
namespace Tpl.Props
open Tpl Tpl.Spec Scanner
variable {U : Uni}

theorem laidOut_read (kw : Str → Option Nat) (hkw : ∀ w k, kw w = some k → 0xb0 ≤ k) (ins : Bool) {s0 s' : Scanner} (s1 : Scanner) {src : Str} {ts : List Token}
    (h : tokenize U kw s0 src ⟨false, ins⟩ = (ts, none, s')) (hlast : ins = true → ∀ t ∈ ts.getLast?, t.kind = SEMICOLON)
    {w txt : Str} {ts' : List Token} (hw : ∀ b ∈ w, b = 32 ∨ b = 9 ∨ b = 13 ∨ b = 10) (hl : LaidOut (!ins) w.length ts txt ts') :
    ∃ s'', tokenize U kw s1 (w ++ txt) ⟨false, ins⟩ = (ts', none, s'') := by
  have hk1 : ∀ w k, kw w = some k → k ≠ EOF := fun w k h e => by have := hkw w k h; subst e; exact absurd this (by decide)
  have hk2 : ∀ w k, kw w = some k → k ≠ SEMICOLON := fun w k h e => by have := hkw w k h; subst e; exact absurd this (by decide)
  obtain ⟨hc, us, eof, h1, rfl⟩ := (C78_tokenize U kw hk1 s0 src ⟨false, ins⟩ ts).mp ⟨s', h⟩
  have hd : us = (us ++ [eof]).dropLast := by simp
  rw [hd] at hl hlast
  obtain ⟨vs, rfl, v1, v2⟩ := layout_lexes hk2 h1 hc hl ⟨fun _ => rfl, hlast⟩
  have hw' : ∀ b ∈ w, Space (!false) b := by
    intro b hb
    rcases hw b hb with h | h | h | h
    · exact .inl h
    · exact .inr (.inl h)
    · exact .inr (.inr (.inl h))
    · exact .inr (.inr (.inr ⟨h, rfl⟩))
  have hcl := clean_append (white_clean hw') v1
  refine (C78_tokenize U kw hk1 s1 (w ++ txt) ⟨false, ins⟩ _).mpr ?_
  rw [bomLen_clean hcl, List.drop_zero]
  refine ⟨hcl, vs, ⟨EOF, w.length + txt.length, []⟩, lexes_white hw' ?_, rfl⟩
  rw [Nat.zero_add]
  exact v2

/-- C114: if `Tokenize` accepts a text without InsertSemis, then it reads the tokens `ts` of the text
back, kinds and literals, from every text in which they are written one after the other with any white
space between them, and the positions are the places where they have been written. -/
theorem C114_laid_out (kw : Str → Option Nat) (hkw : ∀ w k, kw w = some k → 0xb0 ≤ k) {s0 s' : Scanner} (s1 : Scanner) {src : Str} {ts : List Token}
    (h : tokenize U kw s0 src ⟨false, false⟩ = (ts, none, s'))
    {w txt : Str} {ts' : List Token} (hw : ∀ b ∈ w, b = 32 ∨ b = 9 ∨ b = 13 ∨ b = 10) (hl : LaidOut true w.length ts txt ts') :
    ∃ s'', tokenize U kw s1 (w ++ txt) ⟨false, false⟩ = (ts', none, s'') :=
  laidOut_read kw hkw false s1 h (fun h => nomatch h) hw hl

/-- C114 (partial): the same with InsertSemis, where automatic semicolons are written as newlines and
the white space has no other newlines, for texts that end with a semicolon.  Missing are texts that
end with another token, for which it is false (`C114_violated`). -/
theorem C114_semis_partial (kw : Str → Option Nat) (hkw : ∀ w k, kw w = some k → 0xb0 ≤ k) {s0 s' : Scanner} (s1 : Scanner) {src : Str} {ts : List Token}
    (h : tokenize U kw s0 src ⟨false, true⟩ = (ts, none, s')) (hlast : ∀ t ∈ ts.getLast?, t.kind = SEMICOLON)
    {w txt : Str} {ts' : List Token} (hw : ∀ b ∈ w, b = 32 ∨ b = 9 ∨ b = 13 ∨ b = 10) (hl : LaidOut false w.length ts txt ts') :
    ∃ s'', tokenize U kw s1 (w ++ txt) ⟨false, true⟩ = (ts', none, s'') :=
  laidOut_read kw hkw true s1 h (fun _ => hlast) hw hl

/-- Every list of tokens can be laid out. -/
theorem laidOut_all (nl : Bool) : ∀ (ts : List Token) (o : Nat), ∃ txt ts', LaidOut nl o ts txt ts'
  | [], o => ⟨_, _, .nil⟩
  | t :: ts, o => by
    obtain ⟨txt, ts', h⟩ := laidOut_all nl ts (o + (tokenText t).length + [(32 : UInt8)].length)
    exact ⟨_, _, .cons (w := [32]) (by simp) (fun b hb => .inl (List.mem_singleton.mp hb)) h⟩

/-- Kinds and literals of the tokens of a text, and whether it is accepted. -/
def readsAs (src : Str) (mode : Mode) : List (Nat × Str) × Bool :=
  let r := tokenize ascii noKw Scanner.zero src mode
  (r.1.map fun t => (t.kind, t.lit), r.2.1.isNone)

/-- With InsertSemis the comments of `x /* c */ # d` are not the same as white space: they prevent the
automatic semicolon at the end of the text. -/
theorem C114_violated :
    readsAs (bytes "x /* c */ # d") ⟨false, true⟩ = ([(IDENT, [120])], true) ∧
    readsAs (bytes "x ") ⟨false, true⟩ = ([(IDENT, [120]), (SEMICOLON, [10])], true) ∧
    LaidOut false 0 [⟨IDENT, 0, [120]⟩] (bytes "x ") [⟨IDENT, 0, [120]⟩] := by
  refine ⟨by decide +kernel, by decide +kernel, ?_⟩
  rw [show bytes "x " = tokenText ⟨IDENT, 0, [120]⟩ ++ ([32] ++ []) by decide +kernel]
  exact .cons (by simp) (fun b hb => .inl (List.mem_singleton.mp hb)) .nil

/-- `a/* */+=1.5//` is accepted, and `a += 1.5` on three lines has its tokens. -/
example : readsAs (bytes "a/* */+=1.5//") ⟨false, false⟩ = ([(IDENT, [97]), (ADD_ASSIGN, []), (FLOAT, bytes "1.5")], true) ∧
    readsAs (bytes "a\n+=\n1.5\n") ⟨false, false⟩ = ([(IDENT, [97]), (ADD_ASSIGN, []), (FLOAT, bytes "1.5")], true) ∧
    ([⟨IDENT, 0, [97]⟩, ⟨ADD_ASSIGN, 0, []⟩, ⟨FLOAT, 0, bytes "1.5"⟩] : List Token).map tokenText = [bytes "a", bytes "+=", bytes "1.5"] := by decide +kernel

/-- The text of a qlang program, and a layout of it. -/
example : readsAs (bytes "x=`a`;//\ny--") ⟨false, true⟩ = ([(IDENT, [120]), (ASSIGN, []), (STRING, bytes "`a`"), (SEMICOLON, [59]), (IDENT, [121]), (DEC, []), (SEMICOLON, [10])], true) ∧
    readsAs (bytes "x = `a` ; y -- \n ") ⟨false, true⟩ = ([(IDENT, [120]), (ASSIGN, []), (STRING, bytes "`a`"), (SEMICOLON, [59]), (IDENT, [121]), (DEC, []), (SEMICOLON, [10])], true) := by decide +kernel

end Tpl.Props
