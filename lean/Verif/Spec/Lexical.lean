import Verif.Model.Scanner
import Verif.Spec.Token

/-
Lexical specification of TPL texts: what the token sequence of a source text
is, as a relation between text and tokens.  It uses the data types of the model
(`Token`, `Mode`, `Uni`) and the UTF-8 decoder, but none of the scanner's
functions.
-/
namespace Tpl.Spec
open Tpl

/-- First character of a text (-1 at the end) -/
def headRune (r : Str) : Int := if r = [] then -1 else (decodeRune r).1

/-- `x` is a sequence of characters all satisfying `P`, when followed by `r`. -/
inductive Runes (P : Int → Prop) : Str → Str → Prop
  | nil (r) : Runes P [] r
  | cons {u x r} : u ≠ [] → decodeRune (u ++ (x ++ r)) = ((decodeRune (u ++ (x ++ r))).1, u.length) →
      P (headRune (u ++ (x ++ r))) → Runes P x r → Runes P (u ++ x) r

/-- Letters and digits of identifiers. -/
def Letter (U : Uni) (c : Int) : Prop :=
  (97 ≤ c ∧ c ≤ 122) ∨ (65 ≤ c ∧ c ≤ 90) ∨ c = 95 ∨ (0x80 ≤ c ∧ U.isLetter c.toNat = true)
def Digit (U : Uni) (c : Int) : Prop :=
  (48 ≤ c ∧ c ≤ 57) ∨ (0x80 ≤ c ∧ U.isDigit c.toNat = true)

/-- ASCII digit bytes. -/
def IsDec (b : UInt8) : Prop := 48 ≤ b.toNat ∧ b.toNat ≤ 57
def IsOct (b : UInt8) : Prop := 48 ≤ b.toNat ∧ b.toNat ≤ 55
def IsHex (b : UInt8) : Prop :=
  (48 ≤ b.toNat ∧ b.toNat ≤ 57) ∨ (97 ≤ b.toNat ∧ b.toNat ≤ 102) ∨ (65 ≤ b.toNat ∧ b.toNat ≤ 70)

/-- Character classes at the start of the following text. -/
def DecNext (r : Str) : Prop := ∃ b t, r = b :: t ∧ IsDec b
def OctNext (r : Str) : Prop := ∃ b t, r = b :: t ∧ IsOct b
def HexNext (r : Str) : Prop := ∃ b t, r = b :: t ∧ IsHex b
def CharNext (c : UInt8) (r : Str) : Prop := ∃ t, r = c :: t
/-- '.', 'e', 'E' or 'i' follows. -/
def FracNext (r : Str) : Prop :=
  CharNext 46 r ∨ CharNext 101 r ∨ CharNext 69 r ∨ CharNext 105 r

/-- An integer numeral followed by `r` where it ends. `ok = false` admits the
two malformed shapes the scanner reports (`0x` without digits, digits 8 and 9
after a leading 0). -/
inductive IntText (ok : Bool) : Str → Str → Prop
  | dec {d ds r} : IsDec d → d ≠ 48 → (∀ b ∈ ds, IsDec b) → ¬ DecNext r → ¬ FracNext r →
      IntText ok (d :: ds) r
  | oct {ds r} : (∀ b ∈ ds, if ok then IsOct b else IsDec b) → ¬ DecNext r → ¬ FracNext r →
      ¬ (ds = [] ∧ (CharNext 120 r ∨ CharNext 88 r)) → IntText ok (48 :: ds) r
  | hex {x ds r} : x = 120 ∨ x = 88 → (∀ b ∈ ds, IsHex b) → (ok → ds ≠ []) → ¬ HexNext r →
      IntText ok (48 :: x :: ds) r

/-- Exponent part (possibly empty): `e`, optional sign, decimal digits (possibly none:
the scanner accepts `1e`). -/
inductive ExpText : Str → Str → Prop
  | none {r} : ¬ CharNext 101 r → ¬ CharNext 69 r → ExpText [] r
  | some {e sg ds r} : e = 101 ∨ e = 69 → sg = [] ∨ sg = [45] ∨ sg = [43] → (∀ b ∈ ds, IsDec b) →
      ¬ DecNext r → (sg = [] → ds = [] → ¬ CharNext 45 r ∧ ¬ CharNext 43 r) → ExpText (e :: (sg ++ ds)) r

/-- Floating point body: digits, optional fraction, optional exponent. -/
inductive FloatText : Str → Str → Prop
  | frac {ds fs ex r} : (∀ b ∈ ds, IsDec b) → (∀ b ∈ fs, IsDec b) → (ds = [] → fs ≠ []) →
      ¬ DecNext (ex ++ r) → ExpText ex r → FloatText (ds ++ 46 :: (fs ++ ex)) r
  | exp {ds ex r} : (∀ b ∈ ds, IsDec b) → ds ≠ [] → ex ≠ [] → ExpText ex r → FloatText (ds ++ ex) r

/-- Imaginary literals: decimal digits or a floating point body followed by `i`. -/
inductive ImagText : Str → Str → Prop
  | int {ds r} : (∀ b ∈ ds, IsDec b) → ds ≠ [] → ImagText (ds ++ [105]) r
  | float {x r} : FloatText x (105 :: r) → ImagText (x ++ [105]) r

/-- Value of a hexadecimal (or smaller base) digit. -/
def digit (b : UInt8) : Nat :=
  if b.toNat < 65 then b.toNat - 48 else if b.toNat < 97 then b.toNat - 55 else b.toNat - 87
def numeral (base : Nat) (ds : Str) : Nat := ds.foldl (fun x d => x * base + digit d) 0

/-- A valid Unicode code point. -/
def ValidRune (n : Nat) : Prop := n ≤ 0x10FFFF ∧ ¬ (0xD800 ≤ n ∧ n < 0xE000)

/-- A complete escape sequence inside a literal quoted by `q`. -/
inductive Escape (q : UInt8) : Str → Prop
  | simple {c} : c ∈ [97, 98, 102, 110, 114, 116, 118, 92, q] → Escape q [92, c]
  | oct {ds} : ds.length = 3 → (∀ b ∈ ds, IsOct b) → numeral 8 ds ≤ 255 → Escape q (92 :: ds)
  | hex {ds} : ds.length = 2 → (∀ b ∈ ds, IsHex b) → Escape q (92 :: 120 :: ds)
  | u4 {ds} : ds.length = 4 → (∀ b ∈ ds, IsHex b) → ValidRune (numeral 16 ds) →
      Escape q (92 :: 117 :: ds)
  | u8 {ds} : ds.length = 8 → (∀ b ∈ ds, IsHex b) → ValidRune (numeral 16 ds) →
      Escape q (92 :: 85 :: ds)

/-- Contents of an interpreted string literal. -/
inductive StrBody (q : UInt8) : Str → Prop
  | nil : StrBody q []
  | plain {b x} : b ≠ 10 → b ≠ q → b ≠ 92 → StrBody q x → StrBody q (b :: x)
  | esc {e x} : Escape q e → StrBody q x → StrBody q (e ++ x)

/-- Contents of a character literal: one escape or one character. -/
inductive CharBody : Str → Str → Prop
  | esc {e r} : Escape 39 e → CharBody e r
  | char {u r} : decodeRune (u ++ r) = ((decodeRune (u ++ r)).1, u.length) → u ≠ [] →
      u.head? ≠ some 10 → u.head? ≠ some 39 → u.head? ≠ some 92 → CharBody u r

/-- `*/` does not occur in the text. -/
def noClose : Str → Bool
  | [] => true
  | a :: t => !(a == 42 && t.head? == some 47) && noClose t

/-- Where a line comment ends: at a newline or at the end of the text. -/
def LineEnd (r : Str) : Prop := r = [] ∨ CharNext 10 r

/-- A comment followed by `r`; `ok = false` admits an unterminated one. -/
inductive CommentText (ok : Bool) : Str → Str → Prop
  | line {b r} : 10 ∉ b → LineEnd r → CommentText ok (47 :: 47 :: b) r
  | sharp {b r} : 10 ∉ b → LineEnd r → CommentText ok (35 :: b) r
  | block {b r} : noClose (b ++ [42]) = true → CommentText ok (47 :: 42 :: (b ++ [42, 47])) r
  | unclosed {b} : ok = false → noClose b = true → CommentText ok (47 :: 42 :: b) []

/-- White space characters; newlines count only if `nl`. -/
def Space (nl : Bool) (b : UInt8) : Prop := b = 32 ∨ b = 9 ∨ b = 13 ∨ (b = 10 ∧ nl = true)

/-- The text starts with a `//` comment, or with a block comment that reaches a
line end: it contains a newline, is not closed, is followed (after blanks) by a
newline or the end of the text, or by another such comment. -/
inductive LineAhead : Str → Prop
  | line {t} : LineAhead (47 :: 47 :: t)
  | inside {b t} : noClose b = true → 10 ∉ b → LineAhead (47 :: 42 :: (b ++ 10 :: t))
  | unclosed {b} : noClose b = true → 10 ∉ b → LineAhead (47 :: 42 :: b)
  | after {b ws t} : noClose (b ++ [42]) = true → 10 ∉ b → (∀ c ∈ ws, Space false c) → LineEnd t →
      LineAhead (47 :: 42 :: (b ++ 42 :: 47 :: (ws ++ t)))
  | chain {b ws t} : noClose (b ++ [42]) = true → 10 ∉ b → (∀ c ∈ ws, Space false c) → LineAhead t →
      LineAhead (47 :: 42 :: (b ++ 42 :: 47 :: (ws ++ t)))

/-- Text skipped between tokens, followed by `r`.  `comments`: comments are
tokens and not skipped.  `semi`: a semicolon is due at the next newline, so a
newline is not skipped until a comment (one that reaches no line end) has been
skipped.  `semi'`: whether it is still due afterwards. -/
inductive Gap (ok comments : Bool) : Bool → Str → Str → Bool → Prop
  | nil {semi r} : Gap ok comments semi [] r semi
  | space {semi b g r semi'} : Space (!semi) b → Gap ok comments semi g r semi' →
      Gap ok comments semi (b :: g) r semi'
  | comment {semi c g r semi'} : comments = false → CommentText ok c (g ++ r) →
      (semi = true → ¬ LineAhead (c ++ (g ++ r)) ∧ ¬ CharNext 35 c) →
      Gap ok comments false g r semi' → Gap ok comments semi (c ++ g) r semi'

/-- Tokens after which a newline means a semicolon. -/
def endsStatement (k : Nat) : Bool :=
  k ∈ [IDENT, INT, FLOAT, IMAG, CHAR, STRING, RPAREN, RBRACK, RBRACE, INC, DEC]

/-- The first character starts no token, comment or white space. -/
def NoToken (U : Uni) (r : Str) : Prop :=
  ¬ Letter U (headRune r) ∧ ¬ DecNext r ∧ (∀ c ∈ [32, 9, 13, 10, 34, 39, 96, 35], ¬ CharNext c r) ∧
    ∀ k s, (k, s) ∈ operators → ¬ bytes s <+: r

/-- `t` is the token read from the text `x` followed by `r`, where `semi` says
that a semicolon is due.  `ok = false` admits malformed literals.  The last
argument says whether a semicolon is due after it. -/
inductive TokText (U : Uni) (ok comments : Bool) : Bool → Token → Str → Str → Bool → Prop
  | ident {semi p x r} : x ≠ [] → Letter U (headRune (x ++ r)) →
      Runes (fun c => Letter U c ∨ Digit U c) x r → ¬ (Letter U (headRune r) ∨ Digit U (headRune r)) →
      TokText U ok comments semi ⟨IDENT, p, x⟩ x r true
  | int {semi p x r} : IntText ok x r → TokText U ok comments semi ⟨INT, p, x⟩ x r true
  | float {semi p x r} : FloatText x r → ¬ CharNext 105 r →
      TokText U ok comments semi ⟨FLOAT, p, x⟩ x r true
  | imag {semi p x r} : ImagText x r → TokText U ok comments semi ⟨IMAG, p, x⟩ x r true
  | char {semi p x r} : CharNext 39 x →
      (ok → ∃ b, x = 39 :: (b ++ [39]) ∧ CharBody b (39 :: r)) →
      TokText U ok comments semi ⟨CHAR, p, x⟩ x r true
  | string {semi p x r} : CharNext 34 x → (ok → ∃ b, x = 34 :: (b ++ [34]) ∧ StrBody 34 b) →
      TokText U ok comments semi ⟨STRING, p, x⟩ x r true
  | raw {semi p x r} : CharNext 96 x → (ok → ∃ b, x = 96 :: (b ++ [96]) ∧ 96 ∉ b) →
      TokText U ok comments semi ⟨STRING, p, x.filter (· ≠ 13)⟩ x r true
  | comment {semi p x r} : comments = true → CommentText ok x r →
      (semi = true → ¬ LineAhead (x ++ r) ∧ ¬ CharNext 35 x) →
      TokText U ok comments semi ⟨COMMENT, p, if x.head? = some 35 then x else x.filter (· ≠ 13)⟩ x r false
  | op {semi p k s r} : (k, s) ∈ operators →
      (∀ k' s', (k', s') ∈ operators → bytes s' <+: bytes s ++ r → s'.length ≤ s.length) →
      ¬ (k = QUO ∧ (CharNext 47 r ∨ CharNext 42 r)) → ¬ (k = PERIOD ∧ (DecNext r ∨ CharNext 46 r)) →
      TokText U ok comments semi ⟨k, p, if k = SEMICOLON then [59] else []⟩ (bytes s) r
        (endsStatement k)
  | newline {p r} : TokText U ok comments true ⟨SEMICOLON, p, [10]⟩ [10] r false
  | semiAtComment {p r} : LineAhead r ∨ CharNext 35 r → TokText U ok comments true ⟨SEMICOLON, p, [10]⟩ [] r false
  | semiAtEnd {p} : TokText U ok comments true ⟨SEMICOLON, p, [10]⟩ [] [] false
  | eof {p} : TokText U ok comments false ⟨EOF, p, []⟩ [] [] false
  | dots {semi p r} : ¬ CharNext 46 r → TokText U ok comments semi ⟨ILLEGAL, p, []⟩ [46, 46] r false
  | illegal {semi p x r} : ok = false → x ≠ [] →
      decodeRune (x ++ r) = ((decodeRune (x ++ r)).1, x.length) →
      NoToken U (x ++ r) →
      TokText U ok comments semi ⟨ILLEGAL, p, encodeRune (decodeRune (x ++ r)).1⟩ x r semi

/-- The token sequence of the text `txt` that starts at offset `o`, up to and
including EOF. `semi`: a semicolon is due. -/
inductive Lexes (U : Uni) (ok : Bool) (mode : Mode) : Nat → Str → Bool → List Token → Prop
  | eof {o g semi p} : Gap ok mode.scanComments semi g [] false → p = o + g.length →
      Lexes U ok mode o g semi [⟨EOF, p, []⟩]
  | cons {o g x r semi semi1 semi2 t ts} : t.kind ≠ EOF →
      Gap ok mode.scanComments semi g (x ++ r) semi1 → t.pos = o + g.length →
      TokText U ok mode.scanComments semi1 t x r semi2 →
      Lexes U ok mode (o + g.length + x.length) r (semi2 && mode.insertSemis) ts →
      Lexes U ok mode o (g ++ (x ++ r)) semi (t :: ts)

/-- Text in UTF-8 without NUL characters and byte order marks. -/
inductive Clean : Str → Prop
  | nil : Clean []
  | cons {u t : Str} {c : Nat} : u ≠ [] → decodeRune (u ++ t) = (c, u.length) → c ≠ 0 → c ≠ 0xFEFF →
      ¬ (c = RuneError ∧ u.length = 1) → Clean t → Clean (u ++ t)

/-- White space and, unless comments are tokens, comments. -/
inductive Blank (comments : Bool) : Str → Prop
  | nil : Blank comments []
  | space {b g} : b = 32 ∨ b = 9 ∨ b = 13 ∨ b = 10 → Blank comments g → Blank comments (b :: g)
  | comment {c r g} : comments = false → CommentText false c r → Blank comments g → Blank comments (c ++ g)

/-- The token `t` is read from the text `x` at some place of the source where `r` follows. -/
def ReadFrom (U : Uni) (comments : Bool) (t : Token) (x r : Str) : Prop :=
  ∃ semi semi', TokText U false comments semi t x r semi'

/-- Intervals `[t.pos, e)` that follow each other from `o` on. -/
def InOrder : Nat → List (Token × Nat) → Prop
  | _, [] => True
  | o, (t, e) :: l => o ≤ t.pos ∧ t.pos ≤ e ∧ InOrder e l

/-- A semicolon that does not stand for a `;` in the source. -/
def Automatic (t : Token) : Prop := t.kind = SEMICOLON ∧ t.lit = [10]

instance (t : Token) : Decidable (Automatic t) := inferInstanceAs (Decidable (_ ∧ _))

/-- Length of a leading byte order mark, which is not part of the text. -/
def bomLen (src : Str) : Nat := if [0xEF, 0xBB, 0xBF].isPrefixOf src then 3 else 0

/-- Number of newlines before offset `p`. -/
def newlinesBefore (src : Str) (p : Nat) : Nat := (src.take p).count 10

end Tpl.Spec
