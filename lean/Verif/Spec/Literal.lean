import Verif.Spec.Lexical

/-
The values of literals.
-/
namespace Tpl.Spec
open Tpl

/-- `u` is the encoding of the character `c` in UTF-8. -/
def Utf8 (u : Str) (c : Nat) : Prop := u ≠ [] ∧ decodeRune u = (c, u.length) ∧ ¬ (c = RuneError ∧ u.length = 1)

/-- What an escape sequence in a literal quoted by `q` means: a byte. -/
inductive EscapeByte (q : UInt8) : Str → Nat → Prop
  | bell : EscapeByte q [92, 97] 7
  | backspace : EscapeByte q [92, 98] 8
  | formFeed : EscapeByte q [92, 102] 12
  | newline : EscapeByte q [92, 110] 10
  | carriageReturn : EscapeByte q [92, 114] 13
  | tab : EscapeByte q [92, 116] 9
  | verticalTab : EscapeByte q [92, 118] 11
  | backslash : EscapeByte q [92, 92] 92
  | quote : EscapeByte q [92, q] q.toNat
  | oct {ds} : ds.length = 3 → (∀ b ∈ ds, IsOct b) → numeral 8 ds ≤ 255 → EscapeByte q (92 :: ds) (numeral 8 ds)
  | hex {ds} : ds.length = 2 → (∀ b ∈ ds, IsHex b) → EscapeByte q (92 :: 120 :: ds) (numeral 16 ds)

/-- ... or a character. -/
inductive EscapeRune : Str → Nat → Prop
  | u4 {ds} : ds.length = 4 → (∀ b ∈ ds, IsHex b) → ValidRune (numeral 16 ds) → EscapeRune (92 :: 117 :: ds) (numeral 16 ds)
  | u8 {ds} : ds.length = 8 → (∀ b ∈ ds, IsHex b) → ValidRune (numeral 16 ds) → EscapeRune (92 :: 85 :: ds) (numeral 16 ds)

/-- The bytes a text between quotes `q` stands for. -/
inductive StrValue (q : UInt8) : Str → Str → Prop
  | nil : StrValue q [] []
  | char {u c s v} : Utf8 u c → u.head? ≠ some q → u.head? ≠ some 92 → u.head? ≠ some 10 → StrValue q s v → StrValue q (u ++ s) (u ++ v)
  | byte {e n s v} : EscapeByte q e n → StrValue q s v → StrValue q (e ++ s) (n.toUInt8 :: v)
  | rune {e n u s v} : EscapeRune e n → Utf8 u n → StrValue q s v → StrValue q (e ++ s) (u ++ v)

/-- The value of a string literal in the source. -/
inductive StringValue : Str → Str → Prop
  | quoted {b v} : StrValue 34 b v → StringValue (34 :: (b ++ [34])) v
  | raw {b} : 96 ∉ b → StringValue (96 :: (b ++ [96])) (b.filter (· ≠ 13))

/-- The value of a character literal in the source: its code point, or the byte of an escape. -/
inductive CharValue : Str → Nat → Prop
  | char {u c} : Utf8 u c → u.head? ≠ some 39 → u.head? ≠ some 92 → u.head? ≠ some 10 → CharValue (39 :: (u ++ [39])) c
  | byte {e n} : EscapeByte 39 e n → CharValue (39 :: (e ++ [39])) n
  | rune {e n} : EscapeRune e n → CharValue (39 :: (e ++ [39])) n

/-- A character literal that is an ASCII character or a byte escape. -/
inductive ByteChar : Str → Nat → Prop
  | char {b : UInt8} : b.toNat < 0x80 → b ≠ 39 → b ≠ 92 → b ≠ 10 → ByteChar [39, b, 39] b.toNat
  | byte {e n} : EscapeByte 39 e n → ByteChar (39 :: (e ++ [39])) n

/-- The value of an integer literal. -/
inductive IntValue : Str → Nat → Prop
  | dec {d ds} : IsDec d → d ≠ 48 → (∀ b ∈ ds, IsDec b) → IntValue (d :: ds) (numeral 10 (d :: ds))
  | oct {ds} : (∀ b ∈ ds, IsOct b) → IntValue (48 :: ds) (numeral 8 ds)
  | hex {x ds} : x = 120 ∨ x = 88 → (∀ b ∈ ds, IsHex b) → ds ≠ [] → IntValue (48 :: x :: ds) (numeral 16 ds)

/-- The token `t` is written as `x` in the source. -/
def Written (src : Str) (t : Token) (x : Str) : Prop := ∃ p r, src = p ++ (x ++ r) ∧ t.pos = p.length

end Tpl.Spec
