import Verif.Model.Token

/-
Model of unicode/utf8.DecodeRune and of the conversion string(rune), the two
standard library functions tpl/scanner.go uses on non-ASCII text.
-/
namespace Tpl

/-- `utf8.RuneError`. -/
def RuneError : Nat := 0xFFFD

/-- Is `b` within `[lo, hi]`? -/
def inRange (b : UInt8) (lo hi : Nat) : Bool := decide (lo ≤ b.toNat) && decide (b.toNat ≤ hi)

/-- Accept ranges of the second byte (`acceptRanges` in unicode/utf8). -/
def lo3 (n0 : Nat) : Nat := if n0 = 0xE0 then 0xA0 else 0x80
def hi3 (n0 : Nat) : Nat := if n0 = 0xED then 0x9F else 0xBF
def lo4 (n0 : Nat) : Nat := if n0 = 0xF0 then 0x90 else 0x80
def hi4 (n0 : Nat) : Nat := if n0 = 0xF4 then 0x8F else 0xBF

/-- Two byte sequences. -/
def decode2 (n0 : Nat) : Str → Nat × Nat
  | b1 :: _ =>
    if inRange b1 0x80 0xBF then (n0 % 0x20 * 0x40 + b1.toNat % 0x40, 2) else (RuneError, 1)
  | _ => (RuneError, 1)

/-- Three byte sequences; the range of the second byte excludes overlong forms
and surrogates. -/
def decode3 (n0 : Nat) : Str → Nat × Nat
  | b1 :: b2 :: _ =>
    if inRange b1 (lo3 n0) (hi3 n0) &&
        inRange b2 0x80 0xBF then
      (n0 % 0x10 * 0x1000 + b1.toNat % 0x40 * 0x40 + b2.toNat % 0x40, 3)
    else (RuneError, 1)
  | _ => (RuneError, 1)

/-- Four byte sequences; the range of the second byte excludes overlong forms
and values above 0x10FFFF. -/
def decode4 (n0 : Nat) : Str → Nat × Nat
  | b1 :: b2 :: b3 :: _ =>
    if inRange b1 (lo4 n0) (hi4 n0) &&
        inRange b2 0x80 0xBF && inRange b3 0x80 0xBF then
      (n0 % 0x08 * 0x40000 + b1.toNat % 0x40 * 0x1000 + b2.toNat % 0x40 * 0x40
        + b3.toNat % 0x40, 4)
    else (RuneError, 1)
  | _ => (RuneError, 1)

/-- Go's `unicode/utf8.DecodeRune`: rune and width. Any encoding error gives
`(RuneError, 1)`. -/
def decodeRune : Str → Nat × Nat
  | [] => (RuneError, 0)
  | b0 :: rest =>
    if b0.toNat < 0x80 then (b0.toNat, 1)
    else if b0.toNat < 0xC2 then (RuneError, 1)
    else if b0.toNat < 0xE0 then decode2 b0.toNat rest
    else if b0.toNat < 0xF0 then decode3 b0.toNat rest
    else if b0.toNat < 0xF5 then decode4 b0.toNat rest
    else (RuneError, 1)

/-- Go's `string(r)` for a rune: UTF-8 encoding, invalid runes give "�". -/
def encodeRune (r : Nat) : Str :=
  if r < 0x80 then [r.toUInt8]
  else if r < 0x800 then [(0xC0 + r / 0x40).toUInt8, (0x80 + r % 0x40).toUInt8]
  else if 0xD800 ≤ r ∧ r < 0xE000 ∨ 0x10FFFF < r then [0xEF, 0xBF, 0xBD]
  else if r < 0x10000 then
    [(0xE0 + r / 0x1000).toUInt8, (0x80 + r / 0x40 % 0x40).toUInt8, (0x80 + r % 0x40).toUInt8]
  else
    [(0xF0 + r / 0x40000).toUInt8, (0x80 + r / 0x1000 % 0x40).toUInt8,
     (0x80 + r / 0x40 % 0x40).toUInt8, (0x80 + r % 0x40).toUInt8]

end Tpl
