import Verif.Model.Interp

/-
Model of the functions of package strconv that turn literals into values (Unquote and
UnquoteChar; ParseInt is in Model/Interp), and of `GetValue` of tpl/extractor/extractor.go,
which uses them.

Simplifications:
* `Unquote` has a shorter way for texts without escapes, which gives the same for texts in
  UTF-8.  What it does with other texts has changed between versions of Go.
* All errors are one.
* `ParseFloat` is modelled for decimal numbers: `inf`, `nan`, hexadecimal floating point numbers and
  underscores are errors here.  (No number token of TPL text is written so.)
-/
namespace Tpl

/-- `n` digits at the beginning of `s`, after `acc`; the rest. -/
def scanDigits (base : Nat) : Nat → Nat → Str → Option (Nat × Str)
  | 0, acc, s => some (acc, s)
  | _ + 1, _, [] => none
  | n + 1, acc, b :: s => match digitVal b with
    | some d => if d < base then scanDigits base n (acc * base + d) s else none
    | none => none

/-- `utf8.ValidRune`. -/
def validRune (n : Nat) : Bool := decide (n ≤ 0x10FFFF) && !(decide (0xD800 ≤ n) && decide (n < 0xE000))

/-- What follows a backslash, in `strconv.UnquoteChar`: value, is it a code point of any size,
the rest. -/
def unescape (quote e : UInt8) (s : Str) : Option (Nat × Bool × Str) :=
  if e = 97 then some (7, false, s)
  else if e = 98 then some (8, false, s)
  else if e = 102 then some (12, false, s)
  else if e = 110 then some (10, false, s)
  else if e = 114 then some (13, false, s)
  else if e = 116 then some (9, false, s)
  else if e = 118 then some (11, false, s)
  else if e = 120 then match scanDigits 16 2 0 s with
    | some (v, s) => some (v, false, s)
    | none => none
  else if e = 117 ∨ e = 85 then match scanDigits 16 (if e = 117 then 4 else 8) 0 s with
    | some (v, s) => if validRune v then some (v, true, s) else none
    | none => none
  else if 48 ≤ e.toNat ∧ e.toNat ≤ 55 then match scanDigits 8 2 (e.toNat - 48) s with
    | some (v, s) => if v > 255 then none else some (v, false, s)
    | none => none
  else if e = 92 then some (92, false, s)
  else if e = 39 ∨ e = 34 then if e ≠ quote then none else some (e.toNat, false, s)
  else none

/-- `strconv.UnquoteChar`: value, multibyte, tail. -/
def unquoteChar (quote : UInt8) (s : Str) : Option (Nat × Bool × Str) :=
  match s with
  | [] => none
  | c :: t =>
    if c = quote ∧ (quote = 39 ∨ quote = 34) then none
    else if 0x80 ≤ c.toNat then some ((decodeRune s).1, true, s.drop (decodeRune s).2)
    else if c ≠ 92 then some (c.toNat, false, t)
    else match t with
      | [] => none
      | e :: t => unescape quote e t

/-- What `strconv.Unquote` appends for a character. -/
def charBytes (c : Nat) (multibyte : Bool) : Str := if c < 0x80 ∨ multibyte = false then [c.toUInt8] else encodeRune c

/-- The loop of `strconv.Unquote`; every step makes the text shorter. -/
def unquoteLoop (quote : UInt8) : Nat → Str → Option Str
  | _, [] => some []
  | 0, _ :: _ => none
  | n + 1, s => match unquoteChar quote s with
    | none => none
    | some (c, multibyte, tail) =>
      if quote = 39 ∧ tail ≠ [] then none
      else match unquoteLoop quote n tail with
        | none => none
        | some v => some (charBytes c multibyte ++ v)

/-- `lit[1 : len(lit)-1]`. -/
def between (s : Str) : Str := (s.drop 1).take (s.length - 2)

/-- `strconv.Unquote`. -/
def unquote (s : Str) : Option Str :=
  match s with
  | [] => none
  | quote :: t =>
    if s.length < 2 then none
    else if t.getLast? ≠ some quote then none
    else if quote = 96 then
      if 96 ∈ between s then none else some ((between s).filter (· ≠ 13))
    else if quote ≠ 34 ∧ quote ≠ 39 then none
    else if 10 ∈ between s then none
    else unquoteLoop quote (between s).length (between s)

/-- The byte of a character literal (extractor.go:43-50, qlang.go:110-117): `none` where both
panic. -/
def charByte (lit : Str) : Option UInt8 :=
  match unquoteChar 39 (between lit) with
  | some (v, false, []) => some v.toUInt8
  | _ => none

/-! ### ParseFloat -/

/-- Is it a decimal digit? -/
def isDecDigit (b : UInt8) : Bool := 48 ≤ b && b ≤ 57

/-- The exponent of `strconv.ParseFloat`, the rest of the text. -/
def readExp (s : Str) : Option Int :=
  match s with
  | [] => some 0
  | e :: s =>
    if e = 101 ∨ e = 69 then
      match s with
      | 43 :: ds => (parseUint 10 ds).map Int.ofNat
      | 45 :: ds => (parseUint 10 ds).map fun n : Nat => -(n : Int)
      | ds => (parseUint 10 ds).map Int.ofNat
    else none

/-- The digits before and behind the point, and the rest (`readFloat` of package strconv). -/
def readMantissa (s : Str) : Str × Str × Str :=
  match s.dropWhile isDecDigit with
  | 46 :: r => (s.takeWhile isDecDigit, r.takeWhile isDecDigit, r.dropWhile isDecDigit)
  | r => (s.takeWhile isDecDigit, [], r)

/-- A sign at the beginning: is it a minus, and the rest. -/
def readSign (s : Str) : Bool × Str :=
  match s with
  | 43 :: s => (false, s)
  | 45 :: s => (true, s)
  | s => (false, s)

/-- The number `strconv.ParseFloat` reads, before it is rounded; `none` is a syntax error. -/
def readFloat (s : Str) : Option Rat :=
  match readMantissa (readSign s).2 with
  | (ds, fs, r) =>
    if ds ++ fs = [] then none
    else match parseDigits 10 0 (ds ++ fs), readExp r with
      | some m, some e =>
        let v := (m : Rat) * 10 ^ (e - (fs.length : Int))
        some (if (readSign s).1 then -v else v)
      | _, _ => none

/-- The type float64: the number nearest to a rational number (`none` if that is too large), infinity,
and the conversion from int64. -/
structure Floats (F : Type) where
  nearest : Rat → Option F
  inf : Bool → F
  ofInt : Int → F
  nearest_int : ∀ n : Int, -2 ^ 63 ≤ n → n < 2 ^ 63 → nearest n = some (ofInt n)

/-- `strconv.ParseFloat(s, 64)`, when it returns no error. -/
def Floats.parse {F : Type} (D : Floats F) (s : Str) : Option F := (readFloat s).bind D.nearest

/-- What `strconv.ParseFloat(s, 64)` returns besides the error: 0 for an error of syntax, and infinity
for a number that is too large. -/
def Floats.parseAny {F : Type} (D : Floats F) (s : Str) : F :=
  match readFloat s with
  | none => D.ofInt 0
  | some v => (D.nearest v).getD (D.inf (decide (v < 0)))

def Floats.lits {F : Type} (D : Floats F) : Lits F := ⟨D.ofInt, D.parse⟩

namespace Extractor

/-- What `GetValue` returns. -/
inductive GValue (F : Type) where
  | str (s : Str)
  | int (n : Int)
  | float (x : F)
  | byte (b : UInt8)

/-- What it panics with: errors of strconv and run-time errors, which are errors, and strings. -/
inductive GPanic where
  | err | text (msg : Str)

variable {F : Type}

/-- `GetValue` (extractor.go:22-53). -/
def getValue (L : Lits F) (typ lit : Str) : Except GPanic (GValue F) :=
  if typ = str "String" then match unquote lit with
    | some v => .ok (.str v)
    | none => .error .err
  else if typ = str "Int" then match strconvInt lit 10 with
    | .ok v => .ok (.int v)
    | .error _ => .error .err
  else if typ = str "Float" then match L.parse lit with
    | some x => .ok (.float x)
    | none => .error .err
  else if typ = str "Char" then
    if lit.length < 2 then .error .err
    else match unquoteChar 39 (between lit) with
    | none => .error .err
    | some (v, multibyte, tail) => if tail ≠ [] ∨ multibyte = true then .error (.text (str "invalid char: " ++ lit)) else .ok (.byte v.toUInt8)
  else if typ = str "Text" then .ok (.str lit)
  else .error (.text (str "unsupported type: " ++ typ))

end Extractor
end Tpl
