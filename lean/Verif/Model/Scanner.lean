import Verif.Model.Utf8

/-
Model of tpl/scanner.go.

Conventions and simplifications:
* `token.Pos` values are modelled as byte offsets (the Go value is file base + offset,
  and the base of the only file of a fresh FileSet is 1).
* The error handler is the recorder `errs` (offset and message, newest first);
  `Matcher.Tokenize` installs such a handler.  Message texts are an enumeration.
* `unicode.IsLetter` / `unicode.IsDigit` above 0x7f are the parameters of `Uni`.
* `//line` directives (`interpretLineComment`, scanner.go:154-174) only change
  reported file names and line numbers; they are not modelled.
* Go loops are structurally recursive functions of a fuel argument started with
  `Scanner.mu`, which bounds the number of iterations; the lemmas `*_unfold` in
  Proof/Scanner show that they satisfy the loop's own recursion equation, so
  fuel never cuts a loop short.
* A slice expression out of range (a Go panic) sets the flag `bad`.
-/
namespace Tpl

/-- unicode.IsLetter / unicode.IsDigit for runes ≥ 0x80. -/
structure Uni where
  isLetter : Nat → Bool
  isDigit : Nat → Bool

/-- `Token` (scanner.go:15-19). -/
structure Token where
  kind : Nat
  pos : Nat
  lit : Str
  deriving Repr, DecidableEq, Inhabited

/-- `Token.End` (scanner.go:22-24). -/
def Token.End (t : Token) : GoRes Int :=
  match TokenLen t.kind with
  | .ok n => .ok (t.pos + (t.lit.length + n))
  | .panic => .panic

/-- `ScanMode` (scanner.go:96-104) as the two flags it carries. -/
structure Mode where
  scanComments : Bool
  insertSemis : Bool
  deriving Repr, DecidableEq

/-- Error messages passed to the error handler. -/
inductive Msg where
  | nul | badUtf8 | badBom | commentNotTerminated | illegalHex | illegalOctal
  | unknownEscape | escapeNotTerminated | illegalCharInEscape | invalidCodePoint
  | runeNotTerminated | illegalRune | stringNotTerminated | rawStringNotTerminated
  | illegalChar
  deriving Repr, DecidableEq

/-- `Scanner` (scanner.go:37-54); `lines` is the line table of `file` (newest
first), `errs` what the error handler has received (newest first), `bad` the
slice-out-of-range flag. -/
structure Scanner where
  src : Str
  mode : Mode
  ch : Int
  offset : Nat
  rdOffset : Nat
  lineOffset : Nat
  insertSemi : Bool
  errorCount : Nat
  lines : List Nat
  errs : List (Nat × Msg)
  bad : Bool
  deriving Repr, DecidableEq

namespace Scanner

/-- `Scanner.error` (scanner.go:145-150). -/
def error (s : Scanner) (offs : Nat) (msg : Msg) : Scanner :=
  { s with errs := (offs, msg) :: s.errs, errorCount := s.errorCount + 1 }

/-- go/token `File.AddLine` on a line table (newest first): ignored unless the
offset is beyond the last line start and inside the file. -/
def addLineTo (lines : List Nat) (off size : Nat) : List Nat :=
  if off < size then
    match lines with
    | [] => [off]
    | l :: ls => if l < off then off :: l :: ls else l :: ls
  else lines

def addLine (s : Scanner) (off : Nat) : Scanner :=
  { s with lines := addLineTo s.lines off s.src.length }

/-- First half of `next`: set offset and record a new line (scanner.go:63-67, 84-88). -/
def nextLine (s : Scanner) (off : Nat) : Scanner :=
  if s.ch = 10 then
    ({ s with offset := off, lineOffset := off }).addLine off
  else { s with offset := off }

/-- The `switch` of `next` (scanner.go:68-80): rune and width at the read
offset, and the error it reports. -/
def nextRune (src : Str) (rdOffset offset : Nat) : Nat × Nat × Option Msg :=
  match src.drop rdOffset with
  | [] => (0, 0, none) -- not reached: rdOffset < len(src)
  | b :: _ =>
    if b.toNat = 0 then (0, 1, some .nul)
    else if b.toNat ≥ 0x80 then
      let rw := decodeRune (src.drop rdOffset)
      if rw.1 = RuneError ∧ rw.2 = 1 then (rw.1, rw.2, some .badUtf8)
      else if rw.1 = 0xFEFF ∧ offset > 0 then (rw.1, rw.2, some .badBom)
      else (rw.1, rw.2, none)
    else (b.toNat, 1, none)

/-- `Scanner.next` (scanner.go:61-91). -/
def next (s : Scanner) : Scanner :=
  if s.rdOffset < s.src.length then
    let s1 := s.nextLine s.rdOffset
    match nextRune s1.src s1.rdOffset s1.offset with
    | (r, w, e) =>
      let s2 := match e with
        | some m => s1.error s1.offset m
        | none => s1
      { s2 with rdOffset := s2.rdOffset + w, ch := r }
  else
    { s.nextLine s.src.length with ch := -1 }

/-- Upper bound on the number of `next` calls until `ch < 0`. -/
def mu (s : Scanner) : Nat := (s.src.length - s.rdOffset) + (if s.ch < 0 then 0 else 1)

/-- The slice expression `s.src[offs:s.offset]`. -/
def slice (s : Scanner) (offs : Nat) : Str := (s.src.drop offs).take (s.offset - offs)

/-- Go panics when the slice bounds are wrong: record that in `bad`. -/
def check (s : Scanner) (offs : Nat) : Scanner :=
  if offs ≤ s.offset ∧ s.offset ≤ s.src.length then s else { s with bad := true }

/-- `s.offset - 1`; an offset 0 would give the illegal index -1. -/
def offsetM1 (s : Scanner) : Nat := if s.offset = 0 then s.src.length + 1 else s.offset - 1

/-- `for p(s.ch) { s.next() }`. -/
def whileCh (p : Int → Bool) : Nat → Scanner → Scanner
  | 0, s => s
  | f + 1, s => if p s.ch then whileCh p f s.next else s

/-- As `whileCh`, also computing `hasCR` (scanner.go:184-189). -/
def lineCommentLoop : Nat → Bool → Scanner → Bool × Scanner
  | 0, cr, s => (cr, s)
  | f + 1, cr, s =>
    if s.ch ≠ 10 ∧ s.ch ≥ 0 then lineCommentLoop f (cr || s.ch == 13) s.next else (cr, s)

/-- The loop of a `/*` comment (scanner.go:199-209): `(closed, hasCR, s)`. -/
def blockCommentLoop : Nat → Bool → Scanner → Bool × Bool × Scanner
  | 0, cr, s => (false, cr, s)
  | f + 1, cr, s =>
    if s.ch ≥ 0 then
      let cr' := cr || s.ch == 13
      let s' := s.next
      if s.ch = 42 ∧ s'.ch = 47 then (true, cr', s'.next) else blockCommentLoop f cr' s'
    else (false, cr, s)

/-- `stripCR` (scanner.go:503-513). -/
def stripCR (b : Str) : Str := b.filter (· ≠ 13)

/-- `scanComment` (scanner.go:176-220). -/
def scanComment (s : Scanner) : Str × Scanner :=
  let offs := s.offsetM1
  if s.ch = 47 then
    let s := s.next
    match lineCommentLoop s.mu false s with
    | (cr, s) =>
      let s := s.check offs
      let lit := s.slice offs
      (if cr then stripCR lit else lit, s)
  else
    let s := s.next
    match blockCommentLoop s.mu false s with
    | (closed, cr, s) =>
      let s := if closed then s else s.error offs .commentNotTerminated
      let s := s.check offs
      let lit := s.slice offs
      (if cr then stripCR lit else lit, s)

/-- `skipWhitespace` (scanner.go:543-547). -/
def isSpace (insertSemi : Bool) (ch : Int) : Bool :=
  ch == 32 || ch == 9 || (ch == 10 && !insertSemi) || ch == 13
def skipWhitespace (s : Scanner) : Scanner := whileCh (isSpace s.insertSemi) s.mu s

/-- Inner loop of `findLineEnd` (scanner.go:241-251): `true` = newline seen (return true). -/
def findLineEndInner : Nat → Scanner → Bool × Scanner
  | 0, s => (false, s)
  | f + 1, s =>
    if s.ch ≥ 0 then
      if s.ch = 10 then (true, s)
      else
        let s' := s.next
        if s.ch = 42 ∧ s'.ch = 47 then (false, s'.next) else findLineEndInner f s'
    else (false, s)

/-- Outer loop of `findLineEnd` (scanner.go:234-263), without the deferred reset. -/
def findLineEndLoop : Nat → Scanner → Bool × Scanner
  | 0, s => (false, s)
  | f + 1, s =>
    if s.ch = 47 then (true, s)
    else if s.ch = 42 then
      let s := s.next
      match findLineEndInner s.mu s with
      | (true, s) => (true, s)
      | (false, s) =>
        let s := s.skipWhitespace
        if s.ch < 0 ∨ s.ch = 10 then (true, s)
        else if s.ch ≠ 47 then (false, s)
        else findLineEndLoop f s.next
    else (false, s)

/-- `findLineEnd` (scanner.go:222-264) with its deferred reset. -/
def findLineEnd (s : Scanner) : Bool × Scanner :=
  let offs := s.offsetM1
  match findLineEndLoop (s.mu + 1) s with
  | (r, s) => (r, ({ s with ch := 47, offset := offs, rdOffset := offs + 1 } : Scanner).next)

/-- `isLetter` (scanner.go:266-268). -/
def isLetter (U : Uni) (ch : Int) : Bool :=
  decide (97 ≤ ch ∧ ch ≤ 122) || decide (65 ≤ ch ∧ ch ≤ 90) || ch == 95 ||
    (decide (ch ≥ 0x80) && U.isLetter ch.toNat)

/-- `isDigit` (scanner.go:270-272). -/
def isDigit (U : Uni) (ch : Int) : Bool :=
  decide (48 ≤ ch ∧ ch ≤ 57) || (decide (ch ≥ 0x80) && U.isDigit ch.toNat)

/-- `scanIdentifier` (scanner.go:274-280). -/
def scanIdentifier (U : Uni) (s : Scanner) : Str × Scanner :=
  let offs := s.offset
  let s := whileCh (fun c => isLetter U c || isDigit U c) s.mu s
  let s := s.check offs
  (s.slice offs, s)

/-- `digitVal` (scanner.go:282-292). -/
def digitVal (ch : Int) : Nat :=
  if 48 ≤ ch ∧ ch ≤ 57 then (ch - 48).toNat
  else if 97 ≤ ch ∧ ch ≤ 102 then (ch - 97 + 10).toNat
  else if 65 ≤ ch ∧ ch ≤ 70 then (ch - 65 + 10).toNat
  else 16

/-- `scanMantissa` (scanner.go:294-298); bases 8, 10, 16 only. -/
def scanMantissa (base : Nat) (s : Scanner) : Scanner :=
  whileCh (fun c => decide (digitVal c < base)) s.mu s

/-- Label `exponent:` of `scanNumber` up to `exit` (scanner.go:354-367). -/
def scanExponent (tok : Nat) (s : Scanner) : Nat × Scanner :=
  let r : Nat × Scanner :=
    if s.ch = 101 ∨ s.ch = 69 then
      let s := s.next
      let s := if s.ch = 45 ∨ s.ch = 43 then s.next else s
      (FLOAT, scanMantissa 10 s)
    else (tok, s)
  if r.2.ch = 105 then (IMAG, r.2.next) else r

/-- Label `fraction:` (scanner.go:347-352). -/
def scanFraction (tok : Nat) (s : Scanner) : Nat × Scanner :=
  if s.ch = 46 then scanExponent FLOAT (scanMantissa 10 s.next) else scanExponent tok s

/-- Body of `scanNumber` before `exit:` (scanner.go:303-367). -/
def scanNumberBody (seenDecimalPoint : Bool) (s : Scanner) : Nat × Scanner :=
  if seenDecimalPoint then scanExponent FLOAT (scanMantissa 10 s)
  else if s.ch = 48 then
    let offs := s.offset
    let s := s.next
    if s.ch = 120 ∨ s.ch = 88 then
      let s := scanMantissa 16 s.next
      (INT, if s.offset - offs ≤ 2 then s.error offs .illegalHex else s)
    else
      let s := scanMantissa 8 s
      let seenDecimalDigit := s.ch == 56 || s.ch == 57
      let s := if seenDecimalDigit then scanMantissa 10 s else s
      if s.ch = 46 ∨ s.ch = 101 ∨ s.ch = 69 ∨ s.ch = 105 then scanFraction INT s
      else (INT, if seenDecimalDigit then s.error offs .illegalOctal else s)
  else scanFraction INT (scanMantissa 10 s)

/-- `scanNumber` (scanner.go:300-371). -/
def scanNumber (seenDecimalPoint : Bool) (s : Scanner) : Nat × Str × Scanner :=
  let offs := if seenDecimalPoint then s.offsetM1 else s.offset
  match scanNumberBody seenDecimalPoint s with
  | (tok, s) =>
    let s := s.check offs
    (tok, s.slice offs, s)

/-- Digit loop of `scanEscape` (scanner.go:406-420): `some x` or an error. -/
def escapeDigits (base : Nat) : Nat → Nat → Scanner → Option Nat × Scanner
  | 0, x, s => (some x, s)
  | n + 1, x, s =>
    if digitVal s.ch ≥ base then
      (none, s.error s.offset (if s.ch < 0 then .escapeNotTerminated else .illegalCharInEscape))
    else escapeDigits base n (x * base + digitVal s.ch) s.next

/-- Tail of `scanEscape` (scanner.go:406-427). -/
def escapeTail (offs n base max : Nat) (s : Scanner) : Bool × Scanner :=
  match escapeDigits base n 0 s with
  | (none, s) => (false, s)
  | (some x, s) =>
    if x > max ∨ (0xD800 ≤ x ∧ x < 0xE000) then (false, s.error offs .invalidCodePoint)
    else (true, s)

/-- `scanEscape` (scanner.go:377-428). -/
def scanEscape (quote : Int) (s : Scanner) : Bool × Scanner :=
  let offs := s.offset
  if s.ch = 97 ∨ s.ch = 98 ∨ s.ch = 102 ∨ s.ch = 110 ∨ s.ch = 114 ∨ s.ch = 116 ∨ s.ch = 118 ∨
      s.ch = 92 ∨ s.ch = quote then (true, s.next)
  else if 48 ≤ s.ch ∧ s.ch ≤ 55 then escapeTail offs 3 8 255 s
  else if s.ch = 120 then escapeTail offs 2 16 255 s.next
  else if s.ch = 117 then escapeTail offs 4 16 0x10FFFF s.next
  else if s.ch = 85 then escapeTail offs 8 16 0x10FFFF s.next
  else (false, s.error offs (if s.ch < 0 then .escapeNotTerminated else .unknownEscape))

/-- Loop of `scanRune` (scanner.go:436-457): `(valid, n, s)`. -/
def scanRuneLoop (offs : Nat) : Nat → Bool → Nat → Scanner → Bool × Nat × Scanner
  | 0, valid, n, s => (valid, n, s)
  | f + 1, valid, n, s =>
    if s.ch = 10 ∨ s.ch < 0 then
      if valid then (false, n, s.error offs .runeNotTerminated) else (valid, n, s)
    else
      let s' := s.next
      if s.ch = 39 then (valid, n, s')
      else if s.ch = 92 then
        match scanEscape 39 s' with
        | (ok, s'') => scanRuneLoop offs f (valid && ok) (n + 1) s''
      else scanRuneLoop offs f valid (n + 1) s'

/-- `scanRune` (scanner.go:430-464). -/
def scanRune (s : Scanner) : Str × Scanner :=
  let offs := s.offsetM1
  match scanRuneLoop offs (s.mu + 1) true 0 s with
  | (valid, n, s) =>
    let s := if valid ∧ n ≠ 1 then s.error offs .illegalRune else s
    let s := s.check offs
    (s.slice offs, s)

/-- `scanSharpComment` (scanner.go:466-479). -/
def scanSharpComment (s : Scanner) : Str × Scanner :=
  let offs := s.offsetM1
  let s := whileCh (fun c => decide ¬(c = 10 ∨ c < 0)) s.mu s
  let s := s.check offs
  (s.slice offs, s)

/-- Loop of `scanString` (scanner.go:485-498). -/
def scanStringLoop (offs : Nat) : Nat → Scanner → Scanner
  | 0, s => s
  | f + 1, s =>
    if s.ch = 10 ∨ s.ch < 0 then s.error offs .stringNotTerminated
    else
      let s' := s.next
      if s.ch = 34 then s'
      else if s.ch = 92 then scanStringLoop offs f (scanEscape 34 s').2
      else scanStringLoop offs f s'

/-- `scanString` (scanner.go:481-501). -/
def scanString (s : Scanner) : Str × Scanner :=
  let offs := s.offsetM1
  let s := scanStringLoop offs (s.mu + 1) s
  let s := s.check offs
  (s.slice offs, s)

/-- Loop of `scanRawString` (scanner.go:520-533). -/
def scanRawStringLoop (offs : Nat) : Nat → Bool → Scanner → Bool × Scanner
  | 0, cr, s => (cr, s)
  | f + 1, cr, s =>
    if s.ch < 0 then (cr, s.error offs .rawStringNotTerminated)
    else
      let s' := s.next
      if s.ch = 96 then (cr, s')
      else scanRawStringLoop offs f (cr || s.ch == 13) s'

/-- `scanRawString` (scanner.go:515-541). -/
def scanRawString (s : Scanner) : Str × Scanner :=
  let offs := s.offsetM1
  match scanRawStringLoop offs (s.mu + 1) false s with
  | (cr, s) =>
    let s := s.check offs
    let lit := s.slice offs
    (if cr then stripCR lit else lit, s)

/-- `switch2` (scanner.go:555-561). -/
def switch2 (s : Scanner) (tok0 tok1 : Nat) : Nat × Scanner :=
  if s.ch = 61 then (tok1, s.next) else (tok0, s)

/-- `switch3` (scanner.go:563-573). -/
def switch3 (s : Scanner) (tok0 tok1 : Nat) (ch2 : Int) (tok2 : Nat) : Nat × Scanner :=
  if s.ch = 61 then (tok1, s.next)
  else if s.ch = ch2 then (tok2, s.next)
  else (tok0, s)

/-- `switch4` (scanner.go:575-589). -/
def switch4 (s : Scanner) (tok0 tok1 : Nat) (ch2 : Int) (tok2 tok3 : Nat) : Nat × Scanner :=
  if s.ch = 61 then (tok1, s.next)
  else if s.ch = ch2 then
    let s := s.next
    if s.ch = 61 then (tok3, s.next) else (tok2, s)
  else (tok0, s)

/-- The operator cases of `Scan` (scanner.go:665-734, 750-781) other than
comments and numbers, entered after the first character has been consumed.
`none`: `ch` starts no operator. -/
def scanOp (ch : Int) (s : Scanner) : Option (Nat × Scanner) :=
  if ch = 58 then some (s.switch2 COLON DEFINE)
  else if ch = 46 then
    if s.ch = 46 then
      let s := s.next
      if s.ch = 46 then some (ELLIPSIS, s.next)
      else some (ILLEGAL, s) -- t.Kind keeps its zero value
    else some (PERIOD, s)
  else if ch = 44 then some (COMMA, s)
  else if ch = 59 then some (SEMICOLON, s)
  else if ch = 40 then some (LPAREN, s)
  else if ch = 41 then some (RPAREN, s)
  else if ch = 91 then some (LBRACK, s)
  else if ch = 93 then some (RBRACK, s)
  else if ch = 123 then some (LBRACE, s)
  else if ch = 125 then some (RBRACE, s)
  else if ch = 43 then some (s.switch3 ADD ADD_ASSIGN 43 INC)
  else if ch = 45 then some (s.switch3 SUB SUB_ASSIGN 45 DEC)
  else if ch = 42 then some (s.switch2 MUL MUL_ASSIGN)
  else if ch = 47 then some (s.switch2 QUO QUO_ASSIGN)
  else if ch = 37 then some (s.switch2 REM REM_ASSIGN)
  else if ch = 94 then some (s.switch2 XOR XOR_ASSIGN)
  else if ch = 60 then
    if s.ch = 45 then some (ARROW, s.next) else some (s.switch4 LT LE 60 SHL SHL_ASSIGN)
  else if ch = 62 then some (s.switch4 GT GE 62 SHR SHR_ASSIGN)
  else if ch = 61 then some (s.switch2 ASSIGN EQ)
  else if ch = 33 then some (s.switch2 NOT NE)
  else if ch = 38 then
    if s.ch = 94 then some (s.next.switch2 AND_NOT AND_NOT_ASSIGN)
    else some (s.switch3 AND AND_ASSIGN 38 LAND)
  else if ch = 124 then some (s.switch3 OR OR_ASSIGN 124 LOR)
  else if ch = 63 then some (QUESTION, s)
  else if ch = 126 then some (TILDE, s)
  else if ch = 64 then some (AT, s)
  else none

/-- The local `insertSemi` for operator tokens (scanner.go:687-709). -/
def opInsertSemi (kind : Nat) : Bool :=
  kind == RPAREN || kind == RBRACK || kind == RBRACE || kind == INC || kind == DEC

/-- Result of one pass through the body of `Scan`. -/
inductive Pass where
  | token (t : Token) (insertSemi : Bool) -- falls through to the end of the switch
  | ret (t : Token)                       -- early `return`
  | again                                 -- `goto scanAgain`
  deriving Repr, DecidableEq

/-- One pass of `Scan` after white space has been skipped (scanner.go:624-791). -/
def scanPass (U : Uni) (s : Scanner) : Pass × Scanner :=
  let pos := s.offset
  let ch := s.ch
  if isLetter U ch then
    match scanIdentifier U s with
    | (lit, s) => (.token ⟨IDENT, pos, lit⟩ true, s)
  else if 48 ≤ ch ∧ ch ≤ 57 then
    match scanNumber false s with
    | (k, lit, s) => (.token ⟨k, pos, lit⟩ true, s)
  else
    let s := s.next
    if ch = -1 then
      if s.insertSemi then (.ret ⟨SEMICOLON, pos, [10]⟩, { s with insertSemi := false })
      else (.token ⟨EOF, pos, []⟩ false, s)
    else if ch = 10 then (.ret ⟨SEMICOLON, pos, [10]⟩, { s with insertSemi := false })
    else if ch = 34 then
      match scanString s with
      | (lit, s) => (.token ⟨STRING, pos, lit⟩ true, s)
    else if ch = 39 then
      match scanRune s with
      | (lit, s) => (.token ⟨CHAR, pos, lit⟩ true, s)
    else if ch = 96 then
      match scanRawString s with
      | (lit, s) => (.token ⟨STRING, pos, lit⟩ true, s)
    else if ch = 46 ∧ 48 ≤ s.ch ∧ s.ch ≤ 57 then
      match scanNumber true s with
      | (k, lit, s) => (.token ⟨k, pos, lit⟩ true, s)
    else if ch = 47 ∧ (s.ch = 47 ∨ s.ch = 42) then
      -- `if s.insertSemi && s.findLineEnd()`
      let r := if s.insertSemi then findLineEnd s else (false, s)
      match r with
      | (true, s) =>
        (.ret ⟨SEMICOLON, pos, [10]⟩,
          { s with ch := 47, offset := pos, rdOffset := pos + 1, insertSemi := false })
      | (false, s) =>
        match scanComment s with
        | (lit, s) =>
          if s.mode.scanComments then (.token ⟨COMMENT, pos, lit⟩ false, s)
          else (.again, { s with insertSemi := false })
    else if ch = 35 then
      if s.insertSemi then
        (.ret ⟨SEMICOLON, pos, [10]⟩,
          { s with ch := 35, offset := pos, rdOffset := pos + 1, insertSemi := false })
      else
        match scanSharpComment s with
        | (lit, s) =>
          if s.mode.scanComments then (.token ⟨COMMENT, pos, lit⟩ false, s)
          else (.again, s)
    else
      match scanOp ch s with
      | some (k, s) =>
        (.token ⟨k, pos, if k = SEMICOLON then [59] else []⟩ (opInsertSemi k), s)
      | none =>
        let s := if ch ≠ 0xFEFF then s.error pos .illegalChar else s
        (.token ⟨ILLEGAL, pos, encodeRune ch.toNat⟩ s.insertSemi, s)

/-- `Scan` (scanner.go:619-797) with fuel for the `goto scanAgain` loop. -/
def scanLoop (U : Uni) : Nat → Scanner → Token × Scanner
  | 0, s => (⟨EOF, s.offset, []⟩, s) -- not reached, see `scan_unfold`
  | f + 1, s =>
    match scanPass U s.skipWhitespace with
    | (.token t semi, s) =>
      (t, if s.mode.insertSemis then { s with insertSemi := semi } else s)
    | (.ret t, s) => (t, s)
    | (.again, s) => scanLoop U f s

/-- `Scanner.Scan`. -/
def scan (U : Uni) (s : Scanner) : Token × Scanner := scanLoop U (s.mu + 1) s

/-- `Scanner.Init` (scanner.go:121-143) on an existing scanner `s0`, for a
fresh `token.File` of the right size (line table `[0]`) and a fresh error
handler. -/
def init (s0 : Scanner) (src : Str) (mode : Mode) : Scanner :=
  let s : Scanner := { s0 with
    src := src, mode := mode, lines := [0], errs := [],
    ch := 32, offset := 0, rdOffset := 0, lineOffset := 0, insertSemi := false,
    errorCount := 0 }
  let s := s.next
  if s.ch = 0xFEFF then s.next else s

/-- `new(Scanner)`. -/
def zero : Scanner :=
  { src := [], mode := ⟨false, false⟩, ch := 0, offset := 0, rdOffset := 0, lineOffset := 0,
    insertSemi := false, errorCount := 0, lines := [], errs := [], bad := false }

/-- go/token `File.Line` of an offset: the number of line starts not after it. -/
def line (s : Scanner) (off : Nat) : Nat := (s.lines.filter (· ≤ off)).length

end Scanner
end Tpl
