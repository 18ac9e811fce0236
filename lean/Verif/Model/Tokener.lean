import Verif.Model.Scanner

/-
Model of the users of the scanner: AutoKwScanner (tpl/compiler.go:17-66) and
Matcher.Tokenize (tpl/match.go:38-63).
-/
namespace Tpl

/-- The tokens returned by calling `Scan` until it returns EOF (inclusive), and
the state then reached. -/
inductive Run (U : Uni) : Scanner → List Token → Scanner → Prop
  | eof {s t s'} : Scanner.scan U s = (t, s') → t.kind = EOF → Run U s [t] s'
  | cons {s t s' ts s''} : Scanner.scan U s = (t, s') → t.kind ≠ EOF → Run U s' ts s'' → Run U s (t :: ts) s''

/-- `n` calls of `Scan`. -/
def scans (U : Uni) : Nat → Scanner → List Token × Scanner
  | 0, s => ([], s)
  | n + 1, s =>
    match Scanner.scan U s with
    | (t, s) => match scans U n s with
      | (ts, s) => (t :: ts, s)

/-- The keyword map `map[string]uint`; `none` is the nil map (compiler.go:21). -/
abbrev KwMap := Option (List (Str × Nat))

/-- Reading a map: a nil map has no entries. -/
def KwMap.get (m : KwMap) (w : Str) : Option Nat :=
  match m with
  | none => none
  | some l => l.lookup w

/-- `AutoKwScanner.Scan` (compiler.go:31-40) with the keyword lookup as parameter;
the lookup that finds nothing is `Scanner.Scan`. -/
def kwScan (U : Uni) (kw : Str → Option Nat) (s : Scanner) : Token × Scanner :=
  match Scanner.scan U s with
  | (t, s) =>
    if t.kind = IDENT then
      match kw t.lit with
      | some k => ({ t with kind := k }, s)
      | none => (t, s)
    else (t, s)

/-- The loop of `Matcher.Tokenize` (match.go:51-61).  `errTok` is the error
reported last.  The fuel 0 case is not reached (`tokenize_unfold`). -/
def tokenizeLoop (U : Uni) (kw : Str → Option Nat) : Nat → Scanner → List Token × Option (Nat × Msg) × Scanner
  | 0, s => ([], none, s)
  | f + 1, s =>
    match kwScan U kw s with
    | (t, s) =>
      match s.errs with
      | e :: _ => ([], some e, s)
      | [] =>
        if t.kind = EOF then ([], none, s)
        else match tokenizeLoop U kw f s with
          | (ts, e, s) => (t :: ts, e, s)

/-- `Matcher.Tokenize` (match.go:38-63) with the scanner `s0`: tokens and error. -/
def tokenize (U : Uni) (kw : Str → Option Nat) (s0 : Scanner) (src : Str) (mode : Mode) :
    List Token × Option (Nat × Msg) × Scanner :=
  tokenizeLoop U kw (2 * src.length + 2) (Scanner.init s0 src mode)

/-- A scanner without keywords. -/
def noKw : Str → Option Nat := fun _ => none

/-- `AutoKwScanner` (compiler.go:17-21). -/
structure KwScanner where
  sc : Scanner
  tokens : List Str
  keywords : KwMap

namespace KwScanner

/-- `new(AutoKwScanner)`. -/
def zero : KwScanner := ⟨Scanner.zero, [], none⟩

/-- `AutoKwScanner.Init` (compiler.go:23-29). -/
def init (k : KwScanner) (src : Str) (mode : Mode) : KwScanner :=
  { k with
    sc := Scanner.init k.sc src mode
    keywords := match k.keywords with
      | none => some []
      | some m => some m }

/-- `AutoKwScanner.Scan` (compiler.go:31-40). -/
def scan (U : Uni) (k : KwScanner) : Token × KwScanner :=
  match kwScan U k.keywords.get k.sc with
  | (t, s) => (t, { k with sc := s })

/-- `USER_TOKEN_BEGIN` (token.go). -/
def userTokenBegin : Nat := 0xb0

/-- `AutoKwScanner.Ttol` (compiler.go:42-48). -/
def ttol (k : KwScanner) (tok : Nat) : GoRes Str :=
  if tok ≥ userTokenBegin then
    match k.tokens[tok - userTokenBegin]? with
    | some l => .ok l
    | none => .panic
  else Token2Lit tok

/-- `AutoKwScanner.Ltot` (compiler.go:50-64).  The empty literal and the
literal `"` panic (index, slice bounds), and so does adding a keyword before
`Init` (nil map). -/
def ltot (k : KwScanner) (lit : Str) : GoRes (Nat × KwScanner) :=
  let tok := Lit2Token lit
  if tok ≠ ILLEGAL then .ok (tok, k)
  else match lit with
    | [] => .panic
    | c :: rest =>
      if c = 34 then
        if rest = [] then .panic
        else
          let kw := rest.dropLast
          match k.keywords.get kw with
          | some t => .ok (t, k)
          | none =>
            match k.keywords with
            | none => .panic
            | some m =>
              let t := userTokenBegin + k.tokens.length
              .ok (t, { k with keywords := some ((kw, t) :: m), tokens := k.tokens ++ [lit] })
      else .ok (tok, k)

/-- `Matcher.Tokenize` with an AutoKwScanner. -/
def tokenize (U : Uni) (k : KwScanner) (src : Str) (mode : Mode) : (List Token × Option (Nat × Msg)) × KwScanner :=
  let k := k.init src mode
  match tokenizeLoop U k.keywords.get (2 * src.length + 2) k.sc with
  | (ts, e, s) => ((ts, e), { k with sc := s })

end KwScanner
end Tpl
