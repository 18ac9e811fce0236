import Verif.Model.Tokener
import Verif.Model.Grammar

/-
Model of tpl/match.go (Matcher) and of the printing and error rendering part of
tpl/grammar.go (Source, MatchError.Error, calcErrorInfo, the Marshal methods).

Conventions and simplifications:
* The scanner of a Matcher is an AutoKwScanner; a plain Scanner is one that never
  gets a keyword.  Other implementations of `Tokener` are not modelled.
* A `[]Token` is a `TokSlice`: its elements and the elements of the underlying array
  behind it.  (The array may have spare capacity behind the last token `Tokenize`
  wrote; the model counts reaching there as a panic.)
* `token.File.Offset` panics outside of the file.
* File names and `//line` are not modelled.
-/
namespace Tpl
variable {A σ V P : Type}

/-- The array behind the slice `Tokenize` returns when it returns no error
(match.go:51-60): the EOF token lies behind the end of the slice. -/
def tokenArray (U : Uni) (kw : Str → Option Nat) : Nat → Scanner → List Token
  | 0, _ => []
  | f + 1, s =>
    match kwScan U kw s with
    | (t, s) =>
      match s.errs with
      | _ :: _ => []
      | [] => if t.kind = EOF then [t] else t :: tokenArray U kw f s

/-- A slice of tokens: its elements, and what the array holds behind it. -/
structure TokSlice where
  toks : List Token
  behind : List Token
deriving Repr, DecidableEq

/-- The slice expression `doc[i:j]`. -/
def TokSlice.sub (d : TokSlice) (i j : Nat) : TokSlice :=
  ⟨(d.toks.take j).drop i, d.toks.drop j ++ d.behind⟩

/-- `Scanner.Source` (scanner.go:56-58): the text and, for line numbers, the line table. -/
structure TokSource where
  src : Str
  line : Nat → Nat

/-- `Scanner.Source` (scanner.go:56-58). -/
def Scanner.source (s : Scanner) : TokSource := ⟨s.src, s.line⟩

/-- `Source` (grammar.go:64-74). -/
def Source (doc : TokSlice) (t : TokSource) : GoRes Str :=
  match doc.toks with
  | [] => .ok []
  | first :: _ =>
    match doc.behind with
    | [] => .panic -- doc[:n+1]
    | last :: _ =>
      if first.pos ≤ t.src.length ∧ last.pos ≤ t.src.length then -- File.Offset
        if first.pos ≤ last.pos then .ok ((t.src.drop first.pos).take (last.pos - first.pos)) else .panic
      else .panic

/-- `FileLine` (grammar.go:77-84), the line. -/
def FileLine (doc : TokSlice) (t : TokSource) : Nat :=
  match doc.toks with
  | [] => 0
  | first :: _ => t.line first.pos

/-- The length of what `nextLines` (grammar.go:143-154) returns: up to and including
the `n`-th newline, everything if there are less. -/
def nextLines : Str → Nat → Nat
  | _, 0 => 0
  | [], _ + 1 => 0
  | b :: src, n + 1 => 1 + (if b = 10 then nextLines src n else nextLines src (n + 1))

/-- `calcErrorInfo` (grammar.go:124-141).  `text[:errpos-start]` may reach beyond
`len(text)`: the array behind it is the whole source. -/
def calcErrorInfo (doc : TokSlice) (idxErr : Nat) (t : TokSource) : GoRes (Nat × Str) :=
  match doc.toks with
  | [] => .ok (0, [])
  | first :: _ =>
    match doc.behind with
    | [] => .panic -- doc[:n+1]
    | last :: _ =>
      if first.pos ≤ t.src.length ∧ last.pos ≤ t.src.length then
        match (doc.toks ++ [last])[idxErr + 1]? with
        | none => .panic -- doc[idxErr+1]
        | some after =>
          if after.pos ≤ t.src.length then
            if first.pos ≤ last.pos then
              let all := (t.src.drop first.pos).take (last.pos - first.pos)
              let text := if (nextLines all 9 : Int) < (after.pos : Int) - first.pos
                then (t.src.drop first.pos).take (after.pos - first.pos)
                else all.take (nextLines all 9)
              match (doc.toks ++ [last])[idxErr]? with
              | none => .panic
              | some at_ => .ok (t.line at_.pos, text)
            else .panic
          else .panic
      else .panic

/-- `append(b, s...)` for a text that may panic. -/
def GoRes.app : GoRes Str → GoRes Str → GoRes Str
  | .ok a, .ok b => .ok (a ++ b)
  | _, _ => .panic

/-- The levels of grammar.go:26-34. -/
def lvlOr : Nat := 1
def lvlAnd : Nat := 2
def lvlList : Nat := 3
def lvlRepeat : Nat := 4

/-- Put parentheses around `s` if `b`. -/
def GoRes.paren (b : Bool) (s : GoRes Str) : GoRes Str :=
  if b then GoRes.app (.ok [40]) (GoRes.app s (.ok [41])) else s

mutual
/-- The `Marshal` methods: what is appended.  `ttol` is the scanner's `Ttol`, `names`
the names of the variables.  Calling a method of the nil interface panics. -/
def Gr.marshal (ttol : Nat → GoRes Str) (names : Nat → Str) : Gr A → Nat → GoRes Str
  | .nil, _ => .panic
  | .tok k, _ => ttol k -- grammar.go:172
  | .tru, _ => .ok [49] -- grammar.go:194
  | .eof, _ => .ok (str "EOF") -- grammar.go:272
  | .peek g, _ => GoRes.app (.ok [64]) (g.marshal ttol names lvlRepeat) -- grammar.go:218
  | .not g, _ => GoRes.app (.ok [126]) (g.marshal ttol names lvlRepeat) -- grammar.go:245
  | .and gs, lvl => GoRes.paren (lvl > lvlAnd) (marshalAnd ttol names gs 0) -- grammar.go:312-329
  | .or gs, lvl => GoRes.paren (lvl > lvlOr) (marshalOr ttol names gs 0) -- grammar.go:367-381
  | .rep0 _ g, _ => GoRes.app (.ok [42]) (g.marshal ttol names lvlRepeat) -- grammar.go:420
  | .rep1 _ g, _ => GoRes.app (.ok [43]) (g.marshal ttol names lvlRepeat) -- grammar.go:456
  | .rep01 _ g, _ => GoRes.app (.ok [63]) (g.marshal ttol names lvlRepeat) -- grammar.go:488
  -- grammar.go:538-553
  | .list _ a b list0, lvl =>
    GoRes.paren (lvl > lvlList) (GoRes.app (a.marshal ttol names lvlList)
      (GoRes.app (.ok (if list0 then str " %= " else str " % ")) (b.marshal ttol names lvlList)))
  | .var v, _ => .ok (names v) -- grammar.go:597
  | .named n _, _ => .ok n -- grammar.go:623
  | .action _ g, lvl => g.marshal ttol names lvl -- grammar.go:661
  | .trans _ g, lvl => g.marshal ttol names lvl -- grammar.go:690

/-- The loop of `grAnd.Marshal` (grammar.go:316-324). -/
def marshalAnd (ttol : Nat → GoRes Str) (names : Nat → Str) : List (Gr A) → Nat → GoRes Str
  | [], _ => .ok []
  | .nil :: gs, i => marshalAnd ttol names gs (i + 1)
  | g :: gs, i =>
    GoRes.app (.ok (if i > 0 then [32] else [])) (GoRes.app (g.marshal ttol names lvlAnd) (marshalAnd ttol names gs (i + 1)))

/-- The loop of `grOr.Marshal` (grammar.go:371-376). -/
def marshalOr (ttol : Nat → GoRes Str) (names : Nat → Str) : List (Gr A) → Nat → GoRes Str
  | [], _ => .ok []
  | g :: gs, i =>
    GoRes.app (.ok (if i > 0 then str " | " else [])) (GoRes.app (g.marshal ttol names lvlOr) (marshalOr ttol names gs (i + 1)))
end

/-- `Code` (grammar.go:87-89). -/
def Gr.code (ttol : Nat → GoRes Str) (names : Nat → Str) (g : Gr A) : GoRes Str := g.marshal ttol names 0

/-- `%v` of an error whose `Error` method panics: fmt recovers and prints something. -/
def fmtPanic : Str := str "%!v(PANIC=Error method)"

/-- `MatchError.Error` (grammar.go:111-122), `ErrVarNotAssigned.Error`.  `behind` is
what the token array holds behind the tokens the match was given: all the slices
`src[n:]` in errors end there. -/
def Err.error (ttol : Nat → GoRes Str) (names : Nat → Str) (t : TokSource) (behind : List Token) : Err A → GoRes Str
  | .varNotAssigned => .ok (str "variable is not assigned")
  | .mismatch g src inner idxErr =>
    match calcErrorInfo ⟨src, behind⟩ idxErr t with
    | .panic => .panic
    | .ok (line, text) =>
      let head := GoRes.app (.ok (str "line " ++ str (toString line) ++ str ": match failed: `" ++ text ++ str "` doesn't match `"))
        (GoRes.app (g.code ttol names) (.ok (str "`")))
      match inner with
      | none => head
      | some e =>
        match Err.error ttol names t behind e with
        | .ok s => GoRes.app head (.ok (10 :: s))
        | .panic => GoRes.app head (.ok (10 :: fmtPanic))

/-- Errors of `Matcher.Match`: `ErrNoGrammar`, a `TokenizeError`, or the error of the match. -/
inductive MErr (A : Type) where
  | noGrammar
  | tokenize (off : Nat) (m : Msg)
  | match_ (e : Err A)

/-- Outcome of `Matcher.Match` (with the rest of the tokens) and `MatchExactly`. -/
inductive MRes (A σ P α : Type) where
  | ok (next : α) (s : St σ)
  | err (e : MErr A) (s : St σ)
  | panic (p : Panic A P) (s : St σ)

/-- `Matcher` (match.go:16-21) without the scanner; `init` is the `Init` callback (doing
nothing if it is nil).  `env` and `sem` say what variables and callbacks are. -/
structure Matcher (A σ V P : Type) where
  grammar : Gr A
  mode : Mode
  init : St σ → Cb A σ P Unit
  env : Env A
  sem : Sem A σ V P

/-- `Matcher.Match` (match.go:80-99): `fuel` is the fuel of the match.  Returns the
scanner as well. -/
def Matcher.match_ (m : Matcher A σ V P) (U : Uni) (fuel : Nat) (k : KwScanner) (src : Str) (s : St σ) :
    Option (MRes A σ P (List Token)) × KwScanner :=
  match m.grammar with
  | .nil => (some (.err .noGrammar s), k)
  | g =>
    match k.tokenize U src m.mode with
    | ((_, some (off, msg)), k) => (some (.err (.tokenize off msg) s), k)
    | ((tokens, none), k) =>
      (match m.init s with
      | .panic p s => some (.panic p s)
      | .ok _ s =>
        match matchG m.env m.sem fuel g tokens s with
        | none => none
        | some (.panic p s) => some (.panic p s)
        | some (.fail _ e s) => some (.err (.match_ e) s)
        | some (.ok n s) => if n ≤ tokens.length then some (.ok (tokens.drop n) s) else some (.panic .slice s), k)

/-- `Matcher.MatchExactly` and `Eval` (match.go:102-118). -/
def Matcher.matchExactly (m : Matcher A σ V P) (U : Uni) (fuel : Nat) (k : KwScanner) (src : Str) (s : St σ) :
    Option (MRes A σ P Unit) × KwScanner :=
  match m.match_ U fuel k src s with
  | (r, k) =>
    (match r with
    | none => none
    | some (.err e s) => some (.err e s)
    | some (.panic p s) => some (.panic p s)
    | some (.ok next s) => if next.length ≠ 0 then some (.err (.match_ (mismatch .eof next)) s) else some (.ok () s), k)

end Tpl
