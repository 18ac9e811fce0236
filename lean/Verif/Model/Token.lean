/-
Model of tpl/token.go.
-/
namespace Tpl

/-- Go `string` / `[]byte`. -/
abbrev Str := List UInt8

/-- Bytes of a Lean string literal (used for Go string literals in the source). -/
def str (s : String) : Str := s.toUTF8.data.toList

/-! Token kinds: tpl/token.go:10-51. -/
abbrev ILLEGAL : Nat := 0
abbrev EOF : Nat := 1
abbrev COMMENT : Nat := 2
abbrev IDENT : Nat := 3
abbrev INT : Nat := 4
abbrev FLOAT : Nat := 5
abbrev IMAG : Nat := 6
abbrev CHAR : Nat := 7
abbrev STRING : Nat := 8

abbrev ADD : Nat := 43
abbrev SUB : Nat := 45
abbrev MUL : Nat := 42
abbrev QUO : Nat := 47
abbrev REM : Nat := 37
abbrev AND : Nat := 38
abbrev OR : Nat := 124
abbrev XOR : Nat := 94
abbrev LT : Nat := 60
abbrev GT : Nat := 62
abbrev ASSIGN : Nat := 61
abbrev NOT : Nat := 33
abbrev LPAREN : Nat := 40
abbrev LBRACK : Nat := 91
abbrev LBRACE : Nat := 123
abbrev COMMA : Nat := 44
abbrev PERIOD : Nat := 46
abbrev RPAREN : Nat := 41
abbrev RBRACK : Nat := 93
abbrev RBRACE : Nat := 125
abbrev SEMICOLON : Nat := 59
abbrev COLON : Nat := 58
abbrev QUESTION : Nat := 63
abbrev TILDE : Nat := 126
abbrev AT : Nat := 64

/-! Multi-character operators: tpl/token.go:53-87 (`operator_beg` = 0x80). -/
abbrev SHL : Nat := 0x81
abbrev SHR : Nat := 0x82
abbrev AND_NOT : Nat := 0x83
abbrev ADD_ASSIGN : Nat := 0x84
abbrev SUB_ASSIGN : Nat := 0x85
abbrev MUL_ASSIGN : Nat := 0x86
abbrev QUO_ASSIGN : Nat := 0x87
abbrev REM_ASSIGN : Nat := 0x88
abbrev AND_ASSIGN : Nat := 0x89
abbrev OR_ASSIGN : Nat := 0x8a
abbrev XOR_ASSIGN : Nat := 0x8b
abbrev SHL_ASSIGN : Nat := 0x8c
abbrev SHR_ASSIGN : Nat := 0x8d
abbrev AND_NOT_ASSIGN : Nat := 0x8e
abbrev LAND : Nat := 0x8f
abbrev LOR : Nat := 0x90
abbrev ARROW : Nat := 0x91
abbrev INC : Nat := 0x92
abbrev DEC : Nat := 0x93
abbrev EQ : Nat := 0x94
abbrev NE : Nat := 0x95
abbrev LE : Nat := 0x96
abbrev GE : Nat := 0x97
abbrev DEFINE : Nat := 0x98
abbrev ELLIPSIS : Nat := 0x99

/-- tpl/token.go:86 -/
abbrev USER_TOKEN_BEGIN : Nat := 0xb0

/-- The keyed elements of the array literal `tokens` (tpl/token.go:91-163). -/
def tokenEntries : List (Nat × String) := [
  (ILLEGAL, "ILLEGAL"),
  (EOF, "EOF"), (COMMENT, "COMMENT"),
  (IDENT, "IDENT"), (INT, "INT"), (FLOAT, "FLOAT"), (IMAG, "IMAG"), (CHAR, "CHAR"),
  (STRING, "STRING"),
  (ADD, "'+'"), (SUB, "'-'"), (MUL, "'*'"), (QUO, "'/'"), (REM, "'%'"),
  (AND, "'&'"), (OR, "'|'"), (XOR, "'^'"),
  (LT, "'<'"), (GT, "'>'"), (ASSIGN, "'='"), (NOT, "'!'"),
  (LPAREN, "'('"), (LBRACK, "'['"), (LBRACE, "'{'"), (COMMA, "','"), (PERIOD, "'.'"),
  (RPAREN, "')'"), (RBRACK, "']'"), (RBRACE, "'}'"), (SEMICOLON, "';'"), (COLON, "':'"),
  (QUESTION, "'?'"), (TILDE, "'~'"), (AT, "'@'"),
  (SHL, "\"<<\""), (SHR, "\">>\""), (AND_NOT, "\"&^\""),
  (ADD_ASSIGN, "\"+=\""), (SUB_ASSIGN, "\"-=\""), (MUL_ASSIGN, "\"*=\""),
  (QUO_ASSIGN, "\"/=\""), (REM_ASSIGN, "\"%=\""),
  (AND_ASSIGN, "\"&=\""), (OR_ASSIGN, "\"|=\""), (XOR_ASSIGN, "\"^=\""),
  (SHL_ASSIGN, "\"<<=\""), (SHR_ASSIGN, "\">>=\""), (AND_NOT_ASSIGN, "\"&^=\""),
  (LAND, "\"&&\""), (LOR, "\"||\""), (ARROW, "\"<-\""), (INC, "\"++\""), (DEC, "\"--\""),
  (EQ, "\"==\""), (NE, "\"!=\""), (LE, "\"<=\""), (GE, "\">=\""), (DEFINE, "\":=\""),
  (ELLIPSIS, "\"...\"")]

/-- `var tokens = [...]string{...}` (tpl/token.go:91-163): the array has one more
element than its largest index (ELLIPSIS), and keys not mentioned hold `""`. -/
def tokens : List Str :=
  (List.range 154).map fun i =>
    match tokenEntries.lookup i with
    | some s => str s
    | none => []

/-- Outcome of a Go call that may panic. -/
inductive GoRes (α : Type) where
  | ok (a : α)
  | panic
  deriving Repr, DecidableEq

/-- `TokenLen` (tpl/token.go:169-174). `tokens[tok]` panics when `tok` is out of range. -/
def TokenLen (tok : Nat) : GoRes Int :=
  if tok > 32 ∧ tok ≤ tokens.length then
    match tokens[tok]? with
    | some s => .ok ((s.length : Int) - 2)
    | none => .panic
  else .ok 0

/-- `Token2Lit` (tpl/token.go:179-186). -/
def Token2Lit (tok : Nat) : GoRes Str :=
  match tokens[tok]? with
  | some s => .ok s
  | none => .panic

/-- The map `rtokens` filled by `init` (tpl/token.go:188-197), newest entry first. -/
def rtokens : List (Str × Nat) :=
  tokens.zipIdx.foldl (fun m e => if e.1 ≠ [] then e :: m else m) []

/-- `Lit2Token` (tpl/token.go:200-202): a missing key gives the zero value. -/
def Lit2Token (lit : Str) : Nat := (rtokens.lookup lit).getD 0

end Tpl
