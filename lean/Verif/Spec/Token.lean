/-
Specification of the token vocabulary, written without the model: the
spelling of every operator and the name of every token class, as documented in
tpl/README.md and the comments of tpl/token.go.
-/
namespace Tpl.Spec

/-- All operators with their source spelling. -/
def operators : List (Nat × String) := [
  (0x21, "!"), (0x25, "%"), (0x26, "&"), (0x28, "("), (0x29, ")"), (0x2a, "*"), (0x2b, "+"),
  (0x2c, ","), (0x2d, "-"), (0x2e, "."), (0x2f, "/"), (0x3a, ":"), (0x3b, ";"), (0x3c, "<"),
  (0x3d, "="), (0x3e, ">"), (0x3f, "?"), (0x40, "@"), (0x5b, "["), (0x5d, "]"), (0x5e, "^"),
  (0x7b, "{"), (0x7c, "|"), (0x7d, "}"), (0x7e, "~"),
  (0x81, "<<"), (0x82, ">>"), (0x83, "&^"),
  (0x84, "+="), (0x85, "-="), (0x86, "*="), (0x87, "/="), (0x88, "%="),
  (0x89, "&="), (0x8a, "|="), (0x8b, "^="), (0x8c, "<<="), (0x8d, ">>="), (0x8e, "&^="),
  (0x8f, "&&"), (0x90, "||"), (0x91, "<-"), (0x92, "++"), (0x93, "--"),
  (0x94, "=="), (0x95, "!="), (0x96, "<="), (0x97, ">="), (0x98, ":="), (0x99, "...")]

/-- Token classes that are not operators. -/
def classes : List (Nat × String) := [
  (0, "ILLEGAL"), (1, "EOF"), (2, "COMMENT"), (3, "IDENT"), (4, "INT"), (5, "FLOAT"),
  (6, "IMAG"), (7, "CHAR"), (8, "STRING")]

/-- The name of a token kind: the class name; an operator's spelling in single
quotes when it is one character long, in double quotes otherwise. -/
def names : List (Nat × String) :=
  classes ++ operators.map fun (k, s) =>
    (k, if s.length = 1 then "'" ++ s ++ "'" else "\"" ++ s ++ "\"")

/-- Bytes of a string. -/
def bytes (s : String) : List UInt8 := s.toUTF8.data.toList

end Tpl.Spec
