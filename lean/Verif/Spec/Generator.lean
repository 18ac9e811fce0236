import Verif.Spec.TplText

/-
The Go code a generator of static compilers should write: a function that declares one
object for each name and then assigns each of them, and what such code builds.

    var (
    x = new(tpl.GrVar)
    doc = new(tpl.GrNamed)
    )
    // GrVar x
    x.Assign(<expression>)
    // GrNamed doc
    doc.Assign("doc", <expression>)
-/
namespace Tpl.Spec

/-- Go expressions that make a grammar. -/
inductive GoExpr where
  /-- a declared object -/
  | name (n : Str)
  /-- `tpl.Gr(tpl.N)` -/
  | kind (n : Str)
  /-- `tpl.Gr('c')` -/
  | char (lit : Str)
  | grTrue
  | nil
  | repeat0 (e : GoExpr)
  | repeat1 (e : GoExpr)
  | repeat01 (e : GoExpr)
  | not (e : GoExpr)
  | peek (e : GoExpr)
  | list (a b : GoExpr)
  | list0 (a b : GoExpr)
  /-- `cmplr.Marker(a, "m")` -/
  | marker (a : GoExpr) (m : Str)
  | and (es : List GoExpr)
  | or (es : List GoExpr)

/-- Items with commas between. -/
def commas : List Str → Str
  | [] => []
  | [a] => a
  | a :: b :: l => a ++ bytes "," ++ commas (b :: l)

mutual
/-- The text of an expression. -/
def GoExpr.text : GoExpr → Str
  | .name n => n
  | .kind n => bytes "tpl.Gr(tpl." ++ n ++ bytes ")"
  | .char l => bytes "tpl.Gr(" ++ l ++ bytes ")"
  | .grTrue => bytes "tpl.GrTrue"
  | .nil => bytes "nil"
  | .repeat0 e => bytes "tpl.Repeat0(" ++ e.text ++ bytes ")"
  | .repeat1 e => bytes "tpl.Repeat1(" ++ e.text ++ bytes ")"
  | .repeat01 e => bytes "tpl.Repeat01(" ++ e.text ++ bytes ")"
  | .not e => bytes "tpl.Not(" ++ e.text ++ bytes ")"
  | .peek e => bytes "tpl.Peek(" ++ e.text ++ bytes ")"
  | .list a b => bytes "tpl.List(" ++ a.text ++ bytes "," ++ b.text ++ bytes ")"
  | .list0 a b => bytes "tpl.List0(" ++ a.text ++ bytes "," ++ b.text ++ bytes ")"
  | .marker a m => bytes "cmplr.Marker(" ++ a.text ++ bytes ",\"" ++ m ++ bytes "\")"
  | .and es => bytes "tpl.And(" ++ commas (texts es) ++ bytes ")"
  | .or es => bytes "tpl.Or(" ++ commas (texts es) ++ bytes ")"
def texts : List GoExpr → List Str
  | [] => []
  | e :: es => e.text :: texts es
end

/-- What the function assigns to the objects it declares. -/
structure GoProg where
  vars : List (Str × GoExpr)
  named : List (Str × GoExpr)

/-- The text of the program. -/
def GoProg.text (P : GoProg) : Str :=
  bytes "\ntype StaticCompiler struct {\n\tGrammar  string\n\tMarker   func(g tpl.Grammar, mark string) tpl.Grammar\n\tInit     func()\n\tScanner  tpl.Tokener\n\tScanMode tpl.ScanMode\n}\nfunc(cmplr *StaticCompiler)Cl()tpl.CompileRet{\n" ++
  bytes "var (\n" ++
  (P.vars.map fun p => p.1 ++ bytes " = new(tpl.GrVar)\n").flatten ++
  (P.named.map fun p => p.1 ++ bytes " = new(tpl.GrNamed)\n").flatten ++
  bytes ")\n" ++
  (P.vars.map fun p => bytes "// GrVar " ++ p.1 ++ bytes "\n" ++
    p.1 ++ bytes ".Assign(" ++ p.2.text ++ bytes ")" ++ bytes "\n").flatten ++
  (P.named.map fun p => bytes "// GrNamed " ++ p.1 ++ bytes "\n" ++
    p.1 ++ bytes ".Assign(\"" ++ p.1 ++ bytes "\", " ++ p.2.text ++ bytes ")\n").flatten ++
  bytes "ret := tpl.CompileRet{}\nret.Matcher = &tpl.Matcher{\n\t\tGrammar: doc,\n\t\tScanner: cmplr.Scanner,\n\t\tInit: cmplr.Init,\n\t}\nreturn ret}\n"

/-- The token constants of package tpl that have a name in grammar texts. -/
def goConst : List (Str × Nat) :=
  [(bytes "EOF", 1), (bytes "COMMENT", 2), (bytes "IDENT", 3), (bytes "INT", 4), (bytes "FLOAT", 5),
   (bytes "IMAG", 6), (bytes "CHAR", 7), (bytes "STRING", 8)]

variable {B : Type}

mutual
/-- The grammar an expression makes.  `named` says what is assigned to the objects of
rules, `var` which variable is which.  A constructor with a `len` field may be at any
address. -/
inductive Makes (mk : Marker B) (named : Str → Option GoExpr) (var : Str → Option Nat) : GoExpr → Gr B → Prop where
  | var {n i} : var n = some i → Makes mk named var (.name n) (.var i)
  | named {n e g} : named n = some e → Makes mk named var e g → Makes mk named var (.name n) (.named n g)
  | kind {n k} : goConst.lookup n = some k → Makes mk named var (.kind n) (.tok k)
  | char {c : UInt8} : Makes mk named var (.char [39, c, 39]) (.tok c.toNat)
  | grTrue : Makes mk named var .grTrue .tru
  | nil : Makes mk named var .nil .nil
  | repeat0 {e g id} : Makes mk named var e g → Makes mk named var (.repeat0 e) (.rep0 id g)
  | repeat1 {e g id} : Makes mk named var e g → Makes mk named var (.repeat1 e) (.rep1 id g)
  | repeat01 {e g id} : Makes mk named var e g → Makes mk named var (.repeat01 e) (.rep01 id g)
  | not {e g} : Makes mk named var e g → Makes mk named var (.not e) (.not g)
  | peek {e g} : Makes mk named var e g → Makes mk named var (.peek e) (.peek g)
  | list {a b g h id} : Makes mk named var a g → Makes mk named var b h → Makes mk named var (.list a b) (.list id g h false)
  | list0 {a b g h id} : Makes mk named var a g → Makes mk named var b h → Makes mk named var (.list0 a b) (.list id g h true)
  | marker {a m g h} : Makes mk named var a g → mk g m = .ok h → Makes mk named var (.marker a m) h
  | and {es gs} : MakesAll mk named var es gs → Makes mk named var (.and es) (.and gs)
  | or {es gs} : MakesAll mk named var es gs → Makes mk named var (.or es) (.or gs)
inductive MakesAll (mk : Marker B) (named : Str → Option GoExpr) (var : Str → Option Nat) : List GoExpr → List (Gr B) → Prop where
  | nil : MakesAll mk named var [] []
  | cons {e g es gs} : Makes mk named var e g → MakesAll mk named var es gs → MakesAll mk named var (e :: es) (g :: gs)
end

/-- The program builds the tables of a compiled grammar: objects for the same names, each
assigned an expression that makes the grammar of that name. -/
structure GoProg.Builds (P : GoProg) (mk : Marker B) (T : Tab B) : Prop where
  named_names : ∀ n, n ∈ P.named.map (·.1) ↔ n ∈ T.grammars.map (·.1)
  var_names : ∀ n, n ∈ P.vars.map (·.1) ↔ n ∈ T.vars.map (·.1)
  distinct : (P.vars.map (·.1) ++ P.named.map (·.1)).Nodup
  named : ∀ n e, (n, e) ∈ P.named → ∃ g, T.grammars.lookup n = some g ∧ Makes mk (P.named.lookup ·) (varNo · T.vars) e g
  vars : ∀ n e, (n, e) ∈ P.vars → ∃ g, (n, some g) ∈ T.vars ∧ Makes mk (P.named.lookup ·) (varNo · T.vars) e g

mutual
/-- The syntax without `+`, strings and the name `true`. -/
def Fac.mild : Fac → Bool
  | .ident n => n ≠ bytes "true"
  | .char _ | .int _ => true
  | .string _ | .rep1 _ => false
  | .rep0 f | .rep01 f | .not f | .peek f => f.mild
  | .paren g => g.mild
def Sufs.mild : Sufs → Bool
  | .nil => true
  | .list f r | .list0 f r => f.mild && r.mild
  | .mark _ r => r.mild
def Item.mild : Item → Bool
  | .term f s => f.mild && s.mild
  | .cut => true
def ItemSeq.mild : ItemSeq → Bool
  | .nil => true
  | .cons i r => i.mild && r.mild
def Alts.mild : Alts → Bool
  | .one i is => i.mild && is.mild
  | .alt i is r => i.mild && is.mild && r.mild
end

/-- The names the rules refer to. -/
def refsDoc (rs : List Rule) : List Str := (rs.map fun r => r.body.refs).flatten

/-- Names the generated function cannot use for its own objects. -/
def goReserved : List Str :=
  (["break", "case", "chan", "const", "continue", "default", "defer", "else", "fallthrough", "for", "func", "go", "goto",
    "if", "import", "interface", "map", "package", "range", "return", "select", "struct", "switch", "type", "var",
    "tpl", "cmplr", "ret", "new", "nil", "_"] : List String).map bytes

/-- The grammar texts the generator can cope with. -/
structure Mild (rs : List Rule) : Prop where
  body : ∀ r ∈ rs, r.body.mild = true
  /-- a rule used in or before its own definition is not used after it -/
  order : ∀ pre r post, rs = pre ++ r :: post → r.name ∈ refsDoc (pre ++ [r]) → r.name ∉ refsDoc post
  /-- names that are names in Go -/
  names : ∀ n, (∃ r ∈ rs, r.name = n) ∨ n ∈ refsDoc rs → n ∉ goReserved

end Tpl.Spec
