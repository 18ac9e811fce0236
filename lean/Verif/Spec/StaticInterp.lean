import Verif.Spec.Generator
import Verif.Model.StaticInterp

/-
When a generated interpreter can stand in for the one `interpreter.New` makes.
-/
namespace Tpl.Spec
open Tpl
variable {E X I τ F W : Type}

mutual
/-- The marks in a grammar text. -/
def Fac.marks : Fac → List Str
  | .ident _ | .char _ | .string _ | .int _ => []
  | .rep0 f | .rep1 f | .rep01 f | .not f | .peek f => f.marks
  | .paren g => g.marks
def Sufs.marks : Sufs → List Str
  | .nil => []
  | .list f r | .list0 f r => f.marks ++ r.marks
  | .mark n r => n :: r.marks
def Item.marks : Item → List Str
  | .term f s => f.marks ++ s.marks
  | .cut => []
def ItemSeq.marks : ItemSeq → List Str
  | .nil => []
  | .cons i r => i.marks ++ r.marks
def Alts.marks : Alts → List Str
  | .one i is => i.marks ++ is.marks
  | .alt i is r => i.marks ++ is.marks ++ r.marks
end

/-- The marks of all rules. -/
def marksDoc (rs : List Rule) : List Str := (rs.map fun r => r.body.marks).flatten

/-- Code that does not use the engine it runs in. -/
def Alone {α : Type} (x : Code E X I τ α) : Prop := ∀ f m m' s, x.run f m s = x.run f m' s

/-- A client for generated interpreters: functions have at most one parameter behind the
receiver, which is neither `*Context` nor `*FileLine`, and leave the engine alone. -/
structure Modest (c : Client E X I τ F W) : Prop where
  one : ∀ mark params ok body, c.table mark = some (.recv params ok body) → params.length ≤ 1 ∧ .ctx ∉ params ∧ .fline ∉ params
  recv : ∀ mark params ok body, c.table mark = some (.recv params ok body) → ∀ args, Alone (body args)
  plain : ∀ mark fn, c.table mark = some (.plain fn) → ∀ args, Alone (fn.body args)
  pop : ∀ n, Alone (c.stack.popArgs n)
  push : ∀ ws, Alone (c.stack.pushRet ws)
  callFn : ∀ call, c.callFn = some call → ∀ fn, Alone (call fn)
  /-- both ways to read the number 0 -/
  zero : c.lits.parse (bytes "0") = some (c.lits.ofInt 0)
  /-- the empty text is no number -/
  empty : c.lits.parse [] = none

/-- No octal and no hexadecimal number: behind a 0 at the beginning there is nothing, a point,
an exponent or the `i` of an imaginary number. -/
def Decimal (lit : Str) : Prop := ∀ b rest, lit = 48 :: b :: rest → b = 46 ∨ b = 101 ∨ b = 69 ∨ b = 105

/-- All tokens of a text are `Decimal`. -/
def DecimalText (U : Uni) (k : KwScanner) (src : Str) : Prop := ∀ t ∈ (k.tokenize U src ⟨false, false⟩).1.1, Decimal t.lit

/-- A scanner in which no keyword has been defined. -/
structure Wordless (k : KwScanner) : Prop where
  ok : k.sc.bad = false
  tokens : k.tokens = []
  keywords : k.keywords = none ∨ k.keywords = some []

/-- Engines in the same state, each with a scanner of its own. -/
structure SameEngine (s s' : St (Eng I τ)) : Prop where
  len : s.len = s'.len
  mute : s.u.mute = s'.u.mute
  ipt : s.u.ipt = s'.u.ipt
  u : s.u.u = s'.u.u
  scanner : s.u.scanner = s'.u.scanner ∨ Wordless s.u.scanner ∧ Wordless s'.u.scanner

/-- The same outcome: success, the same error, or a panic, possibly with another value. -/
inductive SameEnd : MRes Str (Eng I τ) (IPanic E X) Unit → MRes Str (Eng I τ) (IPanic E X) Unit → Prop
  | ok {s s'} : SameEngine s s' → SameEnd (.ok () s) (.ok () s')
  | err {e s s'} : SameEngine s s' → SameEnd (.err e s) (.err e s')
  | panic {p p' s s'} : SameEngine s s' → SameEnd (.panic p s) (.panic p' s')

/-- `r` is what `Cl` of the generated program `P` returns, for some numbering of the objects
the program declares. -/
def GoProg.Returns (P : GoProg) (mk : Marker Str) (r : CompileRet Str) : Prop :=
  ∃ T doc, P.Builds mk T ∧ T.grammars.lookup (bytes "doc") = some doc ∧ r = Static.compiled T doc

end Tpl.Spec
