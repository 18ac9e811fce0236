import Verif.Model.Matcher

/-
What the errors of a match can look like, which grammars can be printed, and what it
means that a text tokenizes.
-/
namespace Tpl.Spec
variable {A : Type}

/-- `g'` is one of the grammars `g` is directly made of (`list`: also the sequence
`G2 G1` its loop matches). -/
inductive Sub (env : Env A) : Gr A → Gr A → Prop
  | peek {g} : Sub env (.peek g) g
  | not {g} : Sub env (.not g) g
  | and {gs g} : g ∈ gs → Sub env (.and gs) g
  | or {gs g} : g ∈ gs → Sub env (.or gs) g
  | rep0 {id g} : Sub env (.rep0 id g) g
  | rep1 {id g} : Sub env (.rep1 id g) g
  | rep01 {id g} : Sub env (.rep01 id g) g
  | listA {id a b l0} : Sub env (.list id a b l0) a
  | listRest {id a b l0} : Sub env (.list id a b l0) (.and [b, a])
  | var {v g} : env v = some g → Sub env (.var v) g
  | named {n g} : Sub env (.named n g) g
  | action {a g} : Sub env (.action a g) g
  | trans {a g} : Sub env (.trans a g) g

/-- `e` is an error returned by matching the tokens `toks` with grammars in `Q`:
`ErrVarNotAssigned`, or a mismatch at the start of some suffix. -/
inductive FailAt (toks : List Token) (Q : Gr A → Prop) : Err A → Prop
  | var : FailAt toks Q .varNotAssigned
  | plain {g src} : g ≠ .nil → Q g → src <:+ toks → FailAt toks Q (.mismatch g src none 0)

/-- `e` is what a fail-fast sequence panics with: it points into its suffix or just
behind it. -/
inductive CutAt (toks : List Token) (Q : Gr A → Prop) : Err A → Prop
  | cut {gs src e idx} : Q (.and gs) → .nil ∈ gs → src <:+ toks → idx ≤ src.length → FailAt toks Q e →
      CutAt toks Q (.mismatch (.and gs) src (some e) idx)

/-- Grammars without a nil outside of a sequence, whose token kinds have names. -/
inductive Printable (known : Nat → Prop) : Gr A → Prop
  | tok {k} : known k → Printable known (.tok k)
  | tru : Printable known .tru
  | eof : Printable known .eof
  | peek {g} : Printable known g → Printable known (.peek g)
  | not {g} : Printable known g → Printable known (.not g)
  | and {gs} : (∀ g ∈ gs, g ≠ .nil → Printable known g) → Printable known (.and gs)
  | or {gs} : (∀ g ∈ gs, Printable known g) → Printable known (.or gs)
  | rep0 {id g} : Printable known g → Printable known (.rep0 id g)
  | rep1 {id g} : Printable known g → Printable known (.rep1 id g)
  | rep01 {id g} : Printable known g → Printable known (.rep01 id g)
  | list {id a b l0} : Printable known a → Printable known b → Printable known (.list id a b l0)
  | var {v} : Printable known (.var v)
  | named {n g} : Printable known g → Printable known (.named n g)
  | action {a g} : Printable known g → Printable known (.action a g)
  | trans {a g} : Printable known g → Printable known (.trans a g)

/-- The text tokenizes without error: calling `Scan` until EOF reports no error, and
`ts` and `eof` are the tokens, with the keywords of the scanner replaced. -/
def Tokenizes (U : Uni) (k : KwScanner) (src : Str) (mode : Mode) (ts : List Token) (eof : Token) : Prop :=
  ∃ full s', Run U (Scanner.init k.sc src mode) full s' ∧ s'.errs = [] ∧
    ts ++ [eof] = full.map fun t => if t.kind = IDENT then { t with kind := (k.keywords.get t.lit).getD IDENT } else t

end Tpl.Spec
