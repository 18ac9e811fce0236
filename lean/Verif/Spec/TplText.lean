import Verif.Model.Compiler
import Verif.Spec.Token

/-
The TPL language: its syntax as syntax trees, the tokens of a tree, and the grammar a
tree means.  Nothing here mentions matching, an operand stack or backtracking.

    factor  = IDENT | CHAR | STRING | INT | '*' factor | '+' factor | '?' factor
            | '~' factor | '@' factor | '(' grammar ')'
    term    = factor *('%' factor | "%=" factor | '/' IDENT)
    expr    = +(term | '!')
    grammar = expr % '|'
    doc     = +(IDENT '=' grammar ';')
-/
namespace Tpl.Spec

mutual
/-- factor -/
inductive Fac where
  | ident (name : Str)
  | char (lit : Str)
  | string (lit : Str)
  | int (lit : Str)
  | rep0 (f : Fac)
  | rep1 (f : Fac)
  | rep01 (f : Fac)
  | not (f : Fac)
  | peek (f : Fac)
  | paren (g : Alts)
/-- what may follow the factor of a term -/
inductive Sufs where
  | nil
  | list (f : Fac) (rest : Sufs)
  | list0 (f : Fac) (rest : Sufs)
  | mark (name : Str) (rest : Sufs)
/-- term | '!' -/
inductive Item where
  | term (f : Fac) (s : Sufs)
  | cut
inductive ItemSeq where
  | nil
  | cons (i : Item) (rest : ItemSeq)
/-- grammar: one or more alternatives, each of one or more items -/
inductive Alts where
  | one (i : Item) (is : ItemSeq)
  | alt (i : Item) (is : ItemSeq) (rest : Alts)
end

/-- IDENT '=' grammar ';' -/
structure Rule where
  name : Str
  body : Alts

/-! ### Tokens -/

/-- What counts of a token: its kind and, for tokens that stand for themselves, the text. -/
def key (t : Token) : Nat × Str := (t.kind, if t.kind ∈ [IDENT, CHAR, STRING, INT] then t.lit else [])

/-- An operator. -/
def opr (k : Nat) : Nat × Str := (k, [])

mutual
def Fac.flat : Fac → List (Nat × Str)
  | .ident n => [(IDENT, n)]
  | .char l => [(CHAR, l)]
  | .string l => [(STRING, l)]
  | .int l => [(INT, l)]
  | .rep0 f => opr 42 :: f.flat
  | .rep1 f => opr 43 :: f.flat
  | .rep01 f => opr 63 :: f.flat
  | .not f => opr 126 :: f.flat
  | .peek f => opr 64 :: f.flat
  | .paren g => opr 40 :: (g.flat ++ [opr 41])
def Sufs.flat : Sufs → List (Nat × Str)
  | .nil => []
  | .list f r => opr 37 :: (f.flat ++ r.flat)
  | .list0 f r => opr REM_ASSIGN :: (f.flat ++ r.flat)
  | .mark n r => opr 47 :: (IDENT, n) :: r.flat
def Item.flat : Item → List (Nat × Str)
  | .term f s => f.flat ++ s.flat
  | .cut => [opr 33]
def ItemSeq.flat : ItemSeq → List (Nat × Str)
  | .nil => []
  | .cons i r => i.flat ++ r.flat
def Alts.flat : Alts → List (Nat × Str)
  | .one i is => i.flat ++ is.flat
  | .alt i is r => (i.flat ++ is.flat) ++ opr 124 :: r.flat
end

def Rule.flat (r : Rule) : List (Nat × Str) := (IDENT, r.name) :: opr 61 :: (r.body.flat ++ [opr 59])

/-- The tokens of a document. -/
def flatDoc (rs : List Rule) : List (Nat × Str) := (rs.map Rule.flat).flatten

/-- The tokens `ts` are a document with the rules `rs`. -/
def IsDoc (ts : List Token) (rs : List Rule) : Prop := rs ≠ [] ∧ ts.map key = flatDoc rs

/-! ### Names -/

/-- Names that begin with a capital letter stand for tokens. -/
def isUpper : Str → Bool
  | c :: _ => 65 ≤ c && c ≤ 90
  | [] => false

mutual
/-- The rules a factor refers to. -/
def Fac.refs : Fac → List Str
  | .ident n => if isUpper n then [] else [n]
  | .char _ | .string _ | .int _ => []
  | .rep0 f | .rep1 f | .rep01 f | .not f | .peek f => f.refs
  | .paren g => g.refs
def Sufs.refs : Sufs → List Str
  | .nil => []
  | .list f r => f.refs ++ r.refs
  | .list0 f r => f.refs ++ r.refs
  | .mark _ r => r.refs
def Item.refs : Item → List Str
  | .term f s => f.refs ++ s.refs
  | .cut => []
def ItemSeq.refs : ItemSeq → List Str
  | .nil => []
  | .cons i r => i.refs ++ r.refs
def Alts.refs : Alts → List Str
  | .one i is => i.refs ++ is.refs
  | .alt i is r => i.refs ++ is.refs ++ r.refs
end

mutual
/-- Nothing but `!`, possibly in parentheses. -/
def Fac.onlyCut : Fac → Bool
  | .paren g => g.onlyCut
  | _ => false
def Alts.onlyCut : Alts → Bool
  | .one .cut .nil => true
  | .one (.term f .nil) .nil => f.onlyCut
  | _ => false
end

/-! ### Meaning

The tables are passed along from left to right: names that are defined, names that have
been used before, keywords of the scanner. -/

variable {B : Type}

/-- The token a literal stands for. -/
def tokenOf (lit : Str) (t : Tab B) : Except ClPanic (Gr B × Tab B) :=
  match t.scanner.ltot lit with
  | .ok (0, _) => .error (.illegal lit)
  | .ok (kind, k) => .ok (.tok kind, { t with scanner := k })
  | .panic => .error .ltot

/-- Where a variable is, if there is one of this name. -/
def varNo (name : Str) : List (Str × Option (Gr B)) → Option Nat
  | [] => none
  | v :: vs => if v.1 = name then some 0 else (varNo name vs).map (· + 1)

/-- What a name means: a token, a rule defined before, or else a rule to be defined. -/
def nameOf (name : Str) (t : Tab B) : Except ClPanic (Gr B × Tab B) :=
  if name = [] then .error .index
  else if isUpper name then tokenOf name t
  else match t.grammars.lookup name, varNo name t.vars with
    | some g, _ => .ok (.named name g, t)
    | none, some v => .ok (.var v, t)
    | none, none => if name = bytes "true" then .ok (.tru, t) else .ok (.var t.vars.length, { t with vars := t.vars ++ [(name, none)] })

/-- A sequence; one item is not wrapped. -/
def oneOrAnd : List (Gr B) → Gr B
  | [g] => g
  | gs => .and gs

/-- Alternatives; a single one is not wrapped. -/
def oneOrOr : List (Gr B) → Gr B
  | [g] => g
  | gs => .or gs

/-- A grammar with a `len` cell. -/
def newObj (f : Nat → Gr B) (t : Tab B) : Gr B × Tab B := (f t.cells, { t with cells := t.cells + 1 })

mutual
def Fac.den (mk : Marker B) : Fac → Tab B → Except ClPanic (Gr B × Tab B)
  | .ident n, t => nameOf n t
  | .char l, t => tokenOf l t
  | .string l, t => tokenOf l t
  | .int l, t => if l = bytes "1" then .ok (.tru, t) else .error (.illegal l)
  | .rep0 f, t => (f.den mk t).bind fun x => .ok (newObj (.rep0 · x.1) x.2)
  | .rep1 f, t => (f.den mk t).bind fun x => .ok (newObj (.rep1 · x.1) x.2)
  | .rep01 f, t => (f.den mk t).bind fun x => .ok (newObj (.rep01 · x.1) x.2)
  | .not f, t => (f.den mk t).bind fun x => .ok (.not x.1, x.2)
  | .peek f, t => (f.den mk t).bind fun x => .ok (.peek x.1, x.2)
  | .paren g, t => (g.den mk t).bind fun x => .ok (oneOrOr x.1, x.2)
/-- The factor before is `a`: suffixes associate to the left. -/
def Sufs.den (mk : Marker B) : Sufs → Gr B → Tab B → Except ClPanic (Gr B × Tab B)
  | .nil, a, t => .ok (a, t)
  | .list f r, a, t => (f.den mk t).bind fun x =>
      let y := newObj (.list · a x.1 false) x.2
      r.den mk y.1 y.2
  | .list0 f r, a, t => (f.den mk t).bind fun x =>
      let y := newObj (.list · a x.1 true) x.2
      r.den mk y.1 y.2
  | .mark n r, a, t =>
    match mk a n with
    | .ok g => r.den mk g t
    | .error e => .error (.marker e)
def Item.den (mk : Marker B) : Item → Tab B → Except ClPanic (Gr B × Tab B)
  | .term f s, t => (f.den mk t).bind fun x => s.den mk x.1 x.2
  | .cut, t => .ok (.nil, t)
def ItemSeq.den (mk : Marker B) : ItemSeq → Tab B → Except ClPanic (List (Gr B) × Tab B)
  | .nil, t => .ok ([], t)
  | .cons i r, t => (i.den mk t).bind fun x => (r.den mk x.2).bind fun y => .ok (x.1 :: y.1, y.2)
def Alts.den (mk : Marker B) : Alts → Tab B → Except ClPanic (List (Gr B) × Tab B)
  | .one i is, t => (i.den mk t).bind fun x => (is.den mk x.2).bind fun y => .ok ([oneOrAnd (x.1 :: y.1)], y.2)
  | .alt i is r, t => (i.den mk t).bind fun x => (is.den mk x.2).bind fun y => (r.den mk y.2).bind fun z =>
      .ok (oneOrAnd (x.1 :: y.1) :: z.1, z.2)
end

/-- Defining a name. -/
def define (name : Str) (g : Gr B) (t : Tab B) : Except ClPanic (Tab B) :=
  match varNo name t.vars, t.grammars.lookup name with
  | some v, _ =>
    match t.vars[v]?, g with
    | some (_, some _), _ => .error (.assigned name)
    | _, .nil => .ok t
    | _, g => .ok { t with vars := t.vars.set v (name, some g) }
  | none, some _ => .error (.exists_ name)
  | none, none => .ok { t with grammars := (name, g) :: t.grammars }

def Rule.den (mk : Marker B) (r : Rule) (t : Tab B) : Except ClPanic (Tab B) :=
  (r.body.den mk t).bind fun x => define r.name (oneOrOr x.1) x.2

/-- The rules one after the other. -/
def denDoc (mk : Marker B) : List Rule → Tab B → Except ClPanic (Tab B)
  | [], t => .ok t
  | r :: rs, t => (r.den mk t).bind fun t => denDoc mk rs t

end Tpl.Spec
