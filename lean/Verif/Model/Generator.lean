import Verif.Model.Matcher

/-
Model of tpl/generator/static_parser_gen.go: GenStaticCode.

Conventions and simplifications:
* The operand stack is a list whose head is the top; the maps `grammars` and `vars` are
  association lists in the order of insertion.
* Go iterates over the two maps in a random order; `Orders` picks an order for each.
* The text is tokenized completely before the first action runs, so the actions work on
  the scanner `Tokenize` left.
-/
namespace Tpl.Gen
open Tpl

/-- What the actions panic with. -/
inductive GenPanic where
  /-- index out of range on the operand stack -/
  | stack
  /-- `tokens[0]` or `name[0]` out of range -/
  | index
  /-- run-time panic in `Ltot` -/
  | ltot
  /-- "illegal token: ..." -/
  | illegal (lit : Str)
  /-- "grammar already exists: ..." -/
  | exists_ (name : Str)
deriving DecidableEq, Repr

/-- `grammars`, `vars` and `scanner` (static_parser_gen.go:13-15). -/
structure GTab where
  grammars : List (Str × Str)
  vars : List (Str × Str)
  scanner : KwScanner

/-- What the actions work on. -/
structure GenSt where
  stk : List Str
  tab : GTab

/-- The actions (static_parser_gen.go:16-156). -/
inductive GenAct where
  | list | list0 | mark | and | or | assign | ident | gr | grString | grTrue | grNil
  | repeat0 | repeat1 | repeat01 | not | peek
deriving DecidableEq, Repr

/-- A call of a function with one argument (`fmt.Sprintf("f(%s)", a)`). -/
def call1 (f : Str) (a : Str) : Str := f ++ str "(" ++ a ++ str ")"

/-- `strings.Join(a, ",")`. -/
def joinComma : List Str → Str
  | [] => []
  | [a] => a
  | a :: as => a ++ str "," ++ joinComma as

/-- `stk[n-1] = fmt.Sprintf("f(%s)", stk[n-1])` (static_parser_gen.go:126-156). -/
def GenSt.onTop (u : GenSt) (f : Str) : Except GenPanic GenSt :=
  match u.stk with
  | a :: stk => .ok ⟨call1 f a :: stk, u.tab⟩
  | [] => .error .stack

/-- `list` and `list0` (static_parser_gen.go:16-27). -/
def GenSt.list (u : GenSt) (f : Str) : Except GenPanic GenSt :=
  match u.stk with
  | b :: a :: stk => .ok ⟨call1 f (a ++ str "," ++ b) :: stk, u.tab⟩
  | _ => .error .stack

/-- `mark` (static_parser_gen.go:29-33). -/
def GenSt.mark (u : GenSt) (toks : List Token) : Except GenPanic GenSt :=
  match u.stk, toks with
  | [], _ => .error .stack
  | _ :: _, [] => .error .index
  | a :: stk, t :: _ => .ok ⟨call1 (str "cmplr.Marker") (a ++ str ",\"" ++ t.lit ++ str "\"") :: stk, u.tab⟩

/-- `and` and `or` (static_parser_gen.go:34-51); `m` is `g.Len()`. -/
def GenSt.reduce (u : GenSt) (m : Int) (f : Str) : Except GenPanic GenSt :=
  if m = 1 then .ok u
  else if 2 ≤ m ∧ m ≤ u.stk.length then
    .ok ⟨call1 f (joinComma (u.stk.take m.toNat).reverse) :: u.stk.drop m.toNat, u.tab⟩
  else .error .stack

/-- `m[name] = v`. -/
def putText (name v : Str) : List (Str × Str) → List (Str × Str)
  | [] => [(name, v)]
  | p :: l => if p.1 = name then (name, v) :: l else p :: putText name v l

/-- `assign` (static_parser_gen.go:52-64). -/
def GenSt.assign (u : GenSt) (toks : List Token) : Except GenPanic GenSt :=
  match u.stk, toks with
  | [], _ => .error .stack
  | _ :: _, [] => .error .index
  | a :: stk, t :: _ =>
    match u.tab.vars.lookup t.lit with
    | some _ => .ok ⟨stk, { u.tab with vars := putText t.lit (call1 (t.lit ++ str ".Assign") a) u.tab.vars }⟩
    | none =>
      match u.tab.grammars.lookup t.lit with
      | some _ => .error (.exists_ t.lit)
      | none => .ok ⟨stk, { u.tab with grammars := putText t.lit a u.tab.grammars }⟩

/-- A literal `scanner.Ltot` knows, and what is pushed for it (static_parser_gen.go:70-78,
97-112). -/
def GenSt.literal (u : GenSt) (lit text : Str) : Except GenPanic GenSt :=
  match u.tab.scanner.ltot lit with
  | .panic => .error .ltot
  | .ok (tok, k) => if tok = ILLEGAL then .error (.illegal lit) else .ok ⟨text :: u.stk, { u.tab with scanner := k }⟩

/-- `ident` (static_parser_gen.go:65-96).  A name that begins with a capital letter does
not begin with a quote: line 75 is never reached. -/
def GenSt.ident (u : GenSt) (name : Str) : Except GenPanic GenSt :=
  match name with
  | [] => .error .index
  | ch :: _ =>
    if 65 ≤ ch ∧ ch ≤ 90 then u.literal name (call1 (str "tpl.Gr") (str "tpl." ++ name))
    else
      match u.tab.grammars.lookup name with
      | some _ => .ok ⟨name :: u.stk, u.tab⟩
      | none =>
        match u.tab.vars.lookup name with
        | some s => .ok ⟨s :: u.stk, u.tab⟩
        | none =>
          if name = str "true" then .ok ⟨str "tpl.GrTrue" :: u.stk, { u.tab with vars := putText name (str "tpl.GrTrue") u.tab.vars }⟩
          else .ok ⟨name :: u.stk, { u.tab with vars := putText name name u.tab.vars }⟩

/-- The callbacks; `len` is `g.Len()`. -/
def genAct (a : GenAct) (toks : List Token) (len : Int) (u : GenSt) : Except GenPanic GenSt :=
  match a with
  | .list => u.list (str "tpl.List")
  | .list0 => u.list (str "tpl.List0")
  | .mark => u.mark toks
  | .and => u.reduce len (str "tpl.And")
  | .or => u.reduce len (str "tpl.Or")
  | .assign => u.assign toks
  | .ident => match toks with
    | [] => .error .index
    | t :: _ => u.ident t.lit
  | .gr => match toks with
    | [] => .error .index
    | t :: _ => u.literal t.lit (call1 (str "tpl.Gr") t.lit)
  | .grString => match toks with
    | [] => .error .index
    | t :: _ => u.literal t.lit (str "tpl.Gr(tpl.STRING)")
  -- static_parser_gen.go:113-118
  | .grTrue => match toks with
    | [] => .error .index
    | t :: _ => if t.lit ≠ str "1" then .error (.illegal t.lit) else .ok ⟨str "tpl.GrTrue" :: u.stk, u.tab⟩
  -- static_parser_gen.go:120-122
  | .grNil => .ok ⟨str "nil" :: u.stk, u.tab⟩
  | .repeat0 => u.onTop (str "tpl.Repeat0")
  -- static_parser_gen.go:133: the package name is there twice
  | .repeat1 => u.onTop (str "tpl.tpl.Repeat1")
  | .repeat01 => u.onTop (str "tpl.Repeat01")
  | .not => u.onTop (str "tpl.Not")
  | .peek => u.onTop (str "tpl.Peek")

/-- The callbacks as the matcher sees them. -/
def genSem : Sem GenAct GenSt Unit GenPanic where
  act _ _ a g toks s := some <|
    match genAct a toks (g.len s.len) s.u with
    | .ok u => .ok () { s with u := u }
    | .error p => .panic (.user p) s
  start _ s := .ok () s
  finish _ _ _ s := .ok () s
  act_mono := by intro f f' m m' hf h a g toks s r e; exact e

/-- `factor` (static_parser_gen.go:158): variable 0. -/
def genFactor : Gr GenAct := .var 0

/-- `term` (static_parser_gen.go:160-164). -/
def genTerm : Gr GenAct :=
  .and [genFactor, .rep0 0 (.or [
    .and [.tok 37, .action .list genFactor],
    .and [.tok REM_ASSIGN, .action .list0 genFactor],
    .and [.tok 47, .action .mark (.tok IDENT)]])]

/-- `expr` (static_parser_gen.go:166). -/
def genExpr : Gr GenAct := .action .and (.rep1 1 (.or [genTerm, .action .grNil (.tok 33)]))

/-- `grammar` (static_parser_gen.go:168). -/
def genGrammar : Gr GenAct := .action .or (.list 2 genExpr (.tok 124) false)

/-- `doc` (static_parser_gen.go:170-172). -/
def genDoc : Gr GenAct := .rep1 3 (.action .assign (.and [.tok IDENT, .tok 61, genGrammar, .tok 59]))

/-- `factor.Assign(...)` (static_parser_gen.go:174-185). -/
def genEnv : Env GenAct
  | 0 => some (.or [
    .action .ident (.tok IDENT),
    .action .gr (.tok CHAR),
    .action .grString (.tok STRING),
    .action .grTrue (.tok INT),
    .and [.tok 42, .action .repeat0 genFactor],
    .and [.tok 43, .action .repeat1 genFactor],
    .and [.tok 63, .action .repeat01 genFactor],
    .and [.tok 126, .action .not genFactor],
    .and [.tok 64, .action .peek genFactor],
    .and [.tok 40, genGrammar, .tok 41]])
  | _ => none

/-- The matcher (static_parser_gen.go:187-191).  `init` is how the scanner gets to the
actions (`k1`: the scanner after tokenizing). -/
def genMatcher (k1 : KwScanner) : Matcher GenAct GenSt Unit GenPanic where
  grammar := genDoc
  mode := ⟨false, true⟩
  init s := .ok () { s with u := ⟨[], ⟨[], [], k1⟩⟩ }
  env := genEnv
  sem := genSem

/-- The line of a variable in the declarations (static_parser_gen.go:201). -/
def declVar (k : Str) : Str := k ++ str " = new(tpl.GrVar)\n"
/-- The lines of a variable in the assignments (static_parser_gen.go:202). -/
def assignVar (k v : Str) : Str := str "// GrVar " ++ k ++ str "\n" ++ v ++ str "\n"
/-- The line of a rule in the declarations (static_parser_gen.go:205). -/
def declNamed (k : Str) : Str := k ++ str " = new(tpl.GrNamed)\n"
/-- The lines of a rule in the assignments (static_parser_gen.go:206). -/
def assignNamed (k v : Str) : Str :=
  str "// GrNamed " ++ k ++ str "\n" ++ k ++ str ".Assign(\"" ++ k ++ str "\", " ++ v ++ str ")\n"

/-- The text before the declarations (static_parser_gen.go:210-218). -/
def head : Str := str "\ntype StaticCompiler struct {\n\tGrammar  string\n\tMarker   func(g tpl.Grammar, mark string) tpl.Grammar\n\tInit     func()\n\tScanner  tpl.Tokener\n\tScanMode tpl.ScanMode\n}\nfunc(cmplr *StaticCompiler)Cl()tpl.CompileRet{\n"
/-- The text behind the assignments (static_parser_gen.go:221-227). -/
def tail : Str := str "ret := tpl.CompileRet{}\nret.Matcher = &tpl.Matcher{\n\t\tGrammar: doc,\n\t\tScanner: cmplr.Scanner,\n\t\tInit: cmplr.Init,\n\t}\nreturn ret}\n"

/-- The text from the two maps in the order the iterations see them
(static_parser_gen.go:196-232). -/
def emit (vars grammars : List (Str × Str)) : Str :=
  head
    ++ (str "var (\n" ++ (vars.map fun p => declVar p.1).flatten ++ (grammars.map fun p => declNamed p.1).flatten ++ str ")\n")
    ++ ((vars.map fun p => assignVar p.1 p.2).flatten ++ (grammars.map fun p => assignNamed p.1 p.2).flatten)
    ++ tail

/-- The orders Go iterates over the maps in. -/
structure Orders where
  vars : List (Str × Str) → List (Str × Str)
  grammars : List (Str × Str) → List (Str × Str)
  vars_perm : ∀ l, (vars l).Perm l
  grammars_perm : ∀ l, (grammars l).Perm l

/-- Outcome of `GenStaticCode`. -/
inductive GenRes where
  | ok (code : Str)
  | err (e : MErr GenAct)
  | noDoc
  | panic (p : Panic GenAct GenPanic)

/-- The end of `GenStaticCode` (static_parser_gen.go:196-235). -/
def genFinish (o : Orders) (t : GTab) : GenRes :=
  match t.grammars.lookup (str "doc") with
  | some _ => .ok (emit (o.vars t.vars) (o.grammars t.grammars))
  | none => .noDoc

/-- `GenStaticCode` (static_parser_gen.go:11-236).  The scanner is a new one. -/
def genStaticCode (U : Uni) (o : Orders) (fuel : Nat) (source : Str) : Option GenRes :=
  let k := KwScanner.zero
  let m := genMatcher (k.tokenize U source ⟨false, true⟩).2
  match (m.matchExactly U fuel k source ⟨fun _ => 0, ⟨[], ⟨[], [], k⟩⟩⟩).1 with
  | none => none
  | some (.panic p _) => some (.panic p)
  | some (.err e _) => some (.err e)
  | some (.ok _ s) => some (genFinish o s.u.tab)

end Tpl.Gen
