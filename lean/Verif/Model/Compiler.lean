import Verif.Model.Matcher

/-
Model of tpl/compiler.go: Compiler.Cl and CompileRet.EvalSub.

Conventions and simplifications:
* `B` labels the callbacks of the grammars a Marker builds; a Marker is a function that
  returns a grammar or panics (with anything: `ClPanic.marker`).
* The operand stack is a list whose head is the top.
* Objects with a mutable `len` field get the number of such objects made before as id;
  a `*GrVar` is named by its position in the list of variables (`vars`), which is in the
  order of creation.
* The scanner is an AutoKwScanner.  The text of the grammar is tokenized completely
  before the first action runs, so the actions work on the scanner `Tokenize` left.
* Go iterates over `vars` in a random order; `notAssigned` carries all names the error
  message may mention.
-/
namespace Tpl

/-- What actions of `Cl` panic with. -/
inductive ClPanic where
  /-- index out of range on the operand stack -/
  | stack
  /-- `tokens[0]` or `name[0]` out of range -/
  | index
  /-- run-time panic in `Ltot` -/
  | ltot
  /-- "illegal token: ..." -/
  | illegal (lit : Str)
  /-- "grammar already exists: ..." -/
  | exists_ (name : Str)
  /-- ErrVarAssigned -/
  | assigned (name : Str)
  /-- the Marker panics -/
  | marker (msg : Str)
deriving DecidableEq, Repr

/-- The maps `grammars` and `vars` (compiler.go:162-163), the number of objects with a
`len` field made so far, and the scanner. -/
structure Tab (B : Type) where
  grammars : List (Str × Gr B)
  vars : List (Str × Option (Gr B))
  cells : Nat
  scanner : KwScanner

/-- What the actions of `Cl` work on. -/
structure ClSt (B : Type) where
  stk : List (Gr B)
  tab : Tab B

/-- The actions of `Cl` (compiler.go:165-296). -/
inductive ClAct where
  | list | list0 | mark | and | or | assign | ident | gr | grTrue | grNil
  | repeat0 | repeat1 | repeat01 | not | peek
deriving DecidableEq, Repr

/-- `Compiler.Marker` (compiler.go:122); the nil marker is `fun g _ => .ok g`. -/
abbrev Marker (B : Type) := Gr B → Str → Except Str (Gr B)

variable {B : Type}

/-- What the variables are assigned to. -/
def Tab.env (t : Tab B) : Env B := fun v => (t.vars[v]?).bind (·.2)

/-- One object with a `len` field more. -/
def Tab.bump (t : Tab B) : Tab B := { t with cells := t.cells + 1 }

/-- Replace the top of the stack (`a := stk[n-1]; stk[n-1] = f(a)`) by a new object. -/
def ClSt.onTop (u : ClSt B) (f : Nat → Gr B → Gr B) : Except ClPanic (ClSt B) :=
  match u.stk with
  | a :: stk => .ok ⟨f u.tab.cells a :: stk, u.tab.bump⟩
  | [] => .error .stack

/-- `list` and `list0` (compiler.go:165-177). -/
def ClSt.list (u : ClSt B) (list0 : Bool) : Except ClPanic (ClSt B) :=
  match u.stk with
  | b :: a :: stk => .ok ⟨.list u.tab.cells a b list0 :: stk, u.tab.bump⟩
  | _ => .error .stack

/-- `mark` (compiler.go:184-188). -/
def ClSt.mark (mk : Marker B) (u : ClSt B) (toks : List Token) : Except ClPanic (ClSt B) :=
  match u.stk, toks with
  | [], _ => .error .stack
  | _ :: _, [] => .error .index
  | a :: stk, t :: _ =>
    match mk a t.lit with
    | .ok g => .ok ⟨g :: stk, u.tab⟩
    | .error e => .error (.marker e)

/-- `and` and `or` (compiler.go:190-208); `m` is `g.Len()`. -/
def ClSt.reduce (u : ClSt B) (m : Int) (f : List (Gr B) → Gr B) : Except ClPanic (ClSt B) :=
  if m = 1 then .ok u
  else if 2 ≤ m ∧ m ≤ u.stk.length then
    .ok ⟨f (u.stk.take m.toNat).reverse :: u.stk.drop m.toNat, u.tab⟩
  else .error .stack

/-- `assign` (compiler.go:210-225). -/
def ClSt.assign (u : ClSt B) (toks : List Token) : Except ClPanic (ClSt B) :=
  match u.stk, toks with
  | [], _ => .error .stack
  | _ :: _, [] => .error .index
  | a :: stk, t :: _ =>
    match u.tab.vars.findIdx? (·.1 = t.lit) with
    | some i =>
      match GrVar.assign (u.tab.env i) a with
      | (_, false) => .error (.assigned t.lit)
      | (e, true) => .ok ⟨stk, { u.tab with vars := u.tab.vars.set i (t.lit, e) }⟩
    | none =>
      match u.tab.grammars.lookup t.lit with
      | some _ => .error (.exists_ t.lit)
      | none => .ok ⟨stk, { u.tab with grammars := (t.lit, a) :: u.tab.grammars }⟩

/-- `gr` (compiler.go:252-259). -/
def ClSt.gr (u : ClSt B) (lit : Str) : Except ClPanic (ClSt B) :=
  match u.tab.scanner.ltot lit with
  | .panic => .error .ltot
  | .ok (tok, k) => if tok = ILLEGAL then .error (.illegal lit) else .ok ⟨.tok tok :: u.stk, { u.tab with scanner := k }⟩

/-- `ident` (compiler.go:227-250).  The upper-case case is `gr`. -/
def ClSt.ident (u : ClSt B) (name : Str) : Except ClPanic (ClSt B) :=
  match name with
  | [] => .error .index
  | ch :: _ =>
    if 65 ≤ ch ∧ ch ≤ 90 then u.gr name
    else
      match u.tab.grammars.lookup name with
      | some g2 => .ok ⟨.named name g2 :: u.stk, u.tab⟩
      | none =>
        match u.tab.vars.findIdx? (·.1 = name) with
        | some i => .ok ⟨.var i :: u.stk, u.tab⟩
        | none =>
          if name = str "true" then .ok ⟨.tru :: u.stk, u.tab⟩
          else .ok ⟨.var u.tab.vars.length :: u.stk, { u.tab with vars := u.tab.vars ++ [(name, none)] }⟩

/-- The callbacks; `len` is `g.Len()`. -/
def clAct (mk : Marker B) (a : ClAct) (toks : List Token) (len : Int) (u : ClSt B) : Except ClPanic (ClSt B) :=
  match a with
  | .list => u.list false
  | .list0 => u.list true
  | .mark => u.mark mk toks
  | .and => u.reduce len .and
  | .or => u.reduce len .or
  | .assign => u.assign toks
  | .ident => match toks with
    | [] => .error .index
    | t :: _ => u.ident t.lit
  | .gr => match toks with
    | [] => .error .index
    | t :: _ => u.gr t.lit
  -- compiler.go:261-266
  | .grTrue => match toks with
    | [] => .error .index
    | t :: _ => if t.lit ≠ str "1" then .error (.illegal t.lit) else .ok ⟨.tru :: u.stk, u.tab⟩
  -- compiler.go:268-270
  | .grNil => .ok ⟨.nil :: u.stk, u.tab⟩
  -- compiler.go:272-288
  | .repeat0 => u.onTop .rep0
  | .repeat1 => u.onTop .rep1
  | .repeat01 => u.onTop .rep01
  -- compiler.go:290-300; these objects have no `len`
  | .not => match u.stk with
    | a :: stk => .ok ⟨.not a :: stk, u.tab⟩
    | [] => .error .stack
  | .peek => match u.stk with
    | a :: stk => .ok ⟨.peek a :: stk, u.tab⟩
    | [] => .error .stack

/-- The callbacks as the matcher of `Cl` sees them. -/
def clSem (mk : Marker B) : Sem ClAct (ClSt B) Unit ClPanic where
  act _ _ a g toks s := some <|
    match clAct mk a toks (g.len s.len) s.u with
    | .ok u => .ok () { s with u := u }
    | .error p => .panic (.user p) s
  start _ s := .ok () s
  finish _ _ _ s := .ok () s
  act_mono := by intro f f' m m' hf h a g toks s r e; exact e

/-- `factor` (compiler.go:303): variable 0. -/
def clFactor : Gr ClAct := .var 0

/-- `term` (compiler.go:305-309). -/
def clTerm : Gr ClAct :=
  .and [clFactor, .rep0 0 (.or [
    .and [.tok 37, .action .list clFactor],
    .and [.tok REM_ASSIGN, .action .list0 clFactor],
    .and [.tok 47, .action .mark (.tok IDENT)]])]

/-- `expr` (compiler.go:311). -/
def clExpr : Gr ClAct := .action .and (.rep1 1 (.or [clTerm, .action .grNil (.tok 33)]))

/-- `grammar` (compiler.go:313). -/
def clGrammar : Gr ClAct := .action .or (.list 2 clExpr (.tok 124) false)

/-- `doc` (compiler.go:315-317). -/
def clDoc : Gr ClAct := .rep1 3 (.action .assign (.and [.tok IDENT, .tok 61, clGrammar, .tok 59]))

/-- `factor.Assign(...)` (compiler.go:319-330). -/
def clEnv : Env ClAct
  | 0 => some (.or [
    .action .ident (.tok IDENT),
    .action .gr (.tok CHAR),
    .action .gr (.tok STRING),
    .action .grTrue (.tok INT),
    .and [.tok 42, .action .repeat0 clFactor],
    .and [.tok 43, .action .repeat1 clFactor],
    .and [.tok 63, .action .repeat01 clFactor],
    .and [.tok 126, .action .not clFactor],
    .and [.tok 64, .action .peek clFactor],
    .and [.tok 40, clGrammar, .tok 41]])
  | _ => none

/-- `Compiler` (compiler.go:120-126) without `Init` (a callback `Cl` only hands on) and
the scanner. -/
structure Compiler (B : Type) where
  grammar : Str
  marker : Marker B
  mode : Mode

/-- `CompileRet` (compiler.go:70-74): the root grammar, `Grammars`, `Vars`; the scanner is
part of the tables. -/
structure CompileRet (B : Type) where
  root : Gr B
  tab : Tab B
  mode : Mode

/-- What variables and names stand for in a compiled grammar. -/
def CompileRet.env (c : CompileRet B) : Env B := c.tab.env

/-- Errors of `Cl`. -/
inductive ClErr where
  /-- `MatchExactly` of the grammar text -/
  | match_ (e : MErr ClAct)
  | noDoc
  /-- "variable `x` is not assigned" for one of the names -/
  | notAssigned (names : List Str)

/-- Outcome of `Cl`. -/
inductive ClRes (B : Type) where
  | ok (c : CompileRet B)
  | err (e : ClErr)
  | panic (p : Panic ClAct ClPanic)

/-- The matcher of `Cl` (compiler.go:332-336).  `init` is how the scanner gets to the
actions (`k1`: the scanner after tokenizing). -/
def clMatcher (mk : Marker B) (k1 : KwScanner) : Matcher ClAct (ClSt B) Unit ClPanic where
  grammar := clDoc
  mode := ⟨false, true⟩
  init s := .ok () { s with u := ⟨[], ⟨[], [], 0, k1⟩⟩ }
  env := clEnv
  sem := clSem mk

/-- The end of `Cl` (compiler.go:342-361). -/
def clFinish (mode : Mode) (t : Tab B) : ClRes B :=
  match t.grammars.lookup (str "doc") with
  | none => .err .noDoc
  | some root =>
    match (t.vars.filter (fun v => v.2.isNone)).map (·.1) with
    | [] => .ok ⟨root, t, mode⟩
    | names => .err (.notAssigned names)

/-- `Compiler.Cl` (compiler.go:155-361) with the scanner `k`. -/
def Compiler.cl (c : Compiler B) (U : Uni) (fuel : Nat) (k : KwScanner) : Option (ClRes B) :=
  let m := clMatcher c.marker (k.tokenize U c.grammar ⟨false, true⟩).2
  match (m.matchExactly U fuel k c.grammar ⟨fun _ => 0, ⟨[], ⟨[], [], 0, k⟩⟩⟩).1 with
  | none => none
  | some (.panic p _) => some (.panic p)
  | some (.err e _) => some (.err (.match_ e))
  | some (.ok _ s) => some (clFinish c.mode s.u.tab)

/-! ### EvalSub -/

variable {σ V P : Type}

/-- The `src interface{}` of `EvalSub`. -/
inductive SubSrc where
  | tokens (ts : List Token)
  | text (s : Str)
  | other

/-- Errors of `EvalSub`. -/
inductive SubErr (B : Type) where
  | m (e : MErr B)
  /-- "unsupported source type" -/
  | unsupported

/-- Outcome of `EvalSub`. -/
inductive SubRes (B σ P : Type) where
  | ok (s : St σ)
  | err (e : SubErr B) (s : St σ)
  | panic (p : Panic B P) (s : St σ)

/-- `CompileRet.EvalSub` (compiler.go:77-111); `init` is the Matcher's `Init`, `k` its
scanner.  A nil grammar found in the map is dereferenced on tokens and gives
`ErrNoGrammar` on text. -/
def CompileRet.evalSub (c : CompileRet B) (sem : Sem B σ V P) (init : St σ → Cb B σ P Unit) (U : Uni) (fuel : Nat)
    (k : KwScanner) (name : Str) (src : SubSrc) (s : St σ) : Option (SubRes B σ P) × KwScanner :=
  match c.tab.grammars.lookup name with
  | none => (some (.err (.m .noGrammar) s), k)
  | some g =>
    match src with
    | .tokens doc =>
      (match init s with
      | .panic p s => some (.panic p s)
      | .ok _ s =>
        match matchG c.env sem fuel g doc s with
        | none => none
        | some (.panic p s) => some (.panic p s)
        | some (.fail _ e s) => some (.err (.m (.match_ e)) s)
        | some (.ok n s) => if doc.length ≠ n then some (.err (.m (.match_ (mismatch .eof doc))) s) else some (.ok s), k)
    | .text t =>
      let m : Matcher B σ V P := ⟨g, c.mode, fun s => .ok () s, c.env, sem⟩
      match m.matchExactly U fuel k t s with
      | (r, k) =>
        (match r with
        | none => none
        | some (.panic p s) => some (.panic p s)
        | some (.err e s) => some (.err (.m e) s)
        | some (.ok _ s) => some (.ok s), k)
    | .other => (some (.err .unsupported s), k)

end Tpl
