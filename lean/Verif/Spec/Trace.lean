import Verif.Model.Grammar

/-
What a match does, without fuel, mutable cells or callbacks: a big-step relation
between a grammar, the tokens it is tried on, the outcome, and the sequence of
callback invocations made on the way.

`Tr` does not mention `St`, `Sem` or the matching functions of the model.  It uses
the grammar trees and tokens of the model only.
-/
namespace Tpl.Spec
variable {A σ V P : Type}

/-- Outcome of trying a grammar.  `abort true`: a callback stopped everything;
`abort false`: fail-fast or a nil grammar did. -/
inductive Out where
  /-- matched `n` tokens; `len` is the number of items, -1 if it is not an array -/
  | succ (n : Nat) (len : Int)
  /-- failed; the failure is `n` tokens from the start -/
  | fail (n : Nat)
  | abort (byCallback : Bool)
deriving Repr, DecidableEq

/-- The same outcome reported from `n` tokens earlier. -/
def Out.shift (n : Nat) : Out → Out
  | .succ m l => .succ (n + m) l
  | .fail m => .fail (n + m)
  | .abort b => .abort b

/-- A failure is reported at least `n` tokens away. -/
def Out.atLeast (n : Nat) : Out → Out
  | .fail m => .fail (max n m)
  | o => o

/-- The same outcome with the number of items given. -/
def Out.withLen (l : Int) : Out → Out
  | .succ n _ => .succ n l
  | o => o

/-- One more item, found `n` tokens earlier. -/
def Out.oneMore (n : Nat) : Out → Out
  | .succ m l => .succ (n + m) (l + 1)
  | .fail m => .fail (n + m)
  | .abort b => .abort b

def Out.isFail : Out → Bool
  | .fail _ => true
  | _ => false

/-- A callback invocation. -/
inductive Ev (A : Type) where
  /-- the action `a` of `g/a`, with the tokens `g` matched and `g.Len()` -/
  | act (a : A) (g : Gr A) (toks : List Token) (len : Int)
  /-- the begin callback of transaction `t` -/
  | opens (t : A)
  /-- the end callback of transaction `t`; `failed` if it gets an error -/
  | closes (t : A) (failed : Bool)

/-- Things to be tried: a grammar, the rest of a sequence (`cut`: a fail-fast
marker has been passed), the rest of a choice, a repetition. -/
inductive Job (A : Type) where
  | one (g : Gr A)
  | seq (gs : List (Gr A)) (cut : Bool)
  | alt (gs : List (Gr A))
  | many (g : Gr A)

/-- `t` is acceptable where kind `k` is asked for: an INT serves as a FLOAT. -/
def Fits (k : Nat) (t : Token) : Prop := t.kind = k ∨ (t.kind = INT ∧ k = FLOAT)

open Job in
/-- `Tr env job src out evs`: trying `job` at `src` ends with `out`, having made the
callback invocations `evs`.  Any invocation may be the last one because the
callback panics (`abort true`). -/
inductive Tr (env : Env A) : Job A → List Token → Out → List (Ev A) → Prop
  -- a nil grammar cannot be matched
  | nil {src} : Tr env (one .nil) src (.abort false) []
  -- single tokens and ends
  | tok {k t src} : Fits k t → Tr env (one (.tok k)) (t :: src) (.succ 1 (-1)) []
  | tokNot {k t src} : ¬ Fits k t → Tr env (one (.tok k)) (t :: src) (.fail 0) []
  | tokEnd {k} : Tr env (one (.tok k)) [] (.fail 0) []
  | tru {src} : Tr env (one .tru) src (.succ 0 (-1)) []
  | eof : Tr env (one .eof) [] (.succ 0 (-1)) []
  | eofNot {t src} : Tr env (one .eof) (t :: src) (.fail 0) []
  -- predicates
  | peek {g src n l e} : Tr env (one g) src (.succ n l) e → Tr env (one (.peek g)) src (.succ 0 (-1)) e
  | peekNot {g src n e} : Tr env (one g) src (.fail n) e → Tr env (one (.peek g)) src (.fail 0) e
  | peekAbort {g src b e} : Tr env (one g) src (.abort b) e → Tr env (one (.peek g)) src (.abort b) e
  | not {g src n e} : Tr env (one g) src (.fail n) e → Tr env (one (.not g)) src (.succ 0 (-1)) e
  | notNot {g src n l e} : Tr env (one g) src (.succ n l) e → Tr env (one (.not g)) src (.fail 0) e
  | notAbort {g src b e} : Tr env (one g) src (.abort b) e → Tr env (one (.not g)) src (.abort b) e
  -- sequence and choice
  | and {gs src o e} : Tr env (seq gs false) src o e → Tr env (one (.and gs)) src (o.withLen gs.length) e
  | or {gs src o e} : Tr env (alt gs) src o e → Tr env (one (.or gs)) src (o.withLen gs.length) e
  -- repetition
  | rep0 {id g src o e} : Tr env (many g) src o e → Tr env (one (.rep0 id g)) src o e
  | rep1 {id g src n l e o e'} : Tr env (one g) src (.succ n l) e → Tr env (many g) (src.drop n) o e' →
      Tr env (one (.rep1 id g)) src (o.oneMore n) (e ++ e')
  | rep1Fail {id g src n e} : Tr env (one g) src (.fail n) e → Tr env (one (.rep1 id g)) src (.fail n) e
  | rep1Abort {id g src b e} : Tr env (one g) src (.abort b) e → Tr env (one (.rep1 id g)) src (.abort b) e
  | opt {id g src n l e} : Tr env (one g) src (.succ n l) e → Tr env (one (.rep01 id g)) src (.succ n 1) e
  | optNone {id g src n e} : Tr env (one g) src (.fail n) e → Tr env (one (.rep01 id g)) src (.succ 0 0) e
  | optAbort {id g src b e} : Tr env (one g) src (.abort b) e → Tr env (one (.rep01 id g)) src (.abort b) e
  | list {id a b l0 src n l e o e'} : Tr env (one a) src (.succ n l) e →
      Tr env (many (.and [b, a])) (src.drop n) o e' → Tr env (one (.list id a b l0)) src (o.oneMore n) (e ++ e')
  | list0 {id a b src n e} : Tr env (one a) src (.fail n) e → Tr env (one (.list id a b true)) src (.succ 0 0) e
  | listFail {id a b src n e} : Tr env (one a) src (.fail n) e → Tr env (one (.list id a b false)) src (.fail n) e
  | listAbort {id a b l0 src c e} : Tr env (one a) src (.abort c) e →
      Tr env (one (.list id a b l0)) src (.abort c) e
  -- names
  | varNone {v src} : env v = none → Tr env (one (.var v)) src (.fail 0) []
  | var {v g src o e} : env v = some g → Tr env (one g) src o e → Tr env (one (.var v)) src (o.withLen (-1)) e
  | named {nm g src o e} : Tr env (one g) src o e → Tr env (one (.named nm g)) src (o.withLen (-1)) e
  -- callbacks
  | action {a g src n l e} : Tr env (one g) src (.succ n l) e →
      Tr env (one (.action a g)) src (.succ n l) (e ++ [.act a g (src.take n) l])
  | actionStop {a g src n l e} : Tr env (one g) src (.succ n l) e →
      Tr env (one (.action a g)) src (.abort true) (e ++ [.act a g (src.take n) l])
  | actionFail {a g src n e} : Tr env (one g) src (.fail n) e → Tr env (one (.action a g)) src (.fail n) e
  | actionAbort {a g src b e} : Tr env (one g) src (.abort b) e → Tr env (one (.action a g)) src (.abort b) e
  | trans {t g src n l e} : Tr env (one g) src (.succ n l) e →
      Tr env (one (.trans t g)) src (.succ n l) (.opens t :: e ++ [.closes t false])
  | transFail {t g src n e} : Tr env (one g) src (.fail n) e →
      Tr env (one (.trans t g)) src (.fail n) (.opens t :: e ++ [.closes t true])
  | transAbort {t g src b e} : Tr env (one g) src (.abort b) e →
      Tr env (one (.trans t g)) src (.abort b) (.opens t :: e)
  | transStop {t g src} : Tr env (one (.trans t g)) src (.abort true) [.opens t]
  | transStopOk {t g src n l e} : Tr env (one g) src (.succ n l) e →
      Tr env (one (.trans t g)) src (.abort true) (.opens t :: e ++ [.closes t false])
  | transStopFail {t g src n e} : Tr env (one g) src (.fail n) e →
      Tr env (one (.trans t g)) src (.abort true) (.opens t :: e ++ [.closes t true])
  -- the rest of a sequence
  | seqEnd {cut src} : Tr env (seq [] cut) src (.succ 0 0) []
  | seqMark {gs cut src o e} : Tr env (seq gs true) src o e → Tr env (seq (.nil :: gs) cut) src o e
  | seqNext {g gs cut src n l e o e'} : g ≠ .nil → Tr env (one g) src (.succ n l) e →
      Tr env (seq gs cut) (src.drop n) o e' → Tr env (seq (g :: gs) cut) src (o.shift n) (e ++ e')
  | seqFail {g gs src n e} : g ≠ .nil → Tr env (one g) src (.fail n) e → Tr env (seq (g :: gs) false) src (.fail n) e
  | seqCut {g gs src n e} : g ≠ .nil → Tr env (one g) src (.fail n) e →
      Tr env (seq (g :: gs) true) src (.abort false) e
  | seqAbort {g gs cut src b e} : g ≠ .nil → Tr env (one g) src (.abort b) e →
      Tr env (seq (g :: gs) cut) src (.abort b) e
  -- the rest of a choice
  | altEnd {src} : Tr env (alt []) src (.fail 0) []
  | altHit {g gs src n l e} : Tr env (one g) src (.succ n l) e → Tr env (alt (g :: gs)) src (.succ n l) e
  | altNext {g gs src n e o e'} : Tr env (one g) src (.fail n) e → Tr env (alt gs) src o e' →
      Tr env (alt (g :: gs)) src (o.atLeast n) (e ++ e')
  | altAbort {g gs src b e} : Tr env (one g) src (.abort b) e → Tr env (alt (g :: gs)) src (.abort b) e
  -- a repetition
  | manyEnd {g src n e} : Tr env (one g) src (.fail n) e → Tr env (many g) src (.succ 0 0) e
  | manyMore {g src n l e o e'} : Tr env (one g) src (.succ n l) e → Tr env (many g) (src.drop n) o e' →
      Tr env (many g) src (o.oneMore n) (e ++ e')
  | manyAbort {g src b e} : Tr env (one g) src (.abort b) e → Tr env (many g) src (.abort b) e

/-! ### Nesting of transactions -/

/-- Begin and end callbacks pair up like brackets. -/
inductive Balanced : List (Ev A) → Prop
  | nil : Balanced []
  | act {a g toks l e} : Balanced e → Balanced (.act a g toks l :: e)
  | pair {t failed e e'} : Balanced e → Balanced e' → Balanced (.opens t :: e ++ .closes t failed :: e')

/-- Everything pairs up except for the begins of the transactions `ts`, outermost
first. -/
inductive Unclosed : List (Ev A) → List A → Prop
  | none {e} : Balanced e → Unclosed e []
  | one {e t e' ts} : Balanced e → Unclosed e' ts → Unclosed (e ++ .opens t :: e') (t :: ts)

/-! ### Callbacks acting on a state of their own -/

/-- Callbacks that look at nothing but what they are given and a state `σ`, and
may panic with a `P`. -/
structure Calls (A σ V P : Type) where
  act : A → Gr A → List Token → Int → σ → Except (P × σ) σ
  start : A → σ → Except (P × σ) (V × σ)
  finish : A → V → Bool → σ → Except (P × σ) σ

/-- One invocation.  The list holds the values the begin callbacks of the open
transactions returned, innermost first. -/
def Calls.step (c : Calls A σ V P) (st : σ × List V) : Ev A → Except (P × σ) (σ × List V)
  | .act a g toks l =>
    match c.act a g toks l st.1 with
    | .ok u => .ok (u, st.2)
    | .error e => .error e
  | .opens t =>
    match c.start t st.1 with
    | .ok (v, u) => .ok (u, v :: st.2)
    | .error e => .error e
  | .closes t failed =>
    match st.2 with
    | [] => .ok st
    | v :: vs =>
      match c.finish t v failed st.1 with
      | .ok u => .ok (u, vs)
      | .error e => .error e

/-- The invocations one after the other; the first panic ends it. -/
def Calls.run (c : Calls A σ V P) (evs : List (Ev A)) (st : σ × List V) : Except (P × σ) (σ × List V) :=
  match evs with
  | [] => .ok st
  | e :: es =>
    match c.step st e with
    | .ok st => c.run es st
    | .error x => .error x

end Tpl.Spec
