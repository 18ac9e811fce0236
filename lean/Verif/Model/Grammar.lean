import Verif.Model.Scanner

/-
Model of the combinators of tpl/grammar.go.

Conventions and simplifications:
* A `Grammar` value is a tree.  A `*GrVar` is the address of a variable; what it
  is assigned to is given by an environment (`Env`), which does not change while
  matching.  The mutable `len` field of a repetition or list object is a cell
  named by the object's id; the cells are part of the state.
* The nil interface value is `Gr.nil`.  It is the fail-fast marker inside `And`;
  calling a method of it anywhere else is a nil dereference panic.
* Actions and transactions carry a label; the callbacks are given by a `Sem`.  A
  callback may change the user state, may panic, and may itself use the matcher
  (as `EvalSub` does).
* `MatchError.Ctx` is left out.
* Matching is a function of a fuel bounding the depth of recursion and the number
  of loop iterations; `none` means out of fuel.  More fuel never changes an
  answer (Proof/Match).
-/
namespace Tpl

/-- The values of type `Grammar` (grammar.go:56-61); `A` labels callbacks. -/
inductive Gr (A : Type) where
  /-- nil interface -/
  | nil
  /-- grToken, grammar.go:158 -/
  | tok (kind : Nat)
  /-- grTrue, grammar.go:187 -/
  | tru
  /-- grEOF, grammar.go:262 -/
  | eof
  /-- grPeek, grammar.go:207 -/
  | peek (g : Gr A)
  /-- grNot, grammar.go:234 -/
  | not (g : Gr A)
  /-- grAnd, grammar.go:286 -/
  | and (gs : List (Gr A))
  /-- grOr, grammar.go:341 -/
  | or (gs : List (Gr A))
  /-- grRepeat0, grammar.go:396 -/
  | rep0 (id : Nat) (g : Gr A)
  /-- grRepeat1, grammar.go:433 -/
  | rep1 (id : Nat) (g : Gr A)
  /-- grRepeat01, grammar.go:469 -/
  | rep01 (id : Nat) (g : Gr A)
  /-- grList, grammar.go:502 -/
  | list (id : Nat) (a b : Gr A) (list0 : Bool)
  /-- *GrVar, grammar.go:567 -/
  | var (v : Nat)
  /-- *GrNamed, grammar.go:608 -/
  | named (name : Str) (g : Gr A)
  /-- grAction, grammar.go:643 -/
  | action (a : A) (g : Gr A)
  /-- grTrans, grammar.go:673 -/
  | trans (a : A) (g : Gr A)

instance {A : Type} : Inhabited (Gr A) := ⟨.nil⟩

/-- `MatchError` (grammar.go:103-109, without the context) and
`ErrVarNotAssigned` (grammar.go:12). -/
inductive Err (A : Type) where
  | mismatch (g : Gr A) (src : List Token) (inner : Option (Err A)) (idxErr : Nat)
  | varNotAssigned

/-- Panic values: `panic(err)` of a fail-fast `And`, run-time errors of Go, and
what callbacks panic with. -/
inductive Panic (A P : Type) where
  | err (e : Err A)
  | nilDeref
  | slice
  | user (p : P)

/-- The `len` cells and the state the callbacks work on. -/
structure St (σ : Type) where
  len : Nat → Nat
  u : σ

/-- Assignment to a `len` cell. -/
def St.setLen {σ : Type} (s : St σ) (id n : Nat) : St σ :=
  { s with len := fun i => if i = id then n else s.len i }

/-- Outcome of `Match`: `(n, nil)`, `(n, err)` or a panic. -/
inductive Res (A σ P : Type) where
  | ok (n : Nat) (s : St σ)
  | fail (n : Nat) (e : Err A) (s : St σ)
  | panic (p : Panic A P) (s : St σ)

/-- Outcome of a callback. -/
inductive Cb (A σ P α : Type) where
  | ok (a : α) (s : St σ)
  | panic (p : Panic A P) (s : St σ)

/-- A matcher: what calling `Match` of a grammar does. -/
abbrev Mat (A σ P : Type) := Gr A → List Token → St σ → Option (Res A σ P)

/-- `m'` answers at least what `m` answers. -/
def Mat.le {A σ P : Type} (m m' : Mat A σ P) : Prop := ∀ g src s r, m g src s = some r → m' g src s = some r

/-- The callbacks of actions (grammar.go:645) and transactions (grammar.go:675-676).
An action may call the matcher, and may loop as long as its fuel (the first argument)
lasts. -/
structure Sem (A σ V P : Type) where
  act : Nat → Mat A σ P → A → Gr A → List Token → St σ → Option (Cb A σ P Unit)
  start : A → St σ → Cb A σ P V
  finish : A → V → Option (Err A) → St σ → Cb A σ P Unit
  act_mono : ∀ f f' m m', f ≤ f' → Mat.le m m' → ∀ a g toks s r, act f m a g toks s = some r → act f' m' a g toks s = some r

/-- What variables are assigned to. -/
abbrev Env (A : Type) := Nat → Option (Gr A)

variable {A σ V P : Type}

/-- `Grammar.Len` of each type: grammar.go:174, 198, 223, 250, 276, 325, 380, 401,
438, 474, 509, 583, 613, 648, 679.  (The nil interface has no methods; matching
it panics before anyone can ask for its length.) -/
def Gr.len (cells : Nat → Nat) : Gr A → Int
  | .and gs => gs.length
  | .or gs => gs.length
  | .rep0 id _ => cells id
  | .rep1 id _ => cells id
  | .rep01 id _ => cells id
  | .list id _ _ _ => cells id
  | .action _ g => g.len cells
  | .trans _ g => g.len cells
  | _ => -1

/-- `&MatchError{p, ctx, src, nil, 0}`. -/
def mismatch (g : Gr A) (src : List Token) : Err A := .mismatch g src none 0

/-- The loop of `grAnd.Match` (grammar.go:290-309); `src[n:]` is checked. -/
def andLoop (m : Mat A σ P) (all : Gr A) (src : List Token) : List (Gr A) → Bool → Nat → St σ → Option (Res A σ P)
  | [], _, n, s => some (.ok n s)
  | .nil :: gs, _, n, s => andLoop m all src gs true n s
  | g :: gs, failFast, n, s =>
    if n ≤ src.length then
      match m g (src.drop n) s with
      | none => none
      | some (.panic p s) => some (.panic p s)
      | some (.fail n1 err1 s) =>
        if failFast then some (.panic (.err (.mismatch all src (some err1) (n + n1))) s)
        else some (.fail (n + n1) err1 s)
      | some (.ok n1 s) => andLoop m all src gs failFast (n + n1) s
    else some (.panic .slice s)

/-- The loop of `grOr.Match` (grammar.go:346-365). -/
def orLoop (m : Mat A σ P) (all : Gr A) (src : List Token) :
    List (Gr A) → Nat → Option (Err A) → Bool → St σ → Option (Res A σ P)
  | [], nMax, errMax, multiErr, s =>
    if multiErr then some (.fail nMax (mismatch all src) s)
    else match errMax with
      | some e => some (.fail nMax e s)
      | none => some (.ok nMax s) -- a nil errMax would be reported as success
  | g :: gs, nMax, errMax, multiErr, s =>
    match m g src s with
    | none => none
    | some (.panic p s) => some (.panic p s)
    | some (.ok n s) => some (.ok n s)
    | some (.fail n e s) =>
      if n ≥ nMax then
        if n = nMax then orLoop m all src gs nMax errMax true s
        else orLoop m all src gs n (some e) false s
      else orLoop m all src gs nMax errMax multiErr s

/-- Outcome of a repetition loop: tokens consumed and number of items. -/
inductive LoopRes (A σ P : Type) where
  | done (n k : Nat) (s : St σ)
  | panic (p : Panic A P) (s : St σ)

/-- The loop of `grRepeat0.Match` (grammar.go:408-417) and of `grList.Match`
(grammar.go:526-535); `src = src[n1:]` is checked. -/
def repLoop (m : Mat A σ P) (g : Gr A) : Nat → List Token → Nat → Nat → St σ → Option (LoopRes A σ P)
  | 0, _, _, _, _ => none
  | f + 1, src, n, k, s =>
    match m g src s with
    | none => none
    | some (.panic p s) => some (.panic p s)
    | some (.fail _ _ s) => some (.done n k s)
    | some (.ok n1 s) =>
      if n1 ≤ src.length then repLoop m g f (src.drop n1) (n + n1) (k + 1) s
      else some (.panic .slice s)

/-- The `Match` methods; `m` is used for the grammars called, `f` bounds loops. -/
def matchStep (env : Env A) (sem : Sem A σ V P) (m : Mat A σ P) (f : Nat) : Mat A σ P
  | .nil, _, s => some (.panic .nilDeref s)
  -- grammar.go:162-170
  | .tok kind, src, s =>
    match src with
    | t :: _ => if t.kind = kind ∨ (t.kind = INT ∧ kind = FLOAT) then some (.ok 1 s) else some (.fail 0 (mismatch (.tok kind) src) s)
    | [] => some (.fail 0 (mismatch (.tok kind) src) s)
  -- grammar.go:190-192
  | .tru, _, s => some (.ok 0 s)
  -- grammar.go:265-270
  | .eof, src, s => if src.length ≠ 0 then some (.fail 0 (mismatch .eof src) s) else some (.ok 0 s)
  -- grammar.go:211-216
  | .peek g, src, s =>
    match m g src s with
    | none => none
    | some (.panic p s) => some (.panic p s)
    | some (.ok _ s) => some (.ok 0 s)
    | some (.fail _ _ s) => some (.fail 0 (mismatch (.peek g) src) s)
  -- grammar.go:238-243
  | .not g, src, s =>
    match m g src s with
    | none => none
    | some (.panic p s) => some (.panic p s)
    | some (.fail _ _ s) => some (.ok 0 s)
    | some (.ok _ s) => some (.fail 0 (mismatch (.not g) src) s)
  -- grammar.go:289-310
  | .and gs, src, s => andLoop m (.and gs) src gs false 0 s
  -- grammar.go:345-366
  | .or gs, src, s => orLoop m (.or gs) src gs 0 none true s
  -- grammar.go:405-418
  | .rep0 id g, src, s =>
    match repLoop m g f src 0 0 s with
    | none => none
    | some (.panic p s) => some (.panic p s)
    | some (.done n k s) => some (.ok n (s.setLen id k))
  -- grammar.go:442-454; the inner grRepeat0 is a fresh object
  | .rep1 id g, src, s =>
    match m g src s with
    | none => none
    | some (.panic p s) => some (.panic p s)
    | some (.fail n e s) => some (.fail n e (s.setLen id 0))
    | some (.ok n s) =>
      if n ≤ src.length then
        match repLoop m g f (src.drop n) 0 0 s with
        | none => none
        | some (.panic p s) => some (.panic p s)
        | some (.done n2 k s) => some (.ok (n + n2) (s.setLen id (k + 1)))
      else some (.panic .slice s)
  -- grammar.go:478-486
  | .rep01 id g, src, s =>
    match m g src s with
    | none => none
    | some (.panic p s) => some (.panic p s)
    | some (.fail _ _ s) => some (.ok 0 (s.setLen id 0))
    | some (.ok n s) => some (.ok n (s.setLen id 1))
  -- grammar.go:513-536
  | .list id a b list0, src, s =>
    match m a src s with
    | none => none
    | some (.panic p s) => some (.panic p s)
    | some (.fail n e s) => if list0 then some (.ok 0 (s.setLen id 0)) else some (.fail n e (s.setLen id 0))
    | some (.ok n s) =>
      if n ≤ src.length then
        match repLoop m (.and [b, a]) f (src.drop n) n 1 s with
        | none => none
        | some (.panic p s) => some (.panic p s)
        | some (.done n k s) => some (.ok n (s.setLen id k))
      else some (.panic .slice s)
  -- grammar.go:588-594
  | .var v, src, s =>
    match env v with
    | none => some (.fail 0 .varNotAssigned s)
    | some g => m g src s
  -- grammar.go:618-620
  | .named _ g, src, s => m g src s
  -- grammar.go:652-659
  | .action a g, src, s =>
    match m g src s with
    | some (.ok n s) =>
      if n ≤ src.length then
        match sem.act f m a g (src.take n) s with
        | none => none
        | some (.panic p s) => some (.panic p s)
        | some (.ok _ s) => some (.ok n s)
      else some (.panic .slice s)
    | r => r
  -- grammar.go:683-688
  | .trans a g, src, s =>
    match sem.start a s with
    | .panic p s => some (.panic p s)
    | .ok v s =>
      match m g src s with
      | none => none
      | some (.panic p s) => some (.panic p s)
      | some (.ok n s) =>
        match sem.finish a v none s with
        | .panic p s => some (.panic p s)
        | .ok _ s => some (.ok n s)
      | some (.fail n e s) =>
        match sem.finish a v (some e) s with
        | .panic p s => some (.panic p s)
        | .ok _ s => some (.fail n e s)

/-- `Grammar.Match` with fuel. -/
def matchG (env : Env A) (sem : Sem A σ V P) : Nat → Mat A σ P
  | 0 => fun _ _ _ => none
  | f + 1 => matchStep env sem (matchG env sem f) f

/-- `g.Match(src, ctx)` in state `s` comes to the end `r`. -/
def Eval (env : Env A) (sem : Sem A σ V P) (g : Gr A) (src : List Token) (s : St σ) (r : Res A σ P) : Prop :=
  ∃ f, matchG env sem f g src s = some r

/-- A grammar variable (grammar.go:567-571): what it is assigned to.  Assigning
the nil interface leaves it unassigned. -/
def GrVar.assign (elem : Option (Gr A)) (g : Gr A) : Option (Gr A) × Bool :=
  match elem with
  | some e => (some e, false) -- ErrVarAssigned
  | none => match g with
    | .nil => (none, true)
    | g => (some g, true)

end Tpl
