import Verif.Model.Matcher
import Verif.Spec.Trace

/-
Matching in several goroutines (C118): tpl/match.go and tpl/grammar.go once more, as programs
that are executed step by step, so that goroutines can be interleaved.

A step is one access to what goroutines can share: the scanner of a Matcher and the `len` fields
of the grammars it was compiled to.  Everything else a match works on (tokens, counters, errors)
is local to the call, and so is, by assumption, the state of the callbacks.

Simplifications:
* interleavings are sequentially consistent, and `Init` and `Scan` of a scanner are one step each
  (in Go they are many; a goroutine that is the only one to use a scanner cannot tell, and for
  goroutines that share one the steps here are among the possible ones);
* the errors a scanner has reported are read from the scanner, not from the handler given to
  `Init`, which makes no difference unless a scanner is shared;
* callbacks do not call the matcher and are given the length of their grammar if they ask for it.
-/
namespace Tpl
variable {A σ V P R S : Type}

/-- A program of a goroutine.  `j` says which Matcher's objects it accesses. -/
inductive Proc (R : Type) where
  | done (r : R)
  | setLen (j id n : Nat) (k : Proc R)
  | getLen (j id : Nat) (k : Nat → Proc R)
  | init (j : Nat) (src : Str) (mode : Mode) (k : Proc R)
  | scan (j : Nat) (k : Token → List (Nat × Msg) → Proc R)

/-- One program after the other. -/
def Proc.bind : Proc R → (R → Proc S) → Proc S
  | .done r, k => k r
  | .setLen j id n p, k => .setLen j id n (p.bind k)
  | .getLen j id p, k => .getLen j id fun n => (p n).bind k
  | .init j src mode p, k => .init j src mode (p.bind k)
  | .scan j p, k => .scan j fun t e => (p t e).bind k

/-- The same where the first may run out of fuel. -/
def Proc.andThen (p : Proc (Option R)) (k : R → Proc (Option S)) : Proc (Option S) :=
  p.bind fun r => match r with
    | none => .done none
    | some r => k r

/-- What goroutines share: for each Matcher its scanner and the `len` fields of its grammar. -/
structure Mem where
  scanner : Nat → KwScanner
  len : Nat → Nat → Nat

def Mem.setScanner (m : Mem) (j : Nat) (k : KwScanner) : Mem :=
  { m with scanner := fun i => if i = j then k else m.scanner i }

def Mem.setLen (m : Mem) (j id n : Nat) : Mem :=
  { m with len := fun i => if i = j then (fun c => if c = id then n else m.len j c) else m.len i }

/-- One step. -/
def Proc.step (U : Uni) : Proc R → Mem → Proc R × Mem
  | .done r, m => (.done r, m)
  | .setLen j id n k, m => (k, m.setLen j id n)
  | .getLen j id k, m => (k (m.len j id), m)
  | .init j src mode k, m => (k, m.setScanner j ((m.scanner j).init src mode))
  | .scan j k, m => (k ((m.scanner j).scan U).1 ((m.scanner j).scan U).2.sc.errs, m.setScanner j ((m.scanner j).scan U).2)

/-- All steps, without other goroutines. -/
def Proc.alone (U : Uni) : Proc R → Mem → R × Mem
  | .done r, m => (r, m)
  | .setLen j id n k, m => k.alone U (m.setLen j id n)
  | .getLen j id k, m => (k (m.len j id)).alone U m
  | .init j src mode k, m => k.alone U (m.setScanner j ((m.scanner j).init src mode))
  | .scan j k, m => (k ((m.scanner j).scan U).1 ((m.scanner j).scan U).2.sc.errs).alone U (m.setScanner j ((m.scanner j).scan U).2)

/-- Goroutines and what they share. -/
structure Threads (R : Type) where
  mem : Mem
  procs : Nat → Proc R

/-- A step of goroutine `i`. -/
def Threads.step (U : Uni) (c : Threads R) (i : Nat) : Threads R :=
  let x := (c.procs i).step U c.mem
  ⟨x.2, fun t => if t = i then x.1 else c.procs t⟩

/-- The scheduler lets the goroutines of the list make a step, one after the other. -/
def Threads.run (U : Uni) (c : Threads R) : List Nat → Threads R
  | [] => c
  | i :: is => (c.step U i).run U is

/-! ### Match -/

/-- Outcome of `Match`, without the `len` fields. -/
inductive PRes (A σ P : Type) where
  | ok (n : Nat) (u : σ)
  | fail (n : Nat) (e : Err A) (u : σ)
  | panic (p : Panic A P) (u : σ)

abbrev PMat (A σ P : Type) := Gr A → List Token → σ → Proc (Option (PRes A σ P))

/-- Where `Len` reads (as in `Gr.len`): a number known from the grammar, or a field. -/
def Gr.lenCell : Gr A → Int ⊕ Nat
  | .and gs => .inl gs.length
  | .or gs => .inl gs.length
  | .rep0 id _ => .inr id
  | .rep1 id _ => .inr id
  | .rep01 id _ => .inr id
  | .list id _ _ _ => .inr id
  | .action _ g => g.lenCell
  | .trans _ g => g.lenCell
  | _ => .inl (-1)

/-- `Grammar.Len`, if the callback calls it (`reads`). -/
def lenP (j : Nat) (reads : Bool) (g : Gr A) (k : Int → Proc R) : Proc R :=
  if reads then
    match g.lenCell with
    | .inl n => k n
    | .inr id => .getLen j id fun n => k n
  else k 0

/-- The loop of `grAnd.Match` (grammar.go:290-309). -/
def andLoopP (m : PMat A σ P) (all : Gr A) (src : List Token) : List (Gr A) → Bool → Nat → σ → Proc (Option (PRes A σ P))
  | [], _, n, u => .done (some (.ok n u))
  | .nil :: gs, _, n, u => andLoopP m all src gs true n u
  | g :: gs, failFast, n, u =>
    if n ≤ src.length then
      (m g (src.drop n) u).andThen fun r => match r with
        | .panic p u => .done (some (.panic p u))
        | .fail n1 err1 u =>
          if failFast then .done (some (.panic (.err (.mismatch all src (some err1) (n + n1))) u))
          else .done (some (.fail (n + n1) err1 u))
        | .ok n1 u => andLoopP m all src gs failFast (n + n1) u
    else .done (some (.panic .slice u))

/-- The loop of `grOr.Match` (grammar.go:346-365). -/
def orLoopP (m : PMat A σ P) (all : Gr A) (src : List Token) :
    List (Gr A) → Nat → Option (Err A) → Bool → σ → Proc (Option (PRes A σ P))
  | [], nMax, errMax, multiErr, u =>
    if multiErr then .done (some (.fail nMax (mismatch all src) u))
    else match errMax with
      | some e => .done (some (.fail nMax e u))
      | none => .done (some (.ok nMax u))
  | g :: gs, nMax, errMax, multiErr, u =>
    (m g src u).andThen fun r => match r with
      | .panic p u => .done (some (.panic p u))
      | .ok n u => .done (some (.ok n u))
      | .fail n e u =>
        if n ≥ nMax then
          if n = nMax then orLoopP m all src gs nMax errMax true u
          else orLoopP m all src gs n (some e) false u
        else orLoopP m all src gs nMax errMax multiErr u

/-- Outcome of a repetition loop. -/
inductive PLoop (A σ P : Type) where
  | done (n k : Nat) (u : σ)
  | panic (p : Panic A P) (u : σ)

/-- The loop of `grRepeat0.Match` (grammar.go:408-417) and `grList.Match` (grammar.go:526-535). -/
def repLoopP (m : PMat A σ P) (g : Gr A) : Nat → List Token → Nat → Nat → σ → Proc (Option (PLoop A σ P))
  | 0, _, _, _, _ => .done none
  | f + 1, src, n, k, u =>
    (m g src u).andThen fun r => match r with
      | .panic p u => .done (some (.panic p u))
      | .fail _ _ u => .done (some (.done n k u))
      | .ok n1 u =>
        if n1 ≤ src.length then repLoopP m g f (src.drop n1) (n + n1) (k + 1) u
        else .done (some (.panic .slice u))

/-- The `Match` methods of the grammar of Matcher `j`; lines as in `matchStep`. -/
def matchStepP (j : Nat) (env : Env A) (c : Spec.Calls A σ V P) (reads : A → Bool) (m : PMat A σ P) (f : Nat) : PMat A σ P
  | .nil, _, u => .done (some (.panic .nilDeref u))
  -- grammar.go:162-170
  | .tok kind, src, u =>
    match src with
    | t :: _ => if t.kind = kind ∨ (t.kind = INT ∧ kind = FLOAT) then .done (some (.ok 1 u)) else .done (some (.fail 0 (mismatch (.tok kind) src) u))
    | [] => .done (some (.fail 0 (mismatch (.tok kind) src) u))
  -- grammar.go:190-192
  | .tru, _, u => .done (some (.ok 0 u))
  -- grammar.go:265-270
  | .eof, src, u => if src.length ≠ 0 then .done (some (.fail 0 (mismatch .eof src) u)) else .done (some (.ok 0 u))
  -- grammar.go:211-216
  | .peek g, src, u => (m g src u).andThen fun r => match r with
    | .panic p u => .done (some (.panic p u))
    | .ok _ u => .done (some (.ok 0 u))
    | .fail _ _ u => .done (some (.fail 0 (mismatch (.peek g) src) u))
  -- grammar.go:238-243
  | .not g, src, u => (m g src u).andThen fun r => match r with
    | .panic p u => .done (some (.panic p u))
    | .fail _ _ u => .done (some (.ok 0 u))
    | .ok _ u => .done (some (.fail 0 (mismatch (.not g) src) u))
  -- grammar.go:289-310
  | .and gs, src, u => andLoopP m (.and gs) src gs false 0 u
  -- grammar.go:345-366
  | .or gs, src, u => orLoopP m (.or gs) src gs 0 none true u
  -- grammar.go:405-418
  | .rep0 id g, src, u => (repLoopP m g f src 0 0 u).andThen fun r => match r with
    | .panic p u => .done (some (.panic p u))
    | .done n k u => .setLen j id k (.done (some (.ok n u)))
  -- grammar.go:442-454
  | .rep1 id g, src, u => (m g src u).andThen fun r => match r with
    | .panic p u => .done (some (.panic p u))
    | .fail n e u => .setLen j id 0 (.done (some (.fail n e u)))
    | .ok n u =>
      if n ≤ src.length then
        (repLoopP m g f (src.drop n) 0 0 u).andThen fun r => match r with
          | .panic p u => .done (some (.panic p u))
          | .done n2 k u => .setLen j id (k + 1) (.done (some (.ok (n + n2) u)))
      else .done (some (.panic .slice u))
  -- grammar.go:478-486
  | .rep01 id g, src, u => (m g src u).andThen fun r => match r with
    | .panic p u => .done (some (.panic p u))
    | .fail _ _ u => .setLen j id 0 (.done (some (.ok 0 u)))
    | .ok n u => .setLen j id 1 (.done (some (.ok n u)))
  -- grammar.go:513-536
  | .list id a b list0, src, u => (m a src u).andThen fun r => match r with
    | .panic p u => .done (some (.panic p u))
    | .fail n e u => .setLen j id 0 (if list0 then .done (some (.ok 0 u)) else .done (some (.fail n e u)))
    | .ok n u =>
      if n ≤ src.length then
        (repLoopP m (.and [b, a]) f (src.drop n) n 1 u).andThen fun r => match r with
          | .panic p u => .done (some (.panic p u))
          | .done n k u => .setLen j id k (.done (some (.ok n u)))
      else .done (some (.panic .slice u))
  -- grammar.go:588-594
  | .var v, src, u =>
    match env v with
    | none => .done (some (.fail 0 .varNotAssigned u))
    | some g => m g src u
  -- grammar.go:618-620
  | .named _ g, src, u => m g src u
  -- grammar.go:652-659
  | .action a g, src, u => (m g src u).andThen fun r => match r with
    | .ok n u =>
      if n ≤ src.length then
        lenP j (reads a) g fun l =>
          match c.act a g (src.take n) l u with
          | .ok u => .done (some (.ok n u))
          | .error (p, u) => .done (some (.panic (.user p) u))
      else .done (some (.panic .slice u))
    | r => .done (some r)
  -- grammar.go:683-688
  | .trans a g, src, u =>
    match c.start a u with
    | .error (p, u) => .done (some (.panic (.user p) u))
    | .ok (v, u) => (m g src u).andThen fun r => match r with
      | .panic p u => .done (some (.panic p u))
      | .ok n u =>
        match c.finish a v false u with
        | .error (p, u) => .done (some (.panic (.user p) u))
        | .ok u => .done (some (.ok n u))
      | .fail n e u =>
        match c.finish a v true u with
        | .error (p, u) => .done (some (.panic (.user p) u))
        | .ok u => .done (some (.fail n e u))

/-- `Grammar.Match` with fuel. -/
def matchP (j : Nat) (env : Env A) (c : Spec.Calls A σ V P) (reads : A → Bool) : Nat → PMat A σ P
  | 0 => fun _ _ _ => .done none
  | f + 1 => matchStepP j env c reads (matchP j env c reads f) f

/-! ### MatchExactly -/

/-- The loop of `Matcher.Tokenize` (match.go:51-61); `ts` are the tokens so far. -/
def tokenLoopP (j : Nat) : Nat → List Token → Proc (Option (List Token × Option (Nat × Msg)))
  | 0, _ => .done none
  | f + 1, ts => .scan j fun t errs =>
    match errs with
    | e :: _ => .done (some (ts, some e))
    | [] => if t.kind = EOF then .done (some (ts, none)) else tokenLoopP j f (ts ++ [t])

/-- `Matcher.Tokenize` (match.go:38-63) with the scanner of Matcher `j`. -/
def tokenizeP (j : Nat) (f : Nat) (src : Str) (mode : Mode) : Proc (Option (List Token × Option (Nat × Msg))) :=
  .init j src mode (tokenLoopP j f [])

/-- Outcome of `MatchExactly`, without the `len` fields. -/
inductive PExact (A σ P : Type) where
  | ok (u : σ)
  | err (e : MErr A) (u : σ)
  | panic (p : Panic A P) (u : σ)

/-- `Matcher.MatchExactly` (match.go:80-112) of a Matcher with a grammar and without `Init`. -/
def exactP (j : Nat) (env : Env A) (c : Spec.Calls A σ V P) (reads : A → Bool) (g : Gr A) (mode : Mode) (fTok f : Nat) (src : Str) (u : σ) :
    Proc (Option (PExact A σ P)) :=
  (tokenizeP j fTok src mode).andThen fun r => match r with
    | (_, some (off, msg)) => .done (some (.err (.tokenize off msg) u))
    | (ts, none) => (matchP j env c reads f g ts u).andThen fun r => match r with
      | .panic p u => .done (some (.panic p u))
      | .fail _ e u => .done (some (.err (.match_ e) u))
      | .ok n u =>
        if n ≤ ts.length then
          if (ts.drop n).length ≠ 0 then .done (some (.err (.match_ (mismatch .eof (ts.drop n))) u))
          else .done (some (.ok u))
        else .done (some (.panic .slice u))

end Tpl
