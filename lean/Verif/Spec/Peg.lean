/-
Parsing expression grammars (Ford, POPL 2004) over token kinds, with one addition:
`must p` (a cut) turns a failure of `p` into an abort of the whole parse.

This file does not depend on the model.
-/
namespace Tpl.Spec

/-- Parsing expressions; `R` names the rules. -/
inductive Peg (R : Type) where
  /-- matches without consuming -/
  | empty
  /-- one token whose kind is in the set -/
  | sym (p : Nat → Bool)
  | seq (a b : Peg R)
  | alt (a b : Peg R)
  | star (a : Peg R)
  /-- negative lookahead -/
  | neg (a : Peg R)
  /-- `a`, but failing aborts -/
  | must (a : Peg R)
  | rule (r : R)
  /-- aborts -/
  | crash

/-- What parsing comes to. -/
inductive POut where
  /-- a prefix of `n` tokens matches -/
  | succ (n : Nat)
  | fail
  | abort
deriving DecidableEq, Repr

variable {R : Type}

/-- Parsing an input (a list of kinds) with an expression.  A rule that is not
defined fails. -/
inductive PegEval (rules : R → Option (Peg R)) : Peg R → List Nat → POut → Prop
  | empty {w} : PegEval rules .empty w (.succ 0)
  | sym {p k w} : p k = true → PegEval rules (.sym p) (k :: w) (.succ 1)
  | symNot {p k w} : p k = false → PegEval rules (.sym p) (k :: w) .fail
  | symEnd {p} : PegEval rules (.sym p) [] .fail
  | seq {a b w n m} : PegEval rules a w (.succ n) → PegEval rules b (w.drop n) (.succ m) →
      PegEval rules (.seq a b) w (.succ (n + m))
  | seqFail {a b w} : PegEval rules a w .fail → PegEval rules (.seq a b) w .fail
  | seqAbort {a b w} : PegEval rules a w .abort → PegEval rules (.seq a b) w .abort
  | seqFail2 {a b w n} : PegEval rules a w (.succ n) → PegEval rules b (w.drop n) .fail → PegEval rules (.seq a b) w .fail
  | seqAbort2 {a b w n} : PegEval rules a w (.succ n) → PegEval rules b (w.drop n) .abort →
      PegEval rules (.seq a b) w .abort
  | altHit {a b w n} : PegEval rules a w (.succ n) → PegEval rules (.alt a b) w (.succ n)
  | altNext {a b w o} : PegEval rules a w .fail → PegEval rules b w o → PegEval rules (.alt a b) w o
  | altAbort {a b w} : PegEval rules a w .abort → PegEval rules (.alt a b) w .abort
  | starEnd {a w} : PegEval rules a w .fail → PegEval rules (.star a) w (.succ 0)
  | starMore {a w n m} : PegEval rules a w (.succ n) → PegEval rules (.star a) (w.drop n) (.succ m) →
      PegEval rules (.star a) w (.succ (n + m))
  | starAbort {a w} : PegEval rules a w .abort → PegEval rules (.star a) w .abort
  | starAbort2 {a w n} : PegEval rules a w (.succ n) → PegEval rules (.star a) (w.drop n) .abort →
      PegEval rules (.star a) w .abort
  | neg {a w} : PegEval rules a w .fail → PegEval rules (.neg a) w (.succ 0)
  | negNot {a w n} : PegEval rules a w (.succ n) → PegEval rules (.neg a) w .fail
  | negAbort {a w} : PegEval rules a w .abort → PegEval rules (.neg a) w .abort
  | must {a w n} : PegEval rules a w (.succ n) → PegEval rules (.must a) w (.succ n)
  | mustFail {a w} : PegEval rules a w .fail → PegEval rules (.must a) w .abort
  | mustAbort {a w} : PegEval rules a w .abort → PegEval rules (.must a) w .abort
  | rule {r p w o} : rules r = some p → PegEval rules p w o → PegEval rules (.rule r) w o
  | ruleNone {r w} : rules r = none → PegEval rules (.rule r) w .fail
  | crash {w} : PegEval rules .crash w .abort

/-! ### Well-formed grammars -/

/-- `p` may match without consuming (an over-approximation looking at the
expression only). -/
inductive Nullable (rules : R → Option (Peg R)) : Peg R → Prop
  | empty : Nullable rules .empty
  | seq {a b} : Nullable rules a → Nullable rules b → Nullable rules (.seq a b)
  | altL {a b} : Nullable rules a → Nullable rules (.alt a b)
  | altR {a b} : Nullable rules b → Nullable rules (.alt a b)
  | star {a} : Nullable rules (.star a)
  | neg {a} : Nullable rules (.neg a)
  | must {a} : Nullable rules a → Nullable rules (.must a)
  | rule {r p} : rules r = some p → Nullable rules p → Nullable rules (.rule r)

/-- `p` may use rule `r` before anything is consumed. -/
inductive Leftmost (rules : R → Option (Peg R)) : Peg R → R → Prop
  | rule {r} : Leftmost rules (.rule r) r
  | seqL {a b r} : Leftmost rules a r → Leftmost rules (.seq a b) r
  | seqR {a b r} : Nullable rules a → Leftmost rules b r → Leftmost rules (.seq a b) r
  | altL {a b r} : Leftmost rules a r → Leftmost rules (.alt a b) r
  | altR {a b r} : Leftmost rules b r → Leftmost rules (.alt a b) r
  | star {a r} : Leftmost rules a r → Leftmost rules (.star a) r
  | neg {a r} : Leftmost rules a r → Leftmost rules (.neg a) r
  | must {a r} : Leftmost rules a r → Leftmost rules (.must a) r

/-- Nothing that may match empty is repeated in `p`. -/
def Peg.StarsOk (rules : R → Option (Peg R)) : Peg R → Prop
  | .seq a b => a.StarsOk rules ∧ b.StarsOk rules
  | .alt a b => a.StarsOk rules ∧ b.StarsOk rules
  | .star a => ¬ Nullable rules a ∧ a.StarsOk rules
  | .neg a => a.StarsOk rules
  | .must a => a.StarsOk rules
  | _ => True

/-- Rule `r` may use rule `q` before anything is consumed. -/
def LeftCalls (rules : R → Option (Peg R)) (q r : R) : Prop := ∃ p, rules r = some p ∧ Leftmost rules p q

/-- Parsing `p` always begins with parsing `q` at the same place. -/
inductive Begins (rules : R → Option (Peg R)) : Peg R → Peg R → Prop
  | seq {a b} : Begins rules (.seq a b) a
  | alt {a b} : Begins rules (.alt a b) a
  | star {a} : Begins rules (.star a) a
  | neg {a} : Begins rules (.neg a) a
  | must {a} : Begins rules (.must a) a
  | rule {r p} : rules r = some p → Begins rules (.rule r) p
  | trans {a b c} : Begins rules a b → Begins rules b c → Begins rules a c

end Tpl.Spec
