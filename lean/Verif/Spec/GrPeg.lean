import Verif.Model.Grammar
import Verif.Spec.Peg

/-
The parsing expression a grammar stands for.  Names, marks, actions and
transactions are dropped; lists are the abbreviations of the README
(`G1 % G2` is `G1 *(G2 G1)`, `G1 %= G2` is `?(G1 % G2)`).
-/
namespace Tpl.Spec
variable {A : Type}

/-- A token of kind `k`; an INT is good enough for FLOAT. -/
def kindFits (k : Nat) (t : Nat) : Bool := t == k || (t == INT && k == FLOAT)

/-- An expression that always fails: no kind is in the set. -/
def Peg.never {R : Type} : Peg R := .sym fun _ => false

/-- `G1 ... Gn`, where `none` is the marker `!`: after it every part must match. -/
def seqOf {R : Type} : List (Option (Peg R)) → Bool → Peg R
  | [], _ => .empty
  | none :: ps, _ => seqOf ps true
  | some p :: ps, true => .seq (.must p) (seqOf ps true)
  | some p :: ps, false => .seq p (seqOf ps false)

/-- `G1 | ... | Gn`. -/
def altOf {R : Type} : List (Peg R) → Peg R
  | [] => .never
  | p :: ps => .alt p (altOf ps)

def isNil : Gr A → Bool
  | .nil => true
  | _ => false

mutual
/-- The meaning of a grammar. -/
def toPeg : Gr A → Peg Nat
  | .nil => .crash
  | .tok k => .sym (kindFits k)
  | .tru => .empty
  | .eof => .neg (.sym fun _ => true)
  | .peek g => .neg (.neg (toPeg g))
  | .not g => .neg (toPeg g)
  | .and gs => seqOf (toItems gs) false
  | .or gs => altOf (toPegs gs)
  | .rep0 _ g => .star (toPeg g)
  | .rep1 _ g => .seq (toPeg g) (.star (toPeg g))
  | .rep01 _ g => .alt (toPeg g) .empty
  | .list _ a b list0 =>
    let more := seqOf [if isNil b then none else some (toPeg b), if isNil a then none else some (toPeg a)] false
    if list0 then .alt (.seq (toPeg a) (.star more)) .empty else .seq (toPeg a) (.star more)
  | .var v => .rule v
  | .named _ g => toPeg g
  | .action _ g => toPeg g
  | .trans _ g => toPeg g
def toItems : List (Gr A) → List (Option (Peg Nat))
  | [] => []
  | g :: gs => (if isNil g then none else some (toPeg g)) :: toItems gs
def toPegs : List (Gr A) → List (Peg Nat)
  | [] => []
  | g :: gs => toPeg g :: toPegs gs
end

/-- The rules the variables stand for. -/
def toRules (env : Env A) (v : Nat) : Option (Peg Nat) := (env v).map toPeg

/-- The kinds of tokens: all that parsing looks at. -/
def kinds (src : List Token) : List Nat := src.map (·.kind)

end Tpl.Spec
