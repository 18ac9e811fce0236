import Verif.Model.Concurrent

/-
What goroutines may touch (C118).
-/
namespace Tpl.Spec
open Tpl
variable {R : Type}

/-- The program uses scanners only of Matchers in `S`, writes `len` fields only of those in `W`, and
reads `len` fields only of those in `D`. -/
inductive Touches (S W D : Nat → Prop) : Proc R → Prop
  | done (r) : Touches S W D (.done r)
  | setLen {j id n k} : W j → Touches S W D k → Touches S W D (.setLen j id n k)
  | getLen {j id k} : D j → (∀ n, Touches S W D (k n)) → Touches S W D (.getLen j id k)
  | init {j src mode k} : S j → Touches S W D k → Touches S W D (.init j src mode k)
  | scan {j k} : S j → (∀ t e, Touches S W D (k t e)) → Touches S W D (.scan j k)

variable {A σ V P : Type}

/-- A call of `MatchExactly` in a goroutine: the number of the Matcher, what it consists of, the
text and the state the callbacks work on.  `reads` says which callbacks ask for the length of their
grammar. -/
structure GoCall (A σ V P : Type) where
  matcher : Nat
  grammar : Gr A
  env : Env A
  calls : Calls A σ V P
  reads : A → Bool
  mode : Mode
  src : Str
  u : σ
  fuel : Nat

/-- Callbacks that do not ask for the length do not depend on it. -/
def Honest (c : Calls A σ V P) (reads : A → Bool) : Prop :=
  ∀ a, reads a = false → ∀ g toks l l' u, c.act a g toks l u = c.act a g toks l' u

/-- What the goroutine executes. -/
def GoCall.prog (c : GoCall A σ V P) : Proc (Option (PExact A σ P)) :=
  exactP c.matcher c.env c.calls c.reads c.grammar c.mode (2 * c.src.length + 2) c.fuel c.src c.u

/-- The results of `Match` and `MatchExactly` without the `len` fields. -/
def resOf : Res A σ P → PRes A σ P
  | .ok n s => .ok n s.u
  | .fail n e s => .fail n e s.u
  | .panic p s => .panic p s.u

end Tpl.Spec
