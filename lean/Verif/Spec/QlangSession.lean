import Verif.Spec.QlangSafe

/-!
What it means to run programs one after the other on one engine.
-/
namespace Tpl.Qlang.Src
variable {F : Type}

/-- How a host runs a program: with `Exec`, recovering panics itself, or with `SafeExec`. -/
inductive Way where
  | exec | safe
deriving DecidableEq

/-- What the host gets: the value of the program, nothing (it has ended without an error, but the
value is not asked for), an error, or a panic. -/
inductive Outcome (F : Type) where
  | value (v : QVal F)
  | done
  | error (p : QPanic F)
  | panic (p : QPanic F)

/-- The panic does not end the process. -/
def NoExit (p : QPanic F) : Prop := ∀ c, p ≠ .user (.other (.exit c))

/-- One program. -/
inductive Gives (S : Setup F) : Way → Tm .doc → World F → Outcome F → World F → Prop
  | exec {d n w v w'} : d.does S n w = some (.ok v, w') → Gives S .exec d w (.value v) w'
  | ran {d n w v w'} : d.does S n w = some (.ok v, w') → Gives S .exec d w .done w'
  | failed {d n w p w'} : d.does S n w = some (.error p, w') → NoExit p → Gives S .exec d w (.panic p) w'
  /-- nothing is deferred: there is a value -/
  | safe {d n w v w1 w'} : d.does S n w = some (.ok v, w1) → (w1.frames 0).defers = [] → d.safely S n w = some (.ok none, w') →
      Gives S .safe d w (.value v) w'
  | done {d n w w'} : d.safely S n w = some (.ok none, w') → Gives S .safe d w .done w'
  | error {d n w p w'} : d.safely S n w = some (.ok (some p), w') → Gives S .safe d w (.error p) w'
  | panic {d n w p w'} : d.safely S n w = some (.error p, w') → NoExit p → Gives S .safe d w (.panic p) w'

/-- Programs one after the other: each begins with the variables, functions and heap that the last
one has left, whether it has failed or not. -/
inductive GivesAll (S : Setup F) : List (Way × Tm .doc) → World F → List (Outcome F) → World F → Prop
  | nil (w) : GivesAll S [] w [] w
  | cons {x ds w o w1 os w'} : Gives S x.1 x.2 w o w1 → GivesAll S ds w1 os w' → GivesAll S (x :: ds) w (o :: os) w'

end Tpl.Qlang.Src
