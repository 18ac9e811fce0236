import Verif.Spec.Calc
import Lean.Elab.Tactic

/-!
What the compiler makes of the grammars of the calculators, computed by the kernel.
-/
namespace Tpl
open Spec

open Lean Elab Tactic Meta in
/-- Close `a = b` by `Eq.refl a`; the kernel checks that the sides compute to the same. -/
elab "kernel_rfl" : tactic => do
  let g ← getMainGoal
  let some (_, lhs, _) := (← g.getType).eq? | throwError "not an equation"
  g.assign (← mkEqRefl lhs)

namespace Calc
variable {V F : Type}

/-- The part of a compiled grammar that matching uses. -/
def compiledParts : Option (ClRes Str) → Option (Gr Str × List (Str × Option (Gr Str)) × Mode)
  | some (.ok r) => some (r.root, r.tab.vars, r.mode)
  | _ => none

theorem number_compiled (M : Float64 F) (U : Uni) (mode : Mode) :
    compiledParts ((number M).client.new numberGrammar mode U 60) =
      some ((number M).doc, [(str "factor", some (number M).factor)], mode) := by
  kernel_rfl

theorem rat_compiled (L : Lits F) (ss : Str → Option Rat) (U : Uni) (mode : Mode) :
    compiledParts ((rat L ss).client.new ratGrammar mode U 60) =
      some ((rat L ss).doc, [(str "factor", some (rat L ss).factor)], mode) := by
  kernel_rfl

theorem cmplx_compiled {Z : Type} (M : Complex128 F Z) (U : Uni) (mode : Mode) :
    compiledParts ((cmplx M).client.new cmplxGrammar mode U 60) =
      some ((cmplx M).doc, [(str "factor", some (cmplx M).factor)], mode) := by
  kernel_rfl

/-- What is left in the scanner: no keywords. -/
def compiledScanner : Option (ClRes Str) → Option (KwMap × Bool)
  | some (.ok r) => some (r.tab.scanner.keywords, r.tab.scanner.sc.bad)
  | _ => none

theorem number_scanner (M : Float64 F) (U : Uni) (mode : Mode) :
    compiledScanner ((number M).client.new numberGrammar mode U 60) = some (some [], false) := by
  kernel_rfl

theorem rat_scanner (L : Lits F) (ss : Str → Option Rat) (U : Uni) (mode : Mode) :
    compiledScanner ((rat L ss).client.new ratGrammar mode U 60) = some (some [], false) := by
  kernel_rfl

theorem cmplx_scanner {Z : Type} (M : Complex128 F Z) (U : Uni) (mode : Mode) :
    compiledScanner ((cmplx M).client.new cmplxGrammar mode U 60) = some (some [], false) := by
  kernel_rfl

end Calc
end Tpl
