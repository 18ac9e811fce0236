import Verif.Spec.Crash

/-
Vocabulary for grammars to which rules are added (C125).
-/
namespace Tpl.Spec
variable {A B σ V P : Type}

/-- What the actions do depends on the matcher only in what it does for the rules `W`: an action
may ask for them (`EvalSub`). -/
def AsksFor (W : Gr A → Prop) (sem : Sem A σ V P) : Prop :=
  ∀ f m m', (∀ g src s, W g → m g src s = m' g src s) → ∀ a g toks s, sem.act f m a g toks s = sem.act f m' a g toks s

end Tpl.Spec
