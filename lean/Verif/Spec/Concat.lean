import Verif.Model.Scanner

/-
Tokens at another place (C122).
-/
namespace Tpl.Spec

/-- The same token, `n` bytes further on. -/
def moveTok (n : Nat) (t : Token) : Token := { t with pos := n + t.pos }

end Tpl.Spec
