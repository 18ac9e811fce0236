import Verif.Model.Calc

/-
Texts that are put together (C135).
-/
namespace Tpl.Spec

/-- The first text and the others, each on a line of its own. -/
def onLines (a : Str) (ps : List Str) : Str := ps.foldl (fun x y => x ++ 10 :: y) a

/-- The texts with `c` between them. -/
def separated (c : Str) : List Str → List Str
  | [] => []
  | a :: l => a :: l.flatMap fun b => [c, b]

end Tpl.Spec
