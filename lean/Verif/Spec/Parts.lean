import Verif.Spec.QlangSession

/-!
Programs that are given in parts (C124).
-/
namespace Tpl.Qlang.Src

/-- The statements end with a semicolon. -/
inductive Closed : Tm .docTail → Prop where
  | last (sc) : Closed (.semi sc .endDoc)
  | semi (sc) {more} : Closed more → Closed (.semi sc more)
  | next (sc) (s) {more} : Closed more → Closed (.next sc s more)

/-- Statements that end with a semicolon, and then those of `d`. -/
def Tm.thenDoc (d : Tm .doc) : {c : Cat} → Tm c → Tm c
  | _, .next sc s more => .next sc s (Tm.thenDoc d more)
  | _, .semi sc .endDoc => match d with
    | .doc s more => .next sc s more
  | _, .semi sc more => .semi sc (Tm.thenDoc d more)
  | _, t => t

/-- The statements of a program, and then those of another one. -/
def followed : Tm .doc → Tm .doc → Tm .doc
  | .doc s more, d => .doc s (Tm.thenDoc d more)

/-- The statements of the program end with a semicolon, as they all do when semicolons are
inserted. -/
def ClosedDoc : Tm .doc → Prop
  | .doc _ more => Closed more

/-- Everything but the newlines made blank: what follows is where it was. -/
def blank (a : Str) : Str := a.map fun b => if b = 10 then 10 else 32

end Tpl.Qlang.Src
