import Verif.Model.Compiler
import Verif.Spec.TplText

/-
Printing the rules of a compiled grammar.
-/
namespace Tpl.Spec
variable {B : Type}

def isRep1 : Gr B → Bool
  | .rep1 _ _ => true
  | _ => false

def isList : Gr B → Bool
  | .list _ _ _ _ => true
  | _ => false

mutual
/-- Grammars `Code` prints correctly: there is no `!`, no EOF and no action in them, no list is the
right operand of a list and no `+G` is directly repeated by another `+`. -/
def prints : Gr B → Bool
  | .tok _ | .tru | .var _ | .named _ _ => true
  | .peek g | .not g | .rep0 _ g | .rep01 _ g => prints g
  | .rep1 _ g => prints g && !isRep1 g
  | .list _ a b _ => prints a && prints b && !isList b
  | .and gs | .or gs => printsAll gs
  | .nil | .eof | .action _ _ | .trans _ _ => false
def printsAll : List (Gr B) → Bool
  | [] => true
  | g :: gs => prints g && printsAll gs
end

mutual
/-- A text without `!` and without marks. -/
def Fac.plain : Fac → Bool
  | .ident _ | .char _ | .string _ | .int _ => true
  | .rep0 f | .rep1 f | .rep01 f | .not f | .peek f => f.plain
  | .paren g => g.plain
def Sufs.plain : Sufs → Bool
  | .nil => true
  | .list f r | .list0 f r => f.plain && r.plain
  | .mark _ _ => false
def Item.plain : Item → Bool
  | .term f s => f.plain && s.plain
  | .cut => false
def ItemSeq.plain : ItemSeq → Bool
  | .nil => true
  | .cons i r => i.plain && r.plain
def Alts.plain : Alts → Bool
  | .one i is => i.plain && is.plain
  | .alt i is r => i.plain && is.plain && r.plain
end

/-- The grammar a name is defined as. -/
def defOf (T : Tab B) (n : Str) : Option (Gr B) :=
  match T.vars.lookup n with
  | some g => g
  | none => T.grammars.lookup n

/-- The text of a grammar of the compiled document: `Code`. -/
def codeOf (T : Tab B) (g : Gr B) : GoRes Str := g.code T.scanner.ttol fun v => (T.vars[v]?.map (·.1)).getD []

/-- The rules of these names printed one below the other: `name = Code(grammar);`. -/
inductive Printed (T : Tab B) : List Str → Str → Prop
  | nil : Printed T [] []
  | cons {n g x ns txt} : defOf T n = some g → codeOf T g = .ok x → Printed T ns txt →
      Printed T (n :: ns) (n ++ bytes " = " ++ x ++ bytes ";\n" ++ txt)

end Tpl.Spec
