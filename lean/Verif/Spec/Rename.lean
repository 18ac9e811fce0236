import Verif.Spec.TplText
import Verif.Spec.Share

/-
Vocabulary for the names of rules in a grammar text (C127).
-/
namespace Tpl.Spec

mutual
/-- The same factor with other names for rules; the names of marked functions stay. -/
def Fac.rename (ρ : Str → Str) : Fac → Fac
  | .ident n => .ident (ρ n)
  | .char l => .char l
  | .string l => .string l
  | .int l => .int l
  | .rep0 f => .rep0 (f.rename ρ)
  | .rep1 f => .rep1 (f.rename ρ)
  | .rep01 f => .rep01 (f.rename ρ)
  | .not f => .not (f.rename ρ)
  | .peek f => .peek (f.rename ρ)
  | .paren g => .paren (g.rename ρ)
def Sufs.rename (ρ : Str → Str) : Sufs → Sufs
  | .nil => .nil
  | .list f r => .list (f.rename ρ) (r.rename ρ)
  | .list0 f r => .list0 (f.rename ρ) (r.rename ρ)
  | .mark n r => .mark n (r.rename ρ)
def Item.rename (ρ : Str → Str) : Item → Item
  | .term f s => .term (f.rename ρ) (s.rename ρ)
  | .cut => .cut
def ItemSeq.rename (ρ : Str → Str) : ItemSeq → ItemSeq
  | .nil => .nil
  | .cons i r => .cons (i.rename ρ) (r.rename ρ)
def Alts.rename (ρ : Str → Str) : Alts → Alts
  | .one i is => .one (i.rename ρ) (is.rename ρ)
  | .alt i is r => .alt (i.rename ρ) (is.rename ρ) (r.rename ρ)
end

/-- The same rule with other names. -/
def Rule.rename (ρ : Str → Str) (r : Rule) : Rule := ⟨ρ r.name, r.body.rename ρ⟩

/-- New names for rules: different ones for different rules, none that begins with a capital letter (those stand
for tokens), and `doc` and `true` stay what they are. -/
structure Renames (ρ : Str → Str) : Prop where
  inj : ∀ m n, ρ m = ρ n → m = n
  upper : ∀ n, isUpper n = true → ρ n = n
  lower : ∀ n, isUpper n = false → isUpper (ρ n) = false
  tru : ρ (bytes "true") = bytes "true"
  doc : ρ (bytes "doc") = bytes "doc"
  nil : ρ [] = []

end Tpl.Spec
