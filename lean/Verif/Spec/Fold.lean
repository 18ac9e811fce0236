import Verif.Spec.TplText

/-
Vocabulary for references that are replaced by the bodies of their rules (C128).
-/
namespace Tpl.Spec

/-- Whether a mark gets the number of items of what stands before the suffixes; `m` if there are no suffixes. -/
def Sufs.counted (m : Bool) : Sufs → Bool
  | .nil => m
  | .list _ _ => false
  | .list0 _ _ => false
  | .mark _ _ => true

mutual
/-- `f'` is `f` with some of the references to rules replaced by the bodies of the rules, in parentheses. If `m`
is true then a mark gets the number of items of `f`, and then `f` may not be such a reference. -/
inductive FacUnf (rs : List Rule) : Bool → Fac → Fac → Prop
  | ident {m n} : FacUnf rs m (.ident n) (.ident n)
  | body {n b b'} : ⟨n, b⟩ ∈ rs → isUpper n = false → AltsUnf rs false b b' → FacUnf rs false (.ident n) (.paren b')
  | char {m l} : FacUnf rs m (.char l) (.char l)
  | string {m l} : FacUnf rs m (.string l) (.string l)
  | int {m l} : FacUnf rs m (.int l) (.int l)
  | rep0 {m f f'} : FacUnf rs false f f' → FacUnf rs m (.rep0 f) (.rep0 f')
  | rep1 {m f f'} : FacUnf rs false f f' → FacUnf rs m (.rep1 f) (.rep1 f')
  | rep01 {m f f'} : FacUnf rs false f f' → FacUnf rs m (.rep01 f) (.rep01 f')
  | not {m f f'} : FacUnf rs false f f' → FacUnf rs m (.not f) (.not f')
  | peek {m f f'} : FacUnf rs false f f' → FacUnf rs m (.peek f) (.peek f')
  | paren {m g g'} : AltsUnf rs m g g' → FacUnf rs m (.paren g) (.paren g')
/-- The same for what follows a factor. -/
inductive SufsUnf (rs : List Rule) : Sufs → Sufs → Prop
  | nil : SufsUnf rs .nil .nil
  | list {f f' s s'} : FacUnf rs false f f' → SufsUnf rs s s' → SufsUnf rs (.list f s) (.list f' s')
  | list0 {f f' s s'} : FacUnf rs false f f' → SufsUnf rs s s' → SufsUnf rs (.list0 f s) (.list0 f' s')
  | mark {n s s'} : SufsUnf rs s s' → SufsUnf rs (.mark n s) (.mark n s')
inductive ItemUnf (rs : List Rule) : Bool → Item → Item → Prop
  | term {m f f' s s'} : FacUnf rs (s.counted m) f f' → SufsUnf rs s s' → ItemUnf rs m (.term f s) (.term f' s')
  | cut {m} : ItemUnf rs m .cut .cut
inductive SeqUnf (rs : List Rule) : ItemSeq → ItemSeq → Prop
  | nil : SeqUnf rs .nil .nil
  | cons {i i' is is'} : ItemUnf rs false i i' → SeqUnf rs is is' → SeqUnf rs (.cons i is) (.cons i' is')
inductive AltsUnf (rs : List Rule) : Bool → Alts → Alts → Prop
  | single {m i i'} : ItemUnf rs m i i' → AltsUnf rs m (.one i .nil) (.one i' .nil)
  | seq {m i i' j is is'} : ItemUnf rs false i i' → SeqUnf rs (.cons j is) is' → AltsUnf rs m (.one i (.cons j is)) (.one i' is')
  | alt {m i i' is is' r r'} : ItemUnf rs false i i' → SeqUnf rs is is' → AltsUnf rs false r r' → AltsUnf rs m (.alt i is r) (.alt i' is' r')
end

/-- The rules `rs'` are rules of `rs`, with some references replaced. -/
def Unfolded (rs rs' : List Rule) : Prop := ∀ r' ∈ rs', ∃ r ∈ rs, r.name = r'.name ∧ AltsUnf rs false r.body r'.body

end Tpl.Spec
