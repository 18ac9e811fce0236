import Verif.Spec.TplText

/-
Vocabulary for parentheses in grammar texts (C130).
-/
namespace Tpl.Spec

/-- One sequence of items after the other. -/
def ItemSeq.append : ItemSeq → ItemSeq → ItemSeq
  | .nil, r => r
  | .cons i s, r => .cons i (s.append r)
def ItemSeq.size : ItemSeq → Nat
  | .nil => 0
  | .cons _ r => r.size + 1
/-- The alternatives of the second after those of the first. -/
def Alts.append : Alts → Alts → Alts
  | .one i is, r => .alt i is r
  | .alt i is s, r => .alt i is (s.append r)
def Alts.size : Alts → Nat
  | .one _ _ => 1
  | .alt _ _ r => r.size + 1

mutual
/-- Nothing but `!`, possibly in parentheses and with suffixes. -/
def Fac.bang : Fac → Bool
  | .paren g => g.bang
  | _ => false
def Item.bang : Item → Bool
  | .cut => true
  | .term f _ => f.bang
def Alts.bang : Alts → Bool
  | .one i .nil => i.bang
  | _ => false
end
/-- There is no `!` among the items. -/
def ItemSeq.calm : ItemSeq → Bool
  | .nil => true
  | .cons i r => !i.bang && r.calm

mutual
/-- `f'` is `f` with some pairs of parentheses removed that group items of a sequence, alternatives of a choice, or
a single factor. If `m` is true then a mark gets the number of items of `f`, and then it has to remain the same. -/
inductive FacLoose : Bool → Fac → Fac → Prop
  | ident {m n} : FacLoose m (.ident n) (.ident n)
  | char {m l} : FacLoose m (.char l) (.char l)
  | string {m l} : FacLoose m (.string l) (.string l)
  | int {m l} : FacLoose m (.int l) (.int l)
  | rep0 {m f f'} : FacLoose false f f' → FacLoose m (.rep0 f) (.rep0 f')
  | rep1 {m f f'} : FacLoose false f f' → FacLoose m (.rep1 f) (.rep1 f')
  | rep01 {m f f'} : FacLoose false f f' → FacLoose m (.rep01 f) (.rep01 f')
  | not {m f f'} : FacLoose false f f' → FacLoose m (.not f) (.not f')
  | peek {m f f'} : FacLoose false f f' → FacLoose m (.peek f) (.peek f')
  | paren {m g g'} : AltsLoose m g g' → FacLoose m (.paren g) (.paren g')
  /-- `(A)` and `A` -/
  | single {m f f'} : FacLoose m f f' → FacLoose m (.paren (.one (.term f .nil) .nil)) f'
inductive SufsLoose : Sufs → Sufs → Prop
  | nil : SufsLoose .nil .nil
  | list {f f' s s'} : FacLoose false f f' → SufsLoose s s' → SufsLoose (.list f s) (.list f' s')
  | list0 {f f' s s'} : FacLoose false f f' → SufsLoose s s' → SufsLoose (.list0 f s) (.list0 f' s')
  | mark {n s s'} : SufsLoose s s' → SufsLoose (.mark n s) (.mark n s')
inductive ItemLoose : Bool → Item → Item → Prop
  /-- no suffixes -/
  | bare {m f f'} : FacLoose m f f' → ItemLoose m (.term f .nil) (.term f' .nil)
  | list {m f f' g g' s s'} : FacLoose false f f' → FacLoose false g g' → SufsLoose s s' → ItemLoose m (.term f (.list g s)) (.term f' (.list g' s'))
  | list0 {m f f' g g' s s'} : FacLoose false f f' → FacLoose false g g' → SufsLoose s s' → ItemLoose m (.term f (.list0 g s)) (.term f' (.list0 g' s'))
  | mark {m f f' n s s'} : FacLoose true f f' → SufsLoose s s' → ItemLoose m (.term f (.mark n s)) (.term f' (.mark n s'))
  | cut {m} : ItemLoose m .cut .cut
inductive SeqLoose : ItemSeq → ItemSeq → Prop
  | nil : SeqLoose .nil .nil
  | cons {i i' is is'} : ItemLoose false i i' → SeqLoose is is' → SeqLoose (.cons i is) (.cons i' is')
  /-- `(A B) C` and `A B C`, where `!` is none of the items in the parentheses -/
  | group {i j js is is'} : (ItemSeq.cons i (.cons j js)).calm = true → SeqLoose is is' →
      SeqLoose (.cons (.term (.paren (.one i (.cons j js))) .nil) is) ((ItemSeq.cons i (.cons j js)).append is')
inductive ChoiceLoose : Alts → Alts → Prop
  | one {i i' is is'} : SeqLoose (.cons i is) (.cons i' is') → ChoiceLoose (.one i is) (.one i' is')
  | alt {i i' is is' r r'} : SeqLoose (.cons i is) (.cons i' is') → ChoiceLoose r r' → ChoiceLoose (.alt i is r) (.alt i' is' r')
  /-- `(A | B) | C` and `A | B | C` -/
  | group {b r r'} : ChoiceLoose r r' → ChoiceLoose (.alt (.term (.paren b) .nil) .nil r) (b.append r')
  /-- `A | (B | C)` and `A | B | C` -/
  | last {b} : ChoiceLoose (.one (.term (.paren b) .nil) .nil) b
inductive AltsLoose : Bool → Alts → Alts → Prop
  | free {a a'} : ChoiceLoose a a' → AltsLoose false a a'
  | item {i i'} : ItemLoose true i i' → AltsLoose true (.one i .nil) (.one i' .nil)
  | seq {i i' j j' is is'} : SeqLoose (.cons i (.cons j is)) (.cons i' (.cons j' is')) → is.size = is'.size →
      AltsLoose true (.one i (.cons j is)) (.one i' (.cons j' is'))
  | alts {i i' is is' r r'} : ChoiceLoose (.alt i is r) (.alt i' is' r') → r.size = r'.size → AltsLoose true (.alt i is r) (.alt i' is' r')
end

/-- The rules one by one, with parentheses removed. -/
inductive RulesLoose : List Rule → List Rule → Prop
  | nil : RulesLoose [] []
  | cons {n b b' rs rs'} : AltsLoose false b b' → RulesLoose rs rs' → RulesLoose (⟨n, b⟩ :: rs) (⟨n, b'⟩ :: rs')

/-- Rules that differ in such parentheses only, however many. -/
inductive Regroup : List Rule → List Rule → Prop
  | refl {rs} : Regroup rs rs
  | removed {rs rs' rs''} : Regroup rs rs' → RulesLoose rs' rs'' → Regroup rs rs''
  | added {rs rs' rs''} : Regroup rs rs' → RulesLoose rs'' rs' → Regroup rs rs''

end Tpl.Spec
