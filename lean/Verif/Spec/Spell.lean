import Verif.Spec.Group

/-
Vocabulary for operators that are written out (C131).
-/
namespace Tpl.Spec

/-- Whether a mark comes first: it gets the number of items of what is before it. If there is nothing, it is the
surroundings that matter. -/
def Sufs.counts (m : Bool) : Sufs → Bool
  | .nil => m
  | .mark _ _ => true
  | _ => false

/-- `(A *A)` -/
def Fac.oneMore (a : Fac) : Fac := .paren (.one (.term a .nil) (.cons (.term (.rep0 a) .nil) .nil))
/-- `(A *(B A))` -/
def Fac.listed (a b : Fac) : Fac :=
  .paren (.one (.term a .nil) (.cons (.term (.rep0 (.paren (.one (.term b .nil) (.cons (.term a .nil) .nil)))) .nil) .nil))
/-- `?(A % B)` -/
def Fac.optList (a b : Fac) : Fac := .rep01 (.paren (.one (.term a (.list b .nil)) .nil))

/-- `(A | 1)` -/
def Fac.orOne (a : Fac) : Fac := .paren (.alt (.term a .nil) .nil (.one (.term (.int (bytes "1")) .nil) .nil))
/-- `~(I …)` -/
def Item.neg (i : Item) (is : ItemSeq) : Item := .term (.not (.paren (.one i is))) .nil
/-- `~A ~B …` for the alternatives `A | B …` -/
def Alts.negs : Alts → ItemSeq
  | .one i is => .cons (i.neg is) .nil
  | .alt i is r => .cons (i.neg is) r.negs

mutual
/-- No mark and no reference to a rule. -/
def Fac.unmarked : Fac → Bool
  | .ident n => isUpper n
  | .char _ => true
  | .string _ => true
  | .int _ => true
  | .rep0 f => f.unmarked
  | .rep1 f => f.unmarked
  | .rep01 f => f.unmarked
  | .not f => f.unmarked
  | .peek f => f.unmarked
  | .paren g => g.unmarked
def Sufs.unmarked : Sufs → Bool
  | .nil => true
  | .list f s => f.unmarked && s.unmarked
  | .list0 f s => f.unmarked && s.unmarked
  | .mark _ _ => false
def Item.unmarked : Item → Bool
  | .cut => true
  | .term f s => f.unmarked && s.unmarked
def ItemSeq.unmarked : ItemSeq → Bool
  | .nil => true
  | .cons i s => i.unmarked && s.unmarked
def Alts.unmarked : Alts → Bool
  | .one i s => i.unmarked && s.unmarked
  | .alt i s r => i.unmarked && s.unmarked && r.unmarked
end

/-- `A (B | C)` -/
def Alts.both (a b c : Fac) : Alts := .one (.term a .nil) (.cons (.term (.paren (.alt (.term b .nil) .nil (.one (.term c .nil) .nil))) .nil) .nil)
/-- `A B | A C` -/
def Alts.each (a b c : Fac) : Alts := .alt (.term a .nil) (.cons (.term b .nil) .nil) (.one (.term a .nil) (.cons (.term c .nil) .nil))
/-- `A ?B` -/
def Alts.perhaps (a b : Fac) : Alts := .one (.term a .nil) (.cons (.term (.rep01 b) .nil) .nil)
/-- `A B | A` -/
def Alts.orNot (a b : Fac) : Alts := .alt (.term a .nil) (.cons (.term b .nil) .nil) (.one (.term a .nil) .nil)

mutual
/-- `f'` is `f` with some operators written out. If `m` is true then a mark gets the number of items of `f`. -/
inductive FacSpelt : Bool → Fac → Fac → Prop
  | same {m f} : FacSpelt m f f
  /-- `+A` and `(A *A)` -/
  | plus {a} : a.bang = false → FacSpelt false (.rep1 a) a.oneMore
  /-- `*A` and `?+A` -/
  | star {f f'} : FacSpelt false f f' → FacSpelt false (.rep0 f) (.rep01 (.rep1 f'))
  /-- `?A` and `(A | 1)` -/
  | opt {f f'} : FacSpelt false f f' → FacSpelt false (.rep01 f) f'.orOne
  /-- `@A` and `~~A` -/
  | twice {m f f'} : FacSpelt false f f' → FacSpelt m (.peek f) (.not (.not f'))
  /-- `~(A | B)` and `(~A ~B)` -/
  | nots {i is r} : FacSpelt false (.not (.paren (.alt i is r))) (.paren (.one (i.neg is) r.negs))
  /-- `(A (B | C))` and `(A B | A C)` -/
  | each {a b c} : a.unmarked = true → a.bang = false → b.bang = false → c.bang = false → FacSpelt false (.paren (.both a b c)) (.paren (.each a b c))
  /-- `(A ?B)` and `(A B | A)` -/
  | orNot {a b} : a.unmarked = true → a.bang = false → b.bang = false → FacSpelt false (.paren (.perhaps a b)) (.paren (.orNot a b))
  | rep0 {m f f'} : FacSpelt false f f' → FacSpelt m (.rep0 f) (.rep0 f')
  | rep1 {m f f'} : FacSpelt false f f' → FacSpelt m (.rep1 f) (.rep1 f')
  | rep01 {m f f'} : FacSpelt false f f' → FacSpelt m (.rep01 f) (.rep01 f')
  | not {m f f'} : FacSpelt false f f' → FacSpelt m (.not f) (.not f')
  | peek {m f f'} : FacSpelt false f f' → FacSpelt m (.peek f) (.peek f')
  | paren {m g g'} : AltsSpelt m g g' → FacSpelt m (.paren g) (.paren g')
inductive SufsSpelt : Sufs → Sufs → Prop
  | nil : SufsSpelt .nil .nil
  | list {f f' s s'} : FacSpelt false f f' → SufsSpelt s s' → SufsSpelt (.list f s) (.list f' s')
  | list0 {f f' s s'} : FacSpelt false f f' → SufsSpelt s s' → SufsSpelt (.list0 f s) (.list0 f' s')
  | mark {n s s'} : SufsSpelt s s' → SufsSpelt (.mark n s) (.mark n s')
inductive ItemSpelt : Bool → Item → Item → Prop
  | cut {m} : ItemSpelt m .cut .cut
  | term {m f f' s s'} : FacSpelt (s.counts m) f f' → SufsSpelt s s' → ItemSpelt m (.term f s) (.term f' s')
  /-- `A % B` and `(A *(B A))`, with no mark -/
  | list {m a b s} : a.bang = false → s.counts m = false → ItemSpelt m (.term a (.list b s)) (.term (.listed a b) s)
  /-- `A %= B` and `?(A % B)`, with no mark -/
  | list0 {m a b s} : s.counts m = false → ItemSpelt m (.term a (.list0 b s)) (.term (.optList a b) s)
inductive SeqSpelt : ItemSeq → ItemSeq → Prop
  | nil : SeqSpelt .nil .nil
  | cons {i i' is is'} : ItemSpelt false i i' → SeqSpelt is is' → SeqSpelt (.cons i is) (.cons i' is')
inductive AltsSpelt : Bool → Alts → Alts → Prop
  | item {m i i'} : ItemSpelt m i i' → AltsSpelt m (.one i .nil) (.one i' .nil)
  | seq {m i i' j j' is is'} : ItemSpelt false i i' → SeqSpelt (.cons j is) (.cons j' is') → AltsSpelt m (.one i (.cons j is)) (.one i' (.cons j' is'))
  | alt {m i i' is is' r r'} : ItemSpelt false i i' → SeqSpelt is is' → AltsSpelt false r r' → AltsSpelt m (.alt i is r) (.alt i' is' r')
end

/-- The rules one by one, with operators written out. -/
inductive RulesSpelt : List Rule → List Rule → Prop
  | nil : RulesSpelt [] []
  | cons {n b b' rs rs'} : AltsSpelt false b b' → RulesSpelt rs rs' → RulesSpelt (⟨n, b⟩ :: rs) (⟨n, b'⟩ :: rs')

/-- Rules that differ only in operators that are written out, and in parentheses. -/
inductive Respell : List Rule → List Rule → Prop
  | refl {rs} : Respell rs rs
  | spelt {rs rs' rs''} : Respell rs rs' → RulesSpelt rs' rs'' → Respell rs rs''
  | unspelt {rs rs' rs''} : Respell rs rs' → RulesSpelt rs'' rs' → Respell rs rs''
  | removed {rs rs' rs''} : Respell rs rs' → RulesLoose rs' rs'' → Respell rs rs''
  | added {rs rs' rs''} : Respell rs rs' → RulesLoose rs'' rs' → Respell rs rs''

end Tpl.Spec
