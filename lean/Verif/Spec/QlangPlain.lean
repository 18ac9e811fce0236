import Verif.Spec.QlangSem

/-!
Programs without loops and calls.
-/
namespace Tpl.Qlang.Src
variable {F : Type}

/-- No loop, no call, no `new` and no `main` runs when this piece of program does; the deferred
expressions have none either, and no `return`.  The bodies of functions do not matter, as nothing
calls them.  `r`: there may be a `return`. -/
def Tm.Plain : (r : Bool) → {c : Cat} → Tm c → Prop
  | r, _, .chain _ a b => a.Plain r ∧ b.Plain r
  | r, _, .bin _ _ b more => b.Plain r ∧ more.Plain r
  | r, _, .and _ b more => b.Plain r ∧ more.Plain r
  | r, _, .or _ b more => b.Plain r ∧ more.Plain r
  | r, _, .post e ops => e.Plain r ∧ ops.Plain r
  | r, _, .if_ _ c _ b _ es el => c.Plain r ∧ b.Plain r ∧ es.Plain r ∧ el.Plain r
  | r, _, .switch _ on _ cs d _ => on.Plain r ∧ cs.Plain r ∧ d.Plain r
  | _, _, .for_ .. => False
  | _, _, .new .. => False
  | _, _, .main .. => False
  | _, _, .call .. => False
  | r, _, .return_ _ e => r = true ∧ e.Plain r
  | _, _, .defer _ e => e.Plain false
  | r, _, .map _ ps _ _ => ps.Plain r
  | r, _, .not _ e => e.Plain r
  | r, _, .neg _ e => e.Plain r
  | r, _, .pos _ e => e.Plain r
  | r, _, .paren _ e _ => e.Plain r
  | r, _, .slice _ es _ _ => es.Plain r
  | r, _, .atom a more => a.Plain r ∧ more.Plain r
  | r, _, .index _ i _ => i.Plain r
  | r, _, .range _ i _ j _ => i.Plain r ∧ j.Plain r
  | r, _, .index2 _ i j _ => i.Plain r ∧ j.Plain r
  | r, _, .expr e => e.Plain r
  | r, _, .args e more => e.Plain r ∧ more.Plain r
  | r, _, .moreArgs _ e more => e.Plain r ∧ more.Plain r
  | r, _, .pairs k _ v more => k.Plain r ∧ v.Plain r ∧ more.Plain r
  | r, _, .morePairs _ k _ v more => k.Plain r ∧ v.Plain r ∧ more.Plain r
  | r, _, .assign _ _ e => e.Plain r
  | r, _, .multi _ _ _ _ _ e => e.Plain r
  | r, _, .opAssign _ _ _ e => e.Plain r
  | r, _, .eval e => e.Plain r
  | r, _, .doc s more => s.Plain r ∧ more.Plain r
  | r, _, .next _ s more => s.Plain r ∧ more.Plain r
  | r, _, .semi _ more => more.Plain r
  | r, _, .someDoc d => d.Plain r
  | r, _, .elif _ c _ b _ more => c.Plain r ∧ b.Plain r ∧ more.Plain r
  | r, _, .else_ _ _ b _ => b.Plain r
  | r, _, .case _ e _ b more => e.Plain r ∧ b.Plain r ∧ more.Plain r
  | r, _, .default _ _ b => b.Plain r
  | r, _, .parts s more => s.Plain r ∧ more.Plain r
  | r, _, .moreParts _ s more => s.Plain r ∧ more.Plain r
  | r, _, .class_ _ _ ms _ => ms.Plain r
  | r, _, .method _ _ _ _ more => more.Plain r
  | _, _, _ => True

/-- The values in a list of deferred expressions are such expressions. -/
def PlainDefers (vs : List (QVal F)) : Prop := ∀ v ∈ vs, ∃ e : Tm (.term 5), e.Ok ∧ e.Plain false ∧ v = .code e.toks

end Tpl.Qlang.Src
