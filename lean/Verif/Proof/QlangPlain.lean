import Verif.Spec.QlangPlain
import Verif.Spec.QlangSafe
import Verif.Proof.QlangDoes

/-!
Programs without loops and calls end.
-/
namespace Tpl.Qlang.Src
open Spec
variable {F : Type} {α β : Type}

/-- The deferred expressions of the program. -/
abbrev World.Calm (w : World F) : Prop := PlainDefers (w.frames 0).defers

/-- Code that ends. -/
def Fin (x : Prog F α) : Prop := ∀ w, w.Calm → ∃ o w', x w = some (o, w') ∧ w'.Calm

theorem fin_pure (a : α) : Fin (pure a : Prog F α) := fun w h => ⟨.ok a, w, rfl, h⟩
theorem fin_raise (p : QPanic F) : Fin (raise p : Prog F α) := fun w h => ⟨.error p, w, rfl, h⟩
theorem fin_ofE (e : Except (QPanic F) α) : Fin (ofE e) := by
  cases e
  · exact fin_raise _
  · exact fin_pure _
theorem fin_onHeap (x : HM F α) : Fin (onHeap x) := fun _ h => ⟨_, _, rfl, h⟩
theorem fin_theHeap : Fin (theHeap : Prog F _) := fun _ h => ⟨_, _, rfl, h⟩
theorem fin_newAddr : Fin (newAddr : Prog F _) := fin_onHeap _
theorem fin_frame (p : Nat) : Fin (frame p : Prog F _) := fun _ h => ⟨_, _, rfl, h⟩
theorem fin_enclosing (p : Nat) (x : Str) : Fin (enclosing p x : Prog F _) := fun _ h => ⟨_, _, rfl, h⟩
theorem fin_exit (n : Int) : Fin (exit_ n : Prog F α) := fin_raise _

theorem fin_change (p : Nat) (f : Frame F → Frame F) (hf : ∀ c, PlainDefers c.defers → PlainDefers (f c).defers) : Fin (change p f) := by
  intro w h
  refine ⟨.ok (), w.change p f, rfl, ?_⟩
  show PlainDefers (if 0 = p then f (w.frames p) else w.frames 0).defers
  by_cases hp : 0 = p
  · subst hp; rw [if_pos rfl]; exact hf _ h
  · rw [if_neg hp]; exact h

theorem fin_bind {x : Prog F α} {k : α → Prog F β} (hx : Fin x) (hk : ∀ a, Fin (k a)) : Fin (x >>= k) := by
  intro w h
  obtain ⟨o, w', h1, h2⟩ := hx w h
  show ∃ o w', Prog.andThen x k w = some (o, w') ∧ _
  unfold Prog.andThen
  rw [h1]
  cases o with
  | error p => exact ⟨_, _, rfl, h2⟩
  | ok a => exact hk a w' h2

theorem fin_try {x : Prog F α} (hx : Fin x) : Fin (try_ x) := by
  intro w h
  obtain ⟨o, w', h1, h2⟩ := hx w h
  unfold try_
  rw [h1]
  exact ⟨_, _, rfl, h2⟩

theorem fin_at (S : Setup F) (m : String) (ts : List Token) {x : Prog F α} (hx : Fin x) : Fin (S.at m ts x) := by
  intro w h
  obtain ⟨o, w', h1, h2⟩ := hx w h
  unfold Setup.at
  rw [h1]
  cases o <;> exact ⟨_, _, rfl, h2⟩

theorem fin_condition (c : QVal F) {a b : Prog F (QVal F)} (ha : Fin a) (hb : Fin b) : Fin (condition_ c a b) := by
  unfold condition_
  split
  · exact ha
  · exact hb
  · exact fin_raise _

/-! ### Variables -/

theorem fin_set (p : Nat) (x : Str) (v : QVal F) : Fin (change p fun f => f.set x v) := fin_change _ _ fun _ h => h

theorem fin_symbol (H : Host F) (x : Str) : Fin (symbol H x) := by
  unfold symbol
  split
  · exact fin_pure _
  · exact fin_raise _

theorem fin_readVar (H : Host F) (p : Nat) (x : Str) : Fin (readVar H p x) := by
  unfold readVar
  split
  · exact fin_pure _
  · refine fin_bind (fin_frame _) fun f => ?_
    split
    · exact fin_bind (fin_frame _) fun _ => fin_pure _
    · exact fin_pure _
    · split
      · exact fin_raise _
      · exact fin_symbol _ _
      · refine fin_bind (fin_enclosing _ _) fun t => ?_
        split
        · exact fin_symbol _ _
        · refine fin_bind (fin_frame _) fun g => ?_
          split
          · exact fin_bind (fin_frame _) fun _ => fin_bind (fin_set _ _ _) fun _ => fin_pure _
          · exact fin_bind (fin_set _ _ _) fun _ => fin_pure _

theorem fin_assignVar (p : Nat) (x : Str) (v : QVal F) : Fin (assignVar p x v) := by
  refine fin_bind ?_ fun t => fin_set _ _ _
  unfold target
  refine fin_bind (fin_frame _) fun f => ?_
  split
  · exact fin_pure _
  · exact fin_pure _
  · split
    · exact fin_raise _
    · exact fin_pure _
    · refine fin_bind (fin_enclosing _ _) fun t => ?_
      split
      · exact fin_pure _
      · exact fin_raise _

theorem fin_modifyVar (p : Nat) (x : Str) (g : QVal F → Except (QPanic F) (QVal F)) : Fin (modifyVar p x g) := by
  refine fin_bind ?_ fun tv => fin_bind (fin_ofE _) fun v => fin_bind (fin_set _ _ _) fun _ => fin_pure _
  unfold current
  refine fin_bind (fin_frame _) fun f => ?_
  split
  · exact fin_bind (fin_frame _) fun _ => fin_pure _
  · exact fin_pure _
  · exact fin_raise _

theorem fin_assignAll (p : Nat) : ∀ l : List (Str × QVal F), Fin (assignAll_ p l)
  | [] => fin_pure _
  | (x, v) :: more => fin_bind (fin_assignVar _ _ _) fun _ => fin_assignAll p more

theorem fin_assignMany (p : Nat) (xs : List Str) (v : QVal F) : Fin (assignMany p xs v) := by
  unfold assignMany
  split
  · split
    · exact fin_raise _
    · exact fin_bind fin_theHeap fun _ => fin_bind (fin_assignAll _ _) fun _ => fin_pure _
  · exact fin_raise _

theorem fin_getMember (H : Host F) (v : QVal F) (x : Str) : Fin (getMember H v x) := by
  unfold getMember
  split
  · refine fin_bind fin_theHeap fun h => ?_
    split
    · exact fin_pure _
    · split
      · exact fin_bind fin_newAddr fun _ => fin_pure _
      · exact fin_raise _
  · split
    · exact fin_pure _
    · exact fin_raise _
  · split
    · refine fin_bind fin_theHeap fun h => ?_
      split
      · exact fin_pure _
      · exact fin_raise _
    · exact fin_raise _
  · exact fin_bind fin_theHeap fun _ => fin_ofE _

theorem fin_recovers (p : Nat) : Fin (recovers p : Prog F _) := by
  refine fin_bind (fin_frame _) fun f => ?_
  split
  · exact fin_pure _
  · exact fin_bind (fin_frame _) fun _ => fin_bind (fin_change _ _ fun _ h => h) fun _ => fin_pure _

theorem fin_makeMethods (p : Nat) : ∀ (ms : List (Str × Fun)) (fns : List (Str × Nat × Fun)), Fin (makeMethods p ms fns : Prog F _)
  | [], _ => fin_pure _
  | (_, _) :: more, _ => fin_bind fin_newAddr fun _ => fin_makeMethods p more _

theorem fin_makeClass (p : Nat) (ms : List (Str × Fun)) : Fin (makeClass p ms : Prog F _) :=
  fin_bind fin_newAddr fun _ => fin_bind (fin_makeMethods _ _ _) fun _ => fin_pure _

/-! ### Deferred expressions -/

theorem fin_deferredOnes {R : Runs F} (hR : ∀ e : Tm (.term 5), e.Ok → e.Plain false → Fin (R.expr e.toks 0)) :
    ∀ vs : List (QVal F), PlainDefers vs → Fin (deferredOnes R 0 vs)
  | [], _ => fin_pure _
  | v :: more, h => by
    obtain ⟨e, h1, h2, rfl⟩ := h v (by simp)
    exact fin_bind (hR e h1 h2) fun _ => fin_deferredOnes hR more fun v hv => h v (by simp [hv])

theorem fin_runDefers {R : Runs F} (hR : ∀ e : Tm (.term 5), e.Ok → e.Plain false → Fin (R.expr e.toks 0)) : Fin (runDefers R 0) := by
  intro w hw
  unfold runDefers
  show ∃ o w', Prog.andThen (frame 0) _ w = some (o, w') ∧ _
  unfold Prog.andThen
  exact fin_bind (fin_deferredOnes hR _ hw) (fun _ => fin_change _ _ fun _ _ _ h => absurd h List.not_mem_nil) w hw

theorem fin_returnFrom {R : Runs F} (hR : ∀ e : Tm (.term 5), e.Ok → e.Plain false → Fin (R.expr e.toks 0)) (v : QVal F) :
    Fin (returnFrom R 0 v) := by
  unfold returnFrom
  refine fin_bind (fin_change _ _ fun _ h => h) fun _ => fin_bind (fin_frame _) fun f => ?_
  split
  · exact fin_raise _
  · refine fin_bind (fin_runDefers hR) fun _ => fin_bind (fin_frame _) fun g => ?_
    split
    · exact fin_exit _
    · exact fin_exit _
    · exact fin_raise _

/-! ### Trees -/

def DenFin : (c : Cat) → Den F c → Prop
  | .term _, a => Fin a
  | .tail _, a => ∀ v, Fin (a v)
  | .prim, a => Fin a
  | .atom, a => ∀ v, Fin (a v)
  | .atoms, a => ∀ v, Fin (a v)
  | .optExpr, a => ∀ x, a = some x → Fin x
  | .args, a => Fin a
  | .moreArgs, a => Fin a
  | .pairs, a => Fin a
  | .morePairs, a => Fin a
  | .stmt, a => Fin a
  | .doc, a => Fin a
  | .docTail, a => ∀ v, Fin (a v)
  | .optDoc, a => Fin a
  | .elifs, a => ∀ e, Fin e → Fin (a e)
  | .else_, a => Fin a
  | .cases, a => ∀ v e, Fin e → Fin (a v e)
  | .default, a => Fin a
  | .parts, _ => True
  | .moreParts, _ => True
  | .fnBody, _ => True
  | .methods, a => Fin a
  | .clsName, a => Fin a
  | .newArgs, _ => True

theorem fin_optVal {a : Option (Prog F (QVal F))} (h : ∀ x, a = some x → Fin x) : Fin (optVal a) := by
  cases a with
  | none => exact fin_pure _
  | some x => exact h x rfl

theorem den_fin (S : Setup F) (R : Runs F) (n : Nat) (r : Bool)
    (hR : r = true → ∀ e : Tm (.term 5), e.Ok → e.Plain false → Fin (R.expr e.toks 0)) :
    ∀ {c : Cat} (t : Tm c), t.Ok → t.Plain r → DenFin c (t.den S R n 0) := by
  intro c t
  induction t with
  | chain _ _ _ ia ib => exact fun o h => fin_bind (ia o.1 h.1) (ib o.2 h.2)
  | noOp => exact fun o h v => fin_pure _
  | bin _ _ b more ib im => exact fun o h v => fin_bind (ib o.1 h.1) fun w => fin_bind (fin_at S _ _ (fin_ofE _)) (im o.2 h.2)
  | and _ b more ib im =>
    refine fun o h v => fin_bind (fin_at S _ _ ?_) (im o.2 h.2)
    cases v
    case bool c => cases c; exact fin_pure _; exact ib o.1 h.1
    all_goals exact fin_raise _
  | or _ b more ib im =>
    refine fun o h v => fin_bind (fin_at S _ _ ?_) (im o.2 h.2)
    cases v
    case bool c => cases c; exact ib o.1 h.1; exact fin_pure _
    all_goals exact fin_raise _
  | int | float | string | char => exact fun _ _ => fin_at S _ _ (fin_ofE _)
  | recover => exact fun _ _ => fin_at S _ _ (fin_recovers _)
  | name | clsName | clsParen => exact fun _ _ => fin_at S _ _ (fin_readVar _ _ _)
  | inc | dec => exact fun _ _ => fin_at S _ _ (fin_modifyVar _ _ _)
  | noAtom | endDoc => exact fun _ _ v => fin_pure _
  | member => exact fun _ _ v => fin_at S _ _ (fin_getMember _ _ _)
  | noIndex => exact fun _ _ v => fin_at S _ _ (fin_raise _)
  | post _ _ ia ib => exact fun o h => fin_bind (ia o.1 h.1) (ib o.2 h.2)
  | if_ _ c _ b _ es el ic ib ie il =>
    exact fun o h => fin_at S _ _ (fin_bind (ic o.1 h.1) fun v => fin_condition v (ib o.2.1 h.2.1) (ie o.2.2.1 h.2.2.1 _ (il o.2.2.2 h.2.2.2)))
  | switch _ on _ cs d rb io ic id =>
    intro o h
    refine fin_at S _ _ ?_
    have io : ∀ x, on.den S R n 0 = some x → Fin x := io o.2.1 h.1
    revert io
    cases on.den S R n 0 with
    | none => exact fun _ => fin_bind (fin_pure _) fun v => ic o.2.2.1 h.2.1 v _ (id o.2.2.2 h.2.2)
    | some x => exact fun io => fin_bind (io x rfl) fun v => ic o.2.2.1 h.2.1 v _ (id o.2.2.2 h.2.2)
  | for_ => exact fun _ h => h.elim
  | new => exact fun _ h => h.elim
  | main => exact fun _ h => h.elim
  | call => exact fun _ h => h.elim
  | class_ _ _ ms rb im => exact fun o h => fin_bind (im o h) fun _ => fin_at S _ _ (fin_makeClass _ _)
  | map _ ps _ rb ip => exact fun o h => fin_bind (ip o h) fun _ => fin_at S _ _ (fin_onHeap _)
  | not _ e ie => exact fun o h => fin_bind (ie o h) fun _ => fin_at S _ _ (fin_ofE _)
  | neg _ e ie => exact fun o h => fin_bind (ie o h) fun _ => fin_at S _ _ (fin_ofE _)
  | pos _ e ie => exact ie
  | paren _ e _ ie => exact ie
  | fn _ f i => exact fun _ _ => fin_at S _ _ (fin_bind fin_newAddr fun _ => fin_pure _)
  | slice _ es _ rb ie => exact fun o h => fin_bind (ie o h) fun _ => fin_at S _ _ (fin_onHeap _)
  | atom a more ia im => exact fun o h v => fin_bind (ia o.1 h.1 v) (im o.2 h.2)
  | index _ i rb ii => exact fun o h v => fin_bind (ii o h) fun _ => fin_at S _ _ (fin_bind fin_theHeap fun _ => fin_ofE _)
  | range _ i _ j rb ii ij =>
    exact fun o h v => fin_bind (fin_optVal (ii o.1 h.1)) fun _ => fin_bind (fin_optVal (ij o.2 h.2)) fun _ =>
      fin_at S _ _ (fin_bind fin_theHeap fun _ => fin_ofE _)
  | index2 => exact fun o => o.elim
  | noExpr => exact fun _ _ => nofun
  | expr e ie => exact fun o h x hx => by cases hx; exact ie o h
  | noArgs | lastArg | noPairs | lastPair | noDoc | noElse | noDefault | noMethod => exact fun _ _ => fin_pure _
  | args e more ie im => exact fun o h => fin_bind (ie o.1 h.1) fun _ => fin_bind (im o.2 h.2) fun _ => fin_pure _
  | moreArgs _ e more ie im => exact fun o h => fin_bind (ie o.1 h.1) fun _ => fin_bind (im o.2 h.2) fun _ => fin_pure _
  | pairs k _ v more ik iv im =>
    exact fun o h => fin_bind (ik o.1 h.1) fun _ => fin_bind (iv o.2.1 h.2.1) fun _ => fin_bind (im o.2.2 h.2.2) fun _ => fin_pure _
  | morePairs _ k _ v more ik iv im =>
    exact fun o h => fin_bind (ik o.1 h.1) fun _ => fin_bind (iv o.2.1 h.2.1) fun _ => fin_bind (im o.2.2 h.2.2) fun _ => fin_pure _
  | assign _ _ e ie => exact fun o h => fin_bind (ie o h) fun _ => fin_at S _ _ (fin_bind (fin_assignVar _ _ _) fun _ => fin_pure _)
  | multi _ _ _ _ _ e ie => exact fun o h => fin_bind (ie o h) fun _ => fin_at S _ _ (fin_assignMany _ _ _)
  | opAssign _ _ _ e ie => exact fun o h => fin_bind (ie o h) fun _ => fin_at S _ _ (fin_modifyVar _ _ _)
  | return_ _ e ie => exact fun o h => fin_bind (fin_optVal (ie o h.2)) fun _ => fin_at S _ _ (fin_returnFrom (hR h.1) _)
  | defer _ e =>
    refine fun o h => fin_bind (fin_change _ _ fun c hc v hv => ?_) fun _ => fin_pure _
    rcases List.mem_cons.mp hv with rfl | hv
    · exact ⟨e, o, h, rfl⟩
    · exact hc v hv
  | eval e ie => exact ie
  | doc s more is im => exact fun o h => fin_bind (is o.1 h.1) (im o.2 h.2)
  | next _ s more is im => exact fun o h _ => fin_bind (is o.1 h.1) (im o.2 h.2)
  | semi _ more im => exact fun o h _ => im o h _
  | someDoc d i => exact i
  | noElif => exact fun _ _ _ h => h
  | elif _ c _ b _ more ic ib im =>
    exact fun o h e he => fin_bind (ic o.1 h.1) fun v => fin_condition v (ib o.2.1 h.2.1) (im o.2.2 h.2.2 _ he)
  | else_ _ _ b _ ib => exact ib
  | noCase => exact fun _ _ _ _ h => h
  | case _ e _ b more ie ib im =>
    refine fun o h v d hd => fin_bind (ie o.1 h.1) fun x => fin_bind (fin_ofE _) fun y => ?_
    cases y
    case bool c => cases c; exact im o.2.2 h.2.2 v _ hd; exact ib o.2.1 h.2.1
    all_goals exact im o.2.2 h.2.2 v _ hd
  | default _ _ b ib => exact ib
  | noParts | lastPart | parts | moreParts | fnBody | noNewArgs | newArgs => exact fun _ _ => trivial
  | method _ x f _ more i im => exact fun o h => fin_bind fin_newAddr fun _ => fin_bind (im o.2 h) fun ms => fin_pure _

/-! ### Programs -/

/-- A setup that knows the deferred expressions of such programs. -/
theorem plain_setup (H : Host F) (site : String → Gr Str) : ∃ S : Setup F, S.host = H ∧ S.site = site ∧
    ∀ e : Tm (.term 5), e.Ok → e.Plain false → ∃ e', S.expr e.toks = some e' ∧ e'.Plain false := by
  classical
  refine ⟨⟨H, site, fun _ => none, fun ts => if h : ∃ e : Tm (.term 5), (e.Ok ∧ e.toks = ts) ∧ e.Plain false then some h.choose else none, nofun, ?_⟩,
    rfl, rfl, ?_⟩
  · intro ts e he
    split at he
    · rename_i h
      cases he
      exact h.choose_spec.1
    · cases he
  · intro e h1 h2
    have h : ∃ e' : Tm (.term 5), (e'.Ok ∧ e'.toks = e.toks) ∧ e'.Plain false := ⟨e, ⟨h1, rfl⟩, h2⟩
    exact ⟨h.choose, dif_pos h, h.choose_spec.2⟩

variable {S : Setup F} (hS : ∀ e : Tm (.term 5), e.Ok → e.Plain false → ∃ e', S.expr e.toks = some e' ∧ e'.Plain false)
include hS

theorem fin_expr (n : Nat) (e : Tm (.term 5)) (ho : e.Ok) (hp : e.Plain false) : Fin ((runs S (n + 1)).expr e.toks 0) := by
  obtain ⟨e', h1, h2⟩ := hS e ho hp
  show Fin (match S.expr e.toks with
    | some e => e.den S (runs S n) n 0
    | none => fun _ => none)
  rw [h1]
  exact den_fin S _ n false nofun e' (S.expr_ok h1).1 h2

theorem fin_does (n : Nat) (d : Tm .doc) (ho : d.Ok) (hp : d.Plain true) : Fin (d.does S (n + 1)) :=
  den_fin S _ _ true (fun _ => fin_expr hS n) d ho hp

theorem fin_safely (n : Nat) (d : Tm .doc) (ho : d.Ok) (hp : d.Plain true) : Fin (d.safely S (n + 1)) := by
  unfold Tm.safely
  refine fin_bind (fin_try (fin_does hS n d ho hp)) fun e => ?_
  split
  · exact fin_exit _
  · refine fin_bind (fin_change _ _ fun _ h => h) fun _ => fin_bind (fin_runDefers (fin_expr hS n)) fun _ => fin_bind (fin_frame _) fun f => ?_
    split
    · exact fin_pure _
    · split
      · exact fin_pure _
      · exact fin_raise _

end Tpl.Qlang.Src
