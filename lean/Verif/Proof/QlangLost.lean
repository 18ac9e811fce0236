import Verif.Proof.QlangMono
import Verif.Proof.QlangDoes

/-!
When a piece of program that cannot be read is an exit with the code `j`, then a run that does not
end with this exit has not met one.
-/
namespace Tpl.Qlang.Src
open Spec
variable {F : Type} {α β : Type} {j : Int}

/-- The run has ended with this exit. -/
abbrev Left (j : Int) (r : Except (QPanic F) α × World F) : Prop := ∃ w, r = (.error (.user (.other (.exit j))), w)

/-- Whatever `x` has ended with, `y` ends with as well, but for the exit. -/
def Prog.Lf (j : Int) (x y : Prog F α) : Prop := ∀ w r, x w = some r → Left j r ∨ y w = some r

theorem Prog.Lf.refl (x : Prog F α) : x.Lf j x := fun _ _ h => .inr h

theorem Prog.Lf.never {y : Prog F α} : Prog.Lf j (fun _ => none) y := fun _ _ h => nomatch h

theorem Prog.Lf.left {y : Prog F α} : Prog.Lf j (exit_ j) y := fun w _ h => .inl ⟨w, (Option.some.inj h).symm⟩

theorem bind_lf {x y : Prog F α} {k l : α → Prog F β} (h : x.Lf j y) (hk : ∀ a, (k a).Lf j (l a)) :
    Prog.Lf j (x >>= k) (y >>= l) := by
  intro w r hr
  show Left j r ∨ Prog.andThen y l w = some r
  replace hr : Prog.andThen x k w = some r := hr
  unfold Prog.andThen at hr ⊢
  cases hx : x w with
  | none => rw [hx] at hr; exact nomatch hr
  | some o =>
    rw [hx] at hr
    rcases h w o hx with ⟨w', rfl⟩ | hy
    · exact .inl ⟨w', (Option.some.inj hr).symm⟩
    rw [hy]
    obtain ⟨e, w'⟩ := o
    cases e with
    | error p => exact .inr hr
    | ok a => exact hk a w' r hr

theorem bind_raise_lf {p : QPanic F} {k l : α → Prog F β} : Prog.Lf j ((raise p : Prog F α) >>= k) ((raise p : Prog F α) >>= l) :=
  fun _ _ h => .inr h

theorem at_lf (S : Setup F) (m : String) (ts : List Token) {x y : Prog F α} (h : x.Lf j y) : (S.at m ts x).Lf j (S.at m ts y) := by
  intro w r hr
  unfold Setup.at at hr ⊢
  cases hx : x w with
  | none => rw [hx] at hr; exact nomatch hr
  | some o =>
    rw [hx] at hr
    rcases h w o hx with ⟨w', rfl⟩ | hy
    · exact .inl ⟨w', (Option.some.inj hr).symm⟩
    · rw [hy]; exact .inr hr

theorem condition_lf (c : QVal F) {a a' b b' : Prog F (QVal F)} (ha : a.Lf j a') (hb : b.Lf j b') :
    (condition_ c a b).Lf j (condition_ c a' b') := by
  unfold condition_
  split
  · exact ha
  · exact hb
  · exact .refl _

inductive OptLf (j : Int) : Option (Prog F α) → Option (Prog F α) → Prop
  | none : OptLf j none none
  | some {x y} : Prog.Lf j x y → OptLf j (some x) (some y)

inductive ListLf (j : Int) : List (Prog F α) → List (Prog F α) → Prop
  | nil : ListLf j [] []
  | cons {x y xs ys} : Prog.Lf j x y → ListLf j xs ys → ListLf j (x :: xs) (y :: ys)

theorem optVal_lf {a b : Option (Prog F (QVal F))} (h : OptLf j a b) : (optVal a).Lf j (optVal b) := by
  cases h with
  | none => exact .refl _
  | some h => exact h

theorem rounds_lf {c c' s s' : Option (Prog F (QVal F))} {b b' : Prog F (QVal F)} (hc : OptLf j c c') (hs : OptLf j s s')
    (hb : b.Lf j b') : ∀ {n m : Nat}, n ≤ m → (rounds c s b n).Lf j (rounds c' s' b' m)
  | 0, _, _ => .never
  | n + 1, 0, h => absurd h (by omega)
  | n + 1, m + 1, h => by
    have ih := rounds_lf hc hs hb (n := n) (m := m) (by omega)
    cases hs with
    | none => cases hc with
      | none =>
          refine bind_lf (.refl _) fun g => ?_
          cases g
          · exact .refl _
          · exact bind_lf hb fun _ => ih
      | some h =>
        refine bind_lf h fun v => ?_
        cases v
        case bool g =>
          refine bind_lf (.refl _) fun g => ?_
          cases g
          · exact .refl _
          · exact bind_lf hb fun _ => ih
        all_goals exact bind_raise_lf
    | some hs => cases hc with
      | none =>
          refine bind_lf (.refl _) fun g => ?_
          cases g
          · exact .refl _
          · exact bind_lf hb fun _ => bind_lf hs fun _ => ih
      | some h =>
        refine bind_lf h fun v => ?_
        cases v
        case bool g =>
          refine bind_lf (.refl _) fun g => ?_
          cases g
          · exact .refl _
          · exact bind_lf hb fun _ => bind_lf hs fun _ => ih
        all_goals exact bind_raise_lf

/-! ### Calls -/

structure Runs.Lf (j : Int) (R Q : Runs F) : Prop where
  body : ∀ ts p, (R.body ts p).Lf j (Q.body ts p)
  expr : ∀ ts p, (R.expr ts p).Lf j (Q.expr ts p)
  lost : R.lost.Lf j Q.lost

variable {R Q : Runs F}

theorem deferredOnes_lf (h : R.Lf j Q) (p : Nat) : ∀ vs : List (QVal F), (deferredOnes R p vs).Lf j (deferredOnes Q p vs)
  | [] => .refl _
  | v :: more => by
    have ih := deferredOnes_lf h p more
    cases v
    case code ts =>
      exact bind_lf (h.expr ts p) fun _ => ih
    all_goals exact h.lost

theorem runDefers_lf (h : R.Lf j Q) (p : Nat) : (runDefers R p).Lf j (runDefers Q p) := by
  unfold runDefers
  exact bind_lf (.refl _) fun _ => bind_lf (deferredOnes_lf h p _) fun _ => .refl _

theorem finish_lf (h : R.Lf j Q) (c : Nat) (e : Option (QPanic F)) : (finish R c e).Lf j (finish Q c e) := by
  unfold finish
  exact bind_lf (.refl _) fun _ => bind_lf (runDefers_lf h c) fun _ => .refl _

theorem apply_lf (H : Host F) (h : R.Lf j Q) (f : Fun) (args : List (QVal F)) : (apply H R f args).Lf j (apply H Q f args) := by
  unfold apply
  refine if hc : (if f.variadic then f.args.length ≤ args.length + 1 else args.length = f.args.length) then ?_ else ?_
  · rw [if_pos hc, if_pos hc]
    cases f.body with
    | none => exact .refl _
    | some b =>
      refine bind_lf (.refl _) fun _ => bind_lf (.refl _) fun c => ?_
      intro w r hr
      rw [bind_run] at hr
      unfold try_ at hr
      cases hx : R.body b c w with
      | none => rw [hx] at hr; cases hr
      | some o =>
        rcases h.body b c w o hx with ⟨w', rfl⟩ | hy
        · rw [hx] at hr
          exact .inl ⟨w', (Option.some.inj hr).symm⟩
        · rw [hx] at hr
          rw [bind_run]
          unfold try_
          rw [hy]
          obtain ⟨e, w'⟩ := o
          dsimp only at hr ⊢
          cases hl : leaves e with
          | exit n => rw [hl] at hr; exact .inr hr
          | normal => rw [hl] at hr; exact finish_lf h c none _ _ hr
          | panic p => rw [hl] at hr; exact finish_lf h c (some p) _ _ hr
  · rw [if_neg hc, if_neg hc]
    exact .refl _

theorem callValue_lf (H : Host F) (h : R.Lf j Q) (v : QVal F) (args : List (QVal F)) :
    (callValue H R v args).Lf j (callValue H Q v args) := by
  cases v
  case fn => exact apply_lf H h _ _
  case method => exact apply_lf H h _ _
  all_goals exact .refl _

theorem returnFrom_lf (h : R.Lf j Q) (p : Nat) (v : QVal F) : (returnFrom R p v).Lf j (returnFrom Q p v) := by
  unfold returnFrom
  refine bind_lf (.refl _) fun _ => bind_lf (.refl _) fun f => ?_
  split
  · exact .refl _
  · exact bind_lf (runDefers_lf h p) fun _ => .refl _

theorem runMain_lf (H : Host F) (h : R.Lf j Q) (p : Nat) (b : Option (List Token)) : (runMain H R p b).Lf j (runMain H Q p b) := by
  unfold runMain
  exact bind_lf (apply_lf H h _ _) fun _ => .refl _

theorem makeObject_lf (H : Host F) (h : R.Lf j Q) (c : QVal F) (args : List (QVal F)) :
    (makeObject H R c args).Lf j (makeObject H Q c args) := by
  unfold makeObject
  cases c
  case cls a fns =>
    refine bind_lf (.refl _) fun _ => bind_lf (.refl _) fun _ => ?_
    cases List.lookup (str "_init") fns with
    | none => exact .refl _
    | some f => exact bind_lf (apply_lf H h _ _) fun _ => .refl _
  all_goals exact .refl _

/-! ### Trees -/

def DenLf (j : Int) : (c : Cat) → Den F c → Den F c → Prop
  | .term _, a, b => Prog.Lf j a b
  | .tail _, a, b => ∀ v, Prog.Lf j (a v) (b v)
  | .prim, a, b => Prog.Lf j a b
  | .atom, a, b => ∀ v, Prog.Lf j (a v) (b v)
  | .atoms, a, b => ∀ v, Prog.Lf j (a v) (b v)
  | .optExpr, a, b => OptLf j a b
  | .args, a, b => Prog.Lf j a b
  | .moreArgs, a, b => Prog.Lf j a b
  | .pairs, a, b => Prog.Lf j a b
  | .morePairs, a, b => Prog.Lf j a b
  | .stmt, a, b => Prog.Lf j a b
  | .doc, a, b => Prog.Lf j a b
  | .docTail, a, b => ∀ v, Prog.Lf j (a v) (b v)
  | .optDoc, a, b => Prog.Lf j a b
  | .elifs, a, b => ∀ e e', Prog.Lf j e e' → Prog.Lf j (a e) (b e')
  | .else_, a, b => Prog.Lf j a b
  | .cases, a, b => ∀ v e e', Prog.Lf j e e' → Prog.Lf j (a v e) (b v e')
  | .default, a, b => Prog.Lf j a b
  | .parts, a, b => ListLf j a b
  | .moreParts, a, b => ListLf j a b
  | .fnBody, a, b => a = b
  | .methods, a, b => Prog.Lf j a b
  | .clsName, a, b => Prog.Lf j a b
  | .newArgs, a, b => OptLf j a b

theorem den_lf (S : Setup F) (h : R.Lf j Q) {n m : Nat} (hn : n ≤ m) (p : Nat) :
    ∀ {c : Cat} (t : Tm c), DenLf j c (t.den S R n p) (t.den S Q m p) := by
  intro c t
  induction t with
  | chain _ _ _ ia ib => exact bind_lf ia ib
  | noOp => exact fun v => .refl _
  | bin o _ b more ib im => exact fun v => bind_lf ib fun w => bind_lf (.refl _) im
  | and _ b more ib im =>
    refine fun v => bind_lf (at_lf S _ _ ?_) im
    cases v
    case bool c => cases c; exact .refl _; exact ib
    all_goals exact .refl _
  | or _ b more ib im =>
    refine fun v => bind_lf (at_lf S _ _ ?_) im
    cases v
    case bool c => cases c; exact ib; exact .refl _
    all_goals exact .refl _
  | int | float | string | char | recover | name | clsName | clsParen | inc | dec => exact Prog.Lf.refl _
  | noAtom | endDoc => exact fun v => .refl _
  | member | noIndex => exact fun v => .refl _
  | post _ _ ia ib => exact bind_lf ia ib
  | if_ _ c _ b _ es el ic ib ie il => exact at_lf S _ _ (bind_lf ic fun v => condition_lf v ib (ie _ _ il))
  | switch _ on _ cs d rb io ic id =>
    refine at_lf S _ _ ?_
    replace io : OptLf j (on.den S R n p) (on.den S Q m p) := io
    generalize on.den S R n p = x at io ⊢
    generalize on.den S Q m p = y at io ⊢
    cases io with
    | none => exact bind_lf (.refl _) fun v => ic v _ _ id
    | some h => exact bind_lf h fun v => ic v _ _ id
  | for_ _ ps _ b rb ips ib =>
    refine at_lf S _ _ ?_
    replace ips : ListLf j (ps.den S R n p) (ps.den S Q m p) := ips
    generalize ps.den S R n p = x at ips ⊢
    generalize ps.den S Q m p = y at ips ⊢
    cases ips with
    | nil => exact rounds_lf .none .none ib hn
    | cons h1 t1 => cases t1 with
      | nil => exact rounds_lf (.some h1) .none ib hn
      | cons h2 t2 => cases t2 with
        | nil => exact .refl _
        | cons h3 t3 => cases t3 with
          | nil => exact bind_lf h1 fun _ => rounds_lf (.some h2) (.some h3) ib hn
          | cons _ _ => exact .refl _
  | new _ c as ic ia =>
    refine bind_lf ic fun v => ?_
    replace ia : OptLf j (as.den S R n p) (as.den S Q m p) := ia
    generalize as.den S R n p = x at ia ⊢
    generalize as.den S Q m p = y at ia ⊢
    cases ia with
    | none => exact bind_lf (.refl _) fun args => at_lf S _ _ (makeObject_lf _ h _ _)
    | some h' => exact bind_lf h' fun args => at_lf S _ _ (makeObject_lf _ h _ _)
  | class_ _ _ ms rb im => exact bind_lf im fun _ => .refl _
  | main _ _ b rb => exact at_lf S _ _ (runMain_lf _ h _ _)
  | map _ ps _ rb ip => exact bind_lf ip fun _ => .refl _
  | not _ e ie => exact bind_lf ie fun _ => .refl _
  | neg _ e ie => exact bind_lf ie fun _ => .refl _
  | pos _ e ie => exact ie
  | paren _ e _ ie => exact ie
  | fn _ f i =>
    replace i : f.den S R n p = f.den S Q m p := i
    refine at_lf S _ _ (bind_lf (.refl _) fun a => ?_)
    rw [i]
    exact .refl _
  | slice _ es _ rb ie => exact bind_lf ie fun _ => .refl _
  | atom a more ia im => exact fun v => bind_lf (ia v) im
  | call _ as s _ rp ia =>
    refine fun v => bind_lf ia fun args => at_lf S _ _ ?_
    cases s with
    | none => exact bind_lf (.refl _) fun _ => callValue_lf _ h _ _
    | some _ => exact bind_lf (.refl _) fun _ => callValue_lf _ h _ _
  | index _ i rb ii => exact fun v => bind_lf ii fun _ => .refl _
  | range _ i _ j rb ii ij => exact fun v => bind_lf (optVal_lf ii) fun _ => bind_lf (optVal_lf ij) fun _ => .refl _
  | index2 _ i j rb ii ij => exact fun v => bind_lf ii fun _ => bind_lf ij fun _ => .refl _
  | noExpr => exact OptLf.none
  | expr e ie => exact OptLf.some ie
  | noArgs | lastArg | noPairs | lastPair | noDoc | noElse | noDefault | noMethod => exact Prog.Lf.refl _
  | args e more ie im => exact bind_lf ie fun _ => bind_lf im fun _ => .refl _
  | moreArgs _ e more ie im => exact bind_lf ie fun _ => bind_lf im fun _ => .refl _
  | pairs k _ v more ik iv im => exact bind_lf ik fun _ => bind_lf iv fun _ => bind_lf im fun _ => .refl _
  | morePairs _ k _ v more ik iv im => exact bind_lf ik fun _ => bind_lf iv fun _ => bind_lf im fun _ => .refl _
  | assign _ _ e ie => exact bind_lf ie fun _ => .refl _
  | multi _ _ _ _ _ e ie => exact bind_lf ie fun _ => .refl _
  | opAssign _ _ _ e ie => exact bind_lf ie fun _ => .refl _
  | return_ _ e ie => exact bind_lf (optVal_lf ie) fun _ => at_lf S _ _ (returnFrom_lf h _ _)
  | defer _ e => exact Prog.Lf.refl _
  | eval e ie => exact ie
  | doc s more is im => exact bind_lf is im
  | next _ s more is im => exact fun _ => bind_lf is im
  | semi _ more im => exact fun _ => im _
  | someDoc d i => exact i
  | noElif => exact fun _ _ h => h
  | elif _ c _ b _ more ic ib im => exact fun e e' h => bind_lf ic fun v => condition_lf v ib (im _ _ h)
  | else_ _ _ b _ ib => exact ib
  | noCase => exact fun _ _ _ h => h
  | case _ e _ b more ie ib im =>
    refine fun v d d' hd => bind_lf ie fun x => bind_lf (.refl _) fun y => ?_
    cases y
    case bool c => cases c; exact im v _ _ hd; exact ib
    all_goals exact im v _ _ hd
  | default _ _ b ib => exact ib
  | noParts | lastPart => exact ListLf.nil
  | parts s more is im => exact ListLf.cons is im
  | moreParts _ s more is im => exact ListLf.cons is im
  | fnBody => rfl
  | method _ x f _ more i im =>
    replace i : f.den S R n p = f.den S Q m p := i
    refine bind_lf (.refl _) fun _ => bind_lf im fun ms => ?_
    rw [i]
    exact .refl _
  | noNewArgs => exact OptLf.none
  | newArgs _ as _ ia => exact OptLf.some ia


theorem runsOr_lf (S : Setup F) (j : Int) : ∀ n : Nat, (runsOr S j n).Lf j (runs S n)
  | 0 => ⟨fun _ _ => .never, fun _ _ => .never, .left⟩
  | n + 1 => by
    have ih := runsOr_lf S j n
    refine ⟨?_, ?_, .left⟩
    · intro ts p
      show Prog.Lf j (match S.doc ts with
        | some d => d.den S (runsOr S j n) n p
        | none => exit_ j) (match S.doc ts with
        | some d => d.den S (runs S n) n p
        | none => fun _ => none)
      cases S.doc ts with
      | none => exact .left
      | some d => exact den_lf S ih (Nat.le_refl _) p d
    · intro ts p
      show Prog.Lf j (match S.expr ts with
        | some d => d.den S (runsOr S j n) n p
        | none => exit_ j) (match S.expr ts with
        | some d => d.den S (runs S n) n p
        | none => fun _ => none)
      cases S.expr ts with
      | none => exact .left
      | some d => exact den_lf S ih (Nat.le_refl _) p d

theorem doesOr_lf (S : Setup F) (j : Int) (n : Nat) (d : Tm .doc) : (d.doesOr S j n).Lf j (d.does S n) :=
  den_lf S (runsOr_lf S j n) (Nat.le_refl _) 0 d

end Tpl.Qlang.Src
