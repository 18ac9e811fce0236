import Verif.Spec.QlangSem

/-!
What a qlang program does is not changed by letting it run longer: a run that has ended within
some number of steps ends in the same way within every larger number.
-/
namespace Tpl.Qlang.Src
open Spec
variable {F : Type} {α β : Type}

/-- Whatever `x` has ended with, `y` ends with as well. -/
def Prog.Le (x y : Prog F α) : Prop := ∀ w r, x w = some r → y w = some r

theorem Prog.Le.refl (x : Prog F α) : x.Le x := fun _ _ h => h

theorem Prog.Le.never {y : Prog F α} : Prog.Le (fun _ => none) y := fun _ _ h => nomatch h

theorem bind_le {x y : Prog F α} {k l : α → Prog F β} (h : x.Le y) (hk : ∀ a, (k a).Le (l a)) :
    Prog.Le (x >>= k) (y >>= l) := by
  intro w r hr
  show Prog.andThen y l w = some r
  replace hr : Prog.andThen x k w = some r := hr
  unfold Prog.andThen at hr ⊢
  cases hx : x w with
  | none => rw [hx] at hr; exact nomatch hr
  | some o =>
    rw [hx] at hr
    rw [h w o hx]
    obtain ⟨e, w'⟩ := o
    cases e with
    | error p => exact hr
    | ok a => exact hk a w' r hr

theorem bind_raise_le {p : QPanic F} {k l : α → Prog F β} : Prog.Le ((raise p : Prog F α) >>= k) ((raise p : Prog F α) >>= l) :=
  fun _ _ h => h

theorem at_le (S : Setup F) (m : String) (ts : List Token) {x y : Prog F α} (h : x.Le y) : (S.at m ts x).Le (S.at m ts y) := by
  intro w r hr
  unfold Setup.at at hr ⊢
  cases hx : x w with
  | none => rw [hx] at hr; exact nomatch hr
  | some o => rw [hx] at hr; rw [h w o hx]; exact hr

theorem try_le {x y : Prog F α} (h : x.Le y) : (try_ x).Le (try_ y) := by
  intro w r hr
  unfold try_ at hr ⊢
  cases hx : x w with
  | none => rw [hx] at hr; exact nomatch hr
  | some o => rw [hx] at hr; rw [h w o hx]; exact hr

theorem condition_le (c : QVal F) {a a' b b' : Prog F (QVal F)} (ha : a.Le a') (hb : b.Le b') :
    (condition_ c a b).Le (condition_ c a' b') := by
  unfold condition_
  split
  · exact ha
  · exact hb
  · exact .refl _

inductive OptLe : Option (Prog F α) → Option (Prog F α) → Prop
  | none : OptLe none none
  | some {x y} : Prog.Le x y → OptLe (some x) (some y)

inductive ListLe : List (Prog F α) → List (Prog F α) → Prop
  | nil : ListLe [] []
  | cons {x y xs ys} : Prog.Le x y → ListLe xs ys → ListLe (x :: xs) (y :: ys)

theorem optVal_le {a b : Option (Prog F (QVal F))} (h : OptLe a b) : (optVal a).Le (optVal b) := by
  cases h with
  | none => exact .refl _
  | some h => exact h

theorem rounds_le {c c' s s' : Option (Prog F (QVal F))} {b b' : Prog F (QVal F)} (hc : OptLe c c') (hs : OptLe s s')
    (hb : b.Le b') : ∀ {n m : Nat}, n ≤ m → (rounds c s b n).Le (rounds c' s' b' m)
  | 0, _, _ => .never
  | n + 1, 0, h => absurd h (by omega)
  | n + 1, m + 1, h => by
    have ih := rounds_le hc hs hb (n := n) (m := m) (by omega)
    cases hs with
    | none => cases hc with
      | none =>
          refine bind_le (.refl _) fun g => ?_
          cases g
          · exact .refl _
          · exact bind_le hb fun _ => ih
      | some h =>
        refine bind_le h fun v => ?_
        cases v
        case bool g =>
          refine bind_le (.refl _) fun g => ?_
          cases g
          · exact .refl _
          · exact bind_le hb fun _ => ih
        all_goals exact bind_raise_le
    | some hs => cases hc with
      | none =>
          refine bind_le (.refl _) fun g => ?_
          cases g
          · exact .refl _
          · exact bind_le hb fun _ => bind_le hs fun _ => ih
      | some h =>
        refine bind_le h fun v => ?_
        cases v
        case bool g =>
          refine bind_le (.refl _) fun g => ?_
          cases g
          · exact .refl _
          · exact bind_le hb fun _ => bind_le hs fun _ => ih
        all_goals exact bind_raise_le

/-! ### Calls -/

structure Runs.Le (R Q : Runs F) : Prop where
  body : ∀ ts p, (R.body ts p).Le (Q.body ts p)
  expr : ∀ ts p, (R.expr ts p).Le (Q.expr ts p)
  lost : R.lost.Le Q.lost

variable {R Q : Runs F}

theorem deferredOnes_le (h : R.Le Q) (p : Nat) : ∀ vs : List (QVal F), (deferredOnes R p vs).Le (deferredOnes Q p vs)
  | [] => .refl _
  | v :: more => by
    have ih := deferredOnes_le h p more
    cases v
    case code ts =>
      exact bind_le (h.expr ts p) fun _ => ih
    all_goals exact h.lost

theorem runDefers_le (h : R.Le Q) (p : Nat) : (runDefers R p).Le (runDefers Q p) := by
  unfold runDefers
  exact bind_le (.refl _) fun _ => bind_le (deferredOnes_le h p _) fun _ => .refl _

theorem finish_le (h : R.Le Q) (c : Nat) (e : Option (QPanic F)) : (finish R c e).Le (finish Q c e) := by
  unfold finish
  exact bind_le (.refl _) fun _ => bind_le (runDefers_le h c) fun _ => .refl _

theorem apply_le (H : Host F) (h : R.Le Q) (f : Fun) (args : List (QVal F)) : (apply H R f args).Le (apply H Q f args) := by
  unfold apply
  refine if hc : (if f.variadic then f.args.length ≤ args.length + 1 else args.length = f.args.length) then ?_ else ?_
  · rw [if_pos hc, if_pos hc]
    cases f.body with
    | none => exact .refl _
    | some b =>
      refine bind_le (.refl _) fun _ => bind_le (.refl _) fun c => bind_le (try_le (h.body b c)) fun r => ?_
      cases leaves r with
      | exit n => exact .refl _
      | normal => exact finish_le h c none
      | panic p => exact finish_le h c (some p)
  · rw [if_neg hc, if_neg hc]
    exact .refl _

theorem callValue_le (H : Host F) (h : R.Le Q) (v : QVal F) (args : List (QVal F)) :
    (callValue H R v args).Le (callValue H Q v args) := by
  cases v
  case fn => exact apply_le H h _ _
  case method => exact apply_le H h _ _
  all_goals exact .refl _

theorem returnFrom_le (h : R.Le Q) (p : Nat) (v : QVal F) : (returnFrom R p v).Le (returnFrom Q p v) := by
  unfold returnFrom
  refine bind_le (.refl _) fun _ => bind_le (.refl _) fun f => ?_
  split
  · exact .refl _
  · exact bind_le (runDefers_le h p) fun _ => .refl _

theorem runMain_le (H : Host F) (h : R.Le Q) (p : Nat) (b : Option (List Token)) : (runMain H R p b).Le (runMain H Q p b) := by
  unfold runMain
  exact bind_le (apply_le H h _ _) fun _ => .refl _

theorem makeObject_le (H : Host F) (h : R.Le Q) (c : QVal F) (args : List (QVal F)) :
    (makeObject H R c args).Le (makeObject H Q c args) := by
  unfold makeObject
  cases c
  case cls a fns =>
    refine bind_le (.refl _) fun _ => bind_le (.refl _) fun _ => ?_
    cases List.lookup (str "_init") fns with
    | none => exact .refl _
    | some f => exact bind_le (apply_le H h _ _) fun _ => .refl _
  all_goals exact .refl _

/-! ### Trees -/

def DenLe : (c : Cat) → Den F c → Den F c → Prop
  | .term _, a, b => Prog.Le a b
  | .tail _, a, b => ∀ v, Prog.Le (a v) (b v)
  | .prim, a, b => Prog.Le a b
  | .atom, a, b => ∀ v, Prog.Le (a v) (b v)
  | .atoms, a, b => ∀ v, Prog.Le (a v) (b v)
  | .optExpr, a, b => OptLe a b
  | .args, a, b => Prog.Le a b
  | .moreArgs, a, b => Prog.Le a b
  | .pairs, a, b => Prog.Le a b
  | .morePairs, a, b => Prog.Le a b
  | .stmt, a, b => Prog.Le a b
  | .doc, a, b => Prog.Le a b
  | .docTail, a, b => ∀ v, Prog.Le (a v) (b v)
  | .optDoc, a, b => Prog.Le a b
  | .elifs, a, b => ∀ e e', Prog.Le e e' → Prog.Le (a e) (b e')
  | .else_, a, b => Prog.Le a b
  | .cases, a, b => ∀ v e e', Prog.Le e e' → Prog.Le (a v e) (b v e')
  | .default, a, b => Prog.Le a b
  | .parts, a, b => ListLe a b
  | .moreParts, a, b => ListLe a b
  | .fnBody, a, b => a = b
  | .methods, a, b => Prog.Le a b
  | .clsName, a, b => Prog.Le a b
  | .newArgs, a, b => OptLe a b

theorem den_le (S : Setup F) (h : R.Le Q) {n m : Nat} (hn : n ≤ m) (p : Nat) :
    ∀ {c : Cat} (t : Tm c), DenLe c (t.den S R n p) (t.den S Q m p) := by
  intro c t
  induction t with
  | chain _ _ _ ia ib => exact bind_le ia ib
  | noOp => exact fun v => .refl _
  | bin o _ b more ib im => exact fun v => bind_le ib fun w => bind_le (.refl _) im
  | and _ b more ib im =>
    refine fun v => bind_le (at_le S _ _ ?_) im
    cases v
    case bool c => cases c; exact .refl _; exact ib
    all_goals exact .refl _
  | or _ b more ib im =>
    refine fun v => bind_le (at_le S _ _ ?_) im
    cases v
    case bool c => cases c; exact ib; exact .refl _
    all_goals exact .refl _
  | int | float | string | char | recover | name | clsName | clsParen | inc | dec => exact Prog.Le.refl _
  | noAtom | endDoc => exact fun v => .refl _
  | member | noIndex => exact fun v => .refl _
  | post _ _ ia ib => exact bind_le ia ib
  | if_ _ c _ b _ es el ic ib ie il => exact at_le S _ _ (bind_le ic fun v => condition_le v ib (ie _ _ il))
  | switch _ on _ cs d rb io ic id =>
    refine at_le S _ _ ?_
    replace io : OptLe (on.den S R n p) (on.den S Q m p) := io
    generalize on.den S R n p = x at io ⊢
    generalize on.den S Q m p = y at io ⊢
    cases io with
    | none => exact bind_le (.refl _) fun v => ic v _ _ id
    | some h => exact bind_le h fun v => ic v _ _ id
  | for_ _ ps _ b rb ips ib =>
    refine at_le S _ _ ?_
    replace ips : ListLe (ps.den S R n p) (ps.den S Q m p) := ips
    generalize ps.den S R n p = x at ips ⊢
    generalize ps.den S Q m p = y at ips ⊢
    cases ips with
    | nil => exact rounds_le .none .none ib hn
    | cons h1 t1 => cases t1 with
      | nil => exact rounds_le (.some h1) .none ib hn
      | cons h2 t2 => cases t2 with
        | nil => exact .refl _
        | cons h3 t3 => cases t3 with
          | nil => exact bind_le h1 fun _ => rounds_le (.some h2) (.some h3) ib hn
          | cons _ _ => exact .refl _
  | new _ c as ic ia =>
    refine bind_le ic fun v => ?_
    replace ia : OptLe (as.den S R n p) (as.den S Q m p) := ia
    generalize as.den S R n p = x at ia ⊢
    generalize as.den S Q m p = y at ia ⊢
    cases ia with
    | none => exact bind_le (.refl _) fun args => at_le S _ _ (makeObject_le _ h _ _)
    | some h' => exact bind_le h' fun args => at_le S _ _ (makeObject_le _ h _ _)
  | class_ _ _ ms rb im => exact bind_le im fun _ => .refl _
  | main _ _ b rb => exact at_le S _ _ (runMain_le _ h _ _)
  | map _ ps _ rb ip => exact bind_le ip fun _ => .refl _
  | not _ e ie => exact bind_le ie fun _ => .refl _
  | neg _ e ie => exact bind_le ie fun _ => .refl _
  | pos _ e ie => exact ie
  | paren _ e _ ie => exact ie
  | fn _ f i =>
    replace i : f.den S R n p = f.den S Q m p := i
    refine at_le S _ _ (bind_le (.refl _) fun a => ?_)
    rw [i]
    exact .refl _
  | slice _ es _ rb ie => exact bind_le ie fun _ => .refl _
  | atom a more ia im => exact fun v => bind_le (ia v) im
  | call _ as s _ rp ia =>
    refine fun v => bind_le ia fun args => at_le S _ _ ?_
    cases s with
    | none => exact bind_le (.refl _) fun _ => callValue_le _ h _ _
    | some _ => exact bind_le (.refl _) fun _ => callValue_le _ h _ _
  | index _ i rb ii => exact fun v => bind_le ii fun _ => .refl _
  | range _ i _ j rb ii ij => exact fun v => bind_le (optVal_le ii) fun _ => bind_le (optVal_le ij) fun _ => .refl _
  | index2 _ i j rb ii ij => exact fun v => bind_le ii fun _ => bind_le ij fun _ => .refl _
  | noExpr => exact OptLe.none
  | expr e ie => exact OptLe.some ie
  | noArgs | lastArg | noPairs | lastPair | noDoc | noElse | noDefault | noMethod => exact Prog.Le.refl _
  | args e more ie im => exact bind_le ie fun _ => bind_le im fun _ => .refl _
  | moreArgs _ e more ie im => exact bind_le ie fun _ => bind_le im fun _ => .refl _
  | pairs k _ v more ik iv im => exact bind_le ik fun _ => bind_le iv fun _ => bind_le im fun _ => .refl _
  | morePairs _ k _ v more ik iv im => exact bind_le ik fun _ => bind_le iv fun _ => bind_le im fun _ => .refl _
  | assign _ _ e ie => exact bind_le ie fun _ => .refl _
  | multi _ _ _ _ _ e ie => exact bind_le ie fun _ => .refl _
  | opAssign _ _ _ e ie => exact bind_le ie fun _ => .refl _
  | return_ _ e ie => exact bind_le (optVal_le ie) fun _ => at_le S _ _ (returnFrom_le h _ _)
  | defer _ e => exact Prog.Le.refl _
  | eval e ie => exact ie
  | doc s more is im => exact bind_le is im
  | next _ s more is im => exact fun _ => bind_le is im
  | semi _ more im => exact fun _ => im _
  | someDoc d i => exact i
  | noElif => exact fun _ _ h => h
  | elif _ c _ b _ more ic ib im => exact fun e e' h => bind_le ic fun v => condition_le v ib (im _ _ h)
  | else_ _ _ b _ ib => exact ib
  | noCase => exact fun _ _ _ h => h
  | case _ e _ b more ie ib im =>
    refine fun v d d' hd => bind_le ie fun x => bind_le (.refl _) fun y => ?_
    cases y
    case bool c => cases c; exact im v _ _ hd; exact ib
    all_goals exact im v _ _ hd
  | default _ _ b ib => exact ib
  | noParts | lastPart => exact ListLe.nil
  | parts s more is im => exact ListLe.cons is im
  | moreParts _ s more is im => exact ListLe.cons is im
  | fnBody => rfl
  | method _ x f _ more i im =>
    replace i : f.den S R n p = f.den S Q m p := i
    refine bind_le (.refl _) fun _ => bind_le im fun ms => ?_
    rw [i]
    exact .refl _
  | noNewArgs => exact OptLe.none
  | newArgs _ as _ ia => exact OptLe.some ia

theorem runs_le (S : Setup F) : ∀ {n m : Nat}, n ≤ m → (runs S n).Le (runs S m)
  | 0, _, _ => ⟨fun _ _ => .never, fun _ _ => .never, .never⟩
  | n + 1, 0, h => absurd h (by omega)
  | n + 1, m + 1, h => by
    have ih := runs_le S (n := n) (m := m) (by omega)
    refine ⟨?_, ?_, .never⟩
    · intro ts p
      show Prog.Le (match S.doc ts with
        | some d => d.den S (runs S n) n p
        | none => fun _ => none) (match S.doc ts with
        | some d => d.den S (runs S m) m p
        | none => fun _ => none)
      cases S.doc ts with
      | none => exact .never
      | some d => exact den_le S ih (by omega) p d
    · intro ts p
      show Prog.Le (match S.expr ts with
        | some d => d.den S (runs S n) n p
        | none => fun _ => none) (match S.expr ts with
        | some d => d.den S (runs S m) m p
        | none => fun _ => none)
      cases S.expr ts with
      | none => exact .never
      | some d => exact den_le S ih (by omega) p d

theorem runs_or (S : Setup F) (j : Int) : ∀ n : Nat, (runs S n).Le (runsOr S j n)
  | 0 => ⟨fun _ _ => .never, fun _ _ => .never, .never⟩
  | n + 1 => by
    have ih := runs_or S j n
    refine ⟨?_, ?_, .never⟩
    · intro ts p
      show Prog.Le (match S.doc ts with
        | some d => d.den S (runs S n) n p
        | none => fun _ => none) (match S.doc ts with
        | some d => d.den S (runsOr S j n) n p
        | none => exit_ j)
      cases S.doc ts with
      | none => exact .never
      | some d => exact den_le S ih (Nat.le_refl _) p d
    · intro ts p
      show Prog.Le (match S.expr ts with
        | some d => d.den S (runs S n) n p
        | none => fun _ => none) (match S.expr ts with
        | some d => d.den S (runsOr S j n) n p
        | none => exit_ j)
      cases S.expr ts with
      | none => exact .never
      | some d => exact den_le S ih (Nat.le_refl _) p d

theorem doesOr_le (S : Setup F) (j : Int) (n : Nat) (d : Tm .doc) : (d.does S n).Le (d.doesOr S j n) :=
  den_le S (runs_or S j n) (Nat.le_refl _) 0 d

theorem does_le (S : Setup F) {n m : Nat} (h : n ≤ m) (d : Tm .doc) : (d.does S n).Le (d.does S m) :=
  den_le S (runs_le S h) h 0 d

end Tpl.Qlang.Src
