import Verif.Spec.QlangSem
import Verif.Proof.Halts
import Verif.Proof.QlangCall

/-!
The interpreter of qlang does what code on the world (Spec/QlangSem) says.

`l` is what lies on the stack below and is not touched, `pre` what lies on it.
-/
namespace Tpl.Qlang.Src
open Spec
variable {F α β γ δ : Type}

/-! ### Laws -/

instance : LawfulMonad (Prog F) := LawfulMonad.mk'
  (id_map := fun x => by
    funext w
    change Prog.andThen x (fun a => Prog.ret a) w = x w
    unfold Prog.andThen
    split <;> rename_i h <;> rw [h] <;> rfl)
  (pure_bind := fun a k => rfl)
  (bind_assoc := fun x k l => by
    funext w
    change Prog.andThen (Prog.andThen x k) l w = Prog.andThen x (fun a => Prog.andThen (k a) l) w
    simp only [Prog.andThen]
    cases x w with
    | none => rfl
    | some o => obtain ⟨_ | a, w'⟩ := o <;> rfl)

theorem bind_run (x : Prog F α) (k : α → Prog F β) (w : World F) : (x >>= k) w = match x w with
  | none => none
  | some (.ok a, w) => k a w
  | some (.error p, w) => some (.error p, w) := rfl

/-! ### States -/

/-- The part of an interpreter that is a frame. -/
def fr (c : Scope F) : Frame F := ⟨c.vars, c.ret, c.recov, c.parents, c.defers⟩

def world (q : QState F) : World F := ⟨fun i => fr (q.scopes i), q.nscopes, q.heap⟩

/-- The library of a host. -/
def Host.lib (H : Host F) : Lib F :=
  ⟨H.fl, H.unquote, H.unquoteChar, H.table, fun n => (H.fns n).map fun fn => ⟨fn.ins, fn.rest, fun vs => liftH (fn.body vs)⟩, H.member⟩

/-- How much fuel is counted, and the exit code that stands for "not known". -/
structure Bound where
  fuel : Nat
  code : Int

/-- Nothing is known: the program has met code that is not code of qlang. -/
def Lost (K : Bound) (o : Option (Except (QPanic F) β × World F)) : Prop := ∃ w', o = some (.error (.user (.other (.exit K.code))), w')

/-- The current function, and the bases of the functions below `N`. -/
structure Conf where
  p : Nat
  N : Nat
  B : Nat → Nat

/-- The state has this stack and this world. -/
structure Shows (N : Nat) (B : Nat → Nat) (l : List (QVal F)) (w : World F) (q : QState F) : Prop where
  stk : q.stk = l
  wld : world q = w
  base : ∀ i < N, (q.scopes i).base = B i
  count : N ≤ q.nscopes

/-- Code runs. -/
structure At (C : Conf) (l : List (QVal F)) (w : World F) (u : QEng F) : Prop where
  mute : u.mute = 0
  ipt : u.ipt = C.p
  sees : Shows C.N C.B l w u.u

/-- The state after a panic: what lies below is still there, and the base of the function is not
above the top. -/
structure Broken (N p : Nat) (B : Nat → Nat) (l : List (QVal F)) (w : World F) (q : QState F) : Prop where
  stk : l <+: q.stk
  wld : world q = w
  base : ∀ i < N, i ≠ p → (q.scopes i).base = B i
  count : N ≤ q.nscopes
  top : p < N → B p ≤ l.length → (q.scopes p).base ≤ q.stk.length

theorem Shows.broken {N p : Nat} {B : Nat → Nat} {l pre : List (QVal F)} {w : World F} {q : QState F} (h : Shows N B (l ++ pre) w q) :
    Broken N p B l w q := ⟨h.stk ▸ List.prefix_append _ _, h.wld, fun i hi _ => h.base i hi, h.count, fun hp hb => by
      rw [h.base p hp, h.stk, List.length_append]
      omega⟩

theorem Broken.less {N p : Nat} {B : Nat → Nat} {l pre : List (QVal F)} {w : World F} {q : QState F} (h : Broken N p B (l ++ pre) w q) :
    Broken N p B l w q := ⟨(List.prefix_append _ _).trans h.stk, h.wld, h.base, h.count, fun hp hb => h.top hp (by rw [List.length_append]; omega)⟩

/-- What holds after code that should do what `o` says. -/
def OkPost (C : Conf) (l : List (QVal F)) (o : Option (Except (QPanic F) β × World F)) (f : β → α × List (QVal F)) (a : α) (u : QEng F) : Prop :=
  ∃ b w', o = some (.ok b, w') ∧ a = (f b).1 ∧ At C (l ++ (f b).2) w' u
def ErrPost (C : Conf) (l : List (QVal F)) (o : Option (Except (QPanic F) β × World F)) (p : QPanic F) (u : QEng F) : Prop :=
  ∃ w', o = some (.error p, w') ∧ Broken C.N C.p C.B l w' u.u

section
variable (K : Bound) (H : Host F) (r : CompileRet Str) (U : Uni)

/-- Run with `pre` on the stack in the world `w`, the code does what `y` says; of the value `b`
it gives, `f b` is what is returned and left on the stack.  If `y` does not say how it ends, the
code does not end with fuel up to `K`. -/
def Does (C : Conf) (l pre : List (QVal F)) (x : QM F α) (y : Prog F β) (f : β → α × List (QVal F)) (w : World F) : Prop :=
  ∀ o, y w = o → Lost K o ∨ ∀ s, At C (l ++ pre) w s.u → Halts K.fuel r.env (client H.lib r U).sem x s (OkPost C l o f) (ErrPost C l o) (o = none)

/-- The same for the marks of a tree. -/
def Trace (C : Conf) (l pre : List (QVal F)) (es : List (Ev Str)) (y : Prog F β) (f : β → List (QVal F)) : Prop :=
  ∀ w o, y w = o → Lost K o ∨ ∀ u, At C (l ++ pre) w u →
    KRun K.fuel r.env (client H.lib r U).sem (fun _ => False) (ErrPost C l o) (o = none) es (· = u) (OkPost C l o (fun b => ((), f b)) ())
end

variable {K : Bound} {H : Host F} {r : CompileRet Str} {U : Uni} {C : Conf} {l pre post : List (QVal F)} {w : World F}

namespace Does

theorem bind {x : QM F α} {k : α → QM F γ} {y : Prog F β} {g : β → Prog F δ} {f : β → α × List (QVal F)} {f' : δ → γ × List (QVal F)}
    (h : Does K H r U C l pre x y f w)
    (hk : ∀ b w', y w = some (.ok b, w') → Does K H r U C l (f b).2 (k (f b).1) (g b) f' w') :
    Does K H r U C l pre (x >>= k) (y >>= g) f' w := by
  intro o ho
  rw [bind_run] at ho
  cases hy : y w with
  | none =>
    rw [hy] at ho
    obtain rfl : none = o := ho
    rcases h _ hy with ⟨w', h1⟩ | h
    · cases h1
    refine .inr fun s hs => ?_
    refine ((h s hs).mono (Q' := fun _ _ => False) ?_ ?_ fun _ => rfl).bind nofun
    · rintro a u ⟨b, w', h1, _⟩; cases h1
    · rintro p u ⟨w', h1, h2⟩; cases h1
  | some o1 =>
    rw [hy] at ho
    rcases h _ hy with ⟨w', h1⟩ | h
    · cases h1; cases ho; exact .inl ⟨_, rfl⟩
    obtain ⟨_ | b, w1⟩ := o1
    · cases ho
      refine .inr fun s hs => ?_
      refine ((h s hs).mono (Q' := fun _ _ => False) ?_ ?_ nofun).bind nofun
      · rintro a u ⟨b, w', h1, _⟩; cases h1
      · rintro p u ⟨w', h1, h2⟩; cases h1; exact ⟨_, rfl, h2⟩
    · rcases hk b w1 hy o ho with h1 | hk
      · exact .inl h1
      refine .inr fun s hs => ?_
      refine ((h s hs).mono (Q' := fun a u => a = (f b).1 ∧ At C (l ++ (f b).2) w1 u) ?_ ?_ nofun).bind ?_
      · rintro a u ⟨b', w', h1, h2, h3⟩; cases h1; exact ⟨h2, h3⟩
      · rintro p u ⟨w', h1, h2⟩; cases h1
      · rintro a s' ⟨rfl, h2⟩
        exact hk s' h2

theorem congr {x : QM F α} {y y' : Prog F β} {f : β → α × List (QVal F)} (h : Does K H r U C l pre x y f w) (hy : y' w = y w) :
    Does K H r U C l pre x y' f w := by
  intro o ho
  rw [hy] at ho
  exact h o ho

/-- The value in another form. -/
theorem map {x : QM F α} {y : Prog F β} {f : β → α × List (QVal F)} (h : Does K H r U C l pre x y f w) {g : β → δ} {f' : δ → α × List (QVal F)}
    (hf : ∀ b, f' (g b) = f b) : Does K H r U C l pre x (y >>= fun b => pure (g b)) f' w := by
  intro o ho
  rw [bind_run] at ho
  cases hy : y w with
  | none =>
    rw [hy] at ho
    obtain rfl : none = o := ho
    rcases h _ hy with ⟨w', h1⟩ | h
    · cases h1
    refine .inr fun s hs => ?_
    refine (h s hs).mono ?_ ?_ fun _ => rfl
    · rintro a u ⟨b, w', h1, _⟩; cases h1
    · rintro p u ⟨w', h1, h2⟩; cases h1
  | some o1 =>
    rw [hy] at ho
    rcases h _ hy with ⟨w', h1⟩ | h
    · cases h1; cases ho; exact .inl ⟨_, rfl⟩
    refine .inr fun s hs => (h s hs).mono ?_ ?_ nofun
    · rintro a u ⟨b, w', h1, h2, h3⟩
      cases h1
      cases ho
      exact ⟨g b, w', rfl, by rw [hf]; exact h2, by rw [hf]; exact h3⟩
    · rintro p u ⟨w', h1, h2⟩
      cases h1
      cases ho
      exact ⟨w', rfl, h2⟩

theorem ret {a : α} {b : β} {f : β → α × List (QVal F)} (h : f b = (a, pre)) : Does K H r U C l pre (pure a) (pure b) f w := by
  intro o ho
  cases ho
  refine .inr fun s hs => ?_
  exact .pure ⟨b, w, rfl, by rw [h], by rw [h]; exact hs⟩

theorem raise {p : QPanic F} {f : β → α × List (QVal F)} : Does K H r U C l pre (throwQ p) (raise p) f w := by
  intro o ho
  cases ho
  refine .inr fun s hs => ?_
  exact .panic ⟨w, rfl, hs.sees.broken⟩

theorem liftE {e : Except (QPanic F) α} {f : α → α × List (QVal F)} (hf : ∀ a, f a = (a, pre) := by intro _; rfl) :
    Does K H r U C l pre (liftE e) (ofE e) f w := by
  cases e with
  | ok a => exact ret (hf a)
  | error p => exact raise

/-- A step that the world does not see. -/
theorem skip {x : QM F α} {a : α} {k : α → QM F γ} {y : Prog F δ} {f : δ → γ × List (QVal F)}
    (hx : ∀ fu m (s : St (QEng F)), At C (l ++ pre) w s.u → ∃ s', x.run fu m s = some (.ok a s') ∧ At C (l ++ post) w s'.u)
    (h : Does K H r U C l post (k a) y f w) : Does K H r U C l pre (x >>= k) y f w := by
  intro o ho
  rcases h o ho with h1 | h
  · exact .inl h1
  refine .inr fun s hs => ?_
  obtain ⟨s', h1, h2⟩ := hx 0 (matchG r.env (client H.lib r U).sem 0) s hs
  exact .bind (Q0 := fun a' u => a' = a ∧ At C (l ++ post) w u) (.run h1 ⟨rfl, h2⟩) (by rintro _ s' ⟨rfl, h3⟩; exact h s' h3)

end Does

/-! ### The stack -/

theorem At.setStk {u : QEng F} {l' : List (QVal F)} (h : At C l w u) : At C l' w { u with u := { u.u with stk := l' } } :=
  ⟨h.mute, h.ipt, rfl, h.sees.wld, h.sees.base, h.sees.count⟩

namespace Does
variable {k : α → QM F γ} {y : Prog F δ} {f : δ → γ × List (QVal F)}

theorem push {v : QVal F} {b : β} {f : β → Unit × List (QVal F)} (h : f b = ((), pre ++ [v])) :
    Does K H r U C l pre (push v) (pure b) f w := by
  intro o ho
  cases ho
  refine .inr fun s hs => ?_
  refine .run (run_push v) ⟨b, w, rfl, by rw [h], ?_⟩
  rw [h]
  have := hs.setStk (l' := s.u.u.stk ++ [v])
  rw [hs.sees.stk, List.append_assoc] at this
  simp only [setQ, hs.sees.stk, List.append_assoc]
  exact this

theorem push_ {v : QVal F} {k : Unit → QM F γ} (h : Does K H r U C l (pre ++ [v]) (k ()) y f w) :
    Does K H r U C l pre (Qlang.push v >>= k) y f w := by
  refine skip (post := pre ++ [v]) ?_ h
  intro fu m s hs
  refine ⟨_, run_push v, ?_⟩
  have := hs.setStk (l' := l ++ (pre ++ [v]))
  simp only [setQ, hs.sees.stk, List.append_assoc]
  exact this

theorem pop {v : QVal F} {k : Option (QVal F) → QM F γ} (h : Does K H r U C l post (k (some v)) y f w) (hp : pre = post ++ [v] := by rfl) :
    Does K H r U C l pre (Qlang.pop >>= k) y f w := by
  refine skip (post := post) ?_ h
  intro fu m s hs
  refine ⟨_, run_pop_snoc (l := l ++ post) (v := v) (by rw [hs.sees.stk, hp, List.append_assoc]), ?_⟩
  exact hs.setStk

theorem pop_ {v : QVal F} {k : QVal F → QM F γ} (h : Does K H r U C l post (k v) y f w) (hp : pre = post ++ [v] := by rfl) :
    Does K H r U C l pre (Qlang.pop_ >>= k) y f w := by
  unfold Qlang.pop_
  rw [bind_assoc]
  refine pop ?_ hp
  exact h

theorem popArity {n : Int} {k : Int → QM F γ} (h : Does K H r U C l post (k n) y f w) (hp : pre = post ++ [.int n] := by rfl) :
    Does K H r U C l pre (Qlang.popArity >>= k) y f w := by
  unfold Qlang.popArity
  rw [bind_assoc]
  refine pop ?_ hp
  exact h

theorem popNArgs {n : Int} {vs : List (QVal F)} {k : List (QVal F) → QM F γ} (h : Does K H r U C l post (k vs) y f w)
    (hn : n = (vs.length : Int)) (hp : pre = post ++ vs := by rfl) : Does K H r U C l pre (Qlang.popNArgs n >>= k) y f w := by
  refine skip (post := post) (a := vs) ?_ h
  intro fu m s hs
  subst hn hp
  refine ⟨setQ s { s.u.u with stk := l ++ post }, ?_, hs.setStk⟩
  have hstk := hs.sees.stk
  unfold Qlang.popNArgs
  rw [Go.bind_ok run_getQ]
  dsimp only
  rw [if_neg (by omega), hstk, Int.toNat_natCast, if_pos (by simp; omega)]
  rw [Go.bind_ok (run_modQ _)]
  have h1 : (l ++ (post ++ vs)).length - vs.length = (l ++ post).length := by simp; omega
  rw [h1, ← List.append_assoc, List.take_left, List.drop_left]
  rfl

theorem popFnArgs {n : Int} {xs : List Str} {k : List Str → QM F γ} (h : Does K H r U C l post (k xs) y f w)
    (hn : n = (xs.length : Int)) (hp : pre = post ++ xs.map .str := by rfl) : Does K H r U C l pre (Qlang.popFnArgs n >>= k) y f w := by
  refine skip (post := post) (a := xs) ?_ h
  intro fu m s hs
  subst hn hp
  refine ⟨setQ s { s.u.u with stk := l ++ post }, ?_, hs.setStk⟩
  have hstk := hs.sees.stk
  unfold Qlang.popFnArgs
  rw [Go.bind_ok run_getQ]
  dsimp only
  rw [if_neg (by omega), hstk, Int.toNat_natCast, if_pos (by simp; omega)]
  have h1 : (l ++ (post ++ xs.map QVal.str)).length - xs.length = (l ++ post).length := by simp; omega
  rw [h1, ← List.append_assoc, List.take_left, List.drop_left]
  have h2 : ∀ xs : List Str, asNames (xs.map (QVal.str (F := F))) = some xs := by
    intro xs
    induction xs with
    | nil => rfl
    | cons x xs ih => rw [List.map_cons, asNames, ih]; rfl
  rw [h2]
  dsimp only
  rw [Go.bind_ok (run_modQ _)]
  rfl

theorem getQ {k : QState F → QM F γ} (h : ∀ q, Shows C.N C.B (l ++ pre) w q → Does K H r U C l pre (k q) y f w) :
    Does K H r U C l pre (Qlang.getQ >>= k) y f w := by
  intro o ho
  by_cases hl : Lost K o
  · exact .inl hl
  refine .inr fun s hs => ?_
  exact .bind (Q0 := fun q u => q = s.u.u ∧ u = s.u) (.run run_getQ ⟨rfl, rfl⟩) (by
    rintro _ s' ⟨rfl, h3⟩
    exact (h _ hs.sees o ho).resolve_left hl s' (h3 ▸ hs))

theorem ipt {k : Nat → QM F γ} (h : Does K H r U C l pre (k C.p) y f w) :
    Does K H r U C l pre (Go.get >>= fun s => k s.ipt) y f w := by
  intro o ho
  rcases h o ho with h1 | h
  · exact .inl h1
  refine .inr fun s hs => .get ?_
  rw [hs.ipt]
  exact h s hs

/-! ### The world -/

/-- A change of one function. -/
theorem modScope {p : Nat} {g : Scope F → Scope F} {g' : Frame F → Frame F} {f : Unit → Unit × List (QVal F)}
    (hg : ∀ c, fr (g c) = g' (fr c)) (hb : ∀ c, (g c).base = c.base) (hf : f () = ((), pre) := by rfl) :
    Does K H r U C l pre (Qlang.modScope p g) (change p g') f w := by
  intro o ho
  cases ho
  refine .inr fun s hs => ?_
  refine .run (run_modQ _) ⟨(), _, rfl, by rw [hf], ?_⟩
  rw [hf]
  refine ⟨hs.mute, hs.ipt, hs.sees.stk, ?_, ?_, hs.sees.count⟩
  · rw [← hs.sees.wld]
    simp only [setQ, world, QState.modScope, QState.setScope, World.change]
    congr 1
    funext i
    by_cases h : i = p
    · rw [if_pos h, if_pos h, hg]
    · rw [if_neg h, if_neg h]
  · intro i hi
    change ((s.u.u.modScope p g).scopes i).base = _
    rw [scopes_mod, ← hs.sees.base i hi]
    by_cases h : i = p
    · rw [if_pos h, hb, h]
    · rw [if_neg h]

theorem liftH {x : HM F α} {f : α → α × List (QVal F)} (hf : ∀ a, f a = (a, pre) := by intro _; rfl) :
    Does K H r U C l pre (liftH x) (onHeap x) f w := by
  intro o ho
  cases ho
  refine .inr fun s hs => ?_
  have hh : w.heap = s.u.u.heap := by rw [← hs.sees.wld]; rfl
  have hw : world { s.u.u with heap := (x w.heap).2 } = { w with heap := (x w.heap).2 } := by rw [← hs.sees.wld]; rfl
  cases hx : (x w.heap).1 with
  | ok a =>
    refine .run (run_liftH (a := a) (h' := (x w.heap).2) (by rw [← hh, ← hx])) ⟨a, _, by rw [onHeap, hx], by rw [hf], ?_⟩
    rw [hf]
    exact ⟨hs.mute, hs.ipt, hs.sees.stk, hw, hs.sees.base, hs.sees.count⟩
  | error p =>
    refine .ends ⟨.panic p (setQ s { s.u.u with heap := (x w.heap).2 }), 0, ?_, _, by rw [onHeap, hx], ?_⟩
    · unfold Qlang.liftH
      rw [Go.bind_ok run_getQ]
      dsimp only
      rw [Go.bind_ok (run_modQ _), ← hh, hx]
      rfl
    · exact Shows.broken (pre := pre) ⟨hs.sees.stk, hw, hs.sees.base, hs.sees.count⟩

end Does

/-! ### Marks one after the other -/

namespace Trace

theorem nil {b : β} {f : β → List (QVal F)} (h : f b = pre) : Trace K H r U C l pre [] (pure b) f := by
  intro w o ho
  cases ho
  refine .inr fun u hu => ?_
  rintro _ rfl
  exact ⟨b, w, rfl, rfl, by dsimp only; rw [h]; exact hu⟩

theorem bind {es es' : List (Ev Str)} {y : Prog F β} {g : β → Prog F δ} {f : β → List (QVal F)} {f' : δ → List (QVal F)}
    (h : Trace K H r U C l pre es y f) (hk : ∀ b, (∃ w w', y w = some (.ok b, w')) → Trace K H r U C l (f b) es' (g b) f') :
    Trace K H r U C l pre (es ++ es') (y >>= g) f' := by
  intro w o ho
  rw [bind_run] at ho
  cases hy : y w with
  | none =>
    rw [hy] at ho
    obtain rfl : none = o := ho
    rcases h w _ hy with ⟨w', h1⟩ | h
    · cases h1
    refine .inr fun u hu => ?_
    refine KRun.append ((h u hu).panics ?_ fun _ => rfl) (KRun.each ?_)
    · rintro p u ⟨w', h1, h2⟩; cases h1
    · rintro u1 ⟨b, w1, h1, _, h3⟩; cases h1
  | some o1 =>
    rw [hy] at ho
    rcases h w _ hy with ⟨w', h1⟩ | h
    · cases h1; cases ho; exact .inl ⟨_, rfl⟩
    by_cases hl : Lost K o
    · exact .inl hl
    refine .inr fun u hu => ?_
    refine KRun.append ((h u hu).panics ?_ nofun) (KRun.each ?_)
    · rintro p u ⟨w', h1, h2⟩
      cases h1
      cases ho
      exact ⟨w', rfl, h2⟩
    · rintro u1 ⟨b, w1, h1, _, h3⟩
      cases h1
      exact (hk b ⟨w, w1, hy⟩ w1 o ho).resolve_left hl u1 h3

theorem congr {es : List (Ev Str)} {y y' : Prog F β} {f : β → List (QVal F)} (h : Trace K H r U C l pre es y f) (hy : y' = y) :
    Trace K H r U C l pre es y' f := hy ▸ h

theorem map {es : List (Ev Str)} {y : Prog F β} {f : β → List (QVal F)} (h : Trace K H r U C l pre es y f) {g : β → δ} {f' : δ → List (QVal F)}
    (hf : ∀ b, f' (g b) = f b) : Trace K H r U C l pre es (y >>= fun b => pure (g b)) f' := by
  have := h.bind (es' := []) (g := fun b => pure (g b)) (f' := f') fun b _ => nil (hf b)
  rwa [List.append_nil] at this

/-- More on the stack below. -/
theorem under {es : List (Ev Str)} {y : Prog F β} {f : β → List (QVal F)} {m : List (QVal F)} (h : Trace K H r U C (l ++ m) pre es y f) :
    Trace K H r U C l (m ++ pre) es y (fun b => m ++ f b) := by
  intro w o ho
  rcases h w o ho with h1 | h
  · exact .inl h1
  refine .inr fun u hu => ?_
  refine ((h u (by rw [List.append_assoc]; exact hu)).panics ?_ id).after ?_
  · rintro p u ⟨w', h1, h2⟩
    exact ⟨w', h1, h2.less⟩
  · rintro u ⟨b, w', h1, h2, h3⟩
    exact ⟨b, w', h1, h2, by rw [← List.append_assoc]; exact h3⟩

theorem below {es : List (Ev Str)} {y : Prog F β} {f : β → List (QVal F)} (h : Trace K H r U C (l ++ pre) [] es y f) :
    Trace K H r U C l pre es y (fun b => pre ++ f b) := by
  have := h.under
  rwa [List.append_nil] at this

/-- Marks that the world does not see. -/
theorem silent {es : List (Ev Str)} {b : β} {f : β → List (QVal F)} (h : ∀ w u, At C (l ++ pre) w u → ∃ u', At C (l ++ f b) w u' ∧
    ∀ E, HRun r.env (client H.lib r U).sem (fun _ => False) E es (· = u) (· = u')) : Trace K H r U C l pre es (pure b) f := by
  intro w o ho
  cases ho
  refine .inr fun u hu => ?_
  obtain ⟨u', h1, h2⟩ := h w u hu
  exact (h2 _).ends.after (by rintro _ rfl; exact ⟨b, w, rfl, rfl, h1⟩)

end Trace
end Tpl.Qlang.Src
