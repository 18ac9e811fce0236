import Verif.Proof.QlangCall
import Verif.Spec.QlangGrammar
import Verif.Proof.CalcGrammar
import Verif.Props.Scanner

/-
Properties of the interpreter of qlang (C66-C71).
-/
namespace Tpl.Props
open Tpl Tpl.Spec Tpl.Qlang
variable {F : Type}

/-! ### C66: reading gives the last assignment -/

/-- Reading `x` in function `p` puts `v` on the stack. -/
def Reads (L : Lib F) (q : QState F) (p : Nat) (x : Str) (v : QVal F) : Prop :=
  ∀ (f : Nat) (m : Mat Str (QEng F) (IPanic QErr (QX (QVal F)))) (s : St (QEng F)), s.u.u = q →
    ∃ s', ((VarOp.read p x).code L).run f m s = some (.ok () s') ∧ s'.u.u.stk = q.stk ++ [v]

theorem Reads.unique {L : Lib F} {q : QState F} {p : Nat} {x : Str} {v w : QVal F} (h : Reads L q p x v) (h' : Reads L q p x w) : v = w := by
  obtain ⟨s1, h1, h2⟩ := h 0 (fun _ _ _ => none) ⟨fun _ => 0, ⟨0, 0, KwScanner.zero, q⟩⟩ rfl
  obtain ⟨s2, h3, h4⟩ := h' 0 (fun _ _ _ => none) ⟨fun _ => 0, ⟨0, 0, KwScanner.zero, q⟩⟩ rfl
  rw [h1] at h3
  cases h3
  rw [h2] at h4
  simpa using h4

theorem reads_bound {L : Lib F} {q : QState F} {p t : Nat} {x : Str} {v : QVal F} (hx : x ≠ str "unset") (hb : Bound q x p t) (ho : Own q x t v) :
    Reads L q p x v := by
  rintro f m s rfl
  refine ⟨setQ s { s.u.u with stk := s.u.u.stk ++ [v] }, ?_, rfl⟩
  show (ref L p x).run f m s = _
  unfold ref
  rw [Go.bind_ok (run_getRef_bound hx hb ho), run_push]

theorem reads_link {L : Lib F} {q : QState F} {p e : Nat} {x : Str} {v : QVal F} (hx : x ≠ str "unset")
    (h : (q.scopes p).vars x = some (.extern e)) (hv : (q.scopes e).val x = v) : Reads L q p x v := by
  rintro f m s rfl
  refine ⟨setQ s { s.u.u with stk := s.u.u.stk ++ [v] }, ?_, rfl⟩
  show (ref L p x).run f m s = _
  have hr : (getRef L p x).run f m s = some (.ok v s) := by
    unfold getRef
    dsimp only
    rw [if_neg hx, Go.bind_ok run_getQ, h]
    dsimp only
    rw [hv]
    rfl
  unfold ref
  rw [Go.bind_ok hr, run_push]

/-- After an assignment the name stands for a variable with that value. -/
theorem assign_ok {L : Lib F} {f m} {s s1 : St (QEng F)} {p : Nat} {x : Str} {v : QVal F} (hs : Sound s.u.u) (hv : Plain v)
    (h : ((VarOp.assign p x v).code L).run f m s = some (.ok () s1)) :
    ∃ t, Bound s1.u.u x p t ∧ Own s1.u.u x t v ∧ (Bound s.u.u x p t ∨ t = p ∧ (s.u.u.scopes p).vars x = none) ∧
      s1.u.u = { s.u.u.modScope t (fun c => c.put x v) with stk := s.u.u.stk ++ [v] } := by
  have hk := keeps_op L (.assign p x v) hs hv h
  change (do push v; Qlang.assign p x : QM F Unit).run f m s = _ at h
  rw [Go.bind_ok (run_push v)] at h
  unfold Qlang.assign at h
  generalize hs1 : setQ s { s.u.u with stk := s.u.u.stk ++ [v] } = s2 at h
  have hv1 : ∀ i y, (s2.u.u.scopes i).vars y = (s.u.u.scopes i).vars y := by rw [← hs1]; intro i y; rfl
  have hs1' := sound_same hs hv1
  have hst : s2.u.u.stk = s.u.u.stk ++ [v] := by rw [← hs1]; rfl
  rcases run_getVars' (f := f) (m := m) hs1' p x with ⟨t, hb, hr⟩ | ⟨e, hr⟩
  · rw [Go.bind_ok hr, Go.bind_ok (run_pop_snoc hst)] at h
    dsimp only at h
    rw [Go.bind_ok (run_setVar t x v), run_push] at h
    cases h
    have hb' : Bound s.u.u x p t ∨ t = p ∧ (s.u.u.scopes p).vars x = none := by
      rcases hb with hb | ⟨h1, h2⟩
      · exact .inl (bound_congr (fun i y => (hv1 i y).symm) hb)
      · exact .inr ⟨h1, (hv1 _ _).symm.trans h2⟩
    have ho : Own (setQ s2 (({ s2.u.u with stk := s.u.u.stk } : QState F).modScope t fun c => c.put x v)).u.u x t v :=
      ⟨by simp [setQ_q, vars_put], hv⟩
    refine ⟨t, ?_, ho, hb', ?_⟩
    · rcases hb' with hb' | ⟨rfl, _⟩
      · exact hk.bound _ _ _ hb'
      · exact .own ho
    · rw [← hs1]; rfl
  · rw [Go.bind_panic hr] at h
    cases h

/-- Along a history that does not write to it a variable keeps its value. -/
theorem keeps_steps {L : Lib F} {ops : List (VarOp F)} {q q' : QState F} (h : VarSteps L ops q q') (hs : Sound q) :
    Sound q' ∧ (∀ x p t, Bound q x p t → Bound q' x p t) ∧
    ∀ x t v, Own q x t v → (∀ op ∈ ops, ∀ r, op.Writes r x → ¬ Bound q' x r t) → Own q' x t v := by
  induction h with
  | nil => exact ⟨hs, fun _ _ _ h => h, fun _ _ _ h _ => h⟩
  | @cons op ops s s' s'' hg hst _ ih =>
    have k := keeps_step L op hs hg hst
    obtain ⟨i1, i2, i3⟩ := ih k.sound
    refine ⟨i1, fun x p t hb => i2 _ _ _ (k.bound _ _ _ hb), ?_⟩
    intro x t v ho hn
    rcases k.own x t v ho with ⟨r, hw, hb⟩ | ho
    · exact absurd (i2 _ _ _ hb) (hn op (List.mem_cons_self ..) r hw)
    · exact i3 x t v ho fun op hop => hn op (List.mem_cons_of_mem _ hop)

/-- After `x = v` in function `p`, whatever happens to variables in `p` and other functions,
reading `x` in `p` gives `v` if nothing assigned that variable: no assignment to that name in
a function where it stands for the same variable. -/
theorem C66_last_partial {L : Lib F} {f m} {s s1 : St (QEng F)} {p : Nat} {x : Str} {v : QVal F} {ops : List (VarOp F)} {q : QState F}
    (hx : x ≠ str "unset") (hs : Sound s.u.u) (hv : Plain v)
    (h : ((VarOp.assign p x v).code L).run f m s = some (.ok () s1)) (hh : VarSteps L ops s1.u.u q)
    (hn : ∀ op ∈ ops, ∀ r, op.Writes r x → ∀ t, Bound q x p t → ¬ Bound q x r t) : Reads L q p x v := by
  obtain ⟨t, hb, ho, _, _⟩ := assign_ok hs hv h
  obtain ⟨_, h2, h3⟩ := keeps_steps hh (keeps_op L (.assign p x v) hs hv h).sound
  exact reads_bound hx (h2 _ _ _ hb) (h3 x t v ho fun op hop r hw => hn op hop r hw t (h2 _ _ _ hb))

/-- In particular assignments to other names do not matter. -/
theorem C66_other_names_partial {L : Lib F} {f m} {s s1 : St (QEng F)} {p : Nat} {x : Str} {v : QVal F} {ops : List (VarOp F)} {q : QState F}
    (hx : x ≠ str "unset") (hs : Sound s.u.u) (hv : Plain v)
    (h : ((VarOp.assign p x v).code L).run f m s = some (.ok () s1)) (hh : VarSteps L ops s1.u.u q)
    (hn : ∀ op ∈ ops, ∀ r, ¬ op.Writes r x) : Reads L q p x v :=
  C66_last_partial hx hs hv h hh fun op hop r hw => absurd hw (hn op hop r)

/-- A sequence of assignments in one function, each successful. -/
inductive Assigned (L : Lib F) (p : Nat) : List (Str × QVal F) → St (QEng F) → St (QEng F) → Prop
  | nil s : Assigned L p [] s s
  | cons {x v as s s' s''} {f m} : Plain v → ((VarOp.assign p x v).code L).run f m s = some (.ok () s') → Assigned L p as s' s'' →
    Assigned L p ((x, v) :: as) s s''

theorem assigned_steps {L : Lib F} {p : Nat} {as : List (Str × QVal F)} {s s' : St (QEng F)} (h : Assigned L p as s s') :
    VarSteps L (as.map fun a => .assign p a.1 a.2) s.u.u s'.u.u := by
  induction h with
  | nil => exact .nil _
  | cons hv h _ ih => exact .cons hv (.ok h) ih

/-- Then every name has the value of its last assignment. -/
theorem C66_sequence_partial {L : Lib F} {p : Nat} {as : List (Str × QVal F)} {s s' : St (QEng F)} (hs : Sound s.u.u) (h : Assigned L p as s s')
    {x : Str} {v : QVal F} (hx : x ≠ str "unset") (hl : lastOf x as = some v) : Reads L s'.u.u p x v := by
  induction h with
  | nil => cases hl
  | @cons y w as s s1 s2 f m hw ha hrest ih =>
    have hs1 := (keeps_op L (.assign p y w) hs hw ha).sound
    rw [lastOf] at hl
    cases hr : lastOf x as with
    | some u =>
      rw [hr] at hl ih
      cases hl
      exact ih hs1 rfl
    | none =>
      rw [hr] at hl
      dsimp only at hl
      split at hl
      · rename_i hyx
        cases hl
        subst hyx
        refine C66_other_names_partial hx hs hw ha (assigned_steps hrest) ?_
        intro op hop r hwr
        obtain ⟨a, hm, rfl⟩ := List.mem_map.mp hop
        obtain ⟨_, rfl⟩ := hwr
        clear ih hrest ha
        induction as with
        | nil => cases hm
        | cons b bs ih =>
          obtain ⟨k, u⟩ := b
          rw [lastOf] at hr
          cases hb : lastOf a.1 bs with
          | some _ => rw [hb] at hr; cases hr
          | none =>
            rw [hb] at hr
            dsimp only at hr
            split at hr
            · cases hr
            · rename_i hk
              rcases List.mem_cons.mp hm with rfl | hm
              · exact hk rfl
              · exact ih hm (List.mem_map_of_mem hm) hb
      · cases hl

/-- The names of the interpreter of the examples. -/
def fl0 : Fl Unit := ⟨⟨fun _ => (), fun _ => ()⟩, id, fun _ _ => (), fun _ _ => (), fun _ _ => (), fun _ _ => (),
  fun _ _ => false, fun _ _ => false, fun _ _ => false, fun _ => 0, fun _ => 0, fun _ n => n, fun _ _ => false⟩
def lib0 : Lib Unit := ⟨fl0, some, fun _ => none, fun _ => none, fun _ => none, fun _ _ _ => .ok .nil⟩
def stOf (q : QState F) : St (QEng F) := ⟨fun _ => 0, ⟨0, 0, KwScanner.zero, q⟩⟩
def mat0 : Mat Str (QEng F) (IPanic QErr (QX (QVal F))) := fun _ _ _ => none

/-- The new interpreter shares nothing. -/
theorem sound_new : Sound (QState.new : QState F) := nofun

/-- `x = 1; y = 2; x = 3` -/
example : ∃ s', Assigned lib0 0 [(str "x", .int 1), (str "y", .int 2), (str "x", .int 3)] (stOf QState.new) s' ∧
    lastOf (str "x") [(str "x", .int 1), (str "y", .int 2), (str "x", .int 3)] = some (.int 3 : QVal Unit) :=
  ⟨_, .cons (f := 0) (m := mat0) nofun rfl (.cons (f := 0) (m := mat0) nofun rfl (.cons (f := 0) (m := mat0) nofun rfl (.nil _))), rfl⟩

/-- A variable can be given the name `unset`, but reading gives the function: the hypothesis
on the name cannot be left out. -/
theorem C66_violated : ∃ s1, ((VarOp.assign 0 (str "unset") (.int 1)).code lib0).run 0 mat0 (stOf QState.new) = some (.ok () s1) ∧
    Reads lib0 s1.u.u 0 (str "unset") (.unset 0) ∧ ¬ Reads lib0 s1.u.u 0 (str "unset") (.int 1) := by
  have key : Reads lib0 ({ (QState.new : QState Unit).modScope 0 (fun c => c.put (str "unset") (.int 1)) with stk := [.int 1] }) 0 (str "unset") (.unset 0) := by
    rintro f m s hs
    refine ⟨_, rfl, ?_⟩
    rw [← hs]
  refine ⟨_, rfl, key, fun h => ?_⟩
  cases key.unique h

/-! ### C67: shared variables -/

/-- Reading a name that stands for nothing here and for a variable in an enclosing function
gives the value of that variable (of the nearest one), and the name stands for it from then
on. -/
theorem C67_reads {L : Lib F} {f m} {s : St (QEng F)} {p t : Nat} {x : Str} (hx : x ≠ str "unset") (hs : Sound s.u.u)
    (hn : (s.u.u.scopes p).vars x = none) (hi : Inherits x) (hne : Nearest s.u.u x (s.u.u.scopes p).parents t) :
    ∃ t' v s', Bound s.u.u x t t' ∧ Own s.u.u x t' v ∧ ((VarOp.read p x).code L).run f m s = some (.ok () s') ∧
      s'.u.u.stk = s.u.u.stk ++ [v] ∧ Bound s'.u.u x p t' ∧ Own s'.u.u x t' v := by
  have hsome : (s.u.u.scopes t).vars x ≠ none := by
    clear hn
    generalize (s.u.u.scopes p).parents = ps at hne
    induction hne with
    | here h => exact h
    | there _ _ ih => exact ih
  obtain ⟨w, hw⟩ := Option.ne_none_iff_exists'.mp hsome
  obtain ⟨t', hb⟩ := sound_bound hs hw
  obtain ⟨v, ho⟩ := bound_own hb
  have hpt : ∀ {v'}, Own s.u.u x t' v' → ¬ t' = p := by
    rintro v' ho' rfl
    have := ho'.1.symm.trans hn
    cases this
  have hget : (getRef L p x).run f m s = some (.ok v (setQ s (s.u.u.modScope p fun c => c.put x (.extern t')))) := by
    unfold getRef
    dsimp only
    rw [if_neg hx, Go.bind_ok run_getQ, hn]
    dsimp only
    rw [inherits_iff.mp hi]
    dsimp only
    rw [nearest_iff.mpr hne]
    dsimp only
    cases hb with
    | own ho' =>
      rw [own_val ho]
      have hpl := ho.2
      cases v <;> first | rfl | exact absurd rfl (hpl _)
    | shared he ho' =>
      rw [show (s.u.u.scopes t).val x = .extern t' by rw [Scope.val, he]; rfl]
      dsimp only
      rw [own_val ho]
      rfl
  have ho2 : Own (setQ s { (s.u.u.modScope p fun c => c.put x (.extern t')) with stk := s.u.u.stk ++ [v] }).u.u x t' v := by
    refine ⟨?_, ho.2⟩
    show ((s.u.u.modScope p fun c => c.put x (.extern t')).scopes t').vars x = _
    rw [vars_put, if_neg (fun h => hpt ho h.1)]
    exact ho.1
  refine ⟨t', v, _, hb, ho, ?_, rfl, .shared ?_ ho2, ho2⟩
  · show (ref L p x).run f m s = _
    unfold ref
    rw [Go.bind_ok hget, run_push]
    rfl
  · show ((s.u.u.modScope p fun c => c.put x (.extern t')).scopes p).vars x = _
    rw [vars_put, if_pos ⟨rfl, rfl⟩]

/-- An assignment to a name that stands for a variable of function `t` never fails and
changes that variable; every function where the name stands for it reads the new value. -/
theorem C67_assigns {L : Lib F} {f m} {s : St (QEng F)} {p t : Nat} {x : Str} {v : QVal F} (hs : Sound s.u.u) (hv : Plain v)
    (hb : Bound s.u.u x p t) : ∃ s', ((VarOp.assign p x v).code L).run f m s = some (.ok () s') ∧ Own s'.u.u x t v ∧
      (x ≠ str "unset" → ∀ r, Bound s.u.u x r t → Reads L s'.u.u r x v) ∧
      ∀ t' y w, (t', y) ≠ (t, x) → Own s.u.u y t' w → Own s'.u.u y t' w := by
  have h : ∃ s', ((VarOp.assign p x v).code L).run f m s = some (.ok () s') := by
    change ∃ s', (do push v; Qlang.assign p x : QM F Unit).run f m s = some (.ok () s')
    rw [Go.bind_ok (run_push v)]
    unfold Qlang.assign
    have hb' : Bound (setQ s { s.u.u with stk := s.u.u.stk ++ [v] }).u.u x p t :=
      bound_congr (q := s.u.u) (q' := (setQ s { s.u.u with stk := s.u.u.stk ++ [v] }).u.u) (fun _ _ => rfl) hb
    rw [Go.bind_ok (run_getVars_bound hb'), Go.bind_ok (run_pop_snoc rfl)]
    dsimp only
    rw [Go.bind_ok (run_setVar t x v), run_push]
    exact ⟨_, rfl⟩
  obtain ⟨s', h⟩ := h
  obtain ⟨t1, h1, ho, h3, h4⟩ := assign_ok hs hv h
  have ht : t1 = t := by
    rcases h3 with h3 | ⟨_, h3⟩
    · exact bound_unique h3 hb
    · cases hb with
      | own ho => exact absurd (ho.1.symm.trans h3) nofun
      | shared he _ => exact absurd (he.symm.trans h3) nofun
  subst ht
  have k := keeps_op L (.assign p x v) hs hv h
  refine ⟨s', h, ho, fun hx r hr => reads_bound hx (k.bound _ _ _ hr) ho, ?_⟩
  intro t' y w hne hw
  refine ⟨?_, hw.2⟩
  rw [h4]
  show ((s.u.u.modScope t1 fun c => c.put x v).scopes t').vars y = _
  rw [vars_put, if_neg]
  · exact hw.1
  · rintro ⟨rfl, rfl⟩; exact hne rfl

/-- Assigning a name that stands for nothing here but for something in an enclosing function
panics and changes no variable. -/
theorem C67_refused {L : Lib F} {f m} {s : St (QEng F)} {p t : Nat} {x : Str} {v : QVal F}
    (hn : (s.u.u.scopes p).vars x = none) (hi : Inherits x) (hne : Nearest s.u.u x (s.u.u.scopes p).parents t) :
    ∃ s', ((VarOp.assign p x v).code L).run f m s = some (.panic (failMsg (str "variable exists in extern function: " ++ x)) s') ∧
      s'.u.u.scopes = s.u.u.scopes := by
  refine ⟨setQ s { s.u.u with stk := s.u.u.stk ++ [v] }, ?_, rfl⟩
  change (do push v; Qlang.assign p x : QM F Unit).run f m s = _
  rw [Go.bind_ok (run_push v)]
  unfold Qlang.assign
  refine Go.bind_panic ?_
  unfold getVars
  rw [Go.bind_ok run_getQ]
  show (match (s.u.u.scopes p).vars x with
    | some (.extern e) => pure e
    | some _ => pure p
    | none => _ : QM F Nat).run f m _ = _
  rw [hn]
  dsimp only
  rw [inherits_iff.mp hi]
  dsimp only
  rw [show (setQ s { s.u.u with stk := s.u.u.stk ++ [v] }).u.u.owner x ((setQ s { s.u.u with stk := s.u.u.stk ++ [v] }).u.u.scopes p).parents = some t
    from (nearest_iff (q := s.u.u)).mpr hne]
  rfl

/-- Through any history of reading, assigning and calling, a name that stands for a variable
keeps standing for it. -/
theorem C67_stable {L : Lib F} {ops : List (VarOp F)} {q q' : QState F} {x : Str} {p t : Nat} (hs : Sound q) (h : VarSteps L ops q q')
    (hb : Bound q x p t) : Bound q' x p t := (keeps_steps h hs).2.1 x p t hb

/-- So after `p` has read a variable of another function, whatever happened since, an
assignment in `p` changes that variable, and `t` reads the value. -/
theorem C67_history_partial {L : Lib F} {f m} {ops : List (VarOp F)} {q : QState F} {s : St (QEng F)} {x : Str} {p t : Nat} {v : QVal F}
    (hx : x ≠ str "unset") (hs : Sound q) (hv : Plain v) (hb : Bound q x p t) (ht : Bound q x t t) (h : VarSteps L ops q s.u.u) :
    ∃ s', ((VarOp.assign p x v).code L).run f m s = some (.ok () s') ∧ Reads L s'.u.u t x v ∧ Reads L s'.u.u p x v := by
  obtain ⟨h1, h2, _⟩ := keeps_steps h hs
  obtain ⟨s', a, _, c, _⟩ := C67_assigns (L := L) (f := f) (m := m) h1 hv (h2 _ _ _ hb)
  exact ⟨s', a, c hx _ (h2 _ _ _ ht), c hx _ (h2 _ _ _ hb)⟩

/-- A name with `_` at the front is never shared: through any history it stands for
variables of the function itself. -/
theorem C67_private {L : Lib F} {ops : List (VarOp F)} {q q' : QState F} {rest : Str} (hs : Sound q) (h : VarSteps L ops q q')
    (h0 : ∀ p t, Bound q (95 :: rest) p t → t = p) : ∀ p t, Bound q' (95 :: rest) p t → t = p := by
  have hni : ¬ Inherits (95 :: rest) := by
    rintro ⟨c, r, hc, hne⟩
    cases hc
    exact hne rfl
  induction h with
  | nil => exact h0
  | @cons op ops s s' s'' hg hst _ ih =>
    have k := keeps_step L op hs hg hst
    refine ih k.sound ?_
    intro p t hb
    cases hb with
    | own _ => rfl
    | shared he _ =>
      rcases k.links _ _ _ he with he | hi
      · obtain ⟨v, ho⟩ := hs _ _ _ he
        exact h0 p t (.shared he ho)
      · exact absurd hi hni

/-- Neither does it matter whether enclosing functions have such a variable: assigning
makes a new one. -/
theorem C67_private_assign {L : Lib F} {f m} {s : St (QEng F)} {p : Nat} {rest : Str} {v : QVal F} (hv : Plain v)
    (hn : (s.u.u.scopes p).vars (95 :: rest) = none) :
    ∃ s', ((VarOp.assign p (95 :: rest) v).code L).run f m s = some (.ok () s') ∧ Own s'.u.u (95 :: rest) p v ∧
      ∀ i, i ≠ p → s'.u.u.scopes i = s.u.u.scopes i := by
  refine ⟨setQ s { s.u.u.modScope p (fun c => c.put (95 :: rest) v) with stk := s.u.u.stk ++ [v] }, ?_, ⟨?_, hv⟩, ?_⟩
  · change (do push v; Qlang.assign p (95 :: rest) : QM F Unit).run f m s = _
    rw [Go.bind_ok (run_push v)]
    unfold Qlang.assign
    have hr : (getVars p (95 :: rest)).run f m (setQ s { s.u.u with stk := s.u.u.stk ++ [v] }) =
        some (.ok p (setQ s { s.u.u with stk := s.u.u.stk ++ [v] })) := by
      unfold getVars
      rw [Go.bind_ok run_getQ]
      show (match (s.u.u.scopes p).vars (95 :: rest) with
        | some (.extern e) => pure e
        | some _ => pure p
        | none => _ : QM F Nat).run f m _ = _
      rw [hn]
      rfl
    rw [Go.bind_ok hr, Go.bind_ok (run_pop_snoc rfl)]
    dsimp only
    rw [Go.bind_ok (run_setVar p _ v), run_push]
    rfl
  · show ((s.u.u.modScope p fun c => c.put (95 :: rest) v).scopes p).vars _ = _
    rw [vars_put, if_pos ⟨rfl, rfl⟩]
  · intro i hi
    show (s.u.u.modScope p fun c => c.put (95 :: rest) v).scopes i = _
    rw [scopes_mod, if_neg hi]

/-- The function at 0 has `x = 1`; it calls a function at 1, which calls one at 2. -/
def nested : QState Unit where
  stk := []
  scopes i := ⟨fun y => if i = 0 ∧ y = str "x" then some (.int 1) else none, .nil, none, (List.range i).reverse, [], 0⟩
  nscopes := 3
  heap := Heap.empty

theorem nested_plain {p : Nat} {x : Str} {e : Nat} : (nested.scopes p).vars x ≠ some (.extern e) := by
  show (if p = 0 ∧ x = str "x" then some (.int 1) else none : Option (QVal Unit)) ≠ _
  split <;> nofun

example : Sound nested ∧ (nested.scopes 2).vars (str "x") = none ∧ Inherits (str "x") ∧
    Nearest nested (str "x") (nested.scopes 2).parents 0 :=
  ⟨fun _ _ _ h => absurd h nested_plain, rfl, ⟨120, [], rfl, by decide⟩, .there rfl (.here (by intro h; cases h))⟩

/-- Function 2 reads `x`, 1 reads it, 2 increments it, 0 assigns 7. -/
example : ∃ q, VarSteps lib0 [.read 2 (str "x"), .read 1 (str "x"), .inc 2 (str "x"), .assign 0 (str "x") (.int 7)] nested q ∧
    Bound q (str "x") 2 0 ∧ Own q (str "x") 0 (.int 7) :=
  ⟨_, .cons trivial (.ok (f := 0) (m := mat0) (s := stOf nested) rfl) (.cons trivial (.ok (f := 0) (m := mat0) (s := stOf _) rfl)
    (.cons trivial (.ok (f := 0) (m := mat0) (s := stOf _) rfl) (.cons (plain_int 7) (.ok (f := 0) (m := mat0) (s := stOf _) rfl) (.nil _)))),
    .shared rfl ⟨rfl, nofun⟩, ⟨rfl, nofun⟩⟩

/-- Function 1 is called with a parameter `x`, so its name stands for that; 2 reads it. -/
def shadowed : QState Unit := nested.modScope 1 fun c => c.put (str "x") (.int 5)

/-- What histories with `unset` can do.  Function 2 reads the parameter `x` of function 1; 1
unsets it and reads `x` again, which now stands for the variable of function 0.  Then reading
`x` in 2 gives a mark that is no value of the language; and after `x = 7` in 2, an assignment
`x = 9` in 1 no longer changes the variable of 0 that 1 has read. -/
theorem C67_violated : ∃ s1 s2 s3 : St (QEng Unit),
    (do ref lib0 2 (str "x"); unset 1 (str "x"); ref lib0 1 (str "x") : QM Unit Unit).run 0 mat0 (stOf shadowed) = some (.ok () s1) ∧
    Bound s1.u.u (str "x") 1 0 ∧ s1.u.u.stk = [.int 5, .int 1] ∧ Reads lib0 s1.u.u 2 (str "x") (.extern 0) ∧
    ((VarOp.assign 2 (str "x") (.int 7)).code lib0).run 0 mat0 s1 = some (.ok () s2) ∧
    ((VarOp.assign 1 (str "x") (.int 9)).code lib0).run 0 mat0 s2 = some (.ok () s3) ∧
    Reads lib0 s3.u.u 0 (str "x") (.int 1) := by
  refine ⟨_, _, _, rfl, .shared rfl ⟨rfl, nofun⟩, rfl, ?_, rfl, rfl, ?_⟩
  · exact reads_link (by decide) rfl rfl
  · exact reads_bound (by decide) (.own (v := .int 1) ⟨rfl, nofun⟩) ⟨rfl, nofun⟩

/-! ### C68: deferred expressions -/

/-- `defer` statements of a function register expressions, the newest first. -/
theorem C68_registered {p : Nat} {ds : List (QVal F)} {s s' : QState F} (h : Defers p ds s s') :
    (s'.scopes p).defers = ds.reverse ++ (s.scopes p).defers := by
  induction h with
  | none => rfl
  | @defer d ds f m s' s s1 hd _ ih =>
    rw [ih]
    rw [Go.bind_ok (run_push d)] at hd
    unfold defer_ at hd
    rw [Go.bind_ok (run_pop_snoc rfl)] at hd
    cases hd
    show ds.reverse ++ ((s.u.u.modScope p fun c => { c with defers := d :: c.defers }).scopes p).defers = _
    rw [scopes_mod, if_pos rfl]
    simp
  | other he _ ih => rw [ih, he]

/-- A call: the parameters are bound in a new interpreter and the body runs.  However it
ended (unless the program exits), the expressions deferred by then run, the last one first;
then none is registered and the stack has its old height.  A panic in one of them is the end
of the call. -/
theorem C68_call_partial {M : Fl F} {r : CompileRet Str} {U : Uni} {f m} {fn : Fun} {args : List (QVal F)} {body : List Token}
    {s : St (QEng F)} {c} (hfit : TakesArgs fn args.length) (hb : fn.body = some body) (hv : fn.variadic = true → fn.args ≠ [])
    (h : (fnCall M r U fn args).run f m s = some c) :
    ∃ s0, Entered fn args s.u.u s0.u.u ∧
      ((∃ p s1, IsExit p ∧ (Tpl.evalCode r U s.u.u.nscopes (str "doc") (.tokens body)).run f m s0 = some (.panic p s1) ∧ c = .panic p s1) ∨
      ∃ rec s1 s1', BodyEnds ((Tpl.evalCode r U s.u.u.nscopes (str "doc") (.tokens body)).run f m) s0 rec s1 ∧
        s1'.u.u = (s1.u.u.modScope s.u.u.nscopes fun c => { c with recov := rec }) ∧
        ∀ ds, Defers s.u.u.nscopes ds s0.u.u s1.u.u →
        ∃ d, InTurn (fun d s' c => (evalPanic r U s.u.u.nscopes (str "expr") d).run f m s' = some c) ds.reverse s1' d ∧
          (∀ e s2, d = .panic e s2 → c = .panic e s2) ∧
          ∀ s2, d = .ok () s2 → ((after c).scopes s.u.u.nscopes).defers = []) := by
  obtain ⟨s0, he, hr⟩ := run_fnCall (f := f) (m := m) (s := s) (M := M) (r := r) (U := U) hfit hb hv
  rw [hr] at h
  refine ⟨s0, he, ?_⟩
  have hd0 : ∀ {ds s1}, Defers s.u.u.nscopes ds s0.u.u s1 → (s1.scopes s.u.u.nscopes).defers = ds.reverse := by
    intro ds s1 hd
    obtain ⟨vars, h1, _⟩ := he.scope
    rw [C68_registered hd, h1, List.append_nil]
  rcases run_inBody h with ⟨p, s1, h1, h2, h3⟩ | ⟨rec, s1, h1, d, h2, h3, h4⟩
  · exact .inl ⟨p, s1, h1, h2, h3⟩
  · refine .inr ⟨rec, s1, _, h1, rfl, fun ds hd => ⟨d, hd0 hd ▸ h2, h3, fun s2 h5 => (h4 s2 h5).1⟩⟩

/-! ### C69: calls -/

/-- The number of arguments does not fit: a panic, and nothing happens. -/
theorem C69_count {M : Fl F} {r : CompileRet Str} {U : Uni} {f m} {fn : Fun} {args : List (QVal F)} {s : St (QEng F)}
    (h : ¬ TakesArgs fn args.length) : ∃ msg, (fnCall M r U fn args).run f m s = some (.panic (failMsg msg) s) := by
  refine ⟨str "function requires other number of arguments", ?_⟩
  unfold fnCall
  rw [if_neg fun h' => h ((fits_iff _ _).mp h')]
  rfl

/-- The parameters are bound in a new function instance, and the body is evaluated there. -/
theorem C69_binds {M : Fl F} {r : CompileRet Str} {U : Uni} {f m} {fn : Fun} {args : List (QVal F)} {body : List Token}
    {s : St (QEng F)} {c} (hfit : TakesArgs fn args.length) (hb : fn.body = some body) (hv : fn.variadic = true → fn.args ≠ [])
    (h : (fnCall M r U fn args).run f m s = some c) :
    ∃ s0 d, Entered fn args s.u.u s0.u.u ∧ (Tpl.evalCode r U s.u.u.nscopes (str "doc") (.tokens body)).run f m s0 = some d := by
  obtain ⟨s0, he, h1⟩ := C68_call_partial hfit hb hv h
  rcases h1 with ⟨p, s1, _, h2, _⟩ | ⟨rec, s1, _, h2, _⟩
  · exact ⟨s0, _, he, h2⟩
  · cases h2 with
    | ends h => exact ⟨s0, _, he, h⟩
    | returns h _ => exact ⟨s0, _, he, h⟩
    | panics h _ _ => exact ⟨s0, _, he, h⟩

/-- `fn(...)`, variadic without a parameter, can not be called. -/
theorem C69_nameless {M : Fl F} {r : CompileRet Str} {U : Uni} {f m} {fn : Fun} {args : List (QVal F)} {body : List Token}
    {s : St (QEng F)} (hb : fn.body = some body) (hv : fn.variadic = true) (h0 : fn.args = []) :
    (fnCall M r U fn args).run f m s = some (.panic .slice s) := by
  unfold fnCall
  rw [if_pos (by unfold Fun.accepts; rw [hv, h0]; simp), hb]
  dsimp only
  rw [Go.bind_ok run_getQ]
  apply Go.bind_panic
  unfold bindParams
  rw [hv, h0]
  rfl

/-- A call that returns leaves the stack as high as it was. -/
theorem C69_height {M : Fl F} {r : CompileRet Str} {U : Uni} {f m} {fn : Fun} {args : List (QVal F)}
    {s s' : St (QEng F)} {v : QVal F} (h : (fnCall M r U fn args).run f m s = some (.ok v s')) :
    s'.u.u.stk.length = s.u.u.stk.length := by
  by_cases hfit : TakesArgs fn args.length
  · cases hb : fn.body with
    | none =>
      unfold fnCall at h
      rw [if_pos ((fits_iff _ _).mpr hfit), hb] at h
      cases h; rfl
    | some body =>
      by_cases hv : fn.variadic = true → fn.args ≠ []
      · obtain ⟨s0, _, hr⟩ := run_fnCall (f := f) (m := m) (s := s) (M := M) (r := r) (U := U) hfit hb hv
        rw [hr] at h
        rcases run_inBody h with ⟨p, s1, _, _, h3⟩ | ⟨rec, s1, _, d, _, h3, h4⟩
        · cases h3
        · cases d with
          | panic e s2 => cases h3 e s2 rfl
          | ok a s2 =>
            rcases (h4 s2 rfl).2 with ⟨_, s3, h5⟩ | ⟨h5, h6, _⟩
            · cases h5
            · have h6 : s'.u.u.stk = _ := h6
              rw [h6, List.length_take]
              omega
      · have hv' : fn.variadic = true ∧ fn.args = [] := by
          constructor
          · cases hx : fn.variadic
            · exact absurd (by rw [hx]; nofun) hv
            · rfl
          · cases hx : fn.args
            · rfl
            · exact absurd (by rw [hx]; nofun) hv
        rw [C69_nameless hb hv'.1 hv'.2] at h
        cases h
  · obtain ⟨msg, h'⟩ := C69_count (M := M) (r := r) (U := U) (f := f) (m := m) (s := s) hfit
    rw [h'] at h; cases h

/-! ### C70: `&&` and `||` -/

/-- `false && b`: the code of `b` is dropped and the value is false. -/
theorem C70_and_false {r : CompileRet Str} {U : Uni} {p : Nat} {f m} {s : St (QEng F)} {l : List (QVal F)} {b : QVal F}
    (h : s.u.u.stk = l ++ [.bool false, b]) :
    (and_ r U p).run f m s = some (.ok () (setQ s { s.u.u with stk := l ++ [.bool false] })) := by
  unfold and_
  rw [Go.bind_ok (run_pop_snoc' (l := l ++ [.bool false]) (v := b) (by rw [h]; simp)), Go.bind_ok (run_pop_snoc' (l := l) rfl)]
  rfl

/-- `true || b`: the code of `b` is dropped and the value is true. -/
theorem C70_or_true {r : CompileRet Str} {U : Uni} {p : Nat} {f m} {s : St (QEng F)} {l : List (QVal F)} {b : QVal F}
    (h : s.u.u.stk = l ++ [.bool true, b]) :
    (or_ r U p).run f m s = some (.ok () (setQ s { s.u.u with stk := l ++ [.bool true] })) := by
  unfold or_
  rw [Go.bind_ok (run_pop_snoc' (l := l ++ [.bool true]) (v := b) (by rw [h]; simp)), Go.bind_ok (run_pop_snoc' (l := l) rfl)]
  rfl

/-- `true && b`: what `b` does. -/
theorem C70_and_true {r : CompileRet Str} {U : Uni} {p : Nat} {f m} {s : St (QEng F)} {l : List (QVal F)} {b : QVal F}
    (h : s.u.u.stk = l ++ [.bool true, b]) :
    (and_ r U p).run f m s = (evalIn r U p (str "term3") b).run f m (setQ s { s.u.u with stk := l }) := by
  unfold and_
  rw [Go.bind_ok (run_pop_snoc' (l := l ++ [.bool true]) (v := b) (by rw [h]; simp)), Go.bind_ok (run_pop_snoc' (l := l) rfl)]
  rfl

/-- `false || b`: what `b` does. -/
theorem C70_or_false {r : CompileRet Str} {U : Uni} {p : Nat} {f m} {s : St (QEng F)} {l : List (QVal F)} {b : QVal F}
    (h : s.u.u.stk = l ++ [.bool false, b]) :
    (or_ r U p).run f m s = (evalIn r U p (str "term4") b).run f m (setQ s { s.u.u with stk := l }) := by
  unfold or_
  rw [Go.bind_ok (run_pop_snoc' (l := l ++ [.bool false]) (v := b) (by rw [h]; simp)), Go.bind_ok (run_pop_snoc' (l := l) rfl)]
  rfl

/-- If the left operand is not boolean there is a panic, and the right one is not evaluated. -/
theorem C70_left {r : CompileRet Str} {U : Uni} {p : Nat} {f m} {s : St (QEng F)} {l : List (QVal F)} {a b : QVal F}
    (h : s.u.u.stk = l ++ [a, b]) (ha : ∀ x, a ≠ .bool x) :
    (∃ msg, (and_ r U p).run f m s = some (.panic (failMsg msg) (setQ s { s.u.u with stk := l }))) ∧
    ∃ msg, (or_ r U p).run f m s = some (.panic (failMsg msg) (setQ s { s.u.u with stk := l })) := by
  constructor
  · refine ⟨str "left operand of && operator isn't a boolean expression", ?_⟩
    unfold and_
    rw [Go.bind_ok (run_pop_snoc' (l := l ++ [a]) (v := b) (by rw [h]; simp)), Go.bind_ok (run_pop_snoc' (l := l) rfl)]
    cases a <;> first | rfl | exact absurd rfl (ha _)
  · refine ⟨str "left operand of || operator isn't a boolean expression", ?_⟩
    unfold or_
    rw [Go.bind_ok (run_pop_snoc' (l := l ++ [a]) (v := b) (by rw [h]; simp)), Go.bind_ok (run_pop_snoc' (l := l) rfl)]
    cases a <;> first | rfl | exact absurd rfl (ha _)

/-! ### C71: `if`, `switch` and `for` -/

/-- What `if` finds on the stack: the number of branches after the first, and the code for
`else`, if there is any. -/
def elsePart : Option (QVal F) → List (QVal F)
  | some code => [code, .int 1]
  | none => [.int 0]

/-- `if`: conditions in order up to the first true one, then its body and nothing else. -/
theorem C71_if {r : CompileRet Str} {U : Uni} {p : Nat} {f m} {s : St (QEng F)} {l : List (QVal F)} (bs : List (QVal F × QVal F))
    (els : Option (QVal F)) (h : s.u.u.stk = l ++ flat bs ++ [.int (bs.length - 1)] ++ elsePart els) (c) :
    EndsUnit f m (if_ r U p) s c ↔
      IfRuns (fun c => EndsIn f m (condition r U p c)) (fun b => EndsUnit f m (runBody r U p b)) (failErr .condNotBool)
        (els.getD .nil) bs (setQ s { s.u.u with stk := l }) c := by
  rw [← ifLoop_iff, endsUnit_iff, endsUnit_iff]
  unfold if_
  have hn : ((bs.length : Int) - 1 + 1) * 2 = (flat bs).length := by rw [length_flat]; omega
  cases els with
  | none =>
    rw [Go.bind_ok (run_popArity (l := l ++ flat bs ++ [.int (bs.length - 1)]) (n := 0) h)]
    show ((do let condArity := (← popArity) + 1; ifLoop r U p .nil (← popNArgs (condArity * 2)) : QM F Unit).run f m _ = _) ↔ _
    rw [Go.bind_ok (run_popArity (l := l ++ flat bs) (n := bs.length - 1) rfl)]
    dsimp only
    rw [Go.bind_ok (run_popNArgs (l := l) (vs := flat bs) rfl hn)]
    rfl
  | some code =>
    rw [Go.bind_ok (run_popArity (l := l ++ flat bs ++ [.int (bs.length - 1)] ++ [code]) (n := 1) (by rw [h, elsePart]; simp))]
    show ((do let elseCode ← pop_; let condArity := (← popArity) + 1; ifLoop r U p elseCode (← popNArgs (condArity * 2)) : QM F Unit).run f m _ = _) ↔ _
    rw [Go.bind_ok (run_pop_snoc' (l := l ++ flat bs ++ [.int (bs.length - 1)]) (v := code) rfl)]
    rw [Go.bind_ok (run_popArity (l := l ++ flat bs) (n := bs.length - 1) rfl)]
    dsimp only
    rw [Go.bind_ok (run_popNArgs (l := l) (vs := flat bs) rfl hn)]
    rfl

/-- What `switch` compares with: true if there is no value. -/
def switchOn (r : CompileRet Str) (U : Uni) (p : Nat) : QVal F → QM F (QVal F)
  | .nil => pure (.bool true)
  | code => condition r U p code

/-- `switch`: the value, then the cases in order up to the first equal one, then its body. -/
theorem C71_switch {M : Fl F} {r : CompileRet Str} {U : Uni} {p : Nat} {f m} {s : St (QEng F)} {l : List (QVal F)} (on : QVal F)
    (bs : List (QVal F × QVal F)) (dflt : Option (QVal F)) (h : s.u.u.stk = l ++ [on] ++ flat bs ++ [.int bs.length] ++ elsePart dflt) (c) :
    EndsUnit f m (switch_ M r U p) s c ↔
      (∃ e, EndsIn f m (switchOn r U p on) (setQ s { s.u.u with stk := l }) (.error e) ∧ c = .error e) ∨
      ∃ v s1, EndsIn f m (switchOn r U p on) (setQ s { s.u.u with stk := l }) (.ok (v, s1)) ∧
        SwitchRuns (fun c => EndsIn f m (condition r U p c)) (fun b => EndsUnit f m (runBody r U p b)) (equal M v)
          (dflt.getD .nil) bs s1 c := by
  have hn : (bs.length : Int) * 2 = (flat bs).length := by rw [length_flat]; omega
  have key : ∀ d, (EndsUnit f m (switchOn r U p on >>= fun on => switchLoop M r U p on d (flat bs)) (setQ s { s.u.u with stk := l }) c ↔
      (∃ e, EndsIn f m (switchOn r U p on) (setQ s { s.u.u with stk := l }) (.error e) ∧ c = .error e) ∨
      ∃ v s1, EndsIn f m (switchOn r U p on) (setQ s { s.u.u with stk := l }) (.ok (v, s1)) ∧
        SwitchRuns (fun c => EndsIn f m (condition r U p c)) (fun b => EndsUnit f m (runBody r U p b)) (equal M v) d bs s1 c) := by
    intro d
    rw [endsUnit_bind]
    constructor
    · rintro (h | ⟨v, s1, h1, h2⟩)
      · exact .inl h
      · exact .inr ⟨v, s1, h1, (switchLoop_iff _ _ _).mp h2⟩
    · rintro (h | ⟨v, s1, h1, h2⟩)
      · exact .inl h
      · exact .inr ⟨v, s1, h1, (switchLoop_iff _ _ _).mpr h2⟩
  rw [← key, endsUnit_iff, endsUnit_iff]
  unfold switch_
  have hon : ∀ d, ((do
      let on ← match on with
        | .nil => pure (.bool true)
        | code => do
          evalIn r U p (str "expr") code
          pop_
      switchLoop M r U p on d (flat bs) : QM F Unit)) = (switchOn r U p on >>= fun on => switchLoop M r U p on d (flat bs)) := by
    intro d
    cases on <;> first | rfl | exact (bind_assoc _ _ _).symm
  cases dflt with
  | none =>
    rw [Go.bind_ok (run_popArity (l := l ++ [on] ++ flat bs ++ [.int bs.length]) (n := 0) h)]
    show ((do
      let caseArity ← popArity
      let casebr ← popNArgs (caseArity * 2)
      let on ← match ← pop_ with
        | .nil => pure (.bool true)
        | code => do
          evalIn r U p (str "expr") code
          pop_
      switchLoop M r U p on .nil casebr : QM F Unit).run f m _ = _) ↔ _
    rw [Go.bind_ok (run_popArity (l := l ++ [on] ++ flat bs) (n := bs.length) rfl)]
    rw [Go.bind_ok (run_popNArgs (l := l ++ [on]) (vs := flat bs) rfl hn)]
    rw [Go.bind_ok (run_pop_snoc' (l := l) (v := on) rfl), hon]
    rfl
  | some code =>
    rw [Go.bind_ok (run_popArity (l := l ++ [on] ++ flat bs ++ [.int bs.length] ++ [code]) (n := 1) (by rw [h, elsePart]; simp))]
    show ((do
      let dflt ← pop_
      let caseArity ← popArity
      let casebr ← popNArgs (caseArity * 2)
      let on ← match ← pop_ with
        | .nil => pure (.bool true)
        | code => do
          evalIn r U p (str "expr") code
          pop_
      switchLoop M r U p on dflt casebr : QM F Unit).run f m _ = _) ↔ _
    rw [Go.bind_ok (run_pop_snoc' (l := l ++ [on] ++ flat bs ++ [.int bs.length]) (v := code) rfl)]
    rw [Go.bind_ok (run_popArity (l := l ++ [on] ++ flat bs) (n := bs.length) rfl)]
    rw [Go.bind_ok (run_popNArgs (l := l ++ [on]) (vs := flat bs) rfl hn)]
    rw [Go.bind_ok (run_pop_snoc' (l := l) (v := on) rfl), hon]
    rfl

/-- `for` without its loop: what comes before it and the parts of the loop. -/
inductive ForParts (body : QVal F) : QVal F → QVal F → QVal F → List (QVal F) → Prop
  | three {init cond step} : ForParts body init cond step [init, cond, step, .int 3, body]
  | one {cond} : ForParts body .nil cond .nil [cond, .int 1, body]
  | forever : ForParts body .nil .nil .nil [.int 0, body]

/-- `for`: the initial statement, then rounds of condition, body and step while the condition
holds; the value is nil.  Without a condition it holds. -/
theorem C71_for {r : CompileRet Str} {U : Uni} {p : Nat} {f m} {s : St (QEng F)} {l args : List (QVal F)} {body init cond step : QVal F}
    (hp : ForParts body init cond step args) (h : s.u.u.stk = l ++ args) {c} (hc : EndsUnit f m (for_ r U p) s c) :
    (∃ e, EndsUnit f m (evalDrop r U p (str "s") init) (setQ s { s.u.u with stk := l }) (.error e) ∧ c = .error e) ∨
    ∃ s1 c1, EndsUnit f m (evalDrop r U p (str "s") init) (setQ s { s.u.u with stk := l }) (.ok s1) ∧
      ForRuns (EndsIn f m (forCond r U p cond)) (EndsUnit f m (evalDrop r U p (str "doc") body))
        (EndsUnit f m (evalDrop r U p (str "s") step)) s1 c1 ∧
      ((∃ e, c1 = .error e ∧ c = .error e) ∨
       ∃ s2, c1 = .ok s2 ∧ c = .ok (setQ s2 { s2.u.u with stk := s2.u.u.stk ++ [.nil] })) := by
  have key : EndsUnit f m (do
      evalDrop r U p (str "s") init
      Go.loop (forRound r U p cond step body) ()
      push .nil : QM F Unit) (setQ s { s.u.u with stk := l }) c := by
    rw [endsUnit_iff] at hc ⊢
    rw [← hc]
    unfold for_
    cases hp with
    | three =>
      rw [Go.bind_ok (run_pop_snoc' (l := l ++ [init, cond, step, .int 3]) (v := body) (by rw [h]; simp))]
      rw [Go.bind_ok (run_popArity (l := l ++ [init, cond, step]) (n := 3) (by simp [setQ]))]
      rw [if_pos rfl, Go.bind_ok (run_popNArgs (l := l) (vs := [init, cond, step]) (n := 3) rfl rfl)]
      rfl
    | one =>
      rw [Go.bind_ok (run_pop_snoc' (l := l ++ [cond, .int 1]) (v := body) (by rw [h]; simp))]
      rw [Go.bind_ok (run_popArity (l := l ++ [cond]) (n := 1) (by simp [setQ]))]
      rw [if_neg (by decide), if_pos rfl, Go.bind_ok (run_popNArgs (l := l) (vs := [cond]) (n := 1) rfl rfl)]
      rfl
    | forever =>
      rw [Go.bind_ok (run_pop_snoc' (l := l ++ [.int 0]) (v := body) (by rw [h]; simp))]
      rw [Go.bind_ok (run_popArity (l := l) (n := 0) rfl)]
      rw [if_neg (by decide), if_neg (by decide), if_pos rfl]
      rfl
  rcases endsUnit_bind.mp key with ⟨e, h1, h2⟩ | ⟨⟨⟩, s1, h1, h2⟩
  · exact .inl ⟨e, h1, h2⟩
  · refine .inr ⟨s1, ?_⟩
    rcases endsUnit_bind.mp h2 with ⟨e, h3, h4⟩ | ⟨⟨⟩, s2, h3, h4⟩
    · obtain ⟨q, s3⟩ := e
      exact ⟨_, h1, forLoop_runs _ _ h3, .inl ⟨_, rfl, h4⟩⟩
    · refine ⟨_, h1, forLoop_runs _ _ h3, .inr ⟨s2, rfl, ?_⟩⟩
      cases c with
      | ok s4 =>
        have h4 : (push .nil : QM F Unit).run f m s2 = some (.ok () s4) := h4
        rw [run_push] at h4
        cases h4; rfl
      | error e =>
        obtain ⟨q, s4⟩ := e
        have h4 : (push .nil : QM F Unit).run f m s2 = some (.panic q s4) := h4
        rw [run_push] at h4
        cases h4

/-- The other way around: a loop whose rounds come to an end does so, given fuel for them. -/
theorem C71_for_ends {r : CompileRet Str} {U : Uni} {p : Nat} {f m} {s1 : St (QEng F)} {body cond step : QVal F} {c}
    (h : ForRuns (EndsIn f m (forCond r U p cond)) (EndsUnit f m (evalDrop r U p (str "doc") body))
        (EndsUnit f m (evalDrop r U p (str "s") step)) s1 c) :
    ∃ f', ∀ f2, f' ≤ f2 → (Go.loop (forRound r U p cond step body) () : QM F Unit).run f2 m s1 = some (toEnd c) := by
  obtain ⟨n, hn⟩ := runs_forLoop h
  refine ⟨max f n, fun f2 hf => ?_⟩
  exact loopN_mono _ (by omega) n f2 (by omega) _ _ _ hn

/-! ### Examples with the grammar of qlang -/

/-- The tables of the grammar of qlang. -/
def tab0 : Tab Str := match denDoc (client lib0 ⟨.nil, ⟨[], [], 0, KwScanner.zero⟩, ⟨false, false⟩⟩ ascii).marker rules
    ⟨[], [], 0, ⟨Scanner.zero, [], some []⟩⟩ with
  | .ok t => t
  | .error _ => ⟨[], [], 0, KwScanner.zero⟩
def r0 : CompileRet Str := ⟨(tab0.grammars.lookup (str "doc")).getD .nil, tab0, ⟨false, false⟩⟩
/-- Matching with this grammar. -/
def mat1 (f : Nat) : Mat Str (QEng Unit) (IPanic QErr (QX (QVal Unit))) := matchG r0.env (client lib0 r0 ascii).sem f
/-- The tokens of a text. -/
def qtoks (src : String) : List Token := (tab0.scanner.tokenize ascii (str src) ⟨false, false⟩).1.1
/-- The stack when code ended. -/
def stkOf {α : Type} : Option (QEnd Unit α) → Option (List (QVal Unit))
  | some (.ok _ s) => some s.u.u.stk
  | _ => none
def qst (stk : List (QVal Unit)) : St (QEng Unit) := ⟨fun _ => 0, ⟨0, 0, tab0.scanner, { QState.new with stk := stk }⟩⟩

/-- The state with a variable `x` in the main program. -/
def withX (v : QVal Unit) : St (QEng Unit) :=
  ⟨fun _ => 0, ⟨0, 0, tab0.scanner, QState.new.modScope 0 fun c => c.put (str "x") v⟩⟩
/-- The variable `x` of the main program, and how many expressions the function called first
has deferred. -/
def xOf {α : Type} : Option (QEnd Unit α) → Option (Bool × Option (QVal Unit) × Nat)
  | some (.ok _ s) => some (true, (s.u.u.scopes 0).vars (str "x"), (s.u.u.scopes 1).defers.length)
  | some (.panic _ s) => some (false, (s.u.u.scopes 0).vars (str "x"), (s.u.u.scopes 1).defers.length)
  | none => none
/-- A call of a function with this body. -/
def callBody (src : String) (s : St (QEng Unit)) := (fnCall fl0 r0 ascii ⟨[], some (qtoks src), 0, false⟩ []).run 80 (mat1 80) s

example : xOf (callBody "x; defer fn() { x; x = x * 10 + 1 }(); defer fn() { x; x = x * 10 + 2 }(); x = 3" (withX (.int 0)))
    = some (true, some (.int 321), 0) := by kernel_rfl

/-- "All deferred expressions run": not those before one that panics, and they stay registered. -/
theorem C68_violated_panic :
    xOf (callBody "x; defer fn() { x; x = 1 }(); defer 1 && true" (withX (.int 0))) = some (false, some (.int 0), 2) := by kernel_rfl

/-- "All deferred expressions run": not those that a deferred expression registers. -/
theorem C68_violated_nested :
    xOf (callBody "x; defer if true { defer fn() { x; x = 1 }() }" (withX (.int 0))) = some (true, some (.int 0), 0) := by kernel_rfl

example : stkOf ((fnCall fl0 r0 ascii ⟨[str "a", str "b"], some (qtoks "return a - b"), 0, false⟩ [.int 5, .int 3]).run 60 (mat1 60)
    (qst [.int 7])) = some [.int 7] := by kernel_rfl
example : stkOf ((fnCall fl0 r0 ascii ⟨[str "a", str "b"], some (qtoks "b[1]"), 0, true⟩ [.int 5, .int 3, .int 4]).run 60 (mat1 60)
    (qst [.int 7])) = some [.int 7] := by kernel_rfl
example : TakesArgs ⟨[str "a", str "b"], some [], 0, true⟩ 1 ∧ ¬ TakesArgs ⟨[str "a", str "b"], some [], 0, false⟩ 1 := ⟨Nat.le_refl 2, nofun⟩

/-- "The value is the boolean result": the right operand need not be boolean. -/
theorem C70_violated : stkOf ((and_ r0 ascii 0).run 60 (mat1 60) (qst [.bool true, .code (qtoks "5")])) = some [.int 5] := by kernel_rfl

example : stkOf ((if_ r0 ascii 0).run 60 (mat1 60) (qst ([.int 9] ++ flat [(.code (qtoks "1 > 2"), .code (qtoks "5")), (.code (qtoks "2 > 1"), .code (qtoks "6"))]
    ++ [.int (([(1, 2), (3, 4)] : List (Nat × Nat)).length - 1)] ++ elsePart (some (.code (qtoks "7")))))) = some [.int 9, .int 6] := by kernel_rfl
example : stkOf ((switch_ fl0 r0 ascii 0).run 60 (mat1 60) (qst ([.int 9] ++ [.code (qtoks "1 + 1")] ++
    flat [(.code (qtoks "1"), .code (qtoks "5")), (.code (qtoks "2"), .code (qtoks "6"))] ++ [.int 2] ++ elsePart none))) = some [.int 9, .int 6] := by kernel_rfl
example : xOf ((for_ r0 ascii 0).run 60 (mat1 60) { (withX (.int 0)) with u := { (withX (.int 0)).u with u := { (withX (.int 0)).u.u with
    stk := [.code (qtoks "x = 1"), .code (qtoks "x < 10"), .code (qtoks "x++"), .int 3, .code (qtoks "x = x * 2")] } } }) =
    some (true, some (.int 15), 0) := by kernel_rfl
example : ForParts (F := Unit) (.code []) (.code []) .nil .nil [.code [], .nil, .nil, .int 3, .code []] := .three

end Tpl.Props
