import Verif.Spec.Qlang
import Verif.Proof.Go
import Verif.Proof.Builtin

/-! Lemmas about the interpreter of qlang. -/
namespace Tpl.Qlang
open Tpl Spec
variable {F : Type} {f : Nat} {m : Mat Str (QEng F) (IPanic QErr (QX (QVal F)))} {s : St (QEng F)}

/-- The state with other interpreters, stack and heap. -/
def setQ (s : St (QEng F)) (q : QState F) : St (QEng F) := { s with u := { s.u with u := q } }

theorem setQ_q (q : QState F) : (setQ s q).u.u = q := rfl
theorem setQ_setQ (q q' : QState F) : setQ (setQ s q) q' = setQ s q' := rfl
theorem setQ_self : setQ s s.u.u = s := rfl

theorem run_getQ : (getQ : QM F _).run f m s = some (.ok s.u.u s) := rfl
theorem run_modQ (g : QState F → QState F) : (modQ g).run f m s = some (.ok () (setQ s (g s.u.u))) := rfl
theorem run_throwQ {α : Type} (p : QPanic F) : (throwQ p : QM F α).run f m s = some (.panic p s) := rfl
theorem run_push (v : QVal F) : (push v).run f m s = some (.ok () (setQ s { s.u.u with stk := s.u.u.stk ++ [v] })) := rfl
theorem run_setVar (p : Nat) (x : Str) (v : QVal F) : (setVar p x v).run f m s = some (.ok () (setQ s (s.u.u.modScope p fun c => c.put x v))) := rfl
theorem run_liftE_ok {α : Type} (a : α) : (liftE (.ok a) : QM F α).run f m s = some (.ok a s) := rfl
theorem run_liftE_error {α : Type} (p : QPanic F) : (liftE (.error p) : QM F α).run f m s = some (.panic p s) := rfl

theorem run_pop : (pop : QM F _).run f m s = some (match s.u.u.stk.getLast? with
    | none => .ok none s
    | some v => .ok (some v) (setQ s { s.u.u with stk := s.u.u.stk.dropLast })) := by
  unfold pop
  rw [Go.bind_ok run_getQ]
  cases s.u.u.stk.getLast? <;> rfl

theorem run_pop_snoc {l : List (QVal F)} {v : QVal F} (h : s.u.u.stk = l ++ [v]) :
    (pop : QM F _).run f m s = some (.ok (some v) (setQ s { s.u.u with stk := l })) := by
  rw [run_pop, h]; simp

theorem scopes_mod {q : QState F} {p i : Nat} {g : Scope F → Scope F} :
    (q.modScope p g).scopes i = if i = p then g (q.scopes p) else q.scopes i := rfl

theorem put_vars {c : Scope F} {x y : Str} {v : QVal F} : (c.put x v).vars y = if y = x then some v else c.vars y := rfl

/-- `vars[x]` of one interpreter is replaced. -/
theorem vars_put {q : QState F} {p i : Nat} {x y : Str} {v : QVal F} :
    ((q.modScope p fun c => c.put x v).scopes i).vars y = if i = p ∧ y = x then some v else (q.scopes i).vars y := by
  rw [scopes_mod]
  by_cases h : i = p
  · subst h; rw [if_pos rfl, put_vars]; by_cases h' : y = x <;> simp [h']
  · rw [if_neg h, if_neg (by simp [h])]

theorem parents_put {q : QState F} {p i : Nat} {x : Str} {v : QVal F} :
    ((q.modScope p fun c => c.put x v).scopes i).parents = (q.scopes i).parents := by
  rw [scopes_mod]; split
  · rename_i h; rw [h]; rfl
  · rfl

/-! ### Where a name leads -/

theorem bound_unique {q : QState F} {x : Str} {p t t' : Nat} (h : Bound q x p t) (h' : Bound q x p t') : t = t' := by
  cases h with
  | own h1 => cases h' with
    | own => rfl
    | shared h2 _ =>
      have := h1.1.symm.trans h2
      exact absurd (Option.some.inj this) (h1.2 _)
  | shared h1 _ => cases h' with
    | own h2 =>
      have := h2.1.symm.trans h1
      exact absurd (Option.some.inj this) (h2.2 _)
    | shared h2 _ =>
      have := h1.symm.trans h2
      cases this; rfl

theorem bound_own {q : QState F} {x : Str} {p t : Nat} (h : Bound q x p t) : ∃ v, Own q x t v := by
  cases h with
  | own h => exact ⟨_, h⟩
  | shared _ h => exact ⟨_, h⟩

/-- An own variable shared by `p`: what it stands for. -/
theorem bound_vars {q : QState F} {x : Str} {p t : Nat} (h : Bound q x p t) :
    (p = t ∧ ∃ v, Own q x p v) ∨ (q.scopes p).vars x = some (.extern t) := by
  cases h with
  | own h => exact .inl ⟨rfl, _, h⟩
  | shared h _ => exact .inr h

theorem own_val {q : QState F} {x : Str} {t : Nat} {v : QVal F} (h : Own q x t v) : (q.scopes t).val x = v := by
  rw [Scope.val, h.1]; rfl

theorem run_getVars_bound {x : Str} {p t : Nat} (h : Bound s.u.u x p t) : (getVars p x).run f m s = some (.ok t s) := by
  unfold getVars
  rw [Go.bind_ok run_getQ]
  cases h with
  | own h =>
    rw [h.1]
    have := h.2
    split
    · rename_i e he; cases he; exact absurd rfl (this _)
    · rfl
    · rename_i he; cases he
  | shared h _ => rw [h]; rfl

theorem run_getVar_bound {x : Str} {p t : Nat} {v : QVal F} (h : Bound s.u.u x p t) (hv : Own s.u.u x t v) :
    (getVar p x).run f m s = some (.ok (t, v) s) := by
  unfold getVar
  rw [Go.bind_ok run_getQ]
  cases h with
  | own h =>
    rw [hv.1]
    have := hv.2
    split
    · rename_i he; cases he
    · rename_i e he; cases he; exact absurd rfl (this _)
    · rename_i he; cases he; rfl
  | shared h _ => rw [h]; dsimp only; rw [own_val hv]; rfl

theorem run_getRef_bound {L : Lib F} {x : Str} {p t : Nat} {v : QVal F} (hx : x ≠ str "unset") (h : Bound s.u.u x p t)
    (hv : Own s.u.u x t v) : (getRef L p x).run f m s = some (.ok v s) := by
  unfold getRef
  dsimp only
  rw [if_neg hx, Go.bind_ok run_getQ]
  cases h with
  | own h =>
    rw [hv.1]
    have := hv.2
    split
    · rename_i e he; cases he; exact absurd rfl (this _)
    · rename_i he; cases he; rfl
    · rename_i he; cases he
  | shared h _ => rw [h]; dsimp only; rw [own_val hv]; rfl

theorem inherits_iff {x : Str} : Inherits x ↔ inheritable x = some true := by
  constructor
  · rintro ⟨c, rest, rfl, h⟩
    simp [inheritable, h]
  · intro h
    match x, h with
    | c :: rest, h => exact ⟨c, rest, rfl, by simpa [inheritable] using h⟩

theorem private_iff {x : Str} (hne : x ≠ []) : ¬ Inherits x ↔ inheritable x = some false := by
  rw [inherits_iff]
  match x, hne with
  | c :: rest, _ => simp [inheritable]

theorem nearest_iff {q : QState F} {x : Str} : ∀ {chain : List Nat} {t : Nat}, q.owner x chain = some t ↔ Nearest q x chain t
  | [], t => by constructor <;> intro h <;> cases h
  | a :: chain, t => by
    unfold QState.owner
    rw [List.find?_cons]
    cases h : (q.scopes a).vars x with
    | none =>
      simp only [Option.isSome_none]
      constructor
      · intro h'; exact .there h (nearest_iff.mp h')
      · intro h'
        cases h' with
        | here h' => exact absurd h h'
        | there _ h' => exact nearest_iff.mpr h'
    | some v =>
      simp only [Option.isSome_some, Option.some.injEq]
      constructor
      · rintro rfl
        exact .here (by rw [h]; nofun)
      · intro h'
        cases h' with
        | here => rfl
        | there h' _ => rw [h] at h'; cases h'

/-! ### Histories -/

/-- What a step does to variables if `W` says who writes which names. -/
structure Keeps (W : Nat → Str → Prop) (q q' : QState F) : Prop where
  sound : Sound q'
  bound : ∀ x p t, Bound q x p t → Bound q' x p t
  own : ∀ x t v, Own q x t v → (∃ p, W p x ∧ Bound q' x p t) ∨ Own q' x t v
  links : ∀ x p e, (q'.scopes p).vars x = some (.extern e) → (q.scopes p).vars x = some (.extern e) ∨ Inherits x

variable {W : Nat → Str → Prop} {q q' q'' : QState F}

theorem Keeps.trans (h : Keeps W q q') (h' : Keeps W q' q'') : Keeps W q q'' where
  sound := h'.sound
  bound x p t hb := h'.bound x p t (h.bound x p t hb)
  own x t v ho := by
    rcases h.own x t v ho with ⟨p, hw, hb⟩ | ho
    · exact .inl ⟨p, hw, h'.bound _ _ _ hb⟩
    · exact h'.own x t v ho
  links x p e he := by
    rcases h'.links x p e he with he | hi
    · exact h.links x p e he
    · exact .inr hi

theorem bound_congr (h : ∀ i y, (q'.scopes i).vars y = (q.scopes i).vars y) {x p t} (hb : Bound q x p t) : Bound q' x p t := by
  cases hb with
  | own ho => exact .own ⟨(h _ _).trans ho.1, ho.2⟩
  | shared he ho => exact .shared ((h _ _).trans he) ⟨(h _ _).trans ho.1, ho.2⟩

theorem keeps_same (hs : Sound q) (h : ∀ i y, (q'.scopes i).vars y = (q.scopes i).vars y) : Keeps W q q' where
  sound p x e he := by
    obtain ⟨v, ho⟩ := hs p x e ((h _ _).symm.trans he)
    exact ⟨v, (h _ _).trans ho.1, ho.2⟩
  bound _ _ _ := bound_congr h
  own x t v ho := .inr ⟨(h _ _).trans ho.1, ho.2⟩
  links x p e he := .inl ((h _ _).symm.trans he)

/-- Writing a variable that is there. -/
theorem keeps_put (hs : Sound q) {x : Str} {p t : Nat} {v : QVal F} (hb : Bound q x p t) (hv : Plain v) (hw : W p x)
    (h : ∀ i y, (q'.scopes i).vars y = if i = t ∧ y = x then some v else (q.scopes i).vars y) : Keeps W q q' := by
  have own : ∀ x' t' w, Own q x' t' w → ∃ w', Own q' x' t' w' := by
    intro x' t' w ho
    by_cases hc : t' = t ∧ x' = x
    · exact ⟨v, by rw [h, if_pos hc], hv⟩
    · exact ⟨w, by rw [h, if_neg hc]; exact ho.1, ho.2⟩
  have link : ∀ i y e, (q.scopes i).vars y = some (.extern e) → (q'.scopes i).vars y = some (.extern e) := by
    intro i y e he
    rw [h, if_neg]
    · exact he
    · rintro ⟨rfl, rfl⟩
      obtain ⟨w, ho⟩ := bound_own hb
      have := ho.1.symm.trans he
      exact ho.2 e (Option.some.inj this)
  have bound : ∀ x' p' t', Bound q x' p' t' → Bound q' x' p' t' := by
    intro x' p' t' hb'
    cases hb' with
    | own ho => obtain ⟨w, hw⟩ := own _ _ _ ho; exact .own hw
    | shared he ho => obtain ⟨w, hw⟩ := own _ _ _ ho; exact .shared (link _ _ _ he) hw
  refine ⟨?_, bound, ?_, ?_⟩
  · intro p' x' e he
    rw [h] at he
    split at he
    · cases he; exact absurd rfl (hv e)
    · obtain ⟨w, ho⟩ := hs p' x' e he
      exact own _ _ _ ho
  · intro x' t' w ho
    by_cases hc : t' = t ∧ x' = x
    · obtain ⟨rfl, rfl⟩ := hc
      exact .inl ⟨p, hw, bound _ _ _ hb⟩
    · exact .inr ⟨by rw [h, if_neg hc]; exact ho.1, ho.2⟩
  · intro x' p' e he
    rw [h] at he
    split at he
    · cases he; exact absurd rfl (hv e)
    · exact .inl he

/-- A new name. -/
theorem keeps_new (hs : Sound q) {x : Str} {p : Nat} {v : QVal F} (hn : (q.scopes p).vars x = none)
    (hv : Plain v ∨ Inherits x ∧ ∃ e w, v = .extern e ∧ Own q x e w)
    (h : ∀ i y, (q'.scopes i).vars y = if i = p ∧ y = x then some v else (q.scopes i).vars y) : Keeps W q q' := by
  have other : ∀ i y w, (q.scopes i).vars y = some w → (q'.scopes i).vars y = some w := by
    intro i y w hw
    rw [h, if_neg]
    · exact hw
    · rintro ⟨rfl, rfl⟩; rw [hn] at hw; cases hw
  have own : ∀ x' t' w, Own q x' t' w → Own q' x' t' w := fun x' t' w ho => ⟨other _ _ _ ho.1, ho.2⟩
  refine ⟨?_, ?_, fun x' t' w ho => .inr (own _ _ _ ho), ?_⟩
  · intro p' x' e he
    rw [h] at he
    split at he
    · rename_i hc
      cases he
      rcases hv with hv | ⟨_, e', w, he', ho⟩
      · exact absurd rfl (hv e)
      · cases he'; exact ⟨w, hc.2 ▸ own _ _ _ ho⟩
    · obtain ⟨w, ho⟩ := hs p' x' e he
      exact ⟨w, own _ _ _ ho⟩
  · intro x' p' t' hb
    cases hb with
    | own ho => exact .own (own _ _ _ ho)
    | shared he ho => exact .shared (other _ _ _ he) (own _ _ _ ho)
  · intro x' p' e he
    rw [h] at he
    split at he
    · rename_i hc
      cases he
      rcases hv with hv | ⟨hi, _⟩
      · exact absurd rfl (hv e)
      · exact .inr (hc.2 ▸ hi)
    · exact .inl he

/-- A new interpreter. -/
theorem keeps_enter (hs : Sound q) {c : Nat} {vars : Str → Option (QVal F)} (hn : ∀ x, (q.scopes c).vars x = none)
    (hv : ∀ x v, vars x = some v → Plain v)
    (h : ∀ i y, (q'.scopes i).vars y = if i = c then vars y else (q.scopes i).vars y) : Keeps W q q' := by
  have other : ∀ i y w, (q.scopes i).vars y = some w → (q'.scopes i).vars y = some w := by
    intro i y w hw
    rw [h, if_neg]
    · exact hw
    · rintro rfl; rw [hn] at hw; cases hw
  have own : ∀ x' t' w, Own q x' t' w → Own q' x' t' w := fun x' t' w ho => ⟨other _ _ _ ho.1, ho.2⟩
  refine ⟨?_, ?_, fun x' t' w ho => .inr (own _ _ _ ho), ?_⟩
  · intro p' x' e he
    rw [h] at he
    split at he
    · exact absurd rfl (hv _ _ he e)
    · obtain ⟨w, ho⟩ := hs p' x' e he
      exact ⟨w, own _ _ _ ho⟩
  · intro x' p' t' hb
    cases hb with
    | own ho => exact .own (own _ _ _ ho)
    | shared he ho => exact .shared (other _ _ _ he) (own _ _ _ ho)
  · intro x' p' e he
    rw [h] at he
    split at he
    · exact absurd rfl (hv _ _ he e)
    · exact .inl he

theorem sound_bound (hs : Sound q) {x : Str} {p : Nat} {v : QVal F} (h : (q.scopes p).vars x = some v) : ∃ t, Bound q x p t := by
  by_cases hp : Plain v
  · exact ⟨p, .own ⟨h, hp⟩⟩
  · have : ∃ e, v = .extern e := by
      apply Classical.byContradiction
      intro hc
      exact hp fun e he => hc ⟨e, he⟩
    obtain ⟨e, rfl⟩ := this
    obtain ⟨w, ho⟩ := hs _ _ _ h
    exact ⟨e, .shared h ho⟩

/-- What `getVars` answers: the variable there is, the interpreter itself for a new one, or a
panic; nothing changes. -/
theorem run_getVars (hs : Sound s.u.u) (p : Nat) (x : Str) :
    (∃ t, Bound s.u.u x p t ∧ (getVars p x).run f m s = some (.ok t s)) ∨
    ((s.u.u.scopes p).vars x = none ∧ (getVars p x).run f m s = some (.ok p s)) ∨
    ∃ e, (getVars p x).run f m s = some (.panic e s) := by
  cases hv : (s.u.u.scopes p).vars x with
  | some v =>
    obtain ⟨t, hb⟩ := sound_bound hs hv
    exact .inl ⟨t, hb, run_getVars_bound hb⟩
  | none =>
    right
    unfold getVars
    rw [Go.bind_ok run_getQ, hv]
    dsimp only
    cases inheritable x with
    | none => exact .inr ⟨_, rfl⟩
    | some b =>
      cases b with
      | false => exact .inl ⟨rfl, rfl⟩
      | true =>
        dsimp only
        cases s.u.u.owner x (s.u.u.scopes p).parents with
        | none => exact .inl ⟨rfl, rfl⟩
        | some _ => exact .inr ⟨_, rfl⟩

/-- Assigning after `getVars`. -/
theorem keeps_assign (hs : Sound q) {x : Str} {p t : Nat} {v : QVal F} (h : Bound q x p t ∨ (t = p ∧ (q.scopes p).vars x = none))
    (hv : Plain v) (hw : W p x) (hq : ∀ i y, (q'.scopes i).vars y = if i = t ∧ y = x then some v else (q.scopes i).vars y) :
    Keeps W q q' := by
  rcases h with h | ⟨rfl, h⟩
  · exact keeps_put hs h hv hw hq
  · exact keeps_new hs h (.inl hv) hq

theorem run_getVars' (hs : Sound s.u.u) (p : Nat) (x : Str) :
    (∃ t, (Bound s.u.u x p t ∨ (t = p ∧ (s.u.u.scopes p).vars x = none)) ∧ (getVars p x).run f m s = some (.ok t s)) ∨
    ∃ e, (getVars p x).run f m s = some (.panic e s) := by
  rcases run_getVars (f := f) (m := m) hs p x with ⟨t, h1, h2⟩ | ⟨h1, h2⟩ | h
  · exact .inl ⟨t, .inl h1, h2⟩
  · exact .inl ⟨p, .inr ⟨rfl, h1⟩, h2⟩
  · exact .inr h

/-- The state after code ended. -/
def Cb.state {α : Type} : Cb Str (QEng F) (IPanic QErr (QX (QVal F))) α → QState F
  | .ok _ s => s.u.u
  | .panic _ s => s.u.u

theorem sound_same (hs : Sound q) (h : ∀ i y, (q'.scopes i).vars y = (q.scopes i).vars y) : Sound q' :=
  (keeps_same (W := fun _ _ => False) hs h).sound

theorem keeps_run_assign (hs : Sound s.u.u) (p : Nat) (x : Str) (v : QVal F) (hv : Plain v) (hw : W p x)
    {c} (h : (do push v; Qlang.assign p x : QM F Unit).run f m s = some c) : Keeps W s.u.u (Cb.state c) := by
  rw [Go.bind_ok (run_push v)] at h
  unfold Qlang.assign at h
  generalize hs1 : setQ s { s.u.u with stk := s.u.u.stk ++ [v] } = s1 at h
  have hv1 : ∀ i y, (s1.u.u.scopes i).vars y = (s.u.u.scopes i).vars y := by rw [← hs1]; intro i y; rfl
  have hs1' := sound_same hs hv1
  have hst : s1.u.u.stk = s.u.u.stk ++ [v] := by rw [← hs1]; rfl
  refine (keeps_same hs hv1).trans ?_
  rcases run_getVars' (f := f) (m := m) hs1' p x with ⟨t, hb, hr⟩ | ⟨e, hr⟩
  · rw [Go.bind_ok hr, Go.bind_ok (run_pop_snoc hst)] at h
    dsimp only at h
    rw [Go.bind_ok (run_setVar t x v), run_push] at h
    cases h
    exact keeps_assign hs1' hb hv hw fun i y => vars_put
  · rw [Go.bind_panic hr] at h
    cases h
    exact keeps_same hs1' fun _ _ => rfl

theorem plain_int (n : Int) : Plain (.int n : QVal F) := nofun

theorem inc_plain {op : QVal F → QRes F} (hop : op = Inc ∨ op = Dec) {v w : QVal F} (h : op v = .ok w) : Plain w := by
  rcases hop with rfl | rfl <;> cases v <;> first | (cases h; nofun) | cases h

theorem op2_plain {M : Fl F} {op : Op2} {a b w : QVal F} (h : op.apply M a b = .ok w) : Plain w := by
  cases op <;> cases a <;> cases b <;>
    simp only [Op2.apply, Qlang.Add, Qlang.Sub, Qlang.Mul, Quo, Qlang.Mod, unsupported] at h <;>
    first
    | (cases h; nofun)
    | cases h
    | (split at h <;> cases h; nofun)

theorem run_getVar (hs : Sound s.u.u) (p : Nat) (x : Str) :
    (∃ t v, Bound s.u.u x p t ∧ Own s.u.u x t v ∧ (getVar p x).run f m s = some (.ok (t, v) s)) ∨
    ((s.u.u.scopes p).vars x = none ∧ (getVar p x).run f m s = some (.panic (failMsg (str "variable not found: " ++ x)) s)) := by
  cases hv : (s.u.u.scopes p).vars x with
  | some v =>
    obtain ⟨t, hb⟩ := sound_bound hs hv
    obtain ⟨w, ho⟩ := bound_own hb
    exact .inl ⟨t, w, hb, ho, run_getVar_bound hb ho⟩
  | none =>
    right
    refine ⟨rfl, ?_⟩
    unfold getVar
    rw [Go.bind_ok run_getQ, hv]
    rfl

theorem keeps_run_incDec (hs : Sound s.u.u) {op : QVal F → QRes F} (hop : op = Inc ∨ op = Dec) (p : Nat) (x : Str) (hw : W p x)
    {c} (h : (incDec op p x).run f m s = some c) : Keeps W s.u.u (Cb.state c) := by
  unfold incDec at h
  rcases run_getVar (f := f) (m := m) hs p x with ⟨t, v, hb, ho, hr⟩ | ⟨_, hr⟩
  · rw [Go.bind_ok hr] at h
    dsimp only at h
    cases hv : op v with
    | ok w =>
      rw [hv, Go.bind_ok (run_liftE_ok w), Go.bind_ok (run_setVar t x w), run_push] at h
      cases h
      exact keeps_put hs hb (inc_plain hop hv) hw fun i y => vars_put
    | error e =>
      rw [hv, Go.bind_panic (run_liftE_error e)] at h
      cases h
      exact keeps_same hs fun _ _ => rfl
  · rw [Go.bind_panic hr] at h
    cases h
    exact keeps_same hs fun _ _ => rfl

theorem keeps_run_opAssign {M : Fl F} (hs : Sound s.u.u) (op : Op2) (p : Nat) (x : Str) (v : QVal F) (hw : W p x)
    {c} (h : (do push v; opAssign (op.apply M) p x : QM F Unit).run f m s = some c) : Keeps W s.u.u (Cb.state c) := by
  rw [Go.bind_ok (run_push v)] at h
  unfold opAssign at h
  generalize hs1 : setQ s { s.u.u with stk := s.u.u.stk ++ [v] } = s1 at h
  have hv1 : ∀ i y, (s1.u.u.scopes i).vars y = (s.u.u.scopes i).vars y := by rw [← hs1]; intro i y; rfl
  have hs1' := sound_same hs hv1
  have hst : s1.u.u.stk = s.u.u.stk ++ [v] := by rw [← hs1]; rfl
  refine (keeps_same hs hv1).trans ?_
  rcases run_getVar (f := f) (m := m) hs1' p x with ⟨t, u, hb, ho, hr⟩ | ⟨_, hr⟩
  · rw [Go.bind_ok hr] at h
    dsimp only at h
    rw [Go.bind_ok (run_pop_snoc hst)] at h
    dsimp only at h
    cases hv : op.apply M u v with
    | ok w =>
      rw [hv, Go.bind_ok (run_liftE_ok w), Go.bind_ok (run_setVar t x w), run_push] at h
      cases h
      exact keeps_put hs1' hb (op2_plain hv) hw fun i y => vars_put
    | error e =>
      rw [hv, Go.bind_panic (run_liftE_error e)] at h
      cases h
      exact keeps_same hs1' fun _ _ => rfl
  · rw [Go.bind_panic hr] at h
    cases h
    exact keeps_same hs1' fun _ _ => rfl

theorem keeps_assignAll (p : Nat) : ∀ (l : List (Str × QVal F)) (s : St (QEng F)), Sound s.u.u → (∀ a ∈ l, Plain a.2 ∧ W p a.1) →
    ∀ {c}, (assignAll p l).run f m s = some c → Keeps W s.u.u (Cb.state c)
  | [], s, hs, _, c, h => by
    cases h
    exact keeps_same hs fun _ _ => rfl
  | (x, v) :: l, s, hs, hl, c, h => by
    obtain ⟨hv, hw⟩ := hl (x, v) (List.mem_cons_self ..)
    rw [assignAll] at h
    rcases run_getVars' (f := f) (m := m) hs p x with ⟨t, hb, hr⟩ | ⟨e, hr⟩
    · rw [Go.bind_ok hr, Go.bind_ok (run_setVar t x v)] at h
      have k := keeps_assign hs hb hv hw (q' := s.u.u.modScope t fun c => c.put x v) fun i y => vars_put
      exact k.trans (keeps_assignAll p l _ k.sound (fun a ha => hl a (List.mem_cons_of_mem _ ha)) h)
    · rw [Go.bind_panic hr] at h
      cases h
      exact keeps_same hs fun _ _ => rfl

theorem asNames_str : ∀ xs : List Str, asNames (xs.map (.str : Str → QVal F)) = some xs
  | [] => rfl
  | x :: xs => by rw [List.map_cons, asNames, asNames_str xs]; rfl

theorem keeps_run_multi (hs : Sound s.u.u) (p : Nat) (xs : List Str) (sl : Sl)
    (hv : ∀ v ∈ s.u.u.heap.elems sl, Plain v) (hw : ∀ x ∈ xs, W p x)
    {c} (h : (do
      modQ fun s => { s with stk := s.stk ++ xs.map .str ++ [.int (xs.length - 1), .slice sl] }
      multiAssign p : QM F Unit).run f m s = some c) : Keeps W s.u.u (Cb.state c) := by
  rw [Go.bind_ok (run_modQ _)] at h
  unfold multiAssign at h
  rw [Go.bind_ok (run_pop_snoc (l := s.u.u.stk ++ xs.map .str ++ [.int (xs.length - 1)]) (v := .slice sl) (by simp [setQ_q]))] at h
  dsimp only at h
  rw [setQ_setQ] at h
  have pa : ∀ {s : St (QEng F)} {l : List (QVal F)} {n : Int}, s.u.u.stk = l ++ [.int n] →
      (popArity : QM F Int).run f m s = some (.ok n (setQ s { s.u.u with stk := l })) := by
    intro s l n hst
    unfold popArity
    rw [Go.bind_ok (run_pop_snoc hst)]
    rfl
  rw [Go.bind_ok (pa (l := s.u.u.stk ++ xs.map .str) (n := xs.length - 1) (by simp [setQ_q]))] at h
  rw [setQ_setQ] at h
  by_cases hl : ((xs.length : Int) - 1 + 1) ≠ sl.len
  · dsimp only at h
    rw [if_pos hl] at h
    cases h
    exact keeps_same hs fun _ _ => rfl
  · dsimp only at h
    rw [if_neg hl] at h
    have pf : ∀ {s : St (QEng F)} {l : List (QVal F)}, s.u.u.stk = l ++ xs.map .str →
        (popFnArgs ((xs.length : Int) - 1 + 1) : QM F _).run f m s = some (.ok xs (setQ s { s.u.u with stk := l })) := by
      intro s l hst
      have e1 : ((xs.length : Int) - 1 + 1) = xs.length := by omega
      unfold popFnArgs
      rw [Go.bind_ok run_getQ, e1]
      dsimp only
      have e2 : s.u.u.stk.length - xs.length = l.length := by rw [hst]; simp
      rw [if_neg (by omega), Int.toNat_natCast, if_pos (by rw [hst]; simp), e2, hst, List.drop_left, asNames_str]
      dsimp only
      rw [Go.bind_ok (run_modQ _), List.take_left]
      rfl
    rw [Go.bind_ok (pf (l := s.u.u.stk) (by simp [setQ_q]))] at h
    rw [setQ_setQ, Go.bind_ok run_getQ] at h
    have k1 : ∀ {c}, (assignAll p (xs.zip (s.u.u.heap.elems sl))).run f m (setQ s { s.u.u with stk := s.u.u.stk }) = some c →
        Keeps W s.u.u (Cb.state c) := by
      intro c hc
      refine keeps_assignAll p _ _ hs ?_ hc
      intro a ha
      exact ⟨hv _ (List.of_mem_zip ha).2, hw _ (List.of_mem_zip ha).1⟩
    rcases Go.bind_some.mp h with ⟨e, s', hp, rfl⟩ | ⟨_, s', hp, hc⟩
    · exact k1 hp
    · have k := k1 hp
      rw [run_push] at hc
      cases hc
      exact k.trans (keeps_same k.sound fun _ _ => rfl)

/-- Reading: nothing changes, or the name becomes a shared one. -/
theorem run_getRef (L : Lib F) (hs : Sound s.u.u) (p : Nat) (x : Str) {c} (h : (getRef L p x).run f m s = some c) :
    Cb.state c = s.u.u ∨ ((s.u.u.scopes p).vars x = none ∧ Inherits x ∧ ∃ t v, Own s.u.u x t v ∧
      Cb.state c = s.u.u.modScope p fun c => c.put x (.extern t)) := by
  unfold getRef at h
  dsimp only at h
  split at h
  · cases h; exact .inl rfl
  rw [Go.bind_ok run_getQ] at h
  have global : ∀ {c}, (match L.symbol x with
      | some v => pure v
      | none => throwQ (failMsg (str "symbol not found: " ++ x)) : QM F (QVal F)).run f m s = some c → Cb.state c = s.u.u := by
    intro c hc
    cases hg : L.symbol x <;> rw [hg] at hc <;> cases hc <;> rfl
  cases hv : (s.u.u.scopes p).vars x with
  | some v =>
    rw [hv] at h
    left
    cases v <;> cases h <;> rfl
  | none =>
    rw [hv] at h
    dsimp only at h
    cases hi : inheritable x with
    | none => rw [hi] at h; cases h; exact .inl rfl
    | some b =>
      rw [hi] at h
      cases b with
      | false => exact .inl (global h)
      | true =>
        dsimp only at h
        cases ho : s.u.u.owner x (s.u.u.scopes p).parents with
        | none => rw [ho] at h; exact .inl (global h)
        | some t =>
          rw [ho] at h
          dsimp only at h
          right
          refine ⟨rfl, inherits_iff.mpr hi, ?_⟩
          have hsome : ((s.u.u.scopes t).vars x).isSome = true := by
            unfold QState.owner at ho
            exact List.find?_some (p := fun t => ((s.u.u.scopes t).vars x).isSome) ho
          obtain ⟨w, hw⟩ := Option.isSome_iff_exists.mp hsome
          have hval : (s.u.u.scopes t).val x = w := by rw [Scope.val, hw]; rfl
          rw [hval] at h
          by_cases hpl : Plain w
          · have hh : (do setVar p x (.extern t); pure w : QM F (QVal F)).run f m s = some c := by
              rw [← h]
              cases w <;> first | rfl | exact absurd rfl (hpl _)
            rw [Go.bind_ok (run_setVar p x _)] at hh
            cases hh
            exact ⟨t, w, ⟨hw, hpl⟩, rfl⟩
          · have : ∃ e, w = .extern e := by
              apply Classical.byContradiction
              intro hc
              exact hpl fun e he => hc ⟨e, he⟩
            obtain ⟨e, rfl⟩ := this
            obtain ⟨u, hu⟩ := hs _ _ _ hw
            dsimp only at h
            rw [Go.bind_ok (run_setVar p x _)] at h
            cases h
            exact ⟨e, u, hu, rfl⟩

theorem keeps_run_read (L : Lib F) (hs : Sound s.u.u) (p : Nat) (x : Str) {c} (h : (ref L p x).run f m s = some c) :
    Keeps W s.u.u (Cb.state c) := by
  unfold ref at h
  have key : ∀ {c : Cb Str (QEng F) (IPanic QErr (QX (QVal F))) (QVal F)}, (getRef L p x).run f m s = some c → Keeps W s.u.u (Cb.state c) := by
    intro c hc
    rcases run_getRef L hs p x hc with h | ⟨hn, hi, t, v, ho, h⟩
    · rw [h]; exact keeps_same hs fun _ _ => rfl
    · rw [h]
      exact keeps_new hs hn (.inr ⟨hi, t, v, rfl, ho⟩) fun i y => vars_put
  rcases Go.bind_some.mp h with ⟨e, s', hp, rfl⟩ | ⟨v, s', hp, hc⟩
  · exact key hp
  · have k := key hp
    rw [run_push] at hc
    cases hc
    exact k.trans (keeps_same k.sound fun _ _ => rfl)

theorem keeps_op (L : Lib F) (op : VarOp F) (hs : Sound s.u.u) (hg : op.Good s.u.u) {c} (h : (op.code L).run f m s = some c) :
    Keeps op.Writes s.u.u (Cb.state c) := by
  cases op with
  | assign p x v => exact keeps_run_assign hs p x v hg ⟨rfl, rfl⟩ h
  | read p x => exact keeps_run_read L hs p x h
  | inc p x => exact keeps_run_incDec hs (.inl rfl) p x ⟨rfl, rfl⟩ h
  | dec p x => exact keeps_run_incDec hs (.inr rfl) p x ⟨rfl, rfl⟩ h
  | combine op p x v => exact keeps_run_opAssign hs op p x v ⟨rfl, rfl⟩ h
  | multi p xs vs => exact keeps_run_multi hs p xs vs hg (fun x hx => ⟨rfl, hx⟩) h
  | enter vars parent =>
    cases h
    refine keeps_enter hs hg.2 hg.1 ?_
    intro i y
    show ((if i = s.u.u.nscopes then _ else _ : Scope F)).vars y = _
    split <;> rfl

theorem keeps_step (L : Lib F) (op : VarOp F) (hs : Sound q) (hg : op.Good q) (h : VarStep L op q q') : Keeps op.Writes q q' := by
  cases h with
  | ok h => exact keeps_op L op hs hg h
  | panic h => exact keeps_op L op hs hg h

end Tpl.Qlang
