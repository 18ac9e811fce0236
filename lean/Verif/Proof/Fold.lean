import Verif.Spec.Fold
import Verif.Proof.Order

/-! References to rules in place of the bodies of the rules. -/
namespace Tpl
open Spec
variable {A B σ V P : Type}

mutual
/-- The same grammar in two tables, where a reference may stand for the rule itself. If `m` is true then the
number of items is the same, too. -/
inductive Kin (env env' : Env B) (R : Nat → Nat → Prop) (Q : Gr B → Gr B → Prop) : Bool → Gr B → Gr B → Prop
  | nil {m} : Kin env env' R Q m .nil .nil
  | tok {m a b} : R a b → Kin env env' R Q m (.tok a) (.tok b)
  | tru {m} : Kin env env' R Q m .tru .tru
  | peek {m g g'} : Kin env env' R Q false g g' → Kin env env' R Q m (.peek g) (.peek g')
  | not {m g g'} : Kin env env' R Q false g g' → Kin env env' R Q m (.not g) (.not g')
  | and {m gs gs'} : Kins env env' R Q gs gs' → Kin env env' R Q m (.and gs) (.and gs')
  | or {m gs gs'} : Kins env env' R Q gs gs' → Kin env env' R Q m (.or gs) (.or gs')
  | rep0 {m i i' g g'} : Kin env env' R Q false g g' → Kin env env' R Q m (.rep0 i g) (.rep0 i' g')
  | rep1 {m i i' g g'} : Kin env env' R Q false g g' → Kin env env' R Q m (.rep1 i g) (.rep1 i' g')
  | rep01 {m i i' g g'} : Kin env env' R Q false g g' → Kin env env' R Q m (.rep01 i g) (.rep01 i' g')
  | list {m i i' a b a' b' l} : Kin env env' R Q false a a' → Kin env env' R Q false b b' → Kin env env' R Q m (.list i a b l) (.list i' a' b' l)
  | action {m a g g'} : Kin env env' R Q true g g' → Kin env env' R Q m (.action a g) (.action a g')
  | trans {m a g g'} : Kin env env' R Q true g g' → Kin env env' R Q m (.trans a g) (.trans a g')
  | ref {m g g'} : IsRef g → IsRef g' → Q g g' → Kin env env' R Q m g g'
  | left {g g' x} : Leads env g x → x ≠ .nil → Kin env env' R Q false x g' → Kin env env' R Q false g g'
  | right {g g' x'} : Leads env' g' x' → x' ≠ .nil → Kin env env' R Q false g x' → Kin env env' R Q false g g'
inductive Kins (env env' : Env B) (R : Nat → Nat → Prop) (Q : Gr B → Gr B → Prop) : List (Gr B) → List (Gr B) → Prop
  | nil : Kins env env' R Q [] []
  | cons {g g' gs gs'} : Kin env env' R Q false g g' → Kins env env' R Q gs gs' → Kins env env' R Q (g :: gs) (g' :: gs')
end

variable {env env' : Env B} {R : Nat → Nat → Prop} {Q : Gr B → Gr B → Prop}

theorem Leads.isRef {env : Env B} {g x : Gr B} (h : Leads env g x) : IsRef g := by
  rcases h with ⟨n, rfl⟩ | ⟨v, rfl, _⟩
  · exact .inl ⟨n, x, rfl⟩
  · exact .inr ⟨v, rfl⟩

theorem IsRef.ne {g : Gr B} (h : IsRef g) : g ≠ .nil := by
  rcases h with ⟨n, x, rfl⟩ | ⟨v, rfl⟩ <;> simp

theorem Leads.unique {env : Env B} {g x y : Gr B} (h : Leads env g x) (h' : Leads env g y) : x = y := by
  rcases h with ⟨n, rfl⟩ | ⟨v, rfl, hv⟩ <;> rcases h' with ⟨n', h'⟩ | ⟨v', h', hv'⟩ <;> cases h'
  · rfl
  · rw [hv] at hv'; cases hv'; rfl

theorem Kins.len {gs gs' : List (Gr B)} (h : Kins env env' R Q gs gs') : gs.length = gs'.length := by
  induction gs generalizing gs' with
  | nil => cases h; rfl
  | cons g gs ih => cases h with
    | cons _ h => simp [ih h]

theorem Kin.nil_iff : ∀ {m : Bool} {g g' : Gr B}, Kin env env' R Q m g g' → (g = .nil ↔ g' = .nil)
  | _, _, _, .nil => Iff.rfl
  | _, _, _, .tok _ => ⟨nofun, nofun⟩
  | _, _, _, .tru => ⟨nofun, nofun⟩
  | _, _, _, .peek _ => ⟨nofun, nofun⟩
  | _, _, _, .not _ => ⟨nofun, nofun⟩
  | _, _, _, .and _ => ⟨nofun, nofun⟩
  | _, _, _, .or _ => ⟨nofun, nofun⟩
  | _, _, _, .rep0 _ => ⟨nofun, nofun⟩
  | _, _, _, .rep1 _ => ⟨nofun, nofun⟩
  | _, _, _, .rep01 _ => ⟨nofun, nofun⟩
  | _, _, _, .list _ _ => ⟨nofun, nofun⟩
  | _, _, _, .action _ => ⟨nofun, nofun⟩
  | _, _, _, .trans _ => ⟨nofun, nofun⟩
  | _, _, _, .ref h h' _ => ⟨fun e => absurd e h.ne, fun e => absurd e h'.ne⟩
  | _, _, _, .left h hx hk => ⟨fun e => absurd e h.isRef.ne, fun e => absurd (hk.nil_iff.mpr e) hx⟩
  | _, _, _, .right h hx hk => ⟨fun e => absurd (hk.nil_iff.mp e) hx, fun e => absurd e h.isRef.ne⟩

theorem Kin.weaken {m : Bool} {g g' : Gr B} (h : Kin env env' R Q true g g') : Kin env env' R Q m g g' := by
  cases h with
  | nil => exact .nil
  | tok h => exact .tok h
  | tru => exact .tru
  | peek h => exact .peek h
  | not h => exact .not h
  | and h => exact .and h
  | or h => exact .or h
  | rep0 h => exact .rep0 h
  | rep1 h => exact .rep1 h
  | rep01 h => exact .rep01 h
  | list h h' => exact .list h h'
  | action h => exact .action h
  | trans h => exact .trans h
  | ref h h' q => exact .ref h h' q

mutual
theorem Kin.symm : ∀ {m : Bool} {g g' : Gr B}, Kin env env' R Q m g g' → Kin env' env (fun a b => R b a) (fun x y => Q y x) m g' g
  | _, _, _, .nil => .nil
  | _, _, _, .tok h => .tok h
  | _, _, _, .tru => .tru
  | _, _, _, .peek h => .peek h.symm
  | _, _, _, .not h => .not h.symm
  | _, _, _, .and h => .and h.symm
  | _, _, _, .or h => .or h.symm
  | _, _, _, .rep0 h => .rep0 h.symm
  | _, _, _, .rep1 h => .rep1 h.symm
  | _, _, _, .rep01 h => .rep01 h.symm
  | _, _, _, .list h h' => .list h.symm h'.symm
  | _, _, _, .action h => .action h.symm
  | _, _, _, .trans h => .trans h.symm
  | _, _, _, .ref h h' q => .ref h' h q
  | _, _, _, .left h hx hk => .right h hx hk.symm
  | _, _, _, .right h hx hk => .left h hx hk.symm
theorem Kins.symm : ∀ {gs gs' : List (Gr B)}, Kins env env' R Q gs gs' → Kins env' env (fun a b => R b a) (fun x y => Q y x) gs' gs
  | _, _, .nil => .nil
  | _, _, .cons h h' => .cons h.symm h'.symm
end

/-- References lead to grammars that are alike. -/
structure Tied (env env' : Env B) (R : Nat → Nat → Prop) (Q : Gr B → Gr B → Prop) : Prop where
  kinds : KindRel R
  rules : ∀ g g', Q g g' → ∃ x x', Leads env g x ∧ Leads env' g' x' ∧ Kin env env' R Q false x x'

/-! ### Outcomes up to the number of items -/

/-- The same outcome; if `m` is true, with the same number of items. -/
def Near (m : Bool) (o o' : Out) : Prop := (∀ l, o.withLen l = o'.withLen l) ∧ (m = true → o = o')

theorem Near.refl {m : Bool} {o : Out} : Near m o o := ⟨fun _ => rfl, fun _ => rfl⟩
theorem Near.succ {m : Bool} {n : Nat} {l : Int} {o : Out} (h : Near m (.succ n l) o) : ∃ l', o = .succ n l' ∧ (m = true → l = l') := by
  cases o with
  | succ n' l' =>
    have := h.1 0
    cases this
    exact ⟨l', rfl, fun e => by cases h.2 e; rfl⟩
  | fail => cases h.1 0
  | abort => cases h.1 0
theorem Near.fail {m : Bool} {n : Nat} {o : Out} (h : Near m (.fail n) o) : o = .fail n := by
  cases o with
  | succ => cases h.1 0
  | fail => cases h.1 0; rfl
  | abort => cases h.1 0
theorem Near.abort {m b : Bool} {o : Out} (h : Near m (.abort b) o) : o = .abort b := by
  cases o with
  | succ => cases h.1 0
  | fail => cases h.1 0
  | abort => cases h.1 0; rfl
theorem near_len {o o' : Out} (h : Near false o o') {l : Int} : o.withLen l = o'.withLen l := h.1 l
theorem near_atLeast {o o' : Out} {n : Nat} (h : Near false o o') : Near false (o.atLeast n) (o'.atLeast n) := by
  cases o with
  | succ => obtain ⟨l', rfl, _⟩ := h.succ; exact ⟨fun _ => rfl, nofun⟩
  | fail => rw [h.fail]; exact .refl
  | abort => rw [h.abort]; exact .refl
theorem withLen_withLen (o : Out) (l l' : Int) : (o.withLen l).withLen l' = o.withLen l' := by cases o <;> rfl
theorem near_withLen {m : Bool} {o o' : Out} (h : Near false o o') {l : Int} : Near m (o.withLen l) (o'.withLen l) := by
  rw [h.1 l]; exact .refl

/-- The grammar `z` is reached from `y` by references; if `m` is true, they are the same. -/
inductive Down (env : Env B) : Bool → Gr B → Gr B → Prop
  | refl {m y} : Down env m y y
  | step {y x z} : Leads env y x → Down env false x z → Down env false y z

theorem down_tr {m : Bool} {y z : Gr B} (h : Down env m y z) {src : List Token} {o : Out} {e : List (Ev B)} (ht : Tr env (.one z) src o e) :
    ∃ o', Tr env (.one y) src o' e ∧ Near m o o' := by
  induction h with
  | refl => exact ⟨o, ht, .refl⟩
  | step hl _ ih =>
    obtain ⟨o', h1, h2⟩ := ih ht
    exact ⟨_, leads_tr hl h1, fun l => by rw [withLen_withLen]; exact h2.1 l, nofun⟩

section inversions

theorem kin_head : ∀ {m : Bool} {g y : Gr B}, Kin env env' R Q m g y → ¬ IsRef g → ∃ z, Down env' m y z ∧ ¬ IsRef z ∧ Kin env env' R Q m g z
  | _, _, _, .nil, _ => ⟨_, .refl, (by rintro (⟨_, _, h⟩ | ⟨_, h⟩) <;> cases h), .nil⟩
  | _, _, _, .tok h, _ => ⟨_, .refl, (by rintro (⟨_, _, h⟩ | ⟨_, h⟩) <;> cases h), .tok h⟩
  | _, _, _, .tru, _ => ⟨_, .refl, (by rintro (⟨_, _, h⟩ | ⟨_, h⟩) <;> cases h), .tru⟩
  | _, _, _, .peek h, _ => ⟨_, .refl, (by rintro (⟨_, _, h⟩ | ⟨_, h⟩) <;> cases h), .peek h⟩
  | _, _, _, .not h, _ => ⟨_, .refl, (by rintro (⟨_, _, h⟩ | ⟨_, h⟩) <;> cases h), .not h⟩
  | _, _, _, .and h, _ => ⟨_, .refl, (by rintro (⟨_, _, h⟩ | ⟨_, h⟩) <;> cases h), .and h⟩
  | _, _, _, .or h, _ => ⟨_, .refl, (by rintro (⟨_, _, h⟩ | ⟨_, h⟩) <;> cases h), .or h⟩
  | _, _, _, .rep0 h, _ => ⟨_, .refl, (by rintro (⟨_, _, h⟩ | ⟨_, h⟩) <;> cases h), .rep0 h⟩
  | _, _, _, .rep1 h, _ => ⟨_, .refl, (by rintro (⟨_, _, h⟩ | ⟨_, h⟩) <;> cases h), .rep1 h⟩
  | _, _, _, .rep01 h, _ => ⟨_, .refl, (by rintro (⟨_, _, h⟩ | ⟨_, h⟩) <;> cases h), .rep01 h⟩
  | _, _, _, .list h h', _ => ⟨_, .refl, (by rintro (⟨_, _, h⟩ | ⟨_, h⟩) <;> cases h), .list h h'⟩
  | _, _, _, .action h, _ => ⟨_, .refl, (by rintro (⟨_, _, h⟩ | ⟨_, h⟩) <;> cases h), .action h⟩
  | _, _, _, .trans h, _ => ⟨_, .refl, (by rintro (⟨_, _, h⟩ | ⟨_, h⟩) <;> cases h), .trans h⟩
  | _, _, _, .ref h _ _, hg => absurd h hg
  | _, _, _, .left h _ _, hg => absurd h.isRef hg
  | _, _, _, .right hl _ hk, hg =>
    let ⟨z, h1, h2, h3⟩ := kin_head hk hg
    ⟨z, .step hl h1, h2, h3⟩

theorem kin_tok {m : Bool} {a : Nat} {y : Gr B} (h : Kin env env' R Q m (.tok a) y) : ∃ b, Down env' m y (.tok b) ∧ R a b := by
  obtain ⟨z, h1, h2, h3⟩ := kin_head h (by rintro (⟨_, _, h⟩ | ⟨_, h⟩) <;> cases h)
  cases h3 with
  | tok h => exact ⟨_, h1, h⟩
  | ref h _ _ => rcases h with ⟨_, _, h⟩ | ⟨_, h⟩ <;> cases h
  | left h _ _ => rcases h.isRef with ⟨_, _, h⟩ | ⟨_, h⟩ <;> cases h
  | right h _ _ => exact absurd h.isRef h2
theorem kin_tru {m : Bool}  {y : Gr B} (h : Kin env env' R Q m (.tru) y) : Down env' m y .tru := by
  obtain ⟨z, h1, h2, h3⟩ := kin_head h (by rintro (⟨_, _, h⟩ | ⟨_, h⟩) <;> cases h)
  cases h3 with
  | tru  => exact h1
  | ref h _ _ => rcases h with ⟨_, _, h⟩ | ⟨_, h⟩ <;> cases h
  | left h _ _ => rcases h.isRef with ⟨_, _, h⟩ | ⟨_, h⟩ <;> cases h
  | right h _ _ => exact absurd h.isRef h2
theorem kin_peek {m : Bool} {g : Gr B} {y : Gr B} (h : Kin env env' R Q m (.peek g) y) : ∃ g', Down env' m y (.peek g') ∧ Kin env env' R Q false g g' := by
  obtain ⟨z, h1, h2, h3⟩ := kin_head h (by rintro (⟨_, _, h⟩ | ⟨_, h⟩) <;> cases h)
  cases h3 with
  | peek h => exact ⟨_, h1, h⟩
  | ref h _ _ => rcases h with ⟨_, _, h⟩ | ⟨_, h⟩ <;> cases h
  | left h _ _ => rcases h.isRef with ⟨_, _, h⟩ | ⟨_, h⟩ <;> cases h
  | right h _ _ => exact absurd h.isRef h2
theorem kin_not {m : Bool} {g : Gr B} {y : Gr B} (h : Kin env env' R Q m (.not g) y) : ∃ g', Down env' m y (.not g') ∧ Kin env env' R Q false g g' := by
  obtain ⟨z, h1, h2, h3⟩ := kin_head h (by rintro (⟨_, _, h⟩ | ⟨_, h⟩) <;> cases h)
  cases h3 with
  | not h => exact ⟨_, h1, h⟩
  | ref h _ _ => rcases h with ⟨_, _, h⟩ | ⟨_, h⟩ <;> cases h
  | left h _ _ => rcases h.isRef with ⟨_, _, h⟩ | ⟨_, h⟩ <;> cases h
  | right h _ _ => exact absurd h.isRef h2
theorem kin_and {m : Bool} {gs : List (Gr B)} {y : Gr B} (h : Kin env env' R Q m (.and gs) y) : ∃ gs', Down env' m y (.and gs') ∧ Kins env env' R Q gs gs' := by
  obtain ⟨z, h1, h2, h3⟩ := kin_head h (by rintro (⟨_, _, h⟩ | ⟨_, h⟩) <;> cases h)
  cases h3 with
  | and h => exact ⟨_, h1, h⟩
  | ref h _ _ => rcases h with ⟨_, _, h⟩ | ⟨_, h⟩ <;> cases h
  | left h _ _ => rcases h.isRef with ⟨_, _, h⟩ | ⟨_, h⟩ <;> cases h
  | right h _ _ => exact absurd h.isRef h2
theorem kin_or {m : Bool} {gs : List (Gr B)} {y : Gr B} (h : Kin env env' R Q m (.or gs) y) : ∃ gs', Down env' m y (.or gs') ∧ Kins env env' R Q gs gs' := by
  obtain ⟨z, h1, h2, h3⟩ := kin_head h (by rintro (⟨_, _, h⟩ | ⟨_, h⟩) <;> cases h)
  cases h3 with
  | or h => exact ⟨_, h1, h⟩
  | ref h _ _ => rcases h with ⟨_, _, h⟩ | ⟨_, h⟩ <;> cases h
  | left h _ _ => rcases h.isRef with ⟨_, _, h⟩ | ⟨_, h⟩ <;> cases h
  | right h _ _ => exact absurd h.isRef h2
theorem kin_rep0 {m : Bool} {i : Nat} {g : Gr B} {y : Gr B} (h : Kin env env' R Q m (.rep0 i g) y) : ∃ i' g', Down env' m y (.rep0 i' g') ∧ Kin env env' R Q false g g' := by
  obtain ⟨z, h1, h2, h3⟩ := kin_head h (by rintro (⟨_, _, h⟩ | ⟨_, h⟩) <;> cases h)
  cases h3 with
  | rep0 h => exact ⟨_, _, h1, h⟩
  | ref h _ _ => rcases h with ⟨_, _, h⟩ | ⟨_, h⟩ <;> cases h
  | left h _ _ => rcases h.isRef with ⟨_, _, h⟩ | ⟨_, h⟩ <;> cases h
  | right h _ _ => exact absurd h.isRef h2
theorem kin_rep1 {m : Bool} {i : Nat} {g : Gr B} {y : Gr B} (h : Kin env env' R Q m (.rep1 i g) y) : ∃ i' g', Down env' m y (.rep1 i' g') ∧ Kin env env' R Q false g g' := by
  obtain ⟨z, h1, h2, h3⟩ := kin_head h (by rintro (⟨_, _, h⟩ | ⟨_, h⟩) <;> cases h)
  cases h3 with
  | rep1 h => exact ⟨_, _, h1, h⟩
  | ref h _ _ => rcases h with ⟨_, _, h⟩ | ⟨_, h⟩ <;> cases h
  | left h _ _ => rcases h.isRef with ⟨_, _, h⟩ | ⟨_, h⟩ <;> cases h
  | right h _ _ => exact absurd h.isRef h2
theorem kin_rep01 {m : Bool} {i : Nat} {g : Gr B} {y : Gr B} (h : Kin env env' R Q m (.rep01 i g) y) : ∃ i' g', Down env' m y (.rep01 i' g') ∧ Kin env env' R Q false g g' := by
  obtain ⟨z, h1, h2, h3⟩ := kin_head h (by rintro (⟨_, _, h⟩ | ⟨_, h⟩) <;> cases h)
  cases h3 with
  | rep01 h => exact ⟨_, _, h1, h⟩
  | ref h _ _ => rcases h with ⟨_, _, h⟩ | ⟨_, h⟩ <;> cases h
  | left h _ _ => rcases h.isRef with ⟨_, _, h⟩ | ⟨_, h⟩ <;> cases h
  | right h _ _ => exact absurd h.isRef h2
theorem kin_list {m : Bool} {i : Nat} {a b : Gr B} {l : Bool} {y : Gr B} (h : Kin env env' R Q m (.list i a b l) y) : ∃ i' a' b', Down env' m y (.list i' a' b' l) ∧ Kin env env' R Q false a a' ∧ Kin env env' R Q false b b' := by
  obtain ⟨z, h1, h2, h3⟩ := kin_head h (by rintro (⟨_, _, h⟩ | ⟨_, h⟩) <;> cases h)
  cases h3 with
  | list h h' => exact ⟨_, _, _, h1, h, h'⟩
  | ref h _ _ => rcases h with ⟨_, _, h⟩ | ⟨_, h⟩ <;> cases h
  | left h _ _ => rcases h.isRef with ⟨_, _, h⟩ | ⟨_, h⟩ <;> cases h
  | right h _ _ => exact absurd h.isRef h2
theorem kin_action {m : Bool} {a : B} {g : Gr B} {y : Gr B} (h : Kin env env' R Q m (.action a g) y) : ∃ g', Down env' m y (.action a g') ∧ Kin env env' R Q true g g' := by
  obtain ⟨z, h1, h2, h3⟩ := kin_head h (by rintro (⟨_, _, h⟩ | ⟨_, h⟩) <;> cases h)
  cases h3 with
  | action h => exact ⟨_, h1, h⟩
  | ref h _ _ => rcases h with ⟨_, _, h⟩ | ⟨_, h⟩ <;> cases h
  | left h _ _ => rcases h.isRef with ⟨_, _, h⟩ | ⟨_, h⟩ <;> cases h
  | right h _ _ => exact absurd h.isRef h2
theorem kin_trans {m : Bool} {a : B} {g : Gr B} {y : Gr B} (h : Kin env env' R Q m (.trans a g) y) : ∃ g', Down env' m y (.trans a g') ∧ Kin env env' R Q true g g' := by
  obtain ⟨z, h1, h2, h3⟩ := kin_head h (by rintro (⟨_, _, h⟩ | ⟨_, h⟩) <;> cases h)
  cases h3 with
  | trans h => exact ⟨_, h1, h⟩
  | ref h _ _ => rcases h with ⟨_, _, h⟩ | ⟨_, h⟩ <;> cases h
  | left h _ _ => rcases h.isRef with ⟨_, _, h⟩ | ⟨_, h⟩ <;> cases h
  | right h _ _ => exact absurd h.isRef h2
theorem kin_eof {m : Bool} {y : Gr B} (h : Kin env env' R Q m .eof y) : False := by
  obtain ⟨z, h1, h2, h3⟩ := kin_head h (by rintro (⟨_, _, h⟩ | ⟨_, h⟩) <;> cases h)
  cases h3 with
  | ref h _ _ => rcases h with ⟨_, _, h⟩ | ⟨_, h⟩ <;> cases h
  | left h _ _ => rcases h.isRef with ⟨_, _, h⟩ | ⟨_, h⟩ <;> cases h
  | right h _ _ => exact absurd h.isRef h2
theorem kin_ref : ∀ {m : Bool} {g y : Gr B}, Kin env env' R Q m g y → IsRef g →
    (∃ z, Down env' m y z ∧ Q g z) ∨ (m = false ∧ ∃ x, Leads env g x ∧ Kin env env' R Q false x y)
  | _, _, _, .nil, h => absurd rfl h.ne
  | _, _, _, .tok _, h => by rcases h with ⟨_, _, h⟩ | ⟨_, h⟩ <;> cases h
  | _, _, _, .tru, h => by rcases h with ⟨_, _, h⟩ | ⟨_, h⟩ <;> cases h
  | _, _, _, .peek _, h => by rcases h with ⟨_, _, h⟩ | ⟨_, h⟩ <;> cases h
  | _, _, _, .not _, h => by rcases h with ⟨_, _, h⟩ | ⟨_, h⟩ <;> cases h
  | _, _, _, .and _, h => by rcases h with ⟨_, _, h⟩ | ⟨_, h⟩ <;> cases h
  | _, _, _, .or _, h => by rcases h with ⟨_, _, h⟩ | ⟨_, h⟩ <;> cases h
  | _, _, _, .rep0 _, h => by rcases h with ⟨_, _, h⟩ | ⟨_, h⟩ <;> cases h
  | _, _, _, .rep1 _, h => by rcases h with ⟨_, _, h⟩ | ⟨_, h⟩ <;> cases h
  | _, _, _, .rep01 _, h => by rcases h with ⟨_, _, h⟩ | ⟨_, h⟩ <;> cases h
  | _, _, _, .list _ _, h => by rcases h with ⟨_, _, h⟩ | ⟨_, h⟩ <;> cases h
  | _, _, _, .action _, h => by rcases h with ⟨_, _, h⟩ | ⟨_, h⟩ <;> cases h
  | _, _, _, .trans _, h => by rcases h with ⟨_, _, h⟩ | ⟨_, h⟩ <;> cases h
  | _, _, _, .ref _ _ q, _ => .inl ⟨_, .refl, q⟩
  | _, _, _, .left hl _ hk, _ => .inr ⟨rfl, _, hl, hk⟩
  | _, _, _, .right hl hx hk, h =>
    match kin_ref hk h with
    | .inl ⟨z, h1, h2⟩ => .inl ⟨z, .step hl h1, h2⟩
    | .inr ⟨e, x, h1, h2⟩ => .inr ⟨e, x, h1, .right hl hx h2⟩

end inversions

section
/-- What is proved of every trace. -/
def Copies (env env' : Env B) (R : Nat → Nat → Prop) (Q : Gr B → Gr B → Prop) (src : List Token) (o : Out) (e : List (Ev B)) : Job B → Prop
  | .one g => ∀ m g' src', Kin env env' R Q m g g' → SameToks R Eq src src' → ∃ o' e', Tr env' (.one g') src' o' e' ∧ Near m o o' ∧ SameEvs R e e'
  | .seq gs c => ∀ gs' src', Kins env env' R Q gs gs' → SameToks R Eq src src' → ∃ e', Tr env' (.seq gs' c) src' o e' ∧ SameEvs R e e'
  | .alt gs => ∀ gs' src', Kins env env' R Q gs gs' → SameToks R Eq src src' → ∃ o' e', Tr env' (.alt gs') src' o' e' ∧ Near false o o' ∧ SameEvs R e e'
  | .many g => ∀ g' src', Kin env env' R Q false g g' → SameToks R Eq src src' → ∃ e', Tr env' (.many g') src' o e' ∧ SameEvs R e e'

theorem copies_down {m : Bool} {y z : Gr B} (hd : Down env' m y z) {src' : List Token} {o : Out} {e e' : List (Ev B)} (h : Tr env' (.one z) src' o e') (h' : SameEvs R e e') :
    ∃ o' e', Tr env' (.one y) src' o' e' ∧ Near m o o' ∧ SameEvs R e e' := by
  obtain ⟨o', h1, h2⟩ := down_tr hd h
  exact ⟨o', e', h1, h2, h'⟩

/-- A trace of one table is a trace of the other. -/
theorem carry (ht : Tied env env' R Q) {j : Job B} {src o e} (h : Tr env j src o e) : Copies env env' R Q src o e j := by
  have hR := ht.kinds
  induction h with
  | nil =>
    intro m g' src' hg hs
    rw [hg.nil_iff.mp rfl]; exact ⟨_, [], .nil, .refl, .nil⟩
  | tok hk =>
    intro m g' src' hg hs
    obtain ⟨b, hd, hb⟩ := kin_tok hg
    cases hs with
    | cons h1 h2 h3 => exact copies_down hd (.tok ((fits_same hR hb h1).mp hk)) .nil
  | tokNot hk =>
    intro m g' src' hg hs
    obtain ⟨b, hd, hb⟩ := kin_tok hg
    cases hs with
    | cons h1 h2 h3 => exact copies_down hd (.tokNot (fun h => hk ((fits_same hR hb h1).mpr h))) .nil
  | tokEnd =>
    intro m g' src' hg hs
    obtain ⟨b, hd, hb⟩ := kin_tok hg
    cases hs
    exact copies_down hd .tokEnd .nil
  | tru =>
    intro m g' src' hg hs
    exact copies_down (kin_tru hg) .tru .nil
  | eof => exact fun m g' src' hg hs => (kin_eof hg).elim
  | eofNot => exact fun m g' src' hg hs => (kin_eof hg).elim
  | peek _ ih =>
    intro m g' src' hg hs
    obtain ⟨g1, hd, hg1⟩ := kin_peek hg
    obtain ⟨o', e', h1, hn, h2⟩ := ih _ _ src' hg1 hs
    obtain ⟨l', rfl, _⟩ := hn.succ
    exact copies_down hd (.peek h1) h2
  | peekNot _ ih =>
    intro m g' src' hg hs
    obtain ⟨g1, hd, hg1⟩ := kin_peek hg
    obtain ⟨o', e', h1, hn, h2⟩ := ih _ _ src' hg1 hs
    have hn := hn.fail; subst hn
    exact copies_down hd (.peekNot h1) h2
  | peekAbort _ ih =>
    intro m g' src' hg hs
    obtain ⟨g1, hd, hg1⟩ := kin_peek hg
    obtain ⟨o', e', h1, hn, h2⟩ := ih _ _ src' hg1 hs
    have hn := hn.abort; subst hn
    exact copies_down hd (.peekAbort h1) h2
  | not _ ih =>
    intro m g' src' hg hs
    obtain ⟨g1, hd, hg1⟩ := kin_not hg
    obtain ⟨o', e', h1, hn, h2⟩ := ih _ _ src' hg1 hs
    have hn := hn.fail; subst hn
    exact copies_down hd (.not h1) h2
  | notNot _ ih =>
    intro m g' src' hg hs
    obtain ⟨g1, hd, hg1⟩ := kin_not hg
    obtain ⟨o', e', h1, hn, h2⟩ := ih _ _ src' hg1 hs
    obtain ⟨l', rfl, _⟩ := hn.succ
    exact copies_down hd (.notNot h1) h2
  | notAbort _ ih =>
    intro m g' src' hg hs
    obtain ⟨g1, hd, hg1⟩ := kin_not hg
    obtain ⟨o', e', h1, hn, h2⟩ := ih _ _ src' hg1 hs
    have hn := hn.abort; subst hn
    exact copies_down hd (.notAbort h1) h2
  | rep1Fail _ ih =>
    intro m g' src' hg hs
    obtain ⟨i1, g1, hd, hg1⟩ := kin_rep1 hg
    obtain ⟨o', e', h1, hn, h2⟩ := ih _ _ src' hg1 hs
    have hn := hn.fail; subst hn
    exact copies_down hd (.rep1Fail h1) h2
  | rep1Abort _ ih =>
    intro m g' src' hg hs
    obtain ⟨i1, g1, hd, hg1⟩ := kin_rep1 hg
    obtain ⟨o', e', h1, hn, h2⟩ := ih _ _ src' hg1 hs
    have hn := hn.abort; subst hn
    exact copies_down hd (.rep1Abort h1) h2
  | opt _ ih =>
    intro m g' src' hg hs
    obtain ⟨i1, g1, hd, hg1⟩ := kin_rep01 hg
    obtain ⟨o', e', h1, hn, h2⟩ := ih _ _ src' hg1 hs
    obtain ⟨l', rfl, _⟩ := hn.succ
    exact copies_down hd (.opt h1) h2
  | optNone _ ih =>
    intro m g' src' hg hs
    obtain ⟨i1, g1, hd, hg1⟩ := kin_rep01 hg
    obtain ⟨o', e', h1, hn, h2⟩ := ih _ _ src' hg1 hs
    have hn := hn.fail; subst hn
    exact copies_down hd (.optNone h1) h2
  | optAbort _ ih =>
    intro m g' src' hg hs
    obtain ⟨i1, g1, hd, hg1⟩ := kin_rep01 hg
    obtain ⟨o', e', h1, hn, h2⟩ := ih _ _ src' hg1 hs
    have hn := hn.abort; subst hn
    exact copies_down hd (.optAbort h1) h2
  | list0 _ ih =>
    intro m g' src' hg hs
    obtain ⟨i1, a1, b1, hd, hg1, hb1⟩ := kin_list hg
    obtain ⟨o', e', h1, hn, h2⟩ := ih _ _ src' hg1 hs
    have hn := hn.fail; subst hn
    exact copies_down hd (.list0 h1) h2
  | listFail _ ih =>
    intro m g' src' hg hs
    obtain ⟨i1, a1, b1, hd, hg1, hb1⟩ := kin_list hg
    obtain ⟨o', e', h1, hn, h2⟩ := ih _ _ src' hg1 hs
    have hn := hn.fail; subst hn
    exact copies_down hd (.listFail h1) h2
  | listAbort _ ih =>
    intro m g' src' hg hs
    obtain ⟨i1, a1, b1, hd, hg1, hb1⟩ := kin_list hg
    obtain ⟨o', e', h1, hn, h2⟩ := ih _ _ src' hg1 hs
    have hn := hn.abort; subst hn
    exact copies_down hd (.listAbort h1) h2
  | actionFail _ ih =>
    intro m g' src' hg hs
    obtain ⟨g1, hd, hg1⟩ := kin_action hg
    obtain ⟨o', e', h1, hn, h2⟩ := ih _ _ src' hg1 hs
    have hn := hn.fail; subst hn
    exact copies_down hd (.actionFail h1) h2
  | actionAbort _ ih =>
    intro m g' src' hg hs
    obtain ⟨g1, hd, hg1⟩ := kin_action hg
    obtain ⟨o', e', h1, hn, h2⟩ := ih _ _ src' hg1 hs
    have hn := hn.abort; subst hn
    exact copies_down hd (.actionAbort h1) h2
  | and _ ih =>
    intro m g' src' hg hs
    obtain ⟨gs1, hd, hg1⟩ := kin_and hg
    obtain ⟨e', h1, h2⟩ := ih gs1 src' hg1 hs
    exact copies_down hd (hg1.len ▸ .and h1) h2
  | or _ ih =>
    intro m g' src' hg hs
    obtain ⟨gs1, hd, hg1⟩ := kin_or hg
    obtain ⟨o', e', h1, hn, h2⟩ := ih gs1 src' hg1 hs
    rw [near_len hn]
    exact copies_down hd (hg1.len ▸ .or h1) h2
  | rep0 _ ih =>
    intro m g' src' hg hs
    obtain ⟨i1, g1, hd, hg1⟩ := kin_rep0 hg
    obtain ⟨e', h1, h2⟩ := ih g1 src' hg1 hs
    exact copies_down hd (.rep0 h1) h2
  | rep1 _ _ ih ih' =>
    intro m g' src' hg hs
    obtain ⟨i1, g1, hd, hg1⟩ := kin_rep1 hg
    obtain ⟨o1, e1, h1, hn, h2⟩ := ih _ g1 src' hg1 hs
    obtain ⟨l', rfl, _⟩ := hn.succ
    obtain ⟨e2, h3, h4⟩ := ih' g1 _ hg1 (hs.drop _)
    exact copies_down hd (.rep1 h1 h3) (h2.append h4)
  | list _ _ ih ih' =>
    intro m g' src' hg hs
    obtain ⟨i1, g1, b1, hd, hg1, hb1⟩ := kin_list hg
    obtain ⟨o1, e1, h1, hn, h2⟩ := ih _ g1 src' hg1 hs
    obtain ⟨l', rfl, _⟩ := hn.succ
    obtain ⟨e2, h3, h4⟩ := ih' (.and [b1, g1]) _ (.and (.cons hb1 (.cons hg1 .nil))) (hs.drop _)
    exact copies_down hd (.list h1 h3) (h2.append h4)
  | @varNone v0 _ hv =>
    intro m g' src' hg hs
    have hno : ∀ x, ¬ Leads env (.var v0) x := by
      rintro x (⟨n, h⟩ | ⟨v, h, h'⟩)
      · cases h
      · cases h; rw [hv] at h'; cases h'
    rcases kin_ref hg (.inr ⟨_, rfl⟩) with ⟨z, _, hq⟩ | ⟨_, x, hl, _⟩
    · obtain ⟨x, _, hl, _⟩ := ht.rules _ _ hq
      exact absurd hl (hno x)
    · exact absurd hl (hno x)
  | var hv _ ih =>
    intro m g' src' hg hs
    have hlead : Leads env (.var _) _ := .inr ⟨_, rfl, hv⟩
    rcases kin_ref hg (.inr ⟨_, rfl⟩) with ⟨z, hd, hq⟩ | ⟨rfl, x, hl, hk⟩
    · obtain ⟨x, x', hl, hl', hk⟩ := ht.rules _ _ hq
      obtain rfl := hl.unique hlead
      obtain ⟨o', e', h1, hn, h2⟩ := ih _ x' src' hk hs
      obtain ⟨o2, h3, h4⟩ := down_tr hd (leads_tr hl' h1)
      exact ⟨o2, e', h3, by rw [near_len hn]; exact h4, h2⟩
    · obtain rfl := hl.unique hlead
      obtain ⟨o', e', h1, hn, h2⟩ := ih _ g' src' hk hs
      exact ⟨o', e', h1, ⟨fun l => by rw [withLen_withLen]; exact hn.1 l, nofun⟩, h2⟩
  | @named nm g0 _ _ _ _ ih =>
    intro m g' src' hg hs
    have hlead : Leads env (.named nm g0) g0 := .inl ⟨_, rfl⟩
    rcases kin_ref hg (.inl ⟨_, _, rfl⟩) with ⟨z, hd, hq⟩ | ⟨rfl, x, hl, hk⟩
    · obtain ⟨x, x', hl, hl', hk⟩ := ht.rules _ _ hq
      obtain rfl := hl.unique hlead
      obtain ⟨o', e', h1, hn, h2⟩ := ih _ x' src' hk hs
      obtain ⟨o2, h3, h4⟩ := down_tr hd (leads_tr hl' h1)
      exact ⟨o2, e', h3, by rw [near_len hn]; exact h4, h2⟩
    · obtain rfl := hl.unique hlead
      obtain ⟨o', e', h1, hn, h2⟩ := ih _ g' src' hk hs
      exact ⟨o', e', h1, ⟨fun l => by rw [withLen_withLen]; exact hn.1 l, nofun⟩, h2⟩
  | action _ ih =>
    intro m g' src' hg hs
    obtain ⟨g1, hd, hg1⟩ := kin_action hg
    obtain ⟨o', e', h1, hn, h2⟩ := ih _ g1 src' hg1 hs
    obtain rfl := hn.2 rfl
    exact copies_down hd (.action h1) (h2.snoc (.act (hs.take _)))
  | actionStop _ ih =>
    intro m g' src' hg hs
    obtain ⟨g1, hd, hg1⟩ := kin_action hg
    obtain ⟨o', e', h1, hn, h2⟩ := ih _ g1 src' hg1 hs
    obtain rfl := hn.2 rfl
    exact copies_down hd (.actionStop h1) (h2.snoc (.act (hs.take _)))
  | trans _ ih =>
    intro m g' src' hg hs
    obtain ⟨g1, hd, hg1⟩ := kin_trans hg
    obtain ⟨o', e', h1, hn, h2⟩ := ih _ g1 src' hg1 hs
    obtain rfl := hn.2 rfl
    exact copies_down hd (.trans h1) (.cons .opens (h2.snoc .closes))
  | transFail _ ih =>
    intro m g' src' hg hs
    obtain ⟨g1, hd, hg1⟩ := kin_trans hg
    obtain ⟨o', e', h1, hn, h2⟩ := ih _ g1 src' hg1 hs
    obtain rfl := hn.2 rfl
    exact copies_down hd (.transFail h1) (.cons .opens (h2.snoc .closes))
  | transStopOk _ ih =>
    intro m g' src' hg hs
    obtain ⟨g1, hd, hg1⟩ := kin_trans hg
    obtain ⟨o', e', h1, hn, h2⟩ := ih _ g1 src' hg1 hs
    obtain rfl := hn.2 rfl
    exact copies_down hd (.transStopOk h1) (.cons .opens (h2.snoc .closes))
  | transStopFail _ ih =>
    intro m g' src' hg hs
    obtain ⟨g1, hd, hg1⟩ := kin_trans hg
    obtain ⟨o', e', h1, hn, h2⟩ := ih _ g1 src' hg1 hs
    obtain rfl := hn.2 rfl
    exact copies_down hd (.transStopFail h1) (.cons .opens (h2.snoc .closes))
  | transAbort _ ih =>
    intro m g' src' hg hs
    obtain ⟨g1, hd, hg1⟩ := kin_trans hg
    obtain ⟨o', e', h1, hn, h2⟩ := ih _ g1 src' hg1 hs
    obtain rfl := hn.2 rfl
    exact copies_down hd (.transAbort h1) (.cons .opens h2)
  | transStop =>
    intro m g' src' hg hs
    obtain ⟨g1, hd, hg1⟩ := kin_trans hg
    exact copies_down hd .transStop (.cons .opens .nil)
  | seqEnd =>
    intro gs' src' hg hs
    cases hg
    exact ⟨_, .seqEnd, .nil⟩
  | seqMark _ ih =>
    intro gs' src' hg hs
    cases hg with
    | cons hg hgs =>
      obtain ⟨e', h1, h2⟩ := ih _ src' hgs hs
      rw [hg.nil_iff.mp rfl]
      exact ⟨_, .seqMark h1, h2⟩
  | seqNext hne _ _ ih ih' =>
    intro gs' src' hg hs
    cases hg with
    | cons hg hgs =>
      obtain ⟨o1, e1, h1, hn, h2⟩ := ih _ _ src' hg hs
      obtain ⟨l', rfl, _⟩ := hn.succ
      obtain ⟨e2, h3, h4⟩ := ih' _ _ hgs (hs.drop _)
      exact ⟨_, .seqNext (fun e => hne (hg.nil_iff.mpr e)) h1 h3, h2.append h4⟩
  | seqFail hne _ ih =>
    intro gs' src' hg hs
    cases hg with
    | cons hg hgs =>
      obtain ⟨o1, e1, h1, hn, h2⟩ := ih _ _ src' hg hs
      have hn := hn.fail; subst hn
      exact ⟨_, .seqFail (fun e => hne (hg.nil_iff.mpr e)) h1, h2⟩
  | seqCut hne _ ih =>
    intro gs' src' hg hs
    cases hg with
    | cons hg hgs =>
      obtain ⟨o1, e1, h1, hn, h2⟩ := ih _ _ src' hg hs
      have hn := hn.fail; subst hn
      exact ⟨_, .seqCut (fun e => hne (hg.nil_iff.mpr e)) h1, h2⟩
  | seqAbort hne _ ih =>
    intro gs' src' hg hs
    cases hg with
    | cons hg hgs =>
      obtain ⟨o1, e1, h1, hn, h2⟩ := ih _ _ src' hg hs
      have hn := hn.abort; subst hn
      exact ⟨_, .seqAbort (fun e => hne (hg.nil_iff.mpr e)) h1, h2⟩
  | altEnd =>
    intro gs' src' hg hs
    cases hg
    exact ⟨_, _, .altEnd, .refl, .nil⟩
  | altHit _ ih =>
    intro gs' src' hg hs
    cases hg with
    | cons hg hgs =>
      obtain ⟨o1, e1, h1, hn, h2⟩ := ih _ _ src' hg hs
      obtain ⟨l', rfl, _⟩ := id hn.succ
      exact ⟨_, _, .altHit h1, hn, h2⟩
  | altNext _ _ ih ih' =>
    intro gs' src' hg hs
    cases hg with
    | cons hg hgs =>
      obtain ⟨o1, e1, h1, hn, h2⟩ := ih _ _ src' hg hs
      have hn := hn.fail; subst hn
      obtain ⟨o2, e2, h3, hn2, h4⟩ := ih' _ _ hgs hs
      exact ⟨_, _, .altNext h1 h3, near_atLeast hn2, h2.append h4⟩
  | altAbort _ ih =>
    intro gs' src' hg hs
    cases hg with
    | cons hg hgs =>
      obtain ⟨o1, e1, h1, hn, h2⟩ := ih _ _ src' hg hs
      have hn := hn.abort; subst hn
      exact ⟨_, _, .altAbort h1, .refl, h2⟩
  | manyEnd _ ih =>
    intro g' src' hg hs
    obtain ⟨o1, e1, h1, hn, h2⟩ := ih _ g' src' hg hs
    have hn := hn.fail; subst hn
    exact ⟨_, .manyEnd h1, h2⟩
  | manyMore _ _ ih ih' =>
    intro g' src' hg hs
    obtain ⟨o1, e1, h1, hn, h2⟩ := ih _ g' src' hg hs
    obtain ⟨l', rfl, _⟩ := hn.succ
    obtain ⟨e2, h3, h4⟩ := ih' g' _ hg (hs.drop _)
    exact ⟨_, .manyMore h1 h3, h2.append h4⟩
  | manyAbort _ ih =>
    intro g' src' hg hs
    obtain ⟨o1, e1, h1, hn, h2⟩ := ih _ g' src' hg hs
    have hn := hn.abort; subst hn
    exact ⟨_, .manyAbort h1, h2⟩
end

/-! ### Tables -/

variable {T T' : Tab B}

/-- Both tables, with references to the same rules. -/
abbrev Pair (T T' : Tab B) : Bool → Gr B → Gr B → Prop := Kin T.env T'.env (SameKind T.scanner T'.scanner) (BothRef T T')
abbrev Pairs (T T' : Tab B) : List (Gr B) → List (Gr B) → Prop := Kins T.env T'.env (SameKind T.scanner T'.scanner) (BothRef T T')

theorem tokenOf_pair {m : Bool} {l : Str} {t t' : Tab B} {x x' : Gr B × Tab B} (h : tokenOf l t = .ok x) (h' : tokenOf l t' = .ok x')
    (hl : Onward x.2 T) (hl' : Onward x'.2 T') : Pair T T' m x.1 x'.1 := by
  have ht := tokenOf_twin h h' hl hl'
  obtain ⟨a, e, _⟩ := tokenOf_kind h
  rw [e] at ht ⊢
  obtain ⟨b, e', hb⟩ := alike_tok ht
  rw [e']
  exact .tok hb

theorem nameOf_pair {m : Bool} {n : Str} {t t' : Tab B} {x x' : Gr B × Tab B} (h : nameOf n t = .ok x) (h' : nameOf n t' = .ok x')
    (hl : Onward x.2 T) (hl' : Onward x'.2 T') (hn : NoTrue T) (hn' : NoTrue T') : Pair T T' m x.1 x'.1 := by
  cases hu : isUpper n with
  | true =>
    unfold nameOf at h h'
    split at h
    · cases h
    · rename_i hne
      rw [if_neg hne, if_pos hu] at h'
      exact tokenOf_pair h h' hl hl'
  | false =>
    have e := nameOf_refs h hu hl hn
    have e' := nameOf_refs h' hu hl' hn'
    split at e
    · rename_i he
      rw [if_pos he] at e'
      rw [e, e']
      exact .tru
    · rename_i he
      rw [if_neg he] at e'
      exact .ref e.isRef e'.isRef ⟨n, e, e'⟩

theorem oneOrOr_pair {gs gs' : List (Gr B)} (h : Pairs T T' gs gs') {m : Bool} (h1 : m = true → gs.length ≠ 1) : Pair T T' m (oneOrOr gs) (oneOrOr gs') := by
  cases h with
  | nil => exact .or .nil
  | cons h2 h3 =>
    cases h3 with
    | nil =>
      cases m with
      | false => exact h2
      | true => exact absurd rfl (h1 rfl)
    | cons h4 h5 => exact .or (.cons h2 (.cons h4 h5))

theorem oneOrAnd_pair {gs gs' : List (Gr B)} (h : Pairs T T' gs gs') : Pair T T' false (oneOrAnd gs) (oneOrAnd gs') := by
  cases h with
  | nil => exact .and .nil
  | cons h1 h2 =>
    cases h2 with
    | nil => exact h1
    | cons h3 h4 => exact .and (.cons h1 (.cons h3 h4))

theorem alts_ne {mk : Marker B} {a : Alts} {t : Tab B} {x : List (Gr B) × Tab B} (h : a.den mk t = .ok x) : x.1 ≠ [] := by
  cases a with
  | one i is =>
    obtain ⟨y, h1, h2⟩ := bind_ok h
    obtain ⟨z, h3, h4⟩ := bind_ok h2
    cases h4
    exact nofun
  | alt i is r =>
    obtain ⟨y, h1, h2⟩ := bind_ok h
    obtain ⟨z, h3, h4⟩ := bind_ok h2
    obtain ⟨w, h5, h6⟩ := bind_ok h4
    cases h6
    exact nofun

/-- What is known of the two documents. -/
structure Docs (mk : Marker B) (rs : List Rule) (T T' : Tab B) : Prop where
  uni : Uniform mk
  noTrue : NoTrue T
  noTrue' : NoTrue T'
  /-- a reference to a rule leads to what the body of the rule makes -/
  rule : ∀ n b, ⟨n, b⟩ ∈ rs → ∀ g, Refs T n g → ∃ t gs u, b.den mk t = .ok (gs, u) ∧ Onward u T ∧ Leads T.env g (oneOrOr gs) ∧ oneOrOr gs ≠ .nil
  true_ : ∀ b, ⟨bytes "true", b⟩ ∉ rs

section
variable {mk : Marker B} {rs : List Rule} (hD : Docs mk rs T T')
include hD

mutual
theorem fac_pair : ∀ {m : Bool} {f f' : Fac}, FacUnf rs m f f' → ∀ {t t' : Tab B} {x x' : Gr B × Tab B}, f.den mk t = .ok x → f'.den mk t' = .ok x' → Onward x.2 T → Onward x'.2 T' →
    Pair T T' m x.1 x'.1
  | _, _, _, .ident, t, t', x, x', h, h', hl, hl' => nameOf_pair (by simpa [Fac.den] using h) (by simpa [Fac.den] using h') hl hl' hD.noTrue hD.noTrue'
  | _, _, _, .body hm hu hb, t, t', x, x', h, h', hl, hl' => by
    have e := nameOf_refs (by simpa [Fac.den] using h) hu hl hD.noTrue
    rw [if_neg (fun e => hD.true_ _ (e ▸ hm))] at e
    obtain ⟨t0, gs, u, e1, e2, e3, e4⟩ := hD.rule _ _ hm _ e
    obtain ⟨y', h1', h2'⟩ := bind_ok h'
    cases h2'
    exact .left e3 e4 (alts_pair hb e1 h1' e2 hl')
  | _, _, _, .char, t, t', x, x', h, h', hl, hl' => tokenOf_pair (by simpa [Fac.den] using h) (by simpa [Fac.den] using h') hl hl'
  | _, _, _, .string, t, t', x, x', h, h', hl, hl' => tokenOf_pair (by simpa [Fac.den] using h) (by simpa [Fac.den] using h') hl hl'
  | _, _, _, .int, t, t', x, x', h, h', hl, hl' => by
    simp only [Fac.den] at h h'
    split at h
    · rename_i e
      rw [if_pos e] at h'
      cases h; cases h'; exact .tru
    · cases h
  | _, _, _, .rep0 hf, t, t', x, x', h, h', hl, hl' => by
    obtain ⟨y, h1, h2⟩ := bind_ok h
    obtain ⟨y', h1', h2'⟩ := bind_ok h'
    cases h2; cases h2'
    exact .rep0 (fac_pair hf h1 h1' (cells_onward hl) (cells_onward hl'))
  | _, _, _, .rep1 hf, t, t', x, x', h, h', hl, hl' => by
    obtain ⟨y, h1, h2⟩ := bind_ok h
    obtain ⟨y', h1', h2'⟩ := bind_ok h'
    cases h2; cases h2'
    exact .rep1 (fac_pair hf h1 h1' (cells_onward hl) (cells_onward hl'))
  | _, _, _, .rep01 hf, t, t', x, x', h, h', hl, hl' => by
    obtain ⟨y, h1, h2⟩ := bind_ok h
    obtain ⟨y', h1', h2'⟩ := bind_ok h'
    cases h2; cases h2'
    exact .rep01 (fac_pair hf h1 h1' (cells_onward hl) (cells_onward hl'))
  | _, _, _, .not hf, t, t', x, x', h, h', hl, hl' => by
    obtain ⟨y, h1, h2⟩ := bind_ok h
    obtain ⟨y', h1', h2'⟩ := bind_ok h'
    cases h2; cases h2'
    exact .not (fac_pair hf h1 h1' hl hl')
  | _, _, _, .peek hf, t, t', x, x', h, h', hl, hl' => by
    obtain ⟨y, h1, h2⟩ := bind_ok h
    obtain ⟨y', h1', h2'⟩ := bind_ok h'
    cases h2; cases h2'
    exact .peek (fac_pair hf h1 h1' hl hl')
  | _, _, _, .paren hg, t, t', x, x', h, h', hl, hl' => by
    obtain ⟨y, h1, h2⟩ := bind_ok h
    obtain ⟨y', h1', h2'⟩ := bind_ok h'
    cases h2; cases h2'
    exact alts_pair hg h1 h1' hl hl'
theorem sufs_pair : ∀ {s s' : Sufs}, SufsUnf rs s s' → ∀ {m : Bool} {a a' : Gr B} {t t' : Tab B} {x x' : Gr B × Tab B}, s.den mk a t = .ok x → s'.den mk a' t' = .ok x' →
    Onward x.2 T → Onward x'.2 T' → Pair T T' (s.counted m) a a' → Pair T T' m x.1 x'.1
  | _, _, .nil, m, a, a', t, t', x, x', h, h', hl, hl', ha => by cases h; cases h'; exact ha
  | _, _, .list hf hr, m, a, a', t, t', x, x', h, h', hl, hl', ha => by
    obtain ⟨y, h1, h2⟩ := bind_ok h
    obtain ⟨y', h1', h2'⟩ := bind_ok h'
    have l1 := (sufs_onward _ h2).trans hl
    have l1' := (sufs_onward _ h2').trans hl'
    exact sufs_pair hr h2 h2' hl hl' (.list ha (fac_pair hf h1 h1' (cells_onward l1) (cells_onward l1')))
  | _, _, .list0 hf hr, m, a, a', t, t', x, x', h, h', hl, hl', ha => by
    obtain ⟨y, h1, h2⟩ := bind_ok h
    obtain ⟨y', h1', h2'⟩ := bind_ok h'
    have l1 := (sufs_onward _ h2).trans hl
    have l1' := (sufs_onward _ h2').trans hl'
    exact sufs_pair hr h2 h2' hl hl' (.list ha (fac_pair hf h1 h1' (cells_onward l1) (cells_onward l1')))
  | .mark n _, _, .mark hr, m, a, a', t, t', x, x', h, h', hl, hl', ha => by
    simp only [Sufs.den] at h h'
    rcases hD.uni n with e | ⟨l, e⟩ | ⟨l, e⟩ | ⟨p, e⟩
    · rw [e] at h h'
      exact sufs_pair hr h h' hl hl' (Kin.weaken ha)
    · rw [e] at h h'
      exact sufs_pair hr h h' hl hl' (.action ha)
    · rw [e] at h h'
      exact sufs_pair hr h h' hl hl' (.trans ha)
    · rw [e] at h; cases h
theorem item_pair : ∀ {m : Bool} {i i' : Item}, ItemUnf rs m i i' → ∀ {t t' : Tab B} {x x' : Gr B × Tab B}, i.den mk t = .ok x → i'.den mk t' = .ok x' → Onward x.2 T → Onward x'.2 T' →
    Pair T T' m x.1 x'.1
  | _, _, _, .term hf hs, t, t', x, x', h, h', hl, hl' => by
    obtain ⟨y, h1, h2⟩ := bind_ok h
    obtain ⟨y', h1', h2'⟩ := bind_ok h'
    exact sufs_pair hs h2 h2' hl hl' (fac_pair hf h1 h1' ((sufs_onward _ h2).trans hl) ((sufs_onward _ h2').trans hl'))
  | _, _, _, .cut, t, t', x, x', h, h', hl, hl' => by cases h; cases h'; exact .nil
theorem seq_pair : ∀ {s s' : ItemSeq}, SeqUnf rs s s' → ∀ {t t' : Tab B} {x x' : List (Gr B) × Tab B}, s.den mk t = .ok x → s'.den mk t' = .ok x' → Onward x.2 T → Onward x'.2 T' →
    Pairs T T' x.1 x'.1
  | _, _, .nil, t, t', x, x', h, h', hl, hl' => by cases h; cases h'; exact .nil
  | _, _, .cons hi hr, t, t', x, x', h, h', hl, hl' => by
    obtain ⟨y, h1, h2⟩ := bind_ok h
    obtain ⟨z, h3, h4⟩ := bind_ok h2
    cases h4
    obtain ⟨y', h1', h2'⟩ := bind_ok h'
    obtain ⟨z', h3', h4'⟩ := bind_ok h2'
    cases h4'
    exact .cons (item_pair hi h1 h1' ((seq_onward _ h3).trans hl) ((seq_onward _ h3').trans hl')) (seq_pair hr h3 h3' hl hl')
theorem alts_pair : ∀ {m : Bool} {a a' : Alts}, AltsUnf rs m a a' → ∀ {t t' : Tab B} {x x' : List (Gr B) × Tab B}, a.den mk t = .ok x → a'.den mk t' = .ok x' → Onward x.2 T → Onward x'.2 T' →
    Pair T T' m (oneOrOr x.1) (oneOrOr x'.1)
  | _, _, _, .single hi, t, t', x, x', h, h', hl, hl' => by
    obtain ⟨y, h1, h2⟩ := bind_ok h
    obtain ⟨z, h3, h4⟩ := bind_ok h2
    cases h4
    cases h3
    obtain ⟨y', h1', h2'⟩ := bind_ok h'
    obtain ⟨z', h3', h4'⟩ := bind_ok h2'
    cases h4'
    cases h3'
    exact item_pair hi h1 h1' hl hl'
  | _, _, _, .seq hi hs, t, t', x, x', h, h', hl, hl' => by
    obtain ⟨y, h1, h2⟩ := bind_ok h
    obtain ⟨z, h3, h4⟩ := bind_ok h2
    cases h4
    obtain ⟨y', h1', h2'⟩ := bind_ok h'
    obtain ⟨z', h3', h4'⟩ := bind_ok h2'
    cases h4'
    have l1 := item_pair hi h1 h1' ((seq_onward _ h3).trans hl) ((seq_onward _ h3').trans hl')
    have l2 := seq_pair hs h3 h3' hl hl'
    obtain ⟨w, e1, e2⟩ := bind_ok h3
    obtain ⟨v, e3, e4⟩ := bind_ok e2
    cases e4
    cases hz : z' with
    | mk gs' u' =>
      rw [hz] at l2
      cases l2 with
      | cons l2 l3 => exact .and (.cons l1 (.cons l2 l3))
  | _, _, _, .alt hi hs hr, t, t', x, x', h, h', hl, hl' => by
    obtain ⟨y, h1, h2⟩ := bind_ok h
    obtain ⟨z, h3, h4⟩ := bind_ok h2
    obtain ⟨w, h5, h6⟩ := bind_ok h4
    cases h6
    obtain ⟨y', h1', h2'⟩ := bind_ok h'
    obtain ⟨z', h3', h4'⟩ := bind_ok h2'
    obtain ⟨w', h5', h6'⟩ := bind_ok h4'
    cases h6'
    have l1 := (alts_onward _ h5).trans hl
    have l1' := (alts_onward _ h5').trans hl'
    have l2 := alts_list hr h5 h5' hl hl'
    refine oneOrOr_pair (.cons (oneOrAnd_pair (.cons (item_pair hi h1 h1' ((seq_onward _ h3).trans l1) ((seq_onward _ h3').trans l1')) (seq_pair hs h3 h3' l1 l1'))) l2) fun _ e => ?_
    exact alts_ne h5 (by simpa using e)
theorem alts_list : ∀ {m : Bool} {a a' : Alts}, AltsUnf rs m a a' → ∀ {t t' : Tab B} {x x' : List (Gr B) × Tab B}, a.den mk t = .ok x → a'.den mk t' = .ok x' → Onward x.2 T → Onward x'.2 T' →
    Pairs T T' x.1 x'.1
  | m, _, _, .single hi, t, t', x, x', h, h', hl, hl' => by
    obtain ⟨y, h1, h2⟩ := bind_ok h
    obtain ⟨z, h3, h4⟩ := bind_ok h2
    cases h4
    cases h3
    obtain ⟨y', h1', h2'⟩ := bind_ok h'
    obtain ⟨z', h3', h4'⟩ := bind_ok h2'
    cases h4'
    cases h3'
    have l := item_pair hi h1 h1' hl hl'
    cases m with
    | true => exact .cons l.weaken .nil
    | false => exact .cons l .nil
  | _, _, _, .seq hi hs, t, t', x, x', h, h', hl, hl' => by
    obtain ⟨y, h1, h2⟩ := bind_ok h
    obtain ⟨z, h3, h4⟩ := bind_ok h2
    cases h4
    obtain ⟨y', h1', h2'⟩ := bind_ok h'
    obtain ⟨z', h3', h4'⟩ := bind_ok h2'
    cases h4'
    have l1 := item_pair hi h1 h1' ((seq_onward _ h3).trans hl) ((seq_onward _ h3').trans hl')
    have l2 := seq_pair hs h3 h3' hl hl'
    exact .cons (oneOrAnd_pair (.cons l1 l2)) .nil
  | _, _, _, .alt hi hs hr, t, t', x, x', h, h', hl, hl' => by
    obtain ⟨y, h1, h2⟩ := bind_ok h
    obtain ⟨z, h3, h4⟩ := bind_ok h2
    obtain ⟨w, h5, h6⟩ := bind_ok h4
    cases h6
    obtain ⟨y', h1', h2'⟩ := bind_ok h'
    obtain ⟨z', h3', h4'⟩ := bind_ok h2'
    obtain ⟨w', h5', h6'⟩ := bind_ok h4'
    cases h6'
    have l1 := (alts_onward _ h5).trans hl
    have l1' := (alts_onward _ h5').trans hl'
    exact .cons (oneOrAnd_pair (.cons (item_pair hi h1 h1' ((seq_onward _ h3).trans l1) ((seq_onward _ h3').trans l1')) (seq_pair hs h3 h3' l1 l1'))) (alts_list hr h5 h5' hl hl')
end
end

/-! ### Whether the document compiles -/
section
variable {mk : Marker B} {rs : List Rule}

mutual
theorem fac_unf_total (hmk : Uniform mk) (hb : ∀ n b, ⟨n, b⟩ ∈ rs → ∃ t x, b.den mk t = .ok x ∧ oneOrOr x.1 ≠ .nil) :
    ∀ {m : Bool} {f f' : Fac}, FacUnf rs m f f' → ∀ {t t' : Tab B} {x : Gr B × Tab B}, f.den mk t = .ok x → KwFine t'.scanner →
    ∃ x', f'.den mk t' = .ok x' ∧ KwFine x'.2.scanner ∧ NilAlike x.1 x'.1
  | _, _, _, .ident, t, t', x, h, hf => by simp only [Fac.den] at h ⊢; exact nameOf_total h hf
  | _, _, _, .body hm hu hg, t, t', x, h, hf => by
    obtain ⟨t0, y, h1, h2⟩ := hb _ _ hm
    obtain ⟨y', e1, e2, e3⟩ := alts_unf_total hmk hb hg h1 hf
    refine ⟨_, bind_of e1, e2, .ne (nameOf_ne (by simpa [Fac.den] using h)) fun e => h2 ((oneOrOr_alike e3).mpr e)⟩
  | _, _, _, .char, t, t', x, h, hf => by simp only [Fac.den] at h ⊢; exact tokenOf_total h hf
  | _, _, _, .string, t, t', x, h, hf => by simp only [Fac.den] at h ⊢; exact tokenOf_total h hf
  | _, _, _, .int, t, t', x, h, hf => by
    simp only [Fac.den] at h ⊢
    split at h
    · rename_i e
      cases h
      rw [if_pos e]
      exact ⟨_, rfl, hf, .ne nofun nofun⟩
    · cases h
  | _, _, _, .rep0 hg, t, t', x, h, hf => by
    obtain ⟨y, h1, h2⟩ := bind_ok h
    cases h2
    obtain ⟨y', e1, e2, _⟩ := fac_unf_total hmk hb hg h1 hf
    exact ⟨_, bind_of e1, e2, .ne nofun nofun⟩
  | _, _, _, .rep1 hg, t, t', x, h, hf => by
    obtain ⟨y, h1, h2⟩ := bind_ok h
    cases h2
    obtain ⟨y', e1, e2, _⟩ := fac_unf_total hmk hb hg h1 hf
    exact ⟨_, bind_of e1, e2, .ne nofun nofun⟩
  | _, _, _, .rep01 hg, t, t', x, h, hf => by
    obtain ⟨y, h1, h2⟩ := bind_ok h
    cases h2
    obtain ⟨y', e1, e2, _⟩ := fac_unf_total hmk hb hg h1 hf
    exact ⟨_, bind_of e1, e2, .ne nofun nofun⟩
  | _, _, _, .not hg, t, t', x, h, hf => by
    obtain ⟨y, h1, h2⟩ := bind_ok h
    cases h2
    obtain ⟨y', e1, e2, _⟩ := fac_unf_total hmk hb hg h1 hf
    exact ⟨_, bind_of e1, e2, .ne nofun nofun⟩
  | _, _, _, .peek hg, t, t', x, h, hf => by
    obtain ⟨y, h1, h2⟩ := bind_ok h
    cases h2
    obtain ⟨y', e1, e2, _⟩ := fac_unf_total hmk hb hg h1 hf
    exact ⟨_, bind_of e1, e2, .ne nofun nofun⟩
  | _, _, _, .paren hg, t, t', x, h, hf => by
    obtain ⟨y, h1, h2⟩ := bind_ok h
    cases h2
    obtain ⟨y', e1, e2, e3⟩ := alts_unf_total hmk hb hg h1 hf
    exact ⟨_, bind_of e1, e2, oneOrOr_alike e3⟩
theorem sufs_unf_total (hmk : Uniform mk) (hb : ∀ n b, ⟨n, b⟩ ∈ rs → ∃ t x, b.den mk t = .ok x ∧ oneOrOr x.1 ≠ .nil) :
    ∀ {s s' : Sufs}, SufsUnf rs s s' → ∀ {a a' : Gr B} {t t' : Tab B} {x : Gr B × Tab B}, s.den mk a t = .ok x → KwFine t'.scanner → NilAlike a a' →
    ∃ x', s'.den mk a' t' = .ok x' ∧ KwFine x'.2.scanner ∧ NilAlike x.1 x'.1
  | _, _, .nil, a, a', t, t', x, h, hf, ha => by cases h; exact ⟨_, rfl, hf, ha⟩
  | _, _, .list hg hr, a, a', t, t', x, h, hf, ha => by
    obtain ⟨y, h1, h2⟩ := bind_ok h
    obtain ⟨y', e1, e2, _⟩ := fac_unf_total hmk hb hg h1 hf
    obtain ⟨z, e3, e4, e5⟩ := sufs_unf_total hmk hb hr (a' := (newObj (.list · a' y'.1 false) y'.2).1) (t' := (newObj (.list · a' y'.1 false) y'.2).2) h2 e2 (.ne nofun nofun)
    exact ⟨z, (bind_of e1).trans e3, e4, e5⟩
  | _, _, .list0 hg hr, a, a', t, t', x, h, hf, ha => by
    obtain ⟨y, h1, h2⟩ := bind_ok h
    obtain ⟨y', e1, e2, _⟩ := fac_unf_total hmk hb hg h1 hf
    obtain ⟨z, e3, e4, e5⟩ := sufs_unf_total hmk hb hr (a' := (newObj (.list · a' y'.1 true) y'.2).1) (t' := (newObj (.list · a' y'.1 true) y'.2).2) h2 e2 (.ne nofun nofun)
    exact ⟨z, (bind_of e1).trans e3, e4, e5⟩
  | .mark n _, _, .mark hr, a, a', t, t', x, h, hf, ha => by
    simp only [Sufs.den] at h ⊢
    rcases hmk n with e | ⟨l, e⟩ | ⟨l, e⟩ | ⟨p, e⟩
    · rw [e] at h ⊢
      exact sufs_unf_total hmk hb hr h hf ha
    · rw [e] at h ⊢
      exact sufs_unf_total hmk hb hr h hf (.ne nofun nofun)
    · rw [e] at h ⊢
      exact sufs_unf_total hmk hb hr h hf (.ne nofun nofun)
    · rw [e] at h; cases h
theorem item_unf_total (hmk : Uniform mk) (hb : ∀ n b, ⟨n, b⟩ ∈ rs → ∃ t x, b.den mk t = .ok x ∧ oneOrOr x.1 ≠ .nil) :
    ∀ {m : Bool} {i i' : Item}, ItemUnf rs m i i' → ∀ {t t' : Tab B} {x : Gr B × Tab B}, i.den mk t = .ok x → KwFine t'.scanner →
    ∃ x', i'.den mk t' = .ok x' ∧ KwFine x'.2.scanner ∧ NilAlike x.1 x'.1
  | _, _, _, .term hg hs, t, t', x, h, hf => by
    obtain ⟨y, h1, h2⟩ := bind_ok h
    obtain ⟨y', e1, e2, e3⟩ := fac_unf_total hmk hb hg h1 hf
    obtain ⟨z, e4, e5, e6⟩ := sufs_unf_total hmk hb hs h2 e2 e3
    exact ⟨z, (bind_of e1).trans e4, e5, e6⟩
  | _, _, _, .cut, t, t', x, h, hf => by cases h; exact ⟨_, rfl, hf, Iff.rfl⟩
theorem seq_unf_total (hmk : Uniform mk) (hb : ∀ n b, ⟨n, b⟩ ∈ rs → ∃ t x, b.den mk t = .ok x ∧ oneOrOr x.1 ≠ .nil) :
    ∀ {s s' : ItemSeq}, SeqUnf rs s s' → ∀ {t t' : Tab B} {x : List (Gr B) × Tab B}, s.den mk t = .ok x → KwFine t'.scanner →
    ∃ x', s'.den mk t' = .ok x' ∧ KwFine x'.2.scanner ∧ All2 NilAlike x.1 x'.1
  | _, _, .nil, t, t', x, h, hf => by cases h; exact ⟨_, rfl, hf, .nil⟩
  | _, _, .cons hi hr, t, t', x, h, hf => by
    obtain ⟨y, h1, h2⟩ := bind_ok h
    obtain ⟨z, h3, h4⟩ := bind_ok h2
    cases h4
    obtain ⟨y', e1, e2, e3⟩ := item_unf_total hmk hb hi h1 hf
    obtain ⟨z', e4, e5, e6⟩ := seq_unf_total hmk hb hr h3 e2
    exact ⟨_, (bind_of e1).trans (bind_of e4), e5, .cons e3 e6⟩
theorem alts_unf_total (hmk : Uniform mk) (hb : ∀ n b, ⟨n, b⟩ ∈ rs → ∃ t x, b.den mk t = .ok x ∧ oneOrOr x.1 ≠ .nil) :
    ∀ {m : Bool} {a a' : Alts}, AltsUnf rs m a a' → ∀ {t t' : Tab B} {x : List (Gr B) × Tab B}, a.den mk t = .ok x → KwFine t'.scanner →
    ∃ x', a'.den mk t' = .ok x' ∧ KwFine x'.2.scanner ∧ All2 NilAlike x.1 x'.1
  | _, _, _, .single hi, t, t', x, h, hf => by
    obtain ⟨y, h1, h2⟩ := bind_ok h
    obtain ⟨z, h3, h4⟩ := bind_ok h2
    cases h4
    cases h3
    obtain ⟨y', e1, e2, e3⟩ := item_unf_total hmk hb hi h1 hf
    exact ⟨_, (bind_of e1).trans rfl, e2, .cons (oneOrAnd_alike (.cons e3 .nil)) .nil⟩
  | _, _, _, .seq hi hs, t, t', x, h, hf => by
    obtain ⟨y, h1, h2⟩ := bind_ok h
    obtain ⟨z, h3, h4⟩ := bind_ok h2
    cases h4
    obtain ⟨y', e1, e2, e3⟩ := item_unf_total hmk hb hi h1 hf
    obtain ⟨z', e4, e5, e6⟩ := seq_unf_total hmk hb hs h3 e2
    exact ⟨_, (bind_of e1).trans (bind_of e4), e5, .cons (oneOrAnd_alike (.cons e3 e6)) .nil⟩
  | _, _, _, .alt hi hs hr, t, t', x, h, hf => by
    obtain ⟨y, h1, h2⟩ := bind_ok h
    obtain ⟨z, h3, h4⟩ := bind_ok h2
    obtain ⟨w, h5, h6⟩ := bind_ok h4
    cases h6
    obtain ⟨y', e1, e2, e3⟩ := item_unf_total hmk hb hi h1 hf
    obtain ⟨z', e4, e5, e6⟩ := seq_unf_total hmk hb hs h3 e2
    obtain ⟨w', e7, e8, e9⟩ := alts_unf_total hmk hb hr h5 e5
    exact ⟨_, (bind_of e1).trans ((bind_of e4).trans (bind_of e7)), e8, .cons (oneOrAnd_alike (.cons e3 e6)) e9⟩
end

/-- The same rules, with references replaced. -/
theorem docs_of (hmk : Uniform mk) {rs' : List Rule} {t t' : Tab B} (hf : Fresh t) (hf' : Fresh t') (h : denDoc mk rs t = .ok T) (h' : denDoc mk rs' t' = .ok T')
    (hv : ∀ v ∈ T.vars, v.2 ≠ none) (hv' : ∀ v ∈ T'.vars, v.2 ≠ none) (hd : (rs.map Rule.name).Nodup)
    (ht : ∀ r ∈ rs, r.name ≠ bytes "true") (ht' : ∀ r ∈ rs', r.name ≠ bytes "true") (hne : ∀ n g, Def T n g → g ≠ .nil) : Docs mk rs T T' := by
  refine ⟨hmk, doc_noTrue hf h hv ht, doc_noTrue hf' h' hv' ht', fun n b hm g hg => ?_, fun b hm => ht _ hm rfl⟩
  obtain ⟨x, hx, hl⟩ := refs_leads (fun v n o e => hv _ (List.mem_iff_getElem?.mpr ⟨v, e⟩)) hg
  rcases doc_def h hx with h1 | ⟨r, hr, hrn, t1, gs, u, e, l, rfl⟩
  · exact absurd h1 (fresh_def hf)
  · obtain rfl := same_rule hd hr hm hrn
    exact ⟨t1, gs, u, e, l, hl, hne _ _ hx⟩

theorem Docs.rules {rs' : List Rule} {t t' : Tab B} (hD : Docs mk rs T T') (hf : Fresh t) (hf' : Fresh t') (h : denDoc mk rs t = .ok T) (h' : denDoc mk rs' t' = .ok T')
    (hd : (rs.map Rule.name).Nodup) (hu : Unfolded rs rs') {n : Str} {x x' : Gr B} (hx : Def T n x) (hx' : Def T' n x') : Pair T T' false x x' := by
  rcases doc_def h hx with h1 | ⟨r, hr, hrn, t1, gs, u, e, l, rfl⟩
  · exact absurd h1 (fresh_def hf)
  · rcases doc_def h' hx' with h1 | ⟨r', hr', hrn', t1', gs', u', e', l', rfl⟩
    · exact absurd h1 (fresh_def hf')
    · obtain ⟨r2, hr2, hn2, hb⟩ := hu r' hr'
      obtain rfl := same_rule hd hr hr2 (hrn.trans (hrn'.symm.trans hn2.symm))
      exact alts_pair hD hb e e' l l'

theorem Docs.tied {rs' : List Rule} {t t' : Tab B} (hD : Docs mk rs T T') (hf : Fresh t) (hf' : Fresh t') (h : denDoc mk rs t = .ok T) (h' : denDoc mk rs' t' = .ok T')
    (hv : ∀ v ∈ T.vars, v.2 ≠ none) (hv' : ∀ v ∈ T'.vars, v.2 ≠ none) (hd : (rs.map Rule.name).Nodup) (hu : Unfolded rs rs')
    (hk : KindRel (SameKind T.scanner T'.scanner)) : Tied T.env T'.env (SameKind T.scanner T'.scanner) (BothRef T T') := by
  refine ⟨hk, ?_⟩
  rintro g g' ⟨n, h1, h2⟩
  obtain ⟨x, d, l⟩ := refs_leads (fun v n o e => hv _ (List.mem_iff_getElem?.mpr ⟨v, e⟩)) h1
  obtain ⟨x', d', l'⟩ := refs_leads (fun v n o e => hv' _ (List.mem_iff_getElem?.mpr ⟨v, e⟩)) h2
  exact ⟨x, x', l, l', hD.rules hf hf' h h' hd hu d d'⟩

end

theorem Tied.symm (h : Tied env env' R Q) (hk : KindRel fun a b => R b a) : Tied env' env (fun a b => R b a) (fun x y => Q y x) :=
  ⟨hk, fun g g' hq => let ⟨x, x', h1, h2, h3⟩ := h.rules _ _ hq; ⟨x', x, h2, h1, h3.symm⟩⟩

end Tpl
