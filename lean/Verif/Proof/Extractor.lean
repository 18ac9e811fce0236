import Verif.Spec.Extractor
import Verif.Proof.Trace

/-!
The heap of the extractor represents the document.
-/
namespace Tpl.Extractor
open Spec (Ev DItem VItem mapOf convs docOf Balanced Calls)
variable {W Q : Type}

/-- The callbacks as functions of the state of the engine. -/
def calls (getValue : Str → Str → Except Q W) : Calls Mark (XEng W) (TransCtx W) (XPanic Q) where
  act m _ toks _ u := match u.leaf getValue m toks with
    | .error p => .error (p, u)
    | .ok u => .ok u
  start m u := match u.begin_ m with
    | .error p => .error (p, u)
    | .ok (c, u) => .ok (c, u)
  finish _ c failed u := .ok (u.end_ c failed)

theorem sem_eq (getValue : Str → Str → Except Q W) : sem getValue = (calls getValue).sem := by
  have h1 : (sem getValue).act = (calls getValue).sem.act := by
    funext f mt m g toks s
    simp only [sem, Spec.Calls.sem, calls]
    cases s.u.leaf getValue m toks <;> rfl
  have h2 : (sem getValue).start = (calls getValue).sem.start := by
    funext m s
    simp only [sem, Spec.Calls.sem, calls]
    cases s.u.begin_ (Q := Q) m <;> rfl
  have h3 : (sem getValue).finish = (calls getValue).sem.finish := rfl
  generalize sem getValue = a at *
  generalize (calls getValue).sem = b at *
  cases a
  cases b
  simp only at h1 h2 h3
  subst h1 h2 h3
  rfl

/-- `hd` holds the items; the nodes in it have addresses between `lo` and `nx` and are not
open. -/
inductive Rep (hds : Nat → List (Cons W)) (opens : List Nat) (nx : Nat) : Nat → List (Cons W) → List (DItem W) → Prop
  | nil {lo} : Rep hds opens nx lo [] []
  | leaf {lo hd items tag arr w} : Rep hds opens nx lo hd items → Rep hds opens nx lo (.leaf tag arr w :: hd) (items ++ [.leaf tag arr w])
  | node {lo hd items tag arr id its} : Rep hds opens nx lo hd items → lo ≤ id → id ≤ nx → id ∉ opens →
      Rep hds opens nx (id + 1) (hds id) its → Rep hds opens nx lo (.node tag arr id :: hd) (items ++ [.node tag arr its])

theorem Rep.keep {hds hds' : Nat → List (Cons W)} {opens opens' : List Nat} {nx nx' lo : Nat} {hd : List (Cons W)} {items : List (DItem W)}
    (h : Rep hds opens nx lo hd items) (hh : ∀ i ≤ nx, i ∉ opens → hds' i = hds i) (ho : ∀ i ≤ nx, i ∉ opens → i ∉ opens') (hn : nx ≤ nx') :
    Rep hds' opens' nx' lo hd items := by
  induction h with
  | nil => exact .nil
  | leaf _ ih => exact .leaf ih
  | node _ h1 h2 h3 _ ih1 ih2 => exact .node ih1 h1 (by omega) (ho _ h2 h3) (by rw [hh _ h2 h3]; exact ih2)

/-- What is proved of running the callbacks of a balanced trace: the current node gets the
items, all others stay as they are. -/
def RunsTo (getValue : Str → Str → Except Q W) (e : List (Ev Mark)) : Prop :=
  ∀ (u : XEng W) (vs : List (TransCtx W)) (id : Nat) (opens : List Nat) (items : List (DItem W)) (outer : List (List (DItem W))),
    u.stk = some id → id ≤ u.next → (∀ i ∈ opens, i ≤ u.next) → id ∈ opens → Rep u.hds opens u.next (id + 1) (u.hds id) items →
    (∃ p u', DItem.run getValue e (items :: outer) = .error p ∧ (calls getValue).run e (u, vs) = .error (p, u')) ∨
    ∃ items' u', DItem.run getValue e (items :: outer) = .ok (items' :: outer) ∧ (calls getValue).run e (u, vs) = .ok (u', vs) ∧
      u'.stk = some id ∧ u.next ≤ u'.next ∧ Rep u'.hds opens u'.next (id + 1) (u'.hds id) items' ∧
      (∀ i ≤ u.next, i ≠ id → u'.hds i = u.hds i) ∧ ∃ new, u'.hds id = new ++ u.hds id

theorem DItem.run_append {getValue : Str → Str → Except Q W} : ∀ (e e' : List (Ev Mark)) (o : List (List (DItem W))),
    DItem.run getValue (e ++ e') o = match DItem.run getValue e o with
      | .error p => .error p
      | .ok o => DItem.run getValue e' o
  | [], _, _ => rfl
  | x :: e, e', o => by
    simp only [List.cons_append, DItem.run]
    cases DItem.step getValue o x with
    | error p => rfl
    | ok o => exact DItem.run_append e e' o

theorem runsTo {getValue : Str → Str → Except Q W} {e : List (Ev Mark)} (h : Balanced e) : RunsTo getValue e := by
  induction h with
  | nil =>
    intro u vs id opens items outer hs hid ho hio hr
    exact .inr ⟨items, u, rfl, rfl, hs, Nat.le_refl _, hr, fun _ _ _ => rfl, [], rfl⟩
  | @act m g toks l e _ ih =>
    intro u vs id opens items outer hs hid ho hio hr
    cases toks with
    | nil =>
      refine .inl ⟨.index, u, rfl, ?_⟩
      simp [Calls.run, Calls.step, calls, XEng.leaf]
    | cons t toks =>
      cases hv : getValue m.typ t.lit with
      | error q =>
        refine .inl ⟨.value q, u, ?_, ?_⟩
        · simp [DItem.run, DItem.step, hv]
        · simp [Calls.run, Calls.step, calls, XEng.leaf, hv]
      | ok w =>
        have e1 : DItem.run getValue (.act m g (t :: toks) l :: e) (items :: outer) =
            DItem.run getValue e ((items ++ [.leaf m.tag m.isArray w]) :: outer) := by
          simp [DItem.run, DItem.step, hv]
        have e2 : (calls getValue).run (.act m g (t :: toks) l :: e) (u, vs) =
            (calls getValue).run e (u.setHd id (.leaf m.tag m.isArray w :: u.hds id), vs) := by
          simp [Calls.run, Calls.step, calls, XEng.leaf, hv, hs]
        rw [e1, e2]
        have keep : ∀ i ≤ u.next, i ∉ opens → (u.setHd id (.leaf m.tag m.isArray w :: u.hds id)).hds i = u.hds i := by
          intro i _ hi
          exact if_neg (fun h : i = id => hi (h ▸ hio))
        have hat : (u.setHd id (.leaf m.tag m.isArray w :: u.hds id)).hds id = .leaf m.tag m.isArray w :: u.hds id := if_pos rfl
        rcases ih (u.setHd id (.leaf m.tag m.isArray w :: u.hds id)) vs id opens (items ++ [.leaf m.tag m.isArray w]) outer hs hid ho hio
          (by rw [hat]; exact .leaf (hr.keep keep (fun _ _ h => h) (Nat.le_refl _))) with h | ⟨items', u', h1, h2, h3, h4, h5, h6, new, h7⟩
        · exact .inl h
        · refine .inr ⟨items', u', h1, h2, h3, h4, h5, ?_, new ++ [.leaf m.tag m.isArray w], ?_⟩
          · intro i hi hne
            rw [h6 i hi hne]
            exact if_neg hne
          · rw [h7, hat]; simp
  | @pair m failed e e' _ _ ih ih' =>
    intro u vs id opens items outer hs hid ho hio hr
    let u1 : XEng W := { (u.setHd (u.next + 1) []).setHd id (.node m.tag m.isArray (u.next + 1) :: u.hds id) with
      next := u.next + 1, stk := some (u.next + 1) }
    have e1 : DItem.run getValue (.opens m :: e ++ .closes m failed :: e') (items :: outer) =
        match DItem.run getValue e ([] :: items :: outer) with
        | .error p => .error p
        | .ok o => DItem.run getValue (.closes m failed :: e') o := by
      rw [List.cons_append, DItem.run, DItem.step]
      exact DItem.run_append _ _ _
    have e2 : (calls getValue).run (.opens m :: e ++ .closes m failed :: e') (u, vs) =
        (calls getValue).run (e ++ .closes m failed :: e') (u1, ⟨id, u.hds id⟩ :: vs) := by
      simp only [List.cons_append, Calls.run, Calls.step, calls, XEng.begin_, hs]
      rfl
    have e2 := e2.trans (Tpl.run_append (calls getValue) e (.closes m failed :: e') (u1, ⟨id, u.hds id⟩ :: vs))
    have hne : id ≠ u.next + 1 := by omega
    have hu1 : u1.hds (u.next + 1) = [] := (if_neg (Ne.symm hne)).trans (if_pos rfl)
    have hu1id : u1.hds id = .node m.tag m.isArray (u.next + 1) :: u.hds id := if_pos rfl
    have hu1o : ∀ i ≤ u.next, i ≠ id → u1.hds i = u.hds i := by
      intro i hi hne
      exact (if_neg hne).trans (if_neg (by omega))
    rcases ih u1 (⟨id, u.hds id⟩ :: vs) (u.next + 1) ((u.next + 1) :: opens) [] (items :: outer) rfl (Nat.le_refl _)
      (by
        intro i hi
        rcases List.mem_cons.mp hi with h | h
        · rw [h]; exact Nat.le_refl _
        · exact Nat.le_succ_of_le (ho i h))
      (by simp) (by rw [hu1]; exact .nil) with ⟨p, u', h1, h2⟩ | ⟨its, u2, h1, h2, h3, h4, h5, h6, new, h7⟩
    · exact .inl ⟨p, u', by rw [e1, h1], by rw [e2, h2]⟩
    · rw [e1, h1, e2, h2]
      dsimp only
      have h4' : u.next + 1 ≤ u2.next := h4
      have e3 : DItem.run getValue (.closes m failed :: e') (its :: items :: outer) =
          DItem.run getValue e' ((if failed then items else items ++ [.node m.tag m.isArray its]) :: outer) := by
        simp [DItem.run, DItem.step]
      have e4 : (calls getValue).run (.closes m failed :: e') (u2, ⟨id, u.hds id⟩ :: vs) =
          (calls getValue).run e' (u2.end_ ⟨id, u.hds id⟩ failed, vs) := by
        simp [Calls.run, Calls.step, calls]
      rw [e3, e4]
      have hu2id : u2.hds id = .node m.tag m.isArray (u.next + 1) :: u.hds id := by
        rw [h6 id (show id ≤ u.next + 1 by omega) hne, hu1id]
      have hu2o : ∀ i ≤ u.next, i ≠ id → u2.hds i = u.hds i := by
        intro i hi hni
        rw [h6 i (show i ≤ u.next + 1 by omega) (by omega), hu1o i hi hni]
      have hold : Rep u2.hds opens u2.next (id + 1) (u.hds id) items :=
        hr.keep (fun i hi hio' => hu2o i hi (fun h => hio' (h ▸ hio))) (fun _ _ h => h) (by omega)
      cases failed with
      | false =>
        simp only [XEng.end_, Bool.false_eq_true, if_false]
        have hnew : Rep u2.hds opens u2.next (id + 1) (u2.hds id) (items ++ [.node m.tag m.isArray its]) := by
          rw [hu2id]
          refine .node hold (by omega) h4' (fun h => absurd (ho _ h) (by omega)) ?_
          exact h5.keep (fun _ _ _ => rfl) (fun i _ hi h => hi (List.mem_cons_of_mem _ h)) (Nat.le_refl _)
        rcases ih' { u2 with stk := some id } vs id opens (items ++ [.node m.tag m.isArray its]) outer rfl (show id ≤ u2.next by omega)
          (fun i hi => show i ≤ u2.next by have := ho i hi; omega) hio hnew with h | ⟨items', u', k1, k2, k3, k4, k5, k6, new', k7⟩
        · exact .inl h
        · refine .inr ⟨items', u', k1, k2, k3, ?_, k5, ?_, new' ++ [.node m.tag m.isArray (u.next + 1)], ?_⟩
          · have : u2.next ≤ u'.next := k4
            omega
          · intro i hi hni
            rw [k6 i (show i ≤ u2.next by omega) hni]
            exact hu2o i hi hni
          · rw [k7]
            show new' ++ u2.hds id = _
            rw [hu2id]
            simp
      | true =>
        simp only [XEng.end_, if_true]
        let u3 : XEng W := ({ u2 with stk := some id } : XEng W).setHd id (u.hds id)
        have hu3id : u3.hds id = u.hds id := if_pos rfl
        have hu3o : ∀ i, i ≠ id → u3.hds i = u2.hds i := fun i hi => if_neg hi
        rcases ih' u3 vs id opens items outer rfl (show id ≤ u2.next by omega)
          (fun i hi => show i ≤ u2.next by have := ho i hi; omega) hio
          (by rw [hu3id]; exact hold.keep (fun i _ hi => hu3o i (fun h => hi (h ▸ hio))) (fun _ _ h => h) (Nat.le_refl _)) with
          h | ⟨items', u', k1, k2, k3, k4, k5, k6, new', k7⟩
        · exact .inl h
        · refine .inr ⟨items', u', k1, k2, k3, ?_, k5, ?_, new', ?_⟩
          · have : u2.next ≤ u'.next := k4
            omega
          · intro i hi hni
            rw [k6 i (show i ≤ u2.next by omega) hni, hu3o i hni]
            exact hu2o i hi hni
          · rw [k7, hu3id]

/-! ### Results -/

theorem convs_append : ∀ (a b : List (DItem W)), convs (a ++ b) = convs a ++ convs b
  | [], _ => rfl
  | x :: a, b => by simp only [List.cons_append, convs, convs_append a b]

theorem takeWhile_self {α : Type} {p : α → Bool} {l : List α} (h : ∀ z ∈ l, p z = true) : l.takeWhile p = l := by
  induction l with
  | nil => rfl
  | cons x l ih => simp [List.takeWhile, h x (by simp), ih (fun z hz => h z (by simp [hz]))]

theorem dropWhile_nil {α : Type} {p : α → Bool} {l : List α} (h : ∀ z ∈ l, p z = true) : l.dropWhile p = [] := by
  induction l with
  | nil => rfl
  | cons x l ih => simp [List.dropWhile, h x (by simp), ih (fun z hz => h z (by simp [hz]))]

theorem dropWhile_head {α : Type} {p : α → Bool} {l : List α} {x : α} (h : (l.dropWhile p).head? = some x) : p x = false := by
  induction l with
  | nil => cases h
  | cons y l ih =>
    cases hy : p y with
    | true =>
      simp only [List.dropWhile, hy] at h
      exact ih h
    | false =>
      simp only [List.dropWhile, hy, List.head?_cons, Option.some.injEq] at h
      rw [← h, hy]

theorem mem_takeWhile {α : Type} {p : α → Bool} {l : List α} {z : α} (h : z ∈ l.takeWhile p) : p z = true := by
  induction l with
  | nil => cases h
  | cons y l ih =>
    cases hy : p y with
    | true =>
      simp only [List.takeWhile, hy, List.mem_cons] at h
      rcases h with h | h
      · rw [h, hy]
      · exact ih h
    | false => simp [List.takeWhile, hy] at h

/-- The cells hold the items, the last first. -/
inductive Corr (sub : Nat → Option (DMap W)) : List (Cons W) → List (VItem W) → Prop
  | nil : Corr sub [] []
  | leaf {hd l tag arr w} : Corr sub hd l → Corr sub (.leaf tag arr w :: hd) (.leaf tag arr w :: l)
  | node {hd l tag arr id m} : Corr sub hd l → sub id = some m → Corr sub (.node tag arr id :: hd) (.node tag arr m :: l)

theorem same_refl (x : VItem W) : VItem.Same x x = true := by simp [VItem.Same]

theorem same_trans {x y z : VItem W} (h : VItem.Same x y = true) (h' : VItem.Same y z = true) : VItem.Same x z = true := by
  simp only [VItem.Same, Bool.and_eq_true, decide_eq_true_eq, beq_iff_eq] at *
  exact ⟨⟨h.1.1.trans h'.1.1, h.1.2.trans h'.1.2⟩, h.2.trans h'.2⟩

theorem same_symm {x y : VItem W} (h : VItem.Same x y = true) : VItem.Same y x = true := by
  simp only [VItem.Same, Bool.and_eq_true, decide_eq_true_eq, beq_iff_eq] at *
  exact ⟨⟨h.1.1.symm, h.1.2.symm⟩, h.2.symm⟩

theorem takeWhile_append_same {y : VItem W} {r b : List (VItem W)} (hy : y.isArray = true)
    (h : ∀ z ∈ (y :: r).getLast?, ∀ w ∈ b.head?, z.isArray = true → VItem.Same z w = false) :
    (r ++ b).takeWhile (VItem.Same y) = r.takeWhile (VItem.Same y) := by
  by_cases hr : ∀ z ∈ r, VItem.Same y z = true
  · rw [List.takeWhile_append_of_pos hr]
    have hall : r.takeWhile (VItem.Same y) = r := takeWhile_self hr
    rw [hall]
    cases b with
    | nil => simp
    | cons w b =>
      have hl : (y :: r).getLast? = some ((y :: r).getLast (by simp)) := List.getLast?_eq_some_getLast _
      have hz : VItem.Same y ((y :: r).getLast (by simp)) = true := by
        rcases List.mem_cons.mp (List.getLast_mem (l := y :: r) (by simp)) with h' | h'
        · rw [h']; exact same_refl y
        · exact hr _ h'
      have hza : ((y :: r).getLast (by simp)).isArray = true := by
        rw [← hy]
        simp only [VItem.Same, Bool.and_eq_true, decide_eq_true_eq, beq_iff_eq] at hz
        exact hz.1.2.symm
      have hw := h _ hl w rfl hza
      have : VItem.Same y w = false := by
        cases hs : VItem.Same y w with
        | false => rfl
        | true => rw [same_trans (same_symm hz) hs] at hw; cases hw
      simp [List.takeWhile, this]
  · have : ∃ z ∈ r, VItem.Same y z ≠ true := by
      apply Classical.byContradiction
      intro hc
      exact hr (fun z hz => Classical.byContradiction fun hn => hc ⟨z, hz, hn⟩)
    clear h hr
    induction r with
    | nil => obtain ⟨z, hz, _⟩ := this; cases hz
    | cons x r ih =>
      rw [List.cons_append]
      cases hx : VItem.Same y x with
      | false => simp [List.takeWhile, hx]
      | true =>
        simp only [List.takeWhile, hx]
        rw [ih]
        obtain ⟨z, hz, hn⟩ := this
        rcases List.mem_cons.mp hz with h' | h'
        · subst h'; exact absurd hx hn
        · exact ⟨z, h', hn⟩

theorem dropWhile_append_some {α : Type} {p : α → Bool} {a : List α} {y : α} {r : List α} (h : a.dropWhile p = y :: r) (b : List α) :
    (a ++ b).dropWhile p = y :: (r ++ b) := by
  induction a with
  | nil => cases h
  | cons x a ih =>
    rw [List.cons_append]
    cases hx : p x with
    | true =>
      simp only [List.dropWhile, hx] at h ⊢
      exact ih h
    | false =>
      simp only [List.dropWhile, hx, List.cons.injEq] at h ⊢
      exact ⟨h.1, by rw [h.2]⟩

theorem dropWhile_append_none {α : Type} {p : α → Bool} {a : List α} (h : a.dropWhile p = []) (b : List α) :
    (a ++ b).dropWhile p = b.dropWhile p := by
  induction a with
  | nil => rfl
  | cons x a ih =>
    rw [List.cons_append]
    cases hx : p x with
    | true =>
      simp only [List.dropWhile, hx] at h ⊢
      exact ih h
    | false => simp [List.dropWhile, hx] at h

theorem getLast_of_dropWhile {α : Type} {p : α → Bool} {a : List α} {y : α} {r : List α} (h : a.dropWhile p = y :: r) :
    (y :: r).getLast? = a.getLast? := by
  induction a with
  | nil => cases h
  | cons x a ih =>
    cases hx : p x with
    | true =>
      simp only [List.dropWhile, hx] at h
      rw [ih h]
      cases a with
      | nil => cases h
      | cons => simp [List.getLast?_cons_cons]
    | false =>
      simp only [List.dropWhile, hx] at h
      rw [h]

/-- Values of separate groups do not mix; the first wins. -/
theorem mapOf_append {a b : List (VItem W)}
    (h : ∀ z ∈ a.getLast?, ∀ w ∈ b.head?, z.isArray = true → VItem.Same z w = false) (tag : Str) :
    mapOf (a ++ b) tag = (mapOf a tag).or (mapOf b tag) := by
  cases hd : a.dropWhile (fun x => decide (x.tag ≠ tag)) with
  | nil =>
    simp only [mapOf]
    rw [dropWhile_append_none hd, hd]
    rfl
  | cons y r =>
    simp only [mapOf]
    rw [dropWhile_append_some hd, hd]
    rw [← getLast_of_dropWhile hd] at h
    cases y with
    | leaf t arr w =>
      cases arr with
      | false => rfl
      | true => simp only [takeWhile_append_same (y := .leaf t true w) rfl h, Option.or]
    | node t arr m =>
      cases arr with
      | false => rfl
      | true => simp only [takeWhile_append_same (y := .node t true m) rfl h, Option.or]

/-- The value of an array of items of the same kind. -/
theorem mapOf_same {x : VItem W} (hx : x.isArray = true) {l : List (VItem W)} (hne : l ≠ []) (h : ∀ z ∈ l, VItem.Same x z = true)
    (tag : Str) : mapOf l tag = if tag = x.tag then
      some (if x.isNode then .nodes (l.filterMap VItem.node?) else .leaves (l.filterMap VItem.leaf?)) else none := by
  have htag : ∀ z ∈ l, z.tag = x.tag := by
    intro z hz
    have := h z hz
    simp only [VItem.Same, Bool.and_eq_true, decide_eq_true_eq, beq_iff_eq] at this
    exact this.1.1.symm
  by_cases ht : tag = x.tag
  · rw [if_pos ht]
    cases l with
    | nil => exact absurd rfl hne
    | cons y r =>
      have hd : (y :: r).dropWhile (fun x => decide (x.tag ≠ tag)) = y :: r := by
        have : y.tag = tag := (htag y (by simp)).trans ht.symm
        simp [List.dropWhile, this]
      have hy := h y (by simp)
      have hr : r.takeWhile (VItem.Same y) = r := by
        refine takeWhile_self ?_
        intro z hz
        exact same_trans (same_symm hy) (h z (by simp [hz]))
      simp only [VItem.Same, Bool.and_eq_true, decide_eq_true_eq, beq_iff_eq] at hy
      rw [hx] at hy
      simp only [mapOf, hd]
      cases y with
      | leaf t arr w =>
        have h1 : arr = true := hy.1.2.symm
        have h2 : x.isNode = false := hy.2
        subst h1
        simp only [hr, h2, Bool.false_eq_true, if_false]
      | node t arr m =>
        have h1 : arr = true := hy.1.2.symm
        have h2 : x.isNode = true := hy.2
        subst h1
        simp only [hr, h2, if_true]
  · rw [if_neg ht]
    have hd : l.dropWhile (fun x => decide (x.tag ≠ tag)) = [] := by
      refine dropWhile_nil ?_
      intro z hz
      have := htag z hz
      simp only [ne_eq, decide_eq_true_eq]
      intro hc
      exact ht (hc.symm.trans this)
    simp only [mapOf, hd]

theorem mapOf_scalar {x : VItem W} (hx : x.isArray = false) (tag : Str) : mapOf [x] tag = if tag = x.tag then
    (match x with | .leaf _ _ w => some (.leaf w) | .node _ _ m => some (.node m)) else none := by
  by_cases ht : tag = x.tag
  · rw [if_pos ht]
    subst ht
    cases x with
    | leaf t arr w =>
      have : arr = false := hx
      subst this
      simp [mapOf, List.dropWhile]
    | node t arr m =>
      have : arr = false := hx
      subst this
      simp [mapOf, List.dropWhile]
  · rw [if_neg ht]
    have : decide (x.tag ≠ tag) = true := by simpa using fun h => ht h.symm
    simp [mapOf, List.dropWhile, this]

theorem Corr.length {sub : Nat → Option (DMap W)} {hd : List (Cons W)} {l : List (VItem W)} (h : Corr sub hd l) : l.length = hd.length := by
  induction h with
  | nil => rfl
  | leaf _ ih => simp [ih]
  | node _ _ ih => simp [ih]

theorem Corr.take {sub : Nat → Option (DMap W)} {hd : List (Cons W)} {l : List (VItem W)} (h : Corr sub hd l) : ∀ n,
    Corr sub (hd.take n) (l.take n) ∧ Corr sub (hd.drop n) (l.drop n) := by
  induction h with
  | nil => intro n; simpa using Corr.nil
  | leaf h ih =>
    intro n
    cases n with
    | zero => exact ⟨.nil, .leaf h⟩
    | succ n => exact ⟨.leaf (ih n).1, (ih n).2⟩
  | node h hs ih =>
    intro n
    cases n with
    | zero => exact ⟨.nil, .node h hs⟩
    | succ n => exact ⟨.node (ih n).1 hs, (ih n).2⟩

theorem cate_eq {x c : Cons W} {a b : VItem W} (h1 : x.tag = a.tag) (h2 : x.cate = (if a.isNode then 1 else 0) + (if a.isArray then 2 else 0))
    (h3 : c.tag = b.tag) (h4 : c.cate = (if b.isNode then 1 else 0) + (if b.isArray then 2 else 0)) :
    (x.cate ≠ c.cate ∨ x.tag ≠ c.tag) ↔ VItem.Same b a = false := by
  rw [h1, h2, h3, h4]
  simp only [VItem.Same, Bool.and_eq_false_iff, decide_eq_false_iff_not, beq_eq_false_iff_ne]
  cases a.isNode <;> cases a.isArray <;> cases b.isNode <;> cases b.isArray <;> simp [eq_comm]

theorem Corr.collect {sub : Nat → Option (DMap W)} {c : Cons W} {b : VItem W} (h3 : c.tag = b.tag)
    (h4 : c.cate = (if b.isNode then 1 else 0) + (if b.isArray then 2 else 0)) {hd : List (Cons W)} {l : List (VItem W)} (h : Corr sub hd l) :
    collectLoop c hd = (l.takeWhile (VItem.Same b)).length := by
  induction h with
  | nil => rfl
  | @leaf hd l tag arr w h ih =>
    have := cate_eq (x := .leaf tag arr w) (a := .leaf tag arr w) rfl (by cases arr <;> rfl) h3 h4
    cases hs : VItem.Same b (.leaf tag arr w) with
    | false => rw [collectLoop, if_pos (this.mpr hs)]; simp [List.takeWhile, hs]
    | true => rw [collectLoop, if_neg (by rw [this, hs]; simp), ih]; simp [List.takeWhile, hs]
  | @node hd l tag arr id m h hm ih =>
    have := cate_eq (x := .node tag arr id) (a := .node tag arr m) rfl (by cases arr <;> rfl) h3 h4
    cases hs : VItem.Same b (.node tag arr m) with
    | false => rw [collectLoop, if_pos (this.mpr hs)]; simp [List.takeWhile, hs]
    | true => rw [collectLoop, if_neg (by rw [this, hs]; simp), ih]; simp [List.takeWhile, hs]

theorem Corr.leafVals {sub : Nat → Option (DMap W)} {hd : List (Cons W)} {l : List (VItem W)} (h : Corr sub hd l) :
    leafVals hd = l.filterMap VItem.leaf? := by
  induction h with
  | nil => rfl
  | leaf _ ih => simp [Extractor.leafVals, VItem.leaf?, ih]
  | node _ _ ih => rw [Extractor.leafVals, ih]; rfl

theorem Corr.mapNodes {sub : Nat → Option (DMap W)} {hd : List (Cons W)} {l : List (VItem W)} (h : Corr sub hd l)
    (hn : ∀ z ∈ l, z.isNode = true) : mapNodes sub hd = some (l.filterMap VItem.node?) := by
  induction h with
  | nil => rfl
  | @leaf hd l tag arr w _ ih =>
    have : (VItem.leaf tag arr w).isNode = true := hn _ (List.mem_cons_self ..)
    cases this
  | node _ hs ih =>
    simp only [Extractor.mapNodes, hs, ih (fun z hz => hn z (by simp [hz]))]
    simp [VItem.node?]

theorem takeWhile_length_take {α : Type} (p : α → Bool) : ∀ l : List α, l.take (l.takeWhile p).length = l.takeWhile p ∧
    l.drop (l.takeWhile p).length = l.dropWhile p
  | [] => ⟨rfl, rfl⟩
  | x :: l => by
    cases h : p x with
    | true => simp [List.takeWhile, List.dropWhile, h, takeWhile_length_take p l]
    | false => simp [List.takeWhile, List.dropWhile, h]

/-- The map after a group of items is set. -/
theorem set_or (data : DMap W) (a : DMap W) (tag : Str) (v : Data W) :
    (fun t => (a t).or (data.set tag v t)) = fun t => ((a t).or (if t = tag then some v else none)).or (data t) := by
  funext t
  cases a t with
  | some => rfl
  | none =>
    simp only [Option.none_or, DMap.set]
    split <;> rfl

/-- Taking off the last group of an array. -/
theorem mapOf_group {x : VItem W} (hx : x.isArray = true) (l : List (VItem W)) (t : Str) :
    mapOf (x :: l).reverse t = (mapOf (l.dropWhile (VItem.Same x)).reverse t).or (if t = x.tag then
      some (if x.isNode then .nodes ((x :: l.takeWhile (VItem.Same x)).reverse.filterMap VItem.node?)
        else .leaves ((x :: l.takeWhile (VItem.Same x)).reverse.filterMap VItem.leaf?)) else none) := by
  have hsame : ∀ z ∈ (x :: l.takeWhile (VItem.Same x)).reverse, VItem.Same x z = true := by
    intro z hz
    rw [List.mem_reverse, List.mem_cons] at hz
    rcases hz with hz | hz
    · rw [hz]; exact same_refl _
    · exact mem_takeWhile hz
  have hsplit : (x :: l).reverse = (l.dropWhile (VItem.Same x)).reverse ++ (x :: l.takeWhile (VItem.Same x)).reverse := by
    rw [← List.reverse_append, List.cons_append, List.takeWhile_append_dropWhile]
  rw [hsplit, mapOf_append, mapOf_same hx (by simp) hsame]
  intro z hz w hw _
  rw [List.getLast?_reverse] at hz
  have hz := dropWhile_head hz
  have hw := hsame w (List.mem_of_mem_head? hw)
  cases hc : VItem.Same z w with
  | false => rfl
  | true => rw [same_trans hw (same_symm hc)] at hz; cases hz

theorem mapLoop_eq {sub : Nat → Option (DMap W)} : ∀ (f : Nat) (hd : List (Cons W)) (l : List (VItem W)) (data : DMap W),
    Corr sub hd l → hd.length ≤ f → mapLoop sub f hd data = some (fun t => (mapOf l.reverse t).or (data t))
  | f, _, _, data, .nil, _ => by cases f <;> rfl
  | 0, _, _, _, .leaf h, hf => by simp at hf
  | 0, _, _, _, .node h _, hf => by simp at hf
  | f + 1, _, _, data, .leaf (tag := tag) (arr := arr) (w := w) (hd := hd) (l := l) h, hf => by
    simp only [List.length_cons] at hf
    cases arr with
    | false =>
      rw [mapLoop, mapLoop_eq f hd l _ h (by omega), set_or]
      congr 1
      funext t
      rw [List.reverse_cons, mapOf_append (by simp [VItem.Same, VItem.isArray]; intro z _ hz; simp [hz]), mapOf_scalar rfl]
      rfl
    | true =>
      rw [mapLoop]
      have hc := h.collect (c := .leaf tag true w) (b := .leaf tag true w) rfl rfl
      have hfull : Corr sub (.leaf tag true w :: hd) (.leaf tag true w :: l) := .leaf h
      have ht := hfull.take (1 + collectLoop (.leaf tag true w) hd)
      rw [mapLoop_eq f _ _ _ ht.2 (by simp; omega), ht.1.leafVals, set_or]
      congr 1
      funext t
      rw [hc, Nat.add_comm 1, List.take_succ_cons, List.drop_succ_cons, (takeWhile_length_take _ l).1, (takeWhile_length_take _ l).2]
      rw [mapOf_group rfl]
      simp only [List.filterMap_reverse]
      rfl
  | f + 1, _, _, data, .node (tag := tag) (arr := arr) (id := id) (m := m) (hd := hd) (l := l) h hs, hf => by
    simp only [List.length_cons] at hf
    cases arr with
    | false =>
      rw [mapLoop, hs]
      dsimp only
      rw [mapLoop_eq f hd l _ h (by omega), set_or]
      congr 1
      funext t
      rw [List.reverse_cons, mapOf_append (by simp [VItem.Same, VItem.isArray]; intro z _ hz; simp [hz]), mapOf_scalar rfl]
      rfl
    | true =>
      rw [mapLoop]
      have hc := h.collect (c := .node tag true id) (b := .node tag true m) rfl rfl
      have hfull : Corr sub (.node tag true id :: hd) (.node tag true m :: l) := .node h hs
      have ht := hfull.take (1 + collectLoop (.node tag true id) hd)
      have hn : ∀ z ∈ (VItem.node tag true m :: l).take (1 + collectLoop (.node tag true id) hd), z.isNode = true := by
        intro z hz
        rw [hc, Nat.add_comm 1, List.take_succ_cons, (takeWhile_length_take _ l).1, List.mem_cons] at hz
        rcases hz with hz | hz
        · rw [hz]; rfl
        · have := mem_takeWhile hz
          simp only [VItem.Same, Bool.and_eq_true, decide_eq_true_eq, beq_iff_eq] at this
          exact this.2.symm
      rw [ht.1.mapNodes hn]
      dsimp only
      rw [mapLoop_eq f _ _ _ ht.2 (by simp; omega), set_or]
      congr 1
      funext t
      rw [hc, Nat.add_comm 1, List.take_succ_cons, List.drop_succ_cons, (takeWhile_length_take _ l).1, (takeWhile_length_take _ l).2]
      rw [mapOf_group rfl]
      simp only [List.filterMap_reverse]
      rfl

theorem Rep.corr {hds : Nat → List (Cons W)} {opens : List Nat} {nx lo f : Nat} {hd : List (Cons W)} {items : List (DItem W)}
    (h : Rep hds opens nx lo hd items)
    (hsub : ∀ id its, lo ≤ id → id ≤ nx → Rep hds opens nx (id + 1) (hds id) its → toMap hds f id = some (docOf its)) :
    Corr (toMap hds f) hd (convs items).reverse := by
  induction h with
  | nil => exact .nil
  | leaf _ ih =>
    rw [convs_append, List.reverse_append]
    exact .leaf (ih hsub)
  | node _ h1 h2 _ h4 ih1 _ =>
    rw [convs_append, List.reverse_append]
    exact .node (ih1 hsub) (hsub _ _ h1 h2 h4)

theorem toMap_eq {hds : Nat → List (Cons W)} {opens : List Nat} {nx : Nat} : ∀ (f id : Nat) (items : List (DItem W)),
    Rep hds opens nx (id + 1) (hds id) items → id ≤ nx → nx + 1 ≤ f + id → toMap hds f id = some (docOf items)
  | 0, id, items, _, h1, h2 => by omega
  | f + 1, id, items, h, h1, h2 => by
    rw [toMap, mapLoop_eq _ _ _ _ (h.corr (fun id' its' k1 k2 k3 => toMap_eq f id' its' k3 k2 (by omega))) (Nat.le_refl _),
      List.reverse_reverse]
    congr 1
    funext t
    exact Option.or_none ..

theorem result_eq {u : XEng W} {opens : List Nat} {items : List (DItem W)} (h : Rep u.hds opens u.next 1 (u.hds 0) items) :
    u.result = some (docOf items) := toMap_eq _ 0 _ h (Nat.zero_le _) (by omega)

end Tpl.Extractor
