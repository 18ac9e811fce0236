import Verif.Spec.Containers
import Verif.Proof.Builtin

/-! The heap of a program that works with the builtin functions is in order. -/
namespace Tpl.Qlang
open Tpl Spec
variable {F : Type} {α β : Type} {M : Fl F}

/-- The slice is a part of an array. -/
structure Sl.Valid (h : Heap F) (s : Sl) : Prop where
  len_le : s.len ≤ s.cap
  fits : s.off + s.cap ≤ (h.arrs s.arr).length
  old : s.arr < h.next

def ValidVal (h : Heap F) : QVal F → Prop
  | .slice s => s.Valid h
  | .map _ _ a => a < h.next
  | .obj a _ => a < h.next
  | _ => True

theorem valid_of_plain {h : Heap F} {v : QVal F} (hv : OffHeap v) : ValidVal h v := by
  cases v <;> first | trivial | exact hv.elim

/-- No key occurs twice. -/
def KeysDiffer (M : Fl F) (l : List (QVal F × QVal F)) : Prop := l.Pairwise fun p q => ¬ SameKey M p.1 q.1

structure ValidHeap (M : Fl F) (h : Heap F) : Prop where
  pos : 1 ≤ h.next
  arrs : ∀ a, ∀ v ∈ h.arrs a, ValidVal h v
  maps : ∀ a, ∀ p ∈ h.maps a, ValidVal h p.1 ∧ ValidVal h p.2 ∧ p.2 ≠ .undefined
  objs : ∀ a n v, h.objs a n = some v → ValidVal h v
  keys : ∀ a, KeysDiffer M (h.maps a)
  fresh : ∀ a, h.next ≤ a → h.arrs a = [] ∧ h.maps a = [] ∧ ∀ n, h.objs a n = none

/-- A later heap. -/
structure Later (h h' : Heap F) : Prop where
  next : h.next ≤ h'.next
  arrs : ∀ a < h.next, (h'.arrs a).length = (h.arrs a).length

theorem Later.refl (h : Heap F) : Later h h := ⟨Nat.le_refl _, fun _ _ => rfl⟩

theorem Later.trans {h h' h'' : Heap F} (a : Later h h') (b : Later h' h'') : Later h h'' :=
  ⟨Nat.le_trans a.next b.next, fun x hx => (b.arrs x (Nat.lt_of_lt_of_le hx a.next)).trans (a.arrs x hx)⟩

theorem Later.slice {h h' : Heap F} (l : Later h h') {s : Sl} (v : s.Valid h) : s.Valid h' :=
  ⟨v.len_le, by rw [l.arrs _ v.old]; exact v.fits, Nat.lt_of_lt_of_le v.old l.next⟩

theorem Later.val {h h' : Heap F} (l : Later h h') {v : QVal F} (hv : ValidVal h v) : ValidVal h' v := by
  cases v <;> first | trivial | skip
  · exact l.slice hv
  · exact Nat.lt_of_lt_of_le hv l.next
  · exact Nat.lt_of_lt_of_le hv l.next

/-- The call leaves the heap in order. -/
def Safe (M : Fl F) (P : Heap F → Prop) (x : HM F α) (Q : α → Heap F → Prop) : Prop :=
  ∀ h, ValidHeap M h → P h → Later h (x h).2 ∧ ValidHeap M (x h).2 ∧ ∀ a, (x h).1 = .ok a → Q a (x h).2

/-- Conditions that stay true. -/
def Stable (P : Heap F → Prop) : Prop := ∀ h h', Later h h' → P h → P h'

theorem stable_val (v : QVal F) : Stable fun h => ValidVal h v := fun _ _ l hv => l.val hv
theorem stable_vals (vs : List (QVal F)) : Stable fun h => ∀ v ∈ vs, ValidVal h v := fun _ _ l hv v hm => l.val (hv v hm)
theorem stable_slice (s : Sl) : Stable (F := F) fun h => s.Valid h := fun _ _ l hv => l.slice hv
theorem Stable.and {P Q : Heap F → Prop} (hp : Stable P) (hq : Stable Q) : Stable fun h => P h ∧ Q h :=
  fun _ _ l h => ⟨hp _ _ l h.1, hq _ _ l h.2⟩
theorem stable_lt (a : Nat) : Stable (F := F) fun h => a < h.next := fun _ _ l h => Nat.lt_of_lt_of_le h l.next

theorem safe_bind {P : Heap F → Prop} {x : HM F α} {k : α → HM F β} {Q : α → Heap F → Prop} {R : β → Heap F → Prop} (hP : Stable P)
    (hx : Safe M P x Q) (hk : ∀ a, Safe M (fun h => P h ∧ Q a h) (k a) R) : Safe M P (x >>= k) R := by
  intro h hv hp
  obtain ⟨l1, v1, q1⟩ := hx h hv hp
  rw [hm_bind]
  cases hr : x h with
  | mk r h1 =>
    rw [hr] at l1 v1 q1
    cases r with
    | error p => exact ⟨l1, v1, fun a ha => by cases ha⟩
    | ok a =>
      obtain ⟨l2, v2, q2⟩ := hk a h1 v1 ⟨hP _ _ l1 hp, q1 a rfl⟩
      exact ⟨l1.trans l2, v2, q2⟩

theorem safe_ret {P : Heap F → Prop} {a : α} {Q : α → Heap F → Prop} (h : ∀ h, P h → Q a h) : Safe M P (pure a) Q :=
  fun h0 hv hp => ⟨.refl _, hv, fun b hb => by cases hb; exact h _ hp⟩

theorem safe_throw {P : Heap F → Prop} {p : QPanic F} {Q : α → Heap F → Prop} : Safe M P (HM.throw p) Q :=
  fun _ hv _ => ⟨.refl _, hv, fun b hb => by cases hb⟩

/-- Code that only reads. -/
theorem safe_read {P : Heap F → Prop} {f : Heap F → Except (QPanic F) α} {Q : α → Heap F → Prop}
    (h : ∀ h a, ValidHeap M h → P h → f h = .ok a → Q a h) : Safe M P (fun h => (f h, h)) Q :=
  fun h0 hv hp => ⟨.refl _, hv, fun a ha => h h0 a hv hp ha⟩

theorem safe_lift {P : Heap F → Prop} {e : Except (QPanic F) α} {Q : α → Heap F → Prop} (h : ∀ h a, P h → e = .ok a → Q a h) :
    Safe M P (HM.lift e) Q := safe_read fun h0 a _ hp he => h h0 a hp he

theorem safe_mono {P P' : Heap F → Prop} {x : HM F α} {Q Q' : α → Heap F → Prop} (hx : Safe M P x Q) (hp : ∀ h, P' h → P h)
    (hq : ∀ a h, Q a h → Q' a h) : Safe M P' x Q' :=
  fun h hv h1 => ⟨(hx h hv (hp h h1)).1, (hx h hv (hp h h1)).2.1, fun a ha => hq _ _ ((hx h hv (hp h h1)).2.2 a ha)⟩

theorem valid_alloc {h : Heap F} (hv : ValidHeap M h) : Later h { h with next := h.next + 1 } ∧ ValidHeap M { h with next := h.next + 1 } := by
  have hl : Later h { h with next := h.next + 1 } := ⟨Nat.le_succ _, fun _ _ => rfl⟩
  exact ⟨hl, ⟨Nat.le_add_left _ _, fun a v hm => hl.val (hv.arrs a v hm), fun a p hm => ⟨hl.val (hv.maps a p hm).1, hl.val (hv.maps a p hm).2.1, (hv.maps a p hm).2.2⟩,
    fun a n v he => hl.val (hv.objs a n v he), hv.keys, fun a ha => hv.fresh a (Nat.le_of_succ_le ha)⟩⟩

/-- The heap with a new array. -/
def Heap.newArr (h : Heap F) (l : List (QVal F)) : Heap F := Heap.withArr { h with next := h.next + 1 } h.next l

theorem valid_newArr {h : Heap F} (hv : ValidHeap M h) {l : List (QVal F)} (hl : ∀ v ∈ l, ValidVal h v) :
    Later h (h.newArr l) ∧ ValidHeap M (h.newArr l) := by
  have hlater : Later h (h.newArr l) := by
    refine ⟨Nat.le_succ _, fun x hx => ?_⟩
    show (if x = h.next then l else h.arrs x).length = _
    rw [if_neg (by omega)]
  refine ⟨hlater, ⟨Nat.le_add_left _ _, ?_, fun a p hm => ⟨hlater.val (hv.maps a p hm).1, hlater.val (hv.maps a p hm).2.1, (hv.maps a p hm).2.2⟩,
    fun a n v he => hlater.val (hv.objs a n v he), hv.keys, ?_⟩⟩
  · intro x v hm
    change v ∈ (if x = h.next then l else h.arrs x) at hm
    split at hm
    · exact hlater.val (hl v hm)
    · exact hlater.val (hv.arrs x v hm)
  · intro x hx
    have hx : h.next + 1 ≤ x := hx
    refine ⟨?_, (hv.fresh x (by omega)).2⟩
    show (if x = h.next then l else h.arrs x) = []
    rw [if_neg (by omega)]
    exact (hv.fresh x (by omega)).1

theorem valid_setArr {h : Heap F} (hv : ValidHeap M h) {a : Nat} {l : List (QVal F)} (ha : a < h.next) (h2 : ∀ v ∈ l, ValidVal h v)
    (h3 : l.length = (h.arrs a).length) : Later h (h.withArr a l) ∧ ValidHeap M (h.withArr a l) := by
  have hlater : Later h (h.withArr a l) := by
    refine ⟨Nat.le_refl _, fun x _ => ?_⟩
    show (if x = a then l else h.arrs x).length = _
    split
    · next he => rw [h3, he]
    · rfl
  refine ⟨hlater, ⟨hv.pos, ?_, fun a p hm => ⟨hlater.val (hv.maps a p hm).1, hlater.val (hv.maps a p hm).2.1, (hv.maps a p hm).2.2⟩,
    fun a n v he => hlater.val (hv.objs a n v he), hv.keys, ?_⟩⟩
  · intro x v hm
    change v ∈ (if x = a then l else h.arrs x) at hm
    split at hm
    · exact hlater.val (h2 v hm)
    · exact hlater.val (hv.arrs x v hm)
  · intro x hx
    have hx : h.next ≤ x := hx
    refine ⟨?_, (hv.fresh x hx).2⟩
    show (if x = a then l else h.arrs x) = []
    rw [if_neg (by omega)]
    exact (hv.fresh x hx).1

theorem valid_setMap {h : Heap F} (hv : ValidHeap M h) {a : Nat} {l : List (QVal F × QVal F)} (ha : a < h.next)
    (h2 : ∀ p ∈ l, ValidVal h p.1 ∧ ValidVal h p.2 ∧ p.2 ≠ .undefined) (h3 : KeysDiffer M l) : Later h (h.withMap a l) ∧ ValidHeap M (h.withMap a l) := by
  have hlater : Later h (h.withMap a l) := ⟨Nat.le_refl _, fun x _ => rfl⟩
  refine ⟨hlater, ⟨hv.pos, fun a v hm => hlater.val (hv.arrs a v hm), ?_, fun a n v he => hlater.val (hv.objs a n v he), ?_, ?_⟩⟩
  · intro x p hm
    change p ∈ (if x = a then l else h.maps x) at hm
    split at hm
    · exact ⟨hlater.val (h2 p hm).1, hlater.val (h2 p hm).2.1, (h2 p hm).2.2⟩
    · exact ⟨hlater.val (hv.maps x p hm).1, hlater.val (hv.maps x p hm).2.1, (hv.maps x p hm).2.2⟩
  · intro x
    show KeysDiffer M (if x = a then l else h.maps x)
    split
    · exact h3
    · exact hv.keys x
  · intro x hx
    have hx : h.next ≤ x := hx
    refine ⟨(hv.fresh x hx).1, ?_, (hv.fresh x hx).2.2⟩
    show (if x = a then l else h.maps x) = []
    rw [if_neg (by omega)]
    exact (hv.fresh x hx).2.1

/-- The heap with other variables of an object. -/
def Heap.withObj (h : Heap F) (a : Nat) (f : Str → Option (QVal F)) : Heap F := { h with objs := fun i => if i = a then f else h.objs i }

theorem valid_setObj {h : Heap F} (hv : ValidHeap M h) {a : Nat} {f : Str → Option (QVal F)} (ha : a < h.next)
    (h2 : ∀ n v, f n = some v → ValidVal h v) : Later h (h.withObj a f) ∧ ValidHeap M (h.withObj a f) := by
  have hlater : Later h (h.withObj a f) := ⟨Nat.le_refl _, fun x _ => rfl⟩
  refine ⟨hlater, ⟨hv.pos, fun a v hm => hlater.val (hv.arrs a v hm), fun a p hm => ⟨hlater.val (hv.maps a p hm).1, hlater.val (hv.maps a p hm).2.1, (hv.maps a p hm).2.2⟩,
    ?_, hv.keys, ?_⟩⟩
  · intro x n v he
    change (if x = a then f else h.objs x) n = some v at he
    split at he
    · exact hlater.val (h2 n v he)
    · exact hlater.val (hv.objs x n v he)
  · intro x hx
    have hx : h.next ≤ x := hx
    refine ⟨(hv.fresh x hx).1, (hv.fresh x hx).2.1, ?_⟩
    show ∀ n, (if x = a then f else h.objs x) n = none
    rw [if_neg (by omega)]
    exact (hv.fresh x hx).2.2

theorem valid_zero {h : Heap F} (hv : ValidHeap M h) (t : Ty) : ValidVal h (zeroOf M t) := by
  cases t <;> first | trivial | exact ⟨Nat.le_refl _, Nat.zero_le _, hv.pos⟩

/-! ### Slices -/

theorem makeSlice_run (t : Ty) (n cap : Nat) (h : Heap F) :
    makeSlice M t n cap h = (.ok ⟨t, h.next, 0, n, cap⟩, h.newArr (List.replicate cap (zeroOf M t))) := rfl

theorem safe_makeSlice (t : Ty) {n cap : Nat} (hn : n ≤ cap) : Safe M (fun _ => True) (makeSlice M t n cap) fun s h => s.Valid h := by
  intro h hv _
  rw [makeSlice_run]
  obtain ⟨h1, h2⟩ := valid_newArr hv (l := List.replicate cap (zeroOf M t)) (fun v hm => by rw [(List.mem_replicate.1 hm).2]; exact valid_zero hv t)
  refine ⟨h1, h2, ?_⟩
  intro s hs
  cases hs
  exact ⟨hn, by simp [Heap.newArr, Heap.withArr], Nat.lt_succ_self _⟩

/-- Appending within the capacity, and beyond. -/
theorem appendRaw_in {s : Sl} {vals : List (QVal F)} {h : Heap F} (hc : s.len + vals.length ≤ s.cap) :
    appendRaw M s vals h = (.ok { s with len := s.len + vals.length },
      h.withArr s.arr ((h.arrs s.arr).take (s.off + s.len) ++ vals ++ (h.arrs s.arr).drop (s.off + s.len + vals.length))) := appendRaw_fits hc

/-- The capacity after growing. -/
def grown (M : Fl F) (s : Sl) (n : Nat) : Nat := Nat.max (s.len + n) (M.grow s.cap (s.len + n))

theorem grown_le (s : Sl) (n : Nat) : s.len + n ≤ grown M s n := Nat.le_max_left ..

theorem appendRaw_out {s : Sl} {vals : List (QVal F)} {h : Heap F} (hc : ¬ s.len + vals.length ≤ s.cap) :
    appendRaw M s vals h = (.ok ⟨s.elem, h.next, 0, s.len + vals.length, grown M s vals.length⟩,
      h.newArr (h.elems s ++ vals ++ List.replicate (grown M s vals.length - (s.len + vals.length)) (zeroOf M s.elem))) := by
  unfold appendRaw
  rw [hm_bind_ok (rfl : HM.get h = (.ok h, h))]
  dsimp only
  rw [if_neg hc]
  rfl

theorem Sl.Valid.elems_length {h : Heap F} {s : Sl} (v : s.Valid h) : (h.elems s).length = s.len := by
  have := v.fits
  have := v.len_le
  simp only [Heap.elems, List.length_take, List.length_drop]
  omega

theorem valid_elems {h : Heap F} (hv : ValidHeap M h) (s : Sl) : ∀ v ∈ h.elems s, ValidVal h v :=
  fun v hm => hv.arrs s.arr v (List.mem_of_mem_drop (List.mem_of_mem_take hm))

theorem safe_appendRaw (s : Sl) (vals : List (QVal F)) :
    Safe M (fun h => s.Valid h ∧ ∀ v ∈ vals, ValidVal h v) (appendRaw M s vals) fun s h => s.Valid h := by
  intro h hv ⟨hs, hvs⟩
  have h1 := hs.len_le
  have h2 := hs.fits
  by_cases hc : s.len + vals.length ≤ s.cap
  · rw [appendRaw_in hc]
    have hlen : ((h.arrs s.arr).take (s.off + s.len) ++ vals ++ (h.arrs s.arr).drop (s.off + s.len + vals.length)).length = (h.arrs s.arr).length := by
      simp only [List.length_append, List.length_take, List.length_drop]
      omega
    obtain ⟨l1, l2⟩ := valid_setArr hv hs.old (l := (h.arrs s.arr).take (s.off + s.len) ++ vals ++ (h.arrs s.arr).drop (s.off + s.len + vals.length))
      (by
        intro v hm
        rcases List.mem_append.1 hm with hm | hm
        · rcases List.mem_append.1 hm with hm | hm
          · exact hv.arrs _ _ (List.mem_of_mem_take hm)
          · exact hvs v hm
        · exact hv.arrs _ _ (List.mem_of_mem_drop hm)) hlen
    refine ⟨l1, l2, ?_⟩
    intro s' hs'
    cases hs'
    have h3 := l1.slice hs
    exact ⟨hc, h3.fits, h3.old⟩
  · rw [appendRaw_out hc]
    have hz := valid_zero hv s.elem
    obtain ⟨l1, l2⟩ := valid_newArr hv
      (l := h.elems s ++ vals ++ List.replicate (grown M s vals.length - (s.len + vals.length)) (zeroOf M s.elem))
      (by
        intro v hm
        rcases List.mem_append.1 hm with hm | hm
        · rcases List.mem_append.1 hm with hm | hm
          · exact valid_elems hv s v hm
          · exact hvs v hm
        · rw [(List.mem_replicate.1 hm).2]; exact hz)
    refine ⟨l1, l2, ?_⟩
    intro s' hs'
    cases hs'
    refine ⟨grown_le s _, ?_, Nat.lt_succ_self _⟩
    have := grown_le (M := M) s vals.length
    simp [Heap.newArr, Heap.withArr, hs.elems_length]
    omega

theorem safe_appendFloat : ∀ (vals : List (QVal F)) (s : Sl), Safe M (fun h => s.Valid h) (appendFloat M s vals) fun s h => s.Valid h
  | [], s => safe_ret fun _ h => h
  | v :: vals, s => by
    have key : ∀ x, Safe M (fun h => s.Valid h) (do appendFloat M (← appendRaw M s [.float x]) vals) fun s h => s.Valid h := fun x =>
      safe_bind (stable_slice s) (safe_mono (safe_appendRaw s _) (fun h hs => ⟨hs, by intro v hm; rw [List.mem_singleton.1 hm]; trivial⟩) fun _ _ h => h)
        fun s' => safe_mono (safe_appendFloat vals s') (fun _ h => h.2) fun _ _ h => h
    cases v <;> first | exact key _ | exact safe_throw

theorem appendArgs_cons {t : Ty} {v : QVal F} (hn : v ≠ .nil) (vals : List (QVal F)) : appendArgs M t (v :: vals) =
    if assignable v t then (do let a ← appendArgs M t vals; pure (v :: a)) else .error reflectMsg := by
  by_cases hat : assignable v t = true
  · rw [if_pos hat]
    cases v <;> first | exact absurd rfl hn | (rw [appendArgs] <;> first | exact hn | (simp only [hat, if_true]; rfl))
  · rw [if_neg hat]
    cases v <;> first | exact absurd rfl hn | (rw [appendArgs] <;> first | exact hn | (simp only [hat]; rfl))

theorem safe_appendArgs (t : Ty) : ∀ (vals x : List (QVal F)) (h : Heap F), ValidHeap M h → (∀ v ∈ vals, ValidVal h v) → appendArgs M t vals = .ok x →
    ∀ v ∈ x, ValidVal h v
  | [], x, h, hv, hvs, he => by cases he; intro v hm; cases hm
  | v :: vals, x, h, hv, hvs, he => by
    have key : ∀ w, ValidVal h w → (do let a ← appendArgs M t vals; pure (w :: a)) = Except.ok (ε := QPanic F) x → ∀ v ∈ x, ValidVal h v := by
      intro w hw he
      cases ha : appendArgs M t vals with
      | error p => rw [ha] at he; cases he
      | ok a =>
        rw [ha] at he
        cases he
        intro u hm
        rcases List.mem_cons.1 hm with rfl | hm
        · exact hw
        · exact safe_appendArgs t vals a h hv (fun v hm => hvs v (List.mem_cons_of_mem _ hm)) ha u hm
    by_cases hn : v = .nil
    · subst hn
      exact key _ (valid_zero hv t) he
    · rw [appendArgs_cons hn] at he
      split at he
      · exact key v (hvs v (List.mem_cons_self ..)) he
      · cases he

/-- The call gives values that are in order. -/
abbrev SafeVal (M : Fl F) (P : Heap F → Prop) (x : HM F (QVal F)) : Prop := Safe M P x fun v h => ValidVal h v

theorem safe_slice {P : Heap F → Prop} (hP : Stable P) {x : HM F Sl} (hx : Safe M P x fun s h => s.Valid h) : SafeVal M P (do pure (.slice (← x))) :=
  safe_bind hP hx fun _ => safe_ret fun _ h => h.2

theorem appendPre_cons {t : Ty} {v : QVal F} (hn : v ≠ .nil) (vals : List (QVal F)) :
    appendPre M t (v :: vals) = if assignable v t then v :: appendPre M t vals else [] := by
  cases v <;> first | exact absurd rfl hn | rfl

theorem safe_appendPre (t : Ty) {h : Heap F} (hv : ValidHeap M h) : ∀ (vals : List (QVal F)), (∀ v ∈ vals, ValidVal h v) →
    ∀ v ∈ appendPre M t vals, ValidVal h v
  | [], _ => by intro v hm; cases hm
  | v :: vals, hvs => by
    have ih := safe_appendPre t hv vals fun v hm => hvs v (List.mem_cons_of_mem _ hm)
    have key : ∀ w, ValidVal h w → ∀ u ∈ w :: appendPre M t vals, ValidVal h u := by
      intro w hw u hm
      rcases List.mem_cons.1 hm with rfl | hm
      · exact hw
      · exact ih u hm
    by_cases hn : v = .nil
    · subst hn
      exact key _ (valid_zero hv t)
    · rw [appendPre_cons hn]
      split
      · exact key _ (hvs v (List.mem_cons_self ..))
      · intro u hm; cases hm

theorem length_appendPre (t : Ty) : ∀ vals : List (QVal F), (appendPre M t vals).length ≤ vals.length
  | [] => Nat.le_refl _
  | v :: vals => by
    have ih := length_appendPre t vals
    by_cases hn : v = .nil
    · subst hn
      exact Nat.succ_le_succ ih
    · rw [appendPre_cons hn]
      split
      · exact Nat.succ_le_succ ih
      · exact Nat.zero_le _

theorem safe_appendReflect (s : Sl) (vals : List (QVal F)) :
    Safe M (fun h => s.Valid h ∧ ∀ v ∈ vals, ValidVal h v) (appendReflect M s vals) fun s h => s.Valid h := by
  intro h hv hp
  unfold appendReflect
  cases hx : appendArgs M s.elem vals with
  | ok x => exact safe_appendRaw s x h hv ⟨hp.1, safe_appendArgs _ vals x h hv hp.2 hx⟩
  | error p =>
    dsimp only
    split
    · have := safe_appendRaw s (appendPre M s.elem vals) h hv ⟨hp.1, safe_appendPre _ hv vals hp.2⟩
      obtain ⟨b, h', e⟩ : ∃ b h', appendRaw M s (appendPre M s.elem vals) h = (.ok b, h') := by
        by_cases hc : s.len + (appendPre M s.elem vals).length ≤ s.cap
        · exact ⟨_, _, appendRaw_in hc⟩
        · exact ⟨_, _, appendRaw_out hc⟩
      rw [hm_bind_ok e]
      rw [e] at this
      exact ⟨this.1, this.2.1, fun _ he => by cases he⟩
    · exact ⟨.refl _, hv, fun _ he => by cases he⟩

theorem safe_Append (a : QVal F) (vals : List (QVal F)) : SafeVal M (fun h => ValidVal h a ∧ ∀ v ∈ vals, ValidVal h v) (Append M a vals) := by
  have hst := (stable_val a).and (stable_vals vals)
  cases a <;> first | exact safe_throw | skip
  rename_i s
  unfold Append
  dsimp only
  split
  · exact safe_slice hst (safe_mono (safe_appendFloat vals s) (fun _ h => h.1) fun _ _ h => h)
  · split
    · exact safe_slice hst (safe_mono (safe_appendRaw s vals) (fun _ h => h) fun _ _ h => h)
    · exact safe_slice hst (safe_mono (safe_appendReflect s vals) (fun _ h => h) fun _ _ h => h)

theorem safe_SliceFrom (args : List (QVal F)) : SafeVal M (fun h => ∀ v ∈ args, ValidVal h v) (SliceFrom M args) := by
  have hst := stable_vals args
  have key : ∀ t, SafeVal M (fun h => ∀ v ∈ args, ValidVal h v) (do Append M (.slice (← makeSlice M t 0 args.length)) args) := fun t =>
    safe_bind (Q := fun s h => s.Valid h) hst (safe_mono (safe_makeSlice t (Nat.zero_le _)) (fun _ _ => trivial) fun _ _ h => h) fun s =>
      safe_mono (safe_Append (.slice s) args) (fun _ h => ⟨h.2, h.1⟩) fun _ _ h => h
  unfold SliceFrom
  dsimp only
  split
  · exact fun h hv _ => ⟨.refl _, hv, fun v hv' => by cases hv'; exact ⟨Nat.le_refl _, Nat.zero_le _, hv.pos⟩⟩
  · split
    · exact key _
    · split
      · refine safe_bind (Q := fun s h => s.Valid h) hst (safe_mono (safe_makeSlice _ (Nat.zero_le _)) (fun _ _ => trivial) fun _ _ h => h) fun s => ?_
        exact safe_slice (hst.and (stable_slice s)) (safe_mono (safe_appendFloat args s) (fun _ h => h.2) fun _ _ h => h)
      · split <;> exact key _

theorem safe_MakeSlice (t : QVal F) (args : List (QVal F)) : SafeVal M (fun _ => True) (MakeSlice M t args) := by
  have hst : Stable (F := F) fun _ => True := fun _ _ _ h => h
  unfold MakeSlice
  dsimp only
  refine safe_bind (Q := fun _ _ => True) hst (safe_lift fun _ _ _ _ => trivial) fun x => ?_
  refine safe_bind (Q := fun _ _ => True) (hst.and hst) (safe_lift fun _ _ _ _ => trivial) fun t => ?_
  split
  · rename_i hc
    refine safe_slice ((hst.and hst).and hst) (safe_mono (safe_makeSlice t ?_) (fun _ _ => trivial) fun _ _ h => h)
    omega
  · exact safe_throw

theorem except_ok {ε : Type} {x : Except ε α} {f : α → Except ε β} {b : β} (h : (x >>= f) = .ok b) : ∃ a, x = .ok a ∧ f a = .ok b := by
  cases x with
  | error e => cases h
  | ok a => exact ⟨a, rfl, h⟩

theorem subSlice_slice {h : Heap F} {s : Sl} {i j v : QVal F} : SubSlice h (.slice s) i j = .ok v ↔
    ∃ i1 j1, EndAt 0 i i1 ∧ EndAt s.len j j1 ∧ 0 ≤ i1 ∧ i1 ≤ j1 ∧ j1 ≤ s.cap ∧
      v = .slice { s with off := s.off + i1.toNat, len := (j1 - i1).toNat, cap := s.cap - i1.toNat } := by
  have key : ∀ i1 j1 : Int, (if 0 ≤ i1 ∧ i1 ≤ j1 ∧ j1 ≤ s.cap then
        .ok (.slice { s with off := s.off + i1.toNat, len := (j1 - i1).toNat, cap := s.cap - i1.toNat })
      else .error reflectMsg : QRes F) = .ok v ↔ 0 ≤ i1 ∧ i1 ≤ j1 ∧ j1 ≤ s.cap ∧
      v = .slice { s with off := s.off + i1.toNat, len := (j1 - i1).toNat, cap := s.cap - i1.toNat } := by
    intro i1 j1
    split
    · rename_i hc
      constructor
      · intro h; cases h; exact ⟨hc.1, hc.2.1, hc.2.2, rfl⟩
      · intro h; rw [h.2.2.2]
    · rename_i hc
      constructor
      · intro h; cases h
      · intro h; exact absurd ⟨h.1, h.2.1, h.2.2.1⟩ hc
  constructor
  · intro he
    cases i <;> cases j <;> first
      | exact ⟨_, _, .nil, .nil, (key _ _).1 he⟩
      | exact ⟨_, _, .nil, .int _, (key _ _).1 he⟩
      | exact ⟨_, _, .int _, .nil, (key _ _).1 he⟩
      | exact ⟨_, _, .int _, .int _, (key _ _).1 he⟩
      | (cases he; done)
  · rintro ⟨i1, j1, hi, hj, hc⟩
    cases hi <;> cases hj <;> exact (key _ _).2 hc

theorem safe_SubSlice (a i j : QVal F) : SafeVal M (fun h => ValidVal h a) (fun h => (SubSlice h a i j, h)) := by
  refine safe_read fun h v hv ha he => ?_
  by_cases hs : ∃ s, a = .slice s
  · obtain ⟨s, rfl⟩ := hs
    obtain ⟨i1, j1, _, _, h0, h1, h2, rfl⟩ := subSlice_slice.1 he
    have := ha.fits
    refine ⟨?_, ?_, ha.old⟩ <;> dsimp only <;> omega
  · have hp : OffHeap v := by
      have key : ∀ (b : Prop) [Decidable b] (w : QVal F), OffHeap w → (if b then pure w else .error reflectMsg : QRes F) = .ok v → OffHeap v := by
        intro b _ w hw he
        split at he
        · cases he; exact hw
        · cases he
      cases i <;> first
        | (cases he; done)
        | (cases j <;> first
          | (cases he; done)
          | (cases a <;> first
            | exact absurd ⟨_, rfl⟩ hs
            | (cases he; done)
            | exact key _ (.str _) trivial he
            | exact key _ (.code _) trivial he))
    exact valid_of_plain hp

theorem get_slice {h : Heap F} {s : Sl} {k v : QVal F} : Get M h (.slice s) k = .ok v ↔
    ∃ i : Nat, k = .int i ∧ i < s.len ∧ (h.elems s)[i]? = some v := by
  constructor
  · intro he
    cases k <;> first | (cases he; done) | skip
    rename_i n
    have he : (if 0 ≤ n ∧ n < s.len then match (h.elems s)[n.toNat]? with
        | some v => pure v
        | none => .error reflectMsg
      else .error reflectMsg : QRes F) = .ok v := he
    split at he
    · rename_i hc
      split at he
      · rename_i w hw
        cases he
        exact ⟨n.toNat, by rw [Int.toNat_of_nonneg hc.1], by omega, hw⟩
      · cases he
    · cases he
  · rintro ⟨i, rfl, hi, hv⟩
    show (if 0 ≤ (i : Int) ∧ (i : Int) < s.len then match (h.elems s)[(i : Int).toNat]? with
        | some v => pure v
        | none => .error reflectMsg
      else .error reflectMsg : QRes F) = .ok v
    rw [if_pos ⟨by omega, by omega⟩, Int.toNat_natCast, hv]
    rfl

theorem elems_get {h : Heap F} {s : Sl} {i : Nat} (hi : i < s.len) : (h.elems s)[i]? = (h.arrs s.arr)[s.off + i]? := by
  rw [Heap.elems, List.getElem?_take_of_lt hi, List.getElem?_drop]

/-! ### Maps -/

theorem putKey_keys (key v : QVal F) : ∀ l : List (QVal F × QVal F), KeysDiffer M l → KeysDiffer M (putKey M key v l) ∧
    ∀ p ∈ putKey M key v l, p.1 = key ∨ ∃ q ∈ l, p.1 = q.1
  | [], _ => ⟨List.pairwise_singleton .., fun p hp => .inl (by rw [List.mem_singleton.1 hp])⟩
  | (k, w) :: l, h => by
    have h := List.pairwise_cons.1 h
    rw [putKey]
    split
    · refine ⟨List.pairwise_cons.2 ⟨h.1, h.2⟩, fun p hp => .inr ?_⟩
      rcases List.mem_cons.1 hp with rfl | hp
      · exact ⟨_, List.mem_cons_self .., rfl⟩
      · exact ⟨p, List.mem_cons_of_mem _ hp, rfl⟩
    · rename_i hk
      obtain ⟨h1, h2⟩ := putKey_keys key v l h.2
      refine ⟨List.pairwise_cons.2 ⟨?_, h1⟩, ?_⟩
      · intro p hp
        rcases h2 p hp with he | ⟨q, hq, he⟩
        · rw [he]; exact hk
        · rw [he]; exact h.1 q hq
      · intro p hp
        rcases List.mem_cons.1 hp with rfl | hp
        · exact .inr ⟨_, List.mem_cons_self .., rfl⟩
        · exact (h2 p hp).imp_right fun ⟨q, hq, he⟩ => ⟨q, List.mem_cons_of_mem _ hq, he⟩

theorem putKey_vals (key v : QVal F) : ∀ l : List (QVal F × QVal F), ∀ p ∈ putKey M key v l, p.2 = v ∨ ∃ q ∈ l, p.2 = q.2
  | [], p, hp => .inl (by rw [List.mem_singleton.1 hp])
  | (k, w) :: l, p, hp => by
    rw [putKey] at hp
    split at hp
    · rcases List.mem_cons.1 hp with rfl | hp
      · exact .inl rfl
      · exact .inr ⟨p, List.mem_cons_of_mem _ hp, rfl⟩
    · rcases List.mem_cons.1 hp with rfl | hp
      · exact .inr ⟨_, List.mem_cons_self .., rfl⟩
      · exact (putKey_vals key v l p hp).imp_right fun ⟨q, hq, he⟩ => ⟨q, List.mem_cons_of_mem _ hq, he⟩

theorem delKey_sub (key : QVal F) : ∀ l : List (QVal F × QVal F), (delKey M key l).Sublist l
  | [] => .slnil
  | (k, w) :: l => by
    rw [delKey]
    split
    · exact List.sublist_cons_self ..
    · exact (delKey_sub key l).cons_cons _

theorem findKey_mem {key v : QVal F} : ∀ {l : List (QVal F × QVal F)}, findKey M key l = some v → ∃ k, (k, v) ∈ l
  | (k, w) :: l, h => by
    rw [findKey] at h
    split at h
    · cases h; exact ⟨k, List.mem_cons_self ..⟩
    · obtain ⟨k', hk⟩ := findKey_mem h
      exact ⟨k', List.mem_cons_of_mem _ hk⟩

theorem safe_Get (m k : QVal F) : SafeVal M (fun h => ValidVal h m) (fun h => (Get M h m k, h)) := by
  refine safe_read fun h v hv hm he => ?_
  cases m <;> first | (cases k <;> cases he; done) | skip
  · cases k <;> first | (cases he; done) | skip
    rename_i s n
    have he : (if 0 ≤ n then match s[n.toNat]? with
        | some b => pure (.byte b)
        | none => .error reflectMsg
      else .error reflectMsg : QRes F) = .ok v := he
    split at he
    · split at he <;> cases he
      trivial
    · cases he
  · obtain ⟨i, -, -, hi⟩ := get_slice.1 he
    exact valid_elems hv _ _ (List.mem_of_getElem? hi)
  · rename_i kt vt a
    unfold Get at he
    dsimp only at he
    split at he
    · split at he
      · cases he
        split
        · rename_i w hw
          obtain ⟨k', hk⟩ := findKey_mem hw
          exact (hv.maps a _ hk).2.1
        · trivial
      · cases he
    · cases he

theorem mapPut_run {a : Nat} {key v : QVal F} {h : Heap F} : mapPut M a key v h =
    if hashable key then (.ok (), h.withMap a (putKey M key v (h.maps a))) else (.error (failErr .uncomparable), h) := by
  unfold mapPut
  rw [hm_bind_ok (rfl : HM.get h = (.ok h, h))]
  split <;> rfl

theorem safe_mapPut (a : Nat) (key v : QVal F) :
    Safe M (fun h => a < h.next ∧ ValidVal h key ∧ ValidVal h v ∧ v ≠ .undefined) (mapPut M a key v) fun _ _ => True := by
  intro h hv ⟨ha, hk, hvv⟩
  rw [mapPut_run]
  split
  · obtain ⟨h1, h2⟩ := putKey_keys key v _ (hv.keys a)
    obtain ⟨l1, l2⟩ := valid_setMap hv ha (l := putKey M key v (h.maps a)) (by
      intro p hp
      constructor
      · rcases h2 p hp with he | ⟨q, hq, he⟩ <;> rw [he]
        · exact hk
        · exact (hv.maps a q hq).1
      · rcases putKey_vals key v _ p hp with he | ⟨q, hq, he⟩ <;> rw [he]
        · exact hvv
        · exact (hv.maps a q hq).2) h1
    exact ⟨l1, l2, fun _ _ => trivial⟩
  · exact ⟨.refl _, hv, fun _ _ => trivial⟩

theorem setMapIndex_del {kt vt : Ty} {a : Nat} {key : QVal F} {h : Heap F} (hk : assignable key kt = true) :
    setMapIndex M kt vt a key none h =
      if hashable key then (.ok (), h.withMap a (delKey M key (h.maps a))) else (.error (failErr .uncomparable), h) := by
  unfold setMapIndex
  rw [if_pos hk]
  dsimp only
  split <;> rfl

theorem setMapIndex_put {kt vt : Ty} {a : Nat} {key v : QVal F} (hk : assignable key kt = true) (hv : v = .nil ∨ assignable v vt = true) :
    setMapIndex M kt vt a key (some v) = mapPut M a key v := by
  unfold setMapIndex
  rw [if_pos hk]
  dsimp only
  refine if_pos (hv.imp_left fun h => ?_)
  rw [h]

theorem setMapIndex_bad {kt vt : Ty} {a : Nat} {key v : QVal F} (hk : assignable key kt = true) (hv : ¬ (v = .nil ∨ assignable v vt = true)) :
    setMapIndex M kt vt a key (some v) = HM.throw reflectMsg := by
  unfold setMapIndex
  rw [if_pos hk]
  dsimp only
  refine if_neg fun h => hv (h.imp_left fun h => ?_)
  cases v <;> first | rfl | cases h

theorem setMapIndex_key {kt vt : Ty} {a : Nat} {key : QVal F} {o : Option (QVal F)} (hk : ¬ assignable key kt = true) :
    ∃ p, setMapIndex M kt vt a key o = HM.throw p := by
  unfold setMapIndex
  rw [if_neg hk]
  exact ⟨_, rfl⟩

theorem safe_setMapIndex (kt vt : Ty) (a : Nat) (key : QVal F) (val : Option (QVal F)) :
    Safe M (fun h => a < h.next ∧ ValidVal h key ∧ ∀ v, val = some v → ValidVal h v ∧ v ≠ .undefined) (setMapIndex M kt vt a key val) fun _ _ => True := by
  by_cases hk : assignable key kt = true
  · cases val with
    | none =>
      intro h hv ⟨ha, _, _⟩
      rw [setMapIndex_del hk]
      split
      · obtain ⟨l1, l2⟩ := valid_setMap hv ha (l := delKey M key (h.maps a)) (fun p hp => hv.maps a p ((delKey_sub key _).subset hp))
          ((hv.keys a).sublist (delKey_sub key _))
        exact ⟨l1, l2, fun _ _ => trivial⟩
      · exact ⟨.refl _, hv, fun _ _ => trivial⟩
    | some v =>
      by_cases hv : v = .nil ∨ assignable v vt = true
      · rw [setMapIndex_put hk hv]
        exact safe_mono (safe_mapPut a key v) (fun _ h => ⟨h.1, h.2.1, h.2.2 v rfl⟩) fun _ _ h => h
      · rw [setMapIndex_bad hk hv]
        exact safe_throw
  · obtain ⟨p, hp⟩ := setMapIndex_key (M := M) (vt := vt) (a := a) (o := val) hk
    rw [hp]
    exact safe_throw

theorem stable_opt (val : Option (QVal F)) : Stable fun h => ∀ v, val = some v → ValidVal h v ∧ v ≠ .undefined :=
  fun _ _ l hv v he => ⟨l.val (hv v he).1, (hv v he).2⟩

theorem safe_setMapLoop (kt vt : Ty) (a : Nat) : ∀ args : List (QVal F),
    Safe M (fun h => a < h.next ∧ ∀ v ∈ args, ValidVal h v) (setMapLoop M kt vt a args) fun _ _ => True
  | [] => safe_ret fun _ _ => trivial
  | [_] => safe_ret fun _ _ => trivial
  | k :: v :: args => by
    unfold setMapLoop
    refine safe_bind (Q := fun _ _ => True) ((stable_lt a).and (stable_vals _)) ?_ fun _ =>
      safe_mono (safe_setMapLoop kt vt a args) (fun _ h => ⟨h.1.1, fun v hm => h.1.2 v (List.mem_cons_of_mem _ (List.mem_cons_of_mem _ hm))⟩) fun _ _ h => h
    intro h hv ⟨ha, hvs⟩
    refine safe_setMapIndex kt vt a k _ h hv ⟨ha, hvs k (List.mem_cons_self ..), ?_⟩
    intro w hw
    have hvv := hvs v (List.mem_cons_of_mem _ (List.mem_cons_self ..))
    split at hw
    · cases hw
    · cases hw; exact ⟨valid_zero hv vt, by cases vt <;> exact (fun h => nomatch h)⟩
    · rename_i hnu _
      cases hw; exact ⟨hvv, fun h => hnu h⟩

theorem safe_setSliceLoop (s : Sl) : ∀ args : List (QVal F),
    Safe M (fun h => s.Valid h ∧ ∀ v ∈ args, ValidVal h v) (setSliceLoop s args) fun _ _ => True
  | [] => safe_ret fun _ _ => trivial
  | [_] => safe_ret fun _ _ => trivial
  | k :: v :: args => by
    have hst := (stable_slice (F := F) s).and (stable_vals (k :: v :: args))
    unfold setSliceLoop
    refine safe_bind (Q := fun _ _ => True) hst (safe_lift fun _ _ _ _ => trivial) fun i => ?_
    split
    · split
      · intro h hv ⟨⟨hs, hvs⟩, _⟩
        rw [hm_bind_ok (rfl : HM.get h = (.ok h, h)), hm_bind_ok (rfl : HM.setArr s.arr ((h.arrs s.arr).set (s.off + i.toNat) v) h = (.ok (), h.withArr _ _))]
        obtain ⟨l1, l2⟩ := valid_setArr hv hs.old (l := (h.arrs s.arr).set (s.off + i.toNat) v) (by
          intro w hw
          rcases List.mem_or_eq_of_mem_set hw with hw | rfl
          · exact hv.arrs _ _ hw
          · exact hvs _ (List.mem_cons_of_mem _ (List.mem_cons_self ..))) (List.length_set ..)
        obtain ⟨l3, l4, l5⟩ := safe_setSliceLoop s args _ l2 ⟨l1.slice hs, fun w hw => l1.val (hvs w (List.mem_cons_of_mem _ (List.mem_cons_of_mem _ hw)))⟩
        exact ⟨l1.trans l3, l4, l5⟩
      · exact safe_throw
    · exact safe_throw

theorem safe_setObjLoop (a : Nat) (cls : List (Str × Nat × Fun)) : ∀ args : List (QVal F),
    Safe M (fun h => a < h.next ∧ ∀ v ∈ args, ValidVal h v) (setObjLoop a cls args) fun _ _ => True
  | [] => safe_ret fun _ _ => trivial
  | [_] => safe_ret fun _ _ => trivial
  | k :: v :: args => by
    have hst := (stable_lt (F := F) a).and (stable_vals (k :: v :: args))
    unfold setObjLoop
    refine safe_bind (Q := fun _ _ => True) hst (safe_lift fun _ _ _ _ => trivial) fun name => ?_
    split
    · exact safe_throw
    · intro h hv ⟨⟨ha, hvs⟩, _⟩
      rw [hm_bind_ok (rfl : HM.get h = (.ok h, h)),
        hm_bind_ok (rfl : HM.setObj a (fun n => if n = name then some v else h.objs a n) h = (.ok (), h.withObj a fun n => if n = name then some v else h.objs a n))]
      obtain ⟨l1, l2⟩ := valid_setObj hv ha (f := fun n => if n = name then some v else h.objs a n) (by
        intro n w hw
        split at hw
        · cases hw; exact hvs _ (List.mem_cons_of_mem _ (List.mem_cons_self ..))
        · exact hv.objs a n w hw)
      obtain ⟨l3, l4, l5⟩ := safe_setObjLoop a cls args _ l2
        ⟨Nat.lt_of_lt_of_le ha l1.next, fun w hw => l1.val (hvs w (List.mem_cons_of_mem _ (List.mem_cons_of_mem _ hw)))⟩
      exact ⟨l1.trans l3, l4, l5⟩

theorem safe_Set (m : QVal F) (args : List (QVal F)) : Safe M (fun h => ValidVal h m ∧ ∀ v ∈ args, ValidVal h v) (Set M m args) fun _ _ => True := by
  unfold Set
  split
  · exact safe_throw
  · cases m <;> first | exact safe_throw | exact safe_setMapLoop _ _ _ _ | exact safe_setSliceLoop _ _ | exact safe_setObjLoop _ _ _

theorem safe_Delete (m key : QVal F) : Safe M (fun h => ValidVal h m ∧ ValidVal h key) (Delete M m key) fun _ _ => True := by
  cases m <;> first | exact safe_throw | skip
  rename_i kt vt a
  exact safe_mono (safe_setMapIndex kt vt a key none) (fun _ h => ⟨h.1, h.2, fun v hv => by cases hv⟩) fun _ _ h => h

theorem makeMap_run (h : Heap F) : makeMap h = (.ok h.next, Heap.withMap { h with next := h.next + 1 } h.next []) := rfl

theorem safe_makeMap {P : Heap F → Prop} : Safe M P makeMap fun a h => a < h.next := by
  intro h hv _
  rw [makeMap_run]
  obtain ⟨l1, l2⟩ := valid_alloc hv
  obtain ⟨l3, l4⟩ := valid_setMap l2 (a := h.next) (l := []) (Nat.lt_succ_self _) (fun p hp => by cases hp) List.Pairwise.nil
  refine ⟨l1.trans l3, l4, fun a ha => ?_⟩
  cases ha
  exact Nat.lt_succ_self _

theorem safe_Mkmap (t : QVal F) : SafeVal M (fun _ => True) (Mkmap t) := by
  have hst : Stable (F := F) fun _ => True := fun _ _ _ h => h
  refine safe_bind (Q := fun _ _ => True) hst (safe_lift fun _ _ _ _ => trivial) fun t => ?_
  cases t <;> first | exact safe_throw | skip
  exact safe_bind (Q := fun a h => a < h.next) (hst.and hst) safe_makeMap fun a => safe_ret fun _ h => h.2

theorem safe_mapLoop (a : Nat) {key : QVal F → Except (QPanic F) (QVal F)} {val : QVal F → Except (QPanic F) (Option (QVal F))}
    (hkey : ∀ h k k', ValidVal h k → key k = .ok k' → ValidVal h k') (hval : ∀ h v v', ValidVal h v → val v = .ok (some v') → ValidVal h v' ∧ v' ≠ .undefined) :
    ∀ args : List (QVal F), Safe M (fun h => a < h.next ∧ ∀ v ∈ args, ValidVal h v) (mapLoop M a key val args) fun _ _ => True
  | [] => safe_ret fun _ _ => trivial
  | [_] => safe_ret fun _ _ => trivial
  | k :: v :: args => by
    have hst := (stable_lt (F := F) a).and (stable_vals (k :: v :: args))
    have ih := safe_mapLoop a hkey hval args
    have hmem : ∀ w ∈ args, w ∈ k :: v :: args := fun w hw => List.mem_cons_of_mem _ (List.mem_cons_of_mem _ hw)
    unfold mapLoop
    refine safe_bind (Q := fun o h => ∀ v', o = some v' → ValidVal h v' ∧ v' ≠ .undefined) hst
      (safe_lift fun h o hp he v' ho => hval h v v' (hp.2 v (List.mem_cons_of_mem _ (List.mem_cons_self ..))) (ho ▸ he)) fun o => ?_
    cases o with
    | none => exact safe_mono ih (fun _ h => ⟨h.1.1, fun w hw => h.1.2 w (hmem w hw)⟩) fun _ _ h => h
    | some v' =>
      refine safe_bind (Q := fun k' h => ValidVal h k') (hst.and (stable_opt _))
        (safe_lift fun h k' hp he => hkey h k k' (hp.1.2 k (List.mem_cons_self ..)) he) fun k' => ?_
      refine safe_bind (Q := fun _ _ => True) ((hst.and (stable_opt _)).and (stable_val k'))
        (safe_mono (safe_mapPut a k' v') (fun _ h => ⟨h.1.1.1, h.2, h.1.2 v' rfl⟩) fun _ _ h => h) fun _ => ?_
      exact safe_mono ih (fun _ h => ⟨h.1.1.1.1, fun w hw => h.1.1.1.2 w (hmem w hw)⟩) fun _ _ h => h

theorem keepStr_plain {h : Heap F} {v v' : QVal F} (he : keepStr v = .ok v') : ValidVal h v' ∧ v' ≠ .undefined := by
  obtain ⟨s, -, he⟩ := except_ok he
  cases he; exact ⟨trivial, (fun h => nomatch h)⟩

theorem keepInt_plain {h : Heap F} {v v' : QVal F} (he : keepInt v = .ok v') : ValidVal h v' ∧ v' ≠ .undefined := by
  obtain ⟨s, -, he⟩ := except_ok he
  cases he; exact ⟨trivial, (fun h => nomatch h)⟩

theorem safe_mapFromKeys (kt : Ty) {key : QVal F → Except (QPanic F) (QVal F)} (hkey : ∀ h k k', ValidVal h k → key k = .ok k' → ValidVal h k')
    (args : List (QVal F)) : SafeVal M (fun h => ∀ v ∈ args, ValidVal h v) (mapFromKeys M kt key args) := by
  have loop : ∀ (a : Nat) (t : Ty) (val : QVal F → Except (QPanic F) (Option (QVal F))), (∀ h v v', ValidVal h v → val v = .ok (some v') → ValidVal h v' ∧ v' ≠ .undefined) →
      SafeVal M (fun h => (∀ v ∈ args, ValidVal h v) ∧ a < h.next) (do mapLoop M a key val args; pure (.map kt t a)) := by
    intro a t val hval
    exact safe_bind (Q := fun _ _ => True) ((stable_vals args).and (stable_lt a))
      (safe_mono (safe_mapLoop a hkey hval args) (fun _ h => ⟨h.2, h.1⟩) fun _ _ h => h) fun _ => safe_ret fun _ h => h.1.2
  refine safe_bind (Q := fun a h => a < h.next) (stable_vals args) safe_makeMap fun a => ?_
  dsimp only
  split
  · refine loop a _ _ fun h v v' _ he => ?_
    obtain ⟨w, hw, he⟩ := except_ok he
    cases he; exact keepStr_plain hw
  · split
    · refine loop a _ _ fun h v v' _ he => ?_
      obtain ⟨w, hw, he⟩ := except_ok he
      cases he; exact keepInt_plain hw
    · split
      · refine loop a _ _ fun h v v' _ he => ?_
        obtain ⟨w, hw, he⟩ := except_ok he
        cases he; exact ⟨trivial, (fun h => nomatch h)⟩
      · refine loop a _ _ fun h v v' hv he => ?_
        cases v <;> cases he <;> exact ⟨hv, (fun h => nomatch h)⟩

theorem safe_MapFrom (args : List (QVal F)) : SafeVal M (fun h => ∀ v ∈ args, ValidVal h v) (MapFrom M args) := by
  have hst := stable_vals args
  unfold MapFrom
  split
  · exact safe_throw
  · split
    · exact safe_bind (Q := fun a h => a < h.next) hst safe_makeMap fun a => safe_ret fun _ h => h.2
    · split
      · exact safe_mapFromKeys _ (fun _ _ _ _ he => (keepStr_plain he).1) args
      · split
        · exact safe_mapFromKeys _ (fun _ _ _ _ he => (keepInt_plain he).1) args
        · exact safe_throw

/-! ### All calls -/

theorem safe_call (f : HCall) (args : List (QVal F)) : SafeVal M (fun h => ∀ v ∈ args, ValidVal h v) (f.run M args) := by
  have hst := stable_vals args
  cases f with
  | sliceFrom => exact safe_SliceFrom args
  | slice =>
    cases args with
    | nil => exact safe_throw
    | cons t vs => exact safe_mono (safe_MakeSlice t vs) (fun _ _ => trivial) fun _ _ h => h
  | append =>
    cases args with
    | nil => exact safe_throw
    | cons a vs => exact safe_mono (safe_Append a vs) (fun _ h => ⟨h a (List.mem_cons_self ..), fun v hv => h v (List.mem_cons_of_mem _ hv)⟩) fun _ _ h => h
  | sub => match args with
    | [a, i, j] => exact safe_mono (safe_SubSlice a i j) (fun _ h => h a (List.mem_cons_self ..)) fun _ _ h => h
    | [] | [_] | [_, _] | _ :: _ :: _ :: _ :: _ => exact safe_throw
  | get => match args with
    | [m, k] => exact safe_mono (safe_Get m k) (fun _ h => h m (List.mem_cons_self ..)) fun _ _ h => h
    | [] | [_] | _ :: _ :: _ :: _ => exact safe_throw
  | set =>
    cases args with
    | nil => exact safe_throw
    | cons m vs =>
      exact safe_bind (Q := fun _ _ => True) hst
        (safe_mono (safe_Set m vs) (fun _ h => ⟨h m (List.mem_cons_self ..), fun v hv => h v (List.mem_cons_of_mem _ hv)⟩) fun _ _ h => h)
        fun _ => safe_ret fun _ _ => trivial
  | mapFrom => exact safe_MapFrom args
  | mkmap =>
    cases args with
    | nil => exact safe_throw
    | cons t vs => exact safe_mono (safe_Mkmap t) (fun _ _ => trivial) fun _ _ h => h
  | delete => match args with
    | [m, k] =>
      exact safe_bind (Q := fun _ _ => True) hst
        (safe_mono (safe_Delete m k) (fun _ h => ⟨h m (List.mem_cons_self ..), h k (List.mem_cons_of_mem _ (List.mem_cons_self ..))⟩) fun _ _ h => h)
        fun _ => safe_ret fun _ _ => trivial
    | [] | [_] | _ :: _ :: _ :: _ => exact safe_throw
  | new fns =>
    cases args with
    | cons _ _ => exact safe_throw
    | nil =>
      intro h hv _
      obtain ⟨l1, l2⟩ := valid_alloc hv
      obtain ⟨l3, l4⟩ := valid_setObj l2 (a := h.next) (f := fun _ => none) (Nat.lt_succ_self _) (fun n v hv => by cases hv)
      refine ⟨l1.trans l3, l4, fun v hv => ?_⟩
      cases hv
      exact Nat.lt_succ_self _
  | member name => match args with
    | [.obj a fns] =>
      refine safe_read fun h v hv _ he => ?_
      split at he
      · rename_i w hw
        cases he
        exact hv.objs a name _ hw
      · cases he
    | [] => exact safe_throw
    | v :: _ :: _ => cases v <;> exact safe_throw
    | [.nil] | [.bool _] | [.int _] | [.byte _] | [.float _] | [.str _] | [.slice _] | [.map _ _ _] | [.gofn _ _] | [.unset _]
    | [.fn _ _] | [.cls _ _] | [.method _ _ _] | [.finfo _ _] | [.code _] | [.undefined] | [.type _] | [.extern _] | [.fault _] | [.host _ _] => exact safe_throw
  | other =>
    cases args with
    | cons _ _ => exact safe_throw
    | nil =>
      intro h hv _
      obtain ⟨l1, l2⟩ := valid_alloc hv
      exact ⟨l1, l2, fun v hv => by cases hv; trivial⟩

theorem valid_works {h : Heap F} {vs : List (QVal F)} (w : Works M h vs) : ValidHeap M h ∧ ∀ v ∈ vs, ValidVal h v := by
  induction w with
  | start =>
    exact ⟨⟨Nat.le_refl _, fun _ _ hm => (List.not_mem_nil hm).elim, fun _ _ hm => (List.not_mem_nil hm).elim, fun _ _ _ hm => (nomatch hm),
      fun _ => List.Pairwise.nil, fun _ _ => ⟨rfl, rfl, fun _ => rfl⟩⟩, fun _ hm => (List.not_mem_nil hm).elim⟩
  | plain _ hp ih =>
    refine ⟨ih.1, fun v hm => ?_⟩
    rcases List.mem_cons.1 hm with rfl | hm
    · exact valid_of_plain hp
    · exact ih.2 v hm
  | call f _ hargs he ih =>
    obtain ⟨l1, l2, l3⟩ := safe_call f _ _ ih.1 fun a ha => ih.2 a (hargs a ha)
    rw [he] at l1 l2 l3
    refine ⟨l2, fun v hm => ?_⟩
    rcases List.mem_cons.1 hm with rfl | hm
    · exact l3 _ rfl
    · exact l1.val (ih.2 v hm)
  | panic f _ hargs he ih =>
    obtain ⟨l1, l2, l3⟩ := safe_call f _ _ ih.1 fun a ha => ih.2 a (hargs a ha)
    rw [he] at l1 l2
    exact ⟨l2, fun v hm => l1.val (ih.2 v hm)⟩

end Tpl.Qlang
