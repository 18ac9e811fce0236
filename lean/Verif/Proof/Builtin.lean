import Verif.Spec.Builtin

/-! Lemmas about the builtin functions of qlang. -/
namespace Tpl.Qlang
open Tpl Spec
variable {F : Type}

theorem wrap_reduced (x : Int) : Reduced x (wrap x) := by
  unfold Reduced Is64 wrap
  refine ⟨?_, ?_⟩
  · have h1 := Int.bmod_lt (x := x) (m := 2 ^ 64) (by decide)
    have h2 := Int.le_bmod (x := x) (m := 2 ^ 64) (by decide)
    omega
  · rw [Int.bmod_def]
    have := Int.emod_add_mul_ediv x (2 ^ 64 : Nat)
    split
    · refine ⟨-(x / (2 ^ 64 : Nat)), ?_⟩; omega
    · refine ⟨-(x / (2 ^ 64 : Nat)) - 1, ?_⟩; omega

theorem reduced_unique {x r r' : Int} (h : Reduced x r) (h' : Reduced x r') : r = r' := by
  obtain ⟨⟨h1, h2⟩, k, hk⟩ := h
  obtain ⟨⟨h1', h2'⟩, k', hk'⟩ := h'
  omega

theorem wrap_self {x : Int} (h : Is64 x) : wrap x = x :=
  reduced_unique (wrap_reduced x) ⟨h, 0, by omega⟩

theorem truncated_div (a b : Int) (hb : b ≠ 0) : Truncated a b (a.tdiv b) (a.tmod b) where
  eq := by rw [Int.mul_comm]; exact Int.mul_tdiv_add_tmod a b
  small := by
    rw [Int.natAbs_tmod]
    exact Nat.mod_lt _ (by omega)
  pos h := Int.tmod_nonneg b h
  neg h := by
    have := Int.tmod_nonneg b (a := -a) (by omega)
    rw [Int.neg_tmod] at this
    omega

theorem natAbs_tdiv_le (a b : Int) : (a.tdiv b).natAbs ≤ a.natAbs := by
  rw [Int.natAbs_tdiv]; exact Nat.div_le_self _ _

theorem is64_tmod {a b : Int} (ha : Is64 a) (hb : b ≠ 0) : Is64 (a.tmod b) := by
  have := (truncated_div a b hb)
  have h1 := this.pos
  have h2 := this.neg
  have h3 : (a.tmod b).natAbs ≤ a.natAbs := by rw [Int.natAbs_tmod]; exact Nat.mod_le _ _
  unfold Is64 at *
  omega

theorem is64_tdiv {a b : Int} (ha : Is64 a) (hb : b ≠ 0) (h : ¬ (a = -2 ^ 63 ∧ b = -1)) : Is64 (a.tdiv b) := by
  have h1 := natAbs_tdiv_le a b
  unfold Is64 at *
  by_cases h2 : a.natAbs < 2 ^ 63
  · omega
  · have ha' : a = -2 ^ 63 := by omega
    subst ha'
    have h3 : b ≠ -1 := fun hb => h ⟨rfl, hb⟩
    by_cases h4 : 0 < b
    · have h5 : 0 ≤ Int.tdiv (2 ^ 63) b := Int.tdiv_nonneg (by omega) (by omega)
      rw [Int.neg_tdiv] at *
      omega
    · have h5 : b.natAbs ≥ 2 := by omega
      have h6 : ((-2 ^ 63 : Int).tdiv b).natAbs ≤ 2 ^ 63 / 2 := by
        rw [Int.natAbs_tdiv]
        exact Nat.div_le_div_left h5 (by decide)
      omega

/-! ### Strings -/

theorem strLt_iff : ∀ (s t : Str), strLt s t = true ↔ s < t
  | [], [] => by simp [strLt]
  | [], _ :: _ => by simp [strLt]
  | _ :: _, [] => by simp [strLt]
  | a :: s, b :: t => by
    rw [strLt, List.cons_lt_cons_iff]
    split
    · simp [*]
    · split
      · rename_i h1 h2
        have : a ≠ b := by rintro rfl; exact h1 h2
        simp [*]
      · rename_i h1 h2
        have : a = b := by
          have h1 := UInt8.not_lt.mp h1
          have h2 := UInt8.not_lt.mp h2
          exact UInt8.le_antisymm h2 h1
        subst this
        simp [h1, strLt_iff s t]

theorem strLt_total (s t : Str) (h1 : strLt s t = false) (h2 : strLt t s = false) : s = t := by
  match s, t with
  | [], [] => rfl
  | [], _ :: _ => simp [strLt] at h1
  | _ :: _, [] => simp [strLt] at h2
  | a :: s, b :: t =>
    rw [strLt] at h1 h2
    by_cases hab : a < b
    · simp [hab] at h1
    · by_cases hba : b < a
      · simp [hba] at h2
      · simp only [hab, hba, if_false] at h1 h2
        have : a = b := UInt8.le_antisymm (UInt8.not_lt.mp hba) (UInt8.not_lt.mp hab)
        rw [this, strLt_total s t h1 h2]

theorem strLt_irrefl : ∀ s, strLt s s = false
  | [] => rfl
  | a :: s => by rw [strLt]; simp [strLt_irrefl s]

theorem strLt_asymm : ∀ (s t : Str), strLt s t = true → strLt t s = false
  | [], [], h => by simp [strLt] at h
  | [], _ :: _, _ => rfl
  | _ :: _, [], h => by simp [strLt] at h
  | a :: s, b :: t, h => by
    rw [strLt] at h ⊢
    by_cases hab : a < b
    · have : ¬ b < a := fun h => absurd (UInt8.lt_trans hab h) (UInt8.lt_irrefl _)
      simp [this, hab]
    · by_cases hba : b < a
      · simp [hba] at h
        exact absurd h hab
      · simp only [hab, hba, if_false] at h ⊢
        exact strLt_asymm s t h

/-! ### Kinds -/

theorem kind_int {v : QVal F} : kindOf v = 2 ↔ ∃ n, v = .int n := by
  cases v <;> simp [kindOf, QVal.ty, Ty.kind]

theorem kind_float {v : QVal F} : kindOf v = 14 ↔ ∃ x, v = .float x := by
  cases v <;> simp [kindOf, QVal.ty, Ty.kind]

theorem kind_str {v : QVal F} : kindOf v = 24 ↔ IsStr v := by
  cases v <;> simp [kindOf, QVal.ty, Ty.kind]
  case str s => exact .str s
  all_goals (intro h; cases h)

theorem isNum_iff {v : QVal F} : IsNum v ↔ kindOf v = 2 ∨ kindOf v = 14 := by
  rw [kind_int, kind_float]
  constructor
  · rintro (n | x)
    · exact .inl ⟨_, rfl⟩
    · exact .inr ⟨_, rfl⟩
  · rintro (⟨n, rfl⟩ | ⟨x, rfl⟩)
    · exact .int n
    · exact .float x

theorem kindLoop_float : ∀ vs : List (QVal F), kindLoop 14 vs = if ∀ v ∈ vs, kindOf v = 2 ∨ kindOf v = 14 then 14 else 0
  | [] => by simp [kindLoop]
  | v :: vs => by
    rw [kindLoop]
    simp only [List.mem_cons, forall_eq_or_imp]
    by_cases h1 : kindOf v = 14
    · simp [h1, kindLoop_float vs]
    · by_cases h2 : kindOf v = 2
      · simp [h2, kindLoop_float vs]
      · simp [h1, h2]

theorem kindLoop_int : ∀ vs : List (QVal F), kindLoop 2 vs =
    if ∀ v ∈ vs, kindOf v = 2 then 2 else if ∀ v ∈ vs, kindOf v = 2 ∨ kindOf v = 14 then 14 else 0
  | [] => by simp [kindLoop]
  | v :: vs => by
    rw [kindLoop]
    simp only [List.mem_cons, forall_eq_or_imp]
    by_cases h1 : kindOf v = 2
    · simp [h1, kindLoop_int vs]
    · by_cases h2 : kindOf v = 14
      · simp [h2, kindLoop_float vs]
      · simp [h1, h2]

theorem kindLoop_other (k : Nat) (h1 : k ≠ 2) (h2 : k ≠ 14) : ∀ vs : List (QVal F), kindLoop k vs =
    if ∀ v ∈ vs, kindOf v = k then k else 0
  | [] => by simp [kindLoop]
  | v :: vs => by
    rw [kindLoop]
    simp only [List.mem_cons, forall_eq_or_imp]
    by_cases h : kindOf v = k
    · simp [h, kindLoop_other k h1 h2 vs]
    · simp [h, h1, h2]

theorem kindOfArgs_int {vs : List (QVal F)} : kindOfArgs vs = 2 ↔ vs ≠ [] ∧ AllInt vs := by
  unfold AllInt
  simp only [← kind_int]
  cases vs with
  | nil => simp [kindOfArgs]
  | cons v vs =>
    rw [kindOfArgs]
    simp only [List.mem_cons, forall_eq_or_imp, ne_eq, reduceCtorEq, not_false_eq_true, true_and]
    by_cases h1 : kindOf v = 2
    · rw [h1, kindLoop_int]
      split
      · simp_all
      · split <;> simp_all
    · by_cases h2 : kindOf v = 14
      · rw [h2, kindLoop_float]
        split <;> simp
      · rw [kindLoop_other _ h1 h2]
        split <;> simp [h1]

theorem kindOfArgs_float {vs : List (QVal F)} : kindOfArgs vs = 14 ↔ SomeFloat vs := by
  unfold SomeFloat
  simp only [isNum_iff]
  cases vs with
  | nil => simp [kindOfArgs]
  | cons v vs =>
    rw [kindOfArgs]
    have hx : (∃ x, QVal.float x ∈ v :: vs) ↔ kindOf v = 14 ∨ ∃ w ∈ vs, kindOf w = 14 := by
      simp only [kind_float, List.mem_cons]
      constructor
      · rintro ⟨x, h | h⟩
        · exact .inl ⟨x, h.symm⟩
        · exact .inr ⟨_, h, x, rfl⟩
      · rintro (⟨x, h⟩ | ⟨w, h, x, rfl⟩)
        · exact ⟨x, .inl h.symm⟩
        · exact ⟨x, .inr h⟩
    rw [hx]
    simp only [List.mem_cons, forall_eq_or_imp]
    by_cases h1 : kindOf v = 2
    · rw [h1, kindLoop_int]
      split
      · rename_i h
        simp only [Nat.reduceEqDiff, true_or, true_and, false_or, false_iff, not_and, not_exists]
        intro _ w hw
        rw [h w hw]; decide
      · rename_i h
        have : ∀ (hn : ∀ w ∈ vs, kindOf w = 2 ∨ kindOf w = 14), ∃ w ∈ vs, kindOf w = 14 := by
          intro hn
          apply Classical.byContradiction
          intro hc
          exact h fun w hw => (hn w hw).resolve_right fun hk => hc ⟨w, hw, hk⟩
        split
        · rename_i hn; simp [this hn]; exact hn
        · rename_i hn; simp [hn]
    · by_cases h2 : kindOf v = 14
      · rw [h2, kindLoop_float]
        split <;> simp_all
      · rw [kindLoop_other _ h1 h2]
        split <;> simp [h1, h2]

theorem kindOfArgs_str {vs : List (QVal F)} : kindOfArgs vs = 24 ↔ vs ≠ [] ∧ AllStr vs := by
  unfold AllStr
  simp only [← kind_str]
  cases vs with
  | nil => simp [kindOfArgs]
  | cons v vs =>
    rw [kindOfArgs]
    simp only [List.mem_cons, forall_eq_or_imp, ne_eq, reduceCtorEq, not_false_eq_true, true_and]
    by_cases h1 : kindOf v = 2
    · rw [h1, kindLoop_int]
      split
      · simp
      · split <;> simp
    · by_cases h2 : kindOf v = 14
      · rw [h2, kindLoop_float]
        split <;> simp
      · rw [kindLoop_other _ h1 h2]
        split
        · rename_i h
          constructor
          · intro hk; exact ⟨hk, fun w hw => (h w hw).trans hk⟩
          · exact fun h => h.1
        · rename_i h
          simp only [Nat.reduceEqDiff, false_iff, not_and]
          intro hk hw
          exact h fun w hm => (hw w hm).trans hk.symm

/-! ### max, min -/

theorem bestLoop_ok {α : Type} {get : QVal F → Except (QPanic F) α} {better : α → α → Bool}
    (trans : ∀ b t u, better t b = true → better u t = true → better u b = true) :
    ∀ (args : List (QVal F)) (f : QVal F → α) (best : α), (∀ a ∈ args, get a = .ok (f a)) →
      ∃ m, bestLoop get better best args = .ok m ∧ (m = best ∨ m ∈ args.map f) ∧
        (∀ u, better u best = false → better u m = false) ∧
        (better best m = true → better best best = true) ∧
        ∀ t ∈ args.map f, better t m = true → better t t = true
  | [], f, best, _ => ⟨best, rfl, .inl rfl, fun _ h => h, id, nofun⟩
  | a :: args, f, best, h => by
    have ha := h a (List.mem_cons_self ..)
    obtain ⟨m, h1, h2, h3, h4, h5⟩ := bestLoop_ok trans args f (if better (f a) best then f a else best)
      fun x hx => h x (List.mem_cons_of_mem _ hx)
    refine ⟨m, ?_, ?_, ?_, ?_, ?_⟩
    · rw [bestLoop, ha]; exact h1
    · rcases h2 with h2 | h2
      · split at h2
        · exact .inr (by simp [h2])
        · exact .inl h2
      · exact .inr (List.mem_cons_of_mem _ h2)
    · intro u hu
      apply h3
      split
      · rename_i hb
        apply Bool.eq_false_iff.mpr
        intro hc
        rw [trans _ _ _ hb hc] at hu
        cases hu
      · exact hu
    · intro hb
      by_cases hc : better best best = true
      · exact hc
      · have : better best m = false := by
          apply h3
          split
          · rename_i hd
            apply Bool.eq_false_iff.mpr
            intro he
            exact hc (trans _ _ _ hd he)
          · exact Bool.eq_false_iff.mpr hc
        rw [this] at hb; cases hb
    · intro t ht hb
      rcases List.mem_cons.mp ht with rfl | ht
      · by_cases hc : better (f a) (f a) = true
        · exact hc
        · have : better (f a) m = false := by
            apply h3
            split
            · exact Bool.eq_false_iff.mpr hc
            · rename_i hd; exact Bool.eq_false_iff.mpr hd
          rw [this] at hb; cases hb
      · exact h5 t ht hb

/-- The best of a list of numbers: one of them, and none is better. -/
theorem bestOf_ok {α : Type} {get : QVal F → Except (QPanic F) α} {better : α → α → Bool} {args : List (QVal F)} {f : QVal F → α}
    (irrefl : ∀ t, better t t = false)
    (trans : ∀ b t u, better t b = true → better u t = true → better u b = true)
    (hne : args ≠ []) (h : ∀ a ∈ args, get a = .ok (f a)) :
    ∃ m, bestOf get better args = .ok m ∧ m ∈ args.map f ∧ ∀ t ∈ args.map f, better t m = false := by
  match args, hne, h with
  | a :: args, _, h =>
    obtain ⟨m, h1, h2, h3, h4, h5⟩ := bestLoop_ok (get := get) trans args f (f a) fun x hx => h x (List.mem_cons_of_mem _ hx)
    refine ⟨m, ?_, ?_, ?_⟩
    · rw [bestOf, h a (List.mem_cons_self ..)]; exact h1
    · simpa using h2
    · intro t ht
      apply Bool.eq_false_iff.mpr
      intro hb
      rcases List.mem_cons.mp ht with rfl | ht
      · have := h4 hb; rw [irrefl] at this; cases this
      · have := h5 t ht hb; rw [irrefl] at this; cases this

/-! ### Slices -/

theorem hm_bind {α β : Type} (x : HM F α) (k : α → HM F β) (h : Heap F) :
    (x >>= k) h = match x h with
      | (.ok a, h) => k a h
      | (.error p, h) => (.error p, h) := rfl

theorem hm_bind_ok {α β : Type} {x : HM F α} {k : α → HM F β} {h h' : Heap F} {a : α} (hx : x h = (.ok a, h')) :
    (x >>= k) h = k a h' := by rw [hm_bind, hx]

/-- Appending within the capacity. -/
theorem appendRaw_fits {M : Fl F} {s : Sl} {vals : List (QVal F)} {h : Heap F} (hc : s.len + vals.length ≤ s.cap) :
    appendRaw M s vals h = (.ok { s with len := s.len + vals.length },
      { h with arrs := fun i => if i = s.arr then
          (h.arrs s.arr).take (s.off + s.len) ++ vals ++ (h.arrs s.arr).drop (s.off + s.len + vals.length) else h.arrs i }) := by
  unfold appendRaw
  rw [hm_bind_ok (rfl : HM.get h = (.ok h, h))]
  dsimp only
  rw [if_pos hc]
  rfl

/-- A slice at the beginning of its array. -/
structure Whole (h : Heap F) (s : Sl) : Prop where
  off : s.off = 0
  cap : (h.arrs s.arr).length = s.cap
  len : s.len ≤ s.cap

theorem elems_whole {h : Heap F} {s : Sl} (w : Whole h s) : h.elems s = (h.arrs s.arr).take s.len := by
  rw [Heap.elems, w.off]; rfl

/-- The heap where the array at `a` is replaced. -/
def Heap.withArr (h : Heap F) (a : Nat) (l : List (QVal F)) : Heap F :=
  { h with arrs := fun i => if i = a then l else h.arrs i }

theorem Heap.withArr_twice (h : Heap F) (a : Nat) (l l' : List (QVal F)) : (h.withArr a l).withArr a l' = h.withArr a l' := by
  unfold Heap.withArr
  congr 1
  funext i
  dsimp only
  split <;> rfl

theorem Heap.withArr_self (h : Heap F) (a : Nat) : h.withArr a (h.arrs a) = h := by
  unfold Heap.withArr
  cases h
  congr 1
  funext i
  dsimp only
  split
  · rename_i h; rw [h]
  · rfl

theorem appendRaw_whole {M : Fl F} {s : Sl} {vals : List (QVal F)} {h : Heap F} (w : Whole h s) (hc : s.len + vals.length ≤ s.cap) :
    ∃ l, appendRaw M s vals h = (.ok { s with len := s.len + vals.length }, h.withArr s.arr l) ∧
      Whole (h.withArr s.arr l) { s with len := s.len + vals.length } ∧
      (h.withArr s.arr l).elems { s with len := s.len + vals.length } = h.elems s ++ vals := by
  refine ⟨_, appendRaw_fits hc, ?_, ?_⟩
  · refine ⟨w.off, ?_, hc⟩
    have := w.cap
    simp only [Heap.withArr, if_true, w.off, List.length_append, List.length_take, List.length_drop]
    omega
  · rw [elems_whole w]
    have := w.cap
    simp only [Heap.elems, Heap.withArr, if_true, w.off, Nat.zero_add, List.drop_zero]
    rw [List.take_append_of_le_length (by simp; omega)]
    rw [List.take_of_length_le (by simp; omega)]

theorem appendFloat_whole {M : Fl F} : ∀ (vals : List (QVal F)) (s : Sl) (h : Heap F), Whole h s → s.len + vals.length ≤ s.cap →
    (∀ v ∈ vals, IsNum v) →
    ∃ l, appendFloat M s vals h = (.ok { s with len := s.len + vals.length }, h.withArr s.arr l) ∧
      (h.withArr s.arr l).elems { s with len := s.len + vals.length } = h.elems s ++ vals.map fun v => .float (toFloat M v)
  | [], s, h, w, hc, hn => ⟨h.arrs s.arr, by rw [Heap.withArr_self]; rfl, by rw [Heap.withArr_self]; simp⟩
  | v :: vals, s, h, w, hc, hn => by
    have hc' : s.len + 1 ≤ s.cap := by simp at hc; omega
    have key : ∀ x, ∃ l, (do appendFloat M (← appendRaw M s [.float x]) vals : HM F Sl) h =
          (.ok { s with len := s.len + (v :: vals).length }, h.withArr s.arr l) ∧
        (h.withArr s.arr l).elems { s with len := s.len + (v :: vals).length } =
          h.elems s ++ .float x :: vals.map fun v => .float (toFloat M v) := by
      intro x
      obtain ⟨l1, h1, w1, e1⟩ := appendRaw_whole (M := M) (vals := [.float x]) w hc'
      obtain ⟨l2, h2, e2⟩ := appendFloat_whole vals _ _ w1 (by simp at hc ⊢; omega) fun v hv => hn v (List.mem_cons_of_mem _ hv)
      refine ⟨l2, ?_, ?_⟩
      · rw [hm_bind_ok h1, h2]
        simp only [Heap.withArr_twice, List.length_cons, List.length_nil]
        congr 3
        omega
      · rw [e1] at e2
        simp only [Heap.withArr_twice, List.length_cons, List.length_nil] at e2 ⊢
        rw [show s.len + (vals.length + 1) = s.len + (0 + 1) + vals.length by omega, e2]
        simp
    rcases hn v (List.mem_cons_self ..) with n | x
    · obtain ⟨l, h1, h2⟩ := key (M.lits.ofInt n)
      exact ⟨l, h1, h2⟩
    · obtain ⟨l, h1, h2⟩ := key x
      exact ⟨l, h1, h2⟩

theorem makeSlice_eq {M : Fl F} (t : Ty) (n : Nat) (h : Heap F) :
    makeSlice M t 0 n h = (.ok ⟨t, h.next, 0, 0, n⟩, ({ h with next := h.next + 1 }).withArr h.next (List.replicate n (zeroOf M t))) ∧
    Whole (({ h with next := h.next + 1 }).withArr h.next (List.replicate n (zeroOf M t))) ⟨t, h.next, 0, 0, n⟩ := by
  refine ⟨rfl, rfl, ?_, Nat.zero_le _⟩
  simp [Heap.withArr]

theorem appendArgs_ok {M : Fl F} {t : Ty} : ∀ (vals : List (QVal F)), (∀ v ∈ vals, v ≠ .nil ∧ assignable v t = true) → appendArgs M t vals = .ok vals
  | [], _ => rfl
  | v :: vals, h => by
    obtain ⟨h1, h2⟩ := h v (List.mem_cons_self ..)
    rw [appendArgs, appendArgs_ok vals fun v hv => h v (List.mem_cons_of_mem _ hv)]
    · rw [if_pos h2]; rfl
    · exact h1

/-! ### Maps -/

/-- Keys compared with `==`. -/
def KeyEq {α : Type} (M : Fl F) (mk : α → QVal F) : Prop := ∀ a b, (mk a).eq M (mk b) = some true ↔ a = b

theorem keyEq_str (M : Fl F) : KeyEq M (QVal.str : Str → QVal F) := by
  intro a b; simp [QVal.eq]

theorem keyEq_int (M : Fl F) : KeyEq M (QVal.int : Int → QVal F) := by
  intro a b; simp [QVal.eq]

variable {α : Type} [DecidableEq α]

theorem find_put {M : Fl F} {mk : α → QVal F} (hk : KeyEq M mk) (k k' : α) (v : QVal F) : ∀ (l : List (QVal F × QVal F)) (ks : List α),
    l.map Prod.fst = ks.map mk →
    findKey M (mk k') (putKey M (mk k) v l) = if k = k' then some v else findKey M (mk k') l
  | [], _, _ => by simp [putKey, findKey, hk k k']
  | (q, w) :: l, [], h => by simp at h
  | (q, w) :: l, k0 :: ks, h => by
    simp only [List.map_cons, List.cons.injEq] at h
    obtain ⟨h1, h2⟩ := h
    subst h1
    rw [putKey]
    by_cases h0 : k0 = k
    · rw [if_pos ((hk _ _).mpr h0)]
      subst h0
      by_cases h3 : k0 = k'
      · simp [findKey, h3, (hk k' k').mpr rfl]
      · simp [findKey, h3, hk k0 k']
    · rw [if_neg fun h => h0 ((hk _ _).mp h), findKey, find_put hk k k' v l ks h2]
      by_cases h3 : k = k'
      · have : ¬ (mk k0).eq M (mk k') = some true := fun h => h0 (((hk _ _).mp h).trans h3.symm)
        simp [h3, this]
      · simp [h3, findKey]

theorem keys_put {M : Fl F} {mk : α → QVal F} (hk : KeyEq M mk) (k : α) (v : QVal F) : ∀ (l : List (QVal F × QVal F)) (ks : List α),
    l.map Prod.fst = ks.map mk →
    (putKey M (mk k) v l).map Prod.fst = (if k ∈ ks then ks else ks ++ [k]).map mk
  | [], [], _ => by simp [putKey]
  | [], _ :: _, h => by simp at h
  | (q, w) :: l, [], h => by simp at h
  | (q, w) :: l, k0 :: ks, h => by
    simp only [List.map_cons, List.cons.injEq] at h
    obtain ⟨h1, h2⟩ := h
    subst h1
    rw [putKey]
    by_cases h0 : k0 = k
    · rw [if_pos ((hk _ _).mpr h0)]
      simp [h0, h2]
    · rw [if_neg fun h => h0 ((hk _ _).mp h)]
      have := keys_put hk k v l ks h2
      simp only [List.map_cons, this, List.mem_cons, Ne.symm h0, false_or]
      split <;> simp

def Heap.withMap (h : Heap F) (a : Nat) (l : List (QVal F × QVal F)) : Heap F :=
  { h with maps := fun i => if i = a then l else h.maps i }

theorem Heap.withMap_twice (h : Heap F) (a : Nat) (l l' : List (QVal F × QVal F)) : (h.withMap a l).withMap a l' = h.withMap a l' := by
  unfold Heap.withMap
  congr 1
  funext i
  dsimp only
  split <;> rfl

theorem Heap.withMap_self (h : Heap F) (a : Nat) : h.withMap a (h.maps a) = h := by
  unfold Heap.withMap
  cases h
  congr 1
  funext i
  dsimp only
  split
  · rename_i h; rw [h]
  · rfl

theorem mapLoop_ok {M : Fl F} {mk : α → QVal F} (hk : KeyEq M mk) (hh : ∀ k, hashable (mk k) = true)
    {key : QVal F → Except (QPanic F) (QVal F)} (hkey : ∀ k, key (mk k) = .ok (mk k))
    {val : QVal F → Except (QPanic F) (Option (QVal F))} {c : QVal F → Option (QVal F)} (a : Nat) :
    ∀ (ps : List (α × QVal F)) (h : Heap F) (ks : List α), (∀ p ∈ ps, val p.2 = .ok (c p.2)) →
      (h.maps a).map Prod.fst = ks.map mk → ks.Nodup →
      ∃ (l' : List (QVal F × QVal F)) (ks' : List α), mapLoop M a key val (mapArgs mk ps) h = (.ok (), h.withMap a l') ∧
        l'.map Prod.fst = ks'.map mk ∧ ks'.Nodup ∧
        (∀ k, k ∈ ks' ↔ k ∈ ks ∨ k ∈ (ps.filterMap fun p => (c p.2).map (p.1, ·)).map Prod.fst) ∧
        ∀ k, findKey M (mk k) l' = (lastOf k (ps.filterMap fun p => (c p.2).map (p.1, ·))).or (findKey M (mk k) (h.maps a))
  | [], h, ks, _, h1, h2 => by
    refine ⟨h.maps a, ks, ?_, h1, h2, by simp, by simp [lastOf]⟩
    rw [Heap.withMap_self]; rfl
  | (k, v) :: ps, h, ks, hv, h1, h2 => by
    have hv' : ∀ p ∈ ps, val p.2 = .ok (c p.2) := fun p hp => hv p (List.mem_cons_of_mem _ hp)
    have h0 := hv (k, v) (List.mem_cons_self ..)
    dsimp only at h0
    have e0 : mapLoop M a key val (mapArgs mk ((k, v) :: ps)) h = (match c v with
        | some v => (do
          let k ← HM.lift (key (mk k))
          mapPut M a k v
          mapLoop M a key val (mapArgs mk ps) : HM F Unit)
        | none => mapLoop M a key val (mapArgs mk ps)) h := by
      rw [mapArgs, mapLoop]
      rw [hm_bind_ok (show HM.lift (val v) h = (.ok (c v), h) by rw [HM.lift, h0])]
      cases c v <;> rfl
    rw [e0]
    cases hc : c v with
    | none =>
      obtain ⟨l', ks', g1, g2, g3, g4, g5⟩ := mapLoop_ok hk hh hkey a ps h ks hv' h1 h2
      refine ⟨l', ks', g1, g2, g3, ?_, ?_⟩
      · simpa [hc] using g4
      · simpa [hc] using g5
    | some w =>
      have hn : (if k ∈ ks then ks else ks ++ [k]).Nodup := by
        split
        · exact h2
        · rename_i hm
          rw [List.nodup_append]
          refine ⟨h2, by simp, ?_⟩
          intro x hx y hy hxy
          simp only [List.mem_singleton] at hy
          exact hm (hy ▸ hxy ▸ hx)
      have hw : ((h.withMap a (putKey M (mk k) w (h.maps a))).maps a).map Prod.fst = (if k ∈ ks then ks else ks ++ [k]).map mk := by
        simp only [Heap.withMap, if_true]
        exact keys_put hk k w _ _ h1
      obtain ⟨l', ks', g1, g2, g3, g4, g5⟩ := mapLoop_ok hk hh hkey a ps (h.withMap a (putKey M (mk k) w (h.maps a))) _ hv' hw hn
      rw [Heap.withMap_twice] at g1
      refine ⟨l', ks', ?_, g2, g3, ?_, ?_⟩
      · dsimp only
        rw [hm_bind_ok (show HM.lift (key (mk k)) h = (.ok (mk k), h) by rw [HM.lift, hkey])]
        rw [hm_bind_ok (show mapPut M a (mk k) w h = (.ok (), h.withMap a (putKey M (mk k) w (h.maps a))) by
          unfold mapPut
          rw [hm_bind_ok (rfl : HM.get h = (.ok h, h)), if_pos (hh k)]
          rfl)]
        exact g1
      · intro x
        rw [g4]
        simp only [List.filterMap_cons, hc, Option.map_some, List.map_cons, List.mem_cons]
        split
        · rename_i hm
          constructor
          · rintro (h | h)
            · exact .inl h
            · exact .inr (.inr h)
          · rintro (h | h | h)
            · exact .inl h
            · exact .inl (h ▸ hm)
            · exact .inr h
        · simp only [List.mem_append, List.mem_singleton]
          exact or_assoc
      · intro x
        rw [g5]
        simp only [Heap.withMap, if_true]
        rw [find_put hk _ _ _ _ _ h1]
        simp only [List.filterMap_cons, hc, Option.map_some, lastOf]
        cases lastOf x (ps.filterMap fun p => (c p.2).map (p.1, ·)) with
        | some y => rfl
        | none =>
          dsimp only [Option.or]
          split <;> rfl

theorem evens_mapArgs (mk : α → QVal F) : ∀ ps, evens (mapArgs mk ps) = ps.map fun p => mk p.1
  | [] => rfl
  | (k, v) :: ps => by rw [mapArgs, evens, evens_mapArgs mk ps]; rfl

theorem odds_mapArgs (mk : α → QVal F) : ∀ ps, odds (mapArgs mk ps) = ps.map fun p => p.2
  | [] => rfl
  | (k, v) :: ps => by rw [mapArgs, odds, odds_mapArgs mk ps]; rfl

theorem length_mapArgs (mk : α → QVal F) : ∀ ps : List (α × QVal F), (mapArgs mk ps).length = 2 * ps.length
  | [] => rfl
  | (k, v) :: ps => by rw [mapArgs]; simp [length_mapArgs mk ps]; omega

/-- The conversion of values for a map. -/
def convert (M : Fl F) : Ty → QVal F → Option (QVal F)
  | .var, v => if v matches .undefined then none else some v
  | t, v => some (asElem M t v)

theorem entriesOf_eq {β : Type} (M : Fl F) (t : Ty) (ps : List (β × QVal F)) :
    entriesOf M t ps = ps.filterMap fun p => (convert M t p.2).map (p.1, ·) := by
  induction ps with
  | nil => cases t <;> rfl
  | cons p ps ih =>
    obtain ⟨k, v⟩ := p
    rw [List.filterMap_cons, ← ih]
    cases t
    case var =>
      cases v <;> rfl
    all_goals rfl

theorem common_kind {vs : List (QVal F)} (hne : vs ≠ []) :
    Common vs (if kindOfArgs vs = 24 then .string else if kindOfArgs vs = 2 then .int else if kindOfArgs vs = 14 then .float else .var) := by
  by_cases h1 : kindOfArgs vs = 24
  · rw [if_pos h1]
    exact .string hne (kindOfArgs_str.mp h1).2
  · rw [if_neg h1]
    by_cases h2 : kindOfArgs vs = 2
    · rw [if_pos h2]
      exact .int hne (kindOfArgs_int.mp h2).2
    · rw [if_neg h2]
      by_cases h3 : kindOfArgs vs = 14
      · rw [if_pos h3]
        exact .float (kindOfArgs_float.mp h3)
      · rw [if_neg h3]
        exact .var (.inr fun h => h2 (kindOfArgs_int.mpr ⟨hne, h⟩)) (fun h => h3 (kindOfArgs_float.mpr h))
          (.inr fun h => h1 (kindOfArgs_str.mpr ⟨hne, h⟩))

theorem common_unique {vs : List (QVal F)} {t t' : Ty} (h : Common vs t) (h' : Common vs t') : t = t' := by
  have fi : ∀ {vs : List (QVal F)}, SomeFloat vs → AllInt vs → False := by
    intro vs h1 h2
    obtain ⟨_, x, hx⟩ := h1
    obtain ⟨n, hn⟩ := h2 _ hx
    cases hn
  have fs : ∀ {vs : List (QVal F)}, SomeFloat vs → AllStr vs → False := by
    intro vs h1 h2
    obtain ⟨_, x, hx⟩ := h1
    cases h2 _ hx
  have is : ∀ {vs : List (QVal F)}, vs ≠ [] → AllInt vs → AllStr vs → False := by
    intro vs h1 h2 h3
    obtain ⟨v, hv⟩ := List.exists_mem_of_ne_nil _ h1
    obtain ⟨n, hn⟩ := h2 _ hv
    have := h3 _ hv
    rw [hn] at this
    cases this
  cases h <;> cases h' <;> first | rfl | skip
  case int.float h1 h2 h3 => exact (fi h3 h2).elim
  case int.string h1 h2 h3 h4 => exact (is h1 h2 h4).elim
  case int.var h1 h2 h3 h4 h5 => exact (h3.elim h1 fun h => h h2).elim
  case float.int h1 h2 h3 => exact (fi h1 h3).elim
  case float.string h1 h2 h3 => exact (fs h1 h3).elim
  case float.var h1 h2 h3 h4 => exact (h3 h1).elim
  case string.int h1 h2 h3 h4 => exact (is h1 h4 h2).elim
  case string.float h1 h2 h3 => exact (fs h3 h2).elim
  case string.var h1 h2 h3 h4 h5 => exact (h5.elim h1 fun h => h h2).elim
  case var.int h1 h2 h3 h4 h5 => exact (h1.elim h4 fun h => h h5).elim
  case var.float h1 h2 h3 h4 => exact (h2 h4).elim
  case var.string h1 h2 h3 h4 h5 => exact (h3.elim h4 fun h => h h5).elim

/-- What `MapFrom` does with good keys. -/
theorem mapFromKeys_ok {M : Fl F} {mk : α → QVal F} (hk : KeyEq M mk) (hh : ∀ k, hashable (mk k) = true)
    {key : QVal F → Except (QPanic F) (QVal F)} (hkey : ∀ k, key (mk k) = .ok (mk k)) (kt : Ty)
    {ps : List (α × QVal F)} (hne : ps ≠ []) (h : Heap F) :
    ∃ (vt : Ty) (l : List (QVal F × QVal F)) (ks : List α), mapFromKeys M kt key (mapArgs mk ps) h = (.ok (.map kt vt h.next), ({ h with next := h.next + 1 }).withMap h.next l) ∧
      Common (ps.map Prod.snd) vt ∧ l.map Prod.fst = ks.map mk ∧ ks.Nodup ∧
      (∀ k, k ∈ ks ↔ k ∈ (entriesOf M vt ps).map Prod.fst) ∧
      ∀ k, findKey M (mk k) l = lastOf k (entriesOf M vt ps) := by
  let h1 : Heap F := ({ h with next := h.next + 1 }).withMap h.next []
  have hm : makeMap h = (.ok h.next, h1) := rfl
  have hne' : ps.map Prod.snd ≠ [] := by simpa using hne
  have hs : ps.map Prod.snd = ps.map fun p => p.2 := rfl
  have main : ∀ (vt : Ty) (val : QVal F → Except (QPanic F) (Option (QVal F))), (∀ p ∈ ps, val p.2 = .ok (convert M vt p.2)) →
      ∃ (l : List (QVal F × QVal F)) (ks : List α), (do mapLoop M h.next key val (mapArgs mk ps); pure (.map kt vt h.next) : HM F (QVal F)) h1 =
          (.ok (.map kt vt h.next), ({ h with next := h.next + 1 }).withMap h.next l) ∧
        l.map Prod.fst = ks.map mk ∧ ks.Nodup ∧ (∀ k, k ∈ ks ↔ k ∈ (entriesOf M vt ps).map Prod.fst) ∧
        ∀ k, findKey M (mk k) l = lastOf k (entriesOf M vt ps) := by
    intro vt val hv
    obtain ⟨l, ks, g1, g2, g3, g4, g5⟩ := mapLoop_ok hk hh hkey h.next ps h1 [] hv (by simp [h1, Heap.withMap]) (by simp)
    refine ⟨l, ks, ?_, g2, g3, ?_, ?_⟩
    · rw [hm_bind_ok g1, Heap.withMap_twice]; rfl
    · simpa [entriesOf_eq] using g4
    · intro k
      rw [g5, entriesOf_eq]
      simp [h1, Heap.withMap, findKey]
  have hck := common_kind hne'
  unfold mapFromKeys
  rw [hm_bind_ok hm]
  rw [odds_mapArgs, ← hs]
  by_cases k1 : kindOfArgs (ps.map Prod.snd) = 24
  · rw [if_pos k1] at hck ⊢
    obtain ⟨_, ha⟩ := kindOfArgs_str.mp k1
    obtain ⟨l, ks, g⟩ := main .string someStr fun p hp => by
      obtain ⟨k, v⟩ := p
      cases ha v (List.mem_map_of_mem hp)
      rfl
    exact ⟨.string, l, ks, g.1, hck, g.2⟩
  · rw [if_neg k1] at hck ⊢
    by_cases k2 : kindOfArgs (ps.map Prod.snd) = 2
    · rw [if_pos k2] at hck ⊢
      obtain ⟨_, ha⟩ := kindOfArgs_int.mp k2
      obtain ⟨l, ks, g⟩ := main .int someInt fun p hp => by
        obtain ⟨n, hn⟩ := ha p.2 (List.mem_map_of_mem hp)
        rw [hn]
        rfl
      exact ⟨.int, l, ks, g.1, hck, g.2⟩
    · rw [if_neg k2] at hck ⊢
      by_cases k3 : kindOfArgs (ps.map Prod.snd) = 14
      · rw [if_pos k3] at hck ⊢
        obtain ⟨ha, _⟩ := kindOfArgs_float.mp k3
        obtain ⟨l, ks, g⟩ := main .float (someFloat M) fun p hp => by
          obtain ⟨k, v⟩ := p
          cases ha v (List.mem_map_of_mem hp) <;> rfl
        exact ⟨.float, l, ks, g.1, hck, g.2⟩
      · rw [if_neg k3] at hck ⊢
        obtain ⟨l, ks, g⟩ := main .var someDefined fun p hp => by
          obtain ⟨k, v⟩ := p
          cases v <;> rfl
        exact ⟨.var, l, ks, g.1, hck, g.2⟩

/-! ### Imports -/

theorem importLoop_keeps {β : Type} : ∀ (table : List (Str × Sym β)) (tab : Str → Option (Sym β)) (n : Str) (a : β),
    tab n = some (.def_ a) → (importLoop tab table).2 n = some (.def_ a)
  | [], _, _, _, h => h
  | (name, fn) :: more, tab, n, a, h => by
    rw [importLoop]
    have step : n ≠ name → (importLoop (fun n => if n = name then some fn else tab n) more).2 n = some (.def_ a) := fun hn =>
      importLoop_keeps more _ n a (by rw [if_neg hn]; exact h)
    split
    · exact h
    · rename_i h'
      exact step (by rintro rfl; exact h' _ h)

/-- Other names stay as they are. -/
theorem importLoop_other {β : Type} : ∀ (table : List (Str × Sym β)) (tab : Str → Option (Sym β)) (n : Str),
    n ∉ table.map Prod.fst → (importLoop tab table).2 n = tab n
  | [], _, _, _ => rfl
  | (name, fn) :: more, tab, n, h => by
    simp only [List.map_cons, List.mem_cons, not_or] at h
    rw [importLoop]
    split
    · rfl
    · rw [importLoop_other more _ n h.2]
      exact if_neg h.1

theorem importLoop_ok {β : Type} : ∀ (table : List (Str × Sym β)) (tab : Str → Option (Sym β)),
    (table.map Prod.fst).Nodup →
    ((importLoop tab table).1 = none ↔ ∀ p ∈ table, ¬ Taken tab p.1) ∧
    ((importLoop tab table).1 = none → ∀ p ∈ table, (importLoop tab table).2 p.1 = some p.2) ∧
    ∀ n, (importLoop tab table).1 = some n → Taken tab n ∧ n ∈ table.map Prod.fst
  | [], tab, _ => by simp [importLoop]
  | (name, fn) :: more, tab, hn => by
    simp only [List.map_cons, List.nodup_cons] at hn
    obtain ⟨i1, i2, i3⟩ := importLoop_ok more (fun n => if n = name then some fn else tab n) hn.2
    have ht : ∀ n ∈ more.map Prod.fst, Taken (fun n => if n = name then some fn else tab n) n ↔ Taken tab n := by
      intro n hm
      unfold Taken
      dsimp only
      rw [if_neg (by rintro rfl; exact hn.1 hm)]
    rw [importLoop]
    split
    · rename_i a ha
      refine ⟨by simp [Taken, ha], by simp, ?_⟩
      intro n h
      cases h
      exact ⟨⟨_, ha⟩, by simp⟩
    · rename_i ha
      refine ⟨?_, ?_, ?_⟩
      · rw [i1]
        constructor
        · intro h p hp
          rcases List.mem_cons.mp hp with rfl | hp
          · rintro ⟨a, h⟩; exact ha a h
          · rw [← ht _ (List.mem_map_of_mem hp)]; exact h p hp
        · intro h p hp
          rw [ht _ (List.mem_map_of_mem hp)]
          exact h p (List.mem_cons_of_mem _ hp)
      · intro h p hp
        rcases List.mem_cons.mp hp with rfl | hp
        · rw [importLoop_other _ _ _ hn.1]
          exact if_pos rfl
        · exact i2 h p hp
      · intro n h
        obtain ⟨h1, h2⟩ := i3 n h
        exact ⟨(ht n h2).mp h1, by simp only [List.map_cons, List.mem_cons]; exact .inr h2⟩

end Tpl.Qlang
