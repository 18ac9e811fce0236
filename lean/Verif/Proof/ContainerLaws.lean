import Verif.Proof.Containers

/-! What the builtin functions on slices, maps and objects do to the heap. -/
namespace Tpl.Qlang
open Tpl Spec
variable {F : Type} {α β : Type} {M : Fl F}

theorem assignable_iff {v : QVal F} {t : Ty} : assignable v t = true ↔ HasType v t := by
  unfold assignable HasType
  cases v.ty with
  | none => simp
  | some u => simp

/-! ### Slices -/

/-- Reading a slice, in terms of the array. -/
theorem get_at {h : Heap F} {s : Sl} {i : Int} (h0 : 0 ≤ i) (h1 : i < s.len) {v : QVal F} (hv : (h.arrs s.arr)[(s.off + i).toNat]? = some v) :
    Get M h (.slice s) (.int i) = .ok v :=
  get_slice.2 ⟨i.toNat, by rw [Int.toNat_of_nonneg h0], by omega, by
    rw [elems_get (by omega), ← hv]; congr 1; omega⟩

theorem get_out {h : Heap F} {s : Sl} {i : Int} (hi : ¬ (0 ≤ i ∧ i < s.len)) : Get M h (.slice s) (.int i) = .error reflectMsg := by
  show (if 0 ≤ i ∧ i < s.len then _ else .error reflectMsg : QRes F) = _
  rw [if_neg hi]

theorem Sl.Valid.place {h : Heap F} {s : Sl} (w : s.Valid h) {i : Int} (h0 : 0 ≤ i) (h1 : i < s.len) :
    ∃ v, (h.arrs s.arr)[(s.off + i).toNat]? = some v := by
  have := w.len_le
  have := w.fits
  exact ⟨_, List.getElem?_eq_getElem (by omega)⟩

/-- Two heaps that agree at a place of a slice. -/
theorem get_congr {h h' : Heap F} {s s' : Sl} {i i' : Int} (hi : 0 ≤ i ∧ i < s.len) (hi' : 0 ≤ i' ∧ i' < s'.len)
    (hv : (h'.arrs s'.arr)[(s'.off + i').toNat]? = (h.arrs s.arr)[(s.off + i).toNat]?) :
    Get M h' (.slice s') (.int i') = Get M h (.slice s) (.int i) := by
  show (if 0 ≤ i' ∧ i' < s'.len then match (h'.elems s')[i'.toNat]? with
        | some v => pure v
        | none => .error reflectMsg
      else .error reflectMsg : QRes F) = (if 0 ≤ i ∧ i < s.len then match (h.elems s)[i.toNat]? with
        | some v => pure v
        | none => .error reflectMsg
      else .error reflectMsg : QRes F)
  rw [if_pos hi, if_pos hi', elems_get (by omega), elems_get (by omega)]
  rw [show s'.off + i'.toNat = (s'.off + i').toNat by omega, hv, show s.off + i.toNat = (s.off + i).toNat by omega]

theorem get_same {h h' : Heap F} {s : Sl} {i : Int} (hv : (h'.arrs s.arr)[(s.off + i).toNat]? = (h.arrs s.arr)[(s.off + i).toNat]?) :
    Get M h' (.slice s) (.int i) = Get M h (.slice s) (.int i) := by
  by_cases hi : 0 ≤ i ∧ i < s.len
  · exact get_congr hi hi hv
  · rw [get_out hi, get_out hi]

theorem set_slice_run {s : Sl} {i : Int} {v : QVal F} {h : Heap F} (hi : 0 ≤ i ∧ i < s.len) (hv : assignable v s.elem = true) :
    Set M (.slice s) [.int i, v] h = (.ok (), h.withArr s.arr ((h.arrs s.arr).set (s.off + i.toNat) v)) := by
  unfold Set
  rw [if_neg (by simp)]
  dsimp only
  unfold setSliceLoop
  rw [hm_bind_ok (rfl : HM.lift (assertInt (.int i)) h = (.ok i, h)), if_pos hi, if_pos hv]
  rfl

theorem set_slice_bad {s : Sl} {k v : QVal F} {h : Heap F} (hb : ¬ ∃ i, k = .int i ∧ 0 ≤ i ∧ i < s.len ∧ HasType v s.elem) :
    ∃ p, Set M (.slice s) [k, v] h = (.error p, h) := by
  unfold Set
  rw [if_neg (by simp)]
  dsimp only
  unfold setSliceLoop
  by_cases hk : ∃ i, k = .int i
  · obtain ⟨i, rfl⟩ := hk
    rw [hm_bind_ok (rfl : HM.lift (assertInt (.int i)) h = (.ok i, h))]
    by_cases hi : 0 ≤ i ∧ i < s.len
    · rw [if_pos hi, if_neg fun hv => hb ⟨i, rfl, hi.1, hi.2, assignable_iff.1 hv⟩]
      exact ⟨_, rfl⟩
    · rw [if_neg hi]
      exact ⟨_, rfl⟩
  · refine ⟨failErr .conversion, ?_⟩
    cases k <;> first | exact absurd ⟨_, rfl⟩ hk | rfl

/-- The slice `b` on `h'` is `s` on `h` with `xs` appended. -/
structure Appends (h h' : Heap F) (s b : Sl) (xs : List (QVal F)) : Prop where
  later : Later h h'
  valid : b.Valid h'
  elem : b.elem = s.elem
  len : b.len = s.len + xs.length
  elems : h'.elems b = h.elems s ++ xs
  place : (b.arr = s.arr ∧ b.off = s.off ∧ b.cap = s.cap) ∨ (s.cap < b.len ∧ h.next ≤ b.arr)
  others : ∀ x < h.next, ∀ i, (x = s.arr → s.off + s.len ≤ i → i < s.off + s.len + xs.length → s.off + s.cap ≤ i) →
    (h'.arrs x)[i]? = (h.arrs x)[i]?
  maps : h'.maps = h.maps
  objs : h'.objs = h.objs

theorem appends_raw (s : Sl) (xs : List (QVal F)) (h : Heap F) (hs : s.Valid h) :
    ∃ b h', appendRaw M s xs h = (.ok b, h') ∧ Appends h h' s b xs := by
  have w1 := hs.len_le
  have w2 := hs.fits
  by_cases hc : s.len + xs.length ≤ s.cap
  · refine ⟨_, _, appendRaw_in hc, ?_⟩
    have hlen : ((h.arrs s.arr).take (s.off + s.len) ++ xs ++ (h.arrs s.arr).drop (s.off + s.len + xs.length)).length = (h.arrs s.arr).length := by
      simp only [List.length_append, List.length_take, List.length_drop]
      omega
    have hl : Later h (h.withArr s.arr ((h.arrs s.arr).take (s.off + s.len) ++ xs ++ (h.arrs s.arr).drop (s.off + s.len + xs.length))) := by
      refine ⟨Nat.le_refl _, fun x _ => ?_⟩
      simp only [Heap.withArr]
      split
      · next he => rw [hlen, he]
      · rfl
    refine ⟨hl, ⟨hc, (hl.slice hs).fits, (hl.slice hs).old⟩, rfl, rfl, ?_, .inl ⟨rfl, rfl, rfl⟩, ?_, rfl, rfl⟩
    · simp only [Heap.elems, Heap.withArr, if_true]
      rw [List.append_assoc, List.drop_append_of_le_length (by simp; omega), List.drop_take, Nat.add_sub_cancel_left,
        List.take_append, List.length_take, List.length_drop, List.take_of_length_le (by simp; omega),
        show s.len + xs.length - min s.len ((h.arrs s.arr).length - s.off) = xs.length by omega, List.take_append_of_le_length (Nat.le_refl _), List.take_length]
    · intro x hx i hi
      simp only [Heap.withArr]
      split
      · next he =>
        subst he
        by_cases h1 : i < s.off + s.len
        · rw [List.append_assoc, List.getElem?_append_left (by simp; omega), List.getElem?_take_of_lt h1]
        · have h2 : s.off + s.len + xs.length ≤ i := by
            apply Nat.le_of_not_lt
            intro h2
            have := hi rfl (by omega) h2
            omega
          rw [List.getElem?_append_right (by simp; omega), List.getElem?_drop]
          congr 1
          simp only [List.length_append, List.length_take]
          omega
      · rfl
  · refine ⟨_, _, appendRaw_out hc, ?_⟩
    have hle := grown_le (M := M) s xs.length
    have hl : Later h (h.newArr (h.elems s ++ xs ++ List.replicate (grown M s xs.length - (s.len + xs.length)) (zeroOf M s.elem))) := by
      refine ⟨Nat.le_succ _, fun x hx => ?_⟩
      simp only [Heap.newArr, Heap.withArr]
      rw [if_neg (by omega)]
    refine ⟨hl, ⟨hle, ?_, Nat.lt_succ_self _⟩, rfl, rfl, ?_, .inr ⟨by dsimp only; omega, Nat.le_refl _⟩, ?_, rfl, rfl⟩
    · simp [Heap.newArr, Heap.withArr, hs.elems_length]
      omega
    · simp only [Heap.elems, Heap.newArr, Heap.withArr, if_true, List.drop_zero]
      have := hs.elems_length
      simp only [Heap.elems] at this
      rw [List.take_append_of_le_length (by simp only [List.length_append]; omega), List.take_of_length_le (by simp only [List.length_append]; omega)]
    · intro x hx i _
      simp only [Heap.newArr, Heap.withArr]
      rw [if_neg (by omega)]

theorem Appends.trans {h h1 h2 : Heap F} {s b c : Sl} {xs ys : List (QVal F)} (p : Appends h h1 s b xs) (q : Appends h1 h2 b c ys) :
    Appends h h2 s c (xs ++ ys) where
  later := p.later.trans q.later
  valid := q.valid
  elem := q.elem.trans p.elem
  len := by rw [q.len, p.len, List.length_append]; omega
  elems := by rw [q.elems, p.elems, List.append_assoc]
  place := by
    have := p.later.next
    rcases p.place with ⟨a1, a2, a3⟩ | ⟨a1, a2⟩ <;> rcases q.place with ⟨b1, b2, b3⟩ | ⟨b1, b2⟩
    · exact .inl ⟨b1.trans a1, b2.trans a2, b3.trans a3⟩
    · exact .inr ⟨by omega, by omega⟩
    · refine .inr ⟨?_, by omega⟩
      have := q.len
      omega
    · refine .inr ⟨?_, by omega⟩
      have := q.len
      omega
  others := by
    intro x hx i hi
    have hn := p.later.next
    have hl := p.len
    rw [List.length_append] at hi
    rw [q.others x (by omega) i, p.others x hx i]
    · intro h3 h4 h5
      exact hi h3 h4 (by omega)
    · intro h3 h4 h5
      rcases p.place with ⟨a1, a2, a3⟩ | ⟨a1, a2⟩
      · have := hi (by omega) (by omega) (by omega)
        omega
      · omega
  maps := q.maps.trans p.maps
  objs := q.objs.trans p.objs

theorem appends_none {h : Heap F} {s : Sl} (hs : s.Valid h) : Appends h h s s [] :=
  ⟨.refl _, hs, rfl, rfl, by simp, .inl ⟨rfl, rfl, rfl⟩, fun _ _ _ _ => rfl, rfl, rfl⟩

/-- `appended` for all values. -/
def allAppended (M : Fl F) (t : Ty) : List (QVal F) → Option (List (QVal F))
  | [] => some []
  | v :: vs => match appended M t v, allAppended M t vs with
    | some x, some xs => some (x :: xs)
    | _, _ => none

theorem allAppended_length {t : Ty} : ∀ {vs xs : List (QVal F)}, allAppended M t vs = some xs → xs.length = vs.length
  | [], xs, h => by cases h; rfl
  | v :: vs, xs, h => by
    rw [allAppended] at h
    split at h
    · rename_i h2
      cases h
      simp [allAppended_length h2]
    · cases h

theorem allAppended_get {t : Ty} : ∀ {vs xs : List (QVal F)}, allAppended M t vs = some xs → ∀ (i : Nat) v, vs[i]? = some v → xs[i]? = appended M t v
  | [], xs, h, i, v, hv => by simp at hv
  | w :: vs, xs, h, i, v, hv => by
    rw [allAppended] at h
    split at h
    · rename_i h1 h2
      cases h
      cases i with
      | zero => simp at hv; rw [← hv, h1]; rfl
      | succ i => simpa using allAppended_get h2 i v (by simpa using hv)
    · cases h

theorem allAppended_some {t : Ty} : ∀ {vs : List (QVal F)}, (∃ xs, allAppended M t vs = some xs) ↔ ∀ v ∈ vs, (appended M t v).isSome
  | [] => by simp [allAppended]
  | v :: vs => by
    rw [List.forall_mem_cons, ← allAppended_some (vs := vs), allAppended]
    cases appended M t v <;> cases allAppended M t vs <;> simp

theorem appends_float : ∀ (vals : List (QVal F)) (s : Sl) (h : Heap F), s.Valid h → s.elem = .float →
    (∀ xs, allAppended M .float vals = some xs → ∃ b h', appendFloat M s vals h = (.ok b, h') ∧ Appends h h' s b xs) ∧
    (allAppended M .float vals = none → ∃ p h' b xs, appendFloat M s vals h = (.error p, h') ∧ Appends h h' s b xs ∧ xs.length ≤ vals.length)
  | [], s, h, hs, he => ⟨fun xs hx => by cases hx; exact ⟨s, h, rfl, appends_none hs⟩, fun hx => by cases hx⟩
  | v :: vals, s, h, hs, he => by
    have key : ∀ x, (∀ xs, allAppended M .float vals = some xs →
          ∃ b h', (do appendFloat M (← appendRaw M s [.float x]) vals : HM F Sl) h = (.ok b, h') ∧ Appends h h' s b (.float x :: xs)) ∧
        (allAppended M .float vals = none → ∃ p h' b xs, (do appendFloat M (← appendRaw M s [.float x]) vals : HM F Sl) h = (.error p, h') ∧
          Appends h h' s b xs ∧ xs.length ≤ vals.length + 1) := by
      intro x
      obtain ⟨b1, h1, e1, a1⟩ := appends_raw (M := M) s [.float x] h hs
      obtain ⟨i1, i2⟩ := appends_float vals b1 h1 a1.valid (a1.elem.trans he)
      constructor
      · intro xs hx
        obtain ⟨b2, h2, e2, a2⟩ := i1 xs hx
        exact ⟨b2, h2, by rw [hm_bind_ok e1, e2], a1.trans a2⟩
      · intro hx
        obtain ⟨p, h2, b2, xs, e2, a2, hl⟩ := i2 hx
        exact ⟨p, h2, b2, _, by rw [hm_bind_ok e1, e2], a1.trans a2, Nat.succ_le_succ hl⟩
    have step : ∀ x, appended M .float v = some (.float x) → appendFloat M s (v :: vals) = (do appendFloat M (← appendRaw M s [.float x]) vals) →
        (∀ xs, allAppended M .float (v :: vals) = some xs → ∃ b h', appendFloat M s (v :: vals) h = (.ok b, h') ∧ Appends h h' s b xs) ∧
        (allAppended M .float (v :: vals) = none → ∃ p h' b xs, appendFloat M s (v :: vals) h = (.error p, h') ∧ Appends h h' s b xs ∧ xs.length ≤ vals.length + 1) := by
      intro x hx he
      rw [he]
      constructor
      · intro xs hxs
        rw [allAppended, hx] at hxs
        split at hxs
        · rename_i h1 h2
          cases h1; cases hxs
          exact (key x).1 _ h2
        · cases hxs
      · intro hn
        rw [allAppended, hx] at hn
        split at hn
        · cases hn
        · rename_i hno
          refine (key x).2 ?_
          cases hv : allAppended M .float vals with
          | none => rfl
          | some xs => exact (hno _ _ rfl hv).elim
    have bad : appended M .float v = none → (∃ p, appendFloat M s (v :: vals) = HM.throw p) →
        (∀ xs, allAppended M .float (v :: vals) = some xs → ∃ b h', appendFloat M s (v :: vals) h = (.ok b, h') ∧ Appends h h' s b xs) ∧
        (allAppended M .float (v :: vals) = none → ∃ p h' b xs, appendFloat M s (v :: vals) h = (.error p, h') ∧ Appends h h' s b xs ∧ xs.length ≤ vals.length + 1) := by
      rintro hx ⟨p, he⟩
      rw [he]
      refine ⟨fun xs hxs => ?_, fun _ => ⟨p, h, s, [], rfl, appends_none hs, Nat.zero_le _⟩⟩
      rw [allAppended, hx] at hxs
      cases hxs
    cases v <;> first | exact step _ rfl rfl | exact bad rfl ⟨_, rfl⟩

theorem appended_var (v : QVal F) : appended M .var v = some v := by cases v <;> rfl

theorem allAppended_var : ∀ vs : List (QVal F), allAppended M .var vs = some vs
  | [] => rfl
  | v :: vs => by rw [allAppended, allAppended_var vs, appended_var]

theorem appended_nil {t : Ty} (h1 : t ≠ .float) : appended M t .nil = some (zeroOf M t) := by
  cases t <;> first | exact absurd rfl h1 | rfl

theorem appended_other {t : Ty} {v : QVal F} (h1 : t ≠ .float) (h2 : t ≠ .var) (hn : v ≠ .nil) :
    appended M t v = if assignable v t then some v else none := by
  have : assignable v t = true ↔ v.ty = some t := by
    rw [assignable_iff]
    constructor
    · rintro ⟨u, hu, he | he⟩
      · exact absurd he h2
      · rw [hu, he]
    · intro h; exact ⟨t, h, .inr rfl⟩
  have he : appended M t v = if v.ty = some t then some v else none := by
    cases t <;> first | exact absurd rfl h1 | exact absurd rfl h2 | (cases v <;> first | exact absurd rfl hn | rfl)
  rw [he]
  by_cases hv : v.ty = some t
  · rw [if_pos hv, if_pos (this.2 hv)]
  · rw [if_neg hv, if_neg fun h => hv (this.1 h)]

theorem appendArgs_eq {t : Ty} (h1 : t ≠ .float) (h2 : t ≠ .var) : ∀ vs : List (QVal F),
    appendArgs M t vs = match allAppended M t vs with
      | some xs => .ok xs
      | none => .error reflectMsg
  | [] => rfl
  | v :: vs => by
    by_cases hn : v = .nil
    · subst hn
      rw [allAppended, appended_nil h1]
      show (do let a ← appendArgs M t vs; pure (zeroOf M t :: a)) = _
      rw [appendArgs_eq h1 h2 vs]
      cases allAppended M t vs <;> rfl
    · rw [appendArgs_cons hn, appendArgs_eq h1 h2 vs, allAppended, appended_other h1 h2 hn]
      split
      · cases allAppended M t vs <;> rfl
      · rfl

theorem append_spec (s : Sl) (vals : List (QVal F)) (h : Heap F) (hs : s.Valid h) :
    (∀ xs, allAppended M s.elem vals = some xs → ∃ b h', Append M (.slice s) vals h = (.ok (.slice b), h') ∧ Appends h h' s b xs ∧
      (s.elem ≠ .float → s.cap < b.len → ∀ a < h.next, h'.arrs a = h.arrs a)) ∧
    (allAppended M s.elem vals = none → ∃ p h' b xs, Append M (.slice s) vals h = (.error p, h') ∧ Appends h h' s b xs ∧ xs.length ≤ vals.length ∧
      (s.elem ≠ .float → s.cap < s.len + vals.length → h' = h)) := by
  unfold Append
  dsimp only
  by_cases h1 : s.elem = .float
  · rw [if_pos h1, h1]
    obtain ⟨a1, a2⟩ := appends_float (M := M) vals s h hs h1
    constructor
    · intro xs hx
      obtain ⟨b, h', e, a⟩ := a1 xs hx
      exact ⟨b, h', by rw [hm_bind_ok e]; rfl, a, fun hne => absurd rfl hne⟩
    · intro hx
      obtain ⟨p, h', b, xs, e, a, hl⟩ := a2 hx
      exact ⟨p, h', b, xs, by rw [hm_bind, e], a, hl, fun hne => absurd rfl hne⟩
  · rw [if_neg h1]
    have raw : ∀ xs, ∃ b h', appendRaw M s xs h = (.ok b, h') ∧ Appends h h' s b xs ∧ (s.elem ≠ .float → s.cap < b.len → ∀ a < h.next, h'.arrs a = h.arrs a) := by
      intro xs
      obtain ⟨b, h', e, a⟩ := appends_raw (M := M) s xs h hs
      refine ⟨b, h', e, a, fun _ hc x hx => ?_⟩
      rw [appendRaw_out (by rw [← a.len]; omega)] at e
      cases e
      simp only [Heap.newArr, Heap.withArr]
      rw [if_neg (by omega)]
    by_cases h2 : s.elem = .var
    · rw [if_pos h2, h2, allAppended_var]
      refine ⟨fun xs hx => ?_, fun hx => by cases hx⟩
      cases hx
      obtain ⟨b, h', e, a⟩ := raw vals
      exact ⟨b, h', by rw [hm_bind_ok e]; rfl, a.1, by rw [← h2]; exact a.2⟩
    · rw [if_neg h2]
      unfold appendReflect
      rw [appendArgs_eq h1 h2]
      constructor
      · intro xs hx
        rw [hx]
        obtain ⟨b, h', e, a⟩ := raw xs
        refine ⟨b, h', ?_, a⟩
        rw [hm_bind_ok e]
        rfl
      · intro hx
        rw [hx]
        dsimp only
        split
        · obtain ⟨b, h', e, a⟩ := raw (appendPre M s.elem vals)
          refine ⟨reflectMsg, h', b, _, ?_, a.1, length_appendPre _ vals, fun _ hc => by omega⟩
          rw [hm_bind, hm_bind_ok e]
          rfl
        · exact ⟨reflectMsg, h, s, [], rfl, appends_none hs, Nat.zero_le _, fun _ _ => rfl⟩

/-! ### Maps -/

theorem same_symm (L : Lawful M) {a b : QVal F} (h : SameKey M a b) : SameKey M b a := by
  unfold SameKey at *
  cases a <;> cases b <;> first | (cases h; done) | skip
  all_goals simp only [QVal.eq, Option.some.injEq, beq_iff_eq, Bool.and_eq_true] at h ⊢
  all_goals first
    | exact h.symm
    | exact L.symm _ _ h
    | exact L.symm' _ _ h
    | exact ⟨h.1.symm, h.2.symm⟩
    | (split at h <;> cases h; done)
    | skip

theorem same_trans (L : Lawful M) {a b c : QVal F} (h : SameKey M a b) (h' : SameKey M b c) : SameKey M a c := by
  unfold SameKey at *
  cases a <;> cases b <;> first | (cases h; done) | (cases c <;> first | (cases h'; done) | skip)
  all_goals simp only [QVal.eq, Option.some.injEq, beq_iff_eq, Bool.and_eq_true] at h h' ⊢
  all_goals first
    | exact h.trans h'
    | exact L.trans _ _ _ h h'
    | exact L.trans' _ _ _ h h'
    | exact ⟨h.1.trans h'.1, h.2.trans h'.2⟩
    | (split at h <;> cases h; done)
    | skip

theorem find_put_same (L : Lawful M) {k k' v : QVal F} (hk : SameKey M k k') : ∀ l : List (QVal F × QVal F), findKey M k' (putKey M k v l) = some v
  | [] => by rw [putKey, findKey, if_pos (show k.eq M k' = some true from hk)]
  | (q, w) :: l => by
    rw [putKey]
    split
    · rename_i hq
      have hq : SameKey M q k := hq
      rw [findKey, if_pos (show q.eq M k' = some true from same_trans L hq hk)]
    · rename_i hq
      rw [findKey, if_neg fun h : q.eq M k' = some true => hq (same_trans L h (same_symm L hk)), find_put_same L hk l]

theorem find_put_other (L : Lawful M) {k k' v : QVal F} (hk : ¬ SameKey M k k') : ∀ l : List (QVal F × QVal F),
    findKey M k' (putKey M k v l) = findKey M k' l
  | [] => if_neg (show ¬ k.eq M k' = some true from hk)
  | (q, w) :: l => by
    rw [putKey]
    split
    · rename_i hq
      have hq : SameKey M q k := hq
      have hq' : ¬ q.eq M k' = some true := fun h => hk (same_trans L (same_symm L hq) h)
      rw [findKey, findKey, if_neg hq', if_neg hq']
    · rw [findKey, findKey, find_put_other L hk l]

theorem find_none {k : QVal F} : ∀ {l : List (QVal F × QVal F)}, findKey M k l = none ↔ ∀ p ∈ l, ¬ SameKey M p.1 k
  | [] => by simp [findKey]
  | (q, w) :: l => by
    rw [findKey, List.forall_mem_cons]
    split
    · rename_i hq
      exact ⟨fun h => (nomatch h), fun h => absurd hq h.1⟩
    · rename_i hq
      rw [find_none]
      exact ⟨fun h => ⟨hq, h⟩, fun h => h.2⟩

theorem find_del_same (L : Lawful M) {k k' : QVal F} (hk : SameKey M k k') : ∀ l : List (QVal F × QVal F), KeysDiffer M l →
    findKey M k' (delKey M k l) = none
  | [], _ => rfl
  | (q, w) :: l, hd => by
    have hd := List.pairwise_cons.1 hd
    rw [delKey]
    split
    · rename_i hq
      have hq : SameKey M q k := hq
      exact find_none.2 fun p hp h => hd.1 p hp (same_trans L (same_trans L hq hk) (same_symm L h))
    · rename_i hq
      rw [findKey, if_neg fun h : q.eq M k' = some true => hq (same_trans L h (same_symm L hk)), find_del_same L hk l hd.2]

theorem find_del_other (L : Lawful M) {k k' : QVal F} (hk : ¬ SameKey M k k') : ∀ l : List (QVal F × QVal F),
    findKey M k' (delKey M k l) = findKey M k' l
  | [] => rfl
  | (q, w) :: l => by
    rw [delKey]
    split
    · rename_i hq
      have hq : SameKey M q k := hq
      rw [findKey, if_neg fun h : q.eq M k' = some true => hk (same_trans L (same_symm L hq) h)]
    · rw [findKey, findKey, find_del_other L hk l]

theorem length_put {k v : QVal F} : ∀ l : List (QVal F × QVal F),
    (putKey M k v l).length = l.length + (if (findKey M k l).isSome then 0 else 1)
  | [] => rfl
  | (q, w) :: l => by
    rw [putKey, findKey]
    split
    · rfl
    · rw [List.length_cons, length_put l, List.length_cons]; omega

theorem length_del (k : QVal F) : ∀ l : List (QVal F × QVal F),
    (delKey M k l).length + (if (findKey M k l).isSome then 1 else 0) = l.length
  | [] => rfl
  | (q, w) :: l => by
    rw [delKey, findKey]
    split
    · rfl
    · rw [List.length_cons, List.length_cons, ← length_del k l]; omega

theorem isKey_iff {t : Ty} {k : QVal F} : IsKey t k ↔ assignable k t = true ∧ hashable k = true := by
  unfold IsKey
  rw [assignable_iff]
  refine and_congr_right fun ⟨u, hu, _⟩ => ?_
  unfold hashable
  rw [hu]
  exact ⟨fun h => h u rfl, fun h v hv => by cases hv; exact h⟩

theorem get_map {h : Heap F} {kt vt : Ty} {a : Nat} {k : QVal F} (hk : IsKey kt k) :
    Get M h (.map kt vt a) k = .ok ((findKey M k (h.maps a)).getD .undefined) := by
  obtain ⟨h1, h2⟩ := isKey_iff.1 hk
  unfold Get
  dsimp only
  rw [if_pos h1, if_pos h2]
  cases findKey M k (h.maps a) <;> rfl

theorem get_map_bad {h : Heap F} {kt vt : Ty} {a : Nat} {k : QVal F} (hk : ¬ IsKey kt k) : ∃ p, Get M h (.map kt vt a) k = .error p := by
  unfold Get
  dsimp only
  split
  · rename_i h1
    rw [if_neg fun h2 => hk (isKey_iff.2 ⟨h1, h2⟩)]
    exact ⟨_, rfl⟩
  · exact ⟨_, rfl⟩

/-- What `Set` gives to `SetMapIndex`. -/
def given (M : Fl F) (vt : Ty) : QVal F → Option (QVal F)
  | .undefined => none
  | .nil => some (zeroOf M vt)
  | v => some v

theorem setMapLoop_cons (kt vt : Ty) (a : Nat) (k v : QVal F) (rest : List (QVal F)) :
    setMapLoop M kt vt a (k :: v :: rest) = (do setMapIndex M kt vt a k (given M vt v); setMapLoop M kt vt a rest) := by cases v <;> rfl

theorem set_map_eq {kt vt : Ty} {a : Nat} {k v : QVal F} {h : Heap F} :
    Set M (.map kt vt a) [k, v] h = setMapIndex M kt vt a k (given M vt v) h := by
  unfold Set
  rw [if_neg (by simp)]
  dsimp only
  rw [setMapLoop_cons, hm_bind]
  cases hr : setMapIndex M kt vt a k (given M vt v) h with
  | mk r h' => cases r <;> rfl

theorem zero_ok (t : Ty) : zeroOf M t = .nil ∨ assignable (zeroOf M t) t = true := by
  cases t <;> first | exact .inl rfl | (refine .inr (assignable_iff.2 ⟨_, rfl, .inr rfl⟩))

theorem given_stored {vt : Ty} {v w : QVal F} (h : given M vt v = some w) : w = stored M vt v ∧ v ≠ .undefined := by
  cases v <;> cases h <;> exact ⟨rfl, fun h => nomatch h⟩

theorem given_none {vt : Ty} {v : QVal F} : given M vt v = none ↔ v = .undefined := by
  cases v <;> first | exact ⟨fun _ => rfl, fun _ => rfl⟩ | exact ⟨fun h => (nomatch h), fun h => (nomatch h)⟩

/-- The entries after `Set`. -/
theorem set_map_run {kt vt : Ty} {a : Nat} {k v : QVal F} {h : Heap F} (hk : IsKey kt k) (hv : v = .undefined ∨ v = .nil ∨ HasType v vt) :
    Set M (.map kt vt a) [k, v] h = (.ok (), h.withMap a (match given M vt v with
      | none => delKey M k (h.maps a)
      | some w => putKey M k w (h.maps a))) := by
  obtain ⟨h1, h2⟩ := isKey_iff.1 hk
  rw [set_map_eq]
  cases hg : given M vt v with
  | none => rw [setMapIndex_del h1, if_pos h2]
  | some w =>
    rw [setMapIndex_put h1, mapPut_run, if_pos h2]
    obtain ⟨hw, hnu⟩ := given_stored hg
    rcases hv with hv | rfl | hv
    · exact absurd hv hnu
    · cases hg; exact zero_ok vt
    · refine .inr (assignable_iff.2 ?_)
      have : w = v := by cases v <;> first | (cases hg; rfl) | exact absurd rfl hnu | (obtain ⟨_, h, _⟩ := hv; cases h)
      rw [this]; exact hv

theorem set_map_bad {kt vt : Ty} {a : Nat} {k v : QVal F} {h : Heap F} (hb : ¬ (IsKey kt k ∧ (v = .undefined ∨ v = .nil ∨ HasType v vt))) :
    ∃ p, Set M (.map kt vt a) [k, v] h = (.error p, h) := by
  rw [set_map_eq]
  by_cases h1 : assignable k kt = true
  · cases hg : given M vt v with
    | none =>
      rw [setMapIndex_del h1]
      split
      · rename_i h2
        exact absurd ⟨isKey_iff.2 ⟨h1, h2⟩, .inl (given_none.1 hg)⟩ hb
      · exact ⟨_, rfl⟩
    | some w =>
      by_cases hv : w = .nil ∨ assignable w vt = true
      · rw [setMapIndex_put h1 hv, mapPut_run]
        split
        · rename_i h2
          refine absurd ⟨isKey_iff.2 ⟨h1, h2⟩, ?_⟩ hb
          by_cases hn : v = .nil
          · exact .inr (.inl hn)
          · refine .inr (.inr ?_)
            have hw : w = v := by
              cases v <;> first | (cases hg; rfl) | exact absurd rfl hn | cases hg
            rcases hv with hv | hv
            · exact absurd (hw.symm.trans hv) hn
            · rw [← hw]; exact assignable_iff.1 hv
        · exact ⟨_, rfl⟩
      · rw [setMapIndex_bad h1 hv]
        exact ⟨_, rfl⟩
  · obtain ⟨p, hp⟩ := setMapIndex_key (M := M) (vt := vt) (a := a) (o := given M vt v) h1
    rw [hp]
    exact ⟨p, rfl⟩

/-! ### Objects -/

theorem set_obj_run {a : Nat} {fns : List (Str × Nat × Fun)} {name : Str} {v : QVal F} {h : Heap F} (hn : fns.lookup name = none) :
    Set M (.obj a fns) [.str name, v] h = (.ok (), h.withObj a fun n => if n = name then some v else h.objs a n) := by
  unfold Set
  rw [if_neg (by simp)]
  dsimp only
  unfold setObjLoop
  rw [hm_bind_ok (rfl : HM.lift (assertStr (.str name)) h = (.ok name, h)), if_neg (by rw [hn]; exact Bool.false_ne_true)]
  rfl

theorem set_obj_bad {a : Nat} {fns : List (Str × Nat × Fun)} {k v : QVal F} {h : Heap F} (hb : ¬ ∃ name, k = .str name ∧ fns.lookup name = none) :
    ∃ p, Set M (.obj a fns) [k, v] h = (.error p, h) := by
  unfold Set
  rw [if_neg (by simp)]
  dsimp only
  unfold setObjLoop
  by_cases hk : ∃ name, k = .str name
  · obtain ⟨name, rfl⟩ := hk
    rw [hm_bind_ok (rfl : HM.lift (assertStr (.str name)) h = (.ok name, h)), if_pos]
    · exact ⟨_, rfl⟩
    · cases hl : fns.lookup name with
      | none => exact absurd ⟨name, rfl, hl⟩ hb
      | some _ => rfl
  · refine ⟨failErr .conversion, ?_⟩
    cases k <;> first | exact absurd ⟨_, rfl⟩ hk | rfl

/-! ### Several pairs -/

/-- A loop over pairs. -/
theorem pairs_loop {x y z : HM F Unit} (h : Heap F) (hx : x h = (y >>= fun _ => z) h) {w : HM F Unit} (hw : w h = (y >>= fun _ => pure ()) h) :
    x h = (w >>= fun _ => z) h := by
  rw [hx, hm_bind, hm_bind, hw, hm_bind]
  cases hr : y h with
  | mk r h' => cases r <;> rfl

/-- One round of the loops. -/
def putAt (s : Sl) (k v : QVal F) : HM F Unit := do
  let i ← HM.lift (assertInt k)
  if 0 ≤ i ∧ i < s.len then
    if assignable v s.elem then do
      let h ← HM.get
      HM.setArr s.arr ((h.arrs s.arr).set (s.off + i.toNat) v)
    else HM.throw (match v with
      | .nil => valueErr
      | _ => reflectMsg)
  else HM.throw reflectMsg

theorem setSliceLoop_cons (s : Sl) (k v : QVal F) (rest : List (QVal F)) (h : Heap F) :
    setSliceLoop s (k :: v :: rest) h = (putAt s k v >>= fun _ => setSliceLoop s rest) h := by
  unfold putAt
  conv => lhs; unfold setSliceLoop
  rw [hm_bind, hm_bind, hm_bind]
  cases hr : HM.lift (assertInt k) h with
  | mk r h' =>
    cases r with
    | error p => rfl
    | ok i =>
      dsimp only
      split
      · split <;> rfl
      · rfl

def putVar (a : Nat) (cls : List (Str × Nat × Fun)) (k v : QVal F) : HM F Unit := do
  let name ← HM.lift (assertStr k)
  if (cls.lookup name).isSome then HM.throw (failMsg (str "set failed: class already have a method named " ++ name))
  else do
    let h ← HM.get
    HM.setObj a (fun n => if n = name then some v else h.objs a n)

theorem setObjLoop_cons (a : Nat) (cls : List (Str × Nat × Fun)) (k v : QVal F) (rest : List (QVal F)) (h : Heap F) :
    setObjLoop a cls (k :: v :: rest) h = (putVar a cls k v >>= fun _ => setObjLoop a cls rest) h := by
  unfold putVar
  conv => lhs; unfold setObjLoop
  rw [hm_bind, hm_bind, hm_bind]
  cases hr : HM.lift (assertStr k) h with
  | mk r h' =>
    cases r with
    | error p => rfl
    | ok i =>
      dsimp only
      split <;> rfl

theorem set_pairs (m k v : QVal F) (rest : List (QVal F)) (hr : rest.length % 2 = 0) (h : Heap F) :
    Set M m (k :: v :: rest) h = (do Set M m [k, v]; Set M m rest) h := by
  have hl : ¬ (k :: v :: rest).length % 2 ≠ 0 := by simp only [List.length_cons]; omega
  have hl2 : ¬ [k, v].length % 2 ≠ 0 := by simp
  have hl1 : ¬ rest.length % 2 ≠ 0 := by omega
  unfold Set
  rw [if_neg hl, if_neg hl1, if_neg hl2]
  cases m <;> first
    | rfl
    | exact pairs_loop h (setSliceLoop_cons _ _ _ _ _) (setSliceLoop_cons _ _ _ _ _)
    | exact pairs_loop h (setObjLoop_cons _ _ _ _ _ _) (setObjLoop_cons _ _ _ _ _ _)
    | (dsimp only; rw [setMapLoop_cons]; exact pairs_loop h rfl (by rw [setMapLoop_cons]; rfl))

end Tpl.Qlang
