import Verif.Proof.ContainerLaws
import Verif.Proof.QlangDoes

/-
Properties of slices, maps and objects of qlang (C94-C97).

`Works M h vs` says that a program has come to the heap `h` by calling the builtin functions
on values it knows, and knows the values `vs`.
-/
namespace Tpl.Props
open Tpl Tpl.Spec Tpl.Qlang
variable {F : Type} {M : Fl F} {h h' : Heap F} {vs : List (QVal F)}

theorem known_slice (w : Works M h vs) {s : Sl} (hs : .slice s ∈ vs) : s.Valid h := (valid_works w).2 _ hs

/-! ### C94: slices -/

/-- Exactly the places up to the length can be read. -/
theorem C94_get (w : Works M h vs) {a : Sl} (ha : .slice a ∈ vs) (k : QVal F) :
    (∃ v, Get M h (.slice a) k = .ok v) ↔ ∃ i n, k = .int i ∧ Len h (.slice a) = .ok n ∧ 0 ≤ i ∧ i < n := by
  have hv := known_slice w ha
  constructor
  · rintro ⟨v, hg⟩
    obtain ⟨i, rfl, hi, _⟩ := get_slice.1 hg
    exact ⟨i, a.len, rfl, rfl, by omega, by omega⟩
  · rintro ⟨i, n, rfl, hl, h0, h1⟩
    cases hl
    obtain ⟨v, hp⟩ := hv.place h0 h1
    exact ⟨v, get_at h0 h1 hp⟩

/-- A place has one value, whatever slice it is read through. -/
theorem C94_same {a b : Sl} {i j : Int} (hi : 0 ≤ i ∧ i < a.len) (hj : 0 ≤ j ∧ j < b.len) (hp : SamePlace a i b j) :
    Get M h (.slice a) (.int i) = Get M h (.slice b) (.int j) := by
  refine get_congr hj hi ?_
  rw [hp.1, hp.2]

/-- `set(a, i, v)` works exactly if `a` has a place `i` and `v` the type of its elements.
Then this place has the value `v`, through every slice; all other places, the maps and the
objects are as before. -/
theorem C94_set (w : Works M h vs) {a : Sl} (ha : .slice a ∈ vs) (k v : QVal F) :
    ((∃ h', Set M (.slice a) [k, v] h = (.ok (), h')) ↔ ∃ i, k = .int i ∧ 0 ≤ i ∧ i < a.len ∧ HasType v a.elem) ∧
    (∀ h', Set M (.slice a) [k, v] h = (.ok (), h') → ∃ i, k = .int i ∧
      (∀ b j, .slice b ∈ vs → 0 ≤ j → j < b.len →
        Get M h' (.slice b) (.int j) = if SamePlace a i b j then .ok v else Get M h (.slice b) (.int j)) ∧
      SameMaps M h h') ∧
    ∀ p h', Set M (.slice a) [k, v] h = (.error p, h') → h' = h := by
  have hv := known_slice w ha
  have w1 := hv.len_le
  have w2 := hv.fits
  by_cases hc : ∃ i, k = .int i ∧ 0 ≤ i ∧ i < a.len ∧ HasType v a.elem
  · obtain ⟨i, rfl, h0, h1, ht⟩ := hc
    have hrun := set_slice_run (M := M) (h := h) ⟨h0, h1⟩ (assignable_iff.2 ht)
    rw [hrun]
    refine ⟨⟨fun _ => ⟨i, rfl, h0, h1, ht⟩, fun _ => ⟨_, rfl⟩⟩, ?_, fun p h' he => by cases he⟩
    intro h' he
    cases he
    refine ⟨i, rfl, ?_, ⟨fun _ _ _ _ => rfl, fun _ _ _ => rfl, fun _ _ => rfl⟩⟩
    intro b j hb hj0 hj1
    split
    · rename_i hp
      refine get_at hj0 hj1 ?_
      simp only [Heap.withArr]
      rw [if_pos hp.1.symm, List.getElem?_set, if_pos (by have := hp.2; omega), if_pos (by omega)]
    · rename_i hp
      refine get_same ?_
      simp only [Heap.withArr]
      split
      · rename_i he
        rw [List.getElem?_set_ne (fun hne => hp ⟨he.symm, by omega⟩), he]
      · rfl
  · obtain ⟨p, hp⟩ := set_slice_bad (M := M) (h := h) hc
    rw [hp]
    refine ⟨⟨fun ⟨_, he⟩ => by simp at he, fun hc' => absurd hc' hc⟩, fun h' he => by simp at he, fun p h' he => by cases he; rfl⟩

/-- `set` with several pairs sets one after the other; it panics without a change for an odd
number of arguments. -/
theorem C94_set_pairs (m k v : QVal F) (rest : List (QVal F)) (hr : rest.length % 2 = 0) :
    Set M m (k :: v :: rest) h = (do Set M m [k, v]; Set M m rest) h := set_pairs m k v rest hr h

theorem C94_set_odd (m : QVal F) (args : List (QVal F)) (ho : args.length % 2 = 1) : ∃ p, Set M m args h = (.error p, h) := by
  unfold Set
  rw [if_pos (by omega)]
  exact ⟨_, rfl⟩

/-- `a[i:j]` works exactly for `0 ≤ i ≤ j ≤ cap(a)`; nil bounds are 0 and the length.  The
part begins at place `i` of `a` and shares its places, up to the capacity of `a`. -/
theorem C94_sub (a : Sl) (i j r : QVal F) :
    SubSlice h (.slice a) i j = .ok r ↔ ∃ i1 j1 b, EndAt 0 i i1 ∧ EndAt a.len j j1 ∧ 0 ≤ i1 ∧ i1 ≤ j1 ∧ j1 ≤ a.cap ∧ r = .slice b ∧
      b.elem = a.elem ∧ Len h r = .ok (j1 - i1) ∧ Cap r = .ok (a.cap - i1) ∧ ∀ k, SamePlace b k a (i1 + k) := by
  rw [subSlice_slice]
  constructor
  · rintro ⟨i1, j1, hi, hj, h0, h1, h2, rfl⟩
    refine ⟨i1, j1, _, hi, hj, h0, h1, h2, rfl, rfl, ?_, ?_, ?_⟩
    · show Except.ok (((j1 - i1).toNat : Nat) : Int) = _
      rw [Int.toNat_of_nonneg (by omega)]
    · show Except.ok ((a.cap - i1.toNat : Nat) : Int) = _
      congr 1
      omega
    · intro k
      refine ⟨rfl, ?_⟩
      dsimp only
      omega
  · rintro ⟨i1, j1, b, hi, hj, h0, h1, h2, rfl, he, hl, hc, hp⟩
    refine ⟨i1, j1, hi, hj, h0, h1, h2, ?_⟩
    have h3 := hp 0
    have hl : ((b.len : Nat) : Int) = j1 - i1 := by injection hl
    have hc : ((b.cap : Nat) : Int) = a.cap - i1 := by injection hc
    obtain ⟨p1, p2⟩ := h3
    obtain ⟨e, ar, o, l, c⟩ := b
    simp only at *
    subst he
    subst p1
    congr 2 <;> omega

/-- `append(a, v1, ..., vn)` works exactly if all values can be appended.  The result has the
elements of `a` and then the values.  Up to the capacity of `a` it shares the places of `a`;
beyond it has places of its own.  Slices that reach behind the end of `a` may see the new
values; all other places, the maps and the objects are as before, and if the capacity does
not suffice, all places are, unless the elements are floats. -/
theorem C94_append (w : Works M h vs) {a : Sl} (ha : .slice a ∈ vs) (vals : List (QVal F)) :
    ((∃ r h', Append M (.slice a) vals h = (.ok r, h')) ↔ ∀ v ∈ vals, (appended M a.elem v).isSome) ∧
    ∀ r h', Append M (.slice a) vals h = (.ok r, h') → ∃ b, r = .slice b ∧ b.elem = a.elem ∧
      Len h' r = .ok (a.len + vals.length) ∧
      (∀ i : Int, 0 ≤ i → i < a.len → Get M h' r (.int i) = Get M h (.slice a) (.int i)) ∧
      (∀ (i : Nat) v x, vals[i]? = some v → appended M a.elem v = some x → Get M h' r (.int (a.len + i)) = .ok x) ∧
      (a.len + vals.length ≤ a.cap → Cap r = .ok a.cap ∧ ∀ i, SamePlace b i a i) ∧
      (a.cap < a.len + vals.length → ∀ c i j, .slice c ∈ vs → ¬ SamePlace b i c j) ∧
      (∀ c j, .slice c ∈ vs → ¬ Behind a vals.length c j → Get M h' (.slice c) (.int j) = Get M h (.slice c) (.int j)) ∧
      (a.cap < a.len + vals.length → a.elem ≠ .float → ∀ c k, .slice c ∈ vs → Get M h' (.slice c) k = Get M h (.slice c) k) ∧
      SameMaps M h h' := by
  have hv := known_slice w ha
  obtain ⟨hok, hbad⟩ := append_spec (M := M) a vals h hv
  rw [← allAppended_some]
  constructor
  · constructor
    · rintro ⟨r, h', he⟩
      cases hx : allAppended M a.elem vals with
      | some xs => exact ⟨xs, rfl⟩
      | none =>
        obtain ⟨p, h'', _, _, he', _⟩ := hbad hx
        rw [he] at he'
        cases he'
    · rintro ⟨xs, hx⟩
      obtain ⟨b, h', he, _⟩ := hok xs hx
      exact ⟨_, h', he⟩
  · intro r h' he
    cases hx : allAppended M a.elem vals with
    | none =>
      obtain ⟨p, h'', _, _, he', _⟩ := hbad hx
      rw [he] at he'
      cases he'
    | some xs =>
      obtain ⟨b, h'', he', ap, hg⟩ := hok xs hx
      rw [he] at he'
      cases he'
      have hl := ap.len
      have hn := allAppended_length hx
      have hel := hv.elems_length
      rw [hn] at hl
      refine ⟨b, rfl, ap.elem, ?_, ?_, ?_, ?_, ?_, ?_, ?_, ?_⟩
      · show Except.ok ((b.len : Nat) : Int) = _
        rw [hl, Int.natCast_add]
      · intro i h0 h1
        obtain ⟨x, hp⟩ := hv.place h0 h1
        rw [get_at h0 h1 hp]
        refine get_slice.2 ⟨i.toNat, by rw [Int.toNat_of_nonneg h0], by omega, ?_⟩
        rw [ap.elems, List.getElem?_append_left (by omega), elems_get (by omega), ← hp]
        congr 1
        omega
      · intro i v x hvi hax
        have hi : i < vals.length := (List.getElem?_eq_some_iff.1 hvi).1
        refine get_slice.2 ⟨a.len + i, by rw [Int.natCast_add], by omega, ?_⟩
        rw [ap.elems, List.getElem?_append_right (by omega), hel, Nat.add_sub_cancel_left, allAppended_get hx i v hvi, hax]
      · intro hc
        rcases ap.place with ⟨p1, p2, p3⟩ | ⟨p1, _⟩
        · exact ⟨by show Except.ok ((b.cap : Nat) : Int) = _; rw [p3], fun i => ⟨p1, by omega⟩⟩
        · omega
      · intro hc c i j hcm hp
        have h1 := (known_slice w hcm).old
        rcases ap.place with ⟨p1, p2, p3⟩ | ⟨_, p1⟩
        · have := ap.valid.len_le
          omega
        · have := hp.1
          omega
      · intro c j hcm hb
        have h1 := known_slice w hcm
        by_cases hj : 0 ≤ j ∧ j < c.len
        · refine get_same (ap.others c.arr h1.old _ fun e1 e2 e3 => ?_)
          rw [hn] at e3
          apply Nat.le_of_not_lt
          intro e4
          exact hb ⟨e1.symm, by omega, by omega, by omega⟩
        · rw [get_out hj, get_out hj]
      · intro hc hne c k hcm
        have h1 := known_slice w hcm
        have h2 := hg hne (by omega) c.arr h1.old
        cases k <;> first | rfl | skip
        exact get_same (by rw [h2])
      · refine ⟨fun kt vt x k => ?_, fun kt vt x => ?_, fun x n => by rw [ap.objs]⟩
        · unfold Get
          dsimp only
          rw [ap.maps]
        · unfold Len
          dsimp only
          rw [ap.maps]

/-- An append that panics changes nothing but places behind the end of `a`, and nothing at
all if the capacity does not suffice, unless the elements are floats. -/
theorem C94_append_panics (w : Works M h vs) {a : Sl} (ha : .slice a ∈ vs) (vals : List (QVal F)) {p : QPanic F}
    (he : Append M (.slice a) vals h = (.error p, h')) :
    (∀ c j, .slice c ∈ vs → ¬ Behind a vals.length c j → Get M h' (.slice c) (.int j) = Get M h (.slice c) (.int j)) ∧
    SameMaps M h h' ∧ (a.cap < a.len + vals.length → a.elem ≠ .float → h' = h) := by
  obtain ⟨hok, hbad⟩ := append_spec (M := M) a vals h (known_slice w ha)
  cases hx : allAppended M a.elem vals with
  | some xs =>
    obtain ⟨b, h'', he', _⟩ := hok xs hx
    rw [he] at he'
    cases he'
  | none =>
    obtain ⟨p, h'', b, xs, he', ap, hl, hh⟩ := hbad hx
    rw [he] at he'
    cases he'
    refine ⟨fun c j hcm hb => ?_, ⟨fun kt vt x k => ?_, fun kt vt x => ?_, fun x n => by rw [ap.objs]⟩, fun hc hne => hh hne hc⟩
    · have h1 := known_slice w hcm
      by_cases hj : 0 ≤ j ∧ j < c.len
      · refine get_same (ap.others c.arr h1.old _ fun e1 e2 e3 => ?_)
        apply Nat.le_of_not_lt
        intro e4
        exact hb ⟨e1.symm, by omega, by omega, by omega⟩
      · rw [get_out hj, get_out hj]
    · unfold Get
      dsimp only
      rw [ap.maps]
    · unfold Len
      dsimp only
      rw [ap.maps]

theorem untouched_of_old (w : Works M h vs) (hl : ∀ a < h.next, h'.arrs a = h.arrs a ∧ h'.maps a = h.maps a ∧ h'.objs a = h.objs a) :
    Untouched M vs h h' := by
  obtain ⟨w1, w2⟩ := valid_works w
  constructor
  · intro v hv k
    have hvv := w2 v hv
    cases v <;> first | rfl | skip
    · rename_i s
      have := (hl s.arr hvv.old).1
      unfold Get Heap.elems
      dsimp only
      rw [this]
    · rename_i kt vt a
      have := (hl a hvv).2.1
      unfold Get
      dsimp only
      rw [this]
  · intro v hv
    have hvv := w2 v hv
    cases v <;> first | rfl | skip
    rename_i kt vt a
    have := (hl a hvv).2.1
    unfold Len
    dsimp only
    rw [this]
  · intro a fns ho name
    have hvv : a < h.next := w2 _ ho
    rw [(hl a hvv).2.2]

theorem hm_lift_ok {α β : Type} {e : Except (QPanic F) α} {k : α → HM F β} {r : β} (he : (HM.lift e >>= k) h = (.ok r, h')) :
    ∃ a, e = .ok a ∧ k a h = (.ok r, h') := by
  cases e with
  | error p => cases he
  | ok a => exact ⟨a, rfl, he⟩

theorem sliceFrom_eq (args : List (QVal F)) (hn : args.length ≠ 0) :
    ∃ t, SliceFrom M args h = (makeSlice M t 0 args.length >>= fun s => Append M (.slice s) args) h := by
  unfold SliceFrom
  rw [if_neg hn]
  split
  · exact ⟨_, rfl⟩
  · split
    · refine ⟨.float, ?_⟩
      rw [hm_bind_ok (makeSlice_run ..), hm_bind_ok (makeSlice_run ..)]
      rfl
    · split <;> exact ⟨_, rfl⟩

/-- New slices (literals and `slice(t, n, cap)`) have places of their own, and making one
changes nothing. -/
theorem C94_fresh (w : Works M h vs) {f : HCall} (hf : f = .sliceFrom ∨ f = .slice) {args : List (QVal F)} {r : QVal F}
    (he : f.run M args h = (.ok r, h')) : ∃ b, r = .slice b ∧ (∀ c i j, .slice c ∈ vs → 0 ≤ i → i < b.cap → ¬ SamePlace b i c j) ∧ Untouched M vs h h' := by
  have hnew : ∀ l : List (QVal F), Untouched M vs h (h.newArr l) := fun l => untouched_of_old w fun a ha =>
    ⟨by simp only [Heap.newArr, Heap.withArr]; rw [if_neg (by omega)], rfl, rfl⟩
  rcases hf with rfl | rfl
  · by_cases hn : args.length = 0
    · have : SliceFrom M args h = (.ok (.slice ⟨.var, 0, 0, 0, 0⟩), h) := by
        unfold SliceFrom
        rw [if_pos hn]
        rfl
      rw [HCall.run, this] at he
      cases he
      refine ⟨_, rfl, ?_, untouched_of_old w fun _ _ => ⟨rfl, rfl, rfl⟩⟩
      intro c i j _ h0 h1
      dsimp only at h1
      omega
    · obtain ⟨t, ht⟩ := sliceFrom_eq (M := M) (h := h) args hn
      rw [HCall.run, ht, hm_bind_ok (makeSlice_run ..)] at he
      have hs : Sl.Valid (h.newArr (List.replicate args.length (zeroOf M t))) ⟨t, h.next, 0, 0, args.length⟩ :=
        ⟨Nat.zero_le _, by simp [Heap.newArr, Heap.withArr], Nat.lt_succ_self _⟩
      obtain ⟨hok, hbad⟩ := append_spec (M := M) ⟨t, h.next, 0, 0, args.length⟩ args _ hs
      cases hx : allAppended M t args with
      | none =>
        obtain ⟨p, h'', _, _, he', _⟩ := hbad hx
        rw [he] at he'
        cases he'
      | some xs =>
        obtain ⟨b, h'', he', ap, _⟩ := hok xs hx
        rw [he] at he'
        cases he'
        have hb : h.next ≤ b.arr := by
          rcases ap.place with ⟨p1, _⟩ | ⟨_, p1⟩
          · rw [p1]; exact Nat.le_refl _
          · exact Nat.le_trans (Nat.le_succ _) p1
        refine ⟨b, rfl, ?_, ?_⟩
        · intro c i j hc _ _ hp
          have h1 := (known_slice w hc).old
          have := hp.1
          omega
        · refine untouched_of_old w fun a ha => ⟨?_, by rw [ap.maps]; rfl, by rw [ap.objs]; rfl⟩
          apply List.ext_getElem?
          intro i
          rw [ap.others a (Nat.lt_succ_of_lt ha) i fun e => absurd e (by dsimp only; omega)]
          simp only [Heap.newArr, Heap.withArr]
          rw [if_neg (by omega)]
  · cases args with
    | nil => cases he
    | cons t args =>
      have key : ∃ t n cap l, r = .slice ⟨t, h.next, 0, n, cap⟩ ∧ h' = h.newArr l := by
        rw [HCall.run] at he
        unfold MakeSlice at he
        obtain ⟨nc, -, he⟩ := hm_lift_ok he
        obtain ⟨t, -, he⟩ := hm_lift_ok he
        split at he
        · rw [hm_bind_ok (makeSlice_run ..)] at he
          cases he
          exact ⟨_, _, _, _, rfl, rfl⟩
        · cases he
      obtain ⟨t, n, cap, l, rfl, rfl⟩ := key
      refine ⟨_, rfl, ?_, hnew l⟩
      intro c i j hc _ _ hp
      have h1 := (known_slice w hc).old
      have := hp.1
      dsimp only at this
      omega

/-! ### C95: what can be appended can be stored -/

/-- `set` takes exactly the values of the type of the elements, which `append` takes as they
are; `append` takes no others as they are but nil. -/
theorem C95_stored_partial (w : Works M h vs) {a : Sl} (ha : .slice a ∈ vs) (i : Int) (hi : 0 ≤ i ∧ i < a.len) (v : QVal F) :
    ((∃ h', Set M (.slice a) [.int i, v] h = (.ok (), h')) ↔ HasType v a.elem) ∧
    (HasType v a.elem → appended M a.elem v = some v) ∧
    (appended M a.elem v = some v → v ≠ .nil → HasType v a.elem) := by
  refine ⟨?_, ?_, ?_⟩
  · rw [(C94_set w ha (.int i) v).1]
    exact ⟨fun ⟨_, _, _, _, h⟩ => h, fun h => ⟨i, rfl, hi.1, hi.2, h⟩⟩
  · rintro ⟨u, hu, he⟩
    by_cases h1 : a.elem = .float
    · rw [h1] at he ⊢
      rcases he with he | rfl
      · cases he
      · cases v <;> first | (cases hu; done) | rfl
    · by_cases h2 : a.elem = .var
      · rw [h2]; exact appended_var v
      · rw [appended_other h1 h2 (fun hn => by rw [hn] at hu; cases hu), if_pos (assignable_iff.2 ⟨u, hu, he⟩)]
  · intro he hn
    by_cases h1 : a.elem = .float
    · rw [h1] at he ⊢
      cases v <;> first | (cases he; done) | exact ⟨_, rfl, .inr rfl⟩
    · by_cases h2 : a.elem = .var
      · rw [h2]
        cases v <;> first | exact absurd rfl hn | exact ⟨_, rfl, .inl rfl⟩
      · rw [appended_other h1 h2 hn] at he
        split at he
        · rename_i h; exact assignable_iff.1 h
        · cases he

/-- `append(a, nil)` works but `set(a, 0, nil)` panics, even if `a` takes all values. -/
theorem C95_violated (M : Fl F) : ∃ h vs a, Works M h vs ∧ .slice a ∈ vs ∧ .nil ∈ vs ∧ a.elem = .var ∧ a.len = 1 ∧
    (∃ r h', Append M (.slice a) [.nil] h = (.ok r, h')) ∧ ∃ p, Set M (.slice a) [.int 0, .nil] h = (.error p, h) := by
  have w : Works M _ _ := .call .sliceFrom (.plain (.plain .start (v := .nil) trivial) (v := .bool true) trivial) (args := [.bool true])
    (fun a ha => by rw [List.mem_singleton.1 ha]; exact List.mem_cons_self ..) rfl
  refine ⟨_, _, _, w, List.mem_cons_self .., List.mem_cons_of_mem _ (List.mem_cons_of_mem _ (List.mem_cons_self ..)), rfl, rfl, ⟨_, _, rfl⟩,
    set_slice_bad ?_⟩
  rintro ⟨_, _, _, _, u, hu, he⟩
  cases hu

/-- An int can be appended to a slice of floats but not stored in it. -/
theorem C95_violated_float (M : Fl F) (x : F) (n : Int) : ∃ h vs a, Works M h vs ∧ .slice a ∈ vs ∧ .int n ∈ vs ∧ a.elem = .float ∧ a.len = 1 ∧
    (∃ r h', Append M (.slice a) [.int n] h = (.ok r, h')) ∧ ∃ p, Set M (.slice a) [.int 0, .int n] h = (.error p, h) := by
  have w : Works M _ _ := .call .sliceFrom (.plain (.plain .start (v := .int n) trivial) (v := .float x) trivial) (args := [.float x])
    (fun a ha => by rw [List.mem_singleton.1 ha]; exact List.mem_cons_self ..) rfl
  refine ⟨_, _, _, w, List.mem_cons_self .., List.mem_cons_of_mem _ (List.mem_cons_of_mem _ (List.mem_cons_self ..)), rfl, rfl, ⟨_, _, rfl⟩,
    set_slice_bad ?_⟩
  rintro ⟨_, _, _, _, u, hu, he⟩
  cases hu
  rcases he with he | he <;> cases he

/-! ### C96: maps -/

/-- Exactly values of the key type that are no slices, maps or functions are keys. -/
theorem C96_get (kt vt : Ty) (a : Nat) (k : QVal F) : (∃ v, Get M h (.map kt vt a) k = .ok v) ↔ IsKey kt k := by
  constructor
  · rintro ⟨v, he⟩
    by_cases hk : IsKey kt k
    · exact hk
    · obtain ⟨p, hp⟩ := get_map_bad (M := M) (h := h) (vt := vt) (a := a) hk
      rw [hp] at he
      cases he
  · intro hk
    exact ⟨_, get_map hk⟩

instance (M : Fl F) (a b : QVal F) : Decidable (SameKey M a b) := inferInstanceAs (Decidable (_ = _))

/-- The number of entries before and after an entry was stored (`v` is the value). -/
structure Counts (M : Fl F) (h h' : Heap F) (m k v : QVal F) : Prop where
  added : v ≠ .undefined → Get M h m k = .ok .undefined → ∃ n, Len h m = .ok n ∧ Len h' m = .ok (n + 1)
  changed : v ≠ .undefined → Get M h m k ≠ .ok .undefined → Len h' m = Len h m
  removed : v = .undefined → Get M h m k ≠ .ok .undefined → ∃ n, Len h m = .ok (n + 1) ∧ Len h' m = .ok n
  nothing : v = .undefined → Get M h m k = .ok .undefined → Len h' m = Len h m

/-- `set(m, k, v)` works exactly for keys of the map and values of its type, nil and the
undefined value.  Then `k` has the value `v` (nil: the zero value of the type, undefined:
none), and all other keys, maps, slices and objects have what they had. -/
theorem C96_set (L : Lawful M) (w : Works M h vs) (kt vt : Ty) (a : Nat) (k v : QVal F) :
    ((∃ h', Set M (.map kt vt a) [k, v] h = (.ok (), h')) ↔ IsKey kt k ∧ (v = .undefined ∨ v = .nil ∨ HasType v vt)) ∧
    (∀ h', Set M (.map kt vt a) [k, v] h = (.ok (), h') →
      (∀ k', IsKey kt k' → Get M h' (.map kt vt a) k' = if SameKey M k k' then .ok (stored M vt v) else Get M h (.map kt vt a) k') ∧
      Counts M h h' (.map kt vt a) k v ∧
      (∀ kt' vt' a' k', a' ≠ a → Get M h' (.map kt' vt' a') k' = Get M h (.map kt' vt' a') k' ∧ Len h' (.map kt' vt' a') = Len h (.map kt' vt' a')) ∧
      SameSlices M h h') ∧
    ∀ p h', Set M (.map kt vt a) [k, v] h = (.error p, h') → h' = h := by
  have hv := (valid_works w).1
  by_cases hc : IsKey kt k ∧ (v = .undefined ∨ v = .nil ∨ HasType v vt)
  · rw [set_map_run hc.1 hc.2]
    refine ⟨⟨fun _ => hc, fun _ => ⟨_, rfl⟩⟩, ?_, fun p h' he => by simp at he⟩
    intro h' he
    obtain rfl : h.withMap a (match given M vt v with
      | none => delKey M k (h.maps a)
      | some w => putKey M k w (h.maps a)) = h' := by injection he
    refine ⟨?_, ?_, ?_, ⟨fun _ _ => rfl, fun _ _ => rfl⟩⟩
    · intro k' hk'
      rw [get_map hk', get_map hk']
      simp only [Heap.withMap, if_true]
      cases hg : given M vt v with
      | none =>
        obtain rfl := given_none.1 hg
        dsimp only
        split
        · rename_i hs
          rw [find_del_same L hs _ (hv.keys a)]
          rfl
        · rename_i hs
          rw [find_del_other L hs]
      | some x =>
        obtain ⟨hx, _⟩ := given_stored hg
        dsimp only
        split
        · rename_i hs
          rw [find_put_same L hs, hx]
          rfl
        · rename_i hs
          rw [find_put_other L hs]
    · have hlen : ∀ h : Heap F, Len h (.map kt vt a) = .ok ((h.maps a).length : Int) := fun _ => rfl
      have hund : Get M h (.map kt vt a) k = .ok .undefined ↔ findKey M k (h.maps a) = none := by
        rw [get_map hc.1]
        cases hf : findKey M k (h.maps a) with
        | none => simp
        | some x =>
          obtain ⟨q, hq⟩ := findKey_mem hf
          simp only [Option.getD_some, Except.ok.injEq, reduceCtorEq, iff_false]
          exact (hv.maps a _ hq).2.2
      have hl : ∀ l, Len (h.withMap a l) (.map kt vt a) = .ok (l.length : Int) := fun l => by
        show Except.ok (((if a = a then l else _).length : Nat) : Int) = _
        rw [if_pos rfl]
      have hput := fun x => length_put (M := M) (k := k) (v := x) (h.maps a)
      have hdel := length_del (M := M) k (h.maps a)
      constructor
      · intro hne hu
        rw [hund] at hu
        cases hg : given M vt v with
        | none => exact absurd (given_none.1 hg) hne
        | some x =>
          dsimp only
          rw [hl, hlen, hput x, hu]
          exact ⟨_, rfl, by simp⟩
      · intro hne hu
        rw [Ne, hund] at hu
        cases hg : given M vt v with
        | none => exact absurd (given_none.1 hg) hne
        | some x =>
          dsimp only
          rw [hl, hlen, hput x, if_pos (Option.isSome_iff_ne_none.2 hu)]
          rfl
      · intro he hu
        rw [Ne, hund] at hu
        rw [given_none.2 he]
        dsimp only
        rw [if_pos (Option.isSome_iff_ne_none.2 hu)] at hdel
        rw [hl, hlen, ← hdel]
        exact ⟨_, by simp, rfl⟩
      · intro he hu
        rw [hund] at hu
        rw [given_none.2 he]
        dsimp only
        rw [hu] at hdel
        rw [hl, hlen, ← hdel]
        rfl
    · intro kt' vt' a' k' hne
      constructor
      · unfold Get
        dsimp only [Heap.withMap]
        rw [if_neg hne]
      · unfold Len
        dsimp only [Heap.withMap]
        rw [if_neg hne]
  · obtain ⟨p, hp⟩ := set_map_bad (M := M) (h := h) (a := a) hc
    rw [hp]
    exact ⟨⟨fun ⟨_, he⟩ => by simp at he, fun hc' => absurd hc' hc⟩, fun h' he => by simp at he, fun p h' he => by cases he; rfl⟩

/-- `delete(m, k)` is `set(m, k, undefined)` and panics for everything that is no map. -/
theorem C96_delete (kt vt : Ty) (a : Nat) (k : QVal F) : Delete M (.map kt vt a) k h = Set M (.map kt vt a) [k, .undefined] h := by
  rw [set_map_eq]
  rfl

theorem C96_delete_others (m k : QVal F) (hm : ∀ kt vt a, m ≠ .map kt vt a) : Delete M m k h = (.error valueErr, h) := by
  cases m <;> first | rfl | exact absurd rfl (hm _ _ _)

/-- A key that is not equal to itself (NaN) cannot be found again: storing it adds an entry
each time, and no key has another value. -/
theorem C96_nan (L : Lawful M) (w : Works M h vs) (kt vt : Ty) (a : Nat) {k v : QVal F} (hk : ¬ SameKey M k k) (hv : v ≠ .undefined)
    (he : Set M (.map kt vt a) [k, v] h = (.ok (), h')) :
    (∀ k', Get M h' (.map kt vt a) k' = Get M h (.map kt vt a) k') ∧ ∃ n, Len h (.map kt vt a) = .ok n ∧ Len h' (.map kt vt a) = .ok (n + 1) := by
  obtain ⟨c1, c2, c3⟩ := C96_set L w kt vt a k v
  obtain ⟨hg, hc, -, -⟩ := c2 h' he
  obtain ⟨hkey, -⟩ := c1.1 ⟨h', he⟩
  have hno : ∀ k', ¬ SameKey M k k' := fun k' hs => hk (same_trans L hs (same_symm L hs))
  refine ⟨fun k' => ?_, hc.added hv ?_⟩
  · by_cases hk' : IsKey kt k'
    · rw [hg k' hk', if_neg (hno k')]
    · unfold Get
      dsimp only
      split
      · rename_i h1
        rw [if_neg fun h2 => hk' (isKey_iff.2 ⟨h1, h2⟩), if_neg fun h2 => hk' (isKey_iff.2 ⟨h1, h2⟩)]
      · rfl
  · rw [get_map hkey, find_none.2 fun p _ hs => hno p.1 (same_symm L hs)]
    rfl

theorem mapPut_only (a : Nat) (k v : QVal F) (h : Heap F) : ∃ r l, mapPut M a k v h = (r, h.withMap a l) := by
  rw [mapPut_run]
  split
  · exact ⟨_, _, rfl⟩
  · exact ⟨_, h.maps a, by rw [Heap.withMap_self]⟩

theorem mapLoop_only (a : Nat) (key : QVal F → Except (QPanic F) (QVal F)) (val : QVal F → Except (QPanic F) (Option (QVal F))) :
    ∀ (args : List (QVal F)) (h : Heap F), ∃ r l, mapLoop M a key val args h = (r, h.withMap a l)
  | [], h => ⟨.ok (), h.maps a, by rw [Heap.withMap_self]; rfl⟩
  | [_], h => ⟨.ok (), h.maps a, by rw [Heap.withMap_self]; rfl⟩
  | k :: v :: args, h => by
    unfold mapLoop
    rw [hm_bind]
    cases hv : val v with
    | error p => exact ⟨_, h.maps a, by rw [Heap.withMap_self]; rfl⟩
    | ok o =>
      cases o with
      | none => exact mapLoop_only a key val args h
      | some x =>
        show ∃ r l, (HM.lift (key k) >>= fun k => mapPut M a k x >>= fun _ => mapLoop M a key val args) h = (r, h.withMap a l)
        rw [hm_bind]
        cases hk : key k with
        | error p => exact ⟨_, h.maps a, by rw [Heap.withMap_self]; rfl⟩
        | ok k' =>
          show ∃ r l, (mapPut M a k' x >>= fun _ => mapLoop M a key val args) h = (r, h.withMap a l)
          obtain ⟨r, l, he⟩ := mapPut_only (M := M) a k' x h
          rw [hm_bind, he]
          cases r with
          | error p => exact ⟨_, l, rfl⟩
          | ok _ =>
            obtain ⟨r', l', he'⟩ := mapLoop_only a key val args (h.withMap a l)
            exact ⟨r', l', by rw [← Heap.withMap_twice h a l l']; exact he'⟩

theorem mapFromKeys_new {kt : Ty} {key : QVal F → Except (QPanic F) (QVal F)} {args : List (QVal F)} {r : QVal F}
    (he : mapFromKeys M kt key args h = (.ok r, h')) : ∃ vt l, r = .map kt vt h.next ∧ h' = Heap.withMap { h with next := h.next + 1 } h.next l := by
  have loop : ∀ (val : QVal F → Except (QPanic F) (Option (QVal F))) (t : Ty),
      (mapLoop M h.next key val args >>= fun _ => pure (.map kt t h.next)) (Heap.withMap { h with next := h.next + 1 } h.next []) = (.ok r, h') →
      ∃ vt l, r = .map kt vt h.next ∧ h' = Heap.withMap { h with next := h.next + 1 } h.next l := by
    intro val t he
    obtain ⟨x, l, hx⟩ := mapLoop_only (M := M) h.next key val args (Heap.withMap { h with next := h.next + 1 } h.next [])
    rw [hm_bind, hx, Heap.withMap_twice] at he
    cases x with
    | error p => cases he
    | ok u =>
      cases he
      exact ⟨t, l, rfl, rfl⟩
  unfold mapFromKeys at he
  rw [hm_bind_ok (makeMap_run h)] at he
  split at he
  · exact loop _ _ he
  · split at he
    · exact loop _ _ he
    · split at he <;> exact loop _ _ he

/-- New maps (`mkmap` and literals) are no known maps, and making one changes nothing;
those of `mkmap` are empty. -/
theorem C96_fresh (w : Works M h vs) {f : HCall} (hf : f = .mapFrom ∨ f = .mkmap) {args : List (QVal F)} {r : QVal F}
    (he : f.run M args h = (.ok r, h')) : ∃ kt vt a, r = .map kt vt a ∧ (∀ kt' vt' a', .map kt' vt' a' ∈ vs → a' ≠ a) ∧ Untouched M vs h h' ∧
      (f = .mkmap → Len h' r = .ok 0 ∧ ∀ k, IsKey kt k → Get M h' r k = .ok .undefined) := by
  have key : ∃ kt vt l, r = .map kt vt h.next ∧ h' = Heap.withMap { h with next := h.next + 1 } h.next l ∧ (f = .mkmap → l = []) := by
    rcases hf with rfl | rfl
    · rw [HCall.run] at he
      unfold MapFrom at he
      split at he
      · cases he
      · split at he
        · rw [hm_bind_ok (makeMap_run h)] at he
          cases he
          exact ⟨_, _, _, rfl, rfl, fun h => nomatch h⟩
        · split at he
          · obtain ⟨vt, l, h1, h2⟩ := mapFromKeys_new he
            exact ⟨_, vt, l, h1, h2, fun h => nomatch h⟩
          · split at he
            · obtain ⟨vt, l, h1, h2⟩ := mapFromKeys_new he
              exact ⟨_, vt, l, h1, h2, fun h => nomatch h⟩
            · cases he
    · cases args with
      | nil => cases he
      | cons t args =>
        rw [HCall.run] at he
        unfold Mkmap at he
        obtain ⟨t, -, he⟩ := hm_lift_ok he
        cases t <;> first | (cases he; done) | skip
        dsimp only at he
        rw [hm_bind_ok (makeMap_run h)] at he
        cases he
        exact ⟨_, _, [], rfl, rfl, fun _ => rfl⟩
  obtain ⟨kt, vt, l, rfl, rfl, hl⟩ := key
  refine ⟨kt, vt, _, rfl, ?_, untouched_of_old w fun a ha => ⟨rfl, ?_, rfl⟩, ?_⟩
  · intro kt' vt' a' hm
    have : a' < h.next := (valid_works w).2 _ hm
    omega
  · simp only [Heap.withMap]
    rw [if_neg (by omega)]
  · intro hf
    rw [hl hf]
    refine ⟨?_, fun k hk => ?_⟩
    · simp [Len, Heap.withMap]
    · rw [get_map hk]
      simp [Heap.withMap, findKey]

/-! ### C97: objects -/

/-- `set(o, k, v)` works exactly for names that are not the name of a method.  Then the
variable has the value, and everything else is as it was. -/
theorem C97_set (a : Nat) (fns : List (Str × Nat × Fun)) (k v : QVal F) :
    ((∃ h', Set M (.obj a fns) [k, v] h = (.ok (), h')) ↔ ∃ name, k = .str name ∧ fns.lookup name = none) ∧
    (∀ h', Set M (.obj a fns) [k, v] h = (.ok (), h') → ∃ name, k = .str name ∧
      (∀ a' n, h'.objs a' n = if a' = a ∧ n = name then some v else h.objs a' n) ∧
      (∀ m k, Get M h' m k = Get M h m k) ∧ ∀ m, Len h' m = Len h m) ∧
    ∀ p h', Set M (.obj a fns) [k, v] h = (.error p, h') → h' = h := by
  by_cases hc : ∃ name, k = .str name ∧ fns.lookup name = none
  · obtain ⟨name, rfl, hn⟩ := hc
    rw [set_obj_run hn]
    refine ⟨⟨fun _ => ⟨name, rfl, hn⟩, fun _ => ⟨_, rfl⟩⟩, ?_, fun p h' he => by simp at he⟩
    intro h' he
    cases he
    refine ⟨name, rfl, ?_, fun m k => ?_, fun m => ?_⟩
    · intro a' n
      simp only [Heap.withObj]
      by_cases h1 : a' = a
      · subst h1
        simp
      · rw [if_neg h1, if_neg fun h => h1 h.1]
    · cases m <;> rfl
    · cases m <;> rfl
  · obtain ⟨p, hp⟩ := set_obj_bad (M := M) (h := h) (a := a) (v := v) hc
    rw [hp]
    exact ⟨⟨fun ⟨_, he⟩ => by simp at he, fun hc' => absurd hc' hc⟩, fun h' he => by simp at he, fun p h' he => by cases he; rfl⟩

/-- A new object is none of the known ones, has no variables, and making one changes nothing. -/
theorem C97_fresh (w : Works M h vs) (fns : List (Str × Nat × Fun)) {r : QVal F} (he : (HCall.new fns).run M [] h = (.ok r, h')) :
    ∃ a, r = .obj a fns ∧ (∀ a' fns', .obj a' fns' ∈ vs → a' ≠ a) ∧ (∀ name, h'.objs a name = none) ∧ Untouched M vs h h' := by
  have hr : (HCall.new fns).run M [] h = (.ok (.obj h.next fns), Heap.withObj { h with next := h.next + 1 } h.next fun _ => none) := rfl
  rw [hr] at he
  cases he
  refine ⟨_, rfl, ?_, fun name => by simp [Heap.withObj], untouched_of_old w fun a ha => ⟨rfl, rfl, ?_⟩⟩
  · intro a' fns' hm
    have : a' < h.next := (valid_works w).2 _ hm
    omega
  · simp only [Heap.withObj]
    rw [if_neg (by omega)]

/-- `o.x` in a program is the variable if there is one, else the method bound to the object. -/
theorem C97_member (H : Src.Host F) (W : Src.World F) (a : Nat) (fns : List (Str × Nat × Fun)) (x : Str) :
    (∀ v, W.heap.objs a x = some v → Src.getMember H (.obj a fns) x W = some (.ok v, W)) ∧
    (∀ n f, W.heap.objs a x = none → fns.lookup x = some (n, f) →
      ∃ m W', Src.getMember H (.obj a fns) x W = some (.ok (.method m (.obj a fns) f), W')) ∧
    (W.heap.objs a x = none → fns.lookup x = none → Src.getMember H (.obj a fns) x W = some (.error (failErr (.noMember x)), W)) := by
  refine ⟨fun v hv => ?_, fun n f hn hf => ?_, fun hn hf => ?_⟩
  · unfold Src.getMember
    dsimp only
    rw [Src.bind_run]
    dsimp only [Src.theHeap]
    rw [hv]
    rfl
  · unfold Src.getMember
    dsimp only
    rw [Src.bind_run]
    dsimp only [Src.theHeap]
    rw [hn, hf]
    exact ⟨_, _, rfl⟩
  · unfold Src.getMember
    dsimp only
    rw [Src.bind_run]
    dsimp only [Src.theHeap]
    rw [hn, hf]
    rfl

/-- `m.x` in a program is `get(m, "x")`, but panics if there is no entry. -/
theorem C96_member (H : Src.Host F) (W : Src.World F) (w : Works H.fl W.heap vs) (kt vt : Ty) (a : Nat) (x : Str) (hk : kt = .string ∨ kt = .var) :
    ∃ v, Get H.fl W.heap (.map kt vt a) (.str x) = .ok v ∧
      (v ≠ .undefined → Src.getMember H (.map kt vt a) x W = some (.ok v, W)) ∧
      (v = .undefined → Src.getMember H (.map kt vt a) x W = some (.error (failErr (.noMember x)), W)) := by
  have hkey : IsKey kt (.str x : QVal F) := by
    refine ⟨⟨.string, rfl, ?_⟩, fun u hu => by cases hu; rfl⟩
    rcases hk with rfl | rfl
    · exact .inr rfl
    · exact .inl rfl
  refine ⟨_, get_map hkey, ?_, ?_⟩
  all_goals
    intro hv
    unfold Src.getMember
    dsimp only
    rw [if_pos hk, Src.bind_run]
    dsimp only [Src.theHeap]
    cases hf : findKey H.fl (.str x) (W.heap.maps a) with
    | none => rw [hf] at hv; first | exact absurd rfl hv | rfl
    | some y =>
      rw [hf] at hv
      first
        | rfl
        | (obtain ⟨q, hq⟩ := findKey_mem hf
           exact absurd hv ((valid_works w).1.maps a _ hq).2.2)

/-! ### C98: calls that panic -/

theorem mapFromKeys_old {kt : Ty} {key : QVal F → Except (QPanic F) (QVal F)} {args : List (QVal F)} {p : QPanic F}
    (he : mapFromKeys M kt key args h = (.error p, h')) : ∃ l, h' = Heap.withMap { h with next := h.next + 1 } h.next l := by
  have loop : ∀ (val : QVal F → Except (QPanic F) (Option (QVal F))) (t : Ty),
      (mapLoop M h.next key val args >>= fun _ => (pure (QVal.map kt t h.next) : HM F (QVal F))) (Heap.withMap { h with next := h.next + 1 } h.next []) = (.error p, h') →
      ∃ l, h' = Heap.withMap { h with next := h.next + 1 } h.next l := by
    intro val t he
    obtain ⟨x, l, hx⟩ := mapLoop_only (M := M) h.next key val args (Heap.withMap { h with next := h.next + 1 } h.next [])
    rw [hm_bind, hx, Heap.withMap_twice] at he
    cases x with
    | error p => cases he; exact ⟨l, rfl⟩
    | ok u => cases he
  unfold mapFromKeys at he
  rw [hm_bind_ok (makeMap_run h)] at he
  split at he
  · exact loop _ _ he
  · split at he
    · exact loop _ _ he
    · split at he <;> exact loop _ _ he

theorem hm_lift_error {α β : Type} {e : Except (QPanic F) α} {k : α → HM F β} {p : QPanic F} (he : (HM.lift e >>= k) h = (.error p, h')) :
    h' = h ∨ ∃ a, e = .ok a ∧ k a h = (.error p, h') := by
  cases e with
  | error p => cases he; exact .inl rfl
  | ok a => exact .inr ⟨a, rfl, he⟩

theorem set_one_panics (m : QVal F) {args : List (QVal F)} (ha : args.length ≤ 2) (w : Works M h vs) (hm : m ∈ vs) {p : QPanic F}
    (he : Set M m args h = (.error p, h')) : h' = h := by
  by_cases ho : args.length % 2 = 1
  · obtain ⟨q, hq⟩ := C94_set_odd (M := M) (h := h) m args ho
    rw [hq] at he
    cases he; rfl
  · match args, ha, ho with
    | [], _, _ =>
      have ho' : ¬ ([] : List (QVal F)).length % 2 ≠ 0 := by simp
      unfold Set at he
      rw [if_neg ho'] at he
      cases m <;> first | (cases he; done) | (cases he; rfl)
    | [k, v], _, _ =>
      cases m with
      | slice a => exact (C94_set w hm k v).2.2 _ _ he
      | map kt vt a =>
        by_cases hc : IsKey kt k ∧ (v = .undefined ∨ v = .nil ∨ HasType v vt)
        · rw [set_map_run hc.1 hc.2] at he
          cases he
        · obtain ⟨q, hq⟩ := set_map_bad (M := M) (h := h) (a := a) hc
          rw [hq] at he
          cases he; rfl
      | obj a fns => exact (C97_set a fns k v).2.2 _ _ he
      | _ =>
        unfold Set at he
        rw [if_neg (show ¬ [k, v].length % 2 ≠ 0 by simp)] at he
        cases he; rfl

/-- A call that panics changes nothing the program knows, except `append` (see C94_append_panics)
and `set` with several pairs (see C94_set_pairs). -/
theorem C98_unchanged_partial (w : Works M h vs) (f : HCall) {args : List (QVal F)} (ha : ∀ a ∈ args, a ∈ vs) (h1 : f ≠ .append)
    (h2 : f = .set → args.length ≤ 3) {p : QPanic F} (he : f.run M args h = (.error p, h')) : Untouched M vs h h' := by
  have same : h' = h → Untouched M vs h h' := by rintro rfl; exact untouched_of_old w fun _ _ => ⟨rfl, rfl, rfl⟩
  cases f with
  | append => exact absurd rfl h1
  | sliceFrom =>
    by_cases hn : args.length = 0
    · have : SliceFrom M args h = (.ok (.slice ⟨.var, 0, 0, 0, 0⟩), h) := by
        unfold SliceFrom
        rw [if_pos hn]
        rfl
      rw [HCall.run, this] at he
      cases he
    · obtain ⟨t, ht⟩ := sliceFrom_eq (M := M) (h := h) args hn
      rw [HCall.run, ht, hm_bind_ok (makeSlice_run ..)] at he
      have hs : Sl.Valid (h.newArr (List.replicate args.length (zeroOf M t))) ⟨t, h.next, 0, 0, args.length⟩ :=
        ⟨Nat.zero_le _, by simp [Heap.newArr, Heap.withArr], Nat.lt_succ_self _⟩
      obtain ⟨hok, hbad⟩ := append_spec (M := M) ⟨t, h.next, 0, 0, args.length⟩ args _ hs
      cases hx : allAppended M t args with
      | some xs =>
        obtain ⟨b, h'', he', _⟩ := hok xs hx
        rw [he] at he'
        cases he'
      | none =>
        obtain ⟨q, h'', b, xs, he', ap, _⟩ := hbad hx
        rw [he] at he'
        cases he'
        refine untouched_of_old w fun a ha => ⟨?_, by rw [ap.maps]; rfl, by rw [ap.objs]; rfl⟩
        apply List.ext_getElem?
        intro i
        rw [ap.others a (Nat.lt_succ_of_lt ha) i fun e => absurd e (by dsimp only; omega)]
        simp only [Heap.newArr, Heap.withArr]
        rw [if_neg (by omega)]
  | slice =>
    cases args with
    | nil => cases he; exact same rfl
    | cons t args =>
      refine same ?_
      rw [HCall.run] at he
      unfold MakeSlice at he
      rcases hm_lift_error he with rfl | ⟨nc, -, he⟩
      · rfl
      rcases hm_lift_error he with rfl | ⟨t, -, he⟩
      · rfl
      split at he
      · rw [hm_bind_ok (makeSlice_run ..)] at he
        cases he
      · cases he; rfl
  | sub =>
    refine same ?_
    match args with
    | [_, _, _] => exact (congrArg Prod.snd he).symm
    | [] | [_] | [_, _] | _ :: _ :: _ :: _ :: _ => cases he; rfl
  | get =>
    refine same ?_
    match args with
    | [_, _] => exact (congrArg Prod.snd he).symm
    | [] | [_] | _ :: _ :: _ :: _ => cases he; rfl
  | set =>
    cases args with
    | nil => cases he; exact same rfl
    | cons m args =>
      rw [HCall.run, hm_bind] at he
      split at he
      · cases he
      · rename_i hs
        cases he
        exact same (set_one_panics m (by have := h2 rfl; simp at this; omega) w (ha m (List.mem_cons_self ..)) hs)
  | mapFrom =>
    rw [HCall.run] at he
    unfold MapFrom at he
    have new : (∃ l, h' = Heap.withMap { h with next := h.next + 1 } h.next l) → Untouched M vs h h' := by
      rintro ⟨l, rfl⟩
      refine untouched_of_old w fun a ha => ⟨rfl, ?_, rfl⟩
      simp only [Heap.withMap]
      rw [if_neg (by omega)]
    split at he
    · cases he; exact same rfl
    · split at he
      · rw [hm_bind_ok (makeMap_run h)] at he
        cases he
      · split at he
        · exact new (mapFromKeys_old he)
        · split at he
          · exact new (mapFromKeys_old he)
          · cases he; exact same rfl
  | mkmap =>
    cases args with
    | nil => cases he; exact same rfl
    | cons t args =>
      rw [HCall.run] at he
      unfold Mkmap at he
      rcases hm_lift_error he with rfl | ⟨t, -, he⟩
      · exact same rfl
      cases t <;> first | (cases he; exact same rfl; done) | skip
      dsimp only at he
      rw [hm_bind_ok (makeMap_run h)] at he
      cases he
  | delete =>
    refine same ?_
    match args, ha with
    | [m, k], ha =>
      rw [HCall.run, hm_bind] at he
      split at he
      · cases he
      · rename_i hs
        cases he
        cases m with
        | map kt vt a =>
          rw [C96_delete] at hs
          exact set_one_panics _ (Nat.le_refl _) w (ha _ (List.mem_cons_self ..)) hs
        | _ => cases hs; rfl
    | [], _ => cases he; rfl
    | [_], _ => cases he; rfl
    | _ :: _ :: _ :: _, _ => cases he; rfl
  | new fns =>
    refine same ?_
    cases args <;> (cases he; try rfl)
  | member name =>
    refine same ?_
    match args with
    | [m] =>
      cases m with
      | obj a fns => exact (congrArg Prod.snd he).symm
      | _ => cases he; rfl
    | [] => cases he; rfl
    | m :: _ :: _ => cases m <;> (cases he; rfl)
  | other =>
    refine same ?_
    cases args <;> (cases he; try rfl)

/-- But `append(b, 9, "x")` panics and has stored the 9 behind `b`, where `a` shows it. -/
theorem C98_violated (M : Fl F) : ∃ h vs a b p h', Works M h vs ∧ .slice a ∈ vs ∧ .slice b ∈ vs ∧
    Append M (.slice b) [.int 9, .str []] h = (.error p, h') ∧
    Get M h (.slice a) (.int 1) = .ok (.int 2) ∧ Get M h' (.slice a) (.int 1) = .ok (.int 9) := by
  have w1 : Works M _ _ := .call .sliceFrom (.plain (.plain (.plain .start (v := .int 1) trivial) (v := .int 2) trivial) (v := .int 3) trivial)
    (args := [.int 1, .int 2, .int 3]) (fun a ha => by
      simp only [List.mem_cons, List.not_mem_nil, or_false] at ha ⊢; rcases ha with rfl | rfl | rfl <;> simp) rfl
  have w2 : Works M _ _ := .call .sub (.plain w1 (v := .nil) trivial) (args := [_, .nil, .int 1]) (fun a ha => by
      simp only [List.mem_cons, List.not_mem_nil, or_false] at ha ⊢; rcases ha with rfl | rfl | rfl
      · exact .inr (.inl rfl)
      · exact .inl rfl
      · exact .inr (.inr (.inr (.inr rfl)))) rfl
  exact ⟨_, _, _, _, _, _, w2, List.mem_cons_of_mem _ (List.mem_cons_of_mem _ (List.mem_cons_self ..)), List.mem_cons_self .., rfl, rfl, rfl⟩

/-- And `set(a, 0, 9, 1, "")` has stored the 9. -/
theorem C98_violated_set (M : Fl F) : ∃ h vs m p, Works M h vs ∧ m ∈ vs ∧ (Set M m [.int 0, .int 9, .int 1, .str []] h).1 = .error p ∧
    Get M h m (.int 0) = .ok (.int 1) ∧ Get M (Set M m [.int 0, .int 9, .int 1, .str []] h).2 m (.int 0) = .ok (.int 9) := by
  have w : Works M _ _ := .call .sliceFrom (.plain .start (v := .int 1) trivial) (args := [.int 1, .int 1])
    (fun a ha => by simp only [List.mem_cons, List.not_mem_nil, or_false, or_self] at ha ⊢; exact ha) rfl
  refine ⟨_, _, _, reflectMsg, w, List.mem_cons_self .., ?_, rfl, ?_⟩
  · unfold Set
    rw [if_neg (by simp)]
    rfl
  · unfold Set
    rw [if_neg (by simp)]
    rfl

/-! ### Examples -/

/-- Integers as floats; -1 is not a number. -/
def boxFl : Fl Int :=
  ⟨⟨fun n => n, fun _ => some 0⟩, fun a => -a, (· + ·), (· - ·), (· * ·), (· / ·), fun a b => a < b, fun a b => a ≤ b, fun a b => a = b ∧ a ≠ -1,
    id, fun _ => 0, fun c _ => 2 * c, fun _ _ => false⟩

theorem boxFl_lawful : Lawful boxFl where
  symm a b h := by simp [boxFl] at h ⊢; omega
  trans a b c h h' := by simp [boxFl] at h h' ⊢; omega
  symm' _ _ h := by cases h
  trans' _ _ _ h := by cases h

/-- `a = [1, 2, 3]; b = a[1:2]` -/
def boxHeap : Heap Int := Heap.withArr { Heap.empty with next := 2 } 1 [.int 1, .int 2, .int 3]
def boxA : Sl := ⟨.int, 1, 0, 3, 3⟩
def boxB : Sl := ⟨.int, 1, 1, 1, 2⟩
def boxVs : List (QVal Int) := [.slice boxB, .slice boxA, .int 1, .int 2, .int 3]

theorem box_works : Works boxFl boxHeap boxVs := by
  have w0 : Works boxFl .empty [.int 1, .int 2, .int 3] := .plain (.plain (.plain .start trivial) trivial) trivial
  have w1 : Works boxFl boxHeap [.slice boxA, .int 1, .int 2, .int 3] := by
    refine .call .sliceFrom w0 (args := [.int 1, .int 2, .int 3]) (fun a ha => ha) ?_
    refine Prod.ext rfl ?_
    show Heap.withArr (Heap.withArr { Heap.empty with next := 2 } 1 _) 1 _ = _
    rw [Heap.withArr_twice]
    rfl
  exact .call .sub w1 (args := [.slice boxA, .int 1, .int 2]) (fun a ha => by
    simp only [List.mem_cons, List.not_mem_nil, or_false] at ha ⊢; rcases ha with rfl | rfl | rfl <;> simp) rfl

example : SamePlace boxB 0 boxA 1 ∧ Behind boxB 1 boxA 2 ∧ ¬ Behind boxB 1 boxA 1 := by
  refine ⟨?_, ⟨rfl, ?_, ?_, ?_⟩, fun h => ?_⟩
  · decide
  · decide
  · decide
  · decide
  · exact absurd h.2.1 (by decide)

/-- `set(b, 0, 7)` changes `a[1]` and nothing else of `a`; `append(b, 9)` changes `a[2]`. -/
example : Get boxFl (Set boxFl (.slice boxB) [.int 0, .int 7] boxHeap).2 (.slice boxA) (.int 1) = .ok (.int 7) ∧
    Get boxFl (Set boxFl (.slice boxB) [.int 0, .int 7] boxHeap).2 (.slice boxA) (.int 2) = .ok (.int 3) ∧
    Get boxFl (Append boxFl (.slice boxB) [.int 9] boxHeap).2 (.slice boxA) (.int 2) = .ok (.int 9) ∧
    Get boxFl (Append boxFl (.slice boxA) [.int 9] boxHeap).2 (.slice boxA) (.int 0) = .ok (.int 1) :=
  ⟨rfl, rfl, rfl, rfl⟩

example : HasType (.int 7 : QVal Int) boxB.elem := ⟨.int, rfl, .inr rfl⟩
example : (appended boxFl boxB.elem .nil).isSome ∧ appended boxFl .float (.int 2) = some (.float 2) := ⟨rfl, rfl⟩

/-- `m = mkmap("string:int")` -/
theorem box_map : Works boxFl (Heap.withMap { (Heap.empty : Heap Int) with next := 2 } 1 []) [.map .string .int 1, .str (str "string:int")] :=
  .call .mkmap (.plain .start (v := .str (str "string:int")) trivial) (args := [.str (str "string:int")]) (fun _ ha => ha) rfl

example : IsKey .string (.str (str "x") : QVal Int) ∧ SameKey boxFl (.str (str "x")) (.str (str "x")) ∧ ¬ SameKey boxFl (.float (-1)) (.float (-1)) ∧
    IsKey .float (.float (-1) : QVal Int) :=
  ⟨⟨⟨_, rfl, .inr rfl⟩, fun _ hu => by cases hu; rfl⟩, rfl, by decide, ⟨⟨_, rfl, .inr rfl⟩, fun _ hu => by cases hu; rfl⟩⟩

/-- An object of a class with the method `f`: `set(o, "x", 1)` works, `set(o, "f", 1)` does not. -/
example : (Set boxFl (.obj 1 [(str "f", 0, ⟨[], none, 0, false⟩)]) [.str (str "x"), .int 1] { (Heap.empty : Heap Int) with next := 2 }).1 = .ok () ∧
    ∃ p, (Set boxFl (.obj 1 [(str "f", 0, ⟨[], none, 0, false⟩)]) [.str (str "f"), .int 1] { (Heap.empty : Heap Int) with next := 2 }).1 = .error p :=
  ⟨rfl, _, rfl⟩

end Tpl.Props
