import Verif.Spec.TplText

/-! The TPL syntax is unambiguous. -/
namespace Tpl.Spec

/-- The kinds an item begins with. -/
def itemStart : List Nat := [IDENT, CHAR, STRING, INT, 42, 43, 63, 126, 64, 40, 33]
/-- The kinds a suffix begins with. -/
def sufStart : List Nat := [37, REM_ASSIGN, 47]

/-- The text goes on with none of these. -/
def Stops (ks : List Nat) (r : List (Nat × Str)) : Prop := ∀ x xs, r = x :: xs → x.1 ∉ ks

theorem Stops.sub {ks ks' : List Nat} {r} (h : Stops ks r) (hs : ∀ k ∈ ks', k ∈ ks) : Stops ks' r :=
  fun x xs e hk => h x xs e (hs _ hk)

theorem fac_start (f : Fac) : ∃ x xs, f.flat = x :: xs ∧ x.1 ∈ itemStart := by
  cases f <;> exact ⟨_, _, rfl, by simp [itemStart, opr]⟩

theorem item_start (i : Item) : ∃ x xs, i.flat = x :: xs ∧ x.1 ∈ itemStart := by
  cases i with
  | cut => exact ⟨_, _, rfl, by simp [itemStart, opr]⟩
  | term f s =>
    obtain ⟨x, xs, h, hx⟩ := fac_start f
    exact ⟨x, xs ++ s.flat, by simp [Item.flat, h], hx⟩

theorem stops_cons {ks : List Nat} {x : Nat × Str} {xs} (h : x.1 ∉ ks) : Stops ks (x :: xs) := by
  intro y ys e
  cases e
  exact h

/-- After an item of a sequence no suffix follows. -/
theorem seq_stops {is : ItemSeq} {r : List (Nat × Str)} (h : Stops (itemStart ++ sufStart) r) : Stops sufStart (is.flat ++ r) := by
  cases is with
  | nil => exact h.sub fun k hk => List.mem_append_right _ hk
  | cons i is =>
    obtain ⟨x, xs, h, hx⟩ := item_start i
    simp only [ItemSeq.flat, h, List.cons_append]
    refine stops_cons ?_
    revert hx
    simp only [itemStart, sufStart]
    generalize x.1 = k
    intro hk
    simp only [List.mem_cons, List.not_mem_nil, or_false] at hk ⊢
    rcases hk with rfl | rfl | rfl | rfl | rfl | rfl | rfl | rfl | rfl | rfl | rfl <;> decide

mutual
theorem fac_inj : ∀ (f f' : Fac) (r r' : List (Nat × Str)), f.flat ++ r = f'.flat ++ r' → f = f' ∧ r = r'
  | .ident n, f', r, r', h => by
    cases f' <;> simp [Fac.flat, opr, Prod.ext_iff] at h ⊢ <;> first | exact h | (exact absurd h.1.1 (by decide))
  | .char n, f', r, r', h => by
    cases f' <;> simp [Fac.flat, opr, Prod.ext_iff] at h ⊢ <;> first | exact h | (exact absurd h.1.1 (by decide))
  | .string n, f', r, r', h => by
    cases f' <;> simp [Fac.flat, opr, Prod.ext_iff] at h ⊢ <;> first | exact h | (exact absurd h.1.1 (by decide))
  | .int n, f', r, r', h => by
    cases f' <;> simp [Fac.flat, opr, Prod.ext_iff] at h ⊢ <;> first | exact h | (exact absurd h.1.1 (by decide))
  | .rep0 f, f', r, r', h => by
    cases f' <;> simp [Fac.flat, opr, Prod.ext_iff] at h ⊢ <;> first | exact fac_inj f _ r r' h | exact absurd h.1.1 (by decide)
  | .rep1 f, f', r, r', h => by
    cases f' <;> simp [Fac.flat, opr, Prod.ext_iff] at h ⊢ <;> first | exact fac_inj f _ r r' h | exact absurd h.1.1 (by decide)
  | .rep01 f, f', r, r', h => by
    cases f' <;> simp [Fac.flat, opr, Prod.ext_iff] at h ⊢ <;> first | exact fac_inj f _ r r' h | exact absurd h.1.1 (by decide)
  | .not f, f', r, r', h => by
    cases f' <;> simp [Fac.flat, opr, Prod.ext_iff] at h ⊢ <;> first | exact fac_inj f _ r r' h | exact absurd h.1.1 (by decide)
  | .peek f, f', r, r', h => by
    cases f' <;> simp [Fac.flat, opr, Prod.ext_iff] at h ⊢ <;> first | exact fac_inj f _ r r' h | exact absurd h.1.1 (by decide)
  | .paren g, f', r, r', h => by
    cases f' <;> simp [Fac.flat, opr, Prod.ext_iff] at h ⊢ <;> try exact absurd h.1.1 (by decide)
    obtain ⟨h1, h2⟩ := alts_inj g _ _ _ (stops_cons (by decide)) (stops_cons (by decide)) h
    exact ⟨h1, by injection h2⟩
theorem sufs_inj : ∀ (s s' : Sufs) (r r' : List (Nat × Str)), Stops sufStart r → Stops sufStart r' →
    s.flat ++ r = s'.flat ++ r' → s = s' ∧ r = r'
  | .nil, s', r, r', hr, _, h => by
    cases s' with
    | nil => exact ⟨rfl, h⟩
    | list f t => exact absurd (by simp [sufStart, opr]) (hr _ _ h)
    | list0 f t => exact absurd (by simp [sufStart, opr]) (hr _ _ h)
    | mark n t => exact absurd (by simp [sufStart, opr]) (hr _ _ h)
  | .list f t, s', r, r', hr, hr', h => by
    cases s' with
    | nil => exact absurd (by simp [sufStart, opr]) (hr' _ _ h.symm)
    | list f' t' =>
      simp only [Sufs.flat, List.cons_append, List.append_assoc, List.cons.injEq, true_and] at h
      obtain ⟨rfl, e1⟩ := fac_inj f _ _ _ h
      obtain ⟨rfl, e2⟩ := sufs_inj t _ _ _ hr hr' e1
      exact ⟨rfl, e2⟩
    | list0 f' t' => simp [Sufs.flat, opr] at h <;> exact absurd h.1 (by decide)
    | mark n t' => simp [Sufs.flat, opr] at h <;> exact absurd h.1 (by decide)
  | .list0 f t, s', r, r', hr, hr', h => by
    cases s' with
    | nil => exact absurd (by simp [sufStart, opr]) (hr' _ _ h.symm)
    | list0 f' t' =>
      simp only [Sufs.flat, List.cons_append, List.append_assoc, List.cons.injEq, true_and] at h
      obtain ⟨rfl, e1⟩ := fac_inj f _ _ _ h
      obtain ⟨rfl, e2⟩ := sufs_inj t _ _ _ hr hr' e1
      exact ⟨rfl, e2⟩
    | list f' t' => simp [Sufs.flat, opr] at h <;> exact absurd h.1 (by decide)
    | mark n t' => simp [Sufs.flat, opr] at h <;> exact absurd h.1 (by decide)
  | .mark n t, s', r, r', hr, hr', h => by
    cases s' with
    | nil => exact absurd (by simp [sufStart, opr]) (hr' _ _ h.symm)
    | list f' t' => simp [Sufs.flat, opr] at h <;> exact absurd h.1 (by decide)
    | list0 f' t' => simp [Sufs.flat, opr] at h <;> exact absurd h.1 (by decide)
    | mark n' t' =>
      simp only [Sufs.flat, List.cons_append, List.cons.injEq, true_and, Prod.mk.injEq] at h
      obtain ⟨rfl, h⟩ := h
      obtain ⟨rfl, e1⟩ := sufs_inj t _ _ _ hr hr' h
      exact ⟨rfl, e1⟩
theorem item_inj : ∀ (i i' : Item) (r r' : List (Nat × Str)), Stops sufStart r → Stops sufStart r' →
    i.flat ++ r = i'.flat ++ r' → i = i' ∧ r = r'
  | .term f s, i', r, r', hr, hr', h => by
    cases i' with
    | cut => cases f <;> simp [Item.flat, Fac.flat, opr] at h <;> exact absurd h.1.1 (by decide)
    | term f' s' =>
      simp only [Item.flat, List.append_assoc] at h
      obtain ⟨rfl, e1⟩ := fac_inj f _ _ _ h
      obtain ⟨rfl, e2⟩ := sufs_inj s _ _ _ hr hr' e1
      exact ⟨rfl, e2⟩
  | .cut, i', r, r', hr, hr', h => by
    cases i' with
    | cut => simpa [Item.flat] using h
    | term f s => cases f <;> simp [Item.flat, Fac.flat, opr] at h <;> exact absurd h.1.1 (by decide)
theorem seq_inj : ∀ (s s' : ItemSeq) (r r' : List (Nat × Str)), Stops (itemStart ++ sufStart) r → Stops (itemStart ++ sufStart) r' →
    s.flat ++ r = s'.flat ++ r' → s = s' ∧ r = r'
  | .nil, s', r, r', hr, hr', h => by
    cases s' with
    | nil => exact ⟨rfl, h⟩
    | cons i is =>
      obtain ⟨x, xs, e, hx⟩ := item_start i
      simp only [ItemSeq.flat, e, List.nil_append, List.cons_append] at h
      exact absurd (List.mem_append_left _ hx) (hr _ _ h)
  | .cons i is, s', r, r', hr, hr', h => by
    cases s' with
    | nil =>
      obtain ⟨x, xs, e, hx⟩ := item_start i
      simp only [ItemSeq.flat, e, List.nil_append, List.cons_append] at h
      exact absurd (List.mem_append_left _ hx) (hr' _ _ h.symm)
    | cons i' is' =>
      simp only [ItemSeq.flat, List.append_assoc] at h
      obtain ⟨rfl, e1⟩ := item_inj i _ _ _ (seq_stops hr) (seq_stops hr') h
      obtain ⟨rfl, e2⟩ := seq_inj is _ _ _ hr hr' e1
      exact ⟨rfl, e2⟩
theorem alts_inj : ∀ (a a' : Alts) (r r' : List (Nat × Str)), Stops (itemStart ++ sufStart ++ [124]) r →
    Stops (itemStart ++ sufStart ++ [124]) r' → a.flat ++ r = a'.flat ++ r' → a = a' ∧ r = r'
  | .one i is, a', r, r', hr, hr', h => by
    have h1 := hr.sub (ks' := itemStart ++ sufStart) fun k hk => List.mem_append_left _ hk
    have h2 := hr'.sub (ks' := itemStart ++ sufStart) fun k hk => List.mem_append_left _ hk
    have h3 : ∀ l, Stops (itemStart ++ sufStart) (opr 124 :: l) := fun l => stops_cons (by decide)
    cases a' with
    | one i' is' =>
      simp only [Alts.flat, List.append_assoc] at h
      obtain ⟨rfl, e1⟩ := item_inj i _ _ _ (seq_stops h1) (seq_stops h2) h
      obtain ⟨rfl, e2⟩ := seq_inj is _ _ _ h1 h2 e1
      exact ⟨rfl, e2⟩
    | alt i' is' a' =>
      simp only [Alts.flat, List.append_assoc, List.cons_append] at h
      obtain ⟨rfl, e1⟩ := item_inj i _ _ _ (seq_stops h1) (seq_stops (h3 _)) h
      obtain ⟨rfl, e2⟩ := seq_inj is _ _ _ h1 (h3 _) e1
      exact absurd (by simp [opr]) (hr _ _ e2)
  | .alt i is a, a', r, r', hr, hr', h => by
    have h2 := hr'.sub (ks' := itemStart ++ sufStart) fun k hk => List.mem_append_left _ hk
    have h3 : ∀ l, Stops (itemStart ++ sufStart) (opr 124 :: l) := fun l => stops_cons (by decide)
    cases a' with
    | one i' is' =>
      simp only [Alts.flat, List.append_assoc, List.cons_append] at h
      obtain ⟨rfl, e1⟩ := item_inj i _ _ _ (seq_stops (h3 _)) (seq_stops h2) h
      obtain ⟨rfl, e2⟩ := seq_inj is _ _ _ (h3 _) h2 e1
      exact absurd (by simp [opr]) (hr' _ _ e2.symm)
    | alt i' is' a' =>
      simp only [Alts.flat, List.append_assoc, List.cons_append] at h
      obtain ⟨rfl, e1⟩ := item_inj i _ _ _ (seq_stops (h3 _)) (seq_stops (h3 _)) h
      obtain ⟨rfl, e2⟩ := seq_inj is _ _ _ (h3 _) (h3 _) e1
      injection e2 with _ h
      obtain ⟨rfl, e4⟩ := alts_inj a _ _ _ hr hr' h
      exact ⟨rfl, e4⟩
end

theorem flatDoc_inj : ∀ rs rs' : List Rule, flatDoc rs = flatDoc rs' → rs = rs' := by
  intro rs
  induction rs with
  | nil =>
    intro rs' h
    cases rs' with
    | nil => rfl
    | cons r rs' => simp [flatDoc, Rule.flat] at h
  | cons r rs ih =>
    intro rs' h
    cases rs' with
    | nil => simp [flatDoc, Rule.flat] at h
    | cons r' rs' =>
      obtain ⟨n, b⟩ := r
      obtain ⟨n', b'⟩ := r'
      simp only [flatDoc, List.map_cons, List.flatten_cons, Rule.flat, List.cons_append, List.append_assoc, List.cons.injEq,
        Prod.mk.injEq, true_and] at h
      obtain ⟨rfl, h⟩ := h
      obtain ⟨rfl, e1⟩ := alts_inj b _ _ _ (stops_cons (by decide)) (stops_cons (by decide)) h
      injection e1 with _ h
      rw [ih rs' h]

/-- A document has one syntax tree. -/
theorem isDoc_unique {ts : List Token} {rs rs' : List Rule} (h : IsDoc ts rs) (h' : IsDoc ts rs') : rs = rs' :=
  flatDoc_inj _ _ (h.2.symm.trans h'.2)

end Tpl.Spec
