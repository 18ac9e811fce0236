import Verif.Proof.TplText
import Verif.Proof.Compiler

/-! What compiling does to the tables of names. -/
namespace Tpl
open Tpl.Spec
variable {B : Type} {mk : Marker B}

def Tab.defined (t : Tab B) : List Str := t.grammars.map (·.1)
def Tab.used (t : Tab B) : List Str := t.vars.map (·.1)

/-- `t'` is `t` with more variables. -/
structure Ext (t t' : Tab B) : Prop where
  gr : t'.grammars = t.grammars
  vars : ∃ ns : List Str, t'.vars = t.vars ++ ns.map (fun n => (n, none)) ∧ (∀ n ∈ ns, n ∉ t.defined ∧ n ∉ t.used) ∧ ns.Nodup

theorem Ext.refl (t : Tab B) : Ext t t := ⟨rfl, [], by simp, by simp, by simp⟩

theorem Ext.of_eq {t t' : Tab B} (h1 : t'.grammars = t.grammars) (h2 : t'.vars = t.vars) : Ext t t' :=
  ⟨h1, [], by simp [h2], by simp, by simp⟩

theorem Ext.used {t t' : Tab B} (h : Ext t t') {n : Str} (hn : n ∈ t.used) : n ∈ t'.used := by
  obtain ⟨_, ns, h1, _⟩ := h
  unfold Tab.used at *
  rw [h1, List.map_append]
  exact List.mem_append_left _ hn

theorem Ext.defined {t t' : Tab B} (h : Ext t t') : t'.defined = t.defined := by unfold Tab.defined; rw [h.gr]

theorem Ext.trans {t t' t'' : Tab B} (h : Ext t t') (h' : Ext t' t'') : Ext t t'' := by
  obtain ⟨ns, h1, h2, h3⟩ := h.vars
  obtain ⟨ns', h1', h2', h3'⟩ := h'.vars
  refine ⟨h'.gr.trans h.gr, ns ++ ns', ?_, ?_, ?_⟩
  · rw [h1', h1]; simp
  · intro n hn
    rcases List.mem_append.mp hn with hn | hn
    · exact h2 n hn
    · exact ⟨h.defined ▸ (h2' n hn).1, fun hu => (h2' n hn).2 (h.used hu)⟩
  · rw [List.nodup_append]
    refine ⟨h3, h3', ?_⟩
    rintro a ha b hb rfl
    refine (h2' a hb).2 ?_
    unfold Tab.used
    rw [h1]
    simp [ha]

/-- A name the tables know. -/
def Known (n : Str) (t : Tab B) : Prop := n ∈ t.defined ∨ n ∈ t.used

theorem Ext.known {t t' : Tab B} (h : Ext t t') {n : Str} (hn : Known n t) : Known n t' := by
  rcases hn with hn | hn
  · exact .inl (h.defined ▸ hn)
  · exact .inr (h.used hn)

/-- The names are known, but for `true`, which may be the built-in. -/
def Knows (ns : List Str) (t : Tab B) : Prop := ∀ n ∈ ns, n ≠ bytes "true" → Known n t

theorem Knows.ext {ns : List Str} {t t' : Tab B} (h : Knows ns t) (e : Ext t t') : Knows ns t' :=
  fun n hn ht => e.known (h n hn ht)

theorem Knows.append {ns ns' : List Str} {t : Tab B} (h : Knows ns t) (h' : Knows ns' t) : Knows (ns ++ ns') t := by
  intro n hn
  rcases List.mem_append.mp hn with hn | hn
  · exact h n hn
  · exact h' n hn

theorem knows_nil (t : Tab B) : Knows [] t := fun _ h => absurd h (by simp)

theorem tokenOf_ext {lit : Str} {t : Tab B} {x : Gr B × Tab B} (h : tokenOf lit t = .ok x) : Ext t x.2 := by
  unfold tokenOf at h
  split at h
  · cases h
  · cases h; exact .of_eq rfl rfl
  · cases h

theorem varNo_none {n : Str} : ∀ {vs : List (Str × Option (Gr B))}, varNo n vs = none ↔ n ∉ vs.map (·.1) := by
  intro vs
  induction vs with
  | nil => simp [varNo]
  | cons v vs ih =>
    unfold varNo
    by_cases h : v.1 = n
    · rw [if_pos h]; simp [h]
    · rw [if_neg h]
      simp only [Option.map_eq_none_iff, ih, List.map_cons, List.mem_cons, not_or]
      exact ⟨fun x => ⟨fun e => h e.symm, x⟩, fun x => x.2⟩

theorem varNo_some {n : Str} : ∀ {vs : List (Str × Option (Gr B))} {i : Nat}, varNo n vs = some i → ∃ o, vs[i]? = some (n, o) := by
  intro vs
  induction vs with
  | nil => intro i h; cases h
  | cons v vs ih =>
    intro i h
    unfold varNo at h
    by_cases hv : v.1 = n
    · rw [if_pos hv] at h
      cases h
      exact ⟨v.2, by simp [← hv]⟩
    · rw [if_neg hv] at h
      cases hw : varNo n vs with
      | none => rw [hw] at h; cases h
      | some j =>
        rw [hw] at h
        cases h
        obtain ⟨o, ho⟩ := ih hw
        exact ⟨o, by simpa using ho⟩

theorem lookup_none {n : Str} : ∀ {gs : List (Str × Gr B)}, gs.lookup n = none ↔ n ∉ gs.map (·.1) := by
  intro gs
  induction gs with
  | nil => simp
  | cons g gs ih =>
    obtain ⟨a, b⟩ := g
    rw [List.lookup_cons]
    by_cases h : n = a
    · subst h; simp
    · have : (n == a) = false := by simpa using h
      rw [this]
      simp only [ih, List.map_cons, List.mem_cons, not_or]
      exact ⟨fun x => ⟨h, x⟩, fun x => x.2⟩

theorem lookup_some {n : Str} {g : Gr B} {gs : List (Str × Gr B)} (h : gs.lookup n = some g) : n ∈ gs.map (·.1) := by
  refine Classical.byContradiction fun hn => ?_
  rw [lookup_none.mpr hn] at h
  cases h

theorem nameOf_ext {n : Str} {t : Tab B} {x : Gr B × Tab B} (h : nameOf n t = .ok x) :
    Ext t x.2 ∧ Knows (Fac.refs (.ident n)) x.2 := by
  unfold nameOf at h
  unfold Fac.refs
  by_cases hn : n = []
  · rw [if_pos hn] at h; cases h
  rw [if_neg hn] at h
  by_cases hu : isUpper n = true
  · rw [if_pos hu] at h ⊢
    exact ⟨tokenOf_ext h, knows_nil _⟩
  rw [if_neg hu] at h ⊢
  cases hl : t.grammars.lookup n with
  | some g =>
    rw [hl] at h
    cases h
    refine ⟨.refl _, ?_⟩
    intro m hm _
    obtain rfl : m = n := by simpa using hm
    exact .inl (lookup_some hl)
  | none =>
    cases hv : varNo n t.vars with
    | some i =>
      rw [hl, hv] at h
      cases h
      refine ⟨.refl _, ?_⟩
      intro m hm _
      obtain rfl : m = n := by simpa using hm
      refine .inr (Classical.byContradiction fun hu => ?_)
      rw [varNo_none.mpr hu] at hv
      cases hv
    | none =>
      rw [hl, hv] at h
      dsimp only at h
      by_cases ht : n = bytes "true"
      · rw [if_pos ht] at h
        cases h
        refine ⟨.refl _, ?_⟩
        intro m hm hne
        obtain rfl : m = n := by simpa using hm
        exact absurd ht hne
      · rw [if_neg ht] at h
        cases h
        refine ⟨⟨rfl, [n], by simp, ?_, by simp⟩, ?_⟩
        · intro m hm
          obtain rfl : m = n := by simpa using hm
          exact ⟨lookup_none.mp hl, varNo_none.mp hv⟩
        · intro m hm _
          obtain rfl : m = n := by simpa using hm
          exact .inr (by simp [Tab.used])

/-- Using the names `ns` takes the tables from `t` to `t'`. -/
structure Names (ns : List Str) (t t' : Tab B) : Prop where
  ext : Ext t t'
  knows : Knows ns t'
  from_ : ∀ n ∈ t'.used, n ∈ t.used ∨ n ∈ ns

theorem Names.trans {ns ns' : List Str} {t t' t'' : Tab B} (h : Names ns t t') (h' : Names ns' t' t'') : Names (ns ++ ns') t t'' := by
  refine ⟨h.ext.trans h'.ext, (h.knows.ext h'.ext).append h'.knows, ?_⟩
  intro n hn
  rcases h'.from_ n hn with hn | hn
  · rcases h.from_ n hn with hn | hn
    · exact .inl hn
    · exact .inr (List.mem_append_left _ hn)
  · exact .inr (List.mem_append_right _ hn)

theorem Names.refl (t : Tab B) : Names [] t t := ⟨.refl _, knows_nil _, fun _ h => .inl h⟩

theorem Names.same {ns : List Str} {t t' t'' : Tab B} (h : Names ns t t') (h1 : t''.grammars = t'.grammars) (h2 : t''.vars = t'.vars) :
    Names ns t t'' :=
  ⟨h.ext.trans (.of_eq h1 h2), h.knows.ext (.of_eq h1 h2), fun n hn => h.from_ n (by unfold Tab.used at *; rwa [h2] at hn)⟩

theorem tokenOf_names {lit : Str} {t : Tab B} {x : Gr B × Tab B} (h : tokenOf lit t = .ok x) : Names [] t x.2 := by
  unfold tokenOf at h
  split at h
  · cases h
  · cases h; exact (Names.refl t).same rfl rfl
  · cases h

theorem nameOf_names {n : Str} {t : Tab B} {x : Gr B × Tab B} (h : nameOf n t = .ok x) : Names (Fac.refs (.ident n)) t x.2 := by
  obtain ⟨h1, h2⟩ := nameOf_ext h
  refine ⟨h1, h2, ?_⟩
  unfold nameOf at h
  unfold Fac.refs
  by_cases hn : n = []
  · rw [if_pos hn] at h; cases h
  rw [if_neg hn] at h
  by_cases hu : isUpper n = true
  · rw [if_pos hu] at h ⊢
    exact (tokenOf_names h).from_
  rw [if_neg hu] at h ⊢
  cases hl : t.grammars.lookup n with
  | some g => rw [hl] at h; cases h; exact fun _ h => .inl h
  | none =>
    cases hv : varNo n t.vars with
    | some i => rw [hl, hv] at h; cases h; exact fun _ h => .inl h
    | none =>
      rw [hl, hv] at h
      dsimp only at h
      by_cases ht : n = bytes "true"
      · rw [if_pos ht] at h; cases h; exact fun _ h => .inl h
      · rw [if_neg ht] at h
        cases h
        intro m hm
        simp only [Tab.used, List.map_append, List.map_cons, List.map_nil, List.mem_append, List.mem_singleton] at hm ⊢
        exact hm

theorem bind_ok {α β : Type} {x : Except ClPanic α} {f : α → Except ClPanic β} {b : β} (h : x.bind f = .ok b) :
    ∃ a, x = .ok a ∧ f a = .ok b := by
  cases x with
  | error e => cases h
  | ok a => exact ⟨a, rfl, h⟩

mutual
theorem fac_names : ∀ (f : Fac) {t : Tab B} {x : Gr B × Tab B}, f.den mk t = .ok x → Names f.refs t x.2
  | .ident n, t, x, h => nameOf_names h
  | .char l, t, x, h => tokenOf_names h
  | .string l, t, x, h => tokenOf_names h
  | .int l, t, x, h => by
    simp only [Fac.den] at h
    split at h <;> cases h
    exact .refl _
  | .rep0 f, t, x, h => by
    obtain ⟨y, h1, h2⟩ := bind_ok h
    cases h2
    exact (fac_names f h1).same rfl rfl
  | .rep1 f, t, x, h => by
    obtain ⟨y, h1, h2⟩ := bind_ok h
    cases h2
    exact (fac_names f h1).same rfl rfl
  | .rep01 f, t, x, h => by
    obtain ⟨y, h1, h2⟩ := bind_ok h
    cases h2
    exact (fac_names f h1).same rfl rfl
  | .not f, t, x, h => by
    obtain ⟨y, h1, h2⟩ := bind_ok h
    cases h2
    exact (fac_names f h1).same rfl rfl
  | .peek f, t, x, h => by
    obtain ⟨y, h1, h2⟩ := bind_ok h
    cases h2
    exact (fac_names f h1).same rfl rfl
  | .paren g, t, x, h => by
    obtain ⟨y, h1, h2⟩ := bind_ok h
    cases h2
    exact (alts_names g h1).same rfl rfl
theorem sufs_names : ∀ (s : Sufs) {a : Gr B} {t : Tab B} {x : Gr B × Tab B}, s.den mk a t = .ok x → Names s.refs t x.2
  | .nil, a, t, x, h => by
    cases h
    exact .refl _
  | .list f r, a, t, x, h => by
    obtain ⟨y, h1, h2⟩ := bind_ok h
    exact ((fac_names f h1).same (t'' := (newObj (Gr.list · a y.1 false) y.2).2) rfl rfl).trans (sufs_names r h2)
  | .list0 f r, a, t, x, h => by
    obtain ⟨y, h1, h2⟩ := bind_ok h
    exact ((fac_names f h1).same (t'' := (newObj (Gr.list · a y.1 true) y.2).2) rfl rfl).trans (sufs_names r h2)
  | .mark n r, a, t, x, h => by
    simp only [Sufs.den] at h
    split at h
    · exact sufs_names r h
    · cases h
theorem item_names : ∀ (i : Item) {t : Tab B} {x : Gr B × Tab B}, i.den mk t = .ok x → Names i.refs t x.2
  | .term f s, t, x, h => by
    obtain ⟨y, h1, h2⟩ := bind_ok h
    exact (fac_names f h1).trans (sufs_names s h2)
  | .cut, t, x, h => by
    cases h
    exact .refl _
theorem seq_names : ∀ (s : ItemSeq) {t : Tab B} {x : List (Gr B) × Tab B}, s.den mk t = .ok x → Names s.refs t x.2
  | .nil, t, x, h => by
    cases h
    exact .refl _
  | .cons i r, t, x, h => by
    obtain ⟨y, h1, h2⟩ := bind_ok h
    obtain ⟨z, h3, h4⟩ := bind_ok h2
    cases h4
    exact ((item_names i h1).trans (seq_names r h3)).same rfl rfl
theorem alts_names : ∀ (a : Alts) {t : Tab B} {x : List (Gr B) × Tab B}, a.den mk t = .ok x → Names a.refs t x.2
  | .one i is, t, x, h => by
    obtain ⟨y, h1, h2⟩ := bind_ok h
    obtain ⟨z, h3, h4⟩ := bind_ok h2
    cases h4
    exact ((item_names i h1).trans (seq_names is h3)).same rfl rfl
  | .alt i is r, t, x, h => by
    obtain ⟨y, h1, h2⟩ := bind_ok h
    obtain ⟨z, h3, h4⟩ := bind_ok h2
    obtain ⟨w, h5, h6⟩ := bind_ok h4
    cases h6
    exact (((item_names i h1).trans (seq_names is h3)).trans (alts_names r h5)).same rfl rfl
end

theorem alts_ext (a : Alts) {t : Tab B} {x : List (Gr B) × Tab B} (h : a.den mk t = .ok x) : Ext t x.2 ∧ Knows a.refs x.2 :=
  ⟨(alts_names a h).ext, (alts_names a h).knows⟩

/-! Definitions -/

/-- Names stay what they are. -/
structure Mono (t t' : Tab B) : Prop where
  used : ∀ n ∈ t.used, n ∈ t'.used
  defined : ∀ n ∈ t.defined, n ∈ t'.defined
  assigned : ∀ n g, (n, some g) ∈ t.vars → (n, some g) ∈ t'.vars
  apart : (∀ n ∈ t.used, n ∉ t.defined) → ∀ n ∈ t'.used, n ∉ t'.defined
  nodup : t.used.Nodup → t'.used.Nodup

theorem Mono.refl (t : Tab B) : Mono t t := ⟨fun _ h => h, fun _ h => h, fun _ _ h => h, fun h => h, fun h => h⟩

theorem Mono.trans {t t' t'' : Tab B} (h : Mono t t') (h' : Mono t' t'') : Mono t t'' :=
  ⟨fun n hn => h'.used n (h.used n hn), fun n hn => h'.defined n (h.defined n hn),
    fun n g hg => h'.assigned n g (h.assigned n g hg), fun ha => h'.apart (h.apart ha), fun hn => h'.nodup (h.nodup hn)⟩

theorem Ext.mono {t t' : Tab B} (h : Ext t t') : Mono t t' := by
  obtain ⟨ns, h1, h2, h3⟩ := h.vars
  refine ⟨fun n hn => h.used hn, fun n hn => h.defined ▸ hn, ?_, ?_, ?_⟩
  · intro n g hg; rw [h1]; exact List.mem_append_left _ hg
  · intro ha n hn
    rw [h.defined]
    unfold Tab.used at hn
    rw [h1, List.map_append] at hn
    rcases List.mem_append.mp hn with hn | hn
    · exact ha n hn
    · rw [List.map_map] at hn
      obtain ⟨m, hm, rfl⟩ := List.mem_map.mp hn
      exact (h2 m hm).1
  · intro hn
    unfold Tab.used at *
    rw [h1, List.map_append, List.map_map]
    have : List.map ((fun x : Str × Option (Gr B) => x.1) ∘ fun n => (n, none)) ns = ns := by
      simp [Function.comp_def]
    rw [this, List.nodup_append]
    refine ⟨hn, h3, ?_⟩
    rintro a ha b hb rfl
    exact (h2 a hb).2 ha

/-- What defining a name does. -/
theorem define_cases {n : Str} {g : Gr B} {t t' : Tab B} (h : define n g t = .ok t') :
    (n ∈ t.used ∧ g = .nil ∧ t' = t ∧ (∃ i : Nat, t.vars[i]? = some (n, none))) ∨
    (n ∈ t.used ∧ g ≠ .nil ∧ ∃ i : Nat, t.vars[i]? = some (n, none) ∧ t' = { t with vars := t.vars.set i (n, some g) }) ∨
    (n ∉ t.used ∧ n ∉ t.defined ∧ t' = { t with grammars := (n, g) :: t.grammars }) := by
  unfold define at h
  cases hv : varNo n t.vars with
  | none =>
    rw [hv] at h
    cases hl : t.grammars.lookup n with
    | some g' => rw [hl] at h; cases h
    | none =>
      rw [hl] at h
      cases h
      exact .inr (.inr ⟨varNo_none.mp hv, lookup_none.mp hl, rfl⟩)
  | some i =>
    rw [hv] at h
    obtain ⟨o, ho⟩ := varNo_some hv
    have hu : n ∈ t.used := by
      refine Classical.byContradiction fun hu => ?_
      rw [varNo_none.mpr hu] at hv
      cases hv
    dsimp only at h
    rw [ho] at h
    cases o with
    | some g' => cases h
    | none =>
      by_cases hg : g = .nil
      · subst hg
        cases h
        exact .inl ⟨hu, rfl, rfl, i, ho⟩
      · refine .inr (.inl ⟨hu, hg, i, ho, ?_⟩)
        cases g <;> first | exact absurd rfl hg | (cases h; rfl)

theorem set_keys {t : Tab B} {i : Nat} {n : Str} {o o' : Option (Gr B)} (h : t.vars[i]? = some (n, o)) :
    (t.vars.set i (n, o')).map (·.1) = t.vars.map (·.1) := by
  rw [List.map_set]
  apply List.ext_getElem?
  intro j
  rw [List.getElem?_set]
  split
  · rename_i hj
    subst hj
    rw [List.getElem?_map, h]
    have := (List.getElem?_eq_some_iff.mp h).1
    simp [this]
  · rfl

theorem define_mono {n : Str} {g : Gr B} {t t' : Tab B} (h : define n g t = .ok t') : Mono t t' := by
  rcases define_cases h with ⟨_, _, rfl, _⟩ | ⟨_, _, i, hi, rfl⟩ | ⟨h1, h2, rfl⟩
  · exact .refl _
  · have hk := set_keys (o' := some g) hi
    refine ⟨?_, fun _ h => h, ?_, ?_, ?_⟩
    · intro m hm; unfold Tab.used at *; rw [hk]; exact hm
    · intro m g' hm
      obtain ⟨j, hj⟩ := List.mem_iff_getElem?.mp hm
      refine List.mem_iff_getElem?.mpr ⟨j, ?_⟩
      rw [List.getElem?_set]
      split
      · rename_i hij; subst hij; rw [hi] at hj; cases hj
      · exact hj
    · intro ha; unfold Tab.used Tab.defined at *; dsimp only; rw [hk]; exact ha
    · intro ha; unfold Tab.used at *; dsimp only; rw [hk]; exact ha
  · refine ⟨fun _ h => h, fun m hm => List.mem_cons_of_mem _ hm, fun _ _ h => h, ?_, fun h => h⟩
    intro ha m hm
    simp only [Tab.defined, List.map_cons, List.mem_cons, not_or]
    exact ⟨fun e => h1 (e ▸ hm), ha m hm⟩

theorem rule_den {r : Rule} {t t' : Tab B} (h : r.den mk t = .ok t') :
    ∃ gs t1, r.body.den mk t = .ok (gs, t1) ∧ define r.name (oneOrOr gs) t1 = .ok t' ∧ Ext t t1 ∧ Knows r.body.refs t1 := by
  obtain ⟨⟨gs, t1⟩, h1, h2⟩ := bind_ok h
  obtain ⟨e, k⟩ := alts_ext r.body h1
  exact ⟨gs, t1, h1, h2, e, k⟩

theorem rule_mono {r : Rule} {t t' : Tab B} (h : r.den mk t = .ok t') : Mono t t' := by
  obtain ⟨_, _, _, h2, e, _⟩ := rule_den h
  exact e.mono.trans (define_mono h2)

theorem doc_mono : ∀ {rs : List Rule} {t t' : Tab B}, denDoc mk rs t = .ok t' → Mono t t' := by
  intro rs
  induction rs with
  | nil => intro t t' h; cases h; exact .refl _
  | cons r rs ih =>
    intro t t' h
    obtain ⟨t1, h1, h2⟩ := bind_ok h
    exact (rule_mono h1).trans (ih h2)

theorem Mono.known {t t' : Tab B} (h : Mono t t') {n : Str} (hn : Known n t) : Known n t' :=
  hn.elim (fun x => .inl (h.defined n x)) (fun x => .inr (h.used n x))

theorem denDoc_append {l l' : List Rule} : ∀ {t t' : Tab B}, denDoc mk (l ++ l') t = .ok t' ↔
    ∃ t1, denDoc mk l t = .ok t1 ∧ denDoc mk l' t1 = .ok t' := by
  induction l with
  | nil => intro t t'; exact ⟨fun h => ⟨t, rfl, h⟩, fun ⟨_, h1, h2⟩ => by cases h1; exact h2⟩
  | cons r l ih =>
    intro t t'
    constructor
    · intro h
      obtain ⟨t1, h1, h2⟩ := bind_ok h
      obtain ⟨t2, h3, h4⟩ := ih.mp h2
      exact ⟨t2, by simp only [denDoc, h1]; exact h3, h4⟩
    · rintro ⟨t1, h1, h2⟩
      obtain ⟨t2, h3, h4⟩ := bind_ok h1
      simp only [List.cons_append, denDoc, h3]
      exact ih.mpr ⟨t1, h4, h2⟩

/-- All references are known afterwards. -/
theorem doc_knows : ∀ {rs : List Rule} {t t' : Tab B}, denDoc mk rs t = .ok t' → ∀ r ∈ rs, Knows r.body.refs t' := by
  intro rs
  induction rs with
  | nil => intro t t' _ r hr; cases hr
  | cons r rs ih =>
    intro t t' h r' hr'
    obtain ⟨t1, h1, h2⟩ := bind_ok h
    rcases List.mem_cons.mp hr' with rfl | hr'
    · obtain ⟨_, t2, _, h4, _, k⟩ := rule_den h1
      intro n hn ht
      exact (doc_mono h2).known ((define_mono h4).known (k n hn ht))
    · exact ih h2 r' hr'

/-- Names that are defined, and variables that are assigned, are so by rules. -/
theorem doc_names : ∀ {rs : List Rule} {t t' : Tab B}, denDoc mk rs t = .ok t' →
    (∀ n ∈ t'.defined, n ∈ t.defined ∨ ∃ r ∈ rs, r.name = n) ∧
    (∀ n g, (n, some g) ∈ t'.vars → (n, some g) ∈ t.vars ∨ ∃ r ∈ rs, r.name = n) := by
  intro rs
  induction rs with
  | nil => intro t t' h; cases h; exact ⟨fun n h => .inl h, fun n g h => .inl h⟩
  | cons r rs ih =>
    intro t t' h
    obtain ⟨t1, h1, h2⟩ := bind_ok h
    obtain ⟨a, b⟩ := ih h2
    obtain ⟨gs, t2, _, h4, e, _⟩ := rule_den h1
    have key : (∀ n ∈ t1.defined, n ∈ t.defined ∨ r.name = n) ∧ ∀ n g, (n, some g) ∈ t1.vars → (n, some g) ∈ t.vars ∨ r.name = n := by
      obtain ⟨ns, hv, _⟩ := e.vars
      have hvar : ∀ n g, (n, some g) ∈ t2.vars → (n, some g) ∈ t.vars := by
        intro n g hg
        rw [hv] at hg
        rcases List.mem_append.mp hg with hg | hg
        · exact hg
        · simp at hg
      rcases define_cases h4 with ⟨_, _, rfl, _⟩ | ⟨_, _, i, hi, rfl⟩ | ⟨_, _, rfl⟩
      · exact ⟨fun n hn => .inl (e.defined ▸ hn), fun n g hg => .inl (hvar n g hg)⟩
      · refine ⟨fun n hn => .inl (e.defined ▸ hn), fun n g hg => ?_⟩
        rcases List.mem_or_eq_of_mem_set hg with hg | hg
        · exact .inl (hvar n g hg)
        · exact .inr (by cases hg; rfl)
      · refine ⟨fun n hn => ?_, fun n g hg => .inl (hvar n g hg)⟩
        simp only [Tab.defined, List.map_cons, List.mem_cons] at hn
        rcases hn with hn | hn
        · exact .inr hn.symm
        · exact .inl (by rw [← e.defined]; exact hn)
    constructor
    · intro n hn
      rcases a n hn with hn | ⟨r', hr, e⟩
      · rcases key.1 n hn with hn | hn
        · exact .inl hn
        · exact .inr ⟨r, List.mem_cons_self .., hn⟩
      · exact .inr ⟨r', List.mem_cons_of_mem _ hr, e⟩
    · intro n g hn
      rcases b n g hn with hn | ⟨r', hr, e⟩
      · rcases key.2 n g hn with hn | hn
        · exact .inl hn
        · exact .inr ⟨r, List.mem_cons_self .., hn⟩
      · exact .inr ⟨r', List.mem_cons_of_mem _ hr, e⟩

/-- A rule whose body is not nil cannot be defined again. -/
theorem rule_twice {l : List Rule} {r r' : Rule} {t t1 t2 t3 t4 : Tab B} {gs : List (Gr B)} (hb : r.body.den mk t = .ok (gs, t1))
    (hd : define r.name (oneOrOr gs) t1 = .ok t2) (hg : oneOrOr gs ≠ .nil) (hl : denDoc mk l t2 = .ok t3)
    (hn : t.used.Nodup) (hap : ∀ n ∈ t.used, n ∉ t.defined) (hr : r'.den mk t3 = .ok t4) : r'.name ≠ r.name := by
  intro heq
  have he := (alts_ext r.body hb).1
  obtain ⟨gs', t5, _, hd', e', _⟩ := rule_den hr
  have hm := (doc_mono hl).trans e'.mono
  rcases define_cases hd with ⟨_, h, _⟩ | ⟨_, _, i, hi, rfl⟩ | ⟨h1, h2, rfl⟩
  · exact hg h
  · have hmem : (r.name, some (oneOrOr gs)) ∈ t5.vars := by
      refine hm.assigned _ _ ?_
      refine List.mem_iff_getElem?.mpr ⟨i, ?_⟩
      rw [List.getElem?_set]
      simp [(List.getElem?_eq_some_iff.mp hi).1]
    have hnd : t5.used.Nodup := by
      refine hm.nodup ?_
      have := (he.mono).nodup hn
      unfold Tab.used at *
      dsimp only
      rw [set_keys hi]
      exact this
    have key : ∀ j : Nat, t5.vars[j]? ≠ some (r.name, none) := by
      intro j hj
      obtain ⟨k, hk⟩ := List.mem_iff_getElem?.mp hmem
      have hj' : t5.used[j]? = some r.name := by unfold Tab.used; rw [List.getElem?_map, hj]; rfl
      have hk' : t5.used[k]? = some r.name := by unfold Tab.used; rw [List.getElem?_map, hk]; rfl
      obtain ⟨l1, e1⟩ := List.getElem?_eq_some_iff.mp hj'
      obtain ⟨l2, e2⟩ := List.getElem?_eq_some_iff.mp hk'
      have := (List.getElem_inj hnd).mp (e1.trans e2.symm)
      subst this
      rw [hj] at hk
      cases hk
    rw [heq] at hd'
    rcases define_cases hd' with ⟨_, _, _, j, hj⟩ | ⟨_, _, j, hj, _⟩ | ⟨h1, _, _⟩
    · exact key j hj
    · exact key j hj
    · exact h1 (List.mem_map.mpr ⟨_, hmem, rfl⟩)
  · have hdf : r.name ∈ t5.defined := hm.defined _ (by simp [Tab.defined])
    have hnu : r.name ∉ t5.used := fun hu => ((he.mono.trans (define_mono hd)).trans hm).apart hap _ hu hdf
    rw [heq] at hd'
    rcases define_cases hd' with ⟨h, _⟩ | ⟨h, _⟩ | ⟨_, h, _⟩
    · exact hnu h
    · exact hnu h
    · exact h hdf

/-- Used names come from references. -/
theorem doc_used : ∀ {rs : List Rule} {t t' : Tab B}, denDoc mk rs t = .ok t' →
    ∀ n ∈ t'.used, n ∈ t.used ∨ ∃ r ∈ rs, n ∈ r.body.refs := by
  intro rs
  induction rs with
  | nil => intro t t' h n hn; cases h; exact .inl hn
  | cons r rs ih =>
    intro t t' h n hn
    obtain ⟨t1, h1, h2⟩ := bind_ok h
    rcases ih h2 n hn with hn | ⟨r', hr, hn⟩
    · obtain ⟨gs, t2, h3, h4, _, _⟩ := rule_den h1
      have hn2 : n ∈ t2.used := by
        rcases define_cases h4 with ⟨_, _, rfl, _⟩ | ⟨_, _, i, hi, rfl⟩ | ⟨_, _, rfl⟩
        · exact hn
        · unfold Tab.used at *; dsimp only at hn; rwa [set_keys hi] at hn
        · exact hn
      rcases (alts_names r.body h3).from_ n hn2 with h | h
      · exact .inl h
      · exact .inr ⟨r, List.mem_cons_self .., h⟩
    · exact .inr ⟨r', List.mem_cons_of_mem _ hr, hn⟩

theorem define_lookup {n m : Str} {g g' : Gr B} {t t' : Tab B} (h : define n g t = .ok t') (hl : t.grammars.lookup m = some g') :
    t'.grammars.lookup m = some g' := by
  rcases define_cases h with ⟨_, _, rfl, _⟩ | ⟨_, _, i, hi, rfl⟩ | ⟨_, h2, rfl⟩
  · exact hl
  · exact hl
  · dsimp only
    rw [List.lookup_cons]
    have : (m == n) = false := by
      simp only [beq_eq_false_iff_ne, ne_eq]
      rintro rfl
      exact h2 (lookup_some hl)
    rw [this]
    exact hl

/-- Definitions stay. -/
theorem doc_lookup : ∀ {rs : List Rule} {t t' : Tab B}, denDoc mk rs t = .ok t' → ∀ {n g}, t.grammars.lookup n = some g →
    t'.grammars.lookup n = some g := by
  intro rs
  induction rs with
  | nil => intro t t' h n g hl; cases h; exact hl
  | cons r rs ih =>
    intro t t' h n g hl
    obtain ⟨t1, h1, h2⟩ := bind_ok h
    obtain ⟨gs, t2, h3, h4, e, _⟩ := rule_den h1
    exact ih h2 (define_lookup h4 (by rw [e.gr]; exact hl))

/-! Rules with nothing in them -/

theorem oneOrAnd_nil {g : Gr B} {gs : List (Gr B)} (h : oneOrAnd (g :: gs) = .nil) : g = .nil ∧ gs = [] := by
  cases gs with
  | nil => exact ⟨h, rfl⟩
  | cons a l => cases h

theorem nameOf_ne {n : Str} {t : Tab B} {x : Gr B × Tab B} (h : nameOf n t = .ok x) : x.1 ≠ .nil := by
  unfold nameOf at h
  split at h
  · cases h
  split at h
  · unfold tokenOf at h
    split at h <;> cases h
    intro h; cases h
  · split at h
    · cases h; intro h; cases h
    · cases h; intro h; cases h
    · split at h <;> (cases h; intro h; cases h)

theorem tokenOf_ne {n : Str} {t : Tab B} {x : Gr B × Tab B} (h : tokenOf n t = .ok x) : x.1 ≠ .nil := by
  unfold tokenOf at h
  split at h <;> cases h
  intro h; cases h

theorem sufs_nil (hm : ∀ a n g, mk a n = .ok g → g ≠ .nil) : ∀ (s : Sufs) {a : Gr B} {t : Tab B} {x : Gr B × Tab B},
    s.den mk a t = .ok x → x.1 = .nil → s = .nil ∧ a = .nil
  | .nil, a, t, x, h, hx => by cases h; exact ⟨rfl, hx⟩
  | .list f r, a, t, x, h, hx => by
    obtain ⟨y, h1, h2⟩ := bind_ok h
    obtain ⟨_, h3⟩ := sufs_nil hm r h2 hx
    cases h3
  | .list0 f r, a, t, x, h, hx => by
    obtain ⟨y, h1, h2⟩ := bind_ok h
    obtain ⟨_, h3⟩ := sufs_nil hm r h2 hx
    cases h3
  | .mark n r, a, t, x, h, hx => by
    simp only [Sufs.den] at h
    split at h
    · rename_i g hg
      obtain ⟨_, h3⟩ := sufs_nil hm r h hx
      exact absurd h3 (hm _ _ _ hg)
    · cases h

mutual
theorem fac_nil (hm : ∀ a n g, mk a n = .ok g → g ≠ .nil) : ∀ (f : Fac) {t : Tab B} {x : Gr B × Tab B},
    f.den mk t = .ok x → x.1 = .nil → f.onlyCut = true
  | .ident n, t, x, h, hx => absurd hx (nameOf_ne h)
  | .char n, t, x, h, hx => absurd hx (tokenOf_ne h)
  | .string n, t, x, h, hx => absurd hx (tokenOf_ne h)
  | .int l, t, x, h, hx => by
    simp only [Fac.den] at h
    split at h <;> cases h
    cases hx
  | .rep0 f, t, x, h, hx => by obtain ⟨y, h1, h2⟩ := bind_ok h; cases h2; cases hx
  | .rep1 f, t, x, h, hx => by obtain ⟨y, h1, h2⟩ := bind_ok h; cases h2; cases hx
  | .rep01 f, t, x, h, hx => by obtain ⟨y, h1, h2⟩ := bind_ok h; cases h2; cases hx
  | .not f, t, x, h, hx => by obtain ⟨y, h1, h2⟩ := bind_ok h; cases h2; cases hx
  | .peek f, t, x, h, hx => by obtain ⟨y, h1, h2⟩ := bind_ok h; cases h2; cases hx
  | .paren g, t, x, h, hx => by
    obtain ⟨y, h1, h2⟩ := bind_ok h
    cases h2
    exact alts_nil hm g h1 hx
theorem alts_nil (hm : ∀ a n g, mk a n = .ok g → g ≠ .nil) : ∀ (a : Alts) {t : Tab B} {x : List (Gr B) × Tab B},
    a.den mk t = .ok x → oneOrOr x.1 = .nil → a.onlyCut = true
  | .one (.cut) is, t, x, h, hx => by
    obtain ⟨y, h1, h2⟩ := bind_ok h
    obtain ⟨z, h3, h4⟩ := bind_ok h2
    cases h4
    obtain ⟨_, hz⟩ := oneOrAnd_nil hx
    cases is with
    | nil => rfl
    | cons i is =>
      obtain ⟨a, h5, h6⟩ := bind_ok h3
      obtain ⟨b, h7, h8⟩ := bind_ok h6
      cases h8
      cases hz
  | .one (.term f s) is, t, x, h, hx => by
    obtain ⟨y, h1, h2⟩ := bind_ok h
    obtain ⟨z, h3, h4⟩ := bind_ok h2
    cases h4
    obtain ⟨hy, hz⟩ := oneOrAnd_nil hx
    obtain ⟨w, h5, h6⟩ := bind_ok h1
    obtain ⟨hs, hw⟩ := sufs_nil hm s h6 hy
    subst hs
    cases is with
    | nil => exact fac_nil hm f h5 hw
    | cons i is =>
      obtain ⟨a, h5, h6⟩ := bind_ok h3
      obtain ⟨b, h7, h8⟩ := bind_ok h6
      cases h8
      cases hz
  | .alt i is r, t, x, h, hx => by
    obtain ⟨y, h1, h2⟩ := bind_ok h
    obtain ⟨z, h3, h4⟩ := bind_ok h2
    obtain ⟨w, h5, h6⟩ := bind_ok h4
    cases h6
    have : w.1 ≠ [] := by
      cases r with
      | one i is =>
        obtain ⟨y, h1, h2⟩ := bind_ok h5
        obtain ⟨z, h3, h4⟩ := bind_ok h2
        cases h4
        simp
      | alt i is r =>
        obtain ⟨y, h1, h2⟩ := bind_ok h5
        obtain ⟨z, h3, h4⟩ := bind_ok h2
        obtain ⟨w, h5, h6⟩ := bind_ok h4
        cases h6
        simp
    cases hw : w.1 with
    | nil => exact absurd hw this
    | cons a l => rw [hw] at hx; cases hx
end

end Tpl
