import Verif.Spec.Added
import Verif.Proof.CompilerNames
import Verif.Proof.ShareCl

/-! Grammars whose variables are among the first ones do not see the others. -/
namespace Tpl
open Spec
variable {A B σ V P : Type}

/-- All variables of the grammar have numbers below `n`. -/
inductive Below (n : Nat) : Gr A → Prop
  | nil : Below n .nil
  | tok (k) : Below n (.tok k)
  | tru : Below n .tru
  | eof : Below n .eof
  | peek {g} : Below n g → Below n (.peek g)
  | not {g} : Below n g → Below n (.not g)
  | and {gs} : (∀ g ∈ gs, Below n g) → Below n (.and gs)
  | or {gs} : (∀ g ∈ gs, Below n g) → Below n (.or gs)
  | rep0 {id g} : Below n g → Below n (.rep0 id g)
  | rep1 {id g} : Below n g → Below n (.rep1 id g)
  | rep01 {id g} : Below n g → Below n (.rep01 id g)
  | list {id a b l} : Below n a → Below n b → Below n (.list id a b l)
  | var {v} : v < n → Below n (.var v)
  | named {m g} : Below n g → Below n (.named m g)
  | action {a g} : Below n g → Below n (.action a g)
  | trans {a g} : Below n g → Below n (.trans a g)

theorem Below.more {n n' : Nat} (hn : n ≤ n') {g : Gr A} (h : Below n g) : Below n' g := by
  induction h with
  | nil => exact .nil
  | tok k => exact .tok k
  | tru => exact .tru
  | eof => exact .eof
  | peek _ ih => exact .peek ih
  | not _ ih => exact .not ih
  | and _ ih => exact .and ih
  | or _ ih => exact .or ih
  | rep0 _ ih => exact .rep0 ih
  | rep1 _ ih => exact .rep1 ih
  | rep01 _ ih => exact .rep01 ih
  | list _ _ ih ih' => exact .list ih ih'
  | var h => exact .var (by omega)
  | named _ ih => exact .named ih
  | action _ ih => exact .action ih
  | trans _ ih => exact .trans ih

/-! ### Matching -/

def Agree (n : Nat) (m m' : Mat A σ P) : Prop := ∀ g src s, Below n g → m g src s = m' g src s

section
variable {n : Nat} {m m' : Mat A σ P} (hm : Agree n m m')
include hm

theorem andLoop_below {all : Gr A} {src : List Token} : ∀ (gs : List (Gr A)), (∀ g ∈ gs, Below n g) → ∀ ff i s,
    andLoop m all src gs ff i s = andLoop m' all src gs ff i s
  | [], _, _, _, _ => rfl
  | g :: gs, hw, ff, i, s => by
    have ih := andLoop_below (all := all) (src := src) gs (fun g hg => hw g (List.mem_cons_of_mem _ hg))
    have hg := hm g (src.drop i) s (hw g List.mem_cons_self)
    cases g <;> (simp only [andLoop, ih, hg])

theorem orLoop_below {all : Gr A} {src : List Token} : ∀ (gs : List (Gr A)), (∀ g ∈ gs, Below n g) → ∀ i e mu s,
    orLoop m all src gs i e mu s = orLoop m' all src gs i e mu s
  | [], _, _, _, _, _ => rfl
  | g :: gs, hw, i, e, mu, s => by
    have ih := orLoop_below (all := all) (src := src) gs (fun g hg => hw g (List.mem_cons_of_mem _ hg))
    have hg := hm g src s (hw g List.mem_cons_self)
    simp only [orLoop, ih, hg]

theorem repLoop_below {g : Gr A} (hw : Below n g) : ∀ f src i k s, repLoop m g f src i k s = repLoop m' g f src i k s
  | 0, _, _, _, _ => rfl
  | f + 1, src, i, k, s => by
    have ih := repLoop_below hw f
    simp only [repLoop, ih, hm g src s hw]

end

theorem matchG_below {n : Nat} {env env' : Env A} {sem : Sem A σ V P} {W : Gr A → Prop} (hs : AsksFor W sem) (hW : ∀ g, W g → Below n g)
    (he : ∀ v, v < n → env' v = env v) (hb : ∀ v g, v < n → env v = some g → Below n g) : ∀ f, Agree n (matchG env sem f) (matchG env' sem f) := by
  intro f
  induction f with
  | zero => intro g src s _; rfl
  | succ f ih =>
    intro g src s hg
    simp only [matchG]
    cases hg with
    | nil => rfl
    | tok k => rfl
    | tru => rfl
    | eof => rfl
    | peek h => simp only [matchStep, ih _ _ _ h]
    | not h => simp only [matchStep, ih _ _ _ h]
    | and h => exact andLoop_below ih _ h _ _ _
    | or h => exact orLoop_below ih _ h _ _ _ _
    | rep0 h => simp only [matchStep, repLoop_below ih h]
    | rep1 h => simp only [matchStep, ih _ _ _ h, repLoop_below ih h]
    | rep01 h => simp only [matchStep, ih _ _ _ h]
    | @list _ a b _ h h' =>
      have hl : Below n (.and [b, a]) := .and (by
        intro g hg
        simp only [List.mem_cons, List.not_mem_nil, or_false] at hg
        rcases hg with rfl | rfl <;> assumption)
      simp only [matchStep, ih _ _ _ h, repLoop_below ih hl]
    | @var v h =>
      simp only [matchStep, he v h]
      cases hv : env v with
      | none => rfl
      | some g => exact ih _ _ _ (hb v g h hv)
    | named h => exact ih _ _ _ h
    | action h => simp only [matchStep, ih _ _ _ h, hs f _ _ fun g src s hg => ih g src s (hW g hg)]
    | trans h => simp only [matchStep, ih _ _ _ h]

/-! ### Compiled grammars -/

/-- All grammars of the tables use their variables only. -/
structure BelowTab (t : Tab B) : Prop where
  grammars : ∀ n g, t.grammars.lookup n = some g → Below t.vars.length g
  vars : ∀ (v : Nat) n g, t.vars[v]? = some (n, some g) → Below t.vars.length g

theorem Ext.len {t t' : Tab B} (h : Ext t t') : t.vars.length ≤ t'.vars.length := by
  obtain ⟨ns, h1, _⟩ := h.vars
  rw [h1]; simp

theorem Ext.below {t t' : Tab B} (h : Ext t t') (ht : BelowTab t) : BelowTab t' := by
  have hl := h.len
  obtain ⟨ns, h1, _⟩ := h.vars
  refine ⟨fun n g hg => (ht.grammars n g (by rw [← h.gr]; exact hg)).more hl, fun v n g hv => ?_⟩
  rw [h1, List.getElem?_append] at hv
  split at hv
  · exact (ht.vars v n g hv).more hl
  · obtain ⟨i, hi⟩ := List.mem_iff_getElem?.mpr ⟨_, hv⟩ |> List.mem_map.mp
    cases hi.2

theorem tokenOf_below {lit : Str} {t : Tab B} {x : Gr B × Tab B} (h : tokenOf lit t = .ok x) (n : Nat) : Below n x.1 := by
  unfold tokenOf at h
  split at h
  · cases h
  · cases h; exact .tok _
  · cases h

theorem nameOf_below {n : Str} {t : Tab B} {x : Gr B × Tab B} (h : nameOf n t = .ok x) (ht : BelowTab t) : Below x.2.vars.length x.1 := by
  unfold nameOf at h
  split at h
  · cases h
  · split at h
    · exact tokenOf_below h _
    · split at h
      · rename_i g hg
        cases h
        exact .named (ht.grammars _ _ hg)
      · rename_i v hv
        cases h
        obtain ⟨o, ho⟩ := varNo_some hv
        exact .var (List.getElem?_eq_some_iff.mp ho).1
      · split at h
        · cases h; exact .tru
        · cases h
          exact .var (by simp)

variable {mk : Marker B} (hm : Wraps mk)
include hm

mutual
theorem fac_below : ∀ (f : Fac) {t : Tab B} {x : Gr B × Tab B}, f.den mk t = .ok x → BelowTab t → Below x.2.vars.length x.1
  | .ident n, t, x, h, ht => nameOf_below (by simpa [Fac.den] using h) ht
  | .char l, t, x, h, ht => tokenOf_below (by simpa [Fac.den] using h) _
  | .string l, t, x, h, ht => tokenOf_below (by simpa [Fac.den] using h) _
  | .int l, t, x, h, ht => by
    simp only [Fac.den] at h
    split at h
    · cases h; exact .tru
    · cases h
  | .rep0 f, t, x, h, ht => by
    obtain ⟨y, h1, h2⟩ := bind_ok h
    cases h2
    exact .rep0 (fac_below f h1 ht)
  | .rep1 f, t, x, h, ht => by
    obtain ⟨y, h1, h2⟩ := bind_ok h
    cases h2
    exact .rep1 (fac_below f h1 ht)
  | .rep01 f, t, x, h, ht => by
    obtain ⟨y, h1, h2⟩ := bind_ok h
    cases h2
    exact .rep01 (fac_below f h1 ht)
  | .not f, t, x, h, ht => by
    obtain ⟨y, h1, h2⟩ := bind_ok h
    cases h2
    exact .not (fac_below f h1 ht)
  | .peek f, t, x, h, ht => by
    obtain ⟨y, h1, h2⟩ := bind_ok h
    cases h2
    exact .peek (fac_below f h1 ht)
  | .paren g, t, x, h, ht => by
    obtain ⟨y, h1, h2⟩ := bind_ok h
    cases h2
    exact alts_below g h1 ht
theorem sufs_below : ∀ (s : Sufs) {a : Gr B} {t : Tab B} {x : Gr B × Tab B}, s.den mk a t = .ok x → BelowTab t → Below t.vars.length a → Below x.2.vars.length x.1
  | .nil, a, t, x, h, ht, ha => by
    cases h; exact ha
  | .list f r, a, t, x, h, ht, ha => by
    obtain ⟨y, h1, h2⟩ := bind_ok h
    have e := (fac_names f h1).ext
    have hb := e.below ht
    exact sufs_below r h2 ⟨hb.grammars, hb.vars⟩ (.list (ha.more e.len) (fac_below f h1 ht))
  | .list0 f r, a, t, x, h, ht, ha => by
    obtain ⟨y, h1, h2⟩ := bind_ok h
    have e := (fac_names f h1).ext
    have hb := e.below ht
    exact sufs_below r h2 ⟨hb.grammars, hb.vars⟩ (.list (ha.more e.len) (fac_below f h1 ht))
  | .mark n r, a, t, x, h, ht, ha => by
    simp only [Sufs.den] at h
    split at h
    · rename_i g hg
      refine sufs_below r h ht ?_
      rcases hm _ _ _ hg with rfl | ⟨l, rfl | rfl⟩
      · exact ha
      · exact .action ha
      · exact .trans ha
    · cases h
theorem item_below : ∀ (i : Item) {t : Tab B} {x : Gr B × Tab B}, i.den mk t = .ok x → BelowTab t → Below x.2.vars.length x.1
  | .term f s, t, x, h, ht => by
    obtain ⟨y, h1, h2⟩ := bind_ok h
    exact sufs_below s h2 ((fac_names f h1).ext.below ht) (fac_below f h1 ht)
  | .cut, t, x, h, ht => by
    cases h; exact .nil
theorem seq_below : ∀ (s : ItemSeq) {t : Tab B} {x : List (Gr B) × Tab B}, s.den mk t = .ok x → BelowTab t → ∀ g ∈ x.1, Below x.2.vars.length g
  | .nil, t, x, h, ht => by
    cases h; intro g hg; cases hg
  | .cons i r, t, x, h, ht => by
    obtain ⟨y, h1, h2⟩ := bind_ok h
    obtain ⟨z, h3, h4⟩ := bind_ok h2
    cases h4
    have e := (seq_names r h3).ext
    intro g hg
    rcases List.mem_cons.mp hg with rfl | hg
    · exact (item_below i h1 ht).more e.len
    · exact seq_below r h3 ((item_names i h1).ext.below ht) g hg
theorem alts_below : ∀ (a : Alts) {t : Tab B} {x : List (Gr B) × Tab B}, a.den mk t = .ok x → BelowTab t → Below x.2.vars.length (oneOrOr x.1)
  | a, t, x, h, ht => by
    have key := altsAll_below a h ht
    match x, key with
    | ([], _), _ => exact .or (by simp)
    | ([g], _), key => exact key g (by simp)
    | (g :: g' :: gs, _), key => exact .or key
theorem altsAll_below : ∀ (a : Alts) {t : Tab B} {x : List (Gr B) × Tab B}, a.den mk t = .ok x → BelowTab t → ∀ g ∈ x.1, Below x.2.vars.length g
  | .one i is, t, x, h, ht => by
    obtain ⟨y, h1, h2⟩ := bind_ok h
    obtain ⟨z, h3, h4⟩ := bind_ok h2
    cases h4
    have e := (seq_names is h3).ext
    intro g hg
    obtain rfl : g = oneOrAnd (y.1 :: z.1) := by simpa using hg
    have k1 := (item_below i h1 ht).more e.len
    have k2 := seq_below is h3 ((item_names i h1).ext.below ht)
    exact oneOrAnd_below k1 k2
  | .alt i is r, t, x, h, ht => by
    obtain ⟨y, h1, h2⟩ := bind_ok h
    obtain ⟨z, h3, h4⟩ := bind_ok h2
    obtain ⟨w, h5, h6⟩ := bind_ok h4
    cases h6
    have e := (seq_names is h3).ext
    have e' := (alts_names r h5).ext
    have hz := e.below ((item_names i h1).ext.below ht)
    intro g hg
    rcases List.mem_cons.mp hg with rfl | hg
    · have k1 := ((item_below i h1 ht).more e.len).more e'.len
      exact oneOrAnd_below k1 fun g hg => (seq_below is h3 ((item_names i h1).ext.below ht) g hg).more e'.len
    · exact altsAll_below r h5 hz g hg
theorem oneOrAnd_below {n : Nat} {g : Gr B} {gs : List (Gr B)} (h1 : Below n g) (h2 : ∀ g ∈ gs, Below n g) : Below n (oneOrAnd (g :: gs)) := by
  cases gs with
  | nil => exact h1
  | cons g' gs =>
    refine .and fun x hx => ?_
    rcases List.mem_cons.mp hx with rfl | hx
    · exact h1
    · exact h2 x hx
end

theorem rule_below {r : Rule} {t t' : Tab B} (h : r.den mk t = .ok t') (ht : BelowTab t) : BelowTab t' := by
  obtain ⟨gs, t1, h1, h2, e, _⟩ := rule_den h
  have hb := e.below ht
  have hg : Below t1.vars.length (oneOrOr gs) := alts_below hm r.body h1 ht
  rcases define_cases h2 with ⟨_, _, rfl, _⟩ | ⟨_, _, i, hi, rfl⟩ | ⟨_, _, rfl⟩
  · exact hb
  · refine ⟨fun n g hl => ?_, fun v n g hv => ?_⟩
    · dsimp only
      rw [List.length_set]
      exact hb.grammars n g hl
    · dsimp only at hv ⊢
      rw [List.length_set]
      rw [List.getElem?_set] at hv
      split at hv
      · split at hv
        · cases hv; exact hg
        · cases hv
      · exact hb.vars v n g hv
  · refine ⟨fun n g hl => ?_, hb.vars⟩
    dsimp only at hl ⊢
    rw [List.lookup_cons] at hl
    split at hl
    · cases hl; exact hg
    · exact hb.grammars n g hl

theorem doc_below : ∀ {rs : List Rule} {t t' : Tab B}, denDoc mk rs t = .ok t' → BelowTab t → BelowTab t' := by
  intro rs
  induction rs with
  | nil => intro t t' h ht; cases h; exact ht
  | cons r rs ih =>
    intro t t' h ht
    obtain ⟨t1, h1, h2⟩ := bind_ok h
    exact ih h2 (rule_below hm h1 ht)

omit hm in
/-- Variables that are assigned stay. -/
theorem doc_prefix {l : List (Str × Option (Gr B))} (ha : ∀ v ∈ l, v.2 ≠ none) : ∀ {rs : List Rule} {t t' : Tab B}, denDoc mk rs t = .ok t' → l <+: t.vars → l <+: t'.vars := by
  intro rs
  induction rs with
  | nil => intro t t' h hp; cases h; exact hp
  | cons r rs ih =>
    intro t t' h hp
    obtain ⟨t1, h1, h2⟩ := bind_ok h
    refine ih h2 ?_
    obtain ⟨gs, t2, _, h4, e, _⟩ := rule_den h1
    obtain ⟨ns, h5, _⟩ := e.vars
    have hp2 : l <+: t2.vars := h5 ▸ hp.trans (List.prefix_append _ _)
    rcases define_cases h4 with ⟨_, _, rfl, _⟩ | ⟨_, _, i, hi, rfl⟩ | ⟨_, _, rfl⟩
    · exact hp2
    · obtain ⟨x, hx⟩ := hp2
      dsimp only
      rw [← hx] at hi ⊢
      rw [List.getElem?_append] at hi
      split at hi
      · exact absurd rfl (ha _ (List.mem_iff_getElem?.mpr ⟨i, hi⟩))
      · rename_i hlt
        rw [List.set_append_right _ _ (by omega)]
        exact List.prefix_append _ _
    · exact hp2

end Tpl
