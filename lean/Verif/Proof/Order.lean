import Verif.Proof.Twin
import Verif.Proof.CompilerNames

/-! The rules of a grammar text in another order. -/
namespace Tpl
open Spec
variable {A B σ V P : Type}

/-- What the tables `u` know the tables `t` know too. -/
structure Onward (u t : Tab B) : Prop where
  grows : Grows u.scanner t.scanner
  look : ∀ n g, u.grammars.lookup n = some g → t.grammars.lookup n = some g
  vars : ∀ (v : Nat) n o, u.vars[v]? = some (n, o) → ∃ o', t.vars[v]? = some (n, o')
  /-- `true` does not become a variable -/
  tru : bytes "true" ∉ u.used → bytes "true" ∉ t.used

theorem Onward.refl (t : Tab B) : Onward t t := ⟨.refl _, fun _ _ h => h, fun _ _ o h => ⟨o, h⟩, fun h => h⟩
theorem Onward.trans {a b c : Tab B} (h : Onward a b) (h' : Onward b c) : Onward a c := by
  refine ⟨h.grows.trans h'.grows, fun n g e => h'.look n g (h.look n g e), fun v n o e => ?_, fun h1 => h'.tru (h.tru h1)⟩
  obtain ⟨o', e'⟩ := h.vars v n o e
  exact h'.vars v n o' e'

theorem Ext.onward {t t' : Tab B} (h : Ext t t') (hg : Grows t.scanner t'.scanner) (ht : bytes "true" ∉ t.used → bytes "true" ∉ t'.used) : Onward t t' := by
  refine ⟨hg, fun n g e => by rw [h.gr]; exact e, fun v n o e => ⟨o, ?_⟩, ht⟩
  obtain ⟨ns, h1, _⟩ := h.vars
  rw [h1, List.getElem?_append_left (List.getElem?_eq_some_iff.mp e).1]
  exact e

theorem tokenOf_onward {l : Str} {t : Tab B} {x : Gr B × Tab B} (h : tokenOf l t = .ok x) : Onward t x.2 :=
  (tokenOf_ext h).onward (token_new h).grows fun ht hx => by
    rcases (tokenOf_names h).from_ _ hx with h | h
    · exact ht h
    · cases h

theorem nameOf_onward {n : Str} {t : Tab B} {x : Gr B × Tab B} (h : nameOf n t = .ok x) : Onward t x.2 := by
  have he := (nameOf_names h).ext
  unfold nameOf at h
  split at h
  · cases h
  · split at h
    · exact tokenOf_onward h
    · split at h
      · cases h; exact .refl _
      · cases h; exact .refl _
      · split at h
        · cases h; exact .refl _
        · rename_i hn
          cases h
          refine he.onward (.refl _) fun ht hx => ?_
          simp only [Tab.used, List.map_append, List.map_cons, List.map_nil, List.mem_append, List.mem_singleton] at hx
          exact hx.elim ht fun e => hn e.symm

section
variable {mk : Marker B}
mutual
theorem fac_onward : ∀ (f : Fac) {t : Tab B} {x : Gr B × Tab B}, f.den mk t = .ok x → Onward t x.2
  | .ident n, t, x, h => nameOf_onward (by simpa [Fac.den] using h)
  | .char l, t, x, h => tokenOf_onward (by simpa [Fac.den] using h)
  | .string l, t, x, h => tokenOf_onward (by simpa [Fac.den] using h)
  | .int l, t, x, h => by
    simp only [Fac.den] at h
    split at h
    · cases h; exact .refl _
    · cases h
  | .rep0 f, t, x, h => by
    obtain ⟨y, h1, h2⟩ := bind_ok h
    cases h2
    exact ⟨(fac_onward f h1).grows, (fac_onward f h1).look, (fac_onward f h1).vars, (fac_onward f h1).tru⟩
  | .rep1 f, t, x, h => by
    obtain ⟨y, h1, h2⟩ := bind_ok h
    cases h2
    exact ⟨(fac_onward f h1).grows, (fac_onward f h1).look, (fac_onward f h1).vars, (fac_onward f h1).tru⟩
  | .rep01 f, t, x, h => by
    obtain ⟨y, h1, h2⟩ := bind_ok h
    cases h2
    exact ⟨(fac_onward f h1).grows, (fac_onward f h1).look, (fac_onward f h1).vars, (fac_onward f h1).tru⟩
  | .not f, t, x, h => by
    obtain ⟨y, h1, h2⟩ := bind_ok h
    have l1 := fac_onward f h1
    cases h2
    exact l1
  | .peek f, t, x, h => by
    obtain ⟨y, h1, h2⟩ := bind_ok h
    have l1 := fac_onward f h1
    cases h2
    exact l1
  | .paren g, t, x, h => by
    obtain ⟨y, h1, h2⟩ := bind_ok h
    have l1 := alts_onward g h1
    cases h2
    exact l1
theorem sufs_onward : ∀ (s : Sufs) {a : Gr B} {t : Tab B} {x : Gr B × Tab B}, s.den mk a t = .ok x → Onward t x.2
  | .nil, a, t, x, h => by cases h; exact .refl _
  | .list f r, a, t, x, h => by
    obtain ⟨y, h1, h2⟩ := bind_ok h
    have l1 := fac_onward f h1
    have l2 := sufs_onward r h2
    exact l1.trans ⟨l2.grows, l2.look, l2.vars, l2.tru⟩
  | .list0 f r, a, t, x, h => by
    obtain ⟨y, h1, h2⟩ := bind_ok h
    have l1 := fac_onward f h1
    have l2 := sufs_onward r h2
    exact l1.trans ⟨l2.grows, l2.look, l2.vars, l2.tru⟩
  | .mark n r, a, t, x, h => by
    simp only [Sufs.den] at h
    split at h
    · exact sufs_onward r h
    · cases h
theorem item_onward : ∀ (i : Item) {t : Tab B} {x : Gr B × Tab B}, i.den mk t = .ok x → Onward t x.2
  | .term f s, t, x, h => by
    obtain ⟨y, h1, h2⟩ := bind_ok h
    exact (fac_onward f h1).trans (sufs_onward s h2)
  | .cut, t, x, h => by cases h; exact .refl _
theorem seq_onward : ∀ (s : ItemSeq) {t : Tab B} {x : List (Gr B) × Tab B}, s.den mk t = .ok x → Onward t x.2
  | .nil, t, x, h => by cases h; exact .refl _
  | .cons i r, t, x, h => by
    obtain ⟨y, h1, h2⟩ := bind_ok h
    obtain ⟨z, h3, h4⟩ := bind_ok h2
    have l1 := (item_onward i h1).trans (seq_onward r h3)
    cases h4
    exact l1
theorem alts_onward : ∀ (a : Alts) {t : Tab B} {x : List (Gr B) × Tab B}, a.den mk t = .ok x → Onward t x.2
  | .one i is, t, x, h => by
    obtain ⟨y, h1, h2⟩ := bind_ok h
    obtain ⟨z, h3, h4⟩ := bind_ok h2
    have l1 := (item_onward i h1).trans (seq_onward is h3)
    cases h4
    exact l1
  | .alt i is r, t, x, h => by
    obtain ⟨y, h1, h2⟩ := bind_ok h
    obtain ⟨z, h3, h4⟩ := bind_ok h2
    obtain ⟨w, h5, h6⟩ := bind_ok h4
    have l1 := ((item_onward i h1).trans (seq_onward is h3)).trans (alts_onward r h5)
    cases h6
    exact l1
end
end

/-! ### Two readings of one text -/

/-- The kind of a literal. -/
theorem tokenOf_kind {l : Str} {t : Tab B} {x : Gr B × Tab B} (h : tokenOf l t = .ok x) : ∃ a, x.1 = .tok a ∧
    ((Lit2Token l ≠ ILLEGAL ∧ a = Lit2Token l) ∨ (¬ Lit2Token l ≠ ILLEGAL ∧ x.2.scanner.keywords.get l.tail.dropLast = some a)) := by
  by_cases h0 : Lit2Token l ≠ ILLEGAL
  · have e : t.scanner.ltot l = .ok (Lit2Token l, t.scanner) := by
      unfold KwScanner.ltot
      dsimp only
      rw [if_pos h0]
    rw [tokenOf_some e h0] at h
    cases h
    exact ⟨_, rfl, .inl ⟨h0, rfl⟩⟩
  · unfold tokenOf KwScanner.ltot at h
    dsimp only at h
    rw [if_neg h0] at h
    cases l with
    | nil => cases h
    | cons c rest =>
      dsimp only at h
      by_cases hc : c = 34
      · subst hc
        rw [if_pos rfl] at h
        by_cases hr : rest = []
        · rw [if_pos hr] at h; cases h
        · rw [if_neg hr] at h
          cases hg : t.scanner.keywords.get rest.dropLast with
          | some a =>
            rw [hg] at h
            cases a with
            | zero => cases h
            | succ a => cases h; exact ⟨_, rfl, .inr ⟨h0, hg⟩⟩
          | none =>
            rw [hg] at h
            cases hm : t.scanner.keywords with
            | none => rw [hm] at h; cases h
            | some m =>
              rw [hm] at h
              dsimp only at h
              split at h
              · cases h
              · rename_i heq
                cases heq
                cases h
                refine ⟨_, rfl, .inr ⟨h0, ?_⟩⟩
                exact (addKw_get hm rest.dropLast (34 :: rest) rest.dropLast).trans (if_pos rfl)
              · rename_i heq; cases heq
      · rw [if_neg hc] at h
        have h0 : Lit2Token (c :: rest) = 0 := Classical.byContradiction h0
        rw [h0] at h
        cases h

variable {T T' : Tab B}

theorem tokenOf_twin {l : Str} {t t' : Tab B} {x x' : Gr B × Tab B} (h : tokenOf l t = .ok x) (h' : tokenOf l t' = .ok x')
    (hl : Onward x.2 T) (hl' : Onward x'.2 T') : Twin T T' x.1 x'.1 := by
  obtain ⟨a, e, ha⟩ := tokenOf_kind h
  obtain ⟨b, e', hb⟩ := tokenOf_kind h'
  rw [e, e']
  rcases ha with ⟨h0, ha⟩ | ⟨h0, ha⟩ <;> rcases hb with ⟨h1, hb⟩ | ⟨h1, hb⟩
  · exact .tok (.inl ⟨ha.trans hb.symm, ha ▸ (lit_known h0).1⟩)
  · exact absurd h0 h1
  · exact absurd h1 h0
  · exact .tok (.inr ⟨_, hl.grows _ _ ha, hl'.grows _ _ hb⟩)

/-- There is no rule named `true`. -/
structure NoTrue (t : Tab B) : Prop where
  look : t.grammars.lookup (bytes "true") = none
  vars : ∀ (v : Nat) o, t.vars[v]? ≠ some (bytes "true", o)

theorem nameOf_refs {n : Str} {t : Tab B} {x : Gr B × Tab B} (h : nameOf n t = .ok x) (hu : isUpper n = false) (hl : Onward x.2 T) (hn : NoTrue T) :
    if n = bytes "true" then x.1 = .tru else Refs T n x.1 := by
  unfold nameOf at h
  split at h
  · cases h
  · rw [hu] at h
    simp only [Bool.false_eq_true, if_false] at h
    split at h
    · rename_i g _ hg
      cases h
      have e := hl.look _ _ hg
      split
      · rename_i hne; rw [hne, hn.look] at e; cases e
      · exact .inl ⟨_, rfl, e⟩
    · rename_i v _ hv
      cases h
      obtain ⟨o, ho⟩ := varNo_some hv
      obtain ⟨o', e⟩ := hl.vars _ _ _ ho
      split
      · rename_i hne; rw [hne] at e; exact absurd e (hn.vars _ _)
      · exact .inr ⟨v, o', rfl, e⟩
    · split at h
      · rename_i he
        cases h
        rw [if_pos he]
      · rename_i he
        cases h
        rw [if_neg he]
        obtain ⟨o', e⟩ := hl.vars t.vars.length n none (by simp)
        exact .inr ⟨_, o', rfl, e⟩

theorem nameOf_twin {n : Str} {t t' : Tab B} {x x' : Gr B × Tab B} (h : nameOf n t = .ok x) (h' : nameOf n t' = .ok x')
    (hl : Onward x.2 T) (hl' : Onward x'.2 T') (hn : NoTrue T) (hn' : NoTrue T') : Twin T T' x.1 x'.1 := by
  cases hu : isUpper n with
  | true =>
    unfold nameOf at h h'
    split at h
    · cases h
    · rename_i hne
      rw [if_neg hne, if_pos hu] at h'
      exact tokenOf_twin h h' hl hl'
  | false =>
    have e := nameOf_refs h hu hl hn
    have e' := nameOf_refs h' hu hl' hn'
    split at e
    · rename_i he
      rw [if_pos he] at e'
      rw [e, e']
      exact .tru
    · rename_i he
      rw [if_neg he] at e'
      exact twin_ref e e'

theorem oneOrAnd_twin {gs gs' : List (Gr B)} (h : Twins T T' gs gs') : Twin T T' (oneOrAnd gs) (oneOrAnd gs') := by
  cases h with
  | nil => exact .and .nil
  | cons h1 h2 =>
    cases h2 with
    | nil => exact h1
    | cons h3 h4 => exact .and (.cons h1 (.cons h3 h4))

theorem oneOrOr_twin {gs gs' : List (Gr B)} (h : Twins T T' gs gs') : Twin T T' (oneOrOr gs) (oneOrOr gs') := by
  cases h with
  | nil => exact .or .nil
  | cons h1 h2 =>
    cases h2 with
    | nil => exact h1
    | cons h3 h4 => exact .or (.cons h1 (.cons h3 h4))

theorem cells_onward {t : Tab B} {f : Nat → Gr B} (h : Onward (newObj f t).2 T) : Onward t T := ⟨h.grows, h.look, h.vars, h.tru⟩

section
variable {mk : Marker B} (hmk : Uniform mk) (hn : NoTrue T) (hn' : NoTrue T')
include hmk hn hn'

mutual
theorem fac_twin : ∀ (f : Fac) {t t' : Tab B} {x x' : Gr B × Tab B}, f.den mk t = .ok x → f.den mk t' = .ok x' → Onward x.2 T → Onward x'.2 T' →
    Twin T T' x.1 x'.1
  | .ident n, t, t', x, x', h, h', hl, hl' => nameOf_twin (by simpa [Fac.den] using h) (by simpa [Fac.den] using h') hl hl' hn hn'
  | .char l, t, t', x, x', h, h', hl, hl' => tokenOf_twin (by simpa [Fac.den] using h) (by simpa [Fac.den] using h') hl hl'
  | .string l, t, t', x, x', h, h', hl, hl' => tokenOf_twin (by simpa [Fac.den] using h) (by simpa [Fac.den] using h') hl hl'
  | .int l, t, t', x, x', h, h', hl, hl' => by
    simp only [Fac.den] at h h'
    split at h
    · rename_i e
      rw [if_pos e] at h'
      cases h; cases h'; exact .tru
    · cases h
  | .rep0 f, t, t', x, x', h, h', hl, hl' => by
    obtain ⟨y, h1, h2⟩ := bind_ok h
    obtain ⟨y', h1', h2'⟩ := bind_ok h'
    cases h2; cases h2'
    exact .rep0 (fac_twin f h1 h1' (cells_onward hl) (cells_onward hl'))
  | .rep1 f, t, t', x, x', h, h', hl, hl' => by
    obtain ⟨y, h1, h2⟩ := bind_ok h
    obtain ⟨y', h1', h2'⟩ := bind_ok h'
    cases h2; cases h2'
    exact .rep1 (fac_twin f h1 h1' (cells_onward hl) (cells_onward hl'))
  | .rep01 f, t, t', x, x', h, h', hl, hl' => by
    obtain ⟨y, h1, h2⟩ := bind_ok h
    obtain ⟨y', h1', h2'⟩ := bind_ok h'
    cases h2; cases h2'
    exact .rep01 (fac_twin f h1 h1' (cells_onward hl) (cells_onward hl'))
  | .not f, t, t', x, x', h, h', hl, hl' => by
    obtain ⟨y, h1, h2⟩ := bind_ok h
    obtain ⟨y', h1', h2'⟩ := bind_ok h'
    cases h2; cases h2'
    exact .not (fac_twin f h1 h1' hl hl')
  | .peek f, t, t', x, x', h, h', hl, hl' => by
    obtain ⟨y, h1, h2⟩ := bind_ok h
    obtain ⟨y', h1', h2'⟩ := bind_ok h'
    cases h2; cases h2'
    exact .peek (fac_twin f h1 h1' hl hl')
  | .paren g, t, t', x, x', h, h', hl, hl' => by
    obtain ⟨y, h1, h2⟩ := bind_ok h
    obtain ⟨y', h1', h2'⟩ := bind_ok h'
    cases h2; cases h2'
    exact oneOrOr_twin (alts_twin g h1 h1' hl hl')
theorem sufs_twin : ∀ (s : Sufs) {a a' : Gr B} {t t' : Tab B} {x x' : Gr B × Tab B}, s.den mk a t = .ok x → s.den mk a' t' = .ok x' → Onward x.2 T → Onward x'.2 T' →
    Twin T T' a a' → Twin T T' x.1 x'.1
  | .nil, a, a', t, t', x, x', h, h', hl, hl', ha => by cases h; cases h'; exact ha
  | .list f r, a, a', t, t', x, x', h, h', hl, hl', ha => by
    obtain ⟨y, h1, h2⟩ := bind_ok h
    obtain ⟨y', h1', h2'⟩ := bind_ok h'
    have l1 := (sufs_onward r h2).trans hl
    have l1' := (sufs_onward r h2').trans hl'
    exact sufs_twin r h2 h2' hl hl' (.list ha (fac_twin f h1 h1' (cells_onward l1) (cells_onward l1')))
  | .list0 f r, a, a', t, t', x, x', h, h', hl, hl', ha => by
    obtain ⟨y, h1, h2⟩ := bind_ok h
    obtain ⟨y', h1', h2'⟩ := bind_ok h'
    have l1 := (sufs_onward r h2).trans hl
    have l1' := (sufs_onward r h2').trans hl'
    exact sufs_twin r h2 h2' hl hl' (.list ha (fac_twin f h1 h1' (cells_onward l1) (cells_onward l1')))
  | .mark n r, a, a', t, t', x, x', h, h', hl, hl', ha => by
    simp only [Sufs.den] at h h'
    rcases hmk n with e | ⟨l, e⟩ | ⟨l, e⟩ | ⟨p, e⟩
    · rw [e] at h h'
      exact sufs_twin r h h' hl hl' ha
    · rw [e] at h h'
      exact sufs_twin r h h' hl hl' (.action ha)
    · rw [e] at h h'
      exact sufs_twin r h h' hl hl' (.trans ha)
    · rw [e] at h; cases h
theorem item_twin : ∀ (i : Item) {t t' : Tab B} {x x' : Gr B × Tab B}, i.den mk t = .ok x → i.den mk t' = .ok x' → Onward x.2 T → Onward x'.2 T' →
    Twin T T' x.1 x'.1
  | .term f s, t, t', x, x', h, h', hl, hl' => by
    obtain ⟨y, h1, h2⟩ := bind_ok h
    obtain ⟨y', h1', h2'⟩ := bind_ok h'
    exact sufs_twin s h2 h2' hl hl' (fac_twin f h1 h1' ((sufs_onward s h2).trans hl) ((sufs_onward s h2').trans hl'))
  | .cut, t, t', x, x', h, h', hl, hl' => by cases h; cases h'; exact .nil
theorem seq_twin : ∀ (s : ItemSeq) {t t' : Tab B} {x x' : List (Gr B) × Tab B}, s.den mk t = .ok x → s.den mk t' = .ok x' → Onward x.2 T → Onward x'.2 T' →
    Twins T T' x.1 x'.1
  | .nil, t, t', x, x', h, h', hl, hl' => by cases h; cases h'; exact .nil
  | .cons i r, t, t', x, x', h, h', hl, hl' => by
    obtain ⟨y, h1, h2⟩ := bind_ok h
    obtain ⟨z, h3, h4⟩ := bind_ok h2
    cases h4
    obtain ⟨y', h1', h2'⟩ := bind_ok h'
    obtain ⟨z', h3', h4'⟩ := bind_ok h2'
    cases h4'
    exact .cons (item_twin i h1 h1' ((seq_onward r h3).trans hl) ((seq_onward r h3').trans hl')) (seq_twin r h3 h3' hl hl')
theorem alts_twin : ∀ (a : Alts) {t t' : Tab B} {x x' : List (Gr B) × Tab B}, a.den mk t = .ok x → a.den mk t' = .ok x' → Onward x.2 T → Onward x'.2 T' →
    Twins T T' x.1 x'.1
  | .one i is, t, t', x, x', h, h', hl, hl' => by
    obtain ⟨y, h1, h2⟩ := bind_ok h
    obtain ⟨z, h3, h4⟩ := bind_ok h2
    cases h4
    obtain ⟨y', h1', h2'⟩ := bind_ok h'
    obtain ⟨z', h3', h4'⟩ := bind_ok h2'
    cases h4'
    exact .cons (oneOrAnd_twin (.cons (item_twin i h1 h1' ((seq_onward is h3).trans hl) ((seq_onward is h3').trans hl')) (seq_twin is h3 h3' hl hl'))) .nil
  | .alt i is r, t, t', x, x', h, h', hl, hl' => by
    obtain ⟨y, h1, h2⟩ := bind_ok h
    obtain ⟨z, h3, h4⟩ := bind_ok h2
    obtain ⟨w, h5, h6⟩ := bind_ok h4
    cases h6
    obtain ⟨y', h1', h2'⟩ := bind_ok h'
    obtain ⟨z', h3', h4'⟩ := bind_ok h2'
    obtain ⟨w', h5', h6'⟩ := bind_ok h4'
    cases h6'
    have l1 := (alts_onward r h5).trans hl
    have l1' := (alts_onward r h5').trans hl'
    exact .cons (oneOrAnd_twin (.cons (item_twin i h1 h1' ((seq_onward is h3).trans l1) ((seq_onward is h3').trans l1')) (seq_twin is h3 h3' l1 l1')))
      (alts_twin r h5 h5' hl hl')
end
end

/-! ### Documents -/
section
variable {mk : Marker B}

theorem define_onward {n : Str} {g : Gr B} {t t' : Tab B} (h : define n g t = .ok t') : Onward t t' := by
  rcases define_cases h with ⟨_, _, rfl, _⟩ | ⟨_, _, i, hi, rfl⟩ | ⟨h1, h2, rfl⟩
  · exact .refl _
  · refine ⟨.refl _, fun _ _ h => h, fun v m o hv => ?_, fun ht => by unfold Tab.used at *; dsimp only; rw [set_keys hi]; exact ht⟩
    dsimp only
    rw [List.getElem?_set]
    split
    · rename_i e
      subst e
      rw [hi] at hv
      cases hv
      exact ⟨some g, by simp [(List.getElem?_eq_some_iff.mp hi).1]⟩
    · exact ⟨o, hv⟩
  · refine ⟨.refl _, fun m x hm => ?_, fun v m o hv => ⟨o, hv⟩, fun h => h⟩
    dsimp only
    rw [List.lookup_cons]
    split
    · rename_i e
      have e : m = n := by simpa using e
      exact absurd (lookup_some hm) (e ▸ h2)
    · exact hm

/-- The rule `r` makes the grammar `x`. -/
def Makes (mk : Marker B) (T : Tab B) (r : Rule) (x : Gr B) : Prop := ∃ t gs u, r.body.den mk t = .ok (gs, u) ∧ Onward u T ∧ x = oneOrOr gs

theorem doc_onward : ∀ {rs : List Rule} {t : Tab B}, denDoc mk rs t = .ok T → Onward t T := by
  intro rs
  induction rs with
  | nil => intro t h; cases h; exact .refl _
  | cons r rs ih =>
    intro t h
    obtain ⟨t1, h1, h2⟩ := bind_ok h
    obtain ⟨gs, t2, h3, h4, _, _⟩ := rule_den h1
    exact ((alts_onward r.body h3).trans (define_onward h4)).trans (ih h2)

theorem doc_def {n : Str} {x : Gr B} : ∀ {rs : List Rule} {t : Tab B}, denDoc mk rs t = .ok T → Def T n x → Def t n x ∨ ∃ r ∈ rs, r.name = n ∧ Makes mk T r x := by
  intro rs
  induction rs with
  | nil => intro t h hd; cases h; exact .inl hd
  | cons r rs ih =>
    intro t h hd
    obtain ⟨t1, h1, h2⟩ := bind_ok h
    obtain ⟨gs, t2, h3, h4, e, _⟩ := rule_den h1
    rcases ih h2 hd with hd | ⟨r', hr, h⟩
    · have hmakes : Makes mk T r (oneOrOr gs) := ⟨t, gs, t2, h3, (define_onward h4).trans (doc_onward h2), rfl⟩
      have hback : Def t2 n x → Def t n x := by
        rintro (h | ⟨v, h⟩)
        · exact .inl (by rw [← e.gr]; exact h)
        · obtain ⟨ns, hv, _⟩ := e.vars
          rw [hv, List.getElem?_append] at h
          split at h
          · exact .inr ⟨v, h⟩
          · obtain ⟨i, hi⟩ := List.mem_iff_getElem?.mpr ⟨_, h⟩ |> List.mem_map.mp
            cases hi.2
      rcases define_cases h4 with ⟨_, _, rfl, _⟩ | ⟨_, _, i, hi, rfl⟩ | ⟨_, _, rfl⟩
      · exact .inl (hback hd)
      · rcases hd with h | ⟨v, h⟩
        · exact .inl (hback (.inl h))
        · dsimp only at h
          rw [List.getElem?_set] at h
          split at h
          · split at h
            · cases h; exact .inr ⟨r, List.mem_cons_self, rfl, hmakes⟩
            · cases h
          · exact .inl (hback (.inr ⟨v, h⟩))
      · rcases hd with h | ⟨v, h⟩
        · dsimp only at h
          rw [List.lookup_cons] at h
          split at h
          · rename_i e
            have e : n = r.name := by simpa using e
            cases h
            exact .inr ⟨r, List.mem_cons_self, e.symm, hmakes⟩
          · exact .inl (hback (.inl h))
        · exact .inl (hback (.inr ⟨v, h⟩))
    · exact .inr ⟨r', List.mem_cons_of_mem _ hr, h⟩

theorem same_rule {rs : List Rule} (hn : (rs.map Rule.name).Nodup) {r r' : Rule} (h : r ∈ rs) (h' : r' ∈ rs) (e : r.name = r'.name) : r = r' := by
  induction rs with
  | nil => cases h
  | cons a rs ih =>
    rw [List.map_cons, List.nodup_cons] at hn
    rcases List.mem_cons.mp h with rfl | h <;> rcases List.mem_cons.mp h' with rfl | h'
    · rfl
    · exact absurd (List.mem_map.mpr ⟨r', h', e.symm⟩) hn.1
    · exact absurd (List.mem_map.mpr ⟨r, by assumption, e⟩) hn.1
    · exact ih hn.2 h h'

/-- The tables at the start. -/
def Fresh (t : Tab B) : Prop := t.grammars = [] ∧ t.vars = []

theorem fresh_def {t : Tab B} (h : Fresh t) {n : Str} {x : Gr B} : ¬ Def t n x := by
  rintro (e | ⟨v, e⟩)
  · rw [h.1] at e; cases e
  · rw [h.2] at e; cases e

theorem doc_noTrue {rs : List Rule} {t : Tab B} (hf : Fresh t) (h : denDoc mk rs t = .ok T) (hv : ∀ v ∈ T.vars, v.2 ≠ none) (ht : ∀ r ∈ rs, r.name ≠ bytes "true") : NoTrue T := by
  constructor
  · cases e : T.grammars.lookup (bytes "true") with
    | none => rfl
    | some x =>
      rcases doc_def h (.inl e) with h1 | ⟨r, hr, h1, _⟩
      · exact absurd h1 (fresh_def hf)
      · exact absurd h1 (ht r hr)
  · intro v o e
    cases o with
    | none => exact hv _ (List.mem_iff_getElem?.mpr ⟨v, e⟩) rfl
    | some x =>
      rcases doc_def h (.inr ⟨v, e⟩) with h1 | ⟨r, hr, h1, _⟩
      · exact absurd h1 (fresh_def hf)
      · exact absurd h1 (ht r hr)

/-- The same rules in another order. -/
theorem doc_twinned (hmk : Uniform mk) {rs rs' : List Rule} {t t' : Tab B} (hf : Fresh t) (hf' : Fresh t') (h : denDoc mk rs t = .ok T) (h' : denDoc mk rs' t' = .ok T')
    (hv : ∀ v ∈ T.vars, v.2 ≠ none) (hv' : ∀ v ∈ T'.vars, v.2 ≠ none) (hp : ∀ r, r ∈ rs ↔ r ∈ rs') (hd : (rs.map Rule.name).Nodup)
    (ht : ∀ r ∈ rs, r.name ≠ bytes "true") (hk : KindRel (SameKind T.scanner T'.scanner)) : Twinned T T' := by
  have hn := doc_noTrue hf h hv ht
  have hn' := doc_noTrue hf' h' hv' (fun r hr => ht r ((hp r).mpr hr))
  refine ⟨fun v n o e => hv _ (List.mem_iff_getElem?.mpr ⟨v, e⟩), fun v n o e => hv' _ (List.mem_iff_getElem?.mpr ⟨v, e⟩), fun n x x' hx hx' => ?_, hk⟩
  rcases doc_def h hx with h1 | ⟨r, hr, hrn, t1, gs, u, e, l, rfl⟩
  · exact absurd h1 (fresh_def hf)
  · rcases doc_def h' hx' with h1 | ⟨r', hr', hrn', t1', gs', u', e', l', rfl⟩
    · exact absurd h1 (fresh_def hf')
    · obtain rfl := same_rule hd hr ((hp r').mpr hr') (hrn.trans hrn'.symm)
      exact oneOrOr_twin (alts_twin hmk hn hn' r.body e e' l l')
end


/-! ### Whether a document compiles -/

/-- Both are the nil grammar or none is. -/
def NilAlike (g g' : Gr B) : Prop := g = .nil ↔ g' = .nil

theorem NilAlike.ne {g g' : Gr B} (h : g ≠ .nil) (h' : g' ≠ .nil) : NilAlike g g' := ⟨fun e => absurd e h, fun e => absurd e h'⟩

theorem oneOrAnd_alike {gs gs' : List (Gr B)} (h : All2 NilAlike gs gs') : NilAlike (oneOrAnd gs) (oneOrAnd gs') := by
  cases h with
  | nil => exact .ne nofun nofun
  | cons h1 h2 =>
    cases h2 with
    | nil => exact h1
    | cons h3 h4 => exact .ne nofun nofun

theorem oneOrOr_alike {gs gs' : List (Gr B)} (h : All2 NilAlike gs gs') : NilAlike (oneOrOr gs) (oneOrOr gs') := by
  cases h with
  | nil => exact .ne nofun nofun
  | cons h1 h2 =>
    cases h2 with
    | nil => exact h1
    | cons h3 h4 => exact .ne nofun nofun

theorem tokenOf_total {l : Str} {t t' : Tab B} {x : Gr B × Tab B} (h : tokenOf l t = .ok x) (hf : KwFine t'.scanner) :
    ∃ x', tokenOf l t' = .ok x' ∧ KwFine x'.2.scanner ∧ NilAlike x.1 x'.1 := by
  have key : ∃ x', tokenOf l t' = .ok x' ∧ KwFine x'.2.scanner := by
    by_cases h0 : Lit2Token l ≠ ILLEGAL
    · have e : t'.scanner.ltot l = .ok (Lit2Token l, t'.scanner) := by
        unfold KwScanner.ltot
        dsimp only
        rw [if_pos h0]
      exact ⟨_, tokenOf_some e h0, hf⟩
    · have hshape : ∃ rest, l = 34 :: rest ∧ rest ≠ [] := by
        unfold tokenOf KwScanner.ltot at h
        dsimp only at h
        rw [if_neg h0] at h
        cases l with
        | nil => cases h
        | cons c rest =>
          dsimp only at h
          by_cases hc : c = 34
          · subst hc
            rw [if_pos rfl] at h
            by_cases hr : rest = []
            · rw [if_pos hr] at h; cases h
            · exact ⟨rest, rfl, hr⟩
          · rw [if_neg hc] at h
            have h0 : Lit2Token (c :: rest) = 0 := Classical.byContradiction h0
            rw [h0] at h
            cases h
      obtain ⟨rest, rfl, hr⟩ := hshape
      cases hg : t'.scanner.keywords.get rest.dropLast with
      | some a =>
        have := (hf.range hg).1
        exact ⟨_, tokenOf_some (ltot_old h0 hr hg) (by omega), hf⟩
      | none =>
        cases hm : t'.scanner.keywords with
        | none => exact absurd hm hf.ready
        | some m => exact ⟨_, tokenOf_some (ltot_new h0 hr hg hm) (by omega), addKw_fine hf hm _⟩
  obtain ⟨x', h1, h2⟩ := key
  exact ⟨x', h1, h2, .ne (tokenOf_ne h) (tokenOf_ne h1)⟩

theorem nameOf_total {n : Str} {t t' : Tab B} {x : Gr B × Tab B} (h : nameOf n t = .ok x) (hf : KwFine t'.scanner) :
    ∃ x', nameOf n t' = .ok x' ∧ KwFine x'.2.scanner ∧ NilAlike x.1 x'.1 := by
  have key : ∃ x', nameOf n t' = .ok x' ∧ KwFine x'.2.scanner := by
    unfold nameOf at h ⊢
    by_cases h0 : n = []
    · rw [if_pos h0] at h; cases h
    · rw [if_neg h0] at h ⊢
      by_cases hu : isUpper n = true
      · rw [if_pos hu] at h ⊢
        obtain ⟨x', h1, h2, _⟩ := tokenOf_total h hf
        exact ⟨x', h1, h2⟩
      · rw [if_neg hu]
        split
        · exact ⟨_, rfl, hf⟩
        · exact ⟨_, rfl, hf⟩
        · split <;> exact ⟨_, rfl, hf⟩
  obtain ⟨x', h1, h2⟩ := key
  exact ⟨x', h1, h2, .ne (nameOf_ne h) (nameOf_ne h1)⟩

theorem bind_of {α β : Type} {x : Except ClPanic α} {f : α → Except ClPanic β} {a : α} (h : x = .ok a) : x.bind f = f a := by rw [h]; rfl

section
variable {mk : Marker B} (hmk : Uniform mk)
include hmk

mutual
theorem fac_total : ∀ (f : Fac) {t t' : Tab B} {x : Gr B × Tab B}, f.den mk t = .ok x → KwFine t'.scanner →
    ∃ x', f.den mk t' = .ok x' ∧ KwFine x'.2.scanner ∧ NilAlike x.1 x'.1
  | .ident n, t, t', x, h, hf => by simp only [Fac.den] at h ⊢; exact nameOf_total h hf
  | .char l, t, t', x, h, hf => by simp only [Fac.den] at h ⊢; exact tokenOf_total h hf
  | .string l, t, t', x, h, hf => by simp only [Fac.den] at h ⊢; exact tokenOf_total h hf
  | .int l, t, t', x, h, hf => by
    simp only [Fac.den] at h ⊢
    split at h
    · rename_i e
      cases h
      rw [if_pos e]
      exact ⟨_, rfl, hf, .ne nofun nofun⟩
    · cases h
  | .rep0 f, t, t', x, h, hf => by
    obtain ⟨y, h1, h2⟩ := bind_ok h
    cases h2
    obtain ⟨y', e1, e2, _⟩ := fac_total f h1 hf
    exact ⟨_, bind_of e1, e2, .ne nofun nofun⟩
  | .rep1 f, t, t', x, h, hf => by
    obtain ⟨y, h1, h2⟩ := bind_ok h
    cases h2
    obtain ⟨y', e1, e2, _⟩ := fac_total f h1 hf
    exact ⟨_, bind_of e1, e2, .ne nofun nofun⟩
  | .rep01 f, t, t', x, h, hf => by
    obtain ⟨y, h1, h2⟩ := bind_ok h
    cases h2
    obtain ⟨y', e1, e2, _⟩ := fac_total f h1 hf
    exact ⟨_, bind_of e1, e2, .ne nofun nofun⟩
  | .not f, t, t', x, h, hf => by
    obtain ⟨y, h1, h2⟩ := bind_ok h
    cases h2
    obtain ⟨y', e1, e2, _⟩ := fac_total f h1 hf
    exact ⟨_, bind_of e1, e2, .ne nofun nofun⟩
  | .peek f, t, t', x, h, hf => by
    obtain ⟨y, h1, h2⟩ := bind_ok h
    cases h2
    obtain ⟨y', e1, e2, _⟩ := fac_total f h1 hf
    exact ⟨_, bind_of e1, e2, .ne nofun nofun⟩
  | .paren g, t, t', x, h, hf => by
    obtain ⟨y, h1, h2⟩ := bind_ok h
    cases h2
    obtain ⟨y', e1, e2, e3⟩ := alts_total g h1 hf
    exact ⟨_, bind_of e1, e2, oneOrOr_alike e3⟩
theorem sufs_total : ∀ (s : Sufs) {a a' : Gr B} {t t' : Tab B} {x : Gr B × Tab B}, s.den mk a t = .ok x → KwFine t'.scanner → NilAlike a a' →
    ∃ x', s.den mk a' t' = .ok x' ∧ KwFine x'.2.scanner ∧ NilAlike x.1 x'.1
  | .nil, a, a', t, t', x, h, hf, ha => by cases h; exact ⟨_, rfl, hf, ha⟩
  | .list f r, a, a', t, t', x, h, hf, ha => by
    obtain ⟨y, h1, h2⟩ := bind_ok h
    obtain ⟨y', e1, e2, _⟩ := fac_total f h1 hf
    obtain ⟨z, e3, e4, e5⟩ := sufs_total r (a' := (newObj (.list · a' y'.1 false) y'.2).1) (t' := (newObj (.list · a' y'.1 false) y'.2).2) h2 e2 (.ne nofun nofun)
    exact ⟨z, (bind_of e1).trans e3, e4, e5⟩
  | .list0 f r, a, a', t, t', x, h, hf, ha => by
    obtain ⟨y, h1, h2⟩ := bind_ok h
    obtain ⟨y', e1, e2, _⟩ := fac_total f h1 hf
    obtain ⟨z, e3, e4, e5⟩ := sufs_total r (a' := (newObj (.list · a' y'.1 true) y'.2).1) (t' := (newObj (.list · a' y'.1 true) y'.2).2) h2 e2 (.ne nofun nofun)
    exact ⟨z, (bind_of e1).trans e3, e4, e5⟩
  | .mark n r, a, a', t, t', x, h, hf, ha => by
    simp only [Sufs.den] at h ⊢
    rcases hmk n with e | ⟨l, e⟩ | ⟨l, e⟩ | ⟨p, e⟩
    · rw [e] at h ⊢
      exact sufs_total r h hf ha
    · rw [e] at h ⊢
      exact sufs_total r h hf (.ne nofun nofun)
    · rw [e] at h ⊢
      exact sufs_total r h hf (.ne nofun nofun)
    · rw [e] at h; cases h
theorem item_total : ∀ (i : Item) {t t' : Tab B} {x : Gr B × Tab B}, i.den mk t = .ok x → KwFine t'.scanner →
    ∃ x', i.den mk t' = .ok x' ∧ KwFine x'.2.scanner ∧ NilAlike x.1 x'.1
  | .term f s, t, t', x, h, hf => by
    obtain ⟨y, h1, h2⟩ := bind_ok h
    obtain ⟨y', e1, e2, e3⟩ := fac_total f h1 hf
    obtain ⟨z, e4, e5, e6⟩ := sufs_total s h2 e2 e3
    exact ⟨z, (bind_of e1).trans e4, e5, e6⟩
  | .cut, t, t', x, h, hf => by cases h; exact ⟨_, rfl, hf, Iff.rfl⟩
theorem seq_total : ∀ (s : ItemSeq) {t t' : Tab B} {x : List (Gr B) × Tab B}, s.den mk t = .ok x → KwFine t'.scanner →
    ∃ x', s.den mk t' = .ok x' ∧ KwFine x'.2.scanner ∧ All2 NilAlike x.1 x'.1
  | .nil, t, t', x, h, hf => by cases h; exact ⟨_, rfl, hf, .nil⟩
  | .cons i r, t, t', x, h, hf => by
    obtain ⟨y, h1, h2⟩ := bind_ok h
    obtain ⟨z, h3, h4⟩ := bind_ok h2
    cases h4
    obtain ⟨y', e1, e2, e3⟩ := item_total i h1 hf
    obtain ⟨z', e4, e5, e6⟩ := seq_total r h3 e2
    exact ⟨_, (bind_of e1).trans (bind_of e4), e5, .cons e3 e6⟩
theorem alts_total : ∀ (a : Alts) {t t' : Tab B} {x : List (Gr B) × Tab B}, a.den mk t = .ok x → KwFine t'.scanner →
    ∃ x', a.den mk t' = .ok x' ∧ KwFine x'.2.scanner ∧ All2 NilAlike x.1 x'.1
  | .one i is, t, t', x, h, hf => by
    obtain ⟨y, h1, h2⟩ := bind_ok h
    obtain ⟨z, h3, h4⟩ := bind_ok h2
    cases h4
    obtain ⟨y', e1, e2, e3⟩ := item_total i h1 hf
    obtain ⟨z', e4, e5, e6⟩ := seq_total is h3 e2
    exact ⟨_, (bind_of e1).trans (bind_of e4), e5, .cons (oneOrAnd_alike (.cons e3 e6)) .nil⟩
  | .alt i is r, t, t', x, h, hf => by
    obtain ⟨y, h1, h2⟩ := bind_ok h
    obtain ⟨z, h3, h4⟩ := bind_ok h2
    obtain ⟨w, h5, h6⟩ := bind_ok h4
    cases h6
    obtain ⟨y', e1, e2, e3⟩ := item_total i h1 hf
    obtain ⟨z', e4, e5, e6⟩ := seq_total is h3 e2
    obtain ⟨w', e7, e8, e9⟩ := alts_total r h5 e5
    exact ⟨_, (bind_of e1).trans ((bind_of e4).trans (bind_of e7)), e8, .cons (oneOrAnd_alike (.cons e3 e6)) e9⟩
end
end


section
variable {mk : Marker B}

/-- The rules are known afterwards. -/
theorem doc_rules : ∀ {rs : List Rule} {t : Tab B}, denDoc mk rs t = .ok T → ∀ r ∈ rs, Known r.name T := by
  intro rs
  induction rs with
  | nil => intro t _ r hr; cases hr
  | cons r rs ih =>
    intro t h r' hr'
    obtain ⟨t1, h1, h2⟩ := bind_ok h
    rcases List.mem_cons.mp hr' with rfl | hr'
    · obtain ⟨_, t2, _, h4, _, _⟩ := rule_den h1
      refine (doc_mono h2).known ?_
      rcases define_cases h4 with ⟨h, _, rfl, _⟩ | ⟨h, _, i, hi, rfl⟩ | ⟨_, _, rfl⟩
      · exact .inr h
      · exact .inr (by unfold Tab.used at *; dsimp only; rw [set_keys hi]; exact h)
      · exact .inl (by simp [Tab.defined])
    · exact ih h2 r' hr'

theorem lookup_of_mem {n : Str} {gs : List (Str × Gr B)} (h : n ∈ gs.map (·.1)) : ∃ g, gs.lookup n = some g := by
  cases e : gs.lookup n with
  | some g => exact ⟨g, rfl⟩
  | none => exact absurd h (lookup_none.mp e)

theorem known_def {t : Tab B} (hv : ∀ v ∈ t.vars, v.2 ≠ none) {n : Str} (h : Known n t) : ∃ g, Def t n g := by
  rcases h with h | h
  · obtain ⟨g, hg⟩ := lookup_of_mem h
    exact ⟨g, .inl hg⟩
  · obtain ⟨⟨m, o⟩, hm, rfl⟩ := List.mem_map.mp h
    cases o with
    | none => exact absurd rfl (hv _ hm)
    | some g =>
      obtain ⟨v, e⟩ := List.mem_iff_getElem?.mp hm
      exact ⟨g, .inr ⟨v, e⟩⟩

/-- The rules of a document that compiles have bodies that mean something. -/
theorem doc_bodies {rs : List Rule} {t : Tab B} (hf : Fresh t) (h : denDoc mk rs t = .ok T) (hv : ∀ v ∈ T.vars, v.2 ≠ none) (hnd : (rs.map Rule.name).Nodup)
    (hne : ∀ n g, Def T n g → g ≠ .nil) : ∀ r ∈ rs, ∃ t x, r.body.den mk t = .ok x ∧ oneOrOr x.1 ≠ .nil := by
  intro r hr
  obtain ⟨g, hg⟩ := known_def hv (doc_rules h r hr)
  rcases doc_def h hg with h1 | ⟨r', hr', hn, t1, gs, u, e, _, rfl⟩
  · exact absurd h1 (fresh_def hf)
  · obtain rfl := same_rule hnd hr' hr hn
    exact ⟨t1, (gs, u), e, hne _ _ hg⟩

theorem doc_total (hmk : Uniform mk) : ∀ (rs : List Rule) (t : Tab B), KwFine t.scanner → (∀ r ∈ rs, ∃ t x, r.body.den mk t = .ok x ∧ oneOrOr x.1 ≠ .nil) →
    (rs.map Rule.name).Nodup → (∀ r ∈ rs, ∀ x, ¬ Def t r.name x) →
    ∃ T, denDoc mk rs t = .ok T ∧ ∀ r ∈ rs, r.name ∈ T.defined ∨ ∃ g, (r.name, some g) ∈ T.vars := by
  intro rs
  induction rs with
  | nil => exact fun t _ _ _ _ => ⟨t, rfl, fun r hr => by cases hr⟩
  | cons r rs ih =>
    intro t hf hb hnd hfree
    rw [List.map_cons, List.nodup_cons] at hnd
    obtain ⟨t0, x0, h0, hn0⟩ := hb r List.mem_cons_self
    obtain ⟨x, hx, hfx, hal⟩ := alts_total hmk r.body h0 hf
    have hg : oneOrOr x.1 ≠ .nil := fun e => hn0 ((oneOrOr_alike hal).mpr e)
    have he := (alts_ext r.body hx).1
    have hback : ∀ {y}, ¬ Def x.2 r.name y := by
      intro y hy
      refine hfree r List.mem_cons_self y ?_
      rcases hy with h | ⟨v, h⟩
      · exact .inl (by rw [← he.gr]; exact h)
      · obtain ⟨ns, hv, _⟩ := he.vars
        rw [hv, List.getElem?_append] at h
        split at h
        · exact .inr ⟨v, h⟩
        · obtain ⟨i, hi⟩ := List.mem_iff_getElem?.mpr ⟨_, h⟩ |> List.mem_map.mp
          cases hi.2
    have hdef : ∃ t1, define r.name (oneOrOr x.1) x.2 = .ok t1 ∧ (r.name ∈ t1.defined ∨ ∃ g, (r.name, some g) ∈ t1.vars) := by
      unfold define
      cases hv : varNo r.name x.2.vars with
      | none =>
        cases hl : x.2.grammars.lookup r.name with
        | some g => exact absurd (.inl hl) hback
        | none => exact ⟨_, rfl, .inl (by simp [Tab.defined])⟩
      | some i =>
        obtain ⟨o, ho⟩ := varNo_some hv
        dsimp only
        rw [ho]
        cases o with
        | some g => exact absurd (.inr ⟨i, ho⟩) hback
        | none =>
          have hm : ∀ g : Gr B, (r.name, some g) ∈ x.2.vars.set i (r.name, some g) := by
            intro g
            refine List.mem_iff_getElem?.mpr ⟨i, ?_⟩
            rw [List.getElem?_set]
            simp [(List.getElem?_eq_some_iff.mp ho).1]
          generalize oneOrOr x.1 = g at hg
          cases g with
          | nil => exact absurd rfl hg
          | _ => exact ⟨_, rfl, .inr ⟨_, hm _⟩⟩
    obtain ⟨t1, hd, hkn⟩ := hdef
    have hrule : r.den mk t = .ok t1 := (bind_of hx).trans hd
    have hone : denDoc mk [r] t = .ok t1 := by
      unfold denDoc
      rw [bind_of hrule]
      rfl
    obtain ⟨T, hT, hall⟩ := ih t1 (by rw [define_scanner hd]; exact hfx) (fun r hr => hb r (List.mem_cons_of_mem _ hr)) hnd.2 (by
      intro r' hr' y hy
      rcases doc_def hone hy with h | ⟨r2, hr2, hn2, _⟩
      · exact hfree r' (List.mem_cons_of_mem _ hr') y h
      · obtain rfl : r2 = r := by simpa using hr2
        exact hnd.1 (List.mem_map.mpr ⟨r', hr', hn2.symm⟩))
    refine ⟨T, (bind_of hrule).trans hT, fun r' hr' => ?_⟩
    rcases List.mem_cons.mp hr' with rfl | hr'
    · have hm := doc_mono hT
      rcases hkn with h | ⟨g, h⟩
      · exact .inl (hm.defined _ h)
      · exact .inr ⟨g, hm.assigned _ _ h⟩
    · exact hall r' hr'

/-- All variables are assigned if all references are rules. -/
theorem doc_assigned {rs : List Rule} {t : Tab B} (hf : Fresh t) (h : denDoc mk rs t = .ok T) (hall : ∀ r ∈ rs, r.name ∈ T.defined ∨ ∃ g, (r.name, some g) ∈ T.vars)
    (href : ∀ r ∈ rs, ∀ n ∈ r.body.refs, n ≠ bytes "true" → ∃ r' ∈ rs, r'.name = n) : ∀ v ∈ T.vars, v.2 ≠ none := by
  rintro ⟨n, o⟩ hv ho
  have ho : o = none := ho
  subst ho
  have hu : n ∈ T.used := List.mem_map.mpr ⟨_, hv, rfl⟩
  have hm := doc_mono h
  have hused : t.used = [] := by unfold Tab.used; rw [hf.2]; rfl
  have hn : n ≠ bytes "true" := by
    rintro rfl
    exact (doc_onward h).tru (by rw [hused]; simp) hu
  rcases doc_used h n hu with h1 | ⟨r, hr, h1⟩
  · rw [hused] at h1; cases h1
  · obtain ⟨r', hr', rfl⟩ := href r hr n h1 hn
    rcases hall r' hr' with h2 | ⟨g, h2⟩
    · exact hm.apart (by rw [hused]; simp) _ hu h2
    · have hnd : T.used.Nodup := hm.nodup (by rw [hused]; simp)
      obtain ⟨i, hi⟩ := List.mem_iff_getElem?.mp hv
      obtain ⟨j, hj⟩ := List.mem_iff_getElem?.mp h2
      have hi' : T.used[i]? = some r'.name := by unfold Tab.used; rw [List.getElem?_map, hi]; rfl
      have hj' : T.used[j]? = some r'.name := by unfold Tab.used; rw [List.getElem?_map, hj]; rfl
      obtain ⟨l1, e1⟩ := List.getElem?_eq_some_iff.mp hi'
      obtain ⟨l2, e2⟩ := List.getElem?_eq_some_iff.mp hj'
      have := (List.getElem_inj hnd).mp (e1.trans e2.symm)
      subst this
      rw [hi] at hj
      cases hj

end

end Tpl
