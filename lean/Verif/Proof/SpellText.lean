import Verif.Spec.Spell
import Verif.Proof.GroupText
import Verif.Proof.Plain

/-! Texts with operators written out: what they are compiled to. -/
namespace Tpl
open Spec KwScanner
variable {B : Type}

/-! ### The same factor once more -/

/-- What the second table is: the first one and more. -/
structure ExtS (t T : Tab B) : Prop where
  kw : ∀ w a, t.scanner.keywords.get w = some a → T.scanner.keywords.get w = some a
  gr : T.grammars = t.grammars
  vars : ∀ n v, varNo n t.vars = some v → varNo n T.vars = some v
  tru : varNo (bytes "true") t.vars = none → varNo (bytes "true") T.vars = none

/-- The same, where the rules are the same up to groups. -/
structure ExtG (t T : Tab B) : Prop where
  kw : ∀ w a, t.scanner.keywords.get w = some a → T.scanner.keywords.get w = some a
  gr : ∀ n, OptG (t.grammars.lookup n) (T.grammars.lookup n)
  vars : ∀ n v, varNo n t.vars = some v → varNo n T.vars = some v
  tru : varNo (bytes "true") t.vars = none → varNo (bytes "true") T.vars = none

theorem ExtS.refl {t : Tab B} : ExtS t t := ⟨fun _ _ h => h, rfl, fun _ _ h => h, fun h => h⟩
theorem ExtS.trans {t t' t'' : Tab B} (h : ExtS t t') (h' : ExtS t' t'') : ExtS t t'' :=
  ⟨fun w a e => h'.kw w a (h.kw w a e), h'.gr.trans h.gr, fun n v e => h'.vars n v (h.vars n v e), fun e => h'.tru (h.tru e)⟩
theorem ExtS.extG {t t' t'' : Tab B} (h : ExtS t t') (h' : ExtG t' t'') : ExtG t t'' :=
  ⟨fun w a e => h'.kw w a (h.kw w a e), fun n => h.gr ▸ h'.gr n, fun n v e => h'.vars n v (h.vars n v e), fun e => h'.tru (h.tru e)⟩
theorem ExtS.cells {t t' : Tab B} (h : ExtS t t') (f : Nat → Gr B) : ExtS t (newObj f t').2 := ⟨h.kw, h.gr, h.vars, h.tru⟩
theorem ExtG.cells {t t' : Tab B} (h : ExtG t t') (c : Nat) : ExtG t { t' with cells := c } := ⟨h.kw, h.gr, h.vars, h.tru⟩
theorem TabG.ext {t t' : Tab B} (h : TabG t t') : ExtG t t' :=
  ⟨fun w a e => h.kw ▸ e, h.lookup, fun n v e => h.varNo n ▸ e, fun e => h.varNo _ ▸ e⟩

theorem varNo_more {n : Str} {w : List (Str × Option (Gr B))} : ∀ {vs : List (Str × Option (Gr B))} {v : Nat}, varNo n vs = some v → varNo n (vs ++ w) = some v
  | [], v, h => by cases h
  | p :: vs, v, h => by
    simp only [varNo, List.cons_append] at h ⊢
    split
    · rename_i e; rw [if_pos e] at h; exact h
    · rename_i e
      rw [if_neg e] at h
      cases hv : varNo n vs with
      | none => rw [hv] at h; cases h
      | some x => rw [hv] at h; rw [varNo_more hv]; exact h
theorem varNo_last {n : Str} : ∀ {vs : List (Str × Option (Gr B))}, varNo n vs = none → varNo n (vs ++ [(n, none)]) = some vs.length
  | [], h => by simp [varNo]
  | p :: vs, h => by
    simp only [varNo, List.cons_append] at h ⊢
    split
    · rename_i e; rw [if_pos e] at h; cases h
    · rename_i e
      rw [if_neg e] at h
      cases hv : varNo n vs with
      | none => rw [varNo_last hv]; rfl
      | some x => rw [hv] at h; cases h
theorem varNo_other {n m : Str} (hn : m ≠ n) : ∀ {vs : List (Str × Option (Gr B))}, varNo n vs = none → varNo n (vs ++ [(m, none)]) = none
  | [], h => by simp [varNo, hn]
  | p :: vs, h => by
    simp only [varNo, List.cons_append] at h ⊢
    split
    · rename_i e; rw [if_pos e] at h; cases h
    · rename_i e
      rw [if_neg e] at h
      cases hv : varNo n vs with
      | none => rw [varNo_other hn hv]; rfl
      | some x => rw [hv] at h; cases h

/-- What `ltot` adds. -/
theorem ltot_again {k k' : KwScanner} {l : Str} {n : Nat} (h : k.ltot l = .ok (n, k')) :
    (∀ w a, k.keywords.get w = some a → k'.keywords.get w = some a) ∧
    ∀ K : KwScanner, (∀ w a, k'.keywords.get w = some a → K.keywords.get w = some a) → K.ltot l = .ok (n, K) := by
  unfold ltot at h
  dsimp only at h
  by_cases h0 : Lit2Token l ≠ ILLEGAL
  · rw [if_pos h0] at h
    cases h
    exact ⟨fun _ _ e => e, fun K _ => by unfold ltot; dsimp only; rw [if_pos h0]⟩
  · rw [if_neg h0] at h
    cases l with
    | nil => cases h
    | cons c rest =>
      dsimp only at h
      by_cases hc : c = 34
      · subst hc
        rw [if_pos rfl] at h
        by_cases hr : rest = []
        · rw [if_pos hr] at h; cases h
        · rw [if_neg hr] at h
          cases hg : k.keywords.get rest.dropLast with
          | some a =>
            rw [hg] at h
            cases h
            exact ⟨fun _ _ e => e, fun K hK => ltot_old h0 hr (hK _ _ hg)⟩
          | none =>
            rw [hg] at h
            dsimp only at h
            cases hm : k.keywords with
            | none => rw [hm] at h; cases h
            | some m =>
              rw [hm] at h hg
              cases h
              refine ⟨fun w a e => ?_, fun K hK => ltot_old h0 hr (hK _ _ (by simp [KwMap.get]))⟩
              simp only [KwMap.get, List.lookup_cons] at e hg ⊢
              split
              · rename_i hw
                have := eq_of_beq hw
                subst this
                rw [hg] at e; cases e
              · exact e
      · rw [if_neg hc] at h
        cases h
        exact ⟨fun _ _ e => e, fun K _ => by unfold ltot; dsimp only; rw [if_neg h0, if_neg hc]⟩

theorem tokenOf_again {l : Str} {t : Tab B} {x : Gr B × Tab B} (h : tokenOf l t = .ok x) :
    ExtS t x.2 ∧ ∀ T : Tab B, ExtG x.2 T → tokenOf l T = .ok (x.1, T) ∧ ∃ n, x.1 = .tok n := by
  unfold tokenOf at h
  cases hl : t.scanner.ltot l with
  | panic => rw [hl] at h; cases h
  | ok r =>
    obtain ⟨n, k⟩ := r
    rw [hl] at h
    cases n with
    | zero => cases h
    | succ n =>
      cases h
      obtain ⟨h1, h2⟩ := ltot_again hl
      refine ⟨⟨h1, rfl, fun _ _ e => e, fun e => e⟩, fun T hT => ⟨?_, _, rfl⟩⟩
      unfold tokenOf
      rw [h2 T.scanner hT.kw]
      rfl

theorem nameOf_again {n : Str} {t : Tab B} {x : Gr B × Tab B} (h : nameOf n t = .ok x) :
    ExtS t x.2 ∧ ∀ T : Tab B, ExtG x.2 T → ∃ k, nameOf n T = .ok (k, T) ∧ Gp true x.1 k := by
  unfold nameOf at h
  by_cases h0 : n = []
  · rw [if_pos h0] at h; cases h
  · rw [if_neg h0] at h
    by_cases h1 : isUpper n = true
    · rw [if_pos h1] at h
      obtain ⟨e1, e2⟩ := tokenOf_again h
      refine ⟨e1, fun T hT => ?_⟩
      obtain ⟨e3, m, e4⟩ := e2 T hT
      refine ⟨x.1, by unfold nameOf; rw [if_neg h0, if_pos h1, e3], ?_⟩
      rw [e4]; exact .tok
    · rw [if_neg h1] at h
      cases hg : t.grammars.lookup n with
      | some g =>
        rw [hg] at h
        cases h
        refine ⟨.refl, fun T hT => ?_⟩
        rcases hT.gr n with ⟨e, _⟩ | ⟨y, y', e, e', hy⟩
        · exact absurd (hg.symm.trans e) nofun
        · have e := hg.symm.trans e
          cases e
          exact ⟨_, by unfold nameOf; rw [if_neg h0, if_neg h1, e'], .named hy⟩
      | none =>
        rw [hg] at h
        have none_in : ∀ T : Tab B, OptG (t.grammars.lookup n) (T.grammars.lookup n) → T.grammars.lookup n = none := by
          rintro T (⟨_, e⟩ | ⟨y, y', e, e', hy⟩)
          · exact e
          · rw [hg] at e; cases e
        cases hv : varNo n t.vars with
        | some v =>
          rw [hv] at h
          cases h
          refine ⟨.refl, fun T hT => ⟨.var v, ?_, .var⟩⟩
          unfold nameOf
          rw [if_neg h0, if_neg h1, none_in T (hT.gr n), hT.vars n v hv]
        | none =>
          rw [hv] at h
          dsimp only at h
          by_cases h2 : n = bytes "true"
          · rw [if_pos h2] at h
            cases h
            subst h2
            refine ⟨.refl, fun T hT => ⟨.tru, ?_, .tru⟩⟩
            unfold nameOf
            rw [if_neg h0, if_neg h1, none_in T (hT.gr _), hT.tru hv]
            dsimp only
            rw [if_pos rfl]
          · rw [if_neg h2] at h
            cases h
            refine ⟨⟨fun _ _ e => e, rfl, fun _ _ e => varNo_more e, fun e => varNo_other h2 e⟩, fun T hT => ⟨.var _, ?_, .var⟩⟩
            unfold nameOf
            rw [if_neg h0, if_neg h1, none_in T (hT.gr n), hT.vars n _ (varNo_last hv)]

section
variable {mk : Marker B}

mutual
theorem fac_again (hmk : Uniform mk) : ∀ (f : Fac) {t : Tab B} {x : Gr B × Tab B}, f.den mk t = .ok x →
    ExtS t x.2 ∧ ∀ T : Tab B, ExtG x.2 T → ∃ k c, f.den mk T = .ok (k, { T with cells := c }) ∧ Gp true x.1 k
  | .ident n, t, x, h => by
    simp only [Fac.den] at h ⊢
    obtain ⟨h1, h2⟩ := nameOf_again h
    exact ⟨h1, fun T hT => by obtain ⟨k, e, hk⟩ := h2 T hT; exact ⟨k, T.cells, e, hk⟩⟩
  | .char l, t, x, h => by
    simp only [Fac.den] at h ⊢
    obtain ⟨h1, h2⟩ := tokenOf_again h
    exact ⟨h1, fun T hT => by obtain ⟨e, n, hk⟩ := h2 T hT; exact ⟨x.1, T.cells, e, by rw [hk]; exact .tok⟩⟩
  | .string l, t, x, h => by
    simp only [Fac.den] at h ⊢
    obtain ⟨h1, h2⟩ := tokenOf_again h
    exact ⟨h1, fun T hT => by obtain ⟨e, n, hk⟩ := h2 T hT; exact ⟨x.1, T.cells, e, by rw [hk]; exact .tok⟩⟩
  | .int l, t, x, h => by
    simp only [Fac.den] at h ⊢
    split at h
    · rename_i e
      cases h
      exact ⟨.refl, fun T hT => ⟨.tru, T.cells, by rw [if_pos e], .tru⟩⟩
    · cases h
  | .rep0 f, t, x, h => by
    obtain ⟨y, h1, h2⟩ := bind_ok h
    cases h2
    obtain ⟨h3, h4⟩ := fac_again hmk f h1
    exact ⟨h3.cells _, fun T hT => by obtain ⟨k, c, e, hk⟩ := h4 T ⟨hT.kw, hT.gr, hT.vars, hT.tru⟩; exact ⟨_, _, by simp only [Fac.den, e]; rfl, .rep0 hk.weaken⟩⟩
  | .rep1 f, t, x, h => by
    obtain ⟨y, h1, h2⟩ := bind_ok h
    cases h2
    obtain ⟨h3, h4⟩ := fac_again hmk f h1
    exact ⟨h3.cells _, fun T hT => by obtain ⟨k, c, e, hk⟩ := h4 T ⟨hT.kw, hT.gr, hT.vars, hT.tru⟩; exact ⟨_, _, by simp only [Fac.den, e]; rfl, .rep1 hk.weaken⟩⟩
  | .rep01 f, t, x, h => by
    obtain ⟨y, h1, h2⟩ := bind_ok h
    cases h2
    obtain ⟨h3, h4⟩ := fac_again hmk f h1
    exact ⟨h3.cells _, fun T hT => by obtain ⟨k, c, e, hk⟩ := h4 T ⟨hT.kw, hT.gr, hT.vars, hT.tru⟩; exact ⟨_, _, by simp only [Fac.den, e]; rfl, .rep01 hk.weaken⟩⟩
  | .not f, t, x, h => by
    obtain ⟨y, h1, h2⟩ := bind_ok h
    cases h2
    obtain ⟨h3, h4⟩ := fac_again hmk f h1
    exact ⟨h3, fun T hT => by obtain ⟨k, c, e, hk⟩ := h4 T hT; exact ⟨_, _, by simp only [Fac.den, e]; rfl, .not hk.weaken⟩⟩
  | .peek f, t, x, h => by
    obtain ⟨y, h1, h2⟩ := bind_ok h
    cases h2
    obtain ⟨h3, h4⟩ := fac_again hmk f h1
    exact ⟨h3, fun T hT => by obtain ⟨k, c, e, hk⟩ := h4 T hT; exact ⟨_, _, by simp only [Fac.den, e]; rfl, .peek hk.weaken⟩⟩
  | .paren g, t, x, h => by
    obtain ⟨y, h1, h2⟩ := bind_ok h
    cases h2
    obtain ⟨h3, h4⟩ := alts_again hmk g h1
    exact ⟨h3, fun T hT => by obtain ⟨k, c, e, hk⟩ := h4 T hT; exact ⟨_, _, by simp only [Fac.den, e]; rfl, hk.2⟩⟩
theorem sufs_again (hmk : Uniform mk) : ∀ (s : Sufs) {a : Gr B} {t : Tab B} {x : Gr B × Tab B}, s.den mk a t = .ok x →
    ExtS t x.2 ∧ ∀ (a' : Gr B) (T : Tab B), Gp true a a' → ExtG x.2 T → ∃ k c, s.den mk a' T = .ok (k, { T with cells := c }) ∧ Gp true x.1 k
  | .nil, a, t, x, h => by cases h; exact ⟨.refl, fun a' T ha hT => ⟨_, T.cells, rfl, ha⟩⟩
  | .list f s, a, t, x, h => by
    obtain ⟨y, h1, h2⟩ := bind_ok h
    obtain ⟨h3, h4⟩ := fac_again hmk f h1
    obtain ⟨h5, h6⟩ := sufs_again hmk s h2
    have h5' : ExtS y.2 x.2 := ⟨h5.kw, h5.gr, h5.vars, h5.tru⟩
    refine ⟨h3.trans h5', fun a' T ha hT => ?_⟩
    obtain ⟨k, c, e, hk⟩ := h4 T (h5'.extG hT)
    obtain ⟨k', c', e', hk'⟩ := h6 (.list c a' k false) { T with cells := c + 1 } (.list ha.weaken hk.weaken) (hT.cells _)
    exact ⟨k', c', by simp only [Sufs.den, e, Except.bind, newObj]; exact e', hk'⟩
  | .list0 f s, a, t, x, h => by
    obtain ⟨y, h1, h2⟩ := bind_ok h
    obtain ⟨h3, h4⟩ := fac_again hmk f h1
    obtain ⟨h5, h6⟩ := sufs_again hmk s h2
    have h5' : ExtS y.2 x.2 := ⟨h5.kw, h5.gr, h5.vars, h5.tru⟩
    refine ⟨h3.trans h5', fun a' T ha hT => ?_⟩
    obtain ⟨k, c, e, hk⟩ := h4 T (h5'.extG hT)
    obtain ⟨k', c', e', hk'⟩ := h6 (.list c a' k true) { T with cells := c + 1 } (.list ha.weaken hk.weaken) (hT.cells _)
    exact ⟨k', c', by simp only [Sufs.den, e, Except.bind, newObj]; exact e', hk'⟩
  | .mark n s, a, t, x, h => by
    simp only [Sufs.den] at h ⊢
    have main : ∀ F : Gr B → Gr B, (∀ a, mk a n = .ok (F a)) → (∀ a a', Gp true a a' → Gp true (F a) (F a')) → ExtS t x.2 ∧ ∀ (a' : Gr B) (T : Tab B), Gp true a a' → ExtG x.2 T →
        ∃ k c, (match mk a' n with | .ok g => s.den mk g T | .error e => .error (.marker e)) = .ok (k, { T with cells := c }) ∧ Gp true x.1 k := by
      intro F hF hG
      rw [hF] at h
      obtain ⟨h5, h6⟩ := sufs_again hmk s h
      exact ⟨h5, fun a' T ha hT => by rw [hF]; exact h6 _ T (hG _ _ ha) hT⟩
    rcases hmk n with e | ⟨l, e⟩ | ⟨l, e⟩ | ⟨p, e⟩
    · exact main id e fun _ _ h => h
    · exact main (.action l) e fun _ _ h => .action h
    · exact main (.trans l) e fun _ _ h => .trans h
    · rw [e] at h; cases h
theorem item_again (hmk : Uniform mk) : ∀ (i : Item) {t : Tab B} {x : Gr B × Tab B}, i.den mk t = .ok x →
    ExtS t x.2 ∧ ∀ T : Tab B, ExtG x.2 T → ∃ k c, i.den mk T = .ok (k, { T with cells := c }) ∧ Gp true x.1 k
  | .cut, t, x, h => by cases h; exact ⟨.refl, fun T hT => ⟨_, T.cells, rfl, .nil⟩⟩
  | .term f s, t, x, h => by
    obtain ⟨y, h1, h2⟩ := bind_ok h
    obtain ⟨h3, h4⟩ := fac_again hmk f h1
    obtain ⟨h5, h6⟩ := sufs_again hmk s h2
    refine ⟨h3.trans h5, fun T hT => ?_⟩
    obtain ⟨k, c, e, hk⟩ := h4 T (h5.extG hT)
    obtain ⟨k', c', e', hk'⟩ := h6 k { T with cells := c } hk (hT.cells _)
    exact ⟨k', c', by simp only [Item.den, e, Except.bind]; exact e', hk'⟩
theorem seq_again (hmk : Uniform mk) : ∀ (s : ItemSeq) {t : Tab B} {x : List (Gr B) × Tab B}, s.den mk t = .ok x →
    ExtS t x.2 ∧ ∀ T : Tab B, ExtG x.2 T → ∃ k c, s.den mk T = .ok (k, { T with cells := c }) ∧ GpL x.1 k
  | .nil, t, x, h => by cases h; exact ⟨.refl, fun T hT => ⟨_, T.cells, rfl, .nil⟩⟩
  | .cons i s, t, x, h => by
    obtain ⟨y, h1, h2⟩ := bind_ok h
    obtain ⟨z, h7, h8⟩ := bind_ok h2
    cases h8
    obtain ⟨h3, h4⟩ := item_again hmk i h1
    obtain ⟨h5, h6⟩ := seq_again hmk s h7
    refine ⟨h3.trans h5, fun T hT => ?_⟩
    obtain ⟨k, c, e, hk⟩ := h4 T (h5.extG hT)
    obtain ⟨k', c', e', hk'⟩ := h6 { T with cells := c } (hT.cells _)
    exact ⟨k :: k', c', by simp only [ItemSeq.den, e, Except.bind, e'], .cons hk.weaken hk'⟩
theorem alts_again (hmk : Uniform mk) : ∀ (a : Alts) {t : Tab B} {x : List (Gr B) × Tab B}, a.den mk t = .ok x →
    ExtS t x.2 ∧ ∀ T : Tab B, ExtG x.2 T → ∃ k c, a.den mk T = .ok (k, { T with cells := c }) ∧ (GpL x.1 k ∧ x.1 ≠ []) ∧ Gp true (oneOrOr x.1) (oneOrOr k)
  | .one i s, t, x, h => by
    obtain ⟨y, h1, h2⟩ := bind_ok h
    obtain ⟨z, h7, h8⟩ := bind_ok h2
    cases h8
    obtain ⟨h3, h4⟩ := item_again hmk i h1
    obtain ⟨h5, h6⟩ := seq_again hmk s h7
    refine ⟨h3.trans h5, fun T hT => ?_⟩
    obtain ⟨k, c, e, hk⟩ := h4 T (h5.extG hT)
    obtain ⟨k', c', e', hk'⟩ := h6 { T with cells := c } (hT.cells _)
    have hg : Gp true (oneOrAnd (y.1 :: z.1)) (oneOrAnd (k :: k')) := by
      obtain ⟨z1, z2⟩ := z
      cases hk' with
      | nil => exact hk
      | cons h1 h3 => exact .and (.cons hk.weaken (.cons h1 h3.seq)) fun _ => by simp [h3.len]
    exact ⟨[oneOrAnd (k :: k')], c', by simp only [Alts.den, e, Except.bind, e'], ⟨.cons hg.weaken .nil, nofun⟩, hg⟩
  | .alt i s r, t, x, h => by
    obtain ⟨y, h1, h2⟩ := bind_ok h
    obtain ⟨z, h7, h8⟩ := bind_ok h2
    obtain ⟨w, h9, h10⟩ := bind_ok h8
    cases h10
    obtain ⟨h3, h4⟩ := item_again hmk i h1
    obtain ⟨h5, h6⟩ := seq_again hmk s h7
    obtain ⟨h11, h12⟩ := alts_again hmk r h9
    refine ⟨(h3.trans h5).trans h11, fun T hT => ?_⟩
    obtain ⟨k, c, e, hk⟩ := h4 T ((h5.trans h11).extG hT)
    obtain ⟨k', c', e', hk'⟩ := h6 { T with cells := c } ((h11.extG hT).cells _)
    obtain ⟨k2, c2, e2, hk2, hk3⟩ := h12 { T with cells := c' } (hT.cells _)
    have hg : Gp false (oneOrAnd (y.1 :: z.1)) (oneOrAnd (k :: k')) := oneOrAnd_gp (.cons hk.weaken hk'.seq) nofun
    refine ⟨oneOrAnd (k :: k') :: k2, c2, by simp only [Alts.den, e, Except.bind, e', e2], ⟨.cons hg hk2.1, nofun⟩, ?_⟩
    obtain ⟨w1, w2⟩ := w
    obtain ⟨h1, h2⟩ := hk2
    cases h1 with
    | nil => exact absurd rfl h2
    | cons h1 h3 => exact .or (.cons hg (.cons h1 h3.alts)) fun _ => by simp [h3.len]
end

/-! ### A factor without marks once more -/

/-- The second table has the keywords of the first. -/
def ExtK (t T : Tab B) : Prop := ∀ w a, t.scanner.keywords.get w = some a → T.scanner.keywords.get w = some a

theorem tokenOf_unmarked {l : Str} {t : Tab B} {x : Gr B × Tab B} (h : tokenOf l t = .ok x) :
    ExtK t x.2 ∧ ∀ T : Tab B, ExtK x.2 T → ∃ k, tokenOf l T = .ok (k, T) ∧ Unmarked x.1 k := by
  unfold tokenOf at h
  cases hl : t.scanner.ltot l with
  | panic => rw [hl] at h; cases h
  | ok r =>
    obtain ⟨n, k⟩ := r
    rw [hl] at h
    cases n with
    | zero => cases h
    | succ n =>
      cases h
      obtain ⟨h1, h2⟩ := ltot_again hl
      refine ⟨h1, fun T hT => ⟨.tok (n + 1), ?_, .tok⟩⟩
      unfold tokenOf
      rw [h2 T.scanner hT]
      rfl

theorem oneOrAnd_unmarked {gs gs' : List (Gr B)} (h : UnmarkedL gs gs') (hn : gs ≠ []) : Unmarked (oneOrAnd gs) (oneOrAnd gs') := by
  cases h with
  | nil => exact absurd rfl hn
  | cons h1 h2 =>
    cases h2 with
    | nil => exact h1
    | cons h2 h3 => exact .and (.cons h1 (.cons h2 h3))
theorem oneOrOr_unmarked {gs gs' : List (Gr B)} (h : UnmarkedL gs gs') (hn : gs ≠ []) : Unmarked (oneOrOr gs) (oneOrOr gs') := by
  cases h with
  | nil => exact absurd rfl hn
  | cons h1 h2 =>
    cases h2 with
    | nil => exact h1
    | cons h2 h3 => exact .or (.cons h1 (.cons h2 h3))

mutual
theorem fac_unmarked : ∀ (f : Fac) {t : Tab B} {x : Gr B × Tab B}, f.unmarked = true → f.den mk t = .ok x →
    ExtK t x.2 ∧ ∀ T : Tab B, ExtK x.2 T → ∃ k c, f.den mk T = .ok (k, { T with cells := c }) ∧ Unmarked x.1 k
  | .ident n, t, x, hf, h => by
    simp only [Fac.den, nameOf, Fac.unmarked] at h hf ⊢
    split at h
    · cases h
    · rename_i h0
      obtain ⟨h1, h2⟩ := tokenOf_unmarked h
      exact ⟨h1, fun T hT => by obtain ⟨k, e, hk⟩ := h2 T hT; exact ⟨k, T.cells, by rw [if_neg h0, if_pos hf]; exact e, hk⟩⟩
  | .char l, t, x, hf, h => by
    simp only [Fac.den] at h ⊢
    obtain ⟨h1, h2⟩ := tokenOf_unmarked h
    exact ⟨h1, fun T hT => by obtain ⟨k, e, hk⟩ := h2 T hT; exact ⟨k, T.cells, e, hk⟩⟩
  | .string l, t, x, hf, h => by
    simp only [Fac.den] at h ⊢
    obtain ⟨h1, h2⟩ := tokenOf_unmarked h
    exact ⟨h1, fun T hT => by obtain ⟨k, e, hk⟩ := h2 T hT; exact ⟨k, T.cells, e, hk⟩⟩
  | .int l, t, x, hf, h => by
    simp only [Fac.den] at h ⊢
    split at h
    · rename_i e
      cases h
      exact ⟨fun _ _ e => e, fun T hT => ⟨.tru, T.cells, by rw [if_pos e], .tru⟩⟩
    · cases h
  | .rep0 f, t, x, hf, h => by
    obtain ⟨y, h1, h2⟩ := bind_ok h
    cases h2
    obtain ⟨h3, h4⟩ := fac_unmarked f hf h1
    exact ⟨h3, fun T hT => by obtain ⟨k, c, e, hk⟩ := h4 T hT; exact ⟨_, _, by simp only [Fac.den, e]; rfl, .rep0 hk⟩⟩
  | .rep1 f, t, x, hf, h => by
    obtain ⟨y, h1, h2⟩ := bind_ok h
    cases h2
    obtain ⟨h3, h4⟩ := fac_unmarked f hf h1
    exact ⟨h3, fun T hT => by obtain ⟨k, c, e, hk⟩ := h4 T hT; exact ⟨_, _, by simp only [Fac.den, e]; rfl, .rep1 hk⟩⟩
  | .rep01 f, t, x, hf, h => by
    obtain ⟨y, h1, h2⟩ := bind_ok h
    cases h2
    obtain ⟨h3, h4⟩ := fac_unmarked f hf h1
    exact ⟨h3, fun T hT => by obtain ⟨k, c, e, hk⟩ := h4 T hT; exact ⟨_, _, by simp only [Fac.den, e]; rfl, .rep01 hk⟩⟩
  | .not f, t, x, hf, h => by
    obtain ⟨y, h1, h2⟩ := bind_ok h
    cases h2
    obtain ⟨h3, h4⟩ := fac_unmarked f hf h1
    exact ⟨h3, fun T hT => by obtain ⟨k, c, e, hk⟩ := h4 T hT; exact ⟨_, _, by simp only [Fac.den, e]; rfl, .not hk⟩⟩
  | .peek f, t, x, hf, h => by
    obtain ⟨y, h1, h2⟩ := bind_ok h
    cases h2
    obtain ⟨h3, h4⟩ := fac_unmarked f hf h1
    exact ⟨h3, fun T hT => by obtain ⟨k, c, e, hk⟩ := h4 T hT; exact ⟨_, _, by simp only [Fac.den, e]; rfl, .peek hk⟩⟩
  | .paren g, t, x, hf, h => by
    obtain ⟨y, h1, h2⟩ := bind_ok h
    cases h2
    obtain ⟨h3, h4⟩ := alts_unmarked g hf h1
    exact ⟨h3, fun T hT => by obtain ⟨k, c, e, hk, hn⟩ := h4 T hT; exact ⟨_, _, by simp only [Fac.den, e]; rfl, oneOrOr_unmarked hk hn⟩⟩
theorem sufs_unmarked : ∀ (s : Sufs) {a : Gr B} {t : Tab B} {x : Gr B × Tab B}, s.unmarked = true → s.den mk a t = .ok x →
    ExtK t x.2 ∧ ∀ (a' : Gr B) (T : Tab B), Unmarked a a' → ExtK x.2 T → ∃ k c, s.den mk a' T = .ok (k, { T with cells := c }) ∧ Unmarked x.1 k
  | .nil, a, t, x, _, h => by cases h; exact ⟨fun _ _ e => e, fun a' T ha hT => ⟨_, T.cells, rfl, ha⟩⟩
  | .list f s, a, t, x, hs, h => by
    simp only [Sufs.unmarked, Bool.and_eq_true] at hs
    obtain ⟨y, h1, h2⟩ := bind_ok h
    obtain ⟨h3, h4⟩ := fac_unmarked f hs.1 h1
    obtain ⟨h5, h6⟩ := sufs_unmarked s hs.2 h2
    refine ⟨fun w a e => h5 w a (h3 w a e), fun a' T ha hT => ?_⟩
    obtain ⟨k, c, e, hk⟩ := h4 T fun w a e => hT w a (h5 w a e)
    obtain ⟨k', c', e', hk'⟩ := h6 (.list c a' k false) { T with cells := c + 1 } (.list ha hk) hT
    exact ⟨k', c', by simp only [Sufs.den, e, Except.bind, newObj]; exact e', hk'⟩
  | .list0 f s, a, t, x, hs, h => by
    simp only [Sufs.unmarked, Bool.and_eq_true] at hs
    obtain ⟨y, h1, h2⟩ := bind_ok h
    obtain ⟨h3, h4⟩ := fac_unmarked f hs.1 h1
    obtain ⟨h5, h6⟩ := sufs_unmarked s hs.2 h2
    refine ⟨fun w a e => h5 w a (h3 w a e), fun a' T ha hT => ?_⟩
    obtain ⟨k, c, e, hk⟩ := h4 T fun w a e => hT w a (h5 w a e)
    obtain ⟨k', c', e', hk'⟩ := h6 (.list c a' k true) { T with cells := c + 1 } (.list ha hk) hT
    exact ⟨k', c', by simp only [Sufs.den, e, Except.bind, newObj]; exact e', hk'⟩
  | .mark n s, a, t, x, hs, h => by cases hs
theorem item_unmarked : ∀ (i : Item) {t : Tab B} {x : Gr B × Tab B}, i.unmarked = true → i.den mk t = .ok x →
    ExtK t x.2 ∧ ∀ T : Tab B, ExtK x.2 T → ∃ k c, i.den mk T = .ok (k, { T with cells := c }) ∧ Unmarked x.1 k
  | .cut, t, x, _, h => by cases h; exact ⟨fun _ _ e => e, fun T hT => ⟨_, T.cells, rfl, .nil⟩⟩
  | .term f s, t, x, hi, h => by
    simp only [Item.unmarked, Bool.and_eq_true] at hi
    obtain ⟨y, h1, h2⟩ := bind_ok h
    obtain ⟨h3, h4⟩ := fac_unmarked f hi.1 h1
    obtain ⟨h5, h6⟩ := sufs_unmarked s hi.2 h2
    refine ⟨fun w a e => h5 w a (h3 w a e), fun T hT => ?_⟩
    obtain ⟨k, c, e, hk⟩ := h4 T fun w a e => hT w a (h5 w a e)
    obtain ⟨k', c', e', hk'⟩ := h6 k { T with cells := c } hk hT
    exact ⟨k', c', by simp only [Item.den, e, Except.bind]; exact e', hk'⟩
theorem seq_unmarked : ∀ (s : ItemSeq) {t : Tab B} {x : List (Gr B) × Tab B}, s.unmarked = true → s.den mk t = .ok x →
    ExtK t x.2 ∧ ∀ T : Tab B, ExtK x.2 T → ∃ k c, s.den mk T = .ok (k, { T with cells := c }) ∧ UnmarkedL x.1 k
  | .nil, t, x, _, h => by cases h; exact ⟨fun _ _ e => e, fun T hT => ⟨_, T.cells, rfl, .nil⟩⟩
  | .cons i s, t, x, hs, h => by
    simp only [ItemSeq.unmarked, Bool.and_eq_true] at hs
    obtain ⟨y, h1, h2⟩ := bind_ok h
    obtain ⟨z, h7, h8⟩ := bind_ok h2
    cases h8
    obtain ⟨h3, h4⟩ := item_unmarked i hs.1 h1
    obtain ⟨h5, h6⟩ := seq_unmarked s hs.2 h7
    refine ⟨fun w a e => h5 w a (h3 w a e), fun T hT => ?_⟩
    obtain ⟨k, c, e, hk⟩ := h4 T fun w a e => hT w a (h5 w a e)
    obtain ⟨k', c', e', hk'⟩ := h6 { T with cells := c } hT
    exact ⟨k :: k', c', by simp only [ItemSeq.den, e, Except.bind, e'], .cons hk hk'⟩
theorem alts_unmarked : ∀ (a : Alts) {t : Tab B} {x : List (Gr B) × Tab B}, a.unmarked = true → a.den mk t = .ok x →
    ExtK t x.2 ∧ ∀ T : Tab B, ExtK x.2 T → ∃ k c, a.den mk T = .ok (k, { T with cells := c }) ∧ UnmarkedL x.1 k ∧ x.1 ≠ []
  | .one i s, t, x, ha, h => by
    simp only [Alts.unmarked, Bool.and_eq_true] at ha
    obtain ⟨y, h1, h2⟩ := bind_ok h
    obtain ⟨z, h7, h8⟩ := bind_ok h2
    cases h8
    obtain ⟨h3, h4⟩ := item_unmarked i ha.1 h1
    obtain ⟨h5, h6⟩ := seq_unmarked s ha.2 h7
    refine ⟨fun w a e => h5 w a (h3 w a e), fun T hT => ?_⟩
    obtain ⟨k, c, e, hk⟩ := h4 T fun w a e => hT w a (h5 w a e)
    obtain ⟨k', c', e', hk'⟩ := h6 { T with cells := c } hT
    exact ⟨[oneOrAnd (k :: k')], c', by simp only [Alts.den, e, Except.bind, e'], .cons (oneOrAnd_unmarked (.cons hk hk') nofun) .nil, nofun⟩
  | .alt i s r, t, x, ha, h => by
    simp only [Alts.unmarked, Bool.and_eq_true] at ha
    obtain ⟨y, h1, h2⟩ := bind_ok h
    obtain ⟨z, h7, h8⟩ := bind_ok h2
    obtain ⟨w, h9, h10⟩ := bind_ok h8
    cases h10
    obtain ⟨h3, h4⟩ := item_unmarked i ha.1.1 h1
    obtain ⟨h5, h6⟩ := seq_unmarked s ha.1.2 h7
    obtain ⟨h11, h12⟩ := alts_unmarked r ha.2 h9
    refine ⟨fun w a e => h11 w a (h5 w a (h3 w a e)), fun T hT => ?_⟩
    obtain ⟨k, c, e, hk⟩ := h4 T fun w a e => hT w a (h11 w a (h5 w a e))
    obtain ⟨k', c', e', hk'⟩ := h6 { T with cells := c } fun w a e => hT w a (h11 w a e)
    obtain ⟨k2, c2, e2, hk2, hk3⟩ := h12 { T with cells := c' } hT
    exact ⟨oneOrAnd (k :: k') :: k2, c2, by simp only [Alts.den, e, Except.bind, e', e2], .cons (oneOrAnd_unmarked (.cons hk hk') nofun) hk2, nofun⟩
end

/-! ### Operators that are written out -/

theorem both_den (a b c : Fac) (t : Tab B) : (Fac.paren (.both a b c)).den mk t =
    (a.den mk t).bind fun x => (b.den mk x.2).bind fun y => (c.den mk y.2).bind fun z => .ok (.and [x.1, .or [y.1, z.1]], z.2) := by
  simp only [Alts.both, Fac.den, Alts.den, Item.den, Sufs.den, ItemSeq.den, bind_bind]; rfl
theorem each_den (a b c : Fac) (t : Tab B) : (Fac.paren (.each a b c)).den mk t =
    (a.den mk t).bind fun x => (b.den mk x.2).bind fun y => (a.den mk y.2).bind fun x' => (c.den mk x'.2).bind fun z =>
      .ok (.or [.and [x.1, y.1], .and [x'.1, z.1]], z.2) := by
  simp only [Alts.each, Fac.den, Alts.den, Item.den, Sufs.den, ItemSeq.den, bind_bind]; rfl
theorem perhaps_den (a b : Fac) (t : Tab B) : (Fac.paren (.perhaps a b)).den mk t =
    (a.den mk t).bind fun x => (b.den mk x.2).bind fun y => .ok (.and [x.1, .rep01 y.2.cells y.1], { y.2 with cells := y.2.cells + 1 }) := by
  simp only [Alts.perhaps, Fac.den, Alts.den, Item.den, Sufs.den, ItemSeq.den, bind_bind]; rfl
theorem orNot_den (a b : Fac) (t : Tab B) : (Fac.paren (.orNot a b)).den mk t =
    (a.den mk t).bind fun x => (b.den mk x.2).bind fun y => (a.den mk y.2).bind fun x' => .ok (.or [.and [x.1, y.1], x'.1], x'.2) := by
  simp only [Alts.orNot, Fac.den, Alts.den, Item.den, Sufs.den, ItemSeq.den, bind_bind]; rfl

/-- What is the same in both tables when there are two copies. -/
theorem copies_gp (hmk : Uniform mk) {a : Fac} (hu : a.unmarked = true) (ha : a.bang = false) {t t' u u' : Tab B} (h : TabG u u') {x x' : Gr B × Tab B}
    (e : a.den mk t = .ok x) (e' : a.den mk t' = .ok x') (hk : ExtK x.2 u) (hk' : ExtK x'.2 u') :
    ∃ k k' c', a.den mk u' = .ok (k', { u' with cells := c' }) ∧ x.1 ≠ .nil ∧ k ≠ .nil ∧ Clone x.1 k ∧ Clone x'.1 k' ∧ Gp false k k' := by
  obtain ⟨k, c, e1, h1⟩ := (fac_unmarked a hu e).2 u hk
  obtain ⟨k', c', e1', h1'⟩ := (fac_unmarked a hu e').2 u' hk'
  refine ⟨k, k', c', e1', fac_calm hmk ha e, fac_calm hmk ha e1, h1.clone, h1'.clone, ?_⟩
  have h2 := fac_twice hmk a h
  rw [e1, e1'] at h2
  cases h2 with
  | ok h2 => exact h2.1.weaken

theorem each_gp (hmk : Uniform mk) {a b c : Fac} (hu : a.unmarked = true) (ha : a.bang = false) (hb : b.bang = false) (hc : c.bang = false) {t t' : Tab B} (h : TabG t t') :
    ExL (ResG false) ((Fac.paren (.both a b c)).den mk t) ((Fac.paren (.each a b c)).den mk t') := by
  rw [both_den, each_den]
  refine (fac_twice hmk a h).also.bind fun x x' ⟨hx, e1, e2⟩ => (fac_twice hmk b hx.2).also.bind fun y y' ⟨hy, e3, e4⟩ => ?_
  obtain ⟨k, k', c', e, hn, hn', hs, hs', hk⟩ := copies_gp hmk hu ha hy.2 e1 e2 (fac_again hmk b e3).1.kw (fac_again hmk b e4).1.kw
  rw [e]
  refine (fac_twice hmk c (t := y.2) (t' := { y'.2 with cells := c' }) ⟨hy.2.kw, hy.2.toks, hy.2.gr, hy.2.vars⟩).also.bind fun z z' ⟨hz, e5, e6⟩ => ?_
  exact .ok ⟨.each hn hn' (fac_calm hmk hb e3) (fac_calm hmk hc e5) hs hs' hx.1.weaken hk hy.1.weaken hz.1.weaken, hz.2⟩

theorem orNot_gp (hmk : Uniform mk) {a b : Fac} (hu : a.unmarked = true) (ha : a.bang = false) (hb : b.bang = false) {t t' : Tab B} (h : TabG t t') :
    ExL (ResG false) ((Fac.paren (.perhaps a b)).den mk t) ((Fac.paren (.orNot a b)).den mk t') := by
  rw [perhaps_den, orNot_den]
  refine (fac_twice hmk a h).also.bind fun x x' ⟨hx, e1, e2⟩ => (fac_twice hmk b hx.2).also.bind fun y y' ⟨hy, e3, e4⟩ => ?_
  obtain ⟨k, k', c', e, hn, _, hs, hs', hk⟩ := copies_gp hmk hu ha hy.2 e1 e2 (fac_again hmk b e3).1.kw (fac_again hmk b e4).1.kw
  rw [e]
  exact .ok ⟨.orNot hn (fac_calm hmk hb e3) hs hs' hx.1.weaken hk hy.1.weaken, hy.2.kw, hy.2.toks, hy.2.gr, hy.2.vars⟩

theorem oneMore_den (a : Fac) (t : Tab B) : a.oneMore.den mk t =
    (a.den mk t).bind fun x => (a.den mk x.2).bind fun y => .ok (.and [x.1, .rep0 y.2.cells y.1], { y.2 with cells := y.2.cells + 1 }) := by
  simp only [Fac.oneMore, Fac.den, Alts.den, Item.den, Sufs.den, ItemSeq.den, bind_bind]; rfl
theorem listed_den (a b : Fac) (t : Tab B) : (Fac.listed a b).den mk t =
    (a.den mk t).bind fun x => (b.den mk x.2).bind fun y => (a.den mk y.2).bind fun z =>
      .ok (.and [x.1, .rep0 z.2.cells (.and [y.1, z.1])], { z.2 with cells := z.2.cells + 1 }) := by
  simp only [Fac.listed, Fac.den, Alts.den, Item.den, Sufs.den, ItemSeq.den, bind_bind]; rfl
theorem optList_den (a b : Fac) (t : Tab B) : (Fac.optList a b).den mk t =
    (a.den mk t).bind fun x => (b.den mk x.2).bind fun y =>
      .ok (.rep01 (y.2.cells + 1) (.list y.2.cells x.1 y.1 false), { y.2 with cells := y.2.cells + 2 }) := by
  simp only [Fac.optList, Fac.den, Alts.den, Item.den, Sufs.den, ItemSeq.den, bind_bind]; rfl

theorem star_den (a : Fac) (t : Tab B) : (Fac.rep01 (.rep1 a)).den mk t =
    (a.den mk t).bind fun x => .ok (.rep01 (x.2.cells + 1) (.rep1 x.2.cells x.1), { x.2 with cells := x.2.cells + 2 }) := by
  simp only [Fac.den, bind_bind]; rfl
theorem twice_den (a : Fac) (t : Tab B) : (Fac.not (.not a)).den mk t = (a.den mk t).bind fun x => .ok (.not (.not x.1), x.2) := by
  simp only [Fac.den, bind_bind]; rfl
theorem orOne_den (a : Fac) (t : Tab B) : a.orOne.den mk t = (a.den mk t).bind fun x => .ok (.or [x.1, .tru], x.2) := by
  simp only [Fac.orOne, Fac.den, Alts.den, Item.den, Sufs.den, ItemSeq.den, bind_bind, if_true]; rfl
theorem neg_den (i : Item) (is : ItemSeq) (t : Tab B) : (i.neg is).den mk t =
    (i.den mk t).bind fun x => (is.den mk x.2).bind fun y => .ok (.not (oneOrAnd (x.1 :: y.1)), y.2) := by
  simp only [Item.neg, Item.den, Fac.den, Alts.den, Sufs.den, bind_bind]; rfl
theorem negs_den : ∀ (r : Alts) (t : Tab B), r.negs.den mk t = (r.den mk t).bind fun x => .ok (x.1.map .not, x.2)
  | .one i is, t => by simp only [Alts.negs, ItemSeq.den, neg_den, Alts.den, bind_bind]; rfl
  | .alt i is r, t => by simp only [Alts.negs, ItemSeq.den, neg_den, negs_den r, Alts.den, bind_bind]; rfl

theorem nots_gp (hmk : Uniform mk) {i : Item} {is : ItemSeq} {r : Alts} {t t' : Tab B} (h : TabG t t') :
    ExL (ResG false) ((Fac.not (.paren (.alt i is r))).den mk t) ((Fac.paren (.one (i.neg is) r.negs)).den mk t') := by
  have e1 : (Fac.not (.paren (.alt i is r))).den mk t = ((Alts.alt i is r).den mk t).bind fun x => .ok (.not (oneOrOr x.1), x.2) := by
    simp only [Fac.den, bind_bind]; rfl
  have e2 : (Fac.paren (.one (i.neg is) r.negs)).den mk t' = ((Alts.alt i is r).den mk t').bind fun x => .ok (oneOrAnd (x.1.map .not), x.2) := by
    simp only [Fac.den, Alts.den, neg_den, negs_den, bind_bind]; rfl
  rw [e1, e2]
  refine (alts_twice hmk (.alt i is r) h).bind fun x y hxy => .ok ⟨?_, hxy.2.1⟩
  obtain ⟨⟨h1, h2⟩, _⟩ := hxy
  obtain ⟨xs, tx⟩ := x
  obtain ⟨ys, ty⟩ := y
  cases h1 with
  | nil => exact absurd rfl h2
  | cons h0 h1 =>
    cases h1 with
    | nil => exact .not h0
    | cons h1 h3 => exact .nots (.cons h0 (.cons h1 h3))

theorem plus_gp (hmk : Uniform mk) {a : Fac} (ha : a.bang = false) {t t' : Tab B} (h : TabG t t') : ExL (ResG false) ((Fac.rep1 a).den mk t) (a.oneMore.den mk t') := by
  rw [oneMore_den]
  simp only [Fac.den]
  refine (fac_twice hmk a h).also.bind fun x y ⟨hxy, e1, e2⟩ => ?_
  obtain ⟨k, c, e, hk⟩ := (fac_again hmk a e1).2 y.2 hxy.2.ext
  rw [e]
  exact .ok ⟨.plus (fac_calm hmk ha e1) hxy.1.weaken hk.weaken, hxy.2.kw, hxy.2.toks, hxy.2.gr, hxy.2.vars⟩

theorem sufs_counts (hmk : Uniform mk) : ∀ (s : Sufs) {m : Bool} {a a' : Gr B} {t t' : Tab B}, Gp (s.counts m) a a' → TabG t t' → ExL (ResG m) (s.den mk a t) (s.den mk a' t')
  | .nil, m, a, a', t, t', ha, h => .ok ⟨ha, h⟩
  | .list f s, m, a, a', t, t', ha, h => by
    simp only [Sufs.den]
    exact (fac_twice hmk f h).bind fun x y hxy => (sufs_twice hmk s (.list ha hxy.1.weaken) (hxy.2.cells _ _)).mono fun _ _ h => ⟨Gp.any h.1, h.2⟩
  | .list0 f s, m, a, a', t, t', ha, h => by
    simp only [Sufs.den]
    exact (fac_twice hmk f h).bind fun x y hxy => (sufs_twice hmk s (.list ha hxy.1.weaken) (hxy.2.cells _ _)).mono fun _ _ h => ⟨Gp.any h.1, h.2⟩
  | .mark n s, m, a, a', t, t', ha, h => (sufs_twice hmk (.mark n s) ha h).mono fun _ _ h => ⟨Gp.any h.1, h.2⟩

theorem list_gp (hmk : Uniform mk) {a b : Fac} {s : Sufs} {m : Bool} (ha : a.bang = false) (hs : s.counts m = false) {t t' : Tab B} (h : TabG t t') :
    ExL (ResG m) ((Item.term a (.list b s)).den mk t) ((Item.term (.listed a b) s).den mk t') := by
  simp only [Item.den, Sufs.den, listed_den, bind_bind]
  refine (fac_twice hmk a h).also.bind fun x x' ⟨hx, e1, e2⟩ => (fac_twice hmk b hx.2).also.bind fun y y' ⟨hy, e3, e4⟩ => ?_
  obtain ⟨k, c, e, hk⟩ := (fac_again hmk a e1).2 y'.2 ((fac_again hmk b e3).1.extG hy.2.ext)
  rw [e]
  refine sufs_counts hmk s ?_ ⟨hy.2.kw, hy.2.toks, hy.2.gr, hy.2.vars⟩
  rw [hs]
  exact .lst (fac_calm hmk ha e1) hx.1.weaken hk.weaken hy.1.weaken

theorem list0_gp (hmk : Uniform mk) {a b : Fac} {s : Sufs} {m : Bool} (hs : s.counts m = false) {t t' : Tab B} (h : TabG t t') :
    ExL (ResG m) ((Item.term a (.list0 b s)).den mk t) ((Item.term (.optList a b) s).den mk t') := by
  simp only [Item.den, Sufs.den, optList_den, bind_bind]
  refine (fac_twice hmk a h).bind fun x x' hx => (fac_twice hmk b hx.2).bind fun y y' hy => ?_
  refine sufs_counts hmk s ?_ ⟨hy.2.kw, hy.2.toks, hy.2.gr, hy.2.vars⟩
  rw [hs]
  exact .lst0 hx.1.weaken hy.1.weaken

theorem Gp.loose {m : Bool} {g g' : Gr B} (h : Gp m g g') : Gp false g g' := by
  cases m with
  | true => exact h.weaken
  | false => exact h

mutual
theorem fac_spelt (hmk : Uniform mk) : ∀ (f : Fac) {f' : Fac} {m : Bool} {t t' : Tab B}, FacSpelt m f f' → TabG t t' → ExL (ResG m) (f.den mk t) (f'.den mk t')
  | .ident n, f', m, t, t', hf, h => by cases hf; exact (fac_twice hmk _ h).mono fun _ _ h => ⟨Gp.any h.1, h.2⟩
  | .char n, f', m, t, t', hf, h => by cases hf; exact (fac_twice hmk _ h).mono fun _ _ h => ⟨Gp.any h.1, h.2⟩
  | .string n, f', m, t, t', hf, h => by cases hf; exact (fac_twice hmk _ h).mono fun _ _ h => ⟨Gp.any h.1, h.2⟩
  | .int n, f', m, t, t', hf, h => by cases hf; exact (fac_twice hmk _ h).mono fun _ _ h => ⟨Gp.any h.1, h.2⟩
  | .rep0 f, f', m, t, t', hf, h => by
    cases hf with
    | same => exact (fac_twice hmk _ h).mono fun _ _ h => ⟨Gp.any h.1, h.2⟩
    | rep0 hf => simp only [Fac.den]; exact (fac_spelt hmk f hf h).bind fun a b hab => .ok ⟨.rep0 hab.1, hab.2.cells _ _⟩
    | star hf =>
      rw [star_den]
      simp only [Fac.den]
      exact (fac_spelt hmk f hf h).bind fun a b hab => .ok ⟨.star hab.1, hab.2.kw, hab.2.toks, hab.2.gr, hab.2.vars⟩
  | .rep1 f, f', m, t, t', hf, h => by
    cases hf with
    | same => exact (fac_twice hmk _ h).mono fun _ _ h => ⟨Gp.any h.1, h.2⟩
    | plus ha => exact plus_gp hmk ha h
    | rep1 hf => simp only [Fac.den]; exact (fac_spelt hmk f hf h).bind fun a b hab => .ok ⟨.rep1 hab.1, hab.2.cells _ _⟩
  | .rep01 f, f', m, t, t', hf, h => by
    cases hf with
    | same => exact (fac_twice hmk _ h).mono fun _ _ h => ⟨Gp.any h.1, h.2⟩
    | rep01 hf => simp only [Fac.den]; exact (fac_spelt hmk f hf h).bind fun a b hab => .ok ⟨.rep01 hab.1, hab.2.cells _ _⟩
    | opt hf =>
      rw [orOne_den]
      simp only [Fac.den]
      exact (fac_spelt hmk f hf h).bind fun a b hab => .ok ⟨.opt hab.1, hab.2.kw, hab.2.toks, hab.2.gr, hab.2.vars⟩
  | .not f, f', m, t, t', hf, h => by
    cases hf with
    | same => exact (fac_twice hmk _ h).mono fun _ _ h => ⟨Gp.any h.1, h.2⟩
    | not hf => simp only [Fac.den]; exact (fac_spelt hmk f hf h).bind fun a b hab => .ok ⟨.not hab.1, hab.2⟩
    | nots => exact nots_gp hmk h
  | .peek f, f', m, t, t', hf, h => by
    cases hf with
    | same => exact (fac_twice hmk _ h).mono fun _ _ h => ⟨Gp.any h.1, h.2⟩
    | peek hf => simp only [Fac.den]; exact (fac_spelt hmk f hf h).bind fun a b hab => .ok ⟨.peek hab.1, hab.2⟩
    | twice hf =>
      rw [twice_den]
      simp only [Fac.den]
      exact (fac_spelt hmk f hf h).bind fun a b hab => .ok ⟨.twice hab.1, hab.2⟩
  | .paren g, f', m, t, t', hf, h => by
    cases hf with
    | same => exact (fac_twice hmk _ h).mono fun _ _ h => ⟨Gp.any h.1, h.2⟩
    | paren hf => simp only [Fac.den]; exact (alts_spelt hmk g hf h).bind fun a b hab => .ok ⟨hab.2.2, hab.2.1⟩
    | each hu ha hb hc => exact each_gp hmk hu ha hb hc h
    | orNot hu ha hb => exact orNot_gp hmk hu ha hb h
theorem sufs_spelt (hmk : Uniform mk) : ∀ (s : Sufs) {s' : Sufs} {m : Bool} {a a' : Gr B} {t t' : Tab B}, SufsSpelt s s' → Gp (s.counts m) a a' → TabG t t' →
    ExL (ResG m) (s.den mk a t) (s'.den mk a' t')
  | .nil, s', m, a, a', t, t', hs, ha, h => by cases hs; exact .ok ⟨ha, h⟩
  | .list f s, s', m, a, a', t, t', hs, ha, h => by
    cases hs with
    | list hf hs =>
      simp only [Sufs.den]
      exact (fac_spelt hmk f hf h).bind fun x y hxy => sufs_spelt hmk s hs (.list ha hxy.1) (hxy.2.cells _ _)
  | .list0 f s, s', m, a, a', t, t', hs, ha, h => by
    cases hs with
    | list0 hf hs =>
      simp only [Sufs.den]
      exact (fac_spelt hmk f hf h).bind fun x y hxy => sufs_spelt hmk s hs (.list ha hxy.1) (hxy.2.cells _ _)
  | .mark n s, s', m, a, a', t, t', hs, ha, h => by
    cases hs with
    | mark hs =>
      simp only [Sufs.den]
      rcases mark_gp hmk ha n with ⟨g, g', e, e', hg⟩ | ⟨p, e, e'⟩
      · rw [e, e']; exact sufs_spelt hmk s hs (Gp.any hg) h
      · rw [e, e']; exact .error
theorem item_spelt (hmk : Uniform mk) : ∀ (i : Item) {i' : Item} {m : Bool} {t t' : Tab B}, ItemSpelt m i i' → TabG t t' → ExL (ResG m) (i.den mk t) (i'.den mk t')
  | .cut, i', m, t, t', hi, h => by cases hi; exact .ok ⟨.nil, h⟩
  | .term f s, i', m, t, t', hi, h => by
    cases hi with
    | term hf hs =>
      simp only [Item.den]
      exact (fac_spelt hmk f hf h).bind fun x y hxy => sufs_spelt hmk s hs hxy.1 hxy.2
    | list ha hs => exact list_gp hmk ha hs h
    | list0 hs => exact list0_gp hmk hs h
theorem seq_spelt (hmk : Uniform mk) : ∀ (s : ItemSeq) {s' : ItemSeq} {t t' : Tab B}, SeqSpelt s s' → TabG t t' →
    ExL (fun x x' : List (Gr B) × Tab B => GpL x.1 x'.1 ∧ TabG x.2 x'.2) (s.den mk t) (s'.den mk t')
  | .nil, s', t, t', hs, h => by cases hs; exact .ok ⟨.nil, h⟩
  | .cons i s, s', t, t', hs, h => by
    cases hs with
    | cons hi hs =>
      simp only [ItemSeq.den]
      exact (item_spelt hmk i hi h).bind fun x y hxy => (seq_spelt hmk s hs hxy.2).bind fun z w hzw => .ok ⟨.cons hxy.1 hzw.1, hzw.2⟩
theorem alts_spelt (hmk : Uniform mk) : ∀ (a : Alts) {a' : Alts} {m : Bool} {t t' : Tab B}, AltsSpelt m a a' → TabG t t' →
    ExL (fun x x' : List (Gr B) × Tab B => (GpL x.1 x'.1 ∧ x.1 ≠ []) ∧ TabG x.2 x'.2 ∧ Gp m (oneOrOr x.1) (oneOrOr x'.1)) (a.den mk t) (a'.den mk t')
  | .one i .nil, a', m, t, t', ha, h => by
    cases ha with
    | item hi =>
      simp only [Alts.den, ItemSeq.den]
      exact (item_spelt hmk i hi h).bind fun x y hxy => .ok ⟨⟨.cons hxy.1.loose .nil, nofun⟩, hxy.2, hxy.1⟩
  | .one i (.cons j is), a', m, t, t', ha, h => by
    cases ha with
    | seq hi hs =>
      rw [Alts.den, Alts.den]
      refine (item_spelt hmk i hi h).bind fun x y hxy => (seq_spelt hmk (.cons j is) hs hxy.2).also.bind fun z w ⟨hzw, e, _⟩ => .ok ?_
      have hg : Gp m (oneOrAnd (x.1 :: z.1)) (oneOrAnd (y.1 :: w.1)) := by
        have hz := seq_size e
        obtain ⟨z1, z2⟩ := z
        obtain ⟨w1, w2⟩ := w
        obtain ⟨h1, h2⟩ := hzw
        cases h1 with
        | nil => cases hz
        | cons h1 h3 => exact .and (.cons hxy.1 (.cons h1 h3.seq)) fun _ => by simp [h3.len]
      exact ⟨⟨.cons hg.loose .nil, nofun⟩, hzw.2, hg⟩
  | .alt i is r, a', m, t, t', ha, h => by
    cases ha with
    | alt hi hs hr =>
      simp only [Alts.den]
      refine (item_spelt hmk i hi h).bind fun x y hxy => (seq_spelt hmk is hs hxy.2).bind fun z w hzw => (alts_spelt hmk r hr hzw.2).bind fun u v huv => .ok ?_
      have hg : Gp false (oneOrAnd (x.1 :: z.1)) (oneOrAnd (y.1 :: w.1)) := oneOrAnd_gp (.cons hxy.1 hzw.1.seq) nofun
      refine ⟨⟨.cons hg huv.1.1, nofun⟩, huv.2.1, ?_⟩
      obtain ⟨u1, u2⟩ := u
      obtain ⟨v1, v2⟩ := v
      obtain ⟨⟨h1, h2⟩, _⟩ := huv
      cases h1 with
      | nil => exact absurd rfl h2
      | cons h1 h3 => exact .or (.cons hg (.cons h1 h3.alts)) fun _ => by simp [h3.len]
end

/-- Rules with operators written out. -/
theorem doc_spelt (hmk : Uniform mk) {rs rs' : List Rule} (hr : RulesSpelt rs rs') {t t' : Tab B} (h : TabG t t') : ExL TabG (denDoc mk rs t) (denDoc mk rs' t') := by
  induction hr generalizing t t' with
  | nil => exact .ok h
  | cons ha _ ih =>
    simp only [denDoc, Rule.den]
    exact ((alts_spelt hmk _ ha h).bind fun x y hxy => define_gp hxy.2.1 _ hxy.2.2).bind fun t t' h => ih h

end
end Tpl
