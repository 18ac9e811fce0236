import Verif.Proof.Share
import Verif.Proof.PrintDoc

/-! Compiling the same text with two scanners. -/
namespace Tpl
open Spec KwScanner
variable {B : Type} {mk : Marker B}

/-! ### Scanners -/

/-- The kinds of keywords are above those of the language and different from each other. -/
structure KwFine (k : KwScanner) : Prop where
  ready : k.keywords ≠ none
  range : ∀ {w a}, k.keywords.get w = some a → 0xb0 ≤ a ∧ a < 0xb0 + k.tokens.length
  inj : ∀ {w w' a}, k.keywords.get w = some a → k.keywords.get w' = some a → w = w'

/-- The keywords stay. -/
def Grows (k k' : KwScanner) : Prop := ∀ w a, k.keywords.get w = some a → k'.keywords.get w = some a

theorem Grows.refl (k : KwScanner) : Grows k k := fun _ _ h => h
theorem Grows.trans {k k' k'' : KwScanner} (h : Grows k k') (h' : Grows k' k'') : Grows k k'' := fun w a e => h' w a (h w a e)

theorem sameKind_mono {k k' u u' : KwScanner} (h : Grows k u) (h' : Grows k' u') : ∀ a b, SameKind k k' a b → SameKind u u' a b := by
  rintro a b (h1 | ⟨w, h1, h2⟩)
  · exact .inl h1
  · exact .inr ⟨w, h w a h1, h' w b h2⟩

theorem kindRel {k k' : KwScanner} (h : KwFine k) (h' : KwFine k') : KindRel (SameKind k k') := by
  refine ⟨?_, ?_, ?_⟩
  · rintro a b a' b' (⟨rfl, h1⟩ | ⟨w, h1, h2⟩) (⟨rfl, h3⟩ | ⟨w', h3, h4⟩)
    · exact Iff.rfl
    · have := (h.range h3).1; have := (h'.range h4).1; omega
    · have := (h.range h1).1; have := (h'.range h2).1; omega
    · constructor
      · rintro rfl
        obtain rfl := h.inj h1 h3
        rw [h2] at h4; exact Option.some.inj h4
      · rintro rfl
        obtain rfl := h'.inj h2 h4
        rw [h1] at h3; exact Option.some.inj h3
  · rintro a b (⟨rfl, h1⟩ | ⟨w, h1, h2⟩)
    · exact Iff.rfl
    · have := (h.range h1).1; have := (h'.range h2).1; unfold INT; omega
  · rintro a b (⟨rfl, h1⟩ | ⟨w, h1, h2⟩)
    · exact Iff.rfl
    · have := (h.range h1).1; have := (h'.range h2).1; unfold FLOAT; omega

/-- One keyword more. -/
def addKw (k : KwScanner) (m : List (Str × Nat)) (kw lit : Str) : KwScanner :=
  { k with keywords := some ((kw, userTokenBegin + k.tokens.length) :: m), tokens := k.tokens ++ [lit] }

theorem addKw_get {k : KwScanner} {m : List (Str × Nat)} (hm : k.keywords = some m) (kw lit w : Str) :
    (addKw k m kw lit).keywords.get w = if w = kw then some (0xb0 + k.tokens.length) else k.keywords.get w := by
  show List.lookup w ((kw, userTokenBegin + k.tokens.length) :: m) = _
  rw [hm]
  by_cases h : w = kw
  · subst h
    rw [List.lookup_cons_self, if_pos rfl]
    rfl
  · rw [List.lookup_cons, show (w == kw) = false by simpa using h, if_neg h]
    rfl

theorem addKw_fine {k : KwScanner} (h : KwFine k) {m : List (Str × Nat)} (hm : k.keywords = some m) {kw : Str} (lit : Str) :
    KwFine (addKw k m kw lit) := by
  have hl : (addKw k m kw lit).tokens.length = k.tokens.length + 1 := by simp [addKw]
  refine ⟨by simp [addKw], ?_, ?_⟩
  · intro w a e
    rw [addKw_get hm] at e
    rw [hl]
    split at e
    · cases e; omega
    · have := h.range e; omega
  · intro w w' a e e'
    rw [addKw_get hm] at e e'
    split at e <;> split at e'
    · rename_i h1 h2; rw [h1, h2]
    · cases e; have := (h.range e').2; omega
    · cases e'; have := (h.range e).2; omega
    · exact h.inj e e'

theorem addKw_grows {k : KwScanner} {m : List (Str × Nat)} (hm : k.keywords = some m) {kw : Str} (lit : Str)
    (hn : k.keywords.get kw = none) : Grows k (addKw k m kw lit) := by
  intro w a e
  rw [addKw_get hm, if_neg]
  · exact e
  · rintro rfl; rw [hn] at e; cases e

theorem kinv_fine {k : KwScanner} (h : KInv k) (hr : k.keywords ≠ none) : KwFine k := by
  refine ⟨hr, ?_, ?_⟩
  · intro w a e
    obtain ⟨i, lit, rfl, h2, _⟩ := h.get w a e
    have := (List.getElem?_eq_some_iff.mp h2).1
    unfold userTokenBegin
    omega
  · intro w w' a e e'
    obtain ⟨i, lit, rfl, h2, h3⟩ := h.get w a e
    obtain ⟨i', lit', h1', h2', h3'⟩ := h.get w' _ e'
    obtain rfl : i = i' := by omega
    rw [h2] at h2'
    cases h2'
    rw [← h3, ← h3']

/-! ### Tables -/

/-- A rule, a variable. -/
def GrSame (R : Nat → Nat → Prop) (a b : Str × Gr B) : Prop := a.1 = b.1 ∧ SameGr R a.2 b.2
def VarSame (R : Nat → Nat → Prop) (a b : Str × Option (Gr B)) : Prop :=
  a.1 = b.1 ∧ ((a.2 = none ∧ b.2 = none) ∨ ∃ g g', a.2 = some g ∧ b.2 = some g' ∧ SameGr R g g')

/-- The tables of the same text, `t'` with a scanner that has had the keywords of `k0`. -/
structure TabSame (k0 : KwScanner) (t t' : Tab B) : Prop where
  gr : All2 (GrSame (SameKind t.scanner t'.scanner)) t.grammars t'.grammars
  vars : All2 (VarSame (SameKind t.scanner t'.scanner)) t.vars t'.vars
  cells : t.cells = t'.cells
  fine : KwFine t.scanner
  fine' : KwFine t'.scanner
  sub : ∀ w, t.scanner.keywords.get w ≠ none → t'.scanner.keywords.get w ≠ none
  sup : ∀ w, t'.scanner.keywords.get w ≠ none → k0.keywords.get w ≠ none ∨ t.scanner.keywords.get w ≠ none

theorem all2_mono {α β : Type} {P Q : α → β → Prop} (h : ∀ a b, P a b → Q a b) {as : List α} {bs : List β} (ha : All2 P as bs) : All2 Q as bs := by
  induction ha with
  | nil => exact .nil
  | cons h1 _ ih => exact .cons (h _ _ h1) ih

theorem GrSame.mono {R R' : Nat → Nat → Prop} (hR : ∀ a b, R a b → R' a b) (a b : Str × Gr B) (h : GrSame R a b) : GrSame R' a b :=
  ⟨h.1, h.2.mono hR⟩

theorem VarSame.mono {R R' : Nat → Nat → Prop} (hR : ∀ a b, R a b → R' a b) (a b : Str × Option (Gr B)) (h : VarSame R a b) : VarSame R' a b := by
  refine ⟨h.1, ?_⟩
  rcases h.2 with h | ⟨g, g', e, e', h⟩
  · exact .inl h
  · exact .inr ⟨g, g', e, e', h.mono hR⟩

theorem lookup_same {R : Nat → Nat → Prop} {as bs : List (Str × Gr B)} (h : All2 (GrSame R) as bs) (n : Str) :
    (as.lookup n = none ∧ bs.lookup n = none) ∨ ∃ g g', as.lookup n = some g ∧ bs.lookup n = some g' ∧ SameGr R g g' := by
  induction h with
  | nil => exact .inl ⟨rfl, rfl⟩
  | @cons a b as bs h1 _ ih =>
    obtain ⟨m, g⟩ := a
    obtain ⟨m', g'⟩ := b
    obtain ⟨rfl, h2⟩ : m = m' ∧ SameGr R g g' := h1
    by_cases hm : n = m
    · subst hm
      simp only [List.lookup_cons, beq_self_eq_true]
      exact .inr ⟨_, _, rfl, rfl, h2⟩
    · have : (n == m) = false := by simpa using hm
      simp only [List.lookup_cons, this]
      exact ih

theorem varNo_same {R : Nat → Nat → Prop} {as bs : List (Str × Option (Gr B))} (h : All2 (VarSame R) as bs) (n : Str) : varNo n as = varNo n bs := by
  induction h with
  | nil => rfl
  | @cons a b as bs h1 _ ih =>
    unfold varNo
    rw [h1.1, ih]

/-! ### Meanings -/

/-- What is left of the two compilations. -/
inductive Den2 {α : Type} (rel : (Nat → Nat → Prop) → α → α → Prop) (k0 : KwScanner) (t t' : Tab B) :
    Except ClPanic (α × Tab B) → Except ClPanic (α × Tab B) → Prop
  | err (e) : Den2 rel k0 t t' (.error e) (.error e)
  | ok {x x' u u'} : TabSame k0 u u' → Grows t.scanner u.scanner → Grows t'.scanner u'.scanner →
      rel (SameKind u.scanner u'.scanner) x x' → Den2 rel k0 t t' (.ok (x, u)) (.ok (x', u'))

variable {k0 : KwScanner} {α β : Type} {rel : (Nat → Nat → Prop) → α → α → Prop} {rel2 : (Nat → Nat → Prop) → β → β → Prop}

theorem Den2.later {t t' u u' : Tab B} {d d'} (h : Den2 rel k0 u u' d d') (h1 : Grows t.scanner u.scanner) (h2 : Grows t'.scanner u'.scanner) :
    Den2 rel k0 t t' d d' := by
  cases h with
  | err e => exact .err e
  | ok a b c d => exact .ok a (h1.trans b) (h2.trans c) d

theorem Den2.bind {t t' : Tab B} {d d'} (h : Den2 rel k0 t t' d d') {f f' : α × Tab B → Except ClPanic (β × Tab B)}
    (hf : ∀ x x' u u', TabSame k0 u u' → Grows t.scanner u.scanner → Grows t'.scanner u'.scanner → rel (SameKind u.scanner u'.scanner) x x' →
      Den2 rel2 k0 u u' (f (x, u)) (f' (x', u'))) : Den2 rel2 k0 t t' (d.bind f) (d'.bind f') := by
  cases h with
  | err e => exact .err e
  | ok a b c d => exact (hf _ _ _ _ a b c d).later b c

theorem newObj_tab {t t' : Tab B} (h : TabSame k0 t t') (f f' : Nat → Gr B) : TabSame k0 (newObj f t).2 (newObj f' t').2 :=
  ⟨h.gr, h.vars, congrArg (· + 1) h.cells, h.fine, h.fine', h.sub, h.sup⟩

theorem TabSame.scan {t t' : Tab B} (h : TabSame k0 t t') {k k' : KwScanner} (hg : Grows t.scanner k) (hg' : Grows t'.scanner k')
    (hf : KwFine k) (hf' : KwFine k') (hs : ∀ w, k.keywords.get w ≠ none → k'.keywords.get w ≠ none)
    (hp : ∀ w, k'.keywords.get w ≠ none → k0.keywords.get w ≠ none ∨ k.keywords.get w ≠ none) :
    TabSame k0 { t with scanner := k } { t' with scanner := k' } :=
  ⟨all2_mono (GrSame.mono (sameKind_mono hg hg')) h.gr, all2_mono (VarSame.mono (sameKind_mono hg hg')) h.vars, h.cells, hf, hf', hs, hp⟩

theorem tokenOf_some {l : Str} {t : Tab B} {n : Nat} {k : KwScanner} (h : t.scanner.ltot l = .ok (n, k)) (hn : n ≠ 0) :
    tokenOf l t = .ok (.tok n, { t with scanner := k }) := by
  unfold tokenOf
  rw [h]
  cases n with
  | zero => exact absurd rfl hn
  | succ n => rfl

theorem ltot_old {k : KwScanner} {rest : Str} {a : Nat} (h0 : ¬ Lit2Token (34 :: rest) ≠ ILLEGAL) (hr : rest ≠ [])
    (hg : k.keywords.get rest.dropLast = some a) : k.ltot (34 :: rest) = .ok (a, k) := by
  unfold ltot
  dsimp only
  rw [if_neg h0, if_pos rfl, if_neg hr, hg]

theorem ltot_new {k : KwScanner} {rest : Str} {m : List (Str × Nat)} (h0 : ¬ Lit2Token (34 :: rest) ≠ ILLEGAL) (hr : rest ≠ [])
    (hg : k.keywords.get rest.dropLast = none) (hm : k.keywords = some m) :
    k.ltot (34 :: rest) = .ok (0xb0 + k.tokens.length, addKw k m rest.dropLast (34 :: rest)) := by
  unfold ltot
  dsimp only
  rw [if_neg h0, if_pos rfl, if_neg hr, hg, hm]
  rfl

theorem tokenOf_same {t t' : Tab B} (h : TabSame k0 t t') (l : Str) : Den2 SameGr k0 t t' (tokenOf l t) (tokenOf l t') := by
  by_cases h0 : Lit2Token l ≠ ILLEGAL
  · have e : ∀ k : KwScanner, k.ltot l = .ok (Lit2Token l, k) := by
      intro k
      unfold ltot
      dsimp only
      rw [if_pos h0]
    rw [tokenOf_some (e _) h0, tokenOf_some (e _) h0]
    exact .ok h (.refl _) (.refl _) (.tok (.inl ⟨rfl, (lit_known h0).1⟩))
  · by_cases hb : l.head? = some 34 ∧ l.tail ≠ []
    · cases l with
      | nil => cases hb.1
      | cons c rest =>
        obtain ⟨hc, hr⟩ := hb
        obtain rfl : c = 34 := by simpa using hc
        have hr : rest ≠ [] := hr
        have hne : ∀ {k : KwScanner} {w a}, KwFine k → k.keywords.get w = some a → a ≠ 0 := fun hk e => by
          have := (hk.range e).1; omega
        have hself : ∀ {k : KwScanner} {m}, k.keywords = some m → (addKw k m rest.dropLast (34 :: rest)).keywords.get rest.dropLast = some (0xb0 + k.tokens.length) := by
          intro k m hm
          rw [addKw_get hm, if_pos rfl]
        cases hg : t.scanner.keywords.get rest.dropLast with
        | some a =>
          cases hg' : t'.scanner.keywords.get rest.dropLast with
          | none => exact absurd hg' (h.sub _ (by rw [hg]; simp))
          | some b =>
            rw [tokenOf_some (ltot_old h0 hr hg) (hne h.fine hg), tokenOf_some (ltot_old h0 hr hg') (hne h.fine' hg')]
            exact .ok h (.refl _) (.refl _) (.tok (.inr ⟨_, hg, hg'⟩))
        | none =>
          cases hm : t.scanner.keywords with
          | none => exact absurd hm h.fine.ready
          | some m =>
            have hadd : Grows t.scanner (addKw t.scanner m rest.dropLast (34 :: rest)) := addKw_grows hm _ hg
            rw [tokenOf_some (ltot_new h0 hr hg hm) (by omega)]
            cases hg' : t'.scanner.keywords.get rest.dropLast with
            | some b =>
              rw [tokenOf_some (ltot_old h0 hr hg') (hne h.fine' hg')]
              refine .ok (h.scan hadd (.refl _) (addKw_fine h.fine hm _) h.fine' ?_ ?_) hadd (.refl _) (.tok (.inr ⟨_, hself hm, hg'⟩))
              · intro w hw
                rw [addKw_get hm] at hw
                split at hw
                · rename_i e; rw [e, hg']; simp
                · exact h.sub w hw
              · intro w hw
                rw [addKw_get hm]
                split
                · exact .inr (by simp)
                · exact h.sup w hw
            | none =>
              cases hm' : t'.scanner.keywords with
              | none => exact absurd hm' h.fine'.ready
              | some m' =>
                have hadd' : Grows t'.scanner (addKw t'.scanner m' rest.dropLast (34 :: rest)) := addKw_grows hm' _ hg'
                rw [tokenOf_some (ltot_new h0 hr hg' hm') (by omega)]
                refine .ok (h.scan hadd hadd' (addKw_fine h.fine hm _) (addKw_fine h.fine' hm' _) ?_ ?_) hadd hadd' (.tok (.inr ⟨_, hself hm, hself hm'⟩))
                · intro w hw
                  rw [addKw_get hm] at hw
                  rw [addKw_get hm']
                  split
                  · simp
                  · rename_i hne
                    rw [if_neg hne] at hw
                    exact h.sub w hw
                · intro w hw
                  rw [addKw_get hm'] at hw
                  rw [addKw_get hm]
                  split
                  · exact .inr (by simp)
                  · rename_i hne
                    rw [if_neg hne] at hw
                    exact h.sup w hw
    · have e : ∃ p : ClPanic, ∀ t : Tab B, tokenOf l t = .error p := by
        unfold tokenOf ltot
        dsimp only
        cases l with
        | nil => exact ⟨.ltot, fun t => by rw [if_neg h0]⟩
        | cons c rest =>
          by_cases hc : c = 34
          · refine ⟨.ltot, fun t => ?_⟩
            rw [if_neg h0]
            dsimp only
            rw [if_pos hc, if_pos]
            exact Classical.byContradiction fun hr => hb ⟨by rw [hc]; rfl, hr⟩
          · refine ⟨.illegal (c :: rest), fun t => ?_⟩
            have h0 : Lit2Token (c :: rest) = 0 := Classical.byContradiction h0
            rw [if_neg (by rw [h0]; decide)]
            dsimp only
            rw [if_neg hc, h0]
            rfl
      obtain ⟨p, e⟩ := e
      rw [e, e]
      exact .err p

theorem TabSame.var {t t' : Tab B} (h : TabSame k0 t t') (n : Str) : TabSame k0 { t with vars := t.vars ++ [(n, none)] } { t' with vars := t'.vars ++ [(n, none)] } :=
  ⟨h.gr, h.vars.append (.cons ⟨rfl, .inl ⟨rfl, rfl⟩⟩ .nil), h.cells, h.fine, h.fine', h.sub, h.sup⟩

theorem nameOf_same {t t' : Tab B} (h : TabSame k0 t t') (n : Str) : Den2 SameGr k0 t t' (nameOf n t) (nameOf n t') := by
  unfold nameOf
  by_cases h0 : n = []
  · rw [if_pos h0, if_pos h0]; exact .err _
  rw [if_neg h0, if_neg h0]
  by_cases hu : isUpper n = true
  · rw [if_pos hu, if_pos hu]; exact tokenOf_same h n
  rw [if_neg hu, if_neg hu, ← varNo_same h.vars n]
  rcases lookup_same h.gr n with ⟨e1, e2⟩ | ⟨g1, g1', e1, e2, hl⟩
  · rw [e1, e2]
    cases varNo n t.vars with
    | some v => exact .ok h (.refl _) (.refl _) .var
    | none =>
      dsimp only
      split
      · exact .ok h (.refl _) (.refl _) .tru
      · rw [h.vars.length]
        exact .ok (h.var n) (.refl _) (.refl _) .var
  · rw [e1, e2]
    exact .ok h (.refl _) (.refl _) (.named hl)

theorem oneOrAnd_same {R : Nat → Nat → Prop} {gs gs' : List (Gr B)} (h : SameGrs R gs gs') : SameGr R (oneOrAnd gs) (oneOrAnd gs') := by
  cases h with
  | nil => exact .and .nil
  | cons h1 h2 =>
    cases h2 with
    | nil => exact h1
    | cons h2 h3 => exact .and (.cons h1 (.cons h2 h3))

theorem oneOrOr_same {R : Nat → Nat → Prop} {gs gs' : List (Gr B)} (h : SameGrs R gs gs') : SameGr R (oneOrOr gs) (oneOrOr gs') := by
  cases h with
  | nil => exact .or .nil
  | cons h1 h2 =>
    cases h2 with
    | nil => exact h1
    | cons h2 h3 => exact .or (.cons h1 (.cons h2 h3))

mutual
theorem fac_same (hmk : BlindMarker mk) : ∀ (f : Fac) {t t' : Tab B}, TabSame k0 t t' → Den2 SameGr k0 t t' (f.den mk t) (f.den mk t')
  | .ident n, t, t', h => nameOf_same h n
  | .char l, t, t', h => tokenOf_same h l
  | .string l, t, t', h => tokenOf_same h l
  | .int l, t, t', h => by
    simp only [Fac.den]
    split
    · exact .ok h (.refl _) (.refl _) .tru
    · exact .err _
  | .rep0 f, t, t', h => (fac_same hmk f h).bind fun x x' u u' hu _ _ hx => by
    refine .ok (newObj_tab hu (.rep0 · x) (.rep0 · x')) (.refl _) (.refl _) ?_
    show SameGr _ (.rep0 u.cells x) (.rep0 u'.cells x')
    rw [hu.cells]; exact .rep0 hx
  | .rep1 f, t, t', h => (fac_same hmk f h).bind fun x x' u u' hu _ _ hx => by
    refine .ok (newObj_tab hu (.rep1 · x) (.rep1 · x')) (.refl _) (.refl _) ?_
    show SameGr _ (.rep1 u.cells x) (.rep1 u'.cells x')
    rw [hu.cells]; exact .rep1 hx
  | .rep01 f, t, t', h => (fac_same hmk f h).bind fun x x' u u' hu _ _ hx => by
    refine .ok (newObj_tab hu (.rep01 · x) (.rep01 · x')) (.refl _) (.refl _) ?_
    show SameGr _ (.rep01 u.cells x) (.rep01 u'.cells x')
    rw [hu.cells]; exact .rep01 hx
  | .not f, t, t', h => (fac_same hmk f h).bind fun x x' u u' hu _ _ hx => .ok hu (.refl _) (.refl _) (.not hx)
  | .peek f, t, t', h => (fac_same hmk f h).bind fun x x' u u' hu _ _ hx => .ok hu (.refl _) (.refl _) (.peek hx)
  | .paren g, t, t', h => (alts_same hmk g h).bind fun x x' u u' hu _ _ hx => .ok hu (.refl _) (.refl _) (oneOrOr_same hx)
theorem sufs_same (hmk : BlindMarker mk) : ∀ (s : Sufs) {t t' : Tab B} {a a' : Gr B}, TabSame k0 t t' → SameGr (SameKind t.scanner t'.scanner) a a' →
    Den2 SameGr k0 t t' (s.den mk a t) (s.den mk a' t')
  | .nil, t, t', a, a', h, ha => .ok h (.refl _) (.refl _) ha
  | .list f r, t, t', a, a', h, ha => (fac_same hmk f h).bind fun x x' u u' hu hg hg' hx => by
    refine (sufs_same hmk r (newObj_tab hu (.list · a x false) (.list · a' x' false)) ?_).later (.refl _) (.refl _)
    show SameGr _ (.list u.cells a x false) (.list u'.cells a' x' false)
    rw [hu.cells]
    exact .list (ha.mono (sameKind_mono hg hg')) hx
  | .list0 f r, t, t', a, a', h, ha => (fac_same hmk f h).bind fun x x' u u' hu hg hg' hx => by
    refine (sufs_same hmk r (newObj_tab hu (.list · a x true) (.list · a' x' true)) ?_).later (.refl _) (.refl _)
    show SameGr _ (.list u.cells a x true) (.list u'.cells a' x' true)
    rw [hu.cells]
    exact .list (ha.mono (sameKind_mono hg hg')) hx
  | .mark n r, t, t', a, a', h, ha => by
    simp only [Sufs.den]
    rcases hmk _ a a' n ha with ⟨e, e1, e2⟩ | ⟨x, x', e1, e2, hx⟩
    · rw [e1, e2]; exact .err _
    · rw [e1, e2]; exact sufs_same hmk r h hx
theorem item_same (hmk : BlindMarker mk) : ∀ (i : Item) {t t' : Tab B}, TabSame k0 t t' → Den2 SameGr k0 t t' (i.den mk t) (i.den mk t')
  | .term f s, t, t', h => (fac_same hmk f h).bind fun x x' u u' hu _ _ hx => sufs_same hmk s hu hx
  | .cut, t, t', h => .ok h (.refl _) (.refl _) .nil
theorem seq_same (hmk : BlindMarker mk) : ∀ (s : ItemSeq) {t t' : Tab B}, TabSame k0 t t' → Den2 SameGrs k0 t t' (s.den mk t) (s.den mk t')
  | .nil, t, t', h => .ok h (.refl _) (.refl _) .nil
  | .cons i r, t, t', h => (item_same hmk i h).bind fun x x' u u' hu _ _ hx => (seq_same hmk r hu).bind fun y y' v v' hv hg hg' hy =>
    .ok hv (.refl _) (.refl _) (.cons (hx.mono (sameKind_mono hg hg')) hy)
theorem alts_same (hmk : BlindMarker mk) : ∀ (a : Alts) {t t' : Tab B}, TabSame k0 t t' → Den2 SameGrs k0 t t' (a.den mk t) (a.den mk t')
  | .one i is, t, t', h => (item_same hmk i h).bind fun x x' u u' hu _ _ hx => (seq_same hmk is hu).bind fun y y' v v' hv hg hg' hy =>
    .ok hv (.refl _) (.refl _) (.cons (oneOrAnd_same (.cons (hx.mono (sameKind_mono hg hg')) hy)) .nil)
  | .alt i is r, t, t', h => (item_same hmk i h).bind fun x x' u u' hu _ _ hx => (seq_same hmk is hu).bind fun y y' v v' hv hg hg' hy =>
    (alts_same hmk r hv).bind fun z z' w w' hw hg2 hg2' hz =>
    .ok hw (.refl _) (.refl _) (.cons ((oneOrAnd_same (.cons (hx.mono (sameKind_mono hg hg')) hy)).mono (sameKind_mono hg2 hg2')) hz)
end

theorem sameGr_nil {R : Nat → Nat → Prop} {g g' : Gr B} (h : SameGr R g g') : g = .nil ↔ g' = .nil := by
  cases h <;> simp

/-- What is left of the two compilations of rules. -/
inductive Doc2 (k0 : KwScanner) (t t' : Tab B) : Except ClPanic (Tab B) → Except ClPanic (Tab B) → Prop
  | err (e) : Doc2 k0 t t' (.error e) (.error e)
  | ok {u u'} : TabSame k0 u u' → Grows t.scanner u.scanner → Grows t'.scanner u'.scanner → Doc2 k0 t t' (.ok u) (.ok u')

theorem define_same {t t' : Tab B} (h : TabSame k0 t t') (n : Str) {g g' : Gr B} (hg : SameGr (SameKind t.scanner t'.scanner) g g') :
    Doc2 k0 t t' (define n g t) (define n g' t') := by
  unfold define
  rw [← varNo_same h.vars n]
  cases hv : varNo n t.vars with
  | some v =>
    dsimp only
    have hset : g ≠ .nil → TabSame k0 { t with vars := t.vars.set v (n, some g) } { t' with vars := t'.vars.set v (n, some g') } := fun _ =>
      ⟨h.gr, h.vars.set v ⟨rfl, .inr ⟨_, _, rfl, rfl, hg⟩⟩, h.cells, h.fine, h.fine', h.sub, h.sup⟩
    rcases h.vars.get v with ⟨e1, e2⟩ | ⟨⟨a, o⟩, ⟨b, o'⟩, e1, e2, hab⟩
    · obtain ⟨o, ho⟩ := varNo_some hv
      rw [e1] at ho; cases ho
    · rw [e1, e2]
      rcases hab.2 with ⟨h1, h2⟩ | ⟨x, x', h1, h2, _⟩
      · dsimp only at h1 h2
        subst h1 h2
        cases hg with
        | nil => exact .ok h (.refl _) (.refl _)
        | _ => exact .ok (hset (by simp)) (.refl _) (.refl _)
      · dsimp only at h1 h2
        subst h1 h2
        exact .err _
  | none =>
    rcases lookup_same h.gr n with ⟨e1, e2⟩ | ⟨g1, g1', e1, e2, _⟩
    · rw [e1, e2]
      exact .ok ⟨.cons ⟨rfl, hg⟩ h.gr, h.vars, h.cells, h.fine, h.fine', h.sub, h.sup⟩ (.refl _) (.refl _)
    · rw [e1, e2]
      exact .err _

theorem denDoc_same (hmk : BlindMarker mk) : ∀ (rs : List Rule) {t t' : Tab B}, TabSame k0 t t' → Doc2 k0 t t' (denDoc mk rs t) (denDoc mk rs t')
  | [], t, t', h => .ok h (.refl _) (.refl _)
  | r :: rs, t, t', h => by
    simp only [denDoc, Rule.den]
    have := alts_same hmk r.body h
    generalize r.body.den mk t = d at this
    generalize r.body.den mk t' = d' at this
    cases this with
    | err e => exact .err e
    | @ok x x' u u' hu hg hg' hx =>
      have := define_same hu r.name (oneOrOr_same hx)
      show Doc2 k0 t t' (Except.bind (define r.name (oneOrOr x) u) _) (Except.bind (define r.name (oneOrOr x') u') _)
      generalize define r.name (oneOrOr x) u = d at this
      generalize define r.name (oneOrOr x') u' = d' at this
      cases this with
      | err e => exact .err e
      | @ok v v' hv h1 h2 =>
        have := denDoc_same hmk rs hv
        show Doc2 k0 t t' (denDoc mk rs v) (denDoc mk rs v')
        generalize denDoc mk rs v = d at this
        generalize denDoc mk rs v' = d' at this
        cases this with
        | err e => exact .err e
        | ok hw h3 h4 => exact .ok hw ((hg.trans h1).trans h3) ((hg'.trans h2).trans h4)

/-! ### The keywords of a text -/

/-- The literal makes `w` a keyword. -/
def MakesWord (l w : Str) : Prop := l.head? = some 34 ∧ Lit2Token l = ILLEGAL ∧ l.tail.dropLast = w

/-- From `k` to `k'` the strings in `ks` have become keywords. -/
structure NewWords (ks : List (Nat × Str)) (k k' : KwScanner) : Prop where
  sc : k'.sc = k.sc
  grows : Grows k k'
  words : ∀ w, k'.keywords.get w ≠ none ↔ k.keywords.get w ≠ none ∨ ∃ l, (STRING, l) ∈ ks ∧ MakesWord l w

/-- Identifiers and characters do not begin with a quote. -/
def OnlyStrings (ks : List (Nat × Str)) : Prop := ∀ p ∈ ks, p.1 = IDENT ∨ p.1 = CHAR → p.2.head? ≠ some 34

theorem OnlyStrings.left {a b : List (Nat × Str)} (h : OnlyStrings (a ++ b)) : OnlyStrings a := fun p hp => h p (List.mem_append_left _ hp)
theorem OnlyStrings.right {a b : List (Nat × Str)} (h : OnlyStrings (a ++ b)) : OnlyStrings b := fun p hp => h p (List.mem_append_right _ hp)
theorem OnlyStrings.tail {a : Nat × Str} {b : List (Nat × Str)} (h : OnlyStrings (a :: b)) : OnlyStrings b := fun p hp => h p (List.mem_cons_of_mem _ hp)

theorem NewWords.same {ks : List (Nat × Str)} (h : ∀ l, (STRING, l) ∈ ks → ∀ w, ¬ MakesWord l w) (k : KwScanner) : NewWords ks k k :=
  ⟨rfl, .refl _, fun w => ⟨.inl, fun h' => h'.elim id fun ⟨l, hl, hw⟩ => absurd hw (h l hl w)⟩⟩

theorem NewWords.trans {a b : List (Nat × Str)} {k k' k'' : KwScanner} (h : NewWords a k k') (h' : NewWords b k' k'') : NewWords (a ++ b) k k'' := by
  refine ⟨h'.sc.trans h.sc, h.grows.trans h'.grows, fun w => ?_⟩
  rw [h'.words, h.words]
  constructor
  · rintro ((h1 | ⟨l, h1, h2⟩) | ⟨l, h1, h2⟩)
    · exact .inl h1
    · exact .inr ⟨l, List.mem_append_left _ h1, h2⟩
    · exact .inr ⟨l, List.mem_append_right _ h1, h2⟩
  · rintro (h1 | ⟨l, h1, h2⟩)
    · exact .inl (.inl h1)
    · rcases List.mem_append.mp h1 with h1 | h1
      · exact .inl (.inr ⟨l, h1, h2⟩)
      · exact .inr ⟨l, h1, h2⟩

/-- Operators and names around. -/
theorem NewWords.cons {p : Nat × Str} {a : List (Nat × Str)} {k k' : KwScanner} (h : NewWords a k k') (hp : p.1 ≠ STRING) : NewWords (p :: a) k k' := by
  have h0 : NewWords [p] k k := .same (fun l hl w hw => by
    obtain rfl : (STRING, l) = p := by simpa using hl
    exact hp rfl) k
  exact h0.trans h

theorem NewWords.snoc {p : Nat × Str} {a : List (Nat × Str)} {k k' : KwScanner} (h : NewWords a k k') (hp : p.1 ≠ STRING) : NewWords (a ++ [p]) k k' := by
  have h0 : NewWords [p] k' k' := .same (fun l hl w hw => by
    obtain rfl : (STRING, l) = p := by simpa using hl
    exact hp rfl) k'
  exact h.trans h0

/-- A token adds at most the word of its literal. -/
theorem tokenOf_words {t u : Tab B} {l : Str} {g : Gr B} (h : tokenOf l t = .ok (g, u)) :
    u.scanner.sc = t.scanner.sc ∧ Grows t.scanner u.scanner ∧
    ∀ w, u.scanner.keywords.get w ≠ none ↔ t.scanner.keywords.get w ≠ none ∨ MakesWord l w := by
  have same : (∀ w, ¬ MakesWord l w ∨ t.scanner.keywords.get w ≠ none) → t = u → u.scanner.sc = t.scanner.sc ∧ Grows t.scanner u.scanner ∧
      ∀ w, u.scanner.keywords.get w ≠ none ↔ t.scanner.keywords.get w ≠ none ∨ MakesWord l w := by
    rintro h1 rfl
    exact ⟨rfl, .refl _, fun w => ⟨.inl, fun h' => h'.elim id fun h2 => (h1 w).elim (absurd h2) id⟩⟩
  by_cases h0 : Lit2Token l ≠ ILLEGAL
  · refine same (fun w => .inl fun hw => h0 hw.2.1) ?_
    have e : t.scanner.ltot l = .ok (Lit2Token l, t.scanner) := by
      unfold ltot
      dsimp only
      rw [if_pos h0]
    rw [tokenOf_some e h0] at h
    cases h
    rfl
  · by_cases hb : l.head? = some 34 ∧ l.tail ≠ []
    · cases l with
      | nil => cases hb.1
      | cons c rest =>
        obtain ⟨hc, hr⟩ := hb
        obtain rfl : c = 34 := by simpa using hc
        have hr : rest ≠ [] := hr
        cases hg : t.scanner.keywords.get rest.dropLast with
        | some a =>
          have e := ltot_old h0 hr hg
          refine same (fun w => ?_) ?_
          · by_cases hw : rest.dropLast = w
            · exact .inr (by rw [← hw, hg]; simp)
            · exact .inl fun h => hw h.2.2
          · unfold tokenOf at h
            rw [e] at h
            cases a with
            | zero => cases h
            | succ a => cases h; rfl
        | none =>
          cases hm : t.scanner.keywords with
          | none =>
            unfold tokenOf ltot at h
            dsimp only at h
            rw [if_neg h0, if_pos rfl, if_neg hr, hg, hm] at h
            cases h
          | some m =>
            rw [tokenOf_some (ltot_new h0 hr hg hm) (by omega)] at h
            cases h
            refine ⟨rfl, addKw_grows hm _ hg, fun w => ?_⟩
            dsimp only
            rw [addKw_get hm, hm]
            have h0 : Lit2Token (34 :: rest) = ILLEGAL := Classical.byContradiction h0
            by_cases hw : w = rest.dropLast
            · rw [if_pos hw]
              exact ⟨fun _ => .inr ⟨rfl, h0, hw.symm⟩, fun _ => by simp⟩
            · rw [if_neg hw]
              exact ⟨.inl, fun h => h.elim id fun h2 => absurd h2.2.2.symm hw⟩
    · exfalso
      unfold tokenOf ltot at h
      dsimp only at h
      rw [if_neg h0] at h
      cases l with
      | nil => cases h
      | cons c rest =>
        dsimp only at h
        by_cases hc : c = 34
        · rw [if_pos hc, if_pos (show rest = [] from Classical.byContradiction fun hr => hb ⟨by rw [hc]; rfl, hr⟩)] at h
          cases h
        · have h0 : Lit2Token (c :: rest) = 0 := Classical.byContradiction h0
          rw [if_neg hc, h0] at h
          cases h

theorem token_new {t : Tab B} {x : Gr B × Tab B} {l : Str} (h : tokenOf l t = .ok x) : NewWords [(STRING, l)] t.scanner x.2.scanner := by
  obtain ⟨g, u⟩ := x
  obtain ⟨h1, h2, h3⟩ := tokenOf_words h
  refine ⟨h1, h2, fun w => ?_⟩
  rw [h3]
  simp

/-- A literal that does not begin with a quote adds nothing. -/
theorem token_plain {t : Tab B} {x : Gr B × Tab B} {p : Nat × Str} (h : tokenOf p.2 t = .ok x) (hp : p.1 ≠ STRING) (hq : p.2.head? ≠ some 34) :
    NewWords [p] t.scanner x.2.scanner := by
  obtain ⟨g, u⟩ := x
  obtain ⟨h1, h2, h3⟩ := tokenOf_words h
  refine ⟨h1, h2, fun w => ?_⟩
  rw [h3]
  constructor
  · rintro (h | h)
    · exact .inl h
    · exact absurd h.1 hq
  · rintro (h | ⟨l, hl, _⟩)
    · exact .inl h
    · obtain rfl : (STRING, l) = p := by simpa using hl
      exact absurd rfl hp

theorem name_new {t : Tab B} {x : Gr B × Tab B} {n : Str} (h : nameOf n t = .ok x) (hq : n.head? ≠ some 34) :
    NewWords [(IDENT, n)] t.scanner x.2.scanner := by
  unfold nameOf at h
  have same : t.scanner = x.2.scanner → NewWords [(IDENT, n)] t.scanner x.2.scanner := fun e => e ▸ .same (by simp [IDENT, STRING]) _
  split at h
  · cases h
  · split at h
    · exact token_plain (p := (IDENT, n)) h (by dsimp only; decide) hq
    · split at h
      · cases h; exact same rfl
      · cases h; exact same rfl
      · split at h
        · cases h; exact same rfl
        · cases h; exact same rfl

theorem opr_ne (k : Nat) (h : k ≠ STRING) : (opr k).1 ≠ STRING := h

mutual
theorem fac_new : ∀ (f : Fac) {t : Tab B} {x : Gr B × Tab B}, OnlyStrings f.flat → f.den mk t = .ok x → NewWords f.flat t.scanner x.2.scanner
  | .ident n, t, x, hw, h => name_new h (hw (IDENT, n) (by simp [Fac.flat]) (.inl rfl))
  | .char l, t, x, hw, h => token_plain (p := (CHAR, l)) h (by dsimp only; decide) (hw (CHAR, l) (by simp [Fac.flat]) (.inr rfl))
  | .string l, t, x, hw, h => token_new h
  | .int l, t, x, hw, h => by
    simp only [Fac.den] at h
    split at h
    · cases h
      exact .same (by simp [Fac.flat, INT, STRING]) _
    · cases h
  | .rep0 f, t, x, hw, h => by
    obtain ⟨y, h1, h2⟩ := bind_ok h
    cases h2
    exact (fac_new f hw.tail h1).cons (by decide)
  | .rep1 f, t, x, hw, h => by
    obtain ⟨y, h1, h2⟩ := bind_ok h
    cases h2
    exact (fac_new f hw.tail h1).cons (by decide)
  | .rep01 f, t, x, hw, h => by
    obtain ⟨y, h1, h2⟩ := bind_ok h
    cases h2
    exact (fac_new f hw.tail h1).cons (by decide)
  | .not f, t, x, hw, h => by
    obtain ⟨y, h1, h2⟩ := bind_ok h
    cases h2
    exact (fac_new f hw.tail h1).cons (by decide)
  | .peek f, t, x, hw, h => by
    obtain ⟨y, h1, h2⟩ := bind_ok h
    cases h2
    exact (fac_new f hw.tail h1).cons (by decide)
  | .paren g, t, x, hw, h => by
    obtain ⟨y, h1, h2⟩ := bind_ok h
    cases h2
    exact ((alts_new g hw.tail.left h1).snoc (by decide)).cons (by decide)
theorem sufs_new : ∀ (s : Sufs) {a : Gr B} {t : Tab B} {x : Gr B × Tab B}, OnlyStrings s.flat → s.den mk a t = .ok x → NewWords s.flat t.scanner x.2.scanner
  | .nil, a, t, x, hw, h => by
    cases h
    exact .same (by simp [Sufs.flat]) _
  | .list f r, a, t, x, hw, h => by
    obtain ⟨y, h1, h2⟩ := bind_ok h
    have h3 := sufs_new r hw.tail.right h2
    exact ((fac_new f hw.tail.left h1).trans h3).cons (by decide)
  | .list0 f r, a, t, x, hw, h => by
    obtain ⟨y, h1, h2⟩ := bind_ok h
    have h3 := sufs_new r hw.tail.right h2
    exact ((fac_new f hw.tail.left h1).trans h3).cons (by decide)
  | .mark n r, a, t, x, hw, h => by
    simp only [Sufs.den] at h
    split at h
    · exact ((sufs_new r hw.tail.tail h).cons (by dsimp only; decide)).cons (by decide)
    · cases h
theorem item_new : ∀ (i : Item) {t : Tab B} {x : Gr B × Tab B}, OnlyStrings i.flat → i.den mk t = .ok x → NewWords i.flat t.scanner x.2.scanner
  | .term f s, t, x, hw, h => by
    obtain ⟨y, h1, h2⟩ := bind_ok h
    exact (fac_new f hw.left h1).trans (sufs_new s hw.right h2)
  | .cut, t, x, hw, h => by
    cases h
    exact .same (by simp [Item.flat, opr, STRING]) _
theorem seq_new : ∀ (s : ItemSeq) {t : Tab B} {x : List (Gr B) × Tab B}, OnlyStrings s.flat → s.den mk t = .ok x → NewWords s.flat t.scanner x.2.scanner
  | .nil, t, x, hw, h => by
    cases h
    exact .same (by simp [ItemSeq.flat]) _
  | .cons i r, t, x, hw, h => by
    obtain ⟨y, h1, h2⟩ := bind_ok h
    obtain ⟨z, h3, h4⟩ := bind_ok h2
    have h5 := seq_new r hw.right h3
    cases h4
    exact (item_new i hw.left h1).trans h5
theorem alts_new : ∀ (a : Alts) {t : Tab B} {x : List (Gr B) × Tab B}, OnlyStrings a.flat → a.den mk t = .ok x → NewWords a.flat t.scanner x.2.scanner
  | .one i is, t, x, hw, h => by
    obtain ⟨y, h1, h2⟩ := bind_ok h
    obtain ⟨z, h3, h4⟩ := bind_ok h2
    have h5 := seq_new is hw.right h3
    cases h4
    exact (item_new i hw.left h1).trans h5
  | .alt i is r, t, x, hw, h => by
    obtain ⟨y, h1, h2⟩ := bind_ok h
    obtain ⟨z, h3, h4⟩ := bind_ok h2
    obtain ⟨w, h5, h6⟩ := bind_ok h4
    have h7 := alts_new r hw.right.tail h5
    cases h6
    exact ((item_new i hw.left.left h1).trans (seq_new is hw.left.right h3)).trans (h7.cons (by decide))
end

theorem define_scanner {n : Str} {g : Gr B} {t u : Tab B} (h : define n g t = .ok u) : u.scanner = t.scanner := by
  unfold define at h
  split at h
  · split at h
    · cases h
    · cases h; rfl
    · cases h; rfl
  · cases h
  · cases h; rfl

/-- The keywords after compiling a document. -/
theorem denDoc_new : ∀ (rs : List Rule) {t u : Tab B}, OnlyStrings (flatDoc rs) → denDoc mk rs t = .ok u → NewWords (flatDoc rs) t.scanner u.scanner
  | [], t, u, _, h => by
    cases h
    exact .same (by simp [flatDoc]) _
  | r :: rs, t, u, hw, h => by
    have e : flatDoc (r :: rs) = r.flat ++ flatDoc rs := rfl
    rw [e] at hw ⊢
    obtain ⟨v, h1, h2⟩ := bind_ok h
    obtain ⟨x, h3, h4⟩ := bind_ok h1
    have hb := alts_new r.body hw.left.tail.tail.left h3
    rw [← define_scanner h4] at hb
    exact (((hb.snoc (by decide)).cons (by decide)).cons (by dsimp only; decide)).trans (denDoc_new rs hw.right h2)

end Tpl
