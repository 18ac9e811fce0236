import Verif.Proof.ScannerWords
import Verif.Proof.PegEquiv
import Verif.Spec.Print

/-! What is printed is read back. -/
namespace Tpl
open Spec Scanner
variable {B : Type}

/-! ### Tables that correspond -/

/-- Element by element. -/
inductive All2 {α β : Type} (P : α → β → Prop) : List α → List β → Prop
  | nil : All2 P [] []
  | cons {a b as bs} : P a b → All2 P as bs → All2 P (a :: as) (b :: bs)

theorem All2.append {α β : Type} {P : α → β → Prop} {as as' : List α} {bs bs' : List β} (h : All2 P as bs) (h' : All2 P as' bs') :
    All2 P (as ++ as') (bs ++ bs') := by
  induction h with
  | nil => exact h'
  | cons h1 _ ih => exact .cons h1 ih

theorem All2.length {α β : Type} {P : α → β → Prop} {as : List α} {bs : List β} (h : All2 P as bs) : as.length = bs.length := by
  induction h with
  | nil => rfl
  | cons _ _ ih => simp [ih]

theorem All2.get {α β : Type} {P : α → β → Prop} {as : List α} {bs : List β} (h : All2 P as bs) (i : Nat) :
    (as[i]? = none ∧ bs[i]? = none) ∨ ∃ a b, as[i]? = some a ∧ bs[i]? = some b ∧ P a b := by
  induction h generalizing i with
  | nil => simp
  | cons h1 _ ih =>
    cases i with
    | zero => right; exact ⟨_, _, rfl, rfl, h1⟩
    | succ i => simpa using ih i

theorem All2.set {α β : Type} {P : α → β → Prop} {as : List α} {bs : List β} (h : All2 P as bs) (i : Nat) {a : α} {b : β} (hp : P a b) :
    All2 P (as.set i a) (bs.set i b) := by
  induction h generalizing i with
  | nil => exact .nil
  | cons h1 h2 ih =>
    cases i with
    | zero => exact .cons hp h2
    | succ i => exact .cons h1 (ih i)

/-- The two grammars parse alike. -/
structure Like (g g' : Gr B) : Prop where
  peg : PegEquiv (toPeg g) (toPeg g')
  left : isNil g = false
  right : isNil g' = false

/-- A rule, a variable. -/
def GrRel (a b : Str × Gr B) : Prop := a.1 = b.1 ∧ Like a.2 b.2
def VarRel (a b : Str × Option (Gr B)) : Prop :=
  a.1 = b.1 ∧ ((a.2 = none ∧ b.2 = none) ∨ ∃ g g', a.2 = some g ∧ b.2 = some g' ∧ Like g g')

/-- Tables with the same names and corresponding grammars. -/
structure TabRel (t t' : Tab B) : Prop where
  gr : All2 GrRel t.grammars t'.grammars
  vars : All2 VarRel t.vars t'.vars
  kw : t.scanner.keywords = t'.scanner.keywords
  toks : t.scanner.tokens = t'.scanner.tokens

theorem lookup_rel {as bs : List (Str × Gr B)} (h : All2 GrRel as bs) (n : Str) :
    (as.lookup n = none ∧ bs.lookup n = none) ∨ ∃ g g', as.lookup n = some g ∧ bs.lookup n = some g' ∧ Like g g' := by
  induction h with
  | nil => exact .inl ⟨rfl, rfl⟩
  | @cons a b as bs h1 _ ih =>
    obtain ⟨m, g⟩ := a
    obtain ⟨m', g'⟩ := b
    obtain ⟨rfl, h2⟩ : m = m' ∧ Like g g' := h1
    by_cases hm : n = m
    · subst hm
      simp only [List.lookup_cons, beq_self_eq_true]
      exact .inr ⟨_, _, rfl, rfl, h2⟩
    · have : (n == m) = false := by simpa using hm
      simp only [List.lookup_cons, this]
      exact ih

theorem varNo_rel {as bs : List (Str × Option (Gr B))} (h : All2 VarRel as bs) (n : Str) : varNo n as = varNo n bs := by
  induction h with
  | nil => rfl
  | @cons a b as bs h1 _ ih =>
    unfold varNo
    rw [h1.1, ih]

/-- Tables that differ in the number of cells only. -/
def SameTab (t t' : Tab B) : Prop := t'.grammars = t.grammars ∧ t'.vars = t.vars ∧ t'.scanner = t.scanner

theorem SameTab.refl (t : Tab B) : SameTab t t := ⟨rfl, rfl, rfl⟩

theorem SameTab.rel {t t' t2 : Tab B} (h : SameTab t t') (hr : TabRel t t2) : TabRel t' t2 := by
  obtain ⟨h1, h2, h3⟩ := h
  exact ⟨h1 ▸ hr.gr, h2 ▸ hr.vars, h3 ▸ hr.kw, h3 ▸ hr.toks⟩

theorem TabRel.same {t t2 t2' : Tab B} (hr : TabRel t t2) (h : SameTab t2 t2') : TabRel t t2' := by
  obtain ⟨h1, h2, h3⟩ := h
  exact ⟨h1 ▸ hr.gr, h2 ▸ hr.vars, h3 ▸ hr.kw, h3 ▸ hr.toks⟩

theorem newObj_same (f : Nat → Gr B) (t : Tab B) : SameTab t (newObj f t).2 := ⟨rfl, rfl, rfl⟩

theorem ltot_rel {k k2 : KwScanner} (h1 : k.keywords = k2.keywords) (h2 : k.tokens = k2.tokens) (l : Str) {n : Nat} {k' : KwScanner}
    (h : k.ltot l = .ok (n, k')) : ∃ k2', k2.ltot l = .ok (n, k2') ∧ k'.keywords = k2'.keywords ∧ k'.tokens = k2'.tokens := by
  unfold KwScanner.ltot at h ⊢
  dsimp only at h ⊢
  split at h
  · rw [if_pos (by assumption)]
    cases h
    exact ⟨_, rfl, h1, h2⟩
  · rw [if_neg (by assumption)]
    split at h
    · cases h
    · split at h
      · rw [if_pos (by assumption)]
        split at h
        · cases h
        · rw [if_neg (by assumption)]
          rw [← h1]
          split at h
          · cases h
            exact ⟨_, rfl, h1, h2⟩
          · rw [← h2]
            split at h
            · cases h
            · rename_i m hm
              cases h
              exact ⟨_, rfl, rfl, rfl⟩
      · rw [if_neg (by assumption)]
        cases h
        exact ⟨_, rfl, h1, h2⟩

theorem tokenOf_rel {l : Str} {t t' t2 : Tab B} {g : Gr B} (hr : TabRel t t2) (h : tokenOf l t = .ok (g, t')) :
    ∃ t2', tokenOf l t2 = .ok (g, t2') ∧ TabRel t' t2' := by
  unfold tokenOf at h ⊢
  cases hl : t.scanner.ltot l with
  | panic => rw [hl] at h; cases h
  | ok x =>
    obtain ⟨n, k'⟩ := x
    obtain ⟨k2', e1, e2, e3⟩ := ltot_rel hr.kw hr.toks l hl
    rw [hl] at h
    rw [e1]
    cases n with
    | zero => cases h
    | succ n =>
      cases h
      exact ⟨_, rfl, hr.gr, hr.vars, e2, e3⟩

theorem nameOf_rel {n : Str} {t t' t2 : Tab B} {g : Gr B} (hr : TabRel t t2) (hu : isUpper n = false) (h : nameOf n t = .ok (g, t')) :
    ∃ g2 t2', nameOf n t2 = .ok (g2, t2') ∧ TabRel t' t2' ∧ Like g g2 := by
  unfold nameOf at h ⊢
  split at h
  · cases h
  rw [if_neg (by assumption)]
  rw [if_neg (by simp [hu])] at h ⊢
  rw [← varNo_rel hr.vars n]
  rcases lookup_rel hr.gr n with ⟨e1, e2⟩ | ⟨g1, g1', e1, e2, hl⟩
  · rw [e1] at h
    rw [e2]
    cases hv : varNo n t.vars with
    | some v =>
      rw [hv] at h
      cases h
      exact ⟨_, _, rfl, hr, .refl _, rfl, rfl⟩
    | none =>
      rw [hv] at h
      dsimp only at h ⊢
      split at h
      · rw [if_pos (by assumption)]
        cases h
        exact ⟨_, _, rfl, hr, .refl _, rfl, rfl⟩
      · rw [if_neg (by assumption)]
        cases h
        rw [hr.vars.length]
        exact ⟨_, _, rfl, ⟨hr.gr, hr.vars.append (.cons ⟨rfl, .inl ⟨rfl, rfl⟩⟩ .nil), hr.kw, hr.toks⟩, .refl _, rfl, rfl⟩
  · rw [e1] at h
    rw [e2]
    cases h
    exact ⟨_, _, rfl, hr, ⟨hl.peg, rfl, rfl⟩⟩

theorem define_var {n : Str} {g : Gr B} {t : Tab B} {v : Nat} (hv : varNo n t.vars = some v) (ho : t.vars[v]? = some (n, none)) (hg : isNil g = false) :
    define n g t = .ok { t with vars := t.vars.set v (n, some g) } := by
  unfold define
  rw [hv]
  dsimp only
  rw [ho]
  cases g <;> first | rfl | cases hg

theorem define_rel {n : Str} {g g2 : Gr B} {t t' t2 : Tab B} (hr : TabRel t t2) (hl : Like g g2) (h : define n g t = .ok t') :
    ∃ t2', define n g2 t2 = .ok t2' ∧ TabRel t' t2' := by
  cases hv : varNo n t.vars with
  | some v =>
    have hv2 := hv
    rw [varNo_rel hr.vars n] at hv2
    obtain ⟨o, ho⟩ := varNo_some hv
    rcases hr.vars.get v with ⟨e1, e2⟩ | ⟨a, b, e1, e2, hab⟩
    · rw [e1] at ho; cases ho
    · rw [ho] at e1
      cases e1
      obtain ⟨m, o2⟩ := b
      obtain ⟨rfl, hab⟩ : n = m ∧ _ := hab
      rcases hab with ⟨h1, h2⟩ | ⟨g1, g1', h1, h2, _⟩
      · dsimp only at h1 h2
        subst h1 h2
        rw [define_var hv ho hl.left] at h
        rw [define_var hv2 e2 hl.right]
        cases h
        exact ⟨_, rfl, hr.gr, hr.vars.set v ⟨rfl, .inr ⟨_, _, rfl, rfl, hl⟩⟩, hr.kw, hr.toks⟩
      · dsimp only at h1
        subst h1
        unfold define at h
        rw [hv] at h
        dsimp only at h
        rw [ho] at h
        cases h
  | none =>
    unfold define at h ⊢
    rw [← varNo_rel hr.vars n, hv]
    rw [hv] at h
    rcases lookup_rel hr.gr n with ⟨e1, e2⟩ | ⟨g1, g1', e1, e2, _⟩
    · rw [e1] at h
      rw [e2]
      cases h
      exact ⟨_, rfl, .cons ⟨rfl, hl⟩ hr.gr, hr.vars, hr.kw, hr.toks⟩
    · rw [e1] at h
      cases h

/-! ### What a grammar refers to, from left to right -/

/-- How the leaves are printed. -/
structure Leaves where
  U : Uni
  kw : Str → Option Nat
  ttol : Nat → GoRes Str
  names : Nat → Str

/-- The literal of a token. -/
def Leaves.Lit (L : Leaves) (l : Str) : Prop :=
  (OkIdent L.U L.kw l ∧ isUpper l = true) ∨ Word L.U L.kw (CHAR, l) l ∨ Word L.U L.kw (STRING, l) l

mutual
/-- Looking up the names and tokens of the grammar, from left to right, changes the table `t` to `t'`. -/
def Builds (L : Leaves) : Gr B → Tab B → Tab B → Prop
  | .tok k, t, t' => ∃ l, L.Lit l ∧ L.ttol k = .ok l ∧ tokenOf l t = .ok (.tok k, t')
  | .tru, t, t' => SameTab t t'
  | .var v, t, t' => OkIdent L.U L.kw (L.names v) ∧ isUpper (L.names v) = false ∧ nameOf (L.names v) t = .ok (.var v, t')
  | .named n g, t, t' => OkIdent L.U L.kw n ∧ isUpper n = false ∧ nameOf n t = .ok (.named n g, t')
  | .peek g, t, t' => Builds L g t t'
  | .not g, t, t' => Builds L g t t'
  | .rep0 _ g, t, t' => ∃ t1, Builds L g t t1 ∧ SameTab t1 t'
  | .rep1 _ g, t, t' => ∃ t1, Builds L g t t1 ∧ SameTab t1 t'
  | .rep01 _ g, t, t' => ∃ t1, Builds L g t t1 ∧ SameTab t1 t'
  | .list _ a b _, t, t' => ∃ t1 t2, Builds L a t t1 ∧ Builds L b t1 t2 ∧ SameTab t2 t'
  | .and gs, t, t' => gs ≠ [] ∧ BuildsAll L gs t t'
  | .or gs, t, t' => gs ≠ [] ∧ BuildsAll L gs t t'
  | _, _, _ => False
def BuildsAll (L : Leaves) : List (Gr B) → Tab B → Tab B → Prop
  | [], t, t' => t' = t
  | g :: gs, t, t' => ∃ t1, Builds L g t t1 ∧ BuildsAll L gs t1 t'
end

/-! ### Trees joined -/

def sufsAppend : Sufs → Sufs → Sufs
  | .nil, s => s
  | .list f r, s => .list f (sufsAppend r s)
  | .list0 f r, s => .list0 f (sufsAppend r s)
  | .mark n r, s => .mark n (sufsAppend r s)

theorem sufsAppend_flat : ∀ (r s : Sufs), (sufsAppend r s).flat = r.flat ++ s.flat
  | .nil, s => by simp [sufsAppend, Sufs.flat]
  | .list f r, s => by simp [sufsAppend, Sufs.flat, sufsAppend_flat r s]
  | .list0 f r, s => by simp [sufsAppend, Sufs.flat, sufsAppend_flat r s]
  | .mark n r, s => by simp [sufsAppend, Sufs.flat, sufsAppend_flat r s]

theorem sufsAppend_den {mk : Marker B} : ∀ (r s : Sufs) (a : Gr B) (t : Tab B) {x : Gr B × Tab B}, r.den mk a t = .ok x →
    (sufsAppend r s).den mk a t = s.den mk x.1 x.2
  | .nil, s, a, t, x, h => by
    cases h
    rfl
  | .list f r, s, a, t, x, h => by
    obtain ⟨y, h1, h2⟩ := bind_ok h
    simp only [sufsAppend, Sufs.den]
    rw [h1]
    exact sufsAppend_den r s _ _ h2
  | .list0 f r, s, a, t, x, h => by
    obtain ⟨y, h1, h2⟩ := bind_ok h
    simp only [sufsAppend, Sufs.den]
    rw [h1]
    exact sufsAppend_den r s _ _ h2
  | .mark n r, s, a, t, x, h => by
    simp only [sufsAppend, Sufs.den] at h ⊢
    split at h
    · exact sufsAppend_den r s _ _ h
    · cases h

def seqAppend : ItemSeq → ItemSeq → ItemSeq
  | .nil, s => s
  | .cons i r, s => .cons i (seqAppend r s)

theorem seqAppend_flat : ∀ (r s : ItemSeq), (seqAppend r s).flat = r.flat ++ s.flat
  | .nil, s => by simp [seqAppend, ItemSeq.flat]
  | .cons i r, s => by simp [seqAppend, ItemSeq.flat, seqAppend_flat r s]

theorem seqAppend_den {mk : Marker B} : ∀ (r s : ItemSeq) (t : Tab B) {x y : List (Gr B) × Tab B}, r.den mk t = .ok x → s.den mk x.2 = .ok y →
    (seqAppend r s).den mk t = .ok (x.1 ++ y.1, y.2)
  | .nil, s, t, x, y, h, h' => by
    cases h
    exact h'
  | .cons i r, s, t, x, y, h, h' => by
    obtain ⟨u, h1, h2⟩ := bind_ok h
    obtain ⟨v, h3, h4⟩ := bind_ok h2
    cases h4
    simp only [seqAppend, ItemSeq.den]
    rw [h1]
    simp only [Except.bind]
    rw [seqAppend_den r s _ h3 h']
    rfl

def altsAppend : Alts → Alts → Alts
  | .one i is, b => .alt i is b
  | .alt i is r, b => .alt i is (altsAppend r b)

theorem altsAppend_flat : ∀ (a b : Alts), (altsAppend a b).flat = a.flat ++ opr 124 :: b.flat
  | .one i is, b => by simp [altsAppend, Alts.flat]
  | .alt i is r, b => by simp [altsAppend, Alts.flat, altsAppend_flat r b]

theorem altsAppend_den {mk : Marker B} : ∀ (a b : Alts) (t : Tab B) {x y : List (Gr B) × Tab B}, a.den mk t = .ok x → b.den mk x.2 = .ok y →
    (altsAppend a b).den mk t = .ok (x.1 ++ y.1, y.2)
  | .one i is, b, t, x, y, h, h' => by
    obtain ⟨u, h1, h2⟩ := bind_ok h
    obtain ⟨v, h3, h4⟩ := bind_ok h2
    cases h4
    simp only [altsAppend, Alts.den]
    rw [h1]
    simp only [Except.bind]
    rw [h3]
    simp only
    dsimp only at h'
    rw [h']
    rfl
  | .alt i is r, b, t, x, y, h, h' => by
    obtain ⟨u, h1, h2⟩ := bind_ok h
    obtain ⟨v, h3, h4⟩ := bind_ok h2
    obtain ⟨w, h5, h6⟩ := bind_ok h4
    cases h6
    simp only [altsAppend, Alts.den]
    rw [h1]
    simp only [Except.bind]
    rw [h3]
    simp only
    rw [altsAppend_den r b _ h5 h']
    rfl

end Tpl
