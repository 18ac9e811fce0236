import Verif.Proof.Place
import Verif.Proof.CalcEval

/-! Parts of expressions in parentheses, and arguments, may be replaced by others with the same value. -/
namespace Tpl
open Tpl.Spec
variable {V F : Type} {C : Calc V F}

/-- What a token adds to the number of open parentheses. -/
def weight (t : Token) : Int := if t.kind = 40 then 1 else if t.kind = 41 then -1 else 0
def depth (ts : List Token) : Int := (ts.map weight).sum

@[simp] theorem depth_nil : depth [] = 0 := rfl
@[simp] theorem depth_cons (t : Token) (ts : List Token) : depth (t :: ts) = weight t + depth ts := by simp [depth]
@[simp] theorem depth_append (ts us : List Token) : depth (ts ++ us) = depth ts + depth us := by simp [depth]
theorem weight_open {t : Token} (h : t.kind = 40) : weight t = 1 := by simp [weight, h]
theorem weight_close {t : Token} (h : t.kind = 41) : weight t = -1 := by simp [weight, h]
theorem weight_other {t : Token} (h : t.kind ≠ 40) (h' : t.kind ≠ 41) : weight t = 0 := by simp [weight, h, h']

/-- Parentheses are balanced. -/
def Balanced (ts : List Token) : Prop := depth ts = 0 ∧ ∀ x y, ts = x ++ y → 0 ≤ depth x

theorem balanced_nil : Balanced [] := ⟨rfl, fun x y h => by
  obtain ⟨rfl, _⟩ := List.append_eq_nil_iff.mp h.symm
  exact Int.le_refl _⟩

theorem balanced_append {ts us : List Token} (h : Balanced ts) (h' : Balanced us) : Balanced (ts ++ us) := by
  refine ⟨by rw [depth_append, h.1, h'.1]; rfl, fun x y e => ?_⟩
  rcases List.append_eq_append_iff.mp e with ⟨a, rfl, e2⟩ | ⟨c, e1, _⟩
  · have := h'.2 a y e2
    rw [depth_append, h.1]
    omega
  · exact h.2 x c e1

theorem balanced_one {t : Token} (h : t.kind ≠ 40) (h' : t.kind ≠ 41) : Balanced [t] := by
  refine ⟨by simp [weight_other h h'], fun x y e => ?_⟩
  cases x with
  | nil => exact Int.le_refl _
  | cons a x =>
    injection e with e1 e2
    obtain ⟨rfl, _⟩ := List.append_eq_nil_iff.mp e2.symm
    subst e1
    simp [weight_other h h']

theorem balanced_cons {t : Token} {ts : List Token} (h : t.kind ≠ 40) (h' : t.kind ≠ 41) (hb : Balanced ts) : Balanced (t :: ts) :=
  balanced_append (balanced_one h h') hb

theorem balanced_paren {t t' : Token} {ts : List Token} (h : t.kind = 40) (h' : t'.kind = 41) (hb : Balanced ts) : Balanced (t :: (ts ++ [t'])) := by
  refine ⟨by simp [weight_open h, weight_close h', hb.1], fun x y e => ?_⟩
  cases x with
  | nil => exact Int.le_refl _
  | cons a x =>
    injection e with e1 e2
    subst e1
    rw [depth_cons, weight_open h]
    rcases List.append_eq_append_iff.mp e2 with ⟨a, rfl, e3⟩ | ⟨c, e3, _⟩
    · rw [depth_append, hb.1]
      cases a with
      | nil => simp
      | cons b a =>
        injection e3 with e4 e5
        obtain ⟨rfl, _⟩ := List.append_eq_nil_iff.mp e5.symm
        subst e4
        simp [weight_close h']
    · have := hb.2 x c e3
      omega

theorem lit_neutral (hC : C.Ok) {t : Token} {r : LitRule V F} (h : litRule? C t = some r) : t.kind ≠ 40 ∧ t.kind ≠ 41 ∧ t.kind ≠ 44 := by
  refine ⟨?_, ?_, ?_⟩ <;> intro hk <;> rw [Calc.litRule_none hC (by rw [hk]; decide)] at h <;> cases h

theorem mul_neutral (hC : C.Ok) {t : Token} {o : BinOp} (h : (t.kind, o) ∈ C.mulOps) : t.kind ≠ 40 ∧ t.kind ≠ 41 ∧ t.kind ≠ 44 := by
  have := hC.mulKind _ h
  refine ⟨?_, ?_, ?_⟩ <;> intro hk <;> simp [hk] at this

mutual
theorem reads_balanced (hC : C.Ok) : ∀ {n ts e}, Reads C n ts e → Balanced ts
  | _, _, _, .sum h => reads_balanced hC h
  | _, _, _, .add h hk h' => balanced_append (reads_balanced hC h) (balanced_cons (by rw [hk]; decide) (by rw [hk]; decide) (reads_balanced hC h'))
  | _, _, _, .sub h hk h' => balanced_append (reads_balanced hC h) (balanced_cons (by rw [hk]; decide) (by rw [hk]; decide) (reads_balanced hC h'))
  | _, _, _, .product h => reads_balanced hC h
  | _, _, _, .mul h hk h' => balanced_append (reads_balanced hC h) (balanced_cons (mul_neutral hC hk).1 (mul_neutral hC hk).2.1 (reads_balanced hC h'))
  | _, _, _, .num h => balanced_one (lit_neutral hC h).1 (lit_neutral hC h).2.1
  | _, _, _, .name hk _ => balanced_one (by rw [hk]; decide) (by rw [hk]; decide)
  | _, _, _, .neg hk h => balanced_cons (by rw [hk]; decide) (by rw [hk]; decide) (reads_balanced hC h)
  | _, _, _, .pos hk h => balanced_cons (by rw [hk]; decide) (by rw [hk]; decide) (reads_balanced hC h)
  | _, _, _, .paren hk h hk' => balanced_paren hk hk' (reads_balanced hC h)
  | _, _, _, .call hf hk h hk' => balanced_cons (by rw [hf]; decide) (by rw [hf]; decide) (balanced_paren hk hk' (readsArgs_balanced hC h))
theorem readsArgs_balanced (hC : C.Ok) : ∀ {ts es}, ReadsArgs C ts es → Balanced ts
  | _, _, .nil => balanced_nil
  | _, _, .some h h' => balanced_append (reads_balanced hC h) (readsMore_balanced hC h')
theorem readsMore_balanced (hC : C.Ok) : ∀ {ts es}, ReadsMore C ts es → Balanced ts
  | _, _, .nil => balanced_nil
  | _, _, .cons hk h h' => balanced_cons (by rw [hk]; decide) (by rw [hk]; decide) (balanced_append (reads_balanced hC h) (readsMore_balanced hC h'))
end

/-- Commas stand in parentheses. -/
def Covered (ts : List Token) : Prop := ∀ x t y, ts = x ++ t :: y → t.kind = 44 → 0 < depth x

theorem covered_append {ts us : List Token} (hb : Balanced ts) (h : Covered ts) (h' : Covered us) : Covered (ts ++ us) := by
  intro x t y e ht
  rcases List.append_eq_append_iff.mp e with ⟨a, rfl, e2⟩ | ⟨c, e1, e2⟩
  · have := h' a t y e2 ht
    rw [depth_append, hb.1]
    omega
  · cases c with
    | nil =>
      have := h' [] t y e2.symm ht
      simp at this
    | cons b c =>
      injection e2 with e3 e4
      subst e3
      exact h x t c e1 ht

theorem covered_one {t : Token} (h : t.kind ≠ 44) : Covered [t] := by
  intro x t' y e ht
  cases x with
  | nil =>
    injection e with e1 _
    exact absurd (e1 ▸ ht) h
  | cons b x => simp at e

theorem covered_cons {t : Token} {ts : List Token} (h : t.kind ≠ 40) (h' : t.kind ≠ 41) (hk : t.kind ≠ 44) (hb : Covered ts) : Covered (t :: ts) :=
  covered_append (balanced_one h h') (covered_one hk) hb

theorem covered_paren {t t' : Token} {ts : List Token} (h : t.kind = 40) (h' : t'.kind = 41) (hb : Balanced ts) : Covered (t :: (ts ++ [t'])) := by
  intro x u y e hu
  cases x with
  | nil =>
    injection e with e1 _
    rw [← e1, h] at hu
    exact absurd hu (by decide)
  | cons b x =>
    injection e with e1 e2
    subst e1
    rw [depth_cons, weight_open h]
    rcases List.append_eq_append_iff.mp e2 with ⟨a, rfl, e3⟩ | ⟨c, e3, _⟩
    · cases a with
      | nil =>
        rw [List.append_nil, hb.1]
        decide
      | cons b a => simp at e3
    · have := hb.2 x c e3
      omega

theorem reads_covered (hC : C.Ok) : ∀ {n ts e}, Reads C n ts e → Covered ts
  | _, _, _, .sum h => reads_covered hC h
  | _, _, _, .add h hk h' => covered_append (reads_balanced hC h) (reads_covered hC h)
      (covered_cons (by rw [hk]; decide) (by rw [hk]; decide) (by rw [hk]; decide) (reads_covered hC h'))
  | _, _, _, .sub h hk h' => covered_append (reads_balanced hC h) (reads_covered hC h)
      (covered_cons (by rw [hk]; decide) (by rw [hk]; decide) (by rw [hk]; decide) (reads_covered hC h'))
  | _, _, _, .product h => reads_covered hC h
  | _, _, _, .mul h hk h' => covered_append (reads_balanced hC h) (reads_covered hC h)
      (covered_cons (mul_neutral hC hk).1 (mul_neutral hC hk).2.1 (mul_neutral hC hk).2.2 (reads_covered hC h'))
  | _, _, _, .num h => covered_one (lit_neutral hC h).2.2
  | _, _, _, .name hk _ => covered_one (by rw [hk]; decide)
  | _, _, _, .neg hk h => covered_cons (by rw [hk]; decide) (by rw [hk]; decide) (by rw [hk]; decide) (reads_covered hC h)
  | _, _, _, .pos hk h => covered_cons (by rw [hk]; decide) (by rw [hk]; decide) (by rw [hk]; decide) (reads_covered hC h)
  | _, _, _, .paren hk h hk' => covered_paren hk hk' (reads_balanced hC h)
  | _, _, _, .call hf hk h hk' => covered_cons (by rw [hf]; decide) (by rw [hf]; decide) (by rw [hf]; decide) (covered_paren hk hk' (readsArgs_balanced hC h))

theorem reads_ne : ∀ {n ts e}, Reads C n ts e → ts ≠ []
  | _, _, _, .sum h => reads_ne h
  | _, _, _, .add _ _ _ => by simp
  | _, _, _, .sub _ _ _ => by simp
  | _, _, _, .product h => reads_ne h
  | _, _, _, .mul _ _ _ => by simp
  | _, _, _, .num _ => by simp
  | _, _, _, .name _ _ => by simp
  | _, _, _, .neg _ _ => by simp
  | _, _, _, .pos _ _ => by simp
  | _, _, _, .paren _ _ _ => by simp
  | _, _, _, .call _ _ _ _ => by simp

/-- What stands before and behind a whole part: a parenthesis or a comma. -/
def Opens (t : Token) : Prop := t.kind = 40 ∨ t.kind = 44
def Closes (t : Token) : Prop := t.kind = 41 ∨ t.kind = 44

/-- What ends a part that begins in parentheses is in the same balanced part. -/
theorem closed_inside {x y zs as qs : List Token} {t t' : Token} (hb : Balanced (x ++ t :: y)) (hc : Covered (x ++ t :: y)) (ht : Opens t)
    (ha : Balanced as) (e : y ++ zs = as ++ t' :: qs) : ∃ y', y = as ++ t' :: y' ∧ qs = y' ++ zs := by
  have h0 := hb.2 x _ rfl
  have h1 := hb.1
  rw [depth_append, depth_cons] at h1
  have h2 : 0 < depth x + weight t := by
    rcases ht with ht | ht
    · rw [weight_open ht]
      omega
    · have := hc x t y rfl ht
      rw [weight_other (by rw [ht]; decide) (by rw [ht]; decide)]
      omega
  rcases List.append_eq_append_iff.mp e with ⟨a, e1, _⟩ | ⟨c, e1, e2⟩
  · have := ha.2 y a e1
    omega
  · cases c with
    | nil =>
      rw [List.append_nil] at e1
      rw [e1, ha.1] at h1
      omega
    | cons b c =>
      injection e2 with e3 e4
      subst e3
      exact ⟨c, e1, e4⟩

/-- Two whole parts are the same if they begin at the same place. -/
theorem closed_same {ts as us qs : List Token} {t t' : Token} (hb : Balanced ts) (hc : Covered ts) (ht : Closes t) (ha : Balanced as)
    (ha' : Covered as) (ht' : Closes t') (e : ts ++ t :: us = as ++ t' :: qs) : ts = as ∧ t = t' ∧ us = qs := by
  have hx : ∀ {ts as us qs : List Token} {t t' : Token}, Balanced ts → Closes t → Balanced as → Covered as →
      ∀ a, as = ts ++ a → t :: us = a ++ t' :: qs → a = [] := by
    intro ts as us qs t t' hb ht ha ha' a e1 e2
    cases a with
    | nil => rfl
    | cons b a =>
      injection e2 with e3 e4
      subst e3
      rcases ht with ht | ht
      · have := ha.2 (ts ++ [t]) a (by simp [e1])
        simp [hb.1, weight_close ht] at this
      · have := ha' ts t a e1 ht
        rw [hb.1] at this
        exact absurd this (by decide)
  rcases List.append_eq_append_iff.mp e with ⟨a, e1, e2⟩ | ⟨a, e1, e2⟩
  · obtain rfl := hx hb ht ha ha' a e1 e2
    rw [List.nil_append] at e2
    injection e2 with e3 e4
    exact ⟨by simp [e1], e3, e4⟩
  · obtain rfl := hx ha ht' hb hc a e1 e2
    rw [List.nil_append] at e2
    injection e2 with e3 e4
    exact ⟨by simp [e1], e3.symm, e4.symm⟩

/-- Where a part stands in two parts. -/
theorem split_two {ts us ps as qs : List Token} {t t' : Token} (hb : Balanced ts) (hc : Covered ts) (ht : Opens t) (ha : Balanced as)
    (e : ts ++ us = ps ++ t :: (as ++ t' :: qs)) :
    (∃ y', ts = ps ++ t :: (as ++ t' :: y') ∧ qs = y' ++ us) ∨ (∃ p', us = p' ++ t :: (as ++ t' :: qs) ∧ ps = ts ++ p') := by
  rcases List.append_eq_append_iff.mp e with ⟨a, e1, e2⟩ | ⟨c, e1, e2⟩
  · exact .inr ⟨a, e2, e1⟩
  · cases c with
    | nil => exact .inr ⟨[], by simpa using e2.symm, by simpa using e1.symm⟩
    | cons b y =>
      injection e2 with e3 e4
      subst e3
      obtain ⟨y', e5, e6⟩ := closed_inside (e1 ▸ hb) (e1 ▸ hc) ht ha e4.symm
      exact .inl ⟨y', by rw [e1, e5], e6⟩

theorem split_head {o t : Token} {us ps rest : List Token} (ho : ¬ Opens o) (ht : Opens t) (e : o :: us = ps ++ t :: rest) :
    ∃ p', ps = o :: p' ∧ us = p' ++ t :: rest := by
  cases ps with
  | nil =>
    injection e with e1 _
    exact absurd (e1 ▸ ht) ho
  | cons b p =>
    injection e with e1 e2
    exact ⟨p, by rw [e1], e2⟩

theorem not_opens {t : Token} (h : t.kind ≠ 40) (h' : t.kind ≠ 44) : ¬ Opens t := fun x => x.elim h h'

theorem more_head {us : List Token} {es : List Ex} (h : ReadsMore C us es) {t1 : Token} (h1 : t1.kind = 41) :
    ∃ t r, us ++ [t1] = t :: r ∧ Closes t := by
  cases h with
  | nil => exact ⟨t1, [], rfl, .inl h1⟩
  | cons hk _ _ => exact ⟨_, _, rfl, .inr hk⟩

section
variable (hC : C.Ok) {as bs : List Token} {ea eb : Ex} (hr : Reads C 0 as ea) (ha : Balanced as) (ha' : Covered as) (hb : Reads C 0 bs eb)
include hC hr ha ha' hb

mutual
theorem reads_replace : ∀ {n ts e}, Reads C n ts e → (∀ e, as.length < ts.length → Reads C 0 as e → e.eval C = eb.eval C) →
    ∀ {ps qs : List Token} {t t' : Token}, Opens t → Closes t' → ts = ps ++ t :: (as ++ t' :: qs) →
    ∃ e', Reads C n (ps ++ t :: (bs ++ t' :: qs)) e' ∧ e'.eval C = e.eval C
  | _, _, _, .sum h, hv, _, _, _, _, ht, ht', e => by
    obtain ⟨e', h1, h2⟩ := reads_replace h hv ht ht' e
    exact ⟨e', .sum h1, h2⟩
  | _, _, _, .product h, hv, _, _, _, _, ht, ht', e => by
    obtain ⟨e', h1, h2⟩ := reads_replace h hv ht ht' e
    exact ⟨e', .product h1, h2⟩
  | _, _, _, .add (b := b) (a := a) h hk h', hv, _, _, _, _, ht, ht', e => by
    rcases split_two (reads_balanced hC h) (reads_covered hC h) ht ha e with ⟨y, e1, rfl⟩ | ⟨p, e2, rfl⟩
    · obtain ⟨e', h1, h2⟩ := reads_replace h (fun e hl => hv e (by simp at hl ⊢; omega)) ht ht' e1
      exact ⟨.bin .add e' b, by simpa using Reads.add h1 hk h', by simp only [Ex.eval, h2]⟩
    · obtain ⟨p, rfl, e1⟩ := split_head (not_opens (by rw [hk]; decide) (by rw [hk]; decide)) ht e2
      obtain ⟨e', h1, h2⟩ := reads_replace h' (fun e hl => hv e (by simp at hl ⊢; omega)) ht ht' e1
      exact ⟨.bin .add a e', by simpa using Reads.add h hk h1, by simp only [Ex.eval, h2]⟩
  | _, _, _, .sub (b := b) (a := a) h hk h', hv, _, _, _, _, ht, ht', e => by
    rcases split_two (reads_balanced hC h) (reads_covered hC h) ht ha e with ⟨y, e1, rfl⟩ | ⟨p, e2, rfl⟩
    · obtain ⟨e', h1, h2⟩ := reads_replace h (fun e hl => hv e (by simp at hl ⊢; omega)) ht ht' e1
      exact ⟨.bin .sub e' b, by simpa using Reads.sub h1 hk h', by simp only [Ex.eval, h2]⟩
    · obtain ⟨p, rfl, e1⟩ := split_head (not_opens (by rw [hk]; decide) (by rw [hk]; decide)) ht e2
      obtain ⟨e', h1, h2⟩ := reads_replace h' (fun e hl => hv e (by simp at hl ⊢; omega)) ht ht' e1
      exact ⟨.bin .sub a e', by simpa using Reads.sub h hk h1, by simp only [Ex.eval, h2]⟩
  | _, _, _, .mul (b := b) (a := a) (o := o) h hk h', hv, _, _, _, _, ht, ht', e => by
    rcases split_two (reads_balanced hC h) (reads_covered hC h) ht ha e with ⟨y, e1, rfl⟩ | ⟨p, e2, rfl⟩
    · obtain ⟨e', h1, h2⟩ := reads_replace h (fun e hl => hv e (by simp at hl ⊢; omega)) ht ht' e1
      exact ⟨.bin o e' b, by simpa using Reads.mul h1 hk h', by simp only [Ex.eval, h2]⟩
    · obtain ⟨p, rfl, e1⟩ := split_head (not_opens (mul_neutral hC hk).1 (mul_neutral hC hk).2.2) ht e2
      obtain ⟨e', h1, h2⟩ := reads_replace h' (fun e hl => hv e (by simp at hl ⊢; omega)) ht ht' e1
      exact ⟨.bin o a e', by simpa using Reads.mul h hk h1, by simp only [Ex.eval, h2]⟩
  | _, _, _, .num h, hv, _, _, _, _, ht, ht', e => by
    obtain ⟨p, rfl, e2⟩ := split_head (not_opens (lit_neutral hC h).1 (lit_neutral hC h).2.2) ht e
    simp at e2
  | _, _, _, .name hk _, hv, _, _, _, _, ht, ht', e => by
    obtain ⟨p, rfl, e2⟩ := split_head (not_opens (by rw [hk]; decide) (by rw [hk]; decide)) ht e
    simp at e2
  | _, _, _, .neg hk h, hv, _, _, _, _, ht, ht', e => by
    obtain ⟨p, rfl, e1⟩ := split_head (not_opens (by rw [hk]; decide) (by rw [hk]; decide)) ht e
    obtain ⟨e', h1, h2⟩ := reads_replace h (fun e hl => hv e (by simp at hl ⊢; omega)) ht ht' e1
    exact ⟨.neg e', .neg hk h1, by simp only [Ex.eval, h2]⟩
  | _, _, _, .pos hk h, hv, _, _, _, _, ht, ht', e => by
    obtain ⟨p, rfl, e1⟩ := split_head (not_opens (by rw [hk]; decide) (by rw [hk]; decide)) ht e
    obtain ⟨e', h1, h2⟩ := reads_replace h (fun e hl => hv e (by simp at hl ⊢; omega)) ht ht' e1
    exact ⟨e', .pos hk h1, h2⟩
  | _, _, _, .paren (t := t1) (t' := t2) hk h hk', hv, ps, qs, t, t', ht, ht', e => by
    cases ps with
    | nil =>
      injection e with e1 e2
      subst e1
      obtain ⟨rfl, rfl, rfl⟩ := closed_same (reads_balanced hC h) (reads_covered hC h) (.inl hk') ha ha' ht' e2
      exact ⟨eb, .paren hk hb hk', (hv _ (by simp; omega) h).symm⟩
    | cons b p =>
      injection e with e1 e2
      subst e1
      rcases split_two (reads_balanced hC h) (reads_covered hC h) ht ha e2 with ⟨y, e1, rfl⟩ | ⟨p', e3, rfl⟩
      · obtain ⟨e', h1, h2⟩ := reads_replace h (fun e hl => hv e (by simp at hl ⊢; omega)) ht ht' e1
        exact ⟨e', by simpa using Reads.paren hk h1 hk', h2⟩
      · obtain ⟨p, rfl, e4⟩ := split_head (not_opens (by rw [hk']; decide) (by rw [hk']; decide)) ht e3
        simp at e4
  | _, _, _, .call (f := f) (t := t1) (t' := t2) hf hk h hk', hv, ps, qs, t, t', ht, ht', e => by
    obtain ⟨ps, rfl, e0⟩ := split_head (not_opens (by rw [hf]; decide) (by rw [hf]; decide)) ht e
    obtain ⟨us, es, e1, h1, h2⟩ := readsArgs_replace h (fun e hl => hv e (by simp at hl ⊢; omega)) (t0 := t1) hk' ht ht' e0
    exact ⟨.call f es, by rw [List.cons_append, e1]; exact .call hf hk h1 hk', by simp only [Ex.eval, h2]⟩
theorem readsArgs_replace : ∀ {ts es}, ReadsArgs C ts es → (∀ e, as.length ≤ ts.length → Reads C 0 as e → e.eval C = eb.eval C) →
    ∀ {ps qs : List Token} {t t' t0 t1 : Token}, t1.kind = 41 → Opens t → Closes t' → t0 :: (ts ++ [t1]) = ps ++ t :: (as ++ t' :: qs) →
    ∃ us es', ps ++ t :: (bs ++ t' :: qs) = t0 :: (us ++ [t1]) ∧ ReadsArgs C us es' ∧ evalArgs C es' = evalArgs C es
  | _, _, .nil, hv, ps, _, _, _, _, _, h1, ht, ht', e => by
    have := congrArg List.length e
    have hl := List.length_pos_of_ne_nil (reads_ne hr)
    simp at this
    omega
  | _, _, .some (e := x) (es := xs) h h', hv, ps, _, _, _, _, _, h1, ht, ht', e => by
    rw [List.append_assoc] at e
    cases ps with
    | nil =>
      injection e with e1 e2
      subst e1
      obtain ⟨d, r, e3, hd⟩ := more_head h' h1
      rw [e3] at e2
      obtain ⟨e4, e5, e6⟩ := closed_same (reads_balanced hC h) (reads_covered hC h) hd ha ha' ht' e2
      have hx := hv x (by simp [e4]) (e4 ▸ h)
      refine ⟨_, eb :: xs, ?_, .some hb h', by simp only [evalArgs, hx]⟩
      rw [List.append_assoc, e3, e5, e6]
      rfl
    | cons b p =>
      injection e with e1 e2
      subst e1
      rcases split_two (reads_balanced hC h) (reads_covered hC h) ht ha e2 with ⟨y, e1, rfl⟩ | ⟨p, e1, rfl⟩
      · obtain ⟨e', h1, h2⟩ := reads_replace h (fun e hl => hv e (by simp at hl ⊢; omega)) ht ht' e1
        exact ⟨_, e' :: xs, by simp, .some h1 h', by simp only [evalArgs, h2]⟩
      · obtain ⟨us, es', h3, h4, h5⟩ := readsMore_replace h' (fun e hl => hv e (by simp at hl ⊢; omega)) h1 ht ht' e1
        exact ⟨_, x :: es', by simp [h3], .some h h4, by simp only [evalArgs, h5]⟩
theorem readsMore_replace : ∀ {ts es}, ReadsMore C ts es → (∀ e, as.length ≤ ts.length → Reads C 0 as e → e.eval C = eb.eval C) →
    ∀ {ps qs : List Token} {t t' t1 : Token}, t1.kind = 41 → Opens t → Closes t' → ts ++ [t1] = ps ++ t :: (as ++ t' :: qs) →
    ∃ us es', ps ++ t :: (bs ++ t' :: qs) = us ++ [t1] ∧ ReadsMore C us es' ∧ evalArgs C es' = evalArgs C es
  | _, _, .nil, hv, ps, _, _, _, _, h1, ht, ht', e => by
    have := congrArg List.length e
    simp at this
    omega
  | _, _, .cons (t := c) (e := x) (es := xs) hk h h', hv, ps, _, _, _, _, h1, ht, ht', e => by
    rw [List.cons_append, List.append_assoc] at e
    cases ps with
    | nil =>
      injection e with e1 e2
      subst e1
      obtain ⟨d, r, e3, hd⟩ := more_head h' h1
      rw [e3] at e2
      obtain ⟨e4, e5, e6⟩ := closed_same (reads_balanced hC h) (reads_covered hC h) hd ha ha' ht' e2
      have hx := hv x (by simp [e4]; omega) (e4 ▸ h)
      refine ⟨_, eb :: xs, ?_, .cons hk hb h', by simp only [evalArgs, hx]⟩
      rw [List.cons_append, List.append_assoc, e3, e5, e6]
      rfl
    | cons b p =>
      injection e with e1 e2
      subst e1
      rcases split_two (reads_balanced hC h) (reads_covered hC h) ht ha e2 with ⟨y, e1, rfl⟩ | ⟨p, e1, rfl⟩
      · obtain ⟨e', h1, h2⟩ := reads_replace h (fun e hl => hv e (by simp at hl ⊢; omega)) ht ht' e1
        exact ⟨_, e' :: xs, by simp, .cons hk h1 h', by simp only [evalArgs, h2]⟩
      · obtain ⟨us, es', h3, h4, h5⟩ := readsMore_replace h' (fun e hl => hv e (by simp at hl ⊢; omega)) h1 ht ht' e1
        exact ⟨_, x :: es', by simp [h3], .cons hk h h4, by simp only [evalArgs, h5]⟩
end
end
end Tpl
