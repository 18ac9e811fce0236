import Verif.Spec.Steps
import Verif.Proof.Peg
import Verif.Proof.Trace

/-! Lemmas on single combinators. -/
namespace Tpl
open Spec
variable {A σ V P : Type} {env : Env A} {sem : Sem A σ V P}

/-! ### Choice -/

section
variable {E : Gr A → List Token → St σ → Res A σ P → Prop}

theorem orRun_ok {all : Gr A} {src gs a b c s r} (h : OrRun E all src gs a b c s r) (hm : c = false → b ≠ none) :
    ∀ n s', r = .ok n s' → ∃ pre g post fs s1, gs = pre ++ g :: post ∧ AllFail E src pre s fs s1 ∧ E g src s1 (.ok n s') := by
  induction h with
  | multi => intro n s' h; cases h
  | single => intro n s' h; cases h
  | none => exact absurd rfl (hm rfl)
  | @ok g gs _ _ _ s n s1 h => intro n' s' hh; cases hh; exact ⟨[], g, gs, [], s, rfl, .nil, h⟩
  | panic => intro n s' h; cases h
  | @same g gs nMax _ _ s e s1 r h _ ih =>
    intro n s' hh
    obtain ⟨pre, g', post, fs, s2, rfl, ha, he⟩ := ih nofun n s' hh
    exact ⟨g :: pre, g', post, _, s2, rfl, .cons h ha, he⟩
  | @more g gs nMax _ _ s n1 e s1 r h _ _ ih =>
    intro n s' hh
    obtain ⟨pre, g', post, fs, s2, rfl, ha, he⟩ := ih nofun n s' hh
    exact ⟨g :: pre, g', post, _, s2, rfl, .cons h ha, he⟩
  | @less g gs nMax _ _ s n1 e s1 r h _ _ ih =>
    intro n s' hh
    obtain ⟨pre, g', post, fs, s2, rfl, ha, he⟩ := ih hm n s' hh
    exact ⟨g :: pre, g', post, _, s2, rfl, .cons h ha, he⟩

theorem orRun_panic {all : Gr A} {src gs a b c s r} (h : OrRun E all src gs a b c s r) :
    ∀ p s', r = .panic p s' → ∃ pre g post fs s1, gs = pre ++ g :: post ∧ AllFail E src pre s fs s1 ∧ E g src s1 (.panic p s') := by
  induction h with
  | multi => intro n s' h; cases h
  | single => intro n s' h; cases h
  | none => intro n s' h; cases h
  | ok h => intro n s' h; cases h
  | @panic g gs _ _ _ s p s1 h => intro n' s' hh; cases hh; exact ⟨[], g, gs, [], s, rfl, .nil, h⟩
  | same h _ ih | more h _ _ ih | less h _ _ ih =>
    intro n s' hh
    obtain ⟨pre, g', post, fs, s2, rfl, ha, he⟩ := ih n s' hh
    exact ⟨_ :: pre, g', post, _, s2, rfl, .cons h ha, he⟩

/-- The state of the loop of a choice: the largest failure so far, and its error
if it is past the start and only one alternative failed there. -/
def choiceErr (all : Gr A) (src : List Token) (b : Option (Err A)) (c : Bool) : Err A :=
  match c, b with
  | false, some e => e
  | _, _ => mismatch all src

theorem orRun_fail {all : Gr A} {src gs a b c s r} (h : OrRun E all src gs a b c s r) (hm : c = false → b ≠ none) :
    ∀ n e s', r = .fail n e s' → ∃ fs, AllFail E src gs s fs s' ∧ n = max a (furthest fs) ∧
      (furthest fs < a → e = choiceErr all src b c) ∧
      (furthest fs = a → fs.all (fun x => x.1 ≠ a) = true → e = choiceErr all src b c) ∧
      (furthest fs = a → fs.any (fun x => x.1 = a) = true → e = mismatch all src) ∧
      (furthest fs > a → ∀ e', (fs.filter (fun x => x.1 = furthest fs)) = [(furthest fs, e')] → e = e') ∧
      (furthest fs > a → (fs.filter (fun x => x.1 = furthest fs)).length ≥ 2 → e = mismatch all src) := by
  induction h with
  | multi =>
    intro n e s' h; cases h
    refine ⟨[], .nil, ?_, ?_, ?_, ?_, ?_, ?_⟩ <;> simp [furthest, choiceErr]
  | @single a e s =>
    intro n e s' h; cases h
    refine ⟨[], .nil, ?_, ?_, ?_, ?_, ?_, ?_⟩ <;> simp [furthest, choiceErr]
  | none => exact absurd rfl (hm rfl)
  | ok h => intro n e s' h; cases h
  | panic h => intro n e s' h; cases h
  | @same g gs a b c s e1 s1 r h _ ih =>
    intro n e s' hh
    obtain ⟨fs, ha, hn, h1, h2, h3, h4, h5⟩ := ih nofun n e s' hh
    have hf : furthest ((a, e1) :: fs) = max a (furthest fs) := rfl
    refine ⟨_, .cons h ha, by rw [hn, hf]; omega, ?_, ?_, ?_, ?_, ?_⟩
    · rw [hf]; omega
    · intro _ hall; simp at hall
    · intro hfe _
      rw [hf] at hfe
      by_cases hlt : furthest fs < a
      · simpa [choiceErr] using h1 hlt
      · have heq : furthest fs = a := by omega
        by_cases hany : fs.any (fun x => decide (x.1 = a)) = true
        · exact h3 heq hany
        · have : fs.all (fun x => decide (x.1 ≠ a)) = true := by
            simp only [List.any_eq_true, not_exists, not_and] at hany
            simp only [List.all_eq_true]
            intro x hx
            have := hany x hx
            simpa using this
          simpa [choiceErr] using h2 heq this
    · intro hgt e' hfil
      rw [hf] at hgt hfil
      have hm' : max a (furthest fs) = furthest fs := by omega
      rw [hm', List.filter_cons, if_neg (by simp; omega)] at hfil
      exact h4 (by omega) e' hfil
    · intro hgt hfil
      rw [hf] at hgt hfil
      have hm' : max a (furthest fs) = furthest fs := by omega
      rw [hm', List.filter_cons, if_neg (by simp; omega)] at hfil
      exact h5 (by omega) hfil
  | @more g gs a b c s n1 e1 s1 r h hlt _ ih =>
    intro n e s' hh
    obtain ⟨fs, ha, hn, h1, h2, h3, h4, h5⟩ := ih nofun n e s' hh
    have hf : furthest ((n1, e1) :: fs) = max n1 (furthest fs) := rfl
    refine ⟨_, .cons h ha, by rw [hn, hf]; omega, ?_, ?_, ?_, ?_, ?_⟩
    · rw [hf]; omega
    · rw [hf]; intro h; omega
    · rw [hf]; intro h; omega
    · intro _ e' hfil
      rw [hf, List.filter_cons] at hfil
      by_cases hle : furthest fs ≤ n1
      · have hm' : max n1 (furthest fs) = n1 := by omega
        rw [hm', if_pos (by simp)] at hfil
        injection hfil with hx hfil
        injection hx with _ hx
        subst hx
        by_cases hl : furthest fs < n1
        · simpa [choiceErr] using h1 hl
        · have heq : furthest fs = n1 := by omega
          have : fs.all (fun x => decide (x.1 ≠ n1)) = true := by
            rw [List.filter_eq_nil_iff] at hfil
            simp only [List.all_eq_true]
            intro x hx
            have := hfil x hx
            simpa using this
          simpa [choiceErr] using h2 heq this
      · have hm' : max n1 (furthest fs) = furthest fs := by omega
        rw [hm', if_neg (by simp; omega)] at hfil
        exact h4 (by omega) e' hfil
    · intro _ hfil
      rw [hf, List.filter_cons] at hfil
      by_cases hle : furthest fs ≤ n1
      · have hm' : max n1 (furthest fs) = n1 := by omega
        rw [hm', if_pos (by simp)] at hfil
        simp only [List.length_cons] at hfil
        have hne : (fs.filter (fun x => decide (x.1 = n1))).length ≥ 1 := by omega
        obtain ⟨x, hx⟩ := List.exists_mem_of_length_pos hne
        rw [List.mem_filter] at hx
        have heq : furthest fs = n1 := by
          have : ∀ (l : List (Nat × Err A)) x, x ∈ l → x.1 ≤ furthest l := by
            intro l
            induction l with
            | nil => intro x hx; cases hx
            | cons y l ih =>
              intro x hx
              have : furthest (y :: l) = max y.1 (furthest l) := rfl
              rw [this]
              cases hx with
              | head => omega
              | tail _ hx => have := ih x hx; omega
          have h1 := this fs x hx.1
          have h2 := hx.2
          simp at h2
          omega
        exact h3 heq (List.any_eq_true.mpr ⟨x, hx.1, hx.2⟩)
      · have hm' : max n1 (furthest fs) = furthest fs := by omega
        rw [hm', if_neg (by simp; omega)] at hfil
        exact h5 (by omega) hfil
  | @less g gs a b c s n1 e1 s1 r h hlt _ ih =>
    intro n e s' hh
    obtain ⟨fs, ha, hn, h1, h2, h3, h4, h5⟩ := ih hm n e s' hh
    have hf : furthest ((n1, e1) :: fs) = max n1 (furthest fs) := rfl
    refine ⟨_, .cons h ha, by rw [hn, hf]; omega, ?_, ?_, ?_, ?_, ?_⟩
    · rw [hf]; intro h; exact h1 (by omega)
    · rw [hf]; intro h hall
      simp only [List.all_cons, Bool.and_eq_true] at hall
      exact h2 (by omega) hall.2
    · rw [hf]; intro h hany
      simp only [List.any_cons, Bool.or_eq_true, decide_eq_true_eq] at hany
      rcases hany with h' | h'
      · omega
      · exact h3 (by omega) h'
    · rw [hf]; intro hgt e' hfil
      have hm' : max n1 (furthest fs) = furthest fs := by omega
      rw [hm', List.filter_cons, if_neg (by simp; omega)] at hfil
      exact h4 (by omega) e' hfil
    · rw [hf]; intro hgt hfil
      have hm' : max n1 (furthest fs) = furthest fs := by omega
      rw [hm', List.filter_cons, if_neg (by simp; omega)] at hfil
      exact h5 (by omega) hfil

theorem allFail_or {all : Gr A} {src gs s fs s'} (h : AllFail E src gs s fs s') : ∀ a b c, (c = false → b ≠ none) →
    ∀ rest (r : Nat → Option (Err A) → Bool → Res A σ P), (∀ a b c, (c = false → b ≠ none) → OrRun E all src rest a b c s' (r a b c)) →
      ∃ a' b' c', (c' = false → b' ≠ none) ∧ OrRun E all src (gs ++ rest) a b c s (r a' b' c') := by
  induction h with
  | nil => intro a b c hm rest r hr; exact ⟨a, b, c, hm, hr a b c hm⟩
  | @cons g gs s n e s1 fs s' h _ ih =>
    intro a b c hm rest r hr
    by_cases e1 : n = a
    · subst e1
      obtain ⟨a', b', c', hm', ho⟩ := ih n b true nofun rest r hr
      exact ⟨a', b', c', hm', .same h ho⟩
    · by_cases e2 : a < n
      · obtain ⟨a', b', c', hm', ho⟩ := ih n (some e) false nofun rest r hr
        exact ⟨a', b', c', hm', .more h e2 ho⟩
      · obtain ⟨a', b', c', hm', ho⟩ := ih a b c hm rest r hr
        exact ⟨a', b', c', hm', .less h (by omega) ho⟩

end

/-! ### Repetition -/

theorem items_rep {g : Gr A} {src s k n s'} (h : Items (Eval env sem) g src s k n s') : ∀ n0 k0 r,
    RepRun (Eval env sem) g (src.drop n) (n0 + n) (k0 + k) s' r → RepRun (Eval env sem) g src n0 k0 s r := by
  induction h with
  | nil => intro n0 k0 r h; simpa using h
  | @cons src s n s1 k m s' h _ ih =>
    intro n0 k0 r hr
    refine .more h (eval_le h) (ih _ _ _ ?_)
    rw [List.drop_drop, show n0 + n + m = n0 + (n + m) by omega, show k0 + 1 + k = k0 + (k + 1) by omega]
    exact hr

theorem rep_items {g : Gr A} {src n0 k0 s r} (h : RepRun (Eval env sem) g src n0 k0 s r) :
    ∃ k n s1, Items (Eval env sem) g src s k n s1 ∧ n ≤ src.length ∧ (match r with
      | .done n' k' s' => n' = n0 + n ∧ k' = k0 + k ∧ ∃ nf ef, Eval env sem g (src.drop n) s1 (.fail nf ef s')
      | .panic p s' => Eval env sem g (src.drop n) s1 (.panic p s')) := by
  induction h with
  | stop h => exact ⟨0, 0, _, .nil, Nat.zero_le _, rfl, rfl, _, _, h⟩
  | panic h => exact ⟨0, 0, _, .nil, Nat.zero_le _, h⟩
  | slice h hn => exact absurd (eval_le h) hn
  | @more src n0 k0 s n1 s1 r h hn _ ih =>
    obtain ⟨k, n, s2, hi, hle, hr⟩ := ih
    rw [List.length_drop] at hle
    refine ⟨k + 1, n1 + n, s2, .cons h hi, by omega, ?_⟩
    rw [List.drop_drop] at hr
    cases r with
    | done n' k' s' => exact ⟨by have := hr.1; omega, by have := hr.2.1; omega, hr.2.2⟩
    | panic p s' => exact hr

theorem items_le {g : Gr A} {src s k n s'} (h : Items (Eval env sem) g src s k n s') : n ≤ src.length := by
  induction h with
  | nil => exact Nat.zero_le _
  | cons h _ ih =>
    have := eval_le h
    rw [List.length_drop] at ih
    omega

theorem parts_le {gs : List (Gr A)} {src s n s'} (h : Parts (Eval env sem) gs src s n s') : n ≤ src.length := by
  induction h with
  | nil => exact Nat.zero_le _
  | mark _ ih => exact ih
  | cons _ h _ ih =>
    have := eval_le h
    rw [List.length_drop] at ih
    omega

/-! ### Sequence -/

theorem parts_and {gs : List (Gr A)} {src s n s'} (h : Parts (Eval env sem) gs src s n s') : ∀ all src0 n0 ff rest r,
    src = src0.drop n0 → n0 ≤ src0.length →
    AndRun (Eval env sem) all src0 rest (ff || gs.any isNil) (n0 + n) s' r →
    AndRun (Eval env sem) all src0 (gs ++ rest) ff n0 s r := by
  induction h with
  | nil => intro all src0 n0 ff rest r _ _ h; simpa using h
  | mark _ ih =>
    intro all src0 n0 ff rest r hs hn h
    refine .mark (ih all src0 n0 true rest r hs hn ?_)
    simpa [isNil] using h
  | @cons g gs src s n s1 m s' hg h _ ih =>
    intro all src0 n0 ff rest r hs hn hr
    subst hs
    have hle := eval_le h
    rw [List.length_drop] at hle
    refine .ok hg hn h (ih all src0 (n0 + n) ff rest r (by rw [List.drop_drop]) (by omega) ?_)
    rw [Nat.add_assoc]
    simpa [isNil_false hg] using hr

theorem and_parts {all : Gr A} {src gs ff n s r} (h : AndRun (Eval env sem) all src gs ff n s r) (hn : n ≤ src.length) :
    ∀ n' s', r = .ok n' s' → ∃ m, n' = n + m ∧ Parts (Eval env sem) gs (src.drop n) s m s' := by
  induction h with
  | nil => intro n' s' h; cases h; exact ⟨0, rfl, .nil⟩
  | mark _ ih =>
    intro n' s' h
    obtain ⟨m, rfl, hp⟩ := ih hn n' s' h
    exact ⟨m, rfl, .mark hp⟩
  | @ok g gs ff n s n1 s1 r hg _ h _ ih =>
    intro n' s' hh
    have := eval_le h
    rw [List.length_drop] at this
    obtain ⟨m, rfl, hp⟩ := ih (by omega) n' s' hh
    rw [← List.drop_drop] at hp
    exact ⟨n1 + m, by omega, .cons hg h hp⟩
  | fail => intro n' s' h; cases h
  | cut => intro n' s' h; cases h
  | panic => intro n' s' h; cases h
  | slice => intro n' s' h; cases h

/-! ### Panics pass through -/

theorem reach_panic {g src s g' src' s'} (h : Reach env sem g src s g' src' s') {p : Panic A P} {s''}
    (hp : Eval env sem g' src' s' (.panic p s'')) : Eval env sem g src s (.panic p s'') := by
  induction h with
  | here => exact hp
  | peek _ ih => exact eval_peek.mpr ⟨_, ih hp, rfl⟩
  | not _ ih => exact eval_not.mpr ⟨_, ih hp, rfl⟩
  | opt _ ih => exact eval_rep01.mpr ⟨_, ih hp, rfl⟩
  | named _ ih => exact eval_named.mpr (ih hp)
  | var hv _ ih => exact eval_var.mpr (by rw [hv]; exact ih hp)
  | action _ ih => exact eval_action.mpr ⟨_, ih hp, rfl⟩
  | trans hs _ ih => exact eval_trans.mpr (by rw [hs]; exact ⟨_, ih hp, rfl⟩)
  | @and pre g post src s n s1 _ _ _ hpre hg _ ih =>
    refine eval_and.mpr (parts_and hpre _ src 0 false _ _ rfl (Nat.zero_le _) ?_)
    rw [Nat.zero_add]
    exact .panic hg (parts_le hpre) (ih hp)
  | @or pre g post src s fs s1 _ _ _ hpre _ ih =>
    obtain ⟨_, _, _, _, h⟩ := allFail_or (all := .or (pre ++ g :: post)) hpre 0 none true nofun (g :: post) (fun _ _ _ => .panic p s'')
      (fun a b c _ => .panic (ih hp))
    exact eval_or.mpr h
  | rep0 hi _ ih =>
    exact eval_rep0.mpr ⟨_, items_rep hi 0 0 _ (.panic (ih hp)), rfl⟩
  | @rep1 id g src s k n s1 _ _ _ hi _ ih =>
    cases hi with
    | nil => exact eval_rep1.mpr ⟨_, ih hp, rfl⟩
    | @cons _ _ n1 s1 k m _ h hi =>
      refine eval_rep1.mpr ⟨_, h, .inr ⟨eval_le h, _, items_rep hi 0 0 _ (.panic ?_), rfl⟩⟩
      rw [List.drop_drop]
      exact ih hp
  | listFirst _ ih => exact eval_list.mpr ⟨_, ih hp, rfl⟩
  | listRest h hi _ ih =>
    refine eval_list.mpr ⟨_, h, .inr ⟨eval_le h, _, items_rep hi _ 1 _ (.panic ?_), rfl⟩⟩
    rw [List.drop_drop]
    exact ih hp

/-! ### Nesting -/

theorem Spec.Balanced.append {e e' : List (Ev A)} (h : Balanced e) (h' : Balanced e') : Balanced (e ++ e') := by
  induction h with
  | nil => exact h'
  | act _ ih => exact .act ih
  | @pair t failed e1 e2 h1 h2 _ ih =>
    rw [List.append_assoc, List.cons_append]
    exact .pair h1 ih

theorem Spec.Unclosed.prepend {e e' : List (Ev A)} {ts} (h : Balanced e) (h' : Unclosed e' ts) : Unclosed (e ++ e') ts := by
  cases h' with
  | none h' => exact .none (h.append h')
  | one h1 h2 => rw [← List.append_assoc]; exact .one (h.append h1) h2

/-- What the trace of an outcome looks like. -/
def Nested (o : Out) (e : List (Ev A)) : Prop :=
  match o with
  | .succ _ _ => Balanced e
  | .fail _ => Balanced e
  | .abort false => ∃ ts, Unclosed e ts
  | .abort true => ∃ e' x ts, e = e' ++ [x] ∧ Unclosed e' ts ∧ ∀ t f, x = .closes t f → ts.getLast? = some t

theorem Nested.prepend {e e' : List (Ev A)} {o : Out} (h : Balanced e) (h' : Nested o e') : Nested o (e ++ e') := by
  cases o with
  | succ => exact h.append h'
  | fail => exact h.append h'
  | abort b =>
    cases b with
    | false => obtain ⟨ts, h'⟩ := h'; exact ⟨ts, h'.prepend h⟩
    | true =>
      obtain ⟨e1, x, ts, rfl, h', hx⟩ := h'
      exact ⟨e ++ e1, x, ts, by rw [List.append_assoc], h'.prepend h, hx⟩

theorem nested_shift {n : Nat} {o : Out} {e : List (Ev A)} : Nested (o.shift n) e ↔ Nested o e := by cases o <;> exact Iff.rfl
theorem nested_oneMore {n : Nat} {o : Out} {e : List (Ev A)} : Nested (o.oneMore n) e ↔ Nested o e := by cases o <;> exact Iff.rfl
theorem nested_atLeast {n : Nat} {o : Out} {e : List (Ev A)} : Nested (o.atLeast n) e ↔ Nested o e := by cases o <;> exact Iff.rfl
theorem nested_withLen {n : Int} {o : Out} {e : List (Ev A)} : Nested (o.withLen n) e ↔ Nested o e := by cases o <;> exact Iff.rfl

theorem balanced_act {a : A} {g toks l} : Balanced [Ev.act a g toks l] := .act .nil

theorem Spec.Unclosed.opened {e : List (Ev A)} {t : A} {ts} (h : Unclosed e ts) : Unclosed (.opens t :: e) (t :: ts) :=
  .one (e := []) .nil h

theorem tr_nested {j : Job A} {src o e} (h : Tr env j src o e) : Nested o e := by
  induction h with
  | nil => exact ⟨[], .none .nil⟩
  | tok | tokNot | tokEnd | tru | eof | eofNot | varNone | seqEnd | altEnd => exact Balanced.nil
  | peek _ ih | peekNot _ ih | peekAbort _ ih | not _ ih | notNot _ ih | notAbort _ ih | rep0 _ ih | rep1Fail _ ih
  | rep1Abort _ ih | opt _ ih | optNone _ ih | optAbort _ ih | list0 _ ih | listFail _ ih | listAbort _ ih
  | actionFail _ ih | actionAbort _ ih | seqMark _ ih | altHit _ ih
  | altAbort _ ih | manyEnd _ ih | manyAbort _ ih => exact ih
  | seqFail _ _ ih | seqAbort _ _ ih => exact ih
  | and _ ih | or _ ih | var _ _ ih | named _ ih => exact nested_withLen.mpr ih
  | rep1 _ _ ih1 ih2 | list _ _ ih1 ih2 | manyMore _ _ ih1 ih2 => exact nested_oneMore.mpr (Nested.prepend ih1 ih2)
  | action _ ih => exact Balanced.append ih balanced_act
  | actionStop _ ih => exact ⟨_, _, [], rfl, .none ih, nofun⟩
  | trans _ ih => exact .pair ih .nil
  | transFail _ ih => exact .pair ih .nil
  | @transAbort t g src b e _ ih =>
    cases b with
    | false => obtain ⟨ts, h⟩ := ih; exact ⟨t :: ts, h.opened⟩
    | true =>
      obtain ⟨e', x, ts, rfl, h, hx⟩ := ih
      refine ⟨.opens t :: e', x, t :: ts, rfl, h.opened, ?_⟩
      intro t' f he
      have := hx t' f he
      rw [List.getLast?_cons, this]
      rfl
  | transStop => exact ⟨[], _, [], rfl, .none .nil, nofun⟩
  | transStopOk _ ih => exact ⟨_, _, _, rfl, Unclosed.opened (.none ih), fun t f he => by cases he; rfl⟩
  | transStopFail _ ih => exact ⟨_, _, _, rfl, Unclosed.opened (.none ih), fun t f he => by cases he; rfl⟩
  | seqNext _ _ _ ih1 ih2 => exact nested_shift.mpr (Nested.prepend ih1 ih2)
  | seqCut _ _ ih => exact ⟨[], .none ih⟩
  | altNext _ _ ih1 ih2 => exact nested_atLeast.mpr (Nested.prepend ih1 ih2)

/-! ### The tokens of actions -/

/-- The tokens of every action are a run of the input. -/
theorem tr_tokens {j : Job A} {src o e} (h : Tr env j src o e) : ∀ a g toks l, Ev.act a g toks l ∈ e →
    ∃ i n, i + n ≤ src.length ∧ toks = (src.drop i).take n := by
  have shift : ∀ {n : Nat} {src : List Token} {toks : List Token}, n ≤ src.length →
      (∃ i m, i + m ≤ (src.drop n).length ∧ toks = ((src.drop n).drop i).take m) →
      ∃ i m, i + m ≤ src.length ∧ toks = (src.drop i).take m := by
    rintro n src toks hn ⟨i, m, h1, h2⟩
    rw [List.length_drop] at h1
    exact ⟨n + i, m, by omega, by rw [h2, List.drop_drop]⟩
  induction h with
  | nil | tok | tokNot | tokEnd | tru | eof | eofNot | varNone | seqEnd | altEnd => intro a g toks l h; cases h
  | peek _ ih | peekNot _ ih | peekAbort _ ih | not _ ih | notNot _ ih | notAbort _ ih | rep0 _ ih | rep1Fail _ ih
  | rep1Abort _ ih | opt _ ih | optNone _ ih | optAbort _ ih | list0 _ ih | listFail _ ih | listAbort _ ih
  | actionFail _ ih | actionAbort _ ih | seqMark _ ih | altHit _ ih
  | altAbort _ ih | manyEnd _ ih | manyAbort _ ih => exact ih
  | seqFail _ _ ih | seqAbort _ _ ih | seqCut _ _ ih => exact ih
  | and _ ih | or _ ih | var _ _ ih | named _ ih => exact ih
  | rep1 h1 _ ih1 ih2 | list h1 _ ih1 ih2 | manyMore h1 _ ih1 ih2 =>
    intro a g toks l h
    rcases List.mem_append.mp h with h | h
    · exact ih1 _ _ _ _ h
    · exact shift (tr_bound h1) (ih2 _ _ _ _ h)
  | seqNext _ h1 _ ih1 ih2 =>
    intro a g toks l h
    rcases List.mem_append.mp h with h | h
    · exact ih1 _ _ _ _ h
    · exact shift (tr_bound h1) (ih2 _ _ _ _ h)
  | altNext _ _ ih1 ih2 =>
    intro a g toks l h
    rcases List.mem_append.mp h with h | h
    · exact ih1 _ _ _ _ h
    · exact ih2 _ _ _ _ h
  | action h1 ih | actionStop h1 ih =>
    intro a g toks l h
    rcases List.mem_append.mp h with h | h
    · exact ih _ _ _ _ h
    · simp only [List.mem_singleton, Ev.act.injEq] at h
      have := tr_bound h1
      exact ⟨0, _, by simpa [Out.Within] using this, by rw [h.2.2.1]; rfl⟩
  | trans _ ih | transFail _ ih | transStopOk _ ih | transStopFail _ ih =>
    intro a g toks l h
    simp only [List.cons_append, List.mem_cons, List.mem_append, reduceCtorEq, false_or, List.not_mem_nil, or_false] at h
    exact ih _ _ _ _ h
  | transAbort _ ih =>
    intro a g toks l h
    simp only [List.mem_cons, reduceCtorEq, false_or] at h
    exact ih _ _ _ _ h
  | transStop => intro a g toks l h; simp at h

end Tpl
