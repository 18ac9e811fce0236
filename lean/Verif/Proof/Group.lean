import Verif.Spec.Group
import Verif.Proof.Fold

/-! Parentheses that group items or alternatives. -/
namespace Tpl
open Spec
variable {A B σ V P : Type}

/-- A grammar that matches in one way only and calls nothing. -/
def Sure (a : Gr B) : Prop := ∀ (env : Env B) (src : List Token) (o o' : Out) (e e' : List (Ev B)), Tr env (.one a) src o e → Tr env (.one a) src o' e' → o = o' ∧ e = []
/-- Two of them that match the same. -/
def Clone (a a' : Gr B) : Prop := Sure a ∧ Sure a' ∧ ∀ (env : Env B) (src : List Token) (o : Out), Tr env (.one a) src o [] ↔ Tr env (.one a') src o []

mutual
/-- The same grammar in two tables up to groups. If `m` is true then the number of items is the same, too. -/
inductive Gp : Bool → Gr B → Gr B → Prop
  | nil {m} : Gp m .nil .nil
  | tok {m a} : Gp m (.tok a) (.tok a)
  | tru {m} : Gp m .tru .tru
  | peek {m g g'} : Gp false g g' → Gp m (.peek g) (.peek g')
  | not {m g g'} : Gp false g g' → Gp m (.not g) (.not g')
  | and {m gs gs'} : GpS gs gs' → (m = true → gs.length = gs'.length) → Gp m (.and gs) (.and gs')
  | or {m gs gs'} : GpA gs gs' → (m = true → gs.length = gs'.length) → Gp m (.or gs) (.or gs')
  | rep0 {m i i' g g'} : Gp false g g' → Gp m (.rep0 i g) (.rep0 i' g')
  | rep1 {m i i' g g'} : Gp false g g' → Gp m (.rep1 i g) (.rep1 i' g')
  | rep01 {m i i' g g'} : Gp false g g' → Gp m (.rep01 i g) (.rep01 i' g')
  | list {m i i' a b a' b' l} : Gp false a a' → Gp false b b' → Gp m (.list i a b l) (.list i' a' b' l)
  | action {m a g g'} : Gp true g g' → Gp m (.action a g) (.action a g')
  | trans {m a g g'} : Gp true g g' → Gp m (.trans a g) (.trans a g')
  | var {m v} : Gp m (.var v) (.var v)
  | named {m n g g'} : Gp false g g' → Gp m (.named n g) (.named n g')
  -- operators that are written out
  | plus {i i' g h k} : g ≠ .nil → Gp false g h → Gp false g k → Gp false (.rep1 i g) (.and [h, .rep0 i' k])
  | plus' {i i' g h k} : g ≠ .nil → Gp false h g → Gp false k g → Gp false (.and [h, .rep0 i k]) (.rep1 i' g)
  | lst {i i' a a1 a2 b b1} : a ≠ .nil → Gp false a a1 → Gp false a a2 → Gp false b b1 → Gp false (.list i a b false) (.and [a1, .rep0 i' (.and [b1, a2])])
  | lst' {i i' a a1 a2 b b1} : a ≠ .nil → Gp false a1 a → Gp false a2 a → Gp false b1 b → Gp false (.and [a1, .rep0 i (.and [b1, a2])]) (.list i' a b false)
  | lst0 {i i' i'' a a1 b b1} : Gp false a a1 → Gp false b b1 → Gp false (.list i a b true) (.rep01 i' (.list i'' a1 b1 false))
  | lst0' {i i' i'' a a1 b b1} : Gp false a1 a → Gp false b1 b → Gp false (.rep01 i (.list i' a1 b1 false)) (.list i'' a b true)
  | star {i i' i'' g g'} : Gp false g g' → Gp false (.rep0 i g) (.rep01 i' (.rep1 i'' g'))
  | star' {i i' i'' g g'} : Gp false g g' → Gp false (.rep01 i (.rep1 i' g)) (.rep0 i'' g')
  | opt {i g g'} : Gp false g g' → Gp false (.rep01 i g) (.or [g', .tru])
  | opt' {i g g'} : Gp false g g' → Gp false (.or [g, .tru]) (.rep01 i g')
  | twice {m g g'} : Gp false g g' → Gp m (.peek g) (.not (.not g'))
  | twice' {m g g'} : Gp false g g' → Gp m (.not (.not g)) (.peek g')
  | nots {gs gs'} : GpL gs gs' → Gp false (.not (.or gs)) (.and (gs'.map .not))
  | nots' {gs gs'} : GpL gs gs' → Gp false (.and (gs.map .not)) (.not (.or gs'))
  | each {a1 a2 a a' b b' c c'} : a ≠ .nil → a' ≠ .nil → b ≠ .nil → c ≠ .nil → Clone a a' → Clone a1 a2 → Gp false a a1 → Gp false a' a2 → Gp false b b' → Gp false c c' →
      Gp false (.and [a, .or [b, c]]) (.or [.and [a1, b'], .and [a2, c']])
  | each' {a1 a2 a a' b b' c c'} : a ≠ .nil → a' ≠ .nil → b ≠ .nil → c ≠ .nil → Clone a a' → Clone a1 a2 → Gp false a1 a → Gp false a2 a' → Gp false b' b → Gp false c' c →
      Gp false (.or [.and [a1, b'], .and [a2, c']]) (.and [a, .or [b, c]])
  | orNot {i a1 a2 a a' b b'} : a ≠ .nil → b ≠ .nil → Clone a a' → Clone a1 a2 → Gp false a a1 → Gp false a' a2 → Gp false b b' →
      Gp false (.and [a, .rep01 i b]) (.or [.and [a1, b'], a2])
  | orNot' {i a1 a2 a a' b b'} : a ≠ .nil → b ≠ .nil → Clone a a' → Clone a1 a2 → Gp false a1 a → Gp false a2 a' → Gp false b' b →
      Gp false (.or [.and [a1, b'], a2]) (.and [a, .rep01 i b])
/-- One by one. -/
inductive GpL : List (Gr B) → List (Gr B) → Prop
  | nil : GpL [] []
  | cons {g g' gs gs'} : Gp false g g' → GpL gs gs' → GpL (g :: gs) (g' :: gs')
/-- Items of a sequence. -/
inductive GpS : List (Gr B) → List (Gr B) → Prop
  | nil : GpS [] []
  | cons {g g' gs gs'} : Gp false g g' → GpS gs gs' → GpS (g :: gs) (g' :: gs')
  | opened {h1 h2 hs hs' gs gs'} : GpL (h1 :: h2 :: hs) hs' → Gr.nil ∉ h1 :: h2 :: hs → GpS gs gs' → GpS (.and (h1 :: h2 :: hs) :: gs) (hs' ++ gs')
  | closed {h1 h2 hs hs' gs gs'} : GpL (h1 :: h2 :: hs) hs' → Gr.nil ∉ h1 :: h2 :: hs → GpS gs gs' → GpS ((h1 :: h2 :: hs) ++ gs) (.and hs' :: gs')
/-- Alternatives of a choice. -/
inductive GpA : List (Gr B) → List (Gr B) → Prop
  | nil : GpA [] []
  | cons {g g' gs gs'} : Gp false g g' → GpA gs gs' → GpA (g :: gs) (g' :: gs')
  | opened {h1 h2 hs hs' gs gs'} : GpL (h1 :: h2 :: hs) hs' → GpA gs gs' → GpA (.or (h1 :: h2 :: hs) :: gs) (hs' ++ gs')
  | closed {h1 h2 hs hs' gs gs'} : GpL (h1 :: h2 :: hs) hs' → GpA gs gs' → GpA ((h1 :: h2 :: hs) ++ gs) (.or hs' :: gs')
end

theorem Gp.nil_iff {m : Bool} {g g' : Gr B} (h : Gp m g g') : g = .nil ↔ g' = .nil := by
  cases h <;> first | exact Iff.rfl | exact ⟨nofun, nofun⟩

theorem Gp.weaken {m : Bool} {g g' : Gr B} (h : Gp true g g') : Gp m g g' := by
  cases h with
  | nil => exact .nil
  | tok => exact .tok
  | tru => exact .tru
  | peek h => exact .peek h
  | not h => exact .not h
  | and h e => exact .and h fun _ => e rfl
  | or h e => exact .or h fun _ => e rfl
  | rep0 h => exact .rep0 h
  | rep1 h => exact .rep1 h
  | rep01 h => exact .rep01 h
  | list h h' => exact .list h h'
  | action h => exact .action h
  | trans h => exact .trans h
  | var => exact .var
  | named h => exact .named h
  | twice h => exact .twice h
  | twice' h => exact .twice' h

theorem GpL.calm {gs gs' : List (Gr B)} (h : GpL gs gs') (hn : Gr.nil ∉ gs) : Gr.nil ∉ gs' := by
  induction gs generalizing gs' with
  | nil => cases h; exact hn
  | cons g gs ih =>
    cases h with
    | cons h1 h2 =>
      rw [List.mem_cons, not_or] at hn ⊢
      exact ⟨fun e => hn.1 (h1.nil_iff.mpr e.symm).symm, ih h2 hn.2⟩

theorem GpL.len {gs gs' : List (Gr B)} (h : GpL gs gs') : gs.length = gs'.length := by
  induction gs generalizing gs' with
  | nil => cases h; rfl
  | cons g gs ih => cases h with
    | cons _ h => simp [ih h]

mutual
theorem Gp.symm : ∀ {m : Bool} {g g' : Gr B}, Gp m g g' → Gp m g' g
  | _, _, _, .nil => .nil
  | _, _, _, .tok => .tok
  | _, _, _, .tru => .tru
  | _, _, _, .peek h => .peek h.symm
  | _, _, _, .not h => .not h.symm
  | _, _, _, .and h e => .and h.symm fun m => (e m).symm
  | _, _, _, .or h e => .or h.symm fun m => (e m).symm
  | _, _, _, .rep0 h => .rep0 h.symm
  | _, _, _, .rep1 h => .rep1 h.symm
  | _, _, _, .rep01 h => .rep01 h.symm
  | _, _, _, .list h h' => .list h.symm h'.symm
  | _, _, _, .action h => .action h.symm
  | _, _, _, .trans h => .trans h.symm
  | _, _, _, .var => .var
  | _, _, _, .named h => .named h.symm
  | _, _, _, .plus hn h h' => .plus' hn h.symm h'.symm
  | _, _, _, .plus' hn h h' => .plus hn h.symm h'.symm
  | _, _, _, .lst hn h h' hb => .lst' hn h.symm h'.symm hb.symm
  | _, _, _, .lst' hn h h' hb => .lst hn h.symm h'.symm hb.symm
  | _, _, _, .lst0 h h' => .lst0' h.symm h'.symm
  | _, _, _, .lst0' h h' => .lst0 h.symm h'.symm
  | _, _, _, .star h => .star' h.symm
  | _, _, _, .star' h => .star h.symm
  | _, _, _, .opt h => .opt' h.symm
  | _, _, _, .opt' h => .opt h.symm
  | _, _, _, .twice h => .twice' h.symm
  | _, _, _, .twice' h => .twice h.symm
  | _, _, _, .nots h => .nots' h.symm
  | _, _, _, .nots' h => .nots h.symm
  | _, _, _, .each ha ha' hb hc s s' h1 h2 h3 h4 => .each' ha ha' hb hc s s' h1.symm h2.symm h3.symm h4.symm
  | _, _, _, .each' ha ha' hb hc s s' h1 h2 h3 h4 => .each ha ha' hb hc s s' h1.symm h2.symm h3.symm h4.symm
  | _, _, _, .orNot ha hb s s' h1 h2 h3 => .orNot' ha hb s s' h1.symm h2.symm h3.symm
  | _, _, _, .orNot' ha hb s s' h1 h2 h3 => .orNot ha hb s s' h1.symm h2.symm h3.symm
theorem GpL.symm : ∀ {gs gs' : List (Gr B)}, GpL gs gs' → GpL gs' gs
  | _, _, .nil => .nil
  | _, _, .cons h h' => .cons h.symm h'.symm
theorem GpS.symm : ∀ {gs gs' : List (Gr B)}, GpS gs gs' → GpS gs' gs
  | _, _, .nil => .nil
  | _, _, .cons h h' => .cons h.symm h'.symm
  | _, _, .opened (.cons a (.cons b h)) hn h' => .closed (.cons a.symm (.cons b.symm h.symm)) (GpL.calm (.cons a (.cons b h)) hn) h'.symm
  | _, _, .closed (.cons a (.cons b h)) hn h' => .opened (.cons a.symm (.cons b.symm h.symm)) (GpL.calm (.cons a (.cons b h)) hn) h'.symm
theorem GpA.symm : ∀ {gs gs' : List (Gr B)}, GpA gs gs' → GpA gs' gs
  | _, _, .nil => .nil
  | _, _, .cons h h' => .cons h.symm h'.symm
  | _, _, .opened (.cons a (.cons b h)) h' => .closed (.cons a.symm (.cons b.symm h.symm)) h'.symm
  | _, _, .closed (.cons a (.cons b h)) h' => .opened (.cons a.symm (.cons b.symm h.symm)) h'.symm
end

theorem GpL.seq {gs gs' : List (Gr B)} (h : GpL gs gs') : GpS gs gs' := by
  induction gs generalizing gs' with
  | nil => cases h; exact .nil
  | cons g gs ih => cases h with
    | cons h1 h => exact .cons h1 (ih h)
theorem GpL.alts {gs gs' : List (Gr B)} (h : GpL gs gs') : GpA gs gs' := by
  induction gs generalizing gs' with
  | nil => cases h; exact .nil
  | cons g gs ih => cases h with
    | cons h1 h => exact .cons h1 (ih h)

theorem GpL.nots {gs gs' : List (Gr B)} (h : GpL gs gs') : GpL (gs.map .not) (gs'.map .not) := by
  induction gs generalizing gs' with
  | nil => cases h; exact .nil
  | cons g gs ih => cases h with
    | cons h1 h => exact .cons (.not h1) (ih h)

/-! ### Putting traces together -/

variable {env env' : Env B}

theorem shift_zero (o : Out) : o.shift 0 = o := by cases o <;> simp [Out.shift]
theorem shift_shift (o : Out) (n m : Nat) : (o.shift n).shift m = o.shift (m + n) := by cases o <;> simp [Out.shift, Nat.add_assoc]
theorem atLeast_zero (o : Out) : o.atLeast 0 = o := by cases o <;> simp [Out.atLeast]
theorem atLeast_atLeast (o : Out) (n m : Nat) : (o.atLeast n).atLeast m = o.atLeast (max m n) := by cases o <;> simp [Out.atLeast, Nat.max_assoc]

/-- A sequence has no number of items of its own. -/
theorem seq_zero {gs : List (Gr B)} {c : Bool} {src : List Token} {n : Nat} {l : Int} {e : List (Ev B)} (h : Tr env (.seq gs c) src (.succ n l) e) : l = 0 := by
  generalize hj : Job.seq gs c = j at h
  generalize ho : Out.succ n l = o at h
  induction h generalizing gs c n l with
  | seqEnd => cases ho; rfl
  | seqMark _ ih => exact ih rfl ho
  | @seqNext _ _ _ _ n1 _ _ o _ _ _ _ _ ih =>
    cases o with
    | succ n2 l2 => cases ho; exact ih rfl rfl
    | fail => cases ho
    | abort => cases ho
  | _ => cases hj <;> cases ho

theorem seq_append {hs gs : List (Gr B)} (hn : Gr.nil ∉ hs) {c : Bool} {src : List Token} {n : Nat} {l : Int} {e e' : List (Ev B)} {o : Out}
    (h : Tr env (.seq hs false) src (.succ n l) e) (h' : Tr env (.seq gs c) (src.drop n) o e') : Tr env (.seq (hs ++ gs) c) src (o.shift n) (e ++ e') := by
  induction hs generalizing src n e l with
  | nil =>
    cases h
    rw [shift_zero]
    exact h'
  | cons g hs ih =>
    rw [List.mem_cons, not_or] at hn
    generalize ho : Out.succ n l = o1 at h
    cases h with
    | seqMark => exact absurd rfl hn.1
    | @seqNext _ _ _ _ n1 l1 e1 o2 e2 hne h1 h2 =>
      cases o2 with
      | fail => cases ho
      | abort => cases ho
      | succ n2 l2 =>
        cases ho
        rw [List.append_assoc, ← shift_shift]
        exact .seqNext hne h1 (ih hn.2 h2 (by rwa [List.drop_drop]))
    | seqFail => cases ho
    | seqAbort => cases ho

theorem seq_append_fail {hs gs : List (Gr B)} (hn : Gr.nil ∉ hs) {c : Bool} {src : List Token} {n : Nat} {e : List (Ev B)}
    (h : Tr env (.seq hs false) src (.fail n) e) : Tr env (.seq (hs ++ gs) c) src (if c then .abort false else .fail n) e := by
  induction hs generalizing src n e with
  | nil => cases h
  | cons g hs ih =>
    rw [List.mem_cons, not_or] at hn
    generalize ho : Out.fail n = o1 at h
    cases h with
    | seqMark => exact absurd rfl hn.1
    | @seqNext _ _ _ _ n1 l1 e1 o2 e2 hne h1 h2 =>
      cases o2 with
      | succ => cases ho
      | abort => cases ho
      | fail n2 =>
        cases ho
        have := Tr.seqNext hne h1 (ih hn.2 h2)
        cases c <;> exact this
    | seqFail hne h1 =>
      cases ho
      cases c with
      | false => exact .seqFail hne h1
      | true => exact .seqCut hne h1
    | seqAbort => cases ho

theorem seq_append_abort {hs gs : List (Gr B)} (hn : Gr.nil ∉ hs) {c b : Bool} {src : List Token} {e : List (Ev B)}
    (h : Tr env (.seq hs false) src (.abort b) e) : Tr env (.seq (hs ++ gs) c) src (.abort b) e := by
  induction hs generalizing src e with
  | nil => cases h
  | cons g hs ih =>
    rw [List.mem_cons, not_or] at hn
    generalize ho : Out.abort b = o1 at h
    cases h with
    | seqMark => exact absurd rfl hn.1
    | @seqNext _ _ _ _ n1 l1 e1 o2 e2 hne h1 h2 =>
      cases o2 with
      | succ => cases ho
      | fail => cases ho
      | abort b2 =>
        cases ho
        exact .seqNext hne h1 (ih hn.2 h2)
    | seqFail => cases ho
    | seqAbort hne h1 =>
      cases ho
      exact .seqAbort hne h1

theorem alt_append {hs gs : List (Gr B)} {src : List Token} {n : Nat} {e e' : List (Ev B)} {o : Out}
    (h : Tr env (.alt hs) src (.fail n) e) (h' : Tr env (.alt gs) src o e') : Tr env (.alt (hs ++ gs)) src (o.atLeast n) (e ++ e') := by
  induction hs generalizing n e with
  | nil =>
    cases h
    rw [atLeast_zero]
    exact h'
  | cons g hs ih =>
    generalize ho : Out.fail n = o1 at h
    cases h with
    | altHit => cases ho
    | @altNext _ _ _ n1 e1 o2 e2 h1 h2 =>
      cases o2 with
      | succ => cases ho
      | abort => cases ho
      | fail n2 =>
        cases ho
        rw [List.append_assoc, ← atLeast_atLeast]
        exact .altNext h1 (ih h2)
    | altAbort => cases ho

theorem alt_append_stop {hs gs : List (Gr B)} {src : List Token} {e : List (Ev B)} {o : Out} (ho : o.isFail = false)
    (h : Tr env (.alt hs) src o e) : Tr env (.alt (hs ++ gs)) src o e := by
  induction hs generalizing e o with
  | nil => cases h; cases ho
  | cons g hs ih =>
    cases h with
    | altHit h => exact .altHit h
    | @altNext _ _ _ n1 e1 o2 e2 h1 h2 => exact .altNext h1 (ih (by cases o2 <;> first | rfl | cases ho) h2)
    | altAbort h => exact .altAbort h

/-! ### Operators that are written out -/

theorem oneMore_withLen (o : Out) (n : Nat) (l : Int) : (o.oneMore n).withLen l = (o.shift n).withLen l := by cases o <;> rfl

theorem many_goes {g : Gr B} {src : List Token} {o : Out} {e : List (Ev B)} (h : Tr env (.many g) src o e) : ∀ n, o ≠ .fail n := by
  generalize hj : Job.many g = j at h
  induction h with
  | manyEnd => nofun
  | manyAbort => nofun
  | @manyMore _ _ _ _ _ o _ _ _ _ ih =>
    cases o with
    | fail n => exact absurd rfl (ih hj n)
    | succ => nofun
    | abort => nofun
  | _ => cases hj

theorem pair_make {h x : Gr B} (hh : h ≠ .nil) (hx : x ≠ .nil) {src : List Token} {n : Nat} {l : Int} {e1 e2 : List (Ev B)} {o : Out}
    (t1 : Tr env (.one h) src (.succ n l) e1) (t2 : Tr env (.one x) (src.drop n) o e2) : ∃ o', Tr env (.one (.and [h, x])) src o' (e1 ++ e2) ∧ ∀ l, (o.shift n).withLen l = o'.withLen l := by
  cases o with
  | succ m l2 =>
    have := Tr.and (.seqNext hh t1 (.seqNext hx t2 .seqEnd))
    rw [List.append_nil] at this
    exact ⟨_, this, fun l => rfl⟩
  | fail m => exact ⟨_, .and (.seqNext hh t1 (.seqFail hx t2)), fun l => rfl⟩
  | abort b => exact ⟨_, .and (.seqNext hh t1 (.seqAbort hx t2)), fun l => rfl⟩

theorem pair_split {h x : Gr B} (hh : h ≠ .nil) (hx : x ≠ .nil) {src : List Token} {o : Out} {e : List (Ev B)} (t : Tr env (.seq [h, x] false) src o e) :
    (∃ n l e1 o2 e2, Tr env (.one h) src (.succ n l) e1 ∧ Tr env (.one x) (src.drop n) o2 e2 ∧ (∀ l, o.withLen l = (o2.shift n).withLen l) ∧ e = e1 ++ e2) ∨
    (∃ n, Tr env (.one h) src (.fail n) e ∧ o = .fail n) ∨ ∃ b, Tr env (.one h) src (.abort b) e ∧ o = .abort b := by
  cases t with
  | seqMark => exact absurd rfl hh
  | seqNext _ t1 t2 =>
    cases t2 with
    | seqMark => exact absurd rfl hx
    | seqNext _ t2 t3 =>
      cases t3
      refine .inl ⟨_, _, _, _, _, t1, t2, fun l => rfl, by rw [List.append_nil]⟩
    | seqFail _ t2 => exact .inl ⟨_, _, _, _, _, t1, t2, fun l => rfl, rfl⟩
    | seqAbort _ t2 => exact .inl ⟨_, _, _, _, _, t1, t2, fun l => rfl, rfl⟩
  | seqFail _ t1 => exact .inr (.inl ⟨_, t1, rfl⟩)
  | seqAbort _ t1 => exact .inr (.inr ⟨_, t1, rfl⟩)

/-- From `g *g` to `+g`. -/
theorem rep1_of {g : Gr B} (hn : g ≠ .nil) {i i' : Nat} {src : List Token} {o : Out} {e : List (Ev B)} (t : Tr env (.seq [g, .rep0 i g] false) src o e) :
    ∃ o', Tr env (.one (.rep1 i' g)) src o' e ∧ ∀ l, o.withLen l = o'.withLen l := by
  rcases pair_split hn (fun e => by cases e) t with ⟨n, l, e1, o2, e2, t1, t2, ho, rfl⟩ | ⟨n, t1, rfl⟩ | ⟨b, t1, rfl⟩
  · cases t2 with
    | rep0 t2 => exact ⟨_, .rep1 t1 t2, fun l => by rw [ho, oneMore_withLen]⟩
  · exact ⟨_, .rep1Fail t1, fun _ => rfl⟩
  · exact ⟨_, .rep1Abort t1, fun _ => rfl⟩
/-- From `a *(b a)` to `a % b`. -/
theorem list_of {a b : Gr B} (hn : a ≠ .nil) {i i' : Nat} {src : List Token} {o : Out} {e : List (Ev B)} (t : Tr env (.seq [a, .rep0 i (.and [b, a])] false) src o e) :
    ∃ o', Tr env (.one (.list i' a b false)) src o' e ∧ ∀ l, o.withLen l = o'.withLen l := by
  rcases pair_split hn (fun e => by cases e) t with ⟨n, l, e1, o2, e2, t1, t2, ho, rfl⟩ | ⟨n, t1, rfl⟩ | ⟨b, t1, rfl⟩
  · cases t2 with
    | rep0 t2 => exact ⟨_, .list t1 t2, fun l => by rw [ho, oneMore_withLen]⟩
  · exact ⟨_, .listFail t1, fun _ => rfl⟩
  · exact ⟨_, .listAbort t1, fun _ => rfl⟩
/-- From `a %= b` to `?(a % b)`. -/
theorem opt_of {a b : Gr B} {i i' i'' : Nat} {src : List Token} {o : Out} {e : List (Ev B)} (t : Tr env (.one (.list i a b true)) src o e) :
    ∃ o', Tr env (.one (.rep01 i' (.list i'' a b false))) src o' e ∧ ∀ l, o.withLen l = o'.withLen l := by
  cases t with
  | @list _ _ _ _ _ _ _ _ o2 _ t1 t2 =>
    cases o2 with
    | succ => exact ⟨_, .opt (.list t1 t2), fun _ => rfl⟩
    | fail => exact absurd rfl (many_goes t2 _)
    | abort => exact ⟨_, .optAbort (.list t1 t2), fun _ => rfl⟩
  | list0 t1 => exact ⟨_, .optNone (.listFail t1), fun _ => rfl⟩
  | listAbort t1 => exact ⟨_, .optAbort (.listAbort t1), fun _ => rfl⟩
theorem listOpt_succ {a b : Gr B} {i i' : Nat} {src : List Token} {n : Nat} {l : Int} {e : List (Ev B)} (t : Tr env (.one (.list i a b false)) src (.succ n l) e) :
    Tr env (.one (.list i' a b true)) src (.succ n l) e := by
  generalize ho : Out.succ n l = o at t ⊢
  cases t with
  | list t1 t2 => exact .list t1 t2
  | listFail => cases ho
  | listAbort => cases ho
theorem listOpt_abort {a b : Gr B} {i i' : Nat} {src : List Token} {c : Bool} {e : List (Ev B)} (t : Tr env (.one (.list i a b false)) src (.abort c) e) :
    Tr env (.one (.list i' a b true)) src (.abort c) e := by
  generalize ho : Out.abort c = o at t ⊢
  cases t with
  | list t1 t2 => exact .list t1 t2
  | listFail => cases ho
  | listAbort t1 => exact .listAbort t1
theorem listOpt_fail {a b : Gr B} {i i' : Nat} {src : List Token} {n : Nat} {e : List (Ev B)} (t : Tr env (.one (.list i a b false)) src (.fail n) e) :
    Tr env (.one (.list i' a b true)) src (.succ 0 0) e := by
  generalize ho : Out.fail n = o at t
  cases t with
  | @list _ _ _ _ _ _ _ _ o2 _ t1 t2 =>
    cases o2 with
    | succ => cases ho
    | fail => exact absurd rfl (many_goes t2 _)
    | abort => cases ho
  | listFail t1 => exact .list0 t1
  | listAbort => cases ho

/-- From `+g` to `*g`. -/
theorem many_of {g : Gr B} {i : Nat} {src : List Token} {o : Out} {e : List (Ev B)} (t : Tr env (.one (.rep1 i g)) src o e) :
    (∃ n, o = .fail n ∧ Tr env (.many g) src (.succ 0 0) e) ∨ (∀ n, o ≠ .fail n) ∧ Tr env (.many g) src o e := by
  cases t with
  | rep1 t1 t2 => exact .inr ⟨many_goes (.manyMore t1 t2), .manyMore t1 t2⟩
  | rep1Fail t1 => exact .inl ⟨_, rfl, .manyEnd t1⟩
  | rep1Abort t1 => exact .inr ⟨nofun, .manyAbort t1⟩
/-- From `*g` to `?+g`. -/
theorem star_of {g : Gr B} {i i' : Nat} {src : List Token} {o : Out} {e : List (Ev B)} (t : Tr env (.many g) src o e) :
    ∃ o', Tr env (.one (.rep01 i (.rep1 i' g))) src o' e ∧ ∀ l, o.withLen l = o'.withLen l := by
  have hf := many_goes t
  cases t with
  | manyEnd t1 => exact ⟨_, .optNone (.rep1Fail t1), fun _ => rfl⟩
  | @manyMore _ _ n _ _ o2 _ t1 t2 =>
    have t3 := Tr.rep1 (id := i') t1 t2
    generalize o2.oneMore n = o at t3 hf
    cases o with
    | succ => exact ⟨_, .opt t3, fun _ => rfl⟩
    | fail n => exact absurd rfl (hf n)
    | abort => exact ⟨_, .optAbort t3, fun _ => rfl⟩
  | manyAbort t1 => exact ⟨_, .optAbort (.rep1Abort t1), fun _ => rfl⟩

/-- From `g | 1` to `?g`. -/
theorem optional_of {g : Gr B} {i : Nat} {src : List Token} {o : Out} {e : List (Ev B)} (t : Tr env (.alt [g, .tru]) src o e) :
    ∃ o', Tr env (.one (.rep01 i g)) src o' e ∧ ∀ l, o.withLen l = o'.withLen l := by
  cases t with
  | altHit t1 => exact ⟨_, .opt t1, fun _ => rfl⟩
  | altNext t1 t2 =>
    cases t2 with
    | altHit t2 => cases t2; rw [List.append_nil]; exact ⟨_, .optNone t1, fun _ => rfl⟩
    | altNext t2 _ => cases t2
    | altAbort t2 => cases t2
  | altAbort t1 => exact ⟨_, .optAbort t1, fun _ => rfl⟩

/-- What a negation makes of an outcome. -/
def negOut : Out → Out
  | .succ _ _ => .fail 0
  | .fail _ => .succ 0 (-1)
  | .abort b => .abort b

theorem neg_atLeast (o : Out) (n : Nat) : negOut (o.atLeast n) = negOut o := by cases o <;> rfl

theorem neg_withLen (o : Out) (l : Int) : negOut (o.withLen l) = negOut o := by cases o <;> rfl
theorem neg_near {o o' : Out} (h : ∀ l, o.withLen l = o'.withLen l) : negOut o = negOut o' := by
  rw [← neg_withLen o 0, h 0, neg_withLen]

/-- A negation. -/
theorem not_make {g : Gr B} {src : List Token} {o : Out} {e : List (Ev B)} (t : Tr env (.one g) src o e) : Tr env (.one (.not g)) src (negOut o) e := by
  cases o with
  | succ => exact .notNot t
  | fail => exact .not t
  | abort => exact .notAbort t
theorem not_split {g : Gr B} {src : List Token} {o : Out} {e : List (Ev B)} (t : Tr env (.one (.not g)) src o e) : ∃ o', Tr env (.one g) src o' e ∧ o = negOut o' := by
  cases t with
  | not t => exact ⟨_, t, rfl⟩
  | notNot t => exact ⟨_, t, rfl⟩
  | notAbort t => exact ⟨_, t, rfl⟩
/-- From `~(g1 | g2)` to `~g1 ~g2`. -/
theorem nots_of {gs : List (Gr B)} {src : List Token} {o : Out} {e : List (Ev B)} (t : Tr env (.alt gs) src o e) :
    ∃ o', Tr env (.seq (gs.map .not) false) src o' e ∧ ∀ l, (negOut o).withLen l = o'.withLen l := by
  induction gs generalizing o e with
  | nil => cases t; exact ⟨_, .seqEnd, fun _ => rfl⟩
  | cons g gs ih =>
    cases t with
    | altHit t1 => exact ⟨_, .seqFail nofun (.notNot t1), fun _ => rfl⟩
    | altNext t1 t2 =>
      obtain ⟨o', t3, ho⟩ := ih t2
      refine ⟨_, .seqNext nofun (.not t1) t3, fun l => ?_⟩
      rw [neg_atLeast, ho, shift_zero]
    | altAbort t1 => exact ⟨_, .seqAbort nofun (.notAbort t1), fun _ => rfl⟩
/-- From `~g1 ~g2` to `~(g1 | g2)`. -/
theorem alt_of {gs : List (Gr B)} {src : List Token} {o : Out} {e : List (Ev B)} (t : Tr env (.seq (gs.map .not) false) src o e) :
    ∃ o', Tr env (.alt gs) src o' e ∧ ∀ l, o.withLen l = (negOut o').withLen l := by
  induction gs generalizing o e with
  | nil => cases t; exact ⟨_, .altEnd, fun _ => rfl⟩
  | cons g gs ih =>
    cases t with
    | seqNext _ t1 t2 =>
      cases t1 with
      | not t1 =>
        obtain ⟨o', t3, ho⟩ := ih t2
        refine ⟨_, .altNext t1 t3, fun l => ?_⟩
        rw [neg_atLeast, ← ho, shift_zero]
    | seqFail _ t1 =>
      cases t1 with
      | notNot t1 => exact ⟨_, .altHit t1, fun _ => rfl⟩
    | seqAbort _ t1 =>
      cases t1 with
      | notAbort t1 => exact ⟨_, .altAbort t1, fun _ => rfl⟩

/-! ### Traces of grammars that are the same up to groups -/

theorem sameToks_refl : ∀ ts : List Token, SameToks Eq Eq ts ts
  | [] => .nil
  | ⟨_, _, _⟩ :: ts => .cons rfl rfl (sameToks_refl ts)

/-- What a sequence does that consists of two parts. -/
def SplitS (env' : Env B) (hs' gs' : List (Gr B)) (c : Bool) (src : List Token) (o : Out) (e : List (Ev B)) : Prop :=
  (∃ n e1 o2 e2, Tr env' (.seq hs' false) src (.succ n 0) e1 ∧ Tr env' (.seq gs' c) (src.drop n) o2 e2 ∧ o = o2.shift n ∧ SameEvs Eq e (e1 ++ e2)) ∨
  (∃ n e1, Tr env' (.seq hs' false) src (.fail n) e1 ∧ o = (if c then .abort false else .fail n) ∧ SameEvs Eq e e1) ∨
  ∃ b e1, Tr env' (.seq hs' false) src (.abort b) e1 ∧ o = .abort b ∧ SameEvs Eq e e1

/-- The same for a choice. -/
def SplitA (env' : Env B) (hs' gs' : List (Gr B)) (src : List Token) (o : Out) (e : List (Ev B)) : Prop :=
  (∃ n e1 o2 e2, Tr env' (.alt hs') src (.fail n) e1 ∧ Tr env' (.alt gs') src o2 e2 ∧ Near false o (o2.atLeast n) ∧ SameEvs Eq e (e1 ++ e2)) ∨
  ∃ o2 e1, Tr env' (.alt hs') src o2 e1 ∧ o2.isFail = false ∧ Near false o o2 ∧ SameEvs Eq e e1

/-- What is proved of every trace. -/
def GpCopies (env' : Env B) (src : List Token) (o : Out) (e : List (Ev B)) : Job B → Prop
  | .one g => ∀ m g', Gp m g g' → ∃ o' e', Tr env' (.one g') src o' e' ∧ Near m o o' ∧ SameEvs Eq e e'
  | .seq xs c => (∀ gs', GpS xs gs' → ∃ e', Tr env' (.seq gs' c) src o e' ∧ SameEvs Eq e e') ∧
      ∀ hs gs hs' gs', xs = hs ++ gs → GpL hs hs' → Gr.nil ∉ hs → GpS gs gs' → SplitS env' hs' gs' c src o e
  | .alt xs => (∀ gs', GpA xs gs' → ∃ o' e', Tr env' (.alt gs') src o' e' ∧ Near false o o' ∧ SameEvs Eq e e') ∧
      ∀ hs gs hs' gs', xs = hs ++ gs → GpL hs hs' → GpA gs gs' → SplitA env' hs' gs' src o e
  | .many g => ∀ g', Gp false g g' → ∃ e', Tr env' (.many g') src o e' ∧ SameEvs Eq e e'

theorem gp_seq {xs : List (Gr B)} {c : Bool} {src : List Token} {o : Out} {e : List (Ev B)}
    (hnil : xs = [] → ∃ e', Tr env' (.seq [] c) src o e' ∧ SameEvs Eq e e')
    (hcons : ∀ g gs g' gs', xs = g :: gs → Gp false g g' → GpS gs gs' → ∃ e', Tr env' (.seq (g' :: gs') c) src o e' ∧ SameEvs Eq e e')
    (hopen : ∀ hs gs hs' gs', xs = .and hs :: gs → GpL hs hs' → Gr.nil ∉ hs → GpS gs gs' → ∃ e', Tr env' (.seq (hs' ++ gs') c) src o e' ∧ SameEvs Eq e e')
    (hsplit : ∀ h hs gs h' hs' gs', xs = h :: (hs ++ gs) → Gp false h h' → GpL hs hs' → Gr.nil ∉ h :: hs → GpS gs gs' → SplitS env' (h' :: hs') gs' c src o e) :
    GpCopies env' src o e (.seq xs c) := by
  have claim : ∀ gs', GpS xs gs' → ∃ e', Tr env' (.seq gs' c) src o e' ∧ SameEvs Eq e e' := by
    intro gs' hg
    cases hg with
    | nil => exact hnil rfl
    | cons h1 h2 => exact hcons _ _ _ _ rfl h1 h2
    | opened h1 h2 h3 => exact hopen _ _ _ _ rfl h1 h2 h3
    | closed h1 h2 h3 =>
      cases h1 with
      | cons h0 h1 =>
        rcases hsplit _ _ _ _ _ _ rfl h0 h1 h2 h3 with ⟨n, e1, o2, e2, t1, t2, rfl, se⟩ | ⟨n, e1, t1, rfl, se⟩ | ⟨b, e1, t1, rfl, se⟩
        · exact ⟨_, .seqNext nofun (.and t1) t2, se⟩
        · cases c with
          | false => exact ⟨_, .seqFail nofun (.and t1), se⟩
          | true => exact ⟨_, .seqCut nofun (.and t1), se⟩
        · exact ⟨_, .seqAbort nofun (.and t1), se⟩
  refine ⟨claim, fun hs gs hs' gs' hx h1 hn h2 => ?_⟩
  cases h1 with
  | nil =>
    obtain ⟨e', t, se⟩ := claim gs' (hx ▸ h2)
    exact .inl ⟨0, [], o, e', .seqEnd, t, (shift_zero o).symm, se⟩
  | cons h0 h1 => exact hsplit _ _ _ _ _ _ hx h0 h1 hn h2

theorem gp_alt {xs : List (Gr B)} {src : List Token} {o : Out} {e : List (Ev B)}
    (hnil : xs = [] → ∃ o' e', Tr env' (.alt []) src o' e' ∧ Near false o o' ∧ SameEvs Eq e e')
    (hcons : ∀ g gs g' gs', xs = g :: gs → Gp false g g' → GpA gs gs' → ∃ o' e', Tr env' (.alt (g' :: gs')) src o' e' ∧ Near false o o' ∧ SameEvs Eq e e')
    (hopen : ∀ hs gs hs' gs', xs = .or hs :: gs → GpL hs hs' → GpA gs gs' → ∃ o' e', Tr env' (.alt (hs' ++ gs')) src o' e' ∧ Near false o o' ∧ SameEvs Eq e e')
    (hsplit : ∀ h hs gs h' hs' gs', xs = h :: (hs ++ gs) → Gp false h h' → GpL hs hs' → GpA gs gs' → SplitA env' (h' :: hs') gs' src o e) :
    GpCopies env' src o e (.alt xs) := by
  have claim : ∀ gs', GpA xs gs' → ∃ o' e', Tr env' (.alt gs') src o' e' ∧ Near false o o' ∧ SameEvs Eq e e' := by
    intro gs' hg
    cases hg with
    | nil => exact hnil rfl
    | cons h1 h2 => exact hcons _ _ _ _ rfl h1 h2
    | opened h1 h3 => exact hopen _ _ _ _ rfl h1 h3
    | closed h1 h3 =>
      cases h1 with
      | cons h0 h1 =>
        rcases hsplit _ _ _ _ _ _ rfl h0 h1 h3 with ⟨n, e1, o2, e2, t1, t2, hn, se⟩ | ⟨o2, e1, t1, hf, hn, se⟩
        · exact ⟨_, _, .altNext (.or t1) t2, hn, se⟩
        · have t3 := Tr.or t1
          cases o2 with
          | fail => cases hf
          | abort b => exact ⟨_, _, .altAbort t3, hn, se⟩
          | succ n l => exact ⟨_, _, .altHit t3, ⟨fun l => hn.1 l, nofun⟩, se⟩
  refine ⟨claim, fun hs gs hs' gs' hx h1 h2 => ?_⟩
  cases h1 with
  | nil =>
    obtain ⟨o', e', t, hn, se⟩ := claim gs' (hx ▸ h2)
    exact .inl ⟨0, [], o', e', .altEnd, t, (atLeast_zero o').symm ▸ hn, se⟩
  | cons h0 h1 => exact hsplit _ _ _ _ _ _ hx h0 h1 h2

/-- What a group does is what its items do. -/
theorem gp_and {hs : List (Gr B)} {src : List Token} {o' : Out} {e' : List (Ev B)} (h : Tr env' (.one (.and hs)) src o' e') :
    ∃ o0, Tr env' (.seq hs false) src o0 e' ∧ ∀ l, o0.withLen l = o'.withLen l := by
  cases h with
  | and h => exact ⟨_, h, fun l => (withLen_withLen _ _ _).symm⟩
theorem gp_or {hs : List (Gr B)} {src : List Token} {o' : Out} {e' : List (Ev B)} (h : Tr env' (.one (.or hs)) src o' e') :
    ∃ o0, Tr env' (.alt hs) src o0 e' ∧ ∀ l, o0.withLen l = o'.withLen l := by
  cases h with
  | or h => exact ⟨_, h, fun l => (withLen_withLen _ _ _).symm⟩

theorem Clone.symm {a a' : Gr B} (h : Clone a a') : Clone a' a := ⟨h.2.1, h.1, fun env src o => (h.2.2 env src o).symm⟩
theorem Clone.empty {a a' : Gr B} (h : Clone a a') {src : List Token} {o : Out} {e : List (Ev B)} (t : Tr env (.one a) src o e) : e = [] := (h.1 _ _ _ _ _ _ t t).2
theorem Clone.same {a a' : Gr B} (h : Clone a a') {src : List Token} {o o' : Out} {e e' : List (Ev B)} (t : Tr env (.one a) src o e) (t' : Tr env (.one a') src o' e') : o = o' := by
  obtain rfl := h.symm.empty t'
  exact (h.1 _ _ _ _ _ _ t ((h.2.2 _ _ _).mpr t')).1
theorem Clone.copy {a a' : Gr B} (h : Clone a a') {src : List Token} {o : Out} {e : List (Ev B)} (t : Tr env (.one a) src o e) : Tr env (.one a') src o [] := by
  obtain rfl := h.empty t
  exact (h.2.2 _ _ _).mp t

theorem max_add (n m k : Nat) : max (n + m) (n + k) = n + max m k := by omega

/-- From `a (b | c)` to `a b | a c`. -/
theorem each_of {a a' b c : Gr B} (hs : Clone a a') (ha : a ≠ .nil) (ha' : a' ≠ .nil) (hb : b ≠ .nil) (hc : c ≠ .nil) {src : List Token} {o : Out} {e : List (Ev B)}
    (t : Tr env (.seq [a, .or [b, c]] false) src o e) : ∃ o', Tr env (.alt [.and [a, b], .and [a', c]]) src o' e ∧ ∀ l, o.withLen l = o'.withLen l := by
  rcases pair_split ha (fun e => by cases e) t with ⟨n, l, e1, o2, e2, t1, t2, ho, rfl⟩ | ⟨n, t1, rfl⟩ | ⟨d, t1, rfl⟩
  · obtain rfl := hs.empty t1
    have t1' := hs.copy t1
    obtain ⟨o0, t3, h0⟩ := gp_or t2
    have ho : ∀ l, o.withLen l = (o0.shift n).withLen l := fun l => by
      rw [ho]
      have := h0 l
      cases o0 <;> cases o2 <;> simp_all [Out.shift, Out.withLen]
    rw [List.nil_append]
    cases t3 with
    | altHit t3 =>
      have t4 := Tr.and (.seqNext ha t1 (.seqNext hb t3 .seqEnd))
      rw [List.append_nil, List.nil_append] at t4
      exact ⟨_, .altHit t4, fun l => by rw [ho]; rfl⟩
    | altAbort t3 =>
      have t4 := Tr.and (.seqNext ha t1 (.seqAbort hb t3 (gs := [])))
      rw [List.nil_append] at t4
      exact ⟨_, .altAbort t4, fun l => by rw [ho]; rfl⟩
    | altNext t3 t4 =>
      have t5 := Tr.and (.seqNext ha t1 (.seqFail hb t3 (gs := [])))
      rw [List.nil_append] at t5
      cases t4 with
      | altHit t6 =>
        have t7 := Tr.and (.seqNext ha' t1' (.seqNext hc t6 .seqEnd))
        rw [List.append_nil, List.nil_append] at t7
        exact ⟨_, .altNext t5 (.altHit t7), fun l => by rw [ho]; rfl⟩
      | altAbort t6 =>
        have t7 := Tr.and (.seqNext ha' t1' (.seqAbort hc t6 (gs := [])))
        rw [List.nil_append] at t7
        exact ⟨_, .altNext t5 (.altAbort t7), fun l => by rw [ho]; rfl⟩
      | altNext t6 t8 =>
        cases t8
        have t7 := Tr.and (.seqNext ha' t1' (.seqFail hc t6 (gs := [])))
        rw [List.nil_append] at t7
        refine ⟨_, .altNext t5 (.altNext t7 .altEnd), fun l => ?_⟩
        rw [ho]
        simp only [Out.shift, Out.withLen, Out.atLeast, Out.fail.injEq]
        omega
  · obtain rfl := hs.empty t1
    refine ⟨_, .altNext (.and (.seqFail ha t1)) (.altNext (.and (.seqFail ha' (hs.copy t1))) .altEnd), fun l => ?_⟩
    simp [Out.withLen, Out.atLeast]
  · exact ⟨_, .altAbort (.and (.seqAbort ha t1)), fun _ => rfl⟩

/-- What a pair does. -/
theorem and_split {h x : Gr B} (hh : h ≠ .nil) (hx : x ≠ .nil) {src : List Token} {o : Out} {e : List (Ev B)} (t : Tr env (.one (.and [h, x])) src o e) :
    (∃ n l e1 o2 e2, Tr env (.one h) src (.succ n l) e1 ∧ Tr env (.one x) (src.drop n) o2 e2 ∧ (∀ l, o.withLen l = (o2.shift n).withLen l) ∧ e = e1 ++ e2) ∨
    (∃ n, Tr env (.one h) src (.fail n) e ∧ o = .fail n) ∨ ∃ b, Tr env (.one h) src (.abort b) e ∧ o = .abort b := by
  obtain ⟨o0, t0, h0⟩ := gp_and t
  rcases pair_split hh hx t0 with ⟨n, l, e1, o2, e2, t1, t2, ho, rfl⟩ | ⟨n, t1, rfl⟩ | ⟨d, t1, rfl⟩
  · exact .inl ⟨n, l, e1, o2, e2, t1, t2, fun l => by rw [← h0, ho], rfl⟩
  · exact .inr (.inl ⟨n, t1, by have := h0 0; cases o <;> simp_all [Out.withLen]⟩)
  · exact .inr (.inr ⟨d, t1, by have := h0 0; cases o <;> simp_all [Out.withLen]⟩)

theorem shift_succ {o : Out} {n k : Nat} {l : Int} (h : ∀ l', (Out.succ k l).withLen l' = (o.shift n).withLen l') : ∃ m l', o = .succ m l' ∧ k = n + m := by
  have := h 0
  cases o <;> simp_all [Out.shift, Out.withLen]
theorem shift_fail {o : Out} {n k : Nat} (h : ∀ l', (Out.fail k).withLen l' = (o.shift n).withLen l') : ∃ m, o = .fail m ∧ k = n + m := by
  have := h 0
  cases o <;> simp_all [Out.shift, Out.withLen]
theorem shift_abort {o : Out} {n : Nat} {d : Bool} (h : ∀ l', (Out.abort d).withLen l' = (o.shift n).withLen l') : o = .abort d := by
  have := h 0
  cases o <;> simp_all [Out.shift, Out.withLen]

/-- From `a b | a c` to `a (b | c)`. -/
theorem each_to {a a' b c : Gr B} (hs : Clone a a') (ha : a ≠ .nil) (ha' : a' ≠ .nil) (hb : b ≠ .nil) (hc : c ≠ .nil) {src : List Token} {o : Out} {e : List (Ev B)}
    (t : Tr env (.alt [.and [a, b], .and [a', c]]) src o e) : ∃ o', Tr env (.one (.and [a, .or [b, c]])) src o' e ∧ ∀ l, o.withLen l = o'.withLen l := by
  have make : ∀ {n l o2 e2}, Tr env (.one a) src (.succ n l) [] → Tr env (.alt [b, c]) (src.drop n) o2 e2 → (∀ l, o.withLen l = (o2.shift n).withLen l) →
      ∃ o', Tr env (.one (.and [a, .or [b, c]])) src o' e2 ∧ ∀ l, o.withLen l = o'.withLen l := by
    intro n l o2 e2 t1 t2 ho
    obtain ⟨o', t3, h3⟩ := pair_make ha (fun e => by cases e) t1 (.or t2)
    refine ⟨o', t3, fun l => ?_⟩
    rw [← h3, ho]
    cases o2 <;> rfl
  cases t with
  | altHit t =>
    rcases and_split ha hb t with ⟨n, l, e1, o2, e2, t1, t2, ho, rfl⟩ | ⟨n, t1, h⟩ | ⟨d, t1, h⟩
    · obtain rfl := hs.empty t1
      obtain ⟨m, l', rfl, rfl⟩ := shift_succ ho
      exact make t1 (.altHit t2) fun _ => rfl
    · cases h
    · cases h
  | altAbort t =>
    rcases and_split ha hb t with ⟨n, l, e1, o2, e2, t1, t2, ho, rfl⟩ | ⟨n, t1, h⟩ | ⟨d, t1, h⟩
    · obtain rfl := hs.empty t1
      obtain rfl := shift_abort ho
      exact make t1 (.altAbort t2) fun _ => rfl
    · cases h
    · cases h
      exact ⟨_, .and (.seqAbort ha t1), fun _ => rfl⟩
  | @altNext _ _ _ k _ _ _ t t' =>
    rcases and_split ha hb t with ⟨n, l, e1, o2, e2, t1, t2, ho, rfl⟩ | ⟨n, t1, h⟩ | ⟨d, t1, h⟩
    · obtain rfl := hs.empty t1
      obtain ⟨m, rfl, rfl⟩ := shift_fail ho
      rw [List.nil_append]
      have again : ∀ {o' e'}, Tr env (.one (.and [a', c])) src o' e' → ∃ o3, Tr env (.one c) (src.drop n) o3 e' ∧ ∀ l, o'.withLen l = (o3.shift n).withLen l := by
        intro o' e' t
        rcases and_split ha' hc t with ⟨n', l', e1, o2, e2, t1', t2', ho', rfl⟩ | ⟨n', t1', h⟩ | ⟨d, t1', h⟩
        · obtain rfl := hs.symm.empty t1'
          cases hs.same t1 t1'
          exact ⟨_, t2', ho'⟩
        · cases hs.same t1 t1'
        · cases hs.same t1 t1'
      cases t' with
      | altHit t' =>
        obtain ⟨o3, t3, h3⟩ := again t'
        obtain ⟨m', l', rfl, rfl⟩ := shift_succ h3
        exact make t1 (.altNext t2 (.altHit t3)) fun _ => rfl
      | altAbort t' =>
        obtain ⟨o3, t3, h3⟩ := again t'
        obtain rfl := shift_abort h3
        exact make t1 (.altNext t2 (.altAbort t3)) fun _ => rfl
      | altNext t' t4 =>
        cases t4
        obtain ⟨o3, t3, h3⟩ := again t'
        obtain ⟨m', rfl, rfl⟩ := shift_fail h3
        refine make t1 (.altNext t2 (.altNext t3 .altEnd)) fun _ => ?_
        simp only [Out.shift, Out.withLen, Out.atLeast, Out.fail.injEq]
        omega
    · cases h
      obtain rfl := hs.empty t1
      have again : ∀ {o' e'}, Tr env (.one (.and [a', c])) src o' e' → o' = .fail k ∧ e' = [] := by
        intro o' e' t
        rcases and_split ha' hc t with ⟨n', l', e1, o2, e2, t1', t2', ho', rfl⟩ | ⟨n', t1', h⟩ | ⟨d, t1', h⟩
        · cases hs.same t1 t1'
        · cases hs.same t1 t1'
          exact ⟨h, hs.symm.empty t1'⟩
        · cases hs.same t1 t1'
      cases t' with
      | altHit t' => cases (again t').1
      | altAbort t' => cases (again t').1
      | altNext t' t4 =>
        cases t4
        obtain ⟨h1, rfl⟩ := again t'
        cases h1
        refine ⟨_, .and (.seqFail ha t1), fun _ => ?_⟩
        simp [Out.withLen, Out.atLeast]
    · cases h

/-- From `a ?b` to `a b | a`. -/
theorem orNot_of {a a' b : Gr B} {i : Nat} (hs : Clone a a') (ha : a ≠ .nil) (hb : b ≠ .nil) {src : List Token} {o : Out} {e : List (Ev B)}
    (t : Tr env (.seq [a, .rep01 i b] false) src o e) : ∃ o', Tr env (.alt [.and [a, b], a']) src o' e ∧ ∀ l, o.withLen l = o'.withLen l := by
  rcases pair_split ha (fun e => by cases e) t with ⟨n, l, e1, o2, e2, t1, t2, ho, rfl⟩ | ⟨n, t1, rfl⟩ | ⟨d, t1, rfl⟩
  · obtain rfl := hs.empty t1
    rw [List.nil_append]
    cases t2 with
    | opt t3 =>
      have t4 := Tr.and (.seqNext ha t1 (.seqNext hb t3 .seqEnd))
      rw [List.append_nil, List.nil_append] at t4
      exact ⟨_, .altHit t4, fun l => by rw [ho]; rfl⟩
    | optNone t3 =>
      have t4 := Tr.altNext (.and (.seqNext ha t1 (.seqFail hb t3 (gs := [])))) (.altHit (gs := []) (hs.copy t1))
      rw [List.append_nil, List.nil_append] at t4
      exact ⟨_, t4, fun l => by rw [ho]; rfl⟩
    | optAbort t3 =>
      have t4 := Tr.and (.seqNext ha t1 (.seqAbort hb t3 (gs := [])))
      rw [List.nil_append] at t4
      exact ⟨_, .altAbort t4, fun l => by rw [ho]; rfl⟩
  · obtain rfl := hs.empty t1
    refine ⟨_, .altNext (.and (.seqFail ha t1)) (.altNext (hs.copy t1) .altEnd), fun l => ?_⟩
    simp [Out.withLen, Out.atLeast]
  · exact ⟨_, .altAbort (.and (.seqAbort ha t1)), fun _ => rfl⟩

/-- From `a b | a` to `a ?b`. -/
theorem orNot_to {a a' b : Gr B} {i : Nat} (hs : Clone a a') (ha : a ≠ .nil) (hb : b ≠ .nil) {src : List Token} {o : Out} {e : List (Ev B)}
    (t : Tr env (.alt [.and [a, b], a']) src o e) : ∃ o', Tr env (.one (.and [a, .rep01 i b])) src o' e ∧ ∀ l, o.withLen l = o'.withLen l := by
  have make : ∀ {n l o2 e2}, Tr env (.one a) src (.succ n l) [] → Tr env (.one (.rep01 i b)) (src.drop n) o2 e2 → (∀ l, o.withLen l = (o2.shift n).withLen l) →
      ∃ o', Tr env (.one (.and [a, .rep01 i b])) src o' e2 ∧ ∀ l, o.withLen l = o'.withLen l := by
    intro n l o2 e2 t1 t2 ho
    obtain ⟨o', t3, h3⟩ := pair_make ha (fun e => by cases e) t1 t2
    exact ⟨o', t3, fun l => by rw [← h3, ho]⟩
  cases t with
  | altHit t =>
    rcases and_split ha hb t with ⟨n, l, e1, o2, e2, t1, t2, ho, rfl⟩ | ⟨n, t1, h⟩ | ⟨d, t1, h⟩
    · obtain rfl := hs.empty t1
      obtain ⟨m, l', rfl, rfl⟩ := shift_succ ho
      exact make t1 (.opt t2) fun _ => rfl
    · cases h
    · cases h
  | altAbort t =>
    rcases and_split ha hb t with ⟨n, l, e1, o2, e2, t1, t2, ho, rfl⟩ | ⟨n, t1, h⟩ | ⟨d, t1, h⟩
    · obtain rfl := hs.empty t1
      obtain rfl := shift_abort ho
      exact make t1 (.optAbort t2) fun _ => rfl
    · cases h
    · cases h
      exact ⟨_, .and (.seqAbort ha t1), fun _ => rfl⟩
  | altNext t t' =>
    rcases and_split ha hb t with ⟨n, l, e1, o2, e2, t1, t2, ho, rfl⟩ | ⟨n, t1, h⟩ | ⟨d, t1, h⟩
    · obtain rfl := hs.empty t1
      obtain ⟨m, rfl, rfl⟩ := shift_fail ho
      rw [List.nil_append]
      cases t' with
      | altHit t' =>
        obtain rfl := hs.symm.empty t'
        cases hs.same t1 t'
        rw [List.append_nil]
        exact make t1 (.optNone t2) fun _ => rfl
      | altAbort t' => cases hs.same t1 t'
      | altNext t' t4 => cases hs.same t1 t'
    · cases h
      obtain rfl := hs.empty t1
      cases t' with
      | altHit t' => cases hs.same t1 t'
      | altAbort t' => cases hs.same t1 t'
      | altNext t' t4 =>
        cases t4
        obtain rfl := hs.symm.empty t'
        cases hs.same t1 t'
        refine ⟨_, .and (.seqFail ha t1), fun _ => ?_⟩
        simp [Out.withLen, Out.atLeast]
    · cases h

/-- The rules of the two tables are the same up to groups. -/
def GpEnv (env env' : Env B) : Prop := ∀ v, (env v = none ∧ env' v = none) ∨ ∃ x x', env v = some x ∧ env' v = some x' ∧ Gp false x x'

/-- A trace of one table is a trace of the other. -/
theorem gp_carry (ht : GpEnv env env') {j : Job B} {src o e} (h : Tr env j src o e) : GpCopies env' src o e j := by
  induction h with
  | nil => intro m g' hg; cases hg; exact ⟨_, [], .nil, .refl, .nil⟩
  | tok hk => intro m g' hg; cases hg; exact ⟨_, [], .tok hk, .refl, .nil⟩
  | tokNot hk => intro m g' hg; cases hg; exact ⟨_, [], .tokNot hk, .refl, .nil⟩
  | tokEnd => intro m g' hg; cases hg; exact ⟨_, [], .tokEnd, .refl, .nil⟩
  | tru => intro m g' hg; cases hg; exact ⟨_, [], .tru, .refl, .nil⟩
  | eof => intro m g' hg; cases hg
  | eofNot => intro m g' hg; cases hg
  | peek _ ih =>
    intro m g' hg
    cases hg with
    | peek hg =>
      obtain ⟨o', e', h1, hn, h2⟩ := ih _ _ hg
      obtain ⟨l', rfl, _⟩ := hn.succ
      exact ⟨_, _, .peek h1, .refl, h2⟩
    | twice hg =>
      obtain ⟨o', e', h1, hn, h2⟩ := ih _ _ hg
      obtain ⟨l', rfl, _⟩ := hn.succ
      exact ⟨_, _, .not (.notNot h1), .refl, h2⟩
  | peekNot _ ih =>
    intro m g' hg
    cases hg with
    | peek hg =>
      obtain ⟨o', e', h1, hn, h2⟩ := ih _ _ hg
      have hn := hn.fail; subst hn
      exact ⟨_, _, .peekNot h1, .refl, h2⟩
    | twice hg =>
      obtain ⟨o', e', h1, hn, h2⟩ := ih _ _ hg
      have hn := hn.fail; subst hn
      exact ⟨_, _, .notNot (.not h1), .refl, h2⟩
  | peekAbort _ ih =>
    intro m g' hg
    cases hg with
    | peek hg =>
      obtain ⟨o', e', h1, hn, h2⟩ := ih _ _ hg
      have hn := hn.abort; subst hn
      exact ⟨_, _, .peekAbort h1, .refl, h2⟩
    | twice hg =>
      obtain ⟨o', e', h1, hn, h2⟩ := ih _ _ hg
      have hn := hn.abort; subst hn
      exact ⟨_, _, .notAbort (.notAbort h1), .refl, h2⟩
  | not _ ih =>
    intro m g' hg
    cases hg with
    | not hg =>
      obtain ⟨o', e', h1, hn, h2⟩ := ih _ _ hg
      have hn := hn.fail; subst hn
      exact ⟨_, _, .not h1, .refl, h2⟩
    | twice' hg =>
      obtain ⟨o', e', h1, hn, h2⟩ := ih false _ (.not hg)
      have hn := hn.fail; subst hn
      generalize ho : Out.fail _ = o at h1
      cases h1 with
      | notNot h1 => exact ⟨_, _, .peek h1, .refl, h2⟩
      | not h1 => cases ho
      | notAbort h1 => cases ho
    | nots hg =>
      obtain ⟨o', e', h1, hn, h2⟩ := ih false _ (.or hg.alts nofun)
      have hn := hn.fail; subst hn
      obtain ⟨o0, h3, h4⟩ := gp_or h1
      obtain ⟨o', t, ho⟩ := nots_of h3
      refine ⟨_, _, .and t, ⟨fun l => ?_, nofun⟩, h2⟩
      rw [withLen_withLen, ← ho, neg_near h4]
      rfl
  | notNot _ ih =>
    intro m g' hg
    cases hg with
    | not hg =>
      obtain ⟨o', e', h1, hn, h2⟩ := ih _ _ hg
      obtain ⟨l', rfl, _⟩ := hn.succ
      exact ⟨_, _, .notNot h1, .refl, h2⟩
    | twice' hg =>
      obtain ⟨o', e', h1, hn, h2⟩ := ih false _ (.not hg)
      obtain ⟨l', rfl, _⟩ := hn.succ
      generalize ho : Out.succ _ l' = o at h1
      cases h1 with
      | not h1 => exact ⟨_, _, .peekNot h1, .refl, h2⟩
      | notNot h1 => cases ho
      | notAbort h1 => cases ho
    | nots hg =>
      obtain ⟨o', e', h1, hn, h2⟩ := ih false _ (.or hg.alts nofun)
      obtain ⟨l', rfl, _⟩ := hn.succ
      obtain ⟨o0, h3, h4⟩ := gp_or h1
      obtain ⟨o', t, ho⟩ := nots_of h3
      refine ⟨_, _, .and t, ⟨fun l => ?_, nofun⟩, h2⟩
      rw [withLen_withLen, ← ho, neg_near h4]
      rfl
  | notAbort _ ih =>
    intro m g' hg
    cases hg with
    | not hg =>
      obtain ⟨o', e', h1, hn, h2⟩ := ih _ _ hg
      have hn := hn.abort; subst hn
      exact ⟨_, _, .notAbort h1, .refl, h2⟩
    | twice' hg =>
      obtain ⟨o', e', h1, hn, h2⟩ := ih false _ (.not hg)
      have hn := hn.abort; subst hn
      generalize ho : Out.abort _ = o at h1
      cases h1 with
      | notAbort h1 => cases ho; exact ⟨_, _, .peekAbort h1, .refl, h2⟩
      | not h1 => cases ho
      | notNot h1 => cases ho
    | nots hg =>
      obtain ⟨o', e', h1, hn, h2⟩ := ih false _ (.or hg.alts nofun)
      have hn := hn.abort; subst hn
      obtain ⟨o0, h3, h4⟩ := gp_or h1
      obtain ⟨o', t, ho⟩ := nots_of h3
      refine ⟨_, _, .and t, ⟨fun l => ?_, nofun⟩, h2⟩
      rw [withLen_withLen, ← ho, neg_near h4]
      rfl
  | rep1Fail _ ih =>
    intro m g' hg
    cases hg with
    | rep1 hg =>
      obtain ⟨o', e', h1, hn, h2⟩ := ih _ _ hg
      have hn := hn.fail; subst hn
      exact ⟨_, _, .rep1Fail h1, .refl, h2⟩
    | plus hne hg hk =>
      obtain ⟨o', e', h1, hn, h2⟩ := ih _ _ hg
      have hn := hn.fail; subst hn
      exact ⟨_, _, .and (.seqFail (fun e => hne (hg.nil_iff.mpr e)) h1), .refl, h2⟩
  | rep1Abort _ ih =>
    intro m g' hg
    cases hg with
    | rep1 hg =>
      obtain ⟨o', e', h1, hn, h2⟩ := ih _ _ hg
      have hn := hn.abort; subst hn
      exact ⟨_, _, .rep1Abort h1, .refl, h2⟩
    | plus hne hg hk =>
      obtain ⟨o', e', h1, hn, h2⟩ := ih _ _ hg
      have hn := hn.abort; subst hn
      exact ⟨_, _, .and (.seqAbort (fun e => hne (hg.nil_iff.mpr e)) h1), .refl, h2⟩
  | opt _ ih =>
    intro m g' hg
    cases hg with
    | rep01 hg =>
      obtain ⟨o', e', h1, hn, h2⟩ := ih _ _ hg
      obtain ⟨l', rfl, _⟩ := hn.succ
      exact ⟨_, _, .opt h1, .refl, h2⟩
    | opt hg =>
      obtain ⟨o', e', h1, hn, h2⟩ := ih _ _ hg
      obtain ⟨l', rfl, _⟩ := hn.succ
      exact ⟨_, _, .or (.altHit h1), ⟨fun _ => rfl, nofun⟩, h2⟩
    | lst0' ha hb =>
      obtain ⟨o', e', h1, hn, h2⟩ := ih false _ (.list (i' := 0) ha hb)
      obtain ⟨l', rfl, _⟩ := hn.succ
      exact ⟨_, _, listOpt_succ h1, ⟨fun _ => rfl, nofun⟩, h2⟩
    | star' hg =>
      obtain ⟨o', e', h1, hn, h2⟩ := ih false _ (.rep1 (i' := 0) hg)
      obtain ⟨l', rfl, _⟩ := hn.succ
      rcases many_of h1 with ⟨_, h, _⟩ | ⟨_, t⟩
      · cases h
      · exact ⟨_, _, .rep0 t, ⟨fun _ => rfl, nofun⟩, h2⟩
  | optNone _ ih =>
    intro m g' hg
    cases hg with
    | rep01 hg =>
      obtain ⟨o', e', h1, hn, h2⟩ := ih _ _ hg
      have hn := hn.fail; subst hn
      exact ⟨_, _, .optNone h1, .refl, h2⟩
    | opt hg =>
      obtain ⟨o', e', h1, hn, h2⟩ := ih _ _ hg
      have hn := hn.fail; subst hn
      have t := Tr.or (.altNext h1 (.altHit (gs := []) .tru))
      rw [List.append_nil] at t
      exact ⟨_, _, t, ⟨fun _ => rfl, nofun⟩, h2⟩
    | lst0' ha hb =>
      obtain ⟨o', e', h1, hn, h2⟩ := ih false _ (.list (i' := 0) ha hb)
      have hn := hn.fail; subst hn
      exact ⟨_, _, listOpt_fail h1, .refl, h2⟩
    | star' hg =>
      obtain ⟨o', e', h1, hn, h2⟩ := ih false _ (.rep1 (i' := 0) hg)
      have hn := hn.fail; subst hn
      rcases many_of h1 with ⟨_, _, t⟩ | ⟨h, _⟩
      · exact ⟨_, _, .rep0 t, .refl, h2⟩
      · exact absurd rfl (h _)
  | optAbort _ ih =>
    intro m g' hg
    cases hg with
    | rep01 hg =>
      obtain ⟨o', e', h1, hn, h2⟩ := ih _ _ hg
      have hn := hn.abort; subst hn
      exact ⟨_, _, .optAbort h1, .refl, h2⟩
    | opt hg =>
      obtain ⟨o', e', h1, hn, h2⟩ := ih _ _ hg
      have hn := hn.abort; subst hn
      exact ⟨_, _, .or (.altAbort h1), .refl, h2⟩
    | lst0' ha hb =>
      obtain ⟨o', e', h1, hn, h2⟩ := ih false _ (.list (i' := 0) ha hb)
      have hn := hn.abort; subst hn
      exact ⟨_, _, listOpt_abort h1, .refl, h2⟩
    | star' hg =>
      obtain ⟨o', e', h1, hn, h2⟩ := ih false _ (.rep1 (i' := 0) hg)
      have hn := hn.abort; subst hn
      rcases many_of h1 with ⟨_, h, _⟩ | ⟨_, t⟩
      · cases h
      · exact ⟨_, _, .rep0 t, .refl, h2⟩
  | list0 _ ih =>
    intro m g' hg
    cases hg with
    | list hg hb =>
      obtain ⟨o', e', h1, hn, h2⟩ := ih _ _ hg
      have hn := hn.fail; subst hn
      exact ⟨_, _, .list0 h1, .refl, h2⟩
    | lst0 hg hb =>
      obtain ⟨o', e', h1, hn, h2⟩ := ih _ _ hg
      have hn := hn.fail; subst hn
      exact ⟨_, _, .optNone (.listFail h1), .refl, h2⟩
  | listFail _ ih =>
    intro m g' hg
    cases hg with
    | list hg hb =>
      obtain ⟨o', e', h1, hn, h2⟩ := ih _ _ hg
      have hn := hn.fail; subst hn
      exact ⟨_, _, .listFail h1, .refl, h2⟩
    | lst hne hg hg' hb =>
      obtain ⟨o', e', h1, hn, h2⟩ := ih _ _ hg
      have hn := hn.fail; subst hn
      exact ⟨_, _, .and (.seqFail (fun e => hne (hg.nil_iff.mpr e)) h1), .refl, h2⟩
  | listAbort _ ih =>
    intro m g' hg
    cases hg with
    | list hg hb =>
      obtain ⟨o', e', h1, hn, h2⟩ := ih _ _ hg
      have hn := hn.abort; subst hn
      exact ⟨_, _, .listAbort h1, .refl, h2⟩
    | lst hne hg hg' hb =>
      obtain ⟨o', e', h1, hn, h2⟩ := ih _ _ hg
      have hn := hn.abort; subst hn
      exact ⟨_, _, .and (.seqAbort (fun e => hne (hg.nil_iff.mpr e)) h1), .refl, h2⟩
    | lst0 hg hb =>
      obtain ⟨o', e', h1, hn, h2⟩ := ih _ _ hg
      have hn := hn.abort; subst hn
      exact ⟨_, _, .optAbort (.listAbort h1), .refl, h2⟩
  | actionFail _ ih =>
    intro m g' hg
    cases hg with
    | action hg =>
      obtain ⟨o', e', h1, hn, h2⟩ := ih _ _ hg
      have hn := hn.fail; subst hn
      exact ⟨_, _, .actionFail h1, .refl, h2⟩
  | actionAbort _ ih =>
    intro m g' hg
    cases hg with
    | action hg =>
      obtain ⟨o', e', h1, hn, h2⟩ := ih _ _ hg
      have hn := hn.abort; subst hn
      exact ⟨_, _, .actionAbort h1, .refl, h2⟩
  | and _ ih =>
    intro m g' hg
    cases hg with
    | and hg hm =>
      obtain ⟨e', h1, h2⟩ := ih.1 _ hg
      exact ⟨_, _, .and h1, ⟨fun l => by rw [withLen_withLen, withLen_withLen], fun e => by rw [hm e]⟩, h2⟩
    | plus' hne hh hk =>
      obtain ⟨e', h1, h2⟩ := ih.1 _ (.cons hh (.cons (.rep0 (i' := 0) hk) .nil))
      obtain ⟨o', t, ho⟩ := rep1_of hne h1
      exact ⟨_, _, t, ⟨fun l => by rw [withLen_withLen]; exact ho l, nofun⟩, h2⟩
    | lst' hne hh hk hb =>
      obtain ⟨e', h1, h2⟩ := ih.1 _ (.cons hh (.cons (.rep0 (i' := 0) (.and (.cons hb (.cons hk .nil)) nofun)) .nil))
      obtain ⟨o', t, ho⟩ := list_of hne h1
      exact ⟨_, _, t, ⟨fun l => by rw [withLen_withLen]; exact ho l, nofun⟩, h2⟩
    | nots' hg =>
      obtain ⟨e', h1, h2⟩ := ih.1 _ hg.nots.seq
      obtain ⟨o', t, ho⟩ := alt_of h1
      exact ⟨_, _, not_make (.or t), ⟨fun l => by rw [withLen_withLen, neg_withLen]; exact ho l, nofun⟩, h2⟩
    | each ha ha' hb hc _ hs h1 h2 h3 h4 =>
      obtain ⟨e', t1, se⟩ := ih.1 _ (.cons h1 (.cons (.or (.cons h3 (.cons h4 .nil)) nofun) .nil))
      obtain ⟨o', t, ho⟩ := each_of hs (fun e => ha (h1.nil_iff.mpr e)) (fun e => ha' (h2.nil_iff.mpr e)) (fun e => hb (h3.nil_iff.mpr e)) (fun e => hc (h4.nil_iff.mpr e)) t1
      exact ⟨_, _, .or t, ⟨fun l => by rw [withLen_withLen, withLen_withLen]; exact ho l, nofun⟩, se⟩
    | orNot ha hb _ hs h1 h2 h3 =>
      obtain ⟨e', t1, se⟩ := ih.1 _ (.cons h1 (.cons (.rep01 (i' := 0) h3) .nil))
      obtain ⟨o', t, ho⟩ := orNot_of hs (fun e => ha (h1.nil_iff.mpr e)) (fun e => hb (h3.nil_iff.mpr e)) t1
      exact ⟨_, _, .or t, ⟨fun l => by rw [withLen_withLen, withLen_withLen]; exact ho l, nofun⟩, se⟩
  | or _ ih =>
    intro m g' hg
    cases hg with
    | or hg hm =>
      obtain ⟨o', e', h1, hn, h2⟩ := ih.1 _ hg
      exact ⟨_, _, .or h1, ⟨fun l => by rw [withLen_withLen, withLen_withLen]; exact hn.1 l, fun e => by rw [hm e]; exact hn.1 _⟩, h2⟩
    | opt' hg =>
      obtain ⟨o', e', h1, hn, h2⟩ := ih.1 _ (.cons hg (.cons .tru .nil))
      obtain ⟨o2, t, ho⟩ := optional_of h1
      exact ⟨_, _, t, ⟨fun l => by rw [withLen_withLen, hn.1 l]; exact ho l, nofun⟩, h2⟩
    | each' ha ha' hb hc hs _ h1 h2 h3 h4 =>
      obtain ⟨o', e', t1, hn, se⟩ := ih.1 _ (.cons (.and (.cons h1 (.cons h3 .nil)) nofun) (.cons (.and (.cons h2 (.cons h4 .nil)) nofun) .nil))
      obtain ⟨o2, t, ho⟩ := each_to hs ha ha' hb hc t1
      exact ⟨_, _, t, ⟨fun l => by rw [withLen_withLen, hn.1 l]; exact ho l, nofun⟩, se⟩
    | orNot' ha hb hs _ h1 h2 h3 =>
      obtain ⟨o', e', t1, hn, se⟩ := ih.1 _ (.cons (.and (.cons h1 (.cons h3 .nil)) nofun) (.cons h2 .nil))
      obtain ⟨o2, t, ho⟩ := orNot_to hs ha hb t1
      exact ⟨_, _, t, ⟨fun l => by rw [withLen_withLen, hn.1 l]; exact ho l, nofun⟩, se⟩
  | rep0 _ ih =>
    intro m g' hg
    cases hg with
    | rep0 hg =>
      obtain ⟨e', h1, h2⟩ := ih _ hg
      exact ⟨_, _, .rep0 h1, .refl, h2⟩
    | star hg =>
      obtain ⟨e', h1, h2⟩ := ih _ hg
      obtain ⟨o', t, ho⟩ := star_of h1
      exact ⟨_, _, t, ⟨ho, nofun⟩, h2⟩
  | rep1 _ _ ih ih' =>
    intro m g' hg
    cases hg with
    | rep1 hg =>
      obtain ⟨o1, e1, h1, hn, h2⟩ := ih _ _ hg
      obtain ⟨l', rfl, _⟩ := hn.succ
      obtain ⟨e2, h3, h4⟩ := ih' _ hg
      exact ⟨_, _, .rep1 h1 h3, .refl, h2.append h4⟩
    | plus hne hg hk =>
      obtain ⟨o1, e1, h1, hn, h2⟩ := ih _ _ hg
      obtain ⟨l', rfl, _⟩ := hn.succ
      obtain ⟨e2, h3, h4⟩ := ih' _ hk
      obtain ⟨o', t, ho⟩ := pair_make (fun e => hne (hg.nil_iff.mpr e)) (fun e => by cases e) h1 (.rep0 h3)
      exact ⟨_, _, t, ⟨fun l => by rw [oneMore_withLen]; exact ho l, nofun⟩, h2.append h4⟩
  | list _ _ ih ih' =>
    intro m g' hg
    cases hg with
    | list hg hb =>
      obtain ⟨o1, e1, h1, hn, h2⟩ := ih _ _ hg
      obtain ⟨l', rfl, _⟩ := hn.succ
      obtain ⟨e2, h3, h4⟩ := ih' (.and [_, _]) (.and (.cons hb (.cons hg .nil)) nofun)
      exact ⟨_, _, .list h1 h3, .refl, h2.append h4⟩
    | lst hne hg hg' hb =>
      obtain ⟨o1, e1, h1, hn, h2⟩ := ih _ _ hg
      obtain ⟨l', rfl, _⟩ := hn.succ
      obtain ⟨e2, h3, h4⟩ := ih' (.and [_, _]) (.and (.cons hb (.cons hg' .nil)) nofun)
      obtain ⟨o', t, ho⟩ := pair_make (fun e => hne (hg.nil_iff.mpr e)) (fun e => by cases e) h1 (.rep0 h3)
      exact ⟨_, _, t, ⟨fun l => by rw [oneMore_withLen]; exact ho l, nofun⟩, h2.append h4⟩
    | lst0 hg hb =>
      obtain ⟨o1, e1, h1, hn, h2⟩ := ih _ _ hg
      obtain ⟨l', rfl, _⟩ := hn.succ
      obtain ⟨e2, h3, h4⟩ := ih' (.and [_, _]) (.and (.cons hb (.cons hg .nil)) nofun)
      obtain ⟨o', t, ho⟩ := opt_of (i := 0) (.list h1 h3)
      exact ⟨_, _, t, ⟨ho, nofun⟩, h2.append h4⟩
  | varNone hv =>
    intro m g' hg
    cases hg with
    | var =>
      rcases ht _ with ⟨_, h⟩ | ⟨x, x', h, _⟩
      · exact ⟨_, _, .varNone h, .refl, .nil⟩
      · rw [hv] at h; cases h
  | var hv _ ih =>
    intro m g' hg
    cases hg with
    | var =>
      rcases ht _ with ⟨h, _⟩ | ⟨x, x', h, h', hx⟩
      · rw [hv] at h; cases h
      · rw [hv] at h
        cases h
        obtain ⟨o', e', h1, hn, h2⟩ := ih _ _ hx
        exact ⟨_, _, .var h' h1, near_withLen hn, h2⟩
  | named _ ih =>
    intro m g' hg
    cases hg with
    | named hg =>
      obtain ⟨o', e', h1, hn, h2⟩ := ih _ _ hg
      exact ⟨_, _, .named h1, near_withLen hn, h2⟩
  | action _ ih =>
    intro m g' hg
    cases hg with
    | action hg =>
      obtain ⟨o', e', h1, hn, h2⟩ := ih _ _ hg
      obtain rfl := hn.2 rfl
      exact ⟨_, _, .action h1, .refl, h2.snoc (.act (sameToks_refl _))⟩
  | actionStop _ ih =>
    intro m g' hg
    cases hg with
    | action hg =>
      obtain ⟨o', e', h1, hn, h2⟩ := ih _ _ hg
      obtain rfl := hn.2 rfl
      exact ⟨_, _, .actionStop h1, .refl, h2.snoc (.act (sameToks_refl _))⟩
  | trans _ ih =>
    intro m g' hg
    cases hg with
    | trans hg =>
      obtain ⟨o', e', h1, hn, h2⟩ := ih _ _ hg
      obtain rfl := hn.2 rfl
      exact ⟨_, _, .trans h1, .refl, .cons .opens (h2.snoc .closes)⟩
  | transFail _ ih =>
    intro m g' hg
    cases hg with
    | trans hg =>
      obtain ⟨o', e', h1, hn, h2⟩ := ih _ _ hg
      obtain rfl := hn.2 rfl
      exact ⟨_, _, .transFail h1, .refl, .cons .opens (h2.snoc .closes)⟩
  | transStopOk _ ih =>
    intro m g' hg
    cases hg with
    | trans hg =>
      obtain ⟨o', e', h1, hn, h2⟩ := ih _ _ hg
      obtain rfl := hn.2 rfl
      exact ⟨_, _, .transStopOk h1, .refl, .cons .opens (h2.snoc .closes)⟩
  | transStopFail _ ih =>
    intro m g' hg
    cases hg with
    | trans hg =>
      obtain ⟨o', e', h1, hn, h2⟩ := ih _ _ hg
      obtain rfl := hn.2 rfl
      exact ⟨_, _, .transStopFail h1, .refl, .cons .opens (h2.snoc .closes)⟩
  | transAbort _ ih =>
    intro m g' hg
    cases hg with
    | trans hg =>
      obtain ⟨o', e', h1, hn, h2⟩ := ih _ _ hg
      obtain rfl := hn.2 rfl
      exact ⟨_, _, .transAbort h1, .refl, .cons .opens h2⟩
  | transStop =>
    intro m g' hg
    cases hg with
    | trans hg => exact ⟨_, _, .transStop, .refl, .cons .opens .nil⟩
  | seqEnd => exact gp_seq (fun _ => ⟨_, .seqEnd, .nil⟩) nofun nofun nofun
  | seqMark _ ih =>
    refine gp_seq nofun (fun g gs g' gs' hx hg hgs => ?_) (fun _ _ _ _ hx => by cases hx) (fun h hs gs h' hs' gs' hx hg _ hn => ?_)
    · cases hx
      obtain ⟨e', h1, h2⟩ := ih.1 _ hgs
      rw [hg.nil_iff.mp rfl]
      exact ⟨_, .seqMark h1, h2⟩
    · cases hx
      exact absurd List.mem_cons_self hn
  | seqNext hne _ _ ih ih' =>
    refine gp_seq nofun (fun g gs g' gs' hx hg hgs => ?_) (fun hs gs hs' gs' hx hh hn hgs => ?_) (fun h hs gs h' hs' gs' hx hg hh hn hgs => ?_)
    · cases hx
      obtain ⟨o1, e1, h1, hn, h2⟩ := ih _ _ hg
      obtain ⟨l', rfl, _⟩ := hn.succ
      obtain ⟨e2, h3, h4⟩ := ih'.1 _ hgs
      exact ⟨_, .seqNext (fun e => hne (hg.nil_iff.mpr e)) h1 h3, h2.append h4⟩
    · cases hx
      obtain ⟨o1, e1, h1, hnr, h2⟩ := ih false _ (.and hh.seq nofun)
      obtain ⟨l', rfl, _⟩ := hnr.succ
      obtain ⟨o0, t0, ho⟩ := gp_and h1
      obtain ⟨l0, rfl⟩ : ∃ l, o0 = .succ _ l := by
        have := ho 0
        cases o0 <;> cases this
        exact ⟨_, rfl⟩
      obtain ⟨e2, h3, h4⟩ := ih'.1 _ hgs
      exact ⟨_, seq_append (hh.calm hn) t0 h3, h2.append h4⟩
    · cases hx
      obtain ⟨o1, e1, h1, hnr, h2⟩ := ih _ _ hg
      obtain ⟨l', rfl, _⟩ := hnr.succ
      have hne' : h' ≠ .nil := fun e => hne (hg.nil_iff.mpr e)
      rcases ih'.2 _ _ _ _ rfl hh (fun e => hn (List.mem_cons_of_mem _ e)) hgs with ⟨n, e3, o2, e4, t1, t2, rfl, se⟩ | ⟨n, e3, t1, rfl, se⟩ | ⟨b, e3, t1, rfl, se⟩
      · exact .inl ⟨_, _, _, _, .seqNext hne' h1 t1, by rw [List.drop_drop] at t2; exact t2, by rw [shift_shift], by rw [List.append_assoc]; exact h2.append se⟩
      · exact .inr (.inl ⟨_, _, .seqNext hne' h1 t1, by split <;> rfl, h2.append se⟩)
      · exact .inr (.inr ⟨_, _, .seqNext hne' h1 t1, rfl, h2.append se⟩)
  | seqFail hne _ ih =>
    refine gp_seq nofun (fun g gs g' gs' hx hg hgs => ?_) (fun hs gs hs' gs' hx hh hn hgs => ?_) (fun h hs gs h' hs' gs' hx hg hh hn hgs => ?_)
    · cases hx
      obtain ⟨o1, e1, h1, hn, h2⟩ := ih _ _ hg
      have hn := hn.fail; subst hn
      exact ⟨_, .seqFail (fun e => hne (hg.nil_iff.mpr e)) h1, h2⟩
    · cases hx
      obtain ⟨o1, e1, h1, hnr, h2⟩ := ih false _ (.and hh.seq nofun)
      have hnr := hnr.fail; subst hnr
      obtain ⟨o0, t0, ho⟩ := gp_and h1
      obtain rfl : o0 = .fail _ := by
        have := ho 0
        cases o0 <;> cases this
        rfl
      exact ⟨_, seq_append_fail (c := false) (hh.calm hn) t0, h2⟩
    · cases hx
      obtain ⟨o1, e1, h1, hnr, h2⟩ := ih _ _ hg
      have hnr := hnr.fail; subst hnr
      exact .inr (.inl ⟨_, _, .seqFail (fun e => hne (hg.nil_iff.mpr e)) h1, rfl, h2⟩)
  | seqCut hne _ ih =>
    refine gp_seq nofun (fun g gs g' gs' hx hg hgs => ?_) (fun hs gs hs' gs' hx hh hn hgs => ?_) (fun h hs gs h' hs' gs' hx hg hh hn hgs => ?_)
    · cases hx
      obtain ⟨o1, e1, h1, hn, h2⟩ := ih _ _ hg
      have hn := hn.fail; subst hn
      exact ⟨_, .seqCut (fun e => hne (hg.nil_iff.mpr e)) h1, h2⟩
    · cases hx
      obtain ⟨o1, e1, h1, hnr, h2⟩ := ih false _ (.and hh.seq nofun)
      have hnr := hnr.fail; subst hnr
      obtain ⟨o0, t0, ho⟩ := gp_and h1
      obtain rfl : o0 = .fail _ := by
        have := ho 0
        cases o0 <;> cases this
        rfl
      exact ⟨_, seq_append_fail (c := true) (hh.calm hn) t0, h2⟩
    · cases hx
      obtain ⟨o1, e1, h1, hnr, h2⟩ := ih _ _ hg
      have hnr := hnr.fail; subst hnr
      exact .inr (.inl ⟨_, _, .seqFail (fun e => hne (hg.nil_iff.mpr e)) h1, rfl, h2⟩)
  | seqAbort hne _ ih =>
    refine gp_seq nofun (fun g gs g' gs' hx hg hgs => ?_) (fun hs gs hs' gs' hx hh hn hgs => ?_) (fun h hs gs h' hs' gs' hx hg hh hn hgs => ?_)
    · cases hx
      obtain ⟨o1, e1, h1, hn, h2⟩ := ih _ _ hg
      have hn := hn.abort; subst hn
      exact ⟨_, .seqAbort (fun e => hne (hg.nil_iff.mpr e)) h1, h2⟩
    · cases hx
      obtain ⟨o1, e1, h1, hnr, h2⟩ := ih false _ (.and hh.seq nofun)
      have hnr := hnr.abort; subst hnr
      obtain ⟨o0, t0, ho⟩ := gp_and h1
      obtain rfl : o0 = .abort _ := by
        have := ho 0
        cases o0 <;> cases this
        rfl
      exact ⟨_, seq_append_abort (hh.calm hn) t0, h2⟩
    · cases hx
      obtain ⟨o1, e1, h1, hnr, h2⟩ := ih _ _ hg
      have hnr := hnr.abort; subst hnr
      exact .inr (.inr ⟨_, _, .seqAbort (fun e => hne (hg.nil_iff.mpr e)) h1, rfl, h2⟩)
  | altEnd => exact gp_alt (fun _ => ⟨_, _, .altEnd, .refl, .nil⟩) nofun nofun nofun
  | altHit _ ih =>
    refine gp_alt nofun (fun g gs g' gs' hx hg hgs => ?_) (fun hs gs hs' gs' hx hh hgs => ?_) (fun h hs gs h' hs' gs' hx hg hh hgs => ?_)
    · cases hx
      obtain ⟨o1, e1, h1, hn, h2⟩ := ih _ _ hg
      obtain ⟨l', rfl, _⟩ := id hn.succ
      exact ⟨_, _, .altHit h1, hn, h2⟩
    · cases hx
      obtain ⟨o1, e1, h1, hnr, h2⟩ := ih false _ (.or hh.alts nofun)
      obtain ⟨l', rfl, _⟩ := id hnr.succ
      obtain ⟨o0, t0, ho⟩ := gp_or h1
      obtain ⟨l0, rfl⟩ : ∃ l, o0 = .succ _ l := by
        have := ho 0
        cases o0 <;> cases this
        exact ⟨_, rfl⟩
      exact ⟨_, _, alt_append_stop rfl t0, ⟨fun l => hnr.1 l, nofun⟩, h2⟩
    · cases hx
      obtain ⟨o1, e1, h1, hn, h2⟩ := ih _ _ hg
      obtain ⟨l', rfl, _⟩ := id hn.succ
      exact .inr ⟨_, _, .altHit h1, rfl, hn, h2⟩
  | altNext _ _ ih ih' =>
    refine gp_alt nofun (fun g gs g' gs' hx hg hgs => ?_) (fun hs gs hs' gs' hx hh hgs => ?_) (fun h hs gs h' hs' gs' hx hg hh hgs => ?_)
    · cases hx
      obtain ⟨o1, e1, h1, hn, h2⟩ := ih _ _ hg
      have hn := hn.fail; subst hn
      obtain ⟨o2, e2, h3, hn2, h4⟩ := ih'.1 _ hgs
      exact ⟨_, _, .altNext h1 h3, near_atLeast hn2, h2.append h4⟩
    · cases hx
      obtain ⟨o1, e1, h1, hnr, h2⟩ := ih false _ (.or hh.alts nofun)
      have hnr := hnr.fail; subst hnr
      obtain ⟨o0, t0, ho⟩ := gp_or h1
      obtain rfl : o0 = .fail _ := by
        have := ho 0
        cases o0 <;> cases this
        rfl
      obtain ⟨o2, e2, h3, hn2, h4⟩ := ih'.1 _ hgs
      exact ⟨_, _, alt_append t0 h3, near_atLeast hn2, h2.append h4⟩
    · cases hx
      obtain ⟨o1, e1, h1, hn, h2⟩ := ih _ _ hg
      have hn := hn.fail; subst hn
      rcases ih'.2 _ _ _ _ rfl hh hgs with ⟨n, e3, o2, e4, t1, t2, hn2, se⟩ | ⟨o2, e3, t1, hf, hn2, se⟩
      · exact .inl ⟨_, _, _, _, .altNext h1 t1, t2, by rw [← atLeast_atLeast]; exact near_atLeast hn2, by rw [List.append_assoc]; exact h2.append se⟩
      · exact .inr ⟨_, _, .altNext h1 t1, (by cases o2 <;> first | rfl | cases hf), near_atLeast hn2, h2.append se⟩
  | altAbort _ ih =>
    refine gp_alt nofun (fun g gs g' gs' hx hg hgs => ?_) (fun hs gs hs' gs' hx hh hgs => ?_) (fun h hs gs h' hs' gs' hx hg hh hgs => ?_)
    · cases hx
      obtain ⟨o1, e1, h1, hn, h2⟩ := ih _ _ hg
      have hn := hn.abort; subst hn
      exact ⟨_, _, .altAbort h1, .refl, h2⟩
    · cases hx
      obtain ⟨o1, e1, h1, hnr, h2⟩ := ih false _ (.or hh.alts nofun)
      have hnr := hnr.abort; subst hnr
      obtain ⟨o0, t0, ho⟩ := gp_or h1
      obtain rfl : o0 = .abort _ := by
        have := ho 0
        cases o0 <;> cases this
        rfl
      exact ⟨_, _, alt_append_stop rfl t0, .refl, h2⟩
    · cases hx
      obtain ⟨o1, e1, h1, hn, h2⟩ := ih _ _ hg
      have hn := hn.abort; subst hn
      exact .inr ⟨_, _, .altAbort h1, rfl, .refl, h2⟩
  | manyEnd _ ih =>
    intro g' hg
    obtain ⟨o1, e1, h1, hn, h2⟩ := ih _ g' hg
    have hn := hn.fail; subst hn
    exact ⟨_, .manyEnd h1, h2⟩
  | manyMore _ _ ih ih' =>
    intro g' hg
    obtain ⟨o1, e1, h1, hn, h2⟩ := ih _ g' hg
    obtain ⟨l', rfl, _⟩ := hn.succ
    obtain ⟨e2, h3, h4⟩ := ih' g' hg
    exact ⟨_, .manyMore h1 h3, h2.append h4⟩
  | manyAbort _ ih =>
    intro g' hg
    obtain ⟨o1, e1, h1, hn, h2⟩ := ih _ g' hg
    have hn := hn.abort; subst hn
    exact ⟨_, .manyAbort h1, h2⟩

end Tpl
