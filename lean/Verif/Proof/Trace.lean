import Verif.Proof.Match
import Verif.Spec.Trace

/-! Matching with state-only callbacks is: find the trace, run the callbacks. -/
namespace Tpl
open Spec (Out Ev Job Tr Calls)
variable {A σ V P : Type}

/-- The callbacks as the model takes them. -/
def Calls.cb {α : Type} (s : St σ) (r : Except (P × σ) (α × σ)) : Cb A σ P α :=
  match r with
  | .ok (a, u) => .ok a { s with u := u }
  | .error (p, u) => .panic (.user p) { s with u := u }

def Spec.Calls.sem (c : Calls A σ V P) : Sem A σ V P where
  act _ _ a g toks s := some <|
    match c.act a g toks (g.len s.len) s.u with
    | .ok u => .ok () { s with u := u }
    | .error (p, u) => .panic (.user p) { s with u := u }
  start a s :=
    match c.start a s.u with
    | .ok (v, u) => .ok v { s with u := u }
    | .error (p, u) => .panic (.user p) { s with u := u }
  finish a v e s :=
    match c.finish a v e.isSome s.u with
    | .ok u => .ok () { s with u := u }
    | .error (p, u) => .panic (.user p) { s with u := u }
  act_mono := by intro f f' m m' hf h a g toks s r e; exact e

theorem run_append (c : Calls A σ V P) (e e' : List (Ev A)) (st : σ × List V) :
    c.run (e ++ e') st = match c.run e st with
      | .ok st => c.run e' st
      | .error x => .error x := by
  induction e generalizing st with
  | nil => rfl
  | cons x e ih =>
    simp only [List.cons_append, Spec.Calls.run]
    cases c.step st x with
    | ok st => exact ih st
    | error x => rfl

theorem run_snoc (c : Calls A σ V P) (e : List (Ev A)) (x : Ev A) (st : σ × List V) :
    c.run (e ++ [x]) st = match c.run e st with
      | .ok st => c.step st x
      | .error x => .error x := by
  rw [run_append]
  cases c.run e st with
  | error x => rfl
  | ok st =>
    simp only [Spec.Calls.run]
    cases c.step st x <;> rfl

/-- `p` did not come from a callback. -/
def Panic.NotUser (p : Panic A P) : Prop := ∀ q, p ≠ .user q

/-- The result `r` of a call fits the trace outcome `o` and the effect `w` of running
the trace's invocations with the transactions `vs` open. -/
def Fit (L : (Nat → Nat) → Int) (vs : List V) (o : Out) (w : Except (P × σ) (σ × List V)) : Res A σ P → Prop
  | .ok n s => o = .succ n (L s.len) ∧ w = .ok (s.u, vs)
  | .fail n _ s => o = .fail n ∧ w = .ok (s.u, vs)
  | .panic p s => (o = .abort true ∧ ∃ q, p = .user q ∧ w = .error (q, s.u)) ∨
      (o = .abort false ∧ Panic.NotUser p ∧ ∃ vs', w = .ok (s.u, vs' ++ vs))

/-- Fit for a repetition. -/
def FitL (n0 k0 : Nat) (vs : List V) (o : Out) (w : Except (P × σ) (σ × List V)) : LoopRes A σ P → Prop
  | .done n k s => ∃ m i : Nat, n = n0 + m ∧ k = k0 + i ∧ o = .succ m i ∧ w = .ok (s.u, vs)
  | .panic p s => (o = .abort true ∧ ∃ q, p = .user q ∧ w = .error (q, s.u)) ∨
      (o = .abort false ∧ Panic.NotUser p ∧ ∃ vs', w = .ok (s.u, vs' ++ vs))

/-- The outcome is reported within the first `m` tokens. -/
def Spec.Out.Within (m : Nat) : Out → Prop
  | .succ n _ => n ≤ m
  | .fail n => n ≤ m
  | .abort _ => True

/-- Traces do not run over the end of the input. -/
theorem tr_bound {env : Env A} {j : Job A} {src o e} (h : Tr env j src o e) : o.Within src.length := by
  induction h with
  | nil | transStop | tokEnd | tokNot | tru | eof | eofNot | varNone | seqEnd | altEnd => simp [Out.Within]
  | tok => simp [Out.Within]
  | peek | peekNot | not | notNot | optNone | list0 | manyEnd => exact Nat.zero_le _
  | peekAbort | notAbort | rep1Abort | optAbort | listAbort | actionStop | actionAbort | transAbort | transStopOk
  | transStopFail | seqCut | seqAbort | altAbort | manyAbort => trivial
  | rep0 _ ih | rep1Fail _ ih | opt _ ih | listFail _ ih | action _ ih | actionFail _ ih | trans _ ih | transFail _ ih
  | seqMark _ ih | seqFail _ _ ih | altHit _ ih => exact ih
  | @and _ _ o _ _ ih | @or _ _ o _ _ ih | @named _ _ _ o _ _ ih | @var _ _ _ o _ _ _ ih => cases o <;> exact ih
  | @rep1 _ _ _ _ _ _ o _ _ _ ih ih' | @list _ _ _ _ _ _ _ _ o _ _ _ ih ih' | @seqNext _ _ _ _ _ _ _ o _ _ _ _ ih ih'
  | @manyMore _ _ _ _ _ o _ _ _ ih ih' =>
    cases o with
    | abort => trivial
    | succ m l => simp only [Out.oneMore, Out.shift, List.length_drop, Out.Within] at ih ih' ⊢; omega
    | fail m => simp only [Out.oneMore, Out.shift, List.length_drop, Out.Within] at ih ih' ⊢; omega
  | @altNext _ _ _ _ _ o _ _ _ ih ih' =>
    cases o with
    | abort => trivial
    | succ m l => exact ih'
    | fail m => simp only [Out.atLeast, Out.Within] at ih ih' ⊢; omega

/-- A repetition does not fail and counts its items. -/
theorem tr_many {env : Env A} {g : Gr A} {src o e} (h : Tr env (.many g) src o e) :
    (∃ m i : Nat, o = .succ m i) ∨ ∃ b, o = .abort b := by
  generalize hj : Job.many g = j at h
  induction h with
  | manyEnd => exact .inl ⟨0, 0, rfl⟩
  | manyAbort => exact .inr ⟨_, rfl⟩
  | @manyMore _ _ n _ _ o _ _ _ _ ih =>
    cases hj
    rcases ih rfl with ⟨m, i, rfl⟩ | ⟨b, rfl⟩
    · exact .inl ⟨n + m, i + 1, rfl⟩
    · exact .inr ⟨b, rfl⟩
  | _ => cases hj

section sound
variable {env : Env A} {c : Calls A σ V P}

/-- What is proved of every call. -/
def Traced (env : Env A) (c : Calls A σ V P) (g : Gr A) (src : List Token) (s : St σ) (r : Res A σ P) : Prop :=
  ∃ o e, Tr env (.one g) src o e ∧ ∀ vs, Fit (fun l => g.len l) vs o (c.run e (s.u, vs)) r

theorem sound_and {E : Gr A → List Token → St σ → Res A σ P → Prop} (hE : ∀ g src s r, E g src s r → Traced env c g src s r)
    {all : Gr A} {src gs ff n s r} (h : AndRun E all src gs ff n s r) (L : Int) (hn : n ≤ src.length) :
    ∃ o e, Tr env (.seq gs ff) (src.drop n) o e ∧ ∀ vs, Fit (fun _ => L) vs ((o.withLen L).shift n) (c.run e (s.u, vs)) r := by
  induction h with
  | nil => exact ⟨_, _, .seqEnd, fun vs => ⟨rfl, rfl⟩⟩
  | mark _ ih =>
    obtain ⟨o, e, ht, hf⟩ := ih hn
    exact ⟨o, e, .seqMark ht, hf⟩
  | @ok g gs ff n s n1 s1 r hg _ h1 _ ih =>
    obtain ⟨o1, e1, ht1, hf1⟩ := hE _ _ _ _ h1
    have ho1 := (hf1 []).1
    subst ho1
    have hb := tr_bound ht1
    simp only [List.length_drop, Out.Within] at hb
    obtain ⟨o, e, ht, hf⟩ := ih (by omega)
    rw [← List.drop_drop] at ht
    refine ⟨_, _, .seqNext hg ht1 ht, fun vs => ?_⟩
    rw [run_append, (hf1 vs).2]
    have := hf vs
    dsimp only
    cases o with
    | abort => exact this
    | succ m l => simpa only [Out.shift, Out.withLen, Nat.add_assoc] using this
    | fail m => simpa only [Out.shift, Out.withLen, Nat.add_assoc] using this
  | fail hg _ h1 =>
    obtain ⟨o1, e1, ht1, hf1⟩ := hE _ _ _ _ h1
    have ho1 := (hf1 []).1
    subst ho1
    exact ⟨_, _, .seqFail hg ht1, fun vs => ⟨rfl, (hf1 vs).2⟩⟩
  | cut hg _ h1 =>
    obtain ⟨o1, e1, ht1, hf1⟩ := hE _ _ _ _ h1
    have ho1 := (hf1 []).1
    subst ho1
    exact ⟨_, _, .seqCut hg ht1, fun vs => .inr ⟨rfl, nofun, [], (hf1 vs).2⟩⟩
  | panic hg _ h1 =>
    obtain ⟨o1, e1, ht1, hf1⟩ := hE _ _ _ _ h1
    rcases hf1 [] with ⟨rfl, _⟩ | ⟨rfl, _⟩
    · refine ⟨_, _, .seqAbort hg ht1, fun vs => ?_⟩
      rcases hf1 vs with h | ⟨h, _⟩
      · exact .inl h
      · cases h
    · refine ⟨_, _, .seqAbort hg ht1, fun vs => ?_⟩
      rcases hf1 vs with ⟨h, _⟩ | h
      · cases h
      · exact .inr h
  | slice _ h => exact absurd hn h

theorem sound_or {E : Gr A → List Token → St σ → Res A σ P → Prop} (hE : ∀ g src s r, E g src s r → Traced env c g src s r)
    {all : Gr A} {src gs nMax errMax multi s r} (h : OrRun E all src gs nMax errMax multi s r) (L : Int)
    (hm : multi = false → errMax ≠ none) :
    ∃ o e, Tr env (.alt gs) src o e ∧ ∀ vs, Fit (fun _ => L) vs ((o.withLen L).atLeast nMax) (c.run e (s.u, vs)) r := by
  induction h with
  | multi => exact ⟨_, _, .altEnd, fun vs => ⟨by simp [Out.withLen, Out.atLeast], rfl⟩⟩
  | single => exact ⟨_, _, .altEnd, fun vs => ⟨by simp [Out.withLen, Out.atLeast], rfl⟩⟩
  | none => exact absurd rfl (hm rfl)
  | ok h1 =>
    obtain ⟨o1, e1, ht1, hf1⟩ := hE _ _ _ _ h1
    have ho1 := (hf1 []).1
    subst ho1
    exact ⟨_, _, .altHit ht1, fun vs => ⟨rfl, (hf1 vs).2⟩⟩
  | panic h1 =>
    obtain ⟨o1, e1, ht1, hf1⟩ := hE _ _ _ _ h1
    rcases hf1 [] with ⟨rfl, _⟩ | ⟨rfl, _⟩
    · refine ⟨_, _, .altAbort ht1, fun vs => ?_⟩
      rcases hf1 vs with h | ⟨h, _⟩
      · exact .inl h
      · cases h
    · refine ⟨_, _, .altAbort ht1, fun vs => ?_⟩
      rcases hf1 vs with ⟨h, _⟩ | h
      · cases h
      · exact .inr h
  | same h1 _ ih =>
    obtain ⟨o1, e1, ht1, hf1⟩ := hE _ _ _ _ h1
    have ho1 := (hf1 []).1
    subst ho1
    obtain ⟨o, e, ht, hf⟩ := ih nofun
    refine ⟨_, _, .altNext ht1 ht, fun vs => ?_⟩
    rw [run_append, (hf1 vs).2]
    have := hf vs
    dsimp only
    cases o with
    | abort => exact this
    | succ m l => exact this
    | fail m =>
      simp only [Out.withLen, Out.atLeast] at this ⊢
      rw [← Nat.max_assoc, Nat.max_self]
      exact this
  | more h1 hlt _ ih =>
    obtain ⟨o1, e1, ht1, hf1⟩ := hE _ _ _ _ h1
    have ho1 := (hf1 []).1
    subst ho1
    obtain ⟨o, e, ht, hf⟩ := ih nofun
    refine ⟨_, _, .altNext ht1 ht, fun vs => ?_⟩
    rw [run_append, (hf1 vs).2]
    have := hf vs
    dsimp only
    cases o with
    | abort => exact this
    | succ m l => exact this
    | fail m =>
      simp only [Out.withLen, Out.atLeast] at this ⊢
      rw [← Nat.max_assoc, Nat.max_eq_right (Nat.le_of_lt hlt)]
      exact this
  | less h1 hlt _ ih =>
    obtain ⟨o1, e1, ht1, hf1⟩ := hE _ _ _ _ h1
    have ho1 := (hf1 []).1
    subst ho1
    obtain ⟨o, e, ht, hf⟩ := ih hm
    refine ⟨_, _, .altNext ht1 ht, fun vs => ?_⟩
    rw [run_append, (hf1 vs).2]
    have := hf vs
    dsimp only
    cases o with
    | abort => exact this
    | succ m l => exact this
    | fail m =>
      simp only [Out.withLen, Out.atLeast] at this ⊢
      rw [← Nat.max_assoc, Nat.max_eq_left (Nat.le_of_lt hlt)]
      exact this

theorem sound_rep {E : Gr A → List Token → St σ → Res A σ P → Prop} (hE : ∀ g src s r, E g src s r → Traced env c g src s r)
    {g : Gr A} {src n k s r} (h : RepRun E g src n k s r) :
    ∃ o e, Tr env (.many g) src o e ∧ ∀ vs, FitL n k vs o (c.run e (s.u, vs)) r := by
  induction h with
  | stop h1 =>
    obtain ⟨o1, e1, ht1, hf1⟩ := hE _ _ _ _ h1
    have ho1 := (hf1 []).1
    subst ho1
    exact ⟨_, _, .manyEnd ht1, fun vs => ⟨0, 0, rfl, rfl, rfl, (hf1 vs).2⟩⟩
  | panic h1 =>
    obtain ⟨o1, e1, ht1, hf1⟩ := hE _ _ _ _ h1
    rcases hf1 [] with ⟨rfl, _⟩ | ⟨rfl, _⟩
    · refine ⟨_, _, .manyAbort ht1, fun vs => ?_⟩
      rcases hf1 vs with h | ⟨h, _⟩
      · exact .inl h
      · cases h
    · refine ⟨_, _, .manyAbort ht1, fun vs => ?_⟩
      rcases hf1 vs with ⟨h, _⟩ | h
      · cases h
      · exact .inr h
  | @more src n k s n1 s1 r h1 hn _ ih =>
    obtain ⟨o1, e1, ht1, hf1⟩ := hE _ _ _ _ h1
    have ho1 := (hf1 []).1
    subst ho1
    obtain ⟨o, e, ht, hf⟩ := ih
    refine ⟨_, _, .manyMore ht1 ht, fun vs => ?_⟩
    rw [run_append, (hf1 vs).2]
    have := hf vs
    dsimp only
    cases r with
    | done n' k' s' =>
      obtain ⟨m, i, rfl, rfl, rfl, hr⟩ := this
      exact ⟨n1 + m, i + 1, by omega, by omega, rfl, hr⟩
    | panic p s' =>
      rcases this with ⟨rfl, h⟩ | ⟨rfl, h⟩
      · exact .inl ⟨rfl, h⟩
      · exact .inr ⟨rfl, h⟩
  | @slice src n k s n1 s1 h1 hn =>
    obtain ⟨o1, e1, ht1, hf1⟩ := hE _ _ _ _ h1
    have ho1 := (hf1 []).1
    subst ho1
    exact absurd (tr_bound ht1) hn

/-- The panic cases all carry over. -/
theorem fit_panic {L L' : (Nat → Nat) → Int} {g g' : Gr A} {src s p s'} {e : List (Ev A)}
    {o : Out} (hf : ∀ vs, Fit L vs o (c.run e (s, vs)) (.panic p s'))
    (h : ∀ b, o = .abort b → Tr env (.one g') src (.abort b) e) :
    ∃ o e, Tr env (.one g') src o e ∧ ∀ vs, Fit (A := A) L' vs o (c.run e (s, vs)) (.panic p s') := by
  rcases hf [] with ⟨rfl, _⟩ | ⟨rfl, _⟩
  · exact ⟨_, _, h _ rfl, hf⟩
  · exact ⟨_, _, h _ rfl, hf⟩

/-- Whatever matching does, there is a trace for it. -/
theorem sound_matchG : ∀ f g src s r, matchG env c.sem f g src s = some r → Traced env c g src s r := by
  intro f
  induction f with
  | zero => intro g src s r h; cases h
  | succ f ih =>
    intro g src s r h
    cases g with
    | nil => cases h; exact ⟨_, _, .nil, fun vs => .inr ⟨rfl, nofun, [], rfl⟩⟩
    | tok k =>
      simp only [matchG, matchStep] at h
      cases src with
      | nil => cases h; exact ⟨_, _, .tokEnd, fun vs => ⟨rfl, rfl⟩⟩
      | cons t src =>
        dsimp only at h
        by_cases hk : Spec.Fits k t
        · rw [if_pos (show t.kind = k ∨ _ from hk)] at h; cases h; exact ⟨_, _, .tok hk, fun vs => ⟨rfl, rfl⟩⟩
        · rw [if_neg (show ¬ (t.kind = k ∨ _) from hk)] at h; cases h; exact ⟨_, _, .tokNot hk, fun vs => ⟨rfl, rfl⟩⟩
    | tru => cases h; exact ⟨_, _, .tru, fun vs => ⟨rfl, rfl⟩⟩
    | eof =>
      cases src with
      | nil => cases h; exact ⟨_, _, .eof, fun vs => ⟨rfl, rfl⟩⟩
      | cons t src => cases h; exact ⟨_, _, .eofNot, fun vs => ⟨rfl, rfl⟩⟩
    | peek g =>
      simp only [matchG, matchStep] at h
      cases hm : matchG env c.sem f g src s with
      | none => rw [hm] at h; cases h
      | some r1 =>
        rw [hm] at h
        obtain ⟨o, e, ht, hf⟩ := ih _ _ _ _ hm
        cases r1 with
        | ok n s1 =>
          have ho := (hf []).1; subst ho
          cases h; exact ⟨_, _, .peek ht, fun vs => ⟨rfl, (hf vs).2⟩⟩
        | fail n e s1 =>
          have ho := (hf []).1; subst ho
          cases h; exact ⟨_, _, .peekNot ht, fun vs => ⟨rfl, (hf vs).2⟩⟩
        | panic p s1 => cases h; exact fit_panic (g := g) hf (fun b hb => .peekAbort (hb ▸ ht))
    | not g =>
      simp only [matchG, matchStep] at h
      cases hm : matchG env c.sem f g src s with
      | none => rw [hm] at h; cases h
      | some r1 =>
        rw [hm] at h
        obtain ⟨o, e, ht, hf⟩ := ih _ _ _ _ hm
        cases r1 with
        | ok n s1 =>
          have ho := (hf []).1; subst ho
          cases h; exact ⟨_, _, .notNot ht, fun vs => ⟨rfl, (hf vs).2⟩⟩
        | fail n e s1 =>
          have ho := (hf []).1; subst ho
          cases h; exact ⟨_, _, .not ht, fun vs => ⟨rfl, (hf vs).2⟩⟩
        | panic p s1 => cases h; exact fit_panic (g := g) hf (fun b hb => .notAbort (hb ▸ ht))
    | and gs =>
      simp only [matchG, matchStep] at h
      have hs := sound_and (c := c) ih (andLoop_iff.mp h) gs.length (Nat.zero_le _)
      obtain ⟨o, e, ht, hf⟩ := hs
      rw [List.drop_zero] at ht
      refine ⟨_, _, .and ht, fun vs => ?_⟩
      have := hf vs
      have hz : ∀ o : Out, o.shift 0 = o := by intro o; cases o <;> simp [Out.shift]
      rw [hz] at this
      exact this
    | or gs =>
      simp only [matchG, matchStep] at h
      have hs := sound_or (c := c) ih (orLoop_iff.mp h) gs.length nofun
      obtain ⟨o, e, ht, hf⟩ := hs
      refine ⟨_, _, .or ht, fun vs => ?_⟩
      have := hf vs
      have hz : ∀ o : Out, o.atLeast 0 = o := by intro o; cases o <;> simp [Out.atLeast]
      rw [hz] at this
      exact this
    | rep0 id g =>
      simp only [matchG, matchStep] at h
      cases hm : repLoop (matchG env c.sem f) g f src 0 0 s with
      | none => rw [hm] at h; cases h
      | some r1 =>
        rw [hm] at h
        obtain ⟨o, e, ht, hf⟩ := sound_rep (c := c) ih (repLoop_run hm)
        cases r1 with
        | done n k s1 =>
          cases h
          refine ⟨_, _, .rep0 ht, fun vs => ?_⟩
          obtain ⟨m, i, rfl, rfl, rfl, hr⟩ := hf vs
          refine ⟨?_, hr⟩
          simp [Gr.len, St.setLen]
        | panic p s1 => cases h; exact ⟨_, _, .rep0 ht, hf⟩
    | rep1 id g =>
      simp only [matchG, matchStep] at h
      cases hm : matchG env c.sem f g src s with
      | none => rw [hm] at h; cases h
      | some r1 =>
        rw [hm] at h
        obtain ⟨o, e, ht, hf⟩ := ih _ _ _ _ hm
        cases r1 with
        | fail n er s1 =>
          have ho := (hf []).1; subst ho
          cases h; exact ⟨_, _, .rep1Fail ht, fun vs => ⟨rfl, (hf vs).2⟩⟩
        | panic p s1 => cases h; exact fit_panic (g := g) hf (fun b hb => .rep1Abort (hb ▸ ht))
        | ok n s1 =>
          have ho := (hf []).1; subst ho
          dsimp only at h
          rw [if_pos (show n ≤ src.length from tr_bound ht)] at h
          cases hl : repLoop (matchG env c.sem f) g f (src.drop n) 0 0 s1 with
          | none => rw [hl] at h; cases h
          | some r2 =>
            rw [hl] at h
            obtain ⟨o2, e2, ht2, hf2⟩ := sound_rep (c := c) ih (repLoop_run hl)
            refine ⟨_, _, .rep1 ht ht2, fun vs => ?_⟩
            rw [run_append, (hf vs).2]
            have := hf2 vs
            cases r2 with
            | done n2 k s2 =>
              cases h
              obtain ⟨m, i, rfl, rfl, rfl, hr⟩ := this
              refine ⟨?_, hr⟩
              simp [Gr.len, St.setLen, Out.oneMore]
            | panic p s2 =>
              cases h
              rcases this with ⟨rfl, h⟩ | ⟨rfl, h⟩
              · exact .inl ⟨rfl, h⟩
              · exact .inr ⟨rfl, h⟩
    | rep01 id g =>
      simp only [matchG, matchStep] at h
      cases hm : matchG env c.sem f g src s with
      | none => rw [hm] at h; cases h
      | some r1 =>
        rw [hm] at h
        obtain ⟨o, e, ht, hf⟩ := ih _ _ _ _ hm
        cases r1 with
        | ok n s1 =>
          have ho := (hf []).1; subst ho
          cases h; exact ⟨_, _, .opt ht, fun vs => ⟨by simp [Gr.len, St.setLen], (hf vs).2⟩⟩
        | fail n e s1 =>
          have ho := (hf []).1; subst ho
          cases h; exact ⟨_, _, .optNone ht, fun vs => ⟨by simp [Gr.len, St.setLen], (hf vs).2⟩⟩
        | panic p s1 => cases h; exact fit_panic (g := g) hf (fun b hb => .optAbort (hb ▸ ht))
    | list id a b l0 =>
      simp only [matchG, matchStep] at h
      cases hm : matchG env c.sem f a src s with
      | none => rw [hm] at h; cases h
      | some r1 =>
        rw [hm] at h
        obtain ⟨o, e, ht, hf⟩ := ih _ _ _ _ hm
        cases r1 with
        | fail n er s1 =>
          have ho := (hf []).1; subst ho
          cases l0
          · cases h; exact ⟨_, _, .listFail ht, fun vs => ⟨rfl, (hf vs).2⟩⟩
          · cases h; exact ⟨_, _, .list0 ht, fun vs => ⟨by simp [Gr.len, St.setLen], (hf vs).2⟩⟩
        | panic p s1 => cases h; exact fit_panic (g := a) hf (fun b hb => .listAbort (hb ▸ ht))
        | ok n s1 =>
          have ho := (hf []).1; subst ho
          dsimp only at h
          rw [if_pos (show n ≤ src.length from tr_bound ht)] at h
          cases hl : repLoop (matchG env c.sem f) (.and [b, a]) f (src.drop n) n 1 s1 with
          | none => rw [hl] at h; cases h
          | some r2 =>
            rw [hl] at h
            obtain ⟨o2, e2, ht2, hf2⟩ := sound_rep (c := c) ih (repLoop_run hl)
            refine ⟨_, _, .list ht ht2, fun vs => ?_⟩
            rw [run_append, (hf vs).2]
            have := hf2 vs
            cases r2 with
            | done n2 k s2 =>
              cases h
              obtain ⟨m, i, rfl, rfl, rfl, hr⟩ := this
              refine ⟨?_, hr⟩
              simp [Gr.len, St.setLen, Out.oneMore, Int.add_comm]
            | panic p s2 =>
              cases h
              rcases this with ⟨rfl, h⟩ | ⟨rfl, h⟩
              · exact .inl ⟨rfl, h⟩
              · exact .inr ⟨rfl, h⟩
    | var v =>
      simp only [matchG, matchStep] at h
      cases hv : env v with
      | none => rw [hv] at h; cases h; exact ⟨_, _, .varNone hv, fun vs => ⟨rfl, rfl⟩⟩
      | some g =>
        rw [hv] at h
        obtain ⟨o, e, ht, hf⟩ := ih _ _ _ _ h
        cases r with
        | ok n s1 =>
          have ho := (hf []).1; subst ho
          exact ⟨_, _, .var hv ht, fun vs => ⟨rfl, (hf vs).2⟩⟩
        | fail n er s1 =>
          have ho := (hf []).1; subst ho
          exact ⟨_, _, .var hv ht, fun vs => ⟨rfl, (hf vs).2⟩⟩
        | panic p s1 => exact fit_panic (g := g) hf (fun b hb => .var (o := .abort b) hv (hb ▸ ht))
    | named nm g =>
      obtain ⟨o, e, ht, hf⟩ := ih _ _ _ _ h
      cases r with
      | ok n s1 =>
        have ho := (hf []).1; subst ho
        exact ⟨_, _, .named ht, fun vs => ⟨rfl, (hf vs).2⟩⟩
      | fail n er s1 =>
        have ho := (hf []).1; subst ho
        exact ⟨_, _, .named ht, fun vs => ⟨rfl, (hf vs).2⟩⟩
      | panic p s1 => exact fit_panic (g := g) hf (fun b hb => .named (o := .abort b) (hb ▸ ht))
    | action a g =>
      simp only [matchG, matchStep] at h
      cases hm : matchG env c.sem f g src s with
      | none => rw [hm] at h; cases h
      | some r1 =>
        rw [hm] at h
        obtain ⟨o, e, ht, hf⟩ := ih _ _ _ _ hm
        cases r1 with
        | fail n er s1 =>
          have ho := (hf []).1; subst ho
          cases h; exact ⟨_, _, .actionFail ht, fun vs => ⟨rfl, (hf vs).2⟩⟩
        | panic p s1 => cases h; exact fit_panic (g := g) hf (fun b hb => .actionAbort (hb ▸ ht))
        | ok n s1 =>
          have ho := (hf []).1; subst ho
          dsimp only at h
          rw [if_pos (show n ≤ src.length from tr_bound ht)] at h
          simp only [Spec.Calls.sem] at h
          cases hc : c.act a g (src.take n) (g.len s1.len) s1.u with
          | ok u =>
            rw [hc] at h
            cases h
            refine ⟨_, _, .action ht, fun vs => ⟨rfl, ?_⟩⟩
            rw [run_snoc, (hf vs).2]
            simp only [Spec.Calls.step]
            rw [hc]
          | error x =>
            rw [hc] at h
            obtain ⟨p, u⟩ := x
            cases h
            refine ⟨_, _, .actionStop ht, fun vs => .inl ⟨rfl, p, rfl, ?_⟩⟩
            rw [run_snoc, (hf vs).2]
            simp only [Spec.Calls.step]
            rw [hc]
    | trans t g =>
      simp only [matchG, matchStep, Spec.Calls.sem] at h
      cases hs : c.start t s.u with
      | error x =>
        rw [hs] at h
        obtain ⟨p, u⟩ := x
        cases h
        refine ⟨_, _, .transStop, fun vs => .inl ⟨rfl, p, rfl, ?_⟩⟩
        simp only [Spec.Calls.run, Spec.Calls.step]
        rw [hs]
      | ok x =>
        rw [hs] at h
        obtain ⟨v, u⟩ := x
        dsimp only at h
        have hopen : ∀ vs e, c.run (.opens t :: e) (s.u, vs) = c.run e (u, v :: vs) := by
          intro vs e
          simp only [Spec.Calls.run, Spec.Calls.step]
          rw [hs]
        generalize hs2 : ({ s with u := u } : St σ) = s2 at h
        have hu : s2.u = u := by rw [← hs2]
        cases hm : matchG env c.sem f g src s2 with
        | none => unfold Spec.Calls.sem at hm; rw [hm] at h; cases h
        | some r1 =>
          have hm' := hm
          unfold Spec.Calls.sem at hm'
          rw [hm'] at h
          obtain ⟨o, e, ht, hf⟩ := ih _ _ _ _ hm
          cases r1 with
          | panic p s1 =>
            cases h
            rcases hf [] with ⟨rfl, _⟩ | ⟨rfl, _⟩
            · refine ⟨_, _, .transAbort ht, fun vs => ?_⟩
              rw [hopen, ← hu]
              rcases hf (v :: vs) with h | ⟨h, _⟩
              · exact .inl h
              · cases h
            · refine ⟨_, _, .transAbort ht, fun vs => ?_⟩
              rw [hopen, ← hu]
              rcases hf (v :: vs) with ⟨h, _⟩ | ⟨_, hp, vs', hw⟩
              · cases h
              · exact .inr ⟨rfl, hp, vs' ++ [v], by rw [hw]; simp⟩
          | ok n s1 =>
            have ho := (hf []).1; subst ho
            dsimp only [Option.isSome] at h
            have hrun : ∀ vs, c.run (.opens t :: e ++ [.closes t false]) (s.u, vs) =
                match c.finish t v false s1.u with
                | .ok u => .ok (u, vs)
                | .error e => .error e := by
              intro vs
              rw [List.cons_append, hopen, run_snoc, ← hu, (hf (v :: vs)).2]
              rfl
            cases hc : c.finish t v false s1.u with
            | ok u =>
              rw [hc] at h
              cases h
              exact ⟨_, _, .trans ht, fun vs => ⟨rfl, by rw [hrun, hc]⟩⟩
            | error x =>
              rw [hc] at h
              obtain ⟨p, u⟩ := x
              cases h
              exact ⟨_, _, .transStopOk ht, fun vs => .inl ⟨rfl, p, rfl, by rw [hrun, hc]⟩⟩
          | fail n er s1 =>
            have ho := (hf []).1; subst ho
            dsimp only [Option.isSome] at h
            have hrun : ∀ vs, c.run (.opens t :: e ++ [.closes t true]) (s.u, vs) =
                match c.finish t v true s1.u with
                | .ok u => .ok (u, vs)
                | .error e => .error e := by
              intro vs
              rw [List.cons_append, hopen, run_snoc, ← hu, (hf (v :: vs)).2]
              rfl
            cases hc : c.finish t v true s1.u with
            | ok u =>
              rw [hc] at h
              cases h
              exact ⟨_, _, .transFail ht, fun vs => ⟨rfl, by rw [hrun, hc]⟩⟩
            | error x =>
              rw [hc] at h
              obtain ⟨p, u⟩ := x
              cases h
              exact ⟨_, _, .transStopFail ht, fun vs => .inl ⟨rfl, p, rfl, by rw [hrun, hc]⟩⟩

end sound

section complete
variable {env : Env A} {c : Calls A σ V P}

/-- Fit, or a callback panicked on the way. -/
def CFit (L : (Nat → Nat) → Int) (vs : List V) (o : Out) (w : Except (P × σ) (σ × List V)) (r : Res A σ P) : Prop :=
  (∃ p lens u, w = .error (p, u) ∧ r = .panic (.user p) ⟨lens, u⟩) ∨ Fit L vs o w r

def CFitL (n0 k0 : Nat) (vs : List V) (o : Out) (w : Except (P × σ) (σ × List V)) (r : LoopRes A σ P) : Prop :=
  (∃ p lens u, w = .error (p, u) ∧ r = .panic (.user p) ⟨lens, u⟩) ∨ FitL n0 k0 vs o w r

/-- An outcome that says a callback panicked needs one that does. -/
def Stops (o : Out) (w : Except (P × σ) (σ × List V)) : Prop := o = .abort true → ∃ x, w = .error x

theorem cfit_succ {L : (Nat → Nat) → Int} {vs : List V} {n l} {w : Except (P × σ) (σ × List V)} {r : Res A σ P}
    (h : CFit L vs (.succ n l) w r) : (∃ p lens u, w = .error (p, u) ∧ r = .panic (.user p) ⟨lens, u⟩) ∨
      ∃ s, r = .ok n s ∧ l = L s.len ∧ w = .ok (s.u, vs) := by
  rcases h with h | h
  · exact .inl h
  · cases r with
    | ok n s => obtain ⟨h, hw⟩ := h; cases h; exact .inr ⟨s, rfl, rfl, hw⟩
    | fail n e s => cases h.1
    | panic p s => rcases h with ⟨h, _⟩ | ⟨h, _⟩ <;> cases h

theorem cfit_fail {L : (Nat → Nat) → Int} {vs : List V} {n} {w : Except (P × σ) (σ × List V)} {r : Res A σ P}
    (h : CFit L vs (.fail n) w r) : (∃ p lens u, w = .error (p, u) ∧ r = .panic (.user p) ⟨lens, u⟩) ∨
      ∃ e s, r = .fail n e s ∧ w = .ok (s.u, vs) := by
  rcases h with h | h
  · exact .inl h
  · cases r with
    | ok n s => cases h.1
    | fail n e s => obtain ⟨h, hw⟩ := h; cases h; exact .inr ⟨e, s, rfl, hw⟩
    | panic p s => rcases h with ⟨h, _⟩ | ⟨h, _⟩ <;> cases h

theorem cfit_abort {L : (Nat → Nat) → Int} {vs : List V} {b} {w : Except (P × σ) (σ × List V)} {r : Res A σ P}
    (h : CFit L vs (.abort b) w r) : ∃ p s, r = .panic p s ∧ ∀ L', CFit (A := A) L' vs (.abort b) w (.panic p s) := by
  rcases h with ⟨p, lens, u, hw, rfl⟩ | h
  · exact ⟨_, _, rfl, fun _ => .inl ⟨p, lens, u, hw, rfl⟩⟩
  · cases r with
    | ok n s => cases h.1
    | fail n e s => cases h.1
    | panic p s => exact ⟨p, s, rfl, fun _ => .inr h⟩

/-- A callback panicking in the first part panics in the whole. -/
theorem run_error {e e' : List (Ev A)} {st : σ × List V} {x} (h : c.run e st = .error x) : c.run (e ++ e') st = .error x := by
  rw [run_append, h]

theorem run_ok {e e' : List (Ev A)} {st st' : σ × List V} (h : c.run e st = .ok st') : c.run (e ++ e') st = c.run e' st' := by
  rw [run_append, h]

/-- What is proved of every trace. -/
def Realised (env : Env A) (c : Calls A σ V P) : Job A → List Token → Out → List (Ev A) → Prop
  | .one g, src, o, e => ∀ s vs, Stops o (c.run e (s.u, vs)) → ∃ r, Eval env c.sem g src s r ∧
      CFit (fun l => g.len l) vs o (c.run e (s.u, vs)) r
  | .seq gs ff, src, o, e => ∀ all src0 n s vs, src = src0.drop n → n ≤ src0.length → Stops o (c.run e (s.u, vs)) →
      ∃ r, AndRun (Eval env c.sem) all src0 gs ff n s r ∧
        ∀ L, CFit (fun _ => L) vs ((o.withLen L).shift n) (c.run e (s.u, vs)) r
  | .alt gs, src, o, e => ∀ all nMax errMax multi s vs, (multi = false → errMax ≠ none) → Stops o (c.run e (s.u, vs)) →
      ∃ r, OrRun (Eval env c.sem) all src gs nMax errMax multi s r ∧
        ∀ L, CFit (fun _ => L) vs ((o.withLen L).atLeast nMax) (c.run e (s.u, vs)) r
  | .many g, src, o, e => ∀ n k s vs, Stops o (c.run e (s.u, vs)) → ∃ r, RepRun (Eval env c.sem) g src n k s r ∧
      CFitL n k vs o (c.run e (s.u, vs)) r

theorem stops_succ {n l} {w : Except (P × σ) (σ × List V)} : Stops (.succ n l) w := nofun
theorem stops_fail {n} {w : Except (P × σ) (σ × List V)} : Stops (.fail n) w := nofun

theorem run_opens {t : A} {e : List (Ev A)} {u : σ} {vs : List V} :
    c.run (.opens t :: e) (u, vs) = match c.start t u with
      | .ok (v, u) => c.run e (u, v :: vs)
      | .error x => .error x := by
  simp only [Spec.Calls.run, Spec.Calls.step]
  cases c.start t u <;> rfl

theorem eval_trans_stop {t : A} {g : Gr A} {src : List Token} {s : St σ} {x : P × σ} (h : c.start t s.u = .error x) :
    Eval env c.sem (.trans t g) src s (.panic (.user x.1) { s with u := x.2 }) := by
  rw [eval_trans]
  simp only [Spec.Calls.sem]
  rw [h]

theorem eval_trans_ok {t : A} {g : Gr A} {src : List Token} {s : St σ} {v u r} (h : c.start t s.u = .ok (v, u))
    (hr : Eval env c.sem g src { s with u := u } r) :
    Eval env c.sem (.trans t g) src s (match r with
      | .panic p s => .panic p s
      | .ok n s => match c.finish t v false s.u with
        | .error (p, u) => .panic (.user p) { s with u := u }
        | .ok u => .ok n { s with u := u }
      | .fail n e s => match c.finish t v true s.u with
        | .error (p, u) => .panic (.user p) { s with u := u }
        | .ok u => .fail n e { s with u := u }) := by
  rw [eval_trans]
  have hs : c.sem.start t s = .ok v { s with u := u } := by
    simp only [Spec.Calls.sem]; rw [h]
  rw [hs]
  refine ⟨r, hr, ?_⟩
  cases r with
  | panic p s => rfl
  | ok n s =>
    simp only [Spec.Calls.sem, Option.isSome]
    cases c.finish t v false s.u <;> rfl
  | fail n e s =>
    simp only [Spec.Calls.sem, Option.isSome]
    cases c.finish t v true s.u <;> rfl

theorem realise {j : Job A} {src o e} (h : Tr env j src o e) : Realised env c j src o e := by
  induction h with
  | nil => exact fun s vs _ => ⟨_, eval_nil.mpr rfl, .inr (.inr ⟨rfl, nofun, [], rfl⟩)⟩
  | tok hk => exact fun s vs _ => ⟨_, eval_tok_cons.mpr (if_pos hk).symm, .inr ⟨rfl, rfl⟩⟩
  | tokNot hk => exact fun s vs _ => ⟨_, eval_tok_cons.mpr (if_neg hk).symm, .inr ⟨rfl, rfl⟩⟩
  | tokEnd => exact fun s vs _ => ⟨_, eval_tok_nil.mpr rfl, .inr ⟨rfl, rfl⟩⟩
  | tru => exact fun s vs _ => ⟨_, eval_tru.mpr rfl, .inr ⟨rfl, rfl⟩⟩
  | eof => exact fun s vs _ => ⟨_, eval_eof.mpr (if_pos rfl).symm, .inr ⟨rfl, rfl⟩⟩
  | eofNot => exact fun s vs _ => ⟨_, eval_eof.mpr (if_neg nofun).symm, .inr ⟨rfl, rfl⟩⟩
  | peek _ ih =>
    intro s vs _
    obtain ⟨r, hr, hf⟩ := ih s vs stops_succ
    refine ⟨_, eval_peek.mpr ⟨r, hr, rfl⟩, ?_⟩
    rcases cfit_succ hf with ⟨p, lens, u, hw, rfl⟩ | ⟨s1, rfl, _, hw⟩
    · exact .inl ⟨p, lens, u, hw, rfl⟩
    · exact .inr ⟨rfl, hw⟩
  | peekNot _ ih =>
    intro s vs _
    obtain ⟨r, hr, hf⟩ := ih s vs stops_fail
    refine ⟨_, eval_peek.mpr ⟨r, hr, rfl⟩, ?_⟩
    rcases cfit_fail hf with ⟨p, lens, u, hw, rfl⟩ | ⟨e1, s1, rfl, hw⟩
    · exact .inl ⟨p, lens, u, hw, rfl⟩
    · exact .inr ⟨rfl, hw⟩
  | peekAbort _ ih =>
    intro s vs hs
    obtain ⟨r, hr, hf⟩ := ih s vs hs
    obtain ⟨p, s1, rfl, hf'⟩ := cfit_abort hf
    exact ⟨_, eval_peek.mpr ⟨_, hr, rfl⟩, hf' _⟩
  | notNot _ ih =>
    intro s vs _
    obtain ⟨r, hr, hf⟩ := ih s vs stops_succ
    refine ⟨_, eval_not.mpr ⟨r, hr, rfl⟩, ?_⟩
    rcases cfit_succ hf with ⟨p, lens, u, hw, rfl⟩ | ⟨s1, rfl, _, hw⟩
    · exact .inl ⟨p, lens, u, hw, rfl⟩
    · exact .inr ⟨rfl, hw⟩
  | not _ ih =>
    intro s vs _
    obtain ⟨r, hr, hf⟩ := ih s vs stops_fail
    refine ⟨_, eval_not.mpr ⟨r, hr, rfl⟩, ?_⟩
    rcases cfit_fail hf with ⟨p, lens, u, hw, rfl⟩ | ⟨e1, s1, rfl, hw⟩
    · exact .inl ⟨p, lens, u, hw, rfl⟩
    · exact .inr ⟨rfl, hw⟩
  | notAbort _ ih =>
    intro s vs hs
    obtain ⟨r, hr, hf⟩ := ih s vs hs
    obtain ⟨p, s1, rfl, hf'⟩ := cfit_abort hf
    exact ⟨_, eval_not.mpr ⟨_, hr, rfl⟩, hf' _⟩
  | @and gs src o e _ ih =>
    intro s vs hs
    have hs' : Stops o (c.run e (s.u, vs)) := by
      intro ho; subst ho; exact hs rfl
    obtain ⟨r, hr, hf⟩ := ih (.and gs) src 0 s vs rfl (Nat.zero_le _) hs'
    refine ⟨r, eval_and.mpr hr, ?_⟩
    have hz : ∀ o : Out, o.shift 0 = o := by intro o; cases o <;> simp [Out.shift]
    have := hf gs.length
    rw [hz] at this
    exact this
  | @or gs src o e _ ih =>
    intro s vs hs
    have hs' : Stops o (c.run e (s.u, vs)) := by
      intro ho; subst ho; exact hs rfl
    obtain ⟨r, hr, hf⟩ := ih (.or gs) 0 none true s vs nofun hs'
    refine ⟨r, eval_or.mpr hr, ?_⟩
    have hz : ∀ o : Out, o.atLeast 0 = o := by intro o; cases o <;> simp [Out.atLeast]
    have := hf gs.length
    rw [hz] at this
    exact this
  | rep0 _ ih =>
    intro s vs hs
    obtain ⟨r, hr, hf⟩ := ih 0 0 s vs hs
    refine ⟨_, eval_rep0.mpr ⟨r, hr, rfl⟩, ?_⟩
    rcases hf with ⟨p, lens, u, hw, rfl⟩ | hf
    · exact .inl ⟨p, lens, u, hw, rfl⟩
    · cases r with
      | panic p s1 => exact .inr hf
      | done n k s1 =>
        obtain ⟨m, i, rfl, rfl, rfl, hw⟩ := hf
        exact .inr ⟨by simp [Gr.len, St.setLen], hw⟩
  | @rep1 id g src n l e o e' h1 h2 ih1 ih2 =>
    intro s vs hs
    obtain ⟨r1, hr1, hf1⟩ := ih1 s vs stops_succ
    rcases cfit_succ hf1 with ⟨p, lens, u, hw, rfl⟩ | ⟨s1, rfl, _, hw⟩
    · exact ⟨_, eval_rep1.mpr ⟨_, hr1, rfl⟩, .inl ⟨p, lens, u, run_error hw, rfl⟩⟩
    · rw [run_ok hw] at hs ⊢
      have hs' : Stops o (c.run e' (s1.u, vs)) := by
        intro ho; subst ho; exact hs rfl
      obtain ⟨r, hr, hf⟩ := ih2 0 0 s1 vs hs'
      refine ⟨_, eval_rep1.mpr ⟨_, hr1, .inr ⟨tr_bound h1, r, hr, rfl⟩⟩, ?_⟩
      rcases hf with ⟨p, lens, u, hw, rfl⟩ | hf
      · exact .inl ⟨p, lens, u, hw, rfl⟩
      · cases r with
        | panic p s1 =>
          rcases hf with ⟨rfl, hf⟩ | ⟨rfl, hf⟩
          · exact .inr (.inl ⟨rfl, hf⟩)
          · exact .inr (.inr ⟨rfl, hf⟩)
        | done n k s1 =>
          obtain ⟨m, i, rfl, rfl, rfl, hw⟩ := hf
          exact .inr ⟨by simp [Gr.len, St.setLen, Out.oneMore], hw⟩
  | rep1Fail _ ih =>
    intro s vs _
    obtain ⟨r, hr, hf⟩ := ih s vs stops_fail
    rcases cfit_fail hf with ⟨p, lens, u, hw, rfl⟩ | ⟨e1, s1, rfl, hw⟩
    · exact ⟨_, eval_rep1.mpr ⟨_, hr, rfl⟩, .inl ⟨p, lens, u, hw, rfl⟩⟩
    · exact ⟨_, eval_rep1.mpr ⟨_, hr, rfl⟩, .inr ⟨rfl, hw⟩⟩
  | rep1Abort _ ih =>
    intro s vs hs
    obtain ⟨r, hr, hf⟩ := ih s vs hs
    obtain ⟨p, s1, rfl, hf'⟩ := cfit_abort hf
    exact ⟨_, eval_rep1.mpr ⟨_, hr, rfl⟩, hf' _⟩
  | opt _ ih =>
    intro s vs _
    obtain ⟨r, hr, hf⟩ := ih s vs stops_succ
    refine ⟨_, eval_rep01.mpr ⟨r, hr, rfl⟩, ?_⟩
    rcases cfit_succ hf with ⟨p, lens, u, hw, rfl⟩ | ⟨s1, rfl, _, hw⟩
    · exact .inl ⟨p, lens, u, hw, rfl⟩
    · exact .inr ⟨by simp [Gr.len, St.setLen], hw⟩
  | optNone _ ih =>
    intro s vs _
    obtain ⟨r, hr, hf⟩ := ih s vs stops_fail
    refine ⟨_, eval_rep01.mpr ⟨r, hr, rfl⟩, ?_⟩
    rcases cfit_fail hf with ⟨p, lens, u, hw, rfl⟩ | ⟨e1, s1, rfl, hw⟩
    · exact .inl ⟨p, lens, u, hw, rfl⟩
    · exact .inr ⟨by simp [Gr.len, St.setLen], hw⟩
  | optAbort _ ih =>
    intro s vs hs
    obtain ⟨r, hr, hf⟩ := ih s vs hs
    obtain ⟨p, s1, rfl, hf'⟩ := cfit_abort hf
    exact ⟨_, eval_rep01.mpr ⟨_, hr, rfl⟩, hf' _⟩
  | @list id a b l0 src n l e o e' h1 h2 ih1 ih2 =>
    intro s vs hs
    obtain ⟨r1, hr1, hf1⟩ := ih1 s vs stops_succ
    rcases cfit_succ hf1 with ⟨p, lens, u, hw, rfl⟩ | ⟨s1, rfl, _, hw⟩
    · exact ⟨_, eval_list.mpr ⟨_, hr1, rfl⟩, .inl ⟨p, lens, u, run_error hw, rfl⟩⟩
    · rw [run_ok hw] at hs ⊢
      have hs' : Stops o (c.run e' (s1.u, vs)) := by
        intro ho; subst ho; exact hs rfl
      obtain ⟨r, hr, hf⟩ := ih2 n 1 s1 vs hs'
      refine ⟨_, eval_list.mpr ⟨_, hr1, .inr ⟨tr_bound h1, r, hr, rfl⟩⟩, ?_⟩
      rcases hf with ⟨p, lens, u, hw, rfl⟩ | hf
      · exact .inl ⟨p, lens, u, hw, rfl⟩
      · cases r with
        | panic p s1 =>
          rcases hf with ⟨rfl, hf⟩ | ⟨rfl, hf⟩
          · exact .inr (.inl ⟨rfl, hf⟩)
          · exact .inr (.inr ⟨rfl, hf⟩)
        | done n k s1 =>
          obtain ⟨m, i, rfl, rfl, rfl, hw⟩ := hf
          exact .inr ⟨by simp [Gr.len, St.setLen, Out.oneMore, Int.add_comm], hw⟩
  | list0 _ ih =>
    intro s vs _
    obtain ⟨r, hr, hf⟩ := ih s vs stops_fail
    rcases cfit_fail hf with ⟨p, lens, u, hw, rfl⟩ | ⟨e1, s1, rfl, hw⟩
    · exact ⟨_, eval_list.mpr ⟨_, hr, rfl⟩, .inl ⟨p, lens, u, hw, rfl⟩⟩
    · exact ⟨_, eval_list.mpr ⟨_, hr, rfl⟩, .inr ⟨by simp [Gr.len, St.setLen], hw⟩⟩
  | listFail _ ih =>
    intro s vs _
    obtain ⟨r, hr, hf⟩ := ih s vs stops_fail
    rcases cfit_fail hf with ⟨p, lens, u, hw, rfl⟩ | ⟨e1, s1, rfl, hw⟩
    · exact ⟨_, eval_list.mpr ⟨_, hr, rfl⟩, .inl ⟨p, lens, u, hw, rfl⟩⟩
    · exact ⟨_, eval_list.mpr ⟨_, hr, rfl⟩, .inr ⟨rfl, hw⟩⟩
  | listAbort _ ih =>
    intro s vs hs
    obtain ⟨r, hr, hf⟩ := ih s vs hs
    obtain ⟨p, s1, rfl, hf'⟩ := cfit_abort hf
    exact ⟨_, eval_list.mpr ⟨_, hr, rfl⟩, hf' _⟩
  | varNone hv =>
    intro s vs _
    exact ⟨.fail 0 .varNotAssigned s, eval_var.mpr (by rw [hv]), .inr ⟨rfl, rfl⟩⟩
  | @var v g src o e hv _ ih =>
    intro s vs hs
    have hs' : Stops o (c.run e (s.u, vs)) := by
      intro ho; subst ho; exact hs rfl
    obtain ⟨r, hr, hf⟩ := ih s vs hs'
    refine ⟨r, eval_var.mpr (by rw [hv]; exact hr), ?_⟩
    cases o with
    | abort b => obtain ⟨p, s1, rfl, hf'⟩ := cfit_abort hf; exact hf' _
    | succ n l =>
      rcases cfit_succ hf with h | ⟨s1, rfl, _, hw⟩
      · exact .inl h
      · exact .inr ⟨rfl, hw⟩
    | fail n =>
      rcases cfit_fail hf with h | ⟨e1, s1, rfl, hw⟩
      · exact .inl h
      · exact .inr ⟨rfl, hw⟩
  | @named nm g src o e _ ih =>
    intro s vs hs
    have hs' : Stops o (c.run e (s.u, vs)) := by
      intro ho; subst ho; exact hs rfl
    obtain ⟨r, hr, hf⟩ := ih s vs hs'
    refine ⟨r, eval_named.mpr hr, ?_⟩
    cases o with
    | abort b => obtain ⟨p, s1, rfl, hf'⟩ := cfit_abort hf; exact hf' _
    | succ n l =>
      rcases cfit_succ hf with h | ⟨s1, rfl, _, hw⟩
      · exact .inl h
      · exact .inr ⟨rfl, hw⟩
    | fail n =>
      rcases cfit_fail hf with h | ⟨e1, s1, rfl, hw⟩
      · exact .inl h
      · exact .inr ⟨rfl, hw⟩
  | @action a g src n l e h1 ih =>
    intro s vs _
    obtain ⟨r, hr, hf⟩ := ih s vs stops_succ
    rcases cfit_succ hf with ⟨p, lens, u, hw, rfl⟩ | ⟨s1, rfl, hl, hw⟩
    · exact ⟨_, eval_action.mpr ⟨_, hr, rfl⟩, .inl ⟨p, lens, u, run_error hw, rfl⟩⟩
    · refine ⟨_, eval_action.mpr ⟨_, hr, .inr ⟨tr_bound h1, _, ⟨0, rfl⟩, rfl⟩⟩, ?_⟩
      rw [run_snoc, hw]
      rw [hl]
      dsimp only [Spec.Calls.step]
      cases hc : c.act a g (src.take n) (g.len s1.len) s1.u with
      | ok u => exact .inr ⟨rfl, rfl⟩
      | error x => exact .inl ⟨x.1, s1.len, x.2, rfl, rfl⟩
  | @actionStop a g src n l e h1 ih =>
    intro s vs hs
    obtain ⟨r, hr, hf⟩ := ih s vs stops_succ
    rcases cfit_succ hf with ⟨p, lens, u, hw, rfl⟩ | ⟨s1, rfl, hl, hw⟩
    · exact ⟨_, eval_action.mpr ⟨_, hr, rfl⟩, .inl ⟨p, lens, u, run_error hw, rfl⟩⟩
    · refine ⟨_, eval_action.mpr ⟨_, hr, .inr ⟨tr_bound h1, _, ⟨0, rfl⟩, rfl⟩⟩, ?_⟩
      rw [run_snoc, hw, hl] at hs ⊢
      dsimp only [Spec.Calls.step] at hs ⊢
      cases hc : c.act a g (src.take n) (g.len s1.len) s1.u with
      | ok u => rw [hc] at hs; obtain ⟨x, hx⟩ := hs rfl; cases hx
      | error x => exact .inl ⟨x.1, s1.len, x.2, rfl, rfl⟩
  | actionFail _ ih =>
    intro s vs _
    obtain ⟨r, hr, hf⟩ := ih s vs stops_fail
    rcases cfit_fail hf with ⟨p, lens, u, hw, rfl⟩ | ⟨e1, s1, rfl, hw⟩
    · exact ⟨_, eval_action.mpr ⟨_, hr, rfl⟩, .inl ⟨p, lens, u, hw, rfl⟩⟩
    · exact ⟨_, eval_action.mpr ⟨_, hr, rfl⟩, .inr ⟨rfl, hw⟩⟩
  | actionAbort _ ih =>
    intro s vs hs
    obtain ⟨r, hr, hf⟩ := ih s vs hs
    obtain ⟨p, s1, rfl, hf'⟩ := cfit_abort hf
    exact ⟨_, eval_action.mpr ⟨_, hr, rfl⟩, hf' _⟩
  | @transStop t g src =>
    intro s vs hs
    simp only [Spec.Calls.run, Spec.Calls.step] at hs ⊢
    cases hc : c.start t s.u with
    | ok x => rw [hc] at hs; obtain ⟨y, hy⟩ := hs rfl; cases hy
    | error x => exact ⟨_, eval_trans_stop hc, .inl ⟨x.1, s.len, x.2, rfl, rfl⟩⟩
  | @trans t g src n l e h1 ih =>
    intro s vs _
    rw [List.cons_append, run_opens]
    cases hc : c.start t s.u with
    | error x => exact ⟨_, eval_trans_stop hc, .inl ⟨x.1, s.len, x.2, rfl, rfl⟩⟩
    | ok x =>
      obtain ⟨v, u⟩ := x
      dsimp only
      obtain ⟨r, hr, hf⟩ := ih { s with u := u } (v :: vs) stops_succ
      refine ⟨_, eval_trans_ok hc hr, ?_⟩
      rcases cfit_succ hf with ⟨p, lens, u, hw, rfl⟩ | ⟨s1, rfl, hl, hw⟩
      · exact .inl ⟨p, lens, u, run_error hw, rfl⟩
      · rw [run_snoc, hw]
        dsimp only [Spec.Calls.step]
        cases hc : c.finish t v false s1.u with
        | ok u => exact .inr ⟨by simp only [Gr.len]; rw [hl], rfl⟩
        | error x => exact .inl ⟨x.1, s1.len, x.2, rfl, rfl⟩
  | @transFail t g src n e h1 ih =>
    intro s vs _
    rw [List.cons_append, run_opens]
    cases hc : c.start t s.u with
    | error x => exact ⟨_, eval_trans_stop hc, .inl ⟨x.1, s.len, x.2, rfl, rfl⟩⟩
    | ok x =>
      obtain ⟨v, u⟩ := x
      dsimp only
      obtain ⟨r, hr, hf⟩ := ih { s with u := u } (v :: vs) stops_fail
      refine ⟨_, eval_trans_ok hc hr, ?_⟩
      rcases cfit_fail hf with ⟨p, lens, u, hw, rfl⟩ | ⟨e1, s1, rfl, hw⟩
      · exact .inl ⟨p, lens, u, run_error hw, rfl⟩
      · rw [run_snoc, hw]
        dsimp only [Spec.Calls.step]
        cases hc : c.finish t v true s1.u with
        | ok u => exact .inr ⟨rfl, rfl⟩
        | error x => exact .inl ⟨x.1, s1.len, x.2, rfl, rfl⟩
  | @transAbort t g src b e h1 ih =>
    intro s vs hs
    rw [run_opens] at hs ⊢
    cases hc : c.start t s.u with
    | error x => exact ⟨_, eval_trans_stop hc, .inl ⟨x.1, s.len, x.2, rfl, rfl⟩⟩
    | ok x =>
      obtain ⟨v, u⟩ := x
      rw [hc] at hs
      dsimp only at hs ⊢
      obtain ⟨r, hr, hf⟩ := ih { s with u := u } (v :: vs) hs
      refine ⟨_, eval_trans_ok hc hr, ?_⟩
      rcases hf with ⟨p, lens, u, hw, rfl⟩ | hf
      · exact .inl ⟨p, lens, u, hw, rfl⟩
      · cases r with
        | ok n s => cases hf.1
        | fail n e s => cases hf.1
        | panic p s1 =>
          rcases hf with ⟨h, q, hp, hw⟩ | ⟨h, hp, vs', hw⟩
          · exact .inr (.inl ⟨h, q, hp, hw⟩)
          · exact .inr (.inr ⟨h, hp, vs' ++ [v], by rw [hw]; simp⟩)
  | @transStopOk t g src n l e h1 ih =>
    intro s vs hs
    rw [List.cons_append, run_opens] at hs ⊢
    cases hc : c.start t s.u with
    | error x => exact ⟨_, eval_trans_stop hc, .inl ⟨x.1, s.len, x.2, rfl, rfl⟩⟩
    | ok x =>
      obtain ⟨v, u⟩ := x
      rw [hc] at hs
      dsimp only at hs ⊢
      obtain ⟨r, hr, hf⟩ := ih { s with u := u } (v :: vs) stops_succ
      refine ⟨_, eval_trans_ok hc hr, ?_⟩
      rcases cfit_succ hf with ⟨p, lens, u, hw, rfl⟩ | ⟨s1, rfl, hl, hw⟩
      · exact .inl ⟨p, lens, u, run_error hw, rfl⟩
      · rw [run_snoc, hw] at hs ⊢
        dsimp only [Spec.Calls.step] at hs ⊢
        cases hc : c.finish t v false s1.u with
        | ok u => rw [hc] at hs; obtain ⟨y, hy⟩ := hs rfl; cases hy
        | error x => exact .inl ⟨x.1, s1.len, x.2, rfl, rfl⟩
  | @transStopFail t g src n e h1 ih =>
    intro s vs hs
    rw [List.cons_append, run_opens] at hs ⊢
    cases hc : c.start t s.u with
    | error x => exact ⟨_, eval_trans_stop hc, .inl ⟨x.1, s.len, x.2, rfl, rfl⟩⟩
    | ok x =>
      obtain ⟨v, u⟩ := x
      rw [hc] at hs
      dsimp only at hs ⊢
      obtain ⟨r, hr, hf⟩ := ih { s with u := u } (v :: vs) stops_fail
      refine ⟨_, eval_trans_ok hc hr, ?_⟩
      rcases cfit_fail hf with ⟨p, lens, u, hw, rfl⟩ | ⟨e1, s1, rfl, hw⟩
      · exact .inl ⟨p, lens, u, run_error hw, rfl⟩
      · rw [run_snoc, hw] at hs ⊢
        dsimp only [Spec.Calls.step] at hs ⊢
        cases hc : c.finish t v true s1.u with
        | ok u => rw [hc] at hs; obtain ⟨y, hy⟩ := hs rfl; cases hy
        | error x => exact .inl ⟨x.1, s1.len, x.2, rfl, rfl⟩
  | seqEnd =>
    intro all src0 n s vs _ _ _
    exact ⟨_, .nil, fun L => .inr ⟨rfl, rfl⟩⟩
  | seqMark _ ih =>
    intro all src0 n s vs h1 h2 h3
    obtain ⟨r, hr, hf⟩ := ih all src0 n s vs h1 h2 h3
    exact ⟨r, .mark hr, hf⟩
  | @seqNext g gs cut src n l e o e' hg h1 h2 ih1 ih2 =>
    intro all src0 n0 s vs hsrc hn hs
    obtain ⟨r1, hr1, hf1⟩ := ih1 s vs stops_succ
    rw [hsrc] at hr1
    rcases cfit_succ hf1 with ⟨p, lens, u, hw, rfl⟩ | ⟨s1, rfl, _, hw⟩
    · exact ⟨_, .panic hg hn hr1, fun L => .inl ⟨p, lens, u, run_error hw, rfl⟩⟩
    · rw [run_ok hw] at hs ⊢
      have hs' : Stops o (c.run e' (s1.u, vs)) := by
        intro ho; subst ho; exact hs rfl
      have hb := tr_bound h1
      simp only [Out.Within, hsrc, List.length_drop] at hb
      obtain ⟨r, hr, hf⟩ := ih2 all src0 (n0 + n) s1 vs (by rw [hsrc, List.drop_drop]) (by omega) hs'
      refine ⟨r, .ok hg hn hr1 hr, fun L => ?_⟩
      have := hf L
      cases o with
      | abort => exact this
      | succ m l => simpa only [Out.shift, Out.withLen, Nat.add_assoc] using this
      | fail m => simpa only [Out.shift, Out.withLen, Nat.add_assoc] using this
  | seqFail hg _ ih =>
    intro all src0 n0 s vs hsrc hn hs
    obtain ⟨r, hr, hf⟩ := ih s vs stops_fail
    rw [hsrc] at hr
    rcases cfit_fail hf with ⟨p, lens, u, hw, rfl⟩ | ⟨e1, s1, rfl, hw⟩
    · exact ⟨_, .panic hg hn hr, fun L => .inl ⟨p, lens, u, hw, rfl⟩⟩
    · exact ⟨_, .fail hg hn hr, fun L => .inr ⟨rfl, hw⟩⟩
  | seqCut hg _ ih =>
    intro all src0 n0 s vs hsrc hn hs
    obtain ⟨r, hr, hf⟩ := ih s vs stops_fail
    rw [hsrc] at hr
    rcases cfit_fail hf with ⟨p, lens, u, hw, rfl⟩ | ⟨e1, s1, rfl, hw⟩
    · exact ⟨_, .panic hg hn hr, fun L => .inl ⟨p, lens, u, hw, rfl⟩⟩
    · exact ⟨_, .cut hg hn hr, fun L => .inr (.inr ⟨rfl, nofun, [], hw⟩)⟩
  | seqAbort hg _ ih =>
    intro all src0 n0 s vs hsrc hn hs
    obtain ⟨r, hr, hf⟩ := ih s vs hs
    rw [hsrc] at hr
    obtain ⟨p, s1, rfl, hf'⟩ := cfit_abort hf
    exact ⟨_, .panic hg hn hr, fun L => hf' _⟩
  | altEnd =>
    intro all nMax errMax multi s vs hm _
    cases multi with
    | true => exact ⟨_, .multi, fun L => .inr ⟨by simp [Out.withLen, Out.atLeast], rfl⟩⟩
    | false =>
      cases errMax with
      | none => exact absurd rfl (hm rfl)
      | some e => exact ⟨_, .single, fun L => .inr ⟨by simp [Out.withLen, Out.atLeast], rfl⟩⟩
  | altHit _ ih =>
    intro all nMax errMax multi s vs hm _
    obtain ⟨r, hr, hf⟩ := ih s vs stops_succ
    rcases cfit_succ hf with ⟨p, lens, u, hw, rfl⟩ | ⟨s1, rfl, _, hw⟩
    · exact ⟨_, .panic hr, fun L => .inl ⟨p, lens, u, hw, rfl⟩⟩
    · exact ⟨_, .ok hr, fun L => .inr ⟨rfl, hw⟩⟩
  | @altNext g gs src n e o e' h1 h2 ih1 ih2 =>
    intro all nMax errMax multi s vs hm hs
    obtain ⟨r1, hr1, hf1⟩ := ih1 s vs stops_fail
    rcases cfit_fail hf1 with ⟨p, lens, u, hw, rfl⟩ | ⟨e1, s1, rfl, hw⟩
    · exact ⟨_, .panic hr1, fun L => .inl ⟨p, lens, u, run_error hw, rfl⟩⟩
    · rw [run_ok hw] at hs ⊢
      have hs' : Stops o (c.run e' (s1.u, vs)) := by
        intro ho; subst ho; exact hs rfl
      have key : ∀ L, ((o.atLeast n).withLen L).atLeast nMax = ((o.withLen L).atLeast (max nMax n)) := by
        intro L
        cases o with
        | abort | succ => rfl
        | fail m => simp only [Out.withLen, Out.atLeast, Nat.max_assoc]
      by_cases h1 : n = nMax
      · subst h1
        obtain ⟨r, hr, hf⟩ := ih2 all n errMax true s1 vs nofun hs'
        refine ⟨r, .same hr1 hr, fun L => ?_⟩
        rw [key, Nat.max_self]
        exact hf L
      · by_cases h2 : nMax < n
        · obtain ⟨r, hr, hf⟩ := ih2 all n (some e1) false s1 vs nofun hs'
          refine ⟨r, .more hr1 h2 hr, fun L => ?_⟩
          rw [key, Nat.max_eq_right (Nat.le_of_lt h2)]
          exact hf L
        · obtain ⟨r, hr, hf⟩ := ih2 all nMax errMax multi s1 vs hm hs'
          refine ⟨r, .less hr1 (by omega) hr, fun L => ?_⟩
          rw [key, Nat.max_eq_left (by omega)]
          exact hf L
  | altAbort _ ih =>
    intro all nMax errMax multi s vs hm hs
    obtain ⟨r, hr, hf⟩ := ih s vs hs
    obtain ⟨p, s1, rfl, hf'⟩ := cfit_abort hf
    exact ⟨_, .panic hr, fun L => hf' _⟩
  | manyEnd _ ih =>
    intro n k s vs _
    obtain ⟨r, hr, hf⟩ := ih s vs stops_fail
    rcases cfit_fail hf with ⟨p, lens, u, hw, rfl⟩ | ⟨e1, s1, rfl, hw⟩
    · exact ⟨_, .panic hr, .inl ⟨p, lens, u, hw, rfl⟩⟩
    · exact ⟨_, .stop hr, .inr ⟨0, 0, rfl, rfl, rfl, hw⟩⟩
  | @manyMore g src n l e o e' h1 h2 ih1 ih2 =>
    intro n0 k s vs hs
    obtain ⟨r1, hr1, hf1⟩ := ih1 s vs stops_succ
    rcases cfit_succ hf1 with ⟨p, lens, u, hw, rfl⟩ | ⟨s1, rfl, _, hw⟩
    · exact ⟨_, .panic hr1, .inl ⟨p, lens, u, run_error hw, rfl⟩⟩
    · rw [run_ok hw] at hs ⊢
      have hs' : Stops o (c.run e' (s1.u, vs)) := by
        intro ho; subst ho; exact hs rfl
      obtain ⟨r, hr, hf⟩ := ih2 (n0 + n) (k + 1) s1 vs hs'
      refine ⟨r, .more hr1 (tr_bound h1) hr, ?_⟩
      rcases hf with ⟨p, lens, u, hw, rfl⟩ | hf
      · exact .inl ⟨p, lens, u, hw, rfl⟩
      · cases r with
        | panic p s1 =>
          rcases hf with ⟨rfl, hf⟩ | ⟨rfl, hf⟩
          · exact .inr (.inl ⟨rfl, hf⟩)
          · exact .inr (.inr ⟨rfl, hf⟩)
        | done n k s1 =>
          obtain ⟨m, i, rfl, rfl, rfl, hw⟩ := hf
          exact .inr ⟨_ + m, i + 1, by omega, by omega, rfl, hw⟩
  | manyAbort _ ih =>
    intro n k s vs hs
    obtain ⟨r, hr, hf⟩ := ih s vs hs
    obtain ⟨p, s1, rfl, hf'⟩ := cfit_abort hf
    refine ⟨_, .panic hr, ?_⟩
    rcases hf' (fun _ => 0) with h | h
    · obtain ⟨p', lens, u, hw, h⟩ := h
      cases h
      exact .inl ⟨p', lens, u, hw, rfl⟩
    · exact .inr h

end complete
end Tpl
