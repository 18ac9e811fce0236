import Verif.Proof.MatchBound
import Verif.Proof.PegBasic
import Verif.Spec.GrPeg

/-! Matching with callbacks that do not panic is parsing. -/
namespace Tpl
open Spec
variable {A σ V P : Type}

/-- No callback panics. -/
structure Quiet (env : Env A) (sem : Sem A σ V P) : Prop where
  act : ∀ a g toks s c, ActEval env sem a g toks s c → ∃ s', c = .ok () s'
  start : ∀ a s, ∃ v s', sem.start a s = .ok v s'
  finish : ∀ a v e s, ∃ s', sem.finish a v e s = .ok () s'

/-- Every action returns or panics. -/
def Returns (env : Env A) (sem : Sem A σ V P) : Prop := ∀ a g toks s, ∃ c, ActEval env sem a g toks s c

/-- The outcome as parsing sees it. -/
def Res.out : Res A σ P → POut
  | .ok n _ => .succ n
  | .fail _ _ _ => .fail
  | .panic _ _ => .abort

def Spec.POut.shift (n : Nat) : POut → POut
  | .succ m => .succ (n + m)
  | o => o

theorem kinds_drop (n : Nat) (src : List Token) : kinds (src.drop n) = (kinds src).drop n := by
  unfold kinds; rw [List.map_drop]

theorem kinds_length (src : List Token) : (kinds src).length = src.length := by unfold kinds; rw [List.length_map]

theorem isNil_iff {g : Gr A} : isNil g = true ↔ g = .nil := by cases g <;> simp [isNil]
theorem isNil_false {g : Gr A} (h : g ≠ .nil) : isNil g = false := by
  cases h' : isNil g
  · rfl
  · exact absurd (isNil_iff.mp h') h

theorem toItems_nil (gs : List (Gr A)) : toItems (.nil :: gs) = none :: toItems gs := by rw [toItems]; rfl
theorem toItems_cons {g : Gr A} (h : g ≠ .nil) (gs : List (Gr A)) : toItems (g :: gs) = some (toPeg g) :: toItems gs := by
  rw [toItems, isNil_false h]; rfl

theorem toPeg_list (id : Nat) (a b : Gr A) (l0 : Bool) : toPeg (.list id a b l0) =
    if l0 then .alt (.seq (toPeg a) (.star (toPeg (.and [b, a])))) .empty else .seq (toPeg a) (.star (toPeg (.and [b, a]))) := by
  rw [toPeg, toPeg, toItems, toItems, toItems]

variable {env : Env A} {sem : Sem A σ V P}

theorem peg_never {rules : Nat → Option (Peg Nat)} {w} : PegEval rules .never w .fail := by
  cases w with
  | nil => exact .symEnd
  | cons k w => exact .symNot rfl

section sound

theorem psound_and {E : Gr A → List Token → St σ → Res A σ P → Prop}
    (hE : ∀ g src s r, E g src s r → PegEval (toRules env) (toPeg g) (kinds src) r.out)
    {all : Gr A} {src gs ff n s r} (h : AndRun E all src gs ff n s r) (hn : n ≤ src.length) :
    ∃ o, PegEval (toRules env) (seqOf (toItems gs) ff) (kinds (src.drop n)) o ∧ r.out = o.shift n := by
  induction h with
  | nil => exact ⟨_, .empty, rfl⟩
  | mark _ ih =>
    rw [toItems_nil]
    exact ih hn
  | @ok g gs ff n s n1 s1 r hg _ h1 _ ih =>
    have h1' := hE _ _ _ _ h1
    have hb := h1'.bound _ rfl
    rw [kinds_length, List.length_drop] at hb
    obtain ⟨o, ho, hr⟩ := ih (by omega)
    rw [← List.drop_drop, kinds_drop n1] at ho
    rw [toItems_cons hg]
    have hc : PegEval (toRules env) (if ff = true then .must (toPeg g) else toPeg g) (kinds (src.drop n)) (.succ n1) := by
      cases ff
      · exact h1'
      · exact .must h1'
    have hseq : seqOf (some (toPeg g) :: toItems gs) ff = .seq (if ff = true then .must (toPeg g) else toPeg g) (seqOf (toItems gs) ff) := by
      cases ff <;> rfl
    rw [hseq]
    cases o with
    | succ m => exact ⟨_, .seq hc ho, by rw [hr]; simp [POut.shift, Nat.add_assoc]⟩
    | fail => exact ⟨_, .seqFail2 hc ho, hr⟩
    | abort => exact ⟨_, .seqAbort2 hc ho, hr⟩
  | fail hg _ h1 =>
    rw [toItems_cons hg]
    exact ⟨_, .seqFail (hE _ _ _ _ h1), rfl⟩
  | cut hg _ h1 =>
    rw [toItems_cons hg]
    exact ⟨_, .seqAbort (.mustFail (hE _ _ _ _ h1)), rfl⟩
  | @panic g gs ff n s p s1 hg _ h1 =>
    rw [toItems_cons hg]
    refine ⟨.abort, ?_, rfl⟩
    cases ff
    · exact .seqAbort (hE _ _ _ _ h1)
    · exact .seqAbort (.mustAbort (hE _ _ _ _ h1))
  | slice _ h => exact absurd hn h

theorem psound_or {E : Gr A → List Token → St σ → Res A σ P → Prop}
    (hE : ∀ g src s r, E g src s r → PegEval (toRules env) (toPeg g) (kinds src) r.out)
    {all : Gr A} {src gs nMax errMax multi s r} (h : OrRun E all src gs nMax errMax multi s r)
    (hm : multi = false → errMax ≠ none) :
    PegEval (toRules env) (altOf (toPegs gs)) (kinds src) r.out := by
  induction h with
  | multi => exact peg_never
  | single => exact peg_never
  | none => exact absurd rfl (hm rfl)
  | ok h1 => exact .altHit (hE _ _ _ _ h1)
  | panic h1 => exact .altAbort (hE _ _ _ _ h1)
  | same h1 _ ih => exact .altNext (hE _ _ _ _ h1) (ih nofun)
  | more h1 _ _ ih => exact .altNext (hE _ _ _ _ h1) (ih nofun)
  | less h1 _ _ ih => exact .altNext (hE _ _ _ _ h1) (ih hm)

theorem psound_rep {E : Gr A → List Token → St σ → Res A σ P → Prop}
    (hE : ∀ g src s r, E g src s r → PegEval (toRules env) (toPeg g) (kinds src) r.out)
    {g : Gr A} {src n k s r} (h : RepRun E g src n k s r) :
    match r with
    | .done n' _ _ => ∃ m, n' = n + m ∧ PegEval (toRules env) (.star (toPeg g)) (kinds src) (.succ m)
    | .panic _ _ => PegEval (toRules env) (.star (toPeg g)) (kinds src) .abort := by
  induction h with
  | stop h1 => exact ⟨0, rfl, .starEnd (hE _ _ _ _ h1)⟩
  | panic h1 => exact .starAbort (hE _ _ _ _ h1)
  | @more src n k s n1 s1 r h1 hn _ ih =>
    cases r with
    | done n' k' s' =>
      obtain ⟨m, hm, ih⟩ := ih
      rw [kinds_drop] at ih
      exact ⟨n1 + m, by omega, .starMore (hE _ _ _ _ h1) ih⟩
    | panic p s' =>
      dsimp only at ih ⊢
      rw [kinds_drop] at ih
      exact .starAbort2 (hE _ _ _ _ h1) ih
  | slice h1 hn =>
    have := (hE _ _ _ _ h1).bound _ rfl
    rw [kinds_length] at this
    exact absurd this hn

/-! A match that does not panic has no part that does. -/

theorem AndRun.calm {E : Gr A → List Token → St σ → Res A σ P → Prop} {all : Gr A} {src gs ff n s r}
    (h : AndRun E all src gs ff n s r) (hr : r.out ≠ .abort) :
    AndRun (fun g src s r => E g src s r ∧ r.out ≠ .abort) all src gs ff n s r := by
  induction h with
  | nil => exact .nil
  | mark _ ih => exact .mark (ih hr)
  | ok h1 h2 h3 _ ih => exact .ok h1 h2 ⟨h3, nofun⟩ (ih hr)
  | fail h1 h2 h3 => exact .fail h1 h2 ⟨h3, nofun⟩
  | cut => exact absurd rfl hr
  | panic => exact absurd rfl hr
  | slice => exact absurd rfl hr

theorem OrRun.calm {E : Gr A → List Token → St σ → Res A σ P → Prop} {all : Gr A} {src gs a b c s r}
    (h : OrRun E all src gs a b c s r) (hr : r.out ≠ .abort) :
    OrRun (fun g src s r => E g src s r ∧ r.out ≠ .abort) all src gs a b c s r := by
  induction h with
  | multi => exact .multi
  | single => exact .single
  | none => exact .none
  | ok h => exact .ok ⟨h, nofun⟩
  | panic => exact absurd rfl hr
  | same h _ ih => exact .same ⟨h, nofun⟩ (ih hr)
  | more h hn _ ih => exact .more ⟨h, nofun⟩ hn (ih hr)
  | less h hn _ ih => exact .less ⟨h, nofun⟩ hn (ih hr)

def LoopRes.isDone : LoopRes A σ P → Prop
  | .done _ _ _ => True
  | .panic _ _ => False

theorem RepRun.calm {E : Gr A → List Token → St σ → Res A σ P → Prop} {g : Gr A} {src n k s r}
    (h : RepRun E g src n k s r) (hr : r.isDone) :
    RepRun (fun g src s r => E g src s r ∧ r.out ≠ .abort) g src n k s r := by
  induction h with
  | stop h => exact .stop ⟨h, nofun⟩
  | panic => exact hr.elim
  | more h hn _ ih => exact .more ⟨h, nofun⟩ hn (ih hr)
  | slice => exact hr.elim

theorem peg_sound (hq : Quiet env sem) : ∀ f g src s r, matchG env sem f g src s = some r →
    PegEval (toRules env) (toPeg g) (kinds src) r.out := by
  intro f
  induction f with
  | zero => intro g src s r h; cases h
  | succ f ih =>
    intro g src s r h
    have le : ∀ {g src s n s'}, matchG env sem f g src s = some (.ok n s') → n ≤ src.length := by
      intro g src s n s' h
      have := (ih _ _ _ _ h).bound _ rfl
      rwa [kinds_length] at this
    cases g with
    | nil => cases h; exact .crash
    | tok k =>
      simp only [matchG, matchStep] at h
      cases src with
      | nil => cases h; exact .symEnd
      | cons t src =>
        dsimp only at h
        by_cases hk : t.kind = k ∨ (t.kind = INT ∧ k = FLOAT)
        · rw [if_pos hk] at h; cases h
          exact .sym (by simpa [kindFits] using hk)
        · rw [if_neg hk] at h; cases h
          exact .symNot (by simpa [kindFits] using hk)
    | tru => cases h; exact .empty
    | eof =>
      cases src with
      | nil => cases h; exact .neg .symEnd
      | cons t src => cases h; exact .negNot (.sym rfl)
    | peek g =>
      simp only [matchG, matchStep] at h
      cases hm : matchG env sem f g src s with
      | none => rw [hm] at h; cases h
      | some r1 =>
        rw [hm] at h
        have := ih _ _ _ _ hm
        cases r1 <;> cases h
        · exact .neg (.negNot this)
        · exact .negNot (.neg this)
        · exact .negAbort (.negAbort this)
    | not g =>
      simp only [matchG, matchStep] at h
      cases hm : matchG env sem f g src s with
      | none => rw [hm] at h; cases h
      | some r1 =>
        rw [hm] at h
        have := ih _ _ _ _ hm
        cases r1 <;> cases h
        · exact .negNot this
        · exact .neg this
        · exact .negAbort this
    | and gs =>
      obtain ⟨o, ho, hr⟩ := psound_and ih (andLoop_iff.mp h) (Nat.zero_le _)
      rw [hr]
      have hz : o.shift 0 = o := by cases o <;> simp [POut.shift]
      rw [hz]
      exact ho
    | or gs => exact psound_or ih (orLoop_iff.mp h) nofun
    | rep0 id g =>
      simp only [matchG, matchStep] at h
      cases hm : repLoop (matchG env sem f) g f src 0 0 s with
      | none => rw [hm] at h; cases h
      | some r1 =>
        rw [hm] at h
        have := psound_rep ih (repLoop_run hm)
        cases r1 with
        | done n k s1 => cases h; obtain ⟨m, rfl, this⟩ := this; rw [toPeg, Res.out, Nat.zero_add]; exact this
        | panic p s1 => cases h; exact this
    | rep1 id g =>
      simp only [matchG, matchStep] at h
      cases hm : matchG env sem f g src s with
      | none => rw [hm] at h; cases h
      | some r1 =>
        rw [hm] at h
        have h1 := ih _ _ _ _ hm
        cases r1 with
        | fail n er s1 => cases h; exact .seqFail h1
        | panic p s1 => cases h; exact .seqAbort h1
        | ok n s1 =>
          dsimp only at h
          rw [if_pos (le hm)] at h
          cases hl : repLoop (matchG env sem f) g f (src.drop n) 0 0 s1 with
          | none => rw [hl] at h; cases h
          | some r2 =>
            rw [hl] at h
            have := psound_rep ih (repLoop_run hl)
            rw [kinds_drop] at this
            cases r2 with
            | done n2 k s2 => cases h; obtain ⟨m, rfl, this⟩ := this; rw [Nat.zero_add]; exact .seq h1 this
            | panic p s2 => cases h; exact .seqAbort2 h1 this
    | rep01 id g =>
      simp only [matchG, matchStep] at h
      cases hm : matchG env sem f g src s with
      | none => rw [hm] at h; cases h
      | some r1 =>
        rw [hm] at h
        have h1 := ih _ _ _ _ hm
        cases r1 <;> cases h
        · exact .altHit h1
        · exact .altNext h1 .empty
        · exact .altAbort h1
    | list id a b l0 =>
      have lift : ∀ {o}, PegEval (toRules env) (.seq (toPeg a) (.star (toPeg (.and [b, a])))) (kinds src) o → o ≠ .fail →
          PegEval (toRules env) (toPeg (.list id a b l0)) (kinds src) o := by
        intro o ho hne
        rw [toPeg_list]
        cases l0
        · exact ho
        · cases o with
          | fail => exact absurd rfl hne
          | succ n => exact .altHit ho
          | abort => exact .altAbort ho
      simp only [matchG, matchStep] at h
      cases hm : matchG env sem f a src s with
      | none => rw [hm] at h; cases h
      | some r1 =>
        rw [hm] at h
        have h1 := ih _ _ _ _ hm
        cases r1 with
        | fail n er s1 =>
          rw [toPeg_list]
          cases l0
          · cases h; exact .seqFail h1
          · cases h; exact .altNext (.seqFail h1) .empty
        | panic p s1 => cases h; exact lift (.seqAbort h1) nofun
        | ok n s1 =>
          dsimp only at h
          rw [if_pos (le hm)] at h
          cases hl : repLoop (matchG env sem f) (.and [b, a]) f (src.drop n) n 1 s1 with
          | none => rw [hl] at h; cases h
          | some r2 =>
            rw [hl] at h
            have := psound_rep ih (repLoop_run hl)
            rw [kinds_drop] at this
            cases r2 with
            | done n2 k s2 => cases h; obtain ⟨m, rfl, this⟩ := this; exact lift (.seq h1 this) nofun
            | panic p s2 => cases h; exact lift (.seqAbort2 h1 this) nofun
    | var v =>
      simp only [matchG, matchStep] at h
      cases hv : env v with
      | none => rw [hv] at h; cases h; exact .ruleNone (by simp [toRules, hv])
      | some g => rw [hv] at h; exact .rule (by simp only [toRules, hv]; rfl) (ih _ _ _ _ h)
    | named nm g => exact ih g _ _ _ h
    | action a g =>
      simp only [matchG, matchStep] at h
      cases hm : matchG env sem f g src s with
      | none => rw [hm] at h; cases h
      | some r1 =>
        rw [hm] at h
        have h1 := ih _ _ _ _ hm
        cases r1 with
        | fail n er s1 => cases h; exact h1
        | panic p s1 => cases h; exact h1
        | ok n s1 =>
          dsimp only at h
          rw [if_pos (le hm)] at h
          cases hc : sem.act f (matchG env sem f) a g (src.take n) s1 with
          | none => rw [hc] at h; cases h
          | some c =>
            obtain ⟨s', rfl⟩ := hq.act _ _ _ _ _ ⟨f, hc⟩
            rw [hc] at h
            cases h
            exact h1
    | trans t g =>
      simp only [matchG, matchStep] at h
      obtain ⟨v, s2, hs⟩ := hq.start t s
      rw [hs] at h
      dsimp only at h
      cases hm : matchG env sem f g src s2 with
      | none => rw [hm] at h; cases h
      | some r1 =>
        rw [hm] at h
        have h1 := ih _ _ _ _ hm
        cases r1 with
        | panic p s1 => cases h; exact h1
        | ok n s1 =>
          obtain ⟨s', hf⟩ := hq.finish t v none s1
          dsimp only at h
          rw [hf] at h
          cases h
          exact h1
        | fail n e s1 =>
          obtain ⟨s', hf⟩ := hq.finish t v (some e) s1
          dsimp only at h
          rw [hf] at h
          cases h
          exact h1

/-- Whatever the callbacks do, a match that returns is a parse. -/
theorem peg_done : ∀ f g src s r, matchG env sem f g src s = some r → r.out ≠ .abort →
    PegEval (toRules env) (toPeg g) (kinds src) r.out := by
  intro f
  induction f with
  | zero => intro g src s r h; cases h
  | succ f ih =>
    intro g src s r h hr
    have le : ∀ {g src s n s'}, matchG env sem f g src s = some (.ok n s') → n ≤ src.length := by
      intro g src s n s' h
      have := (ih _ _ _ _ h nofun).bound _ rfl
      rwa [kinds_length] at this
    have ih' : ∀ g src s r, (matchG env sem f g src s = some r ∧ r.out ≠ .abort) →
      PegEval (toRules env) (toPeg g) (kinds src) r.out := fun g src s r h => ih g src s r h.1 h.2
    cases g with
    | nil => cases h; exact absurd rfl hr
    | tok k =>
      simp only [matchG, matchStep] at h
      cases src with
      | nil => cases h; exact .symEnd
      | cons t src =>
        dsimp only at h
        by_cases hk : t.kind = k ∨ (t.kind = INT ∧ k = FLOAT)
        · rw [if_pos hk] at h; cases h
          exact .sym (by simpa [kindFits] using hk)
        · rw [if_neg hk] at h; cases h
          exact .symNot (by simpa [kindFits] using hk)
    | tru => cases h; exact .empty
    | eof =>
      cases src with
      | nil => cases h; exact .neg .symEnd
      | cons t src => cases h; exact .negNot (.sym rfl)
    | peek g =>
      simp only [matchG, matchStep] at h
      cases hm : matchG env sem f g src s with
      | none => rw [hm] at h; cases h
      | some r1 =>
        rw [hm] at h
        have := ih _ _ _ _ hm
        cases r1 <;> cases h
        · exact .neg (.negNot (this nofun))
        · exact .negNot (.neg (this nofun))
        · exact absurd rfl hr
    | not g =>
      simp only [matchG, matchStep] at h
      cases hm : matchG env sem f g src s with
      | none => rw [hm] at h; cases h
      | some r1 =>
        rw [hm] at h
        have := ih _ _ _ _ hm
        cases r1 <;> cases h
        · exact .negNot (this nofun)
        · exact .neg (this nofun)
        · exact absurd rfl hr
    | and gs =>
      obtain ⟨o, ho, hr'⟩ := psound_and ih' ((andLoop_iff.mp h).calm hr) (Nat.zero_le _)
      rw [hr']
      have hz : o.shift 0 = o := by cases o <;> simp [POut.shift]
      rw [hz]
      exact ho
    | or gs => exact psound_or ih' ((orLoop_iff.mp h).calm hr) nofun
    | rep0 id g =>
      simp only [matchG, matchStep] at h
      cases hm : repLoop (matchG env sem f) g f src 0 0 s with
      | none => rw [hm] at h; cases h
      | some r1 =>
        rw [hm] at h
        cases r1 with
        | done n k s1 =>
          cases h
          obtain ⟨m, rfl, this⟩ := psound_rep ih' ((repLoop_run hm).calm trivial)
          rw [toPeg, Res.out, Nat.zero_add]; exact this
        | panic p s1 => cases h; exact absurd rfl hr
    | rep1 id g =>
      simp only [matchG, matchStep] at h
      cases hm : matchG env sem f g src s with
      | none => rw [hm] at h; cases h
      | some r1 =>
        rw [hm] at h
        have h1 := ih _ _ _ _ hm
        cases r1 with
        | fail n er s1 => cases h; exact .seqFail (h1 nofun)
        | panic p s1 => cases h; exact absurd rfl hr
        | ok n s1 =>
          dsimp only at h
          rw [if_pos (le hm)] at h
          cases hl : repLoop (matchG env sem f) g f (src.drop n) 0 0 s1 with
          | none => rw [hl] at h; cases h
          | some r2 =>
            rw [hl] at h
            cases r2 with
            | done n2 k s2 =>
              cases h
              obtain ⟨m, rfl, this⟩ := psound_rep ih' ((repLoop_run hl).calm trivial)
              rw [kinds_drop] at this
              rw [Nat.zero_add]; exact .seq (h1 nofun) this
            | panic p s2 => cases h; exact absurd rfl hr
    | rep01 id g =>
      simp only [matchG, matchStep] at h
      cases hm : matchG env sem f g src s with
      | none => rw [hm] at h; cases h
      | some r1 =>
        rw [hm] at h
        have h1 := ih _ _ _ _ hm
        cases r1 <;> cases h
        · exact .altHit (h1 nofun)
        · exact .altNext (h1 nofun) .empty
        · exact absurd rfl hr
    | list id a b l0 =>
      simp only [matchG, matchStep] at h
      cases hm : matchG env sem f a src s with
      | none => rw [hm] at h; cases h
      | some r1 =>
        rw [hm] at h
        have h1 := ih _ _ _ _ hm
        cases r1 with
        | fail n er s1 =>
          rw [toPeg_list]
          cases l0
          · cases h; exact .seqFail (h1 nofun)
          · cases h; exact .altNext (.seqFail (h1 nofun)) .empty
        | panic p s1 => cases h; exact absurd rfl hr
        | ok n s1 =>
          dsimp only at h
          rw [if_pos (le hm)] at h
          cases hl : repLoop (matchG env sem f) (.and [b, a]) f (src.drop n) n 1 s1 with
          | none => rw [hl] at h; cases h
          | some r2 =>
            rw [hl] at h
            cases r2 with
            | done n2 k s2 =>
              cases h
              obtain ⟨m, rfl, this⟩ := psound_rep ih' ((repLoop_run hl).calm trivial)
              rw [kinds_drop] at this
              rw [toPeg_list]
              cases l0
              · exact .seq (h1 nofun) this
              · exact .altHit (.seq (h1 nofun) this)
            | panic p s2 => cases h; exact absurd rfl hr
    | var v =>
      simp only [matchG, matchStep] at h
      cases hv : env v with
      | none => rw [hv] at h; cases h; exact .ruleNone (by simp [toRules, hv])
      | some g => rw [hv] at h; exact .rule (by simp only [toRules, hv]; rfl) (ih _ _ _ _ h hr)
    | named nm g => exact ih g _ _ _ h hr
    | action a g =>
      simp only [matchG, matchStep] at h
      cases hm : matchG env sem f g src s with
      | none => rw [hm] at h; cases h
      | some r1 =>
        rw [hm] at h
        have h1 := ih _ _ _ _ hm
        cases r1 with
        | fail n er s1 => cases h; exact h1 hr
        | panic p s1 => cases h; exact absurd rfl hr
        | ok n s1 =>
          dsimp only at h
          rw [if_pos (le hm)] at h
          cases hc : sem.act f (matchG env sem f) a g (src.take n) s1 with
          | none => rw [hc] at h; cases h
          | some c =>
            rw [hc] at h
            cases c with
            | ok _ s' => cases h; exact h1 nofun
            | panic p s' => cases h; exact absurd rfl hr
    | trans t g =>
      simp only [matchG, matchStep] at h
      cases hs : sem.start t s with
      | panic p s' => rw [hs] at h; cases h; exact absurd rfl hr
      | ok v s2 =>
        rw [hs] at h
        dsimp only at h
        cases hm : matchG env sem f g src s2 with
        | none => rw [hm] at h; cases h
        | some r1 =>
          rw [hm] at h
          have h1 := ih _ _ _ _ hm
          cases r1 with
          | panic p s1 => cases h; exact absurd rfl hr
          | ok n s1 =>
            dsimp only at h
            cases hf : sem.finish t v none s1 with
            | ok _ s' => rw [hf] at h; cases h; exact h1 nofun
            | panic p s' => rw [hf] at h; cases h; exact absurd rfl hr
          | fail n e s1 =>
            dsimp only at h
            cases hf : sem.finish t v (some e) s1 with
            | ok _ s' => rw [hf] at h; cases h; exact h1 nofun
            | panic p s' => rw [hf] at h; cases h; exact absurd rfl hr

end sound

section complete

/-- The outcome is `o`, or a panic. -/
def Hit (r : Res A σ P) (o : POut) : Prop := r.out = o ∨ r.out = .abort

theorem hit_succ {r : Res A σ P} {n} (h : Hit r (.succ n)) : (∃ s, r = .ok n s) ∨ ∃ p s, r = .panic p s := by
  cases r with
  | ok m s => rcases h with h | h <;> cases h; exact .inl ⟨s, rfl⟩
  | fail m e s => rcases h with h | h <;> cases h
  | panic p s => exact .inr ⟨p, s, rfl⟩

theorem hit_fail {r : Res A σ P} (h : Hit r .fail) : (∃ n e s, r = .fail n e s) ∨ ∃ p s, r = .panic p s := by
  cases r with
  | ok m s => rcases h with h | h <;> cases h
  | fail m e s => exact .inl ⟨m, e, s, rfl⟩
  | panic p s => exact .inr ⟨p, s, rfl⟩

theorem hit_abort {r : Res A σ P} (h : Hit r .abort) : ∃ p s, r = .panic p s := by
  cases r with
  | ok m s => rcases h with h | h <;> cases h
  | fail m e s => rcases h with h | h <;> cases h
  | panic p s => exact ⟨p, s, rfl⟩

/-- What parsing finds, matching finds, unless a callback panics. -/
theorem peg_complete (ht : Returns env sem) : ∀ i g src s o,
    PegH (toRules env) i (toPeg g) (kinds src) o → ∃ r, Eval env sem g src s r ∧ Hit r o := by
  intro i
  induction i using Nat.strongRecOn with
  | ind i ih =>
  have hseq : ∀ gs ff all src n s o j, j ≤ i → n ≤ src.length →
      PegH (toRules env) j (seqOf (toItems gs) ff) (kinds (src.drop n)) o →
      ∃ r, AndRun (Eval env sem) all src gs ff n s r ∧ Hit r (o.shift n) := by
    intro gs
    induction gs with
    | nil =>
      intro ff all src n s o j _ _ h
      cases h
      exact ⟨_, .nil, .inl rfl⟩
    | cons g gs ihg =>
      intro ff all src n s o j hj hn h
      by_cases hg : g = .nil
      · subst hg
        rw [toItems_nil] at h
        obtain ⟨r, hr, ho⟩ := ihg true all src n s o j hj hn h
        exact ⟨r, .mark hr, ho⟩
      · rw [toItems_cons hg] at h
        have hsq : seqOf (some (toPeg g) :: toItems gs) ff =
            .seq (if ff = true then .must (toPeg g) else toPeg g) (seqOf (toItems gs) ff) := by
          cases ff <;> rfl
        rw [hsq] at h
        -- the first part
        have first : ∀ k o1, k < j → PegH (toRules env) k (if ff = true then .must (toPeg g) else toPeg g) (kinds (src.drop n)) o1 →
            (∃ n1 s1, Eval env sem g (src.drop n) s (.ok n1 s1) ∧ o1 = .succ n1) ∨
            (∃ n1 e1 s1, Eval env sem g (src.drop n) s (.fail n1 e1 s1) ∧ o1 = if ff = true then .abort else .fail) ∨
            (∃ p s1, Eval env sem g (src.drop n) s (.panic p s1)) := by
          intro k o1 hkj h1
          cases ff with
          | false =>
            obtain ⟨r, hr, ho⟩ := ih k (by omega) g _ s _ h1
            cases o1 with
            | succ n1 =>
              rcases hit_succ ho with ⟨s1, rfl⟩ | ⟨p, s1, rfl⟩
              · exact .inl ⟨n1, s1, hr, rfl⟩
              · exact .inr (.inr ⟨p, s1, hr⟩)
            | fail =>
              rcases hit_fail ho with ⟨n1, e1, s1, rfl⟩ | ⟨p, s1, rfl⟩
              · exact .inr (.inl ⟨n1, e1, s1, hr, rfl⟩)
              · exact .inr (.inr ⟨p, s1, hr⟩)
            | abort =>
              obtain ⟨p, s1, rfl⟩ := hit_abort ho
              exact .inr (.inr ⟨p, s1, hr⟩)
          | true =>
            cases h1 with
            | must h1 =>
              obtain ⟨r, hr, ho⟩ := ih _ (by omega) g _ s _ h1
              rcases hit_succ ho with ⟨s1, rfl⟩ | ⟨p, s1, rfl⟩
              · exact .inl ⟨_, s1, hr, rfl⟩
              · exact .inr (.inr ⟨p, s1, hr⟩)
            | mustFail h1 =>
              obtain ⟨r, hr, ho⟩ := ih _ (by omega) g _ s _ h1
              rcases hit_fail ho with ⟨n1, e1, s1, rfl⟩ | ⟨p, s1, rfl⟩
              · exact .inr (.inl ⟨n1, e1, s1, hr, rfl⟩)
              · exact .inr (.inr ⟨p, s1, hr⟩)
            | mustAbort h1 =>
              obtain ⟨r, hr, ho⟩ := ih _ (by omega) g _ s _ h1
              obtain ⟨p, s1, rfl⟩ := hit_abort ho
              exact .inr (.inr ⟨p, s1, hr⟩)
        -- the rest
        have rest : ∀ k n1 o2 (s1 : St σ), k < j → Eval env sem g (src.drop n) s (.ok n1 s1) →
            PegH (toRules env) k (seqOf (toItems gs) ff) ((kinds (src.drop n)).drop n1) o2 →
            ∃ r, AndRun (Eval env sem) all src (g :: gs) ff n s r ∧ Hit r ((o2.shift n1).shift n) := by
          intro k n1 o2 s1 hkj hr h2
          have hb := eval_le hr
          rw [List.length_drop] at hb
          rw [← kinds_drop, List.drop_drop] at h2
          obtain ⟨r, hr2, ho⟩ := ihg ff all src (n + n1) s1 o2 k (by omega) (by omega) h2
          refine ⟨r, .ok hg hn hr hr2, ?_⟩
          cases o2 <;> simpa [POut.shift, Nat.add_assoc] using ho
        have second : ∀ k n1 o2, k < j → PegH (toRules env) k (if ff = true then .must (toPeg g) else toPeg g) (kinds (src.drop n)) (.succ n1) →
            PegH (toRules env) k (seqOf (toItems gs) ff) ((kinds (src.drop n)).drop n1) o2 →
            ∃ r, AndRun (Eval env sem) all src (g :: gs) ff n s r ∧ Hit r ((o2.shift n1).shift n) := by
          intro k n1 o2 hkj h1 h2
          rcases first k _ hkj h1 with ⟨n1', s1, hr, ho⟩ | ⟨n1', e1, s1, hr, ho⟩ | ⟨p, s1, hr⟩
          · cases ho; exact rest k _ o2 s1 hkj hr h2
          · cases ff <;> cases ho
          · exact ⟨_, .panic hg hn hr, .inr rfl⟩
        cases h with
        | seq h1 h2 => exact second _ _ _ (by omega) h1 h2
        | seqFail2 h1 h2 => exact second _ _ _ (by omega) h1 h2
        | seqAbort2 h1 h2 => exact second _ _ _ (by omega) h1 h2
        | seqFail h1 =>
          rcases first _ _ (by omega) h1 with ⟨n1', s1, hr, ho⟩ | ⟨n1', e1, s1, hr, ho⟩ | ⟨p, s1, hr⟩
          · cases ho
          · cases ff <;> cases ho
            exact ⟨_, .fail hg hn hr, .inl rfl⟩
          · exact ⟨_, .panic hg hn hr, .inr rfl⟩
        | seqAbort h1 =>
          rcases first _ _ (by omega) h1 with ⟨n1', s1, hr, ho⟩ | ⟨n1', e1, s1, hr, ho⟩ | ⟨p, s1, hr⟩
          · cases ho
          · cases ff <;> cases ho
            exact ⟨_, .cut hg hn hr, .inl rfl⟩
          · exact ⟨_, .panic hg hn hr, .inr rfl⟩
  have halt : ∀ gs all src nMax errMax multi s o j, j ≤ i → (multi = false → errMax ≠ none) →
      PegH (toRules env) j (altOf (toPegs gs)) (kinds src) o →
      ∃ r, OrRun (Eval env sem) all src gs nMax errMax multi s r ∧ Hit r o := by
    intro gs
    induction gs with
    | nil =>
      intro all src nMax errMax multi s o j _ hm h
      have ho : o = .fail := h.eval.unique peg_never
      subst ho
      cases multi with
      | true => exact ⟨_, .multi, .inl rfl⟩
      | false =>
        cases errMax with
        | none => exact absurd rfl (hm rfl)
        | some e => exact ⟨_, .single, .inl rfl⟩
    | cons g gs ihg =>
      intro all src nMax errMax multi s o j hj hm h
      rw [toPegs, altOf] at h
      cases h with
      | altHit h1 =>
        obtain ⟨r, hr, ho⟩ := ih _ (by omega) g src s _ h1
        rcases hit_succ ho with ⟨s1, rfl⟩ | ⟨p, s1, rfl⟩
        · exact ⟨_, .ok hr, .inl rfl⟩
        · exact ⟨_, .panic hr, .inr rfl⟩
      | altAbort h1 =>
        obtain ⟨r, hr, ho⟩ := ih _ (by omega) g src s _ h1
        obtain ⟨p, s1, rfl⟩ := hit_abort ho
        exact ⟨_, .panic hr, .inr rfl⟩
      | altNext h1 h2 =>
        obtain ⟨r, hr, ho⟩ := ih _ (by omega) g src s _ h1
        rcases hit_fail ho with ⟨n, e, s1, rfl⟩ | ⟨p, s1, rfl⟩
        · by_cases e1 : n = nMax
          · subst e1
            obtain ⟨r, hr2, ho⟩ := ihg all src n errMax true s1 _ _ (by omega) nofun h2
            exact ⟨r, .same hr hr2, ho⟩
          · by_cases e2 : nMax < n
            · obtain ⟨r, hr2, ho⟩ := ihg all src n (some e) false s1 _ _ (by omega) nofun h2
              exact ⟨r, .more hr e2 hr2, ho⟩
            · obtain ⟨r, hr2, ho⟩ := ihg all src nMax errMax multi s1 _ _ (by omega) hm h2
              exact ⟨r, .less hr (by omega) hr2, ho⟩
        · exact ⟨_, .panic hr, .inr rfl⟩
  have hstar : ∀ j g src n k s o, j ≤ i → PegH (toRules env) j (.star (toPeg g)) (kinds src) o →
      (∃ m k' s', RepRun (Eval env sem) g src n k s (.done (n + m) k' s') ∧ o = .succ m) ∨
      (∃ p s', RepRun (Eval env sem) g src n k s (.panic p s')) := by
    intro j
    induction j with
    | zero => intro g src n k s o _ h; cases h
    | succ j ihj =>
      intro g src n k s o hj h
      have more : ∀ n1 o2, PegH (toRules env) j (toPeg g) (kinds src) (.succ n1) →
          PegH (toRules env) j (.star (toPeg g)) ((kinds src).drop n1) o2 →
          (∃ m k' s', RepRun (Eval env sem) g src n k s (.done (n + m) k' s') ∧ o2.shift n1 = .succ m) ∨
          (∃ p s', RepRun (Eval env sem) g src n k s (.panic p s')) := by
        intro n1 o2 h1 h2
        obtain ⟨r, hr, ho⟩ := ih _ (by omega) g src s _ h1
        rcases hit_succ ho with ⟨s1, rfl⟩ | ⟨p, s1, rfl⟩
        · rw [← kinds_drop] at h2
          rcases ihj g _ (n + n1) (k + 1) s1 _ (by omega) h2 with ⟨m, k', s', hr2, ho⟩ | ⟨p, s', hr2⟩
          · subst ho
            rw [Nat.add_assoc] at hr2
            exact .inl ⟨n1 + m, k', s', .more hr (eval_le hr) hr2, rfl⟩
          · exact .inr ⟨p, s', .more hr (eval_le hr) hr2⟩
        · exact .inr ⟨p, s1, .panic hr⟩
      cases h with
      | starEnd h1 =>
        obtain ⟨r, hr, ho⟩ := ih _ (by omega) g src s _ h1
        rcases hit_fail ho with ⟨n1, e, s1, rfl⟩ | ⟨p, s1, rfl⟩
        · exact .inl ⟨0, k, s1, .stop hr, rfl⟩
        · exact .inr ⟨p, s1, .panic hr⟩
      | starAbort h1 =>
        obtain ⟨r, hr, ho⟩ := ih _ (by omega) g src s _ h1
        obtain ⟨p, s1, rfl⟩ := hit_abort ho
        exact .inr ⟨p, s1, .panic hr⟩
      | starMore h1 h2 => exact more _ _ h1 h2
      | starAbort2 h1 h2 => exact more _ _ h1 h2
  have main : ∀ k g, sizeOf g = k → ∀ src s o, PegH (toRules env) i (toPeg g) (kinds src) o →
      ∃ r, Eval env sem g src s r ∧ Hit r o := by
   intro k
   induction k using Nat.strongRecOn with
   | ind k ihk =>
   intro g hk
   cases g with
   | nil => intro src s o h; cases h; exact ⟨_, eval_nil.mpr rfl, .inl rfl⟩
   | tok k =>
     intro src s o h
     cases src with
     | nil => cases h; exact ⟨_, eval_tok_nil.mpr rfl, .inl rfl⟩
     | cons t src =>
       refine ⟨_, eval_tok_cons.mpr rfl, .inl ?_⟩
       simp only [kinds, List.map_cons, toPeg] at h
       cases h with
       | sym hk => rw [if_pos (by simpa [kindFits, TokFits] using hk)]; rfl
       | symNot hk => rw [if_neg (by simpa [kindFits, TokFits] using hk)]; rfl
   | tru => intro src s o h; cases h; exact ⟨_, eval_tru.mpr rfl, .inl rfl⟩
   | eof =>
     intro src s o h
     refine ⟨_, eval_eof.mpr rfl, .inl ?_⟩
     cases src with
     | nil =>
       cases h with
       | neg h => rfl
       | negNot h => cases h
       | negAbort h => cases h
     | cons t src =>
       cases h with
       | neg h => cases h; rename_i h; cases h
       | negNot h => rfl
       | negAbort h => cases h
   | peek g =>
     intro src s o h
     cases h with
     | neg h =>
       cases h with
       | negNot h =>
         obtain ⟨r, hr, ho⟩ := ih _ (by omega) g src s _ h
         refine ⟨_, eval_peek.mpr ⟨r, hr, rfl⟩, ?_⟩
         rcases hit_succ ho with ⟨s1, rfl⟩ | ⟨p, s1, rfl⟩
         · exact .inl rfl
         · exact .inr rfl
     | negNot h =>
       cases h with
       | neg h =>
         obtain ⟨r, hr, ho⟩ := ih _ (by omega) g src s _ h
         refine ⟨_, eval_peek.mpr ⟨r, hr, rfl⟩, ?_⟩
         rcases hit_fail ho with ⟨n, e, s1, rfl⟩ | ⟨p, s1, rfl⟩
         · exact .inl rfl
         · exact .inr rfl
     | negAbort h =>
       cases h with
       | negAbort h =>
         obtain ⟨r, hr, ho⟩ := ih _ (by omega) g src s _ h
         obtain ⟨p, s1, rfl⟩ := hit_abort ho
         exact ⟨_, eval_peek.mpr ⟨_, hr, rfl⟩, .inr rfl⟩
   | not g =>
     intro src s o h
     cases h with
     | negNot h =>
       obtain ⟨r, hr, ho⟩ := ih _ (by omega) g src s _ h
       refine ⟨_, eval_not.mpr ⟨r, hr, rfl⟩, ?_⟩
       rcases hit_succ ho with ⟨s1, rfl⟩ | ⟨p, s1, rfl⟩
       · exact .inl rfl
       · exact .inr rfl
     | neg h =>
       obtain ⟨r, hr, ho⟩ := ih _ (by omega) g src s _ h
       refine ⟨_, eval_not.mpr ⟨r, hr, rfl⟩, ?_⟩
       rcases hit_fail ho with ⟨n, e, s1, rfl⟩ | ⟨p, s1, rfl⟩
       · exact .inl rfl
       · exact .inr rfl
     | negAbort h =>
       obtain ⟨r, hr, ho⟩ := ih _ (by omega) g src s _ h
       obtain ⟨p, s1, rfl⟩ := hit_abort ho
       exact ⟨_, eval_not.mpr ⟨_, hr, rfl⟩, .inr rfl⟩
   | and gs =>
     intro src s o h
     obtain ⟨r, hr, ho⟩ := hseq gs false (.and gs) src 0 s o i (Nat.le_refl _) (Nat.zero_le _) h
     refine ⟨r, eval_and.mpr hr, ?_⟩
     cases o <;> simpa [POut.shift] using ho
   | or gs =>
     intro src s o h
     obtain ⟨r, hr, ho⟩ := halt gs (.or gs) src 0 none true s o i (Nat.le_refl _) nofun h
     exact ⟨r, eval_or.mpr hr, ho⟩
   | rep0 id g =>
     intro src s o h
     rcases hstar i g src 0 0 s o (Nat.le_refl _) h with ⟨m, k', s', hr, rfl⟩ | ⟨p, s', hr⟩
     · exact ⟨_, eval_rep0.mpr ⟨_, hr, rfl⟩, .inl (by simp [Res.out])⟩
     · exact ⟨_, eval_rep0.mpr ⟨_, hr, rfl⟩, .inr rfl⟩
   | rep1 id g =>
     intro src s o h
     have two : ∀ k n o, k < i → PegH (toRules env) k (toPeg g) (kinds src) (.succ n) →
         PegH (toRules env) k (.star (toPeg g)) ((kinds src).drop n) o →
         ∃ r, Eval env sem (.rep1 id g) src s r ∧ Hit r (o.shift n) := by
       intro k n o hk h1 h2
       obtain ⟨r, hr, ho⟩ := ih _ (by omega) g src s _ h1
       rcases hit_succ ho with ⟨s1, rfl⟩ | ⟨p, s1, rfl⟩
       · rw [← kinds_drop] at h2
         rcases hstar k g _ 0 0 s1 _ (by omega) h2 with ⟨m, k', s', hr2, rfl⟩ | ⟨p, s', hr2⟩
         · exact ⟨_, eval_rep1.mpr ⟨_, hr, .inr ⟨eval_le hr, _, hr2, rfl⟩⟩, .inl (by simp [Res.out, POut.shift])⟩
         · exact ⟨_, eval_rep1.mpr ⟨_, hr, .inr ⟨eval_le hr, _, hr2, rfl⟩⟩, .inr rfl⟩
       · exact ⟨_, eval_rep1.mpr ⟨_, hr, rfl⟩, .inr rfl⟩
     cases h with
     | seqFail h1 =>
       obtain ⟨r, hr, ho⟩ := ih _ (by omega) g src s _ h1
       rcases hit_fail ho with ⟨n, e, s1, rfl⟩ | ⟨p, s1, rfl⟩
       · exact ⟨_, eval_rep1.mpr ⟨_, hr, rfl⟩, .inl rfl⟩
       · exact ⟨_, eval_rep1.mpr ⟨_, hr, rfl⟩, .inr rfl⟩
     | seqAbort h1 =>
       obtain ⟨r, hr, ho⟩ := ih _ (by omega) g src s _ h1
       obtain ⟨p, s1, rfl⟩ := hit_abort ho
       exact ⟨_, eval_rep1.mpr ⟨_, hr, rfl⟩, .inr rfl⟩
     | seq h1 h2 => exact two _ _ _ (by omega) h1 h2
     | seqFail2 h1 h2 => exact two _ _ _ (by omega) h1 h2
     | seqAbort2 h1 h2 => exact two _ _ _ (by omega) h1 h2
   | rep01 id g =>
     intro src s o h
     cases h with
     | altHit h1 =>
       obtain ⟨r, hr, ho⟩ := ih _ (by omega) g src s _ h1
       refine ⟨_, eval_rep01.mpr ⟨_, hr, rfl⟩, ?_⟩
       rcases hit_succ ho with ⟨s1, rfl⟩ | ⟨p, s1, rfl⟩
       · exact .inl rfl
       · exact .inr rfl
     | altAbort h1 =>
       obtain ⟨r, hr, ho⟩ := ih _ (by omega) g src s _ h1
       obtain ⟨p, s1, rfl⟩ := hit_abort ho
       exact ⟨_, eval_rep01.mpr ⟨_, hr, rfl⟩, .inr rfl⟩
     | altNext h1 h2 =>
       obtain ⟨r, hr, ho⟩ := ih _ (by omega) g src s _ h1
       cases h2
       refine ⟨_, eval_rep01.mpr ⟨_, hr, rfl⟩, ?_⟩
       rcases hit_fail ho with ⟨n, e, s1, rfl⟩ | ⟨p, s1, rfl⟩
       · exact .inl rfl
       · exact .inr rfl
   | list id a b l0 =>
     intro src s o h
     rw [toPeg_list] at h
     have two : ∀ k n o, k < i → PegH (toRules env) k (toPeg a) (kinds src) (.succ n) →
         PegH (toRules env) k (.star (toPeg (.and [b, a]))) ((kinds src).drop n) o →
         ∃ r, Eval env sem (.list id a b l0) src s r ∧ Hit r (o.shift n) := by
       intro k n o hk h1 h2
       obtain ⟨r, hr, ho⟩ := ih _ (by omega) a src s _ h1
       rcases hit_succ ho with ⟨s1, rfl⟩ | ⟨p, s1, rfl⟩
       · rw [← kinds_drop] at h2
         rcases hstar k (.and [b, a]) _ n 1 s1 _ (by omega) h2 with ⟨m, k', s', hr2, rfl⟩ | ⟨p, s', hr2⟩
         · exact ⟨_, eval_list.mpr ⟨_, hr, .inr ⟨eval_le hr, _, hr2, rfl⟩⟩, .inl (by simp [Res.out, POut.shift])⟩
         · exact ⟨_, eval_list.mpr ⟨_, hr, .inr ⟨eval_le hr, _, hr2, rfl⟩⟩, .inr rfl⟩
       · exact ⟨_, eval_list.mpr ⟨_, hr, rfl⟩, .inr rfl⟩
     have hfail : ∀ {w}, ¬ PegEval (toRules env) (.star (toPeg (.and [b, a]))) w .fail := by
       intro w h; cases h
     -- the part common to both kinds
     have common : ∀ k o, k ≤ i → PegH (toRules env) k (.seq (toPeg a) (.star (toPeg (.and [b, a])))) (kinds src) o →
         ∃ r, Eval env sem (.list id a b l0) src s r ∧ Hit r (if o = .fail ∧ l0 = true then .succ 0 else o) := by
       intro k o hk h
       cases h with
       | seqFail h1 =>
         obtain ⟨r, hr, ho⟩ := ih _ (by omega) a src s _ h1
         rcases hit_fail ho with ⟨n, e, s1, rfl⟩ | ⟨p, s1, rfl⟩
         · refine ⟨_, eval_list.mpr ⟨_, hr, rfl⟩, ?_⟩
           cases l0 <;> exact .inl rfl
         · exact ⟨_, eval_list.mpr ⟨_, hr, rfl⟩, .inr rfl⟩
       | seqAbort h1 =>
         obtain ⟨r, hr, ho⟩ := ih _ (by omega) a src s _ h1
         obtain ⟨p, s1, rfl⟩ := hit_abort ho
         exact ⟨_, eval_list.mpr ⟨_, hr, rfl⟩, .inr rfl⟩
       | seq h1 h2 =>
         obtain ⟨r, hr, ho⟩ := two _ _ _ (by omega) h1 h2
         exact ⟨r, hr, by rw [if_neg (by simp)]; exact ho⟩
       | seqFail2 h1 h2 => exact absurd h2.eval hfail
       | seqAbort2 h1 h2 =>
         obtain ⟨r, hr, ho⟩ := two _ _ _ (by omega) h1 h2
         exact ⟨r, hr, by rw [if_neg (by simp)]; exact ho⟩
     cases l0 with
     | false =>
       obtain ⟨r, hr, ho⟩ := common _ _ (Nat.le_refl _) h
       exact ⟨r, hr, by simpa using ho⟩
     | true =>
       rw [if_pos rfl] at h
       cases h with
       | altHit h1 =>
         obtain ⟨r, hr, ho⟩ := common _ _ (by omega) h1
         exact ⟨r, hr, by simpa using ho⟩
       | altAbort h1 =>
         obtain ⟨r, hr, ho⟩ := common _ _ (by omega) h1
         exact ⟨r, hr, by simpa using ho⟩
       | altNext h1 h2 =>
         cases h2
         obtain ⟨r, hr, ho⟩ := common _ _ (by omega) h1
         exact ⟨r, hr, by simpa using ho⟩
   | var v =>
     intro src s o h
     cases h with
     | ruleNone hv =>
       have : env v = none := by
         cases hh : env v with
         | none => rfl
         | some g => simp [toRules, hh] at hv
       exact ⟨.fail 0 .varNotAssigned s, eval_var.mpr (by rw [this]), .inl rfl⟩
     | rule hv h1 =>
       cases hh : env v with
       | none => simp [toRules, hh] at hv
       | some g =>
         simp only [toRules, hh, Option.map_some, Option.some.injEq] at hv
         subst hv
         obtain ⟨r, hr, ho⟩ := ih _ (by omega) g src s _ h1
         exact ⟨r, eval_var.mpr (by rw [hh]; exact hr), ho⟩
   | named nm g =>
     have ihg := ihk (sizeOf g) (by rw [← hk]; simp +arith) g rfl
     intro src s o h
     obtain ⟨r, hr, ho⟩ := ihg src s o h
     exact ⟨r, eval_named.mpr hr, ho⟩
   | action a g =>
     have ihg := ihk (sizeOf g) (by rw [← hk]; simp +arith) g rfl
     intro src s o h
     obtain ⟨r, hr, ho⟩ := ihg src s o h
     cases r with
     | fail n e s1 => exact ⟨_, eval_action.mpr ⟨_, hr, rfl⟩, ho⟩
     | panic p s1 => exact ⟨_, eval_action.mpr ⟨_, hr, rfl⟩, ho⟩
     | ok n s1 =>
       obtain ⟨c, hc⟩ := ht a g (src.take n) s1
       refine ⟨_, eval_action.mpr ⟨_, hr, .inr ⟨eval_le hr, _, hc, rfl⟩⟩, ?_⟩
       cases c with
       | ok _ s' => exact ho
       | panic p s' => exact .inr rfl
   | trans t g =>
     have ihg := ihk (sizeOf g) (by rw [← hk]; simp +arith) g rfl
     intro src s o h
     cases hs : sem.start t s with
     | panic p s' => exact ⟨.panic p s', eval_trans.mpr (by rw [hs]), .inr rfl⟩
     | ok v s2 =>
       obtain ⟨r, hr, ho⟩ := ihg src s2 o h
       cases r with
       | panic p s1 => exact ⟨_, eval_trans.mpr (by rw [hs]; exact ⟨_, hr, rfl⟩), ho⟩
       | ok n s1 =>
         cases hf : sem.finish t v none s1 with
         | ok _ s' => exact ⟨.ok n s', eval_trans.mpr (by rw [hs]; exact ⟨_, hr, by dsimp only; rw [hf]⟩), ho⟩
         | panic p s' => exact ⟨.panic p s', eval_trans.mpr (by rw [hs]; exact ⟨_, hr, by dsimp only; rw [hf]⟩), .inr rfl⟩
       | fail n e s1 =>
         cases hf : sem.finish t v (some e) s1 with
         | ok _ s' => exact ⟨.fail n e s', eval_trans.mpr (by rw [hs]; exact ⟨_, hr, by dsimp only; rw [hf]⟩), ho⟩
         | panic p s' => exact ⟨.panic p s', eval_trans.mpr (by rw [hs]; exact ⟨_, hr, by dsimp only; rw [hf]⟩), .inr rfl⟩
  exact fun g src s o h => main _ g rfl src s o h

end complete

/-- Matching and parsing agree. -/
theorem eval_iff_peg (hq : Quiet env sem) (ht : Returns env sem) (g : Gr A) (src : List Token) (s : St σ) (o : POut) :
    (∃ r, Eval env sem g src s r ∧ r.out = o) ↔ PegEval (toRules env) (toPeg g) (kinds src) o := by
  constructor
  · rintro ⟨r, ⟨f, hf⟩, rfl⟩
    exact peg_sound hq f g src s r hf
  · intro h
    obtain ⟨i, hi⟩ := h.height
    obtain ⟨r, hr, _⟩ := peg_complete ht i g src s o hi
    refine ⟨r, hr, ?_⟩
    obtain ⟨f, hf⟩ := hr
    exact (peg_sound hq f g src s r hf).unique h

end Tpl
