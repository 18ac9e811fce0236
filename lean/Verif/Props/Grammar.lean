import Verif.Proof.Steps
import Verif.Proof.PegCheck
import Mathlib.Order.RelClasses
import Mathlib.Data.Fintype.Order
import Mathlib.Data.Finite.Defs

/-!
# Properties of the grammar combinators (C22-C36)

`Eval env sem g src s r`: `g.Match(src, ctx)`, started in state `s` with the grammar
variables assigned as in `env` and the callbacks `sem`, comes to the end `r`: it
returns `(n, nil)` (`.ok n s'`) or `(n, err)` (`.fail n err s'`) or panics.  That it
does not terminate is `∀ r, ¬ Eval …`.
-/
namespace Tpl.Props
open Tpl.Spec
variable {A σ V P : Type} {env : Env A} {sem : Sem A σ V P}

/-! Small grammars used in the examples; callbacks that do nothing. -/

def noCalls : Calls Nat Unit Unit Empty := ⟨fun _ _ _ _ u => .ok u, fun _ u => .ok ((), u), fun _ _ _ u => .ok u⟩
def noEnv : Env Nat := fun _ => none
def st0 : St Unit := ⟨fun _ => 0, ()⟩
def toks (ks : List Nat) : List Token := ks.map fun k => ⟨k, 0, []⟩
/-- A callback that panics. -/
def badCalls : Calls Nat Unit Unit Nat := ⟨fun _ _ _ _ u => .error (7, u), fun _ u => .ok ((), u), fun _ _ _ u => .ok u⟩

theorem quiet_noCalls (env : Env Nat) : Quiet env noCalls.sem where
  act := by
    rintro a g toks s c ⟨f, hc⟩
    cases hc
    exact ⟨s, rfl⟩
  start := fun a s => ⟨(), s, rfl⟩
  finish := fun a v e s => ⟨s, rfl⟩

theorem returns_calls (env : Env A) (c : Calls A σ V P) : Returns env c.sem := by
  intro a g toks s
  exact ⟨_, 0, rfl⟩

/-! ## C22 -/

/-- Whatever is reported lies within the tokens given, whatever the callbacks do. -/
theorem C22_in_bounds {g : Gr A} {src : List Token} {s : St σ} {r} (h : Eval env sem g src s r) :
    (∀ n s', r = .ok n s' → n ≤ src.length) ∧ (∀ n e s', r = .fail n e s' → n ≤ src.length) := by
  have := eval_short h
  constructor
  · rintro n s' rfl; exact this
  · rintro n e s' rfl; exact this

/-- No slice expression of a `Match` method is out of range. -/
theorem C22_no_slice_panic (hsem : NoSlice sem) {g : Gr A} {src : List Token} {s : St σ} {p s'}
    (h : Eval env sem g src s (.panic p s')) : p ≠ .slice := by
  obtain ⟨f, h⟩ := h
  exact matchG_within hsem f g src s _ h

theorem noSlice_calls (c : Calls A σ V P) : NoSlice c.sem where
  act := by
    intro f m hm a g toks s p s' h
    simp only [Calls.sem, Option.some.injEq] at h
    cases hc : c.act a g toks (g.len s.len) s.u with
    | ok u => rw [hc] at h; cases h
    | error e => rw [hc] at h; cases h; nofun
  start := by
    intro a s p s' h
    simp only [Calls.sem] at h
    cases hc : c.start a s.u with
    | ok x => rw [hc] at h; cases h
    | error e => rw [hc] at h; cases h; nofun
  finish := by
    intro a v e s p s' h
    simp only [Calls.sem] at h
    cases hc : c.finish a v e.isSome s.u with
    | ok x => rw [hc] at h; cases h
    | error e => rw [hc] at h; cases h; nofun

/-- `+INT IDENT` on `INT INT INT IDENT IDENT` consumes four of the five tokens. -/
example : ∃ s', Eval noEnv noCalls.sem (.and [.rep1 0 (.tok INT), .tok IDENT]) (toks [INT, INT, INT, IDENT, IDENT]) st0 (.ok 4 s') :=
  ⟨_, 5, rfl⟩
example : NoSlice noCalls.sem := noSlice_calls _

/-! ## C23 -/

/-- A match that returns is what parsing with the grammar's parsing expression
prescribes, whatever the callbacks do. -/
theorem C23_sound {g : Gr A} {src : List Token} {s : St σ} {r} (h : Eval env sem g src s r) :
    (∀ n s', r = .ok n s' → PegEval (toRules env) (toPeg g) (kinds src) (.succ n)) ∧
    (∀ n e s', r = .fail n e s' → PegEval (toRules env) (toPeg g) (kinds src) .fail) := by
  obtain ⟨f, h⟩ := h
  constructor
  · rintro n s' rfl; exact peg_done f g src s _ h nofun
  · rintro n e s' rfl; exact peg_done f g src s _ h nofun

/-- If parsing comes to an end then so does matching, with the same outcome unless a
callback panics. -/
theorem C23_complete (hr : Returns env sem) {g : Gr A} {src : List Token} {o}
    (h : PegEval (toRules env) (toPeg g) (kinds src) o) (s : St σ) :
    ∃ r, Eval env sem g src s r ∧ (r.out = o ∨ ∃ p s', r = .panic p s') := by
  obtain ⟨i, hi⟩ := h.height
  obtain ⟨r, he, ho⟩ := peg_complete hr i g src s o hi
  refine ⟨r, he, ?_⟩
  rcases ho with ho | ho
  · exact .inl ho
  · cases r with
    | ok => cases ho
    | fail => cases ho
    | panic p s' => exact .inr ⟨p, s', rfl⟩

/-- Without panicking callbacks matching *is* parsing: same matches, same failures,
same aborts. -/
theorem C23_peg (hq : Quiet env sem) (hr : Returns env sem) (g : Gr A) (src : List Token) (s : St σ) :
    (∀ n, (∃ s', Eval env sem g src s (.ok n s')) ↔ PegEval (toRules env) (toPeg g) (kinds src) (.succ n)) ∧
    ((∃ n e s', Eval env sem g src s (.fail n e s')) ↔ PegEval (toRules env) (toPeg g) (kinds src) .fail) ∧
    ((∃ p s', Eval env sem g src s (.panic p s')) ↔ PegEval (toRules env) (toPeg g) (kinds src) .abort) := by
  refine ⟨fun n => ?_, ?_, ?_⟩
  · rw [← eval_iff_peg hq hr g src s]
    constructor
    · rintro ⟨s', h⟩; exact ⟨_, h, rfl⟩
    · rintro ⟨r, h, ho⟩
      cases r <;> cases ho
      exact ⟨_, h⟩
  · rw [← eval_iff_peg hq hr g src s]
    constructor
    · rintro ⟨n, e, s', h⟩; exact ⟨_, h, rfl⟩
    · rintro ⟨r, h, ho⟩
      cases r <;> cases ho
      exact ⟨_, _, _, h⟩
  · rw [← eval_iff_peg hq hr g src s]
    constructor
    · rintro ⟨p, s', h⟩; exact ⟨_, h, rfl⟩
    · rintro ⟨r, h, ho⟩
      cases r <;> cases ho
      exact ⟨_, _, h⟩

/-- `(INT ',' | INT) IDENT` on `INT IDENT`: the second alternative. -/
example : PegEval (R := Nat) (fun _ => none) (toPeg (.and [.or [.and [.tok INT, .tok 44], .tok INT], .tok IDENT] : Gr Nat))
    (kinds (toks [INT, IDENT])) (.succ 2) :=
  ((C23_peg (quiet_noCalls noEnv) (returns_calls _ _) _ _ st0).1 2).mp ⟨_, 5, rfl⟩

/-! ## C24 -/

/-- Matched length and success depend on nothing but the grammar and the token kinds:
not on the state left behind, nor on positions and literals, nor on the callbacks. -/
theorem C24_deterministic {σ' V' P' : Type} {sem' : Sem A σ' V' P'} {g : Gr A} {src src' : List Token} {s : St σ} {s' : St σ'}
    {r r'} (hk : src.map (·.kind) = src'.map (·.kind)) (h : Eval env sem g src s r) (h' : Eval env sem' g src' s' r') :
    (∀ n s1, r = .ok n s1 → (∃ s2, r' = .ok n s2) ∨ ∃ p s2, r' = .panic p s2) ∧
    (∀ n e s1, r = .fail n e s1 → (∃ n e s2, r' = .fail n e s2) ∨ ∃ p s2, r' = .panic p s2) := by
  have hk' : kinds src = kinds src' := hk
  obtain ⟨f, h⟩ := h
  obtain ⟨f', h'⟩ := h'
  constructor
  · rintro n s1 rfl
    have := peg_done f _ _ _ _ h nofun
    rw [hk'] at this
    cases r' with
    | panic p s2 => exact .inr ⟨p, s2, rfl⟩
    | ok m s2 => have := this.unique (peg_done f' _ _ _ _ h' nofun); cases this; exact .inl ⟨s2, rfl⟩
    | fail m e s2 => have := this.unique (peg_done f' _ _ _ _ h' nofun); cases this
  · rintro n e s1 rfl
    have := peg_done f _ _ _ _ h nofun
    rw [hk'] at this
    cases r' with
    | panic p s2 => exact .inr ⟨p, s2, rfl⟩
    | ok m s2 => have := this.unique (peg_done f' _ _ _ _ h' nofun); cases this
    | fail m e s2 => exact .inl ⟨m, e, s2, rfl⟩

/-- And whether it comes to an end. -/
theorem C24_terminates {σ' V' P' : Type} {sem' : Sem A σ' V' P'} (hr : Returns env sem') {g : Gr A} {src src' : List Token}
    {s : St σ} {r} (hk : src.map (·.kind) = src'.map (·.kind)) (h : Eval env sem g src s r)
    (hp : ∀ p s', r ≠ .panic p s') (s' : St σ') : ∃ r', Eval env sem' g src' s' r' := by
  have hk' : kinds src = kinds src' := hk
  obtain ⟨f, h⟩ := h
  have := peg_done f _ _ _ _ h (by
    cases r with
    | ok => nofun
    | fail => nofun
    | panic p s1 => exact absurd rfl (hp p s1))
  rw [hk'] at this
  obtain ⟨r', h', _⟩ := C23_complete hr this s'
  exact ⟨r', h'⟩

/-- The same match in the same state has one outcome. -/
theorem C24_function {g : Gr A} {src : List Token} {s : St σ} {r r'} (h : Eval env sem g src s r) (h' : Eval env sem g src s r') :
    r = r' := h.unique h'

example : (toks [INT, IDENT]).map (·.kind) = [⟨INT, 5, str "1"⟩, ⟨IDENT, 9, str "x"⟩].map Token.kind := rfl

/-! ## C25 -/

/-- `@G` matches iff `G` does, consuming nothing, and fails iff `G` fails. -/
theorem C25_peek {g : Gr A} {src : List Token} {s s' : St σ} {m} :
    (Eval env sem (.peek g) src s (.ok m s') ↔ m = 0 ∧ ∃ n, Eval env sem g src s (.ok n s')) ∧
    ((∃ e, Eval env sem (.peek g) src s (.fail m e s')) ↔ m = 0 ∧ ∃ n e, Eval env sem g src s (.fail n e s')) ∧
    (∀ p, Eval env sem (.peek g) src s (.panic p s') ↔ Eval env sem g src s (.panic p s')) := by
  refine ⟨?_, ?_, fun p => ?_⟩
  · rw [eval_peek]
    constructor
    · rintro ⟨r, h, hr⟩
      cases r <;> cases hr
      exact ⟨rfl, _, h⟩
    · rintro ⟨rfl, n, h⟩; exact ⟨_, h, rfl⟩
  · simp only [eval_peek]
    constructor
    · rintro ⟨e, r, h, hr⟩
      cases r <;> cases hr
      exact ⟨rfl, _, _, h⟩
    · rintro ⟨rfl, n, e, h⟩; exact ⟨_, _, h, rfl⟩
  · rw [eval_peek]
    constructor
    · rintro ⟨r, h, hr⟩
      cases r <;> cases hr
      exact h
    · intro h; exact ⟨_, h, rfl⟩

/-- `~G` matches iff `G` fails, consuming nothing, and fails iff `G` matches. -/
theorem C25_not {g : Gr A} {src : List Token} {s s' : St σ} {m} :
    (Eval env sem (.not g) src s (.ok m s') ↔ m = 0 ∧ ∃ n e, Eval env sem g src s (.fail n e s')) ∧
    ((∃ e, Eval env sem (.not g) src s (.fail m e s')) ↔ m = 0 ∧ ∃ n, Eval env sem g src s (.ok n s')) ∧
    (∀ p, Eval env sem (.not g) src s (.panic p s') ↔ Eval env sem g src s (.panic p s')) := by
  refine ⟨?_, ?_, fun p => ?_⟩
  · rw [eval_not]
    constructor
    · rintro ⟨r, h, hr⟩
      cases r <;> cases hr
      exact ⟨rfl, _, _, h⟩
    · rintro ⟨rfl, n, e, h⟩; exact ⟨_, h, rfl⟩
  · simp only [eval_not]
    constructor
    · rintro ⟨e, r, h, hr⟩
      cases r <;> cases hr
      exact ⟨rfl, _, h⟩
    · rintro ⟨rfl, n, h⟩; exact ⟨_, _, h, rfl⟩
  · rw [eval_not]
    constructor
    · rintro ⟨r, h, hr⟩
      cases r <;> cases hr
      exact h
    · intro h; exact ⟨_, h, rfl⟩

/-- `@G` is `~~G`, up to the grammar named in the error. -/
theorem C25_peek_not_not {g : Gr A} {src : List Token} {s s' : St σ} {m} :
    (Eval env sem (.peek g) src s (.ok m s') ↔ Eval env sem (.not (.not g)) src s (.ok m s')) ∧
    ((∃ e, Eval env sem (.peek g) src s (.fail m e s')) ↔ ∃ e, Eval env sem (.not (.not g)) src s (.fail m e s')) ∧
    (∀ p, Eval env sem (.peek g) src s (.panic p s') ↔ Eval env sem (.not (.not g)) src s (.panic p s')) := by
  refine ⟨?_, ?_, fun p => ?_⟩
  · rw [C25_peek.1, C25_not.1]
    constructor
    · rintro ⟨h0, n, h⟩
      obtain ⟨e, h⟩ := C25_not.2.1.mpr ⟨rfl, n, h⟩
      exact ⟨h0, 0, e, h⟩
    · rintro ⟨h0, n, e, h⟩
      exact ⟨h0, (C25_not.2.1.mp ⟨e, h⟩).2⟩
  · rw [C25_peek.2.1, C25_not.2.1]
    constructor
    · rintro ⟨h0, n, e, h⟩
      exact ⟨h0, 0, C25_not.1.mpr ⟨rfl, n, e, h⟩⟩
    · rintro ⟨h0, n, h⟩
      exact ⟨h0, (C25_not.1.mp h).2⟩
  · exact ((C25_peek (m := 0)).2.2 p).trans (((C25_not (m := 0)).2.2 p).symm.trans ((C25_not (m := 0)).2.2 p).symm)

example : Eval noEnv noCalls.sem (.peek (.and [.tok INT, .tok IDENT])) (toks [INT, IDENT]) st0 (.ok 0 st0) := ⟨3, rfl⟩
example : Eval noEnv noCalls.sem (.not (.tok INT)) (toks [IDENT]) st0 (.ok 0 st0) := ⟨3, rfl⟩

/-! ## C26 -/

/-- A choice matches iff some alternative does and those before it fail; it behaves
as that alternative, and none after it is tried. -/
theorem C26_match {gs : List (Gr A)} {src : List Token} {s s' : St σ} {n} :
    Eval env sem (.or gs) src s (.ok n s') ↔
      ∃ pre g post fs s1, gs = pre ++ g :: post ∧ AllFail (Eval env sem) src pre s fs s1 ∧ Eval env sem g src s1 (.ok n s') := by
  constructor
  · intro h; exact orRun_ok (eval_or.mp h) nofun n s' rfl
  · rintro ⟨pre, g, post, fs, s1, rfl, hpre, h⟩
    obtain ⟨_, _, _, _, h⟩ := allFail_or (all := .or (pre ++ g :: post)) hpre 0 none true nofun (g :: post) (fun _ _ _ => .ok n s')
      (fun a b c _ => .ok h)
    exact eval_or.mpr h

/-- A choice fails iff all alternatives fail. -/
theorem C26_fail {gs : List (Gr A)} {src : List Token} {s s' : St σ} :
    (∃ n e, Eval env sem (.or gs) src s (.fail n e s')) ↔ ∃ fs, AllFail (Eval env sem) src gs s fs s' := by
  constructor
  · rintro ⟨n, e, h⟩
    obtain ⟨fs, h, _⟩ := orRun_fail (eval_or.mp h) nofun n e s' rfl
    exact ⟨fs, h⟩
  · rintro ⟨fs, h⟩
    have hf : ∀ (a : Nat) (b : Option (Err A)) (c : Bool), (c = false → b ≠ none) →
        OrRun (Eval env sem) (.or gs) src [] a b c s' (.fail a (choiceErr (.or gs) src b c) s') := by
      intro a b c hm
      cases c with
      | true => exact .multi
      | false =>
        cases b with
        | none => exact absurd rfl (hm rfl)
        | some e => exact .single
    obtain ⟨a', b', c', _, h⟩ := allFail_or (all := .or gs) h 0 none true nofun [] _ hf
    rw [List.append_nil] at h
    exact ⟨_, _, eval_or.mpr h⟩

/-- A choice panics iff an alternative does and those before it fail. -/
theorem C26_panic {gs : List (Gr A)} {src : List Token} {s s' : St σ} {p} :
    Eval env sem (.or gs) src s (.panic p s') ↔
      ∃ pre g post fs s1, gs = pre ++ g :: post ∧ AllFail (Eval env sem) src pre s fs s1 ∧ Eval env sem g src s1 (.panic p s') := by
  constructor
  · intro h; exact orRun_panic (eval_or.mp h) p s' rfl
  · rintro ⟨pre, g, post, fs, s1, rfl, hpre, h⟩
    exact reach_panic (.or hpre .here) h

/-- Both alternatives of `INT | INT IDENT` match; the first is taken. -/
example : Eval noEnv noCalls.sem (.or [.tok INT, .and [.tok INT, .tok IDENT]]) (toks [INT, IDENT]) st0 (.ok 1 st0) := ⟨3, rfl⟩

/-! ## C27 -/

/-- A failing choice reports the furthest position its alternatives failed at.  The
error is the alternative's own if exactly one got furthest and past the start;
otherwise it says that the choice does not match. -/
theorem C27_furthest {gs : List (Gr A)} {src : List Token} {s s' : St σ} {n e}
    (h : Eval env sem (.or gs) src s (.fail n e s')) :
    ∃ fs, AllFail (Eval env sem) src gs s fs s' ∧ n = furthest fs ∧
      (n > 0 → ∀ e', fs.filter (fun x => x.1 = n) = [(n, e')] → e = e') ∧
      ((n = 0 ∨ (fs.filter (fun x => x.1 = n)).length ≥ 2) → e = .mismatch (.or gs) src none 0) := by
  obtain ⟨fs, ha, hn, h1, h2, h3, h4, h5⟩ := orRun_fail (eval_or.mp h) nofun n e s' rfl
  have hn' : n = furthest fs := by rw [hn]; omega
  subst hn'
  refine ⟨fs, ha, rfl, h4, ?_⟩
  rintro (h0 | hl)
  · cases fs with
    | nil => exact h2 h0 rfl
    | cons x fs =>
      refine h3 h0 ?_
      have : furthest (x :: fs) = max x.1 (furthest fs) := rfl
      rw [this] at h0
      simp only [List.any_cons, Bool.or_eq_true, decide_eq_true_eq]
      exact .inl (by omega)
  · by_cases h0 : furthest fs = 0
    · cases fs with
      | nil => exact h2 h0 rfl
      | cons x fs =>
        refine h3 h0 ?_
        have : furthest (x :: fs) = max x.1 (furthest fs) := rfl
        rw [this] at h0
        simp only [List.any_cons, Bool.or_eq_true, decide_eq_true_eq]
        exact .inl (by omega)
    · exact h5 (by omega) hl

/-- `furthest` is the maximum. -/
theorem C27_max {fs : List (Nat × Err A)} : (∀ x ∈ fs, x.1 ≤ furthest fs) ∧ (fs ≠ [] → ∃ x ∈ fs, x.1 = furthest fs) := by
  induction fs with
  | nil => exact ⟨nofun, fun h => absurd rfl h⟩
  | cons y fs ih =>
    have hf : furthest (y :: fs) = max y.1 (furthest fs) := rfl
    rw [hf]
    constructor
    · intro x hx
      cases hx with
      | head => omega
      | tail _ hx => have := ih.1 x hx; omega
    · intro _
      by_cases h : furthest fs ≤ y.1
      · exact ⟨y, List.mem_cons_self, by omega⟩
      · have hne : fs ≠ [] := by rintro rfl; exact h (Nat.zero_le _)
        obtain ⟨x, hx, he⟩ := ih.2 hne
        exact ⟨x, List.mem_cons_of_mem _ hx, by omega⟩

/-- `IDENT | INT INT | INT ','` … the middle one gets furthest alone in
`IDENT | INT INT INT | INT ','` on `INT INT IDENT`. -/
example : Eval noEnv noCalls.sem (.or [.tok IDENT, .and [.tok INT, .tok INT, .tok INT], .and [.tok INT, .tok 44]])
    (toks [INT, INT, IDENT]) st0 (.fail 2 (.mismatch (.tok INT) (toks [IDENT]) none 0) st0) := ⟨4, rfl⟩

/-! ## C28 -/

/-- `*G` matches `G` as often as possible, until it fails. -/
theorem C28_star {id : Nat} {g : Gr A} {src : List Token} {s s' : St σ} {n} :
    Eval env sem (.rep0 id g) src s (.ok n s') ↔
      ∃ k s1 nf ef s2, Items (Eval env sem) g src s k n s1 ∧ Eval env sem g (src.drop n) s1 (.fail nf ef s2) ∧
        s' = s2.setLen id k := by
  rw [eval_rep0]
  constructor
  · rintro ⟨r, h, hr⟩
    obtain ⟨k, m, s1, hi, _, hd⟩ := rep_items h
    cases r with
    | panic p s2 => cases hr
    | done n' k' s2 =>
      cases hr
      obtain ⟨rfl, rfl, nf, ef, hf⟩ := hd
      exact ⟨k, s1, nf, ef, s2, by simpa using hi, by simpa using hf, by simp⟩
  · rintro ⟨k, s1, nf, ef, s2, hi, hf, rfl⟩
    refine ⟨_, items_rep hi 0 0 _ (.stop hf), ?_⟩
    simp

/-- `*G` never fails. -/
theorem C28_star_never_fails {id : Nat} {g : Gr A} {src : List Token} {s s' : St σ} {n e} :
    ¬ Eval env sem (.rep0 id g) src s (.fail n e s') := by
  rw [eval_rep0]
  rintro ⟨r, _, hr⟩
  cases r <;> cases hr

/-- `*G` panics only because `G` does, after some matches. -/
theorem C28_star_panic {id : Nat} {g : Gr A} {src : List Token} {s s' : St σ} {p} :
    Eval env sem (.rep0 id g) src s (.panic p s') ↔
      ∃ k n s1, Items (Eval env sem) g src s k n s1 ∧ Eval env sem g (src.drop n) s1 (.panic p s') := by
  constructor
  · rw [eval_rep0]
    rintro ⟨r, h, hr⟩
    obtain ⟨k, m, s1, hi, _, hd⟩ := rep_items h
    cases r with
    | done => cases hr
    | panic p s2 => cases hr; exact ⟨k, m, s1, hi, hd⟩
  · rintro ⟨k, n, s1, hi, h⟩
    exact reach_panic (.rep0 hi .here) h

theorem setLen_same (s : St σ) (id k k' : Nat) : (s.setLen id k).u = (s.setLen id k').u ∧
    ∀ i, i ∉ [id] → (s.setLen id k).len i = (s.setLen id k').len i := by
  refine ⟨rfl, fun i hi => ?_⟩
  simp only [List.mem_singleton] at hi
  simp [St.setLen, hi]

theorem setLen_self (s : St σ) (id k : Nat) : (s.setLen id k).u = s.u ∧ ∀ i, i ∉ [id] → (s.setLen id k).len i = s.len i := by
  refine ⟨rfl, fun i hi => ?_⟩
  simp only [List.mem_singleton] at hi
  simp [St.setLen, hi]

/-- `+G` is `G *G`, except for the item count, which is one more. -/
theorem C28_plus {id : Nat} {g : Gr A} : Behaves (Eval env sem) [id] (.rep1 id g) (.and [g, .rep0 id g]) := by
  have same : ∀ s : St σ, s.u = s.u ∧ ∀ i, i ∉ [id] → s.len i = s.len i := fun s => ⟨rfl, fun _ _ => rfl⟩
  intro src s
  by_cases hg : g = .nil
  · subst hg
    have h0 : ∀ r, Eval env sem (.rep1 id .nil) src s r ↔ r = .panic .nilDeref s := by
      intro r
      rw [eval_rep1]
      constructor
      · rintro ⟨r1, h, hr⟩
        rw [eval_nil] at h; subst h; exact hr
      · rintro rfl; exact ⟨_, eval_nil.mpr rfl, rfl⟩
    have h1 : Eval env sem (.and [.nil, .rep0 id .nil]) src s (.panic .nilDeref s) := by
      refine eval_and.mpr (.mark (.panic nofun (Nat.zero_le _) ?_))
      exact eval_rep0.mpr ⟨_, .panic (eval_nil.mpr rfl), rfl⟩
    constructor
    · intro r h
      rw [h0] at h; subst h
      exact ⟨_, h1, rfl, same s⟩
    · intro r h
      have := h.unique h1
      subst this
      exact ⟨_, (h0 _).mpr rfl, rfl, same s⟩
  · have main : ∀ r, Eval env sem (.rep1 id g) src s r → ∃ r', Eval env sem (.and [g, .rep0 id g]) src s r' ∧ SameBut [id] r r' := by
      intro r h
      rw [eval_rep1] at h
      obtain ⟨r1, h1, hr⟩ := h
      cases r1 with
      | fail n e s1 =>
        subst hr
        exact ⟨_, eval_and.mpr (.fail hg (Nat.zero_le _) h1), (by simp : n = 0 + n), rfl, setLen_self s1 id 0⟩
      | panic p s1 =>
        subst hr
        exact ⟨_, eval_and.mpr (.panic hg (Nat.zero_le _) h1), rfl, same s1⟩
      | ok n s1 =>
        rcases hr with ⟨hn, _⟩ | ⟨hn, r2, h2, hr⟩
        · exact absurd (eval_le h1) hn
        · cases r2 with
          | done n2 k s2 =>
            subst hr
            have h3 : Eval env sem (.rep0 id g) (src.drop n) s1 (.ok n2 (s2.setLen id k)) := eval_rep0.mpr ⟨_, h2, rfl⟩
            refine ⟨_, eval_and.mpr (.ok hg (Nat.zero_le _) h1 (.ok nofun (by omega) (by rw [Nat.zero_add]; exact h3) .nil)), ?_, ?_⟩
            · omega
            · exact setLen_same s2 id _ _
          | panic p s2 =>
            subst hr
            have h3 : Eval env sem (.rep0 id g) (src.drop n) s1 (.panic p s2) := eval_rep0.mpr ⟨_, h2, rfl⟩
            exact ⟨_, eval_and.mpr (.ok hg (Nat.zero_le _) h1 (.panic nofun (by omega) (by rw [Nat.zero_add]; exact h3))), rfl, same s2⟩
    refine ⟨main, ?_⟩
    intro r' h'
    -- the sequence determines an outcome of the repetition
    have : ∃ r, Eval env sem (.rep1 id g) src s r := by
      have h'' := eval_and.mp h'
      cases h'' with
      | fail hg _ h1 => exact ⟨_, eval_rep1.mpr ⟨_, h1, rfl⟩⟩
      | panic hg _ h1 => exact ⟨_, eval_rep1.mpr ⟨_, h1, rfl⟩⟩
      | mark => exact absurd rfl hg
      | slice _ h => exact absurd (Nat.zero_le _) h
      | @ok _ _ _ _ _ n1 s1 _ hg _ h1 h2 =>
        rw [Nat.zero_add] at h2
        have step : ∀ r2, Eval env sem (.rep0 id g) (src.drop n1) s1 r2 → ∃ r, Eval env sem (.rep1 id g) src s r := by
          intro r2 h2
          rw [eval_rep0] at h2
          obtain ⟨r3, h3, _⟩ := h2
          exact ⟨_, eval_rep1.mpr ⟨_, h1, .inr ⟨eval_le h1, r3, h3, rfl⟩⟩⟩
        cases h2 with
        | ok _ _ h2 _ => exact step _ h2
        | fail _ _ h2 => exact step _ h2
        | panic _ _ h2 => exact step _ h2
        | slice _ h => exact absurd (eval_le h1) h
    obtain ⟨r, hr⟩ := this
    obtain ⟨r'', h'', hs⟩ := main r hr
    have := h''.unique h'
    subst this
    exact ⟨r, hr, hs⟩

/-- `*(INT IDENT)` on `INT IDENT INT IDENT INT ','`: two items, four tokens. -/
example : ∃ s', Eval noEnv noCalls.sem (.rep0 0 (.and [.tok INT, .tok IDENT])) (toks [INT, IDENT, INT, IDENT, INT, 44]) st0 (.ok 4 s') :=
  ⟨_, 5, rfl⟩

/-! ## C29 -/

/-- `G1 % G2` is `G1 *(G2 G1)`, except for the item counts. -/
theorem C29_list {id : Nat} {a b : Gr A} (ha : a ≠ .nil) :
    Behaves (Eval env sem) [id] (.list id a b false) (.and [a, .rep0 id (.and [b, a])]) := by
  have same : ∀ s : St σ, s.u = s.u ∧ ∀ i, i ∉ [id] → s.len i = s.len i := fun s => ⟨rfl, fun _ _ => rfl⟩
  -- the loops differ in where they start counting
  have back : ∀ {src n0 k0 n0' k0' s r}, RepRun (Eval env sem) (.and [b, a]) src n0 k0 s r →
      RepRun (Eval env sem) (.and [b, a]) src n0' k0' s (match r with
        | .done n k s' => .done (n - n0 + n0') (k - k0 + k0') s'
        | .panic p s' => .panic p s') := by
    intro src n0 k0 n0' k0' s r h
    obtain ⟨k, n, s1, hi, _, hd⟩ := rep_items h
    cases r with
    | done n' k' s' =>
      obtain ⟨rfl, rfl, nf, ef, hf⟩ := hd
      have := items_rep hi n0' k0' _ (.stop hf)
      dsimp only
      rw [show n0 + n - n0 + n0' = n0' + n by omega, show k0 + k - k0 + k0' = k0' + k by omega]
      exact this
    | panic p s' => exact items_rep hi n0' k0' _ (.panic hd)
  intro src s
  have main : ∀ r, Eval env sem (.list id a b false) src s r → ∃ r', Eval env sem (.and [a, .rep0 id (.and [b, a])]) src s r' ∧ SameBut [id] r r' := by
    intro r h
    rw [eval_list] at h
    obtain ⟨r1, h1, hr⟩ := h
    cases r1 with
    | fail n e s1 =>
      subst hr
      exact ⟨_, eval_and.mpr (.fail ha (Nat.zero_le _) h1), (by simp : n = 0 + n), rfl, setLen_self s1 id 0⟩
    | panic p s1 =>
      subst hr
      exact ⟨_, eval_and.mpr (.panic ha (Nat.zero_le _) h1), rfl, same s1⟩
    | ok n s1 =>
      rcases hr with ⟨hn, _⟩ | ⟨hn, r2, h2, hr⟩
      · exact absurd (eval_le h1) hn
      · have h2' := back (n0' := 0) (k0' := 0) h2
        have hge : ∀ n2 k s2, r2 = .done n2 k s2 → n ≤ n2 := by
          rintro n2 k s2 rfl
          obtain ⟨_, m, _, _, _, hd⟩ := rep_items h2
          have := hd.1
          omega
        cases r2 with
        | done n2 k s2 =>
          subst hr
          have h3 : Eval env sem (.rep0 id (.and [b, a])) (src.drop n) s1 (.ok _ _) := eval_rep0.mpr ⟨_, h2', rfl⟩
          refine ⟨_, eval_and.mpr (.ok ha (Nat.zero_le _) h1 (.ok nofun (by omega) (by rw [Nat.zero_add]; exact h3) .nil)), ?_, ?_⟩
          · have := hge _ _ _ rfl; omega
          · exact setLen_same s2 id _ _
        | panic p s2 =>
          subst hr
          have h3 : Eval env sem (.rep0 id (.and [b, a])) (src.drop n) s1 (.panic p s2) := eval_rep0.mpr ⟨_, h2', rfl⟩
          exact ⟨_, eval_and.mpr (.ok ha (Nat.zero_le _) h1 (.panic nofun (by omega) (by rw [Nat.zero_add]; exact h3))), rfl, same s2⟩
  refine ⟨main, ?_⟩
  intro r' h'
  have : ∃ r, Eval env sem (.list id a b false) src s r := by
    have h'' := eval_and.mp h'
    cases h'' with
    | fail _ _ h1 => exact ⟨_, eval_list.mpr ⟨_, h1, rfl⟩⟩
    | panic _ _ h1 => exact ⟨_, eval_list.mpr ⟨_, h1, rfl⟩⟩
    | mark => exact absurd rfl ha
    | slice _ h => exact absurd (Nat.zero_le _) h
    | @ok _ _ _ _ _ n1 s1 _ _ _ h1 h2 =>
      rw [Nat.zero_add] at h2
      have step : ∀ r2, Eval env sem (.rep0 id (.and [b, a])) (src.drop n1) s1 r2 → ∃ r, Eval env sem (.list id a b false) src s r := by
        intro r2 h2
        rw [eval_rep0] at h2
        obtain ⟨r3, h3, _⟩ := h2
        exact ⟨_, eval_list.mpr ⟨_, h1, .inr ⟨eval_le h1, _, back (n0' := n1) (k0' := 1) h3, rfl⟩⟩⟩
      cases h2 with
      | ok _ _ h2 _ => exact step _ h2
      | fail _ _ h2 => exact step _ h2
      | panic _ _ h2 => exact step _ h2
      | slice _ h => exact absurd (eval_le h1) h
  obtain ⟨r, hr⟩ := this
  obtain ⟨r'', h'', hs⟩ := main r hr
  have := h''.unique h'
  subst this
  exact ⟨r, hr, hs⟩

/-- `G1 %= G2` is `?(G1 % G2)`, except for the item counts. -/
theorem C29_list0 {id id' : Nat} {a b : Gr A} :
    Behaves (Eval env sem) [id, id'] (.list id a b true) (.rep01 id' (.list id a b false)) := by
  have two : ∀ (s : St σ) (k k' : Nat), (s.setLen id k).u = ((s.setLen id k).setLen id' k').u ∧
      ∀ i, i ∉ [id, id'] → (s.setLen id k).len i = ((s.setLen id k).setLen id' k').len i := by
    intro s k k'
    refine ⟨rfl, fun i hi => ?_⟩
    simp only [List.mem_cons, List.not_mem_nil, or_false, not_or] at hi
    simp [St.setLen, hi.1, hi.2]
  intro src s
  constructor
  · intro r h
    rw [eval_list] at h
    obtain ⟨r1, h1, hr⟩ := h
    cases r1 with
    | fail n e s1 =>
      subst hr
      exact ⟨_, eval_rep01.mpr ⟨_, eval_list.mpr ⟨_, h1, rfl⟩, rfl⟩, rfl, two s1 0 0⟩
    | panic p s1 =>
      subst hr
      exact ⟨_, eval_rep01.mpr ⟨_, eval_list.mpr ⟨_, h1, rfl⟩, rfl⟩, rfl, rfl, fun _ _ => rfl⟩
    | ok n s1 =>
      rcases hr with ⟨hn, _⟩ | ⟨hn, r2, h2, hr⟩
      · exact absurd (eval_le h1) hn
      · cases r2 with
        | done n2 k s2 =>
          subst hr
          exact ⟨_, eval_rep01.mpr ⟨_, eval_list.mpr ⟨_, h1, .inr ⟨hn, _, h2, rfl⟩⟩, rfl⟩, rfl, two s2 k 1⟩
        | panic p s2 =>
          subst hr
          exact ⟨_, eval_rep01.mpr ⟨_, eval_list.mpr ⟨_, h1, .inr ⟨hn, _, h2, rfl⟩⟩, rfl⟩, rfl, rfl, fun _ _ => rfl⟩
  · intro r' h'
    rw [eval_rep01] at h'
    obtain ⟨r0, h0, hr'⟩ := h'
    rw [eval_list] at h0
    obtain ⟨r1, h1, hr⟩ := h0
    cases r1 with
    | fail n e s1 =>
      subst hr
      simp only [Bool.false_eq_true, if_false] at hr'
      subst hr'
      exact ⟨_, eval_list.mpr ⟨_, h1, rfl⟩, rfl, two s1 0 0⟩
    | panic p s1 =>
      subst hr
      dsimp only at hr'; subst hr'
      exact ⟨_, eval_list.mpr ⟨_, h1, rfl⟩, rfl, rfl, fun _ _ => rfl⟩
    | ok n s1 =>
      rcases hr with ⟨hn, _⟩ | ⟨hn, r2, h2, hr⟩
      · exact absurd (eval_le h1) hn
      · cases r2 with
        | done n2 k s2 =>
          subst hr
          dsimp only at hr'; subst hr'
          exact ⟨_, eval_list.mpr ⟨_, h1, .inr ⟨hn, _, h2, rfl⟩⟩, rfl, two s2 k 1⟩
        | panic p s2 =>
          subst hr
          dsimp only at hr'; subst hr'
          exact ⟨_, eval_list.mpr ⟨_, h1, .inr ⟨hn, _, h2, rfl⟩⟩, rfl, rfl, fun _ _ => rfl⟩

/-- `INT % ','` on `INT ',' INT ',' IDENT` stops before the second comma. -/
example : ∃ s', Eval noEnv noCalls.sem (.list 0 (.tok INT) (.tok 44) false) (toks [INT, 44, INT, 44, IDENT]) st0 (.ok 3 s') :=
  ⟨_, 5, rfl⟩

/-! ## C30 -/

/-- A grammar is well-formed if nothing that can match empty is repeated and no rule
can get back to itself without consuming a token. -/
structure WellFormed (env : Env A) (g : Gr A) : Prop where
  /-- finitely many variables are assigned -/
  finite : ∃ N, ∀ v, N ≤ v → env v = none
  stars : (toPeg g).StarsOk (toRules env)
  ruleStars : ∀ v g', env v = some g' → (toPeg g').StarsOk (toRules env)
  noLeftRecursion : ∀ v, ¬ Relation.TransGen (LeftCalls (toRules env)) v v

theorem wf_of_finite {rules : Nat → Option (Peg Nat)} {N : Nat} (hN : ∀ v, N ≤ v → rules v = none)
    (hirr : ∀ v, ¬ Relation.TransGen (LeftCalls rules) v v) : WellFounded (LeftCalls rules) := by
  let R : Fin N → Fin N → Prop := fun a b => Relation.TransGen (LeftCalls rules) a.val b.val
  have : IsTrans (Fin N) R := ⟨fun a b c h1 h2 => h1.trans h2⟩
  have : Std.Irrefl R := ⟨fun a h => hirr a.val h⟩
  have hwf : WellFounded R := Finite.wellFounded_of_trans_of_irrefl R
  have hbig : ∀ v, N ≤ v → Acc (LeftCalls rules) v := by
    intro v hv
    refine ⟨_, fun q hq => ?_⟩
    obtain ⟨p, hp, _⟩ := hq
    rw [hN v hv] at hp
    cases hp
  have hsmall : ∀ a : Fin N, Acc (LeftCalls rules) a.val := by
    intro a
    induction a using hwf.induction with
    | h a ih =>
    refine ⟨_, fun q hq => ?_⟩
    by_cases hqN : q < N
    · exact ih ⟨q, hqN⟩ (.single hq)
    · exact hbig q (by omega)
  refine ⟨fun v => ?_⟩
  by_cases h : v < N
  · exact hsmall ⟨v, h⟩
  · exact hbig v (by omega)

/-- Matching a well-formed grammar comes to an end on every input, in every state,
provided its actions do. -/
theorem C30_terminates {g : Gr A} (hwf : WellFormed env g) (hr : Returns env sem) (src : List Token) (s : St σ) :
    ∃ r, Eval env sem g src s r := by
  obtain ⟨N, hN⟩ := hwf.finite
  have hw : WellFounded (LeftCalls (toRules env)) :=
    wf_of_finite (N := N) (fun v hv => by simp [toRules, hN v hv]) hwf.noLeftRecursion
  obtain ⟨o, ho⟩ := PegEval.total (rules := toRules env) (by
    intro v p hv
    cases he : env v with
    | none => simp [toRules, he] at hv
    | some g' =>
      simp only [toRules, he, Option.map_some, Option.some.injEq] at hv
      subst hv
      exact hwf.ruleStars v g' he) hw (toPeg g) hwf.stars (kinds src)
  obtain ⟨r, h, _⟩ := C23_complete hr ho s
  exact ⟨r, h⟩

/-- Well-formedness can be checked: `nul` over-approximates the variables that can
match empty, `rank` decreases along calls made before anything is consumed. -/
theorem wellFormed_of_check {g : Gr A} {N : Nat} {nul : Nat → Bool} {rank : Nat → Nat} (hN : ∀ v, N ≤ v → env v = none)
    (hg : (toPeg g).starsB nul = true)
    (hrules : ∀ v g', env v = some g' → ((toPeg g').nullB nul = true → nul v = true) ∧
      (toPeg g').leftB nul (fun q => rank q < rank v) = true ∧ (toPeg g').starsB nul = true) : WellFormed env g := by
  have hc : Checked (toRules env) nul rank := by
    intro v p hv
    cases he : env v with
    | none => simp [toRules, he] at hv
    | some g' =>
      simp only [toRules, he, Option.map_some, Option.some.injEq] at hv
      subst hv
      exact hrules v g' he
  refine ⟨⟨N, hN⟩, hc.stars hg, fun v g' he => hc.stars (hrules v g' he).2.2, ?_⟩
  have : ∀ {a b}, Relation.TransGen (LeftCalls (toRules env)) a b → rank a < rank b := by
    intro a b h
    induction h with
    | single h => exact hc.lower h
    | tail _ h ih => exact Nat.lt_trans ih (hc.lower h)
  exact fun v h => Nat.lt_irrefl _ (this h)

/-! The rules of the calculator: `factor = INT | '(' expr ')'`,
`expr = factor % '+'`. -/

def calcEnv : Env Nat
  | 0 => some (.or [.tok INT, .and [.tok 40, .var 1, .tok 41]])
  | 1 => some (.list 0 (.var 0) (.tok 43) false)
  | _ => none

/-- The calculator's rules are well-formed. -/
theorem calc_wellFormed : WellFormed calcEnv (.and [.var 1, .eof]) :=
  wellFormed_of_check (N := 2) (nul := fun _ => false) (rank := id)
    (by intro v hv; match v, hv with | v + 2, _ => rfl) (by decide +kernel)
    (by intro v g hv; match v, hv with | 0, h => cases h; decide +kernel | 1, h => cases h; decide +kernel)

example (src : List Token) : ∃ r, Eval calcEnv noCalls.sem (.and [.var 1, .eof]) src st0 r :=
  C30_terminates calc_wellFormed (returns_calls _ _) src st0

/-! ## C31 -/

/-- If `G` matches the empty prefix, `*G` does not come to an end there (unless a
callback panics). -/
theorem C31_star {id : Nat} {g : Gr A} {src : List Token} {s s1 s' : St σ} {r} (h0 : Eval env sem g src s (.ok 0 s1))
    (h : Eval env sem (.rep0 id g) src s' r) : ∃ p s'', r = .panic p s'' := by
  obtain ⟨f0, h0⟩ := h0
  obtain ⟨f, h⟩ := h
  have hp := peg_done f0 _ _ _ _ h0 nofun
  cases r with
  | panic p s'' => exact ⟨p, s'', rfl⟩
  | ok n s'' => exact absurd (peg_done f _ _ _ _ h nofun) (star_empty_diverges hp)
  | fail n e s'' => exact absurd (peg_done f _ _ _ _ h nofun) (star_empty_diverges hp)

theorem C31_star_diverges (hq : Quiet env sem) {id : Nat} {g : Gr A} {src : List Token} {s s1 : St σ}
    (h0 : Eval env sem g src s (.ok 0 s1)) (s' : St σ) (r) : ¬ Eval env sem (.rep0 id g) src s' r := by
  rintro ⟨f, h⟩
  obtain ⟨f0, h0⟩ := h0
  exact star_empty_diverges (peg_done f0 _ _ _ _ h0 nofun) (peg_sound hq f _ _ _ _ h)

/-- The same for `+G`. -/
theorem C31_plus_diverges (hq : Quiet env sem) {id : Nat} {g : Gr A} {src : List Token} {s s1 : St σ}
    (h0 : Eval env sem g src s (.ok 0 s1)) (s' : St σ) (r) : ¬ Eval env sem (.rep1 id g) src s' r := by
  rintro ⟨f, h⟩
  obtain ⟨f0, h0⟩ := h0
  have hp := peg_done f0 _ _ _ _ h0 nofun
  have h := peg_sound hq f _ _ _ _ h
  rw [toPeg] at h
  generalize hr : r.out = o at h
  have key : ∀ {n o}, PegEval (toRules env) (toPeg g) (kinds src) (.succ n) →
      ¬ PegEval (toRules env) (.star (toPeg g)) ((kinds src).drop n) o := by
    intro n o h1
    have := h1.unique hp
    cases this
    exact star_empty_diverges hp
  cases h with
  | seq h1 h2 => exact key h1 h2
  | seqFail2 h1 h2 => exact key h1 h2
  | seqAbort2 h1 h2 => exact key h1 h2
  | seqFail h1 => cases h1.unique hp
  | seqAbort h1 => cases h1.unique hp

/-- A variable that begins with itself does not come to an end. -/
theorem C31_left_recursion (hq : Quiet env sem) {v : Nat} (hv : Begins (toRules env) (.rule v) (.rule v))
    (src : List Token) (s : St σ) (r) : ¬ Eval env sem (.var v) src s r := by
  rintro ⟨f, h⟩
  exact hv.diverges (peg_sound hq f _ _ _ _ h)

/-- `*(?INT)` on anything. -/
example (src : List Token) (s : St Unit) (r) : ¬ Eval noEnv noCalls.sem (.rep0 0 (.rep01 1 (.tok INT))) (toks [IDENT]) s r :=
  C31_star_diverges (quiet_noCalls _) (s := st0) ⟨3, rfl⟩ s r

/-- `v = v '+' INT | INT`. -/
example (src : List Token) (s : St Unit) (r) :
    ¬ Eval (fun _ => some (.or [.and [.var 0, .tok 43, .tok INT], .tok INT])) noCalls.sem (.var 0) src s r :=
  C31_left_recursion (quiet_noCalls _) (.trans (.rule rfl) (.trans .alt .seq)) src s r

/-! ## C32 -/

/-- An action is called in the very state its grammar left behind, with the tokens
matched. -/
theorem C32_action_state {a : A} {g : Gr A} {src : List Token} {s s1 : St σ} {n r} (h : Eval env sem g src s (.ok n s1))
    (hr : Eval env sem (.action a g) src s r) :
    ∃ f c, sem.act f (matchG env sem f) a g (src.take n) s1 = some c ∧ r = (match c with
      | .ok _ s => .ok n s
      | .panic p s => .panic p s) := by
  rw [eval_action] at hr
  obtain ⟨r1, h1, hr⟩ := hr
  have := h1.unique h
  subst this
  rcases hr with ⟨hn, _⟩ | ⟨_, c, ⟨f, hc⟩, hr⟩
  · exact absurd (eval_le h) hn
  · exact ⟨f, c, hc, hr⟩

/-- After `*G` matched, its `Len` is the number of items just matched. -/
theorem C32_star {id : Nat} {g : Gr A} {src : List Token} {s s' : St σ} {n} (h : Eval env sem (.rep0 id g) src s (.ok n s')) :
    ∃ k s1 nf ef s2, Items (Eval env sem) g src s k n s1 ∧ Eval env sem g (src.drop n) s1 (.fail nf ef s2) ∧
      (Gr.rep0 id g).len s'.len = k := by
  obtain ⟨k, s1, nf, ef, s2, hi, hf, rfl⟩ := C28_star.mp h
  exact ⟨k, s1, nf, ef, s2, hi, hf, by simp [Gr.len, St.setLen]⟩

/-- The same for `+G`; there is at least one. -/
theorem C32_plus {id : Nat} {g : Gr A} {src : List Token} {s s' : St σ} {n} (h : Eval env sem (.rep1 id g) src s (.ok n s')) :
    ∃ k s1 nf ef s2, k ≥ 1 ∧ Items (Eval env sem) g src s k n s1 ∧ Eval env sem g (src.drop n) s1 (.fail nf ef s2) ∧
      (Gr.rep1 id g).len s'.len = k := by
  rw [eval_rep1] at h
  obtain ⟨r1, h1, hr⟩ := h
  cases r1 with
  | fail => cases hr
  | panic => cases hr
  | ok n1 s1 =>
    rcases hr with ⟨hn, _⟩ | ⟨_, r2, h2, hr⟩
    · exact absurd (eval_le h1) hn
    · obtain ⟨k, m, s2, hi, _, hd⟩ := rep_items h2
      cases r2 with
      | panic => cases hr
      | done n2 k2 s3 =>
        obtain ⟨rfl, rfl, nf, ef, hf⟩ := hd
        cases hr
        simp only [Nat.zero_add]
        rw [List.drop_drop] at hf
        exact ⟨k + 1, s2, nf, ef, s3, by omega, .cons h1 hi, hf, by simp [Gr.len, St.setLen]⟩

/-- After `?G` matched, its `Len` is 1 if `G` matched and 0 if it did not. -/
theorem C32_opt {id : Nat} {g : Gr A} {src : List Token} {s s' : St σ} {n} (h : Eval env sem (.rep01 id g) src s (.ok n s')) :
    (∃ s1, Eval env sem g src s (.ok n s1) ∧ (Gr.rep01 id g).len s'.len = 1) ∨
    (n = 0 ∧ ∃ nf ef s1, Eval env sem g src s (.fail nf ef s1) ∧ (Gr.rep01 id g).len s'.len = 0) := by
  rw [eval_rep01] at h
  obtain ⟨r1, h1, hr⟩ := h
  cases r1 with
  | ok n1 s1 => cases hr; exact .inl ⟨s1, h1, by simp [Gr.len, St.setLen]⟩
  | fail n1 e1 s1 => cases hr; exact .inr ⟨rfl, n1, e1, s1, h1, by simp [Gr.len, St.setLen]⟩
  | panic => cases hr

/-- After a list matched, its `Len` is the number of elements: the first and one
after each separator.  Only `%=` can have none. -/
theorem C32_list {id : Nat} {a b : Gr A} {l0 : Bool} {src : List Token} {s s' : St σ} {n}
    (h : Eval env sem (.list id a b l0) src s (.ok n s')) :
    (∃ n1 s1 k n2 s2 nf ef s3, Eval env sem a src s (.ok n1 s1) ∧
      Items (Eval env sem) (.and [b, a]) (src.drop n1) s1 k n2 s2 ∧ n = n1 + n2 ∧
      Eval env sem (.and [b, a]) (src.drop n) s2 (.fail nf ef s3) ∧ (Gr.list id a b l0).len s'.len = k + 1) ∨
    (l0 = true ∧ n = 0 ∧ ∃ nf ef s1, Eval env sem a src s (.fail nf ef s1) ∧ (Gr.list id a b l0).len s'.len = 0) := by
  rw [eval_list] at h
  obtain ⟨r1, h1, hr⟩ := h
  cases r1 with
  | fail n1 e1 s1 =>
    cases l0 with
    | false => cases hr
    | true => cases hr; exact .inr ⟨rfl, rfl, n1, e1, s1, h1, by simp [Gr.len, St.setLen]⟩
  | panic => cases hr
  | ok n1 s1 =>
    rcases hr with ⟨hn, _⟩ | ⟨_, r2, h2, hr⟩
    · exact absurd (eval_le h1) hn
    · obtain ⟨k, m, s2, hi, _, hd⟩ := rep_items h2
      cases r2 with
      | panic => cases hr
      | done n2 k2 s3 =>
        obtain ⟨rfl, rfl, nf, ef, hf⟩ := hd
        cases hr
        rw [List.drop_drop] at hf
        exact .inl ⟨n1, s1, k, m, s2, nf, ef, s3, h1, hi, rfl, hf, by simp [Gr.len, St.setLen]; omega⟩

/-- A list object matched inside itself: `v = (INT | '(' v ')') % ','` on
`( INT , INT , INT ) , INT`: three items inside, two outside. -/
example : ∃ s', Eval (fun _ => some (.list 0 (.or [.tok INT, .and [.tok 40, .var 0, .tok 41]]) (.tok 44) false)) noCalls.sem
    (.list 0 (.or [.tok INT, .and [.tok 40, .var 0, .tok 41]]) (.tok 44) false)
    (toks [40, INT, 44, INT, 44, INT, 41, 44, INT]) st0 (.ok 9 s') ∧ s'.len 0 = 2 := ⟨_, ⟨10, rfl⟩, rfl⟩

/-! ## C33 -/

/-- Once the parts before and after a marker `!` have matched, failure of a later
part panics with a `MatchError` of the sequence. -/
theorem C33_cut {pre mid post : List (Gr A)} {g : Gr A} {src : List Token} {s s1 s2 : St σ} {n n1 e1} (hg : g ≠ .nil)
    (hpre : Parts (Eval env sem) (pre ++ .nil :: mid) src s n s1)
    (hf : Eval env sem g (src.drop n) s1 (.fail n1 e1 s2)) :
    Eval env sem (.and (pre ++ .nil :: mid ++ g :: post)) src s
      (.panic (.err (.mismatch (.and (pre ++ .nil :: mid ++ g :: post)) src (some e1) (n + n1))) s2) := by
  refine eval_and.mpr (parts_and hpre _ src 0 false _ _ rfl (Nat.zero_le _) ?_)
  rw [Nat.zero_add]
  have : (false || (pre ++ .nil :: mid).any isNil) = true := by simp [isNil]
  rw [this]
  exact .cut hg (parts_le hpre) hf

/-- No grammar around it catches a panic: whatever is being matched when it happens
ends with the same panic at once, in the same state. -/
theorem C33_uncatchable {g g' : Gr A} {src src' : List Token} {s s' s'' : St σ} {p}
    (hr : Reach env sem g src s g' src' s') (hp : Eval env sem g' src' s' (.panic p s'')) {r}
    (h : Eval env sem g src s r) : r = .panic p s'' :=
  h.unique (reach_panic hr hp)

/-- Conversely a sequence without a marker before the failing part just fails. -/
theorem C33_no_cut {pre post : List (Gr A)} {g : Gr A} {src : List Token} {s s1 s2 : St σ} {n n1 e1} (hg : g ≠ .nil)
    (hpre : Parts (Eval env sem) pre src s n s1) (hno : ∀ x ∈ pre, x ≠ .nil)
    (hf : Eval env sem g (src.drop n) s1 (.fail n1 e1 s2)) :
    Eval env sem (.and (pre ++ g :: post)) src s (.fail (n + n1) e1 s2) := by
  refine eval_and.mpr (parts_and hpre _ src 0 false _ _ rfl (Nat.zero_le _) ?_)
  rw [Nat.zero_add]
  have : (false || pre.any isNil) = false := by
    simp only [Bool.false_or, List.any_eq_false]
    intro x hx
    rw [isNil_false (hno x hx)]; nofun
  rw [this]
  exact .fail hg (parts_le hpre) hf

/-- `*(INT ! IDENT) | ~INT` on `INT INT`: neither the repetition nor the choice gets
anywhere. -/
example {r} (h : Eval noEnv noCalls.sem (.or [.rep0 0 (.and [.tok INT, .nil, .tok IDENT]), .not (.tok INT)]) (toks [INT, INT]) st0 r) :
    ∃ e, r = .panic (.err e) st0 := by
  have h1 : Eval noEnv noCalls.sem (.tok INT) (toks [INT, INT]) st0 (.ok 1 st0) := ⟨1, rfl⟩
  have h2 : ∃ e, Eval noEnv noCalls.sem (.tok IDENT) ((toks [INT, INT]).drop 1) st0 (.fail 0 e st0) := ⟨_, 1, rfl⟩
  obtain ⟨e, h2⟩ := h2
  have hc := C33_cut (pre := [.tok INT]) (mid := []) (post := []) (by intro h; cases h)
    (.cons (by intro h; cases h) h1 (.mark .nil)) h2
  exact ⟨_, C33_uncatchable (.or (pre := []) .nil (.rep0 .nil .here)) hc h⟩

/-! ## C34 -/

/-- Callbacks that keep a log. -/
def logger : Calls A (List (Ev A)) Unit Empty where
  act a g toks l u := .ok (u ++ [.act a g toks l])
  start t u := .ok ((), u ++ [.opens t])
  finish t _ failed u := .ok (u ++ [.closes t failed])

theorem logger_run (e : List (Ev A)) : Balanced e → ∀ u vs, logger.run e (u, vs) = .ok (u ++ e, vs) := by
  intro h
  induction h with
  | nil => intro u vs; simp [Calls.run]
  | act _ ih =>
    intro u vs
    simp only [Calls.run, Calls.step, logger]
    rw [← logger, ih]
    simp
  | @pair t failed e e' _ _ ih1 ih2 =>
    intro u vs
    rw [List.cons_append, run_opens]
    simp only [logger]
    rw [← logger, run_append, ih1]
    simp only [Calls.run, Calls.step, logger]
    rw [← logger, ih2]
    simp

/-- The callbacks invoked by a match, in order, with what they are given, are those
`Tr` prescribes: an action right after its grammar matched, with the tokens matched
and the item count; abandoned alternatives included. -/
theorem C34_log {g : Gr A} {src : List Token} {s : St (List (Ev A))} :
    (∀ n s', Eval env logger.sem g src s (.ok n s') → ∃ e, Tr env (.one g) src (.succ n (g.len s'.len)) e ∧ s'.u = s.u ++ e) ∧
    (∀ n er s', Eval env logger.sem g src s (.fail n er s') → ∃ e, Tr env (.one g) src (.fail n) e ∧ s'.u = s.u ++ e) ∧
    (∀ n l e, Tr env (.one g) src (.succ n l) e → ∃ s', Eval env logger.sem g src s (.ok n s') ∧ s'.u = s.u ++ e) ∧
    (∀ n e, Tr env (.one g) src (.fail n) e → ∃ er s', Eval env logger.sem g src s (.fail n er s') ∧ s'.u = s.u ++ e) := by
  refine ⟨?_, ?_, ?_, ?_⟩
  · rintro n s' ⟨f, h⟩
    obtain ⟨o, e, ht, hf⟩ := sound_matchG f g src s _ h
    obtain ⟨rfl, hw⟩ := hf []
    rw [logger_run e (tr_nested ht)] at hw
    injection hw with hw
    injection hw with hw _
    exact ⟨e, ht, hw.symm⟩
  · rintro n er s' ⟨f, h⟩
    obtain ⟨o, e, ht, hf⟩ := sound_matchG f g src s _ h
    obtain ⟨rfl, hw⟩ := hf []
    rw [logger_run e (tr_nested ht)] at hw
    injection hw with hw
    injection hw with hw _
    exact ⟨e, ht, hw.symm⟩
  · intro n l e ht
    obtain ⟨r, h, hf⟩ := realise (c := logger) ht s [] stops_succ
    rcases cfit_succ hf with ⟨p, _⟩ | ⟨s', rfl, _, hw⟩
    · exact p.elim
    · rw [logger_run e (tr_nested ht)] at hw
      injection hw with hw
      injection hw with hw _
      exact ⟨s', h, hw.symm⟩
  · intro n e ht
    obtain ⟨r, h, hf⟩ := realise (c := logger) ht s [] stops_fail
    rcases cfit_fail hf with ⟨p, _⟩ | ⟨er, s', rfl, hw⟩
    · exact p.elim
    · rw [logger_run e (tr_nested ht)] at hw
      injection hw with hw
      injection hw with hw _
      exact ⟨er, s', h, hw.symm⟩

/-- For callbacks that work on a state of their own: the effect of a match is the
effect of the invocations of its trace, one after the other.  (A callback that panics
is the last one invoked.) -/
theorem C34_effect {c : Calls A σ V P} {g : Gr A} {src : List Token} {s : St σ} {r} (h : Eval env c.sem g src s r) :
    ∃ o e, Tr env (.one g) src o e ∧ (match r with
      | .ok n s' => o = .succ n (g.len s'.len) ∧ ∀ vs, c.run e (s.u, vs) = .ok (s'.u, vs)
      | .fail n _ s' => o = .fail n ∧ ∀ vs, c.run e (s.u, vs) = .ok (s'.u, vs)
      | .panic (.user p) s' => o = .abort true ∧ ∀ vs, c.run e (s.u, vs) = .error (p, s'.u)
      | .panic _ s' => o = .abort false ∧ ∀ vs, ∃ vs', c.run e (s.u, vs) = .ok (s'.u, vs' ++ vs)) := by
  obtain ⟨f, h⟩ := h
  obtain ⟨o, e, ht, hf⟩ := sound_matchG f g src s _ h
  refine ⟨o, e, ht, ?_⟩
  cases r with
  | ok n s' => exact ⟨(hf []).1, fun vs => (hf vs).2⟩
  | fail n er s' => exact ⟨(hf []).1, fun vs => (hf vs).2⟩
  | panic p s' =>
    have user : ∀ q, p = .user q → o = .abort true ∧ ∀ vs, c.run e (s.u, vs) = .error (q, s'.u) := by
      rintro q rfl
      have : ∀ vs, o = .abort true ∧ c.run e (s.u, vs) = .error (q, s'.u) := by
        intro vs
        rcases hf vs with ⟨h1, q', hq, hw⟩ | ⟨_, hn, _⟩
        · cases hq; exact ⟨h1, hw⟩
        · exact absurd rfl (hn q)
      exact ⟨(this []).1, fun vs => (this vs).2⟩
    have other : p.NotUser → o = .abort false ∧ ∀ vs, ∃ vs', c.run e (s.u, vs) = .ok (s'.u, vs' ++ vs) := by
      intro hn
      have : ∀ vs, o = .abort false ∧ ∃ vs', c.run e (s.u, vs) = .ok (s'.u, vs' ++ vs) := by
        intro vs
        rcases hf vs with ⟨_, q', hq, _⟩ | ⟨h1, _, hw⟩
        · exact absurd hq (hn q')
        · exact ⟨h1, hw⟩
      exact ⟨(this []).1, fun vs => (this vs).2⟩
    cases p with
    | user q => exact user q rfl
    | err e => exact other nofun
    | nilDeref => exact other nofun
    | slice => exact other nofun

/-- Every action gets a run of consecutive input tokens. -/
theorem C34_tokens {g : Gr A} {src : List Token} {o e} (h : Tr env (.one g) src o e) {a : A} {g' toks l}
    (hm : Ev.act a g' toks l ∈ e) : ∃ i n, i + n ≤ src.length ∧ toks = (src.drop i).take n :=
  tr_tokens h a g' toks l hm

/-- `(INT/1 ',' | INT/2 IDENT)/3` on `INT IDENT`: the action of the abandoned
alternative runs first, the outer one last. -/
example : ∃ e l, Tr noEnv (.one (.action 3 (.or [.and [.action 1 (.tok INT), .tok 44], .and [.action 2 (.tok INT), .tok IDENT]])))
    (toks [INT, IDENT]) (.succ 2 l) e ∧ e.map (fun | .act a _ ts _ => (a, ts.length) | _ => (0, 0)) = [(1, 1), (2, 1), (3, 2)] := by
  have h : ∃ s', Eval noEnv logger.sem
      (.action 3 (.or [.and [.action 1 (.tok INT), .tok 44], .and [.action 2 (.tok INT), .tok IDENT]]))
      (toks [INT, IDENT]) ⟨fun _ => 0, []⟩ (.ok 2 s') ∧
      s'.u.map (fun | .act a _ ts _ => (a, ts.length) | _ => (0, 0)) = [(1, 1), (2, 1), (3, 2)] := ⟨_, ⟨6, rfl⟩, rfl⟩
  obtain ⟨s', h, hl⟩ := h
  obtain ⟨e, ht, he⟩ := C34_log.1 2 _ h
  refine ⟨e, _, ht, ?_⟩
  rw [List.nil_append] at he
  rw [← he]
  exact hl

/-! ## C35 -/

/-- Begin and end callbacks of a match that returns pair up like brackets; one that
panics leaves a chain of open transactions.  (The invocation that panicked, if a
callback did, is the last; it may be the end of the innermost open transaction.) -/
theorem C35_balanced {g : Gr A} {src : List Token} {e} :
    (∀ n l, Tr env (.one g) src (.succ n l) e → Balanced e) ∧
    (∀ n, Tr env (.one g) src (.fail n) e → Balanced e) ∧
    (Tr env (.one g) src (.abort false) e → ∃ ts, Unclosed e ts) ∧
    (Tr env (.one g) src (.abort true) e → ∃ e' x ts, e = e' ++ [x] ∧ Unclosed e' ts ∧
      ∀ t f, x = .closes t f → ts.getLast? = some t) :=
  ⟨fun _ _ h => tr_nested h, fun _ h => tr_nested h, fun h => tr_nested h, fun h => tr_nested h⟩

/-- A transaction around `G`: begin before anything of `G`, end after everything, with
the value the begin returned, and with an error iff `G` failed. -/
theorem C35_begin_end {t : A} {g : Gr A} {src : List Token} {s s1 : St σ} {v r r1}
    (hs : sem.start t s = .ok v s1) (hg : Eval env sem g src s1 r1) (h : Eval env sem (.trans t g) src s r) :
    (∀ n s2, r1 = .ok n s2 → ∀ s3, sem.finish t v none s2 = .ok () s3 → r = .ok n s3) ∧
    (∀ n e s2, r1 = .fail n e s2 → ∀ s3, sem.finish t v (some e) s2 = .ok () s3 → r = .fail n e s3) ∧
    (∀ p s2, r1 = .panic p s2 → r = .panic p s2) := by
  rw [eval_trans, hs] at h
  obtain ⟨r1', h1, hr⟩ := h
  have := h1.unique hg
  subst this
  refine ⟨?_, ?_, ?_⟩
  · rintro n s2 rfl s3 hf
    dsimp only at hr; rw [hf] at hr; exact hr
  · rintro n e s2 rfl s3 hf
    dsimp only at hr; rw [hf] at hr; exact hr
  · rintro p s2 rfl; exact hr

/-- `[INT [',']] `: the inner transaction fails, the outer one too. -/
example : ∃ er s', Eval noEnv logger.sem (.trans 1 (.and [.tok INT, .trans 2 (.tok 44)])) (toks [INT, INT]) ⟨fun _ => 0, []⟩ (.fail 1 er s') ∧
    s'.u = [.opens 1, .opens 2, .closes 2 true, .closes 1 true] := ⟨_, _, ⟨5, rfl⟩, rfl⟩
/-- A fail-fast abort leaves both open. -/
example : ∃ p s', Eval noEnv logger.sem (.trans 1 (.and [.tok INT, .trans 2 (.and [.nil, .tok 44])])) (toks [INT, INT]) ⟨fun _ => 0, []⟩ (.panic p s') ∧
    s'.u = [.opens 1, .opens 2] := ⟨_, _, ⟨5, rfl⟩, rfl⟩

/-! ## C36 -/

/-- A history of `Assign` calls on a variable: the results (`true`: nil error) and
what it is assigned to in the end. -/
def assigns (elem : Option (Gr A)) : List (Gr A) → List Bool × Option (Gr A)
  | [] => ([], elem)
  | g :: gs => ((GrVar.assign elem g).2 :: (assigns (GrVar.assign elem g).1 gs).1, (assigns (GrVar.assign elem g).1 gs).2)

/-- Exactly the first `Assign` succeeds, and it is the one that counts.  (The nil
grammar is not an assignment.) -/
theorem C36_assign_once (g : Gr A) (hg : g ≠ .nil) (gs : List (Gr A)) :
    assigns none (g :: gs) = (true :: gs.map (fun _ => false), some g) := by
  have later : ∀ gs : List (Gr A), assigns (some g) gs = (gs.map (fun _ => false), some g) := by
    intro gs
    induction gs with
    | nil => rfl
    | cons g' gs ih => simp only [assigns, GrVar.assign, ih, List.map_cons]
  have first : GrVar.assign none g = (some g, true) := by
    cases g <;> first | exact absurd rfl hg | rfl
  rw [assigns, first, later]

/-- Matching a variable never assigned fails with `ErrVarNotAssigned` and nothing
else; an assigned one behaves as what it is assigned to. -/
theorem C36_match {v : Nat} {src : List Token} {s : St σ} {r} :
    (env v = none → (Eval env sem (.var v) src s r ↔ r = .fail 0 .varNotAssigned s)) ∧
    (∀ g, env v = some g → (Eval env sem (.var v) src s r ↔ Eval env sem g src s r)) := by
  constructor
  · intro hv; rw [eval_var, hv]
  · intro g hv; rw [eval_var, hv]

example : assigns (A := Nat) none [.tok INT, .tok IDENT, .tru] = ([true, false, false], some (.tok INT)) := rfl

end Tpl.Props
