import Verif.Proof.MatchBound

/-!
Rules to compute what matching does, for callbacks that look at nothing but their
arguments and the user state: `Does g toks rest u o` says that `g` applied to
`toks ++ rest` matches exactly `toks` and takes the user state from `u` to `o`, or
panics, with a panic that is in relation `R` to what `o` says; `Rejects g src` says that
`g` fails without calling anything.
-/
namespace Tpl
variable {A σ V P E : Type}

/-- The callback returns what `o` says. -/
def Acts (R : Panic A P → E → Prop) (c : Option (Cb A σ P Unit)) (s : St σ) : Except E σ → Prop
  | .ok u => c = some (.ok () { s with u := u })
  | .error e => ∃ q s', c = some (.panic q s') ∧ R q e

/-- The callbacks of `sem` are `act`. -/
structure Plain (sem : Sem A σ V P) (R : Panic A P → E → Prop) (act : A → List Token → Int → σ → Except E σ) : Prop where
  act : ∀ f m a g toks s, Acts R (sem.act f m a g toks s) s (act a toks (g.len s.len) s.u)

/-- Panics of the user's callbacks. -/
def UserP (q : Panic A P) (e : P) : Prop := q = .user e

section
variable (env : Env A) (sem : Sem A σ V P) (R : Panic A P → E → Prop)

/-- With the length of `g` afterwards. -/
def DoesL (g : Gr A) (toks rest : List Token) (u : σ) (l : Int) (o : Except E σ) : Prop :=
  ∀ s : St σ, s.u = u → match o with
    | .ok u' => ∃ s', Eval env sem g (toks ++ rest) s (.ok toks.length s') ∧ s'.u = u' ∧ g.len s'.len = l
    | .error e => ∃ q s', Eval env sem g (toks ++ rest) s (.panic q s') ∧ R q e

def Does (g : Gr A) (toks rest : List Token) (u : σ) (o : Except E σ) : Prop :=
  ∀ s : St σ, s.u = u → match o with
    | .ok u' => ∃ s', Eval env sem g (toks ++ rest) s (.ok toks.length s') ∧ s'.u = u'
    | .error e => ∃ q s', Eval env sem g (toks ++ rest) s (.panic q s') ∧ R q e

def Rejects (g : Gr A) (src : List Token) : Prop :=
  ∀ s : St σ, ∃ n e s', Eval env sem g src s (.fail n e s') ∧ s'.u = s.u

/-- The parts of a sequence, one after the other. -/
def DoesAll (gs : List (Gr A)) (toks rest : List Token) (u : σ) (o : Except E σ) : Prop :=
  ∀ (all : Gr A) (before : List Token) (s : St σ), s.u = u → match o with
    | .ok u' => ∃ s', AndRun (Eval env sem) all (before ++ (toks ++ rest)) gs false before.length s
        (.ok (before.length + toks.length) s') ∧ s'.u = u'
    | .error e => ∃ q s', AndRun (Eval env sem) all (before ++ (toks ++ rest)) gs false before.length s (.panic q s') ∧ R q e

/-- `k` repetitions, and then a failure. -/
def DoesRep (g : Gr A) (toks rest : List Token) (u : σ) (k : Nat) (o : Except E σ) : Prop :=
  ∀ (n0 k0 : Nat) (s : St σ), s.u = u → match o with
    | .ok u' => ∃ s', RepRun (Eval env sem) g (toks ++ rest) n0 k0 s (.done (n0 + toks.length) (k0 + k) s') ∧ s'.u = u'
    | .error e => ∃ q s', RepRun (Eval env sem) g (toks ++ rest) n0 k0 s (.panic q s') ∧ R q e
end

variable {env : Env A} {sem : Sem A σ V P} {R : Panic A P → E → Prop} {act : A → List Token → Int → σ → Except E σ}

theorem DoesL.does {g : Gr A} {toks rest u l} {o : Except E σ} (h : DoesL env sem R g toks rest u l o) :
    Does env sem R g toks rest u o := by
  intro s hs
  have := h s hs
  cases o with
  | ok u' => obtain ⟨s', h1, h2, _⟩ := this; exact ⟨s', h1, h2⟩
  | error p => exact this

theorem does_tok {k : Nat} {t : Token} {rest u} (h : TokFits k t) : Does env sem R (.tok k) [t] rest u (.ok u) := by
  intro s hs
  exact ⟨s, eval_tok_cons.mpr (by rw [if_pos h]; rfl), hs⟩

theorem doesL_tok {k : Nat} {t : Token} {rest u} (h : TokFits k t) : DoesL env sem R (.tok k) [t] rest u (-1) (.ok u) := by
  intro s hs
  exact ⟨s, eval_tok_cons.mpr (by rw [if_pos h]; rfl), hs, rfl⟩

theorem does_tru {rest u} : Does env sem R .tru [] rest u (.ok u) := by
  intro s hs
  exact ⟨s, eval_tru.mpr rfl, hs⟩

theorem does_eof {u} : Does env sem R .eof [] [] u (.ok u) := by
  intro s hs
  exact ⟨s, eval_eof.mpr rfl, hs⟩

theorem does_var {v : Nat} {g : Gr A} {toks rest u} {o : Except E σ} (hv : env v = some g)
    (h : Does env sem R g toks rest u o) : Does env sem R (.var v) toks rest u o := by
  intro s hs
  have := h s hs
  cases o with
  | ok u' => obtain ⟨s', h1, h2⟩ := this; exact ⟨s', eval_var.mpr (by rw [hv]; exact h1), h2⟩
  | error p => obtain ⟨q, s', h1, hR⟩ := this; exact ⟨q, s', eval_var.mpr (by rw [hv]; exact h1), hR⟩

theorem does_named {nm : Str} {g : Gr A} {toks rest u} {o : Except E σ}
    (h : Does env sem R g toks rest u o) : Does env sem R (.named nm g) toks rest u o := by
  intro s hs
  have := h s hs
  cases o with
  | ok u' => obtain ⟨s', h1, h2⟩ := this; exact ⟨s', eval_named.mpr h1, h2⟩
  | error p => obtain ⟨q, s', h1, hR⟩ := this; exact ⟨q, s', eval_named.mpr h1, hR⟩

/-! ### Sequences -/

theorem doesAll_nil {rest u} : DoesAll env sem R [] [] rest u (.ok u) := by
  intro all before s hs
  exact ⟨s, .nil, hs⟩

theorem doesAll_cons {g : Gr A} {gs : List (Gr A)} {t1 t2 rest u} {o1 : Except E σ} {o2 : σ → Except E σ} (hg : g ≠ .nil)
    (h1 : Does env sem R g t1 (t2 ++ rest) u o1) (h2 : ∀ u1, o1 = .ok u1 → DoesAll env sem R gs t2 rest u1 (o2 u1)) :
    DoesAll env sem R (g :: gs) (t1 ++ t2) rest u (o1.bind o2) := by
  intro all before s hs
  have hd : (before ++ (t1 ++ t2 ++ rest)).drop before.length = t1 ++ (t2 ++ rest) := by simp
  have hn : before.length ≤ (before ++ (t1 ++ t2 ++ rest)).length := by simp
  have h1 := h1 s hs
  cases o1 with
  | error p =>
    obtain ⟨q, s', h1, hR⟩ := h1
    exact ⟨q, s', .panic hg hn (by rw [hd]; exact h1), hR⟩
  | ok u1 =>
    obtain ⟨s1, h1, hs1⟩ := h1
    have h2 := h2 u1 rfl all (before ++ t1) s1 hs1
    simp only [Except.bind]
    have he : before ++ t1 ++ (t2 ++ rest) = before ++ (t1 ++ t2 ++ rest) := by simp
    rw [he] at h2
    cases ho : o2 u1 with
    | error p =>
      rw [ho] at h2
      obtain ⟨q, s', h2, hR⟩ := h2
      refine ⟨q, s', .ok hg hn (by rw [hd]; exact h1) ?_, hR⟩
      rw [List.length_append] at h2
      exact h2
    | ok u2 =>
      rw [ho] at h2
      obtain ⟨s', h2, hs'⟩ := h2
      refine ⟨s', .ok hg hn (by rw [hd]; exact h1) ?_, hs'⟩
      rw [List.length_append] at h2
      rw [List.length_append, ← Nat.add_assoc]
      exact h2

/-- The last part. -/
theorem doesAll_one {g : Gr A} {toks rest u} {o : Except E σ} (hg : g ≠ .nil)
    (h : Does env sem R g toks rest u o) : DoesAll env sem R [g] toks rest u o := by
  have := doesAll_cons (gs := []) (t2 := []) (o2 := .ok) hg h (fun u1 _ => doesAll_nil)
  rw [List.append_nil] at this
  cases o <;> exact this

/-- A token that is not looked at. -/
theorem doesAll_tok {k : Nat} {gs : List (Gr A)} {t : Token} {toks rest u} {o : Except E σ} (h : TokFits k t)
    (h2 : DoesAll env sem R gs toks rest u o) : DoesAll env sem R (.tok k :: gs) (t :: toks) rest u o :=
  doesAll_cons (t1 := [t]) (o1 := .ok u) (o2 := fun _ => o) (by intro h; cases h) (does_tok h) (fun u1 e => by cases e; exact h2)

theorem does_and {gs : List (Gr A)} {toks rest u} {o : Except E σ} (h : DoesAll env sem R gs toks rest u o) :
    Does env sem R (.and gs) toks rest u o := by
  intro s hs
  have := h (.and gs) [] s hs
  cases o with
  | ok u' => obtain ⟨s', h1, h2⟩ := this; exact ⟨s', eval_and.mpr (by simpa using h1), h2⟩
  | error p => obtain ⟨q, s', h1, hR⟩ := this; exact ⟨q, s', eval_and.mpr (by simpa using h1), hR⟩

/-! ### Alternatives -/

theorem does_or {pre post : List (Gr A)} {g : Gr A} {toks rest u} {o : Except E σ}
    (hpre : ∀ g' ∈ pre, Rejects env sem g' (toks ++ rest)) (h : Does env sem R g toks rest u o) :
    Does env sem R (.or (pre ++ g :: post)) toks rest u o := by
  intro s hs
  have key : ∀ (all : Gr A) (pre : List (Gr A)), (∀ g' ∈ pre, Rejects env sem g' (toks ++ rest)) →
      ∀ nMax errMax multi (s : St σ), s.u = u → match o with
      | .ok u' => ∃ s', OrRun (Eval env sem) all (toks ++ rest) (pre ++ g :: post) nMax errMax multi s (.ok toks.length s') ∧ s'.u = u'
      | .error e => ∃ q s', OrRun (Eval env sem) all (toks ++ rest) (pre ++ g :: post) nMax errMax multi s (.panic q s') ∧ R q e := by
    intro all pre
    induction pre with
    | nil =>
      intro _ nMax errMax multi s hs
      have := h s hs
      cases o with
      | ok u' => obtain ⟨s', h1, h2⟩ := this; exact ⟨s', .ok h1, h2⟩
      | error p => obtain ⟨q, s', h1, hR⟩ := this; exact ⟨q, s', .panic h1, hR⟩
    | cons g' pre ih =>
      intro hp nMax errMax multi s hs
      obtain ⟨n, e, s1, h1, hs1⟩ := hp g' (.head _) s
      have hs1 := hs1.trans hs
      have hp' := fun g'' hg'' => hp g'' (.tail _ hg'')
      rcases Nat.lt_trichotomy n nMax with hlt | heq | hgt
      · have := ih hp' nMax errMax multi s1 hs1
        cases o with
        | ok u' => obtain ⟨s', h2, h3⟩ := this; exact ⟨s', .less h1 hlt h2, h3⟩
        | error p => obtain ⟨q, s', h2, hR⟩ := this; exact ⟨q, s', .less h1 hlt h2, hR⟩
      · subst heq
        have := ih hp' n errMax true s1 hs1
        cases o with
        | ok u' => obtain ⟨s', h2, h3⟩ := this; exact ⟨s', .same h1 h2, h3⟩
        | error p => obtain ⟨q, s', h2, hR⟩ := this; exact ⟨q, s', .same h1 h2, hR⟩
      · have := ih hp' n (some e) false s1 hs1
        cases o with
        | ok u' => obtain ⟨s', h2, h3⟩ := this; exact ⟨s', .more h1 hgt h2, h3⟩
        | error p => obtain ⟨q, s', h2, hR⟩ := this; exact ⟨q, s', .more h1 hgt h2, hR⟩
  have := key (.or (pre ++ g :: post)) pre hpre 0 none true s hs
  cases o with
  | ok u' => obtain ⟨s', h1, h2⟩ := this; exact ⟨s', eval_or.mpr h1, h2⟩
  | error p => obtain ⟨q, s', h1, hR⟩ := this; exact ⟨q, s', eval_or.mpr h1, hR⟩

/-! ### Repetitions -/

theorem doesRep_stop {g : Gr A} {rest u} (h : Rejects env sem g rest) : DoesRep env sem R g [] rest u 0 (.ok u) := by
  intro n0 k0 s hs
  obtain ⟨n, e, s', h1, h2⟩ := h s
  exact ⟨s', .stop h1, h2.trans hs⟩

theorem doesRep_more {g : Gr A} {t1 t2 rest u k} {o1 : Except E σ} {o2 : σ → Except E σ}
    (h1 : Does env sem R g t1 (t2 ++ rest) u o1) (h2 : ∀ u1, o1 = .ok u1 → DoesRep env sem R g t2 rest u1 k (o2 u1)) :
    DoesRep env sem R g (t1 ++ t2) rest u (k + 1) (o1.bind o2) := by
  intro n0 k0 s hs
  have h1 := h1 s hs
  have ha : t1 ++ t2 ++ rest = t1 ++ (t2 ++ rest) := by simp
  rw [ha]
  cases o1 with
  | error p => obtain ⟨q, s', h1, hR⟩ := h1; exact ⟨q, s', .panic h1, hR⟩
  | ok u1 =>
    obtain ⟨s1, h1, hs1⟩ := h1
    have h2 := h2 u1 rfl (n0 + t1.length) (k0 + 1) s1 hs1
    have hn : t1.length ≤ (t1 ++ (t2 ++ rest)).length := by simp
    have hd : (t1 ++ (t2 ++ rest)).drop t1.length = t2 ++ rest := by simp
    simp only [Except.bind]
    cases ho : o2 u1 with
    | error p =>
      rw [ho] at h2
      obtain ⟨q, s', h2, hR⟩ := h2
      exact ⟨q, s', .more h1 hn (by rw [hd]; exact h2), hR⟩
    | ok u2 =>
      rw [ho] at h2
      obtain ⟨s', h2, hs'⟩ := h2
      refine ⟨s', .more h1 hn ?_, hs'⟩
      rw [hd, List.length_append, ← Nat.add_assoc, show k0 + (k + 1) = k0 + 1 + k by omega]
      exact h2

theorem setLen_u (s : St σ) (id n : Nat) : (s.setLen id n).u = s.u := rfl
theorem setLen_len (s : St σ) (id n : Nat) : (s.setLen id n).len id = n := if_pos rfl

theorem doesL_rep0 {id : Nat} {g : Gr A} {toks rest u k} {o : Except E σ} (h : DoesRep env sem R g toks rest u k o) :
    DoesL env sem R (.rep0 id g) toks rest u k o := by
  intro s hs
  have := h 0 0 s hs
  cases o with
  | ok u' =>
    obtain ⟨s', h1, h2⟩ := this
    refine ⟨s'.setLen id k, eval_rep0.mpr ⟨_, h1, ?_⟩, h2, ?_⟩
    · simp
    · simp only [Gr.len]; rw [setLen_len]
  | error p => obtain ⟨q, s', h1, hR⟩ := this; exact ⟨q, s', eval_rep0.mpr ⟨_, h1, rfl⟩, hR⟩

theorem doesL_rep1 {id : Nat} {g : Gr A} {t1 t2 rest u k} {o1 : Except E σ} {o2 : σ → Except E σ}
    (h1 : Does env sem R g t1 (t2 ++ rest) u o1) (h2 : ∀ u1, o1 = .ok u1 → DoesRep env sem R g t2 rest u1 k (o2 u1)) :
    DoesL env sem R (.rep1 id g) (t1 ++ t2) rest u (k + 1 : Nat) (o1.bind o2) := by
  intro s hs
  have h1 := h1 s hs
  have ha : t1 ++ t2 ++ rest = t1 ++ (t2 ++ rest) := by simp
  rw [ha]
  cases o1 with
  | error p => obtain ⟨q, s', h1, hR⟩ := h1; exact ⟨q, s', eval_rep1.mpr ⟨_, h1, rfl⟩, hR⟩
  | ok u1 =>
    obtain ⟨s1, h1, hs1⟩ := h1
    have h2 := h2 u1 rfl 0 0 s1 hs1
    have hn : t1.length ≤ (t1 ++ (t2 ++ rest)).length := by simp
    have hd : (t1 ++ (t2 ++ rest)).drop t1.length = t2 ++ rest := by simp
    simp only [Except.bind]
    cases ho : o2 u1 with
    | error p =>
      rw [ho] at h2
      obtain ⟨q, s', h2, hR⟩ := h2
      exact ⟨q, s', eval_rep1.mpr ⟨_, h1, .inr ⟨hn, _, by rw [hd]; exact h2, rfl⟩⟩, hR⟩
    | ok u2 =>
      rw [ho] at h2
      obtain ⟨s', h2, hs'⟩ := h2
      refine ⟨s'.setLen id (k + 1), eval_rep1.mpr ⟨_, h1, .inr ⟨hn, _, by rw [hd]; exact h2, ?_⟩⟩, hs', ?_⟩
      · simp
      · simp only [Gr.len]; rw [setLen_len]

theorem doesL_list {id : Nat} {a b : Gr A} {l0 : Bool} {t1 t2 rest u k} {o1 : Except E σ} {o2 : σ → Except E σ}
    (h1 : Does env sem R a t1 (t2 ++ rest) u o1)
    (h2 : ∀ u1, o1 = .ok u1 → DoesRep env sem R (.and [b, a]) t2 rest u1 k (o2 u1)) :
    DoesL env sem R (.list id a b l0) (t1 ++ t2) rest u (k + 1 : Nat) (o1.bind o2) := by
  intro s hs
  have h1 := h1 s hs
  have ha : t1 ++ t2 ++ rest = t1 ++ (t2 ++ rest) := by simp
  rw [ha]
  cases o1 with
  | error p => obtain ⟨q, s', h1, hR⟩ := h1; exact ⟨q, s', eval_list.mpr ⟨_, h1, rfl⟩, hR⟩
  | ok u1 =>
    obtain ⟨s1, h1, hs1⟩ := h1
    have h2 := h2 u1 rfl t1.length 1 s1 hs1
    have hn : t1.length ≤ (t1 ++ (t2 ++ rest)).length := by simp
    have hd : (t1 ++ (t2 ++ rest)).drop t1.length = t2 ++ rest := by simp
    simp only [Except.bind]
    cases ho : o2 u1 with
    | error p =>
      rw [ho] at h2
      obtain ⟨q, s', h2, hR⟩ := h2
      exact ⟨q, s', eval_list.mpr ⟨_, h1, .inr ⟨hn, _, by rw [hd]; exact h2, rfl⟩⟩, hR⟩
    | ok u2 =>
      rw [ho] at h2
      obtain ⟨s', h2, hs'⟩ := h2
      refine ⟨s'.setLen id (k + 1), eval_list.mpr ⟨_, h1, .inr ⟨hn, _, by rw [hd]; exact h2, ?_⟩⟩, hs', ?_⟩
      · simp [Nat.add_comm]
      · simp only [Gr.len]; rw [setLen_len]

/-- An empty `G1 %= G2`. -/
theorem doesL_list0 {id : Nat} {a b : Gr A} {rest u} (h : Rejects env sem a rest) :
    DoesL env sem R (.list id a b true) [] rest u 0 (.ok u) := by
  intro s hs
  obtain ⟨n, e, s', h1, h2⟩ := h s
  refine ⟨s'.setLen id 0, eval_list.mpr ⟨_, h1, rfl⟩, h2.trans hs, ?_⟩
  simp only [Gr.len]
  rw [setLen_len]
  rfl

theorem doesL_rep01 {id : Nat} {g : Gr A} {toks rest u} {o : Except E σ} (h : Does env sem R g toks rest u o) :
    DoesL env sem R (.rep01 id g) toks rest u 1 o := by
  intro s hs
  have := h s hs
  cases o with
  | ok u' =>
    obtain ⟨s', h1, h2⟩ := this
    refine ⟨s'.setLen id 1, eval_rep01.mpr ⟨_, h1, rfl⟩, h2, ?_⟩
    simp only [Gr.len]; rw [setLen_len]; rfl
  | error p => obtain ⟨q, s', h1, hR⟩ := this; exact ⟨q, s', eval_rep01.mpr ⟨_, h1, rfl⟩, hR⟩

theorem doesL_rep01_none {id : Nat} {g : Gr A} {rest u} (h : Rejects env sem g rest) :
    DoesL env sem R (.rep01 id g) [] rest u 0 (.ok u) := by
  intro s hs
  obtain ⟨n, e, s', h1, h2⟩ := h s
  refine ⟨s'.setLen id 0, eval_rep01.mpr ⟨_, h1, rfl⟩, h2.trans hs, ?_⟩
  simp only [Gr.len]
  rw [setLen_len]
  rfl

/-! ### Actions -/

theorem doesL_action (hp : Plain sem R act) {a : A} {g : Gr A} {toks rest u l} {o : Except E σ}
    (h : DoesL env sem R g toks rest u l o) : DoesL env sem R (.action a g) toks rest u l (o.bind (act a toks l)) := by
  intro s hs
  have h := h s hs
  cases o with
  | error p => obtain ⟨q, s', h1, hR⟩ := h; exact ⟨q, s', eval_action.mpr ⟨_, h1, rfl⟩, hR⟩
  | ok u1 =>
    obtain ⟨s1, h1, hs1, hl⟩ := h
    have hn : toks.length ≤ (toks ++ rest).length := by simp
    have ht : (toks ++ rest).take toks.length = toks := by simp
    simp only [Except.bind]
    have hact := hp.act 0 (matchG env sem 0) a g toks s1
    rw [hl, hs1] at hact
    cases ho : act a toks l u1 with
    | error e =>
      rw [ho] at hact
      obtain ⟨q, s', hq, hR⟩ := hact
      exact ⟨q, s', eval_action.mpr ⟨_, h1, .inr ⟨hn, _, ⟨0, by rw [ht]; exact hq⟩, rfl⟩⟩, hR⟩
    | ok u2 =>
      rw [ho] at hact
      exact ⟨{ s1 with u := u2 }, eval_action.mpr ⟨_, h1, .inr ⟨hn, _, ⟨0, by rw [ht]; exact hact⟩, rfl⟩⟩, rfl, hl⟩

/-- For an action that does not look at the length. -/
theorem does_action (hp : Plain sem R act) {a : A} {g : Gr A} {toks rest u} {o : Except E σ} {f : σ → Except E σ}
    (hf : ∀ l u, act a toks l u = f u)
    (h : Does env sem R g toks rest u o) : Does env sem R (.action a g) toks rest u (o.bind f) := by
  intro s hs
  have h := h s hs
  cases o with
  | error p => obtain ⟨q, s', h1, hR⟩ := h; exact ⟨q, s', eval_action.mpr ⟨_, h1, rfl⟩, hR⟩
  | ok u1 =>
    obtain ⟨s1, h1, hs1⟩ := h
    have hn : toks.length ≤ (toks ++ rest).length := by simp
    have ht : (toks ++ rest).take toks.length = toks := by simp
    simp only [Except.bind]
    have hact := hp.act 0 (matchG env sem 0) a g toks s1
    rw [hf, hs1] at hact
    cases ho : f u1 with
    | error e =>
      rw [ho] at hact
      obtain ⟨q, s', hq, hR⟩ := hact
      exact ⟨q, s', eval_action.mpr ⟨_, h1, .inr ⟨hn, _, ⟨0, by rw [ht]; exact hq⟩, rfl⟩⟩, hR⟩
    | ok u2 =>
      rw [ho] at hact
      exact ⟨{ s1 with u := u2 }, eval_action.mpr ⟨_, h1, .inr ⟨hn, _, ⟨0, by rw [ht]; exact hact⟩, rfl⟩⟩, rfl⟩

/-! ### Rejecting by the first token -/

/-- `g` fails on every input that begins with a token of kind `k` (`none`: the end). -/
def rejB (env : Env A) : Nat → Gr A → Option Nat → Bool
  | 0, _, _ => false
  | f + 1, g, k =>
    match g with
    | .tok k' => match k with
      | none => true
      | some k => !(k == k' || (k == INT && k' == FLOAT))
    | .eof => k.isSome
    | .and (.nil :: _) => false
    | .and (g :: _) => rejB env f g k
    | .or gs => gs.all fun g => rejB env f g k
    | .rep1 _ g => rejB env f g k
    | .list _ a _ l0 => !l0 && rejB env f a k
    | .var v => match env v with
      | none => true
      | some g => rejB env f g k
    | .named _ g => rejB env f g k
    | .action _ g => rejB env f g k
    | _ => false

theorem rejects_of {f : Nat} : ∀ {g : Gr A} {src : List Token}, rejB env f g (src.head?.map (·.kind)) = true →
    Rejects env sem g src := by
  induction f with
  | zero => intro g src h; cases h
  | succ f ih =>
    intro g src h s
    cases g with
    | tok k' =>
      cases src with
      | nil => exact ⟨_, _, s, eval_tok_nil.mpr rfl, rfl⟩
      | cons t src =>
        refine ⟨_, _, s, eval_tok_cons.mpr (by rw [if_neg]; intro hf; simp [rejB] at h; rcases hf with hf | ⟨hf1, hf2⟩ <;> simp_all), rfl⟩
    | eof =>
      cases src with
      | nil => cases h
      | cons t src => exact ⟨_, _, s, eval_eof.mpr rfl, rfl⟩
    | and gs =>
      cases gs with
      | nil => cases h
      | cons g gs =>
        have hg : g ≠ .nil := by rintro rfl; cases h
        have h' : rejB env f g (src.head?.map (·.kind)) = true := by
          simpa only [rejB] using h
        obtain ⟨n, e, s', h1, h2⟩ := ih h' s
        exact ⟨_, _, s', eval_and.mpr (.fail hg (Nat.zero_le _) h1), h2⟩
    | or gs =>
      have hall : ∀ g ∈ gs, Rejects env sem g src := fun g hg => ih (List.all_eq_true.mp h g hg)
      have key : ∀ (all : Gr A) (gs : List (Gr A)), (∀ g ∈ gs, Rejects env sem g src) → ∀ nMax errMax multi (s : St σ),
          (multi = false → errMax ≠ none) →
          ∃ n e s', OrRun (Eval env sem) all src gs nMax errMax multi s (.fail n e s') ∧ s'.u = s.u := by
        intro all gs
        induction gs with
        | nil =>
          intro _ nMax errMax multi s hm
          cases multi with
          | true => exact ⟨_, _, s, .multi, rfl⟩
          | false =>
            cases errMax with
            | none => exact absurd rfl (hm rfl)
            | some e => exact ⟨_, _, s, .single, rfl⟩
        | cons g gs ihg =>
          intro hg nMax errMax multi s hm
          obtain ⟨n, e, s1, h1, h2⟩ := hg g (.head _) s
          have hg' := fun g' h' => hg g' (.tail _ h')
          rcases Nat.lt_trichotomy n nMax with hlt | heq | hgt
          · obtain ⟨n', e', s', h3, h4⟩ := ihg hg' nMax errMax multi s1 hm
            exact ⟨n', e', s', .less h1 hlt h3, h4.trans h2⟩
          · subst heq
            obtain ⟨n', e', s', h3, h4⟩ := ihg hg' n errMax true s1 nofun
            exact ⟨n', e', s', .same h1 h3, h4.trans h2⟩
          · obtain ⟨n', e', s', h3, h4⟩ := ihg hg' n (some e) false s1 (fun _ => nofun)
            exact ⟨n', e', s', .more h1 hgt h3, h4.trans h2⟩
      obtain ⟨n, e, s', h1, h2⟩ := key (.or gs) gs hall 0 none true s nofun
      exact ⟨n, e, s', eval_or.mpr h1, h2⟩
    | rep1 id g =>
      obtain ⟨n, e, s', h1, h2⟩ := ih (g := g) h s
      exact ⟨_, _, _, eval_rep1.mpr ⟨_, h1, rfl⟩, h2⟩
    | list id a b l0 =>
      cases l0 with
      | true => simp [rejB] at h
      | false =>
        simp only [rejB, Bool.not_false, Bool.true_and] at h
        obtain ⟨n, e, s', h1, h2⟩ := ih (g := a) h s
        exact ⟨_, _, s'.setLen id 0, eval_list.mpr ⟨_, h1, rfl⟩, h2⟩
    | var v =>
      simp only [rejB] at h
      cases hv : env v with
      | none => exact ⟨_, _, s, eval_var.mpr (by rw [hv]), rfl⟩
      | some g =>
        rw [hv] at h
        obtain ⟨n, e, s', h1, h2⟩ := ih (g := g) h s
        exact ⟨_, _, s', eval_var.mpr (by rw [hv]; exact h1), h2⟩
    | named nm g =>
      obtain ⟨n, e, s', h1, h2⟩ := ih (g := g) h s
      exact ⟨_, _, s', eval_named.mpr h1, h2⟩
    | action a g =>
      obtain ⟨n, e, s', h1, h2⟩ := ih (g := g) h s
      exact ⟨_, _, s', eval_action.mpr ⟨_, h1, rfl⟩, h2⟩
    | nil => cases h
    | tru => cases h
    | peek g => cases h
    | not g => cases h
    | rep0 id g => cases h
    | rep01 id g => cases h
    | trans a g => cases h

end Tpl
