import Verif.Proof.Hoare

/-! How Go code in callbacks ends: rules. -/
namespace Tpl
variable {A σ V P α β : Type}

/-- Run by the matcher, the code ends so that `Q` holds, or panics so that `E` holds. -/
def Ends (env : Env A) (sem : Sem A σ V P) (x : Go A σ P α) (s : St σ) (Q : α → σ → Prop) (E : Panic A P → σ → Prop) : Prop :=
  ∃ c f, x.run f (matchG env sem f) s = some c ∧ match c with
    | .ok a s' => Q a s'.u
    | .panic p s' => E p s'.u

namespace Ends
variable {env : Env A} {sem : Sem A σ V P} {s : St σ} {Q Q' : α → σ → Prop} {E E' : Panic A P → σ → Prop}

theorem mono {x : Go A σ P α} (h : Ends env sem x s Q E) (hq : ∀ a u, Q a u → Q' a u) (he : ∀ p u, E p u → E' p u) :
    Ends env sem x s Q' E' := by
  obtain ⟨c, f, h1, h2⟩ := h
  refine ⟨c, f, h1, ?_⟩
  cases c with
  | ok a s' => exact hq _ _ h2
  | panic p s' => exact he _ _ h2

theorem pure {a : α} (h : Q a s.u) : Ends env sem (pure a) s Q E := ⟨_, 0, rfl, h⟩
theorem panic {p : Panic A P} (h : E p s.u) : Ends env sem (Go.panic p) s Q E := ⟨_, 0, rfl, h⟩

theorem raise {x : Go A σ P α} {f f' : Nat} {c : Cb A σ P α} (h : x.run f (matchG env sem f) s = some c) (hf : f ≤ f') :
    x.run f' (matchG env sem f') s = some c := x.mono _ _ _ _ hf (matchG_mono env sem hf) _ _ h

theorem bind {x : Go A σ P β} {k : β → Go A σ P α} {Q0 : β → σ → Prop} (h : Ends env sem x s Q0 E)
    (hk : ∀ b s', Q0 b s'.u → Ends env sem (k b) s' Q E) : Ends env sem (x >>= k) s Q E := by
  obtain ⟨c, f, h1, h2⟩ := h
  cases c with
  | panic p s' => exact ⟨_, f, Go.bind_panic h1, h2⟩
  | ok b s' =>
    obtain ⟨c, f', h3, h4⟩ := hk b s' h2
    exact ⟨c, max f f', by rw [Go.bind_ok (raise h1 (Nat.le_max_left _ _))]; exact raise h3 (Nat.le_max_right _ _), h4⟩

theorem recover {x : Go A σ P α} {k : Panic A P → Go A σ P α} {E0 : Panic A P → σ → Prop} (h : Ends env sem x s Q E0)
    (hk : ∀ p s', E0 p s'.u → Ends env sem (k p) s' Q E) : Ends env sem (Go.recover x k) s Q E := by
  obtain ⟨c, f, h1, h2⟩ := h
  cases c with
  | ok a s' => exact ⟨_, f, by rw [Go.run_recover, h1], h2⟩
  | panic p s' =>
    obtain ⟨c, f', h3, h4⟩ := hk p s' h2
    exact ⟨c, max f f', by rw [Go.run_recover, raise h1 (Nat.le_max_left _ _)]; exact raise h3 (Nat.le_max_right _ _), h4⟩

/-- A deferred change of the state. -/
theorem deferred {x : Go A σ P α} {g : σ → σ} (h : Ends env sem x s (fun a u => Q a (g u)) (fun p u => E p (g u))) :
    Ends env sem (Go.deferred x (Go.modify g)) s Q E := by
  obtain ⟨c, f, h1, h2⟩ := h
  cases c with
  | ok a s' => exact ⟨_, f, by rw [Go.run_deferred, h1]; rfl, h2⟩
  | panic p s' => exact ⟨_, f, by rw [Go.run_deferred, h1]; rfl, h2⟩

theorem get {k : σ → Go A σ P α} (h : Ends env sem (k s.u) s Q E) : Ends env sem (Go.get >>= k) s Q E := by
  obtain ⟨c, f, h1, h2⟩ := h
  exact ⟨c, f, by rw [Go.bind_ok Go.run_get]; exact h1, h2⟩

theorem modify {g : σ → σ} {k : Unit → Go A σ P α} (h : Ends env sem (k ()) { s with u := g s.u } Q E) :
    Ends env sem (Go.modify g >>= k) s Q E := by
  obtain ⟨c, f, h1, h2⟩ := h
  exact ⟨c, f, by rw [Go.bind_ok (Go.run_modify g)]; exact h1, h2⟩

theorem len {g : Gr A} {k : Int → Go A σ P α} (h : Ends env sem (k (g.len s.len)) s Q E) : Ends env sem (Go.len g >>= k) s Q E := by
  obtain ⟨c, f, h1, h2⟩ := h
  exact ⟨c, f, by rw [Go.bind_ok (Go.run_len g)]; exact h1, h2⟩

theorem match_ {g : Gr A} {src : List Token} {r : Res A σ P} {Q : Nat × Option (Err A) → σ → Prop} (h : Eval env sem g src s r)
    (hr : match r with
      | .ok n s' => Q (n, none) s'.u
      | .fail n e s' => Q (n, some e) s'.u
      | .panic p s' => E p s'.u) : Ends env sem (Go.match_ g src) s Q E := by
  obtain ⟨f, h⟩ := h
  cases r with
  | ok n s' => exact ⟨_, f, by rw [Go.run_match, h], hr⟩
  | fail n e s' => exact ⟨_, f, by rw [Go.run_match, h], hr⟩
  | panic p s' => exact ⟨_, f, by rw [Go.run_match, h], hr⟩

/-- After one round of a loop the rest of it. -/
theorem loop_next {body : β → Go A σ P (β ⊕ α)} {b b' : β} {f : Nat} {s' : St σ} (h1 : (body b).run f (matchG env sem f) s = some (.ok (.inl b') s'))
    (h : Ends env sem (Go.loop body b') s' Q E) : Ends env sem (Go.loop body b) s Q E := by
  obtain ⟨c', f', h3, h4⟩ := h
  refine ⟨c', max f f' + 1, ?_, h4⟩
  change Go.loopN _ _ _ (max f f' + 1) _ _ = _
  rw [Go.loopN, raise h1 (show f ≤ max f f' + 1 by omega)]
  dsimp only
  -- the rest of the loop, with `max f f'` rounds at fuel `max f f' + 1`
  have key : ∀ n m' F1 F2 (M1 M2 : Mat A σ P), F1 ≤ F2 → Mat.le M1 M2 → n ≤ m' → ∀ b s r, Go.loopN body F1 M1 n b s = some r →
      Go.loopN body F2 M2 m' b s = some r := by
    intro n
    induction n with
    | zero => intro m' F1 F2 M1 M2 _ _ _ b s r h; cases h
    | succ n ih =>
      intro m' F1 F2 M1 M2 hF hM hn b s r h
      cases m' with
      | zero => omega
      | succ m' =>
        cases hx : (body b).run F1 M1 s with
        | none => rw [Go.loopN, hx] at h; cases h
        | some c =>
          rw [Go.loopN, hx] at h
          rw [Go.loopN, (body b).mono _ _ _ _ hF hM s c hx]
          match c, h with
          | .panic p s, h => exact h
          | .ok (.inl b) s, h => exact ih m' F1 F2 M1 M2 hF hM (by omega) b s r h
          | .ok (.inr a) s, h => exact h
  exact key f' (max f f') f' (max f f' + 1) _ _ (by omega) (matchG_mono env sem (by omega)) (by omega) b' s' c' h3

/-- One round of a loop. -/
theorem loop {body : β → Go A σ P (β ⊕ α)} {b : β} {Q0 : β ⊕ α → σ → Prop} (h : Ends env sem (body b) s Q0 E)
    (hr : ∀ a u, Q0 (.inr a) u → Q a u) (hl : ∀ b' s', Q0 (.inl b') s'.u → Ends env sem (Go.loop body b') s' Q E) :
    Ends env sem (Go.loop body b) s Q E := by
  obtain ⟨c, f, h1, h2⟩ := h
  match c, h2, h1 with
  | .panic p s', h2, h1 => exact ⟨.panic p s', f + 1, by change Go.loopN _ _ _ (f + 1) _ _ = _; rw [Go.loopN, raise h1 (Nat.le_succ f)], h2⟩
  | .ok (.inr a) s', h2, h1 => exact ⟨.ok a s', f + 1, by change Go.loopN _ _ _ (f + 1) _ _ = _; rw [Go.loopN, raise h1 (Nat.le_succ f)], hr _ _ h2⟩
  | .ok (.inl b') s', h2, h1 => exact loop_next h1 (hl b' s' h2)

/-- How an action ends. -/
theorem act {a : A} {g : Gr A} {toks : List Token} {x : Go A σ P Unit} (hx : ∀ f m s, sem.act f m a g toks s = x.run f m s)
    {Q : σ → Prop} (h : Ends env sem x s (fun _ => Q) E) : ∃ c, ActEval env sem a g toks s c ∧ (match c with
      | .ok _ s' => Q s'.u
      | .panic p s' => E p s'.u) := by
  obtain ⟨c, f, h1, h2⟩ := h
  refine ⟨c, ⟨f, by rw [hx]; exact h1⟩, ?_⟩
  cases c <;> exact h2

end Ends
end Tpl
