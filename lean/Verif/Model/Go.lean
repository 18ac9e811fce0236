import Verif.Model.Grammar

/-
Go code that runs inside a callback of the matcher: it may read and change the state,
panic, recover, call the matcher again, and loop.  A value of `Go A σ P α` is such a
piece of code that returns an `α`.  As everywhere, `none` means out of fuel; `mono` says
that more fuel does not change an answer.
-/
namespace Tpl

structure Go (A σ P α : Type) where
  run : Nat → Mat A σ P → St σ → Option (Cb A σ P α)
  mono : ∀ f f' m m', f ≤ f' → Mat.le m m' → ∀ s r, run f m s = some r → run f' m' s = some r

namespace Go
variable {A σ P α β : Type}

/-- `return a` -/
def ret (a : α) : Go A σ P α := ⟨fun _ _ s => some (.ok a s), by intros; assumption⟩

/-- One statement after the other; a panic skips the second. -/
def andThen (x : Go A σ P α) (k : α → Go A σ P β) : Go A σ P β where
  run f m s := match x.run f m s with
    | none => none
    | some (.panic p s) => some (.panic p s)
    | some (.ok a s) => (k a).run f m s
  mono := by
    intro f f' m m' hf hm s r h
    cases hx : x.run f m s with
    | none => rw [hx] at h; cases h
    | some c =>
      rw [hx] at h
      rw [x.mono f f' m m' hf hm s c hx]
      cases c with
      | panic p s => exact h
      | ok a s => exact (k a).mono f f' m m' hf hm s r h

instance : Monad (Go A σ P) where
  pure := ret
  bind := andThen

/-- Read the state. -/
def get : Go A σ P σ := ⟨fun _ _ s => some (.ok s.u s), by intros; assumption⟩

/-- Change the state. -/
def modify (g : σ → σ) : Go A σ P Unit := ⟨fun _ _ s => some (.ok () { s with u := g s.u }), by intros; assumption⟩

/-- `panic(p)` -/
def panic (p : Panic A P) : Go A σ P α := ⟨fun _ _ s => some (.panic p s), by intros; assumption⟩

/-- `g.Len()` -/
def len (g : Gr A) : Go A σ P Int := ⟨fun _ _ s => some (.ok (g.len s.len) s), by intros; assumption⟩

/-- `recover` in a deferred function: `h` gets the panic and says how to go on. -/
def recover (x : Go A σ P α) (h : Panic A P → Go A σ P α) : Go A σ P α where
  run f m s := match x.run f m s with
    | none => none
    | some (.panic p s) => (h p).run f m s
    | some (.ok a s) => some (.ok a s)
  mono := by
    intro f f' m m' hf hm s r e
    cases hx : x.run f m s with
    | none => rw [hx] at e; cases e
    | some c =>
      rw [hx] at e
      rw [x.mono f f' m m' hf hm s c hx]
      cases c with
      | panic p s => exact (h p).mono f f' m m' hf hm s r e
      | ok a s => exact e

/-- `defer y` for a function that does not recover: it runs in any case, and a panic of
its own replaces the other one. -/
def deferred (x : Go A σ P α) (y : Go A σ P Unit) : Go A σ P α where
  run f m s := match x.run f m s with
    | none => none
    | some (.panic p s) => (andThen y fun _ => panic p).run f m s
    | some (.ok a s) => (andThen y fun _ => ret a).run f m s
  mono := by
    intro f f' m m' hf hm s r e
    cases hx : x.run f m s with
    | none => rw [hx] at e; cases e
    | some c =>
      rw [hx] at e
      rw [x.mono f f' m m' hf hm s c hx]
      cases c with
      | panic p s => exact (andThen y fun _ => panic p).mono f f' m m' hf hm s r e
      | ok a s => exact (andThen y fun _ => ret a).mono f f' m m' hf hm s r e

/-- `g.Match(src, ctx)`: `(n, nil)` or `(n, err)`. -/
def match_ (g : Gr A) (src : List Token) : Go A σ P (Nat × Option (Err A)) where
  run _ m s := match m g src s with
    | none => none
    | some (.ok n s) => some (.ok (n, none) s)
    | some (.fail n e s) => some (.ok (n, some e) s)
    | some (.panic p s) => some (.panic p s)
  mono := by
    intro f f' m m' hf hm s r h
    cases hx : m g src s with
    | none => rw [hx] at h; cases h
    | some c =>
      rw [hx] at h
      rw [hm _ _ _ _ hx]
      exact h

/-- At most `n` rounds of a loop. -/
def loopN (body : β → Go A σ P (β ⊕ α)) (f : Nat) (m : Mat A σ P) : Nat → β → St σ → Option (Cb A σ P α)
  | 0, _, _ => none
  | n + 1, b, s =>
    match (body b).run f m s with
    | none => none
    | some (.panic p s) => some (.panic p s)
    | some (.ok (.inl b) s) => loopN body f m n b s
    | some (.ok (.inr a) s) => some (.ok a s)

/-- A `for` loop: `body` says how to go on (`inl`) or what the result is (`inr`). -/
def loop (body : β → Go A σ P (β ⊕ α)) (b : β) : Go A σ P α where
  run f m s := loopN body f m f b s
  mono := by
    intro f f' m m' hf hm
    suffices ∀ n n', n ≤ n' → ∀ b s r, loopN body f m n b s = some r → loopN body f' m' n' b s = some r from
      this f f' hf b
    intro n
    induction n with
    | zero => intro n' _ b s r h; cases h
    | succ n ih =>
      intro n' hn b s r h
      cases n' with
      | zero => omega
      | succ n' =>
        cases hx : (body b).run f m s with
        | none => rw [loopN, hx] at h; cases h
        | some c =>
          rw [loopN, hx] at h
          rw [loopN, (body b).mono f f' m m' hf hm s c hx]
          match c, h with
          | .panic p s, h => exact h
          | .ok (.inl b) s, h => exact ih n' (by omega) b s r h
          | .ok (.inr a) s, h => exact h

end Go
end Tpl
