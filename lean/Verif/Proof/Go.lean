import Verif.Model.Go
import Verif.Proof.Match

/-! What the pieces of Go code do. -/
namespace Tpl.Go
variable {A σ P α β : Type} {f : Nat} {m : Mat A σ P} {s : St σ}

theorem run_pure (a : α) : (pure a : Go A σ P α).run f m s = some (.ok a s) := rfl

theorem run_bind (x : Go A σ P α) (k : α → Go A σ P β) : (x >>= k).run f m s = match x.run f m s with
    | none => none
    | some (.panic p s) => some (.panic p s)
    | some (.ok a s) => (k a).run f m s := rfl

theorem run_get : (get : Go A σ P σ).run f m s = some (.ok s.u s) := rfl
theorem run_modify (g : σ → σ) : (modify g : Go A σ P Unit).run f m s = some (.ok () { s with u := g s.u }) := rfl
theorem run_panic (p : Panic A P) : (panic p : Go A σ P α).run f m s = some (.panic p s) := rfl
theorem run_len (g : Gr A) : (len g : Go A σ P Int).run f m s = some (.ok (g.len s.len) s) := rfl

theorem run_recover (x : Go A σ P α) (h : Panic A P → Go A σ P α) : (recover x h).run f m s = match x.run f m s with
    | none => none
    | some (.panic p s) => (h p).run f m s
    | some (.ok a s) => some (.ok a s) := rfl

theorem run_deferred (x : Go A σ P α) (y : Go A σ P Unit) : (deferred x y).run f m s = match x.run f m s with
    | none => none
    | some (.panic p s) => (y >>= fun _ => panic p : Go A σ P α).run f m s
    | some (.ok a s) => (y >>= fun _ => pure a : Go A σ P α).run f m s := rfl

theorem run_match (g : Gr A) (src : List Token) : (match_ g src : Go A σ P _).run f m s = match m g src s with
    | none => none
    | some (.ok n s) => some (.ok (n, none) s)
    | some (.fail n e s) => some (.ok (n, some e) s)
    | some (.panic p s) => some (.panic p s) := rfl

theorem bind_some {x : Go A σ P α} {k : α → Go A σ P β} {c : Cb A σ P β} :
    (x >>= k).run f m s = some c ↔ (∃ p s', x.run f m s = some (.panic p s') ∧ c = .panic p s') ∨
      ∃ a s', x.run f m s = some (.ok a s') ∧ (k a).run f m s' = some c := by
  rw [run_bind]
  constructor
  · intro h
    cases hx : x.run f m s with
    | none => rw [hx] at h; cases h
    | some b =>
      rw [hx] at h
      cases b with
      | panic p s' => cases h; exact .inl ⟨_, _, rfl, rfl⟩
      | ok a s' => exact .inr ⟨_, _, rfl, h⟩
  · rintro (⟨p, s', h, rfl⟩ | ⟨a, s', h, h'⟩)
    · rw [h]
    · rw [h]; exact h'

theorem bind_ok {x : Go A σ P α} {k : α → Go A σ P β} {a : α} {s' : St σ} (h : x.run f m s = some (.ok a s')) :
    (x >>= k).run f m s = (k a).run f m s' := by
  rw [run_bind, h]

theorem bind_panic {x : Go A σ P α} {k : α → Go A σ P β} {p : Panic A P} {s' : St σ} (h : x.run f m s = some (.panic p s')) :
    (x >>= k).run f m s = some (.panic p s') := by
  rw [run_bind, h]

theorem run_ite {c : Prop} [Decidable c] (x y : Go A σ P α) : (if c then x else y).run f m s = if c then x.run f m s else y.run f m s := by
  split <;> rfl

/-- `Go` code is the same if it does the same. -/
theorem ext {x y : Go A σ P α} (h : ∀ f m s, x.run f m s = y.run f m s) : x = y := by
  obtain ⟨rx, _⟩ := x
  obtain ⟨ry, _⟩ := y
  have : rx = ry := by funext f m s; exact h f m s
  subst this
  rfl

theorem bind_pure_run (x : Go A σ P α) : (x >>= fun a => pure a) = x := by
  apply ext; intro f m s
  rw [run_bind]
  cases x.run f m s with
  | none => rfl
  | some c => cases c <;> rfl

instance : LawfulMonad (Go A σ P) := LawfulMonad.mk'
  (id_map := fun x => bind_pure_run x)
  (pure_bind := fun a k => rfl)
  (bind_assoc := fun x k l => by
    apply ext; intro f m s
    simp only [run_bind]
    cases x.run f m s with
    | none => rfl
    | some c => cases c <;> rfl)

end Tpl.Go
