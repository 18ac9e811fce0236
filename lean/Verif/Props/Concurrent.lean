import Verif.Proof.Concurrent
import Verif.Props.Grammar

/-! C118: matching in several goroutines. -/
namespace Tpl.Props
open Tpl Tpl.Spec
variable {A σ V P : Type} {U : Uni}

/-- The programs of C118 are the functions of the rest of the model: `MatchExactly` in a goroutine,
without others, returns what `Matcher.matchExactly` returns. -/
theorem C118_alone (c : GoCall A σ V P) (hg : c.grammar ≠ .nil) (hr : Honest c.calls c.reads) (mem : Mem) :
    (c.prog.alone U mem).1 = ((⟨c.grammar, c.mode, fun s => .ok () s, c.env, c.calls.sem⟩ : Matcher A σ V P).matchExactly U c.fuel
      (mem.scanner c.matcher) c.src ⟨mem.len c.matcher, c.u⟩).1.map PExact.of :=
  exact_alone hr hg c.mode c.fuel c.src c.u mem

/-- C118, as far as it holds: if every goroutine has a Matcher of its own, then under every schedule a
goroutine whose `MatchExactly` has returned got what it gets without the others, and it does return
if the scheduler lets it make enough steps. -/
theorem C118_own_partial (call : Nat → GoCall A σ V P) (hown : ∀ i t, i ≠ t → (call i).matcher ≠ (call t).matcher)
    (hg : ∀ t, (call t).grammar ≠ .nil) (hr : ∀ t, Honest (call t).calls (call t).reads) (mem : Mem) (t : Nat) :
    (∀ sched r, ((⟨mem, fun i => (call i).prog⟩ : Threads _).run U sched).procs t = .done r →
      r = ((⟨(call t).grammar, (call t).mode, fun s => .ok () s, (call t).env, (call t).calls.sem⟩ : Matcher A σ V P).matchExactly U (call t).fuel
        (mem.scanner (call t).matcher) (call t).src ⟨mem.len (call t).matcher, (call t).u⟩).1.map PExact.of) ∧
    ∃ n, ∀ sched, n ≤ sched.count t → ∃ r, ((⟨mem, fun i => (call i).prog⟩ : Threads _).run U sched).procs t = .done r := by
  have touch : ∀ i, Touches (fun j => j = (call i).matcher) (fun j => j = (call i).matcher) (fun j => j = (call i).matcher) (call i).prog :=
    fun i => exact_touches (S := fun j => j = (call i).matcher) (W := fun j => j = (call i).matcher) (D := fun j => j = (call i).matcher) rfl rfl (fun _ _ => rfl) _ _ _ _ _ _
  have key := fun sched => run_alone (U := U) (S := fun i j => j = (call i).matcher) (W := fun i j => j = (call i).matcher)
    (D := fun i j => j = (call i).matcher) (t := t)
    (fun i hi => ⟨fun j e1 e2 => hown i t hi (e1.symm.trans e2), fun j e1 e2 => hown i t hi (e1.symm.trans e2)⟩) sched
    ⟨mem, fun i => (call i).prog⟩ mem (fun i => touch i) ⟨fun _ _ => rfl, fun _ _ => rfl⟩
  refine ⟨fun sched r h => ?_, (call t).prog.steps U mem, fun sched h => (key sched).2 h⟩
  rw [← (key sched).1 r h]
  exact C118_alone (call t) (hg t) (hr t) mem

/-- C118, as far as it holds: goroutines that match tokens with one and the same grammar do not
disturb each other either, if no action asks for the length of its grammar. -/
theorem C118_shared_partial (j : Nat) (env : Env A) (c : Calls A σ V P) (hc : Honest c fun _ => false) (g : Gr A) (fuel : Nat)
    (toks : Nat → List Token) (u : Nat → σ) (mem : Mem) (t : Nat) :
    (∀ sched r, ((⟨mem, fun i => matchP j env c (fun _ => false) fuel g (toks i) (u i)⟩ : Threads _).run U sched).procs t = .done r →
      ∀ len, r = (matchG env c.sem fuel g (toks t) ⟨len, u t⟩).map resOf) ∧
    ∃ n, ∀ sched, n ≤ sched.count t →
      ∃ r, ((⟨mem, fun i => matchP j env c (fun _ => false) fuel g (toks i) (u i)⟩ : Threads _).run U sched).procs t = .done r := by
  have key := fun sched g' => run_alone (U := U) (S := fun _ _ => False) (W := fun _ _ => True) (D := fun _ _ => False) (t := t)
    (fun i _ => ⟨fun j h => h.elim, fun j _ h => h⟩) sched
    ⟨mem, fun i => matchP j env c (fun _ => false) fuel g (toks i) (u i)⟩ g' (fun i => match_touches trivial (fun _ h => nomatch h) fuel _ _ _)
    ⟨fun _ h => h.elim, fun _ h => h.elim⟩
  refine ⟨fun sched r h len => ?_, _, fun sched h => (key sched mem).2 h⟩
  have := (key sched ⟨mem.scanner, fun _ => len⟩).1 r h
  obtain ⟨h1, _⟩ := match_same (U := U) (j := j) (env := env) hc fuel g (toks t) (u t) ⟨mem.scanner, fun _ => len⟩
  dsimp only at h1
  rw [h1, ← this, Option.map_map]
  have : ∀ l, resOf ∘ PRes.at_ (A := A) (P := P) (σ := σ) l = id := by
    intro l
    funext x
    cases x <;> rfl
  rw [this, Option.map_id]
  rfl

/-! ### Violations and examples -/

/-- A call with the grammar `IDENT`. -/
def identCall (j : Nat) (text : String) : GoCall Nat Unit Unit Empty :=
  ⟨j, .tok IDENT, fun _ => none, noCalls, fun _ => false, plain, bytes text, (), 3⟩

/-- New scanners. -/
def mem0 : Mem := ⟨fun _ => KwScanner.zero, fun _ _ => 0⟩

/-- Has the goroutine returned, and was it without error? -/
def verdict : Proc (Option (PExact Nat Unit Empty)) → Option Bool
  | .done (some (.ok _)) => some true
  | .done _ => some false
  | _ => none

/-- C118 does not hold for goroutines that share a Matcher: the texts `a` and `1` with the grammar
`IDENT`.  The first goroutine is told that its text is wrong, and the second that it is right, if
both initialise the scanner before the tokens are read. -/
theorem C118_violated :
    let c : Threads (Option (PExact Nat Unit Empty)) := ⟨mem0, fun i => (identCall 0 (if i = 0 then "a" else "1")).prog⟩
    (verdict ((c.run ascii [0, 0, 0, 1, 1, 1]).procs 0) = some true ∧ verdict ((c.run ascii [0, 0, 0, 1, 1, 1]).procs 1) = some false) ∧
    (verdict ((c.run ascii [1, 0, 1, 1, 0, 0]).procs 1) = some true) ∧
    verdict ((c.run ascii [0, 1, 0, 0, 1, 1]).procs 0) = some false := by decide +kernel

/-- The callback keeps the length of its grammar. -/
def lenCalls : Calls Nat Int Unit Empty := ⟨fun _ _ _ l _ => .ok l, fun _ u => .ok ((), u), fun _ _ _ u => .ok u⟩

/-- The length the callback of the goroutine was given. -/
def lenSeen : Proc (Option (PRes Nat Int Empty)) → Option Int
  | .done (some (.ok _ u)) => some u
  | _ => none

/-- ... nor for a shared grammar whose action asks for its length: `*IDENT` matches one identifier, but
the action is told that there are three. -/
theorem C118_violated_len :
    let g : Gr Nat := .action 0 (.rep0 0 (.tok IDENT))
    let c : Threads (Option (PRes Nat Int Empty)) :=
      ⟨mem0, fun i => matchP 0 (fun _ => none) lenCalls (fun _ => true) 6 g (List.replicate (if i = 0 then 1 else 3) ⟨IDENT, 0, [97]⟩) 0⟩
    lenSeen ((c.run ascii [0, 0, 1, 1]).procs 0) = some 1 ∧ lenSeen ((c.run ascii [0, 1, 0, 1]).procs 0) = some 3 := by decide +kernel

/-- The hypotheses of `C118_own_partial` are met, and the schedule that does harm above does none. -/
example : let call : Nat → GoCall Nat Unit Unit Empty := fun i => identCall i (if i = 0 then "a" else "1")
    (∀ i t, i ≠ t → (call i).matcher ≠ (call t).matcher) ∧ (∀ t, (call t).grammar ≠ .nil) ∧ (∀ t, Honest (call t).calls (call t).reads) ∧
    verdict (((⟨mem0, fun i => (call i).prog⟩ : Threads _).run ascii [0, 1, 0, 0, 1, 1]).procs 0) = some true := by
  refine ⟨fun i t h => h, fun t => ?_, fun t a _ g toks l l' u => rfl, by decide +kernel⟩
  exact fun h => nomatch h

/-- The hypothesis of `C118_shared_partial` is met by callbacks that do something. -/
example : Honest (⟨fun a _ _ _ u => .ok (a :: u), fun _ u => .ok ((), u), fun _ _ _ u => .ok u⟩ : Calls Nat (List Nat) Unit Empty) fun _ => false :=
  fun _ _ _ _ _ _ _ => rfl

end Tpl.Props
