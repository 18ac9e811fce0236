import Verif.Model.QlangEngine
import Verif.Props.QlangMeaning

/-
Running qlang programs from a host: SafeExec (C81) and Ret (C82).
-/
namespace Tpl.Props
open Tpl Tpl.Spec Tpl.Qlang Tpl.Qlang.Src Scanner
variable {F : Type}
variable {S : Setup F} {U : Uni} {mode : Mode} {fuel : Nat} {ret : CompileRet Str}

/-! ### C81: running a program safely -/

/-- The error made of a panic: of a string, an error with that text; of an error, that error. -/
inductive Reports : QPanic F → ExecErr F → Prop where
  | text (m) : Reports (.user (.str m)) (.text m)
  | err (p) (hs : ∀ m, p ≠ .user (.str m)) (hv : ∀ x, p ≠ .user (.other x)) : Reports p (.err p)

theorem execErr_some {p : QPanic F} (h : isError p = true) : ∃ x, execErr p = some x ∧ Reports p x := by
  unfold isError at h
  split at h
  · cases h
  · rename_i hv
    unfold execErr
    split
    · exact ⟨_, rfl, .text _⟩
    · exact absurd rfl (hv _)
    · rename_i hs _
      exact ⟨_, rfl, .err _ hs hv⟩

theorem execErr_none {p : QPanic F} (h : isError p = false) : execErr p = none := by
  unfold isError at h
  split at h
  · rfl
  · cases h

/-- What `SafeExec` does after the program. -/
def safeTail (R : Runs F) (e : Option (QPanic F)) : Prog F (Option (QPanic F)) := do
  change 0 fun f => { f with recov := e }
  runDefers R 0
  match (← frame 0).recov with
  | none => pure none
  | some p => if isError p then pure (some p) else raise p

/-- What was returned is what should be. -/
def Returned : Option (QPanic F) → Option (ExecErr F) → Prop
  | none, e => e = none
  | some p, e => ∃ x, e = some x ∧ Reports p x

theorem safeEnd_halts {K : Bound} {R : Runs F} (hR : RunsOk K S.host ret U R) {N : Nat} {B : Nat → Nat} (hN : 0 < N) {w : World F} {o e} (ho : safeTail R e w = o)
    (hnl : ¬ Lost K o) {s : St (QEng F)} {l : List (QVal F)} (hs : Shows N B l w s.u.u) :
    Halts K.fuel ret.env (client S.host.lib ret U).sem (safeEnd ret U e none) s
      (fun a u => ∃ x w' vs, o = some (.ok x, w') ∧ Returned x a ∧ u.ipt = s.u.ipt ∧
        (∃ w1, deferredVals R 0 (w.frames 0).defers (w.change 0 fun f => { f with recov := e }) = some (.ok vs, w1)) ∧ Shows N B (l ++ vs) w' u.u)
      (fun p u => ∃ w', o = some (.error p, w') ∧ world u.u = w' ∧ N ≤ u.u.nscopes ∧ (B 0 ≤ l.length → (u.u.scopes 0).base ≤ u.u.stk.length)) (o = none) := by
  unfold safeEnd
  refine .bind (Q0 := fun _ u => u.ipt = s.u.ipt ∧ Shows N B l (w.change 0 fun f => { f with recov := e }) u.u)
    (.run (run_modQ _) ⟨rfl, hs.mod (g := fun c => { c with recov := e }) (fun _ => rfl) fun _ => rfl⟩) ?_
  rintro _ s1 ⟨i1, h1⟩
  have ho : (runDefers R 0 >>= fun _ => Src.frame 0 >>= fun f => match f.recov with
    | none => (pure none : Prog F (Option (QPanic F)))
    | some p => if isError p then pure (some p) else Src.raise p) (w.change 0 fun f => { f with recov := e }) = o := ho
  rw [bind_run] at ho
  cases hy : runDefers R 0 (w.change 0 fun f => { f with recov := e }) with
  | none =>
    rw [hy] at ho
    obtain rfl : none = o := ho
    refine .bind (Q0 := fun _ _ => False) ((execDefers_ends hR hN hy nofun h1).mono ?_ ?_ fun _ => rfl) fun _ _ h => h.elim
    · rintro _ _ ⟨_, _, w', vs, h2, _⟩; cases h2
    · rintro p u ⟨w', h2, h3⟩; cases h2
  | some o1 =>
    rw [hy] at ho
    obtain ⟨o1, w1⟩ := o1
    cases o1 with
    | error e =>
      obtain rfl : some (.error e, w1) = o := ho
      have h2 := execDefers_ends hR hN hy (fun ⟨w', h⟩ => hnl (by cases h; exact ⟨_, rfl⟩)) h1
      refine .bind (Q0 := fun _ _ => False) (h2.mono ?_ ?_ nofun) fun _ _ h => h.elim
      · rintro _ _ ⟨_, _, w', vs, h2, _⟩; cases h2
      · rintro p u ⟨w', h2, h3⟩; cases h2; exact ⟨_, rfl, h3.wld, h3.count, h3.top hN⟩
    | ok b =>
      have h2 := execDefers_ends hR hN hy nofun h1
      refine .bind (h2.mono (fun _ _ h => h) ?_ nofun) ?_
      · rintro p u ⟨w', h2, h3⟩; cases h2
      rintro _ s2 ⟨i2, _, w', vs, h3, hv, h4⟩
      cases h3
      refine .bind (Q0 := fun q u => q = s2.u.u ∧ u = s2.u) (.run run_getQ ⟨rfl, rfl⟩) ?_
      rintro _ s3 ⟨rfl, h5⟩
      dsimp only at ho
      rw [bind_run] at ho
      dsimp only [Src.frame] at ho
      rw [show (w1.frames 0).recov = (s2.u.u.scopes 0).recov by rw [← h4.wld]; rfl] at ho
      have hi : s3.u.ipt = s.u.ipt := by rw [h5, i2, i1]
      have hs3 : Shows N B (l ++ vs) w1 s3.u.u := by rw [h5]; exact h4
      cases hr : (s2.u.u.scopes 0).recov with
      | none =>
        rw [hr] at ho
        cases ho
        exact .pure ⟨none, _, vs, rfl, rfl, hi, hv, hs3⟩
      | some p =>
        rw [hr] at ho
        dsimp only at ho ⊢
        cases he : isError p with
        | true =>
          rw [he, if_pos rfl] at ho
          cases ho
          obtain ⟨x, hx, hrep⟩ := execErr_some he
          rw [hx]
          exact .pure ⟨some p, _, vs, rfl, ⟨x, rfl, hrep⟩, hi, hv, hs3⟩
        | false =>
          rw [he, if_neg Bool.false_ne_true] at ho
          cases ho
          rw [execErr_none he]
          exact .panic ⟨_, rfl, hs3.wld, hs3.count, fun hb => by rw [hs3.base 0 hN, hs3.stk, List.length_append]; omega⟩

theorem deferredVals_of {R : Runs F} {p : Nat} : ∀ {ds : List (QVal F)} {w w' : World F}, (∀ w, R.lost w = none) → deferredOnes R p ds w = some (.ok (), w') →
    ∃ vs, deferredVals R p ds w = some (.ok vs, w')
  | [], w, w', _, h => by cases h; exact ⟨[], rfl⟩
  | d :: ds, w, w', hl, h => by
    cases d
    case code ts =>
      have h : (R.expr ts p >>= fun _ => deferredOnes R p ds) w = some (.ok (), w') := h
      rw [bind_run] at h
      cases hy : R.expr ts p w with
      | none => rw [hy] at h; cases h
      | some o =>
        rw [hy] at h
        obtain ⟨e | v, w1⟩ := o
        · cases h
        · obtain ⟨vs, hv⟩ := deferredVals_of hl h
          refine ⟨v :: vs, ?_⟩
          change (R.expr ts p >>= fun v => deferredVals R p ds >>= fun vs => pure (v :: vs)) w = _
          rw [bind_run, hy]
          dsimp only
          rw [bind_run, hv]
          rfl
    all_goals
      have h : R.lost w = some (.ok (), w') := h
      rw [hl] at h
      cases h

theorem deferredVals_le {R Q : Runs F} (h : R.Le Q) (p : Nat) : ∀ ds : List (QVal F), (deferredVals R p ds).Le (deferredVals Q p ds)
  | [] => .refl _
  | d :: ds => by
    cases d
    case code ts => exact bind_le (h.expr ts p) fun _ => bind_le (deferredVals_le h p ds) fun _ => .refl _
    all_goals exact .never

theorem runs_lost (n : Nat) (w : World F) : (runs S n).lost w = none := by cases n <;> rfl

theorem safeEnd_ends (hS : S.site = sites) (hc : Compiled ret) {n N : Nat} {B : Nat → Nat} (hN : 0 < N) {w : World F} {o e} (ho : safeTail (runs S n) e w = some o)
    {s : St (QEng F)} {l : List (QVal F)} (hs : Shows N B l w s.u.u) :
    Ends ret.env (client S.host.lib ret U).sem (safeEnd ret U e none) s
      (fun a u => ∃ x w' vs, o = (.ok x, w') ∧ Returned x a ∧ u.ipt = s.u.ipt ∧
        (∃ w1, deferredVals (runs S n) 0 (w.frames 0).defers (w.change 0 fun f => { f with recov := e }) = some (.ok vs, w1)) ∧ Shows N B (l ++ vs) w' u.u)
      (fun p u => ∃ w', o = (.error p, w') ∧ world u.u = w' ∧ N ≤ u.u.nscopes ∧ (B 0 ≤ l.length → (u.u.scopes 0).base ≤ u.u.stk.length)) := by
  obtain ⟨j, hj⟩ := not_lost n o
  have hle := runs_or S j n
  have h1 : safeTail (runsOr S j n) e w = some o := bind_le (.refl _) (fun _ => bind_le (runDefers_le hle 0) fun _ => .refl _) _ _ ho
  refine ((safeEnd_halts (runs_ok hS hc j n) hN h1 hj hs).resolve_right fun h => by cases h.1).mono ?_ ?_
  · rintro a u ⟨x, w', vs, h2, h3, h4, ⟨w1, h5⟩, h6⟩
    cases h2
    refine ⟨x, w', vs, rfl, h3, h4, ⟨w1, ?_⟩, h6⟩
    have h7 : deferredOnes (runs S n) 0 (w.frames 0).defers (w.change 0 fun f => { f with recov := e }) ≠ none ∧
        ∀ p w', deferredOnes (runs S n) 0 (w.frames 0).defers (w.change 0 fun f => { f with recov := e }) ≠ some (.error p, w') := by
      have h8 : (runDefers (runs S n) 0 >>= fun _ => Src.frame 0 >>= fun f => match f.recov with
        | none => (pure none : Prog F (Option (QPanic F)))
        | some p => if isError p then pure (some p) else Src.raise p) (w.change 0 fun f => { f with recov := e }) = some (.ok x, w') := ho
      have e1 : runDefers (runs S n) 0 (w.change 0 fun f => { f with recov := e }) =
          (deferredOnes (runs S n) 0 (w.frames 0).defers >>= fun _ => Src.change 0 fun f => { f with defers := [] }) (w.change 0 fun f => { f with recov := e }) := by
        unfold runDefers
        rw [bind_run]
        have e2 : ((w.change 0 fun f => { f with recov := e }).frames 0).defers = (w.frames 0).defers := rfl
        dsimp only [Src.frame]
        rw [e2]
      rw [bind_run, e1, bind_run] at h8
      constructor
      · intro h9; rw [h9] at h8; cases h8
      · intro p w2 h9; rw [h9] at h8; cases h8
    cases h8 : deferredOnes (runs S n) 0 (w.frames 0).defers (w.change 0 fun f => { f with recov := e }) with
    | none => exact absurd h8 h7.1
    | some o =>
      obtain ⟨e | u, w2⟩ := o
      · exact absurd h8 (h7.2 _ _)
      · obtain ⟨vs', h9⟩ := deferredVals_of (runs_lost n) h8
        have h10 := deferredVals_le hle 0 _ _ _ h9
        rw [h5] at h10
        cases h10
        exact h9
  · rintro p u ⟨w', h2, h3⟩
    cases h2
    exact ⟨w', rfl, h3⟩

theorem safely_run {d : Tm .doc} {n : Nat} {w : World F} {o} (h : d.safely S n w = some o) : ∃ e w1, d.does S n w = some (e, w1) ∧
    ((∃ c, e = .error (.user (.other (.exit c))) ∧ o = (.error (.user (.other (.exit c))), w1)) ∨
     (∀ c, e ≠ .error (.user (.other (.exit c)))) ∧ safeTail (runs S n) (match e with
      | .ok _ => none
      | .error p => some p) w1 = some o) := by
  unfold Tm.safely at h
  rw [bind_run] at h
  unfold try_ at h
  cases hd : d.does S n w with
  | none => rw [hd] at h; cases h
  | some x =>
    obtain ⟨e, w1⟩ := x
    rw [hd] at h
    dsimp only at h
    refine ⟨e, w1, rfl, ?_⟩
    split at h
    · cases h
      exact .inl ⟨_, rfl, rfl⟩
    · rename_i hx
      refine .inr ⟨fun c hc => hx c hc, ?_⟩
      rw [← h]
      cases e <;> rfl

/-- The engine between two programs: the program itself is the current function, and nothing of
it is on the stack. -/
structure Idle (u : QEng F) : Prop where
  ipt : u.ipt = 0
  base : (u.u.scopes 0).base = u.u.stk.length
  count : 0 < u.u.nscopes

theorem safe_ok {L : Lib F} {src : Str} {s s' : St (QEng F)} {f : Nat} (h : exec L ret U f src s = some (.ok () s')) :
    safeExec L ret U f src s = (safeEnd ret U none none).run f (matchG ret.env (client L ret U).sem f) s' := by
  unfold safeExec; rw [h]

theorem safe_exit {L : Lib F} {src : Str} {s s' : St (QEng F)} {f : Nat} {c} (h : exec L ret U f src s = some (.panic (.user (.other (.exit c))) s')) :
    safeExec L ret U f src s = some (.panic (.user (.other (.exit c))) s') := by
  unfold safeExec; rw [h]

theorem safe_panic {L : Lib F} {src : Str} {s s' : St (QEng F)} {f : Nat} {p} (h : exec L ret U f src s = some (.panic p s'))
    (hp : ∀ c, p ≠ .user (.other (.exit c))) :
    safeExec L ret U f src s = (safeEnd ret U (some p) none).run f (matchG ret.env (client L ret U).sem f) s' := by
  unfold safeExec; rw [h]
  split
  · rename_i h; cases h
  · rename_i h; cases h
  · rename_i h; cases h
  · rename_i h; cases h; exact absurd rfl (hp _)
  · rename_i h; cases h; rfl

/-- `SafeExec` of a text, begun in the state `s`, ends like this: an error is returned, or not, or
there is a panic; variables, functions and heap are then those of `w`. -/
def SafeEnds (L : Lib F) (ret : CompileRet Str) (U : Uni) (src : Str) (s : St (QEng F)) (w : World F) : Except (QPanic F) (Option (QPanic F)) → Prop
  | .ok x => ∃ f e s', safeExec L ret U f src s = some (.ok e s') ∧ Returned x e ∧ world s'.u.u = w
  | .error p => ∃ f s', safeExec L ret U f src s = some (.panic p s') ∧ world s'.u.u = w

section
variable (hS : S.site = sites) (h : (client S.host.lib ret U).new grammarText mode U fuel = some (.ok ret)) (d : Tm .doc) (hd : d.Ok)
  {s : St (QEng F)} (hk : KwScanner.Steps U KwScanner.zero s.u.scanner) {src : Str} {eof : Token} (hsrc : Tokenizes U s.u.scanner src ret.mode d.toks eof)
  (hi : Idle s.u)
include hS h hd hk hsrc hi

/-- C81: running the text of a program with `SafeExec` does what running it safely means: it
returns nil, or the error that the panic not recovered by a deferred expression stands for, or
panics. -/
theorem C81_safe {n o w} (hn : d.safely S n (world s.u.u) = some (o, w)) :
    SafeEnds S.host.lib ret U src s w o := by
  obtain ⟨e, w1, h1, h2⟩ := safely_run hn
  obtain ⟨s1, h3, f1, h4⟩ := runs_after hS h d hd hk hsrc hi.ipt hi.base hi.count h1
  have h4 : ∀ f, f1 ≤ f → exec S.host.lib ret U f src s = _ := h4
  have conc : ∀ {B l e'}, Shows s.u.u.nscopes B l w1 s1.u.u → safeTail (runs S n) e' w1 = some (o, w) →
      (∀ f, f1 ≤ f → safeExec S.host.lib ret U f src s = (safeEnd ret U e' none).run f (matchG ret.env (client S.host.lib ret U).sem f) s1) →
      SafeEnds S.host.lib ret U src s w o := by
    intro B l e' h5 h6 h7
    obtain ⟨c, f2, h8, h9⟩ := safeEnd_ends (U := U) hS (compiled_ok h).1 hi.count h6 h5
    have h8 := (h7 _ (Nat.le_max_left f1 f2)).trans (Ends.raise h8 (Nat.le_max_right f1 f2))
    cases c with
    | ok a s' =>
      obtain ⟨x, w', vs, h10, h11, _, _, h12⟩ := h9
      cases h10
      exact ⟨_, a, s', h8, h11, h12.wld⟩
    | panic p s' =>
      obtain ⟨w', h10, h11, _⟩ := h9
      cases h10
      exact ⟨_, s', h8, h11⟩
  rcases h2 with ⟨c, rfl, h2⟩ | ⟨hx, h2⟩
  · cases h2
    exact ⟨f1, s1, safe_exit (h4 f1 (Nat.le_refl _)), h3.wld⟩
  · cases e with
    | ok v => exact conc h3.sees h2 fun f hf => safe_ok (h4 f hf)
    | error p =>
      exact conc (B := fun i => (s1.u.u.scopes i).base) (l := s1.u.u.stk) ⟨rfl, h3.wld, fun _ _ => rfl, h3.count⟩ h2
        fun f hf => safe_panic (h4 f hf) fun c hc => hx c (by rw [hc])

end

/-- C81: for any text at all, `SafeExec` panics only with a value that is neither a string nor an
error (or when the process ends), or because a deferred expression panics. -/
theorem C81_panics {L : Lib F} {src : Str} {s s' : St (QEng F)} {f : Nat} {p} (h : safeExec L ret U f src s = some (.panic p s')) :
    (∃ x, p = .user (.other x)) ∨ ∃ s1, (execDefers ret U 0).run f (matchG ret.env (client L ret U).sem f) s1 = some (.panic p s') := by
  have key : ∀ e err s1, (safeEnd ret U e err).run f (matchG ret.env (client L ret U).sem f) s1 = some (.panic p s') →
      (∃ x, p = .user (.other x)) ∨ ∃ s1, (execDefers ret U 0).run f (matchG ret.env (client L ret U).sem f) s1 = some (.panic p s') := by
    intro e err s1 h
    unfold safeEnd at h
    unfold Qlang.modScope at h
    rw [Go.bind_ok (run_modQ _)] at h
    cases hx : (execDefers ret U 0).run f (matchG ret.env (client L ret U).sem f) (setQ s1 (s1.u.u.modScope 0 fun c => { c with recov := e })) with
    | none => rw [Go.run_bind, hx] at h; cases h
    | some c =>
      cases c with
      | panic q s2 => rw [Go.run_bind, hx] at h; cases h; exact .inr ⟨_, hx⟩
      | ok a s2 =>
        rw [Go.bind_ok hx, Go.bind_ok run_getQ] at h
        cases hr : (s2.u.u.scopes 0).recov with
        | none => rw [hr] at h; cases h
        | some q =>
          rw [hr] at h
          dsimp only at h
          cases hq : execErr q with
          | some x => rw [hq] at h; cases h
          | none =>
            rw [hq] at h
            cases h
            left
            unfold execErr at hq
            split at hq
            · cases hq
            · exact ⟨_, rfl⟩
            · cases hq
  unfold safeExec at h
  split at h
  · cases h
  · exact key _ _ _ h
  · exact key _ _ _ h
  · cases h; exact .inl ⟨_, rfl⟩
  · exact key _ _ _ h

/-- C81: if `Exec` of a text returns an error, then `SafeExec` never returns nil: if it returns, then
with this error, or with one that the panic it finds unrecovered stands for. -/
theorem C81_refused {L : Lib F} {src : Str} {s s1 s' : St (QEng F)} {f : Nat} {e : MErr Str} {x : Option (ExecErr F)}
    (h : exec L ret U f src s = some (.err e s1)) (hx : safeExec L ret U f src s = some (.ok x s')) :
    ∃ y, x = some y ∧ (y = .matched e ∨ ∃ p, execErr p = some y) := by
  unfold safeExec at hx
  rw [h] at hx
  dsimp only at hx
  unfold safeEnd Qlang.modScope at hx
  rw [Go.bind_ok (run_modQ _)] at hx
  cases hd : (execDefers ret U 0).run f (matchG ret.env (client L ret U).sem f) (setQ s1 (s1.u.u.modScope 0 fun c => { c with recov := none })) with
  | none => rw [Go.run_bind, hd] at hx; cases hx
  | some c =>
    cases c with
    | panic q s2 => rw [Go.run_bind, hd] at hx; cases hx
    | ok a s2 =>
      rw [Go.bind_ok hd, Go.bind_ok run_getQ] at hx
      cases hr : (s2.u.u.scopes 0).recov with
      | none => rw [hr] at hx; cases hx; exact ⟨_, rfl, .inl rfl⟩
      | some q =>
        rw [hr] at hx
        dsimp only at hx
        cases hq : execErr q with
        | some y => rw [hq] at hx; cases hx; exact ⟨_, rfl, .inr ⟨_, hq⟩⟩
        | none => rw [hq] at hx; cases hx

/-- C81: a text that is no program, and has deferred nothing: `SafeExec` returns the error of `Exec`. -/
theorem C81_error {L : Lib F} {src : Str} {s s1 : St (QEng F)} {f : Nat} {e : MErr Str}
    (h : exec L ret U f src s = some (.err e s1)) (hd : (s1.u.u.scopes 0).defers = []) :
    ∃ s', safeExec L ret U f src s = some (.ok (some (.matched e)) s') := by
  unfold safeExec
  rw [h]
  dsimp only
  unfold safeEnd Qlang.modScope execDefers
  rw [Go.bind_ok (run_modQ _)]
  simp only [bind_assoc]
  rw [Go.bind_ok run_getQ]
  have e1 : ((setQ s1 (s1.u.u.modScope 0 fun c => { c with recov := none })).u.u.scopes 0).defers = [] := hd
  rw [e1]
  exact ⟨_, rfl⟩

/-! Running `x = 1; panic(x)` safely panics with 1; `x = 1; y` returns an error, since there is no
variable `y`. -/

def exNoVar : Tm .doc := .doc (.assign (tk IDENT 0 "x") (tk 61 2 "") (one (.int (tk INT 4 "1")))) (.next (tk 59 5 ";") (.eval (one (var 7 "y"))) .endDoc)

example : exNoVar.Ok := by repeat' first | exact trivial | refine ⟨?_, ?_⟩

def safeOutcome (S : Setup Unit) (d : Tm .doc) : Option (String × Option (QVal Unit)) := match d.safely S 3 (world QState.new) with
  | some (.ok none, _) => some ("nil", none)
  | some (.ok (some _), _) => some ("error", none)
  | some (.error (.user (.other (.val v))), _) => some ("panic", some v)
  | some (.error _, _) => some ("panic", none)
  | none => none

example : safeOutcome setup0 exCalls = some ("nil", none) := by kernel_rfl
example : safeOutcome setup0 exNoVar = some ("error", none) := by kernel_rfl
example : safeOutcome setup0 exPanic = some ("panic", some (.int 1)) := by kernel_rfl

/-! ### C82: Ret gives the value of the program -/

theorem ret_gives {l xs : List (QVal F)} {x : QVal F} {s : St (QEng F)} (hs : s.u.u.stk = l ++ x :: xs) (hb : (s.u.u.scopes 0).base = l.length) (f : Nat) (m) :
    (Qlang.ret : QM F _).run f m s = some (.ok (some ((x :: xs).getLast (by simp))) (setQ s { s.u.u with stk := l })) := by
  have hl : s.u.u.stk.getLast? = some ((x :: xs).getLast (by simp)) := by
    rw [hs, List.getLast?_append, List.getLast?_eq_some_getLast (List.cons_ne_nil x xs)]
    rfl
  have hd : s.u.u.stk.dropLast = l ++ (x :: xs).dropLast := by rw [hs, List.dropLast_append_of_ne_nil (by simp)]
  unfold Qlang.ret pop clear
  simp only [bind_assoc]
  rw [Go.bind_ok run_getQ, hl]
  simp only [bind_assoc]
  rw [Go.bind_ok (run_modQ _)]
  simp only [pure_bind]
  rw [Go.bind_ok run_getQ]
  have e : ((setQ s { s.u.u with stk := s.u.u.stk.dropLast }).u.u.scopes 0).base = l.length := hb
  rw [e, Go.bind_ok (setFrame_ok (by change l.length ≤ s.u.u.stk.dropLast.length; rw [hd]; simp))]
  change some (Cb.ok _ (setQ s { s.u.u with stk := s.u.u.stk.dropLast.take l.length })) = _
  rw [hd, List.take_left]

section
variable (hS : S.site = sites) (h : (client S.host.lib ret U).new grammarText mode U fuel = some (.ok ret)) (d : Tm .doc) (hd : d.Ok)
  {s : St (QEng F)} (hk : KwScanner.Steps U KwScanner.zero s.u.scanner) {src : Str} {eof : Token} (hsrc : Tokenizes U s.u.scanner src ret.mode d.toks eof)
  (hi : Idle s.u)
include hS h hd hk hsrc hi

/-- C82: after `Exec`, `Ret` gives the value of the program, and the engine is ready for the next
one, with the variables, functions and heap of this one.  Missing: programs that end with a
semicolon (`C82_semicolon`), and `SafeExec` of programs that defer something
(`C82_deferred`). -/
theorem C82_exec_partial {n v w} (hn : d.does S n (world s.u.u) = some (.ok v, w)) :
    ∃ f s1 s2, exec S.host.lib ret U f src s = some (.ok () s1) ∧ (∀ f' m, (Qlang.ret : QM F _).run f' m s1 = some (.ok (some v) s2)) ∧
      Idle s2.u ∧ s2.u.u.stk = s.u.u.stk ∧ world s2.u.u = w := by
  obtain ⟨s1, h1, f, h2⟩ := runs_after hS h d hd hk hsrc hi.ipt hi.base hi.count hn
  have hb : (s1.u.u.scopes 0).base = s.u.u.stk.length := (h1.sees.base 0 hi.count).trans hi.base
  exact ⟨f, s1, _, h2 f (Nat.le_refl _), fun f' m => ret_gives h1.sees.stk hb f' m, ⟨h1.ipt, hb, Nat.lt_of_lt_of_le hi.count h1.sees.count⟩, rfl, h1.sees.wld⟩

/-- After `SafeExec`, `Ret` gives the last of the values of the program and of its deferred
expressions. -/
theorem safe_ret {n v w1 w} (hn : d.does S n (world s.u.u) = some (.ok v, w1)) (hs : d.safely S n (world s.u.u) = some (.ok none, w)) :
    ∃ vs, (∃ w2, deferredVals (runs S n) 0 (w1.frames 0).defers (w1.change 0 fun f => { f with recov := none }) = some (.ok vs, w2)) ∧
    ∃ f s1 s2, safeExec S.host.lib ret U f src s = some (.ok none s1) ∧ (∀ f' m, (Qlang.ret : QM F _).run f' m s1 = some (.ok (some ((v :: vs).getLast (by simp))) s2)) ∧
      Idle s2.u ∧ s2.u.u.stk = s.u.u.stk ∧ world s2.u.u = w := by
  obtain ⟨e, w1', h1, h2⟩ := safely_run hs
  rw [hn] at h1
  cases h1
  rcases h2 with ⟨c, h2, _⟩ | ⟨_, h2⟩
  · cases h2
  obtain ⟨s1, h3, f1, h4⟩ := runs_after hS h d hd hk hsrc hi.ipt hi.base hi.count hn
  obtain ⟨c, f2, h5, h6⟩ := safeEnd_ends (U := U) hS (compiled_ok h).1 hi.count h2 h3.sees
  have h7 := (safe_ok (h4 _ (Nat.le_max_left f1 f2))).trans (Ends.raise h5 (Nat.le_max_right f1 f2))
  cases c with
  | panic p s2 => obtain ⟨_, h8, _⟩ := h6; cases h8
  | ok a s2 =>
    obtain ⟨x, w', vs, h8, h9, h10, h11, h12⟩ := h6
    cases h8
    have h9 : a = none := h9
    subst h9
    have hb : (s2.u.u.scopes 0).base = s.u.u.stk.length := (h12.base 0 hi.count).trans hi.base
    have hst : s2.u.u.stk = s.u.u.stk ++ v :: vs := by rw [h12.stk]; simp
    exact ⟨vs, h11, _, s2, _, h7, fun f' m => ret_gives hst hb f' m, ⟨h10.trans h3.ipt, hb, Nat.lt_of_lt_of_le hi.count h12.count⟩, rfl, h12.wld⟩

/-- C82: after `SafeExec` of a program that has deferred nothing, `Ret` gives the value of the
program. -/
theorem C82_safe_partial {n v w1 w} (hn : d.does S n (world s.u.u) = some (.ok v, w1)) (h0 : (w1.frames 0).defers = [])
    (hs : d.safely S n (world s.u.u) = some (.ok none, w)) :
    ∃ f s1 s2, safeExec S.host.lib ret U f src s = some (.ok none s1) ∧ (∀ f' m, (Qlang.ret : QM F _).run f' m s1 = some (.ok (some v) s2)) ∧
      Idle s2.u ∧ s2.u.u.stk = s.u.u.stk ∧ world s2.u.u = w := by
  obtain ⟨vs, ⟨w2, h1⟩, h2⟩ := safe_ret hS h d hd hk hsrc hi hn hs
  rw [h0] at h1
  cases h1
  exact h2

/-- C82 is violated: after `SafeExec` of a program that has deferred something, `Ret` gives the
value of the deferred expression that ran last, whatever the value of the program is. -/
theorem C82_deferred {n v w1 w} (hn : d.does S n (world s.u.u) = some (.ok v, w1)) (h0 : (w1.frames 0).defers ≠ [])
    (hs : d.safely S n (world s.u.u) = some (.ok none, w)) :
    ∃ vs b, (∃ w2, deferredVals (runs S n) 0 (w1.frames 0).defers (w1.change 0 fun f => { f with recov := none }) = some (.ok (vs ++ [b]), w2)) ∧
    ∃ f s1 s2, safeExec S.host.lib ret U f src s = some (.ok none s1) ∧ (∀ f' m, (Qlang.ret : QM F _).run f' m s1 = some (.ok (some b) s2)) := by
  obtain ⟨vs, ⟨w2, h1⟩, f, s1, s2, h2, h3, _⟩ := safe_ret hS h d hd hk hsrc hi hn hs
  have hne : vs ≠ [] := by
    rintro rfl
    generalize (w1.frames 0).defers = ds at h0 h1
    cases ds with
    | nil => exact h0 rfl
    | cons x ds =>
      cases x with
      | code ts =>
        have h1 : ((runs S n).expr ts 0 >>= fun v => deferredVals (runs S n) 0 ds >>= fun vs => pure (v :: vs)) _ = _ := h1
        rw [bind_run] at h1
        split at h1
        · cases h1
        · rw [bind_run] at h1
          split at h1 <;> cases h1
        · cases h1
      | _ => cases h1
  refine ⟨vs.dropLast, vs.getLast hne, ⟨w2, by rw [List.dropLast_concat_getLast]; exact h1⟩, f, s1, s2, h2, fun f' m => ?_⟩
  rw [h3, List.getLast_cons hne]

end

/-- The statements end with a semicolon. -/
inductive EndsSemi : Tm .docTail → Prop where
  | last (t) : EndsSemi (.semi t .endDoc)
  | semi (t) {more} : EndsSemi more → EndsSemi (.semi t more)
  | next (t) (st) {more} : EndsSemi more → EndsSemi (.next t st more)

theorem then_ok {α β : Type} (x : Prog F α) (k : α → Prog F β) {w w'} {v : β} (h : Prog.andThen x k w = some (.ok v, w')) :
    ∃ a w1, k a w1 = some (.ok v, w') := by
  unfold Prog.andThen at h
  split at h
  · cases h
  · exact ⟨_, _, h⟩
  · cases h

theorem semi_nil {R : Runs F} {n p : Nat} {more : Tm .docTail} (hm : EndsSemi more) : ∀ {v v' : QVal F} {w w'},
    (more.den S R n p : QVal F → Prog F (QVal F)) v w = some (.ok v', w') → v' = .nil := by
  induction hm with
  | last t => intro v v' w w' h; cases h; rfl
  | semi t _ ih => intro v v' w w' h; exact ih h
  | next t st _ ih =>
    intro v v' w w' h
    obtain ⟨a, w1, h⟩ := then_ok (β := QVal F) (st.den S R n p) _ h
    exact ih h

/-- C82 is violated: the value of a program that ends with a semicolon is nil, whatever its last
statement gives. -/
theorem C82_semicolon {n : Nat} {st : Tm .stmt} {more : Tm .docTail} (hm : EndsSemi more) {v : QVal F} {w w'}
    (h : (Tm.doc st more).does S n w = some (.ok v, w')) : v = .nil := by
  obtain ⟨a, w1, h⟩ := then_ok (β := QVal F) (st.den S (runs S n) n 0) _ h
  exact semi_nil hm h

/-! `defer 5; 7`: the value is 7, the deferred expression has the value 5, and `Ret` gives 5.  With
automatic semicolons, the text `7` is the program `7;`, of value nil. -/

def exFive : Tm (.term 5) := one (.int (tk INT 6 "5"))
def exDefer : Tm .doc := .doc (.defer (tk kDefer 0 "defer") exFive) (.next (tk 59 7 ";") (.eval (one (.int (tk INT 9 "7")))) .endDoc)
def exSeven : Tm .doc := .doc (.eval (one (.int (tk INT 0 "7")))) (.semi (tk 59 1 "\n") .endDoc)

theorem exFive_ok : exFive.Ok := by repeat' first | exact trivial | refine ⟨?_, ?_⟩
example : exDefer.Ok := by repeat' first | exact trivial | refine ⟨?_, ?_⟩
example : exSeven.Ok := by repeat' first | exact trivial | refine ⟨?_, ?_⟩

/-- A setup that knows the deferred expression. -/
def setup1 : Setup Unit where
  host := setup0.host
  site := sites
  doc := fun _ => none
  expr := fun ts => if ts = exFive.toks then some exFive else none
  doc_ok := nofun
  expr_ok := by
    intro ts d h
    split at h
    · rename_i e
      cases h
      exact ⟨exFive_ok, e.symm⟩
    · cases h

example : ((⟨Scanner.zero, keywords, some kwTable⟩ : KwScanner).tokenize ascii (str "7") ⟨false, true⟩).1.1.map
    (fun t => (t.kind, t.pos, t.lit)) = exSeven.toks.map (fun t => (t.kind, t.pos, t.lit)) := by kernel_rfl

def value (S : Setup Unit) (d : Tm .doc) : Option (QVal Unit) := match d.does S 3 (world QState.new) with
  | some (.ok v, _) => some v
  | _ => none

example : value setup1 exDefer = some (.int 7) := by kernel_rfl
example : value setup1 exSeven = some .nil := by kernel_rfl
example : safeOutcome setup1 exDefer = some ("nil", none) := by kernel_rfl
example : (match exDefer.does setup1 3 (world QState.new) with
  | some (_, w) => (deferredVals (runs setup1 3) 0 (w.frames 0).defers w).map fun o => match o.1 with
    | .ok vs => vs
    | .error _ => []
  | none => none) = some [.int 5] := by kernel_rfl

/-! ### A new engine -/

/-- What the grammar of qlang compiles to. -/
def qlangRet (U : Uni) (mode : Mode) : CompileRet Str :=
  ⟨bDoc, ⟨table, [(str "factor", some gFactor)], 37, ⟨(KwScanner.zero.tokenize U grammarText clMode).2.sc, keywords, some kwTable⟩⟩, mode⟩

theorem compiled_new (L : Lib F) (U : Uni) (mode : Mode) : ∃ fuel, (client L (qlangRet U mode) U).new grammarText mode U fuel = some (.ok (qlangRet U mode)) :=
  (compiled_iff L (qlangRet U mode) U mode _).mpr rfl

/-- The state of a new engine: the scanner is the one that has read the grammar. -/
def newEngine (U : Uni) (mode : Mode) : St (QEng F) := ⟨fun _ => 0, ⟨0, 0, (qlangRet U mode).tab.scanner, QState.new⟩⟩

theorem newEngine_scanner (U : Uni) (mode : Mode) : (newEngine (F := F) U mode).u.scanner =
    ⟨(KwScanner.zero.tokenize U grammarText clMode).2.sc, keywords, some kwTable⟩ := rfl

theorem newEngine_idle (U : Uni) (mode : Mode) : Idle (newEngine (F := F) U mode).u := ⟨rfl, rfl, Nat.one_pos⟩

/-- The keywords of the grammar are added one by one. -/
def addWords : List Str → KwScanner → Option KwScanner
  | [], k => some k
  | w :: ws, k => match k.ltot w with
    | .ok (_, k) => addWords ws k
    | .panic => none

theorem addWords_steps {U : Uni} {k0 : KwScanner} : ∀ (ws : List Str) {k k' : KwScanner}, (∀ w ∈ ws, ∃ x, w = 34 :: (x ++ [34])) → KwScanner.Steps U k0 k →
    addWords ws k = some k' → KwScanner.Steps U k0 k'
  | [], k, k', _, hk, h => by cases h; exact hk
  | w :: ws, k, k', hw, hk, h => by
    unfold addWords at h
    split at h
    · rename_i h1
      exact addWords_steps ws (fun x hx => hw x (List.mem_cons_of_mem _ hx)) (hk.step (.ltot (.inl (hw w List.mem_cons_self)) h1)) h
    · cases h

theorem addWords_keywords (sc : Scanner) : addWords keywords ⟨sc, [], some []⟩ = some ⟨sc, keywords, some kwTable⟩ := by kernel_rfl

theorem keywords_quoted : keywords.all (fun w => w == 34 :: (w.tail.dropLast ++ [34])) = true := by kernel_rfl

theorem newEngine_steps (U : Uni) (mode : Mode) : KwScanner.Steps U KwScanner.zero (newEngine (F := F) U mode).u.scanner := by
  have h := tokenize_steps (U := U) (.refl KwScanner.zero) grammarText clMode
  rw [fresh_scanner] at h
  refine addWords_steps keywords (fun w hw => ?_) h (addWords_keywords _)
  exact ⟨_, eq_of_beq (List.all_eq_true.mp keywords_quoted w hw)⟩

theorem exDefer_text (sc : Scanner) : ((⟨sc, keywords, some kwTable⟩ : KwScanner).tokenize ascii (str "defer 5; 7") ⟨false, false⟩).1 = (exDefer.toks, none) := by
  kernel_rfl

theorem exSeven_text (sc : Scanner) : ((⟨sc, keywords, some kwTable⟩ : KwScanner).tokenize ascii (str "7") ⟨false, true⟩).1 = (exSeven.toks, none) := by
  kernel_rfl

/-- C82 is violated: on a new engine, `SafeExec` of `defer 5; 7` returns nil, the value of the
program is 7, and `Ret` gives 5. -/
theorem C82_violated_deferred : (∃ w, exDefer.does setup1 3 (world QState.new) = some (.ok (.int 7), w)) ∧
    ∃ f s1 s2, safeExec setup1.host.lib (qlangRet ascii ⟨false, false⟩) ascii f (str "defer 5; 7") (newEngine ascii ⟨false, false⟩) = some (.ok none s1) ∧
      ∀ f' m, (Qlang.ret : QM Unit _).run f' m s1 = some (.ok (some (.int 5)) s2) := by
  have hk := newEngine_steps (F := Unit) ascii ⟨false, false⟩
  obtain ⟨fuel, h⟩ := compiled_new setup1.host.lib ascii ⟨false, false⟩
  have ht : ((newEngine (F := Unit) ascii ⟨false, false⟩).u.scanner.tokenize ascii (str "defer 5; 7") ⟨false, false⟩).1 = (exDefer.toks, none) := by
    rw [newEngine_scanner]
    exact exDefer_text _
  obtain ⟨eof, hsrc⟩ := (tokenizes_iff hk).mp ht
  obtain ⟨w1, hn, hds⟩ : ∃ w1, exDefer.does setup1 3 (world QState.new) = some (.ok (.int 7), w1) ∧ (w1.frames 0).defers = [.code exFive.toks] := ⟨_, rfl, rfl⟩
  obtain ⟨w, hs⟩ : ∃ w, exDefer.safely setup1 3 (world QState.new) = some (.ok none, w) := ⟨_, rfl⟩
  refine ⟨⟨w1, hn⟩, ?_⟩
  obtain ⟨vs, b, ⟨w2, h1⟩, f, s1, s2, h2, h3⟩ := C82_deferred (S := setup1) rfl h exDefer (by repeat' first | exact trivial | refine ⟨?_, ?_⟩) hk hsrc
    (newEngine_idle _ _) hn (by rw [hds]; simp) hs
  have h4 : ∀ w : World Unit, ∃ w', deferredVals (runs setup1 3) 0 [.code exFive.toks] w = some (.ok [.int 5], w') := fun w => ⟨_, rfl⟩
  rw [hds] at h1
  obtain ⟨w3, h5⟩ := h4 (w1.change 0 fun f => { f with recov := none })
  rw [h5] at h1
  injection h1 with h1
  injection h1 with h1
  injection h1 with h1
  cases vs with
  | nil => cases h1; exact ⟨f, s1, s2, h2, h3⟩
  | cons x xs => simp at h1

/-- C82 is violated: on a new engine with automatic semicolons, `Ret` after `Exec` of `7` gives
nil. -/
theorem C82_violated_semicolon : ∃ f s1 s2,
    exec setup1.host.lib (qlangRet ascii ⟨false, true⟩) ascii f (str "7") (newEngine ascii ⟨false, true⟩) = some (.ok () s1) ∧
      ∀ f' m, (Qlang.ret : QM Unit _).run f' m s1 = some (.ok (some .nil) s2) := by
  have hk := newEngine_steps (F := Unit) ascii ⟨false, true⟩
  obtain ⟨fuel, h⟩ := compiled_new setup1.host.lib ascii ⟨false, true⟩
  have ht : ((newEngine (F := Unit) ascii ⟨false, true⟩).u.scanner.tokenize ascii (str "7") ⟨false, true⟩).1 = (exSeven.toks, none) := by
    rw [newEngine_scanner]
    exact exSeven_text _
  obtain ⟨eof, hsrc⟩ := (tokenizes_iff hk).mp ht
  obtain ⟨w, hn⟩ : ∃ w, exSeven.does setup1 3 (world QState.new) = some (.ok .nil, w) := ⟨_, rfl⟩
  obtain ⟨f, s1, s2, h1, h2, _⟩ := C82_exec_partial (S := setup1) rfl h exSeven (by repeat' first | exact trivial | refine ⟨?_, ?_⟩) hk hsrc (newEngine_idle _ _) hn
  exact ⟨f, s1, s2, h1, h2⟩

end Tpl.Props
