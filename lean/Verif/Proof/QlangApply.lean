import Verif.Proof.QlangCode
import Verif.Spec.QlangSafe

/-! Calls of functions of the program. -/
namespace Tpl.Qlang.Src
open Spec
variable {F α β γ δ : Type}
variable {K : Bound} {H : Host F} {r : CompileRet Str} {U : Uni} {S : Setup F} {C : Conf} {l pre post : List (QVal F)} {w : World F}
variable {g : Gr Str} {ts : List Token} {n : Int} {p : Nat} {x : Str}

/-- `EvalCode` does this. -/
def Evals (K : Bound) (H : Host F) (r : CompileRet Str) (U : Uni) (nm : Str) (ts : List Token) (c N : Nat) (B : Nat → Nat) (l : List (QVal F)) (y : Prog F (QVal F)) : Prop :=
  ∀ w o, y w = o → Lost K o ∨ ∀ s : St (QEng F), Shows N B l w s.u.u →
    Halts K.fuel r.env (client H.lib r U).sem (Tpl.evalCode r U c nm (.tokens ts)) s
      (fun a u => a = none ∧ u.ipt = s.u.ipt ∧ u.mute = s.u.mute ∧ ∃ b w', o = some (.ok b, w') ∧ Shows N B (l ++ [b]) w' u.u)
      (fun p u => u.ipt = s.u.ipt ∧ u.mute = s.u.mute ∧ ∃ w', o = some (.error p, w') ∧ Broken N c B l w' u.u) (o = none)

/-- Function bodies and deferred expressions do what they should. -/
structure RunsOk (K : Bound) (H : Host F) (r : CompileRet Str) (U : Uni) (R : Runs F) : Prop where
  body : ∀ ts c N B l, c < N → B c = l.length → Evals K H r U (str "doc") ts c N B l (R.body ts c)
  expr : ∀ ts c N B l, c < N → Evals K H r U (str "expr") ts c N B l (R.expr ts c)
  lost : ∀ w, Lost K (R.lost w)

theorem Shows.mod {N : Nat} {B : Nat → Nat} {q : QState F} {p : Nat} (h : Shows N B l w q) {g : Scope F → Scope F} {g' : Frame F → Frame F}
    (hg : ∀ c, fr (g c) = g' (fr c)) (hb : ∀ c, (g c).base = c.base) : Shows N B l (w.change p g') (q.modScope p g) := by
  refine ⟨h.stk, ?_, ?_, h.count⟩
  · rw [← h.wld]
    simp only [world, QState.modScope, QState.setScope, World.change]
    congr 1
    funext i
    by_cases h : i = p
    · rw [if_pos h, if_pos h, hg]
    · rw [if_neg h, if_neg h]
  · intro i hi
    rw [scopes_mod, ← h.base i hi]
    by_cases h : i = p
    · rw [if_pos h, hb, h]
    · rw [if_neg h]

/-! ### Deferred expressions -/

variable {R : Runs F}

theorem deferLoop_ends (hR : RunsOk K H r U R) {c N : Nat} {B : Nat → Nat} (hN : c < N) : ∀ (ds : List (QVal F)) {w : World F} {o},
    deferredOnes R c ds w = o → Lost K o ∨ ∀ {s : St (QEng F)} {l : List (QVal F)}, Shows N B l w s.u.u →
    Halts K.fuel r.env (client H.lib r U).sem (deferLoop r U c ds) s
      (fun _ u => u.ipt = s.u.ipt ∧ u.mute = s.u.mute ∧ ∃ w' vs, o = some (.ok (), w') ∧ deferredVals R c ds w = some (.ok vs, w') ∧ Shows N B (l ++ vs) w' u.u)
      (fun p u => ∃ w', o = some (.error p, w') ∧ Broken N c B l w' u.u) (o = none)
  | [], w, o, ho => by
    cases ho
    exact .inr fun hs => .pure ⟨rfl, rfl, w, [], rfl, rfl, by rw [List.append_nil]; exact hs⟩
  | d :: ds, w, o, ho => by
    cases d with
    | code ts =>
      have ho : (R.expr ts c >>= fun _ => deferredOnes R c ds) w = o := ho
      rw [bind_run] at ho
      refine lost_or fun hnl s l hs => ?_
      unfold deferLoop evalPanic
      rw [bind_assoc]
      have h1 := hR.expr ts c N B l hN w _ rfl
      cases hy : R.expr ts c w with
      | none =>
        rw [hy] at ho h1
        obtain rfl : none = o := ho
        refine .bind (Q0 := fun _ _ => False) ((h1.resolve_left nofun s hs).mono ?_ ?_ fun _ => rfl) fun _ _ h => h.elim
        · rintro _ _ ⟨_, _, _, b, w', h2, _⟩; cases h2
        · rintro p u ⟨_, _, w', h2, h3⟩; cases h2
      | some o1 =>
        rw [hy] at ho h1
        obtain ⟨o1, w1⟩ := o1
        cases o1 with
        | error e =>
          obtain rfl : some (.error e, w1) = o := ho
          have h1 := h1.resolve_left (fun ⟨w', h⟩ => hnl (by cases h; exact ⟨_, rfl⟩)) s hs
          refine .bind (Q0 := fun _ _ => False) (h1.mono ?_ ?_ nofun) fun _ _ h => h.elim
          · rintro _ _ ⟨_, _, _, b, w', h2, _⟩; cases h2
          · rintro p u ⟨_, _, w', h2, h3⟩; cases h2; exact ⟨_, rfl, h3⟩
        | ok b =>
          have h1 := h1.resolve_left nofun s hs
          refine .bind (Q0 := fun a u => a = none ∧ u.ipt = s.u.ipt ∧ u.mute = s.u.mute ∧ Shows N B (l ++ [b]) w1 u.u) (h1.mono ?_ ?_ nofun) ?_
          · rintro a u ⟨h2, h3, h4, b', w', h5, h6⟩; cases h5; exact ⟨h2, h3, h4, h6⟩
          · rintro p u ⟨_, _, w', h2, h3⟩; cases h2
          · rintro _ s' ⟨rfl, h2, h3, h4⟩
            refine ((deferLoop_ends hR hN ds ho).resolve_left hnl h4).mono ?_ ?_ id
            · rintro a u ⟨h5, h6, w', vs, h7, hv, h8⟩
              refine ⟨h5.trans h2, h6.trans h3, w', b :: vs, h7, ?_, by simpa using h8⟩
              change (R.expr ts c >>= fun v => deferredVals R c ds >>= fun vs => pure (v :: vs)) w = _
              rw [bind_run, hy]
              dsimp only
              rw [bind_run, hv]
              rfl
            · rintro p u ⟨w', h5, h6⟩
              exact ⟨w', h5, h6.less⟩
    | _ => exact .inl (by rw [← ho]; exact hR.lost w)

theorem execDefers_ends (hR : RunsOk K H r U R) {c N : Nat} {B : Nat → Nat} (hN : c < N) {w : World F} {o} (ho : runDefers R c w = o) (hnl : ¬ Lost K o)
    {s : St (QEng F)} {l : List (QVal F)} (hs : Shows N B l w s.u.u) :
    Halts K.fuel r.env (client H.lib r U).sem (execDefers r U c) s
      (fun _ u => u.ipt = s.u.ipt ∧ u.mute = s.u.mute ∧ ∃ w' vs, o = some (.ok (), w') ∧ (∃ w1, deferredVals R c (w.frames c).defers w = some (.ok vs, w1)) ∧ Shows N B (l ++ vs) w' u.u)
      (fun p u => ∃ w', o = some (.error p, w') ∧ Broken N c B l w' u.u) (o = none) := by
  unfold execDefers
  unfold runDefers at ho
  refine .bind (Q0 := fun q u => q = s.u.u ∧ u = s.u) (.run run_getQ ⟨rfl, rfl⟩) ?_
  rintro _ s1 ⟨rfl, h1⟩
  have e1 : (Src.frame c >>= fun f => deferredOnes R c f.defers >>= fun _ => change c fun f => { f with defers := [] }) w =
      (deferredOnes R c (s.u.u.scopes c).defers >>= fun _ => change c fun f => { f with defers := [] }) w := by
    rw [← hs.wld]; rfl
  rw [e1, bind_run] at ho
  have h2 := deferLoop_ends hR hN (B := B) (s.u.u.scopes c).defers (w := w) rfl
  cases hy : deferredOnes R c (s.u.u.scopes c).defers w with
  | none =>
    rw [hy] at ho h2
    obtain rfl : none = o := ho
    refine .bind (Q0 := fun _ _ => False) ((h2.resolve_left nofun (s := s1) (l := l) (by rw [h1]; exact hs)).mono ?_ ?_ fun _ => rfl) fun _ _ h => h.elim
    · rintro _ _ ⟨_, _, w', vs, h2, _⟩; cases h2
    · rintro p u ⟨w', h2, h3⟩; cases h2
  | some o1 =>
    rw [hy] at ho h2
    obtain ⟨o1, w1⟩ := o1
    cases o1 with
    | error e =>
      obtain rfl : some (.error e, w1) = o := ho
      have h2 := h2.resolve_left (fun ⟨w', h⟩ => hnl (by cases h; exact ⟨_, rfl⟩)) (s := s1) (l := l) (by rw [h1]; exact hs)
      refine .bind (Q0 := fun _ _ => False) (h2.mono ?_ ?_ nofun) fun _ _ h => h.elim
      · rintro _ _ ⟨_, _, w', vs, h2, _⟩; cases h2
      · rintro p u ⟨w', h2, h3⟩; cases h2; exact ⟨_, rfl, h3⟩
    | ok b =>
      cases ho
      have h2 := h2.resolve_left nofun (s := s1) (l := l) (by rw [h1]; exact hs)
      refine .bind (Q0 := fun _ u => u.ipt = s.u.ipt ∧ u.mute = s.u.mute ∧ ∃ vs, (∃ w1, deferredVals R c (w.frames c).defers w = some (.ok vs, w1)) ∧ Shows N B (l ++ vs) w1 u.u) (h2.mono ?_ ?_ nofun) ?_
      · rintro a u ⟨h3, h4, w', vs, h5, hv, h6⟩; cases h5; exact ⟨by rw [h3, h1], by rw [h4, h1], vs, ⟨w1, by rw [← hv, ← hs.wld]; rfl⟩, h6⟩
      · rintro p u ⟨w', h2, h3⟩; cases h2
      · rintro _ s2 ⟨h3, h4, vs, hv, h5⟩
        exact .run (run_modQ _) ⟨h3, h4, _, vs, rfl, hv, h5.mod (g := fun c => { c with defers := [] }) (fun _ => rfl) fun _ => rfl⟩

/-! ### The end of a call -/

/-- A panic that was not recovered goes on. -/
def settle (c : Nat) : Prog F (QVal F) := do
  match (← frame c).recov with
  | some p => raise p
  | none => do pure (← frame c).ret

theorem finish_eq (c : Nat) (e : Option (QPanic F)) : finish R c e = (do
    change c fun f => { f with recov := e }
    runDefers R c
    settle c) := by
  unfold finish settle
  refine bind_congr fun _ => bind_congr fun _ => bind_congr fun f => ?_
  cases f.recov <;> rfl

/-- The end of `Call` and its value. -/
theorem leave_ends (hR : RunsOk K H r U R) {c N : Nat} {B : Nat → Nat} (hN : c < N) {w : World F} {o e} (ho : finish R c e w = o) (hnl : ¬ Lost K o)
    {s : St (QEng F)} {l vs : List (QVal F)} (hs : Shows N B (l ++ vs) w s.u.u) :
    Halts K.fuel r.env (client H.lib r U).sem (leave r U c l.length e >>= fun _ => do pure ((← getQ).scopes c).ret) s
      (fun a u => u.ipt = s.u.ipt ∧ u.mute = s.u.mute ∧ ∃ w', o = some (.ok a, w') ∧ Shows N B l w' u.u)
      (fun p u => ∃ w', o = some (.error p, w') ∧ Broken N c B l w' u.u) (o = none) := by
  unfold leave
  rw [bind_assoc]
  refine .bind (Q0 := fun _ u => u.ipt = s.u.ipt ∧ u.mute = s.u.mute ∧ Shows N B (l ++ vs) (w.change c fun f => { f with recov := e }) u.u)
    (.run (run_modQ _) ⟨rfl, rfl, hs.mod (g := fun c => { c with recov := e }) (fun _ => rfl) fun _ => rfl⟩) ?_
  rintro _ s1 ⟨i1, m1, h1⟩
  have e1 : finish R c e w = (runDefers R c >>= fun _ => settle c) (w.change c fun f => { f with recov := e }) := by
    rw [finish_eq]
    rfl
  rw [e1, bind_run] at ho
  rw [bind_assoc]
  cases hy : runDefers R c (w.change c fun f => { f with recov := e }) with
  | none =>
    rw [hy] at ho
    obtain rfl : none = o := ho
    refine .bind (Q0 := fun _ _ => False) ((execDefers_ends hR hN hy nofun h1).mono ?_ ?_ fun _ => rfl) fun _ _ h => h.elim
    · rintro _ _ ⟨_, _, w', vs, h2, _⟩; cases h2
    · rintro p u ⟨w', h2, h3⟩; cases h2
  | some o1 =>
    rw [hy] at ho
    obtain ⟨o1, w1⟩ := o1
    cases o1 with
    | error e =>
      obtain rfl : some (.error e, w1) = o := ho
      have h2 := execDefers_ends hR hN hy (fun ⟨w', h⟩ => hnl (by cases h; exact ⟨_, rfl⟩)) h1
      refine .bind (Q0 := fun _ _ => False) (h2.mono ?_ ?_ nofun) fun _ _ h => h.elim
      · rintro _ _ ⟨_, _, w', vs, h2, _⟩; cases h2
      · rintro p u ⟨w', h2, h3⟩; cases h2; exact ⟨_, rfl, h3.less⟩
    | ok b =>
      have h2 := execDefers_ends hR hN hy nofun h1
      refine .bind (Q0 := fun _ u => u.ipt = s.u.ipt ∧ u.mute = s.u.mute ∧ ∃ vs, Shows N B (l ++ vs) w1 u.u) (h2.mono ?_ ?_ nofun) ?_
      · rintro a u ⟨h3, h4, w', vs', h5, _, h6⟩; cases h5; exact ⟨by rw [h3, i1], by rw [h4, m1], vs ++ vs', by simpa using h6⟩
      · rintro p u ⟨w', h2, h3⟩; cases h2
      · rintro _ s2 ⟨h3, h4, vs', h5⟩
        have hle : l.length ≤ s2.u.u.stk.length := by rw [h5.stk]; simp
        rw [bind_assoc]
        refine .bind (Q0 := fun _ u => u.ipt = s.u.ipt ∧ u.mute = s.u.mute ∧ Shows N B l w1 u.u) (.run (setFrame_ok hle) ⟨h3, h4, ?_, h5.wld, h5.base, h5.count⟩) ?_
        · change s2.u.u.stk.take l.length = l
          rw [h5.stk, List.take_left]
        rintro _ s3 ⟨h6, h7, h8⟩
        rw [bind_assoc]
        refine .bind (Q0 := fun q u => q = s3.u.u ∧ u = s3.u) (.run run_getQ ⟨rfl, rfl⟩) ?_
        rintro _ s4 ⟨rfl, h9⟩
        have e3 : settle c w1 = (match (fr (s3.u.u.scopes c)).recov with
          | some p => (raise p : Prog F (QVal F))
          | none => pure (fr (s3.u.u.scopes c)).ret) w1 := by
          rw [← h8.wld]
          unfold settle
          rw [bind_run]
          dsimp only [Src.frame]
          rw [show (world s3.u.u).frames c = fr (s3.u.u.scopes c) from rfl]
          cases (fr (s3.u.u.scopes c)).recov <;> rfl
        have ho := e3.symm.trans ho
        have e4 : (fr (s3.u.u.scopes c)).recov = (s3.u.u.scopes c).recov := rfl
        rw [e4] at ho
        cases hr : (s3.u.u.scopes c).recov with
        | none =>
          rw [hr] at ho
          cases ho
          simp only [pure_bind]
          refine .bind (Q0 := fun q u => q = s3.u.u ∧ u = s3.u) (.run run_getQ ⟨by rw [h9], h9⟩) ?_
          rintro _ s5 ⟨rfl, h10⟩
          exact .pure ⟨by rw [h10, h6], by rw [h10, h7], w1, rfl, by rw [h10]; exact h8⟩
        | some p =>
          rw [hr] at ho
          cases ho
          rw [Does.panic_bind]
          exact .panic ⟨w1, rfl, by rw [h9]; exact Shows.broken (pre := []) (by rw [List.append_nil]; exact h8)⟩

/-! ### Calls -/

theorem Does.bindParams {f : Fun} {args : List (QVal F)} : Does K H r U C l pre (Qlang.bindParams H.fl f args) (bindTo H f args) (fun v => (v, pre)) w := by
  unfold Qlang.bindParams bindTo
  cases f.variadic with
  | false =>
    rw [if_neg Bool.false_ne_true, if_neg Bool.false_ne_true]
    refine .ret ?_
    congr 1
    funext x
    exact (bindArgs_none _ _ x).symm
  | true =>
    rw [if_pos rfl, if_pos rfl]
    cases f.args.getLast? with
    | none => exact .raise
    | some last =>
      dsimp only
      refine Does.bind Does.liftH fun s w' _ => .ret ?_
      congr 1
      funext x
      dsimp only
      rw [bindArgs_none]
      by_cases h : x = last
      · rw [if_pos h, if_pos h]
      · rw [if_neg h, if_neg h]
        by_cases hn : (f.args.take (f.args.length - 1)).length = f.args.length - 1
        · rw [zip_take _ _ _ hn]
        · exact absurd (by simp) hn

theorem bindTo_count {f : Fun} {args : List (QVal F)} {vars} {w' : World F} (h : bindTo H f args w = some (.ok vars, w')) : w'.count = w.count := by
  unfold bindTo at h
  cases hv : f.variadic with
  | false => rw [hv, if_neg Bool.false_ne_true] at h; cases h; rfl
  | true =>
    rw [hv, if_pos rfl] at h
    cases hl : f.args.getLast? with
    | none => rw [hl] at h; cases h
    | some last =>
      rw [hl] at h
      dsimp only at h
      rw [bind_run] at h
      dsimp only [onHeap] at h
      generalize hs : (sliceOf H (args.drop (f.args.length - 1)) w.heap) = o at h
      obtain ⟨_ | s, h'⟩ := o
      · cases h
      · cases h; rfl

/-- Where a call ends in the calling function. -/
theorem back {N : Nat} {B : Nat → Nat} (hN : C.N ≤ N) (hB : ∀ i < C.N, B i = C.B i) {u : QEng F} {w' : World F} (hm : u.mute = 0) (hi : u.ipt = C.p)
    (h : Shows N B l w' u.u) : At C l w' u :=
  ⟨hm, hi, h.stk, h.wld, fun i hi => by rw [h.base i (by omega), hB i hi], Nat.le_trans hN h.count⟩

theorem backB {N c : Nat} {B : Nat → Nat} (hN : C.N ≤ N) (hc : C.N ≤ c) (hB : ∀ i < C.N, B i = C.B i) {q : QState F} {w' : World F}
    (h : Broken N c B (l ++ pre) w' q) : Broken C.N C.p C.B l w' q :=
  Broken.less (pre := pre) ⟨h.stk, h.wld, fun i hi _ => by rw [h.base i (by omega) (by omega), hB i hi], Nat.le_trans hN h.count, fun hp hb => by
    rw [h.base _ (by omega) (by omega), hB _ hp]
    exact Nat.le_trans hb h.stk.length_le⟩

theorem not_exit {e : QPanic F} (h : ∀ n, e ≠ .user (.other (.exit n))) : leaves (.error e) = if isReturn e then .normal else .panic e := by
  unfold leaves isReturn
  split <;> rename_i heq
  · cases heq
  · cases heq; exact absurd rfl (h _)
  · cases heq; rfl
  · rename_i h1 h2
    cases heq
    split
    · exact absurd rfl (h2 _ _)
    · rfl

theorem calls_ok (hR : RunsOk K H r U R) : CallsOk K H r U R := by
  intro C l pre w f args
  unfold fnCall apply
  by_cases ha : f.accepts args.length = true
  · have ha' : (if f.variadic then f.args.length ≤ args.length + 1 else args.length = f.args.length) := (fits_iff _ _).mp ha
    rw [if_pos ha, if_pos ha']
    cases f.body with
    | none => exact .ret rfl
    | some body =>
      dsimp only
      refine Does.getQ fun q hq => ?_
      obtain rfl := hq.wld
      have hc : C.N ≤ q.nscopes := hq.count
      rw [hq.stk]
      refine Does.bind Does.bindParams fun vars w1 h1 => ?_
      have h1 : w1.count = q.nscopes := bindTo_count h1
      intro o ho
      refine lost_or fun hnl s hs => ?_
      have hns : s.u.u.nscopes = q.nscopes := by
        rw [← h1, ← hs.sees.wld]; rfl
      -- the new frame
      have e1 : (enter f vars >>= fun c => try_ (R.body body c) >>= fun e => match leaves e with
          | .exit n => (exit_ n : Prog F (QVal F))
          | .normal => finish R c none
          | .panic p => finish R c (some p)) w1 = o := ho
      clear ho
      refine .bind (Q0 := fun _ u => u = (setQ s { s.u.u.setScope q.nscopes ⟨vars, .nil, none, f.parent :: (s.u.u.scopes f.parent).parents, [], (l ++ pre).length⟩ with nscopes := q.nscopes + 1 }).u)
        (.run (run_modQ _) rfl) ?_
      rintro _ s1 hs1
      generalize hw2 : (⟨fun i => if i = w1.count then ⟨vars, .nil, none, f.parent :: (w1.frames f.parent).parents, []⟩ else w1.frames i, w1.count + 1, w1.heap⟩ : World F) = w2
      have e2 : (try_ (R.body body q.nscopes) >>= fun e => match leaves e with
          | .exit n => (exit_ n : Prog F (QVal F))
          | .normal => finish R q.nscopes none
          | .panic p => finish R q.nscopes (some p)) w2 = o := by
        rw [← e1, ← hw2, ← h1]; rfl
      clear e1
      have im : s1.u.ipt = C.p ∧ s1.u.mute = 0 := by rw [hs1]; exact ⟨hs.ipt, hs.mute⟩
      generalize hB : (fun i => (s1.u.u.scopes i).base) = B
      have hBc : B q.nscopes = (l ++ pre).length := by
        rw [← hB, hs1]
        change (if q.nscopes = q.nscopes then _ else _ : Scope F).base = _
        rw [if_pos rfl]
      have hBi : ∀ i < C.N, B i = C.B i := by
        intro i hi
        rw [← hB, hs1]
        change (if i = q.nscopes then _ else _ : Scope F).base = _
        rw [if_neg (by omega)]
        exact hs.sees.base i hi
      have hsh : Shows (q.nscopes + 1) B (l ++ pre) w2 s1.u.u := by
        refine ⟨by rw [hs1]; exact hs.sees.stk, ?_, fun i _ => by rw [← hB], by rw [hs1]; exact Nat.le_refl _⟩
        rw [← hw2, hs1, h1, ← hs.sees.wld]
        simp only [setQ, world, QState.setScope]
        congr 1
        funext i
        by_cases h : i = q.nscopes
        · rw [if_pos h, if_pos h]; rfl
        · rw [if_neg h, if_neg h]
      clear hs1 hB hw2
      rw [bind_run] at e2
      have h3 := hR.body body q.nscopes (q.nscopes + 1) B (l ++ pre) (Nat.lt_succ_self _) hBc w2 _ rfl
      cases hy : R.body body q.nscopes w2 with
      | none =>
        rw [try_, hy] at e2
        rw [hy] at h3
        obtain rfl : none = o := e2
        unfold attempt
        refine .bind (Q0 := fun _ _ => False) (.recover (E0 := fun _ _ => False)
          (.bind (Q0 := fun _ _ => False) ((h3.resolve_left nofun s1 hsh).mono ?_ ?_ fun _ => rfl) fun _ _ h => h.elim) fun _ _ h => h.elim) fun _ _ h => h.elim
        · rintro _ u ⟨_, _, _, b, w', h4, _⟩; cases h4
        · rintro p u ⟨_, _, w', h4, _⟩; cases h4
      | some o3 =>
        obtain ⟨o3, w3⟩ := o3
        rw [try_, hy] at e2
        rw [hy] at h3
        dsimp only at e2
        have h3 := h3.resolve_left (fun ⟨w', h⟩ => hnl (by cases h; rw [← e2]; exact ⟨_, rfl⟩)) s1 hsh
        have fin : ∀ {vs B' s2 e}, finish R q.nscopes e w3 = o → (∀ i < C.N, B' i = C.B i) → s2.u.ipt = s1.u.ipt → s2.u.mute = s1.u.mute →
            Shows (q.nscopes + 1) B' (l ++ pre ++ vs) w3 s2.u.u →
            Halts K.fuel r.env (client H.lib r U).sem (leave r U q.nscopes (l ++ pre).length e >>= fun _ => do pure ((← getQ).scopes q.nscopes).ret) s2
              (OkPost C l o (fun v => (v, pre))) (ErrPost C l o) (o = none) := by
          intro vs B' s2 e h4 h5 h6 h7 h8
          refine (leave_ends hR (Nat.lt_succ_self _) h4 hnl h8).mono ?_ ?_ id
          · rintro a u ⟨i1, i2, w', i3, i4⟩
            exact ⟨a, w', i3, rfl, back (by omega) h5 (by rw [i2, h7, im.2]) (by rw [i1, h6, im.1]) i4⟩
          · rintro p u ⟨w', i3, i4⟩
            exact ⟨w', i3, backB (by omega) hc h5 i4⟩
        unfold attempt
        cases o3 with
        | ok v =>
          refine .bind (Q0 := fun a u => a = .inl none ∧ u.ipt = s1.u.ipt ∧ u.mute = s1.u.mute ∧ Shows (q.nscopes + 1) B (l ++ pre ++ [v]) w3 u.u)
            (.recover (E0 := fun _ _ => False) (.bind (h3.mono (fun _ _ h => h) ?_ nofun) ?_) fun _ _ h => h.elim) ?_
          · rintro p u ⟨_, _, w', h4, _⟩; cases h4
          · rintro _ s2 ⟨rfl, h4, h5, b, w', h6, h7⟩
            cases h6
            exact .pure ⟨rfl, h4, h5, h7⟩
          · rintro _ s2 ⟨rfl, h4, h5, h6⟩
            exact fin e2 hBi h4 h5 h6
        | error p =>
          refine .bind (Q0 := fun a u => a = .inr p ∧ u.ipt = s1.u.ipt ∧ u.mute = s1.u.mute ∧ Broken (q.nscopes + 1) q.nscopes B (l ++ pre) w3 u.u)
            (.recover (E0 := fun p' u => p' = p ∧ u.ipt = s1.u.ipt ∧ u.mute = s1.u.mute ∧ Broken (q.nscopes + 1) q.nscopes B (l ++ pre) w3 u.u)
              (.bind (Q0 := fun _ _ => False) (h3.mono ?_ ?_ nofun) fun _ _ h => h.elim) ?_) ?_
          · rintro _ u ⟨_, _, _, b, w', h4, _⟩; cases h4
          · rintro p' u ⟨h4, h5, w', h6, h7⟩; cases h6; exact ⟨rfl, h4, h5, h7⟩
          · rintro _ s2 ⟨rfl, h4⟩; exact .pure ⟨rfl, h4⟩
          · rintro _ s2 ⟨rfl, h4, h5, h6⟩
            have h7 : ∃ vs B', (∀ i < C.N, B' i = C.B i) ∧ Shows (q.nscopes + 1) B' (l ++ pre ++ vs) w3 s2.u.u := by
              obtain ⟨vs, hv⟩ := h6.stk
              refine ⟨vs, fun i => (s2.u.u.scopes i).base, fun i hi => ?_, hv.symm, h6.wld, fun _ _ => rfl, h6.count⟩
              exact (h6.base i (by omega) (by omega)).trans (hBi i hi)
            obtain ⟨vs, B', h8, h9⟩ := h7
            by_cases hx : ∃ n, p = .user (.other (.exit n))
            · obtain ⟨n, rfl⟩ := hx
              cases e2
              exact .panic ⟨w3, rfl, backB (by omega) hc hBi h6⟩
            · have hx : ∀ n, p ≠ .user (.other (.exit n)) := fun n h => hx ⟨n, h⟩
              rw [not_exit hx] at e2
              split
              · rename_i heq; cases heq; exact absurd rfl (hx _)
              · rename_i heq
                cases heq
                by_cases hr : isReturn p = true
                · rw [if_pos hr] at e2 ⊢
                  exact fin e2 h8 h4 h5 h9
                · rw [if_neg hr] at e2 ⊢
                  exact fin e2 h8 h4 h5 h9
              · rename_i heq; cases heq
  · have ha' : ¬ (if f.variadic then f.args.length ≤ args.length + 1 else args.length = f.args.length) := fun h => ha ((fits_iff _ _).mpr h)
    rw [if_neg ha, if_neg ha']
    exact .raise

end Tpl.Qlang.Src
