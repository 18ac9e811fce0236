import Verif.Proof.Qlang
import Verif.Proof.Builtin

/-
Lemmas on calls of qlang functions.
-/
namespace Tpl.Qlang
open Spec
variable {F : Type} {f : Nat} {m : Mat Str (QEng F) (IPanic QErr (QX (QVal F)))} {s : St (QEng F)}

theorem bindArgs_eq : ∀ (as : List Str) (vs : List (QVal F)) (vars : Str → Option (QVal F)) (x : Str),
    bindArgs as vs vars x = match lastOf x (as.zip vs) with
      | some v => some v
      | none => vars x
  | [], vs, vars, x => rfl
  | a :: as, [], vars, x => rfl
  | a :: as, v :: vs, vars, x => by
    rw [bindArgs, bindArgs_eq as vs, List.zip_cons_cons, lastOf]
    cases lastOf x (as.zip vs) with
    | some w => rfl
    | none =>
      dsimp only
      by_cases h : x = a
      · subst h; simp
      · rw [if_neg h, if_neg fun h' => h h'.symm]

theorem bindArgs_none (as : List Str) (vs : List (QVal F)) (x : Str) : bindArgs as vs (fun _ => none) x = lastOf x (as.zip vs) := by
  rw [bindArgs_eq]; cases lastOf x (as.zip vs) <;> rfl

theorem zip_take {α β : Type} : ∀ (as : List α) (bs : List β) (n : Nat), as.length = n → as.zip (bs.take n) = as.zip bs
  | [], bs, n, h => rfl
  | a :: as, [], n, h => by cases n <;> rfl
  | a :: as, b :: bs, n, h => by
    cases n with
    | zero => cases h
    | succ n => rw [List.take_succ_cons, List.zip_cons_cons, List.zip_cons_cons, zip_take as bs n (by simpa using h)]

theorem fits_iff (fn : Fun) (n : Nat) : fn.accepts n = true ↔ TakesArgs fn n := by
  unfold Fun.accepts TakesArgs
  split <;> simp

theorem isReturn_iff (p : QPanic F) : isReturn p = true ↔ IsReturn p := by
  constructor
  · intro h
    unfold isReturn at h
    split at h
    · exact ⟨_, _, rfl⟩
    · cases h
  · rintro ⟨g, src, rfl⟩; rfl

theorem run_liftH {α : Type} {x : HM F α} {a : α} {h' : Heap F} (h : x s.u.u.heap = (.ok a, h')) :
    (liftH x).run f m s = some (.ok a (setQ s { s.u.u with heap := h' })) := by
  unfold liftH
  rw [Go.bind_ok run_getQ]
  dsimp only
  rw [Go.bind_ok (run_modQ _), h]
  rfl

/-- The state in which the body of a function is evaluated. -/
theorem run_bind_params {M : Fl F} {fn : Fun} {args : List (QVal F)} (hv : fn.variadic = true → fn.args ≠ []) :
    ∃ vars h', (bindParams M fn args).run f m s = some (.ok vars (setQ s { s.u.u with heap := h' })) ∧
      Params fn args h' vars ∧ (∀ a < s.u.u.heap.next, h'.arrs a = s.u.u.heap.arrs a) ∧ h'.maps = s.u.u.heap.maps ∧ h'.objs = s.u.u.heap.objs := by
  unfold bindParams
  cases hvar : fn.variadic with
  | false =>
    exact ⟨_, s.u.u.heap, rfl, .fixed hvar (bindArgs_none _ _), fun _ _ => rfl, rfl, rfl⟩
  | true =>
    rcases List.eq_nil_or_concat fn.args with h0 | ⟨init, last, h0⟩
    · exact absurd h0 (hv hvar)
    have h0 : fn.args = init ++ [last] := by rw [h0]; simp
    have hlast : fn.args.getLast? = some last := by rw [h0]; simp
    have hlen : fn.args.length - 1 = init.length := by rw [h0]; simp
    have htake : fn.args.take init.length = init := by rw [h0]; simp
    rw [if_pos rfl, hlast]
    dsimp only
    rw [hlen, htake]
    obtain ⟨e, w⟩ := makeSlice_eq (M := M) .var (args.drop init.length).length s.u.u.heap
    obtain ⟨l, h1, _, h3⟩ := appendRaw_whole (M := M) (vals := args.drop init.length) w (by simp)
    have hr := run_liftH (f := f) (m := m) (s := s) (x := (do
        let s ← makeSlice M .var 0 (args.drop init.length).length
        appendRaw M s (args.drop init.length))) ((hm_bind_ok e).trans h1)
    rw [Go.bind_ok hr]
    refine ⟨_, _, rfl, .rest (sl := ⟨.var, s.u.u.heap.next, 0, 0 + (args.drop init.length).length, (args.drop init.length).length⟩)
      hvar h0 ?_ rfl ?_, ?_, rfl, rfl⟩
    · rw [h3]; simp [Heap.elems]
    · intro x
      split
      · rfl
      · rw [bindArgs_none, zip_take _ _ _ rfl]
    · intro a ha
      have : a ≠ s.u.u.heap.next := by omega
      simp [Heap.withArr, this]

theorem run_attempt {α : Type} (x : QM F α) : (attempt x).run f m s = (x.run f m s).map fun
    | .ok a s => .ok (.inl a) s
    | .panic p s => .ok (.inr p) s := by
  unfold attempt
  rw [Go.run_recover, Go.run_bind]
  cases x.run f m s with
  | none => rfl
  | some c => cases c <;> rfl

/-- Deferred expressions run in turn. -/
theorem deferLoop_inTurn {r : CompileRet Str} {U : Uni} {p : Nat} : ∀ (ds : List (QVal F)) (s : St (QEng F)) {c},
    (deferLoop r U p ds).run f m s = some c → InTurn (fun d s c => (evalPanic r U p (str "expr") d).run f m s = some c) ds s c
  | [], s, c, h => by cases h; exact .done s
  | d :: ds, s, c, h => by
    rw [deferLoop] at h
    rcases Go.bind_some.mp h with ⟨e, s', hp, rfl⟩ | ⟨a, s', hp, hc⟩
    · exact .panic hp
    · exact .next hp (deferLoop_inTurn ds s' hc)

theorem setFrame_ok {n : Nat} (h : n ≤ s.u.u.stk.length) : (setFrame n : QM F Unit).run f m s = some (.ok () (setQ s { s.u.u with stk := s.u.u.stk.take n })) := by
  unfold setFrame
  rw [Go.bind_ok run_getQ, if_pos h]
  rfl

theorem setFrame_panic {n : Nat} (h : ¬ n ≤ s.u.u.stk.length) : (setFrame n : QM F Unit).run f m s = some (.panic .slice s) := by
  unfold setFrame
  rw [Go.bind_ok run_getQ, if_neg h]
  rfl

/-- `Function.Call` once the parameters are bound. -/
def inBody (r : CompileRet Str) (U : Uni) (c base : Nat) (body : List Token) : QM F (QVal F) := do
  match ← attempt (Tpl.evalCode r U c (str "doc") (.tokens body)) with
  | .inr (.user (.other (.exit n))) => exit n
  | .inr p => do
    leave r U c base (if isReturn p then none else some p)
    pure ((← getQ).scopes c).ret
  | .inl err => do
    leave r U c base none
    match err with
    | some e => throwQ (subPanic e)
    | none => pure ((← getQ).scopes c).ret

theorem run_fnCall {M : Fl F} {r : CompileRet Str} {U : Uni} {fn : Fun} {args : List (QVal F)} {body : List Token}
    (hfit : TakesArgs fn args.length) (hb : fn.body = some body) (hv : fn.variadic = true → fn.args ≠ []) :
    ∃ s0, Entered fn args s.u.u s0.u.u ∧
      (fnCall M r U fn args).run f m s = (inBody r U s.u.u.nscopes s.u.u.stk.length body).run f m s0 := by
  obtain ⟨vars, h', hr, hp, h1, h2, h3⟩ := run_bind_params (f := f) (m := m) (s := s) (M := M) (args := args) hv
  refine ⟨setQ s { ({ s.u.u with heap := h' } : QState F).setScope s.u.u.nscopes
    ⟨vars, .nil, none, fn.parent :: (s.u.u.scopes fn.parent).parents, [], s.u.u.stk.length⟩ with nscopes := s.u.u.nscopes + 1 }, ?_, ?_⟩
  · refine ⟨⟨vars, ?_, hp⟩, ?_, rfl, rfl, h1, h2, h3⟩
    · show (if s.u.u.nscopes = s.u.u.nscopes then _ else _ : Scope F) = _
      rw [if_pos rfl]
    · intro i hi
      show (if i = s.u.u.nscopes then _ else _ : Scope F) = _
      rw [if_neg hi]
  · unfold fnCall
    rw [if_pos ((fits_iff _ _).mpr hfit), hb]
    dsimp only
    rw [Go.bind_ok run_getQ, Go.bind_ok hr, Go.bind_ok (run_modQ _)]
    rfl

/-- `leave`: deferred expressions, then the stack, then the panic goes on unless recovered. -/
theorem run_leave {r : CompileRet Str} {U : Uni} {k base : Nat} {e : Option (QPanic F)} {c} (h : (leave r U k base e).run f m s = some c) :
    ∃ d, InTurn (fun d s c => (evalPanic r U k (str "expr") d).run f m s = some c) (s.u.u.scopes k).defers
        (setQ s (s.u.u.modScope k fun c => { c with recov := e })) d ∧
      (∀ e' s', d = .panic e' s' → c = .panic e' s') ∧
      ∀ s2, d = .ok () s2 → (∃ p s3, c = .panic p s3 ∧ ¬ base ≤ s2.u.u.stk.length ∧ p = .slice ∧
          s3.u.u = s2.u.u.modScope k fun c => { c with defers := [] }) ∨
        base ≤ s2.u.u.stk.length ∧ ∃ s3, s3.u.u = { s2.u.u.modScope k (fun c => { c with defers := [] }) with stk := s2.u.u.stk.take base } ∧
          ((s2.u.u.scopes k).recov = none ∧ c = .ok () s3 ∨ ∃ p, (s2.u.u.scopes k).recov = some p ∧ c = .panic p s3) := by
  unfold leave execDefers at h
  rw [Go.bind_ok (show (modScope k fun s => { s with recov := e } : QM F Unit).run f m s = some (.ok () (setQ s (s.u.u.modScope k fun c => { c with recov := e }))) from rfl)] at h
  have hdef : ((setQ s (s.u.u.modScope k fun c => { c with recov := e })).u.u.scopes k).defers = (s.u.u.scopes k).defers := by
    show ((s.u.u.modScope k fun c => { c with recov := e }).scopes k).defers = _
    rw [scopes_mod, if_pos rfl]
  generalize setQ s (s.u.u.modScope k fun c => { c with recov := e }) = s1 at h hdef ⊢
  rw [← hdef]
  rcases Go.bind_some.mp h with ⟨p, s', hp, rfl⟩ | ⟨a, s', hp, hc⟩
  · rw [Go.bind_ok run_getQ] at hp
    rcases Go.bind_some.mp hp with ⟨p', s'', hp, hc⟩ | ⟨a, s'', hp, hc⟩
    · cases hc
      refine ⟨_, deferLoop_inTurn _ _ hp, ?_, by intro s2 h; cases h⟩
      intro e' s'' h; cases h; rfl
    · cases hc
  · rw [Go.bind_ok run_getQ] at hp
    rcases Go.bind_some.mp hp with ⟨p', s'', _, hc'⟩ | ⟨a, s2, hp2, hc'⟩
    · cases hc'
    · have hc' : (modScope k fun c => { c with defers := [] } : QM F Unit).run f m s2 = _ := hc'
      cases hc'
      refine ⟨_, deferLoop_inTurn _ _ hp2, (by intro e' s' h; cases h), ?_⟩
      intro s3 h3
      cases h3
      by_cases hle : base ≤ s2.u.u.stk.length
      · right
        refine ⟨hle, ?_⟩
        generalize hs3 : setQ s2 (s2.u.u.modScope k fun c => { c with defers := [] }) = s3
        change Go.run _ f m (setQ s2 (s2.u.u.modScope k fun c => { c with defers := [] })) = _ at hc
        rw [hs3] at hc
        have hle' : base ≤ s3.u.u.stk.length := by rw [← hs3]; exact hle
        rw [Go.bind_ok (setFrame_ok hle'), Go.bind_ok run_getQ] at hc
        have hrec : ((setQ s3 { s3.u.u with stk := s3.u.u.stk.take base }).u.u.scopes k).recov = (s2.u.u.scopes k).recov := by
          show (s3.u.u.scopes k).recov = _
          rw [← hs3]
          show ((s2.u.u.modScope k fun c => { c with defers := [] }).scopes k).recov = _
          rw [scopes_mod, if_pos rfl]
        rw [hrec] at hc
        refine ⟨setQ s3 { s3.u.u with stk := s3.u.u.stk.take base }, by rw [← hs3]; rfl, ?_⟩
        cases hr : (s2.u.u.scopes k).recov with
        | none => rw [hr] at hc; cases hc; exact .inl ⟨rfl, rfl⟩
        | some p => rw [hr] at hc; cases hc; exact .inr ⟨p, rfl, rfl⟩
      · left
        change Go.run _ f m (setQ s2 (s2.u.u.modScope k fun c => { c with defers := [] })) = _ at hc
        rw [Go.bind_panic (setFrame_panic (s := setQ s2 (s2.u.u.modScope k fun c => { c with defers := [] })) hle)] at hc
        cases hc
        exact ⟨_, _, rfl, hle, rfl, rfl⟩

/-- The body and the deferred expressions of a call. -/
theorem run_inBody {r : CompileRet Str} {U : Uni} {k base : Nat} {body : List Token} {c : QEnd F (QVal F)}
    (h : (inBody r U k base body).run f m s = some c) :
    (∃ p s1, IsExit p ∧ (Tpl.evalCode r U k (str "doc") (.tokens body)).run f m s = some (.panic p s1) ∧ c = .panic p s1) ∨
    ∃ rec s1, BodyEnds ((Tpl.evalCode r U k (str "doc") (.tokens body)).run f m) s rec s1 ∧
      ∃ d, InTurn (fun d s c => (evalPanic r U k (str "expr") d).run f m s = some c) (s1.u.u.scopes k).defers
        (setQ s1 (s1.u.u.modScope k fun c => { c with recov := rec })) d ∧
      (∀ e' s', d = .panic e' s' → c = .panic e' s') ∧
      ∀ s2, d = .ok () s2 → ((after c).scopes k).defers = [] ∧
        (¬ base ≤ s2.u.u.stk.length ∧ (∃ s3, c = .panic .slice s3) ∨
         base ≤ s2.u.u.stk.length ∧ (after c).stk = s2.u.u.stk.take base ∧
          ((∃ p s3, (s2.u.u.scopes k).recov = some p ∧ c = .panic p s3) ∨
           (s2.u.u.scopes k).recov = none ∧
            ((∃ e s3 s', (Tpl.evalCode r U k (str "doc") (.tokens body)).run f m s = some (.ok (some e) s') ∧ c = .panic (subPanic e) s3) ∨
             ∃ s3, c = .ok (s2.u.u.scopes k).ret s3))) := by
  unfold inBody at h
  have key : ∀ {rec : Option (QPanic F)} {k2 : Unit → QM F (QVal F)} {s1 : St (QEng F)}, (leave r U k base rec >>= k2).run f m s1 = some c →
      ∃ d, InTurn (fun d s c => (evalPanic r U k (str "expr") d).run f m s = some c) (s1.u.u.scopes k).defers
          (setQ s1 (s1.u.u.modScope k fun c => { c with recov := rec })) d ∧
        (∀ e' s', d = .panic e' s' → c = .panic e' s') ∧
        ∀ s2, d = .ok () s2 → (¬ base ≤ s2.u.u.stk.length ∧ ((after c).scopes k).defers = [] ∧ (∃ s3, c = .panic .slice s3)) ∨
          base ≤ s2.u.u.stk.length ∧ ∃ s3, s3.u.u = { s2.u.u.modScope k (fun c => { c with defers := [] }) with stk := s2.u.u.stk.take base } ∧
           ((∃ p, (s2.u.u.scopes k).recov = some p ∧ c = .panic p s3) ∨ (s2.u.u.scopes k).recov = none ∧ (k2 ()).run f m s3 = some c) := by
    intro rec k2 s1 h
    have hz : ∀ q : QState F, ((q.modScope k fun c => { c with defers := [] }).scopes k).defers = [] := by
      intro q; rw [scopes_mod, if_pos rfl]
    rcases Go.bind_some.mp h with ⟨p, s', hp, rfl⟩ | ⟨⟨⟩, s', hp, hc⟩
    · obtain ⟨d, h1, h2, h3⟩ := run_leave hp
      refine ⟨d, h1, ?_, ?_⟩
      · intro e' s2 hd; cases h2 e' s2 hd; rfl
      · intro s2 hd
        rcases h3 s2 hd with ⟨p', s3, hc, h4, h5, h6⟩ | ⟨h4, s3, h5, h6⟩
        · cases hc; subst h5
          refine .inl ⟨h4, ?_, _, rfl⟩
          show (s'.u.u.scopes k).defers = []
          rw [h6]; exact hz _
        · refine .inr ⟨h4, s3, h5, ?_⟩
          rcases h6 with ⟨_, h7⟩ | ⟨p', h7, h8⟩
          · cases h7
          · cases h8; exact .inl ⟨_, h7, rfl⟩
    · obtain ⟨d, h1, h2, h3⟩ := run_leave hp
      refine ⟨d, h1, ?_, ?_⟩
      · intro e' s2 hd; cases h2 e' s2 hd
      · intro s2 hd
        rcases h3 s2 hd with ⟨p', s3, hc, h4, h5, h6⟩ | ⟨h4, s3, h5, h6⟩
        · cases hc
        · refine .inr ⟨h4, s3, h5, ?_⟩
          rcases h6 with ⟨h7, h8⟩ | ⟨p', h7, h8⟩
          · cases h8; exact .inr ⟨h7, hc⟩
          · cases h8
  have fin : ∀ {rec : Option (QPanic F)} {k2 : Unit → QM F (QVal F)} {s1 : St (QEng F)}, (leave r U k base rec >>= k2).run f m s1 = some c →
      BodyEnds ((Tpl.evalCode r U k (str "doc") (.tokens body)).run f m) s rec s1 →
      (∀ s3 : St (QEng F), (k2 ()).run f m s3 = some c → (∃ e s', (Tpl.evalCode r U k (str "doc") (.tokens body)).run f m s = some (.ok (some e) s') ∧ c = .panic (subPanic e) s3) ∨
        c = .ok (s3.u.u.scopes k).ret s3) →
      ∃ rec s1, BodyEnds ((Tpl.evalCode r U k (str "doc") (.tokens body)).run f m) s rec s1 ∧
      ∃ d, InTurn (fun d s c => (evalPanic r U k (str "expr") d).run f m s = some c) (s1.u.u.scopes k).defers
        (setQ s1 (s1.u.u.modScope k fun c => { c with recov := rec })) d ∧
      (∀ e' s', d = .panic e' s' → c = .panic e' s') ∧
      ∀ s2, d = .ok () s2 → ((after c).scopes k).defers = [] ∧
        (¬ base ≤ s2.u.u.stk.length ∧ (∃ s3, c = .panic .slice s3) ∨
         base ≤ s2.u.u.stk.length ∧ (after c).stk = s2.u.u.stk.take base ∧
          ((∃ p s3, (s2.u.u.scopes k).recov = some p ∧ c = .panic p s3) ∨
           (s2.u.u.scopes k).recov = none ∧
            ((∃ e s3 s', (Tpl.evalCode r U k (str "doc") (.tokens body)).run f m s = some (.ok (some e) s') ∧ c = .panic (subPanic e) s3) ∨
             ∃ s3, c = .ok (s2.u.u.scopes k).ret s3))) := by
    intro rec k2 s1 h hb hk
    obtain ⟨d, h1, h2, h3⟩ := key h
    refine ⟨rec, s1, hb, d, h1, h2, fun s2 hd => ?_⟩
    rcases h3 s2 hd with ⟨h4, h5, h6⟩ | ⟨h4, s3, h5, h6⟩
    · exact ⟨h5, .inl ⟨h4, h6⟩⟩
    · have e1 : (s3.u.u.scopes k).defers = [] := by
        rw [h5]
        show ((s2.u.u.modScope k fun c => { c with defers := [] }).scopes k).defers = []
        rw [scopes_mod, if_pos rfl]
      have e2 : (s3.u.u.scopes k).ret = (s2.u.u.scopes k).ret := by
        rw [h5]
        show ((s2.u.u.modScope k fun c => { c with defers := [] }).scopes k).ret = _
        rw [scopes_mod, if_pos rfl]
      have e3 : s3.u.u.stk = s2.u.u.stk.take base := by rw [h5]
      rcases h6 with ⟨p, h7, rfl⟩ | ⟨h7, h8⟩
      · exact ⟨e1, .inr ⟨h4, e3, .inl ⟨p, s3, h7, rfl⟩⟩⟩
      · rcases hk s3 h8 with ⟨e, s', h9, rfl⟩ | rfl
        · exact ⟨e1, .inr ⟨h4, e3, .inr ⟨h7, .inl ⟨e, s3, s', h9, rfl⟩⟩⟩⟩
        · exact ⟨e1, .inr ⟨h4, e3, .inr ⟨h7, .inr ⟨s3, by rw [e2]⟩⟩⟩⟩
  rcases hx : (Tpl.evalCode r U k (str "doc") (.tokens body)).run f m s with _ | cx
  · rw [Go.run_bind, run_attempt, hx] at h; cases h
  cases cx with
  | ok err s1 =>
    rw [Go.bind_ok (by rw [run_attempt, hx]; rfl)] at h
    refine .inr (hx ▸ fin h (.ends hx) ?_)
    intro s3 h
    cases err with
    | some e => cases h; exact .inl ⟨e, s1, hx, rfl⟩
    | none => cases h; exact .inr rfl
  | panic p s1 =>
    rw [Go.bind_ok (by rw [run_attempt, hx]; rfl)] at h
    by_cases hex : IsExit p
    · obtain ⟨n, rfl⟩ := hex
      cases h
      exact .inl ⟨_, _, ⟨n, rfl⟩, rfl, rfl⟩
    · refine .inr (hx ▸ fin (rec := if isReturn p then none else some p) (s1 := s1) (k2 := fun _ => do pure ((← getQ).scopes k).ret) ?_ ?_ ?_)
      · split at h
        · rename_i n heq; cases heq; exact absurd ⟨n, rfl⟩ hex
        · rename_i heq; cases heq; exact h
        · rename_i heq; cases heq
      · by_cases hret : isReturn p = true
        · rw [if_pos hret]; exact .returns hx ((isReturn_iff p).mp hret)
        · rw [if_neg hret]; exact .panics hx (fun h' => hret ((isReturn_iff p).mpr h')) hex
      · intro s3 h; cases h; exact .inr rfl

/-! ### Control -/

theorem run_pop_snoc' {l : List (QVal F)} {v : QVal F} (h : s.u.u.stk = l ++ [v]) :
    (pop_ : QM F _).run f m s = some (.ok v (setQ s { s.u.u with stk := l })) := by
  unfold pop_
  rw [Go.bind_ok (run_pop_snoc h)]
  rfl

theorem run_popArity {l : List (QVal F)} {n : Int} (h : s.u.u.stk = l ++ [.int n]) :
    (popArity : QM F _).run f m s = some (.ok n (setQ s { s.u.u with stk := l })) := by
  unfold popArity
  rw [Go.bind_ok (run_pop_snoc h)]
  rfl

theorem run_popNArgs {l vs : List (QVal F)} {n : Int} (h : s.u.u.stk = l ++ vs) (hn : n = vs.length) :
    (popNArgs n : QM F _).run f m s = some (.ok vs (setQ s { s.u.u with stk := l })) := by
  subst hn
  unfold popNArgs
  rw [Go.bind_ok run_getQ]
  dsimp only
  rw [if_neg (by omega), if_pos (by rw [h]; simp), Go.bind_ok (run_modQ _), h]
  simp
  rfl

theorem length_flat {C : Type} : ∀ l : List (C × C), (flat l).length = 2 * l.length
  | [] => rfl
  | (c, b) :: more => by simp only [flat, List.length_cons, length_flat more]; omega

theorem endsUnit_bind {α : Type} {x : QM F α} {k : α → QM F Unit} {c} : EndsUnit f m (x >>= k) s c ↔
    (∃ e, EndsIn f m x s (.error e) ∧ c = .error e) ∨ ∃ a s1, EndsIn f m x s (.ok (a, s1)) ∧ EndsUnit f m (k a) s1 c := by
  cases c with
  | ok s' =>
    show (x >>= k).run f m s = _ ↔ _
    rw [Go.bind_some]
    constructor
    · rintro (⟨p, s1, _, h⟩ | ⟨a, s1, h1, h2⟩)
      · cases h
      · exact .inr ⟨a, s1, h1, h2⟩
    · rintro (⟨e, _, h⟩ | ⟨a, s1, h1, h2⟩)
      · cases h
      · exact .inr ⟨a, s1, h1, h2⟩
  | error e =>
    obtain ⟨p, s'⟩ := e
    show (x >>= k).run f m s = _ ↔ _
    rw [Go.bind_some]
    constructor
    · rintro (⟨p, s1, h1, h⟩ | ⟨a, s1, h1, h2⟩)
      · cases h; exact .inl ⟨(_, _), h1, rfl⟩
      · exact .inr ⟨a, s1, h1, h2⟩
    · rintro (⟨⟨p, s1⟩, h1, h⟩ | ⟨a, s1, h1, h2⟩)
      · cases h; exact .inl ⟨_, _, h1, rfl⟩
      · exact .inr ⟨a, s1, h1, h2⟩

theorem endsIn_bind {α β : Type} {x : QM F α} {k : α → QM F β} {c} : EndsIn f m (x >>= k) s c ↔
    (∃ e, EndsIn f m x s (.error e) ∧ c = .error e) ∨ ∃ a s1, EndsIn f m x s (.ok (a, s1)) ∧ EndsIn f m (k a) s1 c := by
  cases c with
  | ok a =>
    obtain ⟨b, s'⟩ := a
    show (x >>= k).run f m s = _ ↔ _
    rw [Go.bind_some]
    constructor
    · rintro (⟨p, s1, _, h⟩ | ⟨a, s1, h1, h2⟩)
      · cases h
      · exact .inr ⟨a, s1, h1, h2⟩
    · rintro (⟨e, _, h⟩ | ⟨a, s1, h1, h2⟩)
      · cases h
      · exact .inr ⟨a, s1, h1, h2⟩
  | error e =>
    obtain ⟨p, s'⟩ := e
    show (x >>= k).run f m s = _ ↔ _
    rw [Go.bind_some]
    constructor
    · rintro (⟨p, s1, h1, h⟩ | ⟨a, s1, h1, h2⟩)
      · cases h; exact .inl ⟨(_, _), h1, rfl⟩
      · exact .inr ⟨a, s1, h1, h2⟩
    · rintro (⟨⟨p, s1⟩, h1, h⟩ | ⟨a, s1, h1, h2⟩)
      · cases h; exact .inl ⟨_, _, h1, rfl⟩
      · exact .inr ⟨a, s1, h1, h2⟩

theorem endsUnit_throw {p : QPanic F} {c} : EndsUnit f m (throwQ p) s c ↔ c = .error (p, s) := by
  cases c with
  | ok s' => constructor <;> intro h <;> cases h
  | error e =>
    obtain ⟨q, s'⟩ := e
    constructor <;> intro h <;> cases h <;> rfl

theorem endsUnit_pure {c} : EndsUnit f m (pure () : QM F Unit) s c ↔ c = .ok s := by
  cases c with
  | ok s' => constructor <;> intro h <;> cases h <;> rfl
  | error e =>
    constructor <;> intro h <;> cases h

/-- What `if` does with the value of a condition. -/
def ifValue (r : CompileRet Str) (U : Uni) (p : Nat) (els : QVal F) (body : QVal F) (more : List (QVal F)) : QVal F → QM F Unit
  | .bool true => runBody r U p body
  | .bool false => ifLoop r U p els more
  | _ => throwQ (failErr .condNotBool)

theorem ifLoop_cons {r : CompileRet Str} {U : Uni} {p : Nat} {els cond body : QVal F} {more : List (QVal F)} :
    ifLoop r U p els (cond :: body :: more) = (condition r U p cond >>= ifValue r U p els body more) := by
  rw [ifLoop]
  unfold condition
  rw [bind_assoc]
  congr 1

theorem ifLoop_iff {r : CompileRet Str} {U : Uni} {p : Nat} {els : QVal F} : ∀ (l : List (QVal F × QVal F)) (s : St (QEng F)) (c),
    EndsUnit f m (ifLoop r U p els (flat l)) s c ↔
      IfRuns (fun c => EndsIn f m (condition r U p c)) (fun b => EndsUnit f m (runBody r U p b)) (failErr .condNotBool) els l s c
  | [], s, c => by
    constructor
    · intro h; exact .otherwise h
    · intro h; cases h; assumption
  | (cond, body) :: more, s, c => by
    rw [flat, ifLoop_cons, endsUnit_bind]
    constructor
    · rintro (⟨e, h1, rfl⟩ | ⟨v, s1, h1, h2⟩)
      · exact .panics h1
      · by_cases hb : ∃ x, v = .bool x
        · obtain ⟨x, rfl⟩ := hb
          cases x with
          | true => exact .first h1 h2
          | false => exact .next h1 ((ifLoop_iff more s1 c).mp h2)
        · have h3 : c = .error (failErr .condNotBool, s1) := by
            apply endsUnit_throw.mp
            cases v <;> first | exact h2 | exact absurd ⟨_, rfl⟩ hb
          subst h3
          exact .notBool h1 fun x hx => hb ⟨x, hx⟩
    · intro h
      cases h with
      | first hc hb => exact .inr ⟨_, _, hc, hb⟩
      | next hc hr => exact .inr ⟨_, _, hc, (ifLoop_iff more _ c).mpr hr⟩
      | notBool hc hn =>
        rename_i v s1
        refine .inr ⟨_, _, hc, ?_⟩
        cases v <;> first | rfl | exact absurd rfl (hn _)
      | panics hc => exact .inl ⟨_, hc, rfl⟩

/-- What `switch` does with the value of a case. -/
def switchValue (M : Fl F) (r : CompileRet Str) (U : Uni) (p : Nat) (on default body : QVal F) (more : List (QVal F)) (v : QVal F) : QM F Unit :=
  match equal M on v with
  | .ok true => runBody r U p body
  | .ok false => switchLoop M r U p on default more
  | .error e => throwQ e

theorem switchLoop_cons {M : Fl F} {r : CompileRet Str} {U : Uni} {p : Nat} {on default cond body : QVal F} {more : List (QVal F)} :
    switchLoop M r U p on default (cond :: body :: more) = (condition r U p cond >>= switchValue M r U p on default body more) := by
  rw [switchLoop]
  unfold condition
  rw [bind_assoc]
  congr 1
  funext _
  congr 1
  funext v
  unfold switchValue equal
  cases EQ M on v with
  | error e => rfl
  | ok w =>
    show (match w with
      | .bool true => runBody r U p body
      | _ => switchLoop M r U p on default more : QM F Unit) = _
    cases w <;> try rfl
    rename_i b
    cases b <;> rfl

theorem switchLoop_iff {M : Fl F} {r : CompileRet Str} {U : Uni} {p : Nat} {on default : QVal F} : ∀ (l : List (QVal F × QVal F)) (s : St (QEng F)) (c),
    EndsUnit f m (switchLoop M r U p on default (flat l)) s c ↔
      SwitchRuns (fun c => EndsIn f m (condition r U p c)) (fun b => EndsUnit f m (runBody r U p b)) (equal M on) default l s c
  | [], s, c => by
    constructor
    · intro h; exact .otherwise h
    · intro h; cases h; assumption
  | (cond, body) :: more, s, c => by
    rw [flat, switchLoop_cons, endsUnit_bind]
    constructor
    · rintro (⟨e, h1, rfl⟩ | ⟨v, s1, h1, h2⟩)
      · exact .panics h1
      · unfold switchValue at h2
        cases he : equal M on v with
        | error e =>
          rw [he] at h2
          rw [endsUnit_throw.mp h2]
          exact .refused h1 he
        | ok b =>
          rw [he] at h2
          cases b with
          | true => exact .first h1 he h2
          | false => exact .next h1 he ((switchLoop_iff more s1 c).mp h2)
    · intro h
      cases h with
      | first hc he hb => exact .inr ⟨_, _, hc, by unfold switchValue; rw [he]; exact hb⟩
      | next hc he hr => exact .inr ⟨_, _, hc, by unfold switchValue; rw [he]; exact (switchLoop_iff more _ c).mpr hr⟩
      | refused hc he => exact .inr ⟨_, _, hc, by unfold switchValue; rw [he]; exact endsUnit_throw.mpr rfl⟩
      | panics hc => exact .inl ⟨_, hc, rfl⟩

/-- The loop of `for`, seen as rounds. -/
theorem forLoop_runs {r : CompileRet Str} {U : Uni} {p : Nat} {cond step body : QVal F} : ∀ (n : Nat) (s : St (QEng F)) {c},
    Go.loopN (forRound r U p cond step body) f m n () s = some c →
      ForRuns (EndsIn f m (forCond r U p cond)) (EndsUnit f m (evalDrop r U p (str "doc") body)) (EndsUnit f m (evalDrop r U p (str "s") step)) s
        (match c with
        | .ok _ s => .ok s
        | .panic p s => .error (p, s))
  | 0, s, c, h => by cases h
  | n + 1, s, c, h => by
    rw [Go.loopN] at h
    have hr : ∀ d, (forRound r U p cond step body ()).run f m s = some d ↔ (do
        if ← forCond r U p cond then do
          evalDrop r U p (str "doc") body
          evalDrop r U p (str "s") step
          pure (.inl ())
        else pure (.inr ()) : QM F (Unit ⊕ Unit)).run f m s = some d := by
      intro d
      have : forRound r U p cond step body () = (do
        if ← forCond r U p cond then do
          evalDrop r U p (str "doc") body
          evalDrop r U p (str "s") step
          pure (.inl ())
        else pure (.inr ()) : QM F (Unit ⊕ Unit)) := by
        unfold forRound forCond
        cases cond <;> rfl
      rw [this]
    cases hx : (forRound r U p cond step body ()).run f m s with
    | none => rw [hx] at h; cases h
    | some d =>
      rw [hx] at h
      have hd := (hr d).mp hx
      rcases Go.bind_some.mp hd with ⟨e, s1, h1, rfl⟩ | ⟨b, s1, h1, h2⟩
      · cases h; exact .condPanics h1
      · cases b with
        | false =>
          rw [if_neg (by decide)] at h2
          cases h2
          cases h
          exact .stop h1
        | true =>
          rw [if_pos rfl] at h2
          rcases Go.bind_some.mp h2 with ⟨e, s2, hb, rfl⟩ | ⟨_, s2, hb, h3⟩
          · cases h; exact .bodyPanics h1 hb
          · rcases Go.bind_some.mp h3 with ⟨e, s3, hs, rfl⟩ | ⟨_, s3, hs, h4⟩
            · cases h; exact .stepPanics h1 hb hs
            · cases h4
              exact .round h1 hb hs (forLoop_runs n s3 h)

/-- The end as callbacks tell it. -/
def toEnd : Except (QPanic F × St (QEng F)) (St (QEng F)) → Cb Str (QEng F) (IPanic QErr (QX (QVal F))) Unit
  | .ok s => .ok () s
  | .error (p, s) => .panic p s

theorem endsUnit_iff {x : QM F Unit} {c} : EndsUnit f m x s c ↔ x.run f m s = some (toEnd c) := by
  cases c with
  | ok s' => exact Iff.rfl
  | error e => exact Iff.rfl

/-- The other way around: the loop comes to that end, given fuel for the rounds. -/
theorem runs_forLoop {r : CompileRet Str} {U : Uni} {p : Nat} {cond step body : QVal F} {s : St (QEng F)} {c}
    (h : ForRuns (EndsIn f m (forCond r U p cond)) (EndsUnit f m (evalDrop r U p (str "doc") body)) (EndsUnit f m (evalDrop r U p (str "s") step)) s c) :
    ∃ n, Go.loopN (forRound r U p cond step body) f m n () s = some (toEnd c) := by
  have hr : forRound r U p cond step body () = (do
      if ← forCond r U p cond then do
        evalDrop r U p (str "doc") body
        evalDrop r U p (str "s") step
        pure (.inl ())
      else pure (.inr ()) : QM F (Unit ⊕ Unit)) := by
    unfold forRound forCond
    cases cond <;> rfl
  induction h with
  | stop h1 =>
    refine ⟨1, ?_⟩
    rw [Go.loopN, hr, Go.bind_ok h1]
    rfl
  | round h1 h2 h3 _ ih =>
    obtain ⟨n, hn⟩ := ih
    refine ⟨n + 1, ?_⟩
    rw [Go.loopN, hr, Go.bind_ok h1, if_pos rfl, Go.bind_ok h2, Go.bind_ok h3]
    exact hn
  | condPanics h1 =>
    refine ⟨1, ?_⟩
    rw [Go.loopN, hr, Go.bind_panic h1]
    rfl
  | bodyPanics h1 h2 =>
    refine ⟨1, ?_⟩
    rw [Go.loopN, hr, Go.bind_ok h1, if_pos rfl, Go.bind_panic h2]
    rfl
  | stepPanics h1 h2 h3 =>
    refine ⟨1, ?_⟩
    rw [Go.loopN, hr, Go.bind_ok h1, if_pos rfl, Go.bind_ok h2, Go.bind_panic h3]
    rfl

theorem loopN_mono {α β : Type} (body : β → QM F (β ⊕ α)) {f f' : Nat} (hf : f ≤ f') : ∀ (n n' : Nat), n ≤ n' → ∀ b s c,
    Go.loopN body f m n b s = some c → Go.loopN body f' m n' b s = some c
  | 0, _, _, _, _, _, h => by cases h
  | n + 1, 0, hn, _, _, _, _ => by omega
  | n + 1, n' + 1, hn, b, s, c, h => by
    cases hx : (body b).run f m s with
    | none => rw [Go.loopN, hx] at h; cases h
    | some d =>
      rw [Go.loopN, hx] at h
      rw [Go.loopN, (body b).mono f f' m m hf (fun _ _ _ _ h => h) s d hx]
      match d, h with
      | .panic p s, h => exact h
      | .ok (.inl b) s, h => exact loopN_mono body hf n n' (by omega) b s c h
      | .ok (.inr a) s, h => exact h

end Tpl.Qlang
