import Verif.Proof.QlangMuted

/-! The marks of values: literals, operators, members, calls of Go functions. -/
namespace Tpl.Qlang.Src
open Spec
variable {F α β γ δ : Type}
variable {K : Bound} {H : Host F} {r : CompileRet Str} {U : Uni} {S : Setup F} {C : Conf} {l pre post : List (QVal F)} {w : World F}
variable {g : Gr Str} {ts : List Token} {n : Int} {y : Prog F β} {f : β → List (QVal F)}

/-- For marks that cannot fail. -/
def Setup.of (H : Host F) (g : Gr Str) : Setup F := ⟨H, fun _ => g, fun _ => none, fun _ => none, nofun, nofun⟩

namespace Trace

theorem name_ {t : Token} {b : β} (hf : f b = pre ++ [.str t.lit]) : Trace K H r U C l pre [ev "name" g (t :: ts) n] (pure b) f :=
  onStr (S := .of H g) (y := pure b) (x := fun _ s => push (.str s)) fun _ => .push (by rw [hf])

theorem pushn {b : β} (hf : f b = pre ++ [.nil]) : Trace K H r U C l pre [ev "pushn" g ts n] (pure b) f :=
  onStk (S := .of H g) (y := pure b) fun _ => .push (by rw [hf])

theorem arity {k : Nat} {b : β} (hf : f b = pre ++ [.int k]) (hs : g.Still (fun _ => False) := by exact trivial) :
    Trace K H r U C l pre [ev "ARITY" g ts k] (pure b) f := by
  refine act (S := .of H g) (y := pure b) (e := onLen) rfl rfl fun w o ho => lost_or fun hnl s h hl => ?_
  unfold Client.perform onLen markArgs
  simp only [show isLenMark (str "ARITY") = true from rfl, if_true, bind_assoc, pure_bind]
  refine .len ?_
  rw [hl hs]
  exact ((Does.push (by rw [hf])).unit ho).resolve_left hnl s h

theorem int_ {t : Token} (hg : S.site "pushi" = g := by rfl) :
    Trace K H r U C l pre [ev "pushi" g (t :: ts) n] (S.at "pushi" (t :: ts) (ofE (intLit t.lit))) (fun v => pre ++ [v]) := by
  refine act rfl hg fun w o ho => lost_or fun hnl s h hl => ?_
  unfold Client.perform markArgs
  simp only [show isLenMark (str "pushi") = false from rfl, if_false, Bool.false_eq_true, litArg, bind_assoc, pure_bind]
  unfold intLit at ho
  cases hp : ParseInt t.lit with
  | panic => rw [hp] at ho; exact ((Does.raise (f := fun v => ((), pre ++ [v]))).unit ho).resolve_left hnl s h
  | ok x =>
    rw [hp] at ho
    cases x with
    | error e => exact ((Does.raise (f := fun v => ((), pre ++ [v]))).unit ho).resolve_left hnl s h
    | ok v => exact ((Does.push (b := QVal.int v) rfl).unit ho).resolve_left hnl s h

theorem float_ {t : Token} (hg : S.site "pushf" = g := by rfl) :
    Trace K H r U C l pre [ev "pushf" g (t :: ts) n] (S.at "pushf" (t :: ts) (ofE (floatLit H t.lit))) (fun v => pre ++ [v]) := by
  refine act rfl hg fun w o ho => lost_or fun hnl s h hl => ?_
  unfold Client.perform markArgs
  simp only [show isLenMark (str "pushf") = false from rfl, if_false, Bool.false_eq_true, litArg, bind_assoc, pure_bind]
  unfold floatLit at ho
  rw [show (client H.lib r U).lits = H.fl.lits from rfl]
  cases hp : ParseFloat H.fl.lits t.lit with
  | panic => rw [hp] at ho; exact ((Does.raise (f := fun v => ((), pre ++ [v]))).unit ho).resolve_left hnl s h
  | ok x =>
    rw [hp] at ho
    cases x with
    | error e => exact ((Does.raise (f := fun v => ((), pre ++ [v]))).unit ho).resolve_left hnl s h
    | ok v => exact ((Does.push (b := QVal.float v) rfl).unit ho).resolve_left hnl s h

theorem string_ {t : Token} (hg : S.site "pushs" = g := by rfl) :
    Trace K H r U C l pre [ev "pushs" g (t :: ts) n] (S.at "pushs" (t :: ts) (ofE (stringLit H t.lit))) (fun v => pre ++ [v]) := by
  refine onStr (x := fun _ s => pushString H.lib s) (fun w => ?_) rfl hg
  unfold pushString stringLit
  change Does _ _ _ _ _ _ _ (match H.unquote t.lit with | none => _ | some v => _) _ _ _
  cases H.unquote t.lit with
  | none => exact .raise
  | some v => exact .push rfl

theorem char_ {t : Token} (hg : S.site "pushc" = g := by rfl) :
    Trace K H r U C l pre [ev "pushc" g (t :: ts) n] (S.at "pushc" (t :: ts) (ofE (charLit H t.lit))) (fun v => pre ++ [v]) := by
  refine onStr (x := fun _ s => pushByte H.lib s) (fun w => ?_) rfl hg
  unfold pushByte charLit
  change Does _ _ _ _ _ _ _ (match H.unquoteChar ((t.lit.drop 1).take (t.lit.length - 2)) with | none => _ | some (v, multibyte, tail) => _) _ _ _
  cases H.unquoteChar ((t.lit.drop 1).take (t.lit.length - 2)) with
  | none => exact .raise
  | some v =>
    obtain ⟨v, m, tail⟩ := v
    cases m with
    | true => simp only [or_true, if_true]; exact .raise
    | false =>
      cases tail with
      | cons => simp; exact .raise
      | nil => simp; exact .push rfl

end Trace

/-! ### Calls of Go functions -/

/-- How `PopArgs` passes a value. -/
def view : QVal F → Option (QVal F)
  | .nil => none
  | v => some v

theorem view_some {v : QVal F} (h : v ≠ .nil) : view v = some v := by cases v <;> first | rfl | exact absurd rfl h

theorem view_getD (v : QVal F) : (view v).getD .nil = v := by cases v <;> rfl

namespace Does
variable {y : Prog F δ} {f : δ → γ × List (QVal F)}

theorem popArgs {k : Option (List (Option (QVal F))) → QM F γ} {vs : List (QVal F)} {m : Nat} (h : Does K H r U C l post (k (some (vs.map view))) y f w)
    (hn : m = vs.length) (hp : pre = post ++ vs := by rfl) : Does K H r U C l pre (Qlang.popArgs m >>= k) y f w := by
  refine skip (post := post) (a := some (vs.map view)) ?_ h
  intro fu mm s hs
  subst hn hp
  refine ⟨setQ s { s.u.u with stk := l ++ post }, ?_, hs.setStk⟩
  have hstk := hs.sees.stk
  unfold Qlang.popArgs
  rw [Go.bind_ok run_getQ]
  dsimp only
  rw [hstk, if_pos (by simp; omega)]
  rw [Go.bind_ok (run_modQ _)]
  have h1 : (l ++ (post ++ vs)).length - vs.length = (l ++ post).length := by simp; omega
  rw [h1, ← List.append_assoc, List.take_left, List.drop_left]
  rfl

theorem panic_bind {p : QPanic F} {k : α → QM F γ} : (throwQ p >>= k) = throwQ p := by
  apply Go.ext
  intro f m s
  rw [Go.bind_panic (run_throwQ p)]
  rfl

end Does

theorem raise_bind {p : QPanic F} {k : α → Prog F γ} : (raise p >>= k) = raise p := rfl

/-- The checks of arguments agree. -/
inductive Checked (x : QM F (Except (CallErr QErr) (List (Option (QVal F))))) (res : Except (QPanic F) (List (QVal F))) (n : Nat) : Prop
  | ok (ws : List (QVal F)) (h : res = .ok ws) (hl : ws.length = n) (hx : x = pure (.ok (ws.map some)))
  | bad (e : CallErr QErr) (h : res = .error (failErr (.call e))) (hx : x = pure (.error e))
  | fault (h : res = .error valueErr) (hx : x = throwQ valueErr)

theorem validate_pass (v : QVal F) (t : GoTy) :
    (∃ w, pass H t v = .ok w ∧ validateType (E := QErr) (X := QX (QVal F)) (I := Nat) (τ := QState F) (qrefl H.fl) (view v) t = pure (.ok (some w))) ∨
    (∃ e, pass H t v = .error (failErr (.call e)) ∧ validateType (E := QErr) (X := QX (QVal F)) (I := Nat) (τ := QState F) (qrefl H.fl) (view v) t = pure (.error e)) ∨
    (pass H t v = .error valueErr ∧ validateType (E := QErr) (X := QX (QVal F)) (I := Nat) (τ := QState F) (qrefl H.fl) (view v) t = throwQ valueErr) := by
  unfold pass validateType
  by_cases h1 : t.kind = 20 ∨ t.kind = 22
  · simp only [if_pos h1]
    exact .inl ⟨v, rfl, by rw [show (qrefl H.fl).zero t = .nil from rfl, view_getD]⟩
  · simp only [if_neg h1]
    by_cases hv : v = .nil
    · subst hv
      exact .inr (.inr ⟨rfl, rfl⟩)
    · rw [view_some hv]
      have : ∃ u, v.ty = some u := by cases v <;> first | exact ⟨_, rfl⟩ | exact absurd rfl hv
      obtain ⟨u, hu⟩ := this
      simp only [hu]
      split
      · exact .inl ⟨_, rfl, rfl⟩
      · split
        · exact .inl ⟨_, rfl, rfl⟩
        · exact .inr (.inl ⟨_, rfl, rfl⟩)

theorem validateAll_checked : ∀ (ts : List GoTy) (vs : List (QVal F)), ts.length = vs.length →
    Checked (validateAll (qrefl H.fl) (vs.map view) ts) (passAll H ts vs) vs.length
  | [], [], _ => .ok [] rfl rfl rfl
  | t :: ts, v :: vs, h => by
    have ih := validateAll_checked ts vs (by simpa using h)
    unfold validateAll passAll
    rw [List.map_cons]
    dsimp only
    rcases validate_pass (H := H) v t with ⟨w, h1, h2⟩ | ⟨e, h1, h2⟩ | ⟨h1, h2⟩
    · rw [h1, h2]
      rcases ih with ⟨ws, h3, hl, h4⟩ | ⟨e, h3, h4⟩ | ⟨h3, h4⟩
      · rw [h3, h4]
        exact .ok (w :: ws) rfl (by simp [hl]) rfl
      · rw [h3, h4]
        exact .bad e rfl rfl
      · rw [h3, h4]
        exact .fault rfl rfl
    · rw [h1, h2]
      exact .bad e rfl rfl
    · rw [h1, h2]
      exact .fault rfl Does.panic_bind

/-- Without the last check, which is made by the call. -/
def passTypes (H : Host F) (ins : List GoTy) (rest : Option GoTy) (args : List (QVal F)) : Except (QPanic F) (List (QVal F)) := do
  let ws ← match rest with
    | none => pure []
    | some t => passAll H (List.replicate (args.length - ins.length) t) (args.drop ins.length)
  let vs ← passAll H ins (args.take ins.length)
  pure (vs ++ ws)

/-- So many arguments are right. -/
def Takes {M : Type → Type} (fn : GoFn M (QVal F)) (n : Nat) : Prop := match fn.rest with
  | none => n = fn.ins.length
  | some _ => fn.ins.length ≤ n

theorem passArgs_types (ins : List GoTy) (rest : Option GoTy) (args : List (QVal F)) : passArgs H ins rest args = (do
    let vs ← passTypes H ins rest args
    if (vs.zip (ins ++ List.replicate (args.length - ins.length) (rest.getD anyTy))).all fun (v, t) => (qrefl H.fl).assignable v t then pure vs
    else .error reflectMsg) := by
  unfold passArgs passTypes
  cases rest <;> simp only [bind_assoc, pure_bind]

theorem validateArgs_checked {M : Type → Type} (fn : GoFn M (QVal F)) (args : List (QVal F)) (hn : Takes fn args.length) :
    Checked (validateArgs (qrefl H.fl) fn.ins fn.rest (args.map view)) (passTypes H fn.ins fn.rest args) args.length := by
  unfold validateArgs passTypes Takes at *
  cases hr : fn.rest with
  | none =>
    rw [hr] at hn
    dsimp only at hn ⊢
    rw [show args.take fn.ins.length = args by rw [← hn, List.take_length]]
    rcases validateAll_checked (H := H) fn.ins args hn.symm with ⟨ws, h3, hl, h4⟩ | ⟨e, h3, h4⟩ | ⟨h3, h4⟩
    · rw [h3, h4]
      exact .ok ws (by change Except.ok (ws ++ []) = _; rw [List.append_nil]) hl rfl
    · rw [h3, h4]; exact .bad e rfl rfl
    · rw [h3, h4]; exact .fault rfl rfl
  | some t =>
    rw [hr] at hn
    dsimp only at hn ⊢
    have h1 := validateAll_checked (H := H) (List.replicate (args.length - fn.ins.length) t) (args.drop fn.ins.length) (by simp)
    have h2 := validateAll_checked (H := H) fn.ins (args.take fn.ins.length) (by simp; omega)
    rw [List.map_drop] at h1
    rw [List.map_take] at h2
    rw [List.length_map]
    rcases h1 with ⟨ws, h3, hl, h4⟩ | ⟨e, h3, h4⟩ | ⟨h3, h4⟩
    · rw [h3, h4]
      rcases h2 with ⟨vs, h5, hl', h6⟩ | ⟨e, h5, h6⟩ | ⟨h5, h6⟩
      · simp only [pure_bind]
        rw [h5, h6]
        exact .ok (vs ++ ws) rfl (by simp at hl hl'; simp [hl, hl']; omega) (by simp)
      · simp only [pure_bind]
        rw [h6]
        exact .bad e (by change ((passAll H _ _) >>= _) = _; rw [h5]; rfl) rfl
      · simp only [pure_bind]
        rw [h6]
        exact .fault (by change ((passAll H _ _) >>= _) = _; rw [h5]; rfl) Does.panic_bind
    · rw [h3, h4]; exact .bad e rfl rfl
    · rw [h3, h4]; exact .fault rfl Does.panic_bind

/-! ### The heap -/

theorem onHeap_bind (x : HM F α) (k : α → HM F γ) : onHeap (x >>= k) = (onHeap x >>= fun a => onHeap (k a)) := by
  funext w
  change some ((HM.andThen x k w.heap).1, { w with heap := (HM.andThen x k w.heap).2 }) = Prog.andThen (onHeap x) _ w
  unfold HM.andThen Prog.andThen onHeap
  rcases x w.heap with ⟨a | a, h⟩ <;> rfl

theorem onHeap_pure (a : α) : onHeap (pure a : HM F α) = pure a := rfl
theorem onHeap_throw (p : QPanic F) : (onHeap (HM.throw p) : Prog F α) = raise p := rfl
theorem onHeap_lift (e : Except (QPanic F) α) : onHeap (HM.lift e) = ofE e := by cases e <;> rfl
theorem onHeap_get : onHeap (HM.get : HM F (Heap F)) = theHeap := rfl

theorem Does.pushRet {outs : List (QVal F)} : Does K H r U C l pre (Qlang.pushRet H.fl outs) (onHeap (results H outs)) (fun v => (none, pre ++ [v])) w := by
  unfold Qlang.pushRet
  match outs with
  | [] => exact Does.push_ (.ret rfl)
  | [v] => exact Does.push_ (.ret rfl)
  | v :: v' :: vs =>
    unfold results
    simp only
    rw [onHeap_bind]
    refine Does.bind (Does.liftH (f := fun a => (a, pre))) fun s w' _ => ?_
    exact Does.push_ (.ret rfl)

/-- What `DoCall` and `VCall` do with arguments. -/
def runFn (M : Fl F) (fn : GoFn (QM F) (QVal F)) (ins : List (Option (QVal F))) : QM F (Option (CallErr QErr)) := do
  match ← validateArgs (qrefl M) fn.ins fn.rest ins with
  | .error e => pure (some e)
  | .ok ins => do
    let out ← reflectCall (qrefl M) fn ins
    match ← Qlang.pushRet M out with
    | none => pure none
    | some e => pure (some (.ret e))

theorem filterMap_some : ∀ ws : List α, (ws.map some).filterMap id = ws
  | [] => rfl
  | w :: ws => by rw [List.map_cons, List.filterMap_cons]; simp [filterMap_some ws]

theorem all_some {p : QVal F → GoTy → Bool} {q : Option (QVal F) × GoTy → Bool} (hq : ∀ w t, q (some w, t) = p w t) :
    ∀ (ws : List (QVal F)) (ts : List GoTy), ((ws.map some).zip ts).all q = (ws.zip ts).all fun (v, t) => p v t
  | [], _ => rfl
  | _ :: _, [] => rfl
  | w :: ws, t :: ts => by
    rw [List.map_cons, List.zip_cons_cons, List.zip_cons_cons, List.all_cons, List.all_cons, all_some hq ws ts, hq]

theorem reflectCall_some (R : Reflect (QVal F)) (fn : GoFn (QM F) (QVal F)) (ws : List (QVal F)) : reflectCall R fn (ws.map some) =
    if ws.length = (fn.types ws.length).length ∧ ((ws.zip (fn.types ws.length)).all fun (v, t) => R.assignable v t) = true then fn.body ws
    else throwQ reflectMsg := by
  unfold reflectCall
  rw [List.length_map, filterMap_some]
  by_cases h : ws.length = (fn.types ws.length).length ∧ ((ws.zip (fn.types ws.length)).all fun (v, t) => R.assignable v t) = true
  · rw [if_pos h]
    exact if_pos ⟨h.1, (all_some (p := R.assignable) (fun _ _ => rfl) _ _).trans h.2⟩
  · rw [if_neg h]
    exact if_neg fun h' => h ⟨h'.1, (all_some (p := R.assignable) (fun _ _ => rfl) _ _).symm.trans h'.2⟩

theorem types_eq {M : Type → Type} (fn : GoFn M (QVal F)) {n : Nat} (hn : Takes fn n) :
    fn.types n = fn.ins ++ List.replicate (n - fn.ins.length) (fn.rest.getD anyTy) ∧ (fn.types n).length = n := by
  unfold GoFn.types Takes at *
  cases hr : fn.rest with
  | none =>
    rw [hr] at hn
    dsimp only at hn ⊢
    rw [hn]
    simp
  | some t =>
    rw [hr] at hn
    dsimp only at hn ⊢
    simp
    omega

/-- The checks and the call. -/
theorem Does.runFn {fn : GoFn (QM F) (QVal F)} {args : List (QVal F)} (hn : Takes fn args.length) {k : Option (CallErr QErr) → QM F Unit}
    (hk : ∀ e, passArgs H fn.ins fn.rest args = .error (failErr (.call e)) → k (some e) = throwQ (failErr (.call e))) (hk0 : k none = pure ())
    {y : List (QVal F) → Prog F (List (QVal F))}
    (hb : ∀ args', passArgs H fn.ins fn.rest args = .ok args' → Does K H r U C l pre (fn.body args') (y args') (fun outs => (outs, pre)) w) :
    Does K H r U C l pre (Src.runFn H.fl fn (args.map view) >>= k) (do
      let args ← ofE (passArgs H fn.ins fn.rest args)
      let outs ← y args
      onHeap (results H outs)) (fun v => ((), pre ++ [v])) w := by
  unfold Src.runFn
  rw [passArgs_types] at hk hb ⊢
  rcases validateArgs_checked (H := H) fn args hn with ⟨ws, h3, hl, h4⟩ | ⟨e, h3, h4⟩ | ⟨h3, h4⟩
  · rw [h4]
    simp only [h3] at hb ⊢
    simp only [bind_assoc, pure_bind]
    change Does _ _ _ _ _ _ _ _ (ofE (if _ then _ else _) >>= _) _ _
    rw [reflectCall_some, hl]
    obtain ⟨t1, t2⟩ := types_eq fn hn
    by_cases hc : ((ws.zip (fn.ins ++ List.replicate (args.length - fn.ins.length) (fn.rest.getD anyTy))).all fun (v, t) => (qrefl H.fl).assignable v t) = true
    · rw [if_pos ⟨t2.symm, by rw [t1]; exact hc⟩, if_pos hc]
      change Does _ _ _ _ _ _ _ _ (y ws >>= _) _ _
      refine Does.bind (hb ws ?_) fun outs w' _ => ?_
      · change (if _ then _ else _) = _
        rw [if_pos hc]
        rfl
      · have := Does.bind (K := K) (H := H) (r := r) (U := U) (C := C) (l := l) (pre := pre) (w := w') (Does.pushRet (outs := outs)) (g := pure) (k := fun x => (match x with
          | none => pure none
          | some e => pure (some (.ret e))) >>= k) (f' := fun v => ((), pre ++ [v])) fun v w'' _ => by
            simp only [pure_bind, hk0]
            exact .ret rfl
        simpa only [bind_pure] using this
    · rw [if_neg (fun h => hc (by rw [← t1]; exact h.2)), if_neg hc]
      rw [Does.panic_bind]
      exact .raise
  · rw [h4]
    simp only [h3] at hk ⊢
    simp only [pure_bind]
    rw [hk e rfl]
    exact .raise
  · rw [h4, Does.panic_bind]
    simp only [h3]
    rw [Does.panic_bind]
    exact .raise

/-! ### Operators -/

theorem doCall_pos (M : Fl F) (fn : GoFn (QM F) (QVal F)) (k : Nat) : doCall (qrefl M) (qstack M) fn (k + 1) = (do
    match ← Qlang.popArgs (k + 1) with
    | none => pure (some .damaged)
    | some args => runFn M fn args) := by
  unfold doCall
  rw [if_pos (Nat.succ_pos k)]
  refine bind_congr fun a => ?_
  cases a with
  | none => rfl
  | some args =>
    refine bind_congr fun e => ?_
    cases e with
    | error => rfl
    | ok ins =>
      refine bind_congr fun out => bind_congr fun e => ?_
      cases e <;> rfl

theorem doCall_zero (M : Fl F) (b : List (QVal F) → QM F (QVal F)) : doCall (qrefl M) (qstack M) (fnN b) 0 = runFn M (fnN b) [] := by
  unfold doCall
  rw [if_neg (Nat.lt_irrefl 0)]
  refine bind_congr fun out => bind_congr fun e => ?_
  cases e <;> rfl

theorem Trace.plain {m : String} {fn : GoFn (QM F) (QVal F)} {vs : List (QVal F)} {y : List (QVal F) → Prog F (List (QVal F))}
    (hl : (marks H.lib r U).lookup (str m) = some (.plain fn)) (hg : S.site m = g) (hr : fn.rest = none) (hn : vs.length = fn.ins.length) (h0 : vs ≠ [])
    (hp : passArgs H fn.ins fn.rest vs = .ok vs)
    (hb : ∀ w, Does K H r U C l pre (fn.body vs) (y vs) (fun outs => (outs, pre)) w) :
    Trace K H r U C l (pre ++ vs) [ev m g ts n] (S.at m ts (y vs >>= fun outs => onHeap (results H outs))) (fun v => pre ++ [v]) := by
  refine act hl hg fun w o ho => lost_or fun hnl s h _ => ?_
  have : Does K H r U C l (pre ++ vs) ((client H.lib r U).perform (str m) (.plain fn) ts g) (y vs >>= fun outs => onHeap (results H outs))
      (fun v => ((), pre ++ [v])) w := by
    unfold Client.perform
    change Does _ _ _ _ _ _ _ (doCall (qrefl H.fl) (qstack H.fl) fn fn.ins.length >>= _) _ _ _
    obtain ⟨k, hk⟩ : ∃ k, fn.ins.length = k + 1 := by
      rw [← hn]
      cases vs with
      | nil => exact absurd rfl h0
      | cons v vs => exact ⟨_, rfl⟩
    rw [hk, doCall_pos, bind_assoc]
    refine Does.popArgs (vs := vs) (post := pre) ?_ (by rw [hn, hk])
    refine (Does.runFn (by unfold Takes; rw [hr]; exact hn) ?_ rfl (y := y) ?_).congr ?_
    · intro e he
      rw [hp] at he
      cases he
    · intro args' he
      rw [hp] at he
      cases he
      exact hb w
    · rw [hp]
      rfl
  exact (this.unit ho).resolve_left hnl s h

theorem one_result {e : Prog F (QVal F)} : ((e >>= fun v => pure [v]) >>= fun outs => onHeap (results H outs)) = e := by
  rw [bind_assoc]
  simp only [pure_bind]
  exact bind_pure e

theorem no_result {e : Prog F α} {k : α → Prog F (QVal F)} (hk : ∀ a, k a = pure .nil) :
    ((e >>= fun _ => pure []) >>= fun outs => onHeap (results H outs)) = e >>= k := by
  rw [bind_assoc]
  simp only [pure_bind]
  congr 1
  funext a
  rw [hk]
  rfl

theorem Trace.op1_ {m : String} {op : QVal F → QRes F} {a : QVal F} (hl : (marks H.lib r U).lookup (str m) = some (op1 op))
    (hg : S.site m = g := by rfl) : Trace K H r U C l (pre ++ [a]) [ev m g ts n] (S.at m ts (ofE (op a))) (fun v => pre ++ [v]) := by
  have := Trace.plain (K := K) (S := S) (m := m) (ts := ts) (n := n) (C := C) (l := l) (pre := pre) (vs := [a]) (y := fun _ => ofE (op a) >>= fun v => pure [v])
    hl hg rfl rfl nofun rfl fun w => Does.bind (Does.liftE (f := fun a => (a, pre))) fun b w' _ => .ret rfl
  rwa [one_result] at this

theorem Trace.op2_ {m : String} {op : QVal F → QVal F → QRes F} {a b : QVal F} (hl : (marks H.lib r U).lookup (str m) = some (op2 op))
    (hg : S.site m = g := by rfl) : Trace K H r U C l (pre ++ [a, b]) [ev m g ts n] (S.at m ts (ofE (op a b))) (fun v => pre ++ [v]) := by
  have := Trace.plain (K := K) (S := S) (m := m) (ts := ts) (n := n) (C := C) (l := l) (pre := pre) (vs := [a, b]) (y := fun _ => ofE (op a b) >>= fun v => pure [v])
    hl hg rfl rfl nofun rfl fun w => Does.bind (Does.liftE (f := fun a => (a, pre))) fun b w' _ => .ret rfl
  rwa [one_result] at this

/-! ### Lists -/

theorem passAll_any : ∀ vs : List (QVal F), passAll H (List.replicate vs.length anyTy) vs = .ok vs
  | [] => rfl
  | v :: vs => by
    rw [List.length_cons, List.replicate_succ, passAll, passAll_any vs]
    rfl

theorem assign_any : ∀ (vs : List (QVal F)) k, ((vs.zip (List.replicate k anyTy)).all fun (v, t) => (qrefl H.fl).assignable v t) = true
  | [], _ => rfl
  | _ :: _, 0 => rfl
  | v :: vs, k + 1 => by
    rw [List.replicate_succ, List.zip_cons_cons, List.all_cons, assign_any vs k]
    rfl

/-- Any values for parameters of type `interface{}`. -/
theorem passArgs_any (vs : List (QVal F)) : passArgs H [] (some anyTy) vs = .ok vs := by
  rw [passArgs_types]
  unfold passTypes
  simp only [List.length_nil, Nat.sub_zero, List.drop_zero, List.take_zero, List.nil_append, Option.getD_some]
  rw [passAll_any]
  change (if _ then _ else _) = _
  rw [if_pos (assign_any _ _)]
  rfl

theorem callResult_bind {x : QM F (Option (CallErr QErr))} {k : Unit → QM F α} : x >>= callResult >>= k = (x >>= fun e => callResult e >>= k) := bind_assoc _ _ _

/-- The list of values of `[...]` and `{...}`. -/
theorem Does.callN {vs : List (QVal F)} {fb : List (QVal F) → HM F (QVal F)} {k : Int} (hk : k = (vs.length : Int)) :
    Does K H r U C l (pre ++ vs) (Tpl.call (qrefl H.fl) (qstack H.fl) (fnN fun vs => Qlang.liftH (fb vs)) k >>= callResult) (onHeap (fb vs))
      (fun v => ((), pre ++ [v])) w := by
  unfold Tpl.call
  change Does _ _ _ _ _ _ _ ((if k < (0 : Nat) then _ else _) >>= _) _ _ _
  rw [if_neg (by omega), hk, Int.toNat_natCast]
  have run := Does.runFn (K := K) (H := H) (r := r) (U := U) (C := C) (l := l) (pre := pre) (w := w) (fn := fnN fun vs => Qlang.liftH (fb vs)) (args := vs)
    (k := callResult) (y := fun vs => onHeap (fb vs) >>= fun v => pure [v]) (Nat.zero_le _) (fun e _ => rfl) rfl
    fun args' _ => Does.bind (Does.liftH (f := fun a => (a, pre))) fun b w' _ => .ret rfl
  rw [show (fnN fun vs => Qlang.liftH (fb vs)).ins = [] from rfl, show (fnN fun vs => Qlang.liftH (fb vs)).rest = some anyTy from rfl, passArgs_any] at run
  have run : Does K H r U C l pre (Src.runFn H.fl (fnN fun vs => Qlang.liftH (fb vs)) (vs.map view) >>= callResult) (onHeap (fb vs))
      (fun v => ((), pre ++ [v])) w := run.congr (by
    conv => lhs; rw [← one_result (H := H) (e := onHeap (fb vs))]
    rfl)
  cases vs with
  | nil =>
    rw [List.append_nil, List.length_nil, doCall_zero]
    exact run
  | cons v vs =>
    rw [List.length_cons, doCall_pos, bind_assoc]
    exact Does.popArgs (vs := v :: vs) (post := pre) run rfl

theorem Trace.slice_ {vs : List (QVal F)} {k : Nat} (hk : k = vs.length) (hg : S.site "slice" = g := by rfl) :
    Trace K H r U C l (pre ++ vs ++ [.int k]) [ev "slice" g ts n] (S.at "slice" ts (onHeap (SliceFrom H.fl vs))) (fun v => pre ++ [v]) := by
  refine onStk (x := vslice H.fl) (fun w => ?_) rfl hg
  unfold vslice
  exact Does.popArity (n := k) (post := pre ++ vs) (Does.callN (by rw [hk]))

theorem Trace.map_ {vs : List (QVal F)} {k : Nat} (hk : vs.length = 2 * k) (hg : S.site "map" = g := by rfl) :
    Trace K H r U C l (pre ++ vs ++ [.int k]) [ev "map" g ts n] (S.at "map" ts (onHeap (MapFrom H.fl vs))) (fun v => pre ++ [v]) := by
  refine onStk (x := vmap H.fl) (fun w => ?_) rfl hg
  unfold vmap
  exact Does.popArity (n := k) (post := pre ++ vs) (Does.callN (by omega))

/-! ### Elements and members -/

theorem Does.heap {k : Heap F → QM F α} {g : Heap F → Prog F β} {f : β → α × List (QVal F)} (h : Does K H r U C l pre (k w.heap) (g w.heap) f w) :
    Does K H r U C l pre (Qlang.getQ >>= fun q => k q.heap) (theHeap >>= g) f w := by
  refine Does.getQ fun q hq => ?_
  obtain rfl := hq.wld
  exact h.congr rfl

theorem Does.onHeap {x : QM F α} {g : Heap F → Prog F β} {f : β → α × List (QVal F)} (h : Does K H r U C l pre x (g w.heap) f w) :
    Does K H r U C l pre x (theHeap >>= g) f w := h.congr rfl

theorem Trace.index_ {v i : QVal F} (hg : S.site "index" = g := by rfl) :
    Trace K H r U C l (pre ++ [v, i, .int 1, .int 0, .int 0]) [ev "index" g ts n] (S.at "index" ts (do ofE (Get H.fl (← theHeap) v i))) (fun v => pre ++ [v]) := by
  refine onStk (x := Qlang.index H.fl) (fun w => ?_) rfl hg
  unfold Qlang.index
  refine Does.popArity (n := 0) (post := pre ++ [v, i, .int 1, .int 0]) ?_ (by simp)
  simp only [ne_eq, not_true_eq_false, if_false, pure_bind]
  refine Does.popArity (n := 0) (post := pre ++ [v, i, .int 1]) ?_ (by simp)
  refine Does.popArity (n := 1) (post := pre ++ [v, i]) ?_ (by simp)
  refine Does.popNArgs (vs := [v, i]) (post := pre) ?_ rfl
  refine Does.heap (k := fun h => do
    let v ← Qlang.liftE (Get H.fl h v i)
    Qlang.push v) ?_
  rw [← bind_pure (ofE _)]
  exact Does.bind (Does.liftE (f := fun a => (a, pre))) fun b w' _ => .push rfl

theorem Trace.noIndex_ {v : QVal F} (hg : S.site "index" = g := by rfl) :
    Trace K H r U C l (pre ++ [v, .int 0, .int 0, .int 0]) [ev "index" g ts n] (S.at "index" ts (raise (failMsg (str "call operator[] without index")))) (fun v => pre ++ [v]) := by
  refine onStk (x := Qlang.index H.fl) (fun w => ?_) rfl hg
  unfold Qlang.index
  refine Does.popArity (n := 0) (post := pre ++ [v, .int 0, .int 0]) ?_ (by simp)
  simp only [ne_eq, not_true_eq_false, if_false, pure_bind]
  refine Does.popArity (n := 0) (post := pre ++ [v, .int 0]) ?_ (by simp)
  refine Does.popArity (n := 0) (post := pre ++ [v]) ?_ (by simp)
  refine Does.popNArgs (vs := [v]) (post := pre) ?_ rfl
  refine Does.getQ fun q hq => ?_
  exact .raise

def optInt (o : Option (QVal F)) : QVal F := .int (if o.isSome then 1 else 0)

theorem Trace.range_ {v : QVal F} {i j : Option (QVal F)} (hg : S.site "index" = g := by rfl) :
    Trace K H r U C l (pre ++ [v] ++ i.toList ++ [optInt i, .int 1] ++ j.toList ++ [optInt j]) [ev "index" g ts n]
      (S.at "index" ts (do ofE (SubSlice (← theHeap) v (i.getD .nil) (j.getD .nil)))) (fun v => pre ++ [v]) := by
  refine onStk (x := Qlang.index H.fl) (fun w => ?_) rfl hg
  have last : ∀ {x y z : QVal F}, Does K H r U C l pre (do
      let h := (← Qlang.getQ).heap
      Qlang.push (← Qlang.liftE (SubSlice h x y z))) (do ofE (SubSlice (← theHeap) x y z)) (fun v => ((), pre ++ [v])) w := by
    intro x y z
    refine Does.heap (k := fun h => do
      let v ← Qlang.liftE (SubSlice h x y z)
      Qlang.push v) ?_
    rw [← bind_pure (ofE _)]
    exact Does.bind (Does.liftE (f := fun a => (a, pre))) fun b w' _ => .push rfl
  unfold Qlang.index
  cases i with
  | none =>
    cases j with
    | none =>
      refine Does.popArity (n := 0) (post := pre ++ [v, .int 0, .int 1]) ?_ (by simp [optInt])
      simp only [ne_eq, not_true_eq_false, if_false, pure_bind]
      refine Does.popArity (n := 1) (post := pre ++ [v, .int 0]) ?_ (by simp)
      refine Does.popArity (n := 0) (post := pre ++ [v]) ?_ (by simp)
      exact Does.popNArgs (vs := [v]) (post := pre) last rfl
    | some j =>
      refine Does.popArity (n := 1) (post := pre ++ [v, .int 0, .int 1, j]) ?_ (by simp [optInt])
      refine Does.pop_ (v := j) (post := pre ++ [v, .int 0, .int 1]) ?_ (by simp)
      refine Does.popArity (n := 1) (post := pre ++ [v, .int 0]) ?_ (by simp)
      refine Does.popArity (n := 0) (post := pre ++ [v]) ?_ (by simp)
      exact Does.popNArgs (vs := [v]) (post := pre) last rfl
  | some i =>
    cases j with
    | none =>
      refine Does.popArity (n := 0) (post := pre ++ [v, i, .int 1, .int 1]) ?_ (by simp [optInt])
      simp only [ne_eq, not_true_eq_false, if_false, pure_bind]
      refine Does.popArity (n := 1) (post := pre ++ [v, i, .int 1]) ?_ (by simp)
      refine Does.popArity (n := 1) (post := pre ++ [v, i]) ?_ (by simp)
      exact Does.popNArgs (vs := [v, i]) (post := pre) last rfl
    | some j =>
      refine Does.popArity (n := 1) (post := pre ++ [v, i, .int 1, .int 1, j]) ?_ (by simp [optInt])
      refine Does.pop_ (v := j) (post := pre ++ [v, i, .int 1, .int 1]) ?_ (by simp)
      refine Does.popArity (n := 1) (post := pre ++ [v, i, .int 1]) ?_ (by simp)
      refine Does.popArity (n := 1) (post := pre ++ [v, i]) ?_ (by simp)
      exact Does.popNArgs (vs := [v, i]) (post := pre) last rfl

theorem Does.allocQ {f : Nat → Nat × List (QVal F)} (hf : ∀ a, f a = (a, pre) := by intro _; rfl) :
    Does K H r U C l pre Qlang.allocQ newAddr f w := Does.liftH hf

theorem Trace.member_ {v : QVal F} {t : Token} (hg : S.site "mref" = g := by rfl) :
    Trace K H r U C l (pre ++ [v]) [ev "mref" g (t :: ts) n] (S.at "mref" (t :: ts) (getMember H v t.lit)) (fun v => pre ++ [v]) := by
  refine onStr (x := fun _ s => memberRef H.lib s) (fun w => ?_) rfl hg
  unfold memberRef getMember
  refine Does.pop (v := v) (post := pre) ?_
  have other : ∀ v : QVal F, Does K H r U C l pre (do
      let h := (← Qlang.getQ).heap
      Qlang.push (← Qlang.liftE (H.lib.member h v t.lit))) (do ofE (H.member (← theHeap) v t.lit)) (fun v => ((), pre ++ [v])) w := by
    intro v
    refine Does.heap (k := fun h => do
      let v ← Qlang.liftE (H.member h v t.lit)
      Qlang.push v) ?_
    rw [← bind_pure (ofE _)]
    exact Does.bind (Does.liftE (f := fun a => (a, pre))) fun b w' _ => .push rfl
  cases v with
  | obj a fns =>
    refine Does.getQ fun q hq => ?_
    obtain rfl := hq.wld
    refine Does.onHeap ?_
    change Does _ _ _ _ _ _ _ _ (match q.heap.objs a t.lit with | some w => _ | none => _) _ _
    dsimp only
    cases q.heap.objs a t.lit with
    | some w => exact .push rfl
    | none =>
      cases fns.lookup t.lit with
      | none => exact .raise
      | some f => exact Does.bind (Does.allocQ (f := fun a => (a, pre))) fun b w' _ => .push rfl
  | cls a fns =>
    refine Does.getQ fun q hq => ?_
    dsimp only
    cases fns.lookup t.lit with
    | none => exact .raise
    | some f => exact .push rfl
  | map k v a =>
    by_cases hk : k = .string ∨ k = .var
    · simp only [if_pos hk]
      refine Does.getQ fun q hq => ?_
      obtain rfl := hq.wld
      refine Does.onHeap ?_
      change Does _ _ _ _ _ _ _ _ (match findKey H.fl (.str t.lit) (q.heap.maps a) with | some w => _ | none => _) _ _
      change Does _ _ _ _ _ _ _ (match findKey H.fl (.str t.lit) (q.heap.maps a) with | some w => _ | none => _) _ _ _
      cases findKey H.fl (.str t.lit) (q.heap.maps a) with
      | some w => exact .push rfl
      | none => exact .raise
    · simp only [if_neg hk]
      refine Does.getQ fun q hq => ?_
      exact .raise
  | nil => exact other .nil
  | bool b => exact other (.bool b)
  | int b => exact other (.int b)
  | byte b => exact other (.byte b)
  | float b => exact other (.float b)
  | str b => exact other (.str b)
  | slice b => exact other (.slice b)
  | gofn b c => exact other (.gofn b c)
  | unset b => exact other (.unset b)
  | fn b c => exact other (.fn b c)
  | method b c d => exact other (.method b c d)
  | finfo b c => exact other (.finfo b c)
  | code b => exact other (.code b)
  | undefined => exact other .undefined
  | type b => exact other (.type b)
  | extern b => exact other (.extern b)
  | fault b => exact other (.fault b)
  | host b c => exact other (.host b c)

end Tpl.Qlang.Src
