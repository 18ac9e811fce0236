import Verif.Proof.QlangVars

/-! Calls of values. -/
namespace Tpl.Qlang.Src
open Spec
variable {F α β γ δ : Type}
variable {K : Bound} {H : Host F} {r : CompileRet Str} {U : Uni} {S : Setup F} {C : Conf} {l pre post : List (QVal F)} {w : World F}
variable {g : Gr Str} {ts : List Token} {n : Int} {p : Nat} {x : Str}

/-! ### Functions of the library -/

/-- Code that only works on the heap. -/
def Heaps (K : Bound) (H : Host F) (r : CompileRet Str) (U : Uni) (x : QM F α) (y : HM F α) : Prop :=
  ∀ C l pre w, Does K H r U C l pre x (onHeap y) (fun a => (a, pre)) w

namespace Heaps

theorem pure {a : α} : Heaps K H r U (pure a) (Pure.pure a) := fun _ _ _ _ => .ret rfl

theorem bind {x : QM F α} {y : HM F α} {k : α → QM F β} {k' : α → HM F β} (h : Heaps K H r U x y) (hk : ∀ a, Heaps K H r U (k a) (k' a)) :
    Heaps K H r U (x >>= k) (y >>= k') := fun C l pre w => by
  rw [onHeap_bind]
  exact Does.bind (h C l pre w) fun a w' _ => hk a C l pre w'

theorem throw {p : QPanic F} : Heaps (α := α) K H r U (throwQ p) (HM.throw p) := fun _ _ _ _ => .raise

theorem lift {e : Except (QPanic F) α} : Heaps K H r U (liftE e) (HM.lift e) := fun _ _ _ _ => by
  rw [onHeap_lift]
  exact .liftE

theorem liftH {y : HM F α} : Heaps K H r U (Qlang.liftH y) y := fun _ _ _ _ => .liftH

theorem heap {k : Heap F → QM F α} {k' : Heap F → HM F α} (h : ∀ a, Heaps K H r U (k a) (k' a)) :
    Heaps K H r U (getQ >>= fun q => k q.heap) (HM.get >>= k') := fun C l pre w => by
  rw [onHeap_bind]
  exact Does.heap (h _ C l pre w)

end Heaps

/-- A function of Go and what it does. -/
structure Good (K : Bound) (H : Host F) (r : CompileRet Str) (U : Uni) (fn : GoFn (QM F) (QVal F)) (fn' : HostFn F) : Prop where
  ins : fn.ins = fn'.ins
  rest : fn.rest = fn'.rest
  body : ∀ args, Heaps K H r U (fn.body args) (fn'.body args)

theorem good1 {f : QVal F → QM F (QVal F)} {f' : QVal F → HM F (QVal F)} (h : ∀ a, Heaps K H r U (f a) (f' a)) : Good K H r U (fn1 f) (go1 f') :=
  ⟨rfl, rfl, fun
    | [] => .throw
    | [a] => .bind (h a) fun _ => .pure
    | _ :: _ :: _ => .throw⟩

theorem good2 {f : QVal F → QVal F → QM F (QVal F)} {f' : QVal F → QVal F → HM F (QVal F)} (h : ∀ a b, Heaps K H r U (f a b) (f' a b)) :
    Good K H r U (fn2 f) (go2 f') :=
  ⟨rfl, rfl, fun
    | [] => .throw
    | [_] => .throw
    | [a, b] => .bind (h a b) fun _ => .pure
    | _ :: _ :: _ :: _ => .throw⟩

theorem good3 {f : QVal F → QVal F → QVal F → QM F (QVal F)} {f' : QVal F → QVal F → QVal F → HM F (QVal F)}
    (h : ∀ a b c, Heaps K H r U (f a b c) (f' a b c)) : Good K H r U (fn3 f) (go3 f') :=
  ⟨rfl, rfl, fun
    | [] => .throw
    | [_] => .throw
    | [_, _] => .throw
    | [a, b, c] => .bind (h a b c) fun _ => .pure
    | _ :: _ :: _ :: _ :: _ => .throw⟩

theorem goodN {f : List (QVal F) → QM F (QVal F)} {f' : List (QVal F) → HM F (QVal F)} (h : ∀ a, Heaps K H r U (f a) (f' a)) :
    Good K H r U (fnN f) (goN f') := ⟨rfl, rfl, fun a => .bind (h a) fun _ => .pure⟩

/-- The same for tables. -/
inductive GoodO (K : Bound) (H : Host F) (r : CompileRet Str) (U : Uni) : Option (GoFn (QM F) (QVal F)) → Option (HostFn F) → Prop
  | none : GoodO K H r U none none
  | some {a b} (h : Good K H r U a b) : GoodO K H r U (some a) (some b)

theorem GoodO.ite {c : Prop} [Decidable c] {a a' : Option (GoFn (QM F) (QVal F))} {b b' : Option (HostFn F)} (h1 : GoodO K H r U a b) (h2 : GoodO K H r U a' b') :
    GoodO K H r U (if c then a else a') (if c then b else b') := by
  by_cases h : c
  · rw [if_pos h, if_pos h]; exact h1
  · rw [if_neg h, if_neg h]; exact h2

theorem builtins_good (name : Str) : GoodO K H r U (builtinFns H.fl name) (builtin H.fl name) := by
  unfold builtinFns builtin
  refine .ite (.some ⟨rfl, rfl, fun | [] => .throw | _ :: _ => .bind .liftH fun _ => .pure⟩) ?_
  refine .ite (.some ⟨rfl, rfl, fun | [] => .throw | [_] => .throw | [_, _] => .bind .liftH fun _ => .pure | _ :: _ :: _ :: _ => .throw⟩) ?_
  refine .ite (.some (good2 fun _ _ => .heap fun _ => .lift)) ?_
  refine .ite (.some (good1 fun _ => .heap (k := fun h => _) fun _ => .bind .lift fun _ => .pure)) ?_
  refine .ite (.some (good1 fun _ => .bind .lift fun _ => .pure)) ?_
  refine .ite (.some ⟨rfl, rfl, fun | [] => .throw | _ :: _ => .bind .liftH fun _ => .pure⟩) ?_
  refine .ite (.some (goodN fun _ => .liftH)) ?_
  refine .ite (.some (good2 fun _ _ => .lift)) ?_
  refine .ite (.some ⟨rfl, rfl, fun | [] => .throw | [_] => .throw | _ :: _ :: _ => .throw⟩) ?_
  refine .ite (.some ⟨rfl, rfl, fun | [] => .throw | _ :: _ => .bind .liftH fun _ => .pure⟩) ?_
  refine .ite (.some ⟨rfl, rfl, fun | [] => .throw | _ :: _ => .bind .liftH fun _ => .pure⟩) ?_
  refine .ite (.some (goodN fun _ => .liftH)) ?_
  refine .ite (.some (good1 fun _ => .lift)) ?_
  refine .ite (.some (good1 fun _ => .heap fun _ => .lift)) ?_
  refine .ite (.some (good3 fun _ _ _ => .heap fun _ => .lift)) ?_
  refine .ite (.some (good1 fun a => by cases a.ty <;> exact .pure)) ?_
  refine .ite (.some (good1 fun _ => .lift)) ?_
  refine .ite (.some (good1 fun _ => .lift)) ?_
  refine .ite (.some (good1 fun _ => .lift)) ?_
  refine .ite (.some (goodN fun _ => .lift)) ?_
  exact .ite (.some (goodN fun _ => .lift)) .none

theorem library_good (name : Str) : GoodO K H r U (H.lib.fn name) ((builtin H.fl name).or (H.fns name)) := by
  have h : GoodO K H r U (builtinFns H.fl name) (builtin H.fl name) := builtins_good name
  unfold Lib.fn
  rw [show H.lib.fl = H.fl from rfl]
  revert h
  generalize builtinFns H.fl name = a
  generalize builtin H.fl name = b
  rintro (_ | h)
  · change GoodO K H r U (H.lib.fns name) (H.fns name)
    rw [show H.lib.fns name = (H.fns name).map fun fn => ⟨fn.ins, fn.rest, fun vs => liftH (fn.body vs)⟩ from rfl]
    cases H.fns name with
    | none => exact .none
    | some fn => exact .some ⟨rfl, rfl, fun _ => .liftH⟩
  · exact .some h

/-! ### Calls -/

/-- The calls of functions of the program do what they should. -/
def CallsOk (K : Bound) (H : Host F) (r : CompileRet Str) (U : Uni) (R : Runs F) : Prop :=
  ∀ C l pre w f args, Does K H r U C l pre (fnCall H.fl r U f args) (apply H R f args) (fun v => (v, pre)) w

/-- What happens after the callee is known. -/
def vrun (M : Fl F) (fn : GoFn (QM F) (QVal F)) (ins : List (Option (QVal F))) (arity : Nat) : QM F (Option (CallErr QErr)) := match fn.rest with
  | some _ => if arity < fn.ins.length then pure (some .notEnough) else runFn M fn ins
  | none => if arity ≠ fn.ins.length then pure (some (.count fn.ins.length arity)) else runFn M fn ins

theorem Does.vrun {fn : GoFn (QM F) (QVal F)} {args : List (QVal F)} {y : List (QVal F) → Prog F (List (QVal F))}
    (hb : ∀ args', passArgs H fn.ins fn.rest args = .ok args' → Does K H r U C l pre (fn.body args') (y args') (fun outs => (outs, pre)) w) :
    Does K H r U C l pre (Src.vrun H.fl fn (args.map view) args.length >>= callResult) (do
      match fn.rest with
      | none => if args.length ≠ fn.ins.length then Src.raise (failErr (.call (.count fn.ins.length args.length)))
      | some _ => if args.length < fn.ins.length then Src.raise (failErr (.call .notEnough))
      let args ← ofE (passArgs H fn.ins fn.rest args)
      let outs ← y args
      Src.onHeap (results H outs)) (fun v => ((), pre ++ [v])) w := by
  unfold Src.vrun
  have key := fun hn => Does.runFn (H := H) (r := r) (U := U) (C := C) (l := l) (pre := pre) (w := w) (fn := fn) (args := args) hn (k := callResult) (y := y)
    (fun e _ => rfl) rfl hb
  unfold Takes at key
  cases hr : fn.rest with
  | none =>
    simp only [hr] at key ⊢
    by_cases h : args.length = fn.ins.length
    · rw [if_neg (by omega), if_neg (by omega)]
      exact key h
    · rw [if_pos h, if_pos h, raise_bind]
      exact .raise
  | some t =>
    simp only [hr] at key ⊢
    by_cases h : args.length < fn.ins.length
    · rw [if_pos h, if_pos h, raise_bind]
      exact .raise
    · rw [if_neg h, if_neg h]
      exact key (by omega)

theorem vcallN_eq (L : Lib F) (arity : Nat) : vcallN L r U arity = (do
    match ← popArgs (arity + 1) with
    | some (some f :: ins) => match callee L r U f with
      | none => throwQ valueErr
      | some fn => vrun L.fl fn ins arity
    | some _ => throwQ valueErr
    | none => pure (some .damaged)) := by
  unfold vcallN
  refine bind_congr fun o => ?_
  match o with
  | none => rfl
  | some [] => rfl
  | some (none :: _) => rfl
  | some (some f :: ins) =>
    dsimp only
    cases callee L r U f with
    | none => rfl
    | some fn =>
      dsimp only
      unfold vrun runFn
      cases fn.rest with
      | none =>
        dsimp only
        split
        · rfl
        · refine bind_congr fun e => ?_
          cases e with
          | error => rfl
          | ok ins =>
            refine bind_congr fun out => bind_congr fun e => ?_
            cases e <;> rfl
      | some t =>
        dsimp only
        split
        · rfl
        · refine bind_congr fun e => ?_
          cases e with
          | error => rfl
          | ok ins =>
            refine bind_congr fun out => bind_congr fun e => ?_
            cases e <;> rfl

theorem Does.callProgram {R : Runs F} (hR : CallsOk K H r U R) {f : Fun} {args extra : List (QVal F)} :
    Does K H r U C l pre (Src.vrun H.fl (fnN fun vs => fnCall H.fl r U f (extra ++ vs)) (args.map view) args.length >>= callResult) (apply H R f (extra ++ args))
      (fun v => ((), pre ++ [v])) w := by
  have := Does.vrun (K := K) (H := H) (r := r) (U := U) (C := C) (l := l) (pre := pre) (w := w) (fn := fnN fun vs => fnCall H.fl r U f (extra ++ vs)) (args := args)
    (y := fun vs => apply H R f (extra ++ vs) >>= fun v => pure [v]) fun args' _ => Does.bind (hR C l pre w f (extra ++ args')) fun b w' _ => .ret rfl
  refine this.congr ?_
  rw [show (fnN fun vs => fnCall H.fl r U f (extra ++ vs)).ins = [] from rfl, show (fnN fun vs => fnCall H.fl r U f (extra ++ vs)).rest = some anyTy from rfl, passArgs_any]
  conv => lhs; rw [← one_result (H := H) (e := apply H R f (extra ++ args))]
  rfl

theorem pass_str {v v' : QVal F} (h : pass H ⟨24, 24⟩ v = .ok v') : v' = v := by
  unfold pass at h
  rw [if_neg (by decide)] at h
  cases hv : v.ty with
  | none => rw [hv] at h; cases h
  | some u =>
    rw [hv] at h
    dsimp only at h
    split at h
    · cases h; rfl
    · split at h
      · rename_i h1
        exact absurd h1.1 (by decide)
      · cases h

theorem passArgs_one (t : GoTy) (v : QVal F) : passArgs H [t] none [v] = (pass H t v >>= fun v' =>
    if (qrefl H.fl).assignable v' t then pure [v'] else .error reflectMsg) := by
  unfold passArgs
  change (passAll H [t] [v] >>= fun vs => _) = _
  unfold passAll
  cases pass H t v with
  | error => rfl
  | ok v' =>
    change (if _ then _ else _) = (if _ then _ else _)
    simp only [List.zip_cons_cons, List.all_cons, List.append_nil, List.length_cons, List.length_nil, Nat.sub_self, Nat.zero_add, List.replicate_zero, List.zip_nil_left, List.all_nil, Bool.and_true]

theorem ok_bind {ε : Type} {a : α} {k : α → Except ε β} : (Except.ok a >>= k) = k a := rfl

/-- The results of `unset`. -/
def unsetOuts (p : Nat) : List (QVal F) → Prog F (List (QVal F))
  | [.str name] => do
    change p fun f => { f with vars := fun y => if y = name then none else f.vars y }
    pure []
  | _ => raise reflectMsg

theorem unset_args {R : Runs F} (v : QVal F) {p : Nat} : Src.callValue H R (.unset p) [v] = (do
      let args ← ofE (passArgs H [⟨24, 24⟩] none [v])
      let outs ← unsetOuts p args
      onHeap (results H outs)) := by
  have h1 : ∀ x, pass H ⟨24, 24⟩ (.str x) = .ok (.str x) := fun x => rfl
  rw [passArgs_one]
  cases v with
  | str x => rfl
  | _ =>
    unfold Src.callValue
    dsimp only
    generalize hp : pass H _ _ = o
    cases o with
    | error e => rfl
    | ok v' =>
      obtain rfl := pass_str hp
      rw [ok_bind]
      split <;> rfl

theorem Does.callValue {R : Runs F} (hR : CallsOk K H r U R) {v : QVal F} {args : List (QVal F)} {k : Nat} (hk : k = args.length) :
    Does K H r U C l (pre ++ v :: args) (vcallN H.lib r U k >>= callResult) (Src.callValue H R v args) (fun v => ((), pre ++ [v])) w := by
  rw [vcallN_eq, bind_assoc]
  refine Does.popArgs (vs := v :: args) (post := pre) ?_ (by rw [hk]; rfl)
  subst hk
  rw [List.map_cons]
  have fault : ∀ {z : QM F (Option (CallErr QErr))}, z = throwQ valueErr → Does K H r U C l pre (z >>= callResult) (Src.raise valueErr) (fun v => ((), pre ++ [v])) w := by
    rintro _ rfl
    rw [panic_bind]
    exact .raise
  cases v with
  | gofn name x =>
    have hg : GoodO K H r U (H.lib.fn name) ((builtin H.fl name).or (H.fns name)) := library_good name
    unfold Src.callValue
    change Does _ _ _ _ _ _ _ ((match H.lib.fn name with | none => _ | some fn => _) >>= _) _ _ _
    dsimp only
    revert hg
    generalize H.lib.fn name = a
    generalize (builtin H.fl name).or (H.fns name) = b
    rintro (_ | ⟨h1, h2, h3⟩)
    · exact fault rfl
    · rename_i fn fn'
      refine (Does.vrun (y := fun args => Src.onHeap (fn'.body args)) fun args' _ => h3 args' C l pre w).congr ?_
      unfold callGo
      rw [h1, h2]
      simp only [onHeap_bind]
      cases fn'.rest <;> rfl
  | unset p =>
    change Does _ _ _ _ _ _ _ (Src.vrun H.fl ⟨[⟨24, 24⟩], none, _⟩ _ _ >>= _) _ _ _
    refine (Does.vrun (y := unsetOuts p) fun args' _ => ?_).congr ?_
    · have h0 : ∀ x, Does K H r U C l pre (do unset p x; pure []) (do
          change p fun f => { f with vars := fun y => if y = x then none else f.vars y }
          pure []) (fun outs : List (QVal F) => (outs, pre)) w := fun x => by
        unfold unset
        exact Does.bind (Does.modScope (fun _ => rfl) (fun _ => rfl) (f := fun _ => ((), pre))) fun _ w' _ => .ret rfl
      match args' with
      | [] => exact .raise
      | v :: _ :: _ => cases v <;> exact .raise
      | [v] => cases v <;> first | exact h0 _ | exact .raise
    · match args with
      | [] => rfl
      | v :: _ :: _ => cases v <;> rfl
      | [v] => exact congrFun (unset_args v) w
  | fn a f => exact Does.callProgram hR (extra := [])
  | method a this f => exact Does.callProgram hR (extra := [this])
  | nil => exact fault rfl
  | _ => exact fault rfl

theorem Trace.call_ {R : Runs F} (hR : CallsOk K H r U R) {v : QVal F} {args : List (QVal F)} {k : Nat} (hk : k = args.length) {s : Bool}
    (hg : S.site "call" = g := by rfl) :
    Trace K H r U C l (pre ++ v :: args ++ [.int k, .int (if s then 1 else 0)]) [ev "call" g ts n]
      (S.at "call" ts (do callValue H R v (← if s then spread args else pure args))) (fun v => pre ++ [v]) := by
  refine onStk (x := vcall H.lib r U) (fun w => ?_) rfl hg
  unfold vcall
  refine Does.popArity (n := if s then 1 else 0) (post := pre ++ v :: args ++ [.int k]) ?_ (by simp)
  refine Does.popArity (n := k) (post := pre ++ v :: args) ?_ (by simp)
  cases s with
  | false =>
    simp only [Bool.false_eq_true, if_false, ne_eq, not_true_eq_false, pure_bind, Int.toNat_natCast]
    exact Does.callValue hR hk
  | true =>
    simp only [if_true, ne_eq, Int.one_ne_zero, not_false_eq_true]
    unfold spread
    by_cases h0 : args = []
    · subst h0
      subst hk
      simp only [List.length_nil, Int.natCast_zero, if_true, List.getLast?_nil, raise_bind]
      exact .raise
    · obtain ⟨args, z, rfl⟩ : ∃ as z, args = as ++ [z] := ⟨_, _, (List.dropLast_concat_getLast h0).symm⟩
      rw [if_neg (by rw [hk, List.length_append]; change ¬ ((args.length + 1 : Nat) : Int) = 0; omega)]
      refine Does.pop (v := z) (post := pre ++ v :: args) ?_ (by simp)
      rw [List.getLast?_append, List.getLast?_singleton, Option.some_or, List.dropLast_concat]
      cases z with
      | slice sl =>
        dsimp only
        rw [bind_assoc]
        refine Does.heap (k := fun h => do
          modQ fun q => { q with stk := q.stk ++ h.elems sl }
          callResult (← vcallN H.lib r U (k + ((h.elems sl).length - 1) : Int).toNat)) ?_
        refine Does.skip (post := pre ++ v :: (args ++ w.heap.elems sl)) (a := ()) ?_ ?_
        · intro fu m s hs
          refine ⟨_, run_modQ _, ?_⟩
          have := hs.setStk (l' := s.u.u.stk ++ w.heap.elems sl)
          rw [hs.sees.stk] at this
          simp only [setQ, hs.sees.stk]
          simpa using this
        · rw [pure_bind]
          refine Does.callValue hR ?_
          rw [hk, List.length_append, List.length_append, List.length_cons, List.length_nil]
          omega
      | _ => exact .raise

end Tpl.Qlang.Src
