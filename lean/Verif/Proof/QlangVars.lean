import Verif.Proof.QlangVals

/-! The marks of variables. -/
namespace Tpl.Qlang.Src
open Spec
variable {F α β γ δ : Type}
variable {K : Bound} {H : Host F} {r : CompileRet Str} {U : Uni} {S : Setup F} {C : Conf} {l pre post : List (QVal F)} {w : World F}
variable {g : Gr Str} {ts : List Token} {n : Int} {p : Nat} {x : Str}

theorem Does.frame {z : QM F α} {k : Frame F → Prog F β} {f : β → α × List (QVal F)} (h : Does K H r U C l pre z (k (w.frames p)) f w) :
    Does K H r U C l pre z (frame p >>= k) f w := h.congr rfl

theorem Does.setVar {v : QVal F} {f : Unit → Unit × List (QVal F)} (hf : f () = ((), pre) := by rfl) :
    Does K H r U C l pre (Qlang.setVar p x v) (change p fun f => f.set x v) f w :=
  Does.modScope (g := fun c => c.put x v) (fun _ => rfl) (fun _ => rfl) hf

theorem Does.getVar : Does K H r U C l pre (Qlang.getVar p x) (current p x) (fun b => (b, pre)) w := by
  unfold Qlang.getVar current
  refine Does.getQ fun q hq => ?_
  obtain rfl := hq.wld
  refine Does.frame ?_
  change Does _ _ _ _ _ _ _ _ (match (q.scopes p).vars x with | some (.extern e) => _ | some v => _ | none => _) _ _
  cases h : (q.scopes p).vars x with
  | none => exact .raise
  | some v => cases v <;> exact Does.congr (.ret rfl) rfl

theorem Does.incDec {op : QVal F → QRes F} : Does K H r U C l pre (Qlang.incDec op p x) (modifyVar p x op) (fun v => ((), pre ++ [v])) w := by
  unfold Qlang.incDec modifyVar
  refine Does.bind Does.getVar fun b w' _ => ?_
  refine Does.bind (Does.liftE (f := fun a => (a, pre))) fun v w' _ => ?_
  refine Does.bind (Does.setVar (f := fun _ => ((), pre))) fun _ w' _ => .push rfl

theorem Does.opAssign {op : QVal F → QVal F → QRes F} {v : QVal F} :
    Does K H r U C l (pre ++ [v]) (Qlang.opAssign op p x) (modifyVar p x fun old => op old v) (fun v => ((), pre ++ [v])) w := by
  unfold Qlang.opAssign modifyVar
  refine Does.bind Does.getVar fun b w' _ => ?_
  refine Does.pop (v := v) (post := pre) ?_
  refine Does.bind (Does.liftE (f := fun a => (a, pre))) fun v w' _ => ?_
  refine Does.bind (Does.setVar (f := fun _ => ((), pre))) fun _ w' _ => .push rfl

theorem owner_eq {q : QState F} {chain : List Nat} : q.owner x chain = (world q).owner x chain := rfl

theorem Does.getVars : Does K H r U C l pre (Qlang.getVars p x) (target p x) (fun b => (b, pre)) w := by
  unfold Qlang.getVars target
  refine Does.getQ fun q hq => ?_
  obtain rfl := hq.wld
  refine Does.frame ?_
  change Does _ _ _ _ _ _ _ _ (match (q.scopes p).vars x with | some (.extern e) => _ | some _ => _ | none => _) _ _
  cases h : (q.scopes p).vars x with
  | some v => cases v <;> exact .ret rfl
  | none =>
    dsimp only
    cases x with
    | nil => exact .raise
    | cons c x =>
      by_cases hc : c = 95
      · subst hc
        exact .ret rfl
      · have h1 : inheritable (c :: x) = some true := by simp [inheritable, hc]
        rw [h1]
        dsimp only
        have e : enclosing p (c :: x) (world q) = some (.ok (q.owner (c :: x) (q.scopes p).parents), world q) := rfl
        cases ho : q.owner (c :: x) (q.scopes p).parents <;> (rw [ho] at e; dsimp only; split)
        · simp_all
        · simp_all
        · refine Does.congr (y := pure p) (.ret rfl) ?_
          rw [bind_run, e]
        · simp_all
        · simp_all
        · refine Does.congr (y := Src.raise (failMsg (str "variable exists in extern function: " ++ (c :: x)))) .raise ?_
          rw [bind_run, e]

theorem Does.assign {v : QVal F} :
    Does K H r U C l (pre ++ [v]) (Qlang.assign p x) (assignVar p x v >>= fun _ => pure v) (fun v => ((), pre ++ [v])) w := by
  unfold Qlang.assign assignVar
  rw [bind_assoc]
  refine Does.bind Does.getVars fun b w' _ => ?_
  refine Does.pop (v := v) (post := pre) ?_
  refine Does.bind (Does.setVar (f := fun _ => ((), pre))) fun _ w' _ => .push rfl

theorem Does.assignAll : ∀ (xs : List (Str × QVal F)) (w : World F), Does K H r U C l pre (Qlang.assignAll p xs) (assignAll_ p xs) (fun _ => ((), pre)) w
  | [], _ => .ret rfl
  | (x, v) :: more, w => by
    unfold Qlang.assignAll assignAll_ assignVar
    rw [bind_assoc]
    refine Does.bind Does.getVars fun b w' _ => ?_
    exact Does.bind (Does.setVar (f := fun _ => ((), pre))) fun _ w' _ => Does.assignAll more w'

theorem Does.multi {xs : List Str} {v : QVal F} {k : Nat} (hk : xs.length = k + 1) :
    Does K H r U C l (pre ++ xs.map .str ++ [.int k, v]) (Qlang.multiAssign p) (assignMany p xs v) (fun v => ((), pre ++ [v])) w := by
  unfold Qlang.multiAssign assignMany
  refine Does.pop (v := v) (post := pre ++ xs.map .str ++ [.int k]) ?_ (by simp)
  cases v with
  | slice s =>
    dsimp only
    refine Does.popArity (n := k) (post := pre ++ xs.map .str) ?_
    have e1 : (k : Int) + 1 = (xs.length : Int) := by omega
    rw [e1]
    by_cases h : xs.length = s.len
    · rw [if_neg (by omega), if_neg (by omega)]
      refine Does.popFnArgs (xs := xs) (post := pre) ?_ rfl
      refine Does.heap (k := fun h => do
        Qlang.assignAll p (xs.zip (h.elems s))
        Qlang.push (.slice s)) ?_
      exact Does.bind (Does.assignAll _ _) fun _ w' _ => .push rfl
    · rw [if_pos (by omega), if_pos (by omega)]
      exact .raise
  | _ => exact .raise

theorem symbol_does : Does K H r U C l pre (match H.lib.symbol x with
    | some v => pure v
    | none => throwQ (failMsg (str "symbol not found: " ++ x))) (symbol H x) (fun v => (v, pre)) w := by
  have e : H.lib.symbol x = (builtinTable x).or (H.table x) := by
    unfold Lib.symbol
    cases builtinTable (F := F) x <;> rfl
  rw [e]
  unfold symbol
  cases (builtinTable x).or (H.table x) with
  | none => exact .raise
  | some v => exact .ret rfl

/-- The variable `x` of the enclosing call `t`. -/
def foundIn (p : Nat) (x : Str) (t : Nat) : Prog F (QVal F) := do
  match (← Src.frame t).get x with
  | .extern e => do
    let v := (← Src.frame e).get x
    change p fun f => f.set x (.extern e)
    pure v
  | v => do
    change p fun f => f.set x (.extern t)
    pure v

theorem Does.getRef : Does K H r U C l pre (Qlang.getRef H.lib p x) (readVar H p x) (fun v => (v, pre)) w := by
  unfold Qlang.getRef readVar
  by_cases hu : x = str "unset"
  · rw [if_pos hu, if_pos hu]
    exact .ret rfl
  · rw [if_neg hu, if_neg hu]
    refine Does.getQ fun q hq => ?_
    obtain rfl := hq.wld
    refine Does.frame ?_
    change Does _ _ _ _ _ _ _ _ (match (q.scopes p).vars x with | some (.extern e) => _ | some v => _ | none => _) _ _
    cases h : (q.scopes p).vars x with
    | some v => cases v <;> exact Does.congr (.ret rfl) rfl
    | none =>
      dsimp only
      cases x with
      | nil => exact .raise
      | cons c x =>
        by_cases hc : c = 95
        · subst hc
          exact symbol_does
        · have h1 : inheritable (c :: x) = some true := by simp [inheritable, hc]
          rw [h1]
          dsimp only
          have e : enclosing p (c :: x) (world q) = some (.ok (q.owner (c :: x) (q.scopes p).parents), world q) := rfl
          cases ho : q.owner (c :: x) (q.scopes p).parents with
          | none =>
            rw [ho] at e
            dsimp only
            refine Does.congr (y := symbol H (c :: x)) symbol_does ?_
            refine (congrFun (?_ : _ = (enclosing p (c :: x) >>= fun o => match o with | none => symbol H (c :: x) | some t => foundIn p (c :: x) t)) _).trans ?_
            · split
              · simp_all
              · simp_all
              · exact bind_congr fun o => by cases o <;> rfl
            · rw [bind_run, e]
          | some t =>
            rw [ho] at e
            refine Does.congr (y := foundIn p (c :: x) t) ?_ ?_
            · unfold foundIn
              refine Does.frame ?_
              have e2 : ((world q).frames t).get (c :: x) = (q.scopes t).val (c :: x) := rfl
              rw [e2]
              dsimp only
              cases hv : (q.scopes t).val (c :: x) with
              | extern e =>
                dsimp only
                refine Does.frame ?_
                exact Does.bind (Does.setVar (f := fun _ => ((), pre))) fun _ w' _ => .ret rfl
              | _ => exact Does.bind (Does.setVar (f := fun _ => ((), pre))) fun _ w' _ => .ret rfl
            · refine (congrFun (?_ : _ = (enclosing p (c :: x) >>= fun o => match o with | none => symbol H (c :: x) | some t => foundIn p (c :: x) t)) _).trans ?_
              · split
                · simp_all
                · simp_all
                · exact bind_congr fun o => by cases o <;> rfl
              · rw [bind_run, e]

theorem Does.ref : Does K H r U C l pre (Qlang.ref H.lib p x) (readVar H p x) (fun v => ((), pre ++ [v])) w := by
  unfold Qlang.ref
  rw [← bind_pure (readVar H p x)]
  exact Does.bind Does.getRef fun v w' _ => .push rfl

end Tpl.Qlang.Src
