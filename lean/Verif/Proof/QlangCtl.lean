import Verif.Proof.QlangApply

/-! The other marks: functions, classes, deferred expressions and control. -/
namespace Tpl.Qlang.Src
open Spec
variable {F α β γ δ : Type}
variable {K : Bound} {H : Host F} {r : CompileRet Str} {U : Uni} {S : Setup F} {C : Conf} {l pre post : List (QVal F)} {w : World F}
variable {g : Gr Str} {ts : List Token} {n : Int} {p : Nat} {x : Str} {R : Runs F}

/-- What `_code` pushes. -/
def codeOf : List Token → QVal F
  | [] => .nil
  | ts => .code ts

theorem codeOf_cons {t : Token} {ts : List Token} : (codeOf (t :: ts) : QVal F) = .code (t :: ts) := rfl

def boolInt (b : Bool) : QVal F := .int (if b then 1 else 0)

/-- The body of a function from what `_code` pushed. -/
theorem bodyOf_codeOf (ts : List Token) : (match (codeOf ts : QVal F) with
    | .code toks => some toks
    | _ => none) = bodyOf ts := by
  cases ts <;> rfl

theorem Does.function {names : List Str} {v : Bool} {body : List Token} {k : Nat} (hk : k = names.length) :
    Does K H r U C l (pre ++ names.map .str ++ [.int k, boolInt v, codeOf body]) (Qlang.function p)
      (newAddr >>= fun a => pure (.fn a ⟨names, bodyOf body, p, v⟩)) (fun v => ((), pre ++ [v])) w := by
  unfold Qlang.function
  refine Does.pop (v := codeOf body) (post := pre ++ names.map .str ++ [.int k, boolInt v]) ?_ (by simp)
  refine Does.popArity (n := if v then 1 else 0) (post := pre ++ names.map .str ++ [.int k]) ?_ (by simp [boolInt])
  refine Does.popArity (n := k) (post := pre ++ names.map .str) ?_ (by simp)
  refine Does.popFnArgs (post := pre) ?_ (by rw [hk])
  refine Does.bind (Does.allocQ (f := fun a => (a, pre))) fun a w' _ => ?_
  refine .push ?_
  have h : decide ((if v = true then (1 : Int) else 0) ≠ 0) = v := by cases v <;> rfl
  cases body <;> simp only [codeOf, bodyOf, h] <;> rfl

theorem Trace.fn_ {names : List Str} {v : Bool} {body : List Token} {k : Nat} (hk : k = names.length) (hg : S.site "fn" = g := by rfl) :
    Trace K H r U C l (pre ++ names.map .str ++ [.int k, boolInt v, codeOf body]) [ev "fn" g ts n]
      (S.at "fn" ts (newAddr >>= fun a => pure (.fn a ⟨names, bodyOf body, C.p, v⟩))) (fun v => pre ++ [v]) :=
  onEng (x := Qlang.function) (fun _ => Does.function hk) rfl hg

/-- A method on the stack. -/
def minfo : Nat × Str × Fun → QVal F
  | (a, x, f) => .finfo a { f with args := x :: f.args }

theorem Trace.mfn_ {x : Str} {names : List Str} {v : Bool} {body : List Token} {k : Nat} (hk : k = names.length) :
    Trace K H r U C l (pre ++ .str x :: names.map .str ++ [.int k, boolInt v, codeOf body]) [ev "mfn" g ts n]
      (newAddr >>= fun a => pure (a, x, ⟨names, bodyOf body, C.p, v⟩)) (fun m => pre ++ [minfo m]) := by
  refine (onIpt (S := .of H g) (m := "mfn") (y := newAddr >>= fun a => pure (a, x, ⟨names, bodyOf body, C.p, v⟩)) (x := Qlang.memberFuncDecl) (f := fun m => pre ++ [minfo m]) (fun w => ?_)).congr (by funext w; rfl)
  unfold Qlang.memberFuncDecl
  refine Does.pop (v := codeOf body) (post := pre ++ (x :: names).map .str ++ [.int k, boolInt v]) ?_ (by simp)
  refine Does.popArity (n := if v then 1 else 0) (post := pre ++ (x :: names).map .str ++ [.int k]) ?_ (by simp [boolInt])
  refine Does.popArity (n := k) (post := pre ++ (x :: names).map .str) ?_ (by simp)
  refine Does.popFnArgs (post := pre) (xs := x :: names) ?_ (by rw [hk]; simp)
  refine Does.bind (Does.allocQ (f := fun a => (a, pre))) fun a w' _ => ?_
  refine .push ?_
  have h : decide ((if v = true then (1 : Int) else 0) ≠ 0) = v := by cases v <;> rfl
  cases body <;> simp only [codeOf, bodyOf, h, minfo] <;> rfl

theorem Does.methods : ∀ (ms : List (Nat × Str × Fun)) (fns : List (Str × Nat × Fun)) (w : World F),
    Does K H r U C l pre (Qlang.methods p (ms.map minfo) fns) (makeMethods p (ms.map (·.2)) fns) (fun v => (v, pre)) w
  | [], _, _ => .ret rfl
  | (a, x, f) :: ms, fns, w => by
    refine Does.bind (Does.allocQ (f := fun a => (a, pre))) fun a w' _ => ?_
    exact Does.methods ms _ w'

theorem Trace.class_ {ms : List (Nat × Str × Fun)} {k : Nat} (hk : k = ms.length) (hg : S.site "class" = g := by rfl) :
    Trace K H r U C l (pre ++ ms.map minfo ++ [.int k]) [ev "class" g ts n] (S.at "class" ts (makeClass C.p (ms.map (·.2)))) (fun v => pre ++ [v]) := by
  refine onEng (x := Qlang.class_) (fun w => ?_) rfl hg
  unfold Qlang.class_ makeClass
  refine Does.popArity (n := k) (post := pre ++ ms.map minfo) ?_ (by simp)
  refine Does.popNArgs (post := pre) (vs := ms.map minfo) ?_ (by rw [hk, List.length_map])
  refine Does.bind (Does.allocQ (f := fun a => (a, pre))) fun a w' _ => ?_
  refine Does.bind (Does.methods ms [] w') fun a w' _ => .push rfl

/-- The arguments of `new`. -/
def newStk : Option (List (QVal F)) → List (QVal F)
  | none => [.int 0]
  | some vs => vs ++ [.int vs.length, .int 1]

theorem Trace.new_ (hR : CallsOk K H r U R) {c : QVal F} {as : Option (List (QVal F))} (hg : S.site "new" = g := by rfl) :
    Trace K H r U C l (pre ++ [c] ++ newStk as) [ev "new" g ts n] (S.at "new" ts (makeObject H R c (as.getD []))) (fun v => pre ++ [v]) := by
  refine onStk (x := Qlang.new_ H.fl r U) (fun w => ?_) rfl hg
  have last : ∀ args : List (QVal F), Does K H r U C l (pre ++ [c]) (do
      match ← Qlang.pop with
      | none => throwQ (failErr .newWithoutClass)
      | some (.cls _ fns) => do
        let a ← Qlang.allocQ
        Qlang.liftH (HM.setObj a fun _ => none)
        match fns.lookup (str "_init") with
        | some (_, f) => do
          let _ ← fnCall H.fl r U f (.obj a fns :: args)
          Qlang.push (.obj a fns)
        | none => Qlang.push (.obj a fns)
      | some _ => throwQ (failErr .notClass)) (makeObject H R c args) (fun v => ((), pre ++ [v])) w := by
    intro args
    refine Does.pop (v := c) (post := pre) ?_
    unfold makeObject
    cases c with
    | cls _ fns =>
      refine Does.bind (Does.allocQ (f := fun a => (a, pre))) fun a w' _ => ?_
      refine Does.bind (Does.liftH (f := fun a => (a, pre))) fun _ w' _ => ?_
      dsimp only
      cases fns.lookup (str "_init") with
      | none => exact .push rfl
      | some f =>
        refine Does.bind (hR _ _ _ _ _ _) fun v w' _ => ?_
        exact .push rfl
    | _ => exact .raise
  unfold Qlang.new_
  cases as with
  | none =>
    refine Does.popArity (n := 0) (post := pre ++ [c]) ?_ (by simp [newStk])
    simp only [ne_eq, not_true_eq_false, if_false, pure_bind]
    exact last []
  | some vs =>
    refine Does.popArity (n := 1) (post := pre ++ [c] ++ vs ++ [.int vs.length]) ?_ (by simp [newStk])
    rw [if_pos (by decide)]
    refine Does.popArity (n := vs.length) (post := pre ++ [c] ++ vs) ?_ (by simp)
    refine Does.popNArgs (post := pre ++ [c]) (vs := vs) ?_ rfl
    exact last vs

/-! ### Deferred expressions, `return`, `recover` and `main` -/

theorem Trace.defer_ {e : List Token} : Trace K H r U C l (pre ++ [.code e]) [ev "defer" g ts n]
    (change C.p (fun f => { f with defers := .code e :: f.defers }) >>= fun _ => pure .nil) (fun v => pre ++ [v]) := by
  refine (onIpt (S := .of H g) (m := "defer") (y := change C.p (fun f => { f with defers := .code e :: f.defers }) >>= fun _ => pure .nil) (f := fun v => pre ++ [v]) (x := Qlang.defer_) (fun w => ?_)).congr (by funext w; rfl)
  unfold Qlang.defer_
  refine Does.pop (v := .code e) (post := pre) ?_
  refine Does.bind (Does.modScope (g := fun c => { c with defers := .code e :: c.defers }) (f := fun _ => ((), pre)) (fun _ => rfl) fun _ => rfl) fun _ w' _ => .push rfl

theorem Trace.recover_ (hg : S.site "recover" = g := by rfl) :
    Trace K H r U C l pre [ev "recover" g ts n] (S.at "recover" ts (recovers C.p)) (fun v => pre ++ [v]) := by
  refine onIpt (x := Qlang.recover_) (fun w => ?_) rfl hg
  unfold Qlang.recover_ recovers
  refine Does.getQ fun q hq => ?_
  obtain rfl := hq.wld
  refine Does.frame ?_
  change Does _ _ _ _ _ _ _ _ (match (q.scopes C.p).parents with | [] => _ | q :: _ => _) _ _
  cases (q.scopes C.p).parents with
  | nil => exact .push rfl
  | cons t _ =>
    refine Does.frame ?_
    refine Does.bind (Does.modScope (g := fun c => { c with recov := none }) (f := fun _ => ((), pre)) (fun _ => rfl) fun _ => rfl) fun _ w' _ => ?_
    refine .push ?_
    change ((), pre ++ [_]) = ((), pre ++ [recovered (q.scopes t).recov])
    unfold recovered
    congr 3

theorem Trace.main_ (hR : CallsOk K H r U R) {body : List Token} (hg : S.site "main" = g := by rfl) :
    Trace K H r U C l (pre ++ [codeOf body]) [ev "main" g ts n] (S.at "main" ts (runMain H R C.p (bodyOf body))) (fun v => pre ++ [v]) := by
  refine onEng (x := Qlang.main H.fl r U) (fun w => ?_) rfl hg
  unfold Qlang.main runMain
  refine Does.pop_ (v := codeOf body) (post := pre) ?_
  have e : (match (codeOf body : QVal F) with
    | .code toks => some toks
    | _ => none) = bodyOf body := bodyOf_codeOf body
  have e2 : fnCall H.fl r U ⟨[], bodyOf body, C.p, false⟩ [] = fnCall H.fl r U ⟨[], match (codeOf body : QVal F) with
    | .code toks => some toks
    | _ => none, C.p, false⟩ [] := by rw [e]
  refine Does.bind (f := fun v => (v, pre)) (y := apply H R ⟨[], bodyOf body, C.p, false⟩ []) ?_ fun v w' _ => ?_
  · cases body <;> exact hR _ _ _ _ _ _
  · cases v <;> exact .raise

theorem Does.execDefers (hR : RunsOk K H r U R) (hN : C.p < C.N) {k : Unit → QM F γ} {y : Prog F β} {f : β → γ × List (QVal F)}
    (h : ∀ vs w', Does K H r U C l (pre ++ vs) (k ()) y f w') : Does K H r U C l pre (Qlang.execDefers r U C.p >>= k) (runDefers R C.p >>= fun _ => y) f w := by
  intro o ho
  refine lost_or fun hnl s hs => ?_
  rw [bind_run] at ho
  cases hd : runDefers R C.p w with
  | none =>
    rw [hd] at ho
    obtain rfl : none = o := ho
    refine .bind (Q0 := fun _ _ => False) ((execDefers_ends hR hN hd nofun hs.sees).mono ?_ ?_ fun _ => rfl) fun _ _ h => h.elim
    · rintro _ u ⟨h1, h2, w', vs, h3, _⟩; cases h3
    · rintro p u ⟨w', h1, h2⟩; cases h1
  | some od =>
    rw [hd] at ho
    have hx : ¬ Lost K (some od) := by
      rintro ⟨w', h⟩
      cases h
      exact hnl ⟨w', ho.symm⟩
    refine .bind (Q0 := fun _ u => ∃ w' vs, od = (.ok (), w') ∧ At C (l ++ (pre ++ vs)) w' u) ((execDefers_ends hR hN hd hx hs.sees).mono ?_ ?_ nofun) ?_
    · rintro _ u ⟨h1, h2, w', vs, h3, _, h4⟩
      cases h3
      exact ⟨w', vs, rfl, h2.trans hs.mute, h1.trans hs.ipt, by rw [← List.append_assoc]; exact h4⟩
    · rintro p u ⟨w', h1, h2⟩
      cases h1
      exact ⟨_, ho.symm, h2.less⟩
    · rintro _ s' ⟨w', vs, h1, h2⟩
      subst h1
      exact (h vs w' o ho).resolve_left hnl s' h2

/-- The value that is returned. -/
theorem Does.returns (hR : RunsOk K H r U R) (hN : C.p < C.N) {v : QVal F} : Does K H r U C l pre (do
      Qlang.modScope C.p fun c => { c with ret := v }
      if ((← Qlang.getQ).scopes C.p).parents ≠ [] then throwQ errReturn
      else do
        Qlang.execDefers r U C.p
        match ((← Qlang.getQ).scopes C.p).ret with
        | .nil => exit 0
        | .int v => exit v
        | _ => throwQ (failMsg (str "must return `int` for main function"))) (returnFrom R C.p v) (fun v => ((), pre ++ [v])) w := by
  unfold returnFrom
  refine Does.bind (Does.modScope (g := fun c => { c with ret := v }) (f := fun _ => ((), pre)) (fun _ => rfl) fun _ => rfl) fun _ w' _ => ?_
  refine Does.getQ fun q hq => ?_
  obtain rfl := hq.wld
  refine Does.frame ?_
  change Does _ _ _ _ _ _ _ _ (if (q.scopes C.p).parents ≠ [] then _ else _) _ _
  by_cases hp : (q.scopes C.p).parents ≠ []
  · rw [if_pos hp, if_pos hp]
    exact .raise
  · rw [if_neg hp, if_neg hp]
    refine Does.execDefers hR hN fun vs w' => ?_
    refine Does.getQ fun q hq => ?_
    obtain rfl := hq.wld
    refine Does.frame ?_
    change Does _ _ _ _ _ _ _ _ (match (q.scopes C.p).ret with | .nil => _ | .int n => _ | _ => _) _ _
    cases (q.scopes C.p).ret <;> exact .raise

theorem Trace.return_ (hR : RunsOk K H r U R) (hN : C.p < C.N) {v : Option (QVal F)} (hg : S.site "return" = g := by rfl) :
    Trace K H r U C l (pre ++ v.toList ++ [optInt v]) [ev "return" g ts n] (S.at "return" ts (returnFrom R C.p (v.getD .nil))) (fun v => pre ++ [v]) := by
  refine onEng (x := Qlang.return_ r U) (fun w => ?_) rfl hg
  unfold Qlang.return_
  cases v with
  | none =>
    refine Does.popArity (n := 0) (post := pre) ?_ (by simp [optInt])
    rw [if_pos rfl]
    exact Does.returns hR hN
  | some v =>
    refine Does.popArity (n := 1) (post := pre ++ [v]) ?_ (by simp [optInt])
    rw [if_neg (by decide)]
    refine Does.pop (v := v) (post := pre) ?_
    exact Does.returns hR hN

/-! ### The end of a statement -/

theorem Trace.clear_ (hN : C.p < C.N) (hB : C.B C.p = l.length) {b : β} {f : β → List (QVal F)} (hf : f b = []) :
    Trace K H r U C l pre [ev "clear" g ts n] (pure b) f := by
  refine onIpt (S := .of H g) (x := Qlang.clear) (y := pure b) fun w => ?_
  intro o ho
  refine .inr fun s hs => ?_
  cases ho
  unfold Qlang.clear
  have hb : (s.u.u.scopes C.p).base = l.length := by rw [hs.sees.base _ hN, hB]
  refine .run (s' := setQ s { s.u.u with stk := s.u.u.stk.take l.length }) ?_ ⟨b, w, rfl, rfl, ?_⟩
  · rw [Go.bind_ok run_getQ, hb]
    exact setFrame_ok (by rw [hs.sees.stk]; simp)
  · have := hs.setStk (l' := l ++ f b)
    dsimp only [setQ]
    rw [hs.sees.stk, List.take_left]
    rw [hf, List.append_nil] at this ⊢
    exact this

/-! ### Control -/

theorem Trace.onCtx {m : String} {y : Prog F β} {f : β → List (QVal F)} {x : Nat → QM F Unit} (hx : ∀ w, Does K H r U C l pre (x C.p) y (fun b => ((), f b)) w)
    (ht : ∀ t, ts.getLast? = some t → t.End ≠ .panic) (hl : (marks H.lib r U).lookup (str m) = some (Qlang.onCtx x) := by rfl) (hg : S.site m = g := by rfl)
    (hm : isLenMark (str m) = false := by rfl) : Trace K H r U C l pre [ev m g ts n] (S.at m ts y) f :=
  .act hl hg fun w _ ho => ((Does.ipt (hx w)).unit ho).imp_right fun h s hs _ => by
    have h1 := h s hs
    unfold Client.perform Qlang.onCtx
    simp only [markArgs, hm, Bool.false_eq_true, if_false]
    have h2 : ∃ c, ctxValue (E := QErr) (X := QX (QVal F)) (I := Nat) (τ := QState F) ts = pure c := by
      unfold ctxValue
      split
      · rename_i t e h3 h4
        have := ht e h4
        split
        · exact ⟨_, rfl⟩
        · rename_i h; exact absurd h this
      · exact ⟨_, rfl⟩
    obtain ⟨c, hc⟩ := h2
    rw [hc]
    exact h1

/-- Whatever is on the stack and however the functions below are, the code pushes a value. -/
def Always (K : Bound) (H : Host F) (r : CompileRet Str) (U : Uni) (p : Nat) (x : QM F Unit) (y : Prog F (QVal F)) : Prop :=
  ∀ C l pre w, C.p = p → p < C.N → Does K H r U C l pre x y (fun v => ((), pre ++ [v])) w

section
variable {code body els dflt : QVal F} {y yes no z : Prog F (QVal F)}

theorem Does.and_ (hN : C.p < C.N) {v : QVal F} (h : Always K H r U C.p (Qlang.evalIn r U C.p (str "term3") code) y) :
    Does K H r U C l (pre ++ [v, code]) (Qlang.and_ r U C.p) (match v with
      | .bool true => y
      | .bool false => pure (.bool false)
      | _ => Src.raise (failMsg (str "left operand of && operator isn't a boolean expression"))) (fun v => ((), pre ++ [v])) w := by
  unfold Qlang.and_
  refine Does.pop_ (v := code) (post := pre ++ [v]) ?_ (by simp)
  refine Does.pop_ (v := v) (post := pre) ?_
  cases v with
  | bool b => cases b with
    | true => exact h _ _ _ _ rfl hN
    | false => exact .push rfl
  | _ => exact .raise

theorem Does.or_ (hN : C.p < C.N) {v : QVal F} (h : Always K H r U C.p (Qlang.evalIn r U C.p (str "term4") code) y) :
    Does K H r U C l (pre ++ [v, code]) (Qlang.or_ r U C.p) (match v with
      | .bool true => pure (.bool true)
      | .bool false => y
      | _ => Src.raise (failMsg (str "left operand of || operator isn't a boolean expression"))) (fun v => ((), pre ++ [v])) w := by
  unfold Qlang.or_
  refine Does.pop_ (v := code) (post := pre ++ [v]) ?_ (by simp)
  refine Does.pop_ (v := v) (post := pre) ?_
  cases v with
  | bool b => cases b with
    | true => exact .push rfl
    | false => exact h _ _ _ _ rfl hN
  | _ => exact .raise

theorem always_nil : Always K H r U p (runBody r U p .nil) (pure .nil) := fun _ _ _ _ _ _ => .push rfl

theorem ifLoop_end {codes : List (QVal F)} (hc : codes = []) (h : Always K H r U p (runBody r U p els) no) : Always K H r U p (ifLoop r U p els codes) no := by
  subst hc; exact h

theorem ifLoop_step {more : List (QVal F)} (hc : Always K H r U p (Qlang.evalIn r U p (str "expr") code) y) (hb : Always K H r U p (runBody r U p body) yes)
    (hm : Always K H r U p (ifLoop r U p els more) no) :
    Always K H r U p (ifLoop r U p els (code :: body :: more)) (y >>= fun v => condition_ v yes no) := by
  intro C l pre w hp hN
  unfold ifLoop
  refine Does.bind (hc C l pre w hp hN) fun v w' _ => ?_
  refine Does.pop_ (v := v) (post := pre) ?_
  unfold condition_
  cases v with
  | bool b => cases b with
    | true => exact hb _ _ _ _ hp hN
    | false => exact hm _ _ _ _ hp hN
  | _ => exact .raise

theorem Does.if_ (hN : C.p < C.N) {brs : List (QVal F)} {e : Option (QVal F)} {k : Nat} (hk : brs.length = 2 * (k + 1))
    (h : Always K H r U C.p (ifLoop r U C.p (e.getD .nil) brs) y) :
    Does K H r U C l (pre ++ brs ++ [.int k] ++ e.toList ++ [optInt e]) (Qlang.if_ r U C.p) y (fun v => ((), pre ++ [v])) w := by
  unfold Qlang.if_
  have last : Does K H r U C l (pre ++ brs ++ [.int k]) (do
      let condArity := (← Qlang.popArity) + 1
      ifLoop r U C.p (e.getD .nil) (← Qlang.popNArgs (condArity * 2))) y (fun v => ((), pre ++ [v])) w := by
    refine Does.popArity (n := k) (post := pre ++ brs) ?_ (by simp)
    refine Does.popNArgs (post := pre) (vs := brs) ?_ (by omega)
    exact h _ _ _ _ rfl hN
  cases e with
  | none =>
    refine Does.popArity (n := 0) (post := pre ++ brs ++ [.int k]) ?_ (by simp [optInt])
    rw [if_neg (by decide), pure_bind]
    exact last
  | some e =>
    refine Does.popArity (n := 1) (post := pre ++ brs ++ [.int k, e]) ?_ (by simp [optInt])
    rw [if_pos rfl]
    refine Does.pop_ (v := e) (post := pre ++ brs ++ [.int k]) ?_ (by simp)
    exact last

theorem switchLoop_end {codes : List (QVal F)} {v : QVal F} (hc : codes = []) (h : Always K H r U p (runBody r U p dflt) no) : Always K H r U p (switchLoop H.fl r U p v dflt codes) no := by
  subst hc; exact h

theorem switchLoop_step {more : List (QVal F)} {v : QVal F} (hc : Always K H r U p (Qlang.evalIn r U p (str "expr") code) y) (hb : Always K H r U p (runBody r U p body) yes)
    (hm : Always K H r U p (switchLoop H.fl r U p v dflt more) no) :
    Always K H r U p (switchLoop H.fl r U p v dflt (code :: body :: more)) (do
      match ← ofE (Qlang.EQ H.fl v (← y)) with
      | .bool true => yes
      | _ => no) := by
  intro C l pre w hp hN
  unfold switchLoop
  refine Does.bind (hc C l pre w hp hN) fun v' w' _ => ?_
  refine Does.pop_ (v := v') (post := pre) ?_
  refine Does.bind (Does.liftE (f := fun a => (a, pre))) fun e w' _ => ?_
  cases e with
  | bool b => cases b with
    | true => exact hb _ _ _ _ hp hN
    | false => exact hm _ _ _ _ hp hN
  | _ => exact hm _ _ _ _ hp hN

theorem Does.switch_ (hN : C.p < C.N) {on : QVal F} {yon : Prog F (QVal F)} {brs : List (QVal F)} {e : Option (QVal F)} {k : Nat} (hk : brs.length = 2 * k)
    {y : QVal F → Prog F (QVal F)} (h : ∀ v, Always K H r U C.p (switchLoop H.fl r U C.p v (e.getD .nil) brs) (y v))
    (hon : (on = .nil ∧ yon = pure (.bool true)) ∨ ((∃ ts, on = .code ts) ∧ Always K H r U C.p (Qlang.evalIn r U C.p (str "expr") on) yon)) :
    Does K H r U C l (pre ++ [on] ++ brs ++ [.int k] ++ e.toList ++ [optInt e]) (Qlang.switch_ H.fl r U C.p) (yon >>= y) (fun v => ((), pre ++ [v])) w := by
  unfold Qlang.switch_
  have last : Does K H r U C l (pre ++ [on] ++ brs ++ [.int k]) (do
      let caseArity ← Qlang.popArity
      let casebr ← Qlang.popNArgs (caseArity * 2)
      let on ← match ← Qlang.pop_ with
        | .nil => pure (.bool true)
        | code => do
          Qlang.evalIn r U C.p (str "expr") code
          Qlang.pop_
      switchLoop H.fl r U C.p on (e.getD .nil) casebr) (yon >>= y) (fun v => ((), pre ++ [v])) w := by
    refine Does.popArity (n := k) (post := pre ++ [on] ++ brs) ?_ (by simp)
    refine Does.popNArgs (post := pre ++ [on]) (vs := brs) ?_ (by omega)
    refine Does.pop_ (v := on) (post := pre) ?_
    rcases hon with ⟨rfl, rfl⟩ | ⟨⟨ts, rfl⟩, hon⟩
    · exact h _ _ _ _ _ rfl hN
    · refine Does.bind (hon _ _ _ _ rfl hN) fun v w' _ => ?_
      refine Does.pop_ (v := v) (post := pre) ?_
      exact h _ _ _ _ _ rfl hN
  cases e with
  | none =>
    refine Does.popArity (n := 0) (post := pre ++ [on] ++ brs ++ [.int k]) ?_ (by simp [optInt])
    rw [if_neg (by decide), pure_bind]
    exact last
  | some e =>
    refine Does.popArity (n := 1) (post := pre ++ [on] ++ brs ++ [.int k, e]) ?_ (by simp [optInt])
    rw [if_pos rfl]
    refine Does.pop_ (v := e) (post := pre ++ [on] ++ brs ++ [.int k]) ?_ (by simp)
    exact last

/-! ### Loops -/

/-- Repeat as long as the result is true. -/
def repeated (y : Prog F Bool) : Nat → Prog F Unit
  | 0 => fun _ => none
  | n + 1 => do
    if ← y then repeated y n
    else pure ()

theorem Does.loops {round : Unit → QM F (Unit ⊕ Unit)} {y : Prog F Bool}
    (h : ∀ w, Does K H r U C l pre (round ()) y (fun b => (if b then .inl () else .inr (), pre)) w) :
    ∀ n (w : World F) o, repeated y n w = o → ¬ Lost K o → ∀ s : St (QEng F), At C (l ++ pre) w s.u →
      Halts.Loops K.fuel r.env (client H.lib r U).sem n round () s (OkPost C l o (fun _ => ((), pre))) (ErrPost C l o) (o = none)
  | 0, w => fun o ho _ s hs => .zero ho.symm
  | n + 1, w => by
    intro o ho hnl s hs
    unfold repeated at ho
    rw [bind_run] at ho
    have h1 := h w _ rfl
    cases hy : y w with
    | none =>
      rw [hy] at ho h1
      obtain rfl : none = o := ho
      refine .succ (Q0 := fun _ _ => False) ((h1.resolve_left nofun s hs).mono ?_ ?_ fun _ => rfl) (fun _ _ h => h.elim) (fun _ _ h => h.elim)
      · rintro a u ⟨b, w', h1, _⟩; cases h1
      · rintro p u ⟨w', h1, h2⟩; cases h1
    | some o1 =>
      rw [hy] at ho h1
      obtain ⟨e | b, w1⟩ := o1
      · obtain rfl : some (.error e, w1) = o := ho
        have h1 := h1.resolve_left (fun ⟨w', h⟩ => hnl (by cases h; exact ⟨_, rfl⟩)) s hs
        refine .succ (Q0 := fun _ _ => False) (h1.mono ?_ ?_ nofun) (fun _ _ h => h.elim) (fun _ _ h => h.elim)
        · rintro a u ⟨b, w', h1, _⟩; cases h1
        · rintro p u ⟨w', h1, h2⟩; cases h1; exact ⟨_, rfl, h2⟩
      · have h1 := h1.resolve_left nofun s hs
        refine .succ (Q0 := fun a u => a = (if b then .inl () else .inr ()) ∧ At C (l ++ pre) w1 u) (h1.mono ?_ ?_ nofun) ?_ ?_
        · rintro a u ⟨b', w', h1, h2, h3⟩; cases h1; exact ⟨h2, h3⟩
        · rintro p u ⟨w', h1, h2⟩; cases h1
        · rintro _ u ⟨h1, h2⟩
          cases b with
          | true => cases h1
          | false => cases ho; exact ⟨(), w1, rfl, rfl, h2⟩
        · rintro _ s' ⟨h1, h2⟩
          cases b with
          | false => cases h1
          | true => exact Does.loops h n w1 o ho hnl s' h2

theorem Does.loop {round : Unit → QM F (Unit ⊕ Unit)} {y : Prog F Bool}
    (h : ∀ w, Does K H r U C l pre (round ()) y (fun b => (if b then .inl () else .inr (), pre)) w) {n : Nat} (hn : K.fuel ≤ n) (w : World F) :
    Does K H r U C l pre (Go.loop round ()) (repeated y n) (fun _ => ((), pre)) w :=
  fun o ho => lost_or fun hnl s hs => Halts.Loops.halts hn (Does.loops h n w o ho hnl s hs)

/-- One round. -/
def round (cond step : Option (Prog F (QVal F))) (body : Prog F (QVal F)) : Prog F Bool := do
  let go ← match cond with
    | none => pure true
    | some c => do
      match ← c with
      | .bool b => pure b
      | _ => Src.raise (failMsg (str "for loop condition isn't a boolean expression"))
  if go then do
    let _ ← body
    match step with
    | none => pure ()
    | some s => do let _ ← s
    pure true
  else pure false

theorem rounds_eq (cond step : Option (Prog F (QVal F))) (body : Prog F (QVal F)) : ∀ n, rounds cond step body n = (repeated (round cond step body) n >>= fun _ => pure .nil)
  | 0 => rfl
  | n + 1 => by
    have tail : ∀ go : Bool, (if go = true then do
          let _ ← body
          match step with
          | none => pure ()
          | some s => do let _ ← s
          rounds cond step body n
        else pure .nil : Prog F (QVal F)) = ((if go = true then do
          let _ ← body
          match step with
          | none => pure ()
          | some s => do let _ ← s
          pure true
        else pure false : Prog F Bool) >>= fun b => (if b = true then repeated (round cond step body) n else pure ()) >>= fun _ => pure .nil) := by
      intro go
      rw [rounds_eq cond step body n]
      cases go with
      | false => rfl
      | true =>
        simp only [if_true, bind_assoc]
        refine bind_congr fun _ => ?_
        cases step with
        | none => rfl
        | some s => simp only [bind_assoc, pure_bind, if_true]
    change rounds cond step body (n + 1) = ((round cond step body >>= fun b => if b = true then repeated (round cond step body) n else pure ()) >>= fun _ => pure .nil)
    rw [bind_assoc]
    cases cond with
    | none => exact tail true
    | some c =>
      change (c >>= fun v => _) = ((c >>= fun v => _) >>= _)
      rw [bind_assoc]
      refine bind_congr fun v => ?_
      cases v with
      | bool b => exact tail b
      | _ => rfl

/-- A part of `for`: there is none, or this is its code. -/
inductive PartOk (K : Bound) (H : Host F) (r : CompileRet Str) (U : Uni) (p : Nat) : QVal F → Option (Prog F (QVal F)) → Prop
  | none : PartOk K H r U p .nil none
  | some {ts : List Token} {y : Prog F (QVal F)} (h : Always K H r U p (Qlang.evalIn r U p (str "s") (.code ts)) y) : PartOk K H r U p (.code ts) (some y)

theorem Does.evalDrop {nm : Str} (hp : C.p = p) (hN : p < C.N) (h : Always K H r U p (Qlang.evalIn r U p nm (.code ts)) y) :
    Does K H r U C l pre (Qlang.evalDrop r U p nm (.code ts)) (y >>= fun _ => pure ()) (fun _ => ((), pre)) w := by
  unfold Qlang.evalDrop
  refine Does.bind (h _ _ _ _ hp hN) fun v w' _ => ?_
  refine Does.pop (v := v) (post := pre) ?_
  exact .ret rfl

/-- Drops the value of code, whatever the state. -/
def Drops (K : Bound) (H : Host F) (r : CompileRet Str) (U : Uni) (p : Nat) (x : QM F Unit) (y : Prog F (QVal F)) : Prop :=
  ∀ C l pre w, C.p = p → p < C.N → Does K H r U C l pre x (y >>= fun _ => pure ()) (fun _ => ((), pre)) w

theorem Does.forRound {cond step : Option (Prog F (QVal F))} {ccode scode bcode : QVal F} (hN : C.p < C.N) (hc : PartOk K H r U C.p ccode cond)
    (hs : PartOk K H r U C.p scode step) (hb : Drops K H r U C.p (Qlang.evalDrop r U C.p (str "doc") bcode) y) :
    Does K H r U C l pre (Qlang.forRound r U C.p ccode scode bcode ()) (round cond step y) (fun b => (if b then .inl () else .inr (), pre)) w := by
  have tail : ∀ (go : Bool) (w : World F), Does K H r U C l pre (if go = true then do
        Qlang.evalDrop r U C.p (str "doc") bcode
        Qlang.evalDrop r U C.p (str "s") scode
        pure (.inl ())
      else pure (.inr ()) : QM F (Unit ⊕ Unit)) (if go = true then do
        let _ ← y
        match step with
        | none => pure ()
        | some s => do let _ ← s
        pure true
      else pure false : Prog F Bool) (fun b => (if b then .inl () else .inr (), pre)) w := by
    intro go w
    cases go with
    | false => exact .ret rfl
    | true =>
      simp only [if_true]
      cases hs with
      | none =>
        refine Does.congr (Does.bind (g := fun _ => pure true) (hb _ _ _ _ rfl hN) fun _ w' _ => .ret rfl) ?_
        rw [bind_assoc]; rfl
      | some h =>
        refine Does.congr (Does.bind (hb _ _ _ _ rfl hN) fun _ w' _ => Does.bind (g := fun _ => pure true) (Does.evalDrop rfl hN h) fun _ w' _ => .ret rfl) ?_
        simp only [bind_assoc]; rfl
  unfold Qlang.forRound round
  cases hc with
  | none => exact tail true w
  | @some ts yc h =>
    refine Does.congr (y := (do
      let v ← yc
      match v with
      | .bool b => pure b
      | _ => Src.raise (failMsg (str "for loop condition isn't a boolean expression"))) >>= fun go => (if go = true then do
        let _ ← y
        match step with
        | none => pure ()
        | some s => do let _ ← s
        pure true
      else pure false : Prog F Bool)) (Does.bind (f := fun b => (b, pre)) ?_ fun go w' _ => tail go w') ?_
    · unfold evalCondS
      refine Does.bind (h _ _ _ _ rfl hN) fun v w' _ => ?_
      refine Does.pop (v := v) (post := pre) ?_
      cases v <;> first | exact .ret rfl | exact .raise
    · rw [bind_assoc]
      refine congrFun (bind_congr fun v => ?_) w
      cases v <;> rfl

theorem Does.for_ {cond step : Option (Prog F (QVal F))} {ccode scode bcode : QVal F} (hN : C.p < C.N) (hc : PartOk K H r U C.p ccode cond)
    (hs : PartOk K H r U C.p scode step) (hb : Drops K H r U C.p (Qlang.evalDrop r U C.p (str "doc") bcode) y) {n : Nat} (hn : K.fuel ≤ n) :
    Does K H r U C l pre (do
      Go.loop (Qlang.forRound r U C.p ccode scode bcode) ()
      Qlang.push .nil) (rounds cond step y n) (fun v => ((), pre ++ [v])) w := by
  rw [rounds_eq]
  exact Does.bind (Does.loop (fun w => Does.forRound hN hc hs hb) hn w) fun _ w' _ => .push rfl

/-- What `for` does with its parts. -/
def forParts (n : Nat) (body : Prog F (QVal F)) : List (Prog F (QVal F)) → Prog F (QVal F)
  | [] => rounds none none body n
  | [cond] => rounds (some cond) none body n
  | [init, cond, step] => do
    let _ ← init
    rounds (some cond) (some step) body n
  | _ => Src.raise (failErr .forForm)

/-- The codes of the parts. -/
inductive PartsOk (K : Bound) (H : Host F) (r : CompileRet Str) (U : Uni) (p : Nat) : List (QVal F) → List (Prog F (QVal F)) → Prop
  | nil : PartsOk K H r U p [] []
  | cons {ts : List Token} {y : Prog F (QVal F)} {cs ys} (h : Always K H r U p (Qlang.evalIn r U p (str "s") (.code ts)) y) (hs : PartsOk K H r U p cs ys) :
      PartsOk K H r U p (.code ts :: cs) (y :: ys)

theorem PartsOk.length {p : Nat} {cs : List (QVal F)} {ys} (h : PartsOk K H r U p cs ys) : cs.length = ys.length := by
  induction h with
  | nil => rfl
  | cons _ _ ih => rw [List.length_cons, List.length_cons, ih]

theorem Does.forAll {cs : List (QVal F)} {ys : List (Prog F (QVal F))} {bcode : QVal F} {k : Nat} (hN : C.p < C.N) (hc : PartsOk K H r U C.p cs ys)
    (hb : Drops K H r U C.p (Qlang.evalDrop r U C.p (str "doc") bcode) y) {n : Nat} (hn : K.fuel ≤ n) (hk : k = cs.length) :
    Does K H r U C l (pre ++ cs ++ [.int k, bcode]) (Qlang.for_ r U C.p) (forParts n y ys) (fun v => ((), pre ++ [v])) w := by
  unfold Qlang.for_
  refine Does.pop_ (v := bcode) (post := pre ++ cs ++ [.int k]) ?_ (by simp)
  refine Does.popArity (n := k) (post := pre ++ cs) ?_ (by simp)
  subst hk
  match hc with
  | .nil =>
    simp only [List.append_nil]
    exact Does.for_ hN .none .none hb hn
  | .cons h .nil =>
    simp only [List.length_cons, List.length_nil]
    rw [if_neg (by decide), if_pos (by decide)]
    refine Does.popNArgs (post := pre) (vs := [.code _]) ?_ rfl
    exact Does.for_ hN (.some h) .none hb hn
  | .cons h1 (.cons h2 (.cons h3 .nil)) =>
    simp only [List.length_cons, List.length_nil]
    rw [if_pos (by decide)]
    refine Does.popNArgs (post := pre) (vs := [.code _, .code _, .code _]) ?_ rfl
    dsimp only
    unfold forParts
    refine Does.congr (Does.bind (Does.evalDrop rfl hN h1) fun _ w' _ => Does.for_ hN (.some h2) (.some h3) hb hn) ?_
    simp
  | .cons h1 (.cons h2 .nil) => exact .raise
  | .cons h1 (.cons h2 (.cons h3 (.cons h4 hs))) =>
    have e : ∀ a b c d : QVal F, ∀ cs : List (QVal F), ((a :: b :: c :: d :: cs).length : Int) = (cs.length : Int) + 4 := by intros; simp; omega
    rw [e, if_neg (by omega), if_neg (by omega), if_neg (by omega)]
    exact .raise

end
end Tpl.Qlang.Src
