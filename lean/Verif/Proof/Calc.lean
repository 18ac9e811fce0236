import Verif.Spec.Calc
import Verif.Proof.Does
import Verif.Proof.Interp

/-!
The calculators compute the value of an expression.
-/
namespace Tpl
open Spec

/-! ### More rules -/
section
variable {A σ V P E : Type} {env : Env A} {sem : Sem A σ V P} {R : Panic A P → E → Prop}

theorem doesL_act {a : A} {g : Gr A} {toks rest u l} {o : Except E σ} {f : σ → Except E σ}
    (h : DoesL env sem R g toks rest u l o)
    (hf : ∀ fu m (s : St σ), o = .ok s.u → g.len s.len = l → Acts R (sem.act fu m a g toks s) s (f s.u)) :
    DoesL env sem R (.action a g) toks rest u l (o.bind f) := by
  intro s hs
  have h := h s hs
  cases o with
  | error p => obtain ⟨q, s', h1, hR⟩ := h; exact ⟨q, s', eval_action.mpr ⟨_, h1, rfl⟩, hR⟩
  | ok u1 =>
    obtain ⟨s1, h1, hs1, hl⟩ := h
    have hn : toks.length ≤ (toks ++ rest).length := by simp
    have ht : (toks ++ rest).take toks.length = toks := by simp
    simp only [Except.bind]
    have hact := hf 0 (matchG env sem 0) s1 (by rw [hs1]) hl
    rw [hs1] at hact
    cases ho : f u1 with
    | error e =>
      rw [ho] at hact
      obtain ⟨q, s', hq, hR⟩ := hact
      exact ⟨q, s', eval_action.mpr ⟨_, h1, .inr ⟨hn, _, ⟨0, by rw [ht]; exact hq⟩, rfl⟩⟩, hR⟩
    | ok u2 =>
      rw [ho] at hact
      exact ⟨{ s1 with u := u2 }, eval_action.mpr ⟨_, h1, .inr ⟨hn, _, ⟨0, by rw [ht]; exact hact⟩, rfl⟩⟩, rfl, hl⟩

theorem does_act {a : A} {g : Gr A} {toks rest u} {o : Except E σ} {f : σ → Except E σ}
    (h : Does env sem R g toks rest u o)
    (hf : ∀ fu m (s : St σ), o = .ok s.u → Acts R (sem.act fu m a g toks s) s (f s.u)) :
    Does env sem R (.action a g) toks rest u (o.bind f) := by
  intro s hs
  have h := h s hs
  cases o with
  | error p => obtain ⟨q, s', h1, hR⟩ := h; exact ⟨q, s', eval_action.mpr ⟨_, h1, rfl⟩, hR⟩
  | ok u1 =>
    obtain ⟨s1, h1, hs1⟩ := h
    have hn : toks.length ≤ (toks ++ rest).length := by simp
    have ht : (toks ++ rest).take toks.length = toks := by simp
    simp only [Except.bind]
    have hact := hf 0 (matchG env sem 0) s1 (by rw [hs1])
    rw [hs1] at hact
    cases ho : f u1 with
    | error e =>
      rw [ho] at hact
      obtain ⟨q, s', hq, hR⟩ := hact
      exact ⟨q, s', eval_action.mpr ⟨_, h1, .inr ⟨hn, _, ⟨0, by rw [ht]; exact hq⟩, rfl⟩⟩, hR⟩
    | ok u2 =>
      rw [ho] at hact
      exact ⟨{ s1 with u := u2 }, eval_action.mpr ⟨_, h1, .inr ⟨hn, _, ⟨0, by rw [ht]; exact hact⟩, rfl⟩⟩, rfl⟩

theorem rejects_tok {k : Nat} {src : List Token} (h : ∀ t, src.head? = some t → ¬ TokFits k t) : Rejects env sem (.tok k) src := by
  intro s
  cases src with
  | nil => exact ⟨_, _, s, eval_tok_nil.mpr rfl, rfl⟩
  | cons t src => exact ⟨_, _, s, eval_tok_cons.mpr (by rw [if_neg (h t rfl)]), rfl⟩

theorem rejects_and {g : Gr A} {gs : List (Gr A)} {src : List Token} (hg : g ≠ .nil) (h : Rejects env sem g src) :
    Rejects env sem (.and (g :: gs)) src := by
  intro s
  obtain ⟨n, e, s', h1, h2⟩ := h s
  exact ⟨_, _, s', eval_and.mpr (.fail hg (Nat.zero_le _) h1), h2⟩

/-- The second part fails. -/
theorem rejects_and_tok {k : Nat} {g : Gr A} {gs : List (Gr A)} {t : Token} {src : List Token} (hk : TokFits k t) (hg : g ≠ .nil)
    (h : Rejects env sem g src) : Rejects env sem (.and (.tok k :: g :: gs)) (t :: src) := by
  intro s
  obtain ⟨n, e, s', h1, h2⟩ := h s
  have hrest : AndRun (Eval env sem) (.and (.tok k :: g :: gs)) (t :: src) (g :: gs) false (0 + 1) s (.fail (0 + 1 + n) e s') :=
    .fail hg (by simp) h1
  exact ⟨_, _, s', eval_and.mpr (.ok (by intro h; cases h) (Nat.zero_le _) (eval_tok_cons.mpr (by rw [if_pos hk])) hrest), h2⟩

theorem rejects_action {a : A} {g : Gr A} {src : List Token} (h : Rejects env sem g src) : Rejects env sem (.action a g) src := by
  intro s
  obtain ⟨n, e, s', h1, h2⟩ := h s
  exact ⟨_, _, s', eval_action.mpr ⟨_, h1, rfl⟩, h2⟩

theorem rejects_named {nm : Str} {g : Gr A} {src : List Token} (h : Rejects env sem g src) : Rejects env sem (.named nm g) src := by
  intro s
  obtain ⟨n, e, s', h1, h2⟩ := h s
  exact ⟨_, _, s', eval_named.mpr h1, h2⟩

theorem rejects_var {v : Nat} {g : Gr A} {src : List Token} (hv : env v = some g) (h : Rejects env sem g src) :
    Rejects env sem (.var v) src := by
  intro s
  obtain ⟨n, e, s', h1, h2⟩ := h s
  exact ⟨_, _, s', eval_var.mpr (by rw [hv]; exact h1), h2⟩

theorem rejects_or {gs : List (Gr A)} {src : List Token} (hall : ∀ g ∈ gs, Rejects env sem g src) : Rejects env sem (.or gs) src := by
  intro s
  have key : ∀ (all : Gr A) (gs : List (Gr A)), (∀ g ∈ gs, Rejects env sem g src) → ∀ nMax errMax multi (s : St σ),
      (multi = false → errMax ≠ none) →
      ∃ n e s', OrRun (Eval env sem) all src gs nMax errMax multi s (.fail n e s') ∧ s'.u = s.u := by
    intro all gs
    induction gs with
    | nil =>
      intro _ nMax errMax multi s hm
      cases multi with
      | true => exact ⟨_, _, s, .multi, rfl⟩
      | false =>
        cases errMax with
        | none => exact absurd rfl (hm rfl)
        | some e => exact ⟨_, _, s, .single, rfl⟩
    | cons g gs ihg =>
      intro hg nMax errMax multi s hm
      obtain ⟨n, e, s1, h1, h2⟩ := hg g (.head _) s
      have hg' := fun g' h' => hg g' (.tail _ h')
      rcases Nat.lt_trichotomy n nMax with hlt | heq | hgt
      · obtain ⟨n', e', s', h3, h4⟩ := ihg hg' nMax errMax multi s1 hm
        exact ⟨n', e', s', .less h1 hlt h3, h4.trans h2⟩
      · subst heq
        obtain ⟨n', e', s', h3, h4⟩ := ihg hg' n errMax true s1 nofun
        exact ⟨n', e', s', .same h1 h3, h4.trans h2⟩
      · obtain ⟨n', e', s', h3, h4⟩ := ihg hg' n (some e) false s1 (fun _ => nofun)
        exact ⟨n', e', s', .more h1 hgt h3, h4.trans h2⟩
  obtain ⟨n, e, s', h1, h2⟩ := key (.or gs) gs hall 0 none true s nofun
  exact ⟨n, e, s', eval_or.mpr h1, h2⟩
end

namespace Calc
variable {V F : Type} {C : Calc V F}

/-- What the three calculators have in common. -/
structure Ok (C : Calc V F) : Prop where
  litKind : ∀ r ∈ C.litRules, r.kind = INT ∨ r.kind = FLOAT ∨ r.kind = IMAG
  litMark : ∀ r ∈ C.litRules, C.litRules.find? (·.mark = r.mark) = some r
  litNew : ∀ r ∈ C.litRules, r.mark ∉ ["neg", "mul", "quo", "mod", "add", "sub", "ARITY", "call", "ident"].map str
  litLower : ∀ r ∈ C.litRules, isLenMark r.mark = false
  litTy : ∀ r ∈ C.litRules, r.ty = .string ∨ r.ty = .float64
  mulKind : ∀ p ∈ C.mulOps, p.1 ∈ [42, 47, 37]
  mulOnce : (C.mulOps.map (·.1)).Nodup

/-- A RuntimeError with this cause. -/
def Raises (q : Panic Str (IPanic CalcErr Empty)) (c : Fault) : Prop := ∃ g toks, q = .user (.runtime g toks c)

theorem rewrap_panic (g : Gr Str) (toks : List Token) (c : Fault) :
    rewrap g toks (c.panic : Panic Str (IPanic CalcErr Empty)) = .user (.runtime g toks c) := by
  cases c <;> rfl

/-- The state with a value pushed. -/
def pushed (u : Eng V) (v : V) : Eng V := { u with u := u.u ++ [v] }

section
variable {f : Nat} {m : Mat Str (Eng V) (IPanic CalcErr Empty)} {g : Gr Str} {toks : List Token} {s : St (Eng V)} {mark : Str}

theorem act_run {e} (hm : s.u.mute = 0) (he : C.table mark = some e) :
    C.client.sem.act f m mark g toks s = match (C.client.perform mark e toks g).run f m s with
      | none => none
      | some (.panic p s') => some (.panic (rewrap g toks p) s')
      | some (.ok u s') => some (.ok u s') := by
  show (C.client.action mark g toks).run f m s = _
  have he' : C.client.table mark = some e := he
  simp only [Client.action, he']
  rw [Go.bind_ok Go.run_get, if_neg (by rw [hm]; simp [muted]), Go.run_recover]
  cases (C.client.perform mark e toks g).run f m s with
  | none => rfl
  | some c => cases c <;> rfl

/-- If the function does what `o` says, so does the action. -/
theorem acts_of {e} {o : Except Fault (Eng V)} (hm : s.u.mute = 0) (he : C.table mark = some e)
    (h : match o with
      | .ok u => (C.client.perform mark e toks g).run f m s = some (.ok () { s with u := u })
      | .error c => ∃ s', (C.client.perform mark e toks g).run f m s = some (.panic c.panic s')) :
    Acts Raises (C.client.sem.act f m mark g toks s) s o := by
  rw [act_run hm he]
  cases o with
  | ok u => dsimp only at h; rw [h]; rfl
  | error c =>
    obtain ⟨s', h⟩ := h
    rw [h]
    exact ⟨_, s', rfl, g, toks, rewrap_panic g toks c⟩

theorem paramTypes_goFn (fn : CalcFn V) {n : Nat} (h : if fn.variadic then fn.params ≤ n else n = fn.params) :
    paramTypes (C.goFn fn) n = List.replicate n C.ty := by
  unfold paramTypes goFn
  cases hv : fn.variadic with
  | false =>
    rw [hv] at h
    simp at h
    simp [h]
  | true =>
    rw [hv] at h
    simp at h
    simp [List.replicate_append_replicate, h]

theorem passAll_same : ∀ (vs : List V), PassAll C.refl (List.replicate vs.length C.ty) vs vs
  | [] => .nil
  | _ :: vs => .cons (.same rfl) (passAll_same vs)

theorem canPass_same (vs : List V) : CanPass C.refl (List.replicate vs.length C.ty) vs := by
  intro p hp
  have : p.2 = C.ty := List.eq_of_mem_replicate (List.of_mem_zip hp).2
  rw [this]
  simp [refl]

/-- A call with the right number of arguments. -/
theorem doCall_goFn (fn : CalcFn V) {rest args : List V} (hs : s.u.u = rest ++ args)
    (h : if fn.variadic then fn.params ≤ args.length else args.length = fn.params) :
    match fn.body args with
    | .ok v => (doCall C.refl stack.iface (C.goFn fn) args.length).run f m s = some (.ok none { s with u := { s.u with u := rest ++ [v] } })
    | .error c => ∃ s', (doCall C.refl stack.iface (C.goFn fn) args.length).run f m s = some (.panic c.panic s') := by
  have hp := paramTypes_goFn (C := C) fn h
  have key := doCall_run (R := C.refl) (f := f) (m := m) stack (C.goFn fn) (rest := rest) (args := args) (ws := args) (s := s) hs
    (by rw [hp]; simpa [stack] using passAll_same args) (by rw [hp]; exact canPass_same args)
  have hbody : (C.goFn fn).body args = (do pure [← lift (fn.body args)]) := rfl
  cases hb : fn.body args with
  | ok v =>
    dsimp only
    rw [key, hbody, hb]
    rfl
  | error c =>
    dsimp only
    refine ⟨{ s with u := s.u.onStack (W := V) (E := CalcErr) stack (fun _ => rest) }, ?_⟩
    rw [key, hbody, hb]
    rfl

theorem acts_plain (fn : CalcFn V) {rest args : List V} (hm : s.u.mute = 0) (he : C.table mark = some (.plain (C.goFn fn)))
    (hs : s.u.u = rest ++ args) (hv : fn.variadic = false) (hl : args.length = fn.params) :
    Acts Raises (C.client.sem.act f m mark g toks s) s ((fn.body args).map fun v => { s.u with u := rest ++ [v] }) := by
  have key := doCall_goFn (C := C) (f := f) (m := m) fn hs (by rw [hv]; simpa using hl)
  have hi : (C.goFn fn).ins.length = args.length := by simp [goFn, hl]
  apply acts_of hm he
  cases hb : fn.body args with
  | ok v =>
    rw [hb] at key
    simp only [Except.map, Client.perform, client]
    rw [hi, Go.bind_ok key]
    rfl
  | error c =>
    rw [hb] at key
    obtain ⟨s', key⟩ := key
    simp only [Except.map, Client.perform, client]
    exact ⟨s', by rw [hi, Go.bind_panic key]⟩


theorem table_neg (hC : C.Ok) : C.table (str "neg") = some (.plain (C.goFn C.negFn)) := by
  have h : C.litRules.find? (·.mark = str "neg") = none := by
    rw [List.find?_eq_none]; intro r hr h; apply hC.litNew r hr; rw [of_decide_eq_true h]; decide
  unfold table
  rw [h]
  dsimp only
  rw [if_pos rfl]

theorem mark_inj {o o' : BinOp} (h : o.mark = o'.mark) : o = o' := by
  cases o <;> cases o' <;> first | rfl | (exact absurd h (by decide))

theorem mark_mem (o : BinOp) : o.mark ∈ ["neg", "mul", "quo", "mod", "add", "sub", "ARITY", "call", "ident"].map str := by
  cases o <;> decide

theorem table_bin (hC : C.Ok) {o : BinOp} (ho : o ∈ (C.mulOps.map (·.2)) ++ [BinOp.add, .sub]) :
    C.table o.mark = some (.plain (C.goFn (C.binFn o))) := by
  have h : C.litRules.find? (·.mark = o.mark) = none := by
    rw [List.find?_eq_none]; intro r hr h; apply hC.litNew r hr; rw [of_decide_eq_true h]; exact mark_mem o
  have h2 : ((C.mulOps.map (·.2)) ++ [BinOp.add, .sub]).find? (·.mark = o.mark) = some o := by
    cases hf : ((C.mulOps.map (·.2)) ++ [BinOp.add, .sub]).find? (·.mark = o.mark) with
    | none => rw [List.find?_eq_none] at hf; exact absurd (decide_eq_true rfl) (hf o ho)
    | some o' => have := List.find?_some hf; rw [mark_inj (of_decide_eq_true this)]
  unfold table
  rw [h]
  dsimp only
  rw [if_neg (by cases o <;> decide), h2]

theorem table_arity (hC : C.Ok) : C.table (str "ARITY") = some (.recv [.int] true C.arityBody) := by
  have h : C.litRules.find? (·.mark = str "ARITY") = none := by
    rw [List.find?_eq_none]; intro r hr h; apply hC.litNew r hr; rw [of_decide_eq_true h]; decide
  have h2 : ((C.mulOps.map (·.2)) ++ [BinOp.add, .sub]).find? (·.mark = str "ARITY") = none := by
    rw [List.find?_eq_none]; intro o _; cases o <;> decide
  unfold table
  rw [h]
  dsimp only
  rw [if_neg (by decide), h2]
  dsimp only
  rw [if_pos rfl]

theorem table_call (hC : C.Ok) : C.table (str "call") = some (.recv [.string] true C.callBody) := by
  have h : C.litRules.find? (·.mark = str "call") = none := by
    rw [List.find?_eq_none]; intro r hr h; apply hC.litNew r hr; rw [of_decide_eq_true h]; decide
  have h2 : ((C.mulOps.map (·.2)) ++ [BinOp.add, .sub]).find? (·.mark = str "call") = none := by
    rw [List.find?_eq_none]; intro o _; cases o <;> decide
  unfold table
  rw [h]
  dsimp only
  rw [if_neg (by decide), h2]
  dsimp only
  rw [if_neg (by decide), if_pos rfl]

theorem table_ident (hC : C.Ok) {fn : Str → Except Fault V} (hi : C.ident = some fn) :
    C.table (str "ident") = some (.recv [.string] true (identBody fn)) := by
  have h : C.litRules.find? (·.mark = str "ident") = none := by
    rw [List.find?_eq_none]; intro r hr h; apply hC.litNew r hr; rw [of_decide_eq_true h]; decide
  have h2 : ((C.mulOps.map (·.2)) ++ [BinOp.add, .sub]).find? (·.mark = str "ident") = none := by
    rw [List.find?_eq_none]; intro o _; cases o <;> decide
  unfold table
  rw [h]
  dsimp only
  rw [if_neg (by decide), h2]
  dsimp only
  rw [if_neg (by decide), if_neg (by decide), hi]
  dsimp only
  rw [if_pos rfl]

theorem table_lit (hC : C.Ok) {r : LitRule V F} (hr : r ∈ C.litRules) : C.table r.mark = some (.recv [r.ty] true (litBody r)) := by
  unfold table
  rw [hC.litMark r hr]

/-! ### What the actions do -/

theorem acts_neg (hC : C.Ok) {base : List V} {x : V} (hm : s.u.mute = 0) (hs : s.u.u = base ++ [x]) :
    Acts Raises (C.client.sem.act f m (str "neg") g toks s) s ((C.neg x).map fun v => { s.u with u := base ++ [v] }) :=
  acts_plain (rest := base) (args := [x]) C.negFn hm (table_neg hC) hs rfl rfl

theorem acts_bin (hC : C.Ok) {o : BinOp} (ho : o ∈ (C.mulOps.map (·.2)) ++ [BinOp.add, .sub]) {base : List V} {x y : V}
    (hm : s.u.mute = 0) (hs : s.u.u = base ++ [x, y]) :
    Acts Raises (C.client.sem.act f m o.mark g toks s) s ((C.bin o x y).map fun v => { s.u with u := base ++ [v] }) :=
  acts_plain (rest := base) (args := [x, y]) (C.binFn o) hm (table_bin hC ho) hs rfl rfl

theorem acts_lit (hC : C.Ok) {t : Token} {r : LitRule V F} (hr : litRule? C t = some r) (hm : s.u.mute = 0) (ht : toks = [t]) :
    Acts Raises (C.client.sem.act f m r.mark g toks s) s ((litValue C t).map (pushed s.u)) := by
  subst ht
  have hmem : r ∈ C.litRules := List.mem_of_find?_eq_some hr
  apply acts_of hm (table_lit hC hmem)
  have hl := hC.litLower r hmem
  unfold litValue
  rw [hr]
  dsimp only
  rcases hC.litTy r hmem with hty | hty
  · rw [hty]
    dsimp only
    have hargs : (markArgs C.client.lits r.mark [.string] [t] g : Code V _).run f m s = some (.ok [.str t.lit] s) := by
      simp only [markArgs, hl]
      rfl
    cases hp : r.push (.str t.lit) with
    | ok v =>
      simp only [Except.map, Client.perform]
      rw [Go.bind_ok hargs]
      simp only [litBody]
      rw [hp]
      rfl
    | error c =>
      refine ⟨s, ?_⟩
      simp only [Client.perform]
      rw [Go.bind_ok hargs]
      simp only [litBody]
      rw [hp]
      rfl
  · rw [hty]
    dsimp only
    have hargs : (markArgs C.client.lits r.mark [.float64] [t] g : Code V _).run f m s = match ParseFloat C.lits t.lit with
        | .panic => some (.panic .slice s)
        | .ok (.ok x) => some (.ok [.float x] s)
        | .ok (.error e) => some (.panic (.user (.str (.arg r.mark e))) s) := by
      simp only [markArgs, hl]
      show (litArg C.lits r.mark .float64 [t] >>= fun a => pure [a] : Code V _).run f m s = _
      simp only [litArg]
      cases ParseFloat C.lits t.lit with
      | panic => rfl
      | ok x => cases x <;> rfl
    cases hp : ParseFloat C.lits t.lit with
    | panic =>
      rw [hp] at hargs
      exact ⟨s, by simp only [Client.perform]; exact Go.bind_panic hargs⟩
    | ok x =>
      rw [hp] at hargs
      cases x with
      | error e => exact ⟨s, by simp only [Client.perform]; exact Go.bind_panic hargs⟩
      | ok x =>
        dsimp only at hargs ⊢
        cases hp : r.push (.float x) with
        | ok v =>
          simp only [Except.map, Client.perform]
          rw [Go.bind_ok hargs]
          simp only [litBody]
          rw [hp]
          rfl
        | error c =>
          refine ⟨s, ?_⟩
          simp only [Client.perform]
          rw [Go.bind_ok hargs]
          simp only [litBody]
          rw [hp]
          rfl

theorem acts_ident (hC : C.Ok) {fn : Str → Except Fault V} (hi : C.ident = some fn) {t : Token} (hm : s.u.mute = 0) (ht : toks = [t]) :
    Acts Raises (C.client.sem.act f m (str "ident") g toks s) s ((fn t.lit).map (pushed s.u)) := by
  subst ht
  apply acts_of hm (table_ident hC hi)
  have hargs : (markArgs C.client.lits (str "ident") [.string] [t] g : Code V _).run f m s = some (.ok [.str t.lit] s) := rfl
  cases hp : fn t.lit with
  | ok v =>
    simp only [Except.map, Client.perform]
    rw [Go.bind_ok hargs]
    simp only [identBody]
    rw [hp]
    rfl
  | error c =>
    refine ⟨s, ?_⟩
    simp only [Client.perform]
    rw [Go.bind_ok hargs]
    simp only [identBody]
    rw [hp]
    rfl

theorem acts_arity (hC : C.Ok) (hm : s.u.mute = 0) :
    Acts Raises (C.client.sem.act f m (str "ARITY") g toks s) s (.ok (pushed s.u (C.ofArity (g.len s.len)))) := by
  apply acts_of hm (table_arity hC)
  have hargs : (markArgs C.client.lits (str "ARITY") [.int] toks g : Code V _).run f m s = some (.ok [.len (g.len s.len)] s) := rfl
  dsimp only
  simp only [Client.perform]
  rw [Go.bind_ok hargs]
  rfl

theorem pop_run {l : List V} {a : V} (hs : s.u.u = l ++ [a]) :
    (pop : Code V _).run f m s = some (.ok (some a) { s with u := { s.u with u := l } }) := by
  simp only [pop]
  rw [Go.bind_ok Go.run_get, hs]
  simp only [List.getLast?_append, List.getLast?_singleton, Option.some_or]
  rw [Go.bind_ok (Go.run_modify _)]
  simp only [Go.run_pure, Eng.onStack, stack, hs, List.dropLast_concat]

theorem acts_call (hC : C.Ok) {base vs : List V} {t : Token} {ts : List Token} (hm : s.u.mute = 0)
    (hs : s.u.u = base ++ vs ++ [C.ofArity vs.length]) (ha : C.toArity (C.ofArity vs.length) = .ok vs.length) (ht : toks = t :: ts) :
    Acts Raises (C.client.sem.act f m (str "call") g toks s) s ((apply C t.lit vs).map fun v => { s.u with u := base ++ [v] }) := by
  subst ht
  apply acts_of hm (table_call hC)
  have hargs : (markArgs C.client.lits (str "call") [.string] (t :: ts) g : Code V _).run f m s = some (.ok [.str t.lit] s) := rfl
  have hperf : ∀ (o : Except Fault (Eng V)), (match o with
      | .ok u => (C.callFn t.lit).run f m s = some (.ok () { s with u := u })
      | .error c => ∃ s', (C.callFn t.lit).run f m s = some (.panic c.panic s')) →
      (match o with
      | .ok u => (C.client.perform (str "call") (.recv [.string] true C.callBody) (t :: ts) g).run f m s = some (.ok () { s with u := u })
      | .error c => ∃ s', (C.client.perform (str "call") (.recv [.string] true C.callBody) (t :: ts) g).run f m s = some (.panic c.panic s')) := by
    intro o h
    cases o with
    | ok u => simp only [Client.perform]; rw [Go.bind_ok hargs]; exact h
    | error c => obtain ⟨s', h⟩ := h; exact ⟨s', by simp only [Client.perform]; rw [Go.bind_ok hargs]; exact h⟩
  apply hperf
  unfold apply applyFn callFn
  cases hf : C.fns t.lit with
  | none => exact ⟨s, rfl⟩
  | some fn =>
    dsimp only
    have hpop := pop_run (f := f) (m := m) (s := s) hs
    let s1 : St (Eng V) := { s with u := { s.u with u := base ++ vs } }
    have hs1 : s1.u.u = base ++ vs := rfl
    have hcalls : ∀ (k : Option (CallErr CalcErr) → Code V Unit),
        ((pop : Code V _) >>= fun
          | none => Go.panic (.user (.err .withoutArity))
          | some a => lift (C.toArity a) >>= fun n => call C.refl stack.iface (C.goFn fn) n >>= k).run f m s
        = (call C.refl stack.iface (C.goFn fn) vs.length >>= k).run f m s1 := by
      intro k
      rw [Go.bind_ok hpop]
      dsimp only
      rw [ha]
      rfl
    refine (fun h => ?_) (hcalls fun
      | none => pure ()
      | some e => Go.panic (.user (.err (.failed t.lit e))))
    have hacc : Accepts (C.goFn fn) vs.length ↔ if fn.variadic then fn.params ≤ vs.length else vs.length = fn.params := by
      unfold Accepts goFn
      cases fn.variadic <;> simp <;> omega
    by_cases hok : if fn.variadic then fn.params ≤ vs.length else vs.length = fn.params
    · have hd := doCall_goFn (C := C) (f := f) (m := m) (s := s1) fn hs1 hok
      rw [call_accepts (hacc.mpr hok)] at h
      have hbody : (if fn.variadic = true then
            if vs.length < fn.params then Except.error (.err (.failed t.lit .notEnough)) else fn.body vs
          else if vs.length ≠ fn.params then .error (.err (.failed t.lit (.count fn.params vs.length))) else fn.body vs) = fn.body vs := by
        cases hv : fn.variadic <;> simp [hv] at hok ⊢ <;> omega
      rw [hbody]
      cases hb : fn.body vs with
      | ok v =>
        rw [hb] at hd
        dsimp only at hd
        rw [Go.bind_ok hd] at h
        exact h
      | error c =>
        rw [hb] at hd
        obtain ⟨s', hd⟩ := hd
        rw [Go.bind_panic hd] at h
        exact ⟨s', h⟩
    · cases hv : fn.variadic with
      | true =>
        simp only [hv, if_true] at hok ⊢
        rw [if_pos (by omega)]
        refine ⟨s1, h.trans ?_⟩
        have : (call C.refl stack.iface (C.goFn fn) vs.length : Code V _) = pure (some .notEnough) := by
          simp only [call, goFn, hv, if_true, List.length_replicate]
          rw [if_pos (by omega)]
        rw [this]
        rfl
      | false =>
        simp [hv] at hok
        simp only [hv, Bool.false_eq_true, if_false]
        rw [if_pos hok]
        refine ⟨s1, h.trans ?_⟩
        have : (call C.refl stack.iface (C.goFn fn) vs.length : Code V _) = pure (some (.count fn.params vs.length)) := by
          simp only [call, goFn, hv, Bool.false_eq_true, if_false, List.length_replicate]
          rw [if_pos (by omega)]
        rw [this]
        rfl

end
end Calc
end Tpl
