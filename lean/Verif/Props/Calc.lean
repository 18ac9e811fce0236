import Verif.Proof.CalcParse
import Verif.Proof.CalcGrammar
import Verif.Props.Compiler
import Verif.Props.Interp

/-! C53–C57: the calculators.

`Reads C 0 toks e` (Spec/Calc) says that the tokens are the expression `e`; `numberValue`,
`ratValue` and `cmplxValue` are its value in the three packages.  `C.client.new` compiles the
grammar of a package, `C.client.eval` is `Eval` of the engine, `Calc.ret` is `Ret`. -/
namespace Tpl.Props
open Tpl Tpl.Spec Tpl.Scanner
variable {V F Z : Type}

/-- The three packages, with the texts of their grammars. -/
inductive IsPackage : {V F : Type} → Calc V F → Str → Prop
  | number {F : Type} (M : Float64 F) : IsPackage (number M) numberGrammar
  | rat {F : Type} (L : Lits F) (setString : Str → Option Rat) : IsPackage (rat L setString) ratGrammar
  | cmplx {F Z : Type} (M : Complex128 F Z) : IsPackage (cmplx M) cmplxGrammar

/-! ### Facts about the packages -/

theorem package_ok {C : Calc V F} {text : Str} (hp : IsPackage C text) : C.Ok := by
  cases hp <;>
  exact {
    litKind := by intro r hr; simp [number, rat, cmplx] at hr; first | (subst hr; simp) | (rcases hr with rfl | rfl <;> simp)
    litMark := by intro r hr; simp [number, rat, cmplx] at hr; first | (subst hr; rfl) | (rcases hr with rfl | rfl <;> rfl)
    litNew := by intro r hr; simp only [number, rat, cmplx, List.mem_cons, List.not_mem_nil, or_false] at hr; first | (subst hr; dsimp only; decide) | (rcases hr with rfl | rfl <;> (dsimp only; decide))
    litLower := by intro r hr; simp [number, rat, cmplx] at hr; first | (subst hr; rfl) | (rcases hr with rfl | rfl <;> rfl)
    litTy := by intro r hr; simp [number, rat, cmplx] at hr; first | (subst hr; simp) | (rcases hr with rfl | rfl <;> simp)
    mulKind := by simp [number, rat, cmplx]
    mulOnce := by simp [number, rat, cmplx] }

theorem package_wf {C : Calc V F} {text : Str} (hp : IsPackage C text) : WellFormed C.env C.doc := by
  cases hp <;>
  exact wellFormed_of_check (N := 1) (nul := fun _ => false) (rank := id)
    (by intro v hv; match v, hv with | v + 1, _ => rfl) rfl
    (by intro v g hv; match v, hv with | 0, h => cases h; exact ⟨fun h => absurd h (by rw [show (toPeg _).nullB (fun _ => false) = false from rfl]; simp), rfl, rfl⟩)

theorem compiled_cases {o : Option (ClRes Str)} {root : Gr Str} {vars mode} (h : Calc.compiledParts o = some (root, vars, mode)) :
    ∃ r, o = some (.ok r) ∧ r.root = root ∧ r.tab.vars = vars ∧ r.mode = mode := by
  cases o with
  | none => cases h
  | some o =>
    cases o with
    | err => cases h
    | panic => cases h
    | ok r =>
      simp only [Calc.compiledParts, Option.some.injEq, Prod.mk.injEq] at h
      exact ⟨r, rfl, h⟩

theorem package_parts {C : Calc V F} {text : Str} (hp : IsPackage C text) (U : Uni) (mode : Mode) :
    ∃ r, C.client.new text mode U 60 = some (.ok r) ∧ r.root = C.doc ∧ r.tab.vars = [(str "factor", some C.factor)] ∧ r.mode = mode := by
  cases hp
  · exact compiled_cases (Calc.number_compiled _ U mode)
  · exact compiled_cases (Calc.rat_compiled _ _ U mode)
  · exact compiled_cases (Calc.cmplx_compiled _ U mode)

/-- C53: the grammar of each package compiles. -/
theorem C53_compiles {C : Calc V F} {text : Str} (hp : IsPackage C text) (U : Uni) (mode : Mode) :
    ∃ fuel r, C.client.new text mode U fuel = some (.ok r) := by
  obtain ⟨r, h, _⟩ := package_parts hp U mode
  exact ⟨60, r, h⟩

theorem package_engine {C : Calc V F} {text : Str} (hp : IsPackage C text) {U : Uni} {mode : Mode} {fuel : Nat} {r : CompileRet Str}
    (hr : C.client.new text mode U fuel = some (.ok r)) : r.root = C.doc ∧ r.env = C.env ∧ r.mode = mode := by
  obtain ⟨r', h, h1, h2, h3⟩ := package_parts hp U mode
  have := cl_unique hr h
  cases this
  refine ⟨h1, ?_, h3⟩
  funext v
  simp only [CompileRet.env, Tab.env, h2, Calc.env]
  cases v with
  | zero => rfl
  | succ v => rw [if_neg (by omega)]; rfl

/-- What matching exactly makes of the outcome of the grammar. -/
def exactly {A σ P : Type} (ts : List Token) : Res A σ P → MRes A σ P Unit
  | .panic p s => .panic p s
  | .fail _ e s => .err (.match_ e) s
  | .ok n s => if (ts.drop n).length ≠ 0 then .err (.match_ (mismatch .eof (ts.drop n))) s else .ok () s

theorem matchExactly_of {A σ P : Type} (m : Matcher A σ V P) (hg : m.grammar ≠ .nil) {U : Uni} {k : KwScanner}
    (hk : KwScanner.Steps U KwScanner.zero k) {src : Str} {s s1 : St σ} {ts : List Token} {eof : Token}
    (ht : Tokenizes U k src m.mode ts eof) (hi : m.init s = .ok () s1) {r : Res A σ P} (h : Eval m.env m.sem m.grammar ts s1 r) :
    ∃ fuel, (m.matchExactly U fuel k src s).1 = some (exactly ts r) := by
  obtain ⟨fuel, h⟩ := h
  refine ⟨fuel, ?_⟩
  have hm := match_eq m hg U fuel k src s
  rw [(tokenizes_ok hk ht).1] at hm
  dsimp only at hm
  rw [hi] at hm
  dsimp only at hm
  rw [h] at hm
  unfold Matcher.matchExactly
  generalize m.match_ U fuel k src s = x at hm
  obtain ⟨x, k'⟩ := x
  dsimp only at hm ⊢
  subst hm
  cases r with
  | panic p s => rfl
  | fail n e s => rfl
  | ok n s =>
    simp only [exactly]
    by_cases hd : (ts.drop n).length ≠ 0
    · rw [if_pos hd, if_pos hd]
    · rw [if_neg hd, if_neg hd]

/-- The state in which matching begins. -/
def started (U : Uni) (mode : Mode) (src : Str) (s : St (Calc.Eng V)) : St (Calc.Eng V) :=
  { s with u := { s.u with mute := 0, scanner := (s.u.scanner.tokenize U src mode).2 } }

theorem eval_of {C : Calc V F} {text : Str} (hp : IsPackage C text) {U : Uni} {mode : Mode} {fuel0 : Nat} {r : CompileRet Str}
    (hr : C.client.new text mode U fuel0 = some (.ok r)) {s : St (Calc.Eng V)} (hk : KwScanner.Steps U KwScanner.zero s.u.scanner)
    {src : Str} {toks : List Token} {eof : Token} (ht : Tokenizes U s.u.scanner src mode toks eof) {res}
    (h : Eval C.env C.client.sem C.doc toks (started U mode src s) res) :
    ∃ fuel, C.client.eval r U fuel src s = some (exactly toks res) := by
  obtain ⟨h1, h2, h3⟩ := package_engine hp hr
  subst h3
  exact matchExactly_of ⟨r.root, r.mode, engInit (s.u.scanner.tokenize U src r.mode).2, r.env, C.client.sem⟩
    (by rw [h1]; intro h; cases h) hk ht rfl (by rw [h1, h2]; exact h)

/-- Evaluation, for all three at once. -/
theorem calc_eval {C : Calc V F} {text : Str} (hp : IsPackage C text) {U : Uni} {mode : Mode} {fuel0 : Nat} {r : CompileRet Str}
    (hr : C.client.new text mode U fuel0 = some (.ok r)) (s : St (Calc.Eng V)) (hk : KwScanner.Steps U KwScanner.zero s.u.scanner)
    {src : Str} {toks : List Token} {eof : Token} (ht : Tokenizes U s.u.scanner src mode toks eof) {e : Ex} (he : Reads C 0 toks e)
    (hn : Calc.Counts C toks.length) :
    match e.eval C with
    | .ok v => ∃ fuel s', C.client.eval r U fuel src s = some (.ok () s') ∧ s'.u.u = s.u.u ++ [v]
    | .error c => ∃ fuel s' g ts, C.client.eval r U fuel src s = some (.panic (.user (.runtime g ts c)) s') := by
  have := (Calc.does_expr (package_ok hp) hn _ (Nat.le_refl _) (ts := toks) (rest := []) (e := e)
    (u := (started U mode src s).u) (by omega) rfl).2 he (by intro t ht; cases ht) (started U mode src s) rfl
  rw [List.append_nil] at this
  cases hv : e.eval C with
  | ok v =>
    rw [hv] at this
    obtain ⟨s', h1, h2⟩ := this
    obtain ⟨fuel, h⟩ := eval_of hp hr hk ht h1
    refine ⟨fuel, s', ?_, ?_⟩
    · rw [h]; simp [exactly]
    · rw [h2]; rfl
  | error c =>
    rw [hv] at this
    obtain ⟨q, s', h1, g, ts, rfl⟩ := this
    obtain ⟨fuel, h⟩ := eval_of hp hr hk ht h1
    exact ⟨fuel, s', g, ts, h⟩

theorem ret_append (base : List V) (v : V) : Calc.ret (base ++ [v]) = (some v, []) := by
  simp [Calc.ret]

/-! ### C53 -/

mutual
theorem reads_nums {C : Calc V F} : ∀ {l ts e}, Reads C l ts e → e.AllNums fun t => (litRule? C t).isSome
  | _, _, _, .sum h => reads_nums h
  | _, _, _, .add h _ h' => ⟨reads_nums h, reads_nums h'⟩
  | _, _, _, .sub h _ h' => ⟨reads_nums h, reads_nums h'⟩
  | _, _, _, .product h => reads_nums h
  | _, _, _, .mul h _ h' => ⟨reads_nums h, reads_nums h'⟩
  | _, _, _, .num h => by simp [Ex.AllNums, h]
  | _, _, _, .name _ _ => trivial
  | _, _, _, .neg _ h => by simpa [Ex.AllNums] using reads_nums h
  | _, _, _, .pos _ h => reads_nums h
  | _, _, _, .paren _ h _ => reads_nums h
  | _, _, _, .call _ _ h _ => readsArgs_nums h
theorem readsArgs_nums {C : Calc V F} : ∀ {ts es}, ReadsArgs C ts es → allNums (fun t => (litRule? C t).isSome) es
  | _, _, .nil => trivial
  | _, _, .some h h' => ⟨reads_nums h, readsMore_nums h'⟩
theorem readsMore_nums {C : Calc V F} : ∀ {ts es}, ReadsMore C ts es → allNums (fun t => (litRule? C t).isSome) es
  | _, _, .nil => trivial
  | _, _, .cons _ h h' => ⟨reads_nums h, readsMore_nums h'⟩
end

mutual
theorem number_value (M : Float64 F) : ∀ (e : Ex), e.AllNums (fun t => (litRule? (number M) t).isSome) → e.eval (number M) = numberValue M e
  | .num t, h => by
    simp only [Ex.AllNums, Option.isSome_iff_exists] at h
    obtain ⟨r, h⟩ := h
    have hr : r ∈ (number M).litRules := List.mem_of_find?_eq_some h
    simp only [number, List.mem_cons, List.not_mem_nil, or_false] at hr
    simp only [Ex.eval, litValue, h, numberValue]
    subst hr
    dsimp only [number]
  | .name t, _ => rfl
  | .neg e, h => by simp only [Ex.eval, numberValue, number_value M e h]; rfl
  | .bin o a b, h => by simp only [Ex.eval, numberValue, number_value M a h.1, number_value M b h.2]; rfl
  | .call f args, h => by simp only [Ex.eval, numberValue, number_values M args h]; rfl
theorem number_values (M : Float64 F) : ∀ (es : List Ex), allNums (fun t => (litRule? (number M) t).isSome) es →
    evalArgs (number M) es = numberValues M es
  | [], _ => rfl
  | e :: es, h => by simp only [evalArgs, numberValues, number_value M e h.1, number_values M es h.2]
end

mutual
theorem cmplx_value (M : Complex128 F Z) : ∀ (e : Ex), e.AllNums (fun t => (litRule? (cmplx M) t).isSome) → e.eval (cmplx M) = cmplxValue M e
  | .num t, h => by
    simp only [Ex.AllNums, Option.isSome_iff_exists] at h
    obtain ⟨r, h⟩ := h
    simp only [Ex.eval, litValue, h, cmplxValue]
    simp only [litRule?, cmplx, List.find?_cons, List.find?_nil] at h
    by_cases h1 : t.kind = FLOAT ∨ t.kind = INT ∧ True
    · rw [decide_eq_true h1] at h
      simp only [Option.some.injEq] at h
      subst h
      rw [if_neg (by rcases h1 with h1 | ⟨h1, _⟩ <;> rw [h1] <;> decide)]
      rfl
    · rw [decide_eq_false h1] at h
      dsimp only at h
      by_cases h2 : t.kind = IMAG ∨ t.kind = INT ∧ IMAG = FLOAT
      · rw [decide_eq_true h2] at h
        simp only [Option.some.injEq] at h
        subst h
        rw [if_pos (by rcases h2 with h2 | ⟨_, h2⟩; exact h2; exact absurd h2 (by decide))]
      · rw [decide_eq_false h2] at h
        cases h
  | .name t, _ => rfl
  | .neg e, h => by simp only [Ex.eval, cmplxValue, cmplx_value M e h]; rfl
  | .bin o a b, h => by simp only [Ex.eval, cmplxValue, cmplx_value M a h.1, cmplx_value M b h.2]; rfl
  | .call f args, h => by simp only [Ex.eval, cmplxValue, cmplx_values M args h]; rfl
theorem cmplx_values (M : Complex128 F Z) : ∀ (es : List Ex), allNums (fun t => (litRule? (cmplx M) t).isSome) es →
    evalArgs (cmplx M) es = cmplxValues M es
  | [], _ => rfl
  | e :: es, h => by simp only [evalArgs, cmplxValues, cmplx_value M e h.1, cmplx_values M es h.2]
end

theorem ratPick_some {better : Rat → Rat → Bool} {f : Rat → Rat → Rat} (hf : ∀ a b, f a b = if better b a then b else a) :
    ∀ (xs : List Rat) (x : Rat), ratPick better (some x) (xs.map some) = .ok (some (xs.foldl f x))
  | [], x => rfl
  | y :: xs, x => by
    simp only [List.map_cons, ratPick, List.foldl_cons, hf x y]
    split
    · exact ratPick_some hf xs y
    · exact ratPick_some hf xs x

theorem ratMax_some (vs : List Rat) : ratMax (vs.map some) = .ok (some (vs.max?.getD 0)) := by
  cases vs with
  | nil => rfl
  | cons x xs =>
    simp only [List.map_cons, ratMax, List.max?_cons', Option.getD_some]
    refine ratPick_some (fun a b => ?_) xs x
    show (if a ≤ b then b else a) = _
    simp only [decide_eq_true_eq]
    by_cases h : a < b
    · rw [if_pos h, if_pos (Rat.le_of_lt h)]
    · rw [if_neg h]
      split
      · next h' => exact Rat.le_antisymm (Rat.not_lt.1 h) h'
      · rfl

theorem ratMin_some (vs : List Rat) : ratMin (vs.map some) = .ok (some (vs.min?.getD 0)) := by
  cases vs with
  | nil => rfl
  | cons x xs =>
    simp only [List.map_cons, ratMin, List.min?_cons', Option.getD_some]
    refine ratPick_some (fun a b => ?_) xs x
    show (if a ≤ b then a else b) = _
    simp only [decide_eq_true_eq]
    by_cases h : b < a
    · rw [if_pos h, if_neg (Rat.not_le.2 h)]
    · rw [if_neg h, if_pos (Rat.not_lt.1 h)]

theorem rat_abs (x : Rat) : (if x < 0 then -x else x) = x.abs := by
  unfold Rat.abs
  split
  · next h => rw [if_neg (Rat.not_le.2 h)]
  · next h => rw [if_pos (Rat.not_lt.1 h)]

theorem ratOne (name : Str) (f : Rat → Except Fault Rat) (vs : List Rat) :
    applyFn (some ⟨1, false, fun
      | [x] => ratOp1 f x
      | _ => .error .value⟩) name (vs.map some) =
    (match vs with
    | [x] => f x
    | vs => .error (.err (.failed name (.count 1 vs.length))) : Except Fault Rat).map some := by
  match vs with
  | [] => rfl
  | [x] => rfl
  | x :: y :: vs => simp [applyFn, Except.map]

theorem rat_call (name : Str) (vs : List Rat) : applyFn (ratFns name) name (vs.map some) = (ratCall name vs).map some := by
  unfold ratFns ratCall
  dsimp only
  by_cases h1 : name = str "abs"
  · simp only [if_pos h1, rat_abs]; exact ratOne _ _ _
  simp only [if_neg h1]
  by_cases h2 : name = str "inv"
  · simp only [if_pos h2]; exact ratOne _ _ _
  simp only [if_neg h2]
  by_cases h3 : name = str "max"
  · simp only [if_pos h3]; simp [applyFn, ratMax_some, Except.map]
  simp only [if_neg h3]
  by_cases h4 : name = str "min"
  · simp only [if_pos h4]; simp [applyFn, ratMin_some, Except.map]
  simp only [if_neg h4]
  by_cases h5 : name = str "denom"
  · simp only [if_pos h5]; exact ratOne _ _ _
  simp only [if_neg h5]
  by_cases h6 : name = str "num"
  · simp only [if_pos h6]; exact ratOne _ _ _
  simp only [if_neg h6]
  rfl

mutual
theorem rat_value (L : Lits F) (ss : Str → Option Rat) (lit : Str → Rat) : ∀ (e : Ex), e.AllNums (fun t => (litRule? (rat L ss) t).isSome) →
    e.AllNums (fun t => ss t.lit = some (lit t.lit)) → e.eval (rat L ss) = (ratValue lit e).map some
  | .num t, h, h' => by
    simp only [Ex.AllNums, Option.isSome_iff_exists] at h h'
    obtain ⟨r, h⟩ := h
    have hr : r ∈ (rat L ss).litRules := List.mem_of_find?_eq_some h
    simp only [rat, List.mem_cons, List.not_mem_nil, or_false] at hr
    simp only [Ex.eval, litValue, h, ratValue]
    subst hr
    dsimp only
    rw [h']
    rfl
  | .name t, _, _ => rfl
  | .neg e, h, h' => by
    simp only [Ex.eval, ratValue, rat_value L ss lit e h h']
    cases ratValue lit e <;> rfl
  | .bin o a b, h, h' => by
    simp only [Ex.eval, ratValue, rat_value L ss lit a h.1 h'.1, rat_value L ss lit b h.2 h'.2]
    cases ratValue lit a with
    | error => rfl
    | ok x =>
      cases ratValue lit b with
      | error => rfl
      | ok y => cases o <;> rfl
  | .call f args, h, h' => by
    simp only [Ex.eval, ratValue, rat_values L ss lit args h h']
    cases ratValues lit args with
    | error => rfl
    | ok vs => exact rat_call f.lit vs
theorem rat_values (L : Lits F) (ss : Str → Option Rat) (lit : Str → Rat) : ∀ (es : List Ex), allNums (fun t => (litRule? (rat L ss) t).isSome) es →
    allNums (fun t => ss t.lit = some (lit t.lit)) es → evalArgs (rat L ss) es = (ratValues lit es).map (·.map some)
  | [], _, _ => rfl
  | e :: es, h, h' => by
    simp only [evalArgs, ratValues, rat_value L ss lit e h.1 h'.1, rat_values L ss lit es h.2 h'.2]
    cases ratValue lit e with
    | error => rfl
    | ok x => cases ratValues lit es <;> rfl
end

theorem rat_counts (L : Lits F) (ss : Str → Option Rat) (n : Nat) : Calc.Counts (rat L ss) n := by
  intro k _
  rfl

/-- What evaluating a text comes to: a value, that `Ret` returns (clearing the stack), or
a RuntimeError with a cause. -/
def Computes (C : Calc V F) (r : CompileRet Str) (U : Uni) (src : Str) (s : St (Calc.Eng V)) : Except Fault V → Prop
  | .ok v => ∃ fuel s', C.client.eval r U fuel src s = some (.ok () s') ∧ Calc.ret s'.u.u = (some v, [])
  | .error c => ∃ fuel s' g ts, C.client.eval r U fuel src s = some (.panic (.user (.runtime g ts c)) s')

theorem computes {C : Calc V F} {text : Str} (hp : IsPackage C text) {U : Uni} {mode : Mode} {fuel0 : Nat} {r : CompileRet Str}
    (hr : C.client.new text mode U fuel0 = some (.ok r)) (s : St (Calc.Eng V)) (hk : KwScanner.Steps U KwScanner.zero s.u.scanner)
    {src : Str} {toks : List Token} {eof : Token} (ht : Tokenizes U s.u.scanner src mode toks eof) {e : Ex} (he : Reads C 0 toks e)
    (hn : Calc.Counts C toks.length) : Computes C r U src s (e.eval C) := by
  have := calc_eval hp hr s hk ht he hn
  cases hv : e.eval C with
  | ok v =>
    rw [hv] at this
    obtain ⟨fuel, s', h1, h2⟩ := this
    exact ⟨fuel, s', h1, by rw [h2]; exact ret_append _ _⟩
  | error c => rw [hv] at this; exact this

/-- More fuel gives the same. -/
theorem eval_mono {C : Calc V F} {r : CompileRet Str} (hroot : r.root ≠ .nil) {U : Uni} {src : Str} {s : St (Calc.Eng V)}
    {f f' : Nat} {o} (hf : f ≤ f') (h : C.client.eval r U f src s = some o) : C.client.eval r U f' src s = some o := by
  unfold Client.eval at h ⊢
  dsimp only at h ⊢
  unfold Matcher.matchExactly at h ⊢
  have e1 := match_eq (V := Unit) (P := IPanic CalcErr Empty) ⟨r.root, r.mode, engInit (s.u.scanner.tokenize U src r.mode).2, r.env, C.client.sem⟩ hroot U f s.u.scanner src s
  have e2 := match_eq (V := Unit) (P := IPanic CalcErr Empty) ⟨r.root, r.mode, engInit (s.u.scanner.tokenize U src r.mode).2, r.env, C.client.sem⟩ hroot U f' s.u.scanner src s
  generalize Matcher.match_ _ U f s.u.scanner src s = x at h e1
  generalize Matcher.match_ _ U f' s.u.scanner src s = y at e2 ⊢
  obtain ⟨x, k1⟩ := x
  obtain ⟨y, k2⟩ := y
  dsimp only at h e1 e2 ⊢
  subst e1
  subst e2
  generalize (s.u.scanner.tokenize U src r.mode).1 = tk at h ⊢
  obtain ⟨toks, e⟩ := tk
  cases e with
  | some e => exact h
  | none =>
    dsimp only at h ⊢
    unfold engInit at h ⊢
    dsimp only at h ⊢
    generalize hm : matchG r.env C.client.sem f r.root toks _ = res at h
    cases res with
    | none => cases h
    | some res => rw [matchG_mono _ _ hf _ _ _ _ hm]; exact h

/-- The outcome is unique. -/
theorem computes_unique {C : Calc V F} {r : CompileRet Str} (hroot : r.root ≠ .nil) {U : Uni} {src : Str} {s : St (Calc.Eng V)}
    {f f' : Nat} {o o'} (h : C.client.eval r U f src s = some o)
    (h' : C.client.eval r U f' src s = some o') : o = o' := by
  rcases Nat.le_total f f' with hf | hf
  · have := eval_mono hroot hf h; rw [h'] at this; injection this with this; exact this.symm
  · have := eval_mono hroot hf h'; rw [h] at this; injection this

/-- C53: package number.  Counts of arguments have to survive the conversion to float64
and back (they do up to 2^53). -/
theorem C53_number (M : Float64 F) {U : Uni} {mode : Mode} {fuel0 : Nat} {r : CompileRet Str}
    (hr : (number M).client.new numberGrammar mode U fuel0 = some (.ok r)) (s : St (Calc.Eng F))
    (hk : KwScanner.Steps U KwScanner.zero s.u.scanner)
    {src : Str} {toks : List Token} {eof : Token} (ht : Tokenizes U s.u.scanner src mode toks eof)
    {e : Ex} (he : Reads (number M) 0 toks e) (hn : ∀ k : Nat, k ≤ toks.length → M.toInt (M.ofInt k) = k) :
    Computes (number M) r U src s (numberValue M e) := by
  have := computes (.number M) hr s hk ht he (fun k hk => congrArg Except.ok (hn k hk))
  rwa [number_value M e (reads_nums he)] at this

/-- C53: package rat, for a text whose literals are numbers. -/
theorem C53_rat (L : Lits F) (setString : Str → Option Rat) {U : Uni} {mode : Mode} {fuel0 : Nat} {r : CompileRet Str}
    (hr : (rat L setString).client.new ratGrammar mode U fuel0 = some (.ok r)) (s : St (Calc.Eng (Option Rat)))
    (hk : KwScanner.Steps U KwScanner.zero s.u.scanner)
    {src : Str} {toks : List Token} {eof : Token} (ht : Tokenizes U s.u.scanner src mode toks eof)
    {e : Ex} (he : Reads (rat L setString) 0 toks e) {lit : Str → Rat} (hl : e.AllNums fun t => setString t.lit = some (lit t.lit)) :
    Computes (rat L setString) r U src s ((ratValue lit e).map some) := by
  have := computes (.rat L setString) hr s hk ht he (rat_counts _ _ _)
  rwa [rat_value L setString lit e (reads_nums he) hl] at this

/-- C53: package cmplx. -/
theorem C53_cmplx (M : Complex128 F Z) {U : Uni} {mode : Mode} {fuel0 : Nat} {r : CompileRet Str}
    (hr : (cmplx M).client.new cmplxGrammar mode U fuel0 = some (.ok r)) (s : St (Calc.Eng Z))
    (hk : KwScanner.Steps U KwScanner.zero s.u.scanner)
    {src : Str} {toks : List Token} {eof : Token} (ht : Tokenizes U s.u.scanner src mode toks eof)
    {e : Ex} (he : Reads (cmplx M) 0 toks e)
    (hn : ∀ k : Nat, k ≤ toks.length → M.toInt (M.ofInt k) = k ∧ M.isReal (M.ofInt k) = true) :
    Computes (cmplx M) r U src s (cmplxValue M e) := by
  have := computes (.cmplx M) hr s hk ht he (fun k hk => by
    show (if M.isReal (M.ofInt k) = true then Except.ok (M.toInt (M.ofInt k)) else _) = _
    rw [if_pos (hn k hk).2, (hn k hk).1])
  rwa [cmplx_value M e (reads_nums he)] at this

/-! ### C54 -/

/-- C54: whatever earlier evaluations left on the stack (or in the engine), an expression
computes the same.  The state `s'` differs from `s` in everything but the keywords. -/
theorem C54_history {C : Calc V F} {text : Str} (hp : IsPackage C text) {U : Uni} {mode : Mode} {fuel0 : Nat} {r : CompileRet Str}
    (hr : C.client.new text mode U fuel0 = some (.ok r)) {s s' : St (Calc.Eng V)}
    (hk : KwScanner.Steps U KwScanner.zero s.u.scanner) (hk' : KwScanner.Steps U KwScanner.zero s'.u.scanner)
    (hb : s.u.scanner.sc.bad = false) (hb' : s'.u.scanner.sc.bad = false) (hkw : s.u.scanner.keywords = s'.u.scanner.keywords)
    {src : Str} {toks : List Token} {eof : Token} (ht : Tokenizes U s.u.scanner src mode toks eof) {e : Ex} (he : Reads C 0 toks e)
    (hn : Calc.Counts C toks.length) {o : Except Fault V} (h : Computes C r U src s o) : Computes C r U src s' o := by
  have ht' : Tokenizes U s'.u.scanner src mode toks eof := by
    obtain ⟨full, sc, h1, h2, h3⟩ := ht
    refine ⟨full, sc, ?_, h2, by rw [← hkw]; exact h3⟩
    rw [init_reset _ _ (hb'.trans hb.symm)]
    exact h1
  have hroot : r.root ≠ .nil := by rw [(package_engine hp hr).1]; intro h; cases h
  have h1 := computes hp hr s hk ht he hn
  have h2 := computes hp hr s' hk' ht' he hn
  have : o = e.eval C := by
    cases o with
    | ok v =>
      obtain ⟨f, s1, ha, hb⟩ := h
      cases hv : e.eval C with
      | ok w =>
        rw [hv] at h1
        obtain ⟨f', s2, ha', hb'⟩ := h1
        have := computes_unique hroot ha ha'
        cases this
        rw [hb] at hb'
        cases hb'
        rfl
      | error c =>
        rw [hv] at h1
        obtain ⟨f', s2, g, ts, ha'⟩ := h1
        cases computes_unique hroot ha ha'
    | error c =>
      obtain ⟨f, s1, g, ts, ha⟩ := h
      cases hv : e.eval C with
      | ok w =>
        rw [hv] at h1
        obtain ⟨f', s2, ha', hb'⟩ := h1
        cases computes_unique hroot ha ha'
      | error c' =>
        rw [hv] at h1
        obtain ⟨f', s2, g', ts', ha'⟩ := h1
        cases computes_unique hroot ha ha'
        rfl
  rw [this]
  exact h2

/-- C54: an evaluation leaves what was on the stack where it was, and adds the value. -/
theorem C54_stack {C : Calc V F} {text : Str} (hp : IsPackage C text) {U : Uni} {mode : Mode} {fuel0 : Nat} {r : CompileRet Str}
    (hr : C.client.new text mode U fuel0 = some (.ok r)) (s : St (Calc.Eng V)) (hk : KwScanner.Steps U KwScanner.zero s.u.scanner)
    {src : Str} {toks : List Token} {eof : Token} (ht : Tokenizes U s.u.scanner src mode toks eof) {e : Ex} (he : Reads C 0 toks e)
    (hn : Calc.Counts C toks.length) {v : V} (hv : e.eval C = .ok v) :
    ∃ fuel s', C.client.eval r U fuel src s = some (.ok () s') ∧ s'.u.u = s.u.u ++ [v] := by
  have := calc_eval hp hr s hk ht he hn
  rwa [hv] at this

/-! ### C55 -/

/-- C55: a text that is accepted is an expression. -/
theorem C55_only_expressions {C : Calc V F} {text : Str} (hp : IsPackage C text) {U : Uni} {mode : Mode} {fuel0 : Nat} {r : CompileRet Str}
    (hr : C.client.new text mode U fuel0 = some (.ok r)) {s s' : St (Calc.Eng V)} (hk : KwScanner.Steps U KwScanner.zero s.u.scanner)
    {src : Str} {fuel : Nat} (h : C.client.eval r U fuel src s = some (.ok () s')) :
    ∃ toks eof e, Tokenizes U s.u.scanner src mode toks eof ∧ Reads C 0 toks e := by
  obtain ⟨h1, h2, h3⟩ := package_engine hp hr
  have hroot : r.root ≠ .nil := by rw [h1]; intro h; cases h
  obtain ⟨toks, eof, ht, he⟩ := (C48_starts_at_zero C.client r hroot U src s s' hk).mp ⟨fuel, h⟩
  rw [h1, h2] at he
  obtain ⟨e, he⟩ := Calc.eval_expr (package_ok hp) he
  exact ⟨toks, eof, e, by rw [← h3]; exact ht, he⟩

/-- Evaluation ends, for every text and in every state. -/
theorem C55_terminates {C : Calc V F} {text : Str} (hp : IsPackage C text) {U : Uni} {mode : Mode} {fuel0 : Nat} {r : CompileRet Str}
    (hr : C.client.new text mode U fuel0 = some (.ok r)) (s : St (Calc.Eng V)) (src : Str) :
    ∃ fuel o, C.client.eval r U fuel src s = some o := by
  obtain ⟨h1, h2, h3⟩ := package_engine hp hr
  have hroot : r.root ≠ .nil := by rw [h1]; intro h; cases h
  obtain ⟨res, fuel, hf⟩ := C30_terminates (package_wf hp) (Calc.returns C) (s.u.scanner.tokenize U src mode).1.1 (started U mode src s)
  refine ⟨fuel, ?_⟩
  unfold Client.eval
  dsimp only
  unfold Matcher.matchExactly
  have e1 := match_eq (V := Unit) (P := IPanic CalcErr Empty) ⟨r.root, r.mode, engInit (s.u.scanner.tokenize U src r.mode).2, r.env, C.client.sem⟩ hroot U fuel s.u.scanner src s
  generalize Matcher.match_ _ U fuel s.u.scanner src s = x at e1
  obtain ⟨x, k1⟩ := x
  dsimp only at e1 ⊢
  subst e1 h3
  cases htk : (s.u.scanner.tokenize U src r.mode).1 with
  | mk toks e =>
    rw [htk] at hf
    cases e with
    | some e => exact ⟨_, rfl⟩
    | none =>
      dsimp only [engInit]
      rw [h1, h2]
      rw [show matchG C.env C.client.sem fuel C.doc toks { s with u := { s.u.reset with scanner := (s.u.scanner.tokenize U src r.mode).2 } } =
        some res from hf]
      cases res with
      | panic p s => exact ⟨_, rfl⟩
      | fail n e s => exact ⟨_, rfl⟩
      | ok n s => dsimp only; split <;> exact ⟨_, rfl⟩

/-- C55: for every other text `Eval` returns an error or panics. -/
theorem C55_rejects {C : Calc V F} {text : Str} (hp : IsPackage C text) {U : Uni} {mode : Mode} {fuel0 : Nat} {r : CompileRet Str}
    (hr : C.client.new text mode U fuel0 = some (.ok r)) (s : St (Calc.Eng V)) (hk : KwScanner.Steps U KwScanner.zero s.u.scanner)
    (src : Str) (h : ¬ ∃ toks eof e, Tokenizes U s.u.scanner src mode toks eof ∧ Reads C 0 toks e) :
    ∃ fuel, (∃ e s', C.client.eval r U fuel src s = some (.err e s')) ∨ ∃ p s', C.client.eval r U fuel src s = some (.panic p s') := by
  obtain ⟨fuel, o, ho⟩ := C55_terminates hp hr s src
  refine ⟨fuel, ?_⟩
  cases o with
  | ok u s' => exact absurd (C55_only_expressions hp hr hk ho) h
  | err e s' => exact .inl ⟨e, s', ho⟩
  | panic p s' => exact .inr ⟨p, s', ho⟩

/-- C55: `Eval` returns without error exactly for the expressions that have a value. -/
theorem C55_accepts {C : Calc V F} {text : Str} (hp : IsPackage C text) {U : Uni} {mode : Mode} {fuel0 : Nat} {r : CompileRet Str}
    (hr : C.client.new text mode U fuel0 = some (.ok r)) (s : St (Calc.Eng V)) (hk : KwScanner.Steps U KwScanner.zero s.u.scanner)
    (src : Str) (hn : ∀ toks eof, Tokenizes U s.u.scanner src mode toks eof → Calc.Counts C toks.length) :
    (∃ fuel s', C.client.eval r U fuel src s = some (.ok () s')) ↔
      ∃ toks eof e v, Tokenizes U s.u.scanner src mode toks eof ∧ Reads C 0 toks e ∧ e.eval C = .ok v := by
  constructor
  · rintro ⟨fuel, s', h⟩
    obtain ⟨toks, eof, e, ht, he⟩ := C55_only_expressions hp hr hk h
    cases hv : e.eval C with
    | ok v => exact ⟨toks, eof, e, v, ht, he, hv⟩
    | error c =>
      have := calc_eval hp hr s hk ht he (hn _ _ ht)
      rw [hv] at this
      obtain ⟨f', s2, g, ts, h'⟩ := this
      have hroot : r.root ≠ .nil := by rw [(package_engine hp hr).1]; intro h; cases h
      cases computes_unique hroot h h'
  · rintro ⟨toks, eof, e, v, ht, he, hv⟩
    obtain ⟨fuel, s', h, _⟩ := C54_stack hp hr s hk ht he (hn _ _ ht) hv
    exact ⟨fuel, s', h⟩

/-! ### C56 -/

theorem evalArgs_ok {C : Calc V F} : ∀ {es : List Ex} {vs : List V}, List.Forall₂ (fun e v => e.eval C = .ok v) es vs → evalArgs C es = .ok vs
  | _, _, .nil => rfl
  | _, _, .cons h h' => by simp only [evalArgs, h, evalArgs_ok h']; rfl

/-- C56: `f(e1, ..., en)` computes what `f` returns for the values of `e1` to `en`, in
this order. -/
theorem C56_call {C : Calc V F} {text : Str} (hp : IsPackage C text) {U : Uni} {mode : Mode} {fuel0 : Nat} {r : CompileRet Str}
    (hr : C.client.new text mode U fuel0 = some (.ok r)) (s : St (Calc.Eng V)) (hk : KwScanner.Steps U KwScanner.zero s.u.scanner)
    {src : Str} {f lp rp : Token} {toks : List Token} {eof : Token}
    (ht : Tokenizes U s.u.scanner src mode (f :: lp :: (toks ++ [rp])) eof)
    (hf : f.kind = IDENT) (hl : lp.kind = 40) (hrp : rp.kind = 41) {es : List Ex} (ha : ReadsArgs C toks es)
    (hn : Calc.Counts C (toks.length + 3)) {vs : List V} (hvs : List.Forall₂ (fun e v => e.eval C = .ok v) es vs)
    {fn : CalcFn V} (hfn : C.fns f.lit = some fn) (hc : if fn.variadic then fn.params ≤ vs.length else vs.length = fn.params) :
    Computes C r U src s (fn.body vs) := by
  have := computes hp hr s hk ht (.sum (.product (.call hf hl ha hrp))) (by intro k hk; exact hn k (by simpa using hk))
  have he : (Ex.call f es).eval C = fn.body vs := by
    simp only [Ex.eval, evalArgs_ok hvs, Except.bind, apply, hfn, applyFn]
    split at hc
    · next h => rw [if_pos h, if_neg (by omega)]
    · next h => rw [if_neg h, if_neg (by omega)]
  rwa [he] at this

/-- C56: with a wrong count of arguments, or an unknown function, the call fails. -/
theorem C56_wrong {C : Calc V F} {text : Str} (hp : IsPackage C text) {U : Uni} {mode : Mode} {fuel0 : Nat} {r : CompileRet Str}
    (hr : C.client.new text mode U fuel0 = some (.ok r)) (s : St (Calc.Eng V)) (hk : KwScanner.Steps U KwScanner.zero s.u.scanner)
    {src : Str} {f lp rp : Token} {toks : List Token} {eof : Token}
    (ht : Tokenizes U s.u.scanner src mode (f :: lp :: (toks ++ [rp])) eof)
    (hf : f.kind = IDENT) (hl : lp.kind = 40) (hrp : rp.kind = 41) {es : List Ex} (ha : ReadsArgs C toks es)
    (hn : Calc.Counts C (toks.length + 3)) {vs : List V} (hvs : List.Forall₂ (fun e v => e.eval C = .ok v) es vs)
    (hc : ∀ fn, C.fns f.lit = some fn → ¬ if fn.variadic then fn.params ≤ vs.length else vs.length = fn.params) :
    ∃ e, (e = CalcErr.notFound f.lit ∨ ∃ e', e = .failed f.lit e') ∧ Computes C r U src s (.error (.err e)) := by
  have := computes hp hr s hk ht (.sum (.product (.call hf hl ha hrp))) (by intro k hk; exact hn k (by simpa using hk))
  have he : (Ex.call f es).eval C = applyFn (C.fns f.lit) f.lit vs := by
    simp only [Ex.eval, evalArgs_ok hvs, Except.bind, apply]
  rw [he] at this
  cases hfn : C.fns f.lit with
  | none => rw [hfn] at this; exact ⟨_, .inl rfl, this⟩
  | some fn =>
    have hc := hc fn hfn
    rw [hfn] at this
    simp only [applyFn] at this
    by_cases hv : fn.variadic = true
    · rw [if_pos hv] at hc this
      rw [if_pos (by omega)] at this
      exact ⟨_, .inr ⟨_, rfl⟩, this⟩
    · rw [if_neg hv] at hc this
      rw [if_pos hc] at this
      exact ⟨_, .inr ⟨_, rfl⟩, this⟩

/-! ### C57 -/

theorem pickBest_spec {α : Type} {better : α → α → Bool} : ∀ (xs : List α) (x : α),
    (∀ a b c, a ∈ x :: xs → b ∈ x :: xs → c ∈ x :: xs → better a b = false → better b c = false → better a c = false) →
    (∀ a ∈ x :: xs, better a a = false) → (∀ a b, a ∈ x :: xs → b ∈ x :: xs → better a b = true → better b a = false) →
    pickBest better x xs ∈ x :: xs ∧ ∀ w ∈ x :: xs, better w (pickBest better x xs) = false
  | [], x, _, hi, _ => ⟨by simp [pickBest], by intro w hw; simp [pickBest] at hw ⊢; subst hw; exact hi _ (by simp)⟩
  | y :: xs, x, ht, hi, ha => by
    have sub : ∀ z, z = x ∨ z = y → ∀ a ∈ z :: xs, a ∈ x :: y :: xs := by
      intro z hz a h
      rcases List.mem_cons.mp h with rfl | h
      · rcases hz with rfl | rfl <;> simp
      · simp [h]
    have hz : (if better y x then y else x) = x ∨ (if better y x then y else x) = y := by split <;> simp
    obtain ⟨h1, h2⟩ := pickBest_spec xs (if better y x then y else x)
      (fun a b c ha' hb hc => ht a b c (sub _ hz a ha') (sub _ hz b hb) (sub _ hz c hc))
      (fun a h => hi a (sub _ hz a h)) (fun a b h h' => ha a b (sub _ hz a h) (sub _ hz b h'))
    refine ⟨sub _ hz _ h1, ?_⟩
    intro w hw
    show better w (pickBest better (if better y x then y else x) xs) = false
    have hm := h2 (if better y x then y else x) (by simp)
    have memz : (if better y x then y else x) ∈ x :: y :: xs := by rcases hz with h | h <;> rw [h] <;> simp
    have memb := sub _ hz _ h1
    have key : better w (if better y x then y else x) = false → better w (pickBest better (if better y x then y else x) xs) = false :=
      fun h => ht _ _ _ hw memz memb h hm
    rcases List.mem_cons.mp hw with rfl | hw'
    · apply key
      split
      · next h => exact ha _ _ (by simp) (by simp) h
      · exact hi _ (by simp)
    · rcases List.mem_cons.mp hw' with rfl | hw'
      · apply key
        split
        · exact hi _ (by simp)
        · next h => simpa using h
      · exact h2 w (by simp [hw'])

theorem ratPick_best {better : Rat → Rat → Bool} : ∀ (xs : List Rat) (x : Rat),
    ratPick better (some x) (xs.map some) = .ok (some (pickBest better x xs))
  | [], x => rfl
  | y :: xs, x => by
    simp only [List.map_cons, ratPick, pickBest]
    split
    · exact ratPick_best xs y
    · exact ratPick_best xs x

/-- C57: the functions `max` and `min` of package rat. -/
theorem C57_rat : ∃ mx mn, ratFns (str "max") = some ⟨0, true, mx⟩ ∧ ratFns (str "min") = some ⟨0, true, mn⟩ ∧
    mx [] = .ok (some 0) ∧ mn [] = .ok (some 0) ∧
    (∀ vs : List Rat, vs ≠ [] → ∃ v, mx (vs.map some) = .ok (some v) ∧ v ∈ vs ∧ ∀ w ∈ vs, w ≤ v) ∧
    (∀ vs : List Rat, vs ≠ [] → ∃ v, mn (vs.map some) = .ok (some v) ∧ v ∈ vs ∧ ∀ w ∈ vs, v ≤ w) := by
  refine ⟨ratMax, ratMin, rfl, rfl, rfl, rfl, ?_, ?_⟩
  · intro vs hv
    cases vs with
    | nil => exact absurd rfl hv
    | cons x xs =>
      obtain ⟨h1, h2⟩ := pickBest_spec (better := fun a b => decide (b < a)) xs x
        (fun a b c _ _ _ h1 h2 => by simp only [decide_eq_false_iff_not, Rat.not_lt] at *; exact Rat.le_trans h1 h2)
        (fun a _ => by simp only [decide_eq_false_iff_not]; exact Rat.lt_irrefl)
        (fun a b _ _ h => by simp only [decide_eq_true_eq, decide_eq_false_iff_not, Rat.not_lt] at *; exact Rat.le_of_lt h)
      exact ⟨_, ratPick_best xs x, h1, fun w hw => Rat.not_lt.mp (of_decide_eq_false (h2 w hw))⟩
  · intro vs hv
    cases vs with
    | nil => exact absurd rfl hv
    | cons x xs =>
      obtain ⟨h1, h2⟩ := pickBest_spec (better := fun a b => decide (a < b)) xs x
        (fun a b c _ _ _ h1 h2 => by simp only [decide_eq_false_iff_not, Rat.not_lt] at *; exact Rat.le_trans h2 h1)
        (fun a _ => by simp only [decide_eq_false_iff_not]; exact Rat.lt_irrefl)
        (fun a b _ _ h => by simp only [decide_eq_true_eq, decide_eq_false_iff_not, Rat.not_lt] at *; exact Rat.le_of_lt h)
      exact ⟨_, ratPick_best xs x, h1, fun w hw => Rat.not_lt.mp (of_decide_eq_false (h2 w hw))⟩

/-- `>` orders these numbers (there is no NaN among them). -/
def Ordered (gt : F → F → Bool) (xs : List F) : Prop :=
  (∀ a ∈ xs, gt a a = false) ∧ (∀ a ∈ xs, ∀ b ∈ xs, gt a b = true → gt b a = false) ∧
    ∀ a ∈ xs, ∀ b ∈ xs, ∀ c ∈ xs, gt a b = false → gt b c = false → gt a c = false

/-- C57: and those of package number, where the arguments are ordered. -/
theorem C57_number (M : Float64 F) : ∃ mx mn : List F → F, numberFns M (str "max") = some ⟨0, true, fun vs => .ok (mx vs)⟩ ∧
    numberFns M (str "min") = some ⟨0, true, fun vs => .ok (mn vs)⟩ ∧ mx [] = M.zero ∧ mn [] = M.zero ∧
    (∀ vs, vs ≠ [] → Ordered M.gt vs → mx vs ∈ vs ∧ ∀ w ∈ vs, M.gt w (mx vs) = false) ∧
    (∀ vs, vs ≠ [] → Ordered M.gt vs → mn vs ∈ vs ∧ ∀ w ∈ vs, M.gt (mn vs) w = false) := by
  refine ⟨M.max, M.min, rfl, rfl, rfl, rfl, ?_, ?_⟩
  · intro vs hv ho
    cases vs with
    | nil => exact absurd rfl hv
    | cons x xs => exact pickBest_spec xs x (fun a b c ha hb hc => ho.2.2 a ha b hb c hc) ho.1 (fun a b ha hb => ho.2.1 a ha b hb)
  · intro vs hv ho
    cases vs with
    | nil => exact absurd rfl hv
    | cons x xs => exact pickBest_spec xs x (fun a b c ha hb hc h1 h2 => ho.2.2 c hc b hb a ha h2 h1) ho.1 (fun a b ha hb => ho.2.1 b hb a ha)

/-! ### Examples -/

/-- Integers, read as by `ParseInt`. -/
def readInt (s : Str) : Option Rat := match ParseInt s with
  | .ok (.ok n) => some n
  | _ => none

def noFloats : Lits Unit := ⟨fun _ => (), fun _ => none⟩

def fresh (old : List V) : St (Calc.Eng V) := ⟨fun _ => 0, ⟨0, (), KwScanner.zero, old⟩⟩

/-- Evaluate a text with package rat. -/
def runRat (src : Str) (old : List (Option Rat)) : Option (Option (Option Rat) × List (Option Rat)) :=
  match (rat noFloats readInt).client.new ratGrammar plain ascii 60 with
  | some (.ok r) => match (rat noFloats readInt).client.eval r ascii 60 src (fresh old) with
    | some (.ok () s) => some (Calc.ret s.u.u)
    | _ => none
  | _ => none

example : runRat (str "1 - 2 - 3*(4 + 5)/max(6, -7, 8)") [] = some (some (some (-35/8)), []) := by kernel_rfl
example : runRat (str "1 - 2") [some 7, none] = some (some (some (-1)), []) := by kernel_rfl
example : runRat (str "1 - ") [some 7, none] = none := by kernel_rfl
example : runRat (str "1 2") [] = none := by kernel_rfl
example : runRat (str "max()") [] = some (some (some 0), []) := by kernel_rfl

/-- The hypotheses of C53 for a text: `2*max(3, 4) - 1`. -/
def exToks : List Token := [⟨INT, 0, str "2"⟩, ⟨42, 1, []⟩, ⟨IDENT, 2, str "max"⟩, ⟨40, 5, []⟩, ⟨INT, 6, str "3"⟩, ⟨44, 7, []⟩,
  ⟨INT, 9, str "4"⟩, ⟨41, 10, []⟩, ⟨45, 12, []⟩, ⟨INT, 14, str "1"⟩]

def exTree : Ex := .bin .sub (.bin .mul (.num ⟨INT, 0, str "2"⟩) (.call ⟨IDENT, 2, str "max"⟩ [.num ⟨INT, 6, str "3"⟩, .num ⟨INT, 9, str "4"⟩]))
  (.num ⟨INT, 14, str "1"⟩)

theorem exReads : Reads (rat noFloats readInt) 0 exToks exTree :=
  .sub (ts := exToks.take 8) (us := [⟨INT, 14, str "1"⟩])
    (.sum (.mul (ts := [⟨INT, 0, str "2"⟩]) (.product (.num rfl)) (.head _)
      (.call (f := ⟨IDENT, 2, str "max"⟩) (t := ⟨40, 5, []⟩) (t' := ⟨41, 10, []⟩) (ts := [⟨INT, 6, str "3"⟩, ⟨44, 7, []⟩, ⟨INT, 9, str "4"⟩]) rfl rfl
        (.some (ts := [⟨INT, 6, str "3"⟩]) (.sum (.product (.num rfl)))
          (.cons (t := ⟨44, 7, []⟩) (ts := [⟨INT, 9, str "4"⟩]) (us := []) rfl (.sum (.product (.num rfl))) .nil)) rfl))) rfl (.product (.num rfl))

example : ∃ eof, Tokenizes ascii KwScanner.zero (str "2*max(3, 4) - 1") plain exToks eof :=
  (tokenizes_iff (.refl _)).mp (by decide +kernel)

example : exTree.AllNums (fun t => readInt t.lit = some ((readInt t.lit).getD 0)) ∧ ratValue (fun s => (readInt s).getD 0) exTree = .ok 7 :=
  ⟨⟨⟨rfl, rfl, rfl, trivial⟩, rfl⟩, by kernel_rfl⟩

/-- C57: the order of integers is one. -/
example : Ordered (fun a b : Int => decide (b < a)) [3, -1, 7] := by
  refine ⟨?_, ?_, ?_⟩ <;> decide

end Tpl.Props
