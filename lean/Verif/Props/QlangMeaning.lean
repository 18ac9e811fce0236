import Verif.Proof.QlangSim
import Verif.Proof.QlangLost
import Verif.Props.QlangSource
import Verif.Props.Matcher
import Verif.Props.Qlang

/-
What running a qlang program does (C80).
-/
namespace Tpl.Props
open Tpl Tpl.Spec Tpl.Qlang Tpl.Qlang.Src Scanner
variable {F : Type}

/-! ### C80: running a program does what its source says -/

/-- How a run of the engine on a text ends, from how the match ends. -/
theorem eval_ends {E X I τ G W : Type} (c : Client E X I τ G W) (r : CompileRet Str) (hr : r.root ≠ .nil) {U : Uni} {src : Str} {s : St (Eng I τ)}
    (hk : KwScanner.Steps U KwScanner.zero s.u.scanner) {toks : List Token} {eof : Token} (ht : Tokenizes U s.u.scanner src r.mode toks eof) {res}
    (h : Eval r.env c.sem r.root toks { s with u := { s.u with mute := 0, scanner := (s.u.scanner.tokenize U src r.mode).2 } } res) :
    ∃ fuel, ∀ f, fuel ≤ f → (∀ s', res = .ok toks.length s' → c.eval r U f src s = some (.ok () s')) ∧
      ∀ p s', res = .panic p s' → c.eval r U f src s = some (.panic p s') := by
  let m : Matcher Str (Eng I τ) Unit (IPanic E X) := ⟨r.root, r.mode, engInit (s.u.scanner.tokenize U src r.mode).2, r.env, c.sem⟩
  obtain ⟨fuel, h⟩ := h
  refine ⟨fuel, fun f hf => ?_⟩
  have h1 := match_eq m hr U f s.u.scanner src s
  rw [show m.mode = r.mode from rfl, (tokenizes_ok hk ht).1] at h1
  have h : matchG m.env m.sem f m.grammar toks { s with u := { s.u.reset with scanner := (s.u.scanner.tokenize U src r.mode).2 } } = some res :=
    matchG_mono _ _ hf _ _ _ _ h
  rw [show m.init s = .ok () { s with u := { s.u.reset with scanner := (s.u.scanner.tokenize U src r.mode).2 } } from rfl] at h1
  dsimp only at h1
  rw [h] at h1
  have h2 : c.eval r U f src s = (m.matchExactly U f s.u.scanner src s).1 := rfl
  unfold Matcher.matchExactly at h2
  generalize m.match_ U f s.u.scanner src s = x at h1 h2
  obtain ⟨x, k⟩ := x
  dsimp only at h1 h2
  constructor
  · rintro s' rfl
    refine h2.trans ?_
    rw [h1]
    simp
  · rintro p s' rfl
    exact h2.trans (by rw [h1])

/-- The grammar is compiled. -/
theorem compiled_ok {L : Lib F} {r ret : CompileRet Str} {U : Uni} {mode : Mode} {fuel : Nat}
    (h : (client L r U).new grammarText mode U fuel = some (.ok ret)) : Compiled ret ∧ ret.root = bDoc := by
  obtain rfl := (compiled_iff L r U mode ret).mp ⟨_, h⟩
  exact ⟨⟨rfl, rfl⟩, rfl⟩

variable {S : Setup F} {U : Uni} {mode : Mode} {fuel : Nat} {ret : CompileRet Str}

/-- The state after a program that began in the state `q`. -/
def After (q : QState F) (w : World F) : Except (QPanic F) (QVal F) → QEng F → Prop
  | .ok v, u => At ⟨0, q.nscopes, fun i => (q.scopes i).base⟩ (q.stk ++ [v]) w u
  | .error _, u => Broken q.nscopes 0 (fun i => (q.scopes i).base) q.stk w u.u

theorem match_after (hS : S.site = sites) (h : (client S.host.lib ret U).new grammarText mode U fuel = some (.ok ret)) (d : Tm .doc) (hd : d.Ok)
    {s : St (QEng F)} (hm : s.u.mute = 0) (hi : s.u.ipt = 0) (hb : (s.u.u.scopes 0).base = s.u.u.stk.length) (h0 : 0 < s.u.u.nscopes) {n o w}
    (hn : d.does S n (world s.u.u) = some (o, w)) :
    ∃ res s', Eval ret.env (client S.host.lib ret U).sem ret.root d.toks s res ∧ After s.u.u w o s'.u ∧ match o with
      | .ok _ => res = .ok d.toks.length s'
      | .error p => res = .panic p s' := by
  obtain ⟨hc, hroot⟩ := compiled_ok h
  obtain ⟨g, len, hg, htr⟩ := parses_doc hc d hd
  rw [show table.lookup (str "doc") = some bDoc from table_doc] at hg
  cases hg
  obtain ⟨j, hj⟩ := not_lost n (o, w)
  have ht := does_trace (U := U) hS hc j n d hd (C := ⟨0, s.u.u.nscopes, fun i => (s.u.u.scopes i).base⟩) (l := s.u.u.stk) rfl h0 hb
  have ht := ((ht _ _ (doesOr_le S j n d _ _ hn)).resolve_left hj s.u ⟨hm, hi, by rw [List.append_nil], rfl, fun _ _ => rfl, Nat.le_refl _⟩).always nofun
  obtain ⟨res, h1, h2⟩ := hrealise htr nofun _ _ s ht rfl
  refine ⟨res, ?_⟩
  rcases h2 with ⟨p, s', rfl, w', h3, h4⟩ | ⟨s', rfl, _, v, w', h3, _, h4⟩
  · cases h3
    exact ⟨s', hroot ▸ h1, h4, rfl⟩
  · cases h3
    exact ⟨s', hroot ▸ h1, h4, rfl⟩

/-- C80, for the tokens of a program: the match of the whole program with the compiled grammar
ends as the semantics of the tree says, with the value of the last statement on top of the stack,
or with the panic; variables, functions and heap are those of the semantics. -/
theorem C80_match (hS : S.site = sites) (h : (client S.host.lib ret U).new grammarText mode U fuel = some (.ok ret)) (d : Tm .doc) (hd : d.Ok)
    {s : St (QEng F)} (hm : s.u.mute = 0) (hi : s.u.ipt = 0) (hb : (s.u.u.scopes 0).base = s.u.u.stk.length) (h0 : 0 < s.u.u.nscopes) {n o w}
    (hn : d.does S n (world s.u.u) = some (o, w)) :
    ∃ res, Eval ret.env (client S.host.lib ret U).sem ret.root d.toks s res ∧ match o with
      | .ok v => ∃ s', res = .ok d.toks.length s' ∧ s'.u.u.stk = s.u.u.stk ++ [v] ∧ world s'.u.u = w
      | .error p => ∃ s', res = .panic p s' ∧ s.u.u.stk <+: s'.u.u.stk ∧ world s'.u.u = w := by
  obtain ⟨res, s', h1, h2, h3⟩ := match_after hS h d hd hm hi hb h0 hn
  refine ⟨res, h1, ?_⟩
  cases o with
  | ok v => exact ⟨s', h3, h2.sees.stk, h2.sees.wld⟩
  | error p => exact ⟨s', h3, h2.stk, h2.wld⟩

theorem runs_after (hS : S.site = sites) (h : (client S.host.lib ret U).new grammarText mode U fuel = some (.ok ret)) (d : Tm .doc) (hd : d.Ok)
    {s : St (QEng F)} (hk : KwScanner.Steps U KwScanner.zero s.u.scanner) {src : Str} {eof : Token} (hsrc : Tokenizes U s.u.scanner src ret.mode d.toks eof)
    (hi : s.u.ipt = 0) (hb : (s.u.u.scopes 0).base = s.u.u.stk.length) (h0 : 0 < s.u.u.nscopes) {n o w} (hn : d.does S n (world s.u.u) = some (o, w)) :
    ∃ s', After s.u.u w o s'.u ∧ ∃ fuel, ∀ f, fuel ≤ f → (client S.host.lib ret U).eval ret U f src s = some (match o with
      | .ok _ => .ok () s'
      | .error p => .panic p s') := by
  have hr : ret.root ≠ .nil := by rw [(compiled_ok h).2]; nofun
  obtain ⟨res, s', h1, h2, h3⟩ := match_after hS h d hd (s := { s with u := { s.u with mute := 0, scanner := (s.u.scanner.tokenize U src ret.mode).2 } }) rfl hi hb h0 hn
  obtain ⟨f0, e⟩ := eval_ends _ ret hr hk hsrc h1
  refine ⟨s', h2, f0, fun f hf => ?_⟩
  cases o with
  | ok v => exact (e f hf).1 _ h3
  | error p => exact (e f hf).2 _ _ h3

/-- C80: running the text of a program does what the tree says. -/
theorem C80_runs (hS : S.site = sites) (h : (client S.host.lib ret U).new grammarText mode U fuel = some (.ok ret)) (d : Tm .doc) (hd : d.Ok)
    {s : St (QEng F)} (hk : KwScanner.Steps U KwScanner.zero s.u.scanner) {src : Str} {eof : Token} (hsrc : Tokenizes U s.u.scanner src ret.mode d.toks eof)
    (hi : s.u.ipt = 0) (hb : (s.u.u.scopes 0).base = s.u.u.stk.length) (h0 : 0 < s.u.u.nscopes) {n o w} (hn : d.does S n (world s.u.u) = some (o, w)) :
    match o with
    | .ok v => ∃ fuel s', (client S.host.lib ret U).eval ret U fuel src s = some (.ok () s') ∧ s'.u.u.stk = s.u.u.stk ++ [v] ∧ world s'.u.u = w
    | .error p => ∃ fuel s', (client S.host.lib ret U).eval ret U fuel src s = some (.panic p s') ∧ s.u.u.stk <+: s'.u.u.stk ∧ world s'.u.u = w := by
  obtain ⟨s', h1, f, h2⟩ := runs_after hS h d hd hk hsrc hi hb h0 hn
  have h2 := h2 f (Nat.le_refl _)
  cases o with
  | ok v => exact ⟨f, s', h2, h1.sees.stk, h1.sees.wld⟩
  | error p => exact ⟨f, s', h2, h1.stk, h1.wld⟩

/-- If the match does not end, then neither does the run of the engine. -/
theorem eval_none {E X I τ G W : Type} (c : Client E X I τ G W) (r : CompileRet Str) (hr : r.root ≠ .nil) {U : Uni} {src : Str} {s : St (Eng I τ)}
    (hk : KwScanner.Steps U KwScanner.zero s.u.scanner) {toks : List Token} {eof : Token} (ht : Tokenizes U s.u.scanner src r.mode toks eof) {f : Nat}
    (h : matchG r.env c.sem f r.root toks { s with u := { s.u with mute := 0, scanner := (s.u.scanner.tokenize U src r.mode).2 } } = none) :
    c.eval r U f src s = none := by
  let m : Matcher Str (Eng I τ) Unit (IPanic E X) := ⟨r.root, r.mode, engInit (s.u.scanner.tokenize U src r.mode).2, r.env, c.sem⟩
  have h1 := match_eq m hr U f s.u.scanner src s
  rw [show m.mode = r.mode from rfl, (tokenizes_ok hk ht).1] at h1
  have h : matchG m.env m.sem f m.grammar toks { s with u := { s.u.reset with scanner := (s.u.scanner.tokenize U src r.mode).2 } } = none := h
  rw [show m.init s = .ok () { s with u := { s.u.reset with scanner := (s.u.scanner.tokenize U src r.mode).2 } } from rfl] at h1
  dsimp only at h1
  rw [h] at h1
  have h2 : c.eval r U f src s = (m.matchExactly U f s.u.scanner src s).1 := rfl
  unfold Matcher.matchExactly at h2
  generalize m.match_ U f s.u.scanner src s = x at h1 h2
  obtain ⟨x, k⟩ := x
  dsimp only at h1 h2
  exact h2.trans (by rw [h1])

theorem ends_or (hS : S.site = sites) (h : (client S.host.lib ret U).new grammarText mode U fuel = some (.ok ret)) (d : Tm .doc) (hd : d.Ok)
    {s : St (QEng F)} (hk : KwScanner.Steps U KwScanner.zero s.u.scanner) {src : Str} {eof : Token} (hsrc : Tokenizes U s.u.scanner src ret.mode d.toks eof)
    (hi : s.u.ipt = 0) (hb : (s.u.u.scopes 0).base = s.u.u.stk.length) (h0 : 0 < s.u.u.nscopes) {f : Nat} (j : Int) (hn : d.doesOr S j f (world s.u.u) = none) :
    (client S.host.lib ret U).eval ret U f src s = none := by
  obtain ⟨hc, hroot⟩ := compiled_ok h
  obtain ⟨g, len, hg, htr⟩ := parses_doc hc d hd
  rw [show table.lookup (str "doc") = some bDoc from table_doc] at hg
  cases hg
  refine eval_none _ ret (by rw [hroot]; nofun) hk hsrc ?_
  generalize hs1 : ({ s with u := { s.u with mute := 0, scanner := (s.u.scanner.tokenize U src ret.mode).2 } } : St (QEng F)) = s1
  have ht := does_trace (U := U) hS hc j f d hd (C := ⟨0, s1.u.u.nscopes, fun i => (s1.u.u.scopes i).base⟩) (l := s1.u.u.stk) rfl (by rw [← hs1]; exact h0) (by rw [← hs1]; exact hb)
  have ht := (ht (world s1.u.u) none (by rw [← hs1]; exact hn)).resolve_left nofun s1.u
    ⟨by rw [← hs1], by rw [← hs1]; exact hi, by rw [List.append_nil], rfl, fun _ _ => rfl, Nat.le_refl _⟩
  rcases krealise htr nofun _ _ s1 ht rfl with ⟨res, h1, h2⟩ | h1
  · rcases h2 with ⟨p, s', rfl, w', h3, h4⟩ | ⟨s', rfl, _, v, w', h3, _, h4⟩
    · cases h3
    · cases h3
  · rw [hroot]
    exact h1.2 f (Nat.le_succ f)

/-- C80, conversely: if running the text of a program ends, in whatever way, then the semantics gives
the program an outcome (which is the one that is seen, by `C80_runs`), or the program has run a
piece of program that the reader of function bodies and deferred expressions does not know. -/
theorem C80_ends (hS : S.site = sites) (h : (client S.host.lib ret U).new grammarText mode U fuel = some (.ok ret)) (d : Tm .doc) (hd : d.Ok)
    {s : St (QEng F)} (hk : KwScanner.Steps U KwScanner.zero s.u.scanner) {src : Str} {eof : Token} (hsrc : Tokenizes U s.u.scanner src ret.mode d.toks eof)
    (hi : s.u.ipt = 0) (hb : (s.u.u.scopes 0).base = s.u.u.stk.length) (h0 : 0 < s.u.u.nscopes) {f : Nat} {c}
    (hc : (client S.host.lib ret U).eval ret U f src s = some c) :
    (∃ n o w, d.does S n (world s.u.u) = some (o, w)) ∨ ∃ n, ∀ j, ∃ w, d.doesOr S j n (world s.u.u) = some (.error (.user (.other (.exit j))), w) := by
  by_cases hl : ∀ j, ∃ w, d.doesOr S j f (world s.u.u) = some (.error (.user (.other (.exit j))), w)
  · exact .inr ⟨f, hl⟩
  · obtain ⟨j, hj⟩ := Classical.not_forall.mp hl
    cases hx : d.doesOr S j f (world s.u.u) with
    | none => rw [ends_or hS h d hd hk hsrc hi hb h0 j hx] at hc; cases hc
    | some o =>
      rcases doesOr_lf S j f d _ _ hx with ⟨w, rfl⟩ | h1
      · exact absurd ⟨w, hx⟩ hj
      · exact .inl ⟨f, o.1, o.2, h1⟩

/-- C80: a program to which the semantics gives no outcome, though it knows every piece of program
that is run, runs forever. -/
theorem C80_forever (hS : S.site = sites) (h : (client S.host.lib ret U).new grammarText mode U fuel = some (.ok ret)) (d : Tm .doc) (hd : d.Ok)
    {s : St (QEng F)} (hk : KwScanner.Steps U KwScanner.zero s.u.scanner) {src : Str} {eof : Token} (hsrc : Tokenizes U s.u.scanner src ret.mode d.toks eof)
    (hi : s.u.ipt = 0) (hb : (s.u.u.scopes 0).base = s.u.u.stk.length) (h0 : 0 < s.u.u.nscopes) {j : Int} (hn : ∀ n, d.doesOr S j n (world s.u.u) = none) (f : Nat) :
    (client S.host.lib ret U).eval ret U f src s = none := ends_or hS h d hd hk hsrc hi hb h0 j (hn f)

/-- C80: the outcome depends on the text only: two trees with the same tokens, read with
different parsers of function bodies, cannot end differently. -/
theorem C80_unique {S' : Setup F} (hS : S.site = sites) (hS' : S'.site = sites) (hh : S'.host = S.host) (d d' : Tm .doc) (hd : d.Ok) (hd' : d'.Ok)
    (ht : d.toks = d'.toks) {q : QState F} (hb : (q.scopes 0).base = q.stk.length) (h0 : 0 < q.nscopes) {n n' o o'}
    (hn : d.does S n (world q) = some o) (hn' : d'.does S' n' (world q) = some o') : o = o' := by
  obtain ⟨f, h⟩ := (compiled_iff S.host.lib ⟨bDoc, ⟨table, [(str "factor", some gFactor)], 37,
        ⟨(KwScanner.zero.tokenize ascii grammarText clMode).2.sc, keywords, some kwTable⟩⟩, ⟨true, true⟩⟩ ascii ⟨true, true⟩ _).mpr rfl
  obtain ⟨o, w⟩ := o
  obtain ⟨o', w'⟩ := o'
  obtain ⟨res, h1, h2⟩ := C80_match hS h d hd (s := ⟨fun _ => 0, ⟨0, 0, KwScanner.zero, q⟩⟩) rfl rfl hb h0 hn
  obtain ⟨res', h3, h4⟩ := C80_match hS' (by rw [hh]; exact h) d' hd' (s := ⟨fun _ => 0, ⟨0, 0, KwScanner.zero, q⟩⟩) rfl rfl hb h0 hn'
  rw [← ht, hh] at h3
  have := Eval.unique h1 h3
  rw [← ht] at h4
  subst this
  cases o with
  | ok v =>
    obtain ⟨s', rfl, h5, h6⟩ := h2
    cases o' with
    | ok v' =>
      obtain ⟨s'', e, h7, h8⟩ := h4
      cases e
      rw [h5] at h7
      have := List.append_cancel_left h7
      cases this
      rw [← h6, ← h8]
    | error p => obtain ⟨s'', e, _⟩ := h4; cases e
  | error p =>
    obtain ⟨s', rfl, h5, h6⟩ := h2
    cases o' with
    | ok v' => obtain ⟨s'', e, _⟩ := h4; cases e
    | error p =>
      obtain ⟨s'', e, h7, h8⟩ := h4
      cases e
      rw [← h6, ← h8]

/-- Every host has a setup in which every program has a meaning. -/
theorem C80_setup (H : Host F) : ∃ S : Setup F, S.host = H ∧ S.site = sites ∧ (∀ d : Tm .doc, d.Ok → ∃ d', S.doc d.toks = some d') ∧
    ∀ e : Tm (.term 5), e.Ok → ∃ e', S.expr e.toks = some e' := by
  classical
  refine ⟨⟨H, sites, fun ts => if h : ∃ d : Tm .doc, d.Ok ∧ d.toks = ts then some h.choose else none,
    fun ts => if h : ∃ d : Tm (.term 5), d.Ok ∧ d.toks = ts then some h.choose else none, ?_, ?_⟩, rfl, rfl, ?_, ?_⟩
  · intro ts d hd
    split at hd
    · rename_i h
      cases hd
      exact h.choose_spec
    · cases hd
  · intro ts d hd
    split at hd
    · rename_i h
      cases hd
      exact h.choose_spec
    · cases hd
  · intro d hd
    exact ⟨_, dif_pos ⟨d, hd, rfl⟩⟩
  · intro d hd
    exact ⟨_, dif_pos ⟨d, hd, rfl⟩⟩

/-! The program `x = 1; f = fn(a) { x; x++; return a + x }; f(2) * 10`, and `x = 1; panic(x)`. -/

def exBody : Tm .doc := .doc (.eval (one (var 19 "x"))) (.next (tk 59 20 ";") (.inc (tk IDENT 22 "x") (tk 146 23 "")) (.next (tk 59 25 ";") (.return_ (tk kReturn 27 "return")
  (.expr (.chain (by decide) (.chain (by decide) (.chain (by decide) (.chain (by decide) (up1 (var 34 "a"))
    (.bin .add (tk 43 36 "") (up1 (var 38 "x")) .noOp)) .noOp) .noOp) .noOp))) .endDoc))

def exCall (p : Nat) (f : String) (a : Tm (.term 5)) : Tm (.term 0) :=
  .post (.name (tk IDENT p f)) (.atom (.call (tk 40 (p + 1) "") (.args a .lastArg) none none (tk 41 (p + 3) "")) .noAtom)

def exCalls : Tm .doc := .doc (.assign (tk IDENT 0 "x") (tk 61 2 "") (one (.int (tk INT 4 "1"))))
  (.next (tk 59 5 ";") (.assign (tk IDENT 7 "f") (tk 61 9 "") (one (.post (.fn (tk kFn 11 "fn") (.fnBody (tk 40 13 "") (some (tk IDENT 14 "a", [])) none
    (tk 41 15 "") (tk 123 17 "") (.someDoc exBody) (tk 125 40 ""))) .noAtom)))
  (.next (tk 59 41 ";") (.eval (up2 (.chain (by decide) (exCall 43 "f" (one (.int (tk INT 45 "2")))) (.bin .mul (tk 42 48 "") (.int (tk INT 50 "10")) .noOp)))) .endDoc))

def exPanic : Tm .doc := .doc (.assign (tk IDENT 0 "x") (tk 61 2 "") (one (.int (tk INT 4 "1"))))
  (.next (tk 59 5 ";") (.eval (one (exCall 7 "panic" (one (var 13 "x"))))) .endDoc)

example : exCalls.Ok := by repeat' first | exact trivial | refine ⟨?_, ?_⟩
theorem exBody_ok : exBody.Ok := by repeat' first | exact trivial | refine ⟨?_, ?_⟩
example : exPanic.Ok := by repeat' first | exact trivial | refine ⟨?_, ?_⟩

example : ((⟨Scanner.zero, keywords, some kwTable⟩ : KwScanner).tokenize ascii (str "x = 1; f = fn(a) { x; x++; return a + x }; f(2) * 10") ⟨false, true⟩).1.1.map
    (fun t => (t.kind, t.pos, t.lit)) = exCalls.toks.map (fun t => (t.kind, t.pos, t.lit)) ++ [(59, 52, str "\n")] := by kernel_rfl

/-- A setup that knows the body. -/
def setup0 : Setup Unit where
  host := ⟨fl0, some, fun _ => none, fun _ => none, fun _ => none, fun _ _ _ => .ok .nil⟩
  site := sites
  doc := fun ts => if ts = exBody.toks then some exBody else none
  expr := fun _ => none
  doc_ok := by
    intro ts d h
    split at h
    · rename_i e
      cases h
      exact ⟨exBody_ok, e.symm⟩
    · cases h
  expr_ok := nofun

/-- The value of the program, or of the panic, and the variable `x` of the main program. -/
def outcome (d : Tm .doc) : Option (Option (QVal Unit) × Option (QVal Unit)) := match d.does setup0 3 (world QState.new) with
  | some (.ok v, w) => some (some v, (w.frames 0).vars (str "x"))
  | some (.error (.user (.other (.val v))), w) => some (some v, (w.frames 0).vars (str "x"))
  | some (.error _, w) => some (none, (w.frames 0).vars (str "x"))
  | none => none

example : outcome exCalls = some (some (.int 40), some (.int 2)) := by kernel_rfl
example : outcome exPanic = some (some (.int 1), some (.int 1)) := by kernel_rfl

/-! `for { }`, which runs forever. -/

def exSpin : Tm .doc := .doc (.eval (one (.for_ (tk kFor 0 "for") .noParts (tk 123 4 "") .noDoc (tk 125 6 "")))) .endDoc

example : exSpin.Ok := by repeat' first | exact trivial | refine ⟨?_, ?_⟩

example : ((⟨Scanner.zero, keywords, some kwTable⟩ : KwScanner).tokenize ascii (str "for { }") ⟨false, true⟩).1.1.map
    (fun t => (t.kind, t.pos, t.lit)) = exSpin.toks.map (fun t => (t.kind, t.pos, t.lit)) ++ [(59, 7, str "\n")] := by kernel_rfl

theorem rounds_spin : ∀ (n : Nat) (w : World F), rounds none none (pure .nil) n w = none
  | 0, _ => rfl
  | n + 1, w => rounds_spin n w

theorem stuck {α β : Type} {x : Prog F α} {k : α → Prog F β} {w : World F} (h : x w = none) : Prog.andThen x k w = none := by
  unfold Prog.andThen
  rw [h]

theorem exSpin_none (S : Setup F) (j : Int) (n : Nat) (w : World F) : exSpin.doesOr S j n w = none := by
  have h : S.at "for" [⟨125, 6, str ""⟩] (rounds none none (pure .nil) n) w = none := by
    unfold Setup.at
    rw [rounds_spin n w]
  -- the statement, and the five levels of operators around the loop
  exact stuck (stuck (stuck (stuck (stuck (stuck h)))))

end Tpl.Props
