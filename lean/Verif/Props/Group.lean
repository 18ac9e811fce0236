import Verif.Proof.GroupText
import Verif.Props.Fold

/-! Property C130: parentheses around items, alternatives or a single factor. -/
namespace Tpl.Props
open Tpl Tpl.Spec KwScanner Scanner
variable {A B σ V P : Type} {U : Uni} {k : KwScanner}

/-- The two grammar texts differ only in parentheses that group items of a sequence, alternatives of a choice or a
single factor, with no `!` among the items, and where a mark gets a number of items it stays the same. -/
def Regrouped (U : Uni) (k : KwScanner) (a a' : Str) : Prop :=
  ∃ ts e ts' e' rs rs', Tokenizes U k a clMode ts e ∧ IsDoc ts rs ∧ Tokenizes U k a' clMode ts' e' ∧ IsDoc ts' rs' ∧ Regroup rs rs'

theorem sameEvs_trans {a b c : List (Ev B)} (h : SameEvs Eq a b) (h' : SameEvs Eq b c) : SameEvs Eq a c := by
  induction h generalizing c with
  | nil => exact h'
  | cons h1 _ ih =>
    cases h' with
    | cons h2 h3 =>
      refine .cons ?_ (ih h3)
      cases h1 with
      | act t1 => cases h2 with | act t2 => exact .act (sameToks_eq t1 ▸ t2)
      | opens => exact h2
      | closes => exact h2

/-- The grammars do the same. -/
abbrev Even (env env' : Env B) (g g' : Gr B) : Prop := Follows env env' Eq g g' ∧ Follows env' env Eq g' g ∧ (g = .nil ↔ g' = .nil)

theorem follows_trans {env env' env'' : Env B} {g g' g'' : Gr B} (h : Follows env env' Eq g g') (h' : Follows env' env'' Eq g' g'') : Follows env env'' Eq g g'' := by
  intro src src' o e hs ht
  obtain ⟨o1, e1, t1, w1, s1⟩ := h hs ht
  obtain ⟨o2, e2, t2, w2, s2⟩ := h' (sameToks_refl _) t1
  exact ⟨o2, e2, t2, fun l => (w1 l).trans (w2 l), sameEvs_trans s1 s2⟩

theorem gp_follows {env env' : Env B} (he : GpEnv env env') {g g' : Gr B} (hg : Gp false g g') : Follows env env' Eq g g' := by
  intro src src' o e hs ht
  obtain rfl := sameToks_eq hs
  obtain ⟨o', e', t, n, s⟩ := gp_carry he ht false g' hg
  exact ⟨o', e', t, n.1, s⟩

theorem GpEnv.symm {env env' : Env B} (h : GpEnv env env') : GpEnv env' env := by
  intro v
  rcases h v with ⟨h1, h2⟩ | ⟨x, x', h1, h2, h3⟩
  · exact .inl ⟨h2, h1⟩
  · exact .inr ⟨x', x, h2, h1, h3.symm⟩

/-- What is seen of two tables. -/
structure TabEven (T T' : Tab B) : Prop where
  kw : T.scanner.keywords = T'.scanner.keywords
  toks : T.scanner.tokens = T'.scanner.tokens
  names : (T.vars.filter (fun v => v.2.isNone)).map (·.1) = (T'.vars.filter (fun v => v.2.isNone)).map (·.1)
  doc : (T.grammars.lookup (bytes "doc") = none ∧ T'.grammars.lookup (bytes "doc") = none) ∨
    ∃ g g', T.grammars.lookup (bytes "doc") = some g ∧ T'.grammars.lookup (bytes "doc") = some g' ∧ Even T.env T'.env g g'

theorem TabEven.symm {T T' : Tab B} (h : TabEven T T') : TabEven T' T := by
  refine ⟨h.kw.symm, h.toks.symm, h.names.symm, ?_⟩
  rcases h.doc with ⟨h1, h2⟩ | ⟨g, g', h1, h2, h3, h4, h5⟩
  · exact .inl ⟨h2, h1⟩
  · exact .inr ⟨g', g, h2, h1, h4, h3, h5.symm⟩
theorem TabEven.trans {T T' T'' : Tab B} (h : TabEven T T') (h' : TabEven T' T'') : TabEven T T'' := by
  refine ⟨h.kw.trans h'.kw, h.toks.trans h'.toks, h.names.trans h'.names, ?_⟩
  rcases h.doc with ⟨h1, h2⟩ | ⟨g, g', h1, h2, h3, h4, h5⟩ <;> rcases h'.doc with ⟨k1, k2⟩ | ⟨j, j', k1, k2, k3, k4, k5⟩
  · exact .inl ⟨h1, k2⟩
  · rw [h2] at k1; cases k1
  · rw [h2] at k1; cases k1
  · rw [h2] at k1; cases k1
    exact .inr ⟨g, j', h1, k2, follows_trans h3 k3, follows_trans k4 h4, h5.trans k5⟩

theorem _root_.Tpl.TabG.even {T T' : Tab B} (h : TabG T T') : TabEven T T' := by
  refine ⟨h.kw, h.toks, ?_, ?_⟩
  · have := h.vars
    generalize T.vars = a at this
    generalize T'.vars = b at this
    induction this with
    | nil => rfl
    | @cons p q _ _ h _ ih =>
      obtain ⟨p1, p2⟩ := p
      obtain ⟨q1, q2⟩ := q
      obtain ⟨rfl, h⟩ : p1 = q1 ∧ OptG p2 q2 := h
      rcases h with ⟨rfl, rfl⟩ | ⟨x, x', rfl, rfl, _⟩
      · simpa using ih
      · simpa using ih
  · rcases h.lookup (bytes "doc") with h1 | ⟨x, x', h1, h2, h3⟩
    · exact .inl h1
    · exact .inr ⟨x, x', h1, h2, gp_follows h.env h3, gp_follows (GpEnv.symm h.env) h3.symm, h3.nil_iff⟩

theorem exL_trans {x y z : Except ClPanic (Tab B)} (h : ExL TabEven x y) (h' : ExL TabEven y z) : ExL TabEven x z := by
  cases h with
  | ok h => cases h' with | ok h' => exact .ok (h.trans h')
  | error => cases h'; exact .error
theorem exL_symm {x y : Except ClPanic (Tab B)} (h : ExL TabEven x y) : ExL TabEven y x := by
  cases h with
  | ok h => exact .ok h.symm
  | error => exact .error

theorem doc_twice {mk : Marker B} (hmk : Uniform mk) (rs : List Rule) {t t' : Tab B} (h : TabG t t') : ExL TabG (denDoc mk rs t) (denDoc mk rs t') := by
  induction rs generalizing t t' with
  | nil => exact .ok h
  | cons r rs ih =>
    simp only [denDoc, Rule.den]
    exact ((alts_twice hmk _ h).bind fun x y hxy => define_gp hxy.2.1 _ hxy.2.2.weaken).bind fun t t' h => ih h

/-- Rules and regrouped rules. -/
theorem regroup_even {mk : Marker B} (hmk : Uniform mk) {rs rs' : List Rule} (h : Regroup rs rs') {t t' : Tab B} (ht : TabG t t') (ht' : TabG t' t') :
    ExL TabEven (denDoc mk rs t) (denDoc mk rs' t') := by
  induction h with
  | refl => exact (doc_twice hmk _ ht).mono fun _ _ h => h.even
  | removed _ hl ih => exact exL_trans ih ((doc_gp hmk hl ht').mono fun _ _ h => h.even)
  | added _ hl ih => exact exL_trans ih (exL_symm ((doc_gp hmk hl ht').mono fun _ _ h => h.even))

theorem start_even (a a' : Str) : TabG (clStart B U k a) (clStart B U k a') := by
  refine ⟨?_, ?_, .nil, .nil⟩
  · show (k.init a clMode).keywords = (k.init a' clMode).keywords
    unfold KwScanner.init
    cases k.keywords <;> rfl
  · show (k.init a clMode).tokens = (k.init a' clMode).tokens
    unfold KwScanner.init
    cases k.keywords <;> rfl

/-- Two texts whose rules are compiled to tables that look the same. -/
def Evened (mk : Marker B) (U : Uni) (k : KwScanner) (a a' : Str) : Prop :=
  ∃ ts e ts' e' rs rs', Tokenizes U k a clMode ts e ∧ IsDoc ts rs ∧ Tokenizes U k a' clMode ts' e' ∧ IsDoc ts' rs' ∧
    ExL TabEven (denDoc mk rs (clStart B U k a)) (denDoc mk rs' (clStart B U k a'))

theorem regrouped_evened {mk : Marker B} (hmk : Uniform mk) {a a' : Str} (h : Regrouped U k a a') : Evened mk U k a a' := by
  obtain ⟨ts, e, ts', e', rs, rs', h1, h2, h3, h4, h5⟩ := h
  exact ⟨ts, e, ts', e', rs, rs', h1, h2, h3, h4, regroup_even hmk h5 (start_even a a') (start_even a' a')⟩

theorem evened_symm {mk : Marker B} {a a' : Str} (h : Evened mk U k a a') : Evened mk U k a' a := by
  obtain ⟨ts, e, ts', e', rs, rs', h1, h2, h3, h4, h5⟩ := h
  exact ⟨ts', e', ts, e, rs', rs, h3, h4, h1, h2, exL_symm h5⟩

/-- What the two texts are compiled to. -/
theorem cl_evened {mk : Marker B} {mode : Mode} (hk : Steps U KwScanner.zero k) {a a' : Str} (hr : Evened mk U k a a') {f : Nat} {r : ClRes B}
    (h : Compiler.cl ⟨a, mk, mode⟩ U f k = some r) : ∃ f' r', Compiler.cl ⟨a', mk, mode⟩ U f' k = some r' ∧
      ((∃ p, r = .panic p ∧ r' = .panic p) ∨ ∃ T T', TabEven T T' ∧ r = clFinish mode T ∧ r' = clFinish mode T') := by
  obtain ⟨ts, e, ts', e', rs, rs', ht, hd, ht', hd', hE⟩ := hr
  obtain ⟨f0, h0⟩ := cl_doc (c := ⟨a, mk, mode⟩) hk ht hd
  obtain ⟨f1, h1⟩ := cl_doc (c := ⟨a', mk, mode⟩) hk ht' hd'
  have he := cl_unique h0 h
  refine ⟨f1, _, h1, ?_⟩
  dsimp only at he ⊢
  generalize denDoc mk rs (clStart B U k a) = x at hE he
  generalize denDoc mk rs' (clStart B U k a') = y at hE
  cases hE with
  | ok hE => exact .inr ⟨_, _, hE, he.symm, rfl⟩
  | error => exact .inl ⟨_, he.symm, rfl⟩

theorem TabEven.finish {T T' : Tab B} (h : TabEven T T') (mode : Mode) :
    (∃ e, clFinish mode T = .err e ∧ clFinish mode T' = .err e) ∨
    ∃ g g', clFinish mode T = .ok ⟨g, T, mode⟩ ∧ clFinish mode T' = .ok ⟨g', T', mode⟩ ∧ Even T.env T'.env g g' := by
  have hdoc : str "doc" = bytes "doc" := rfl
  unfold clFinish
  rw [hdoc]
  rcases h.doc with ⟨h1, h2⟩ | ⟨g, g', h1, h2, h3⟩
  · rw [h1, h2]; exact .inl ⟨_, rfl, rfl⟩
  · rw [h1, h2]
    dsimp only
    have := h.names
    generalize (T.vars.filter (fun v => v.2.isNone)).map (·.1) = x at this
    subst this
    split
    · exact .inr ⟨g, g', rfl, rfl, h3⟩
    · exact .inl ⟨_, rfl, rfl⟩

theorem ok_evened {mk : Marker B} {mode : Mode} (hk : Steps U KwScanner.zero k) {a a' : Str} (hr : Evened mk U k a a')
    {f f' : Nat} {ret ret' : CompileRet B} (h : Compiler.cl ⟨a, mk, mode⟩ U f k = some (.ok ret)) (h' : Compiler.cl ⟨a', mk, mode⟩ U f' k = some (.ok ret')) :
    ret.tab.scanner.keywords = ret'.tab.scanner.keywords ∧ Even ret.env ret'.env ret.root ret'.root := by
  obtain ⟨f1, r1, h1, h2⟩ := cl_evened hk hr h
  obtain rfl := cl_unique h' h1
  rcases h2 with ⟨p, e, _⟩ | ⟨T, T', hT, e, e'⟩
  · cases e
  · rcases hT.finish mode with ⟨_, e1, _⟩ | ⟨g, g', e1, e2, e3⟩
    · rw [e1] at e; cases e
    · rw [e1] at e; rw [e2] at e'
      cases e; cases e'
      exact ⟨hT.kw, e3⟩

theorem carried_evened {mk : Marker B} {mode : Mode} (hk : Steps U KwScanner.zero k) (hb : k.sc.bad = false) {a a' : Str} (hr : Evened mk U k a a')
    {f f' : Nat} {ret ret' : CompileRet B} (h : Compiler.cl ⟨a, mk, mode⟩ U f k = some (.ok ret)) (h' : Compiler.cl ⟨a', mk, mode⟩ U f' k = some (.ok ret')) :
    Carried Eq ret ret' := by
  obtain ⟨h1, h2, _, h3⟩ := ok_evened hk hr h h'
  refine ⟨h2, h3, ⟨fun _ _ => rfl, fun _ _ e => by rw [e]⟩, (cl_scanner _ hk hb h).1, (cl_scanner _ hk hb h').1, fun w => ?_⟩
  rw [h1]
  cases hg : KwMap.get ret'.tab.scanner.keywords w with
  | none => exact .inl ⟨rfl, rfl⟩
  | some x => exact .inr ⟨x, x, rfl, rfl, rfl⟩

/-- Texts: `MatchExactly` ends the same way, and the marked functions leave the same state behind. -/
theorem text_evened {mk : Marker B} {mode : Mode} (hk : Steps U KwScanner.zero k) (hb : k.sc.bad = false) {a a' : Str} (hr : Evened mk U k a a')
    {f f' : Nat} {ret ret' : CompileRet B} (h : Compiler.cl ⟨a, mk, mode⟩ U f k = some (.ok ret)) (h' : Compiler.cl ⟨a', mk, mode⟩ U f' k = some (.ok ret'))
    {c : Calls B σ V P} (hc : TextOnly c) (init : St σ → Cb B σ P Unit) (src : Str) (s : St σ) (v : Verdict × σ) :
    (∃ fuel r, ((⟨ret.root, mode, init, ret.env, c.sem⟩ : Matcher B σ V P).matchExactly U fuel ret.tab.scanner src s).1 = some r ∧ verdict r = v) ↔
    ∃ fuel r, ((⟨ret'.root, mode, init, ret'.env, c.sem⟩ : Matcher B σ V P).matchExactly U fuel ret'.tab.scanner src s).1 = some r ∧ verdict r = v := by
  have h1 := carried_evened hk hb hr h h'
  have h2 := carried_evened hk hb (evened_symm hr) h' h
  constructor
  · rintro ⟨fuel, r, hm, rfl⟩
    obtain ⟨fuel', r', e1, e2⟩ := text_alike h1 hc init src s hm
    exact ⟨fuel', r', e1, e2.symm⟩
  · rintro ⟨fuel, r, hm, rfl⟩
    obtain ⟨fuel', r', e1, e2⟩ := text_alike h2 hc init src s hm
    exact ⟨fuel', r', e1, e2.symm⟩

/-- The two texts compile, or there is the same error, or the same panic. -/
theorem compiles_evened {mk : Marker B} {mode : Mode} (hk : Steps U KwScanner.zero k) {a a' : Str} (hr : Evened mk U k a a') :
    ((∃ f ret, Compiler.cl ⟨a, mk, mode⟩ U f k = some (.ok ret)) ↔ ∃ f ret, Compiler.cl ⟨a', mk, mode⟩ U f k = some (.ok ret)) ∧
    (∀ e, (∃ f, Compiler.cl ⟨a, mk, mode⟩ U f k = some (.err e)) ↔ ∃ f, Compiler.cl ⟨a', mk, mode⟩ U f k = some (.err e)) ∧
    ∀ p, (∃ f, Compiler.cl ⟨a, mk, mode⟩ U f k = some (.panic p)) ↔ ∃ f, Compiler.cl ⟨a', mk, mode⟩ U f k = some (.panic p) := by
  have ok : ∀ {a a' : Str}, Evened mk U k a a' → (∃ f ret, Compiler.cl ⟨a, mk, mode⟩ U f k = some (.ok ret)) → ∃ f ret, Compiler.cl ⟨a', mk, mode⟩ U f k = some (.ok ret) := by
    rintro a a' hr ⟨f, ret, h⟩
    obtain ⟨f1, r1, h1, ⟨p, e, _⟩ | ⟨T, T', hT, e, e'⟩⟩ := cl_evened hk hr h
    · cases e
    · rcases hT.finish mode with ⟨_, e1, _⟩ | ⟨g, g', e1, e2, e3⟩
      · rw [e1] at e; cases e
      · rw [e2] at e'; exact ⟨f1, _, e' ▸ h1⟩
  have err : ∀ {a a' : Str} {e : ClErr}, Evened mk U k a a' → (∃ f, Compiler.cl ⟨a, mk, mode⟩ U f k = some (.err e)) → ∃ f, Compiler.cl ⟨a', mk, mode⟩ U f k = some (.err e) := by
    rintro a a' er hr ⟨f, h⟩
    obtain ⟨f1, r1, h1, ⟨p, e, _⟩ | ⟨T, T', hT, e, e'⟩⟩ := cl_evened hk hr h
    · cases e
    · rcases hT.finish mode with ⟨_, e1, e2⟩ | ⟨g, g', e1, e2, e3⟩
      · rw [e1] at e; cases e; rw [e2] at e'; exact ⟨f1, e' ▸ h1⟩
      · rw [e1] at e; cases e
  have pan : ∀ {a a' : Str} {p : Panic ClAct ClPanic}, Evened mk U k a a' → (∃ f, Compiler.cl ⟨a, mk, mode⟩ U f k = some (.panic p)) → ∃ f, Compiler.cl ⟨a', mk, mode⟩ U f k = some (.panic p) := by
    rintro a a' p hr ⟨f, h⟩
    obtain ⟨f1, r1, h1, ⟨p, e, e'⟩ | ⟨T, T', hT, e, e'⟩⟩ := cl_evened hk hr h
    · cases e; exact ⟨f1, e' ▸ h1⟩
    · rcases hT.finish mode with ⟨_, e1, e2⟩ | ⟨g, g', e1, e2, e3⟩
      · rw [e1] at e; cases e
      · rw [e1] at e; cases e
  exact ⟨⟨ok hr, ok (evened_symm hr)⟩, fun e => ⟨err hr, err (evened_symm hr)⟩, fun p => ⟨pan hr, pan (evened_symm hr)⟩⟩

/-- C130 for tokens: what is matched, how many tokens, and which marked functions are called for which tokens and
numbers of items is the same, with and without the parentheses. -/
theorem C130_traces_partial {mk : Marker B} (hmk : Uniform mk) {mode : Mode} (hk : Steps U KwScanner.zero k) {a a' : Str} (hr : Regrouped U k a a')
    {f f' : Nat} {ret ret' : CompileRet B} (h : Compiler.cl ⟨a, mk, mode⟩ U f k = some (.ok ret)) (h' : Compiler.cl ⟨a', mk, mode⟩ U f' k = some (.ok ret')) :
    Follows ret.env ret'.env Eq ret.root ret'.root ∧ Follows ret'.env ret.env Eq ret'.root ret.root :=
  have h := (ok_evened hk (regrouped_evened hmk hr) h h').2
  ⟨h.1, h.2.1⟩

/-- C130 for texts: `MatchExactly` ends the same way, and the marked functions leave the same state behind. -/
theorem C130_text_partial {mk : Marker B} (hmk : Uniform mk) {mode : Mode} (hk : Steps U KwScanner.zero k) (hb : k.sc.bad = false) {a a' : Str} (hr : Regrouped U k a a')
    {f f' : Nat} {ret ret' : CompileRet B} (h : Compiler.cl ⟨a, mk, mode⟩ U f k = some (.ok ret)) (h' : Compiler.cl ⟨a', mk, mode⟩ U f' k = some (.ok ret'))
    {c : Calls B σ V P} (hc : TextOnly c) (init : St σ → Cb B σ P Unit) (src : Str) (s : St σ) (v : Verdict × σ) :
    (∃ fuel r, ((⟨ret.root, mode, init, ret.env, c.sem⟩ : Matcher B σ V P).matchExactly U fuel ret.tab.scanner src s).1 = some r ∧ verdict r = v) ↔
    ∃ fuel r, ((⟨ret'.root, mode, init, ret'.env, c.sem⟩ : Matcher B σ V P).matchExactly U fuel ret'.tab.scanner src s).1 = some r ∧ verdict r = v :=
  text_evened hk hb (regrouped_evened hmk hr) h h' hc init src s v

/-- C130: with and without the parentheses the text compiles, or there is the same error, or the same panic. -/
theorem C130_compiles_partial {mk : Marker B} (hmk : Uniform mk) {mode : Mode} (hk : Steps U KwScanner.zero k) {a a' : Str} (hr : Regrouped U k a a') :
    ((∃ f ret, Compiler.cl ⟨a, mk, mode⟩ U f k = some (.ok ret)) ↔ ∃ f ret, Compiler.cl ⟨a', mk, mode⟩ U f k = some (.ok ret)) ∧
    (∀ e, (∃ f, Compiler.cl ⟨a, mk, mode⟩ U f k = some (.err e)) ↔ ∃ f, Compiler.cl ⟨a', mk, mode⟩ U f k = some (.err e)) ∧
    ∀ p, (∃ f, Compiler.cl ⟨a, mk, mode⟩ U f k = some (.panic p)) ↔ ∃ f, Compiler.cl ⟨a', mk, mode⟩ U f k = some (.panic p) :=
  compiles_evened hk (regrouped_evened hmk hr)

/-! ### Where it does matter -/

/-- C130 is violated for a group with a mark: the function gets the number of items in the parentheses. -/
theorem C130_violated_mark : counted "doc = (INT (',' INT))/f;" "1,2" = some (.accepted, [2]) ∧ counted "doc = (INT ',' INT)/f;" "1,2" = some (.accepted, [3]) := by decide +kernel

/-- C130 is violated for alternatives with a mark. -/
theorem C130_violated_alts : counted "doc = (INT | (IDENT | FLOAT))/f;" "1" = some (.accepted, [2]) ∧ counted "doc = (INT | IDENT | FLOAT)/f;" "1" = some (.accepted, [3]) := by decide +kernel

/-- C130 is violated for a `!` in a group: it has no effect behind the parenthesis. -/
theorem C130_violated_bang : counted "doc = INT (! ',') ':' | INT ',' ';';" "1,;" = some (.accepted, []) ∧
    counted "doc = INT ! ',' ':' | INT ',' ';';" "1,;" = some (.panicked, []) := by decide +kernel

/-! ### Examples -/

def gItem (n : String) : Item := .term (.ident (bytes n)) .nil
def gComma : Item := .term (.char (bytes "','")) .nil
/-- A rule `doc` that is a list of `a`, with `;` between the elements and a mark. -/
def gDoc (a : Alts) : Rule := ⟨bytes "doc", .one (.term (.paren a) (.list (.char (bytes "';'")) (.mark (bytes "f") .nil))) .nil⟩
/-- `(INT ',') INT | IDENT` -/
def gLeft : Alts := .alt (.term (.paren (.one (gItem "INT") (.cons gComma .nil))) .nil) (.cons (gItem "INT") .nil) (.one (gItem "IDENT") .nil)
/-- `INT ',' INT | IDENT` -/
def gFlat : Alts := .alt (gItem "INT") (.cons gComma (.cons (gItem "INT") .nil)) (.one (gItem "IDENT") .nil)
/-- `INT ',' INT | (IDENT)` -/
def gRight : Alts := .alt (gItem "INT") (.cons gComma (.cons (gItem "INT") .nil)) (.one (.term (.paren (.one (gItem "IDENT") .nil)) .nil) .nil)

def gToks : List Token := [⟨IDENT, 0, bytes "doc"⟩, ⟨ASSIGN, 4, []⟩, ⟨LPAREN, 6, []⟩, ⟨LPAREN, 7, []⟩, ⟨IDENT, 8, bytes "INT"⟩, ⟨CHAR, 12, bytes "','"⟩, ⟨RPAREN, 15, []⟩,
  ⟨IDENT, 17, bytes "INT"⟩, ⟨OR, 21, []⟩, ⟨IDENT, 23, bytes "IDENT"⟩, ⟨RPAREN, 28, []⟩, ⟨REM, 30, []⟩, ⟨CHAR, 32, bytes "';'"⟩, ⟨QUO, 35, []⟩, ⟨IDENT, 36, bytes "f"⟩,
  ⟨SEMICOLON, 37, [59]⟩]
def gToks' : List Token := [⟨IDENT, 0, bytes "doc"⟩, ⟨ASSIGN, 4, []⟩, ⟨LPAREN, 6, []⟩, ⟨IDENT, 7, bytes "INT"⟩, ⟨CHAR, 11, bytes "','"⟩, ⟨IDENT, 15, bytes "INT"⟩, ⟨OR, 19, []⟩,
  ⟨LPAREN, 21, []⟩, ⟨IDENT, 22, bytes "IDENT"⟩, ⟨RPAREN, 27, []⟩, ⟨RPAREN, 28, []⟩, ⟨REM, 30, []⟩, ⟨CHAR, 32, bytes "';'"⟩, ⟨QUO, 35, []⟩, ⟨IDENT, 36, bytes "f"⟩,
  ⟨SEMICOLON, 37, [59]⟩]

theorem g_list {a a' : Alts} (h : ChoiceLoose a a') : RulesLoose [gDoc a] [gDoc a'] :=
  .cons (.free (.one (.cons (.list (.paren (.free h)) .char (.mark .nil)) .nil))) .nil

theorem g_left : ChoiceLoose gLeft gFlat :=
  .alt (i' := gItem "INT") (is' := .cons gComma (.cons (gItem "INT") .nil)) (.group (by decide) (.cons (.bare .ident) .nil)) (.one (.cons (.bare .ident) .nil))
theorem g_right : ChoiceLoose gRight gFlat :=
  .alt (.cons (.bare .ident) (.cons (.bare .char) (.cons (.bare .ident) .nil))) .last

/-- Parentheses around two items, or around an alternative. -/
example : Regrouped ascii KwScanner.zero (bytes "doc = ((INT ',') INT | IDENT) % ';'/f;") (bytes "doc = (INT ',' INT | (IDENT)) % ';'/f;") := by
  obtain ⟨e, h⟩ : ∃ e, Tokenizes ascii KwScanner.zero (bytes "doc = ((INT ',') INT | IDENT) % ';'/f;") clMode gToks e := (tokenizes_iff (.refl _)).mp (by decide +kernel)
  obtain ⟨e', h'⟩ : ∃ e, Tokenizes ascii KwScanner.zero (bytes "doc = (INT ',' INT | (IDENT)) % ';'/f;") clMode gToks' e := (tokenizes_iff (.refl _)).mp (by decide +kernel)
  exact ⟨gToks, e, gToks', e', [gDoc gLeft], [gDoc gRight], h, ⟨by simp, by decide +kernel⟩, h', ⟨by simp, by decide +kernel⟩,
    .added (.removed .refl (g_list g_left)) (g_list g_right)⟩

example : counted "doc = ((INT ',') INT | IDENT) % ';'/f;" "1,2;a;3,4" = some (.accepted, [3]) ∧ counted "doc = (INT ',' INT | (IDENT)) % ';'/f;" "1,2;a;3,4" = some (.accepted, [3]) ∧
    counted "doc = ((INT ',') INT | IDENT) % ';'/f;" "1,2;a;3" = some (.rejected, [2]) ∧ counted "doc = (INT ',' INT | (IDENT)) % ';'/f;" "1,2;a;3" = some (.rejected, [2]) := by decide +kernel

/-- `((INT))/f` and `INT/f` -/
example : FacLoose true (.paren (.one (.term (.paren (.one (gItem "INT") .nil)) .nil) .nil)) (.ident (bytes "INT")) := .single (.single .ident)

/-- A group with a mark may contain groups if the number of items stays the same. -/
example : AltsLoose true (.one (gItem "INT") (.cons (.term (.paren (.one gComma .nil)) .nil) .nil)) (.one (gItem "INT") (.cons gComma .nil)) :=
  .seq (.cons (.bare .ident) (.cons (.bare (.single .char)) .nil)) rfl

end Tpl.Props
