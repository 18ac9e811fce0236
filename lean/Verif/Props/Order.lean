import Verif.Proof.Order
import Verif.Props.Added

/-! Property C126: the order of the rules of a grammar text. -/
namespace Tpl.Props
open Tpl Tpl.Spec KwScanner Scanner
variable {A B σ V P : Type} {U : Uni} {k : KwScanner}

/-- The texts have the same rules, in any order, each rule once, and no rule is named `true`. -/
structure Reordered (U : Uni) (k : KwScanner) (a a' : Str) : Prop where
  docs : ∃ ts e ts' e' rs rs', Tokenizes U k a clMode ts e ∧ IsDoc ts rs ∧ Tokenizes U k a' clMode ts' e' ∧ IsDoc ts' rs' ∧
    rs.Perm rs' ∧ (rs.map Rule.name).Nodup ∧ ∀ r ∈ rs, r.name ≠ bytes "true"

theorem mem_flatDoc {rs rs' : List Rule} (h : rs.Perm rs') (p : Nat × Str) : p ∈ flatDoc rs ↔ p ∈ flatDoc rs' := by
  unfold flatDoc
  simp only [List.mem_flatten, List.mem_map]
  constructor
  · rintro ⟨l, ⟨r, hr, rfl⟩, hp⟩
    exact ⟨_, ⟨r, h.mem_iff.mp hr, rfl⟩, hp⟩
  · rintro ⟨l, ⟨r, hr, rfl⟩, hp⟩
    exact ⟨_, ⟨r, h.mem_iff.mpr hr, rfl⟩, hp⟩

theorem Uniform.blind {mk : Marker B} (h : Uniform mk) : BlindMarker mk := by
  intro R g g' n hg
  rcases h n with e | ⟨l, e⟩ | ⟨l, e⟩ | ⟨p, e⟩
  · exact .inr ⟨_, _, e g, e g', hg⟩
  · exact .inr ⟨_, _, e g, e g', .action hg⟩
  · exact .inr ⟨_, _, e g, e g', .trans hg⟩
  · exact .inl ⟨p, e g, e g'⟩

/-- Keywords of a compiled grammar have kinds of their own. -/
theorem den_fine {mk : Marker B} (hmk : Uniform mk) (hk : Steps U KwScanner.zero k) {a : Str} {rs : List Rule} {T : Tab B}
    (h : denDoc mk rs (clStart B U k a) = .ok T) : KwFine T.scanner := by
  have f2 := kinv_fine ((tokenize_steps hk a clMode).inv zero_inv).1 (tokenize_keywords _ _ _)
  rw [clStart_eq] at h
  generalize (k.tokenize U a clMode).2 = u at f2 h
  have hs : TabSame k (⟨[], [], 0, u⟩ : Tab B) ⟨[], [], 0, u⟩ := ⟨.nil, .nil, rfl, f2, f2, fun w h => h, fun w h => .inr h⟩
  have hd := denDoc_same (Uniform.blind hmk) rs hs
  rw [h] at hd
  cases hd with
  | ok hT _ _ => exact hT.fine

/-- What is known of the tables of the two texts. -/
structure Both (R : Nat → Nat → Prop) (Q : Gr B → Gr B → Prop) (ret ret' : CompileRet B) : Prop where
  linked : Linked ret.env ret'.env R Q
  root : Akin R Q ret.root ret'.root
  toks : TokRel R
  bad : ret.tab.scanner.sc.bad = false
  bad' : ret'.tab.scanner.sc.bad = false
  words : ∀ w, (ret.tab.scanner.keywords.get w = none ∧ ret'.tab.scanner.keywords.get w = none) ∨
    ∃ x y, ret.tab.scanner.keywords.get w = some x ∧ ret'.tab.scanner.keywords.get w = some y ∧ R x y

theorem cl_both {mk : Marker B} (hmk : Uniform mk) {mode : Mode} (hk : Steps U KwScanner.zero k) (hb : k.sc.bad = false) {a a' : Str} (hr : Reordered U k a a')
    {f f' : Nat} {ret ret' : CompileRet B} (h : Compiler.cl ⟨a, mk, mode⟩ U f k = some (.ok ret)) (h' : Compiler.cl ⟨a', mk, mode⟩ U f' k = some (.ok ret')) :
    Both (SameKind ret.tab.scanner ret'.tab.scanner) (BothRef ret.tab ret'.tab) ret ret' := by
  have hsc := cl_scanner _ hk hb h
  have hsc' := cl_scanner _ hk hb h'
  obtain ⟨us, e1, us', e1', rs, rs', ht, hd, ht', hd', hp, hnd, htr⟩ := hr.docs
  obtain ⟨ts, e, rs1, T, root, htk, hd1, ho, hroot, hv, rfl⟩ := (C40_compiles _ hk ret).mp ⟨f, h⟩
  obtain ⟨ts', e', rs1', T', root', htk', hd1', ho', hroot', hv', rfl⟩ := (C40_compiles _ hk ret').mp ⟨f', h'⟩
  have ets : ∀ {a : Str} {ts us : List Token} {e e1 : Token}, Tokenizes U k a clMode ts e → Tokenizes U k a clMode us e1 → ts = us := by
    intro a ts us e e1 h h'
    have h1 := (tokenizes_ok hk h).1
    rw [(tokenizes_ok hk h').1] at h1
    injection h1 with h1
    exact h1.symm
  obtain rfl := ets htk ht
  obtain rfl := ets htk' ht'
  obtain rfl := C40_unambiguous hd hd1
  obtain rfl := C40_unambiguous hd' hd1'
  have f1 := den_fine hmk hk ho
  have f2 := den_fine hmk hk ho'
  have ht := doc_twinned hmk ⟨rfl, rfl⟩ ⟨rfl, rfl⟩ ho ho' hv hv' (fun r => hp.mem_iff) hnd htr (kindRel f1 f2)
  have words : ∀ w, T.scanner.keywords.get w ≠ none ↔ T'.scanner.keywords.get w ≠ none := by
    intro w
    have e1 := hsc.2.2 w
    have e2 := hsc'.2.2 w
    change _ ↔ _ ∨ (QuotedIn U a w ∧ _) at e1
    change _ ↔ _ ∨ (QuotedIn U a' w ∧ _) at e2
    rw [e1, e2, ← doc_quoted hk hb htk hd, ← doc_quoted hk hb htk' hd']
    simp only [mem_flatDoc hp]
  refine ⟨ht.linked, ht.rules _ _ _ (.inl hroot) (.inl hroot'), ⟨fun a ha => .inl ⟨rfl, ha⟩, ?_⟩, hsc.1, hsc'.1, fun w => ?_⟩
  · rintro a b (⟨rfl, _⟩ | ⟨w, h1, h2⟩)
    · exact Iff.rfl
    · have := (f1.range h1).1; have := (f2.range h2).1; unfold EOF; omega
  · cases hg0 : T.scanner.keywords.get w with
    | some x =>
      cases hg1 : T'.scanner.keywords.get w with
      | some y => exact .inr ⟨x, y, rfl, rfl, .inr ⟨_, hg0, hg1⟩⟩
      | none => exact absurd hg1 ((words _).mp (by rw [hg0]; simp))
    | none =>
      cases hg1 : T'.scanner.keywords.get w with
      | none => exact .inl ⟨rfl, rfl⟩
      | some y => exact absurd hg0 ((words _).mpr (by rw [hg1]; simp))

/-- C126: what a grammar text matches, how many items and tokens, and which marked functions it
calls for which tokens, does not depend on the order of its rules. -/
theorem C126_traces_partial {mk : Marker B} (hmk : Uniform mk) {mode : Mode} (hk : Steps U KwScanner.zero k) (hb : k.sc.bad = false) {a a' : Str} (hr : Reordered U k a a')
    {f f' : Nat} {ret ret' : CompileRet B} (h : Compiler.cl ⟨a, mk, mode⟩ U f k = some (.ok ret)) (h' : Compiler.cl ⟨a', mk, mode⟩ U f' k = some (.ok ret'))
    {src src' : List Token} (hs : SameToks (SameKind ret.tab.scanner ret'.tab.scanner) Eq src src') {o : Out} {e : List (Ev B)} (ht : Tr ret.env (.one ret.root) src o e) :
    ∃ e', Tr ret'.env (.one ret'.root) src' o e' ∧ SameEvs (SameKind ret.tab.scanner ret'.tab.scanner) e e' := by
  have hB := cl_both hmk hk hb hr h h'
  exact transfer hB.linked ht (.one ret'.root) src' hB.root hs

/-- The grammar `g'` does what `g` does, with the same callbacks for the same tokens. -/
def Follows (env env' : Env B) (R : Nat → Nat → Prop) (g g' : Gr B) : Prop :=
  ∀ {src src' o e}, SameToks R Eq src src' → Tr env (.one g) src o e → ∃ o' e', Tr env' (.one g') src' o' e' ∧ (∀ l, o.withLen l = o'.withLen l) ∧ SameEvs R e e'

theorem same_succ {n : Nat} {l : Int} {o : Out} (h : ∀ l', (Out.succ n l).withLen l' = o.withLen l') : ∃ l', o = .succ n l' := by
  have := h 0
  cases o <;> cases this
  exact ⟨_, rfl⟩
theorem same_fail {n : Nat} {o : Out} (h : ∀ l', (Out.fail n).withLen l' = o.withLen l') : o = .fail n := by
  have := h 0
  cases o <;> cases this
  rfl
theorem same_abort {b : Bool} {o : Out} (h : ∀ l', (Out.abort b).withLen l' = o.withLen l') : o = .abort b := by
  have := h 0
  cases o <;> cases this
  rfl

/-- The answers for tokens. -/
theorem eval_follows {env env' : Env B} {R : Nat → Nat → Prop} {g g' : Gr B} (hl : Follows env env' R g g') {src src' : List Token}
    (hs : SameToks R Eq src src') {c : Calls B σ V P} (hc : TextOnly c) {s : St σ} {r : Res B σ P} {f : Nat}
    (h : matchG env c.sem f g src s = some r) : ∃ f' r', matchG env' c.sem f' g' src' s = some r' ∧
      match r, r' with
      | .ok n s, .ok n' s' => n = n' ∧ s.u = s'.u
      | .fail n _ s, .fail n' _ s' => n = n' ∧ s.u = s'.u
      | .panic _ s, .panic _ s' => s.u = s'.u
      | _, _ => False := by
  obtain ⟨o, e, htr, hfit⟩ := sound_matchG f g src s r h
  obtain ⟨o', e', htr', hsame, hev⟩ := hl hs htr
  have hf := hfit ([] : List V)
  have hrun := run_same hc hev (s.u, ([] : List V))
  have hstop : Stops o' (c.run e (s.u, ([] : List V))) := by
    rintro rfl
    obtain rfl := same_abort (fun l => (hsame l).symm)
    cases r with
    | ok n s => cases hf.1
    | fail n e s => cases hf.1
    | panic p s =>
      rcases hf with ⟨_, q, _, hw⟩ | ⟨h1, _⟩
      · exact ⟨_, hw⟩
      · cases h1
  rw [hrun] at hf hstop
  obtain ⟨r', ⟨f', hr'⟩, hcf⟩ := realise (c := c) htr' s [] hstop
  refine ⟨f', r', hr', ?_⟩
  cases r with
  | ok n s1 =>
    obtain ⟨rfl, hw⟩ := hf
    obtain ⟨l', rfl⟩ := same_succ hsame
    rcases cfit_succ hcf with ⟨p, lens, u, hw', _⟩ | ⟨s2, rfl, _, hw'⟩
    · rw [hw] at hw'; cases hw'
    · rw [hw] at hw'; injection hw' with hw'; exact ⟨rfl, (Prod.mk.inj hw').1⟩
  | fail n e1 s1 =>
    obtain ⟨rfl, hw⟩ := hf
    obtain rfl := same_fail hsame
    rcases cfit_fail hcf with ⟨p, lens, u, hw', _⟩ | ⟨e2, s2, rfl, hw'⟩
    · rw [hw] at hw'; cases hw'
    · rw [hw] at hw'; injection hw' with hw'; exact ⟨rfl, (Prod.mk.inj hw').1⟩
  | panic p s1 =>
    have key : ∃ b, o = .abort b := by
      rcases hf with ⟨h1, _⟩ | ⟨h1, _⟩ <;> exact ⟨_, h1⟩
    obtain ⟨b, rfl⟩ := key
    obtain rfl := same_abort hsame
    obtain ⟨p2, s2, rfl, hcf'⟩ := cfit_abort hcf
    show s1.u = s2.u
    rcases hcf' (fun _ => 0) with ⟨q, lens, u, hw', h2⟩ | h2
    · cases h2
      rcases hf with ⟨_, q', _, hw⟩ | ⟨_, _, vs, hw⟩
      · rw [hw] at hw'; cases hw'; rfl
      · rw [hw] at hw'; cases hw'
    · rcases h2 with ⟨_, q2, _, hw'⟩ | ⟨_, _, vs', hw'⟩ <;> rcases hf with ⟨_, q', _, hw⟩ | ⟨_, _, vs, hw⟩ <;> rw [hw] at hw'
      · injection hw' with hw'; exact (Prod.mk.inj hw').2
      · cases hw'
      · cases hw'
      · injection hw' with hw'; exact (Prod.mk.inj hw').1

/-- What `MatchExactly` looks at is the same. -/
structure Carried (R : Nat → Nat → Prop) (ret ret' : CompileRet B) : Prop where
  moves : Follows ret.env ret'.env R ret.root ret'.root
  nil : ret.root = .nil ↔ ret'.root = .nil
  toks : TokRel R
  bad : ret.tab.scanner.sc.bad = false
  bad' : ret'.tab.scanner.sc.bad = false
  words : ∀ w, (ret.tab.scanner.keywords.get w = none ∧ ret'.tab.scanner.keywords.get w = none) ∨
    ∃ x y, ret.tab.scanner.keywords.get w = some x ∧ ret'.tab.scanner.keywords.get w = some y ∧ R x y

theorem Both.carried {R : Nat → Nat → Prop} {Q : Gr B → Gr B → Prop} {ret ret' : CompileRet B} (h : Both R Q ret ret') : Carried R ret ret' := by
  refine ⟨fun hs ht => ?_, h.root.nil_iff, h.toks, h.bad, h.bad', h.words⟩
  obtain ⟨e', h1, h2⟩ := transfer h.linked ht (.one ret'.root) _ h.root hs
  exact ⟨_, e', h1, fun _ => rfl, h2⟩

/-- `MatchExactly` of two grammars. -/
theorem text_alike {mode : Mode} {ret ret' : CompileRet B} {R : Nat → Nat → Prop} (hB : Carried R ret ret')
    {c : Calls B σ V P} (hc : TextOnly c) (init : St σ → Cb B σ P Unit) (src : Str) (s : St σ) {fuel : Nat} {r : MRes B σ P Unit}
    (hm : ((⟨ret.root, mode, init, ret.env, c.sem⟩ : Matcher B σ V P).matchExactly U fuel ret.tab.scanner src s).1 = some r) :
    ∃ fuel' r', ((⟨ret'.root, mode, init, ret'.env, c.sem⟩ : Matcher B σ V P).matchExactly U fuel' ret'.tab.scanner src s).1 = some r' ∧ verdict r = verdict r' := by
  obtain ⟨h1, h2⟩ := tokenize_alike (U := U) (src := src) (mode := mode) hB.toks (hB.bad.trans hB.bad'.symm) (fun _ _ _ t _ _ => hB.words t.lit)
  have exactly : ∀ (m : Matcher B σ V P) (k : KwScanner) fuel, (m.matchExactly U fuel k src s).1 = match (m.match_ U fuel k src s).1 with
      | none => none
      | some (.err e s) => some (.err e s)
      | some (.panic p s) => some (.panic p s)
      | some (.ok next s) => if next.length ≠ 0 then some (.err (.match_ (mismatch .eof next)) s) else some (.ok () s) := by
    intro m k fuel
    unfold Matcher.matchExactly
    generalize m.match_ U fuel k src s = r
    obtain ⟨r, k'⟩ := r
    rfl
  rw [exactly] at hm
  simp only [exactly]
  by_cases hn : ret.root = .nil
  · have hn' := hB.nil.mp hn
    refine ⟨0, .err .noGrammar s, ?_, ?_⟩
    · unfold Matcher.match_
      dsimp only
      rw [hn']
    · unfold Matcher.match_ at hm
      dsimp only at hm
      rw [hn] at hm
      cases hm
      rfl
  · have hn' : ret'.root ≠ .nil := fun e => hn (hB.nil.mpr e)
    rw [match_eq ⟨ret.root, mode, init, ret.env, c.sem⟩ hn] at hm
    simp only [match_eq ⟨ret'.root, mode, init, ret'.env, c.sem⟩ hn']
    dsimp only at hm
    generalize (ret.tab.scanner.tokenize U src mode).1 = t at h1 h2 hm
    generalize (ret'.tab.scanner.tokenize U src mode).1 = t' at h1 h2
    obtain ⟨ts, e⟩ := t
    obtain ⟨ts', e'⟩ := t'
    dsimp only at h1 h2 hm
    subst h2
    cases e with
    | some e =>
      cases hm
      exact ⟨0, _, rfl, rfl⟩
    | none =>
      dsimp only at hm ⊢
      cases hi : init s with
      | panic p s => rw [hi] at hm; cases hm; exact ⟨0, _, rfl, rfl⟩
      | ok u s1 =>
        rw [hi] at hm
        dsimp only at hm ⊢
        cases hx : matchG ret.env c.sem fuel ret.root ts s1 with
        | none => rw [hx] at hm; cases hm
        | some x =>
          rw [hx] at hm
          obtain ⟨f1, x', e1, e2⟩ := eval_follows hB.moves h1 hc hx
          refine ⟨f1, ?_⟩
          have e1 : matchG ret'.env c.sem f1 ret'.root ts' s1 = some x' := e1
          rw [e1]
          cases x with
          | ok n s2 =>
            cases x' with
            | ok n' s2' =>
              obtain ⟨rfl, hu⟩ := e2
              dsimp only at hm ⊢
              have hl : (ts.drop n).length = (ts'.drop n).length := (h1.drop n).length
              by_cases h0 : (ts.drop n).length ≠ 0
              · rw [if_pos h0] at hm
                rw [if_pos (hl ▸ h0)]
                cases hm
                exact ⟨_, rfl, by simp [verdict, hu]⟩
              · rw [if_neg h0] at hm
                rw [if_neg (hl ▸ h0)]
                cases hm
                exact ⟨_, rfl, by simp [verdict, hu]⟩
            | fail => exact e2.elim
            | panic => exact e2.elim
          | fail n e s2 =>
            cases x' with
            | fail n' e' s2' =>
              obtain ⟨rfl, hu⟩ := e2
              cases hm
              exact ⟨_, rfl, by simp [verdict, hu]⟩
            | ok => exact e2.elim
            | panic => exact e2.elim
          | panic p s2 =>
            cases x' with
            | panic p' s2' =>
              cases hm
              exact ⟨_, rfl, by simp [verdict, show s2.u = s2'.u from e2]⟩
            | ok => exact e2.elim
            | fail => exact e2.elim

/-- C126 for texts: `MatchExactly` ends the same way, and the marked functions leave the same state
behind. -/
theorem C126_text_partial {mk : Marker B} (hmk : Uniform mk) {mode : Mode} (hk : Steps U KwScanner.zero k) (hb : k.sc.bad = false) {a a' : Str} (hr : Reordered U k a a')
    {f f' : Nat} {ret ret' : CompileRet B} (h : Compiler.cl ⟨a, mk, mode⟩ U f k = some (.ok ret)) (h' : Compiler.cl ⟨a', mk, mode⟩ U f' k = some (.ok ret'))
    {c : Calls B σ V P} (hc : TextOnly c) (init : St σ → Cb B σ P Unit) (src : Str) (s : St σ) {fuel : Nat} {r : MRes B σ P Unit}
    (hm : ((⟨ret.root, mode, init, ret.env, c.sem⟩ : Matcher B σ V P).matchExactly U fuel ret.tab.scanner src s).1 = some r) :
    ∃ fuel' r', ((⟨ret'.root, mode, init, ret'.env, c.sem⟩ : Matcher B σ V P).matchExactly U fuel' ret'.tab.scanner src s).1 = some r' ∧ verdict r = verdict r' :=
  text_alike (cl_both hmk hk hb hr h h').carried hc init src s hm

/-- A grammar text compiles if the bodies of its rules mean something and the rules it refers to are there. -/
theorem compiles_of {mk : Marker B} (hmk : Uniform mk) {mode : Mode} (hk : Steps U KwScanner.zero k) {a' : Str} {ts' : List Token} {e' : Token}
    {l l' : List Rule} {d : Rule} (ht' : Tokenizes U k a' clMode ts' e') (hd' : IsDoc ts' (l ++ d :: l'))
    (hb : ∀ r ∈ l ++ d :: l', ∃ (t : Tab B) (x : _), r.body.den mk t = .ok x ∧ oneOrOr x.1 ≠ .nil) (hnd : ((l ++ d :: l').map Rule.name).Nodup)
    (href : ∀ r ∈ l ++ d :: l', ∀ n ∈ r.body.refs, n ≠ bytes "true" → ∃ r' ∈ l ++ d :: l', r'.name = n)
    (hdoc : d.name = bytes "doc") (hearly : ∀ r ∈ l ++ [d], bytes "doc" ∉ r.body.refs) :
    ∃ f' ret', Compiler.cl ⟨a', mk, mode⟩ U f' k = some (.ok ret') := by
  have hfresh : Fresh (clStart B U k a') := ⟨rfl, rfl⟩
  have hfine : KwFine (clStart B U k a').scanner := by
    rw [clStart_eq]
    exact kinv_fine ((tokenize_steps hk a' clMode).inv zero_inv).1 (tokenize_keywords _ _ _)
  obtain ⟨T', hT', hall⟩ := doc_total hmk (l ++ d :: l') (clStart B U k a') hfine hb hnd (fun r _ x => fresh_def hfresh)
  have hass := doc_assigned hfresh hT' hall href
  obtain ⟨f', hf'⟩ := cl_doc (c := ⟨a', mk, mode⟩) hk ht' hd'
  have hT2 := hT'
  change denDoc mk (l ++ d :: l') (clStart B U k a') = _ at hT2
  rw [show l ++ d :: l' = (l ++ [d]) ++ l' by simp] at hT2
  obtain ⟨t1, e1, e2⟩ := denDoc_append.mp hT2
  have hkn : Known (bytes "doc") t1 := hdoc ▸ doc_rules e1 d (by simp)
  have hnu : bytes "doc" ∉ t1.used := by
    intro hu
    rcases doc_used e1 _ hu with h | ⟨r, hr, h⟩
    · simp [clStart, Tab.used] at h
    · exact hearly r hr h
  obtain ⟨g, hg⟩ := lookup_of_mem (hkn.resolve_right hnu)
  have hlk : T'.grammars.lookup (str "doc") = some g := doc_lookup e2 hg
  refine ⟨f', ⟨g, T', mode⟩, ?_⟩
  rw [hf']
  change some (match denDoc mk (l ++ d :: l') (clStart B U k a') with | .ok T => clFinish mode T | .error p => .panic (.user p)) = _
  rw [hT']
  unfold clFinish
  dsimp only
  rw [hlk]
  have : T'.vars.filter (fun v => v.2.isNone) = [] := List.filter_eq_nil_iff.mpr fun v hv => by
    have := hass v hv
    cases hx : v.2 with
    | none => exact absurd hx this
    | some x => simp
  dsimp only
  rw [this]
  rfl

/-- C126: a grammar text compiles if it does in another order, when no rule is a lone `!` and no rule
up to the rule `doc` refers to `doc`. -/
theorem C126_compiles_partial {mk : Marker B} (hmk : Uniform mk) {mode : Mode} (hk : Steps U KwScanner.zero k) {a a' : Str} {ts ts' : List Token} {e e' : Token}
    {rs l l' : List Rule} {d : Rule} (ht : Tokenizes U k a clMode ts e) (hd : IsDoc ts rs) (ht' : Tokenizes U k a' clMode ts' e') (hd' : IsDoc ts' (l ++ d :: l'))
    (hp : rs.Perm (l ++ d :: l')) (hnd : (rs.map Rule.name).Nodup) (hdoc : d.name = bytes "doc") (hearly : ∀ r ∈ l ++ [d], bytes "doc" ∉ r.body.refs)
    {f : Nat} {ret : CompileRet B} (h : Compiler.cl ⟨a, mk, mode⟩ U f k = some (.ok ret)) (hbang : ∀ n g, Def ret.tab n g → g ≠ .nil) :
    ∃ f' ret', Compiler.cl ⟨a', mk, mode⟩ U f' k = some (.ok ret') := by
  have href := C43_defined _ hk ht hd h
  rcases cl_result hk ht hd h with ⟨T, ho, he⟩ | ⟨p, he⟩
  case inr => cases he
  obtain ⟨root, h1, h2, h3⟩ := clFinish_ok he.symm
  subst h3
  have hv : ∀ v ∈ T.vars, v.2 ≠ none := h2
  have hb := doc_bodies ⟨rfl, rfl⟩ ho hv hnd hbang
  exact compiles_of hmk hk ht' hd' (fun r hr => hb r (hp.mem_iff.mpr hr)) ((hp.map _).nodup_iff.mp hnd) (fun r hr n hn hn1 => by
    obtain ⟨r', hr', e⟩ := href r (hp.mem_iff.mpr hr) n hn hn1
    exact ⟨r', hp.mem_iff.mp hr', e⟩) hdoc hearly

/-! ### Where the order does matter -/

/-- C126 is violated for a rule named `true`: a reference before the rule is the grammar that matches
nothing, a reference after it is the rule. -/
theorem C126_violated_true : acceptsWith (scannerOf (compiled "doc = true; true = INT;")) (compiled "doc = true; true = INT;") "" = true ∧
    acceptsWith (scannerOf (compiled "true = INT; doc = true;")) (compiled "true = INT; doc = true;") "" = false ∧
    ClRes.isOk (compiled "true = INT; doc = true;") = true := by decide +kernel

/-- C126 is violated for a text that refers to `doc` before the rule: it does not compile. -/
theorem C126_violated_doc : ClRes.isOk (compiled "doc = INT; x = doc;") = true ∧ ClRes.isOk (compiled "x = doc; doc = INT;") = false := by decide +kernel

/-- C126 is violated for a rule that is a lone `!`: it has to stand before the references to it. -/
theorem C126_violated_bang : ClRes.isOk (compiled "y = !; doc = y;") = true ∧ ClRes.isOk (compiled "doc = y; y = !;") = false := by decide +kernel

/-! ### Examples -/

def docRule : Rule := ⟨bytes "doc", .one (.term (.ident (bytes "num")) (.list (.char (bytes "','")) .nil)) .nil⟩
def numRule : Rule := ⟨bytes "num", .alt (.term (.ident (bytes "INT")) .nil) .nil (.one (.term (.string (bytes "\"nil\"")) .nil) .nil)⟩
def docToks (i : Nat) : List Token := [⟨IDENT, i, bytes "doc"⟩, ⟨ASSIGN, i + 4, []⟩, ⟨IDENT, i + 6, bytes "num"⟩, ⟨REM, i + 10, []⟩, ⟨CHAR, i + 12, bytes "','"⟩, ⟨SEMICOLON, i + 15, [59]⟩]
def nilToks (i : Nat) : List Token := [⟨IDENT, i, bytes "num"⟩, ⟨ASSIGN, i + 4, []⟩, ⟨IDENT, i + 6, bytes "INT"⟩, ⟨OR, i + 10, []⟩, ⟨STRING, i + 12, bytes "\"nil\""⟩, ⟨SEMICOLON, i + 17, [59]⟩]

theorem docFirst : (∃ e, Tokenizes ascii KwScanner.zero (bytes "doc = num % ','; num = INT | \"nil\";") clMode (docToks 0 ++ nilToks 17) e) ∧
    IsDoc (docToks 0 ++ nilToks 17) [docRule, numRule] := ⟨(tokenizes_iff (.refl _)).mp (by decide +kernel), by simp, by decide +kernel⟩
theorem numFirst : (∃ e, Tokenizes ascii KwScanner.zero (bytes "num = INT | \"nil\"; doc = num % ',';") clMode (nilToks 0 ++ docToks 19) e) ∧
    IsDoc (nilToks 0 ++ docToks 19) [numRule, docRule] := ⟨(tokenizes_iff (.refl _)).mp (by decide +kernel), by simp, by decide +kernel⟩

/-- Two texts with the same rules; both compile. -/
example : Reordered ascii KwScanner.zero (bytes "doc = num % ','; num = INT | \"nil\";") (bytes "num = INT | \"nil\"; doc = num % ',';") := by
  obtain ⟨⟨e, h1⟩, h2⟩ := docFirst
  obtain ⟨⟨e', h1'⟩, h2'⟩ := numFirst
  exact ⟨_, e, _, e', _, _, h1, h2, h1', h2', .swap .., by decide, by simp; decide⟩
example : ClRes.isOk (compiled "doc = num % ','; num = INT | \"nil\";") = true ∧ ClRes.isOk (compiled "num = INT | \"nil\"; doc = num % ',';") = true := by decide +kernel

/-- What `C126_compiles_partial` asks of the rules. -/
example : docRule.name = bytes "doc" ∧ ∀ r ∈ [numRule] ++ [docRule], bytes "doc" ∉ r.body.refs := by
  constructor
  · rfl
  · simp; decide

def isBang : Gr B → Bool
  | .nil => true
  | _ => false

theorem no_bang {t : Tab B} (h : t.grammars.all (fun p => !isBang p.2) = true) (h' : t.vars.all (fun p => !(p.2.map isBang).getD false) = true) :
    ∀ n g, Def t n g → g ≠ .nil := by
  rintro n g (hg | ⟨v, hg⟩) rfl
  · have := List.all_eq_true.mp h (n, .nil) (by obtain ⟨l1, l2, h1, _⟩ := List.lookup_eq_some_iff.mp hg; rw [h1]; simp)
    cases this
  · have := List.all_eq_true.mp h' _ (List.mem_of_getElem? hg)
    cases this

example : (match compiled "doc = num % ','; num = INT | \"nil\";" with
    | some (.ok ret) => ret.tab.grammars.all (fun p => !isBang p.2) && ret.tab.vars.all (fun p => !(p.2.map isBang).getD false)
    | _ => false) = true := by decide +kernel

/-- Both accept `1, nil`, and neither accepts `1, x`. -/
example : let a := compiled "doc = num % ','; num = INT | \"nil\";"
    let a' := compiled "num = INT | \"nil\"; doc = num % ',';"
    acceptsWith (scannerOf a) a "1, nil" = true ∧ acceptsWith (scannerOf a') a' "1, nil" = true ∧
    acceptsWith (scannerOf a) a "1, x" = false ∧ acceptsWith (scannerOf a') a' "1, x" = false := by decide +kernel

/-- A marker that makes an action of a mark, and actions that look at the text. -/
example : Uniform (B := Str) fun g mark => .ok (.action mark g) := fun n => .inr (.inl ⟨n, fun _ => rfl⟩)
example : TextOnly noCalls := fun _ _ _ _ _ _ _ _ => rfl

end Tpl.Props
