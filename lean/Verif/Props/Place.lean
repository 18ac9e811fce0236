import Verif.Proof.Place
import Verif.Props.Share
import Verif.Props.Layout

/-! C115: results depend on the tokens, not on where they stand. -/
namespace Tpl.Props
open Tpl Tpl.Spec KwScanner Scanner
variable {A B σ V P F W Q : Type} {U : Uni} {k : KwScanner}

/-! ### Matching -/

/-- C115: a matcher whose callbacks do not look at positions answers the same for two texts with the
same tokens: success, errors and panics with the same calls of the callbacks; only the errors and
panic values themselves may differ (they have positions). -/
theorem C115_matches (m : Matcher A σ V P) (hm : PlaceBlind m.sem) (hk : Steps U KwScanner.zero k) {src src' : Str}
    (h : SameText U k m.mode src src') (fuel : Nat) (s : St σ) :
    SameAns (m.matchExactly U fuel k src s).1 (m.matchExactly U fuel k src' s).1 :=
  exactly_place m hm hk h fuel s

/-! ### Extractors -/

theorem extractor_blind (getValue : Str → Str → Except Q W) : PlaceBlind (Extractor.sem getValue) := by
  refine ⟨fun f m m' a g ts ts' s _ h => ?_, fun a v e e' s => .ok⟩
  have : s.u.leaf getValue a ts = s.u.leaf getValue a ts' := by
    cases ts with
    | nil => rw [kl_nil h]
    | cons t us =>
      obtain ⟨t', us', rfl, h1, _⟩ := kl_cons h
      unfold Extractor.XEng.leaf
      dsimp only
      rw [kindLit_lit h1]
  simp only [Extractor.sem, this]
  cases s.u.leaf getValue a ts' with
  | error p => exact .panic
  | ok u => exact .ok

/-- C115: an extractor gives the same document for two texts with the same tokens. -/
theorem C115_extractor (getValue : Str → Str → Except Q W) (r : CompileRet Extractor.Mark) (hk : Steps U KwScanner.zero k) {src src' : Str}
    (h : SameText U k r.mode src src') (s : St (Extractor.XEng W)) (m : Extractor.DMap W) :
    (∃ fuel s', Extractor.parse getValue r U fuel k src s = some (.ok m s')) ↔
      ∃ fuel s', Extractor.parse getValue r U fuel k src' s = some (.ok m s') := by
  have key := fun fuel => C115_matches (Extractor.matcher getValue r) (extractor_blind getValue) hk h fuel s
  have e : ∀ fuel, (∃ s', Extractor.parse getValue r U fuel k src s = some (.ok m s')) ↔
      ∃ s', Extractor.parse getValue r U fuel k src' s = some (.ok m s') := by
    intro fuel
    have := key fuel
    unfold Extractor.parse
    generalize ((Extractor.matcher getValue r).matchExactly U fuel k src s).1 = x at this
    generalize ((Extractor.matcher getValue r).matchExactly U fuel k src' s).1 = x' at this
    cases this with
    | none => exact Iff.rfl
    | ok => exact Iff.rfl
    | err => constructor <;> rintro ⟨_, h⟩ <;> cases h
    | panic => constructor <;> rintro ⟨_, h⟩ <;> cases h
  exact exists_congr e

/-! ### Calculators -/

/-- C115: a calculator computes the same value, or fails with the same cause, for two texts with the
same tokens (that are an expression). -/
theorem C115_value {C : Calc V F} {text : Str} (hp : IsPackage C text) {mode : Mode} {fuel0 : Nat} {r : CompileRet Str}
    (hr : C.client.new text mode U fuel0 = some (.ok r)) (s : St (Calc.Eng V)) (hk : Steps U KwScanner.zero s.u.scanner)
    {src src' : Str} {toks toks' : List Token} {eof eof' : Token} (ht : Tokenizes U s.u.scanner src mode toks eof)
    (ht' : Tokenizes U s.u.scanner src' mode toks' eof') (hs : toks.map kindLit = toks'.map kindLit)
    {e : Ex} (he : Reads C 0 toks e) (hn : Calc.Counts C toks.length) :
    ∃ o, Computes C r U src s o ∧ Computes C r U src' s o := by
  obtain ⟨e', he', hv⟩ := reads_place he toks' hs
  have hl : toks.length = toks'.length := by simpa using congrArg List.length hs
  refine ⟨e.eval C, computes hp hr s hk ht he hn, ?_⟩
  rw [← hv]
  exact computes hp hr s hk ht' he' (hl ▸ hn)

/-- C115: and one of them is accepted iff the other is. -/
theorem C115_expression {C : Calc V F} {s : KwScanner} {mode : Mode} {src src' : Str} (h : SameText U s mode src src') (hk : Steps U KwScanner.zero s) :
    (∃ toks eof e, Tokenizes U s src mode toks eof ∧ Reads C 0 toks e) ↔ ∃ toks eof e, Tokenizes U s src' mode toks eof ∧ Reads C 0 toks e := by
  obtain ⟨ts, eof, ts', eof', h1, h2, h3⟩ := h
  have uniq : ∀ {src ts eof us eof'}, Tokenizes U s src mode ts eof → Tokenizes U s src mode us eof' → us = ts := by
    intro src ts eof us eof' h h'
    have e1 := (tokenizes_ok hk h).1
    rw [(tokenizes_ok hk h').1] at e1
    injection e1
  constructor
  · rintro ⟨us, _, e, hu, he⟩
    obtain rfl := uniq h1 hu
    obtain ⟨e', he', _⟩ := reads_place he ts' h3
    exact ⟨ts', eof', e', h2, he'⟩
  · rintro ⟨us, _, e, hu, he⟩
    obtain rfl := uniq h2 hu
    obtain ⟨e', he', _⟩ := reads_place he ts h3.symm
    exact ⟨ts, eof, e', h1, he'⟩

/-! ### Grammar texts -/

theorem clStart_at (k : KwScanner) (src src' : Str) : clStart B U k src' = (clStart B U k src).at_ (k.tokenize U src' clMode).2 := by
  rw [clStart_eq, clStart_eq]
  unfold Tab.at_
  dsimp only
  rw [← tokenize_at]

/-- C115: two grammar texts with the same tokens compile to the same grammar: the same root, rules,
variables and keywords.  (The literals of semicolons, `;` or a newline, need not be the same.) -/
theorem C115_grammar (mk : Marker B) (mode : Mode) (hk : Steps U KwScanner.zero k) {g g' : Str} {ts ts' : List Token} {eof eof' : Token}
    (ht : Tokenizes U k g clMode ts eof) (ht' : Tokenizes U k g' clMode ts' eof') (hs : ts.map key = ts'.map key)
    {f : Nat} {ret : CompileRet B} (h : Compiler.cl ⟨g, mk, mode⟩ U f k = some (.ok ret)) :
    ∃ f' ret', Compiler.cl ⟨g', mk, mode⟩ U f' k = some (.ok ret') ∧ ret'.root = ret.root ∧ ret'.mode = ret.mode ∧
      ret'.tab.grammars = ret.tab.grammars ∧ ret'.tab.vars = ret.tab.vars ∧ ret'.tab.cells = ret.tab.cells ∧
      ret'.tab.scanner.tokens = ret.tab.scanner.tokens ∧ ret'.tab.scanner.keywords = ret.tab.scanner.keywords := by
  obtain ⟨us, _, rs, T, root, htk, hd, ho, hr, hv, rfl⟩ := (C40_compiles _ hk ret).mp ⟨f, h⟩
  have e1 := (tokenizes_ok hk htk).1
  rw [(tokenizes_ok hk ht).1] at e1
  injection e1 with e1
  subst e1
  have hd' : IsDoc ts' rs := ⟨hd.1, hs ▸ hd.2⟩
  change denDoc mk rs (clStart B U k g) = _ at ho
  have ho' : denDoc mk rs (clStart B U k g') = .ok (T.at_ (k.tokenize U g' clMode).2) := by
    rw [clStart_at, denDoc_at, ho]; rfl
  obtain ⟨f', h'⟩ := (C40_compiles ⟨g', mk, mode⟩ hk ⟨root, T.at_ (k.tokenize U g' clMode).2, mode⟩).mpr ⟨ts', eof', rs, _, root, ht', hd', ho', hr, hv, rfl⟩
  exact ⟨f', _, h', rfl, rfl, rfl, rfl, rfl, rfl, rfl⟩

/-- C115: the grammars of two such texts match alike, with whatever callbacks. -/
theorem C115_grammar_matches (mk : Marker B) (mode : Mode) (hk : Steps U KwScanner.zero k) (hb : k.sc.bad = false) {g g' : Str} {ts ts' : List Token}
    {eof eof' : Token} (ht : Tokenizes U k g clMode ts eof) (ht' : Tokenizes U k g' clMode ts' eof') (hs : ts.map key = ts'.map key)
    {f f' : Nat} {ret ret' : CompileRet B} (h : Compiler.cl ⟨g, mk, mode⟩ U f k = some (.ok ret)) (h' : Compiler.cl ⟨g', mk, mode⟩ U f' k = some (.ok ret'))
    (sem : Sem B σ V P) (init : St σ → Cb B σ P Unit) (fuel : Nat) (src : Str) (s : St σ) :
    ((⟨ret'.root, ret'.mode, init, ret'.env, sem⟩ : Matcher B σ V P).matchExactly U fuel ret'.tab.scanner src s).1 =
      ((⟨ret.root, ret.mode, init, ret.env, sem⟩ : Matcher B σ V P).matchExactly U fuel ret.tab.scanner src s).1 := by
  obtain ⟨f2, ret2, h2, h3, h4, _, h5, _, _, h6⟩ := C115_grammar mk mode hk ht ht' hs h
  have := cl_unique h' h2
  cases this
  have hb1 := (cl_scanner _ hk hb h).1
  have hb2 := (cl_scanner _ hk hb h').1
  have henv : ret'.env = ret.env := by unfold CompileRet.env Tab.env; rw [h5]
  rw [h3, h4, henv]
  have htk : (ret'.tab.scanner.tokenize U src ret.mode).1 = (ret.tab.scanner.tokenize U src ret.mode).1 :=
    tokenize_agree hb1 hb2 fun w _ => by rw [h6]
  generalize hm : (⟨ret.root, ret.mode, init, ret.env, sem⟩ : Matcher B σ V P) = m
  have hmode : m.mode = ret.mode := by rw [← hm]
  by_cases hg : m.grammar = .nil
  · unfold Matcher.matchExactly Matcher.match_
    rw [hg]
  · have e := match_eq m hg U fuel ret'.tab.scanner src s
    rw [hmode, htk, ← hmode, ← match_eq m hg U fuel ret.tab.scanner src s] at e
    unfold Matcher.matchExactly
    generalize m.match_ U fuel ret'.tab.scanner src s = x at e
    generalize m.match_ U fuel ret.tab.scanner src s = y at e
    obtain ⟨x, kx⟩ := x
    obtain ⟨y, ky⟩ := y
    dsimp only at e ⊢
    rw [e]

/-! ### Layout -/

theorem laidOut_kindLit {nl : Bool} {o : Nat} {ts ts' : List Token} {txt : Str} (h : LaidOut nl o ts txt ts') : ts.map kindLit = ts'.map kindLit := by
  induction h with
  | nil => rfl
  | cons _ _ _ ih => rw [List.map_cons, List.map_cons, ih]; rfl

theorem kindLit_key {ts ts' : List Token} (h : ts.map kindLit = ts'.map kindLit) : ts.map key = ts'.map key := by
  induction ts generalizing ts' with
  | nil => rw [kl_nil h]
  | cons t ts ih =>
    obtain ⟨t', us, rfl, h1, h2⟩ := kl_cons h
    rw [List.map_cons, List.map_cons, ih h2]
    unfold key
    rw [kindLit_kind h1, kindLit_lit h1]

theorem keywords_large (hk : Steps U KwScanner.zero k) : ∀ w n, k.keywords.get w = some n → 0xb0 ≤ n := by
  intro w n h
  obtain ⟨i, lit, rfl, _, _⟩ := (hk.inv zero_inv).1.get w n h
  unfold userTokenBegin
  omega

theorem tokenizes_raw (hk : Steps U KwScanner.zero k) {src : Str} {mode : Mode} {ts : List Token} {eof : Token} (ht : Tokenizes U k src mode ts eof) :
    ∃ s', tokenize U k.keywords.get k.sc src mode = (ts, none, s') := by
  have h1 := (tokenizes_ok hk ht).1
  rw [(tokenize_kw U k src mode).1] at h1
  generalize tokenize U k.keywords.get k.sc src mode = x at h1 ⊢
  obtain ⟨x, y, z⟩ := x
  injection h1 with h3 h4
  dsimp only at h3 h4
  rw [h3, h4]
  exact ⟨z, rfl⟩

theorem raw_tokenizes (hk : Steps U KwScanner.zero k) {src : Str} {mode : Mode} {ts : List Token} {s' : Scanner}
    (h : tokenize U k.keywords.get k.sc src mode = (ts, none, s')) : ∃ eof, Tokenizes U k src mode ts eof :=
  (tokenizes_iff hk).mp (by rw [(tokenize_kw U k src mode).1, h])

/-- C115: a text and the same tokens laid out in another way, without InsertSemis. -/
theorem C115_layout (hk : Steps U KwScanner.zero k) {src : Str} {ts : List Token} {eof : Token} (ht : Tokenizes U k src ⟨false, false⟩ ts eof)
    {w txt : Str} {ts' : List Token} (hw : ∀ b ∈ w, b = 32 ∨ b = 9 ∨ b = 13 ∨ b = 10) (hl : LaidOut true w.length ts txt ts') :
    SameText U k ⟨false, false⟩ src (w ++ txt) := by
  obtain ⟨s1, h1⟩ := tokenizes_raw hk ht
  obtain ⟨s2, h2⟩ := C114_laid_out k.keywords.get (keywords_large hk) k.sc h1 hw hl
  obtain ⟨eof', ht'⟩ := raw_tokenizes hk h2
  exact ⟨ts, eof, ts', eof', ht, ht', laidOut_kindLit hl⟩

/-- A document ends with a semicolon. -/
theorem doc_last {ts : List Token} {rs : List Rule} (h : IsDoc ts rs) : ∀ t ∈ ts.getLast?, t.kind = SEMICOLON := by
  obtain ⟨h0, h1⟩ := h
  intro t ht
  have h2 : (ts.map key).getLast? = some (opr 59) := by
    rw [h1, ← List.dropLast_append_getLast h0]
    simp only [flatDoc, List.map_append, List.map_cons, List.map_nil, List.flatten_append, List.flatten_cons, List.flatten_nil, List.append_nil, Rule.flat]
    rw [show ∀ (a b : List (Nat × Str)) x y z, a ++ x :: y :: (b ++ [z]) = (a ++ x :: y :: b) ++ [z] by intros; simp]
    rw [List.getLast?_append]
    rfl
  rw [List.getLast?_map, Option.mem_def.mp ht] at h2
  injection h2 with h2
  exact congrArg Prod.fst h2

/-- C115: a grammar text that compiles, laid out in another way, compiles to the same grammar. -/
theorem C115_grammar_layout (mk : Marker B) (mode : Mode) (hk : Steps U KwScanner.zero k) {g : Str} {f : Nat} {ret : CompileRet B}
    (h : Compiler.cl ⟨g, mk, mode⟩ U f k = some (.ok ret)) {ts : List Token} {eof : Token} (ht : Tokenizes U k g clMode ts eof)
    {w txt : Str} {ts' : List Token} (hw : ∀ b ∈ w, b = 32 ∨ b = 9 ∨ b = 13 ∨ b = 10) (hl : LaidOut false w.length ts txt ts') :
    ∃ f' ret', Compiler.cl ⟨w ++ txt, mk, mode⟩ U f' k = some (.ok ret') ∧ ret'.root = ret.root ∧ ret'.env = ret.env ∧
      ret'.tab.grammars = ret.tab.grammars ∧ ret'.tab.scanner.keywords = ret.tab.scanner.keywords := by
  obtain ⟨us, _, rs, T, root, htk, hd, _⟩ := (C40_compiles _ hk ret).mp ⟨f, h⟩
  have e1 := (tokenizes_ok hk htk).1
  rw [(tokenizes_ok hk ht).1] at e1
  injection e1 with e1
  subst e1
  obtain ⟨s1, h1⟩ := tokenizes_raw hk ht
  obtain ⟨s2, h2⟩ := C114_semis_partial k.keywords.get (keywords_large hk) k.sc h1 (doc_last hd) hw hl
  obtain ⟨eof', ht'⟩ := raw_tokenizes hk h2
  obtain ⟨f', ret', h3, h4, _, h5, h6, _, _, h7⟩ := C115_grammar mk mode hk ht ht' (kindLit_key (laidOut_kindLit hl)) h
  exact ⟨f', ret', h3, h4, by unfold CompileRet.env Tab.env; rw [h6], h5, h7⟩

/-! ### Instances -/

theorem readsAs_same {src src' : Str} {mode : Mode} (h : readsAs src mode = readsAs src' mode) (h0 : (readsAs src mode).2 = true) :
    SameText ascii KwScanner.zero mode src src' := by
  have h0' : (readsAs src' mode).2 = true := h ▸ h0
  have part : ∀ {src}, (readsAs src mode).2 = true → ∃ ts eof, Tokenizes ascii KwScanner.zero src mode ts eof ∧ ts.map kindLit = (readsAs src mode).1 := by
    intro src h0
    unfold readsAs at h0 ⊢
    dsimp only at h0 ⊢
    generalize hx : tokenize ascii noKw Scanner.zero src mode = x at h0 ⊢
    obtain ⟨ts, e, s'⟩ := x
    cases e with
    | some e => cases h0
    | none =>
      obtain ⟨eof, ht⟩ := raw_tokenizes (k := KwScanner.zero) (.refl _) hx
      exact ⟨ts, eof, ht, rfl⟩
  obtain ⟨ts, eof, h1, h2⟩ := part h0
  obtain ⟨ts', eof', h3, h4⟩ := part h0'
  exact ⟨ts, eof, ts', eof', h1, h3, by rw [h2, h4, h]⟩

/-- Two texts with the same tokens, for the calculator. -/
example : SameText ascii KwScanner.zero ⟨false, false⟩ (bytes "1+max(2,3)*4") (bytes " 1 + max( 2,\n  3 ) * 4 # value") :=
  readsAs_same (by decide +kernel) (by decide +kernel)

/-- Two grammar texts with the same tokens. -/
example : SameText ascii KwScanner.zero clMode (bytes "doc=*(INT|name);name=IDENT;") (bytes "doc = *( INT | // numbers\n  name ) ;\n\nname = /* word */ IDENT;\n") :=
  readsAs_same (by decide +kernel) (by decide +kernel)

/-- And both compile. -/
example : ClRes.isOk (compiled "doc=*(INT|name);name=IDENT;") = true ∧ ClRes.isOk (compiled "doc = *( INT | // numbers\n  name ) ;\n\nname = /* word */ IDENT;\n") = true := by decide +kernel

/-- Callbacks that look at positions are told apart: those that store the position of the first token. -/
example : ¬ PlaceBlind (A := Unit) (σ := Nat) (V := Unit) (P := Empty)
    ⟨fun _ _ _ _ ts s => some (.ok () { s with u := (ts.map (·.pos)).sum }), fun _ s => .ok () s, fun _ _ _ s => .ok () s, fun _ _ _ _ _ _ _ _ _ _ _ h => h⟩ := by
  intro h
  have := h.act 0 (fun _ _ _ => none) (fun _ _ _ => none) () .nil [⟨INT, 0, [49]⟩] [⟨INT, 1, [49]⟩] ⟨fun _ => 0, 0⟩ (fun _ _ _ _ _ => .none) rfl
  cases this

end Tpl.Props
