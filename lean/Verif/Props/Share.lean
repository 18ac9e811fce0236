import Verif.Proof.ShareTok
import Verif.Props.Reads

/-! Property C112: grammars that share a scanner. -/
namespace Tpl.Props
open Tpl Tpl.Spec KwScanner Scanner
variable {A B σ V P : Type} {U : Uni} {k : KwScanner}

/-! ### The keywords of a grammar text -/

theorem zero_bad : Scanner.zero.bad = false := rfl

theorem doc_strings (hk : Steps U KwScanner.zero k) {src : Str} {ts : List Token} {eof : Token} (ht : Tokenizes U k src clMode ts eof)
    {rs : List Rule} (hd : IsDoc ts rs) : OnlyStrings (flatDoc rs) := by
  intro p hp hpk
  rw [← hd.2] at hp
  obtain ⟨t, htm, rfl⟩ := List.mem_map.mp hp
  obtain ⟨h1, _, h3⟩ := tokenizes_words hk ht t htm
  have hkind : t.kind = IDENT ∨ t.kind = CHAR := hpk
  have hlit : (key t).2 = t.lit := by
    unfold key
    dsimp only
    rw [if_pos]
    rcases hkind with h | h <;> simp [h]
  rw [hlit]
  rcases hkind with h | h
  · have := (h1 h).letter
    intro e
    cases hl : t.lit with
    | nil => rw [hl] at e; cases e
    | cons c l =>
      rw [hl] at e this
      obtain rfl : c = 34 := by simpa using e
      rw [headRune_cons (by decide)] at this
      revert this
      simp only [Letter]
      intro h
      rcases h with h | h | h | h
      · exact absurd h.1 (by decide)
      · exact absurd h.1 (by decide)
      · exact absurd h (by decide)
      · exact absurd h.1 (by decide)
  · rw [h3 h]; decide

/-- The words in quotes. -/
theorem doc_quoted (hk : Steps U KwScanner.zero k) (hb : k.sc.bad = false) {src : Str} {ts : List Token} {eof : Token}
    (ht : Tokenizes U k src clMode ts eof) {rs : List Rule} (hd : IsDoc ts rs) (w : Str) :
    (∃ l, (STRING, l) ∈ flatDoc rs ∧ MakesWord l w) ↔ QuotedIn U src w ∧ Lit2Token (34 :: (w ++ [34])) = ILLEGAL := by
  have hkw := tokenizes_words hk ht
  obtain ⟨full, s', hr, he, hf⟩ := ht
  rw [← kwTok_spec] at hf
  have hz : Scanner.init k.sc src clMode = Scanner.init Scanner.zero src ⟨false, true⟩ := Scanner.init_reset _ _ (hb.trans zero_bad.symm) _ _
  rw [← hd.2]
  constructor
  · rintro ⟨l, hl, h1, h2, h3⟩
    obtain ⟨t, htm, hkey⟩ := List.mem_map.mp hl
    have hkd : t.kind = STRING := congrArg Prod.fst hkey
    have hlit : t.lit = l := by
      have := congrArg Prod.snd hkey
      unfold key at this
      dsimp only at this
      rw [if_pos (by simp [hkd])] at this
      exact this
    rcases (hkw t htm).2.1 hkd with ⟨_, b, hb', _⟩ | h96
    · rw [hlit] at hb'
      subst hb'
      obtain rfl : b = w := by simpa using h3
      refine ⟨?_, h2⟩
      have hm : t ∈ full.map (kwTok k.keywords.get) := by rw [← hf]; simp [htm]
      obtain ⟨u, hu, rfl⟩ := List.mem_map.mp hm
      have huk : u.kind = STRING := by
        unfold kwTok at hkd
        split at hkd
        · rename_i hid
          cases hg : k.keywords.get u.lit with
          | none => rw [hg] at hkd; exact hkd
          | some a =>
            rw [hg] at hkd
            have := kw_ge hk _ _ hg
            have : a = STRING := hkd
            unfold STRING at this
            omega
        · exact hkd
      have hul : (kwTok k.keywords.get u).lit = u.lit := by
        unfold kwTok
        rw [if_neg (by rw [huk]; decide)]
      exact ⟨full, s', u, hz ▸ hr, hu, huk, by rw [← hul, hlit]⟩
    · rw [hlit, h1] at h96
      cases h96
  · rintro ⟨⟨full', s'', t, hr', hm, hkd, hlit⟩, h2⟩
    rw [← hz] at hr'
    obtain ⟨rfl, rfl⟩ := hr.functional hr'
    have ht' : kwTok k.keywords.get t = t := by
      unfold kwTok
      rw [if_neg (by rw [hkd]; decide)]
    have hm' : t ∈ ts ++ [eof] := by
      rw [hf]
      exact List.mem_map.mpr ⟨t, hm, ht'⟩
    have hts : t ∈ ts := by
      rcases List.mem_append.mp hm' with h | h
      · exact h
      · exfalso
        obtain rfl : t = eof := by simpa using h
        obtain ⟨u, hu, huk, _⟩ := C07_eof_sticky U k.sc s' src clMode full hr
        have hl := congrArg List.getLast? hf
        rw [List.getLast?_append, List.getLast?_map, hu] at hl
        have hl : t = kwTok k.keywords.get u := by simpa using hl
        have : kwTok k.keywords.get u = u := by
          unfold kwTok
          rw [if_neg (by rw [huk]; decide)]
        rw [this] at hl
        rw [hl, huk] at hkd
        exact absurd hkd (by decide)
    refine ⟨t.lit, List.mem_map.mpr ⟨t, hts, ?_⟩, ?_⟩
    · unfold key
      rw [if_pos (by simp [hkd]), hkd]
    · rw [hlit]
      exact ⟨rfl, h2, by simp⟩

/-- What compiling does to the scanner. -/
theorem cl_scanner (c : Compiler B) (hk : Steps U KwScanner.zero k) (hb : k.sc.bad = false) {f : Nat} {ret : CompileRet B} (h : c.cl U f k = some (.ok ret)) :
    ret.tab.scanner.sc.bad = false ∧ Grows k ret.tab.scanner ∧
    ∀ w, ret.tab.scanner.keywords.get w ≠ none ↔ k.keywords.get w ≠ none ∨ (QuotedIn U c.grammar w ∧ Lit2Token (34 :: (w ++ [34])) = ILLEGAL) := by
  obtain ⟨ts, eof, rs, T, root, htk, hd, ho, _, _, rfl⟩ := (C40_compiles c hk ret).mp ⟨f, h⟩
  have hn := denDoc_new rs (doc_strings hk htk hd) ho
  obtain ⟨h1, h2⟩ := tokenize_keeps U k c.grammar clMode hb
  refine ⟨by rw [hn.sc]; exact h2, fun w a e => hn.grows w a (by show KwMap.get _ w = _; rw [h1]; exact e), fun w => ?_⟩
  show T.scanner.keywords.get w ≠ none ↔ _
  rw [hn.words, doc_quoted hk hb htk hd]
  show (k.tokenize U c.grammar clMode).2.keywords.get w ≠ none ∨ _ ↔ _
  rw [h1]

/-- C112: compiling a grammar with a scanner adds the words the text has in double quotes (unless
they are operators) to its keywords, and the old keywords keep their kinds. -/
theorem C112_keywords (c : Compiler B) (hk : Steps U KwScanner.zero k) (hb : k.sc.bad = false) {f : Nat} {ret : CompileRet B} (h : c.cl U f k = some (.ok ret)) :
    (∀ w a, k.keywords.get w = some a → ret.tab.scanner.keywords.get w = some a) ∧
    ∀ w, ret.tab.scanner.keywords.get w ≠ none ↔ k.keywords.get w ≠ none ∨ (QuotedIn U c.grammar w ∧ Lit2Token (34 :: (w ++ [34])) = ILLEGAL) :=
  (cl_scanner c hk hb h).2

/-! ### The grammar compiled first -/

theorem tokRel_eq : TokRel Eq := ⟨fun _ _ => rfl, fun _ _ e => e ▸ Iff.rfl⟩

theorem sameToks_eq {ts ts' : List Token} (h : SameToks Eq Eq ts ts') : ts = ts' := by
  induction h with
  | nil => rfl
  | cons h1 h2 _ ih => rw [h1, h2, ih]

/-- Two scanners that agree about the identifiers of the text give the same tokens. -/
theorem tokenize_agree {k k' : KwScanner} (hb : k.sc.bad = false) (hb' : k'.sc.bad = false) {src : Str} {mode : Mode}
    (h : ∀ w, IdentIn U src mode w → k'.keywords.get w = k.keywords.get w) : (k'.tokenize U src mode).1 = (k.tokenize U src mode).1 := by
  obtain ⟨h1, h2⟩ := tokenize_alike (U := U) tokRel_eq (hb'.trans hb.symm) (src := src) (mode := mode) (fun ts s' hr t ht hkd => by
    rw [Scanner.init_reset k'.sc Scanner.zero (hb'.trans zero_bad.symm)] at hr
    rw [h t.lit ⟨ts, s', t, hr, ht, hkd, rfl⟩]
    cases k.keywords.get t.lit with
    | none => exact .inl ⟨rfl, rfl⟩
    | some a => exact .inr ⟨a, a, rfl, rfl, rfl⟩)
  exact Prod.ext (sameToks_eq h1) h2

/-- C112: a matcher answers the same after another grammar has been compiled with its scanner,
for texts whose identifiers are no words the other grammar has made keywords. -/
theorem C112_first_partial (c : Compiler B) (hk : Steps U KwScanner.zero k) (hb : k.sc.bad = false) {f : Nat} {ret : CompileRet B}
    (h : c.cl U f k = some (.ok ret)) (m : Matcher A σ V P) (fuel : Nat) (src : Str) (s : St σ)
    (hn : ∀ w, IdentIn U src m.mode w → QuotedIn U c.grammar w → k.keywords.get w ≠ none) :
    (m.matchExactly U fuel ret.tab.scanner src s).1 = (m.matchExactly U fuel k src s).1 := by
  obtain ⟨h1, h2, h3⟩ := cl_scanner c hk hb h
  have ht := tokenize_agree (U := U) hb h1 (src := src) (mode := m.mode) fun w hw => by
    cases hg : k.keywords.get w with
    | some a => exact h2 w a hg
    | none =>
      refine Classical.byContradiction fun hne => ?_
      rcases (h3 w).mp hne with h4 | ⟨h4, _⟩
      · exact h4 hg
      · exact hn w hw h4 hg
  by_cases hg : m.grammar = .nil
  · unfold Matcher.matchExactly Matcher.match_
    rw [hg]
  · have e := match_eq m hg U fuel ret.tab.scanner src s
    rw [ht, ← match_eq m hg U fuel k src s] at e
    unfold Matcher.matchExactly
    generalize m.match_ U fuel ret.tab.scanner src s = x at e
    generalize m.match_ U fuel k src s = y at e
    obtain ⟨x, kx⟩ := x
    obtain ⟨y, ky⟩ := y
    dsimp only at e ⊢
    rw [e]

/-! ### The grammar compiled second -/

theorem clStart_eq (k : KwScanner) (src : Str) : clStart B U k src = ⟨[], [], 0, (k.tokenize U src clMode).2⟩ := rfl

/-- The tables start alike. -/
theorem start_same (hk : Steps U KwScanner.zero k) (hb : k.sc.bad = false) (src : Str) :
    TabSame k (clStart B U KwScanner.zero src) (clStart B U k src) := by
  have h1 := tokenize_keeps U KwScanner.zero src clMode zero_bad
  have h2 := tokenize_keeps U k src clMode hb
  have f1 := kinv_fine ((tokenize_steps (U := U) (.refl KwScanner.zero) src clMode).inv zero_inv).1 (tokenize_keywords _ _ _)
  have f2 := kinv_fine ((tokenize_steps hk src clMode).inv zero_inv).1 (tokenize_keywords _ _ _)
  rw [clStart_eq, clStart_eq]
  generalize (KwScanner.tokenize U KwScanner.zero src clMode).2 = u at *
  generalize (KwScanner.tokenize U k src clMode).2 = u' at *
  refine ⟨.nil, .nil, rfl, f1, f2, ?_, ?_⟩
  · intro w hw
    have hw : u.keywords.get w ≠ none := hw
    rw [h1.1] at hw
    exact absurd rfl hw
  · intro w hw
    have hw : u'.keywords.get w ≠ none := hw
    rw [h2.1] at hw
    exact .inl hw

/-- Tokens of a grammar text that has none of the keywords as identifiers. -/
theorem grammar_reads (hk : Steps U KwScanner.zero k) (hb : k.sc.bad = false) {src : Str}
    (hn : ∀ w, IdentIn U src clMode w → k.keywords.get w = none) (ts : List Token) :
    (∃ eof, Tokenizes U k src clMode ts eof) ↔ ∃ eof, Tokenizes U KwScanner.zero src clMode ts eof := by
  have h := tokenize_agree (U := U) hb (k' := KwScanner.zero) zero_bad (src := src) (mode := clMode) fun w hw => (hn w hw).symm ▸ rfl
  rw [← tokenizes_iff hk, ← tokenizes_iff (.refl _), h]

theorem shared_env {R : Nat → Nat → Prop} {t t' : Tab B} (h : All2 (VarSame R) t.vars t'.vars) (v : Nat) :
    (t.env v = none ∧ t'.env v = none) ∨ ∃ g g', t.env v = some g ∧ t'.env v = some g' ∧ SameGr R g g' := by
  unfold Tab.env
  generalize t.vars = as at h
  generalize t'.vars = bs at h
  induction h generalizing v with
  | nil => exact .inl ⟨rfl, rfl⟩
  | @cons a b as bs h1 _ ih =>
    cases v with
    | zero =>
      obtain ⟨_, x⟩ := a
      obtain ⟨_, x'⟩ := b
      exact h1.2
    | succ v => exact ih v

/-- Variables are assigned alike. -/
theorem shared_assigned {R : Nat → Nat → Prop} {as bs : List (Str × Option (Gr B))} (h : All2 (VarSame R) as bs) :
    (∀ v ∈ as, v.2 ≠ none) ↔ ∀ v ∈ bs, v.2 ≠ none := by
  induction h with
  | nil => simp
  | @cons a b as bs h1 _ ih =>
    have : a.2 = none ↔ b.2 = none := by
      rcases h1.2 with ⟨e, e'⟩ | ⟨g, g', e, e', _⟩ <;> rw [e, e'] <;> simp
    simp only [List.forall_mem_cons, ne_eq, this]
    rw [show (∀ v ∈ as, ¬ v.2 = none) ↔ ∀ v ∈ bs, ¬ v.2 = none from ih]

/-- C112: a grammar text none of whose identifiers is a keyword of the scanner compiles with it iff
it compiles with a new scanner. -/
theorem C112_second_compiles_partial (c : Compiler B) (hmk : BlindMarker c.marker) (hk : Steps U KwScanner.zero k) (hb : k.sc.bad = false)
    (hn : ∀ w, IdentIn U c.grammar clMode w → k.keywords.get w = none) :
    (∃ f ret, c.cl U f k = some (.ok ret)) ↔ ∃ f ret, c.cl U f KwScanner.zero = some (.ok ret) := by
  constructor
  · rintro ⟨f, ret, h⟩
    obtain ⟨ts, eof, rs, T, root, htk, hd, ho, hr, hv, _⟩ := (C40_compiles c hk ret).mp ⟨f, h⟩
    obtain ⟨eof', htk'⟩ := (grammar_reads hk hb hn ts).mp ⟨eof, htk⟩
    have hs := denDoc_same hmk rs (start_same (B := B) (U := U) hk hb c.grammar)
    change denDoc c.marker rs (clStart B U k c.grammar) = _ at ho
    rw [ho] at hs
    generalize hx : denDoc c.marker rs (clStart B U KwScanner.zero c.grammar) = x at hs
    cases hs with
    | @ok T0 _ hT _ _ =>
      rcases lookup_same hT.gr (bytes "doc") with ⟨_, e⟩ | ⟨g, g', e, e', _⟩
      · rw [hr] at e; cases e
      · obtain ⟨f', h'⟩ := (C40_compiles c (.refl _) ⟨g, T0, c.mode⟩).mpr ⟨ts, eof', rs, T0, g, htk', hd, hx, e, (shared_assigned hT.vars).mpr hv, rfl⟩
        exact ⟨f', _, h'⟩
  · rintro ⟨f, ret, h⟩
    obtain ⟨ts, eof, rs, T, root, htk, hd, ho, hr, hv, _⟩ := (C40_compiles c (.refl _) ret).mp ⟨f, h⟩
    obtain ⟨eof', htk'⟩ := (grammar_reads hk hb hn ts).mpr ⟨eof, htk⟩
    have hs := denDoc_same hmk rs (start_same (B := B) (U := U) hk hb c.grammar)
    change denDoc c.marker rs (clStart B U KwScanner.zero c.grammar) = _ at ho
    rw [ho] at hs
    generalize hx : denDoc c.marker rs (clStart B U k c.grammar) = x at hs
    cases hs with
    | @ok _ T0 hT _ _ =>
      rcases lookup_same hT.gr (bytes "doc") with ⟨e, _⟩ | ⟨g, g', e, e', _⟩
      · rw [hr] at e; cases e
      · obtain ⟨f', h'⟩ := (C40_compiles c hk ⟨g', T0, c.mode⟩).mpr ⟨ts, eof', rs, T0, g', htk', hd, hx, e', (shared_assigned hT.vars).mp hv, rfl⟩
        exact ⟨f', _, h'⟩

/-- C112: and then it matches the same texts with the same callbacks, where the keywords the scanner
had before are either words of the grammar as well or no identifiers of the text. -/
theorem C112_second_matches_partial (c : Compiler B) (hmk : BlindMarker c.marker) (hk : Steps U KwScanner.zero k) (hb : k.sc.bad = false)
    (hn : ∀ w, IdentIn U c.grammar clMode w → k.keywords.get w = none) {f f0 : Nat} {ret ret0 : CompileRet B}
    (h : c.cl U f k = some (.ok ret)) (h0 : c.cl U f0 KwScanner.zero = some (.ok ret0))
    (sem : Sem B σ V P) (hsem : BlindSem sem) (init : St σ → Cb B σ P Unit) (fuel : Nat) (src : Str) (s : St σ)
    (hsrc : ∀ w, IdentIn U src c.mode w → k.keywords.get w ≠ none → QuotedIn U c.grammar w) :
    SameAns ((⟨ret0.root, c.mode, init, ret0.env, sem⟩ : Matcher B σ V P).matchExactly U fuel ret0.tab.scanner src s).1
      ((⟨ret.root, c.mode, init, ret.env, sem⟩ : Matcher B σ V P).matchExactly U fuel ret.tab.scanner src s).1 := by
  have hsc := cl_scanner c hk hb h
  have hsc0 := cl_scanner c (.refl _) zero_bad h0
  have hword : ∀ w, k.keywords.get w ≠ none → Lit2Token (34 :: (w ++ [34])) = ILLEGAL := by
    intro w hw
    have hi := (hk.inv zero_inv).1
    cases hg : k.keywords.get w with
    | none => exact absurd hg hw
    | some a =>
      obtain ⟨i, lit, _, h2, h3⟩ := hi.get w a hg
      obtain ⟨⟨v, rfl⟩, h4⟩ := mem_of_lit hi h2
      rw [word_quoted] at h3
      subst h3
      exact h4
  obtain ⟨ts, eof, rs, T, root, htk, hd, ho, hr, hv, rfl⟩ := (C40_compiles c hk ret).mp ⟨f, h⟩
  obtain ⟨ts0, eof0, rs0, T0, root0, htk0, hd0, ho0, hr0, hv0, rfl⟩ := (C40_compiles c (.refl _) ret0).mp ⟨f0, h0⟩
  obtain ⟨eof', htk'⟩ := (grammar_reads hk hb hn ts).mp ⟨eof, htk⟩
  have ets : ts = ts0 := by
    have h1 := (tokenizes_ok (.refl _) htk').1
    rw [(tokenizes_ok (.refl _) htk0).1] at h1
    injection h1 with h1
    exact h1.symm
  subst ets
  obtain rfl := C40_unambiguous hd hd0
  have hs := denDoc_same hmk rs (start_same (B := B) (U := U) hk hb c.grammar)
  change denDoc c.marker rs (clStart B U k c.grammar) = _ at ho
  change denDoc c.marker rs (clStart B U KwScanner.zero c.grammar) = _ at ho0
  rw [ho, ho0] at hs
  cases hs with
  | ok hT _ _ =>
    rcases lookup_same hT.gr (bytes "doc") with ⟨_, e⟩ | ⟨g, g', e, e', hg⟩
    · rw [hr] at e; cases e
    · rw [hr] at e'
      rw [hr0] at e
      cases e
      cases e'
      have hR := kindRel hT.fine hT.fine'
      have hR' : TokRel (SameKind T0.scanner T.scanner) := by
        refine ⟨fun a ha => .inl ⟨rfl, ha⟩, ?_⟩
        rintro a b (⟨rfl, _⟩ | ⟨w, h1, h2⟩)
        · exact Iff.rfl
        · have := (hT.fine.range h1).1; have := (hT.fine'.range h2).1; unfold EOF; omega
      refine matchExactly_same hR' hR (hsc0.1.trans hsc.1.symm) hsem hg (shared_env hT.vars) ?_ init fuel s
      intro us s' hrun t ht hkd
      rw [Scanner.init_reset _ Scanner.zero (hsc0.1.trans zero_bad.symm)] at hrun
      have hid : IdentIn U src c.mode t.lit := ⟨us, s', t, hrun, ht, hkd, rfl⟩
      cases hg0 : T0.scanner.keywords.get t.lit with
      | some a =>
        cases hg1 : T.scanner.keywords.get t.lit with
        | some b => exact .inr ⟨a, b, rfl, rfl, .inr ⟨_, hg0, hg1⟩⟩
        | none => exact absurd hg1 (hT.sub _ (by rw [hg0]; simp))
      | none =>
        cases hg1 : T.scanner.keywords.get t.lit with
        | none => exact .inl ⟨rfl, rfl⟩
        | some b =>
          exfalso
          rcases hT.sup t.lit (by rw [hg1]; simp) with h1 | h1
          · exact (hsc0.2.2 t.lit).mpr (.inr ⟨hsrc _ hid h1, hword _ h1⟩) hg0
          · exact h1 hg0

/-! ### The code violates the property -/

/-- The scanner after `Cl`. -/
def scannerOf : Option (ClRes Nat) → KwScanner
  | some (.ok ret) => ret.tab.scanner
  | _ => KwScanner.zero

/-- `Cl` of a text with the scanner another text has been compiled with. -/
def compiledAfter (first second : String) : Option (ClRes Nat) := (compiler second).cl ascii 60 (scannerOf (compiled first))

/-- Whether the grammar compiled accepts the text, with the scanner given. -/
def acceptsWith (k : KwScanner) (r : Option (ClRes Nat)) (text : String) : Bool :=
  match r with
  | some (.ok ret) =>
    match ((⟨ret.root, ret.mode, fun s => .ok () s, ret.env, noCalls.sem⟩ : Matcher Nat Unit Unit Empty).matchExactly ascii 40 k (bytes text) st0).1 with
    | some (.ok _ _) => true
    | _ => false
  | _ => false

/-- C112 does not hold: a grammar no longer accepts a text after another grammar has been compiled
with its scanner. -/
theorem C112_violated_first :
    acceptsWith (scannerOf (compiled "doc = IDENT;")) (compiled "doc = IDENT;") "let" = true ∧
    acceptsWith (scannerOf (compiledAfter "doc = IDENT;" "doc = \"let\";")) (compiled "doc = IDENT;") "let" = false := by decide +kernel

/-- C112 does not hold: a grammar accepts less when it is compiled second. -/
theorem C112_violated_second :
    acceptsWith (scannerOf (compiled "doc = IDENT;")) (compiled "doc = IDENT;") "let" = true ∧
    acceptsWith (scannerOf (compiledAfter "doc = \"let\";" "doc = IDENT;")) (compiledAfter "doc = \"let\";" "doc = IDENT;") "let" = false := by decide +kernel

/-- C112 does not hold: a grammar text need not compile when its names are keywords of the scanner. -/
theorem C112_violated_compile :
    ClRes.isOk (compiled "doc = IDENT;") = true ∧ ClRes.isOk (compiledAfter "doc = \"doc\";" "doc = IDENT;") = false := by decide +kernel

/-! ### Instances -/

/-- The literals of the tokens of a kind, computed. -/
def litsOf (kind : Nat) (src : Str) (mode : Mode) : List Str := ((tokenize ascii noKw Scanner.zero src mode).1.filter fun t => t.kind == kind).map (·.lit)

theorem lits_mem {src : Str} {mode : Mode} {ts : List Token} {s' : Scanner} (hr : Run ascii (Scanner.init Scanner.zero src mode) ts s') {t : Token} (ht : t ∈ ts)
    (hk : t.kind ≠ EOF) (he : (tokenize ascii noKw Scanner.zero src mode).2.1 = none) : t.lit ∈ litsOf t.kind src mode := by
  obtain ⟨full, s'', hr', _, hf⟩ := tokenize_ok ascii noKw (fun _ _ e => by cases e) Scanner.zero src mode he
  obtain ⟨rfl, rfl⟩ := hr.functional hr'
  obtain ⟨u, hu, huk, _⟩ := C07_eof_sticky ascii Scanner.zero s' src mode ts hr
  have hd : t ∈ ts.dropLast := by
    rw [← List.dropLast_append_getLast? u hu] at ht
    rcases List.mem_append.mp ht with h | h
    · exact h
    · obtain rfl : t = u := by simpa using h
      exact absurd huk hk
  have e : kwTok noKw t = t := by unfold kwTok noKw; split <;> rfl
  have hm : t ∈ (tokenize ascii noKw Scanner.zero src mode).1 := by
    rw [hf]
    exact List.mem_map.mpr ⟨t, hd, e⟩
  exact List.mem_map.mpr ⟨t, List.mem_filter.mpr ⟨hm, by simp⟩, rfl⟩

theorem identIn_mem {src : Str} {mode : Mode} {w : Str} (h : IdentIn ascii src mode w) (he : (tokenize ascii noKw Scanner.zero src mode).2.1 = none) :
    w ∈ litsOf IDENT src mode := by
  obtain ⟨ts, s', t, hr, ht, hk, rfl⟩ := h
  have := lits_mem hr ht (by rw [hk]; decide) he
  rwa [hk] at this

theorem quotedIn_mem {src : Str} {w : Str} (h : QuotedIn ascii src w) (he : (tokenize ascii noKw Scanner.zero src clMode).2.1 = none) :
    34 :: (w ++ [34]) ∈ litsOf STRING src clMode := by
  obtain ⟨ts, s', t, hr, ht, hk, hl⟩ := h
  have := lits_mem hr ht (by rw [hk]; decide) he
  rwa [hk, hl] at this

example : BlindMarker (fun (g : Gr Nat) _ => .ok g) := fun _ g g' _ h => .inr ⟨g, g', rfl, rfl, h⟩
example : BlindMarker (fun (g : Gr Str) n => .ok (.action n g)) := fun _ _ _ _ h => .inr ⟨_, _, rfl, rfl, .action h⟩

theorem blind_noCalls : BlindSem noCalls.sem := fun R => by
  constructor
  · intro f m m' a g g' ts ts' s _ _ _
    exact .ok
  · intro a v e e' s
    exact .ok

/-- A scanner that has been used for a grammar. -/
theorem used_scanner : Steps ascii KwScanner.zero (scannerOf (compiled "doc = \"let\" IDENT;")) ∧ (scannerOf (compiled "doc = \"let\" IDENT;")).sc.bad = false := by
  have h : ClRes.isOk (compiled "doc = \"let\" IDENT;") = true := by decide +kernel
  generalize hc : compiled "doc = \"let\" IDENT;" = r at h
  cases r with
  | none => cases h
  | some r =>
    cases r with
    | ok ret => exact ⟨cl_steps (.refl _) hc, (cl_scanner _ (.refl _) zero_bad hc).1⟩
    | err e => cases h
    | panic p => cases h

/-- `let x` reads as before after a grammar with the keyword `begin` has been compiled. -/
example : ∃ f ret, (compiler "doc = \"begin\" IDENT;").cl ascii f (scannerOf (compiled "doc = \"let\" IDENT;")) = some (.ok ret) ∧
    ∀ (m : Matcher Nat Unit Unit Empty), m.mode = ⟨false, false⟩ → ∀ fuel, (m.matchExactly ascii fuel ret.tab.scanner (bytes "let x") st0).1 =
      (m.matchExactly ascii fuel (scannerOf (compiled "doc = \"let\" IDENT;")) (bytes "let x") st0).1 := by
  have h : ClRes.isOk (compiledAfter "doc = \"let\" IDENT;" "doc = \"begin\" IDENT;") = true := by decide +kernel
  generalize hc : compiledAfter "doc = \"let\" IDENT;" "doc = \"begin\" IDENT;" = r at h
  cases r with
  | none => cases h
  | some r =>
    cases r with
    | ok ret =>
      refine ⟨60, ret, hc, fun m hm fuel => C112_first_partial _ used_scanner.1 used_scanner.2 hc m fuel _ _ fun w h1 h2 => ?_⟩
      rw [hm] at h1
      have h1 := identIn_mem h1 (by decide +kernel)
      have h2 := quotedIn_mem h2 (by decide +kernel)
      rw [show litsOf IDENT (bytes "let x") ⟨false, false⟩ = [bytes "let", bytes "x"] by decide +kernel] at h1
      rw [show litsOf STRING (compiler "doc = \"begin\" IDENT;").grammar clMode = [bytes "\"begin\""] by decide +kernel] at h2
      simp only [List.mem_cons, List.not_mem_nil, or_false] at h1 h2
      rcases h1 with rfl | rfl <;> exact absurd h2 (by decide)
    | err e => cases h
    | panic p => cases h

/-- The second grammar reads `begin x` as if it had been the first. -/
example : ∃ f ret f0 ret0, (compiler "doc = \"begin\" IDENT;").cl ascii f (scannerOf (compiled "doc = \"let\" IDENT;")) = some (.ok ret) ∧
    (compiler "doc = \"begin\" IDENT;").cl ascii f0 KwScanner.zero = some (.ok ret0) ∧
    ∀ init fuel, SameAns ((⟨ret0.root, ⟨false, false⟩, init, ret0.env, noCalls.sem⟩ : Matcher Nat Unit Unit Empty).matchExactly ascii fuel ret0.tab.scanner (bytes "begin x") st0).1
      ((⟨ret.root, ⟨false, false⟩, init, ret.env, noCalls.sem⟩ : Matcher Nat Unit Unit Empty).matchExactly ascii fuel ret.tab.scanner (bytes "begin x") st0).1 := by
  have hn : ∀ w, IdentIn ascii (compiler "doc = \"begin\" IDENT;").grammar clMode w → (scannerOf (compiled "doc = \"let\" IDENT;")).keywords.get w = none := by
    intro w h1
    have h1 := identIn_mem h1 (by decide +kernel)
    rw [show litsOf IDENT (compiler "doc = \"begin\" IDENT;").grammar clMode = [bytes "doc", bytes "IDENT"] by decide +kernel] at h1
    simp only [List.mem_cons, List.not_mem_nil, or_false] at h1
    rcases h1 with rfl | rfl <;> decide +kernel
  have h : ClRes.isOk (compiled "doc = \"begin\" IDENT;") = true := by decide +kernel
  generalize hc : compiled "doc = \"begin\" IDENT;" = r at h
  cases r with
  | none => cases h
  | some r =>
    cases r with
    | ok ret0 =>
      have hmk : BlindMarker (compiler "doc = \"begin\" IDENT;").marker := fun _ g g' _ h => .inr ⟨g, g', rfl, rfl, h⟩
      obtain ⟨f, ret, h1⟩ := (C112_second_compiles_partial _ hmk used_scanner.1 used_scanner.2 hn).mpr ⟨60, ret0, hc⟩
      refine ⟨f, ret, 60, ret0, h1, hc, fun init fuel => C112_second_matches_partial _ hmk used_scanner.1 used_scanner.2 hn h1 hc _ blind_noCalls init fuel _ _ fun w h2 h3 => ?_⟩
      exfalso
      have h2 := identIn_mem h2 (by decide +kernel)
      rw [show litsOf IDENT (bytes "begin x") (compiler "doc = \"begin\" IDENT;").mode = [bytes "begin", bytes "x"] by decide +kernel] at h2
      simp only [List.mem_cons, List.not_mem_nil, or_false] at h2
      rcases h2 with rfl | rfl <;> exact h3 (by decide +kernel)
    | err e => cases h
    | panic p => cases h

end Tpl.Props
