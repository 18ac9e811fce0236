import Verif.Proof.Errors
import Verif.Props.Scanner
import Verif.Props.Grammar

/-! C37–C39: Matcher, error messages, Source.

`Steps U KwScanner.zero k` says that the scanner `k` has been used in any way before.
`Tokenizes U k src mode ts eof` (Spec/Errors) says that the text tokenizes. -/
namespace Tpl.Props
open Tpl Tpl.Spec Tpl.Scanner
variable {A σ V P : Type}

theorem kw_ge {U : Uni} {k : KwScanner} (hk : KwScanner.Steps U KwScanner.zero k) :
    ∀ w kd, k.keywords.get w = some kd → 0xb0 ≤ kd := fun w kd h => (C21_not_ident U k hk w kd h).1

theorem kw_ne_eof {U : Uni} {k : KwScanner} (hk : KwScanner.Steps U KwScanner.zero k) :
    ∀ w kd, k.keywords.get w = some kd → kd ≠ EOF := fun w kd h e => by
  have := kw_ge hk w kd h; subst e; exact absurd this (by decide)

theorem kwTok_spec (kw : Str → Option Nat) : kwTok kw =
    fun t => if t.kind = IDENT then { t with kind := (kw t.lit).getD IDENT } else t := by
  funext t
  unfold kwTok
  split
  · rename_i h
    cases kw t.lit with
    | none => simp [← h]
    | some k => rfl
  · rfl

theorem init_get (k : KwScanner) (src : Str) (mode : Mode) : (k.init src mode).keywords.get = k.keywords.get := by
  funext w
  unfold KwScanner.init
  cases k.keywords <;> rfl

theorem tokenArray_ok {U : Uni} {kw : Str → Option Nat} (hkw : ∀ w k, kw w = some k → k ≠ EOF)
    {s s' : Scanner} {ts : List Token} (h : Run U s ts s') (hi : Inv s) (he : s'.errs = []) :
    ∀ f, ts.length ≤ f → tokenArray U kw f s = ts.map (kwTok kw) := by
  induction h with
  | eof h1 h2 =>
    intro f hf
    cases f with
    | zero => simp at hf
    | succ f =>
      unfold tokenArray
      rw [kwScan_eq, h1]
      dsimp only
      rw [he]
      dsimp only
      rw [if_pos ((kwTok_eof hkw _).mpr h2)]
      rfl
  | cons h1 h2 hr ih =>
    rename_i s t s1 ts s2
    intro f hf
    have hi1 : Inv s1 := by have := scan_inv U hi; rw [h1] at this; exact this
    have he1 : s1.errs = [] := clean_of_go (run_go hr hi1).1 he
    cases f with
    | zero => simp at hf
    | succ f =>
      unfold tokenArray
      rw [kwScan_eq, h1]
      dsimp only
      rw [he1]
      dsimp only
      rw [if_neg (fun e => h2 ((kwTok_eof hkw _).mp e)), ih hi1 he f (by simpa using hf)]
      rfl

theorem tokenize_kw (U : Uni) (k : KwScanner) (src : Str) (mode : Mode) :
    (k.tokenize U src mode).1 = ((tokenize U k.keywords.get k.sc src mode).1, (tokenize U k.keywords.get k.sc src mode).2.1) ∧
    (k.tokenize U src mode).2.sc = (tokenize U k.keywords.get k.sc src mode).2.2 := by
  unfold KwScanner.tokenize tokenize
  dsimp only
  rw [init_get]
  exact ⟨rfl, rfl⟩

/-- If the text tokenizes then `Tokenize` returns the tokens and the token behind them is EOF. -/
theorem tokenizes_ok {U : Uni} {k : KwScanner} (hk : KwScanner.Steps U KwScanner.zero k) {src : Str} {mode : Mode}
    {ts : List Token} {eof : Token} (h : Tokenizes U k src mode ts eof) :
    (k.tokenize U src mode).1 = (ts, none) ∧ (k.tokenize U src mode).2.sc.src = src ∧
    tokenArray U k.keywords.get (2 * src.length + 2) (Scanner.init k.sc src mode) = ts ++ [eof] ∧
    (ts ++ [eof]).Pairwise (fun a b => a.pos ≤ b.pos) ∧ (∀ t ∈ ts ++ [eof], t.pos ≤ src.length) := by
  obtain ⟨full, s', hr, he, hf⟩ := h
  rw [← kwTok_spec] at hf
  have hi := Scanner.init_inv k.sc src mode
  have hl : full.length ≤ 2 * src.length + 2 := by
    obtain ⟨ts', s'', h', hl⟩ := C03_terminates U k.sc src mode
    obtain ⟨rfl, rfl⟩ := hr.functional h'
    exact hl
  have ht : tokenize U k.keywords.get k.sc src mode = (ts, none, s') := by
    unfold tokenize
    rw [tokenizeLoop_ok (kw_ne_eof hk) hr hi he _ hl]
    have := congrArg List.dropLast hf
    rw [List.dropLast_concat] at this
    rw [this, List.map_dropLast]
  obtain ⟨h1, h2⟩ := tokenize_kw U k src mode
  refine ⟨by rw [h1, ht], ?_, ?_, ?_⟩
  · rw [h2, ht]
    have := (run_go hr hi).1.src
    rw [this, (init_fields k.sc src mode).1]
  · rw [tokenArray_ok (kw_ne_eof hk) hr hi he _ hl, hf]
  · obtain ⟨h3, h4⟩ := C04_positions U k.sc s' src mode full hr
    have hp : ∀ t, (kwTok k.keywords.get t).pos = t.pos := by
      intro t; rw [kwTok_spec]; dsimp only; split <;> rfl
    rw [hf]
    constructor
    · rw [List.pairwise_map]
      exact h3.imp (fun h => by rw [hp, hp]; exact h)
    · intro t ht
      obtain ⟨t', ht', rfl⟩ := List.mem_map.mp ht
      rw [hp]
      exact h4 t' ht'

/-- `Tokenize` returns no error iff the text tokenizes. -/
theorem tokenizes_iff {U : Uni} {k : KwScanner} (hk : KwScanner.Steps U KwScanner.zero k) {src : Str} {mode : Mode}
    {ts : List Token} : (k.tokenize U src mode).1 = (ts, none) ↔ ∃ eof, Tokenizes U k src mode ts eof := by
  constructor
  · intro h
    obtain ⟨h1, h2⟩ := tokenize_kw U k src mode
    rw [h1] at h
    obtain ⟨full, s', hr, he, hf⟩ := tokenize_ok U k.keywords.get (kw_ne_eof hk) k.sc src mode (by injection h)
    have hts : ts = full.dropLast.map (kwTok k.keywords.get) := by rw [← hf]; injection h with h _; exact h.symm
    obtain ⟨t, ht, _⟩ := C07_eof_sticky U k.sc s' src mode full hr
    refine ⟨kwTok k.keywords.get t, full, s', hr, he, ?_⟩
    rw [← kwTok_spec, hts]
    conv => rhs; rw [← List.dropLast_append_getLast? t ht]
    simp
  · rintro ⟨eof, h⟩
    exact (tokenizes_ok hk h).1

/-! ## C37 -/

theorem not_tokenizes {U : Uni} {k : KwScanner} (hk : KwScanner.Steps U KwScanner.zero k) {src : Str} {mode : Mode} {us e}
    (h : (k.tokenize U src mode).1 = (us, some e)) : ∀ ts eof, ¬ Tokenizes U k src mode ts eof := by
  intro ts eof ht
  have := (tokenizes_ok hk ht).1
  rw [h] at this
  cases this

/-- What `Match` does, once and for all. -/
theorem match_eq (m : Matcher A σ V P) (hg : m.grammar ≠ .nil) (U : Uni) (fuel : Nat) (k : KwScanner) (src : Str) (s : St σ) :
    (m.match_ U fuel k src s).1 = match (k.tokenize U src m.mode).1 with
      | (_, some (off, msg)) => some (.err (.tokenize off msg) s)
      | (tokens, none) => match m.init s with
        | .panic p s => some (.panic p s)
        | .ok _ s =>
          match matchG m.env m.sem fuel m.grammar tokens s with
          | none => none
          | some (.panic p s) => some (.panic p s)
          | some (.fail _ e s) => some (.err (.match_ e) s)
          | some (.ok n s) => some (.ok (tokens.drop n) s) := by
  unfold Matcher.match_
  cases hm : m.grammar with
  | nil => exact absurd hm hg
  | _ =>
    dsimp only
    generalize k.tokenize U src m.mode = t
    obtain ⟨⟨ts, e⟩, k'⟩ := t
    cases e with
    | some e => rfl
    | none =>
      dsimp only
      cases m.init s with
      | panic p s => rfl
      | ok _ s =>
        dsimp only
        split <;> try (simp only [*]; done)
        rename_i n s' h
        have hn : n ≤ ts.length := matchG_short _ _ _ _ _ h
        rw [if_pos hn, h]

/-- `Match` returns (with the rest `next`) iff the text tokenizes and the grammar
matches the tokens before `next`. -/
theorem C37_match (m : Matcher A σ V P) (hg : m.grammar ≠ .nil) {U : Uni} {k : KwScanner}
    (hk : KwScanner.Steps U KwScanner.zero k) (src : Str) (s s' : St σ) (next : List Token) :
    (∃ fuel, (m.match_ U fuel k src s).1 = some (.ok next s')) ↔
      ∃ ts eof s1 n, Tokenizes U k src m.mode ts eof ∧ m.init s = .ok () s1 ∧
        Eval m.env m.sem m.grammar ts s1 (.ok n s') ∧ n ≤ ts.length ∧ next = ts.drop n := by
  constructor
  · rintro ⟨fuel, h⟩
    rw [match_eq m hg] at h
    cases ht : (k.tokenize U src m.mode).1 with
    | mk ts e =>
      rw [ht] at h
      cases e with
      | some e => cases h
      | none =>
        obtain ⟨eof, h1⟩ := (tokenizes_iff hk).mp ht
        dsimp only at h
        cases hi : m.init s with
        | panic p s1 => rw [hi] at h; cases h
        | ok u s1 =>
          rw [hi] at h
          dsimp only at h
          cases hm : matchG m.env m.sem fuel m.grammar ts s1 with
          | none => rw [hm] at h; cases h
          | some r =>
            rw [hm] at h
            cases r with
            | ok n s2 =>
              cases h
              exact ⟨ts, eof, s1, n, h1, rfl, ⟨fuel, hm⟩, matchG_short _ _ _ _ _ hm, rfl⟩
            | fail n e s2 => cases h
            | panic p s2 => cases h
  · rintro ⟨ts, eof, s1, n, h1, h2, ⟨fuel, h3⟩, h4, rfl⟩
    refine ⟨fuel, ?_⟩
    rw [match_eq m hg, (tokenizes_ok hk h1).1]
    dsimp only
    rw [h2]
    dsimp only
    rw [h3]

/-- `MatchExactly` returns nil iff the text tokenizes and the grammar matches all tokens. -/
theorem C37_matchExactly (m : Matcher A σ V P) (hg : m.grammar ≠ .nil) {U : Uni} {k : KwScanner}
    (hk : KwScanner.Steps U KwScanner.zero k) (src : Str) (s s' : St σ) :
    (∃ fuel, (m.matchExactly U fuel k src s).1 = some (.ok () s')) ↔
      ∃ ts eof s1, Tokenizes U k src m.mode ts eof ∧ m.init s = .ok () s1 ∧
        Eval m.env m.sem m.grammar ts s1 (.ok ts.length s') := by
  have key : (∃ fuel, (m.matchExactly U fuel k src s).1 = some (.ok () s')) ↔
      ∃ fuel, (m.match_ U fuel k src s).1 = some (.ok [] s') := by
    refine exists_congr fun fuel => ?_
    unfold Matcher.matchExactly
    generalize m.match_ U fuel k src s = r
    obtain ⟨r, k'⟩ := r
    dsimp only
    constructor
    · intro h
      split at h
      · cases h
      · cases h
      · cases h
      · rename_i next s1
        split at h
        · cases h
        · rename_i hl
          cases h
          have : next = [] := List.length_eq_zero_iff.mp (by omega)
          rw [this]
    · intro h
      rw [h]
      rfl
  rw [key, C37_match m hg hk]
  constructor
  · rintro ⟨ts, eof, s1, n, h1, h2, h3, h4, h5⟩
    have : n = ts.length := by
      have := congrArg List.length h5
      simp at this
      omega
    subst this
    exact ⟨ts, eof, s1, h1, h2, h3⟩
  · rintro ⟨ts, eof, s1, h1, h2, h3⟩
    exact ⟨ts, eof, s1, ts.length, h1, h2, h3, Nat.le_refl _, by simp⟩

/-- The other ends of `MatchExactly`: which error is returned. -/
theorem C37_errors (m : Matcher A σ V P) (hg : m.grammar ≠ .nil) {U : Uni} {k : KwScanner}
    (hk : KwScanner.Steps U KwScanner.zero k) (src : Str) (s s' : St σ) (e : MErr A) (fuel : Nat)
    (h : (m.matchExactly U fuel k src s).1 = some (.err e s')) :
    ((∃ off msg, e = .tokenize off msg) ∧ s' = s ∧ ∀ ts eof, ¬ Tokenizes U k src m.mode ts eof) ∨
    (∃ ts eof s1, Tokenizes U k src m.mode ts eof ∧ m.init s = .ok () s1 ∧
      ((∃ n e', e = .match_ e' ∧ Eval m.env m.sem m.grammar ts s1 (.fail n e' s')) ∨
       (∃ n, n < ts.length ∧ e = .match_ (.mismatch .eof (ts.drop n) none 0) ∧ Eval m.env m.sem m.grammar ts s1 (.ok n s')))) := by
  have hx : (m.matchExactly U fuel k src s).1 = match (m.match_ U fuel k src s).1 with
      | none => none
      | some (.err e s) => some (.err e s)
      | some (.panic p s) => some (.panic p s)
      | some (.ok next s) => if next.length ≠ 0 then some (.err (.match_ (mismatch .eof next)) s) else some (.ok () s) := by
    unfold Matcher.matchExactly
    generalize m.match_ U fuel k src s = r
    obtain ⟨r, k'⟩ := r
    rfl
  rw [hx, match_eq m hg] at h
  cases ht : (k.tokenize U src m.mode).1 with
  | mk ts o =>
    rw [ht] at h
    cases o with
    | some o => cases h; exact .inl ⟨⟨_, _, rfl⟩, rfl, not_tokenizes hk ht⟩
    | none =>
      obtain ⟨eof, h1⟩ := (tokenizes_iff hk).mp ht
      dsimp only at h
      cases hi : m.init s with
      | panic p s1 => rw [hi] at h; cases h
      | ok u s1 =>
        rw [hi] at h
        dsimp only at h
        refine .inr ⟨ts, eof, s1, h1, rfl, ?_⟩
        cases hm : matchG m.env m.sem fuel m.grammar ts s1 with
        | none => rw [hm] at h; cases h
        | some r =>
          rw [hm] at h
          cases r with
          | ok n s2 =>
            dsimp only at h
            split at h
            · rename_i hl
              cases h
              rw [List.length_drop] at hl
              exact .inr ⟨n, by omega, rfl, fuel, hm⟩
            · cases h
          | fail n e s2 => cases h; exact .inl ⟨n, e, rfl, fuel, hm⟩
          | panic p s2 => cases h

/-- With callbacks that return: `MatchExactly` returns nil iff the text tokenizes and
the grammar's parsing expression matches all of its tokens. -/
theorem C37_peg (m : Matcher A σ V P) (hg : m.grammar ≠ .nil) (hq : Quiet m.env m.sem) (hr : Returns m.env m.sem)
    (hi : ∀ s, ∃ s1, m.init s = .ok () s1) {U : Uni} {k : KwScanner}
    (hk : KwScanner.Steps U KwScanner.zero k) (src : Str) (s : St σ) :
    (∃ fuel s', (m.matchExactly U fuel k src s).1 = some (.ok () s')) ↔
      ∃ ts eof, Tokenizes U k src m.mode ts eof ∧
        PegEval (toRules m.env) (toPeg m.grammar) (kinds ts) (.succ ts.length) := by
  obtain ⟨s1, hs⟩ := hi s
  constructor
  · rintro ⟨fuel, s', h⟩
    obtain ⟨ts, eof, s2, h1, h2, h3⟩ := (C37_matchExactly m hg hk src s s').mp ⟨fuel, h⟩
    exact ⟨ts, eof, h1, ((C23_peg hq hr m.grammar ts s2).1 _).mp ⟨s', h3⟩⟩
  · rintro ⟨ts, eof, h1, h2⟩
    obtain ⟨s', h3⟩ := ((C23_peg hq hr m.grammar ts s1).1 _).mpr h2
    obtain ⟨fuel, h⟩ := (C37_matchExactly m hg hk src s s').mpr ⟨ts, eof, s1, h1, hs, h3⟩
    exact ⟨fuel, s', h⟩

/-- Without a grammar both return `ErrNoGrammar`. -/
theorem C37_no_grammar (m : Matcher A σ V P) (hg : m.grammar = .nil) (U : Uni) (k : KwScanner) (src : Str) (s : St σ) (fuel : Nat) :
    m.match_ U fuel k src s = (some (.err .noGrammar s), k) ∧
    m.matchExactly U fuel k src s = (some (.err .noGrammar s), k) := by
  have h : m.match_ U fuel k src s = (some (.err .noGrammar s), k) := by
    unfold Matcher.match_; rw [hg]
  refine ⟨h, ?_⟩
  unfold Matcher.matchExactly
  rw [h]

/-- A matcher for `IDENT '=' INT % '+'`. -/
def sumMatcher : Matcher Nat Unit Unit Empty where
  grammar := .and [.tok IDENT, .tok 61, .list 0 (.tok INT) (.tok 43) false]
  mode := plain
  init := fun s => .ok () s
  env := noEnv
  sem := noCalls.sem

example : (match (sumMatcher.matchExactly ascii 9 KwScanner.zero (bytes "x = 1 + 2") st0).1 with
    | some (.ok () s) => s.len 0 | _ => 0) = 2 := by decide +kernel

example : (match (sumMatcher.matchExactly ascii 9 KwScanner.zero (bytes "x = 1 + 2 +") st0).1 with
    | some (.err (.match_ (.mismatch .eof src none 0)) _) => src.map (·.pos) | _ => []) = [10] := by decide +kernel

/-! ## C39 -/

/-- The token behind the ones `Tokenize` returns is the EOF token. -/
theorem C39_sentinel {U : Uni} {k : KwScanner} (hk : KwScanner.Steps U KwScanner.zero k) {src : Str} {mode : Mode}
    {ts : List Token} {eof : Token} (h : Tokenizes U k src mode ts eof) :
    (k.tokenize U src mode).1 = (ts, none) ∧
    tokenArray U k.keywords.get (2 * src.length + 2) (Scanner.init k.sc src mode) = ts ++ [eof] :=
  ⟨(tokenizes_ok hk h).1, (tokenizes_ok hk h).2.2.1⟩

/-- `Source` of any run of consecutive tokens of a text never panics and returns the
text from the first of them up to the token after the last. -/
theorem C39_source {U : Uni} {k : KwScanner} (hk : KwScanner.Steps U KwScanner.zero k) {src : Str} {mode : Mode}
    {ts : List Token} {eof : Token} (h : Tokenizes U k src mode ts eof) {i j : Nat} (hij : i < j) (hj : j ≤ ts.length) :
    ∃ first next, (ts ++ [eof])[i]? = some first ∧ (ts ++ [eof])[j]? = some next ∧
      first.pos ≤ next.pos ∧ next.pos ≤ src.length ∧
      Source (TokSlice.sub ⟨ts, [eof]⟩ i j) (k.tokenize U src mode).2.sc.source =
        .ok ((src.drop first.pos).take (next.pos - first.pos)) := by
  obtain ⟨_, hsrc, _, hpw, hle⟩ := tokenizes_ok hk h
  have hi' : i < (ts ++ [eof]).length := by simp; omega
  have hj' : j < (ts ++ [eof]).length := by simp; omega
  have hpos := (List.pairwise_iff_getElem.mp hpw) i j hi' hj' hij
  have h1 := hle _ (List.getElem_mem hi')
  have h2 := hle _ (List.getElem_mem hj')
  refine ⟨(ts ++ [eof])[i], (ts ++ [eof])[j], List.getElem?_eq_getElem hi', List.getElem?_eq_getElem hj', hpos, h2, ?_⟩
  have hd : (ts.take j).drop i = (ts ++ [eof])[i] :: (ts.take j).drop (i + 1) := by
    rw [List.drop_eq_getElem_cons (by simp; omega)]
    simp only [List.getElem_take]
    rw [List.getElem_append_left (by omega)]
  have hb : ts.drop j ++ [eof] = (ts ++ [eof])[j] :: ((ts ++ [eof]).drop (j + 1)) := by
    rw [← List.drop_append_of_le_length hj, List.drop_eq_getElem_cons hj']
  unfold Source TokSlice.sub Scanner.source
  simp only [hd, hb, hsrc]
  rw [if_pos ⟨h1, h2⟩, if_pos hpos]

/-- The tokens of an action are such a run, or none, in which case `Source` returns
nothing. -/
theorem C39_action {env : Env A} {ts : List Token} {g g' : Gr A} {o e l toks} {a : A}
    (h : Tr env (.one g) ts o e) (hm : Ev.act a g' toks l ∈ e) (eof : Token) (t : TokSource) :
    (toks = [] ∧ ∀ b, Source ⟨toks, b⟩ t = .ok []) ∨
      ∃ i j, i < j ∧ j ≤ ts.length ∧ toks = (TokSlice.sub ⟨ts, [eof]⟩ i j).toks := by
  obtain ⟨i, n, h1, h2⟩ := C34_tokens h hm
  cases n with
  | zero => left; rw [List.take_zero] at h2; subst h2; exact ⟨rfl, fun b => rfl⟩
  | succ n =>
    right
    refine ⟨i, i + (n + 1), by omega, by omega, ?_⟩
    rw [h2, TokSlice.sub, List.drop_take]
    congr 1
    omega

example : Tokenizes ascii KwScanner.zero (bytes "x = 1") plain
    [⟨IDENT, 0, bytes "x"⟩, ⟨61, 2, []⟩, ⟨INT, 4, bytes "1"⟩] ⟨EOF, 5, []⟩ := by
  obtain ⟨e, h⟩ := (tokenizes_iff (U := ascii) (.refl _)).mp
    (show (KwScanner.zero.tokenize ascii (bytes "x = 1") plain).1 =
      ([⟨IDENT, 0, bytes "x"⟩, ⟨61, 2, []⟩, ⟨INT, 4, bytes "1"⟩], none) from by decide +kernel)
  obtain ⟨h1, h2⟩ := C39_sentinel (.refl _) h
  have : tokenArray ascii KwScanner.zero.keywords.get (2 * (bytes "x = 1").length + 2)
    (Scanner.init KwScanner.zero.sc (bytes "x = 1") plain) = [⟨IDENT, 0, bytes "x"⟩, ⟨61, 2, []⟩, ⟨INT, 4, bytes "1"⟩] ++ [⟨EOF, 5, []⟩] := by
    decide +kernel
  rw [this] at h2
  have := List.append_inj_right' h2 rfl
  cases this
  exact h

/-! ## C38 -/

/-- Every error of a match: what is returned is `ErrVarNotAssigned` or a mismatch of
some grammar used at some suffix of the tokens; what a match panics with is the error
of a sequence with a marker, pointing into its suffix or just behind it. -/
theorem C38_errors {env : Env A} {sem : Sem A σ V P} (hsem : NoErr sem) {g : Gr A} {ts : List Token} {s : St σ} {r}
    (h : Eval env sem g ts s r) :
    (∀ n e s', r = .fail n e s' → FailAt ts (Relation.ReflTransGen (Sub env) g) e) ∧
    (∀ e s', r = .panic (.err e) s' → CutAt ts (Relation.ReflTransGen (Sub env) g) e) := by
  obtain ⟨f, h⟩ := h
  have := matchG_err (toks := ts) (Q := Relation.ReflTransGen (Sub env) g) (fun a b h1 h2 => h2.tail h1) hsem f g ts s r
    .refl (List.suffix_refl _) h
  constructor
  · rintro n e s' rfl; exact this
  · rintro e s' rfl; exact this

/-- The index calculation of an error message panics iff the error lies just behind a
non-empty run of tokens. -/
theorem calc_panics {U : Uni} {k : KwScanner} (hk : KwScanner.Steps U KwScanner.zero k) {text : Str} {mode : Mode}
    {ts : List Token} {eof : Token} (h : Tokenizes U k text mode ts eof) {src : List Token} (hs : src <:+ ts) (idx : Nat) :
    calcErrorInfo ⟨src, [eof]⟩ idx (k.tokenize U text mode).2.sc.source = .panic ↔ src ≠ [] ∧ src.length ≤ idx := by
  obtain ⟨_, hsrc, _, hpw, hle⟩ := tokenizes_ok hk h
  have hsub : ∀ t ∈ src ++ [eof], t ∈ ts ++ [eof] := by
    intro t ht
    rw [List.mem_append] at ht ⊢
    exact ht.imp (fun h => hs.subset h) id
  have hle' : ∀ t ∈ src ++ [eof], t.pos ≤ text.length := fun t ht => hle t (hsub t ht)
  have hpw' : (src ++ [eof]).Pairwise (fun a b => a.pos ≤ b.pos) := by
    refine hpw.sublist ?_
    exact List.Sublist.append hs.sublist (List.Sublist.refl _)
  cases src with
  | nil => simp [calcErrorInfo]
  | cons t rest =>
    have h1 := hle' t (by simp)
    have h2 := hle' eof (by simp)
    have h3 : t.pos ≤ eof.pos := by
      have := (List.pairwise_cons.mp hpw').1 eof (by simp)
      exact this
    unfold calcErrorInfo Scanner.source
    simp only [hsrc]
    rw [if_pos ⟨h1, h2⟩]
    cases ha : (t :: rest ++ [eof])[idx + 1]? with
    | none =>
      have := List.getElem?_eq_none_iff.mp ha
      simp only [List.length_append, List.length_cons, List.length_nil] at this
      simp
      omega
    | some after =>
      obtain ⟨hlt, _⟩ := List.getElem?_eq_some_iff.mp ha
      simp only [List.length_append, List.length_cons, List.length_nil] at hlt
      have h4 := hle' after (List.mem_of_getElem? ha)
      dsimp only
      rw [if_pos h4, if_pos h3]
      cases hb : (t :: rest ++ [eof])[idx]? with
      | none =>
        have := List.getElem?_eq_none_iff.mp hb
        simp only [List.length_append, List.length_cons, List.length_nil] at this
        omega
      | some at_ =>
        simp
        omega

theorem app_panic {a b : GoRes Str} : GoRes.app a b = .panic ↔ a = .panic ∨ b = .panic := by
  cases a <;> cases b <;> simp [GoRes.app]

/-- `Error()` of an error of a match on the tokens of a text panics iff the error lies
just behind a non-empty run of tokens or the grammar cannot be printed. -/
theorem error_panics {U : Uni} {k : KwScanner} (hk : KwScanner.Steps U KwScanner.zero k) {text : Str} {mode : Mode}
    {ts : List Token} {eof : Token} (h : Tokenizes U k text mode ts eof) {src : List Token} (hs : src <:+ ts)
    (ttol : Nat → GoRes Str) (names : Nat → Str) (g : Gr A) (inner : Option (Err A)) (idx : Nat) :
    Err.error ttol names (k.tokenize U text mode).2.sc.source [eof] (.mismatch g src inner idx) = .panic ↔
      (src ≠ [] ∧ src.length ≤ idx) ∨ g.code ttol names = .panic := by
  rw [← calc_panics hk h hs idx]
  rw [Err.error]
  cases hc : calcErrorInfo ⟨src, [eof]⟩ idx (k.tokenize U text mode).2.sc.source with
  | panic => simp
  | ok p =>
    obtain ⟨line, tx⟩ := p
    dsimp only
    cases inner with
    | none => simp [app_panic]
    | some e =>
      dsimp only
      split <;> simp [app_panic]

/-- A grammar whose parts can all be printed, with variables of that kind. -/
structure AllPrintable (known : Nat → Prop) (env : Env A) (g : Gr A) : Prop where
  root : Printable known g
  vars : ∀ v g', env v = some g' → Printable known g'

theorem printable_sub {known : Nat → Prop} {env : Env A} (hv : ∀ v g, env v = some g → Printable known g) {g g' : Gr A}
    (hs : Sub env g g') (h : Printable known g) (hn : g' ≠ .nil) : Printable known g' := by
  cases hs with
  | peek | not | rep0 | rep1 | rep01 | named | action | trans => cases h; assumption
  | and hm => cases h with | and h => exact h _ hm hn
  | or hm => cases h with | or h => exact h _ hm
  | listA => cases h; assumption
  | listRest =>
    cases h with
    | list h1 h2 =>
      refine .and fun g hg _ => ?_
      simp only [List.mem_cons, List.not_mem_nil, or_false] at hg
      rcases hg with rfl | rfl <;> assumption
  | var h => exact hv _ _ h

theorem AllPrintable.closed {known : Nat → Prop} {env : Env A} {g : Gr A} (hp : AllPrintable known env g) :
    ∀ a b, Sub env a b → (a = .nil ∨ Printable known a) → (b = .nil ∨ Printable known b) := by
  intro a b h1 h2
  by_cases hb : b = .nil
  · exact .inl hb
  · rcases h2 with rfl | h2
    · cases h1
    · exact .inr (printable_sub hp.vars h1 h2 hb)

/-- An error *returned* by matching the tokens of a text can always be rendered. -/
theorem C38_returned_partial {U : Uni} {k : KwScanner} (hk : KwScanner.Steps U KwScanner.zero k) {text : Str} {mode : Mode}
    {ts : List Token} {eof : Token} (h : Tokenizes U k text mode ts eof) {env : Env A} {sem : Sem A σ V P} (hsem : NoErr sem)
    {g : Gr A} (ttol : Nat → GoRes Str) (names : Nat → Str) (hp : AllPrintable (fun k => ttol k ≠ .panic) env g) {s s' : St σ} {n e}
    (hm : Eval env sem g ts s (.fail n e s')) :
    Err.error ttol names (k.tokenize U text mode).2.sc.source [eof] e ≠ .panic := by
  obtain ⟨f, hm⟩ := hm
  have := matchG_err (toks := ts) (hp.closed) hsem f g ts s _ (.inr hp.root) (List.suffix_refl _) hm
  cases this with
  | var => rw [Err.error]; nofun
  | plain hn hq hs =>
    rw [ne_eq, error_panics hk h hs]
    rintro (⟨h1, h2⟩ | h1)
    · exact h1 (List.length_eq_zero_iff.mp (by omega))
    · exact marshal_ok (hq.resolve_left hn) _ h1

/-- A fail-fast error can be rendered unless it lies at the end of the input, after at
least one token: then `Error()` does panic. -/
theorem C38_failfast_partial {U : Uni} {k : KwScanner} (hk : KwScanner.Steps U KwScanner.zero k) {text : Str} {mode : Mode}
    {ts : List Token} {eof : Token} (h : Tokenizes U k text mode ts eof) {env : Env A} {sem : Sem A σ V P} (hsem : NoErr sem)
    {g : Gr A} (ttol : Nat → GoRes Str) (names : Nat → Str) (hp : AllPrintable (fun k => ttol k ≠ .panic) env g) {s s' : St σ} {e}
    (hm : Eval env sem g ts s (.panic (.err e) s')) :
    ∃ gs src e1 idx, e = .mismatch (.and gs) src (some e1) idx ∧ .nil ∈ gs ∧ src <:+ ts ∧ idx ≤ src.length ∧
      (Err.error ttol names (k.tokenize U text mode).2.sc.source [eof] e = .panic ↔ src ≠ [] ∧ idx = src.length) := by
  obtain ⟨f, hm⟩ := hm
  have := matchG_err (toks := ts) (hp.closed) hsem f g ts s _ (.inr hp.root) (List.suffix_refl _) hm
  cases this with
  | @cut gs src e1 idx hq hn hs hi _ =>
    refine ⟨gs, src, e1, idx, rfl, hn, hs, hi, ?_⟩
    rw [error_panics hk h hs]
    constructor
    · rintro (⟨h1, h2⟩ | h1)
      · exact ⟨h1, by omega⟩
      · exact absurd h1 (marshal_ok (hq.resolve_left nofun) _)
    · rintro ⟨h1, h2⟩
      exact .inl ⟨h1, by omega⟩

/-- The error `MatchExactly` returns for tokens left over can be rendered. -/
theorem C38_leftover {U : Uni} {k : KwScanner} (hk : KwScanner.Steps U KwScanner.zero k) {text : Str} {mode : Mode}
    {ts : List Token} {eof : Token} (h : Tokenizes U k text mode ts eof) (ttol : Nat → GoRes Str) (names : Nat → Str) {n : Nat}
    (hn : n < ts.length) :
    Err.error ttol names (k.tokenize U text mode).2.sc.source [eof] (.mismatch (.eof : Gr A) (ts.drop n) none 0) ≠ .panic := by
  rw [ne_eq, error_panics hk h (List.drop_suffix _ _)]
  rintro (⟨h1, h2⟩ | h1)
  · exact h1 (List.length_eq_zero_iff.mp (by omega))
  · rw [Gr.code, Gr.marshal] at h1; cases h1

/-- `IDENT ! IDENT`. -/
def cutMatcher : Matcher Nat Unit Unit Empty := { sumMatcher with grammar := .and [.tok IDENT, .nil, .tok IDENT] }

/-- `Error()` of an error produced by matching can panic: `IDENT ! IDENT` on the text
`a` panics with a MatchError that cannot be rendered. -/
theorem C38_violated : ∃ e s' eof,
    Tokenizes ascii KwScanner.zero (bytes "a") plain [⟨IDENT, 0, bytes "a"⟩] eof ∧
    (cutMatcher.matchExactly ascii 3 KwScanner.zero (bytes "a") st0).1 = some (.panic (.err e) s') ∧
    Err.error Token2Lit (fun _ => []) (KwScanner.zero.tokenize ascii (bytes "a") plain).2.sc.source [eof] e = .panic := by
  have ht : (KwScanner.zero.tokenize ascii (bytes "a") plain).1 = ([⟨IDENT, 0, bytes "a"⟩], none) := by decide +kernel
  obtain ⟨eof, h⟩ := (tokenizes_iff (U := ascii) (.refl _)).mp ht
  have hx : cutMatcher.grammar ≠ .nil := nofun
  refine ⟨.mismatch (.and [.tok IDENT, .nil, .tok IDENT]) [⟨IDENT, 0, bytes "a"⟩] (some (mismatch (.tok IDENT) [])) 1, st0, eof, h, ?_, ?_⟩
  · have : (cutMatcher.match_ ascii 3 KwScanner.zero (bytes "a") st0).1 = some (.panic (.err (.mismatch (.and [.tok IDENT, .nil, .tok IDENT]) [⟨IDENT, 0, bytes "a"⟩] (some (mismatch (.tok IDENT) [])) 1)) st0) := by
      rw [match_eq _ hx]
      show (match (KwScanner.zero.tokenize ascii (bytes "a") plain).1 with | _ => _) = _
      rw [ht]
      rfl
    unfold Matcher.matchExactly
    revert this
    generalize cutMatcher.match_ ascii 3 KwScanner.zero (bytes "a") st0 = r
    obtain ⟨r, k'⟩ := r
    rintro rfl
    rfl
  · rw [error_panics (.refl _) h (List.suffix_refl _)]
    exact .inl ⟨nofun, by decide⟩

/-- The hypotheses are met: an error in the middle of the text is rendered. -/
example : Err.error Token2Lit (fun _ => []) (KwScanner.zero.tokenize ascii (bytes "a 1\n") plain).2.sc.source [⟨EOF, 4, []⟩]
    (.mismatch (.and [.tok IDENT, .nil, .tok IDENT] : Gr Nat) [⟨IDENT, 0, bytes "a"⟩, ⟨INT, 2, bytes "1"⟩]
      (some (mismatch (.tok IDENT) [⟨INT, 2, bytes "1"⟩])) 1) =
    .ok (bytes "line 1: match failed: `a 1\n` doesn't match `IDENT IDENT`\nline 1: match failed: `1\n` doesn't match `IDENT`") := by
  decide +kernel

example : AllPrintable (fun k => Token2Lit k ≠ .panic) noEnv cutMatcher.grammar :=
  ⟨.and (by
    intro g hg hn
    simp only [List.mem_cons, List.not_mem_nil, or_false] at hg
    rcases hg with rfl | rfl | rfl
    · exact .tok (by decide +kernel)
    · exact absurd rfl hn
    · exact .tok (by decide +kernel)), nofun⟩

theorem noErr_calls (c : Calls A σ V P) : NoErr c.sem where
  act := by
    intro f m a g toks s e s' h
    simp only [Calls.sem, Option.some.injEq] at h
    cases hc : c.act a g toks (g.len s.len) s.u with
    | ok u => rw [hc] at h; cases h
    | error u => rw [hc] at h; cases h
  start := by
    intro a s e s' h
    simp only [Calls.sem] at h
    cases hc : c.start a s.u with
    | ok u => rw [hc] at h; cases h
    | error u => rw [hc] at h; cases h
  finish := by
    intro a v e0 s e s' h
    simp only [Calls.sem] at h
    split at h <;> cases h
end Tpl.Props
