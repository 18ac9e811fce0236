import Verif.Proof.Crash
import Verif.Props.Interp
import Verif.Props.Extractor

/-! C116: matching with an accepted grammar does not crash. -/
namespace Tpl.Props
open Tpl Tpl.Spec KwScanner
variable {B σ V P E X I τ F W Q : Type} {U : Uni} {k : KwScanner}

theorem wraps_keeps {mk : Marker B} (h : Wraps mk) : KeepsIntact mk := by
  intro a n g hg ha
  rcases h a n g hg with rfl | ⟨l, rfl | rfl⟩
  · exact ha
  · exact .action ha
  · exact .trans ha

theorem decent_mono {W W' : Gr B → Prop} (hw : ∀ g, W g → W' g) {sem : Sem B σ V P} (h : Decent W sem) : Decent W' sem :=
  ⟨fun f m hm => h.act f m fun g src s p s' hg => hm g src s p s' (hw g hg), h.start, h.finish⟩

/-- The tables of a grammar text without a lone `!`. -/
theorem cl_intact (c : Compiler B) (hm : Wraps c.marker) (hk : Steps U KwScanner.zero k) {ts eof rs} (ht : Tokenizes U k c.grammar clMode ts eof)
    (hd : IsDoc ts rs) (hl : ∀ r ∈ rs, r.body.loneCut = false) {fuel : Nat} {ret : CompileRet B} (h : c.cl U fuel k = some (.ok ret)) :
    IntactTab ret.tab ∧ RuleOf ret ret.root := by
  rcases cl_result hk ht hd h with ⟨T, ho, he⟩ | ⟨p, he⟩
  · obtain ⟨root, h1, h2, rfl⟩ := clFinish_ok he.symm
    refine ⟨denDoc_intact (wraps_keeps hm) rs hl ho ⟨fun n g h => ?_, fun v n g h => ?_⟩, _, h1⟩
    · simp [clStart] at h
    · simp [clStart] at h
  · cases he

/-- C116, as far as it holds: if no alternative of the grammar text is nothing but `!`, a match with
the compiled grammar, or with one of its rules, does not crash: its panics are the MatchErrors of
`!` and those of the callbacks. -/
theorem C116_rules_partial (c : Compiler B) (hm : Wraps c.marker) (hk : Steps U KwScanner.zero k) {ts eof rs} (ht : Tokenizes U k c.grammar clMode ts eof)
    (hd : IsDoc ts rs) (hl : ∀ r ∈ rs, r.body.loneCut = false) {fuel : Nat} {ret : CompileRet B} (h : c.cl U fuel k = some (.ok ret))
    {sem : Sem B σ V P} (hs : Decent (RuleOf ret) sem) {g : Gr B} (hg : g = ret.root ∨ RuleOf ret g) {src : List Token} {s s' : St σ} {p}
    (he : Eval ret.env sem g src s (.panic p s')) : ¬ Crash p := by
  obtain ⟨h1, h2⟩ := cl_intact c hm hk ht hd hl h
  have hr : ∀ g, RuleOf ret g → Intact g := by
    rintro g ⟨n, hn⟩
    exact h1.grammars n g hn
  have hg : Intact g := by
    rcases hg with rfl | hg
    · exact hr _ h2
    · exact hr _ hg
  obtain ⟨f, he⟩ := he
  exact matchG_calm (env_intact h1) (decent_mono hr hs) f g src s _ hg he

/-- C116 for texts: `MatchExactly` of the matcher that `Cl` returns. -/
theorem C116_text_partial (c : Compiler B) (hm : Wraps c.marker) (hk : Steps U KwScanner.zero k) {ts eof rs} (ht : Tokenizes U k c.grammar clMode ts eof)
    (hd : IsDoc ts rs) (hl : ∀ r ∈ rs, r.body.loneCut = false) {fuel : Nat} {ret : CompileRet B} (h : c.cl U fuel k = some (.ok ret))
    {m : Matcher B σ V P} (hmg : m.grammar = ret.root) (hme : m.env = ret.env) (hs : Decent (RuleOf ret) m.sem)
    (hi : ∀ s p s', m.init s = .panic p s' → ¬ Crash p) {f : Nat} {k' : KwScanner} {src : Str} {s s' : St σ} {p}
    (he : (m.matchExactly U f k' src s).1 = some (.panic p s')) : ¬ Crash p := by
  have hne : m.grammar ≠ .nil := by
    obtain ⟨h1, n, h2⟩ := cl_intact c hm hk ht hd hl h
    rw [hmg]
    exact (h1.grammars n _ h2).ne
  have hx : (m.match_ U f k' src s).1 = some (.panic p s') := by
    unfold Matcher.matchExactly at he
    generalize m.match_ U f k' src s = x at he
    obtain ⟨x, k''⟩ := x
    dsimp only at he ⊢
    cases x with
    | none => cases he
    | some x =>
      cases x with
      | err e s => cases he
      | panic p s => cases he; rfl
      | ok next s => dsimp only at he; split at he <;> cases he
  rw [match_eq m hne] at hx
  generalize (k'.tokenize U src m.mode).1 = t at hx
  obtain ⟨tk, e⟩ := t
  cases e with
  | some e => cases hx
  | none =>
    dsimp only at hx
    cases hi0 : m.init s with
    | panic p0 s0 => rw [hi0] at hx; cases hx; exact hi _ _ _ hi0
    | ok _ s1 =>
      rw [hi0] at hx
      dsimp only at hx
      cases hy : matchG m.env m.sem f m.grammar tk s1 with
      | none => rw [hy] at hx; cases hx
      | some y =>
        rw [hy] at hx
        cases y with
        | ok n s => cases hx
        | fail n e s => cases hx
        | panic p s =>
          cases hx
          rw [hmg, hme] at hy
          exact C116_rules_partial c hm hk ht hd hl h hs (.inl rfl) ⟨f, hy⟩

/-! ### Interpreters -/

theorem client_wraps (c : Client E X I τ F W) : Wraps c.marker := by
  intro g mark x h
  unfold Client.marker at h
  dsimp only at h
  right
  refine ⟨mark, .inl ?_⟩
  split at h
  · split at h <;> cases h; rfl
  · cases h
  · cases h
  · cases h
  · split at h
    · cases h
    · split at h
      · cases hl : lenChar mark with
        | none => rw [hl] at h; cases h
        | some _ => rw [hl] at h; cases h; rfl
      · cases h
  · cases hl : lenChar mark with
    | none => rw [hl] at h; cases h
    | some _ => rw [hl] at h; cases h; rfl

theorem rewrap_calm (g : Gr Str) (toks : List Token) (p : Panic Str (IPanic E X)) : ¬ Crash (rewrap g toks p) := by
  intro h
  unfold rewrap at h
  split at h <;> cases h

/-- The actions of an engine never crash: what the functions crash with is wrapped. -/
theorem client_decent (c : Client E X I τ F W) (W' : Gr Str → Prop) : Decent W' c.sem := by
  refine ⟨fun f m _ a g toks s p s' h => ?_, fun a s p s' h => (by cases h), fun a v e s p s' h => (by cases h)⟩
  simp only [Client.sem, Client.action] at h
  split at h
  · split at h
    · cases h
    · split at h <;> cases h
  · rename_i e _
    rw [Go.run_bind] at h
    simp only [Go.get] at h
    split at h
    · cases h
    · simp only [Go.recover] at h
      split at h
      · cases h
      · simp only [Go.panic] at h
        cases h
        exact rewrap_calm _ _ _
      · cases h

/-- C116 for interpreters: `Eval` of an engine that `New` made does not crash. -/
theorem C116_engine_partial (c : Client E X I τ F W) {grammar : Str} {mode : Mode} {ts eof rs} (ht : Tokenizes U KwScanner.zero grammar clMode ts eof)
    (hd : IsDoc ts rs) (hl : ∀ r ∈ rs, r.body.loneCut = false) {fuel : Nat} {r : CompileRet Str} (h : c.new grammar mode U fuel = some (.ok r))
    {f : Nat} {src : Str} {s s' : St (Eng I τ)} {p} (he : c.eval r U f src s = some (.panic p s')) : ¬ Crash p :=
  C116_text_partial ⟨grammar, c.marker, mode⟩ (client_wraps c) (.refl _) ht hd hl h
    (m := ⟨r.root, r.mode, engInit (s.u.scanner.tokenize U src r.mode).2, r.env, c.sem⟩) rfl rfl (client_decent c _)
    (fun s p s' hi => by cases hi) he

/-! ### Extractors -/

theorem extractor_wraps : Wraps Extractor.marker := by
  intro g mark x h
  unfold Extractor.marker at h
  split at h
  · cases h
  · rename_i m _
    cases h
    refine .inr ⟨m, ?_⟩
    split
    · exact .inl rfl
    · exact .inr rfl

theorem extractor_decent (getValue : Str → Str → Except Q W) (W' : Gr Extractor.Mark → Prop) : Decent W' (Extractor.sem getValue) := by
  refine ⟨fun f m _ a g toks s p s' h => ?_, fun a s p s' h => ?_, fun a v e s p s' h => (by cases h)⟩
  · simp only [Extractor.sem] at h
    split at h
    · cases h; intro h; cases h
    · cases h
  · simp only [Extractor.sem] at h
    split at h
    · cases h; intro h; cases h
    · cases h

/-- C116 for extractors: `Parse` does not crash in the matcher. -/
theorem C116_extractor_partial (getValue : Str → Str → Except Q W) {grammar : Str} {mode : Mode} {ts eof rs}
    (ht : Tokenizes U KwScanner.zero grammar clMode ts eof) (hd : IsDoc ts rs) (hl : ∀ r ∈ rs, r.body.loneCut = false) {fuel : Nat}
    {r : CompileRet Extractor.Mark} (h : Extractor.new grammar mode U fuel = some (.ok r)) {f : Nat} {k' : KwScanner} {src : Str}
    {s s' : St (Extractor.XEng W)} {p} (he : Extractor.parse getValue r U f k' src s = some (.panic p s')) : ¬ Crash p := by
  have : ((Extractor.matcher getValue r).matchExactly U f k' src s).1 = some (.panic p s') := by
    unfold Extractor.parse at he
    split at he
    · cases he
    · cases he
    · cases he; assumption
    · split at he <;> cases he
  exact C116_text_partial ⟨grammar, Extractor.marker, mode⟩ extractor_wraps (.refl _) ht hd hl h
    (m := Extractor.matcher getValue r) rfl rfl (extractor_decent getValue _) (fun s p s' hi => by cases hi) this

/-! ### Violations -/

/-- Does the match of the text with the compiled grammar crash? -/
def crashes (r : Option (ClRes Nat)) (text : String) : Bool :=
  match r with
  | some (.ok ret) =>
    match matchG ret.env noCalls.sem 40 ret.root (ret.tab.scanner.tokenize ascii (bytes text) ret.mode).1.1 st0 with
    | some (.panic .nilDeref _) => true
    | _ => false
  | _ => false

/-- C116 does not hold: `Cl` accepts grammars that crash with a nil dereference, when the alternative
`!` is reached, or always. -/
theorem C116_violated : crashes (compiled "doc = IDENT | !;") "1" = true ∧ crashes (compiled "x = !; doc = x;") "a" = true ∧
    crashes (compiled "doc = *(!);") "" = true := by decide +kernel

/-- The text of the examples: `!` in a sequence. -/
def cutRules : List Rule := [⟨bytes "doc", .alt (.term (.char (bytes "'-'")) .nil) (.cons .cut (.cons (.term (.ident (bytes "INT")) .nil) .nil))
  (.one (.term (.ident (bytes "INT")) .nil) .nil)⟩]

/-- The hypotheses are met by a grammar with `!`, and it panics with a MatchError. -/
example : (∀ r ∈ cutRules, r.body.loneCut = false) ∧
    ((KwScanner.zero.tokenize ascii (bytes "doc = '-' ! INT | INT;") clMode).1.1.map key = flatDoc cutRules) ∧
    ClRes.isOk (compiled "doc = '-' ! INT | INT;") = true ∧ crashes (compiled "doc = '-' ! INT | INT;") "- a" = false := by
  refine ⟨?_, by decide +kernel, by decide +kernel, by decide +kernel⟩
  intro r hr
  rw [cutRules, List.mem_singleton] at hr
  subst hr
  rfl

end Tpl.Props
