import Verif.Proof.Added
import Verif.Props.Place
import Verif.Props.Concat

/-! Property C125: rules that are added to a grammar. -/
namespace Tpl.Props
open Tpl Tpl.Spec KwScanner Scanner
variable {A B σ V P : Type} {U : Uni} {k : KwScanner}

/-- What is known about the tables of a grammar text and those of the text with rules added. -/
structure Grown (U : Uni) (b : Str) (ret ret' : CompileRet B) : Prop where
  root : ret'.root = ret.root
  rule : RuleOf ret ret.root
  rules : ∀ n g, ret.tab.grammars.lookup n = some g → ret'.tab.grammars.lookup n = some g
  vars : ret.tab.vars <+: ret'.tab.vars
  below : BelowTab ret.tab
  bad : ret.tab.scanner.sc.bad = false
  bad' : ret'.tab.scanner.sc.bad = false
  words : ∀ w a, ret.tab.scanner.keywords.get w = some a → ret'.tab.scanner.keywords.get w = some a
  new : ∀ w, ret'.tab.scanner.keywords.get w ≠ none → ret.tab.scanner.keywords.get w ≠ none ∨ (QuotedIn U b w ∧ Lit2Token (34 :: (w ++ [34])) = ILLEGAL)

theorem cl_grown {mk : Marker B} (hm : Wraps mk) (mode mode' : Mode) (hk : Steps U KwScanner.zero k) (hb : k.sc.bad = false) {a b : Str} {us : List Token} {e' : Token}
    {rs' : List Rule} (ht : Tokenizes U k b clMode us e') (hbom : bomLen b = 0) (hd' : IsDoc us rs') {f f' : Nat} {ret ret' : CompileRet B}
    (h : Compiler.cl ⟨a, mk, mode⟩ U f k = some (.ok ret)) (h' : Compiler.cl ⟨a ++ 10 :: b, mk, mode'⟩ U f' k = some (.ok ret')) : Grown U b ret ret' := by
  have hx := cl_scanner _ hk hb h
  have hx' := cl_scanner _ hk hb h'
  obtain ⟨ts, e, rs, T, root, htk, hd, ho, hr, hv, rfl⟩ := (C40_compiles _ hk ret).mp ⟨f, h⟩
  obtain ⟨T1, T', root', h1, h2, h3, h4, rfl⟩ := (C122_compiles mk mode' hk htk ht hbom hd hd' ret').mp ⟨f', h'⟩
  change denDoc mk rs (clStart B U k a) = _ at ho
  change denDoc mk rs (clStart B U k (a ++ 10 :: b)) = _ at h1
  rw [clStart_at k a (a ++ 10 :: b), denDoc_at, ho] at h1
  obtain rfl : T.at_ (k.tokenize U (a ++ 10 :: b) clMode).2 = T1 := by simpa [atT] using h1
  have hn := denDoc_new rs' (doc_strings hk ht hd') h2
  have hroot : T'.grammars.lookup (bytes "doc") = some root := doc_lookup h2 hr
  rw [hroot] at h3
  obtain rfl : root = root' := by simpa using h3
  refine ⟨rfl, ⟨_, hr⟩, fun n g hg => doc_lookup h2 hg, doc_prefix hv h2 (List.prefix_refl _), doc_below hm ho ⟨?_, ?_⟩, hx.1, hx'.1, ?_, ?_⟩
  · intro n g h; simp [clStart] at h
  · intro v n g h; simp [clStart] at h
  · intro w n hw
    exact hn.grows w n hw
  · intro w hw
    rcases (hn.words w).mp hw with h | ⟨l, hl⟩
    · exact .inl h
    · exact .inr ((doc_quoted hk hb ht hd' w).mp ⟨l, hl⟩)

/-- C125: the rules of a grammar text are still there, and are the same, when rules are added to it. -/
theorem C125_rules {mk : Marker B} (hm : Wraps mk) (mode : Mode) (hk : Steps U KwScanner.zero k) (hb : k.sc.bad = false) {a b : Str} {us : List Token} {e' : Token}
    {rs' : List Rule} (ht : Tokenizes U k b clMode us e') (hbom : bomLen b = 0) (hd' : IsDoc us rs') {f f' : Nat} {ret ret' : CompileRet B}
    (h : Compiler.cl ⟨a, mk, mode⟩ U f k = some (.ok ret)) (h' : Compiler.cl ⟨a ++ 10 :: b, mk, mode⟩ U f' k = some (.ok ret')) :
    ret'.root = ret.root ∧ (∀ n g, ret.tab.grammars.lookup n = some g → ret'.tab.grammars.lookup n = some g) ∧
      (∀ (v : Nat) n g, ret.tab.vars[v]? = some (n, some g) → ret'.tab.vars[v]? = some (n, some g)) ∧
      ∀ w t, ret.tab.scanner.keywords.get w = some t → ret'.tab.scanner.keywords.get w = some t := by
  have hg := cl_grown hm mode mode hk hb ht hbom hd' h h'
  refine ⟨hg.root, hg.rules, fun v n g hv => ?_, hg.words⟩
  obtain ⟨x, hx⟩ := hg.vars
  rw [← hx, List.getElem?_append_left (List.getElem?_eq_some_iff.mp hv).1]
  exact hv

theorem grown_matches {b : Str} {ret ret' : CompileRet B} (hg : Grown U b ret ret') {sem : Sem B σ V P} (hs : AsksFor (RuleOf ret) sem) {g : Gr B}
    (hr : g = ret.root ∨ RuleOf ret g ∨ ∃ (v : Nat) (n : Str), ret.tab.vars[v]? = some (n, some g)) (n : Nat) (toks : List Token) (s : St σ) :
    matchG ret'.env sem n g toks s = matchG ret.env sem n g toks s := by
  have hrule : ∀ g, RuleOf ret g → Below ret.tab.vars.length g := fun g ⟨n, hn⟩ => hg.below.grammars n g hn
  refine (matchG_below (n := ret.tab.vars.length) hs hrule ?_ ?_ n g toks s ?_).symm
  · intro v hv
    obtain ⟨x, hx⟩ := hg.vars
    unfold CompileRet.env Tab.env
    rw [← hx, List.getElem?_append_left hv]
  · intro v g _ he
    unfold CompileRet.env Tab.env at he
    cases hv : ret.tab.vars[v]? with
    | none => rw [hv] at he; cases he
    | some p =>
      obtain ⟨m, o⟩ := p
      rw [hv] at he
      obtain rfl : o = some g := he
      exact hg.below.vars v m g hv
  · rcases hr with rfl | hr | ⟨v, m, hv⟩
    · exact hrule _ hg.rule
    · exact hrule g hr
    · exact hg.below.vars v m g hv

/-- C125: the rules a grammar has match tokens, and call the marked functions, as before when rules
are added to it.  (The functions may ask for the rules of the first text, `EvalSub`.) -/
theorem C125_matches {mk : Marker B} (hm : Wraps mk) (mode : Mode) (hk : Steps U KwScanner.zero k) (hb : k.sc.bad = false) {a b : Str} {us : List Token} {e' : Token}
    {rs' : List Rule} (ht : Tokenizes U k b clMode us e') (hbom : bomLen b = 0) (hd' : IsDoc us rs') {f f' : Nat} {ret ret' : CompileRet B}
    (h : Compiler.cl ⟨a, mk, mode⟩ U f k = some (.ok ret)) (h' : Compiler.cl ⟨a ++ 10 :: b, mk, mode⟩ U f' k = some (.ok ret'))
    {sem : Sem B σ V P} (hs : AsksFor (RuleOf ret) sem) {g : Gr B}
    (hr : g = ret.root ∨ RuleOf ret g ∨ ∃ (v : Nat) (n : Str), ret.tab.vars[v]? = some (n, some g)) (toks : List Token) (s : St σ) (r : Res B σ P) :
    Eval ret'.env sem g toks s r ↔ Eval ret.env sem g toks s r := by
  have hg := cl_grown hm mode mode hk hb ht hbom hd' h h'
  unfold Eval
  simp only [grown_matches hg hs hr]

/-- C125 for texts, as far as it holds: texts in which no identifier is a word that the added rules
have in quotes (and the first text has not) are matched as before. -/
theorem C125_text_partial {mk : Marker B} (hm : Wraps mk) (mode : Mode) (hk : Steps U KwScanner.zero k) (hb : k.sc.bad = false) {a b : Str} {us : List Token} {e' : Token}
    {rs' : List Rule} (ht : Tokenizes U k b clMode us e') (hbom : bomLen b = 0) (hd' : IsDoc us rs') {f f' : Nat} {ret ret' : CompileRet B}
    (h : Compiler.cl ⟨a, mk, mode⟩ U f k = some (.ok ret)) (h' : Compiler.cl ⟨a ++ 10 :: b, mk, mode⟩ U f' k = some (.ok ret'))
    {sem : Sem B σ V P} (hs : AsksFor (RuleOf ret) sem) (init : St σ → Cb B σ P Unit) (src : Str)
    (hw : ∀ w, IdentIn U src mode w → QuotedIn U b w → QuotedIn U a w ∨ k.keywords.get w ≠ none) (fuel : Nat) (s : St σ) :
    ((⟨ret'.root, mode, init, ret'.env, sem⟩ : Matcher B σ V P).matchExactly U fuel ret'.tab.scanner src s).1 =
      ((⟨ret.root, mode, init, ret.env, sem⟩ : Matcher B σ V P).matchExactly U fuel ret.tab.scanner src s).1 := by
  have hg := cl_grown hm mode mode hk hb ht hbom hd' h h'
  obtain ⟨hbad, _, hold⟩ := cl_scanner _ hk hb h
  have htk : (ret'.tab.scanner.tokenize U src mode).1 = (ret.tab.scanner.tokenize U src mode).1 := by
    refine tokenize_agree hg.bad hg.bad' fun w hid => ?_
    cases hq : ret.tab.scanner.keywords.get w with
    | some t => exact hg.words w t hq
    | none =>
      refine Classical.byContradiction fun hne => ?_
      rcases hg.new w hne with h1 | ⟨h1, h2⟩
      · exact h1 hq
      · refine (hold w).mpr ?_ hq
        rcases hw w hid h1 with h3 | h3
        · exact .inr ⟨h3, h2⟩
        · exact .inl h3
  have hmt := fun n toks s => grown_matches hg hs (.inl rfl) n toks s
  rw [hg.root]
  generalize hm1 : (⟨ret.root, mode, init, ret'.env, sem⟩ : Matcher B σ V P) = m'
  generalize hm2 : (⟨ret.root, mode, init, ret.env, sem⟩ : Matcher B σ V P) = m
  have e : (m'.match_ U fuel ret'.tab.scanner src s).1 = (m.match_ U fuel ret.tab.scanner src s).1 := by
    by_cases hne : ret.root = .nil
    · unfold Matcher.match_
      rw [← hm1, ← hm2]
      dsimp only
      rw [hne]
    · rw [match_eq m' (by rw [← hm1]; exact hne), match_eq m (by rw [← hm2]; exact hne), ← hm1, ← hm2]
      dsimp only
      rw [htk]
      simp only [hmt]
  unfold Matcher.matchExactly
  generalize m'.match_ U fuel ret'.tab.scanner src s = x at e
  generalize m.match_ U fuel ret.tab.scanner src s = y at e
  obtain ⟨x, kx⟩ := x
  obtain ⟨y, ky⟩ := y
  dsimp only at e ⊢
  rw [e]

/-! ### The code violates the property -/

/-- C125 does not hold for all texts: a word that only the added rules have in quotes is an
identifier no more. -/
theorem C125_violated :
    acceptsWith (scannerOf (compiled "doc = IDENT;")) (compiled "doc = IDENT;") "let" = true ∧
    acceptsWith (scannerOf (compiled "doc = IDENT;\nmore = \"let\" doc;")) (compiled "doc = IDENT;\nmore = \"let\" doc;") "let" = false := by decide +kernel

/-! ### Instances -/

/-- `doc = num % ','; num = INT;` and `more = "let" num;`: both compile. -/
example : ClRes.isOk (compiled "doc = num % ','; num = INT;") = true ∧
    ClRes.isOk (compiled "doc = num % ','; num = INT;\nmore = \"let\" num;") = true := by decide +kernel

def moreToks : List Token := [⟨IDENT, 0, bytes "more"⟩, ⟨ASSIGN, 5, []⟩, ⟨STRING, 7, bytes "\"let\""⟩, ⟨IDENT, 13, bytes "num"⟩, ⟨SEMICOLON, 16, [59]⟩]

example : (∃ e, Tokenizes ascii KwScanner.zero (bytes "more = \"let\" num;") clMode moreToks e) ∧ bomLen (bytes "more = \"let\" num;") = 0 ∧
    IsDoc moreToks [⟨bytes "more", .one (.term (.string (bytes "\"let\"")) .nil) (.cons (.term (.ident (bytes "num")) .nil) .nil)⟩] :=
  ⟨(tokenizes_iff (.refl _)).mp (by decide +kernel), by decide, by simp, by decide +kernel⟩

/-- The text `1, 2` is accepted before and after. -/
example : acceptsWith (scannerOf (compiled "doc = num % ','; num = INT;")) (compiled "doc = num % ','; num = INT;") "1, 2" = true ∧
    acceptsWith (scannerOf (compiled "doc = num % ','; num = INT;\nmore = \"let\" num;")) (compiled "doc = num % ','; num = INT;\nmore = \"let\" num;") "1, 2" = true := by decide +kernel

/-- Actions that do not ask for rules, and the marker that makes an action of a mark. -/
example (ret : CompileRet Nat) : AsksFor (RuleOf ret) noCalls.sem := fun _ _ _ _ _ _ _ _ => rfl
example : Wraps (B := Str) fun g mark => .ok (.action mark g) := fun g mark x h => .inr ⟨mark, .inl (by cases h; rfl)⟩

end Tpl.Props
