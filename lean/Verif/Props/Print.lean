import Verif.Proof.PrintRead
import Verif.Props.Compiler
import Verif.Props.Lexer

/-! Property C45, the positive part: printed grammars are read back. -/
namespace Tpl.Props
open Tpl Tpl.Spec KwScanner Scanner
variable {B σ V P : Type} {U : Uni} {k : KwScanner}

theorem doc_words (hk : Steps U KwScanner.zero k) {src : Str} {ts : List Token} {eof : Token} {rs : List Rule}
    (ht : Tokenizes U k src clMode ts eof) (hd : IsDoc ts rs) : Words U k.keywords.get (flatDoc rs) := by
  intro p hp
  rw [← hd.2] at hp
  obtain ⟨t, hm, rfl⟩ := List.mem_map.mp hp
  obtain ⟨h1, h2, h3⟩ := tokenizes_words hk ht t hm
  have lit : ∀ n, n ∈ [IDENT, CHAR, STRING, INT] → (key t).1 = n → (key t).2 = t.lit := by
    intro n hn e
    have e : t.kind = n := e
    unfold key
    rw [if_pos (e ▸ hn)]
  refine ⟨fun e => ?_, fun e => ?_, fun e => ?_⟩
  · rw [lit _ (by decide) e]; exact h1 e
  · rw [lit _ (by decide) e]; exact h2 e
  · rw [lit _ (by decide) e]; exact h3 e

theorem start_kwOk (hk : Steps U KwScanner.zero k) (hl : ∀ w n, k.keywords.get w = some n → k.ttol n = .ok (34 :: (w ++ [34]))) (src : Str) :
    KwOk (k.tokenize U src clMode).2 := by
  intro w n h
  have h : k.keywords.get w = some n := by
    rw [← init_get k src clMode]
    exact h
  have h1 := kw_ge hk w n h
  have h2 := hl w n h
  refine ⟨h1, ?_⟩
  show k.tokens[n - 0xb0]? = _
  unfold ttol at h2
  rw [if_pos (by unfold userTokenBegin; omega)] at h2
  unfold userTokenBegin at h2
  cases e : k.tokens[n - 0xb0]? with
  | none => rw [e] at h2; cases h2
  | some l => rw [e] at h2; cases h2; rfl

theorem rules_of {t t' : Tab B} (h : All2 VarRel t.vars t'.vars) : RulesSub (toRules t.env) (toRules t'.env) ∧ RulesSub (toRules t'.env) (toRules t.env) := by
  have key : ∀ v, (toRules t.env v = none ∧ toRules t'.env v = none) ∨
      ∃ p q, toRules t.env v = some p ∧ toRules t'.env v = some q ∧ PegEquiv p q := by
    intro v
    unfold toRules Tab.env
    rcases h.get v with ⟨h1, h2⟩ | ⟨a, b, h1, h2, h3⟩
    · rw [h1, h2]; exact .inl ⟨rfl, rfl⟩
    · rw [h1, h2]
      rcases h3.2 with ⟨h4, h5⟩ | ⟨g, g', h4, h5, h6⟩
      · left; simp [h4, h5]
      · right; exact ⟨toPeg g, toPeg g', by simp [h4], by simp [h5], h6.peg⟩
  constructor
  · intro v
    rcases key v with ⟨h1, h2⟩ | ⟨p, q, h1, h2, h3⟩
    · exact ⟨fun _ => h2, fun p hp => absurd (h1.symm.trans hp) (by simp)⟩
    · refine ⟨fun e => absurd (h1.symm.trans e) (by simp), fun p' hp => ?_⟩
      rw [h1] at hp; cases hp
      exact ⟨q, h2, h3.sub⟩
  · intro v
    rcases key v with ⟨h1, h2⟩ | ⟨p, q, h1, h2, h3⟩
    · exact ⟨fun _ => h1, fun p hp => absurd (h2.symm.trans hp) (by simp)⟩
    · refine ⟨fun e => absurd (h2.symm.trans e) (by simp), fun p' hp => ?_⟩
      rw [h2] at hp; cases hp
      exact ⟨p, h1, h3.symm.sub⟩

/-- C45, for grammars without `!`, marks, nested `+` and lists on the right of lists: the rules
of a compiled document, printed with `Code` one below the other, compile again with the same
scanner to a grammar with the same keywords that parses every input alike. -/
theorem C45_printed_partial (c : Compiler B) (hk : Steps U KwScanner.zero k)
    (hl : ∀ w n, k.keywords.get w = some n → k.ttol n = .ok (34 :: (w ++ [34])))
    {ts : List Token} {eof : Token} {rs : List Rule} (ht : Tokenizes U k c.grammar clMode ts eof) (hd : IsDoc ts rs)
    (hp : ∀ r ∈ rs, r.body.plain = true) {fuel : Nat} {ret : CompileRet B} (h : c.cl U fuel k = some (.ok ret))
    (hpr : ∀ r ∈ rs, ∀ g, defOf ret.tab r.name = some g → prints g = true) :
    ∃ txt, Printed ret.tab (rs.map Rule.name) txt ∧
      ∃ fuel' ret', ({ c with grammar := txt } : Compiler B).cl U fuel' k = some (.ok ret') ∧
        ret'.tab.scanner.keywords = ret.tab.scanner.keywords ∧ ret'.tab.scanner.tokens = ret.tab.scanner.tokens ∧
        ∀ w o, PegEval (toRules ret'.env) (toPeg ret'.root) w o ↔ PegEval (toRules ret.env) (toPeg ret.root) w o := by
  obtain ⟨ts1, eof1, rs1, T, root, ht1, hd1, hden, hroot, hvars, rfl⟩ := (C40_compiles c hk ret).mp ⟨fuel, h⟩
  have hts : ts1 = ts := by
    have e1 := (tokenizes_iff hk).mpr ⟨eof, ht⟩
    have e2 := (tokenizes_iff hk).mpr ⟨eof1, ht1⟩
    rw [e1] at e2
    injection e2 with e2 _
    exact e2.symm
  subst hts
  obtain rfl := isDoc_unique hd hd1
  obtain ⟨txt, rs2, p1, p2, p3, p4, p5⟩ := doc_print hp (doc_words hk ht hd) (start_kwOk hk hl c.grammar) hpr hden
  refine ⟨txt, p1, ?_⟩
  obtain ⟨full, l1, l2⟩ := p4 0
  have hb := bomLen_clean p3
  obtain ⟨s', r1, r2⟩ := (run_iff U k.sc txt clMode full).mpr (by rw [hb]; exact ⟨p3, l1⟩)
  obtain ⟨us, e, rfl⟩ := run_snoc r1
  have l3 : us.map (kwKey k.keywords.get) = flatDoc rs2 := by
    rw [List.map_append] at l2
    exact (List.append_inj' l2 rfl).1
  have htk : Tokenizes U k txt clMode (us.map (kwTok k.keywords.get)) (kwTok k.keywords.get e) := by
    refine ⟨us ++ [e], s', r1, r2, ?_⟩
    rw [← kwTok_spec, List.map_append]
    rfl
  have hne : rs2 ≠ [] := by
    rintro rfl
    have := hd.1
    cases rs with
    | nil => exact this rfl
    | cons r rs => cases p2
  have hdoc : IsDoc (us.map (kwTok k.keywords.get)) rs2 := ⟨hne, by rw [List.map_map, ← l3]; rfl⟩
  obtain ⟨T2, q1, q2⟩ := p5 ⟨[], [], 0, (k.tokenize U txt clMode).2⟩ ⟨.nil, .nil, rfl, rfl⟩
  rcases lookup_rel q2.gr (bytes "doc") with ⟨g1, _⟩ | ⟨g, g2, g1, g3, g4⟩
  · rw [g1] at hroot; cases hroot
  · rw [g1] at hroot
    cases hroot
    have hv2 : ∀ v ∈ T2.vars, v.2 ≠ none := by
      intro v hv
      obtain ⟨i, hi⟩ := List.mem_iff_getElem?.mp hv
      rcases q2.vars.get i with ⟨_, n2⟩ | ⟨a, b, n1, n2, n3⟩
      · rw [n2] at hi; cases hi
      · rw [n2] at hi
        cases hi
        rcases n3.2 with ⟨n4, _⟩ | ⟨_, _, _, n4, _⟩
        · exact absurd n4 (hvars a (List.mem_iff_getElem?.mpr ⟨i, n1⟩))
        · rw [n4]; simp
    obtain ⟨fuel', hc⟩ := (C40_compiles { c with grammar := txt } hk ⟨g2, T2, c.mode⟩).mpr
      ⟨_, _, rs2, T2, g2, htk, hdoc, q1, g3, hv2, rfl⟩
    refine ⟨fuel', _, hc, q2.kw.symm, q2.toks.symm, fun w o => ?_⟩
    obtain ⟨s1, s2⟩ := rules_of q2.vars
    constructor
    · intro hh
      exact g4.peg.symm.sub _ _ _ (s2.eval hh)
    · intro hh
      exact s1.eval (g4.peg.sub _ _ _ hh)

/-- C45: with callbacks that return, both grammars match the same tokens in the same way. -/
theorem C45_matches_partial (c : Compiler B) (hk : Steps U KwScanner.zero k)
    (hl : ∀ w n, k.keywords.get w = some n → k.ttol n = .ok (34 :: (w ++ [34])))
    {ts : List Token} {eof : Token} {rs : List Rule} (ht : Tokenizes U k c.grammar clMode ts eof) (hd : IsDoc ts rs)
    (hp : ∀ r ∈ rs, r.body.plain = true) {fuel : Nat} {ret : CompileRet B} (h : c.cl U fuel k = some (.ok ret))
    (hpr : ∀ r ∈ rs, ∀ g, defOf ret.tab r.name = some g → prints g = true) :
    ∃ txt fuel' ret', Printed ret.tab (rs.map Rule.name) txt ∧ ({ c with grammar := txt } : Compiler B).cl U fuel' k = some (.ok ret') ∧
      ∀ (sem : Sem B σ V P), (∀ env, Quiet env sem) → (∀ env, Returns env sem) → ∀ src s,
        (∀ n, (∃ s', Eval ret'.env sem ret'.root src s (.ok n s')) ↔ ∃ s', Eval ret.env sem ret.root src s (.ok n s')) ∧
        ((∃ n e s', Eval ret'.env sem ret'.root src s (.fail n e s')) ↔ ∃ n e s', Eval ret.env sem ret.root src s (.fail n e s')) := by
  obtain ⟨txt, h1, fuel', ret', h2, _, _, h3⟩ := C45_printed_partial c hk hl ht hd hp h hpr
  refine ⟨txt, fuel', ret', h1, h2, fun sem hq hr src s => ?_⟩
  obtain ⟨a1, a2, _⟩ := C23_peg (hq ret.env) (hr ret.env) ret.root src s
  obtain ⟨b1, b2, _⟩ := C23_peg (hq ret'.env) (hr ret'.env) ret'.root src s
  exact ⟨fun n => by rw [a1, b1, h3], by rw [a2, b2, h3]⟩

/-! A document that meets the conditions, with a keyword, a rule used before it is defined, lists and alternatives. -/

def printedSrc : String := "doc = +(stmt ';');\nstmt = \"if\" expr | expr;\nexpr = (IDENT | INT) % ('+' | \"&&\") %= ',' ?(~'.' @1);"

def printedRules : List Rule := [
  ⟨bytes "doc", .one (.term (.rep1 (.paren (.one (.term (.ident (bytes "stmt")) .nil) (.cons (.term (.char (bytes "';'")) .nil) .nil)))) .nil) .nil⟩,
  ⟨bytes "stmt", .alt (.term (.string (bytes "\"if\"")) .nil) (.cons (.term (.ident (bytes "expr")) .nil) .nil) (.one (.term (.ident (bytes "expr")) .nil) .nil)⟩,
  ⟨bytes "expr", .one (.term (.paren (.alt (.term (.ident (bytes "IDENT")) .nil) .nil (.one (.term (.ident (bytes "INT")) .nil) .nil)))
      (.list (.paren (.alt (.term (.char (bytes "'+'")) .nil) .nil (.one (.term (.string (bytes "\"&&\"")) .nil) .nil)))
        (.list0 (.char (bytes "','")) .nil)))
    (.cons (.term (.rep01 (.paren (.one (.term (.not (.char (bytes "'.'"))) .nil) (.cons (.term (.peek (.int (bytes "1"))) .nil) .nil)))) .nil) .nil)⟩]

/-- The rules are printed without the wrong kinds of nesting. -/
def allPrint (rs : List Rule) : Option (ClRes Nat) → Bool
  | some (.ok ret) => rs.all fun r => (defOf ret.tab r.name).all prints
  | _ => false

/-- The printed text. -/
def printedText (rs : List Rule) : Option (ClRes Nat) → Option String
  | some (.ok ret) => some <| String.join <| rs.map fun r => match (defOf ret.tab r.name).map (codeOf ret.tab) with
    | some (.ok x) => String.ofList ((r.name ++ bytes " = " ++ x ++ bytes ";\n").map fun b => Char.ofNat b.toNat)
    | _ => "?"
  | _ => none

example : printedText printedRules (compiled printedSrc) =
    some "doc = +(stmt ';');\nstmt = \"if\" expr | expr;\nexpr = (IDENT | INT) % ('+' | \"&&\") %= ',' ?(~'.' @1);\n" := by decide +kernel

example : ∃ (ts : List Token) (eof : Token) (ret : CompileRet Nat), Tokenizes ascii KwScanner.zero (compiler printedSrc).grammar clMode ts eof ∧
    IsDoc ts printedRules ∧ (∀ r ∈ printedRules, r.body.plain = true) ∧ (compiler printedSrc).cl ascii 60 KwScanner.zero = some (.ok ret) ∧
    ∀ r ∈ printedRules, ∀ g, defOf ret.tab r.name = some g → prints g = true := by
  have h1 : (KwScanner.zero.tokenize ascii (compiler printedSrc).grammar clMode).1.2 = none := by decide +kernel
  have h4 : (KwScanner.zero.tokenize ascii (compiler printedSrc).grammar clMode).1.1.map key = flatDoc printedRules := by decide +kernel
  generalize hx : (KwScanner.zero.tokenize ascii (compiler printedSrc).grammar clMode).1 = x at h1 h4
  obtain ⟨ts, o⟩ := x
  dsimp only at h1 h4
  subst h1
  obtain ⟨eof, h2⟩ := (tokenizes_iff (U := ascii) (k := KwScanner.zero) (.refl _)).mp hx
  refine ⟨ts, eof, ?_⟩
  have h3 : allPrint printedRules (compiled printedSrc) = true := by decide +kernel
  cases hc : compiled printedSrc with
  | none => rw [hc] at h3; cases h3
  | some r =>
    cases r with
    | ok ret =>
      refine ⟨ret, h2, ⟨by simp [printedRules], h4⟩, by decide, hc, ?_⟩
      rw [hc] at h3
      intro r hr g hg
      have := List.all_eq_true.mp h3 r hr
      rw [hg] at this
      exact this
    | err e => rw [hc] at h3; cases h3
    | panic p => rw [hc] at h3; cases h3

end Tpl.Props
