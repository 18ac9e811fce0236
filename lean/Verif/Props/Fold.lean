import Verif.Proof.Fold
import Verif.Props.Order

/-! Property C128: a reference to a rule and the body of the rule. -/
namespace Tpl.Props
open Tpl Tpl.Spec KwScanner Scanner
variable {A B σ V P : Type} {U : Uni} {k : KwScanner}

/-- The rules of `a'` are rules of `a`, with some references to rules replaced by the bodies of the rules; rules that
are no longer referred to may be missing. Every rule of `a` has a name of its own, none is named `true`, and the
same words are quoted in both texts. -/
structure Replaced (U : Uni) (k : KwScanner) (a a' : Str) : Prop where
  docs : ∃ ts e ts' e' rs rs', Tokenizes U k a clMode ts e ∧ IsDoc ts rs ∧ Tokenizes U k a' clMode ts' e' ∧ IsDoc ts' rs' ∧
    Unfolded rs rs' ∧ (rs.map Rule.name).Nodup ∧ ∀ r ∈ rs, r.name ≠ bytes "true"
  words : ∀ w, QuotedIn U a w ↔ QuotedIn U a' w

theorem kindRel_flip {R : Nat → Nat → Prop} (h : KindRel R) : KindRel fun a b => R b a :=
  ⟨fun h1 h2 => (h.inj h1 h2).symm, fun h1 => (h.int h1).symm, fun h1 => (h.float h1).symm⟩

/-- What is known of the two compiled texts. -/
theorem cl_replaced {mk : Marker B} (hmk : Uniform mk) {mode : Mode} (hk : Steps U KwScanner.zero k) (hb : k.sc.bad = false) {a a' : Str} (hr : Replaced U k a a')
    {f f' : Nat} {ret ret' : CompileRet B} (h : Compiler.cl ⟨a, mk, mode⟩ U f k = some (.ok ret)) (h' : Compiler.cl ⟨a', mk, mode⟩ U f' k = some (.ok ret'))
    (hbang : ∀ n g, Def ret.tab n g → g ≠ .nil) :
    Carried (SameKind ret.tab.scanner ret'.tab.scanner) ret ret' ∧ Carried (fun x y => SameKind ret.tab.scanner ret'.tab.scanner y x) ret' ret := by
  have hsc := cl_scanner _ hk hb h
  have hsc' := cl_scanner _ hk hb h'
  obtain ⟨us, e1, us', e1', rs, rs', ht, hd, ht', hd', hu, hnd, htr⟩ := hr.docs
  obtain ⟨ts, e, rs1, T, root, htk, hd1, ho, hroot, hv, rfl⟩ := (C40_compiles _ hk ret).mp ⟨f, h⟩
  obtain ⟨ts', e', rs1', T', root', htk', hd1', ho', hroot', hv', rfl⟩ := (C40_compiles _ hk ret').mp ⟨f', h'⟩
  have ets : ∀ {a : Str} {ts us : List Token} {e e1 : Token}, Tokenizes U k a clMode ts e → Tokenizes U k a clMode us e1 → ts = us := by
    intro a ts us e e1 h h'
    have h1 := (tokenizes_ok hk h).1
    rw [(tokenizes_ok hk h').1] at h1
    injection h1 with h1
    exact h1.symm
  obtain rfl := ets htk ht
  obtain rfl := ets htk' ht'
  obtain rfl := C40_unambiguous hd hd1
  obtain rfl := C40_unambiguous hd' hd1'
  have f1 := den_fine hmk hk ho
  have f2 := den_fine hmk hk ho'
  have htr' : ∀ r ∈ rs', r.name ≠ bytes "true" := by
    intro r' hr'
    obtain ⟨r, hr, hn, _⟩ := hu r' hr'
    exact hn ▸ htr r hr
  have hD := docs_of hmk (t := clStart B U k a) (t' := clStart B U k a') ⟨rfl, rfl⟩ ⟨rfl, rfl⟩ ho ho' hv hv' hnd htr htr' hbang
  have hT := hD.tied (t := clStart B U k a) (t' := clStart B U k a') ⟨rfl, rfl⟩ ⟨rfl, rfl⟩ ho ho' hv hv' hnd hu (kindRel f1 f2)
  have hR := hD.rules (t := clStart B U k a) (t' := clStart B U k a') ⟨rfl, rfl⟩ ⟨rfl, rfl⟩ ho ho' hnd hu (.inl hroot) (.inl hroot')
  have words : ∀ w, T.scanner.keywords.get w ≠ none ↔ T'.scanner.keywords.get w ≠ none := by
    intro w
    have e1 := hsc.2.2 w
    have e2 := hsc'.2.2 w
    change _ ↔ _ ∨ (QuotedIn U a w ∧ _) at e1
    change _ ↔ _ ∨ (QuotedIn U a' w ∧ _) at e2
    rw [e1, e2, hr.words]
  have hw : ∀ w, (T.scanner.keywords.get w = none ∧ T'.scanner.keywords.get w = none) ∨
      ∃ x y, T.scanner.keywords.get w = some x ∧ T'.scanner.keywords.get w = some y ∧ SameKind T.scanner T'.scanner x y := by
    intro w
    cases hg0 : T.scanner.keywords.get w with
    | some x =>
      cases hg1 : T'.scanner.keywords.get w with
      | some y => exact .inr ⟨x, y, rfl, rfl, .inr ⟨_, hg0, hg1⟩⟩
      | none => exact absurd hg1 ((words _).mp (by rw [hg0]; simp))
    | none =>
      cases hg1 : T'.scanner.keywords.get w with
      | none => exact .inl ⟨rfl, rfl⟩
      | some y => exact absurd hg0 ((words _).mpr (by rw [hg1]; simp))
  have heof : ∀ a b, SameKind T.scanner T'.scanner a b → (a = EOF ↔ b = EOF) := by
    rintro a b (⟨rfl, _⟩ | ⟨w, h1, h2⟩)
    · exact Iff.rfl
    · have := (f1.range h1).1; have := (f2.range h2).1; unfold EOF; omega
  refine ⟨⟨fun hs ht => ?_, hR.nil_iff, ⟨fun a ha => .inl ⟨rfl, ha⟩, heof⟩, hsc.1, hsc'.1, hw⟩,
    ⟨fun hs ht => ?_, hR.nil_iff.symm, ⟨fun a ha => .inl ⟨rfl, ha⟩, fun a b h => (heof b a h).symm⟩, hsc'.1, hsc.1, fun w => ?_⟩⟩
  · obtain ⟨o', e', h1, h2, h3⟩ := carry hT ht false root' _ hR hs
    exact ⟨o', e', h1, h2.1, h3⟩
  · obtain ⟨o', e', h1, h2, h3⟩ := carry (hT.symm (kindRel_flip (kindRel f1 f2))) ht false root _ hR.symm hs
    exact ⟨o', e', h1, h2.1, h3⟩
  · rcases hw w with ⟨h1, h2⟩ | ⟨x, y, h1, h2, h3⟩
    · exact .inl ⟨h2, h1⟩
    · exact .inr ⟨y, x, h2, h1, h3⟩

/-- C128 for tokens: what is matched, how many tokens, and which marked functions are called for which tokens and
numbers of items is the same, whether a rule is referred to or written out. -/
theorem C128_traces_partial {mk : Marker B} (hmk : Uniform mk) {mode : Mode} (hk : Steps U KwScanner.zero k) (hb : k.sc.bad = false) {a a' : Str} (hr : Replaced U k a a')
    {f f' : Nat} {ret ret' : CompileRet B} (h : Compiler.cl ⟨a, mk, mode⟩ U f k = some (.ok ret)) (h' : Compiler.cl ⟨a', mk, mode⟩ U f' k = some (.ok ret'))
    (hbang : ∀ n g, Def ret.tab n g → g ≠ .nil) :
    Follows ret.env ret'.env (SameKind ret.tab.scanner ret'.tab.scanner) ret.root ret'.root ∧
    Follows ret'.env ret.env (fun x y => SameKind ret.tab.scanner ret'.tab.scanner y x) ret'.root ret.root :=
  ⟨(cl_replaced hmk hk hb hr h h' hbang).1.moves, (cl_replaced hmk hk hb hr h h' hbang).2.moves⟩

/-- C128 for texts: `MatchExactly` ends the same way, and the marked functions leave the same state behind. -/
theorem C128_text_partial {mk : Marker B} (hmk : Uniform mk) {mode : Mode} (hk : Steps U KwScanner.zero k) (hb : k.sc.bad = false) {a a' : Str} (hr : Replaced U k a a')
    {f f' : Nat} {ret ret' : CompileRet B} (h : Compiler.cl ⟨a, mk, mode⟩ U f k = some (.ok ret)) (h' : Compiler.cl ⟨a', mk, mode⟩ U f' k = some (.ok ret'))
    (hbang : ∀ n g, Def ret.tab n g → g ≠ .nil) {c : Calls B σ V P} (hc : TextOnly c) (init : St σ → Cb B σ P Unit) (src : Str) (s : St σ) (v : Verdict × σ) :
    (∃ fuel r, ((⟨ret.root, mode, init, ret.env, c.sem⟩ : Matcher B σ V P).matchExactly U fuel ret.tab.scanner src s).1 = some r ∧ verdict r = v) ↔
    ∃ fuel r, ((⟨ret'.root, mode, init, ret'.env, c.sem⟩ : Matcher B σ V P).matchExactly U fuel ret'.tab.scanner src s).1 = some r ∧ verdict r = v := by
  obtain ⟨h1, h2⟩ := cl_replaced hmk hk hb hr h h' hbang
  constructor
  · rintro ⟨fuel, r, hm, rfl⟩
    obtain ⟨fuel', r', e1, e2⟩ := text_alike h1 hc init src s hm
    exact ⟨fuel', r', e1, e2.symm⟩
  · rintro ⟨fuel, r, hm, rfl⟩
    obtain ⟨fuel', r', e1, e2⟩ := text_alike h2 hc init src s hm
    exact ⟨fuel', r', e1, e2.symm⟩

/-- C128: a grammar text compiles when references are replaced, if it did, no rule is a lone `!`, the rules that are
still referred to are there, and no rule up to the rule `doc` refers to `doc`. -/
theorem C128_compiles_partial {mk : Marker B} (hmk : Uniform mk) {mode : Mode} (hk : Steps U KwScanner.zero k) {a a' : Str} {ts ts' : List Token} {e e' : Token}
    {rs l l' : List Rule} {d : Rule} (ht : Tokenizes U k a clMode ts e) (hd : IsDoc ts rs) (ht' : Tokenizes U k a' clMode ts' e') (hd' : IsDoc ts' (l ++ d :: l'))
    (hu : Unfolded rs (l ++ d :: l')) (hnd : (rs.map Rule.name).Nodup) (hnd' : ((l ++ d :: l').map Rule.name).Nodup)
    (href : ∀ r ∈ l ++ d :: l', ∀ n ∈ r.body.refs, n ≠ bytes "true" → ∃ r' ∈ l ++ d :: l', r'.name = n)
    (hdoc : d.name = bytes "doc") (hearly : ∀ r ∈ l ++ [d], bytes "doc" ∉ r.body.refs)
    {f : Nat} {ret : CompileRet B} (h : Compiler.cl ⟨a, mk, mode⟩ U f k = some (.ok ret)) (hbang : ∀ n g, Def ret.tab n g → g ≠ .nil) :
    ∃ f' ret', Compiler.cl ⟨a', mk, mode⟩ U f' k = some (.ok ret') := by
  rcases cl_result hk ht hd h with ⟨T, ho, he⟩ | ⟨p, he⟩
  case inr => cases he
  obtain ⟨root, h1, h2, h3⟩ := clFinish_ok he.symm
  subst h3
  have hv : ∀ v ∈ T.vars, v.2 ≠ none := h2
  have hb := doc_bodies ⟨rfl, rfl⟩ ho hv hnd hbang
  have hfine : KwFine (clStart B U k a').scanner := by
    rw [clStart_eq]
    exact kinv_fine ((tokenize_steps hk a' clMode).inv zero_inv).1 (tokenize_keywords _ _ _)
  refine compiles_of hmk hk ht' hd' (fun r' hr' => ?_) hnd' href hdoc hearly
  obtain ⟨r, hr, _, hun⟩ := hu r' hr'
  obtain ⟨t, x, e1, e2⟩ := hb r hr
  obtain ⟨x', e3, _, e4⟩ := alts_unf_total hmk (fun n b hm => hb _ hm) hun e1 hfine
  exact ⟨_, x', e3, fun e => e2 ((oneOrOr_alike e4).mpr e)⟩

/-! ### Where it does matter -/

/-- Functions that write down the numbers of items they are given. -/
def counting : Calls Str (List Int) Unit Empty := ⟨fun _ _ _ l u => .ok (u ++ [l]), fun _ u => .ok ((), u), fun _ _ _ u => .ok u⟩

/-- How the grammar of the first text deals with the second text. -/
def counted (src text : String) : Option (Verdict × List Int) :=
  match Compiler.cl ⟨bytes src, fun g m => .ok (.action m g), ⟨false, false⟩⟩ ascii 60 KwScanner.zero with
  | some (.ok ret) =>
    (((⟨ret.root, ret.mode, fun s => .ok () s, ret.env, counting.sem⟩ : Matcher Str (List Int) Unit Empty).matchExactly ascii 40 ret.tab.scanner (bytes text) ⟨fun _ => 0, []⟩).1).map verdict
  | _ => none

/-- C128 is violated for a reference with a mark: the function does not get the number of items. -/
theorem C128_violated_mark : counted "num = INT % ','; doc = num/f;" "1, 2, 3" = some (.accepted, [-1]) ∧
    counted "doc = (INT % ',')/f;" "1, 2, 3" = some (.accepted, [3]) := by decide +kernel

/-- C128 is violated for a rule that is a lone `!`. -/
theorem C128_violated_bang : counted "y = !; doc = INT y;" "1" = some (.panicked, []) ∧ counted "y = !; doc = INT (!);" "1" = some (.accepted, []) := by decide +kernel

/-- C128 is violated for a rule named `true` that comes later. -/
theorem C128_violated_true : counted "doc = true; true = INT;" "1" = some (.rejected, []) ∧ counted "doc = (INT); true = INT;" "1" = some (.accepted, []) := by decide +kernel

/-- C128 is violated for a rule that refers to `doc`: written out in `doc` it does not compile. -/
theorem C128_violated_doc : ClRes.isOk (compiled "doc = INT x; x = '+' doc | 1;") = true ∧ ClRes.isOk (compiled "doc = INT ('+' doc | 1);") = false := by decide +kernel

/-! ### Examples -/

def inDoc : Rule := ⟨bytes "doc", .one (.term (.paren (.alt (.term (.ident (bytes "INT")) .nil) .nil (.one (.term (.string (bytes "\"nil\"")) .nil) .nil))) (.list (.char (bytes "','")) .nil)) .nil⟩
def inToks : List Token := [⟨IDENT, 0, bytes "doc"⟩, ⟨ASSIGN, 4, []⟩, ⟨LPAREN, 6, []⟩, ⟨IDENT, 7, bytes "INT"⟩, ⟨OR, 11, []⟩, ⟨STRING, 13, bytes "\"nil\""⟩, ⟨RPAREN, 18, []⟩,
  ⟨REM, 20, []⟩, ⟨CHAR, 22, bytes "','"⟩, ⟨SEMICOLON, 25, [59]⟩]

theorem written : (∃ e, Tokenizes ascii KwScanner.zero (bytes "doc = (INT | \"nil\") % ',';") clMode inToks e) ∧ IsDoc inToks [inDoc] :=
  ⟨(tokenizes_iff (.refl _)).mp (by decide +kernel), by simp, by decide +kernel⟩

theorem written_unf : Unfolded [docRule, numRule] [inDoc] := by
  intro r' hr'
  obtain rfl : r' = inDoc := by simpa using hr'
  refine ⟨docRule, by simp, rfl, .single (.term (.body (n := bytes "num") (b := numRule.body) (by simp [numRule]) (by decide) ?_) (.list .char .nil))⟩
  exact .alt (.term .ident .nil) .nil (.single (.term .string .nil))

/-- `num` is written out in `doc`. -/
example : Replaced ascii KwScanner.zero (bytes "doc = num % ','; num = INT | \"nil\";") (bytes "doc = (INT | \"nil\") % ',';") := by
  obtain ⟨⟨e, h1⟩, h2⟩ := docFirst
  obtain ⟨⟨e', h1'⟩, h2'⟩ := written
  refine ⟨⟨_, e, _, e', _, _, h1, h2, h1', h2', written_unf, by decide, by simp; decide⟩, fun w => ?_⟩
  have hq : ∀ {w : Str}, 34 :: (w ++ [34]) = bytes "\"nil\"" → w = bytes "nil" := by
    intro w h
    injection h with _ h
    exact (List.append_inj' (t₁ := [34]) (t₂ := [34]) h rfl).1
  constructor
  · intro h
    have := quotedIn_mem h (by decide +kernel)
    rw [show litsOf STRING (bytes "doc = num % ','; num = INT | \"nil\";") clMode = [bytes "\"nil\""] by decide +kernel, List.mem_singleton] at this
    exact ((doc_quoted (.refl _) rfl h1' h2' w).mp ⟨bytes "\"nil\"", by decide +kernel, hq this ▸ ⟨by decide, by decide +kernel, by decide⟩⟩).1
  · intro h
    have := quotedIn_mem h (by decide +kernel)
    rw [show litsOf STRING (bytes "doc = (INT | \"nil\") % ',';") clMode = [bytes "\"nil\""] by decide +kernel, List.mem_singleton] at this
    exact ((doc_quoted (.refl _) rfl h1 h2 w).mp ⟨bytes "\"nil\"", by decide +kernel, hq this ▸ ⟨by decide, by decide +kernel, by decide⟩⟩).1

example : ClRes.isOk (compiled "doc = num % ','; num = INT | \"nil\";") = true ∧ ClRes.isOk (compiled "doc = (INT | \"nil\") % ',';") = true := by decide +kernel

example : counted "doc = num % ','/f; num = INT | \"nil\";" "1, nil, 2" = some (.accepted, [3]) ∧ counted "doc = (INT | \"nil\") % ','/f;" "1, nil, 2" = some (.accepted, [3]) := by decide +kernel

end Tpl.Props
