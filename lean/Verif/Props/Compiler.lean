import Verif.Proof.CompilerCl
import Verif.Props.Grammar

/-! Properties C40-C47: the grammar compiler. -/
namespace Tpl.Props
open Tpl Tpl.Spec KwScanner
variable {B : Type} {U : Uni} {k : KwScanner}

/-- The mode `Cl` tokenizes grammar text in. -/
abbrev clMode : Mode := ⟨false, true⟩

/-- A compiler without callbacks. -/
def compiler (src : String) : Compiler Nat := ⟨bytes src, fun g _ => .ok g, ⟨false, false⟩⟩

/-- `Cl` of a text with a new scanner. -/
def compiled (src : String) : Option (ClRes Nat) := (compiler src).cl ascii 60 KwScanner.zero

def ClRes.isOk : Option (ClRes B) → Bool
  | some (.ok _) => true
  | _ => false

mutual
/-- A grammar written as numbers, for the examples below. -/
def show_ : Gr B → List Nat
  | .nil => [0]
  | .tok k => [1, k]
  | .tru => [2]
  | .eof => [3]
  | .peek g => 4 :: show_ g
  | .not g => 5 :: show_ g
  | .and gs => 6 :: gs.length :: shows gs
  | .or gs => 7 :: gs.length :: shows gs
  | .rep0 _ g => 8 :: show_ g
  | .rep1 _ g => 9 :: show_ g
  | .rep01 _ g => 10 :: show_ g
  | .list _ a b z => 11 :: z.toNat :: (show_ a ++ show_ b)
  | .var v => [12, v]
  | .named _ g => 13 :: show_ g
  | .action _ g => 14 :: show_ g
  | .trans _ g => 15 :: show_ g
def shows : List (Gr B) → List Nat
  | [] => []
  | g :: gs => show_ g ++ shows gs
end

/-- The grammar of `doc`. -/
def shape : Option (ClRes B) → Option (List Nat)
  | some (.ok ret) => some (show_ ret.root)
  | _ => none

/-! ### C40 -/

/-- C40: `Cl` returns a grammar iff the text tokenizes into the tokens of a syntax tree of
the documented syntax (Spec/TplText) that has a meaning with a rule `doc` and without
undefined names; the result is that meaning. -/
theorem C40_compiles (c : Compiler B) (hk : Steps U KwScanner.zero k) (ret : CompileRet B) :
    (∃ fuel, c.cl U fuel k = some (.ok ret)) ↔
      ∃ ts eof rs T root, Tokenizes U k c.grammar clMode ts eof ∧ IsDoc ts rs ∧
        denDoc c.marker rs ⟨[], [], 0, (k.tokenize U c.grammar clMode).2⟩ = .ok T ∧
        T.grammars.lookup (bytes "doc") = some root ∧ (∀ v ∈ T.vars, v.2 ≠ none) ∧ ret = ⟨root, T, c.mode⟩ := by
  constructor
  · rintro ⟨fuel, h⟩
    rcases tokenize_cases (U := U) k c.grammar clMode with ⟨ts, ht⟩ | ⟨us, off, msg, ht⟩
    · obtain ⟨eof, htk⟩ := (tokenizes_iff hk).mp ht
      by_cases hd : ∃ rs, IsDoc ts rs
      · obtain ⟨rs, hd⟩ := hd
        obtain ⟨fuel', h'⟩ := cl_doc (c := c) hk htk hd
        have he := cl_unique h' h
        cases ho : denDoc c.marker rs (clStart B U k c.grammar) with
        | error p => rw [ho] at he; cases he
        | ok T =>
          rw [ho] at he
          obtain ⟨root, h1, h2, h3⟩ := clFinish_ok he
          exact ⟨ts, eof, rs, T, root, htk, hd, ho, h1, h2, h3⟩
      · rcases cl_not_doc hk htk (fun rs h => hd ⟨rs, h⟩) h with ⟨e, he⟩ | ⟨p, he⟩ <;> cases he
    · rw [cl_bad ht] at h; cases h
  · rintro ⟨ts, eof, rs, T, root, htk, hd, ho, h1, h2, rfl⟩
    obtain ⟨fuel, h⟩ := cl_doc (c := c) hk htk hd
    refine ⟨fuel, ?_⟩
    change denDoc c.marker rs (clStart B U k c.grammar) = _ at ho
    rw [ho] at h
    rw [h]
    dsimp only
    rw [clFinish_of h1 h2]

/-- C40: the syntax is unambiguous, so precedence and associativity leave no choice. -/
theorem C40_unambiguous {ts : List Token} {rs rs' : List Rule} (h : IsDoc ts rs) (h' : IsDoc ts rs') : rs = rs' :=
  isDoc_unique h h'

/-- C40: a document whose meaning is undefined (a token that does not exist, a rule defined
twice, ...) makes `Cl` panic with what the meaning says. -/
theorem C40_panics (c : Compiler B) (hk : Steps U KwScanner.zero k) {ts eof rs p} (ht : Tokenizes U k c.grammar clMode ts eof)
    (hd : IsDoc ts rs) (hp : denDoc c.marker rs ⟨[], [], 0, (k.tokenize U c.grammar clMode).2⟩ = .error p) :
    ∃ fuel, c.cl U fuel k = some (.panic (.user p)) := by
  obtain ⟨fuel, h⟩ := cl_doc (c := c) hk ht hd
  change denDoc c.marker rs (clStart B U k c.grammar) = _ at hp
  rw [hp] at h
  exact ⟨fuel, h⟩

/-- C40: a text that does not tokenize gives the tokenizer's error, and a text that is no
document is never accepted. -/
theorem C40_rejects (c : Compiler B) (hk : Steps U KwScanner.zero k) (fuel : Nat) (r : ClRes B) (h : c.cl U fuel k = some r) :
    ((∀ ts eof, ¬ Tokenizes U k c.grammar clMode ts eof) → ∃ off msg, r = .err (.match_ (.tokenize off msg))) ∧
    (∀ ts eof, Tokenizes U k c.grammar clMode ts eof → (∀ rs, ¬ IsDoc ts rs) →
      (∃ e, r = .err (.match_ (.match_ e))) ∨ ∃ p, r = .panic p) := by
  refine ⟨fun hn => ?_, fun ts eof ht hd => cl_not_doc hk ht hd h⟩
  rcases tokenize_cases (U := U) k c.grammar clMode with ⟨ts, ht⟩ | ⟨us, off, msg, ht⟩
  · obtain ⟨eof, htk⟩ := (tokenizes_iff hk).mp ht
    exact absurd htk (hn ts eof)
  · rw [cl_bad ht] at h; cases h; exact ⟨off, msg, rfl⟩

/-! ### C41 -/

/-- C41: `Cl` panics for no other reason than an illegal token, a rule defined twice, or
the marker: in particular no action finds too few operands on the stack, and no
fail-fast error, nil dereference or slice error comes up. -/
theorem C41_no_underflow (c : Compiler B) (hk : Steps U KwScanner.zero k) (fuel : Nat) (p : Panic ClAct ClPanic)
    (h : c.cl U fuel k = some (.panic p)) :
    (∃ l, p = .user (.illegal l)) ∨ (∃ n, p = .user (.exists_ n)) ∨ (∃ n, p = .user (.assigned n)) ∨ ∃ m, p = .user (.marker m) := by
  rcases tokenize_cases (U := U) k c.grammar clMode with ⟨ts, ht⟩ | ⟨us, off, msg, ht⟩
  · obtain ⟨eof, htk⟩ := (tokenizes_iff hk).mp ht
    rw [cl_ok ht] at h
    unfold clRun at h
    cases he : matchG clEnv (clSem c.marker) fuel clDoc ts ⟨fun _ => 0, ⟨[], clStart B U k c.grammar⟩⟩ with
    | none => rw [he] at h; cases h
    | some r =>
      rw [he] at h
      have hup := up_doc (mk := c.marker) (U := U) (f := fuel) fuel (Nat.le_refl _) _ _ _ he (tokens_shape hk htk)
        ⟨tokenize_steps hk _ _, tokenize_keywords _ _ _⟩ (Nat.zero_le _)
      cases r with
      | panic p' s =>
        cases h
        obtain ⟨q, rfl, hq⟩ := hup
        cases q with
        | stack | index | ltot => cases hq
        | illegal l => exact .inl ⟨l, rfl⟩
        | exists_ n => exact .inr (.inl ⟨n, rfl⟩)
        | assigned n => exact .inr (.inr (.inl ⟨n, rfl⟩))
        | marker m => exact .inr (.inr (.inr ⟨m, rfl⟩))
      | fail n e s => cases h
      | ok n s =>
        dsimp only at h
        split at h
        · simp only [Option.some.injEq] at h
          unfold clFinish at h
          split at h
          · cases h
          · split at h <;> cases h
        · cases h
  · rw [cl_bad ht] at h; cases h

/-- C41: when the text has been matched the operand stack is as it was before: empty. -/
theorem C41_stack_empty (c : Compiler B) (hk : Steps U KwScanner.zero k) (k1 : KwScanner) (fuel : Nat) (s s' : St (ClSt B))
    (h : ((clMatcher c.marker k1).matchExactly U fuel k c.grammar s).1 = some (.ok () s')) : s'.u.stk = [] := by
  obtain ⟨ts, eof, s1, ht, hi, he⟩ := (C37_matchExactly (clMatcher c.marker k1) (by intro h; cases h) hk c.grammar s s').mp ⟨fuel, h⟩
  cases hi
  obtain ⟨rs, hd⟩ := doc_of_match he
  have h2 := doc_does (mk := c.marker) hd ⟨[], ⟨[], [], 0, k1⟩⟩ { s with u := ⟨[], ⟨[], [], 0, k1⟩⟩ } rfl
  rw [List.append_nil] at h2
  cases ho : denDoc c.marker rs (⟨[], [], 0, k1⟩ : Tab B) with
  | ok T =>
    rw [ho] at h2
    obtain ⟨s'', he', hs⟩ := h2
    have := he.unique he'
    simp only [Res.ok.injEq] at this
    rw [this.2, hs]
  | error p =>
    rw [ho] at h2
    obtain ⟨q, s'', he', _⟩ := h2
    have := he.unique he'
    cases this

/-! ### C42 -/

/-- The grammar of TPL text is well-formed. -/
theorem cl_wellFormed : WellFormed clEnv clDoc :=
  wellFormed_of_check (N := 1) (nul := fun _ => false) (rank := id)
    (by intro v hv; match v, hv with | v + 1, _ => rfl) (by decide +kernel)
    (by intro v g hv; match v, hv with | 0, h => cases h; decide +kernel)

theorem cl_returns (mk : Marker B) : Returns clEnv (clSem mk) := by
  intro a g toks s
  exact ⟨_, 0, rfl⟩

/-- C42: `Cl` comes to an end for every text. -/
theorem C42_terminates (c : Compiler B) (k : KwScanner) : ∃ fuel r, c.cl U fuel k = some r := by
  rcases tokenize_cases (U := U) k c.grammar clMode with ⟨ts, ht⟩ | ⟨us, off, msg, ht⟩
  · obtain ⟨r, fuel, hf⟩ := C30_terminates cl_wellFormed (cl_returns c.marker) ts ⟨fun _ => 0, ⟨[], clStart B U k c.grammar⟩⟩
    refine ⟨fuel, ?_⟩
    rw [cl_ok ht]
    unfold clRun
    rw [hf]
    cases r with
    | panic p s => exact ⟨_, rfl⟩
    | fail n e s => exact ⟨_, rfl⟩
    | ok n s => dsimp only; split <;> exact ⟨_, rfl⟩
  · exact ⟨0, _, cl_bad ht⟩

/-- C42: and the outcome does not depend on the bound. -/
theorem C42_unique (c : Compiler B) (f f' : Nat) (r r' : ClRes B) (h : c.cl U f k = some r) (h' : c.cl U f' k = some r') : r = r' :=
  cl_unique h h'

/-- What `Cl` returns for a document. -/
theorem cl_result {c : Compiler B} (hk : Steps U KwScanner.zero k) {ts eof rs} (ht : Tokenizes U k c.grammar clMode ts eof)
    (hd : IsDoc ts rs) {fuel : Nat} {r : ClRes B} (h : c.cl U fuel k = some r) :
    (∃ T, denDoc c.marker rs (clStart B U k c.grammar) = .ok T ∧ r = clFinish c.mode T) ∨ ∃ p, r = .panic (.user p) := by
  obtain ⟨fuel', h'⟩ := cl_doc (c := c) hk ht hd
  have he := cl_unique h' h
  cases ho : denDoc c.marker rs (clStart B U k c.grammar) with
  | error p => rw [ho] at he; exact .inr ⟨p, he.symm⟩
  | ok T => rw [ho] at he; exact .inl ⟨T, rfl, he.symm⟩

/-! ### C43 -/

/-- C43: in a text that compiles every rule that is referred to is defined (`true` is
built in). -/
theorem C43_defined (c : Compiler B) (hk : Steps U KwScanner.zero k) {ts eof rs} (ht : Tokenizes U k c.grammar clMode ts eof)
    (hd : IsDoc ts rs) {fuel : Nat} {ret : CompileRet B} (h : c.cl U fuel k = some (.ok ret))
    (r : Rule) (hr : r ∈ rs) (n : Str) (hn : n ∈ r.body.refs) (hn1 : n ≠ bytes "true") : ∃ r' ∈ rs, r'.name = n := by
  rcases cl_result hk ht hd h with ⟨T, ho, he⟩ | ⟨p, he⟩
  · obtain ⟨root, h1, h2, h3⟩ := clFinish_ok he.symm
    obtain ⟨a, b⟩ := doc_names ho
    rcases doc_knows ho r hr n hn hn1 with hk | hk
    · exact (a n hk).resolve_left (by simp [clStart, Tab.defined])
    · obtain ⟨v, hv, rfl⟩ := List.mem_map.mp hk
      cases hv2 : v.2 with
      | none => exact absurd hv2 (h2 v hv)
      | some g => exact (b v.1 g (by rw [← hv2]; exact hv)).resolve_left (by simp [clStart])
  · cases he

/-- C43: a reference to a rule that is not defined makes `Cl` return an error, unless it
panics for another reason; if there is a `doc` rule that is not referred to early the
error lists the name. -/
theorem C43_undefined (c : Compiler B) (hk : Steps U KwScanner.zero k) {ts eof rs} (ht : Tokenizes U k c.grammar clMode ts eof)
    (hd : IsDoc ts rs) {fuel : Nat} {res : ClRes B} (h : c.cl U fuel k = some res)
    (r : Rule) (hr : r ∈ rs) (n : Str) (hn : n ∈ r.body.refs) (hn1 : n ≠ bytes "true") (hu : ∀ r' ∈ rs, r'.name ≠ n) :
    res = .err .noDoc ∨ (∃ names, res = .err (.notAssigned names) ∧ n ∈ names) ∨ ∃ p, res = .panic p := by
  rcases cl_result hk ht hd h with ⟨T, ho, he⟩ | ⟨p, he⟩
  · obtain ⟨a, b⟩ := doc_names ho
    have hv : (n, none) ∈ T.vars := by
      rcases doc_knows ho r hr n hn hn1 with hk | hk
      · rcases a n hk with h | ⟨r', hr', h⟩
        · simp [clStart, Tab.defined] at h
        · exact absurd h (hu r' hr')
      · obtain ⟨⟨m, o⟩, hv, rfl⟩ := List.mem_map.mp hk
        cases o with
        | none => exact hv
        | some g =>
          rcases b _ g hv with h | ⟨r', hr', h⟩
          · simp [clStart] at h
          · exact absurd h (hu r' hr')
    have hm : n ∈ (T.vars.filter (fun v => v.2.isNone)).map (·.1) :=
      List.mem_map.mpr ⟨(n, none), List.mem_filter.mpr ⟨hv, rfl⟩, rfl⟩
    unfold clFinish at he
    split at he
    · exact .inl he
    · split at he
      · rename_i h0
        rw [h0] at hm
        cases hm
      · exact .inr (.inl ⟨_, he, hm⟩)
  · exact .inr (.inr ⟨_, he⟩)

/-- C43: a rule defined twice makes `Cl` panic.  Partial: unless the first definition is
nothing but `!` (`C43_violated`); the marker is assumed not to return nil. -/
theorem C43_duplicate_partial (c : Compiler B) (hk : Steps U KwScanner.zero k) (hm : ∀ a n g, c.marker a n = .ok g → g ≠ .nil)
    {ts eof l1 r l2 r' l3} (ht : Tokenizes U k c.grammar clMode ts eof) (hd : IsDoc ts (l1 ++ r :: (l2 ++ r' :: l3)))
    (hn : r'.name = r.name) (hb : r.body.onlyCut = false) {fuel : Nat} {res : ClRes B} (h : c.cl U fuel k = some res) :
    ∃ p, res = .panic p := by
  rcases cl_result hk ht hd h with ⟨T, ho, he⟩ | ⟨p, he⟩
  · exfalso
    obtain ⟨t1, h1, h2⟩ := denDoc_append.mp ho
    obtain ⟨t2, h3, h4⟩ := bind_ok h2
    obtain ⟨t3, h5, h6⟩ := denDoc_append.mp h4
    obtain ⟨t4, h7, h8⟩ := bind_ok h6
    obtain ⟨gs, t5, h9, h10, _⟩ := rule_den h3
    have hmono := doc_mono h1
    refine rule_twice h9 h10 ?_ h5 (hmono.nodup (by simp [clStart, Tab.used])) (hmono.apart (by simp [clStart, Tab.used])) h7 hn
    intro hg
    rw [alts_nil hm _ h9 hg] at hb
    cases hb
  · exact ⟨_, he⟩

/-- C43 does not hold in general: here `a` is defined twice. -/
theorem C43_violated : ClRes.isOk (compiled "x = a; a = !; a = IDENT; doc = x;") = true := by decide +kernel

/-! ### C44 -/

/-- C44: a text that compiles has a rule `doc`. -/
theorem C44_doc (c : Compiler B) (hk : Steps U KwScanner.zero k) {ts eof rs} (ht : Tokenizes U k c.grammar clMode ts eof)
    (hd : IsDoc ts rs) {fuel : Nat} {ret : CompileRet B} (h : c.cl U fuel k = some (.ok ret)) : ∃ r ∈ rs, r.name = bytes "doc" := by
  rcases cl_result hk ht hd h with ⟨T, ho, he⟩ | ⟨p, he⟩
  · obtain ⟨root, h1, h2, h3⟩ := clFinish_ok he.symm
    exact ((doc_names ho).1 _ (lookup_some h1)).resolve_left (by simp [clStart, Tab.defined])
  · cases he

/-- C44: without a rule `doc` the error is `ErrNoDoc`, unless `Cl` panics. -/
theorem C44_missing (c : Compiler B) (hk : Steps U KwScanner.zero k) {ts eof rs} (ht : Tokenizes U k c.grammar clMode ts eof)
    (hd : IsDoc ts rs) (hn : ∀ r ∈ rs, r.name ≠ bytes "doc") {fuel : Nat} {res : ClRes B} (h : c.cl U fuel k = some res) :
    res = .err .noDoc ∨ ∃ p, res = .panic p := by
  rcases cl_result hk ht hd h with ⟨T, ho, he⟩ | ⟨p, he⟩
  · have : T.grammars.lookup (str "doc") = none := by
      refine lookup_none.mpr fun hm => ?_
      rcases (doc_names ho).1 _ hm with h | ⟨r, hr, h⟩
      · exact absurd h (by simp [clStart, Tab.defined])
      · exact hn r hr h
    unfold clFinish at he
    rw [this] at he
    exact .inl he
  · exact .inr ⟨_, he⟩

/-- C44: a rule `doc` that is referred to before it is defined, or in its own body, is
reported as missing. -/
theorem C44_early (c : Compiler B) (hk : Steps U KwScanner.zero k) {ts eof l1 r l2} (ht : Tokenizes U k c.grammar clMode ts eof)
    (hd : IsDoc ts (l1 ++ r :: l2)) (hn : ∀ r' ∈ l1, r'.name ≠ bytes "doc")
    (hr : bytes "doc" ∈ r.body.refs ∨ ∃ r' ∈ l1, bytes "doc" ∈ r'.body.refs)
    {fuel : Nat} {res : ClRes B} (h : c.cl U fuel k = some res) : res = .err .noDoc ∨ ∃ p, res = .panic p := by
  rcases cl_result hk ht hd h with ⟨T, ho, he⟩ | ⟨p, he⟩
  · left
    obtain ⟨t1, h1, h2⟩ := denDoc_append.mp ho
    obtain ⟨t2, h3, h4⟩ := bind_ok h2
    obtain ⟨gs, t3, h5, h6, e3, k3⟩ := rule_den h3
    have hndef : bytes "doc" ∉ t1.defined := by
      intro hm
      rcases (doc_names h1).1 _ hm with h | ⟨r, hr, h⟩
      · simp [clStart, Tab.defined] at h
      · exact hn r hr h
    have hused : bytes "doc" ∈ t3.used := by
      have : Known (bytes "doc") t3 := by
        rcases hr with hr | ⟨r', hr', hr⟩
        · exact k3 _ hr (by decide)
        · exact e3.known (doc_knows h1 r' hr' _ hr (by decide))
      exact this.resolve_left (e3.defined ▸ hndef)
    have hT := (define_mono h6).trans (doc_mono h4)
    have hap : ∀ n ∈ T.used, n ∉ T.defined := (doc_mono ho).apart (by simp [clStart, Tab.used])
    have : T.grammars.lookup (str "doc") = none := lookup_none.mpr (hap _ (hT.used _ hused))
    unfold clFinish at he
    rw [this] at he
    exact he
  · exact .inr ⟨_, he⟩

/-! ### C45 -/

/-- `Code` of the compiled grammar as the text of a new rule `doc`, compiled again with the
same scanner. -/
def recompiled (src : String) : Option (ClRes Nat) :=
  match compiled src with
  | some (.ok ret) =>
    match ret.root.code ret.tab.scanner.ttol (fun v => (ret.tab.vars[v]?.map (·.1)).getD []) with
    | .ok text => (⟨bytes "doc = " ++ text ++ bytes ";", fun g _ => .ok g, ⟨false, false⟩⟩ : Compiler Nat).cl ascii 60 ret.tab.scanner
    | .panic => none
  | _ => none

/-- How many tokens of the text the grammar matches. -/
def matches_ (r : Option (ClRes Nat)) (text : String) : Option Nat :=
  match r with
  | some (.ok ret) =>
    match matchG ret.env noCalls.sem 40 ret.root (ret.tab.scanner.tokenize ascii (bytes text) ret.mode).1.1 st0 with
    | some (.ok n _) => some n
    | _ => none
  | _ => none

/-- C45 does not hold: the printed grammar loses the parentheses around a list on the right. -/
theorem C45_violated_list :
    matches_ (compiled "doc = INT % (IDENT % ',');") "1 a, b 2" = some 5 ∧
    matches_ (recompiled "doc = INT % (IDENT % ',');") "1 a, b 2" = some 1 := by decide +kernel

/-- C45 does not hold: a repetition of a repetition is printed as `++`, which does not compile. -/
theorem C45_violated_repeat :
    ClRes.isOk (compiled "doc = +(+IDENT);") = true ∧ ClRes.isOk (recompiled "doc = +(+IDENT);") = false := by decide +kernel

/-- C45 does not hold: `!` is not printed. -/
theorem C45_violated_cut :
    matches_ (compiled "doc = INT ! IDENT | INT;") "1" = none ∧
    matches_ (recompiled "doc = INT ! IDENT | INT;") "1" = some 1 := by decide +kernel

/-! ### C46 -/

/-- Tokens of kind EOF do not occur among the tokens. -/
theorem no_eof {U : Uni} {kw : Str → Option Nat} : ∀ (f : Nat) (s : Scanner), ∀ t ∈ (tokenizeLoop U kw f s).1, t.kind ≠ EOF := by
  intro f
  induction f with
  | zero => intro s t ht; cases ht
  | succ f ih =>
    intro s t ht
    unfold tokenizeLoop at ht
    split at ht
    rename_i t' s' _
    split at ht
    · cases ht
    · split at ht
      · cases ht
      · rename_i hne
        have ih' := ih s'
        revert ht ih'
        cases tokenizeLoop U kw f s' with
        | mk a b =>
          cases b with
          | mk b c =>
            intro ht ih'
            dsimp only at ht
            rcases List.mem_cons.mp ht with rfl | ht
            · exact hne
            · exact ih' t ht

/-- C46 does not hold: `EOF` in a grammar compiles to the token kind EOF ... -/
theorem C46_violated : shape (compiled "doc = IDENT EOF;") = some (show_ (.and [.tok IDENT, .tok EOF] : Gr Nat)) := by
  decide +kernel

/-- ... which no token has that `Tokenize` returns: it does not match anywhere, in
particular not at the end. -/
theorem C46_never {σ V P : Type} (hk : Steps U KwScanner.zero k) (src : Str) (mode : Mode) (ts : List Token) (eof : Token)
    (ht : Tokenizes U k src mode ts eof) (i : Nat) (env : Env B) (sem : Sem B σ V P) (s s' : St σ) (n : Nat) :
    ¬ Eval env sem (.tok EOF) (ts.drop i) s (.ok n s') := by
  intro he
  have h1 := (tokenizes_ok hk ht).1
  have hno : ∀ t ∈ ts, t.kind ≠ EOF := by
    have := no_eof (U := U) (kw := (k.init src mode).keywords.get) (2 * src.length + 2) (k.init src mode).sc
    have e : (tokenizeLoop U (k.init src mode).keywords.get (2 * src.length + 2) (k.init src mode).sc).1 = ts := by
      have h2 := congrArg Prod.fst h1
      exact h2
    rw [e] at this
    exact this
  cases hd : ts.drop i with
  | nil => rw [hd] at he; cases eval_tok_nil.mp he
  | cons t l =>
    rw [hd] at he
    have hm : t ∈ ts := List.mem_of_mem_drop (by rw [hd]; exact List.mem_cons_self ..)
    have := eval_tok_cons.mp he
    rw [if_neg (fun hf : TokFits EOF t => hno t hm (hf.resolve_right (by rintro ⟨_, h⟩; exact absurd h (by decide))))] at this
    cases this

/-! ### C47 -/

section
variable {σ V P : Type}

/-- C47: on tokens `EvalSub` succeeds iff there is a rule of this name, the Matcher's
`Init` returns, and the rule matches all tokens. -/
theorem C47_tokens (c : CompileRet B) (sem : Sem B σ V P) (init : St σ → Cb B σ P Unit) (k : KwScanner) (name : Str) (doc : List Token)
    (s s' : St σ) : (∃ fuel, (c.evalSub sem init U fuel k name (.tokens doc) s).1 = some (.ok s')) ↔
      ∃ g s1, c.tab.grammars.lookup name = some g ∧ init s = .ok () s1 ∧ Eval c.env sem g doc s1 (.ok doc.length s') := by
  constructor
  · rintro ⟨fuel, h⟩
    unfold CompileRet.evalSub at h
    cases hl : c.tab.grammars.lookup name with
    | none => rw [hl] at h; cases h
    | some g =>
      rw [hl] at h
      dsimp only at h
      cases hi : init s with
      | panic p s1 => rw [hi] at h; cases h
      | ok u s1 =>
        rw [hi] at h
        dsimp only at h
        cases hm : matchG c.env sem fuel g doc s1 with
        | none => rw [hm] at h; cases h
        | some r =>
          rw [hm] at h
          cases r with
          | panic p s2 => cases h
          | fail n e s2 => cases h
          | ok n s2 =>
            dsimp only at h
            by_cases hn : doc.length = n
            · rw [if_neg (by simpa using hn)] at h
              cases h
              exact ⟨g, s1, rfl, rfl, fuel, by rw [hn]; exact hm⟩
            · rw [if_pos hn] at h; cases h
  · rintro ⟨g, s1, hl, hi, fuel, he⟩
    refine ⟨fuel, ?_⟩
    unfold CompileRet.evalSub
    rw [hl]
    dsimp only
    rw [hi]
    dsimp only
    rw [he]
    simp

/-- C47: on text `EvalSub` succeeds iff there is a rule of this name that is not nil, the
text tokenizes, and the rule matches all tokens.  (`Init` is not called.) -/
theorem C47_text (c : CompileRet B) (sem : Sem B σ V P) (init : St σ → Cb B σ P Unit) (hk : Steps U KwScanner.zero k) (name : Str)
    (text : Str) (s s' : St σ) : (∃ fuel, (c.evalSub sem init U fuel k name (.text text) s).1 = some (.ok s')) ↔
      ∃ g ts eof, c.tab.grammars.lookup name = some g ∧ g ≠ .nil ∧ Tokenizes U k text c.mode ts eof ∧
        Eval c.env sem g ts s (.ok ts.length s') := by
  cases hl : c.tab.grammars.lookup name with
  | none =>
    constructor
    · rintro ⟨fuel, h⟩
      unfold CompileRet.evalSub at h
      rw [hl] at h
      cases h
    · rintro ⟨g, ts, eof, h, _⟩
      cases h
  | some g =>
    by_cases hg : g = .nil
    · constructor
      · rintro ⟨fuel, h⟩
        unfold CompileRet.evalSub at h
        rw [hl] at h
        dsimp only at h
        rw [(C37_no_grammar (⟨g, c.mode, fun s => .ok () s, c.env, sem⟩ : Matcher B σ V P) hg U k text s fuel).2] at h
        cases h
      · rintro ⟨g', ts, eof, h, hn, _⟩
        cases h
        exact absurd hg hn
    · have key := C37_matchExactly (⟨g, c.mode, fun s => .ok () s, c.env, sem⟩ : Matcher B σ V P) hg hk text s s'
      have e : ∀ fuel, (c.evalSub sem init U fuel k name (.text text) s).1 = some (.ok s') ↔
          ((⟨g, c.mode, fun s => .ok () s, c.env, sem⟩ : Matcher B σ V P).matchExactly U fuel k text s).1 = some (.ok () s') := by
        intro fuel
        unfold CompileRet.evalSub
        rw [hl]
        dsimp only
        cases ((⟨g, c.mode, fun s => .ok () s, c.env, sem⟩ : Matcher B σ V P).matchExactly U fuel k text s).1 with
        | none => simp
        | some r => cases r <;> simp
      constructor
      · rintro ⟨fuel, h⟩
        obtain ⟨ts, eof, s1, h1, h2, h3⟩ := key.mp ⟨fuel, (e fuel).mp h⟩
        cases h2
        exact ⟨g, ts, eof, rfl, hg, h1, h3⟩
      · rintro ⟨g', ts, eof, h, _, h1, h2⟩
        cases h
        obtain ⟨fuel, h⟩ := key.mpr ⟨ts, eof, s, h1, rfl, h2⟩
        exact ⟨fuel, (e fuel).mpr h⟩

/-- C47: an unknown name gives `ErrNoGrammar`, another kind of source is rejected. -/
theorem C47_rejects (c : CompileRet B) (sem : Sem B σ V P) (init : St σ → Cb B σ P Unit) (fuel : Nat) (k : KwScanner) (name : Str)
    (src : SubSrc) (s : St σ) :
    (c.tab.grammars.lookup name = none → (c.evalSub sem init U fuel k name src s).1 = some (.err (.m .noGrammar) s)) ∧
    (c.tab.grammars.lookup name ≠ none → (c.evalSub sem init U fuel k name .other s).1 = some (.err .unsupported s)) := by
  constructor
  · intro h
    unfold CompileRet.evalSub
    rw [h]
  · intro h
    unfold CompileRet.evalSub
    cases hl : c.tab.grammars.lookup name with
    | none => exact absurd hl h
    | some g => rfl

/-- C47: the names `EvalSub` knows are those of the rules that are not referred to before
they are defined, and the grammar is what the rule's body means.  (A rule that is referred to
before is known as a variable only: `C47_forward`.) -/
theorem C47_known (c : Compiler B) (hk : Steps U KwScanner.zero k) {ts eof l1 r l2} (ht : Tokenizes U k c.grammar clMode ts eof)
    (hd : IsDoc ts (l1 ++ r :: l2)) (hn : ∀ r' ∈ l1, r.name ∉ r'.body.refs) (hr : r.name ∉ r.body.refs)
    {fuel : Nat} {ret : CompileRet B} (h : c.cl U fuel k = some (.ok ret)) :
    ∃ t1 gs t2, denDoc c.marker l1 ⟨[], [], 0, (k.tokenize U c.grammar clMode).2⟩ = .ok t1 ∧ r.body.den c.marker t1 = .ok (gs, t2) ∧
      ret.tab.grammars.lookup r.name = some (oneOrOr gs) := by
  rcases cl_result hk ht hd h with ⟨T, ho, he⟩ | ⟨p, he⟩
  · obtain ⟨root, _, _, rfl⟩ := clFinish_ok he.symm
    obtain ⟨t1, h1, h2⟩ := denDoc_append.mp ho
    obtain ⟨t2, h3, h4⟩ := bind_ok h2
    obtain ⟨gs, t3, h5, h6, e3, k3⟩ := rule_den h3
    refine ⟨t1, gs, t3, h1, h5, doc_lookup h4 ?_⟩
    have hu : r.name ∉ t3.used := by
      intro hm
      rcases (alts_names r.body h5).from_ _ hm with hm | hm
      · rcases doc_used h1 _ hm with hm | ⟨r', hr', hm⟩
        · simp [clStart, Tab.used] at hm
        · exact hn r' hr' hm
      · exact hr hm
    rcases define_cases h6 with ⟨h, _⟩ | ⟨h, _⟩ | ⟨_, _, rfl⟩
    · exact absurd h hu
    · exact absurd h hu
    · simp
  · cases he

end

/-- A rule that is referred to before its definition is not found by `EvalSub`. -/
theorem C47_forward :
    (match compiled "doc = x; x = IDENT;" with
      | some (.ok ret) => (ret.tab.grammars.lookup (bytes "x")).isNone && (ret.tab.grammars.lookup (bytes "doc")).isSome
      | _ => false) = true := by decide +kernel

/-! ### Examples -/

example : shape (compiled "doc = IDENT INT | +CHAR % ',' STRING;") =
    some (show_ (.or [.and [.tok IDENT, .tok INT], .and [.list 1 (.rep1 0 (.tok CHAR)) (.tok 44) false, .tok STRING]] : Gr Nat)) := by
  decide +kernel

example : shape (compiled "doc = IDENT % ',' %= ';';") =
    some (show_ (.list 1 (.list 0 (.tok IDENT) (.tok 44) false) (.tok 59) true : Gr Nat)) := by decide +kernel

example : ∃ T : Tab Nat, denDoc (fun g _ => .ok g) [⟨bytes "x", .one (.term (.ident (bytes "doc")) .nil) .nil⟩,
    ⟨bytes "doc", .one (.term (.ident (bytes "INT")) .nil) .nil⟩] ⟨[], [], 0, KwScanner.zero⟩ = .ok T := ⟨_, rfl⟩

/-- Is this the error? -/
def isNoDoc : Option (ClRes B) → Bool
  | some (.err .noDoc) => true
  | _ => false

def unassigned : Option (ClRes B) → List Str
  | some (.err (.notAssigned ns)) => ns
  | _ => []

def panics : Option (ClRes B) → Option ClPanic
  | some (.panic (.user p)) => some p
  | _ => none

example : isNoDoc (compiled "x = doc; doc = INT;") = true := by decide +kernel
example : isNoDoc (compiled "doc = '(' doc ')' | INT;") = true := by decide +kernel
example : unassigned (compiled "doc = x y; x = INT;") = [bytes "y"] := by decide +kernel
example : ClRes.isOk (compiled "expr = '(' expr ')' | INT; doc = expr;") = true := by decide +kernel
example : (match panics (compiled "x = INT; x = CHAR; doc = x;") with | some (.exists_ n) => n == bytes "x" | _ => false) = true := by
  decide +kernel
example : (match panics (compiled "doc = FOO;") with | some (.illegal n) => n == bytes "FOO" | _ => false) = true := by decide +kernel

end Tpl.Props
