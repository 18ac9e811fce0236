import Verif.Proof.CompilerStack
import Verif.Proof.CompilerNames

/-! What `Cl` comes to. -/
namespace Tpl
open Tpl.Spec KwScanner Tpl.Props
variable {B : Type} {U : Uni} {k : KwScanner}

theorem tokenizeLoop_steps {k0 : KwScanner} : ∀ (f : Nat) (k : KwScanner), Steps U k0 k →
    Steps U k0 { k with sc := (tokenizeLoop U k.keywords.get f k.sc).2.2 } := by
  intro f
  induction f with
  | zero => intro k h; exact h
  | succ f ih =>
    intro k h
    unfold tokenizeLoop
    have h1 : Steps U k0 { k with sc := (kwScan U k.keywords.get k.sc).2 } := .step h (.scan k)
    cases hs : kwScan U k.keywords.get k.sc with
    | mk t s =>
      rw [hs] at h1
      dsimp only
      cases s.errs with
      | cons e es => exact h1
      | nil =>
        dsimp only
        split
        · exact h1
        · exact ih _ h1

theorem tokenize_steps {k0 : KwScanner} (h : Steps U k0 k) (src : Str) (mode : Mode) : Steps U k0 (k.tokenize U src mode).2 := by
  have := tokenizeLoop_steps (2 * src.length + 2) (k.init src mode) (.step h (.init k src mode))
  exact this

theorem tokenize_keywords (k : KwScanner) (src : Str) (mode : Mode) : (k.tokenize U src mode).2.keywords ≠ none := by
  show (k.init src mode).keywords ≠ none
  unfold KwScanner.init
  cases k.keywords <;> simp

theorem op_kinds : ∀ p ∈ operators, p.1 ≠ IDENT ∧ p.1 ≠ CHAR ∧ p.1 ≠ STRING := by decide +kernel

/-- Identifiers, characters and strings of a text that tokenizes. -/
theorem tokens_shape (hk : Steps U KwScanner.zero k) {src : Str} {mode : Mode} {ts : List Token} {eof : Token}
    (h : Tokenizes U k src mode ts eof) : ∀ t ∈ ts, ClTok t := by
  intro t ht hkind
  have h1 := (tokenizes_iff hk).mpr ⟨eof, h⟩
  rw [(tokenize_kw U k src mode).1] at h1
  have hts : (tokenize U k.keywords.get k.sc src mode).1 = ts := congrArg Prod.fst h1
  have he : (tokenize U k.keywords.get k.sc src mode).2.1 = none := congrArg Prod.snd h1
  have hlt : t.kind < 0xb0 := by rcases hkind with h | h | h <;> rw [h] <;> decide
  obtain ⟨x, r, s1, s2, _, htx⟩ := tokenize_mem U k.keywords.get (kw_ge hk) k.sc src mode he t (hts ▸ ht) hlt
  have bad : ∀ {P : Prop} {n : Nat}, (n ≠ IDENT ∧ n ≠ CHAR ∧ n ≠ STRING) → (n = IDENT ∨ n = CHAR ∨ n = STRING) → P := by
    intro P n h1 h2
    rcases h2 with h | h | h
    · exact absurd h h1.1
    · exact absurd h h1.2.1
    · exact absurd h h1.2.2
  cases htx with
  | ident hne hl =>
    refine ⟨hne, .inr ?_⟩
    intro h34
    cases x with
    | nil => cases h34
    | cons c x =>
      cases h34
      have : headRune (34 :: x ++ r) = 34 := by
        unfold headRune
        rw [if_neg (by simp)]
        rfl
      rw [this] at hl
      revert hl
      unfold Letter
      simp
  | char hc =>
    obtain ⟨y, rfl⟩ := hc
    exact ⟨by simp, .inr (by simp)⟩
  | string hc hok =>
    obtain ⟨b, rfl, _⟩ := hok rfl
    exact ⟨by simp, .inl ⟨b, rfl⟩⟩
  | raw hc hok =>
    obtain ⟨b, rfl, _⟩ := hok rfl
    exact ⟨by simp, .inr (by simp)⟩
  | op hop => exact bad (op_kinds _ hop) hkind
  | int | float | imag | comment | newline | semiAtComment | semiAtEnd | eof | dots =>
    dsimp only at hkind
    exact bad (by decide) hkind
  | illegal h => cases h

/-- The state `Cl` starts from. -/
def clStart (B : Type) (U : Uni) (k : KwScanner) (src : Str) : Tab B := ⟨[], [], 0, (k.tokenize U src ⟨false, true⟩).2⟩

/-- `Cl` on the tokens of the text. -/
def clRun (c : Compiler B) (fuel : Nat) (ts : List Token) (t0 : Tab B) : Option (ClRes B) :=
  match matchG clEnv (clSem c.marker) fuel clDoc ts ⟨fun _ => 0, ⟨[], t0⟩⟩ with
  | none => none
  | some (.panic p _) => some (.panic p)
  | some (.fail _ e _) => some (.err (.match_ (.match_ e)))
  | some (.ok n s) =>
    if n = ts.length then some (clFinish c.mode s.u.tab) else some (.err (.match_ (.match_ (mismatch .eof (ts.drop n)))))

theorem cl_ok {c : Compiler B} {fuel : Nat} {ts : List Token} (h : (k.tokenize U c.grammar ⟨false, true⟩).1 = (ts, none)) :
    c.cl U fuel k = clRun c fuel ts (clStart B U k c.grammar) := by
  unfold Compiler.cl Matcher.matchExactly
  dsimp only
  generalize hm : clMatcher c.marker (KwScanner.tokenize U k c.grammar ⟨false, true⟩).2 = m
  have h1 := match_eq m (by rw [← hm]; intro h; cases h) U fuel k c.grammar ⟨fun _ => 0, ⟨[], ⟨[], [], 0, k⟩⟩⟩
  rw [show m.mode = ⟨false, true⟩ by rw [← hm]; rfl, h] at h1
  cases hr : m.match_ U fuel k c.grammar ⟨fun _ => 0, ⟨[], ⟨[], [], 0, k⟩⟩⟩ with
  | mk r k' =>
    rw [hr] at h1
    dsimp only at h1 ⊢
    subst h1
    rw [show m.init = fun s => .ok () { s with u := ⟨[], ⟨[], [], 0, (KwScanner.tokenize U k c.grammar ⟨false, true⟩).2⟩⟩ } by rw [← hm]; rfl]
    dsimp only
    rw [show m.env = clEnv by rw [← hm]; rfl, show m.sem = clSem c.marker by rw [← hm]; rfl,
      show m.grammar = clDoc by rw [← hm]; rfl]
    unfold clRun clStart
    cases he : matchG clEnv (clSem c.marker) fuel clDoc ts
      ⟨fun _ => 0, ⟨[], ⟨[], [], 0, (KwScanner.tokenize U k c.grammar ⟨false, true⟩).2⟩⟩⟩ with
    | none => rfl
    | some r =>
      cases r with
      | panic p s => rfl
      | fail n e s => rfl
      | ok n s =>
        have hn := matchG_short _ _ _ _ _ he
        simp only [Res.Short] at hn
        dsimp only
        by_cases heq : n = ts.length
        · rw [if_pos heq, if_neg (by simp [heq])]
        · rw [if_neg heq, if_pos (by rw [List.length_drop]; omega)]

theorem cl_bad {c : Compiler B} {fuel : Nat} {us : List Token} {off : Nat} {msg : Msg}
    (h : (k.tokenize U c.grammar ⟨false, true⟩).1 = (us, some (off, msg))) :
    c.cl U fuel k = some (.err (.match_ (.tokenize off msg))) := by
  unfold Compiler.cl Matcher.matchExactly
  dsimp only
  generalize hm : clMatcher c.marker (KwScanner.tokenize U k c.grammar ⟨false, true⟩).2 = m
  have h1 := match_eq m (by rw [← hm]; intro h; cases h) U fuel k c.grammar ⟨fun _ => 0, ⟨[], ⟨[], [], 0, k⟩⟩⟩
  rw [show m.mode = ⟨false, true⟩ by rw [← hm]; rfl, h] at h1
  cases hr : m.match_ U fuel k c.grammar ⟨fun _ => 0, ⟨[], ⟨[], [], 0, k⟩⟩⟩ with
  | mk r k' =>
    rw [hr] at h1
    dsimp only at h1 ⊢
    subst h1
    rfl

theorem clRun_mono {c : Compiler B} {f f' : Nat} (hf : f ≤ f') {ts : List Token} {t0 : Tab B} {r : ClRes B}
    (h : clRun c f ts t0 = some r) : clRun c f' ts t0 = some r := by
  unfold clRun at h ⊢
  cases he : matchG clEnv (clSem c.marker) f clDoc ts ⟨fun _ => 0, ⟨[], t0⟩⟩ with
  | none => rw [he] at h; cases h
  | some r' => rw [he] at h; rw [matchG_mono _ _ hf _ _ _ _ he]; exact h

/-- The tokenizer says yes or no. -/
theorem tokenize_cases (k : KwScanner) (src : Str) (mode : Mode) :
    (∃ ts, (k.tokenize U src mode).1 = (ts, none)) ∨ ∃ us off msg, (k.tokenize U src mode).1 = (us, some (off, msg)) := by
  cases h : (k.tokenize U src mode).1 with
  | mk ts e =>
    cases e with
    | none => exact .inl ⟨ts, rfl⟩
    | some e => exact .inr ⟨ts, e.1, e.2, rfl⟩

/-- More fuel does not change the outcome. -/
theorem cl_mono {c : Compiler B} {f f' : Nat} (hf : f ≤ f') {r : ClRes B} (h : c.cl U f k = some r) : c.cl U f' k = some r := by
  rcases tokenize_cases (U := U) k c.grammar ⟨false, true⟩ with ⟨ts, ht⟩ | ⟨us, off, msg, ht⟩
  · rw [cl_ok ht] at h ⊢; exact clRun_mono hf h
  · rw [cl_bad ht] at h ⊢; exact h

theorem cl_unique {c : Compiler B} {f f' : Nat} {r r' : ClRes B} (h : c.cl U f k = some r) (h' : c.cl U f' k = some r') : r = r' := by
  rcases Nat.le_total f f' with hf | hf
  · have := cl_mono hf h; rw [h'] at this; injection this with this; exact this.symm
  · have := cl_mono hf h'; rw [h] at this; injection this

/-- A document. -/
theorem cl_doc {c : Compiler B} (hk : Steps U KwScanner.zero k) {ts : List Token} {eof : Token}
    (ht : Tokenizes U k c.grammar ⟨false, true⟩ ts eof) {rs : List Rule} (hd : IsDoc ts rs) :
    ∃ fuel, c.cl U fuel k = some (match denDoc c.marker rs (clStart B U k c.grammar) with
      | .ok T => clFinish c.mode T
      | .error p => .panic (.user p)) := by
  have h1 := (tokenizes_iff hk).mpr ⟨eof, ht⟩
  have h2 := doc_does (mk := c.marker) hd ⟨[], clStart B U k c.grammar⟩ ⟨fun _ => 0, ⟨[], clStart B U k c.grammar⟩⟩ rfl
  rw [List.append_nil] at h2
  cases ho : denDoc c.marker rs (clStart B U k c.grammar) with
  | ok T =>
    rw [ho] at h2
    obtain ⟨s', ⟨f, hf⟩, hs⟩ := h2
    refine ⟨f, ?_⟩
    rw [cl_ok h1]
    unfold clRun
    rw [hf]
    dsimp only
    rw [if_pos rfl, hs]
  | error p =>
    rw [ho] at h2
    obtain ⟨q, s', ⟨f, hf⟩, rfl⟩ := h2
    refine ⟨f, ?_⟩
    rw [cl_ok h1]
    unfold clRun
    rw [hf]

/-- Not a document: never a success. -/
theorem cl_not_doc {c : Compiler B} (hk : Steps U KwScanner.zero k) {ts : List Token} {eof : Token}
    (ht : Tokenizes U k c.grammar ⟨false, true⟩ ts eof) (hd : ∀ rs, ¬ IsDoc ts rs) {fuel : Nat} {r : ClRes B}
    (h : c.cl U fuel k = some r) : (∃ e, r = .err (.match_ (.match_ e))) ∨ ∃ p, r = .panic p := by
  have h1 := (tokenizes_iff hk).mpr ⟨eof, ht⟩
  rw [cl_ok h1] at h
  unfold clRun at h
  cases he : matchG clEnv (clSem c.marker) fuel clDoc ts ⟨fun _ => 0, ⟨[], clStart B U k c.grammar⟩⟩ with
  | none => rw [he] at h; cases h
  | some r' =>
    rw [he] at h
    cases r' with
    | panic p s => cases h; exact .inr ⟨_, rfl⟩
    | fail n e s => cases h; exact .inl ⟨_, rfl⟩
    | ok n s =>
      dsimp only at h
      by_cases heq : n = ts.length
      · subst heq
        obtain ⟨rs, hrs⟩ := doc_of_match ⟨_, he⟩
        exact absurd hrs (hd rs)
      · rw [if_neg heq] at h
        cases h
        exact .inl ⟨_, rfl⟩

theorem clFinish_ok {mode : Mode} {T : Tab B} {ret : CompileRet B} (h : clFinish mode T = .ok ret) :
    ∃ root, T.grammars.lookup (str "doc") = some root ∧ (∀ v ∈ T.vars, v.2 ≠ none) ∧ ret = ⟨root, T, mode⟩ := by
  unfold clFinish at h
  cases hl : T.grammars.lookup (str "doc") with
  | none => rw [hl] at h; cases h
  | some root =>
    rw [hl] at h
    dsimp only at h
    split at h
    · rename_i hv
      cases h
      refine ⟨root, rfl, ?_, rfl⟩
      intro v hm hn
      have hf : v ∈ T.vars.filter (fun v => v.2.isNone) := by
        rw [List.mem_filter]
        exact ⟨hm, by rw [hn]; rfl⟩
      rw [List.map_eq_nil_iff.mp hv] at hf
      cases hf
    · cases h

theorem clFinish_of {mode : Mode} {T : Tab B} {root : Gr B} (h1 : T.grammars.lookup (str "doc") = some root)
    (h2 : ∀ v ∈ T.vars, v.2 ≠ none) : clFinish mode T = .ok ⟨root, T, mode⟩ := by
  unfold clFinish
  rw [h1]
  dsimp only
  have : T.vars.filter (fun v => v.2.isNone) = [] := by
    rw [List.filter_eq_nil_iff]
    intro v hv hn
    exact h2 v hv (by simpa using hn)
  rw [this]
  rfl

end Tpl
