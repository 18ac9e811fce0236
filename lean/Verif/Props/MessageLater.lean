import Verif.Props.Message
import Verif.Props.Share

/-!
# C123: the message of an error does not change

`MatchError.Error` makes the message when it is called, from the text the scanner was last given
(grammar.go:111-141).  So the message is what it was as long as the scanner holds the same text,
whatever keywords have been added, and changes, or cannot be made at all, when the scanner has been
given another text.
-/
namespace Tpl.Props
open Tpl Tpl.Spec KwScanner Scanner

variable {A σ V P : Type} {U : Uni} {k : KwScanner}

theorem kw_trans {a b c : KwScanner} (h : Steps U a b) (h' : Steps U b c) : Steps U a c := by
  induction h' with
  | refl => exact h
  | step _ h2 ih => exact .step ih h2

theorem marshalAnd_same {t1 t2 : Nat → GoRes Str} {names} : ∀ (gs : List (Gr A)) i,
    (∀ g ∈ gs, g ≠ .nil → ∀ lvl, g.marshal t1 names lvl = g.marshal t2 names lvl) → marshalAnd t1 names gs i = marshalAnd t2 names gs i := by
  intro gs
  induction gs with
  | nil => intro i _; simp [marshalAnd]
  | cons g gs ih =>
    intro i h
    have h1 := ih (i + 1) (fun g hg => h g (.tail _ hg))
    cases g with
    | nil => simpa [marshalAnd] using h1
    | _ =>
      rw [marshalAnd, marshalAnd, h1, h _ (.head _) nofun] <;> nofun

theorem marshalOr_same {t1 t2 : Nat → GoRes Str} {names} : ∀ (gs : List (Gr A)) i,
    (∀ g ∈ gs, ∀ lvl, g.marshal t1 names lvl = g.marshal t2 names lvl) → marshalOr t1 names gs i = marshalOr t2 names gs i := by
  intro gs
  induction gs with
  | nil => intro i _; simp [marshalOr]
  | cons g gs ih =>
    intro i h
    rw [marshalOr, marshalOr, h _ (.head _), ih (i + 1) (fun g hg => h g (.tail _ hg))]

/-- A grammar is printed alike by scanners that agree on the names of its kinds. -/
theorem marshal_same {t1 t2 : Nat → GoRes Str} {names} {known : Nat → Prop} (ht : ∀ n, known n → t1 n = t2 n) {g : Gr A} (h : Printable known g) :
    ∀ lvl, g.marshal t1 names lvl = g.marshal t2 names lvl := by
  induction h with
  | tok h => intro _; exact ht _ h
  | tru | eof | var | named => intro _; simp [Gr.marshal]
  | peek _ ih | not _ ih | rep0 _ ih | rep1 _ ih | rep01 _ ih => intro _; rw [Gr.marshal, Gr.marshal, ih]
  | and _ ih => intro _; rw [Gr.marshal, Gr.marshal, marshalAnd_same _ _ ih]
  | or _ ih => intro _; rw [Gr.marshal, Gr.marshal, marshalOr_same _ _ ih]
  | list _ _ ih1 ih2 => intro _; rw [Gr.marshal, Gr.marshal, ih1, ih2]
  | action _ ih | trans _ ih => intro _; rw [Gr.marshal, Gr.marshal]; exact ih _

/-- The name of a kind stays, whatever is done with the scanner. -/
theorem ttol_stays {k1 k2 : KwScanner} (hi : KInv k1) (h : Steps U k1 k2) {n : Nat} (hn : k1.ttol n ≠ .panic) : k1.ttol n = k2.ttol n := by
  have h2 := (h.inv hi).2.1
  unfold KwScanner.ttol at hn ⊢
  split
  · rename_i hge
    rw [if_pos hge] at hn
    cases hl : k1.tokens[n - KwScanner.userTokenBegin]? with
    | none => rw [hl] at hn; exact absurd rfl hn
    | some l => rw [h2 _ _ hl]
  · rfl

theorem fail_same {t1 t2 : Nat → GoRes Str} {names} {src : TokSource} {behind : List Token} {known : Nat → Prop} (ht : ∀ n, known n → t1 n = t2 n)
    {ts : List Token} {e : Err A} (h : FailAt ts (fun g => g = .nil ∨ Printable known g) e) :
    Err.error t1 names src behind e = Err.error t2 names src behind e := by
  cases h with
  | var => rfl
  | plain hn hq hs =>
    rw [Err.error, Err.error, Gr.code, Gr.code, marshal_same ht (hq.resolve_left hn)]

theorem cut_same {t1 t2 : Nat → GoRes Str} {names} {src : TokSource} {behind : List Token} {known : Nat → Prop} (ht : ∀ n, known n → t1 n = t2 n)
    {ts : List Token} {e : Err A} (h : CutAt ts (fun g => g = .nil ∨ Printable known g) e) :
    Err.error t1 names src behind e = Err.error t2 names src behind e := by
  cases h with
  | cut hq _ _ _ hf => rw [Err.error, Err.error, Gr.code, Gr.code, marshal_same ht (hq.resolve_left nofun)]; dsimp only; rw [fail_same ht hf]

/-- The errors of matching the tokens `ts` of a text: one the match returns, one a fail-fast
sequence panics with, and the one that `MatchExactly` returns when tokens are left over. -/
inductive ErrorOf (env : Env A) (sem : Sem A σ V P) (g : Gr A) (ts : List Token) : Err A → Prop
  | returned {s s' n e} : Eval env sem g ts s (.fail n e s') → ErrorOf env sem g ts e
  | failfast {s s' e} : Eval env sem g ts s (.panic (.err e) s') → ErrorOf env sem g ts e
  | leftover {n} : n < ts.length → ErrorOf env sem g ts (.mismatch .eof (ts.drop n) none 0)

theorem errorOf_same {t1 t2 : Nat → GoRes Str} {names} {src : TokSource} {behind : List Token} {known : Nat → Prop} (ht : ∀ n, known n → t1 n = t2 n)
    {env : Env A} {sem : Sem A σ V P} (hsem : NoErr sem) {g : Gr A} {ts : List Token} (hp : AllPrintable known env g) {e : Err A}
    (h : ErrorOf env sem g ts e) : Err.error t1 names src behind e = Err.error t2 names src behind e := by
  cases h with
  | returned hm =>
    obtain ⟨f, hm⟩ := hm
    exact fail_same ht (matchG_err (toks := ts) hp.closed hsem f g ts _ _ (.inr hp.root) (List.suffix_refl _) hm)
  | failfast hm =>
    obtain ⟨f, hm⟩ := hm
    exact cut_same ht (matchG_err (toks := ts) hp.closed hsem f g ts _ _ (.inr hp.root) (List.suffix_refl _) hm)
  | leftover => exact fail_same ht (.plain (toks := ts) nofun (.inr .eof) (List.drop_suffix _ _))

/-- After a text has been tokenized the scanner holds this text and its lines, whatever happened before. -/
theorem source_again (hk : Steps U KwScanner.zero k) {k2 : KwScanner} (h2 : Steps U KwScanner.zero k2) (hb : k.sc.bad = false) (hb2 : k2.sc.bad = false)
    {text : Str} {mode : Mode} {ts : List Token} {eof : Token} (h : Tokenizes U k text mode ts eof) :
    (k2.tokenize U text mode).2.sc.source = (k.tokenize U text mode).2.sc.source := by
  have final : ∀ {k : KwScanner}, Steps U KwScanner.zero k → ∀ {full s'}, Run U (Scanner.init k.sc text mode) full s' → s'.errs = [] →
      (k.tokenize U text mode).2.sc = s' := by
    intro k hk full s' hr he
    have hl : full.length ≤ 2 * text.length + 2 := by
      obtain ⟨ts', s'', h', hl⟩ := C03_terminates U k.sc text mode
      obtain ⟨rfl, rfl⟩ := hr.functional h'
      exact hl
    rw [(tokenize_kw U k text mode).2]
    unfold tokenize
    rw [tokenizeLoop_ok (kw_ne_eof hk) hr (Scanner.init_inv k.sc text mode) he _ hl]
  obtain ⟨full, s', hr, he, _⟩ := h
  rw [final hk hr he, final h2 (by rw [init_reset k2.sc k.sc (by rw [hb, hb2])]; exact hr) he]

/-- C123 (what holds): whatever is done with the scanner after the match (other texts,
other grammars, more keywords), when it is given the same text again the message is the same again. -/
theorem C123_again_partial (hk : Steps U KwScanner.zero k) (hb : k.sc.bad = false) {text : Str} {mode : Mode} {ts : List Token} {eof : Token}
    (h : Tokenizes U k text mode ts eof) {env : Env A} {sem : Sem A σ V P} (hsem : NoErr sem) {g : Gr A} (names : Nat → Str)
    (hp : AllPrintable (fun n => (k.tokenize U text mode).2.ttol n ≠ .panic) env g) {e : Err A} (he : ErrorOf env sem g ts e)
    {k2 : KwScanner} (h2 : Steps U (k.tokenize U text mode).2 k2) (hb2 : k2.sc.bad = false) :
    Err.error (k2.tokenize U text mode).2.ttol names (k2.tokenize U text mode).2.sc.source [eof] e =
      Err.error (k.tokenize U text mode).2.ttol names (k.tokenize U text mode).2.sc.source [eof] e := by
  have hk1 := tokenize_steps hk text mode
  have h02 : Steps U KwScanner.zero k2 := kw_trans hk1 h2
  rw [source_again hk h02 hb hb2 h]
  exact (errorOf_same (fun n hn => ttol_stays (hk1.inv KwScanner.zero_inv).1 (tokenize_steps h2 text mode) hn) hsem hp he).symm

/-- C123 (what holds): as long as the scanner is not given another text the message is the same,
whatever keywords are added. -/
theorem C123_keywords_partial (hk : Steps U KwScanner.zero k) {text : Str} {mode : Mode} {ts : List Token} {eof : Token}
    (_h : Tokenizes U k text mode ts eof) {env : Env A} {sem : Sem A σ V P} (hsem : NoErr sem) {g : Gr A} (names : Nat → Str)
    (hp : AllPrintable (fun n => (k.tokenize U text mode).2.ttol n ≠ .panic) env g) {e : Err A} (he : ErrorOf env sem g ts e)
    {k2 : KwScanner} (h2 : Steps U (k.tokenize U text mode).2 k2) (hs : k2.sc.source = (k.tokenize U text mode).2.sc.source) :
    Err.error k2.ttol names k2.sc.source [eof] e =
      Err.error (k.tokenize U text mode).2.ttol names (k.tokenize U text mode).2.sc.source [eof] e := by
  have hk1 := tokenize_steps hk text mode
  rw [hs]
  exact (errorOf_same (fun n hn => ttol_stays (hk1.inv KwScanner.zero_inv).1 h2 hn) hsem hp he).symm

/-- The same for the message of a runtime error: it depends on the text the scanner holds. -/
theorem C123_runtime_partial (hk : Steps U KwScanner.zero k) (hb : k.sc.bad = false) {text : Str} {mode : Mode} {ts : List Token} {eof : Token}
    (h : Tokenizes U k text mode ts eof) {k2 : KwScanner} (h2 : Steps U (k.tokenize U text mode).2 k2) (hb2 : k2.sc.bad = false)
    (file : Str) (src : List Token) (m : Str) :
    runtimeMessage file (k2.tokenize U text mode).2.sc.source src m = runtimeMessage file (k.tokenize U text mode).2.sc.source src m := by
  rw [source_again hk (kw_trans (tokenize_steps hk text mode) h2) hb hb2 h]

/-- The message of the error of matching `IDENT IDENT` with `text`, made when the scanner has
tokenized `other` in the meantime. -/
def messageAfter (text other : Str) : Option (GoRes Str) :=
  let r := KwScanner.zero.tokenize ascii text plain
  match matchG noEnv noCalls.sem 3 (.and [.tok IDENT, .tok IDENT]) r.1.1 st0 with
  | some (.fail _ e _) => some (Err.error Token2Lit (fun _ => []) (r.2.tokenize ascii other plain).2.sc.source
      ((tokenArray ascii KwScanner.zero.keywords.get (2 * text.length + 2) (Scanner.init KwScanner.zero.sc text plain)).drop r.1.1.length) e)
  | _ => none

/-- C123 is violated: after another text has been matched the message shows a piece of that text
and a line of it ... -/
theorem C123_violated :
    messageAfter (bytes "a\n12 b") (bytes "a\n12 b") = some (.ok (bytes "line 2: match failed: `12 b` doesn't match `IDENT`")) ∧
    messageAfter (bytes "a\n12 b") (bytes "x y zu v") = some (.ok (bytes "line 1: match failed: `y zu` doesn't match `IDENT`")) := by
  decide +kernel

/-- ... and if the other text is shorter `Error()` panics. -/
theorem C123_violated_panic : messageAfter (bytes "a\n12 b") (bytes "x y") = some .panic := by
  decide +kernel

/-- The hypotheses are met: `IDENT` on the text `1`; then the text `x` is matched and the keyword
`let` added. -/
example : ∃ (eof : Token) (e : Err Nat) (k2 : KwScanner),
    Tokenizes ascii KwScanner.zero (bytes "1") plain [⟨INT, 0, bytes "1"⟩] eof ∧
    ErrorOf noEnv noCalls.sem (.tok IDENT) [⟨INT, 0, bytes "1"⟩] e ∧
    AllPrintable (fun n => (KwScanner.zero.tokenize ascii (bytes "1") plain).2.ttol n ≠ .panic) noEnv (.tok IDENT : Gr Nat) ∧
    Steps ascii (KwScanner.zero.tokenize ascii (bytes "1") plain).2 k2 ∧ k2.sc.bad = false ∧ k2.tokens = [bytes "\"let\""] := by
  have ht : (KwScanner.zero.tokenize ascii (bytes "1") plain).1 = ([⟨INT, 0, bytes "1"⟩], none) := by decide +kernel
  obtain ⟨eof, h⟩ := (tokenizes_iff (U := ascii) (.refl _)).mp ht
  have hl : ∃ k2, ((KwScanner.zero.tokenize ascii (bytes "1") plain).2.tokenize ascii (bytes "x") plain).2.ltot (bytes "\"let\"") =
      .ok (0xb0, k2) ∧ k2.sc.bad = false ∧ k2.tokens = [bytes "\"let\""] := ⟨_, rfl, by decide +kernel, by decide +kernel⟩
  obtain ⟨k2, h1, h2, h3⟩ := hl
  exact ⟨eof, _, k2, h, .returned (s := st0) ⟨1, rfl⟩, ⟨.tok (by decide +kernel), nofun⟩,
    .step (tokenize_steps (.refl _) _ _) (.ltot (.inl ⟨bytes "let", rfl⟩) h1), h2, h3⟩

end Tpl.Props
