import Verif.Props.Extractor

/-! Scanners that read texts alike. -/
namespace Tpl.Props
open Tpl Tpl.Spec Scanner
variable {U : Uni}

/-- The scanner reads texts like `k0`. -/
structure ReadsAs (U : Uni) (k0 k : KwScanner) : Prop where
  steps : KwScanner.Steps U KwScanner.zero k
  ok : k.sc.bad = false
  words : k.keywords.get = k0.keywords.get

theorem readsAs_tokenize {k0 k : KwScanner} (h : ReadsAs U k0 k) (src : Str) (mode : Mode) : ReadsAs U k0 (k.tokenize U src mode).2 :=
  have h1 := tokenize_keeps U k src mode h.ok
  ⟨tokenize_steps h.steps src mode, h1.2, h1.1.trans h.words⟩

theorem init_sc {s0 s1 : Scanner} (h : s0.bad = s1.bad) (src : Str) (mode : Mode) : Scanner.init s0 src mode = Scanner.init s1 src mode := by
  unfold Scanner.init
  rw [h]

theorem readsAs_tokens {k0 k : KwScanner} (h0 : k0.sc.bad = false) (h : ReadsAs U k0 k) {src : Str} {mode : Mode} {ts eof} (ht : Tokenizes U k0 src mode ts eof) :
    Tokenizes U k src mode ts eof := by
  unfold Tokenizes at ht ⊢
  rw [init_sc (h.ok.trans h0.symm), h.words]
  exact ht

/-- The state after a run. -/
def MRes.st' {A σ P α : Type} : MRes A σ P α → St σ
  | .ok _ s => s
  | .err _ s => s
  | .panic _ s => s

/-- The scanner that `Cl` leaves has only been used as scanners are. -/
theorem cl_steps {B : Type} {c : Compiler B} {U : Uni} {k : KwScanner} (hk : KwScanner.Steps U KwScanner.zero k) {fuel : Nat} {ret : CompileRet B}
    (h : c.cl U fuel k = some (.ok ret)) : KwScanner.Steps U KwScanner.zero ret.tab.scanner := by
  rcases tokenize_cases (U := U) k c.grammar clMode with ⟨ts, ht⟩ | ⟨us, off, msg, ht⟩
  · obtain ⟨eof, htk⟩ := (tokenizes_iff hk).mp ht
    rw [cl_ok ht] at h
    unfold clRun at h
    cases he : matchG clEnv (clSem c.marker) fuel clDoc ts ⟨fun _ => 0, ⟨[], clStart B U k c.grammar⟩⟩ with
    | none => rw [he] at h; cases h
    | some r =>
      rw [he] at h
      have hup := up_doc (mk := c.marker) (U := U) (f := fuel) fuel (Nat.le_refl _) _ _ _ he (tokens_shape hk htk)
        ⟨tokenize_steps hk _ _, tokenize_keywords _ _ _⟩ (Nat.zero_le _)
      cases r with
      | panic p' s => cases h
      | fail n e s => cases h
      | ok n s =>
        dsimp only at h
        split at h
        · simp only [Option.some.injEq] at h
          unfold clFinish at h
          split at h
          · cases h
          · split at h
            · cases h; exact hup.1.1
            · cases h
        · cases h
  · rw [cl_bad ht] at h; cases h

end Tpl.Props
