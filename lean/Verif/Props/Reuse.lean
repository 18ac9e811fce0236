import Verif.Props.Compose
import Verif.Props.ReplBack

/-! Property C136: what the calculator for rational numbers prints can be used in further calculations. -/
namespace Tpl.Props
open Tpl Tpl.Spec KwScanner Scanner
variable {F : Type} {U : Uni} {L : Lits F} {ss : Str → Option Rat} {fuel0 : Nat} {r : CompileRet Str} {s : St (Calc.Eng (Option Rat))}

/-- C136: what is printed for a number has this number as value. -/
theorem C136_value (hss : ∀ n : Nat, ss (Repl.digits n) = some (n : Rat)) (hr : (rat L ss).client.new ratGrammar ⟨false, false⟩ U fuel0 = some (.ok r))
    (hs : ReadsAs U KwScanner.zero s.u.scanner) {x : Rat} {shown : Str} (hx : (Repl.ratcalc L ss).text (some x) = .ok shown) :
    Computes (rat L ss) r U shown s (.ok (some x)) := by
  have hx : Except.ok (ratText x) = Except.ok shown := hx
  cases hx
  obtain ⟨eof, h⟩ := ratText_tokens (U := U) x
  have h1 := rat_value L ss (fun s => (ss s).getD 0) (ratEx x) (reads_nums (reads_rat L ss x)) (by
    unfold ratEx numEx
    split <;> split <;> simp only [Ex.AllNums, hss, Option.getD, and_self])
  rw [ratEx_value (fun n => by rw [hss]; rfl)] at h1
  have := computes (.rat L ss) hr s hs.steps (readsAs_tokens rfl hs h) (reads_rat L ss x) (rat_counts L ss _)
  rwa [h1] at this

/-- C136: a part of an expression may be replaced by what is printed for its value, if it stands
in parentheses or is an argument: the value of the whole is the same, and there is none if there was
none. -/
theorem C136_reuse (hss : ∀ n : Nat, ss (Repl.digits n) = some (n : Rat)) (hr : (rat L ss).client.new ratGrammar ⟨false, false⟩ U fuel0 = some (.ok r))
    (hs : ReadsAs U KwScanner.zero s.u.scanner) {a : Str} {x : Rat} (ha : Computes (rat L ss) r U a s (.ok (some x))) (hb : bomLen a = 0)
    {shown : Str} (hx : (Repl.ratcalc L ss).text (some x) = .ok shown)
    {left right : Str} {t t' : Token} (hl : OneToken U s.u.scanner ⟨false, false⟩ left t) (ht : t.kind = LPAREN ∨ t.kind = COMMA)
    (hr' : OneToken U s.u.scanner ⟨false, false⟩ right t') (ht' : t'.kind = RPAREN ∨ t'.kind = COMMA) {first : Str} {pre post : List Str}
    (hf : ∃ ts e, Tokenizes U s.u.scanner first ⟨false, false⟩ ts e)
    (hps : ∀ p ∈ pre ++ post, (∃ ts e, Tokenizes U s.u.scanner p ⟨false, false⟩ ts e) ∧ bomLen p = 0) (w : Option Rat) :
    Computes (rat L ss) r U (onLines first (pre ++ left :: a :: right :: post)) s (.ok w) ↔
      Computes (rat L ss) r U (onLines first (pre ++ left :: shown :: right :: post)) s (.ok w) := by
  have hv := C136_value hss hr hs hx
  have hx : Except.ok (ratText x) = Except.ok shown := hx
  cases hx
  have hb' := bomLen_clean (ratText_clean x)
  have hn : ∀ src, Counted (rat L ss) U s.u.scanner ⟨false, false⟩ src := fun _ _ _ _ => rat_counts L ss _
  exact ⟨C135_replace (.rat L ss) hr hs.steps ha hb hv hb' hl ht hr' ht' hf hps (hn _) (hn _),
    C135_replace (.rat L ss) hr hs.steps hv hb' ha hb hl ht hr' ht' hf hps (hn _) (hn _)⟩

/-! ### Examples -/

example : ratText (-1 / 3) = str "-1/3" := by decide +kernel
example : runRat (str "2/3 - 1") [] = some (some (some (-1 / 3)), []) := by kernel_rfl
example : runRat (onLines (str "2 /") [str "(", str "2/3 - 1", str ")", str "+ 1"]) [] = some (some (some (-5)), []) := by kernel_rfl
example : runRat (onLines (str "2 /") [str "(", str "-1/3", str ")", str "+ 1"]) [] = some (some (some (-5)), []) := by kernel_rfl

/-- Without parentheses it would be another expression. -/
example : runRat (str "2 / -1/3 + 1") [] = some (some (some (1 / 3)), []) := by kernel_rfl

/-- An engine that has just been made. -/
example (hr : (rat L ss).client.new ratGrammar ⟨false, false⟩ U fuel0 = some (.ok r)) : ReadsAs U KwScanner.zero (Repl.start (V := Option Rat) r).u.scanner :=
  package_reads (.rat L ss) hr

end Tpl.Props
