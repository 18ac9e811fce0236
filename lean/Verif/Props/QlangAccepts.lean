import Verif.Proof.QlangAccepts
import Verif.Props.QlangEngine
import Verif.Props.Interp

/-
Which texts qlang accepts (C90).
-/
namespace Tpl.Props
open Tpl Tpl.Spec Tpl.Qlang Tpl.Qlang.Src Scanner
variable {F : Type} {L : Lib F} {U : Uni} {mode : Mode} {fuel : Nat} {ret : CompileRet Str}

/-! ### C90: only programs are accepted -/

/-- Whatever the callbacks do: tokens that are matched to the end are those of a program. -/
theorem C90_matched {σ V P : Type} {sem : Sem Str σ V P} {s s' : St σ} (h : (client L ret U).new grammarText mode U fuel = some (.ok ret))
    {toks : List Token} (he : Eval ret.env sem ret.root toks s (.ok toks.length s')) : ∃ d : Tm .doc, d.Loose ∧ d.toks = toks := by
  have hp := (C23_sound he).1 _ _ rfl
  obtain ⟨e1, e2⟩ : ret.env 0 = some gFactor ∧ ret.root = bDoc := by
    obtain rfl := (compiled_iff L ret U mode ret).mp ⟨_, h⟩
    exact ⟨rfl, rfl⟩
  rw [e2] at hp
  obtain ⟨t1, t2, h1, h2, d, hd, h3⟩ := acc_program e1 toks.length toks (Nat.le_refl _) _ hp
  refine ⟨d, hd, h3.trans ?_⟩
  have h4 := congrArg List.length h1
  rw [List.length_append, h2] at h4
  rw [h1, List.eq_nil_of_length_eq_zero (l := t2) (by omega), List.append_nil]

section
variable (h : (client L ret U).new grammarText mode U fuel = some (.ok ret)) {s : St (QEng F)} (hk : KwScanner.Steps U KwScanner.zero s.u.scanner)
  {src : Str}
include h hk

/-- C90: if `Exec` of a text returns nil then the text is a program. -/
theorem C90_accepted {f : Nat} {s' : St (QEng F)} (hx : exec L ret U f src s = some (.ok () s')) :
    ∃ (d : Tm .doc) (eof : Token), d.Loose ∧ Tokenizes U s.u.scanner src ret.mode d.toks eof := by
  have hr : ret.root ≠ .nil := by
    obtain rfl := (compiled_iff L ret U mode ret).mp ⟨_, h⟩
    nofun
  obtain ⟨toks, eof, h1, h2⟩ := (C48_starts_at_zero (client L ret U) ret hr U src s s' hk).mp ⟨f, hx⟩
  obtain ⟨d, hd, rfl⟩ := C90_matched h h2
  exact ⟨d, eof, hd, h1⟩

/-- C90: if `Exec` of a text returns an error then the text is not a program. -/
theorem C90_refused {f : Nat} {s' : St (QEng F)} {e : MErr Str} (hx : exec L ret U f src s = some (.err e s')) :
    ¬ ∃ (d : Tm .doc) (eof : Token), d.Ok ∧ Tokenizes U s.u.scanner src ret.mode d.toks eof := by
  rintro ⟨d, eof, hd, ht⟩
  have hr : ret.root ≠ .nil := by
    obtain rfl := (compiled_iff L ret U mode ret).mp ⟨_, h⟩
    nofun
  rcases C37_errors ⟨ret.root, ret.mode, engInit (s.u.scanner.tokenize U src ret.mode).2, ret.env, (client L ret U).sem⟩ hr hk src s s' e f hx with
    ⟨_, _, h1⟩ | ⟨ts, eof', s1, h1, _, h2⟩
  · exact h1 _ _ ht
  · have e1 := (tokenizes_iff hk).mpr ⟨_, ht⟩
    have e2 := (tokenizes_iff hk).mpr ⟨_, h1⟩
    rw [e1] at e2
    cases e2
    rcases h2 with ⟨n, e', _, h2⟩ | ⟨n, hn, _, h2⟩
    · rcases C79_accepts h d hd h2 with ⟨_, h3⟩ | ⟨_, _, h3⟩ <;> cases h3
    · rcases C79_accepts h d hd h2 with ⟨_, h3⟩ | ⟨_, _, h3⟩
      · cases h3; exact absurd hn (Nat.lt_irrefl _)
      · cases h3

end

/-! On a new engine, `7` is accepted, `1 +` and the empty text are not. -/

example : ∃ f s1, exec setup1.host.lib (qlangRet ascii ⟨false, true⟩) ascii f (str "7") (newEngine ascii ⟨false, true⟩) = some (.ok () s1) := by
  obtain ⟨f, s1, _, h, _⟩ := C82_violated_semicolon
  exact ⟨f, s1, h⟩

/-- Is the text accepted by a new engine?  (Not, if the match ends with an error.) -/
def accepts (src : String) : Option Bool :=
  match exec setup0.host.lib (qlangRet ascii ⟨false, false⟩) ascii 100 (str src) (newEngine ascii ⟨false, false⟩) with
  | some (.ok _ _) => some true
  | some (.err _ _) => some false
  | _ => none

example : accepts "1 +" = some false := by kernel_rfl
example : accepts "" = some false := by kernel_rfl
example : accepts "x = 1; y = [x, 2]" = some true := by kernel_rfl
/-- Two indices without a colon are accepted as well. -/
example : accepts "[7, 8][1 0]" = some true := by kernel_rfl

end Tpl.Props
