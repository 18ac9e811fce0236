import Verif.Proof.QlangTable
import Verif.Proof.SimpleLex

/-! The text of the grammar of qlang consists of the rules `rules`. -/
namespace Tpl.Qlang.Src
open Spec Scanner

theorem grammar_lexOk : lexOk 3000 false grammarText (flatDoc rules ++ [(EOF, [])]) = true := by kernel_rfl

theorem grammar_ascii : (grammarText.all fun b => b != 0 && b < 0x80) = true := by kernel_rfl

theorem grammar_clean : Clean grammarText := by
  refine clean_of_ascii fun b hb => ?_
  have := List.all_eq_true.mp grammar_ascii b hb
  simp only [Bool.and_eq_true, bne_iff_ne, ne_eq, decide_eq_true_eq, UInt8.lt_iff_toNat_lt] at this
  refine ⟨fun h => this.1 (UInt8.toNat_inj.mp (h.trans rfl)), ?_⟩
  exact this.2

theorem zero_kw (t : Token) : kwTok KwScanner.zero.keywords.get t = t := by
  unfold kwTok
  split
  · rfl
  · rfl

end Tpl.Qlang.Src
