import Verif.Proof.QlangEvents

/-! The actions of a tree are its marks. -/
namespace Tpl.Qlang.Src
open Spec

variable (g : Gr Str) (ts : List Token) (l : Int) (n : Nat)

theorem shown_bin {l} (o : BOp l) (i : Int) : shown (ev o.mark g ts i) = mk o.mark ts := by cases o <;> rfl
theorem shown_asg (o : AOp) (i : Int) : shown (ev o.mark g ts i) = mk o.mark ts := by cases o <;> rfl
theorem shown_a : shown (ev "ARITY" g ts n) = count "ARITY" ts n := rfl
theorem shown_a0 : shown (ev "ARITY" g ts 0) = count "ARITY" ts 0 := rfl
theorem shown_a1 : shown (ev "ARITY" g ts 1) = count "ARITY" ts 1 := rfl
theorem shown_b : shown (ev "_ARITY" g ts n) = count "_ARITY" ts n := rfl
theorem shown__code : shown (ev "_code" g ts l) = mk "_code" ts := rfl
theorem shown__mute : shown (ev "_mute" g ts l) = mk "_mute" ts := rfl
theorem shown__unmute : shown (ev "_unmute" g ts l) = mk "_unmute" ts := rfl
theorem shown_and : shown (ev "and" g ts l) = mk "and" ts := rfl
theorem shown_assign : shown (ev "assign" g ts l) = mk "assign" ts := rfl
theorem shown_call : shown (ev "call" g ts l) = mk "call" ts := rfl
theorem shown_class : shown (ev "class" g ts l) = mk "class" ts := rfl
theorem shown_clear : shown (ev "clear" g ts l) = mk "clear" ts := rfl
theorem shown_dec : shown (ev "dec" g ts l) = mk "dec" ts := rfl
theorem shown_defer : shown (ev "defer" g ts l) = mk "defer" ts := rfl
theorem shown_fn : shown (ev "fn" g ts l) = mk "fn" ts := rfl
theorem shown_for : shown (ev "for" g ts l) = mk "for" ts := rfl
theorem shown_if : shown (ev "if" g ts l) = mk "if" ts := rfl
theorem shown_inc : shown (ev "inc" g ts l) = mk "inc" ts := rfl
theorem shown_index : shown (ev "index" g ts l) = mk "index" ts := rfl
theorem shown_main : shown (ev "main" g ts l) = mk "main" ts := rfl
theorem shown_map : shown (ev "map" g ts l) = mk "map" ts := rfl
theorem shown_massign : shown (ev "massign" g ts l) = mk "massign" ts := rfl
theorem shown_mfn : shown (ev "mfn" g ts l) = mk "mfn" ts := rfl
theorem shown_mref : shown (ev "mref" g ts l) = mk "mref" ts := rfl
theorem shown_name : shown (ev "name" g ts l) = mk "name" ts := rfl
theorem shown_neg : shown (ev "neg" g ts l) = mk "neg" ts := rfl
theorem shown_new : shown (ev "new" g ts l) = mk "new" ts := rfl
theorem shown_not : shown (ev "not" g ts l) = mk "not" ts := rfl
theorem shown_or : shown (ev "or" g ts l) = mk "or" ts := rfl
theorem shown_pushc : shown (ev "pushc" g ts l) = mk "pushc" ts := rfl
theorem shown_pushf : shown (ev "pushf" g ts l) = mk "pushf" ts := rfl
theorem shown_pushi : shown (ev "pushi" g ts l) = mk "pushi" ts := rfl
theorem shown_pushn : shown (ev "pushn" g ts l) = mk "pushn" ts := rfl
theorem shown_pushs : shown (ev "pushs" g ts l) = mk "pushs" ts := rfl
theorem shown_recover : shown (ev "recover" g ts l) = mk "recover" ts := rfl
theorem shown_ref : shown (ev "ref" g ts l) = mk "ref" ts := rfl
theorem shown_return : shown (ev "return" g ts l) = mk "return" ts := rfl
theorem shown_slice : shown (ev "slice" g ts l) = mk "slice" ts := rfl
theorem shown_switch : shown (ev "switch" g ts l) = mk "switch" ts := rfl

theorem names_shown : ∀ ns : Names, (namesEvs ns).map shown = nameMarks ns
  | [] => rfl
  | (c, x) :: more => by rw [namesEvs, nameMarks, List.map_cons, names_shown more, shown_name]

theorem params_shown : ∀ ps : Option (Tk IDENT × Names), (paramEvs ps).map shown = paramMarks ps
  | none => rfl
  | some (x, more) => by rw [paramEvs, paramMarks, List.map_cons, names_shown more, shown_name]

theorem evs_shown : ∀ {c : Cat} (t : Tm c), t.evs.map shown = t.marks := by
  intro c t
  induction t <;> simp only [Tm.evs, Tm.marks, List.map_append, List.map_cons, List.map_nil, names_shown, params_shown, shown_bin, shown_asg,
    shown_a, shown_a0, shown_a1, shown_b, shown__code, shown__mute, shown__unmute, shown_and, shown_assign, shown_call, shown_class, shown_clear, shown_dec, shown_defer, shown_fn, shown_for, shown_if, shown_inc, shown_index, shown_main, shown_map, shown_massign, shown_mfn, shown_mref, shown_name, shown_neg, shown_new, shown_not, shown_or, shown_pushc, shown_pushf, shown_pushi, shown_pushn, shown_pushs, shown_recover, shown_ref, shown_return, shown_slice, shown_switch, *]

end Tpl.Qlang.Src
