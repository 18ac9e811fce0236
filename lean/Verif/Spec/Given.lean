import Verif.Spec.Interp
import Verif.Spec.QlangInterp

/-
Specification of what the functions of an interpreter are called with: which value a
parameter behind the receiver gets.
-/
namespace Tpl.Spec
open Tpl QInterp.Spec
variable {F : Type}

/-- The context of a match: its tokens, where the first one begins and where the last one
ends; 0 if there is none. -/
inductive ContextOf : List Token → Ctx → Prop
  | empty : ContextOf [] ⟨[], 0, 0⟩
  | tokens {t l : Token} {toks : List Token} {e : Int} : (t :: toks).getLast? = some l → l.End = .ok e →
      ContextOf (t :: toks) ⟨t :: toks, t.pos, e⟩

/-- What a parameter of type `t` gets from a mark on a match of `toks` with `len` items: the
number of items if the mark begins with a capital letter, and else what the type asks for. -/
inductive Gets (L : Lits F) (mark : Str) (toks : List Token) (len : Int) : ArgTy → Arg F → Prop
  | items : Counts mark → Gets L mark toks len .int (.len len)
  | context {c} : ¬ Counts mark → ContextOf toks c → Gets L mark toks len .ctx (.ctx c)
  | tokens : ¬ Counts mark → Gets L mark toks len .intf (.src toks)
  | engine : ¬ Counts mark → Gets L mark toks len .eng .eng
  | text {t more} : ¬ Counts mark → toks = t :: more → Gets L mark toks len .string (.str t.lit)
  | float {t more x} : ¬ Counts mark → toks = t :: more → ParseFloat L t.lit = .ok (.ok x) → Gets L mark toks len .float64 (.float x)
  | int {t more v ty} : ¬ Counts mark → toks = t :: more → ty = .int ∨ ty = .int64 → ParseInt t.lit = .ok (.ok v) →
      Gets L mark toks len ty (.int v)

/-- The arguments behind the receiver: none, one, or one and the context. -/
inductive Given (L : Lits F) (mark : Str) (toks : List Token) (len : Int) : List ArgTy → List (Arg F) → Prop
  | none : Given L mark toks len [] []
  | one {t a} : Gets L mark toks len t a → Given L mark toks len [t] [a]
  | two {t a t2 c} : Gets L mark toks len t a → t2 = .ctx ∨ t2 = .intf → ContextOf toks c →
      Given L mark toks len [t, t2] [a, .ctx c]

end Tpl.Spec
