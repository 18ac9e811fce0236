import Verif.Model.Repl
import Verif.Spec.Calc
import Verif.Spec.Errors

/-
What a user of the calculator programs sees: the answer to a line, and the lines of an
input.
-/
namespace Tpl.Spec
open Tpl
variable {V F Z : Type}

/-- White space. -/
def WhiteByte (c : UInt8) : Prop := c = 32 ∨ c = 9 ∨ c = 13 ∨ c = 10

/-- `core` is `line` without the white space around it. -/
structure Trimmed (line core : Str) : Prop where
  around : ∃ a b, line = a ++ core ++ b ∧ (∀ c ∈ a, WhiteByte c) ∧ ∀ c ∈ b, WhiteByte c
  first : ∀ c, core.head? = some c → ¬ WhiteByte c
  last : ∀ c, core.getLast? = some c → ¬ WhiteByte c

/-- The text is the expression `e`. -/
def Expression (C : Calc V F) (U : Uni) (text : Str) (e : Ex) : Prop :=
  ∃ toks eof, Tokenizes U KwScanner.zero text ⟨false, false⟩ toks eof ∧ Reads C 0 toks e

/-- The value goes to standard output. -/
def shown (text : Str) : Repl.Out := .out (str "> " ++ text ++ str "\n\n")

/-- Something goes to standard error. -/
def Complaint (o : Repl.Out) : Prop := ∀ text, o ≠ .out text

/-- Standard error says what is wrong: it shows the cause, as it is or as that of a
RuntimeError. -/
inductive Blames (c : Fault) : Repl.Out → Prop
  | plain : Blames c (.panicked c.panic)
  | runtime (g ts) : Blames c (.panicked (.user (.runtime g ts c)))

/-- The answer to a line, where expressions have the values `value`. -/
inductive Answer (C : Calc V F) (U : Uni) (value : Ex → Except Fault Str) (line : Str) : List Repl.Out → Prop
  | blank : (∀ c ∈ line, WhiteByte c) → Answer C U value line []
  | value {core e text} : Trimmed line core → Expression C U core e → value e = .ok text → Answer C U value line [shown text]
  | fault {core e c o} : Trimmed line core → Expression C U core e → value e = .error c → Blames c o → Answer C U value line [o]
  | other {core o} : Trimmed line core → core ≠ [] → (∀ e, ¬ Expression C U core e) → Complaint o → Answer C U value line [o]

/-- The text consists of these lines; the end of the last one may be missing if the line
is not empty. -/
inductive Lines : List Str → Str → Prop
  | nil : Lines [] []
  | last {l} : l ≠ [] → 10 ∉ l → Lines [l] l
  | cons {l ls rest} : 10 ∉ l → Lines ls rest → Lines (l :: ls) (l ++ 10 :: rest)

/-- The values of expressions in the programs. -/
def calculatorText (M : Float64 F) (fmt : F → Str) (e : Ex) : Except Fault Str := (numberValue M e).map fmt

/-- Fractions in lowest terms, or integers. -/
def ratText (x : Rat) : Str := if x.den = 1 then Repl.decimal x.num else Repl.decimal x.num ++ str "/" ++ Repl.decimal x.den

def ratcalcText (lit : Str → Rat) (e : Ex) : Except Fault Str := (ratValue lit e).map ratText

def cmplxcalcText (M : Complex128 F Z) (fmtReal fmt : Z → Str) (e : Ex) : Except Fault Str :=
  (cmplxValue M e).map fun z => if M.isReal z then fmtReal z else fmt z

end Tpl.Spec
