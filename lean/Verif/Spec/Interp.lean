import Verif.Model.Interp
import Verif.Spec.Trace
import Verif.Spec.Lexical

/-
Specification of the interpreter engine: which marks take effect, the value of an INT
literal, which arguments a function accepts.
-/
namespace Tpl.Spec
open Tpl

/-- A marked function runs when the mute counter is not positive, or when it is 1 and the
mark begins with an underscore. -/
def Runs (counter : Int) (mark : Str) : Prop := counter ≤ 0 ∨ (counter = 1 ∧ ∃ rest, mark = 95 :: rest)

instance (counter : Int) (mark : Str) : Decidable (Runs counter mark) :=
  if h : counter ≤ 0 ∨ (counter = 1 ∧ mark.head? = some 95) then
    .isTrue (by
      rcases h with h | ⟨h1, h2⟩
      · exact .inl h
      · cases mark with
        | nil => cases h2
        | cons b rest => simp at h2; subst h2; exact .inr ⟨h1, rest, rfl⟩)
  else .isFalse (by
    rintro (h' | ⟨h1, rest, rfl⟩)
    · exact h (.inl h')
    · exact h (.inr ⟨h1, rfl⟩))

/-- A history of marks, each with the tokens it was given: those that take effect, when
the counter is `c` at the beginning. -/
def effective : Int → List (Str × List Token) → List (Str × List Token)
  | _, [] => []
  | c, (mark, toks) :: es =>
    if mark = str "_mute" then effective (c + 1) es
    else if mark = str "_unmute" then effective (c - 1) es
    else if Runs c mark then (mark, toks) :: effective c es
    else effective c es

/-- What a history makes of the counter. -/
def counter (c : Int) (es : List (Str × List Token)) : Int :=
  c + (es.filter (·.1 = str "_mute")).length - (es.filter (·.1 = str "_unmute")).length

/-- The marks of a trace of callbacks. -/
def marks : List (Ev Str) → List (Str × List Token)
  | [] => []
  | .act mark _ toks _ :: es => (mark, toks) :: marks es
  | _ :: es => marks es

/-- The value of an integer literal: hexadecimal after `0x`, octal after another leading
0, otherwise decimal. -/
def intValue : Str → Nat
  | 48 :: c :: ds => if c = 120 ∨ c = 88 then numeral 16 ds else numeral 8 (c :: ds)
  | ds => numeral 10 ds

/-- A malformed integer literal: `0x` without digits, or a digit 8 or 9 in an octal one. -/
def Malformed (lit : Str) : Prop :=
  lit = [48, 120] ∨ lit = [48, 88] ∨ ∃ ds, lit = 48 :: ds ∧ (∀ b ∈ ds, IsDec b) ∧ ∃ b ∈ ds, ¬ IsOct b

variable {W : Type}

/-- The panics that become the cause of a RuntimeError: errors (also those of the Go
runtime) and strings. -/
inductive Causes {E X : Type} : Panic Str (IPanic E X) → Cause E → Prop
  | str m : Causes (.user (.str m)) (.msg m)
  | err e : Causes (.user (.err e)) (.err e)
  | value : Causes (.user .value) .value
  | nilDeref : Causes .nilDeref .nilDeref
  | slice : Causes .slice .slice
  | varNotAssigned : Causes (.err .varNotAssigned) .varNotAssigned

/-- The panics that pass: RuntimeErrors, MatchErrors, and values that are neither errors
nor strings. -/
inductive PassesThrough {E X : Type} : Panic Str (IPanic E X) → Prop
  | runtime g src e : PassesThrough (.user (.runtime g src e))
  | mismatch g src e i : PassesThrough (.err (.mismatch g src e i))
  | other x : PassesThrough (.user (.other x))

/-- `v`, passed where type `t` is required, arrives as `w`: unchanged if `t` is an interface
or pointer type or the type of `v`; numbers are converted to float64. -/
inductive Passes (R : Reflect W) (t : GoTy) (v : W) : W → Prop
  | any : t.kind = 20 ∨ t.kind = 22 → Passes R t v v
  | same : R.ty v = t → Passes R t v v
  | number : t = GoTy.float64 → 2 ≤ (R.ty v).kind → (R.ty v).kind ≤ 13 → Passes R t v (R.toFloat v)

/-- The same for a list of arguments. -/
inductive PassAll (R : Reflect W) : List GoTy → List W → List W → Prop
  | nil : PassAll R [] [] []
  | cons {t ts v vs w ws} : Passes R t v w → PassAll R ts vs ws → PassAll R (t :: ts) (v :: vs) (w :: ws)

/-- Parameter types of a function when it is called with `n` arguments. -/
def paramTypes {M : Type → Type} (fn : GoFn M W) (n : Nat) : List GoTy :=
  match fn.rest with
  | none => fn.ins
  | some t => fn.ins ++ List.replicate (n - fn.ins.length) t

/-- The number of arguments a function accepts. -/
def Accepts {M : Type → Type} (fn : GoFn M W) (n : Int) : Prop :=
  match fn.rest with
  | none => n = fn.ins.length
  | some _ => fn.ins.length ≤ n

end Tpl.Spec
