import Verif.Model.QlangInterp
import Verif.Spec.Interp

/-
Specification of interpreters written in qlang: what a mark asks for, and what a program
does when the functions of the interpreter work on a state of their own.
-/
namespace Tpl.QInterp.Spec
open Tpl Tpl.Spec

variable {E X Obj Cls τ F V W : Type}

/-! ### Names of marks -/

def Capital (b : UInt8) : Prop := 65 ≤ b ∧ b ≤ 90

/-- The last word of a name in camel case: from the last capital letter on. -/
def LastWord (mark w : Str) : Prop :=
  ∃ front b rest, mark = front ++ w ∧ w = b :: rest ∧ Capital b ∧ ∀ x ∈ rest, ¬ Capital x

/-- Names that begin with a capital letter, maybe after an underscore. -/
def Counts (mark : Str) : Prop := ∃ b rest, Capital b ∧ (mark = b :: rest ∨ mark = 95 :: b :: rest)

/-- What a function may ask for. -/
inductive Want where
  /-- the number of items -/
  | length
  /-- the tokens, the engine -/
  | tokens | engine
  /-- the first token: as floating point number, as integer, as text -/
  | float | int | text
deriving DecidableEq

/-- What the name of a mark asks for. -/
inductive Wants (mark : Str) : Want → Prop
  | length : Counts mark → Wants mark .length
  | tokens : ¬ Counts mark → LastWord mark (Tpl.str "Src") → Wants mark .tokens
  | engine : ¬ Counts mark → LastWord mark (Tpl.str "Engine") → Wants mark .engine
  | float : ¬ Counts mark → LastWord mark (Tpl.str "Float") → Wants mark .float
  | int : ¬ Counts mark → LastWord mark (Tpl.str "Int") → Wants mark .int
  | text : ¬ Counts mark → (∀ w ∈ ["Src", "Engine", "Float", "Int"], ¬ LastWord mark (Tpl.str w)) → Wants mark .text

section
variable (H : Host E X Obj Cls τ F V W)

/-- What it gets, for the tokens `toks` and `len` items: a value or a panic. -/
def argument (mark : Str) (toks : List Token) (len : Int) : Want → Except (IPanic E X) V
  | .length => .ok (H.int len)
  | .tokens => .ok (if toks = [] then H.nil else H.toks toks)
  | .engine => .ok H.eng
  | .float => match toks with
    | [] => .error .value
    | t :: _ => match H.parseFloat t.lit with
      | some x => .ok (H.float x)
      | none => .error (.str (.arg mark .float))
  | .int => match toks with
    | [] => .error .value
    | t :: _ => match strconvInt t.lit 10 with
      | .ok v => .ok (H.int v)
      | .error e => .error (.str (.arg mark (.num e)))
  | .text => match toks with
    | [] => .error .value
    | t :: _ => .ok (H.str t.lit)
end

/-! ### Functions that work on a state of their own -/

/-- A piece of code that gives a value or panics, and changes the state `τ`. -/
abbrev Own (E X τ α : Type) := τ → Except (IPanic E X × τ) (α × τ)

/-- It as code run by the engine. -/
def Own.code {α : Type} (x : Own E X τ α) : Code E X Obj τ α where
  run _ _ s := some (match x s.u.u with
    | .ok (a, u) => .ok a { s with u := { s.u with u := u } }
    | .error (p, u) => .panic (.user p) { s with u := { s.u with u := u } })
  mono := by intros; assumption

/-- A qlang function. -/
structure OwnFun (E X τ Cls V : Type) where
  cls : Option Cls
  arity : Nat
  call : List V → Own E X τ V

def OwnFun.fn (f : OwnFun E X τ Cls V) : Fun (Go Str (Eng Obj τ) (IPanic E X)) Cls V := ⟨f.cls, f.arity, false, fun vs => (f.call vs).code⟩

/-- An interpreter: its stack, with the methods popArgs and push, and its functions. -/
structure Lang (E X Obj τ Cls V : Type) where
  stk : Obj
  ip : Obj
  pop : List V → Own E X τ V
  push : List V → Own E X τ V
  fns : Str → Option (OwnFun E X τ Cls V)

section
variable [DecidableEq Cls] (H : Host E X Obj Cls τ F V W) (L : Lang E X Obj τ Cls V)

/-- What a mark does: a method of the stack or of the interpreter `cur` gets its object, and
what it asks for if it has a second parameter.  Another function gets as many arguments as it
has parameters from the stack, and its value is pushed. -/
def does (want : Str → Want) (cur : Obj) (mark : Str) (toks : List Token) (len : Int) (f : OwnFun E X τ Cls V) (u : τ) :
    Except (IPanic E X × τ) τ :=
  let method (this : Obj) : Except (IPanic E X × τ) τ :=
    if f.arity = 2 then
      match argument H mark toks len (want mark) with
      | .error p => .error (p, u)
      | .ok a => (f.call [H.obj this, a] u).map (·.2)
    else (f.call [H.obj this] u).map (·.2)
  if f.cls = some (H.cls L.stk) then method L.stk
  else if f.cls = some (H.cls L.ip) then method cur
  else
    match L.pop [H.obj L.stk, H.int f.arity] u with
    | .error e => .error e
    | .ok (v, u) =>
      match H.elems v with
      | none => .error (.str (.text (Tpl.str "method stack.popArgs doesn't return a slice")), u)
      | some args =>
        match f.call args u with
        | .error e => .error e
        | .ok (ret, u) => (L.push [H.obj L.stk, ret] u).map (·.2)

/-- The marks of a match, one after the other: those that are muted do nothing, the others what
`step` says.  `c` is the mute counter. -/
def play (step : Str → List Token → Int → OwnFun E X τ Cls V → τ → Except (IPanic E X × τ) τ) :
    Int → List (Ev Str) → τ → Except (IPanic E X × τ) (Int × τ)
  | c, [], u => .ok (c, u)
  | c, .act mark _ toks len :: es, u =>
    match L.fns mark with
    | none =>
      if mark = Tpl.str "_mute" then play step (c + 1) es u
      else if mark = Tpl.str "_unmute" then play step (c - 1) es u
      else play step c es u
    | some f =>
      if Runs c mark then
        match step mark toks len f u with
        | .error e => .error e
        | .ok u => play step c es u
      else play step c es u
  | c, _ :: es, u => play step c es u

/-- The host and the tables describe this interpreter. -/
structure Describes (P : Entries E X Obj Cls τ V W) : Prop where
  stk : P.stk = L.stk
  ip : P.ip = L.ip
  pop : ∃ c a, H.method (H.cls L.stk) (Tpl.str "popArgs") = some ⟨c, a, false, fun vs => (L.pop vs).code⟩
  push : ∃ c a, H.method (H.cls L.stk) (Tpl.str "push") = some ⟨c, a, false, fun vs => (L.push vs).code⟩
  fns : ∀ mark, P.table mark = (L.fns mark).map fun f => .fn f.fn
end

end Tpl.QInterp.Spec
