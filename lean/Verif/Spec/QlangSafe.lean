import Verif.Spec.QlangSem

/-!
What running a qlang program safely does: the program, its deferred expressions, and what
becomes of a panic.
-/
namespace Tpl.Qlang.Src
variable {F : Type}

/-- A panic that can be returned as an error: all but those with a value that is neither a string
nor an error. -/
def isError : QPanic F → Bool
  | .user (.other _) => false
  | _ => true

/-- Run a program safely: the deferred expressions run, also after a panic; the panic that they
have not recovered is returned if it can be, and goes on otherwise.  A panic of a deferred
expression goes on in any case, and so does the end of the process. -/
def Tm.safely (S : Setup F) (n : Nat) (d : Tm .doc) : Prog F (Option (QPanic F)) := do
  match ← try_ (d.does S n) with
  | .error (.user (.other (.exit c))) => exit_ c
  | e => do
    change 0 fun f => { f with recov := match e with
      | .ok _ => none
      | .error p => some p }
    runDefers (runs S n) 0
    match (← frame 0).recov with
    | none => pure none
    | some p => if isError p then pure (some p) else raise p

/-- The values of the deferred expressions. -/
def deferredVals (R : Runs F) (p : Nat) : List (QVal F) → Prog F (List (QVal F))
  | [] => pure []
  | .code ts :: more => do
    let v ← R.expr ts p
    let vs ← deferredVals R p more
    pure (v :: vs)
  | _ :: _ => fun _ => none

end Tpl.Qlang.Src
