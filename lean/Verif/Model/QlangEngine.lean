import Verif.Model.Qlang

/-
Model of tpl/qlang/engine.go and of `Interpreter.Ret`: what a host program does with qlang.

* `os.Exit` is a panic that is never recovered (as in Model/Qlang).
* A returned error is the error of the match, or what a panic was made of.
-/
namespace Tpl.Qlang
variable {F : Type}

/-- `Exec` (engine.go:35-38). -/
def exec (L : Lib F) (r : CompileRet Str) (U : Uni) (fuel : Nat) (src : Str) (s : St (QEng F)) :
    Option (MRes Str (QEng F) (IPanic QErr (QX (QVal F))) Unit) := (client L r U).eval r U fuel src s

/-- Errors of `SafeExec`. -/
inductive ExecErr (F : Type) where
  /-- the error of `MatchExactly` -/
  | matched (e : MErr Str)
  /-- `errors.New(v)` for a panic with the string `v` -/
  | text (m : PMsg QErr)
  /-- a panic with an error -/
  | err (p : QPanic F)

/-- The type switch of `SafeExec` (engine.go:46-53) on `p.Recov`: a string, an error, or
anything else. -/
def execErr : QPanic F → Option (ExecErr F)
  | .user (.str m) => some (.text m)
  | .user (.other _) => none
  | p => some (.err p)

/-- The deferred function of `SafeExec` (engine.go:42-55); `e` is what `recover` returns and
`err` the result so far. -/
def safeEnd (r : CompileRet Str) (U : Uni) (e : Option (QPanic F)) (err : Option (ExecErr F)) : QM F (Option (ExecErr F)) := do
  modScope 0 fun c => { c with recov := e }
  execDefers r U 0
  match ((← getQ).scopes 0).recov with
  | none => pure err
  | some p => match execErr p with
    | some x => pure (some x)
    | none => throwQ p

/-- `SafeExec` (engine.go:40-59). -/
def safeExec (L : Lib F) (r : CompileRet Str) (U : Uni) (fuel : Nat) (src : Str) (s : St (QEng F)) : Option (Cb Str (QEng F) (IPanic QErr (QX (QVal F))) (Option (ExecErr F))) :=
  match exec L r U fuel src s with
  | none => none
  | some (.ok _ s) => (safeEnd r U none none).run fuel (matchG r.env (client L r U).sem fuel) s
  | some (.err e s) => (safeEnd r U none (some (.matched e))).run fuel (matchG r.env (client L r U).sem fuel) s
  | some (.panic (.user (.other (.exit n))) s) => some (.panic (.user (.other (.exit n))) s)
  | some (.panic p s) => (safeEnd r U (some p) none).run fuel (matchG r.env (client L r U).sem fuel) s

/-- `Ret` (qlang.go:331-336) of the interpreter that `New` made: the value and whether there
is one. -/
def ret : QM F (Option (QVal F)) := do
  let v ← pop
  clear 0
  pure v

end Tpl.Qlang
