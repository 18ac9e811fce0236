import Verif.Model.Interp

/-
Model of the message of a RuntimeError.
-/
namespace Tpl

/-- `RuntimeError.Error` (interpreter.go:102-112) of an error that has a context: `file` is the name
of the file the scanner was given, `t` the scanner, `cause` the message of the error inside.
`FileLine` (grammar.go:77-84) gives the file name "" if there are no tokens. -/
def runtimeMessage (file : Str) (t : TokSource) (src : List Token) (cause : Str) : Str :=
  let file := match src with
    | [] => []
    | _ :: _ => file
  let line := str (toString (FileLine ⟨src, []⟩ t))
  if file = [] then str "line " ++ line ++ str ": runtime error: " ++ cause
  else file ++ str ":" ++ line ++ str ": runtime error: " ++ cause

end Tpl
