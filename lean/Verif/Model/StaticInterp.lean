import Verif.Model.Interp

/-
Model of tpl/cmd/tplgen/output.tpl: the interpreter that `tplgen -i` writes into the package
it generates.  It is a copy of tpl/interpreter/interpreter.go made before that file was changed,
put on top of the generated `StaticCompiler`.

Conventions and simplifications:
* As in Model/Interp.  The options are those without a scanner: `Matcher.requireScanner`
  (match.go:65-72) then makes a plain Scanner, which is an AutoKwScanner without keywords.
* File names are not modelled.
-/
namespace Tpl.Static
open Tpl
variable {E X I τ F W : Type}

/-- `GetValue` (output.tpl:66-95) of the first token, as second argument
(output.tpl:282-287).  `strconv.Atoi` is `ParseInt` with base 10. -/
def litArg (L : Lits F) (mark : Str) (t : ArgTy) (toks : List Token) : Code E X I τ (Arg F) :=
  match toks with
  | [] => Go.panic .slice
  | tok :: _ =>
    match t with
    | .string => pure (.str tok.lit)
    | .float64 => match L.parse tok.lit with
      | some x => pure (.float x)
      | none => Go.panic (.user (.str (.arg mark .float)))
    | .int64 | .int => match strconvInt tok.lit 10 with
      | .ok v => pure (.int v)
      | .error e => Go.panic (.user (.str (.arg mark (.num e))))
    | _ => Go.panic (.user (.str (.arg mark .unsupported)))

/-- The argument behind the receiver (output.tpl:259-289); there is at most one. -/
def markArgs (L : Lits F) (mark : Str) (params : List ArgTy) (toks : List Token) (g : Gr Str) : Code E X I τ (List (Arg F)) := do
  match params with
  | [] => pure []
  | t :: _ =>
    let a ← if isLenMark mark then
        if t = .int then do pure (.len (← Go.len g)) else Go.panic (.user (.str (.notInt mark)))
      else match t with
        | .intf => pure (.src toks)
        | .eng => pure .eng
        | .fline => do pure (.fline (FileLine ⟨toks, []⟩ (← Go.get).scanner.sc.source))
        | t => litArg L mark t toks
    pure [a]

/-- `marker` (output.tpl:165-306): which marks are accepted. -/
def marker (c : Client E X I τ F W) : Marker Str := fun g mark =>
  let checked : Except Str (Gr Str) := match lenChar mark with
    | some _ => .ok (.action mark g)
    | none => .error (str "index out of range")
  match c.table mark with
  | none =>
    if mark = str "_mute" ∨ mark = str "_unmute" ∨ mark = str "_tr" then .ok (.action mark g)
    else .error (str "invalid grammar mark: " ++ mark)
  | some .notFunc => .error (str "function table item not a function: " ++ mark)
  | some .variadic => .error (str "invalid mark - doesn't support variadic function: " ++ mark)
  | some .noParam => .error (str "invalid function (no param): " ++ mark)
  | some (.recv params outsOk _) =>
    if params.length > 1 then .error (str "invalid function (too many params): " ++ mark)
    else if outsOk then checked
    else .error (str "invalid function (return values): " ++ mark)
  | some (.plain _) => checked

/-- The body of an action inside the deferred function (output.tpl:252-303). -/
def perform (c : Client E X I τ F W) (mark : Str) (e : Entry E X I τ F W) (toks : List Token) (g : Gr Str) : Code E X I τ Unit := do
  match e with
  | .recv params _ body => body (← markArgs c.lits mark params toks g)
  | .plain fn =>
    match c.callFn with
    | some callFn => callFn fn
    | none =>
      match ← doCall c.refl c.stack fn fn.ins.length with
      | none => pure ()
      | some err => Go.panic (.user (.str (.call mark err)))
  | _ => pure () -- not accepted by the marker

/-- The actions (output.tpl:166-184, 221-304); the deferred function is that of
interpreter.go.  `compiler.Scanner` is nil when the options have no scanner, so `_tr` asks a nil
interface for the source. -/
def action (c : Client E X I τ F W) (mark : Str) (g : Gr Str) (toks : List Token) : Code E X I τ Unit := do
  match c.table mark with
  | none =>
    if mark = str "_mute" then Go.modify fun s => { s with mute := s.mute + 1 }
    else if mark = str "_unmute" then Go.modify fun s => { s with mute := s.mute - 1 }
    else if mark = str "_tr" ∧ toks ≠ [] then Go.panic .nilDeref
    else pure ()
  | some e =>
    if muted (← Go.get).mute mark then pure ()
    else Go.recover (perform c mark e toks g) fun p => Go.panic (rewrap g toks p)

/-- The callbacks of the grammar. -/
def sem (c : Client E X I τ F W) : Sem Str (Eng I τ) Unit (IPanic E X) where
  act f m a g toks s := (action c a g toks).run f m s
  start _ s := .ok () s
  finish _ _ _ s := .ok () s
  act_mono := by intro f f' m m' hf hm a g toks s r h; exact (action c a g toks).mono f f' m m' hf hm s r h

/-- What `Cl` of the generated code returns (static_parser_gen.go:221-227) when it has assigned
`doc` to the object of that name and the variables as in `T`: a matcher.  `ScanMode` is not
handed on, and there are no tables. -/
def compiled (T : Tab Str) (doc : Gr Str) : CompileRet Str := ⟨.named (str "doc") doc, ⟨[], T.vars, T.cells, KwScanner.zero⟩, ⟨false, false⟩⟩

/-- `Engine.Eval` of the engine that `NewStaticInterpreter` (output.tpl:146-316) returns. -/
def eval (c : Client E X I τ F W) (r : CompileRet Str) (U : Uni) (fuel : Nat) (src : Str) (s : St (Eng I τ)) :
    Option (MRes Str (Eng I τ) (IPanic E X) Unit) :=
  let m : Matcher Str (Eng I τ) Unit (IPanic E X) :=
    ⟨r.root, r.mode, engInit (s.u.scanner.tokenize U src r.mode).2, r.env, sem c⟩
  (m.matchExactly U fuel s.u.scanner src s).1

end Tpl.Static
