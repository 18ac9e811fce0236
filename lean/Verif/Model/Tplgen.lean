import Verif.Model.Generator

/-
Model of the program tpl/cmd/tplgen/main.go: it looks for a grammar in the Go files of the
directory and writes the code package generator makes of it.

Simplifications:
* A Go file is the list of its declarations, of which only what main.go looks at is kept: the
  names and values of variable and constant declarations and of assignments. Parsing
  (package go/parser) is a parameter.
* Go visits the packages and the files in a random order: the lists are in the order of the
  visit.
* The literals have at least one byte.
* `output.tpl` (package text/template) is a parameter. Writing does not fail.
-/
namespace Tpl
namespace GenCmd
open Gen

/-- An expression: a literal, as it is written, or anything else. -/
inductive Expr where
  | lit (value : Str)
  | other
deriving DecidableEq

/-- `ast.Spec`: names and values of an `ast.ValueSpec`; imports and types. -/
inductive GSpec where
  | value (names : List Str) (values : List Expr)
  | other
deriving DecidableEq

/-- `ast.Stmt`. On the left side of an assignment only names count. -/
inductive Stmt where
  | decl (specs : List GSpec)
  | assign (lhs : List (Option Str)) (rhs : List Expr)
  | other
deriving DecidableEq

/-- `ast.Decl`; a function need not have a body. -/
inductive Decl where
  | gen (specs : List GSpec)
  | func (body : Option (List Stmt))
deriving DecidableEq

/-- The run-time panics. -/
inductive Crash where
  /-- index out of range -/
  | index
  /-- `funcDecl.Body` is nil -/
  | nilBody
  /-- of `GenStaticCode` -/
  | gen (p : Panic GenAct GenPanic)

/-- The index the loop of `findInGenDecl` leaves (main.go:30-35): of the last name. -/
def lastIndex (name : Str) (i : Nat) (found : Option Nat) : List Str → Option Nat
  | [] => found
  | n :: ns => lastIndex name (i + 1) (if n = name then some i else found) ns

/-- The index the loop of `findInAssignment` leaves (main.go:48-57): of the first name. -/
def firstIndex (name : Str) (i : Nat) : List (Option Str) → Option Nat
  | [] => none
  | n :: ns => if n = some name then some i else firstIndex name (i + 1) ns

/-- `xs[index].(*ast.BasicLit)` (main.go:37-40, 59-62): the literal, or "" to go on. -/
def litAt (xs : List Expr) (i : Nat) : Except Crash Str :=
  match xs[i]? with
  | none => .error .index
  | some (.lit v) => .ok v
  | some .other => .ok []

/-- `findInGenDecl` (main.go:26-45). A literal ends the search. -/
def findInGenDecl (name : Str) : List GSpec → Except Crash Str
  | [] => .ok []
  | .other :: specs => findInGenDecl name specs
  | .value names values :: specs => match lastIndex name 0 none names with
    | none => findInGenDecl name specs
    | some i => match litAt values i with
      | .error e => .error e
      | .ok [] => findInGenDecl name specs
      | .ok v => .ok v

/-- `findInAssignment` (main.go:47-65). -/
def findInAssignment (name : Str) (lhs : List (Option Str)) (rhs : List Expr) : Except Crash Str :=
  match firstIndex name 0 lhs with
  | none => .ok []
  | some i => litAt rhs i

/-- One statement in `findInDecl` (main.go:78-91). The declaration of a statement is not a function. -/
def findInStmt (name : Str) : Stmt → Except Crash Str
  | .decl specs => findInGenDecl name specs
  | .assign lhs rhs => findInAssignment name lhs rhs
  | .other => .ok []

/-- The loop over the statements (main.go:77-92). -/
def findInBody (name : Str) : List Stmt → Except Crash Str
  | [] => .ok []
  | s :: ss => match findInStmt name s with
    | .error e => .error e
    | .ok [] => findInBody name ss
    | .ok v => .ok v

/-- `findInDecl` (main.go:67-95). -/
def findInDecl (name : Str) : Decl → Except Crash Str
  | .gen specs => findInGenDecl name specs
  | .func none => .error .nilBody
  | .func (some body) => findInBody name body

/-- The loop over the declarations of a file (main.go:115-121). -/
def findInFile (name : Str) : List Decl → Except Crash Str
  | [] => .ok []
  | d :: ds => match findInDecl name d with
    | .error e => .error e
    | .ok [] => findInFile name ds
    | .ok v => .ok v

/-- The search (main.go:112-123) through the files with the names of their packages, in the
order in which they are visited. -/
def search (name : Str) : List (Str × List Decl) → Except Crash (Option (Str × Str))
  | [] => .ok none
  | (pkg, file) :: fs => match findInFile name file with
    | .error e => .error e
    | .ok [] => search name fs
    | .ok v => .ok (some (pkg, v))

/-- The order in which the loops (main.go:113-114) visit the files. -/
def visits (pkgs : List (Str × List (List Decl))) : List (Str × List Decl) :=
  pkgs.flatMap fun p => p.2.map fun f => (p.1, f)

/-- `grammarContent[1 : len(grammarContent)-1]` (main.go:128). -/
def inner (v : Str) : Except Crash Str :=
  if v.length < 2 then .error .index else .ok ((v.drop 1).take (v.length - 2))

/-- How the program ends: with the new file, with an error and exit code 1, or with a panic. -/
inductive End where
  | ok
  | fail (msg : Str)
  /-- of `GenStaticCode`; `none` is `ErrNoDoc` -/
  | gen (e : Option (MErr GenAct))
  | crash (c : Crash)

/-- What is not in main.go. -/
structure Host where
  uni : Uni
  /-- the random orders in package generator -/
  orders : Orders
  /-- the packages in the directory, when the output file is not there, in the order of the visit -/
  parse : Except Str (List (Str × List (List Decl)))
  /-- can the file be opened? -/
  openOut : Option Str
  /-- `output.tpl` -/
  render : Except Str (Str → Bool → Str → Str)

/-- `main` (main.go:97-143). The second part of the result is the output file after the run;
its content before the run plays no part, as it is removed first (main.go:106). -/
def main (H : Host) (fuel : Nat) (name : Str) (ipt : Bool) (_old : Option Str) : Option (End × Option Str) :=
  match H.parse with
  | .error m => some (.fail m, none)
  | .ok pkgs => match search name (visits pkgs) with
    | .error c => some (.crash c, none)
    | .ok none => some (.fail (name ++ str " not found."), none)
    | .ok (some (pkg, v)) => match inner v with
      | .error c => some (.crash c, none)
      | .ok text => match genStaticCode H.uni H.orders fuel text with
        | none => none
        | some (.err e) => some (.gen (some e), none)
        | some .noDoc => some (.gen none, none)
        | some (.panic p) => some (.crash (.gen p), none)
        | some (.ok code) => match H.openOut with
          | some m => some (.fail m, none)
          | none => match H.render with
            | .error m => some (.fail m, some [])
            | .ok r => some (.ok, some (r pkg ipt code))

end GenCmd
end Tpl
