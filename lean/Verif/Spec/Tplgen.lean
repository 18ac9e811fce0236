import Verif.Model.Tplgen

/-
What a user of tplgen writes: declarations of a grammar in Go files.
-/
namespace Tpl.Spec
open Tpl GenCmd

/-- Variables or constants are declared, among them `name` with the literal `v`. -/
inductive InSpecs (name v : Str) : List GSpec → Prop
  | mk {specs names values} {i : Nat} : GSpec.value names values ∈ specs → names[i]? = some name → values[i]? = some (Expr.lit v) → InSpecs name v specs

/-- In the declaration, or in a function as a statement of its body, `name` is declared or
assigned with the literal `v`. -/
inductive InDecl (name v : Str) : Decl → Prop
  | top {specs} : InSpecs name v specs → InDecl name v (.gen specs)
  | loc {body specs} : Stmt.decl specs ∈ body → InSpecs name v specs → InDecl name v (.func (some body))
  | assign {body lhs rhs} {i : Nat} : Stmt.assign lhs rhs ∈ body → lhs[i]? = some (some name) → rhs[i]? = some (Expr.lit v) → InDecl name v (.func (some body))

/-- A file of the package `pkg` declares `name` with the literal `v`. -/
def Declared (pkgs : List (Str × List (List Decl))) (name pkg v : Str) : Prop :=
  ∃ files, (pkg, files) ∈ pkgs ∧ ∃ f ∈ files, ∃ d ∈ f, InDecl name v d

/-- Every `name` has a value of its own, and there is only one. -/
def OwnValue {α : Type} (names : List α) (values : List Expr) (name : α) : Prop :=
  (∀ i : Nat, names[i]? = some name → i < values.length) ∧ ∀ i j : Nat, names[i]? = some name → names[j]? = some name → i = j

/-- Where `name` is declared it has a value of its own. -/
def OwnSpecs (name : Str) (specs : List GSpec) : Prop := ∀ names values, GSpec.value names values ∈ specs → OwnValue names values name

/-- A declaration tplgen can look at. -/
inductive OwnDecl (name : Str) : Decl → Prop
  | gen {specs} : OwnSpecs name specs → OwnDecl name (.gen specs)
  | func {body} : (∀ specs, Stmt.decl specs ∈ body → OwnSpecs name specs) →
      (∀ lhs rhs, Stmt.assign lhs rhs ∈ body → OwnValue lhs rhs (some name)) → OwnDecl name (.func (some body))

/-- All declarations of the packages are such, and no literal is empty (as is the case in Go). -/
structure Usual (pkgs : List (Str × List (List Decl))) (name : Str) : Prop where
  own : ∀ pkg files, (pkg, files) ∈ pkgs → ∀ f ∈ files, ∀ d ∈ f, OwnDecl name d
  lit : ∀ v d, (∃ pkg files f, (pkg, files) ∈ pkgs ∧ f ∈ files ∧ d ∈ f) → InDecl name v d → v ≠ []

/-- The same files in the same packages, in whatever order. -/
def SameFiles (pkgs pkgs' : List (Str × List (List Decl))) : Prop :=
  ∀ pkg f, (∃ files, (pkg, files) ∈ pkgs ∧ f ∈ files) ↔ ∃ files, (pkg, files) ∈ pkgs' ∧ f ∈ files

/-- What is between the quotes of a Go string means the text (only the escapes with one letter
are here). -/
inductive Interp : Str → Str → Prop
  | nil : Interp [] []
  | plain {c s t} : c ≠ 34 → c ≠ 92 → c ≠ 10 → Interp s t → Interp (c :: s) (c :: t)
  | newline {s t} : Interp s t → Interp (92 :: 110 :: s) (10 :: t)
  | tab {s t} : Interp s t → Interp (92 :: 116 :: s) (9 :: t)
  | quote {s t} : Interp s t → Interp (92 :: 34 :: s) (34 :: t)
  | backslash {s t} : Interp s t → Interp (92 :: 92 :: s) (92 :: t)

/-- The value of a Go string literal (without carriage returns, which the Go scanner drops). -/
inductive GoString : Str → Str → Prop
  | raw {t} : 96 ∉ t → GoString (str "`" ++ t ++ str "`") t
  | quoted {s t} : Interp s t → GoString (str "\"" ++ s ++ str "\"") t

end Tpl.Spec
