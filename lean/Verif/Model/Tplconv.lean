import Verif.Model.Extractor

/-
Model of the program tpl/cmd/tplconv/tplconv.go: it parses files with the templates of
their extensions and prints the documents.

Simplifications:
* A file is its content; files that cannot be read are taken not to exist.  Different paths
  are different files (no links, no `a/../b`).  Which files can be created is a parameter.
  Writing does not fail.
* `filepath.Join` of the template directories, `json.MarshalIndent` and package html/template
  are parameters.  A template may write a part of its output before it returns an error.
* Messages are kept as the error they print.
-/
namespace Tpl
namespace Conv
open Extractor
variable {W Q : Type}

/-- The files and what was written to standard output. -/
structure World where
  files : Str → Option Str
  out : Str

/-- The errors `processFile` returns. -/
inductive ConvErr (Q : Type) where
  /-- of `ReadFile` of the input -/
  | read (path : Str)
  /-- "unknown file format": no extension, or no template for the extension -/
  | noExt (path : Str)
  | noTpl (ext : Str)
  /-- "invalid tpl file" -/
  | badTpl (path : Str) (e : ClErr)
  /-- of `SafeParse` -/
  | parse (e : MErr Mark)
  | caught (p : Panic Mark (XPanic Q))
  /-- of `os.Create` -/
  | create (path : Str)
  /-- "unknown output format" -/
  | format (name : Str)
  /-- of `ParseFiles` and `Execute` -/
  | template (msg : Str)

/-- How `processFile` can fail: with an error or with a panic. -/
inductive Fail (Q : Type) where
  | err (e : ConvErr Q)
  /-- of `extractor.New` -/
  | new (p : Panic ClAct ClPanic)
  /-- of `SafeParse` -/
  | value (q : Q)

/-- What is not in the repository. -/
structure Host (W Q : Type) where
  uni : Uni
  getValue : Str → Str → Except Q W
  /-- which values of its panics are strings or errors -/
  isErr : Q → Bool
  /-- the path of an input template (tplconv.go:60) -/
  inputTpl : Str → Str
  /-- the path of an output template (tplconv.go:103) -/
  outputTpl : Str → Str
  /-- `printJson` (tplconv.go:114-121) -/
  json : DMap W → Str
  /-- `makeHtmlTempl` (tplconv.go:127-130) of a file with this content, if there is one; the
  template writes a text and may return an error -/
  template : Option Str → Except Str (DMap W → Str × Option Str)
  /-- Can the file be created? -/
  canCreate : Str → Bool

/-- `filepath.Ext` (path/filepath) of the reversed path, with the part after the dot found so far. -/
def extLoop (x : Str) : Str → Str
  | [] => []
  | c :: l => if c = 47 then [] else if c = 46 then 46 :: x else extLoop (c :: x) l

/-- `filepath.Ext`: the part of the last element of the path from its last dot on. -/
def ext (path : Str) : Str := extLoop [] path.reverse

/-- The first part of `processFile` (tplconv.go:50-75), which reads. -/
def convert (H : Host W Q) (fuel : Nat) (files : Str → Option Str) (f : Str) : Option (Except (Fail Q) (DMap W)) :=
  match files f with
  | none => some (.error (.err (.read f)))
  | some input =>
    let x := ext f
    if x = [] then some (.error (.err (.noExt f)))
    else
      let path := H.inputTpl (x.drop 1 ++ str ".tpl")
      match files path with
      | none => some (.error (.err (.noTpl x)))
      | some tpl => match Extractor.new tpl ⟨false, false⟩ H.uni fuel with
        | none => none
        | some (.panic p) => some (.error (.new p))
        | some (.err e) => some (.error (.err (.badTpl path e)))
        | some (.ok r) => match safeParse H.isErr H.getValue r H.uni fuel r.tab.scanner input ⟨fun _ => 0, XEng.new⟩ with
          | none => none
          | some (.err e) => some (.error (.err (.parse e)))
          | some (.caught p) => some (.error (.err (.caught p)))
          | some (.panic q) => some (.error (.value q))
          | some (.ok doc) => some (.ok doc)

/-- Writing to standard output or to the file (tplconv.go:77-86), which is empty. -/
def write (target : Option Str) (text : Str) (w : World) : World := match target with
  | none => { w with out := w.out ++ text }
  | some p => { w with files := fun q => if q = p then some text else w.files q }

/-- Where the document goes (tplconv.go:77-79). -/
def target (oext f : Str) : Option Str := if oext = [] then none else some (f ++ 46 :: oext)

/-- The last part of `processFile` (tplconv.go:88-109), which prints to an open file. -/
def print (H : Host W Q) (fmt : Str) (t : Option Str) (doc : DMap W) (w : World) : Except (Fail Q) Unit × World :=
  let x := ext fmt
  if x = [] then
    if fmt = str "json" then (.ok (), write t (H.json doc) w) else (.error (.err (.format fmt)), w)
  else if x = str ".htm" ∨ x = str ".html" then
    match H.template (w.files (H.outputTpl fmt)) with
    | .error m => (.error (.err (.template m)), w)
    | .ok out => match out doc with
      | (text, none) => (.ok (), write t text w)
      | (text, some m) => (.error (.err (.template m)), write t text w)
  else (.error (.err (.format x)), w)

/-- `processFile` (tplconv.go:48-110). -/
def processFile (H : Host W Q) (fuel : Nat) (fmt oext f : Str) (w : World) : Option (Except (Fail Q) Unit × World) :=
  match convert H fuel w.files f with
  | none => none
  | some (.error e) => some (.error e, w)
  | some (.ok doc) => match target oext f with
    | none => some (print H fmt none doc w)
    | some p =>
      if H.canCreate p then some (print H fmt (some p) doc (write (some p) [] w))
      else some (.error (.err (.create p)), w)

/-- How the program ends: with exit code 0, with exit code 1 and the help text, with exit
code 2 and an error, or with a panic. -/
inductive Exit (Q : Type) where
  | ok
  | help
  | error (e : ConvErr Q)
  | crash (f : Fail Q)

/-- The loop of `main` (tplconv.go:39-45). -/
def loop (H : Host W Q) (fuel : Nat) (fmt oext : Str) : List Str → World → Option (Exit Q × World)
  | [], w => some (.ok, w)
  | f :: fs, w => match processFile H fuel fmt oext f w with
    | none => none
    | some (.ok (), w) => loop H fuel fmt oext fs w
    | some (.error (.err e), w) => some (.error e, w)
    | some (.error p, w) => some (.crash p, w)

/-- `main` (tplconv.go:28-46) with the options `-o fmt -ext oext`. -/
def main (H : Host W Q) (fuel : Nat) (fmt oext : Str) (args : List Str) (w : World) : Option (Exit Q × World) :=
  if args = [] then some (.help, w) else loop H fuel fmt oext args w

end Conv
end Tpl
