import Verif.Model.Tplconv
import Verif.Spec.Extractor
import Verif.Spec.Errors

/-
What a user of tplconv sees: the document of a file, its text, and where it goes.
-/
namespace Tpl.Spec
open Tpl Extractor Conv
variable {W Q : Type}

/-- The extension of the path, without the dot. -/
def Extension (path x : Str) : Prop := (∃ a, path = a ++ 46 :: x) ∧ 46 ∉ x ∧ 47 ∉ x

/-- `items` is the document of a match of all of `toks` with the grammar of `r`. -/
def Matched (getValue : Str → Str → Except Q W) (r : CompileRet Mark) (toks : List Token) (items : List (DItem W)) : Prop :=
  ∃ l e, Tr r.env (.one r.root) toks (.succ toks.length l) e ∧ DItem.run getValue e [[]] = .ok [items]

/-- The file `f` has the document `doc`: it has an extension, there is a template for it, and
the content matches. -/
def Document (H : Host W Q) (files : Str → Option Str) (f : Str) (doc : DMap W) : Prop :=
  ∃ input x tpl r toks eof items, files f = some input ∧ Extension f x ∧ files (H.inputTpl (x ++ str ".tpl")) = some tpl ∧
    (∃ fuel, Extractor.new tpl ⟨false, false⟩ H.uni fuel = some (.ok r)) ∧
    Tokenizes H.uni r.tab.scanner input ⟨false, false⟩ toks eof ∧ Matched H.getValue r toks items ∧ doc = docOf items

/-- The document `doc` looks like `text` in the format. -/
inductive Looks (H : Host W Q) (files : Str → Option Str) (doc : DMap W) : (fmt text : Str) → Prop
  | json : Looks H files doc (str "json") (H.json doc)
  | html {fmt text t} : Extension fmt (str "htm") ∨ Extension fmt (str "html") → H.template (files (H.outputTpl fmt)) = .ok t →
      t doc = (text, none) → Looks H files doc fmt text

/-- The files with another content of `p`. -/
def putFile (files : Str → Option Str) (p text : Str) : Str → Option Str := fun q => if q = p then some text else files q

/-- The file has been converted: the text of its document has been added to standard output,
or is the content of the output file. -/
inductive Converted (H : Host W Q) (fmt : Str) : (oext : Str) → (f : Str) → World → World → Prop
  | stdout {f w doc text} : Document H w.files f doc → Looks H w.files doc fmt text →
      Converted H fmt [] f w { w with out := w.out ++ text }
  | file {oext f w doc text} : oext ≠ [] → Document H w.files f doc → H.canCreate (f ++ str "." ++ oext) = true →
      Looks H (putFile w.files (f ++ str "." ++ oext) []) doc fmt text →
      Converted H fmt oext f w { w with files := putFile w.files (f ++ str "." ++ oext) text }

/-- The files have been converted one after the other. -/
inductive AllConverted (H : Host W Q) (fmt oext : Str) : List Str → World → World → Prop
  | nil {w} : AllConverted H fmt oext [] w w
  | cons {f fs w w1 w2} : Converted H fmt oext f w w1 → AllConverted H fmt oext fs w1 w2 → AllConverted H fmt oext (f :: fs) w w2

/-- What one file may change. -/
def Touched (oext f : Str) (w w' : World) : Prop :=
  (oext = [] → w'.files = w.files ∧ ∃ text, w'.out = w.out ++ text) ∧
  (oext ≠ [] → w'.out = w.out ∧ ∀ q, q ≠ f ++ str "." ++ oext → w'.files q = w.files q)

/-- The files have these texts. -/
inductive Texts (H : Host W Q) (files : Str → Option Str) (fmt : Str) : List Str → List Str → Prop
  | nil : Texts H files fmt [] []
  | cons {f fs doc text texts} : Document H files f doc → Looks H files doc fmt text → Texts H files fmt fs texts →
      Texts H files fmt (f :: fs) (text :: texts)

/-- No output file is one of the files the run reads. -/
def Apart (H : Host W Q) (fmt oext : Str) (args : List Str) : Prop :=
  ∀ f ∈ args, (f ++ str "." ++ oext) ∉ args ∧ (∀ g ∈ args, ∀ x, Extension g x → f ++ str "." ++ oext ≠ H.inputTpl (x ++ str ".tpl")) ∧
    f ++ str "." ++ oext ≠ H.outputTpl fmt

end Tpl.Spec
