import Verif.Spec.QlangGrammar
import Verif.Proof.CalcGrammar

/-! The grammars of qlang, as the compiler builds them from the rules. -/
namespace Tpl.Qlang.Src
open Spec

/-- The action of a mark. -/
abbrev A (mark : String) (g : Gr Str) : Gr Str := .action (str mark) g

def opG (l : Nat) (t : Gr Str) : Gr Str :=
  match l with
  | 0 => .or [.and [.tok 42, A "mul" t], .and [.tok 47, A "quo" t], .and [.tok 37, A "mod" t]]
  | 1 => .or [.and [.tok 43, A "add" t], .and [.tok 45, A "sub" t]]
  | 2 => .or [.and [.tok 60, A "lt" t], .and [.tok 62, A "gt" t], .and [.tok 148, A "eq" t], .and [.tok 150, A "le" t],
      .and [.tok 151, A "ge" t], .and [.tok 149, A "ne" t]]
  | 3 => .and [A "_mute" (.tok 143), A "and" (A "_unmute" (A "_code" t))]
  | _ => .and [A "_mute" (.tok 144), A "or" (A "_unmute" (A "_code" t))]

def termName : Nat → Str
  | 0 => str "term1"
  | 1 => str "term2"
  | 2 => str "term3"
  | 3 => str "term4"
  | _ => str "expr"

def gTerm : Nat → Gr Str
  | 0 => .var 0
  | l + 1 => .named (termName l) (.and [gTerm l, .rep0 l (opG l (gTerm l))])

/-- The same without the name. -/
def bTerm (l : Nat) : Gr Str := .and [gTerm l, .rep0 l (opG l (gTerm l))]

def gExpr : Gr Str := .named (str "expr") (bTerm 4)

def bS : Gr Str := .or [A "assign" (.and [.tok 3, .tok 61, .nil, gExpr]),
  .and [A "name" (.and [.tok 3, .tok 44, .nil]), A "ARITY" (.list 5 (A "name" (.tok 3)) (.tok 44) false), .tok 61, A "massign" gExpr],
  A "inc" (.and [.tok 3, .tok 146]), A "dec" (.and [.tok 3, .tok 147]),
  A "adda" (.and [.tok 3, .tok 132, .nil, gExpr]), A "suba" (.and [.tok 3, .tok 133, .nil, gExpr]),
  A "mula" (.and [.tok 3, .tok 134, .nil, gExpr]), A "quoa" (.and [.tok 3, .tok 135, .nil, gExpr]),
  A "moda" (.and [.tok 3, .tok 136, .nil, gExpr]),
  .and [.tok 176, A "return" (A "ARITY" (.rep01 6 gExpr))],
  .and [A "_mute" (.tok 177), .nil, A "defer" (A "_unmute" (A "_code" gExpr))],
  gExpr]
def gS : Gr Str := .named (str "s") bS

def gNext : Gr Str := .or [.and [A "clear" (.tok 59), gS], A "pushn" (.tok 59)]
def bDoc : Gr Str := .and [gS, .rep0 7 gNext]
def gDoc : Gr Str := .named (str "doc") bDoc

def bIf : Gr Str := .and [.tok 123, A "_code" (.rep01 8 gDoc), .tok 125]
def gIf : Gr Str := .named (str "ifbody") bIf

def gCase : Gr Str := .and [.tok 178, .nil, A "_code" gExpr, .tok 58, A "_code" (.rep01 9 gDoc)]
def gDefault : Gr Str := .and [.tok 179, .nil, .tok 58, A "_code" (.rep01 11 gDoc)]
def bSw : Gr Str := .and [A "_ARITY" (.rep0 10 gCase), A "_ARITY" (.rep01 12 gDefault)]
def gSw : Gr Str := .named (str "swbody") bSw

def bFn : Gr Str := .and [.tok 40, A "ARITY" (.list 13 (A "name" (.tok 3)) (.tok 44) true), A "ARITY" (.rep01 14 (.tok 153)),
  .tok 41, A "_mute" (.tok 123), A "_code" (.rep01 15 gDoc), A "_unmute" (.tok 125)]
def gFn : Gr Str := .named (str "fnbody") bFn

def bCls : Gr Str := .or [.and [.tok 40, A "ref" (.tok 3), .tok 41], A "ref" (.tok 3)]
def gCls : Gr Str := .named (str "clsname") bCls

def gNewA : Gr Str := .and [.tok 40, A "ARITY" (.list 16 gExpr (.tok 44) true), .tok 41]
def bNew : Gr Str := A "ARITY" (.rep01 17 gNewA)
def gNew : Gr Str := .named (str "newargs") bNew

def bMethod : Gr Str := .and [.tok 180, .nil, A "name" (.tok 3), gFn, A "mfn" (.rep01 18 (.tok 59))]
def gMethod : Gr Str := .named (str "classb") bMethod

def gMember : Gr Str := .or [.tok 3, .tok 181, .tok 182, .tok 183, .tok 184]
def bAtom : Gr Str := .or [
  .and [.tok 40, A "ARITY" (.list 19 gExpr (.tok 44) true), A "ARITY" (.rep01 20 (.tok 153)), .rep01 21 (.tok 44), A "call" (.tok 41)],
  .and [.tok 46, A "mref" gMember],
  .and [.tok 91, A "ARITY" (.rep01 22 gExpr), A "ARITY" (.rep01 23 (.tok 58)), A "ARITY" (.rep01 24 gExpr), A "index" (.tok 93)]]
def gAtom : Gr Str := .named (str "atom") bAtom

def gPrim : Gr Str := .or [A "ref" (.tok 3), .and [.tok 40, .nil, gExpr, .tok 41], .and [.tok 180, .nil, A "fn" gFn],
  .and [.tok 91, A "ARITY" (.list 25 gExpr (.tok 44) true), .rep01 26 (.tok 44), A "slice" (.tok 93)]]
def gPair : Gr Str := .and [gExpr, .tok 58, gExpr]
def gElif : Gr Str := .and [.tok 186, A "_code" gExpr, gIf]
def gElse : Gr Str := .and [.tok 187, gIf]
def gOn : Gr Str := .and [.not (.tok 123), gExpr]
def gPart : Gr Str := .and [.not (.tok 123), gS]

def gFactor : Gr Str := .or [A "pushi" (.tok 4), A "pushf" (.tok 5), A "pushs" (.tok 8), A "pushc" (.tok 7),
  .and [gPrim, .rep0 27 gAtom],
  .and [A "_mute" (.tok 185), .nil, A "_code" gExpr, gIf, A "_ARITY" (.rep0 28 gElif), A "if" (A "_unmute" (A "_ARITY" (.rep01 29 gElse)))],
  .and [A "_mute" (.tok 188), .nil, A "_code" (.rep01 30 gOn), .tok 123, gSw, A "switch" (A "_unmute" (.tok 125))],
  .and [A "_mute" (.tok 189), .nil, A "_ARITY" (.list 31 (A "_code" gPart) (.tok 59) true), .tok 123, A "_code" (.rep01 32 gDoc),
    A "for" (A "_unmute" (.tok 125))],
  .and [.tok 182, .nil, gCls, A "new" gNew],
  .and [.tok 181, .nil, .tok 123, A "ARITY" (.rep0 33 gMethod), A "class" (.tok 125)],
  .and [.tok 183, .tok 40, A "recover" (.tok 41)],
  .and [.tok 184, A "_mute" (.tok 123), A "_code" (.rep01 34 gDoc), A "main" (A "_unmute" (.tok 125))],
  .and [.tok 123, .nil, A "ARITY" (.list 35 gPair (.tok 44) true), .rep01 36 (.tok 44), A "map" (.tok 125)],
  .and [.tok 33, A "not" (.var 0)], .and [.tok 45, A "neg" (.var 0)], .and [.tok 43, .var 0]]

/-- The names of the table, the last rule first. -/
def table : List (Str × Gr Str) := [(str "atom", bAtom), (str "classb", bMethod), (str "newargs", bNew), (str "clsname", bCls),
  (str "fnbody", bFn), (str "swbody", bSw), (str "ifbody", bIf), (str "doc", bDoc), (str "s", bS), (str "expr", bTerm 4),
  (str "term4", bTerm 3), (str "term3", bTerm 2), (str "term2", bTerm 1), (str "term1", bTerm 0)]

def keywords : List Str := [str "\"return\"", str "\"defer\"", str "\"case\"", str "\"default\"", str "\"fn\"", str "\"class\"",
  str "\"new\"", str "\"recover\"", str "\"main\"", str "\"if\"", str "\"elif\"", str "\"else\"", str "\"switch\"", str "\"for\""]

/-- The kinds of the keywords, the last one first. -/
def kwTable : List (Str × Nat) := [(str "for", 189), (str "switch", 188), (str "else", 187), (str "elif", 186), (str "if", 185), (str "main", 184),
  (str "recover", 183), (str "new", 182), (str "class", 181), (str "fn", 180), (str "default", 179), (str "case", 178), (str "defer", 177), (str "return", 176)]

/-- The tables of the grammar of qlang. -/
theorem tables (F : Type) (L : Lib F) (r : CompileRet Str) (U : Uni) (sc : Scanner) :
    denDoc (client L r U).marker rules ⟨[], [], 0, ⟨sc, [], some []⟩⟩ =
      .ok ⟨table, [(str "factor", some gFactor)], 37, ⟨sc, keywords, some kwTable⟩⟩ := by
  kernel_rfl

end Tpl.Qlang.Src
