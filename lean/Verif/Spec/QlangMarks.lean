import Verif.Spec.QlangSyntax
import Verif.Spec.Trace
import Verif.Spec.Token

/-!
The marks (the operations of the interpreter) that a program consists of, in order, with the
tokens each of them stands for.
-/
namespace Tpl.Qlang.Src
open Spec

/-- The mark of an operator. -/
def BOp.mark {l : Nat} : BOp l → String
  | .mul => "mul" | .quo => "quo" | .mod => "mod" | .add => "add" | .sub => "sub"
  | .lt => "lt" | .gt => "gt" | .eq => "eq" | .le => "le" | .ge => "ge" | .ne => "ne"

def AOp.mark : AOp → String
  | .add => "adda" | .sub => "suba" | .mul => "mula" | .quo => "quoa" | .mod => "moda"

/-- How many items a list has. -/
def Tm.cnt : {c : Cat} → Tm c → Nat
  | _, .expr _ => 1
  | _, .someDoc _ => 1
  | _, .else_ .. => 1
  | _, .default .. => 1
  | _, .newArgs .. => 1
  | _, .args _ more => more.cnt + 1
  | _, .moreArgs _ _ more => more.cnt + 1
  | _, .pairs _ _ _ more => more.cnt + 1
  | _, .morePairs _ _ _ _ more => more.cnt + 1
  | _, .elif _ _ _ _ _ more => more.cnt + 1
  | _, .case _ _ _ _ more => more.cnt + 1
  | _, .parts _ more => more.cnt + 1
  | _, .moreParts _ _ more => more.cnt + 1
  | _, .method _ _ _ _ more => more.cnt + 1
  | _, _ => 0

def optCnt {k : Nat} : Option (Tk k) → Nat
  | none => 0
  | some _ => 1

def paramCnt : Option (Tk IDENT × Names) → Nat
  | none => 0
  | some (_, more) => more.length + 1

/-- A mark: its name, the tokens in front of it that it belongs to, and for the marks that
count, how many items there were. -/
structure Mark where
  name : Str
  toks : List Token
  items : Option Nat

def mk (m : String) (ts : List Token) : Mark := ⟨bytes m, ts, none⟩
def count (m : String) (ts : List Token) (n : Nat) : Mark := ⟨bytes m, ts, some n⟩

/-- What can be seen of a callback invocation: the mark, the tokens, and for `ARITY` and
`_ARITY` the number of items. -/
def shown : Ev Str → Mark
  | .act a _ ts l => ⟨a, ts, if a = bytes "ARITY" ∨ a = bytes "_ARITY" then some l.toNat else none⟩
  | .opens t => ⟨t, [], none⟩
  | .closes t _ => ⟨t, [], none⟩

def nameMarks : Names → List Mark
  | [] => []
  | (_, x) :: more => mk "name" [x.tok] :: nameMarks more

def paramMarks : Option (Tk IDENT × Names) → List Mark
  | none => []
  | some (x, more) => mk "name" [x.tok] :: nameMarks more

/-- The marks of a tree, in the order in which they run: the operands in front of their operator.
What is run later or not at all (branches, bodies, the right of `&&` and `||`, deferred
expressions) stands between `_mute` and `_unmute` and ends with `_code`. -/
def Tm.marks : {c : Cat} → Tm c → List Mark
  | _, .chain _ a b => a.marks ++ b.marks
  | _, .noOp => []
  | .tail l, .bin o _ b more => (b.marks ++ [mk o.mark b.toks]) ++ more.marks
  | _, .and op b more => (mk "_mute" [op.tok] :: (b.marks ++ [mk "_code" b.toks,
      mk "_unmute" b.toks, mk "and" b.toks])) ++ more.marks
  | _, .or op b more => (mk "_mute" [op.tok] :: (b.marks ++ [mk "_code" b.toks,
      mk "_unmute" b.toks, mk "or" b.toks])) ++ more.marks
  | _, .int t => [mk "pushi" [t.tok]]
  | _, .float t => [mk "pushf" [t.tok]]
  | _, .string t => [mk "pushs" [t.tok]]
  | _, .char t => [mk "pushc" [t.tok]]
  | _, .post e ops => e.marks ++ ops.marks
  | _, .if_ kw c _ b _ es el => mk "_mute" [kw.tok] :: ((c.marks ++ [mk "_code" c.toks]) ++
      ((b.marks ++ [mk "_code" b.toks]) ++ ((es.marks ++ [count "_ARITY" es.toks es.cnt]) ++
      (el.marks ++ [count "_ARITY" el.toks el.cnt, mk "_unmute" el.toks,
        mk "if" el.toks]))))
  | _, .switch kw on _ cs d rb => mk "_mute" [kw.tok] :: ((on.marks ++ [mk "_code" on.toks]) ++
      (((cs.marks ++ [count "_ARITY" cs.toks cs.cnt]) ++ (d.marks ++ [count "_ARITY" d.toks d.cnt])) ++
      [mk "_unmute" [rb.tok], mk "switch" [rb.tok]]))
  | _, .for_ kw ps _ b rb => mk "_mute" [kw.tok] :: ((ps.marks ++ [count "_ARITY" ps.toks ps.cnt]) ++
      ((b.marks ++ [mk "_code" b.toks]) ++
      [mk "_unmute" [rb.tok], mk "for" [rb.tok]]))
  | _, .new _ c as => c.marks ++ (as.marks ++ [mk "new" as.toks])
  | _, .class_ _ _ ms rb => (ms.marks ++ [count "ARITY" ms.toks ms.cnt]) ++ [mk "class" [rb.tok]]
  | _, .recover _ _ rp => [mk "recover" [rp.tok]]
  | _, .main _ lb b rb => mk "_mute" [lb.tok] :: ((b.marks ++ [mk "_code" b.toks]) ++
      [mk "_unmute" [rb.tok], mk "main" [rb.tok]])
  | _, .map _ ps _ rb => (ps.marks ++ [count "ARITY" ps.toks ps.cnt]) ++ [mk "map" [rb.tok]]
  | _, .not _ e => e.marks ++ [mk "not" e.toks]
  | _, .neg _ e => e.marks ++ [mk "neg" e.toks]
  | _, .pos _ e => e.marks
  | _, .name x => [mk "ref" [x.tok]]
  | _, .paren _ e _ => e.marks
  | _, .fn _ f => f.marks ++ [mk "fn" f.toks]
  | _, .slice _ es _ rb => (es.marks ++ [count "ARITY" es.toks es.cnt]) ++ [mk "slice" [rb.tok]]
  | _, .noAtom => []
  | _, .atom a more => a.marks ++ more.marks
  | _, .call _ as s _ rp => (as.marks ++ [count "ARITY" as.toks as.cnt]) ++
      (count "ARITY" (optTok s) (optCnt s) :: [mk "call" [rp.tok]])
  | _, .member _ x _ => [mk "mref" [x]]
  | _, .index _ i rb => (i.marks ++ [count "ARITY" i.toks 1]) ++
      [count "ARITY" [] 0, count "ARITY" [] 0, mk "index" [rb.tok]]
  | _, .range _ i c j rb => (i.marks ++ [count "ARITY" i.toks i.cnt]) ++
      (count "ARITY" [c.tok] 1 :: ((j.marks ++ [count "ARITY" j.toks j.cnt]) ++ [mk "index" [rb.tok]]))
  | _, .noIndex _ rb => [count "ARITY" [] 0, count "ARITY" [] 0, count "ARITY" [] 0, mk "index" [rb.tok]]
  | _, .index2 _ i j rb => (i.marks ++ [count "ARITY" i.toks 1]) ++
      (count "ARITY" [] 0 :: ((j.marks ++ [count "ARITY" j.toks 1]) ++ [mk "index" [rb.tok]]))
  | _, .noExpr => []
  | _, .expr e => e.marks
  | _, .noArgs => []
  | _, .args e more => e.marks ++ more.marks
  | _, .lastArg => []
  | _, .moreArgs _ e more => e.marks ++ more.marks
  | _, .noPairs => []
  | _, .pairs k _ v more => (k.marks ++ v.marks) ++ more.marks
  | _, .lastPair => []
  | _, .morePairs _ k _ v more => (k.marks ++ v.marks) ++ more.marks
  | _, .assign x op e => e.marks ++ [mk "assign" (x.tok :: op.tok :: e.toks)]
  | _, .multi x c y more _ e => mk "name" [x.tok, c.tok] ::
      (((mk "name" [y.tok] :: nameMarks more) ++ [count "ARITY" (y.tok :: namesToks more) (more.length + 1)]) ++ (e.marks ++ [mk "massign" e.toks]))
  | _, .inc x op => [mk "inc" [x.tok, op.tok]]
  | _, .dec x op => [mk "dec" [x.tok, op.tok]]
  | _, .opAssign o x op e => e.marks ++ [mk o.mark (x.tok :: op.tok :: e.toks)]
  | _, .return_ _ e => e.marks ++ [count "ARITY" e.toks e.cnt, mk "return" e.toks]
  | _, .defer kw e => mk "_mute" [kw.tok] :: (e.marks ++ [mk "_code" e.toks, mk "_unmute" e.toks,
      mk "defer" e.toks])
  | _, .eval e => e.marks
  | _, .doc s more => s.marks ++ more.marks
  | _, .endDoc => []
  | _, .next sc s more => (mk "clear" [sc.tok] :: s.marks) ++ more.marks
  | _, .semi sc more => [mk "clear" [sc.tok], mk "pushn" [sc.tok]] ++ more.marks
  | _, .noDoc => []
  | _, .someDoc d => d.marks
  | _, .noElif => []
  | _, .elif _ c _ b _ more => ((c.marks ++ [mk "_code" c.toks]) ++ (b.marks ++ [mk "_code" b.toks])) ++ more.marks
  | _, .noElse => []
  | _, .else_ _ _ b _ => b.marks ++ [mk "_code" b.toks]
  | _, .noCase => []
  | _, .case _ e _ b more => ((e.marks ++ [mk "_code" e.toks]) ++ (b.marks ++ [mk "_code" b.toks])) ++ more.marks
  | _, .noDefault => []
  | _, .default _ _ b => b.marks ++ [mk "_code" b.toks]
  | _, .noParts => []
  | _, .parts s more => (s.marks ++ [mk "_code" s.toks]) ++ more.marks
  | _, .lastPart => []
  | _, .moreParts _ s more => (s.marks ++ [mk "_code" s.toks]) ++ more.marks
  | _, .fnBody _ ps s _ lb b rb => (paramMarks ps ++ [count "ARITY" (paramToks ps) (paramCnt ps)]) ++
      (count "ARITY" (optTok s) (optCnt s) :: (mk "_mute" [lb.tok] ::
      ((b.marks ++ [mk "_code" b.toks]) ++ [mk "_unmute" [rb.tok]])))
  | _, .noMethod => []
  | _, .method _ x f s more => (mk "name" [x.tok] :: (f.marks ++ [mk "mfn" (optTok s)])) ++ more.marks
  | _, .clsName x => [mk "ref" [x.tok]]
  | _, .clsParen _ x _ => [mk "ref" [x.tok]]
  | _, .noNewArgs => [count "ARITY" [] 0]
  | _, .newArgs lp as rp => (as.marks ++ [count "ARITY" as.toks as.cnt]) ++
      [count "ARITY" (lp.tok :: (as.toks ++ [rp.tok])) 1]

end Tpl.Qlang.Src
