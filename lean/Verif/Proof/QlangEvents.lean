import Verif.Proof.QlangRead
import Verif.Spec.QlangMarks

/-! Every program is read by the grammar of qlang: the trace of the match, by induction on its
tree. -/
namespace Tpl.Qlang.Src
open Spec

/-- An action. -/
abbrev ev (m : String) (g : Gr Str) (ts : List Token) (l : Int) : Ev Str := .act (str m) g ts l

abbrev evTok (m : String) {k : Nat} (t : Tk k) : Ev Str := ev m (.tok k) [t.tok] (-1)

def namesEvs : Names → List (Ev Str)
  | [] => []
  | (_, x) :: more => evTok "name" x :: namesEvs more

def paramEvs : Option (Tk IDENT × Names) → List (Ev Str)
  | none => []
  | some (x, more) => evTok "name" x :: namesEvs more

/-- `_code` and what is done with it. -/
abbrev evCode (g : Gr Str) (ts : List Token) (l : Int) : Ev Str := ev "_code" g ts l

/-- The actions of a tree, in order. -/
def Tm.evs : {c : Cat} → Tm c → List (Ev Str)
  | _, .chain _ a b => a.evs ++ b.evs
  | _, .noOp => []
  | .tail l, .bin o _ b more => (b.evs ++ [ev o.mark (gTerm l) b.toks (-1)]) ++ more.evs
  | _, .and op b more => (evTok "_mute" op :: (b.evs ++ [evCode (gTerm 3) b.toks (-1),
      ev "_unmute" (A "_code" (gTerm 3)) b.toks (-1), ev "and" (A "_unmute" (A "_code" (gTerm 3))) b.toks (-1)])) ++ more.evs
  | _, .or op b more => (evTok "_mute" op :: (b.evs ++ [evCode (gTerm 4) b.toks (-1),
      ev "_unmute" (A "_code" (gTerm 4)) b.toks (-1), ev "or" (A "_unmute" (A "_code" (gTerm 4))) b.toks (-1)])) ++ more.evs
  | _, .int t => [evTok "pushi" t]
  | _, .float t => [evTok "pushf" t]
  | _, .string t => [evTok "pushs" t]
  | _, .char t => [evTok "pushc" t]
  | _, .post e ops => e.evs ++ ops.evs
  | _, .if_ kw c _ b _ es el => evTok "_mute" kw :: ((c.evs ++ [evCode gExpr c.toks (-1)]) ++
      ((b.evs ++ [evCode (.rep01 8 gDoc) b.toks b.cnt]) ++ ((es.evs ++ [ev "_ARITY" (.rep0 28 gElif) es.toks es.cnt]) ++
      (el.evs ++ [ev "_ARITY" (.rep01 29 gElse) el.toks el.cnt, ev "_unmute" (A "_ARITY" (.rep01 29 gElse)) el.toks el.cnt,
        ev "if" (A "_unmute" (A "_ARITY" (.rep01 29 gElse))) el.toks el.cnt]))))
  | _, .switch kw on _ cs d rb => evTok "_mute" kw :: ((on.evs ++ [evCode (.rep01 30 gOn) on.toks on.cnt]) ++
      (((cs.evs ++ [ev "_ARITY" (.rep0 10 gCase) cs.toks cs.cnt]) ++ (d.evs ++ [ev "_ARITY" (.rep01 12 gDefault) d.toks d.cnt])) ++
      [evTok "_unmute" rb, ev "switch" (A "_unmute" (.tok RBRACE)) [rb.tok] (-1)]))
  | _, .for_ kw ps _ b rb => evTok "_mute" kw :: ((ps.evs ++ [ev "_ARITY" (.list 31 (A "_code" gPart) (.tok 59) true) ps.toks ps.cnt]) ++
      ((b.evs ++ [evCode (.rep01 32 gDoc) b.toks b.cnt]) ++
      [evTok "_unmute" rb, ev "for" (A "_unmute" (.tok RBRACE)) [rb.tok] (-1)]))
  | _, .new _ c as => c.evs ++ (as.evs ++ [ev "new" gNew as.toks (-1)])
  | _, .class_ _ _ ms rb => (ms.evs ++ [ev "ARITY" (.rep0 33 gMethod) ms.toks ms.cnt]) ++ [evTok "class" rb]
  | _, .recover _ _ rp => [evTok "recover" rp]
  | _, .main _ lb b rb => evTok "_mute" lb :: ((b.evs ++ [evCode (.rep01 34 gDoc) b.toks b.cnt]) ++
      [evTok "_unmute" rb, ev "main" (A "_unmute" (.tok RBRACE)) [rb.tok] (-1)])
  | _, .map _ ps _ rb => (ps.evs ++ [ev "ARITY" (.list 35 gPair (.tok 44) true) ps.toks ps.cnt]) ++ [evTok "map" rb]
  | _, .not _ e => e.evs ++ [ev "not" (.var 0) e.toks (-1)]
  | _, .neg _ e => e.evs ++ [ev "neg" (.var 0) e.toks (-1)]
  | _, .pos _ e => e.evs
  | _, .name x => [evTok "ref" x]
  | _, .paren _ e _ => e.evs
  | _, .fn _ f => f.evs ++ [ev "fn" gFn f.toks (-1)]
  | _, .slice _ es _ rb => (es.evs ++ [ev "ARITY" (.list 25 gExpr (.tok 44) true) es.toks es.cnt]) ++ [evTok "slice" rb]
  | _, .noAtom => []
  | _, .atom a more => a.evs ++ more.evs
  | _, .call _ as s _ rp => (as.evs ++ [ev "ARITY" (.list 19 gExpr (.tok 44) true) as.toks as.cnt]) ++
      (ev "ARITY" (.rep01 20 (.tok 153)) (optTok s) (optCnt s) :: [evTok "call" rp])
  | _, .member _ x _ => [ev "mref" gMember [x] 5]
  | _, .index _ i rb => (i.evs ++ [ev "ARITY" (.rep01 22 gExpr) i.toks 1]) ++
      [ev "ARITY" (.rep01 23 (.tok 58)) [] 0, ev "ARITY" (.rep01 24 gExpr) [] 0, evTok "index" rb]
  | _, .range _ i c j rb => (i.evs ++ [ev "ARITY" (.rep01 22 gExpr) i.toks i.cnt]) ++
      (ev "ARITY" (.rep01 23 (.tok 58)) [c.tok] 1 :: ((j.evs ++ [ev "ARITY" (.rep01 24 gExpr) j.toks j.cnt]) ++ [evTok "index" rb]))
  | _, .noIndex _ rb => [ev "ARITY" (.rep01 22 gExpr) [] 0, ev "ARITY" (.rep01 23 (.tok 58)) [] 0, ev "ARITY" (.rep01 24 gExpr) [] 0, evTok "index" rb]
  | _, .index2 _ i j rb => (i.evs ++ [ev "ARITY" (.rep01 22 gExpr) i.toks 1]) ++
      (ev "ARITY" (.rep01 23 (.tok 58)) [] 0 :: ((j.evs ++ [ev "ARITY" (.rep01 24 gExpr) j.toks 1]) ++ [evTok "index" rb]))
  | _, .noExpr => []
  | _, .expr e => e.evs
  | _, .noArgs => []
  | _, .args e more => e.evs ++ more.evs
  | _, .lastArg => []
  | _, .moreArgs _ e more => e.evs ++ more.evs
  | _, .noPairs => []
  | _, .pairs k _ v more => (k.evs ++ v.evs) ++ more.evs
  | _, .lastPair => []
  | _, .morePairs _ k _ v more => (k.evs ++ v.evs) ++ more.evs
  | _, .assign x op e => e.evs ++ [ev "assign" (.and [.tok 3, .tok 61, .nil, gExpr]) (x.tok :: op.tok :: e.toks) 4]
  | _, .multi x c y more _ e => ev "name" (.and [.tok 3, .tok 44, .nil]) [x.tok, c.tok] 3 ::
      (((evTok "name" y :: namesEvs more) ++ [ev "ARITY" (.list 5 (A "name" (.tok 3)) (.tok 44) false) (y.tok :: namesToks more)
        (more.length + 1 : Nat)]) ++ (e.evs ++ [ev "massign" gExpr e.toks (-1)]))
  | _, .inc x op => [ev "inc" (.and [.tok 3, .tok 146]) [x.tok, op.tok] 2]
  | _, .dec x op => [ev "dec" (.and [.tok 3, .tok 147]) [x.tok, op.tok] 2]
  | _, .opAssign o x op e => e.evs ++ [ev o.mark (.and [.tok 3, .tok o.kind, .nil, gExpr]) (x.tok :: op.tok :: e.toks) 4]
  | _, .return_ _ e => e.evs ++ [ev "ARITY" (.rep01 6 gExpr) e.toks e.cnt, ev "return" (A "ARITY" (.rep01 6 gExpr)) e.toks e.cnt]
  | _, .defer kw e => evTok "_mute" kw :: (e.evs ++ [evCode gExpr e.toks (-1), ev "_unmute" (A "_code" gExpr) e.toks (-1),
      ev "defer" (A "_unmute" (A "_code" gExpr)) e.toks (-1)])
  | _, .eval e => e.evs
  | _, .doc s more => s.evs ++ more.evs
  | _, .endDoc => []
  | _, .next sc s more => (evTok "clear" sc :: s.evs) ++ more.evs
  | _, .semi sc more => [evTok "clear" sc, evTok "pushn" sc] ++ more.evs
  | _, .noDoc => []
  | _, .someDoc d => d.evs
  | _, .noElif => []
  | _, .elif _ c _ b _ more => ((c.evs ++ [evCode gExpr c.toks (-1)]) ++ (b.evs ++ [evCode (.rep01 8 gDoc) b.toks b.cnt])) ++ more.evs
  | _, .noElse => []
  | _, .else_ _ _ b _ => b.evs ++ [evCode (.rep01 8 gDoc) b.toks b.cnt]
  | _, .noCase => []
  | _, .case _ e _ b more => ((e.evs ++ [evCode gExpr e.toks (-1)]) ++ (b.evs ++ [evCode (.rep01 9 gDoc) b.toks b.cnt])) ++ more.evs
  | _, .noDefault => []
  | _, .default _ _ b => b.evs ++ [evCode (.rep01 11 gDoc) b.toks b.cnt]
  | _, .noParts => []
  | _, .parts s more => (s.evs ++ [evCode gPart s.toks 2]) ++ more.evs
  | _, .lastPart => []
  | _, .moreParts _ s more => (s.evs ++ [evCode gPart s.toks 2]) ++ more.evs
  | _, .fnBody _ ps s _ lb b rb => (paramEvs ps ++ [ev "ARITY" (.list 13 (A "name" (.tok 3)) (.tok 44) true) (paramToks ps) (paramCnt ps)]) ++
      (ev "ARITY" (.rep01 14 (.tok 153)) (optTok s) (optCnt s) :: (evTok "_mute" lb ::
      ((b.evs ++ [evCode (.rep01 15 gDoc) b.toks b.cnt]) ++ [evTok "_unmute" rb])))
  | _, .noMethod => []
  | _, .method _ x f s more => (evTok "name" x :: (f.evs ++ [ev "mfn" (.rep01 18 (.tok 59)) (optTok s) (optCnt s)])) ++ more.evs
  | _, .clsName x => [evTok "ref" x]
  | _, .clsParen _ x _ => [evTok "ref" x]
  | _, .noNewArgs => [ev "ARITY" (.rep01 17 gNewA) [] 0]
  | _, .newArgs lp as rp => (as.evs ++ [ev "ARITY" (.list 16 gExpr (.tok 44) true) as.toks as.cnt]) ++
      [ev "ARITY" (.rep01 17 gNewA) (lp.tok :: (as.toks ++ [rp.tok])) 1]

/-! ### What may follow -/

abbrev K (ks : List Nat) : List (Option Nat) := ks.map some

/-- After an expression. -/
def afterE : List (Option Nat) := none :: K [41, 93, 125, 123, 44, 59, 58, 153, 178, 179]
/-- After a term of level `l`. -/
def after : Nat → List (Option Nat)
  | 0 => K [42, 47, 37, 43, 45, 60, 62, 148, 150, 151, 149, 143, 144] ++ afterE
  | 1 => K [43, 45, 60, 62, 148, 150, 151, 149, 143, 144] ++ afterE
  | 2 => K [60, 62, 148, 150, 151, 149, 143, 144] ++ afterE
  | 3 => K [143, 144] ++ afterE
  | 4 => K [144] ++ afterE
  | _ => afterE
def afterD : List (Option Nat) := none :: K [125, 178, 179]
def afterS : List (Option Nat) := none :: K [125, 178, 179, 59, 123]

/-- After a list of expressions: perhaps a comma in front of the bracket that closes it. -/
def AfterL (rest : List Token) : Prop :=
  hd rest ∈ K [41, 93, 125, 153] ∨ (hd rest = some 44 ∧ hd rest.tail ∈ K [41, 93, 125])

/-! ### What trees begin with -/

def firstE : List Nat := [4, 5, 8, 7, 3, 40, 180, 91, 185, 188, 189, 182, 181, 183, 184, 123, 33, 45, 43]
def firstS : List Nat := 176 :: 177 :: firstE

def Begins (ks : List Nat) (ts : List Token) : Prop := ∃ t more, ts = t :: more ∧ t.kind ∈ ks

def Starts : Cat → List Token → Prop
  | .term _, ts => Begins firstE ts
  | .prim, ts => Begins firstE ts
  | .stmt, ts => Begins firstS ts
  | .doc, ts => Begins firstS ts
  | _, _ => True

theorem Begins.append {ks : List Nat} {ts ts' : List Token} : Begins ks ts → Begins ks (ts ++ ts')
  | ⟨t, more, h, hk⟩ => ⟨t, more ++ ts', by rw [h]; rfl, hk⟩

theorem Begins.weaken {ks ks' : List Nat} {ts : List Token} (hs : ks ⊆ ks') : Begins ks ts → Begins ks' ts
  | ⟨t, more, h, hk⟩ => ⟨t, more, h, hs hk⟩

theorem begins_tk {k : Nat} {ks : List Nat} (t : Tk k) {more : List Token} (h : k ∈ ks) : Begins ks (t.tok :: more) :=
  ⟨t.tok, more, rfl, by rw [t.ok]; exact h⟩

theorem starts : ∀ {c : Cat} (t : Tm c), Starts c t.toks := by
  intro c t
  induction t with
  | chain h a b iha ihb => exact iha.append
  | int t | float t | string t | char t => exact begins_tk t (by decide)
  | post e ops ihe _ => exact ihe.append
  | if_ kw | switch kw | for_ kw | new kw | class_ kw | recover kw | main kw | fn kw => exact begins_tk kw (by decide)
  | map lb | slice lb => exact begins_tk lb (by decide)
  | not op | neg op | pos op => exact begins_tk op (by decide)
  | name x => exact begins_tk x (by decide)
  | paren lp => exact begins_tk lp (by decide)
  | assign x | multi x | inc x | dec x => exact begins_tk x (by decide)
  | opAssign o x => exact begins_tk x (by decide)
  | return_ kw | defer kw => exact begins_tk kw (by decide)
  | eval e ih => exact Begins.weaken (by intro x hx; exact .tail _ (.tail _ hx)) ih
  | doc s more ih _ => exact Begins.append ih
  | _ => trivial

theorem Begins.hd {ks : List Nat} {ts rest : List Token} : Begins ks ts → hd (ts ++ rest) ∈ K ks
  | ⟨t, more, h, hk⟩ => by
    subst h
    exact List.mem_map_of_mem hk

end Tpl.Qlang.Src
