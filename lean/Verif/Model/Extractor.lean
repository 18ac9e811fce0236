import Verif.Model.Compiler

/-
Model of tpl/extractor: document.go and extractor.go.

Conventions and simplifications:
* `*Node` is an address; `hds` holds what the `hd` fields point to.  A list of `Cons` cells
  never changes once built, so it is a list.  Address 0 is the field `doc` of the engine;
  `next + 1` is the next one `new(Node)` returns.
* The fields `val` and `cate` of a `Cons` are combined: `cate` says whether `val` is a
  `*Node`, so the type assertions and the default case of `toMap` are not needed.
* `map[string]interface{}` is a function; nil is the function without values.
* `getValue` (`Options.GetValue`, by default `GetValue`) is a parameter: it returns a value
  or panics.
-/
namespace Tpl.Extractor
variable {W Q : Type}

/-- `Cons` (document.go:13-18) without `tail`. -/
inductive Cons (W : Type) where
  | leaf (tag : Str) (isArray : Bool) (val : W)
  | node (tag : Str) (isArray : Bool) (id : Nat)

def Cons.tag : Cons W → Str
  | .leaf t _ _ => t
  | .node t _ _ => t

/-- `cate` (document.go:5-11). -/
def Cons.cate : Cons W → Nat
  | .leaf _ a _ => if a then 2 else 0
  | .node _ a _ => if a then 3 else 1

/-- `Engine` (extractor.go:66-70) and the nodes it has made.  `stk` is nil before the first
match. -/
structure XEng (W : Type) where
  hds : Nat → List (Cons W)
  next : Nat
  stk : Option Nat

/-- `new(Engine)` (extractor.go:86). -/
def XEng.new : XEng W := ⟨fun _ => [], 0, none⟩

/-- `p.hd = hd` -/
def XEng.setHd (e : XEng W) (id : Nat) (hd : List (Cons W)) : XEng W :=
  { e with hds := fun i => if i = id then hd else e.hds i }

/-- `initer` (extractor.go:89-92, Node.clear document.go:30-33). -/
def XEng.init (e : XEng W) : XEng W := { e.setHd 0 [] with stk := some 0 }

/-- A decoded mark. -/
structure Mark where
  tag : Str
  typ : Str
  isArray : Bool
deriving DecidableEq, Repr

/-- `strings.LastIndex(s, b)` -/
def lastIndex (b : UInt8) : Str → Option Nat
  | [] => none
  | x :: s => match lastIndex b s with
    | some i => some (i + 1)
    | none => if x = b then some 0 else none

/-- The first part of the marker (extractor.go:98-111). -/
def parseMark (mark : Str) : Except Str Mark :=
  let (m, isArray) :=
    if (str "s").isSuffixOf mark then (mark.take (mark.length - 1), true)
    else if (str "Array").isSuffixOf mark then (mark.take (mark.length - 5), true)
    else (mark, false)
  match lastIndex 95 m with
  | none => .error (str "invalid mark: " ++ mark)
  | some pos => .ok ⟨m.take pos, m.drop (pos + 1), isArray⟩

/-- The marker (extractor.go:97-130): nodes become transactions, everything else an
action. -/
def marker : Marker Mark := fun g mark =>
  match parseMark mark with
  | .error e => .error e
  | .ok m => .ok (if m.typ ≠ str "Node" then .action m g else .trans m g)

/-- What the callbacks panic with. -/
inductive XPanic (Q : Type) where
  /-- getValue panics -/
  | value (q : Q)
  /-- `tokens[0]` of no tokens -/
  | index
  /-- `p.stk` is nil -/
  | nilStk

/-- `transCtx` (extractor.go:149-152); `stk` is not nil. -/
structure TransCtx (W : Type) where
  stk : Nat
  hd : List (Cons W)

/-- The action of a leaf (extractor.go:113-115, Node.insertLeaf document.go:35-42). -/
def XEng.leaf (getValue : Str → Str → Except Q W) (e : XEng W) (m : Mark) (toks : List Token) : Except (XPanic Q) (XEng W) :=
  match toks with
  | [] => .error .index
  | t :: _ => match getValue m.typ t.lit with
    | .error q => .error (.value q)
    | .ok v => match e.stk with
      | none => .error .nilStk
      | some id => .ok (e.setHd id (.leaf m.tag m.isArray v :: e.hds id))

/-- The begin callback of a node (extractor.go:117-122, Node.insertNode
document.go:44-53). -/
def XEng.begin_ (e : XEng W) (m : Mark) : Except (XPanic Q) (TransCtx W × XEng W) :=
  match e.stk with
  | none => .error .nilStk
  | some id =>
    let e1 := e.setHd (e.next + 1) []
    .ok (⟨id, e.hds id⟩, { e1.setHd id (.node m.tag m.isArray (e.next + 1) :: e.hds id) with next := e.next + 1, stk := some (e.next + 1) })

/-- The end callback of a node (extractor.go:122-128). -/
def XEng.end_ (e : XEng W) (ctx : TransCtx W) (failed : Bool) : XEng W :=
  let e := { e with stk := some ctx.stk }
  if failed then e.setHd ctx.stk ctx.hd else e

/-- The callbacks. -/
def sem (getValue : Str → Str → Except Q W) : Sem Mark (XEng W) (TransCtx W) (XPanic Q) where
  act _ _ m _ toks s := some <| match s.u.leaf getValue m toks with
    | .error p => .panic (.user p) s
    | .ok u => .ok () { s with u := u }
  start m s := match s.u.begin_ m with
    | .error p => .panic (.user p) s
    | .ok (ctx, u) => .ok ctx { s with u := u }
  finish _ ctx err s := .ok () { s with u := s.u.end_ ctx err.isSome }
  act_mono := by intro f f' m m' hf h a g toks s r e; exact e

/-! ### Results -/

/-- The values in a result; a map is a function. -/
inductive Data (W : Type) where
  | leaf (w : W)
  | node (m : Str → Option (Data W))
  | leaves (ws : List W)
  | nodes (ms : List (Str → Option (Data W)))

/-- `map[string]interface{}` -/
abbrev DMap (W : Type) := Str → Option (Data W)

/-- `data[tag] = v` -/
def DMap.set (data : DMap W) (tag : Str) (v : Data W) : DMap W := fun t => if t = tag then some v else data t

/-- `arrayCollect` (document.go:95-106): the loop. -/
def collectLoop (c : Cons W) : List (Cons W) → Nat
  | [] => 0
  | x :: hd => if x.cate ≠ c.cate ∨ x.tag ≠ c.tag then 0 else collectLoop c hd + 1

/-- `toMap` of the nodes in an array. -/
def mapNodes (sub : Nat → Option (DMap W)) : List (Cons W) → Option (List (DMap W))
  | [] => some []
  | .leaf _ _ _ :: _ => none
  | .node _ _ id :: hd => match sub id with
    | none => none
    | some m => match mapNodes sub hd with
      | none => none
      | some ms => some (m :: ms)

/-- The values of an array of leaves. -/
def leafVals : List (Cons W) → List W
  | [] => []
  | .leaf _ _ w :: hd => w :: leafVals hd
  | .node _ _ _ :: hd => leafVals hd

/-- The loop of `toMap` (document.go:62-91); arrays are filled from the end.  The fuel
bounds the number of passes. -/
def mapLoop (sub : Nat → Option (DMap W)) : Nat → List (Cons W) → DMap W → Option (DMap W)
  | _, [], data => some data
  | 0, _ :: _, _ => none
  | f + 1, .leaf tag false w :: hd, data => mapLoop sub f hd (data.set tag (.leaf w))
  | f + 1, .node tag false id :: hd, data => match sub id with
    | none => none
    | some m => mapLoop sub f hd (data.set tag (.node m))
  | f + 1, .node tag true id :: hd, data =>
    let n := 1 + collectLoop (.node tag true id) hd
    match mapNodes sub ((Cons.node tag true id :: hd).take n) with
    | none => none
    | some ms => mapLoop sub f ((Cons.node tag true id :: hd).drop n) (data.set tag (.nodes ms.reverse))
  | f + 1, .leaf tag true w :: hd, data =>
    let n := 1 + collectLoop (.leaf tag true w) hd
    mapLoop sub f ((Cons.leaf tag true w :: hd).drop n) (data.set tag (.leaves (leafVals ((Cons.leaf tag true w :: hd).take n)).reverse))

/-- `toMap` (document.go:55-93); the fuel bounds the depth. -/
def toMap (hds : Nat → List (Cons W)) : Nat → Nat → Option (DMap W)
  | 0, _ => none
  | f + 1, id => mapLoop (toMap hds f) (hds id).length (hds id) (fun _ => none)

/-- `Result` (extractor.go:156-159).  There are `next + 1` nodes. -/
def XEng.result (e : XEng W) : Option (DMap W) := toMap e.hds (e.next + 2) 0

/-! ### The engine -/

/-- `New` (extractor.go:79-147). -/
def new (grammar : Str) (mode : Mode) (U : Uni) (fuel : Nat) : Option (ClRes Mark) :=
  Compiler.cl ⟨grammar, marker, mode⟩ U fuel KwScanner.zero

/-- The matcher of the engine. -/
def matcher (getValue : Str → Str → Except Q W) (r : CompileRet Mark) : Matcher Mark (XEng W) (TransCtx W) (XPanic Q) :=
  ⟨r.root, r.mode, fun s => .ok () { s with u := s.u.init }, r.env, sem getValue⟩

/-- `Parse` (extractor.go:161-169). -/
def parse (getValue : Str → Str → Except Q W) (r : CompileRet Mark) (U : Uni) (fuel : Nat) (k : KwScanner) (src : Str)
    (s : St (XEng W)) : Option (MRes Mark (XEng W) (XPanic Q) (DMap W)) :=
  match ((matcher getValue r).matchExactly U fuel k src s).1 with
  | none => none
  | some (.err e s) => some (.err e s)
  | some (.panic p s) => some (.panic p s)
  | some (.ok _ s) => match s.u.result with
    | none => none
    | some m => some (.ok m s)

/-- What `SafeParse` returns: a result, the error of the match, the value of a panic as
error, or it panics. -/
inductive SafeRes (W Q : Type) where
  | ok (m : DMap W)
  | err (e : MErr Mark)
  | caught (p : Panic Mark (XPanic Q))
  | panic (q : Q)

/-- `SafeParse` (extractor.go:171-191).  `isErr` says which values of getValue's panics are
strings or errors; run-time errors and MatchErrors are errors. -/
def safeParse (isErr : Q → Bool) (getValue : Str → Str → Except Q W) (r : CompileRet Mark) (U : Uni) (fuel : Nat) (k : KwScanner)
    (src : Str) (s : St (XEng W)) : Option (SafeRes W Q) :=
  match parse getValue r U fuel k src s with
  | none => none
  | some (.ok m _) => some (.ok m)
  | some (.err e _) => some (.err e)
  | some (.panic (.user (.value q)) _) => if isErr q then some (.caught (.user (.value q))) else some (.panic q)
  | some (.panic p _) => some (.caught p)

end Tpl.Extractor
