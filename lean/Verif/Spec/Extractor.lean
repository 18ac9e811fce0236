import Verif.Model.Extractor
import Verif.Spec.Trace

/-
What the extractor should return for the callbacks a match makes: a document is a tree of
items in the order of the input; a node that fails is dropped with everything in it.
-/
namespace Tpl.Spec
open Tpl Tpl.Extractor
variable {W Q : Type}

/-- An item of a document. -/
inductive DItem (W : Type) where
  | leaf (tag : Str) (isArray : Bool) (val : W)
  | node (tag : Str) (isArray : Bool) (items : List (DItem W))

/-- One callback invocation, on the items of the open nodes, innermost first. -/
def DItem.step (getValue : Str → Str → Except Q W) : List (List (DItem W)) → Ev Mark → Except (XPanic Q) (List (List (DItem W)))
  | cur :: outer, .act m _ toks _ => match toks with
    | [] => .error .index
    | t :: _ => match getValue m.typ t.lit with
      | .error q => .error (.value q)
      | .ok v => .ok ((cur ++ [.leaf m.tag m.isArray v]) :: outer)
  | open_, .opens _ => .ok ([] :: open_)
  | inner :: cur :: outer, .closes m failed =>
    .ok ((if failed then cur else cur ++ [.node m.tag m.isArray inner]) :: outer)
  | open_, _ => .ok open_

/-- All of them. -/
def DItem.run (getValue : Str → Str → Except Q W) : List (Ev Mark) → List (List (DItem W)) → Except (XPanic Q) (List (List (DItem W)))
  | [], open_ => .ok open_
  | e :: es, open_ => match DItem.step getValue open_ e with
    | .error p => .error p
    | .ok open_ => DItem.run getValue es open_

/-! ### Documents as maps -/

/-- An item whose nodes are maps already. -/
inductive VItem (W : Type) where
  | leaf (tag : Str) (isArray : Bool) (val : W)
  | node (tag : Str) (isArray : Bool) (map : DMap W)

def VItem.tag : VItem W → Str
  | .leaf t _ _ => t
  | .node t _ _ => t

def VItem.isArray : VItem W → Bool
  | .leaf _ a _ => a
  | .node _ a _ => a

def VItem.isNode : VItem W → Bool
  | .leaf _ _ _ => false
  | .node _ _ _ => true

def VItem.leaf? : VItem W → Option W
  | .leaf _ _ w => some w
  | .node _ _ _ => none

def VItem.node? : VItem W → Option (DMap W)
  | .leaf _ _ _ => none
  | .node _ _ m => some m

/-- Same tag and same category. -/
def VItem.Same (a b : VItem W) : Bool := decide (a.tag = b.tag) && a.isArray == b.isArray && a.isNode == b.isNode

/-- The value under a tag: the first item with this tag counts.  If it is an item of an
array the value is the array of this item and the items of the same kind that follow
directly. -/
def mapOf (items : List (VItem W)) : DMap W := fun tag =>
  match items.dropWhile (fun x => decide (x.tag ≠ tag)) with
  | [] => none
  | .leaf _ false w :: _ => some (.leaf w)
  | .node _ false m :: _ => some (.node m)
  | .leaf t true w :: rest => some (.leaves ((VItem.leaf t true w :: rest.takeWhile (VItem.Same (.leaf t true w))).filterMap VItem.leaf?))
  | .node t true m :: rest => some (.nodes ((VItem.node t true m :: rest.takeWhile (VItem.Same (.node t true m))).filterMap VItem.node?))

mutual
def DItem.conv : DItem W → VItem W
  | .leaf tag a w => .leaf tag a w
  | .node tag a items => .node tag a (mapOf (convs items))
def convs : List (DItem W) → List (VItem W)
  | [] => []
  | i :: is => i.conv :: convs is
end

/-- The document of a list of items. -/
def docOf (items : List (DItem W)) : DMap W := mapOf (convs items)

end Tpl.Spec
