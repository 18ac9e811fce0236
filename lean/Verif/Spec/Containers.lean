import Verif.Spec.Builtin

/-
Slices, maps and objects of qlang: the values a program can get hold of, and when two
places are the same.
-/
namespace Tpl.Spec
open Tpl Qlang
variable {F : Type}

/-- The calls that make, read or change slices, maps and objects.  `new` makes an object of
a class with these methods, before its constructor runs, `member` reads a variable of an
object, and `other` takes an address for something else, a function for example. -/
inductive HCall where
  | sliceFrom | slice | append | sub | get | set | mapFrom | mkmap | delete
  | new (fns : List (Str × Nat × Fun))
  | member (name : Str)
  | other

/-- The calls: function and arguments. -/
def HCall.run (M : Fl F) : HCall → List (QVal F) → HM F (QVal F)
  | .sliceFrom, vs => SliceFrom M vs
  | .slice, t :: vs => MakeSlice M t vs
  | .append, a :: vs => Append M a vs
  | .sub, [a, i, j] => fun h => (SubSlice h a i j, h)
  | .get, [m, k] => fun h => (Get M h m k, h)
  | .set, m :: vs => do Set M m vs; pure .nil
  | .mapFrom, vs => MapFrom M vs
  | .mkmap, t :: _ => Mkmap t
  | .delete, [m, k] => do Delete M m k; pure .nil
  | .new fns, [] => do
    let a ← HM.alloc
    HM.setObj a fun _ => none
    pure (.obj a fns)
  | .member name, [.obj a _] => fun h => (match h.objs a name with
    | some v => .ok v
    | none => .error (failErr (.noMember name)), h)
  | .other, [] => do
    let _ ← HM.alloc
    pure .nil
  | _, _ => HM.throw reflectMsg

/-- Values that are not kept on the heap. -/
def OffHeap : QVal F → Prop
  | .slice _ | .map _ _ _ | .obj _ _ => False
  | _ => True

/-- A program works with these functions: the heap and the values it knows.  A call that
panics may have changed the heap. -/
inductive Works (M : Fl F) : Heap F → List (QVal F) → Prop
  | start : Works M .empty []
  | plain {h vs v} : Works M h vs → OffHeap v → Works M h (v :: vs)
  | call {h h' vs args v} (f : HCall) : Works M h vs → (∀ a ∈ args, a ∈ vs) → f.run M args h = (.ok v, h') → Works M h' (v :: vs)
  | panic {h h' vs args p} (f : HCall) : Works M h vs → (∀ a ∈ args, a ∈ vs) → f.run M args h = (.error p, h') → Works M h' vs

/-- Place `i` of the slice `a` is place `j` of the slice `b`. -/
def SamePlace (a : Sl) (i : Int) (b : Sl) (j : Int) : Prop := a.arr = b.arr ∧ a.off + i = b.off + j

instance (a : Sl) (i : Int) (b : Sl) (j : Int) : Decidable (SamePlace a i b j) := inferInstanceAs (Decidable (_ ∧ _))

/-- Place `j` of the slice `b` is one of the `n` places behind the end of the slice `a` up to
its capacity, in the same array. -/
def Behind (a : Sl) (n : Nat) (b : Sl) (j : Int) : Prop :=
  a.arr = b.arr ∧ a.off + a.len ≤ b.off + j ∧ b.off + j < a.off + a.len + n ∧ b.off + j < a.off + a.cap

/-- A bound of a part: nil stands for `d`. -/
inductive EndAt (d : Int) : QVal F → Int → Prop
  | nil : EndAt d .nil d
  | int n : EndAt d (.int n) n

/-- The value has the type `t`, or `t` takes all values. -/
def HasType (v : QVal F) (t : Ty) : Prop := ∃ u, v.ty = some u ∧ (t = .var ∨ u = t)

/-- What `append` makes of a value: it takes nil for the zero value (but for floats), and
ints for floats. -/
def appended (M : Fl F) : Ty → QVal F → Option (QVal F)
  | .float, .int n => some (.float (M.lits.ofInt n))
  | .float, .float x => some (.float x)
  | .float, _ => none
  | .var, v => some v
  | t, .nil => some (zeroOf M t)
  | t, v => if v.ty = some t then some v else none

/-- Go's `==`: the values are the same key. -/
def SameKey (M : Fl F) (a b : QVal F) : Prop := a.eq M b = some true

/-- A value that can be a key of type `t`. -/
def IsKey (t : Ty) (k : QVal F) : Prop := HasType k t ∧ ∀ u, k.ty = some u → u.comparable = true

/-- What a map with values of type `t` shows after `v` has been stored. -/
def stored (M : Fl F) (t : Ty) : QVal F → QVal F
  | .nil => zeroOf M t
  | v => v

/-- `==` on floats and on recovered panics is symmetric and transitive. -/
structure Lawful (M : Fl F) : Prop where
  symm : ∀ a b, M.eq a b = true → M.eq b a = true
  trans : ∀ a b c, M.eq a b = true → M.eq b c = true → M.eq a c = true
  symm' : ∀ a b, M.sameFault a b = true → M.sameFault b a = true
  trans' : ∀ a b c, M.sameFault a b = true → M.sameFault b c = true → M.sameFault a c = true

/-- Maps and the variables of objects are the same. -/
structure SameMaps (M : Fl F) (h h' : Heap F) : Prop where
  get : ∀ kt vt a k, Get M h' (.map kt vt a) k = Get M h (.map kt vt a) k
  len : ∀ kt vt a, Len h' (.map kt vt a) = Len h (.map kt vt a)
  vars : ∀ a name, h'.objs a name = h.objs a name

/-- Slices and the variables of objects are the same. -/
structure SameSlices (M : Fl F) (h h' : Heap F) : Prop where
  get : ∀ s k, Get M h' (.slice s) k = Get M h (.slice s) k
  vars : ∀ a name, h'.objs a name = h.objs a name

/-- The slices the program knows, the maps and the variables of objects are the same. -/
structure Untouched (M : Fl F) (vs : List (QVal F)) (h h' : Heap F) : Prop where
  get : ∀ v ∈ vs, ∀ k, Get M h' v k = Get M h v k
  len : ∀ v ∈ vs, Len h' v = Len h v
  vars : ∀ a fns, .obj a fns ∈ vs → ∀ name, h'.objs a name = h.objs a name

end Tpl.Spec
