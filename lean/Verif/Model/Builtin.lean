import Verif.Model.Interp

/-
Model of tpl/qlang/lib/builtin (boolean.go, number.go, builtin.go), of
tpl/qlang/lib/builtin/types/types.go and of tpl/qlang/spec/spec.go: the values of qlang
and the functions on them.

Conventions and simplifications:
* A value (`interface{}`) is a `QVal`.  Pointers and the references in slices and maps are
  addresses in a `Heap`.
* `int` is an integer kept within 64 bits by `wrap`; `float64` is a parameter (`Fl`).
* Values of other Go types (of host functions) are structs or pointers (`host`); numbers and
  strings of other types than the ones below do not occur.
* The text of "unsupported" messages names the operator or function, not the types.
* `Panicf`, `printf`, `println` and `fprintln` are left out: they are functions of the host.
* Channels (`types.Chan`) are left out; no exported function makes one.
* A slice literal or append that does not fit asks the runtime for the new capacity; that
  is a parameter (`Fl.grow`).
-/
namespace Tpl.Qlang

/-- A Go type (`reflect.Type`), as far as values can have it. -/
inductive Ty where
  | int | bool | float | string | byte
  /-- `interface{}` -/
  | var
  | slice (elem : Ty)
  | map (key val : Ty)
  /-- a function type -/
  | fn (id : Nat)
  /-- a pointer type: 0 *qlang.Function, 1 *qlang.Class, 2 *qlang.Object, 3 *qlang.thisDeref,
  4 *qlang.FunctionInfo, 5 *errors.errorString, 6 *reflect.rtype; others are errors -/
  | ptr (id : Nat)
  /-- `[]tpl.Token` -/
  | code
  /-- another type of the host: a struct -/
  | host (id : Nat)
deriving DecidableEq, Repr

/-- Errors that are not strings. -/
inductive QErr where
  /-- `ErrReturn` (function.go:21) -/
  | return_
  /-- run-time errors of Go: integer divide by zero, interface conversion, comparing
  uncomparable type -/
  | divide | conversion | uncomparable
  /-- `panic(nil)` (`*runtime.PanicNilError`) -/
  | panicNil
  /-- "unknown type" (types.go:29) -/
  | unknownType
  /-- function.go:16-17 -/
  | withoutBody | notSlice
  /-- "multi assignment error" (function.go:170) -/
  | multi (require got : Int)
  /-- qlang.go:80-81 -/
  | refWithoutObject | assignWithoutVal
  /-- ctrl.go:11-12 -/
  | condNotBool | forForm
  /-- class.go:14-15 -/
  | newWithoutClass | notClass
  /-- object, class, map or type without such a member (class.go:186-222) -/
  | noMember (name : Str)
  /-- of `interpreter.Call` and `VCall` -/
  | call (e : CallErr QErr)
  /-- of `EvalCode` -/
  | sub (e : SubErr Str)
  /-- of a host function -/
  | host (id : Nat)

/-- What a program panics with besides strings and errors: a value.  `os.Exit` ends the
program; it is treated as a panic that nobody recovers. -/
inductive QX (V : Type) where
  | val (v : V)
  | exit (code : Int)

/-- `Function` (function.go:336-343) without the engine: parameters, body (nil if it is
empty), the interpreter it was made in, and whether it is variadic. -/
structure Fun where
  args : List Str
  body : Option (List Token)
  parent : Nat
  variadic : Bool
deriving DecidableEq, Repr

/-- A slice: type of the elements, and a part of an array. -/
structure Sl where
  elem : Ty
  arr : Nat
  off : Nat
  len : Nat
  cap : Nat
deriving DecidableEq, Repr

/-- A value.  Pointers: `addr` tells objects apart. -/
inductive QVal (F : Type) where
  | nil
  | bool (b : Bool)
  | int (n : Int)
  | byte (b : UInt8)
  | float (x : F)
  | str (s : Str)
  | slice (s : Sl)
  /-- key type, type of the values, address -/
  | map (k v : Ty) (addr : Nat)
  /-- a function of the table: its name and type -/
  | gofn (name : Str) (ty : Nat)
  /-- the method value `p.Unset` (function.go:223) -/
  | unset (scope : Nat)
  /-- `*Function` -/
  | fn (addr : Nat) (f : Fun)
  /-- `*Class`: its methods -/
  | cls (addr : Nat) (fns : List (Str × Nat × Fun))
  /-- `*Object`: its class -/
  | obj (addr : Nat) (cls : List (Str × Nat × Fun))
  /-- `*thisDeref`: a method of an object -/
  | method (addr : Nat) (this : QVal F) (f : Fun)
  /-- `*FunctionInfo` (class.go:20-24) -/
  | finfo (addr : Nat) (f : Fun)
  /-- `[]tpl.Token`: captured code -/
  | code (toks : List Token)
  /-- `Undefined` (spec.go:11) -/
  | undefined
  /-- a `reflect.Type` -/
  | type (t : Ty)
  /-- `externVar` (function.go:71-73): only kept in variables, refers to the variables of an
  interpreter -/
  | extern (scope : Nat)
  /-- what was recovered from a panic -/
  | fault (p : Panic Str (IPanic QErr (QX (QVal F))))
  /-- a value of the host -/
  | host (t : Nat) (id : Nat)

instance {F : Type} : Inhabited (QVal F) := ⟨.nil⟩

abbrev QPanic (F : Type) := Panic Str (IPanic QErr (QX (QVal F)))

/-- float64 and the parts of the runtime that are left open. -/
structure Fl (F : Type) where
  lits : Lits F
  neg : F → F
  add : F → F → F
  sub : F → F → F
  mul : F → F → F
  quo : F → F → F
  lt : F → F → Bool
  le : F → F → Bool
  eq : F → F → Bool
  toInt : F → Int
  toByte : F → UInt8
  /-- the capacity of a slice after growing: old capacity, needed -/
  grow : Nat → Nat → Nat
  /-- is it the same error? -/
  sameFault : QPanic F → QPanic F → Bool

variable {F : Type}

/-- Two's complement, 64 bit. -/
def wrap (n : Int) : Int := n.bmod (2 ^ 64)

/-- `panic(s)` for a string -/
def failMsg (s : Str) : QPanic F := .user (.str (.text s))
def failErr (e : QErr) : QPanic F := .user (.err e)

/-- Result of an operator. -/
scoped notation "QRes" F:max => Except (QPanic F) (QVal F)

/-- `panicUnsupportedOp1`, `panicUnsupportedOp2`, `panicUnsupportedFn` (number.go:333-364). -/
def unsupported (op : Str) : QRes F := .error (failMsg (str "unsupported: " ++ op))

/-! ### Types of values -/

/-- `reflect.TypeOf(v)`; none for nil. -/
def QVal.ty : QVal F → Option Ty
  | .nil => none
  | .bool _ => some .bool
  | .int _ => some .int
  | .byte _ => some .byte
  | .float _ => some .float
  | .str _ => some .string
  | .slice s => some (.slice s.elem)
  | .map k v _ => some (.map k v)
  | .gofn _ t => some (.fn (t + 1))
  | .unset _ => some (.fn 0)
  | .fn _ _ => some (.ptr 0)
  | .cls _ _ => some (.ptr 1)
  | .obj _ _ => some (.ptr 2)
  | .method _ _ _ => some (.ptr 3)
  | .finfo _ _ => some (.ptr 4)
  | .code _ => some .code
  | .undefined => some (.ptr 5)
  | .type _ => some (.ptr 6)
  | .extern _ => some (.host 0)
  | .fault _ => some (.ptr 7)
  | .host t _ => some (.host (t + 1))

/-- `reflect.Kind` of a type, numbered as in package reflect. -/
def Ty.kind : Ty → Nat
  | .bool => 1
  | .int => 2
  | .byte => 8
  | .float => 14
  | .fn _ => 19
  | .var => 20
  | .map _ _ => 21
  | .ptr _ => 22
  | .slice _ => 23
  | .string => 24
  | .code => 23
  | .host _ => 25

/-- `kindOf` (number.go:328-331): the kind of the value, 0 (Invalid) for nil. -/
def kindOf (v : QVal F) : Nat := match v.ty with
  | none => 0
  | some t => t.kind

/-- May a value be stored where the type is `t`?  (`reflect.Value.assignTo`; nil is no
`reflect.Value` with a type.) -/
def assignable (v : QVal F) (t : Ty) : Bool := match v.ty with
  | none => false
  | some u => t = .var || u = t

/-- `reflect.Zero(t)`; nil pointers, maps and functions are the nil value here. -/
def zeroOf (M : Fl F) : Ty → QVal F
  | .int => .int 0
  | .bool => .bool false
  | .float => .float (M.lits.ofInt 0)
  | .string => .str []
  | .byte => .byte 0
  | .slice t => .slice ⟨t, 0, 0, 0, 0⟩
  | _ => .nil

/-- Go's `==` on interface values: `none` if comparing panics. -/
def QVal.eq (M : Fl F) : QVal F → QVal F → Option Bool
  | .nil, .nil => some true
  | .bool a, .bool b => some (a == b)
  | .int a, .int b => some (a == b)
  | .byte a, .byte b => some (a == b)
  | .float a, .float b => some (M.eq a b)
  | .str a, .str b => some (a == b)
  | .slice a, .slice b => if a.elem = b.elem then none else some false
  | .map k v _, .map k' v' _ => if k = k' ∧ v = v' then none else some false
  | .gofn _ t, .gofn _ t' => if t = t' then none else some false
  | .unset _, .unset _ => none
  | .fn a _, .fn b _ => some (a == b)
  | .cls a _, .cls b _ => some (a == b)
  | .obj a _, .obj b _ => some (a == b)
  | .method a _ _, .method b _ _ => some (a == b)
  | .finfo a _, .finfo b _ => some (a == b)
  | .code _, .code _ => none
  | .undefined, .undefined => some true
  | .type a, .type b => some (a == b)
  | .extern _, .extern _ => none
  | .fault a, .fault b => some (M.sameFault a b)
  | .host t i, .host t' i' => some (t == t' && i == i')
  | _, _ => some false

/-! ### boolean.go -/

/-- `Not` (boolean.go:5-11). -/
def Not : QVal F → QRes F
  | .bool a => .ok (.bool (!a))
  | _ => unsupported (str "!")

/-- `if a1, ok := a.(byte); ok { a = int(a1) }` (boolean.go:15-21). -/
def widen : QVal F → QVal F
  | .byte b => .int b.toNat
  | v => v

/-- Go's `<` on strings: bytes compared from the left. -/
def strLt : Str → Str → Bool
  | [], [] => false
  | [], _ :: _ => true
  | _ :: _, [] => false
  | a :: s, b :: t => if a < b then true else if b < a then false else strLt s t

/-- The switch shared by `LT`, `GT`, `LE` and `GE` (boolean.go:23-43, 56-76, 89-109,
122-142). -/
def compareBy (M : Fl F) (op : Str) (i : Int → Int → Bool) (f : F → F → Bool) (s : Str → Str → Bool) (a b : QVal F) : QRes F :=
  match a, b with
  | .int a, .int b => .ok (.bool (i a b))
  | .int a, .float b => .ok (.bool (f (M.lits.ofInt a) b))
  | .float a, .int b => .ok (.bool (f a (M.lits.ofInt b)))
  | .float a, .float b => .ok (.bool (f a b))
  | .str a, .str b => .ok (.bool (s a b))
  | _, _ => unsupported op

/-- `LT` (boolean.go:13-44). -/
def LT (M : Fl F) (a b : QVal F) : QRes F :=
  compareBy M (str "<") (fun a b => a < b) M.lt strLt (widen a) (widen b)

/-- `GT` (boolean.go:46-77). -/
def GT (M : Fl F) (a b : QVal F) : QRes F :=
  compareBy M (str ">") (fun a b => a > b) (fun a b => M.lt b a) (fun a b => strLt b a) (widen a) (widen b)

/-- `LE` (boolean.go:79-110). -/
def LE (M : Fl F) (a b : QVal F) : QRes F :=
  compareBy M (str "<=") (fun a b => a ≤ b) M.le (fun a b => !strLt b a) (widen a) (widen b)

/-- `GE` (boolean.go:112-143). -/
def GE (M : Fl F) (a b : QVal F) : QRes F :=
  compareBy M (str ">=") (fun a b => a ≥ b) (fun a b => M.le b a) (fun a b => !strLt a b) (widen a) (widen b)

/-- `EQ` (boolean.go:145-148). -/
def EQ (M : Fl F) (a b : QVal F) : QRes F := match a.eq M b with
  | some r => .ok (.bool r)
  | none => .error (failErr .uncomparable)

/-- `NE` (boolean.go:150-153). -/
def NE (M : Fl F) (a b : QVal F) : QRes F := match a.eq M b with
  | some r => .ok (.bool (!r))
  | none => .error (failErr .uncomparable)

/-! ### number.go -/

/-- `Inc` (number.go:11-20). -/
def Inc : QVal F → QRes F
  | .int v => .ok (.int (wrap (v + 1)))
  | .byte v => .ok (.byte (v + 1))
  | _ => unsupported (str "++")

/-- `Dec` (number.go:22-31). -/
def Dec : QVal F → QRes F
  | .int v => .ok (.int (wrap (v - 1)))
  | .byte v => .ok (.byte (v - 1))
  | _ => unsupported (str "--")

/-- `Neg` (number.go:33-42). -/
def Neg (M : Fl F) : QVal F → QRes F
  | .int a => .ok (.int (wrap (-a)))
  | .float a => .ok (.float (M.neg a))
  | _ => unsupported (str "-")

/-- `Float` (number.go:44-55). -/
def ToFloat (M : Fl F) : QVal F → QRes F
  | .int a => .ok (.float (M.lits.ofInt a))
  | .float a => .ok (.float a)
  | .byte a => .ok (.float (M.lits.ofInt a.toNat))
  | _ => unsupported (str "float")

/-- `Int` (number.go:57-68). -/
def ToInt (M : Fl F) : QVal F → QRes F
  | .float a => .ok (.int (M.toInt a))
  | .int a => .ok (.int a)
  | .byte a => .ok (.int a.toNat)
  | _ => unsupported (str "int")

/-- `Byte` (number.go:70-81). -/
def ToByte (M : Fl F) : QVal F → QRes F
  | .int a => .ok (.byte (UInt8.ofInt a))
  | .byte a => .ok (.byte a)
  | .float a => .ok (.byte (M.toByte a))
  | _ => unsupported (str "byte")

/-- `Mul` (number.go:96-115). -/
def Mul (M : Fl F) : QVal F → QVal F → QRes F
  | .int a, .int b => .ok (.int (wrap (a * b)))
  | .int a, .float b => .ok (.float (M.mul (M.lits.ofInt a) b))
  | .float a, .int b => .ok (.float (M.mul a (M.lits.ofInt b)))
  | .float a, .float b => .ok (.float (M.mul a b))
  | _, _ => unsupported (str "*")

/-- `Quo` (number.go:117-136).  Integer division truncates; dividing by zero is a run-time
error. -/
def Quo (M : Fl F) : QVal F → QVal F → QRes F
  | .int a, .int b => if b = 0 then .error (failErr .divide) else .ok (.int (wrap (a.tdiv b)))
  | .int a, .float b => .ok (.float (M.quo (M.lits.ofInt a) b))
  | .float a, .int b => .ok (.float (M.quo a (M.lits.ofInt b)))
  | .float a, .float b => .ok (.float (M.quo a b))
  | _, _ => unsupported (str "/")

/-- `Mod` (number.go:138-146). -/
def Mod : QVal F → QVal F → QRes F
  | .int a, .int b => if b = 0 then .error (failErr .divide) else .ok (.int (wrap (a.tmod b)))
  | _, _ => unsupported (str "%")

/-- `Add` (number.go:148-171). -/
def Add (M : Fl F) : QVal F → QVal F → QRes F
  | .int a, .int b => .ok (.int (wrap (a + b)))
  | .int a, .float b => .ok (.float (M.add (M.lits.ofInt a) b))
  | .float a, .int b => .ok (.float (M.add a (M.lits.ofInt b)))
  | .float a, .float b => .ok (.float (M.add a b))
  | .str a, .str b => .ok (.str (a ++ b))
  | _, _ => unsupported (str "+")

/-- `Sub` (number.go:173-192). -/
def Sub (M : Fl F) : QVal F → QVal F → QRes F
  | .int a, .int b => .ok (.int (wrap (a - b)))
  | .int a, .float b => .ok (.float (M.sub (M.lits.ofInt a) b))
  | .float a, .int b => .ok (.float (M.sub a (M.lits.ofInt b)))
  | .float a, .float b => .ok (.float (M.sub a b))
  | _, _ => unsupported (str "-")

/-- The loop of `kindOfArgs` and `kindOf2Args` (number.go:227-241, 247-261); kinds: Int 2,
Float64 14, Invalid 0. -/
def kindLoop : Nat → List (QVal F) → Nat
  | kind, [] => kind
  | kind, a :: args =>
    let t := kindOf a
    if t ≠ kind then
      if kind = 14 ∨ kind = 2 then
        if t = 2 then kindLoop kind args
        else if t = 14 then kindLoop 14 args
        else 0
      else 0
    else kindLoop kind args

/-- `kindOfArgs` (number.go:224-242), not called without arguments. -/
def kindOfArgs : List (QVal F) → Nat
  | [] => 0
  | a :: args => kindLoop (kindOf a) args

/-- `asFloat` (number.go:308-317). -/
def asFloat (M : Fl F) : QVal F → Except (QPanic F) F
  | .float v => .ok v
  | .int v => .ok (M.lits.ofInt v)
  | _ => .error (failMsg (str "unreachable"))

/-- `asInt` (number.go:319-326). -/
def asInt : QVal F → Except (QPanic F) Int
  | .int v => .ok v
  | _ => .error (failMsg (str "param not a integer"))

/-- `a.(int)` -/
def assertInt : QVal F → Except (QPanic F) Int
  | .int v => .ok v
  | _ => .error (failErr .conversion)

/-- `a.(string)` -/
def assertStr : QVal F → Except (QPanic F) Str
  | .str s => .ok s
  | _ => .error (failErr .conversion)

/-- The loops of `maxFloat`, `minFloat`, `maxInt` and `minInt` (number.go:264-306): `get`
gives the number, `better t best` if `t` replaces the best so far. -/
def bestLoop {α : Type} (get : QVal F → Except (QPanic F) α) (better : α → α → Bool) : α → List (QVal F) → Except (QPanic F) α
  | best, [] => .ok best
  | best, a :: args => do
    let t ← get a
    bestLoop get better (if better t best then t else best) args

/-- `max = args[0]; for ...` -/
def bestOf {α : Type} (get : QVal F → Except (QPanic F) α) (better : α → α → Bool) : List (QVal F) → Except (QPanic F) α
  | [] => .error .slice
  | a :: args => do
    let t ← get a
    bestLoop get better t args

/-- `Max` (number.go:194-207). -/
def Max (M : Fl F) (args : List (QVal F)) : QRes F :=
  if args.length = 0 then .ok (.int 0)
  else if kindOfArgs args = 2 then do pure (.int (← bestOf assertInt (fun t max => t > max) args))
  else if kindOfArgs args = 14 then do pure (.float (← bestOf (asFloat M) (fun t max => M.lt max t) args))
  else unsupported (str "max")

/-- `Min` (number.go:209-222). -/
def Min (M : Fl F) (args : List (QVal F)) : QRes F :=
  if args.length = 0 then .ok (.int 0)
  else if kindOfArgs args = 2 then do pure (.int (← bestOf assertInt (fun t min => t < min) args))
  else if kindOfArgs args = 14 then do pure (.float (← bestOf (asFloat M) (fun t min => M.lt t min) args))
  else unsupported (str "min")

/-! ### The heap -/

/-- Arrays (as long as the capacity), maps (each key once) and the variables of objects.
Address 0 is no object. -/
structure Heap (F : Type) where
  next : Nat
  arrs : Nat → List (QVal F)
  maps : Nat → List (QVal F × QVal F)
  objs : Nat → Str → Option (QVal F)

def Heap.empty : Heap F := ⟨1, fun _ => [], fun _ => [], fun _ _ => none⟩

/-- Code that works on the heap and may panic. -/
abbrev HM (F α : Type) := Heap F → Except (QPanic F) α × Heap F

def HM.ret {α : Type} (a : α) : HM F α := fun h => (.ok a, h)

def HM.andThen {α β : Type} (x : HM F α) (k : α → HM F β) : HM F β := fun h => match x h with
  | (.ok a, h) => k a h
  | (.error p, h) => (.error p, h)

instance : Monad (HM F) where
  pure := HM.ret
  bind := HM.andThen

def HM.throw {α : Type} (p : QPanic F) : HM F α := fun h => (.error p, h)

def HM.lift {α : Type} (e : Except (QPanic F) α) : HM F α := fun h => (e, h)

/-- A new address. -/
def HM.alloc : HM F Nat := fun h => (.ok h.next, { h with next := h.next + 1 })

def HM.get : HM F (Heap F) := fun h => (.ok h, h)

def HM.setArr (a : Nat) (l : List (QVal F)) : HM F Unit :=
  fun h => (.ok (), { h with arrs := fun i => if i = a then l else h.arrs i })

def HM.setMap (a : Nat) (l : List (QVal F × QVal F)) : HM F Unit :=
  fun h => (.ok (), { h with maps := fun i => if i = a then l else h.maps i })

def HM.setObj (a : Nat) (f : Str → Option (QVal F)) : HM F Unit :=
  fun h => (.ok (), { h with objs := fun i => if i = a then f else h.objs i })

/-- The elements of a slice. -/
def Heap.elems (h : Heap F) (s : Sl) : List (QVal F) := ((h.arrs s.arr).drop s.off).take s.len

/-- Panics of package reflect with a string, and with a `*reflect.ValueError`. -/
def reflectMsg : QPanic F := .user (.str .reflect)
def valueErr : QPanic F := .user .value

/-! ### Slices -/

/-- `make([]T, n, cap)` with all elements zero. -/
def makeSlice (M : Fl F) (t : Ty) (n cap : Nat) : HM F Sl := do
  let a ← HM.alloc
  HM.setArr a (List.replicate cap (zeroOf M t))
  pure ⟨t, a, 0, n, cap⟩

/-- Go's `append(s, vals...)`: in place if the capacity suffices, else in a new array. -/
def appendRaw (M : Fl F) (s : Sl) (vals : List (QVal F)) : HM F Sl := do
  let h ← HM.get
  let arr := h.arrs s.arr
  if s.len + vals.length ≤ s.cap then
    HM.setArr s.arr (arr.take (s.off + s.len) ++ vals ++ arr.drop (s.off + s.len + vals.length))
    pure { s with len := s.len + vals.length }
  else
    let cap := Nat.max (s.len + vals.length) (M.grow s.cap (s.len + vals.length))
    let a ← HM.alloc
    HM.setArr a (h.elems s ++ vals ++ List.replicate (cap - (s.len + vals.length)) (zeroOf M s.elem))
    pure ⟨s.elem, a, 0, s.len + vals.length, cap⟩

/-- `appendFloat` (builtin.go:222-237); float32 does not occur.  `reflect.TypeOf(nil)` has
no `String`. -/
def appendFloat (M : Fl F) (s : Sl) : List (QVal F) → HM F Sl
  | [] => pure s
  | .float x :: vals => do appendFloat M (← appendRaw M s [.float x]) vals
  | .int n :: vals => do appendFloat M (← appendRaw M s [.float (M.lits.ofInt n)]) vals
  | .nil :: _ => HM.throw .nilDeref
  | _ :: _ => HM.throw (failMsg (str "unsupported: []float64 append"))

/-- The loop of `Append` that makes the arguments of `reflect.Append` (builtin.go:211-217),
and the check of their types. -/
def appendArgs (M : Fl F) (t : Ty) : List (QVal F) → Except (QPanic F) (List (QVal F))
  | [] => .ok []
  | v :: vals => do
    let x ← match v with
      | .nil => pure (zeroOf M t)
      | v => if assignable v t then pure v else .error reflectMsg
    pure (x :: (← appendArgs M t vals))

/-- The values before the first one of a wrong type. -/
def appendPre (M : Fl F) (t : Ty) : List (QVal F) → List (QVal F)
  | [] => []
  | .nil :: vals => zeroOf M t :: appendPre M t vals
  | v :: vals => if assignable v t then v :: appendPre M t vals else []

/-- `reflect.Append` in `Append` (builtin.go:219): it makes room, in place if the capacity
suffices, stores the values one after the other and panics at the first of a wrong type. -/
def appendReflect (M : Fl F) (s : Sl) (vals : List (QVal F)) : HM F Sl :=
  match appendArgs M s.elem vals with
  | .ok x => appendRaw M s x
  | .error p => if s.len + vals.length ≤ s.cap then do
      let _ ← appendRaw M s (appendPre M s.elem vals)
      HM.throw p
    else HM.throw p

/-- `Append` (builtin.go:201-220). -/
def Append (M : Fl F) (a : QVal F) (vals : List (QVal F)) : HM F (QVal F) :=
  match a with
  | .slice s =>
    if s.elem = .float then do pure (.slice (← appendFloat M s vals))
    else if s.elem = .var then do pure (.slice (← appendRaw M s vals))
    else do pure (.slice (← appendReflect M s vals))
  | _ => HM.throw valueErr

/-- `SliceFrom` (builtin.go:264-281). -/
def SliceFrom (M : Fl F) (args : List (QVal F)) : HM F (QVal F) :=
  let n := args.length
  if n = 0 then pure (.slice ⟨.var, 0, 0, 0, 0⟩)
  else if kindOfArgs args = 2 then do Append M (.slice (← makeSlice M .int 0 n)) args
  else if kindOfArgs args = 14 then do pure (.slice (← appendFloat M (← makeSlice M .float 0 n) args))
  else if kindOfArgs args = 24 then do Append M (.slice (← makeSlice M .string 0 n)) args
  else do Append M (.slice (← makeSlice M .var 0 n)) args

/-- `types.Reflect` (types.go:20-30) with `builtinTypes` (types.go:32-43). -/
def typeArg : QVal F → Except (QPanic F) Ty
  | .type t => .ok t
  | .str s =>
    if s = str "int" then .ok .int
    else if s = str "bool" then .ok .bool
    else if s = str "float" then .ok .float
    else if s = str "string" then .ok .string
    else if s = str "byte" then .ok .byte
    else if s = str "var" then .ok .var
    else if s = str "string:int" then .ok (.map .string .int)
    else if s = str "string:float" then .ok (.map .string .float)
    else if s = str "string:string" then .ok (.map .string .string)
    else if s = str "string:var" then .ok (.map .string .var)
    else .error (failErr .unknownType)
  | _ => .error (failErr .unknownType)

/-- `Slice` (builtin.go:239-262); `reflect.MakeSlice` panics if the length is negative or
exceeds the capacity. -/
def MakeSlice (M : Fl F) (typ : QVal F) (args : List (QVal F)) : HM F (QVal F) := do
  let num (v : QVal F) : Except (QPanic F) Int := match v with
    | .int v => .ok v
    | _ => .error (failMsg (str "param type of func `slice` must be `int`"))
  let (n, cap) ← HM.lift (match args with
    | [] => .ok (0, 0)
    | [a] => do let v ← num a; pure (v, v)
    | a :: b :: _ => do pure (← num a, ← num b))
  let t ← HM.lift (typeArg typ)
  if 0 ≤ n ∧ n ≤ cap then do pure (.slice (← makeSlice M t n.toNat cap.toNat))
  else HM.throw reflectMsg

/-- `SliceOf` (builtin.go:283-286) and `MapOf` (builtin.go:32-35); package reflect wants
comparable keys. -/
def SliceOf (typ : QVal F) : QRes F := do pure (.type (.slice (← typeArg typ)))

def Ty.comparable : Ty → Bool
  | .slice _ | .map _ _ | .fn _ => false
  | .code | .host 0 => false
  | _ => true

def MapOf (key val : QVal F) : QRes F := do
  let k ← typeArg key
  let v ← typeArg val
  if k.comparable then pure (.type (.map k v)) else .error reflectMsg

/-- `Len` (builtin.go:164-173) and `Cap` (builtin.go:175-184). -/
def Len (h : Heap F) : QVal F → Except (QPanic F) Int
  | .nil => .ok 0
  | .slice s => .ok s.len
  | .map _ _ a => .ok (h.maps a).length
  | .str s => .ok s.length
  | .code c => .ok c.length
  | _ => .error valueErr

def Cap : QVal F → Except (QPanic F) Int
  | .nil => .ok 0
  | .slice s => .ok s.cap
  | .code c => .ok c.length
  | _ => .error valueErr

/-- `SubSlice` (builtin.go:186-199).  A slice may be extended up to its capacity. -/
def SubSlice (h : Heap F) (a i j : QVal F) : QRes F := do
  let i1 ← match i with
    | .nil => pure 0
    | i => asInt i
  let j1 ← match j with
    | .nil => Len h (match a with
      | .nil => .undefined -- `reflect.ValueOf(nil).Len()` panics
      | a => a)
    | j => asInt j
  match a with
  | .slice s =>
    if 0 ≤ i1 ∧ i1 ≤ j1 ∧ j1 ≤ s.cap then
      pure (.slice { s with off := s.off + i1.toNat, len := (j1 - i1).toNat, cap := s.cap - i1.toNat })
    else .error reflectMsg
  | .str s =>
    if 0 ≤ i1 ∧ i1 ≤ j1 ∧ j1 ≤ s.length then pure (.str ((s.drop i1.toNat).take (j1 - i1).toNat))
    else .error reflectMsg
  | .code c =>
    if 0 ≤ i1 ∧ i1 ≤ j1 ∧ j1 ≤ c.length then pure (.code ((c.drop i1.toNat).take (j1 - i1).toNat))
    else .error reflectMsg
  | _ => .error valueErr

/-- `String` (number.go:83-94): conversions of Go. -/
def ToString (h : Heap F) : QVal F → QRes F
  | .slice s =>
    if s.elem = .byte then .ok (.str ((h.elems s).map fun
      | .byte b => b
      | _ => 0))
    else unsupported (str "string")
  | .byte b => .ok (.str (encodeRune b.toNat))
  | .int n => .ok (.str (if 0 ≤ n then encodeRune n.toNat else encodeRune RuneError))
  | _ => unsupported (str "string")

/-! ### Maps -/

/-- Position of a key. -/
def findKey (M : Fl F) (key : QVal F) : List (QVal F × QVal F) → Option (QVal F)
  | [] => none
  | (k, v) :: l => if k.eq M key = some true then some v else findKey M key l

/-- `m[key] = v` on the entries. -/
def putKey (M : Fl F) (key v : QVal F) : List (QVal F × QVal F) → List (QVal F × QVal F)
  | [] => [(key, v)]
  | (k, w) :: l => if k.eq M key = some true then (k, v) :: l else (k, w) :: putKey M key v l

/-- `delete(m, key)` on the entries. -/
def delKey (M : Fl F) (key : QVal F) : List (QVal F × QVal F) → List (QVal F × QVal F)
  | [] => []
  | (k, w) :: l => if k.eq M key = some true then l else (k, w) :: delKey M key l

/-- Can a value be hashed as a key?  (Go panics if the key is an interface holding a slice,
map or function.) -/
def hashable (v : QVal F) : Bool := match v.ty with
  | none => true
  | some t => t.comparable

/-- `m[key] = v` for a key that fits. -/
def mapPut (M : Fl F) (a : Nat) (key v : QVal F) : HM F Unit := do
  let h ← HM.get
  if hashable key then HM.setMap a (putKey M key v (h.maps a)) else HM.throw (failErr .uncomparable)

/-- `make(map[K]V)` -/
def makeMap : HM F Nat := do
  let a ← HM.alloc
  HM.setMap a []
  pure a

/-- `Mkmap` (builtin.go:27-30); `reflect.MakeMap` wants a map type. -/
def Mkmap (typ : QVal F) : HM F (QVal F) := do
  match ← HM.lift (typeArg typ) with
  | .map k v => do pure (.map k v (← makeMap))
  | _ => HM.throw reflectMsg

/-- The loops of `MapFrom` (builtin.go:51-103): `key` and `val` convert, `val` gives none for
what is left out. -/
def mapLoop (M : Fl F) (a : Nat) (key : QVal F → Except (QPanic F) (QVal F))
    (val : QVal F → Except (QPanic F) (Option (QVal F))) : List (QVal F) → HM F Unit
  | k :: v :: args => do
    match ← HM.lift (val v) with
    | some v => do
      let k ← HM.lift (key k)
      mapPut M a k v
      mapLoop M a key val args
    | none => mapLoop M a key val args
  | _ => pure ()

/-- The even or odd elements: the arguments `kindOf2Args(args, idx)` looks at. -/
def evens : List (QVal F) → List (QVal F)
  | k :: _ :: args => k :: evens args
  | _ => []

def odds : List (QVal F) → List (QVal F)
  | _ :: v :: args => v :: odds args
  | _ => []

/-- Conversions of keys and values. -/
def keepStr (v : QVal F) : Except (QPanic F) (QVal F) := do pure (.str (← assertStr v))
def keepInt (v : QVal F) : Except (QPanic F) (QVal F) := do pure (.int (← asInt v))
def someFloat (M : Fl F) (v : QVal F) : Except (QPanic F) (Option (QVal F)) := do pure (some (.float (← asFloat M v)))
def someStr (v : QVal F) : Except (QPanic F) (Option (QVal F)) := do pure (some (← keepStr v))
def someInt (v : QVal F) : Except (QPanic F) (Option (QVal F)) := do pure (some (← keepInt v))

/-- `if t := args[i+1]; t != qlang.Undefined` (builtin.go:71, 100). -/
def someDefined (v : QVal F) : Except (QPanic F) (Option (QVal F)) := .ok (match v with
  | .undefined => none
  | v => some v)

/-- The inner switch of `MapFrom` for a key type (builtin.go:49-76, 78-105). -/
def mapFromKeys (M : Fl F) (kt : Ty) (key : QVal F → Except (QPanic F) (QVal F)) (args : List (QVal F)) : HM F (QVal F) := do
  let a ← makeMap
  let kind := kindOfArgs (odds args)
  if kind = 24 then do
    mapLoop M a key someStr args
    pure (.map kt .string a)
  else if kind = 2 then do
    mapLoop M a key someInt args
    pure (.map kt .int a)
  else if kind = 14 then do
    mapLoop M a key (someFloat M) args
    pure (.map kt .float a)
  else do
    mapLoop M a key someDefined args
    pure (.map kt .var a)

/-- `MapFrom` (builtin.go:37-109). -/
def MapFrom (M : Fl F) (args : List (QVal F)) : HM F (QVal F) := do
  if args.length % 2 ≠ 0 then HM.throw (failMsg (str "please use `mapFrom(key1, val1, key2, val2, ...)`"))
  else if args.length = 0 then do pure (.map .string .var (← makeMap))
  else if kindOfArgs (evens args) = 24 then mapFromKeys M .string keepStr args
  else if kindOfArgs (evens args) = 2 then mapFromKeys M .int keepInt args
  else HM.throw (failMsg (str "mapFrom: key type only support `string`, `int` now"))

/-- `reflect.Value.SetMapIndex(key, val)`: `none` deletes. -/
def setMapIndex (M : Fl F) (kt vt : Ty) (a : Nat) (key : QVal F) (val : Option (QVal F)) : HM F Unit := do
  if assignable key kt then
    match val with
    | none => do
      if hashable key then
        let h ← HM.get
        HM.setMap a (delKey M key (h.maps a))
      else HM.throw (failErr .uncomparable)
    | some v => if v matches .nil ∨ assignable v vt then mapPut M a key v else HM.throw reflectMsg
  else HM.throw (match key with
    | .nil => valueErr
    | _ => reflectMsg)

/-- `Delete` (builtin.go:111-114). -/
def Delete (M : Fl F) (m key : QVal F) : HM F Unit :=
  match m with
  | .map k v a => setMapIndex M k v a key none
  | _ => HM.throw valueErr

/-- The loop of `Set` on a map (builtin.go:127-139). -/
def setMapLoop (M : Fl F) (kt vt : Ty) (a : Nat) : List (QVal F) → HM F Unit
  | k :: v :: args => do
    setMapIndex M kt vt a k (match v with
      | .undefined => none
      | .nil => some (zeroOf M vt)
      | v => some v)
    setMapLoop M kt vt a args
  | _ => pure ()

/-- The loop of `Set` on a slice (builtin.go:141-143). -/
def setSliceLoop (s : Sl) : List (QVal F) → HM F Unit
  | k :: v :: args => do
    let i ← HM.lift (assertInt k)
    if 0 ≤ i ∧ i < s.len then
      if assignable v s.elem then do
        let h ← HM.get
        HM.setArr s.arr ((h.arrs s.arr).set (s.off + i.toNat) v)
        setSliceLoop s args
      else HM.throw (match v with
        | .nil => valueErr
        | _ => reflectMsg)
    else HM.throw reflectMsg
  | _ => pure ()

/-- The loop of `SetMemberVar` (class.go:48-50) with `Object.SetVar` (class.go:37-43). -/
def setObjLoop (a : Nat) (cls : List (Str × Nat × Fun)) : List (QVal F) → HM F Unit
  | k :: v :: args => do
    let name ← HM.lift (assertStr k)
    if (cls.lookup name).isSome then HM.throw (failMsg (str "set failed: class already have a method named " ++ name))
    else do
      let h ← HM.get
      HM.setObj a (fun n => if n = name then some v else h.objs a n)
      setObjLoop a cls args
  | _ => pure ()

/-- `Set` (builtin.go:116-147) and `SetMemberVar` (class.go:45-54). -/
def Set (M : Fl F) (m : QVal F) (args : List (QVal F)) : HM F Unit :=
  if args.length % 2 ≠ 0 then HM.throw (failMsg (str "call with invalid argument count, please use `set(obj, member1, val1, ...)"))
  else match m with
    | .map k v a => setMapLoop M k v a args
    | .slice s => setSliceLoop s args
    | .obj a cls => setObjLoop a cls args
    | _ => HM.throw (failMsg (str "type doesn't support `set` operator"))

/-- `Get` (builtin.go:149-162). -/
def Get (M : Fl F) (h : Heap F) (m key : QVal F) : QRes F :=
  match m with
  | .map k _ a =>
    if assignable key k then
      if hashable key then
        .ok (match findKey M key (h.maps a) with
          | some v => v
          | none => .undefined)
      else .error (failErr .uncomparable)
    else .error (match key with
      | .nil => valueErr
      | _ => reflectMsg)
  | m => do
    let i ← assertInt key
    match m with
    | .slice s =>
      if 0 ≤ i ∧ i < s.len then match (h.elems s)[i.toNat]? with
        | some v => pure v
        | none => .error reflectMsg
      else .error reflectMsg
    | .str s =>
      if 0 ≤ i then match s[i.toNat]? with
        | some b => pure (.byte b)
        | none => .error reflectMsg
      else .error reflectMsg
    | _ => .error valueErr

/-- `Panic` (builtin.go:13-15). -/
def panicOf : QVal F → QPanic F
  | .nil => failErr .panicNil
  | .str s => .user (.str (.text s))
  | .fault p => p
  | v => .user (.other (.val v))

/-! ### spec.go -/

/-- An entry of `Fntable` (spec.go:64-81) for `Import`: a placeholder (`dummy1`, `dummy2`)
or something else. -/
inductive Sym (α : Type) where
  | dummy1 | dummy2
  | def_ (a : α)
deriving DecidableEq, Repr

/-- The loop of `Import` over the table (spec.go:106-117), in some order. -/
def importLoop {α : Type} : (Str → Option (Sym α)) → List (Str × Sym α) → Option Str × (Str → Option (Sym α))
  | tab, [] => (none, tab)
  | tab, (name, fn) :: more =>
    match tab name with
    | some (.def_ _) => (some name, tab)
    | _ => importLoop (fun n => if n = name then some fn else tab n) more

/-- `Import` (spec.go:85-118) outside of safe mode: a module, or symbols in the order in
which Go's `range` happens to go through the table.  The first part is the name in the
panic, if there is one.  `mk` makes a value of a table. -/
def Import {α : Type} (mk : List (Str × Sym α) → α) (tab : Str → Option (Sym α)) (mod : Str) (table : List (Str × Sym α)) :
    Option Str × (Str → Option (Sym α)) :=
  if mod ≠ [] then
    match tab mod with
    | some _ => (some mod, tab)
    | none => (none, fun n => if n = mod then some (.def_ (mk table)) else tab n)
  else importLoop tab table

end Tpl.Qlang
