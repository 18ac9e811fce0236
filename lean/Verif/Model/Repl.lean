import Verif.Model.Calc

/-
Model of the programs tpl/examples/calculator/main.go, tpl/examples/ratcalc/bigcalc.go and
tpl/examples/cmplxcalc/cmplx_calc.go: calculators that read lines from standard input and
print their values.

The three differ in the package they use and in the printing of a value.

Simplifications:
* Standard input is a text that ends; there are no read errors.  Writing to standard output
  and to standard error does not fail.
* What is written to standard error is kept as the value that is printed, not as its text.
* The texts of a float64 and of a complex128 (`%v`) are parameters.
-/
namespace Tpl
namespace Repl
variable {V F Z : Type}

/-- One call of a printing function. -/
inductive Out where
  /-- `fmt.Printf` -/
  | out (text : Str)
  /-- `fmt.Fprintln(os.Stderr, err)` with the error that `Eval` returned -/
  | error (e : MErr Str)
  /-- the same with what `recover` returned -/
  | panicked (p : Panic Str (IPanic CalcErr Empty))

/-- A program: the package, its grammar, the zero value of its numbers and what the
last lines of `eval` print for a number, without `> ` and the line ends. -/
structure Prog (V F : Type) where
  pkg : Calc V F
  grammar : Str
  zero : V
  text : V → Except Fault Str

/-- The bytes that `strings.Trim(line, " \t\r\n")` cuts off. -/
def inCutset (c : UInt8) : Bool := c = 32 || c = 9 || c = 13 || c = 10

/-- `strings.Trim(line, " \t\r\n")` (main.go:26, bigcalc.go:26, cmplx_calc.go:26). -/
def trim (line : Str) : Str := ((line.dropWhile inCutset).reverse.dropWhile inCutset).reverse

/-- What follows `Eval` when it returns nil (main.go:36-37, bigcalc.go:36-41,
cmplx_calc.go:36-41): `calc.Ret()` clears the stack, printing may panic. -/
def answer (P : Prog V F) (s : St (Calc.Eng V)) : Out × St (Calc.Eng V) :=
  let s' : St (Calc.Eng V) := { s with u := { s.u with u := (Calc.ret s.u.u).2 } }
  match P.text ((Calc.ret s.u.u).1.getD P.zero) with
  | .ok text => (.out (str "> " ++ text ++ str "\n\n"), s')
  | .error c => (.panicked c.panic, s')

/-- `eval` (main.go:18-38, bigcalc.go:18-42, cmplx_calc.go:18-42). -/
def eval (P : Prog V F) (r : CompileRet Str) (U : Uni) (fuel : Nat) (line : Str) (s : St (Calc.Eng V)) :
    Option (List Out × St (Calc.Eng V)) :=
  let line := trim line
  if line = [] then some ([], s)
  else match P.pkg.client.eval r U fuel line s with
    | none => none
    | some (.panic p s) => some ([.panicked p], s)
    | some (.err e s) => some ([.error e], s)
    | some (.ok () s) =>
      let x := answer P s
      some ([x.1], x.2)

/-- `bufio.MaxScanTokenSize`. -/
def maxToken : Nat := 64 * 1024

/-- `dropCR` of package bufio. -/
def dropCR (line : Str) : Str := if line.getLast? = some 13 then line.dropLast else line

/-- The texts for which `scanner.Scan()` returns true (main.go:48-51, bigcalc.go:52-55,
cmplx_calc.go:52-55): `bufio.ScanLines` with a buffer of `maxToken` bytes.  `Scan` gives up
once a line does not fit into the buffer together with its end.  The first argument is
the beginning of the current line. -/
def scanLines : Str → Str → List Str
  | line, [] => if line = [] then [] else if line.length < maxToken then [dropCR line] else []
  | line, c :: cs =>
    if c = 10 then
      if line.length < maxToken then dropCR line :: scanLines [] cs else []
    else scanLines (line ++ [c]) cs

/-- The loop of `main`. -/
def loop (P : Prog V F) (r : CompileRet Str) (U : Uni) (fuel : Nat) : List Str → St (Calc.Eng V) → Option (List Out × St (Calc.Eng V))
  | [], s => some ([], s)
  | l :: ls, s => match eval P r U fuel l s with
    | none => none
    | some (o, s) => match loop P r U fuel ls s with
      | none => none
      | some (os, s) => some (o ++ os, s)

/-- The engine that `New` returns, with an empty stack. -/
def start (r : CompileRet Str) : St (Calc.Eng V) := ⟨fun _ => 0, ⟨0, (), r.tab.scanner, []⟩⟩

/-- How a run ends: the exit code and what was printed. -/
structure End where
  code : Nat
  prints : List Out

/-- `main` (main.go:40-52, bigcalc.go:44-56, cmplx_calc.go:44-56).  The message about an
error of `New` is left out, a panic in `New` ends the program with code 2. -/
def main (P : Prog V F) (U : Uni) (fuel : Nat) (stdin : Str) : Option End :=
  match P.pkg.client.new P.grammar ⟨false, false⟩ U fuel with
  | none => none
  | some (.err _) => some ⟨1, []⟩
  | some (.panic _) => some ⟨2, []⟩
  | some (.ok r) => (loop P r U fuel (scanLines [] stdin) (start r)).map fun x => ⟨0, x.1⟩

/-! ### The programs -/

/-- examples/calculator: `%v` of a float64 is `fmt`. -/
def calculator (M : Float64 F) (fmt : F → Str) : Prog F F where
  pkg := number M
  grammar := numberGrammar
  zero := M.zero
  text x := .ok (fmt x)

/-- The decimal digits of `n`, for `n < fuel`. -/
def digitsAux : Nat → Nat → Str
  | 0, _ => []
  | f + 1, n => if n < 10 then [48 + n.toUInt8] else digitsAux f (n / 10) ++ [48 + (n % 10).toUInt8]

def digits (n : Nat) : Str := digitsAux (n + 1) n

/-- The decimal text of an integer, as printed for a `*big.Int`. -/
def decimal (n : Int) : Str := if n < 0 then 45 :: digits n.natAbs else digits n.natAbs

/-- examples/ratcalc (bigcalc.go:37-41): an integer is printed as its numerator, other
numbers by `(*big.Rat).String`; `IsInt` of a nil pointer panics. -/
def ratcalc (L : Lits F) (setString : Str → Option Rat) : Prog (Option Rat) F where
  pkg := rat L setString
  grammar := ratGrammar
  zero := none
  text
    | none => .error .nilDeref
    | some x => .ok (if x.den = 1 then decimal x.num else decimal x.num ++ str "/" ++ decimal x.den)

/-- examples/cmplxcalc (cmplx_calc.go:37-41): `fmtReal` and `fmt` are the texts of
`real(v)` and of `v`. -/
def cmplxcalc (M : Complex128 F Z) (fmtReal fmt : Z → Str) : Prog Z F where
  pkg := cmplx M
  grammar := cmplxGrammar
  zero := M.ofInt 0
  text z := .ok (if M.isReal z then fmtReal z else fmt z)

end Repl
end Tpl
