import Verif.Proof.QlangPlain
import Verif.Props.QlangEngine

/-
What makes a qlang program run forever (C129).
-/
namespace Tpl.Props
open Tpl Tpl.Spec Tpl.Qlang Tpl.Qlang.Src Scanner
variable {F : Type} {U : Uni} {mode : Mode} {fuel : Nat} {ret : CompileRet Str}

/-- C129: running a program in which there is no loop, no call, no `new` and no `main` outside of
functions, and no `return` in a deferred expression, ends.  Missing: programs with a `return` in a
deferred expression (`C129_forever`). -/
theorem C129_ends_partial (H : Host F) (h : (client H.lib ret U).new grammarText mode U fuel = some (.ok ret)) (d : Tm .doc) (hd : d.Ok) (hp : d.Plain true)
    {s : St (QEng F)} (hk : KwScanner.Steps U KwScanner.zero s.u.scanner) {src : Str} {eof : Token} (hsrc : Tokenizes U s.u.scanner src ret.mode d.toks eof)
    (hi : Idle s.u) (hc : PlainDefers (s.u.u.scopes 0).defers) :
    (∃ f o, exec H.lib ret U f src s = some o) ∧ ∃ f o, safeExec H.lib ret U f src s = some o := by
  obtain ⟨S, rfl, hS, hx⟩ := plain_setup H sites
  constructor
  · obtain ⟨o, w, h1, _⟩ := fin_does hx 0 d hd hp (world s.u.u) hc
    have h2 := C80_runs hS h d hd hk hsrc hi.ipt hi.base hi.count h1
    cases o with
    | ok v => obtain ⟨f, s', h3, _⟩ := h2; exact ⟨f, _, h3⟩
    | error p => obtain ⟨f, s', h3, _⟩ := h2; exact ⟨f, _, h3⟩
  · obtain ⟨o, w, h1, _⟩ := fin_safely hx 0 d hd hp (world s.u.u) hc
    have h2 := C81_safe hS h d hd hk hsrc hi h1
    cases o with
    | ok v => obtain ⟨f, e, s', h3, _⟩ := h2; exact ⟨f, _, h3⟩
    | error p => obtain ⟨f, s', h3, _⟩ := h2; exact ⟨f, _, h3⟩

/-! ### A `return` in a deferred expression: `defer switch { default: return }; return` -/

def exBack : Tm (.term 5) := one (.switch (tk kSwitch 6 "switch") .noExpr (tk 123 13 "") .noCase
  (.default (tk kDefault 15 "default") (tk 58 22 "") (.someDoc (.doc (.return_ (tk kReturn 24 "return") .noExpr) .endDoc))) (tk 125 31 ""))

def exAgain : Tm .doc := .doc (.defer (tk kDefer 0 "defer") exBack) (.next (tk 59 32 ";") (.return_ (tk kReturn 34 "return") .noExpr) .endDoc)

theorem exBack_ok : exBack.Ok := by
  refine ⟨⟨⟨⟨⟨⟨?_, trivial, trivial, ⟨trivial, trivial⟩⟩, trivial⟩, trivial⟩, trivial⟩, trivial⟩, trivial⟩
  rintro ⟨_, _, h, _⟩
  cases h

theorem exAgain_ok : exAgain.Ok := ⟨exBack_ok, trivial, trivial⟩

/-- A setup that knows the deferred expression. -/
def againSetup (H : Host F) : Setup F where
  host := H
  site := sites
  doc := fun _ => none
  expr := fun ts => if ts = exBack.toks then some exBack else none
  doc_ok := nofun
  expr_ok := by
    intro ts d h
    split at h
    · rename_i e
      cases h
      exact ⟨exBack_ok, e.symm⟩
    · cases h

theorem at_none {α : Type} {S : Setup F} {m : String} {ts : List Token} {x : Prog F α} {w : World F} (h : x w = none) : S.at m ts x w = none := by
  unfold Setup.at
  rw [h]

/-- The program itself, in which the expression has been deferred. -/
def Again (w : World F) : Prop := (w.frames 0).parents = [] ∧ ∃ ds, (w.frames 0).defers = .code exBack.toks :: ds

theorem again_return {R : Runs F} (hR : ∀ w, Again w → R.expr exBack.toks 0 w = none) (v : QVal F) {w : World F} (hw : Again w) : returnFrom R 0 v w = none := by
  obtain ⟨h1, ds, h2⟩ := hw
  have hw1 : Again (w.change 0 fun f => { f with ret := v }) := ⟨h1, ds, h2⟩
  have e : returnFrom R 0 v w = (if (w.frames 0).parents ≠ [] then raise returning else runDefers R 0 >>= fun _ => _) (w.change 0 fun f => { f with ret := v }) := rfl
  rw [e, if_neg (fun h => h h1)]
  refine stuck ?_
  have e : runDefers R 0 (w.change 0 fun f => { f with ret := v }) = (deferredOnes R 0 (w.frames 0).defers >>= fun _ => _) (w.change 0 fun f => { f with ret := v }) := rfl
  rw [e, h2]
  exact stuck (stuck (hR _ hw1))

theorem again_expr (H : Host F) (j : Int) : ∀ (n : Nat) (w : World F), Again w → (runsOr (againSetup H) j n).expr exBack.toks 0 w = none
  | 0, _, _ => rfl
  | n + 1, w, hw => by
    show (match (againSetup H).expr exBack.toks with
      | some e => e.den (againSetup H) (runsOr (againSetup H) j n) n 0
      | none => exit_ j) w = none
    rw [show (againSetup H).expr exBack.toks = some exBack by unfold againSetup; dsimp only; exact if_pos rfl]
    -- five levels of operators, the switch, the statement
    refine stuck (stuck (stuck (stuck (stuck (at_none ?_)))))
    show Prog.andThen ((Tm.return_ (tk kReturn 24 "return") .noExpr).den (againSetup H) (runsOr (againSetup H) j n) n 0) (fun v => pure v) w = none
    exact stuck (at_none (again_return (again_expr H j n) .nil hw))

theorem again_none (H : Host F) (j : Int) (n : Nat) {w : World F} (hw : (w.frames 0).parents = []) : exAgain.doesOr (againSetup H) j n w = none := by
  have e : exAgain.doesOr (againSetup H) j n w =
    (Bind.bind (m := Prog F) ((Tm.return_ (tk kReturn 34 "return") .noExpr).den (againSetup H) (runsOr (againSetup H) j n) n 0 : Prog F (QVal F)) fun v => pure v)
      (w.change 0 fun f => { f with defers := .code exBack.toks :: f.defers }) := rfl
  rw [e]
  exact stuck (at_none (again_return (again_expr H j n) .nil ⟨hw, _, rfl⟩))

theorem exAgain_text (sc : Scanner) : ((⟨sc, keywords, some kwTable⟩ : KwScanner).tokenize ascii (str "defer switch { default: return }; return") ⟨false, false⟩).1 =
    (exAgain.toks, none) := by kernel_rfl

/-- C129 is violated: whatever the library is, on a new engine the program
`defer switch { default: return }; return`, which has neither loops nor calls, runs forever, with
`Exec` and with `SafeExec`: the `return` in the deferred expression runs the deferred expressions. -/
theorem C129_forever (H : Host F) (f : Nat) :
    exec H.lib (qlangRet ascii ⟨false, false⟩) ascii f (str "defer switch { default: return }; return") (newEngine ascii ⟨false, false⟩) = none ∧
    safeExec H.lib (qlangRet ascii ⟨false, false⟩) ascii f (str "defer switch { default: return }; return") (newEngine ascii ⟨false, false⟩) = none := by
  have hk := newEngine_steps (F := F) ascii ⟨false, false⟩
  obtain ⟨fuel, h⟩ := compiled_new H.lib ascii ⟨false, false⟩
  have ht : ((newEngine (F := F) ascii ⟨false, false⟩).u.scanner.tokenize ascii (str "defer switch { default: return }; return") ⟨false, false⟩).1 = (exAgain.toks, none) := by
    rw [newEngine_scanner]
    exact exAgain_text _
  obtain ⟨eof, hsrc⟩ := (tokenizes_iff hk).mp ht
  have hi := newEngine_idle (F := F) ascii ⟨false, false⟩
  have h1 : exec H.lib (qlangRet ascii ⟨false, false⟩) ascii f (str "defer switch { default: return }; return") (newEngine ascii ⟨false, false⟩) = none :=
    C80_forever (S := againSetup H) rfl h exAgain exAgain_ok hk hsrc hi.ipt hi.base hi.count (j := 0) (fun n => again_none H 0 n rfl) f
  refine ⟨h1, ?_⟩
  unfold safeExec
  rw [h1]

/-! The hypotheses are met by `f = fn() { for { } }; defer f; return`: the loop is in a function that
is not called. -/

def exCalm : Tm .doc := .doc (.assign (tk IDENT 0 "f") (tk 61 2 "") (one (.post (.fn (tk kFn 4 "fn") (.fnBody (tk 40 6 "") none none (tk 41 7 "") (tk 123 9 "")
    (.someDoc exSpin) (tk 125 19 ""))) .noAtom)))
  (.next (tk 59 20 ";") (.defer (tk kDefer 22 "defer") (one (var 28 "f"))) (.next (tk 59 29 ";") (.return_ (tk kReturn 31 "return") .noExpr) .endDoc))

example : exCalm.Ok ∧ PlainDefers (F := Unit) ((newEngine ascii ⟨false, false⟩).u.u.scopes 0).defers :=
  ⟨by repeat' first | exact trivial | refine ⟨?_, ?_⟩, nofun⟩

example : exCalm.Plain true := by repeat' first | exact trivial | exact rfl | refine ⟨?_, ?_⟩

/-- Not so the program above, in which the deferred expression returns. -/
example : ¬ exAgain.Plain true := by
  rintro ⟨⟨⟨⟨⟨⟨⟨_, _, h⟩, _⟩, _⟩, _⟩, _⟩, _⟩, _⟩
  exact nomatch h.1.1

end Tpl.Props
