import Verif.Proof.Keep
import Verif.Proof.QlangDoes

/-! What tokenizing keeps of the scanner, a qlang program keeps. -/
namespace Tpl.Qlang
open Tpl.Go.Keep Tpl.Qlang.Src
variable {F α β : Type} {P : KwScanner → Prop}

/-- The current function is `i`, and `P` holds of the scanner. -/
def Stays (P : KwScanner → Prop) (i : Nat) (u : QEng F) : Prop := u.ipt = i ∧ P u.scanner

/-- The code keeps the current function and what `P` says of the scanner. -/
abbrev KeepS (P : KwScanner → Prop) (x : QM F α) : Prop := Go.Keep (Stays P) x

/-- The functions of the library keep it. -/
def LibKeep (P : KwScanner → Prop) (L : Lib F) : Prop := ∀ n fn vs, L.fns n = some fn → KeepS P (fn.body vs)

/-- Step through code. -/
syntax "keep" ("[" term,* "]")? : tactic
macro_rules
  | `(tactic| keep) => `(tactic| keep [])
  | `(tactic| keep [$ts,*]) => do
    let alts ← ts.getElems.mapM fun t => `(tacticSeq| apply $t)
    `(tactic| repeat' first
      | assumption
      $[| $alts]*
      | exact Go.Keep.pure
      | exact Go.Keep.panic
      | exact Go.Keep.get
      | exact Go.Keep.len
      | exact Go.Keep.match_
      | apply Go.Keep.bind
      | apply Go.Keep.recover
      | apply Go.Keep.deferred
      | apply Go.Keep.loop
      | intro _
      | dsimp only
      | split)

theorem keep_getQ : KeepS P (getQ : QM F _) := by unfold getQ; keep
theorem keep_modQ {f : QState F → QState F} : KeepS P (modQ f) := Go.Keep.modify fun _ _ h => h
theorem keep_throwQ {p : QPanic F} : KeepS P (throwQ p : QM F α) := Go.Keep.panic
theorem keep_liftE {x : Except (QPanic F) α} : KeepS P (liftE x) := by unfold liftE; keep [keep_throwQ]
theorem keep_liftH {x : HM F α} : KeepS P (liftH x) := by unfold liftH; keep [keep_getQ, keep_modQ, keep_liftE]
theorem keep_modScope {p : Nat} {f : Scope F → Scope F} : KeepS P (modScope p f) := keep_modQ
theorem keep_setVar {p : Nat} {n : Str} {v : QVal F} : KeepS P (setVar p n v) := keep_modScope
theorem keep_push {v : QVal F} : KeepS P (push v) := keep_modQ
theorem keep_pop : KeepS P (pop : QM F _) := by unfold pop; keep [keep_getQ, keep_modQ]
theorem keep_pop_ : KeepS P (pop_ : QM F _) := by unfold pop_; keep [keep_pop]

/-- The same, with the steps of qlang. -/
syntax "keepq" ("[" term,* "]")? : tactic
macro_rules
  | `(tactic| keepq) => `(tactic| keepq [])
  | `(tactic| keepq [$ts,*]) => `(tactic| keep [keep_getQ, keep_modQ, keep_throwQ, keep_liftE, keep_liftH, keep_modScope, keep_setVar, keep_push, keep_pop, keep_pop_, $ts,*])

theorem keep_popArity : KeepS P (popArity : QM F _) := by unfold popArity; keepq
theorem keep_popNArgs {n : Int} : KeepS P (popNArgs n : QM F _) := by unfold popNArgs; keepq
theorem keep_popFnArgs {n : Int} : KeepS P (popFnArgs n : QM F _) := by unfold popFnArgs; keepq
theorem keep_popArgs {n : Nat} : KeepS P (popArgs n : QM F _) := by unfold popArgs; keepq
theorem keep_pushRet {M : Fl F} {vs : List (QVal F)} : KeepS P (pushRet M vs) := by unfold pushRet; keepq
theorem keep_setFrame {n : Nat} : KeepS P (setFrame n : QM F _) := by unfold setFrame; keepq
theorem keep_clear {p : Nat} : KeepS P (clear p : QM F _) := by unfold clear; keepq [keep_setFrame]
theorem keep_index {M : Fl F} : KeepS P (index M) := by unfold index; keepq [keep_popArity, keep_popNArgs]
theorem keep_getVar {p : Nat} {n : Str} : KeepS P (getVar p n : QM F _) := by unfold getVar; keepq
theorem keep_getVars {p : Nat} {n : Str} : KeepS P (getVars p n : QM F _) := by unfold getVars; keepq
theorem keep_assignAll {p : Nat} : ∀ l : List (Str × QVal F), KeepS P (assignAll p l)
  | [] => Go.Keep.pure
  | (_, _) :: l => by have := keep_assignAll (p := p) l; unfold assignAll; keepq [keep_getVars]
theorem keep_multiAssign {p : Nat} : KeepS P (multiAssign p : QM F _) := by
  unfold multiAssign; keepq [keep_popArity, keep_popFnArgs, keep_assignAll]
theorem keep_getRef {L : Lib F} {p : Nat} {n : Str} : KeepS P (getRef L p n) := by unfold getRef; keepq

theorem keep_pushString {L : Lib F} {s : Str} : KeepS P (pushString L s) := by unfold pushString; keepq
theorem keep_pushByte {L : Lib F} {s : Str} : KeepS P (pushByte L s) := by unfold pushByte; keepq
theorem keep_memberRef {L : Lib F} {s : Str} : KeepS P (memberRef L s) := by unfold memberRef allocQ; keepq
theorem keep_ref {L : Lib F} {p : Nat} {s : Str} : KeepS P (ref L p s) := by unfold ref; keepq [keep_getRef]
theorem keep_assign {p : Nat} {s : Str} : KeepS P (assign p s : QM F _) := by unfold assign; keepq [keep_getVars]
theorem keep_incDec {op : QVal F → QRes F} {p : Nat} {s : Str} : KeepS P (incDec op p s) := by unfold incDec; keepq [keep_getVar]
theorem keep_opAssign {op : QVal F → QVal F → QRes F} {p : Nat} {s : Str} : KeepS P (opAssign op p s) := by unfold opAssign; keepq [keep_getVar]
theorem keep_defer {p : Nat} : KeepS P (defer_ p : QM F _) := by unfold defer_; keepq
theorem keep_recover {p : Nat} : KeepS P (recover_ p : QM F _) := by unfold recover_; keepq
theorem keep_function {p : Nat} : KeepS P (function p : QM F _) := by unfold function allocQ; keepq [keep_popArity, keep_popFnArgs]
theorem keep_memberFuncDecl {p : Nat} : KeepS P (memberFuncDecl p : QM F _) := by unfold memberFuncDecl allocQ; keepq [keep_popArity, keep_popFnArgs]
theorem keep_methods {p : Nat} : ∀ (vs : List (QVal F)) fns, KeepS P (methods p vs fns)
  | [], _ => Go.Keep.pure
  | v :: vs, fns => by
    have ih := keep_methods (p := p) vs
    unfold methods allocQ
    split
    · exact Go.Keep.pure
    · rename_i h; cases h
      split
      · exact keep_throwQ
      · exact Go.Keep.bind keep_liftH fun _ => ih _
    · exact keep_throwQ
theorem keep_class {p : Nat} : KeepS P (class_ p : QM F _) := by unfold class_ allocQ; keepq [keep_popArity, keep_popNArgs, keep_methods]

section
variable {r : CompileRet Str} {U : Uni} (hP : ∀ k src, P k → P (k.tokenize U src r.mode).2)
include hP

theorem keep_engSub {n : Str} {src : SubSrc} : KeepS P (engSub r U n src : QM F _) := by
  unfold engSub
  split
  · exact Go.Keep.pure
  · split
    · refine Go.Keep.bind (Go.Keep.modify fun _ _ h => h) fun _ => ?_
      keep
    · split
      · exact Go.Keep.pure
      · rename_i t _ _
        refine Go.Keep.get_bind fun _ u hu => ?_
        have k1 := hP u.scanner t hu.2
        split
        · rename_i h1
          rw [h1] at k1
          exact Go.Keep.bind (Go.Keep.modify fun _ _ h => ⟨h.1, k1⟩) fun _ => Go.Keep.pure
        · rename_i h1
          rw [h1] at k1
          refine Go.Keep.bind (Go.Keep.modify fun _ _ h => ⟨h.1, k1⟩) fun _ => ?_
          clear h1
          keep
    · exact Go.Keep.pure

theorem keep_evalCode {p : Nat} {n : Str} {src : SubSrc} : KeepS P (Tpl.evalCode r U p n src : QM F _) := by
  constructor
  intro i f m s c hm e hs
  have e : (Go.deferred (engSub r U n src) (Go.modify fun u => { u with ipt := s.u.ipt, mute := s.u.mute }) : QM F _).run f m
      { s with u := { s.u with ipt := p } } = some c := e
  dsimp only [Go.deferred] at e
  cases hr : (engSub r U n src : QM F _).run f m { s with u := { s.u with ipt := p } } with
  | none => rw [hr] at e; cases e
  | some c1 =>
    have h1 := (keep_engSub hP).run p f m _ _ hm hr ⟨rfl, hs.2⟩
    rw [hr] at e
    cases c1 <;> cases e <;> exact ⟨hs.1, h1.2⟩

theorem keep_evalPanic {p : Nat} {n : Str} {c : QVal F} : KeepS P (evalPanic r U p n c) := by unfold evalPanic; keepq [keep_evalCode hP]
theorem keep_evalIn {p : Nat} {n : Str} {c : QVal F} : KeepS P (evalIn r U p n c) := by unfold evalIn; keepq [keep_evalCode hP]
theorem keep_deferLoop {p : Nat} : ∀ l : List (QVal F), KeepS P (deferLoop r U p l)
  | [] => Go.Keep.pure
  | _ :: l => by have := keep_deferLoop (p := p) l; unfold deferLoop; keepq [keep_evalPanic hP]
theorem keep_execDefers {p : Nat} : KeepS P (execDefers r U p : QM F _) := by unfold execDefers; keepq [keep_deferLoop hP]
theorem keep_leave {c b : Nat} {e : Option (QPanic F)} : KeepS P (leave r U c b e) := by unfold leave; keepq [keep_execDefers hP, keep_setFrame]
theorem keep_fnCall {M : Fl F} {f : Fun} {vs : List (QVal F)} : KeepS P (fnCall M r U f vs) := by
  unfold fnCall attempt exit bindParams
  keepq [keep_evalCode hP, keep_leave hP]
theorem keep_runBody {p : Nat} {c : QVal F} : KeepS P (runBody r U p c) := by unfold runBody; keepq [keep_evalIn hP]
theorem keep_ifLoop {p : Nat} {c : QVal F} : ∀ l : List (QVal F), KeepS P (ifLoop r U p c l)
  | [] | [_] => by unfold ifLoop; exact keep_runBody hP
  | _ :: _ :: l => by have := keep_ifLoop (p := p) (c := c) l; unfold ifLoop; keepq [keep_evalIn hP, keep_runBody hP]
theorem keep_switchLoop {M : Fl F} {p : Nat} {on c : QVal F} : ∀ l : List (QVal F), KeepS P (switchLoop M r U p on c l)
  | [] | [_] => by unfold switchLoop; exact keep_runBody hP
  | _ :: _ :: l => by have := keep_switchLoop (M := M) (p := p) (on := on) (c := c) l; unfold switchLoop; keepq [keep_evalIn hP, keep_runBody hP]
theorem keep_evalDrop {p : Nat} {n : Str} {c : QVal F} : KeepS P (evalDrop r U p n c) := by unfold evalDrop; keepq [keep_evalIn hP]
theorem keep_forRound {p : Nat} {c t b : QVal F} {x : Unit} : KeepS P (forRound r U p c t b x) := by
  unfold forRound evalCondS; keepq [keep_evalIn hP, keep_evalDrop hP]
theorem keep_for {p : Nat} : KeepS P (for_ r U p : QM F _) := by
  unfold for_; keepq [keep_popArity, keep_popNArgs, keep_evalDrop hP, keep_forRound hP]
theorem keep_return {p : Nat} : KeepS P (return_ r U p : QM F _) := by
  unfold return_ exit; keepq [keep_popArity, keep_execDefers hP]
theorem keep_main {M : Fl F} {p : Nat} : KeepS P (main M r U p) := by unfold main exit; keepq [keep_fnCall hP]
theorem keep_new {M : Fl F} : KeepS P (new_ M r U) := by
  unfold new_ allocQ; keepq [keep_popArity, keep_popNArgs, keep_fnCall hP]
theorem keep_if {p : Nat} : KeepS P (if_ r U p : QM F _) := by unfold if_; keepq [keep_popArity, keep_popNArgs, keep_ifLoop hP]
theorem keep_switch {M : Fl F} {p : Nat} : KeepS P (switch_ M r U p) := by
  unfold switch_; keepq [keep_popArity, keep_popNArgs, keep_evalIn hP, keep_switchLoop hP]
theorem keep_and {p : Nat} : KeepS P (and_ r U p : QM F _) := by unfold and_; keepq [keep_evalIn hP]
theorem keep_or {p : Nat} : KeepS P (or_ r U p : QM F _) := by unfold or_; keepq [keep_evalIn hP]
end

/-! ### Calls -/
section
variable {R : Reflect (QVal F)}

theorem keep_validateType {v : Option (QVal F)} {t : GoTy} : KeepS P (validateType R v t : QM F _) := by unfold validateType; keepq
theorem keep_validateAll : ∀ (vs : List (Option (QVal F))) (ts : List GoTy), KeepS P (validateAll R vs ts : QM F _)
  | v :: vs, t :: ts => by have := keep_validateAll vs ts; unfold validateAll; keepq [keep_validateType]
  | [], _ => by unfold validateAll; exact Go.Keep.pure
  | _ :: _, [] => by unfold validateAll; exact Go.Keep.pure
theorem keep_validateArgs {ins rest} {vs : List (Option (QVal F))} : KeepS P (validateArgs R ins rest vs : QM F _) := by
  unfold validateArgs; keepq [keep_validateAll]
theorem keep_reflectCall {fn : GoFn (QM F) (QVal F)} (h : ∀ vs, KeepS P (fn.body vs)) {ins} : KeepS P (reflectCall R fn ins) := by
  unfold reflectCall; keepq [h]
theorem keep_doCall {M : Fl F} {fn : GoFn (QM F) (QVal F)} (h : ∀ vs, KeepS P (fn.body vs)) {n} : KeepS P (doCall R (qstack M) fn n) := by
  have h1 : ∀ vs, KeepS P ((qstack M).pushRet vs) := fun _ => keep_pushRet
  have h2 : ∀ n, KeepS P ((qstack M).popArgs n) := fun _ => keep_popArgs
  unfold doCall; keepq [keep_reflectCall h, h1, h2, keep_validateArgs]
theorem keep_call {M : Fl F} {fn : GoFn (QM F) (QVal F)} (h : ∀ vs, KeepS P (fn.body vs)) {n} : KeepS P (call R (qstack M) fn n) := by
  unfold call; keepq [keep_doCall h]
end

theorem keep_vslice {M : Fl F} : KeepS P (vslice M) := by
  have h : ∀ vs, KeepS P ((fnN fun vs => liftH (SliceFrom M vs)).body vs) := fun vs => by unfold fnN; keepq
  unfold vslice callResult; keepq [keep_popArity, keep_call h]
theorem keep_vmap {M : Fl F} : KeepS P (vmap M) := by
  have h : ∀ vs, KeepS P ((fnN fun vs => liftH (MapFrom M vs)).body vs) := fun vs => by unfold fnN; keepq
  unfold vmap callResult; keepq [keep_popArity, keep_call h]

theorem keep_fn1 {f : QVal F → QM F (QVal F)} (h : ∀ a, KeepS P (f a)) (vs) : KeepS P ((fn1 f).body vs) := by unfold fn1; dsimp only; keepq [h]
theorem keep_fn2 {f : QVal F → QVal F → QM F (QVal F)} (h : ∀ a b, KeepS P (f a b)) (vs) : KeepS P ((fn2 f).body vs) := by unfold fn2; dsimp only; keepq [h]
theorem keep_fn3 {f : QVal F → QVal F → QVal F → QM F (QVal F)} (h : ∀ a b c, KeepS P (f a b c)) (vs) : KeepS P ((fn3 f).body vs) := by
  unfold fn3; dsimp only; keepq [h]
theorem keep_fnN {f : List (QVal F) → QM F (QVal F)} (h : ∀ a, KeepS P (f a)) (vs) : KeepS P ((fnN f).body vs) := by unfold fnN; dsimp only; keepq [h]

theorem keep_builtin {M : Fl F} {n fn} (h : builtinFns M n = some fn) (vs) : KeepS P (fn.body vs) := by
  have ite : ∀ {c : Prop} [Decidable c] {a b : Option (GoFn (QM F) (QVal F))}, (∀ fn ∈ a, ∀ vs, KeepS P (fn.body vs)) →
      (∀ fn ∈ b, ∀ vs, KeepS P (fn.body vs)) → ∀ fn ∈ (if c then a else b), ∀ vs, KeepS P (fn.body vs) := by
    intro c _ a b ha hb
    split
    · exact ha
    · exact hb
  have one : ∀ {fn : GoFn (QM F) (QVal F)}, (∀ vs, KeepS P (fn.body vs)) → ∀ f ∈ some fn, ∀ vs, KeepS P (f.body vs) := by
    intro fn h f hf
    cases hf
    exact h
  have all : ∀ fn ∈ builtinFns M n, ∀ vs, KeepS P (fn.body vs) := by
    unfold builtinFns
    refine ite (one fun vs => ?_) ?_
    · dsimp only; keepq
    refine ite (one fun vs => ?_) ?_
    · dsimp only; keepq
    refine ite (one (keep_fn2 fun _ _ => ?_)) ?_
    · keepq
    refine ite (one (keep_fn1 fun _ => ?_)) ?_
    · keepq
    refine ite (one (keep_fn1 fun _ => ?_)) ?_
    · keepq
    refine ite (one fun vs => ?_) ?_
    · dsimp only; keepq
    refine ite (one (keep_fnN fun _ => ?_)) ?_
    · keepq
    refine ite (one (keep_fn2 fun _ _ => ?_)) ?_
    · keepq
    refine ite (one fun vs => ?_) ?_
    · dsimp only; keepq
    refine ite (one fun vs => ?_) ?_
    · dsimp only; keepq
    refine ite (one fun vs => ?_) ?_
    · dsimp only; keepq
    refine ite (one (keep_fnN fun _ => ?_)) ?_
    · keepq
    refine ite (one (keep_fn1 fun _ => ?_)) ?_
    · keepq
    refine ite (one (keep_fn1 fun _ => ?_)) ?_
    · keepq
    refine ite (one (keep_fn3 fun _ _ _ => ?_)) ?_
    · keepq
    refine ite (one (keep_fn1 fun _ => ?_)) ?_
    · keepq
    refine ite (one (keep_fn1 fun _ => ?_)) ?_
    · keepq
    refine ite (one (keep_fn1 fun _ => ?_)) ?_
    · keepq
    refine ite (one (keep_fn1 fun _ => ?_)) ?_
    · keepq
    refine ite (one (keep_fnN fun _ => ?_)) ?_
    · keepq
    refine ite (one (keep_fnN fun _ => ?_)) ?_
    · keepq
    intro _ h
    cases h
  exact all fn h vs

theorem mem_of_lookup {α β : Type} [BEq α] [LawfulBEq α] {a : α} {b : β} : ∀ {l : List (α × β)}, l.lookup a = some b → (a, b) ∈ l
  | [], h => by cases h
  | (a', b') :: l, h => by
    rw [List.lookup_cons] at h
    split at h
    · rename_i e; cases h; rw [eq_of_beq e]; exact List.mem_cons_self
    · exact List.mem_cons_of_mem _ (mem_of_lookup h)

/-- The entry keeps it. -/
def EntryKeep (P : KwScanner → Prop) : QEntry F → Prop
  | .recv _ _ body => ∀ as, KeepS P (body as)
  | .plain fn => ∀ vs, KeepS P (fn.body vs)
  | _ => True

section
variable {r : CompileRet Str} {U : Uni} (hP : ∀ k src, P k → P (k.tokenize U src r.mode).2) {L : Lib F} (hL : LibKeep P L)
include hP hL

theorem keep_callee {v fn} (h : callee L r U v = some fn) (vs) : KeepS P (fn.body vs) := by
  unfold callee at h
  split at h
  · unfold Lib.fn at h
    split at h
    · rename_i h1; cases h; exact keep_builtin h1 vs
    · exact hL _ _ _ h
  · cases h; unfold unset; dsimp only; keepq
  · cases h; exact keep_fnN (fun _ => keep_fnCall hP) _
  · cases h; exact keep_fnN (fun _ => keep_fnCall hP) _
  · cases h

theorem keep_vcallN {n : Nat} : KeepS P (vcallN L r U n) := by
  unfold vcallN
  refine Go.Keep.bind keep_popArgs fun a => ?_
  split
  · split
    · exact keep_throwQ
    · rename_i h
      have := keep_callee hP hL h
      keepq [keep_validateArgs, keep_reflectCall this, keep_pushRet]
  · exact keep_throwQ
  · exact Go.Keep.pure

theorem keep_vcall : KeepS P (vcall L r U) := by
  unfold vcall callResult; keepq [keep_popArity, keep_vcallN hP hL]

theorem keep_marks : ∀ e ∈ marks L r U, EntryKeep P e.2 := by
  have hs : ∀ {x : QM F Unit}, KeepS P x → EntryKeep P (onStk x) := fun h _ => h
  have hi : ∀ {x : Nat → QM F Unit}, (∀ p, KeepS P (x p)) → EntryKeep P (onIpt x) := fun h _ => Go.Keep.bind Go.Keep.get fun _ => h _
  have he : ∀ {x : Nat → QM F Unit}, (∀ p, KeepS P (x p)) → EntryKeep P (onEng x) := fun h _ => Go.Keep.bind Go.Keep.get fun _ => h _
  have hc : ∀ {x : Nat → QM F Unit}, (∀ p, KeepS P (x p)) → EntryKeep P (onCtx x) := fun h _ => Go.Keep.bind Go.Keep.get fun _ => h _
  have ht : ∀ {x : Nat → Str → QM F Unit}, (∀ p s, KeepS P (x p s)) → EntryKeep P (onStr x) := by
    intro x h as; dsimp only; keepq [h]
  have hl : EntryKeep P (onLen : QEntry F) := by intro as; dsimp only; keepq
  have h1 : ∀ {f : QVal F → QRes F}, EntryKeep P (op1 f) := keep_fn1 fun _ => keep_liftE
  have h2 : ∀ {f : QVal F → QVal F → QRes F}, EntryKeep P (op2 f) := keep_fn2 fun _ _ => keep_liftE
  unfold marks
  simp only [List.forall_mem_cons]
  refine ⟨hl, hl, ?_, hs keep_index, ht fun _ _ => keep_push, hs keep_push, ?_, ?_, ht fun _ _ => keep_pushString, ht fun _ _ => keep_pushByte,
    ht fun _ _ => keep_memberRef, ht fun _ _ => keep_ref, hs keep_vslice, hs keep_vmap, hs (keep_vcall hP hL), ht fun _ _ => keep_assign,
    hi fun _ => keep_multiAssign, ht fun _ _ => keep_incDec, ht fun _ _ => keep_incDec, ht fun _ _ => keep_opAssign, ht fun _ _ => keep_opAssign,
    ht fun _ _ => keep_opAssign, ht fun _ _ => keep_opAssign, ht fun _ _ => keep_opAssign, hi fun _ => keep_defer, hi fun _ => keep_recover,
    he fun _ => keep_return hP, he fun _ => keep_function, he fun _ => keep_main hP, hi fun _ => keep_memberFuncDecl, he fun _ => keep_class,
    hs (keep_new hP), hi fun _ => keep_clear, hc fun _ => keep_if hP, he fun _ => keep_switch hP, he fun _ => keep_for hP,
    he fun _ => keep_and hP, he fun _ => keep_or hP, h1, h2, h2, h2, h2, h2, h2, h2, h2, h2, h2, h2, h1, nofun⟩
  all_goals
    intro as
    dsimp only
    keepq

theorem keep_action {mark g toks} : KeepS P ((client L r U).action mark g toks) := by
  have hm : ∀ params, KeepS P (markArgs L.fl.lits mark params toks g : QM F _) := by
    intro params
    unfold markArgs ctxValue litArg
    keepq
  have hp : ∀ e, (client L r U).table mark = some e → KeepS P ((client L r U).perform mark e toks g) := by
    intro e h
    have he := keep_marks hP hL (mark, e) (mem_of_lookup h)
    cases e with
    | recv ps ok body => exact Go.Keep.bind (hm ps) he
    | plain fn =>
      refine Go.Keep.bind (keep_doCall he) fun o => ?_
      keepq
    | _ => exact Go.Keep.pure
  unfold Client.action
  split
  · split
    · exact Go.Keep.modify fun _ _ h => h
    · split
      · exact Go.Keep.modify fun _ _ h => h
      · exact Go.Keep.pure
  · rename_i h
    refine Go.Keep.bind Go.Keep.get fun _ => ?_
    split
    · exact Go.Keep.pure
    · exact Go.Keep.recover (hp _ h) fun _ => Go.Keep.panic

theorem keep_sem : (client L r U).sem.Keep (Stays P) where
  act i f m _ _ _ s c hm e hs := (keep_action hP hL).run i f m s c hm e hs
  start _ _ _ h := h
  finish _ _ _ _ _ h := h
end

/-- The libraries of hosts have it. -/
theorem keep_host (H : Host F) : LibKeep P H.lib := by
  intro n fn vs h
  unfold Host.lib at h
  dsimp only at h
  cases hf : H.fns n with
  | none => rw [hf] at h; cases h
  | some f => rw [hf] at h; cases h; exact keep_liftH

end Tpl.Qlang
