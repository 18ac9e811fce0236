import Verif.Proof.Interp
import Verif.Props.Compiler

/-!
# Properties of the interpreter engine: C48 to C52
-/
namespace Tpl.Props
open Tpl Spec
variable {E X I τ F W T : Type} {env : Env Str} {c : Client E X I τ F W}

/-! ## C48 -/

theorem runs_iff (n : Int) (mark : Str) : Runs n mark ↔ muted n mark = false := by
  unfold Runs muted
  constructor
  · rintro (h | ⟨rfl, rest, rfl⟩)
    · have : ¬ n > 0 := by omega
      simp [this]
    · simp
  · intro h
    by_cases h1 : n > 0
    · simp only [h1, decide_true, Bool.true_and, Bool.or_eq_false_iff, bne_eq_false_iff_eq, decide_eq_false_iff_not] at h
      cases mark with
      | nil => simp at h
      | cons b rest =>
        simp only [List.head?_cons, Option.some.injEq] at h
        exact .inr ⟨by omega, rest, by rw [h.1]⟩
    · exact .inl (by omega)

/-- A mark of the function table is skipped if it may not run: nothing happens. -/
theorem C48_skipped {mark : Str} {e} (he : c.table mark = some e) {g : Gr Str} {src : List Token} {s s1 : St (Eng I τ)} {n}
    (h : Eval env c.sem g src s (.ok n s1)) (hr : ¬ Runs s1.u.mute mark) :
    Eval env c.sem (.action mark g) src s (.ok n s1) := by
  refine eval_action.mpr ⟨_, h, .inr ⟨eval_le h, .ok () s1, ⟨0, ?_⟩, rfl⟩⟩
  rw [runs_iff, Bool.not_eq_false] at hr
  show (c.action mark g (src.take n)).run _ _ s1 = _
  simp only [Client.action, he]
  rw [Go.bind_ok Go.run_get, if_pos hr]
  rfl

/-- Otherwise the function of the table runs, on the tokens matched: it decides how things
go on. -/
theorem C48_runs {mark : Str} {e} (he : c.table mark = some e) {g : Gr Str} {src : List Token} {s s1 : St (Eng I τ)} {n}
    (h : Eval env c.sem g src s (.ok n s1)) (hr : Runs s1.u.mute mark) {f : Nat} {u s2}
    (hp : (c.perform mark e (src.take n) g).run f (matchG env c.sem f) s1 = some (.ok u s2)) :
    Eval env c.sem (.action mark g) src s (.ok n s2) := by
  refine eval_action.mpr ⟨_, h, .inr ⟨eval_le h, .ok () s2, ⟨f, ?_⟩, rfl⟩⟩
  rw [runs_iff] at hr
  show (c.action mark g (src.take n)).run _ _ s1 = _
  simp only [Client.action, he]
  rw [Go.bind_ok Go.run_get, if_neg (by rw [hr]; nofun), Go.run_recover, hp]

/-- `_mute` adds one to the counter and `_unmute` takes one away, whatever it is. -/
theorem C48_counter {mark : Str} (he : c.table mark = none) {g : Gr Str} {src : List Token} {s s1 : St (Eng I τ)} {n}
    (h : Eval env c.sem g src s (.ok n s1)) :
    (mark = str "_mute" → Eval env c.sem (.action mark g) src s (.ok n { s1 with u := { s1.u with mute := s1.u.mute + 1 } })) ∧
    (mark = str "_unmute" → Eval env c.sem (.action mark g) src s (.ok n { s1 with u := { s1.u with mute := s1.u.mute - 1 } })) := by
  constructor
  · rintro rfl
    refine eval_action.mpr ⟨_, h, .inr ⟨eval_le h, .ok () _, ⟨0, ?_⟩, rfl⟩⟩
    show (c.action _ g (src.take n)).run _ _ s1 = _
    simp only [Client.action, he]
    rfl
  · rintro rfl
    refine eval_action.mpr ⟨_, h, .inr ⟨eval_le h, .ok () _, ⟨0, ?_⟩, rfl⟩⟩
    show (c.action _ g (src.take n)).run _ _ s1 = _
    simp only [Client.action, he]
    rfl

/-- An engine whose functions write down their mark and tokens, for the marks `known`. -/
def recorder (known : Str → Bool) : Client Empty Empty Unit (List (Str × List Token)) Unit Unit where
  table mark := if known mark then
      some (.recv [.intf] true fun args => Go.modify fun s => { s with u := s.u ++ [(mark, match args with
        | [.src toks] => toks
        | _ => [])] })
    else none
  stack := ⟨fun _ => pure none, fun _ => pure none⟩
  callFn := none
  lits := ⟨fun _ => (), fun _ => none⟩
  refl := ⟨fun _ => ⟨0, 0⟩, fun _ _ => true, fun _ => (), fun _ => ()⟩

/-- The recorder as callbacks on a state. -/
def recorderCalls (known : Str → Bool) : Calls Str (Eng Unit (List (Str × List Token))) Unit (IPanic Empty Empty) where
  act mark _ toks _ u := .ok <|
    if known mark then if muted u.mute mark then u else { u with u := u.u ++ [(mark, toks)] }
    else if mark = str "_mute" then { u with mute := u.mute + 1 }
    else if mark = str "_unmute" then { u with mute := u.mute - 1 }
    else u
  start _ u := .ok ((), u)
  finish _ _ _ u := .ok u

theorem recorder_sem {known : Str → Bool} (hk : ∀ mark, known mark = true → isLenMark mark = false) :
    (recorder known).sem = (recorderCalls known).sem := by
  apply Sem.ext'
  · funext f m mark g toks s
    show ((recorder known).action mark g toks).run f m s = _
    simp only [Calls.sem, Client.action, recorder, recorderCalls]
    by_cases h : known mark = true
    · rw [if_pos h, if_pos h]
      dsimp only
      rw [Go.bind_ok Go.run_get]
      by_cases hm : muted s.u.mute mark = true
      · rw [if_pos hm, if_pos hm]; rfl
      · rw [if_neg hm, if_neg hm, Go.run_recover]
        simp only [Client.perform, markArgs, hk mark h]
        rfl
    · rw [if_neg h, if_neg h]
      dsimp only
      by_cases h1 : mark = str "_mute"
      · rw [if_pos h1, if_pos h1]; rfl
      · rw [if_neg h1, if_neg h1]
        by_cases h2 : mark = str "_unmute"
        · rw [if_pos h2, if_pos h2]; rfl
        · rw [if_neg h2, if_neg h2]; rfl
  · rfl
  · rfl

/-- All marks of a trace are known. -/
def allKnown (known : Str → Bool) (evs : List (Ev Str)) : Prop :=
  ∀ e ∈ marks evs, known e.1 = true ∨ e.1 = str "_mute" ∨ e.1 = str "_unmute"

theorem counter_cons (n : Int) (e : Str × List Token) (es : List (Str × List Token)) :
    counter n (e :: es) = counter (if e.1 = str "_mute" then n + 1 else if e.1 = str "_unmute" then n - 1 else n) es := by
  unfold counter
  by_cases h1 : e.1 = str "_mute"
  · have h2 : ¬ e.1 = str "_unmute" := by rw [h1]; decide
    rw [List.filter_cons_of_pos (by simpa using h1), List.filter_cons_of_neg (by simpa using h2), if_pos h1, List.length_cons]
    omega
  · by_cases h2 : e.1 = str "_unmute"
    · rw [List.filter_cons_of_neg (by simpa using h1), List.filter_cons_of_pos (by simpa using h2), if_neg h1, if_pos h2,
        List.length_cons]
      omega
    · rw [List.filter_cons_of_neg (by simpa using h1), List.filter_cons_of_neg (by simpa using h2), if_neg h1, if_neg h2]

theorem recorder_run {known : Str → Bool} (hn : known (str "_mute") = false ∧ known (str "_unmute") = false) :
    ∀ (evs : List (Ev Str)), allKnown known evs → ∀ u vs r, (recorderCalls known).run evs (u, vs) = .ok r →
      r.1.u = u.u ++ effective u.mute (marks evs) ∧ r.1.mute = counter u.mute (marks evs) := by
  intro evs
  induction evs with
  | nil =>
    intro _ u vs r h
    cases h
    simp [marks, effective, counter]
  | cons e evs ih =>
    intro hk u vs r h
    cases e with
    | opens t =>
      simp only [Calls.run, Calls.step, recorderCalls] at h
      exact ih hk u _ r h
    | closes t fl =>
      simp only [Calls.run, Calls.step] at h
      cases vs with
      | nil => exact ih hk u _ r h
      | cons v vs => exact ih hk u _ r h
    | act mark g toks l =>
      have hk' : allKnown known evs := fun e he => hk e (.tail _ he)
      have hm : known mark = true ∨ mark = str "_mute" ∨ mark = str "_unmute" := hk (mark, toks) (.head _)
      simp only [Calls.run, Calls.step, recorderCalls] at h
      simp only [marks, effective]
      rw [counter_cons]
      dsimp only
      by_cases h1 : mark = str "_mute"
      · subst h1
        rw [hn.1] at h
        rw [if_pos rfl, if_pos rfl]
        exact ih hk' { u with mute := u.mute + 1 } _ r h
      · by_cases h2 : mark = str "_unmute"
        · subst h2
          rw [hn.2] at h
          rw [if_neg h1, if_neg h1, if_pos rfl, if_pos rfl]
          exact ih hk' { u with mute := u.mute - 1 } _ r h
        · have hkn : known mark = true := by
            rcases hm with hm | hm | hm
            · exact hm
            · exact absurd hm h1
            · exact absurd hm h2
          rw [if_neg h1, if_neg h1, if_neg h2, if_neg h2]
          rw [if_pos hkn] at h
          by_cases hmu : muted u.mute mark = true
          · rw [if_pos hmu] at h
            rw [if_neg (fun hr => by rw [runs_iff, hmu] at hr; cases hr)]
            exact ih hk' u _ r h
          · rw [if_neg hmu] at h
            rw [if_pos ((runs_iff _ _).mpr (by simpa using hmu))]
            have := ih hk' { u with u := u.u ++ [(mark, toks)] } _ r h
            rw [this.1, this.2]
            simp

/-- The whole history: if a match takes the marks `marks evs`, one after the other, the
functions that run are those the counter admits, and the counter is the number of `_mute`
minus that of `_unmute`. -/
theorem C48_history {known : Str → Bool} (hk : ∀ mark, known mark = true → isLenMark mark = false)
    (hn : known (str "_mute") = false ∧ known (str "_unmute") = false) {g : Gr Str} {src : List Token} {s s'} {n}
    (h : Eval env (recorder known).sem g src s (.ok n s')) :
    ∃ l evs, Tr env (.one g) src (.succ n l) evs ∧ (allKnown known evs →
      s'.u.u = s.u.u ++ effective s.u.mute (marks evs) ∧ s'.u.mute = counter s.u.mute (marks evs)) := by
  rw [recorder_sem hk] at h
  obtain ⟨o, evs, ht, he⟩ := C34_effect h
  dsimp only at he
  obtain ⟨rfl, hr⟩ := he
  refine ⟨_, evs, ht, fun ha => ?_⟩
  exact recorder_run hn evs ha s.u [] _ (hr [])

/-- `a/_mute b/f c/_g d/_unmute e/f`: only `_g` and the last `f` take effect. -/
example : effective 0 [(str "_mute", []), (str "f", []), (str "_g", []), (str "_mute", []), (str "_g", []), (str "_unmute", []),
    (str "_unmute", []), (str "f", [])] = [(str "_g", []), (str "f", [])] := by decide +kernel

def recorded (src : List Token) : Option (List (Str × List Token) × Int) :=
  match matchG (fun _ => none) (recorder fun m => m = str "f" ∨ m = str "_g").sem 20
    (.and [.action (str "_mute") (.tok IDENT), .action (str "f") (.tok INT), .action (str "_g") (.tok INT),
      .action (str "_unmute") (.tok IDENT), .action (str "f") (.tok INT)]) src ⟨fun _ => 0, ⟨0, (), KwScanner.zero, []⟩⟩ with
  | some (.ok _ s) => some (s.u.u, s.u.mute)
  | _ => none

example : recorded [⟨IDENT, 0, str "a"⟩, ⟨INT, 1, str "1"⟩, ⟨INT, 2, str "2"⟩, ⟨IDENT, 3, str "b"⟩, ⟨INT, 4, str "3"⟩] =
    some ([(str "_g", [⟨INT, 2, str "2"⟩]), (str "f", [⟨INT, 4, str "3"⟩])], 0) := by decide +kernel

/-- A match of the engine starts with the counter at 0, whatever an earlier match left
behind. -/
theorem C48_starts_at_zero (c : Client E X I τ F W) (r : CompileRet Str) (hr : r.root ≠ .nil) (U : Uni) (src : Str)
    (s s' : St (Eng I τ)) (hk : KwScanner.Steps U KwScanner.zero s.u.scanner) :
    (∃ fuel, c.eval r U fuel src s = some (.ok () s')) ↔
      ∃ toks eof, Tokenizes U s.u.scanner src r.mode toks eof ∧
        Eval r.env c.sem r.root toks
          { s with u := { s.u with mute := 0, scanner := (s.u.scanner.tokenize U src r.mode).2 } } (.ok toks.length s') := by
  have := C37_matchExactly ⟨r.root, r.mode, engInit (s.u.scanner.tokenize U src r.mode).2, r.env, c.sem⟩ hr hk src s s'
  refine Iff.trans this ?_
  constructor
  · rintro ⟨ts, eof, s1, h1, h2, h3⟩
    cases h2
    exact ⟨ts, eof, h1, h3⟩
  · rintro ⟨ts, eof, h1, h3⟩
    exact ⟨ts, eof, _, h1, rfl, h3⟩

/-- So does `EvalSub` on tokens. -/
theorem C48_sub_starts_at_zero (c : Client E X I τ F W) (r : CompileRet Str) (U : Uni) (name : Str) (doc : List Token)
    (s s' : St (Eng I τ)) :
    (∃ f, (engSub (E := E) (X := X) r U name (.tokens doc)).run f (matchG r.env c.sem f) s = some (.ok none s')) ↔
      ∃ g, r.tab.grammars.lookup name = some g ∧
        Eval r.env c.sem g doc { s with u := { s.u with mute := 0 } } (.ok doc.length s') := by
  unfold engSub
  cases hl : r.tab.grammars.lookup name with
  | none =>
    constructor
    · rintro ⟨f, h⟩; cases h
    · rintro ⟨g, h, _⟩; cases h
  | some g =>
    dsimp only
    constructor
    · rintro ⟨f, h⟩
      rw [Go.bind_ok (Go.run_modify _), Go.run_bind, Go.run_match] at h
      refine ⟨g, rfl, f, ?_⟩
      cases hm : matchG r.env c.sem f g doc { s with u := s.u.reset } with
      | none => rw [hm] at h; cases h
      | some x =>
        rw [hm] at h
        cases x with
        | panic p s2 => cases h
        | fail n e s2 => cases h
        | ok n s2 =>
          dsimp only at h
          by_cases hn : doc.length = n
          · rw [if_neg (by omega)] at h
            cases h
            rw [hn]
            exact hm
          · rw [if_pos hn] at h
            cases h
    · rintro ⟨g', h, f, hm⟩
      cases h
      refine ⟨f, ?_⟩
      rw [Go.bind_ok (Go.run_modify _), Go.run_bind, Go.run_match]
      have hm : matchG r.env c.sem f g doc { s with u := s.u.reset } = _ := hm
      rw [hm]
      dsimp only
      rw [if_neg (by omega)]
      rfl

/-- The grammar `doc = IDENT/f`. -/
def subRet : CompileRet Str := ⟨.tok IDENT, ⟨[(str "doc", .action (str "f") (.tok IDENT))], [], 0, KwScanner.zero⟩, plain⟩

def subLog (src : SubSrc) (mute : Int) : Option (List (Str × List Token)) :=
  match (engSub (E := Empty) (X := Empty) subRet ascii (str "doc") src).run 5
      (matchG (fun _ => none) (recorder (· = str "f")).sem 5) ⟨fun _ => 0, ⟨mute, (), KwScanner.zero, []⟩⟩ with
  | some (.ok none s) => some s.u.u
  | _ => none

/-- C48 fails for `EvalSub` on a text: the counter is not reset, and a counter of 1 left by
an earlier match keeps `f` from running. -/
theorem C48_violated : subLog (.text (str "x")) 1 = some [] ∧
    subLog (.text (str "x")) 0 = some [(str "f", [⟨IDENT, 0, str "x"⟩])] ∧
    subLog (.tokens [⟨IDENT, 0, str "x"⟩]) 1 = some [(str "f", [⟨IDENT, 0, str "x"⟩])] := by decide +kernel

/-! ## C49 -/

/-- C49: however `EvalCode` ends, the interpreter and the counter are those from before.
(`m` is any matcher: the claim does not depend on what the grammars do.) -/
theorem C49_restores (r : CompileRet Str) (U : Uni) (fn : I) (name : Str) (src : SubSrc) (f : Nat) (m : Mat Str (Eng I τ) (IPanic E X))
    (s : St (Eng I τ)) {o} (h : (evalCode r U fn name src).run f m s = some o) :
    o.st.u.ipt = s.u.ipt ∧ o.st.u.mute = s.u.mute := by
  unfold evalCode at h
  rw [Go.bind_ok Go.run_get, Go.bind_ok (Go.run_modify _), Go.run_deferred] at h
  split at h
  · cases h
  · injection h with h; subst h; exact ⟨rfl, rfl⟩
  · injection h with h; subst h; exact ⟨rfl, rfl⟩

/-- In between the code runs with the interpreter `fn`, and its outcome is returned. -/
theorem C49_outcome (r : CompileRet Str) (U : Uni) (fn : I) (name : Str) (src : SubSrc) (f : Nat) (m : Mat Str (Eng I τ) (IPanic E X))
    (s : St (Eng I τ)) :
    (evalCode r U fn name src).run f m s =
      match (engSub r U name src).run f m { s with u := { s.u with ipt := fn } } with
      | none => none
      | some (.ok e s') => some (.ok e { s' with u := { s'.u with ipt := s.u.ipt, mute := s.u.mute } })
      | some (.panic p s') => some (.panic p { s' with u := { s'.u with ipt := s.u.ipt, mute := s.u.mute } }) := by
  unfold evalCode
  rw [Go.bind_ok Go.run_get, Go.bind_ok (Go.run_modify _), Go.run_deferred]
  split <;> rename_i h <;> rw [h] <;> rfl

/-- An engine whose `f` panics: the interpreter is 1 again. -/
def panicking : Client Nat Empty Nat Unit Unit Unit where
  table mark := if mark = str "f" then some (.recv [] true fun _ => do
      Go.modify fun s => { s with mute := 7 }
      Go.panic (.user (.err (← Go.get).ipt))) else none
  stack := ⟨fun _ => pure none, fun _ => pure none⟩
  callFn := none
  lits := ⟨fun _ => (), fun _ => none⟩
  refl := ⟨fun _ => ⟨0, 0⟩, fun _ _ => true, fun _ => (), fun _ => ()⟩

def panicState : Option (Nat × Int × Option Nat) :=
  match (evalCode subRet ascii 2 (str "doc") (.tokens [⟨IDENT, 0, str "x"⟩])).run 5 (matchG (fun _ => none) panicking.sem 5)
      ⟨fun _ => 0, ⟨3, 1, KwScanner.zero, ()⟩⟩ with
  | some (.panic p s) => some (s.u.ipt, s.u.mute, match p with
    | .user (.runtime _ _ (.err e)) => some e
    | _ => none)
  | _ => none

example : panicState = some (1, 3, some 2) := by decide +kernel

/-! ## C50 -/

/-- C50: `ParseInt` of an INT token of a text without errors is its value, or an error from
2^63 on. -/
theorem C50_value {U : Uni} {s0 : Scanner} {src : Str} {mode : Mode} {ts : List Token} {s' : Scanner}
    (h : Run U (Scanner.init s0 src mode) ts s') (he : s'.errs = []) {t : Token} (ht : t ∈ ts) (hk : t.kind = INT) :
    ParseInt t.lit = .ok (if intValue t.lit < 2 ^ 63 then .ok (intValue t.lit) else .error .range) := by
  obtain ⟨x, r, s1, s2, h1, h2, _⟩ := run_mem h true (fun _ => he) ht
  cases h2 with
  | int a => exact parseInt_text a
  | op hop => dsimp only at hk; subst hk; exact absurd (by simp only []; decide) (Scanner.operators_ne _ hop).2.2.2.2
  | _ => simp only [] at hk; first | exact absurd hk (by decide) | (injection hk with hk; cases hk)

/-- C50, for any text: an INT token is a numeral, or one of the malformed ones the scanner
reports; for those `ParseInt` returns an error. -/
theorem C50_all {U : Uni} {s0 : Scanner} {src : Str} {mode : Mode} {ts : List Token} {s' : Scanner}
    (h : Run U (Scanner.init s0 src mode) ts s') {t : Token} (ht : t ∈ ts) (hk : t.kind = INT) :
    ParseInt t.lit = .ok (if intValue t.lit < 2 ^ 63 then .ok (intValue t.lit) else .error .range) ∨
    (Malformed t.lit ∧ ParseInt t.lit = .ok (.error .syntax_)) := by
  obtain ⟨r, _, hi⟩ := C13_int_maximal U s0 s' src mode ts h t ht hk
  by_cases ht : IntText true t.lit r
  · exact .inl (parseInt_text ht)
  · exact .inr ⟨intText_malformed hi ht, parseInt_malformed (intText_malformed hi ht)⟩

example : ParseInt (str "0x7fffffffffffffff") = .ok (.ok (2 ^ 63 - 1)) ∧ ParseInt (str "9223372036854775808") = .ok (.error .range) ∧
    ParseInt (str "0755") = .ok (.ok 493) ∧ ParseInt (str "0") = .ok (.ok 0) := by decide +kernel

/-- `08` is an INT token the scanner reports. -/
example : ParseInt (str "08") = .ok (.error .syntax_) ∧ Malformed (str "08") :=
  ⟨by decide +kernel, .inr (.inr ⟨str "8", rfl, by simp only [IsDec]; decide +kernel, 56, by decide +kernel, by simp only [IsOct]; decide +kernel⟩)⟩

/-! ## C51 -/

section
variable {R : Reflect W} {f : Nat} {m : Mat Str (Eng I τ) (IPanic E X)}

/-- C51: with the right number of arguments on the stack, all of which pass, the function
gets them in the order they were pushed; it runs on the stack without them, and its
results are pushed. -/
theorem C51_call (k : SliceStack τ T W E) (fn : GoFn (Go Str (Eng I τ) (IPanic E X)) W) {rest args : List T} {ws : List W}
    {s : St (Eng I τ)} (hs : k.get s.u.u = rest ++ args) (ha : Accepts fn args.length)
    (hp : PassAll R (paramTypes fn args.length) (args.map k.view) ws) (hc : CanPass R (paramTypes fn args.length) ws)
    {outs : List W} {s2 : St (Eng I τ)} {vs : List T}
    (hb : (fn.body ws).run f m { s with u := { s.u with u := k.set rest s.u.u } } = some (.ok outs s2))
    (hv : outs.map k.conv = vs.map .ok) :
    (call R k.iface fn args.length).run f m s =
      some (.ok none { s2 with u := { s2.u with u := k.set (k.get s2.u.u ++ vs) s2.u.u } }) := by
  rw [call_accepts ha, doCall_run k fn hs hp hc]
  exact (Go.bind_ok hb).trans (by rw [Go.bind_ok (push_run k hv _)]; rfl)

/-- So a function that leaves the stack alone replaces its arguments by its results. -/
theorem C51_stack (k : SliceStack τ T W E) (fn : GoFn (Go Str (Eng I τ) (IPanic E X)) W) {rest args : List T} {ws : List W}
    {s : St (Eng I τ)} (hs : k.get s.u.u = rest ++ args) (ha : Accepts fn args.length)
    (hp : PassAll R (paramTypes fn args.length) (args.map k.view) ws) (hc : CanPass R (paramTypes fn args.length) ws)
    {outs : List W} {s2 : St (Eng I τ)} {vs : List T}
    (hb : (fn.body ws).run f m { s with u := { s.u with u := k.set rest s.u.u } } = some (.ok outs s2))
    (hl : k.get s2.u.u = rest) (hv : outs.map k.conv = vs.map .ok) :
    ∃ s3, (call R k.iface fn args.length).run f m s = some (.ok none s3) ∧ k.get s3.u.u = rest ++ vs := by
  refine ⟨_, C51_call k fn hs ha hp hc hb hv, ?_⟩
  rw [hl]
  exact k.get_set _ _

/-- A wrong number of arguments is an error, and nothing is changed. -/
theorem C51_count (k : SliceStack τ T W E) (fn : GoFn (Go Str (Eng I τ) (IPanic E X)) W) {arity : Int} (ha : ¬ Accepts fn arity)
    (s : St (Eng I τ)) :
    ∃ e, (e = .notEnough ∨ e = .count fn.ins.length arity) ∧ (call R k.iface fn arity).run f m s = some (.ok (some e) s) := by
  unfold call
  unfold Accepts at ha
  dsimp only
  cases hr : fn.rest with
  | none =>
    rw [hr] at ha
    dsimp only at ha ⊢
    exact ⟨_, .inr rfl, by rw [if_pos ha]; rfl⟩
  | some t =>
    rw [hr] at ha
    dsimp only at ha ⊢
    exact ⟨_, .inl rfl, by rw [if_pos (by omega)]; rfl⟩

/-- With less values on the stack than announced the call is an error too, and nothing is
changed. -/
theorem C51_damaged (k : SliceStack τ T W E) (fn : GoFn (Go Str (Eng I τ) (IPanic E X)) W) {n : Nat} (ha : Accepts fn n)
    {s : St (Eng I τ)} (hs : (k.get s.u.u).length < n) :
    (call R k.iface fn n).run f m s = some (.ok (some .damaged) s) := by
  rw [call_accepts ha]
  unfold doCall
  dsimp only
  rw [if_pos (by omega)]
  simp only [SliceStack.iface]
  rw [Go.run_bind, Go.bind_ok Go.run_get, if_neg (by omega)]
  rfl

/-- An argument that does not pass is an error: the arguments are gone, the function is not
called. -/
theorem C51_type (k : SliceStack τ T W E) (fn : GoFn (Go Str (Eng I τ) (IPanic E X)) W) {rest args : List T}
    {s : St (Eng I τ)} (hs : k.get s.u.u = rest ++ args) (ha : Accepts fn args.length)
    (hp : ∃ p ∈ (paramTypes fn args.length).zip (args.map k.view), ∀ w, ¬ Passes R p.1 p.2 w) :
    ∃ t ty, (call R k.iface fn args.length).run f m s =
      some (.ok (some (.type_ t ty)) { s with u := { s.u with u := k.set rest s.u.u } }) := by
  have hl : (paramTypes fn args.length).length = args.length := accepts_length ha
  obtain ⟨t, ty, hv⟩ := validateArgs_bad (E := E) (X := X) (I := I) (τ := τ) (fn := fn) (vs := args.map k.view) (R := R)
    (by rw [List.length_map]; exact hl.symm) (by rw [List.length_map]; exact hp)
  refine ⟨t, ty, ?_⟩
  rw [call_accepts ha]
  unfold doCall
  have h0 : args.length > 0 := by
    cases args with
    | nil => obtain ⟨p, hp, _⟩ := hp; simp at hp
    | cons => simp
  dsimp only
  rw [if_pos h0, Go.bind_ok (popArgs_run k hs)]
  dsimp only
  rw [hv, pure_bind]
  rfl

/-- A panic of the function passes. -/
theorem C51_panic (k : SliceStack τ T W E) (fn : GoFn (Go Str (Eng I τ) (IPanic E X)) W) {rest args : List T} {ws : List W}
    {s : St (Eng I τ)} (hs : k.get s.u.u = rest ++ args) (ha : Accepts fn args.length)
    (hp : PassAll R (paramTypes fn args.length) (args.map k.view) ws) (hc : CanPass R (paramTypes fn args.length) ws)
    {p} {s2 : St (Eng I τ)}
    (hb : (fn.body ws).run f m { s with u := { s.u with u := k.set rest s.u.u } } = some (.panic p s2)) :
    (call R k.iface fn args.length).run f m s = some (.panic p s2) := by
  rw [call_accepts ha, doCall_run k fn hs hp hc]
  exact Go.bind_panic hb
end

/-- A stack of numbers, all of the type float64. -/
def natStack : SliceStack (List Nat) Nat Nat Unit where
  get u := u
  set l _ := l
  view v := v
  conv w := .ok w
  get_set _ _ := rfl
  set_get _ := rfl
  set_set _ _ _ := rfl

def natRefl : Reflect Nat := ⟨fun _ => GoTy.float64, fun _ t => t = GoTy.float64, fun _ => 0, id⟩

/-- `func(a float64, rest ...float64) float64` -/
def natFn : GoFn (Go Str (Eng Unit (List Nat)) (IPanic Unit Empty)) Nat :=
  ⟨[GoTy.float64], some GoTy.float64, fun ws => pure [ws.foldl (fun a b => 10 * a + b) 0]⟩

def natCall (arity : Int) : Option (Option (CallErr Unit) × List Nat) :=
  match (call natRefl natStack.iface natFn arity).run 0 (fun _ _ _ => none) ⟨fun _ => 0, ⟨0, (), KwScanner.zero, [1, 2, 3, 4]⟩⟩ with
  | some (.ok e s) => some (e, s.u.u)
  | _ => none

example : (natCall 3).map (·.2) = some [1, 234] ∧ (natCall 5).map (·.2) = some [1, 2, 3, 4] ∧
    (natCall 0).map (·.2) = some [1, 2, 3, 4] := by decide +kernel

example : Accepts natFn 3 ∧ ¬ Accepts natFn 0 ∧ PassAll natRefl (paramTypes natFn 3) [2, 3, 4] [2, 3, 4] ∧
    CanPass natRefl (paramTypes natFn 3) [2, 3, 4] :=
  ⟨by simp [Accepts, natFn], by simp [Accepts, natFn], .cons (.same rfl) (.cons (.same rfl) (.cons (.same rfl) .nil)), by
    unfold CanPass; decide +kernel⟩

/-! ## C52 -/

/-- C52: a function of the table that runs and panics makes the match panic: with a
RuntimeError that carries the tokens and the grammar of the mark, or with the same value
if it is one that passes. -/
theorem C52_wraps {mark : Str} {e} (he : c.table mark = some e) {g : Gr Str} {src : List Token} {s s1 s2 : St (Eng I τ)} {n}
    (h : Eval env c.sem g src s (.ok n s1)) (hr : Runs s1.u.mute mark) {f : Nat} {p}
    (hp : (c.perform mark e (src.take n) g).run f (matchG env c.sem f) s1 = some (.panic p s2)) :
    (∀ cause, Causes p cause → Eval env c.sem (.action mark g) src s (.panic (.user (.runtime g (src.take n) cause)) s2)) ∧
    (PassesThrough p → Eval env c.sem (.action mark g) src s (.panic p s2)) := by
  have key : Eval env c.sem (.action mark g) src s (.panic (rewrap g (src.take n) p) s2) := by
    refine eval_action.mpr ⟨_, h, .inr ⟨eval_le h, .panic (rewrap g (src.take n) p) s2, ⟨f, ?_⟩, rfl⟩⟩
    rw [runs_iff] at hr
    show (c.action mark g (src.take n)).run _ _ s1 = _
    simp only [Client.action, he]
    rw [Go.bind_ok Go.run_get, if_neg (by rw [hr]; nofun), Go.run_recover, hp]
    rfl
  constructor
  · intro cause hc
    cases hc <;> exact key
  · intro hc
    cases hc <;> exact key

/-- Every panic is of one of these kinds. -/
theorem C52_cases (p : Panic Str (IPanic E X)) : PassesThrough p ∨ ∃ cause, Causes p cause := by
  match p with
  | .err (.mismatch g src e i) => exact .inl (.mismatch g src e i)
  | .err .varNotAssigned => exact .inr ⟨_, .varNotAssigned⟩
  | .nilDeref => exact .inr ⟨_, .nilDeref⟩
  | .slice => exact .inr ⟨_, .slice⟩
  | .user (.str m) => exact .inr ⟨_, .str m⟩
  | .user (.err e) => exact .inr ⟨_, .err e⟩
  | .user .value => exact .inr ⟨_, .value⟩
  | .user (.runtime g src e) => exact .inl (.runtime g src e)
  | .user (.other x) => exact .inl (.other x)

theorem action_panics {mark : Str} {g : Gr Str} {toks : List Token} {f m} {s s' : St (Eng I τ)} {p}
    (h : (c.action mark g toks).run f m s = some (.panic p s')) :
    ∃ e q, c.table mark = some e ∧ (c.perform mark e toks g).run f m s = some (.panic q s') ∧ p = rewrap g toks q := by
  unfold Client.action at h
  cases he : c.table mark with
  | none =>
    rw [he] at h
    dsimp only at h
    split at h
    · cases h
    · split at h <;> cases h
  | some e =>
    rw [he] at h
    dsimp only at h
    rw [Go.bind_ok Go.run_get] at h
    split at h
    · cases h
    · rw [Go.run_recover] at h
      split at h
      · cases h
      · rename_i q s2 hq
        cases h
        exact ⟨e, q, rfl, hq, rfl⟩
      · cases h

/-- C52: whatever the functions of the table do, a panic that leaves a match is a
RuntimeError, a MatchError, a value that is neither an error nor a string, or the nil
dereference of a grammar that was not set. -/
theorem C52_only {g : Gr Str} {src : List Token} {s s' : St (Eng I τ)} {p} (h : Eval env c.sem g src s (.panic p s')) :
    PassesThrough p ∨ p = .nilDeref := by
  have K : Keeping env c.sem (fun _ _ => True) (fun p => PassesThrough p ∨ p = .nilDeref) := {
    refl := fun _ => trivial
    trans := fun _ _ => trivial
    setLen := fun _ _ _ => trivial
    cut := fun g src e i => .inl (.mismatch g src e i)
    nilDeref := .inr rfl
    act := by
      intro f hf a g src n s0 s r h1 h2 h3
      refine ⟨trivial, ?_⟩
      rintro p s' rfl
      obtain ⟨e, q, _, _, rfl⟩ := action_panics h3
      left
      rcases C52_cases q with hq | ⟨cause, hq⟩
      · cases hq with
        | runtime => exact .runtime ..
        | mismatch => exact .mismatch ..
        | other => exact .other ..
      · cases hq <;> exact .runtime ..
    start := fun a s => ⟨trivial, by intro p s' h; cases h⟩
    finish := fun a v e s => ⟨trivial, by intro p s' h; cases h⟩ }
  exact (Eval.kept K h).2 p s' rfl

/-- C52: the RuntimeError comes from a mark: its tokens are those its grammar matched.
(Provided that the functions of the table do not make RuntimeErrors of their own; those
of matches they start are no problem.) -/
theorem C52_tokens {Q : Gr Str → List Token → Prop}
    (hQ : Q = fun g toks => ∃ (src : List Token) (n : Nat) (s s' : St (Eng I τ)), Eval env c.sem g src s (.ok n s') ∧ toks = src.take n)
    (hc : ∀ mark e, c.table mark = some e → ∀ f m, Mat.Keeps (fun _ _ => True)
        (fun p => ∀ g toks cause, p = .user (.runtime g toks cause) → Q g toks) m →
      ∀ toks g s s' g' toks' cause, (c.perform mark e toks g).run f m s = some (.panic (.user (.runtime g' toks' cause)) s') → Q g' toks')
    {g : Gr Str} {src : List Token} {s s' : St (Eng I τ)} {g' toks cause}
    (h : Eval env c.sem g src s (.panic (.user (.runtime g' toks cause)) s')) : Q g' toks := by
  have K : Keeping env c.sem (fun _ _ => True) (fun p => ∀ g toks cause, p = .user (.runtime g toks cause) → Q g toks) := {
    refl := fun _ => trivial
    trans := fun _ _ => trivial
    setLen := fun _ _ _ => trivial
    cut := fun g src e i g' t c h => by cases h
    nilDeref := fun g' t c h => by cases h
    act := by
      intro f hf a g src n s0 s r h1 h2 h3
      refine ⟨trivial, ?_⟩
      rintro p s' rfl g1 toks1 cause1 rfl
      obtain ⟨e, q, he, hp, hq⟩ := action_panics h3
      have hown : Q g (src.take n) := by
        rw [hQ]
        exact ⟨src, n, s0, s, ⟨f, h1⟩, rfl⟩
      match q, hq, hp with
      | .user (.runtime g2 t2 c2), hq, hp =>
        injection hq with hq
        injection hq with h1 h2 h3
        subst h1 h2 h3
        exact hc a e he f _ hf _ _ _ _ _ _ _ hp
      | .err (.mismatch _ _ _ _), hq, _ => cases hq
      | .err .varNotAssigned, hq, _ => cases hq; exact hown
      | .nilDeref, hq, _ => cases hq; exact hown
      | .slice, hq, _ => cases hq; exact hown
      | .user (.str _), hq, _ => cases hq; exact hown
      | .user (.err _), hq, _ => cases hq; exact hown
      | .user .value, hq, _ => cases hq; exact hown
      | .user (.other _), hq, _ => cases hq
    start := fun a s => ⟨trivial, by intro p s' h; cases h⟩
    finish := fun a v e s => ⟨trivial, by intro p s' h; cases h⟩ }
  exact (Eval.kept K h).2 _ s' rfl g' toks cause rfl

/-- In `x/f f` of `((IDENT/f) IDENT)/f` the inner mark is the one reported, once. -/
def panicTokens : Option (List Token) :=
  match matchG (fun _ => none) panicking.sem 8 (.action (str "f") (.and [.tok INT, .action (str "f") (.tok IDENT)]))
      [⟨INT, 0, str "1"⟩, ⟨IDENT, 1, str "x"⟩] ⟨fun _ => 0, ⟨0, 1, KwScanner.zero, ()⟩⟩ with
  | some (.panic (.user (.runtime _ toks _)) _) => some toks
  | _ => none

example : panicTokens = some [⟨IDENT, 1, str "x"⟩] := by decide +kernel

end Tpl.Props
