import Verif.Props.QlangEnds

/-
`return` ends the function it stands in, and no other (C137).
-/
namespace Tpl.Props
open Tpl Tpl.Spec Tpl.Qlang Tpl.Qlang.Src Scanner
variable {F : Type} {U : Uni} {mode : Mode} {fuel : Nat} {ret : CompileRet Str}

/-! ### What holds -/

/-- The body has ended by itself, or with `return`. -/
inductive BodyLeft : Except (QPanic F) (QVal F) → Prop where
  | ended (v) : BodyLeft (.ok v)
  | returned (g ts) : BodyLeft (.error (.user (.runtime g ts (.err .return_))))

/-- The punctuation of `fn() { body }()`. -/
structure Marks where
  kw : Tk kFn
  lp : Tk LPAREN
  rp : Tk RPAREN
  lb : Tk LBRACE
  rb : Tk RBRACE
  lp' : Tk LPAREN
  rp' : Tk RPAREN

/-- `fn() { body }()`, followed by more statements. -/
def callOf (t : Marks) (body : Tm .doc) (more : Tm .docTail) : Tm .doc :=
  .doc (.eval (one (.post (.fn t.kw (.fnBody t.lp none none t.rp t.lb (.someDoc body) t.rb))
    (.atom (.call t.lp' .noArgs none none t.rp') .noAtom)))) more

/-- What the body of `fn() { body }()` begins with: a new frame, inside of the program itself,
without variables and with nothing deferred. (The function itself has a new address.) -/
def callBegun (w : World F) : World F where
  frames := fun i => if i = w.count then ⟨fun _ => none, .nil, none, 0 :: (w.frames 0).parents, []⟩ else w.frames i
  count := w.count + 1
  heap := (HM.alloc w.heap).2

/-- The frame of a call that is over. -/
def over (w : World F) (c : Nat) : World F := w.change c fun f => { f with recov := none, defers := [] }

theorem change_change (w : World F) (p : Nat) (f g : Frame F → Frame F) : (w.change p f).change p g = w.change p fun x => g (f x) := by
  unfold World.change
  congr 1
  funext i
  dsimp only
  split <;> simp

theorem finish_ok {R : Runs F} {c : Nat} {w w2 : World F} (h1 : runDefers R c (w.change c fun f => { f with recov := none }) = some (.ok (), w2))
    (hr : (w2.frames c).recov = none) : finish R c none w = some (.ok (w2.frames c).ret, w2) := by
  have e : finish R c none w = (runDefers R c >>= fun _ => _) (w.change c fun f => { f with recov := none }) := rfl
  rw [e, bind_run, h1]
  change (match (w2.frames c).recov with
    | some p => raise p
    | none => (frame c >>= fun f => pure f.ret : Prog F (QVal F))) w2 = _
  rw [hr]
  rfl

theorem finish_none {R : Runs F} {c : Nat} {w : World F} (h0 : (w.frames c).defers = []) : finish R c none w = some (.ok (w.frames c).ret, over w c) := by
  have h1 : runDefers R c (w.change c fun f => { f with recov := none }) = some (.ok (), over w c) := by
    have e : runDefers R c (w.change c fun f => { f with recov := none }) =
      (deferredOnes R c ((w.change c fun f => { f with recov := none }).frames c).defers >>= fun _ => change c fun f => { f with defers := [] }) (w.change c fun f => { f with recov := none }) := rfl
    have hd : ((w.change c fun f => { f with recov := none }).frames c).defers = [] := by simp [World.change, h0]
    rw [e, hd]
    change some (Except.ok (), (w.change c fun f => { f with recov := none }).change c fun f => { f with defers := [] }) = _
    rw [change_change]
    rfl
  have hr : ((over w c).frames c).recov = none := by simp [over, World.change]
  have hv : ((over w c).frames c).ret = (w.frames c).ret := by simp [over, World.change]
  rw [finish_ok h1 hr, hv]

theorem apply_left {H : Host F} {R : Runs F} {b : List Token} {w w1 w2 : World F} {v : QVal F} {o} (h : R.body b w.count
      { w with frames := fun i => if i = w.count then ⟨fun _ => none, .nil, none, 0 :: (w.frames 0).parents, []⟩ else w.frames i, count := w.count + 1 } = some (o, w1))
    (ho : BodyLeft o) (h0 : finish R w.count none w1 = some (.ok v, w2)) :
    apply H R ⟨[], some b, 0, false⟩ [] w = some (.ok v, w2) := by
  have e : apply H R ⟨[], some b, 0, false⟩ [] w = (try_ (R.body b w.count) >>= fun r => match leaves r with
      | .exit n => exit_ n
      | .normal => finish R w.count none
      | .panic p => finish R w.count (some p)) { w with frames := fun i => if i = w.count then ⟨fun _ => none, .nil, none, 0 :: (w.frames 0).parents, []⟩ else w.frames i, count := w.count + 1 } := rfl
  rw [e, bind_run]
  unfold try_
  rw [h]
  cases ho <;> exact h0

theorem at_ok {α : Type} {S : Setup F} {m : String} {ts : List Token} {x : Prog F α} {w w' : World F} {a : α} (h : x w = some (.ok a, w')) :
    S.at m ts x w = some (.ok a, w') := by
  unfold Setup.at
  rw [h]

theorem then_run {α β : Type} {x : Prog F α} {k : α → Prog F β} {w w' : World F} {a : α} (h : x w = some (.ok a, w')) : Prog.andThen x k w = k a w' := by
  unfold Prog.andThen
  rw [h]

theorem callOf_does {S : Setup F} {n : Nat} (t : Marks) (body : Tm .doc) (more : Tm .docTail) (hb : S.doc body.toks = some body)
    {w w1 w2 : World F} {v : QVal F} {o} (h : body.den S (runs S n) n w.count (callBegun w) = some (o, w1)) (ho : BodyLeft o) (h0 : finish (runs S (n + 1)) w.count none w1 = some (.ok v, w2)) :
    (callOf t body more).does S (n + 1) w =
      (more.den S (runs S (n + 1)) (n + 1) 0 : QVal F → Prog F (QVal F)) v w2 := by
  have hR : (runs S (n + 1)).body body.toks w.count (callBegun w) = some (o, w1) := by
    change (match S.doc body.toks with
      | some d => d.den S (runs S n) n w.count
      | none => fun _ => none) (callBegun w) = _
    rw [hb]
    exact h
  have ha := apply_left (H := S.host) (R := runs S (n + 1)) (b := body.toks) (w := { w with heap := (HM.alloc w.heap).2 }) hR ho h0
  have hbody : bodyOf body.toks = some body.toks := if_neg (begins_ne (starts body))
  have hc : (Tm.eval (one (.post (.fn t.kw (.fnBody t.lp none none t.rp t.lb (.someDoc body) t.rb))
    (.atom (.call t.lp' .noArgs none none t.rp') .noAtom)))).den S (runs S (n + 1)) (n + 1) 0 w = some (.ok v, w2) := by
    have h2 : (Tm.post (.fn t.kw (.fnBody t.lp none none t.rp t.lb (.someDoc body) t.rb))
        (.atom (.call t.lp' .noArgs none none t.rp') .noAtom)).den S (runs S (n + 1)) (n + 1) 0 w = some (.ok v, w2) := by
      have hf : ∃ a, (Tm.fn t.kw (.fnBody t.lp none none t.rp t.lb (.someDoc body) t.rb)).den S (runs S (n + 1)) (n + 1) 0 w =
          some (.ok (.fn a ⟨[], some body.toks, 0, false⟩), { w with heap := (HM.alloc w.heap).2 }) := by
        rw [← hbody]
        exact ⟨_, rfl⟩
      obtain ⟨a, hf⟩ := hf
      have hcall : ((Tm.call t.lp' .noArgs none none t.rp').den S (runs S (n + 1)) (n + 1) 0 : QVal F → Prog F (QVal F)) (.fn a ⟨[], some body.toks, 0, false⟩)
          { w with heap := (HM.alloc w.heap).2 } = some (.ok v, w2) := at_ok ha
      have h3 : ((Tm.atom (.call t.lp' .noArgs none none t.rp') .noAtom).den S (runs S (n + 1)) (n + 1) 0 : QVal F → Prog F (QVal F))
          (.fn a ⟨[], some body.toks, 0, false⟩) { w with heap := (HM.alloc w.heap).2 } = some (.ok v, w2) := then_run hcall
      have e : (Tm.post (.fn t.kw (.fnBody t.lp none none t.rp t.lb (.someDoc body) t.rb))
          (.atom (.call t.lp' .noArgs none none t.rp') .noAtom)).den S (runs S (n + 1)) (n + 1) 0 w = Prog.andThen (α := QVal F) (β := QVal F)
            ((Tm.fn t.kw (.fnBody t.lp none none t.rp t.lb (.someDoc body) t.rb)).den S (runs S (n + 1)) (n + 1) 0)
            ((Tm.atom (.call t.lp' .noArgs none none t.rp') .noAtom).den S (runs S (n + 1)) (n + 1) 0) w := rfl
      rw [e]
      exact Eq.trans (then_run hf) h3
    exact (then_run (then_run (then_run (then_run (then_run h2)))))
  exact then_run hc

/-- C137: in `fn() { body }(); more`, whatever the body is: if it ends, by itself or with a
`return` at any place of it, with nothing deferred, the program goes on behind the call, with the
value that `return` has said, and `Ret` gives the value of the program.  Missing: functions that
have deferred something (`C137_deferred_partial`, `C137_violated`), and calls at other places. -/
theorem C137_goes_on_partial {S : Setup F} (hS : S.site = sites) (h : (client S.host.lib ret U).new grammarText mode U fuel = some (.ok ret))
    (t : Marks) (body : Tm .doc) (more : Tm .docTail) (hd : (callOf t body more).Ok) (hb : S.doc body.toks = some body)
    {s : St (QEng F)} (hk : KwScanner.Steps U KwScanner.zero s.u.scanner) {src : Str} {eof : Token}
    (hsrc : Tokenizes U s.u.scanner src ret.mode (callOf t body more).toks eof) (hi : Idle s.u)
    {n : Nat} {o : Except (QPanic F) (QVal F)} {w1 : World F}
    (hn : body.den S (runs S n) n (world s.u.u).count (callBegun (world s.u.u)) = some (o, w1)) (ho : BodyLeft o)
    (h0 : (w1.frames (world s.u.u).count).defers = []) {v : QVal F} {w2 : World F}
    (hm : (more.den S (runs S (n + 1)) (n + 1) 0 : QVal F → Prog F (QVal F)) (w1.frames (world s.u.u).count).ret (over w1 (world s.u.u).count) = some (.ok v, w2)) :
    ∃ f s1 s2, exec S.host.lib ret U f src s = some (.ok () s1) ∧ (∀ f' m, (Qlang.ret : QM F _).run f' m s1 = some (.ok (some v) s2)) ∧
      Idle s2.u ∧ world s2.u.u = w2 := by
  obtain ⟨f, s1, s2, h1, h2, h3, _, h4⟩ := C82_exec_partial hS h _ hd hk hsrc hi ((callOf_does t body more hb hn ho (finish_none h0)).trans hm)
  exact ⟨f, s1, s2, h1, h2, h3, h4⟩

/-- C137: the same if the function has deferred expressions that end by themselves and after which no panic is
left: the value is the last one that `return` has said. -/
theorem C137_deferred_partial {S : Setup F} (hS : S.site = sites) (h : (client S.host.lib ret U).new grammarText mode U fuel = some (.ok ret))
    (t : Marks) (body : Tm .doc) (more : Tm .docTail) (hd : (callOf t body more).Ok) (hb : S.doc body.toks = some body)
    {s : St (QEng F)} (hk : KwScanner.Steps U KwScanner.zero s.u.scanner) {src : Str} {eof : Token}
    (hsrc : Tokenizes U s.u.scanner src ret.mode (callOf t body more).toks eof) (hi : Idle s.u)
    {n : Nat} {o : Except (QPanic F) (QVal F)} {w1 w2 : World F}
    (hn : body.den S (runs S n) n (world s.u.u).count (callBegun (world s.u.u)) = some (o, w1)) (ho : BodyLeft o)
    (hx : runDefers (runs S (n + 1)) (world s.u.u).count (w1.change (world s.u.u).count fun f => { f with recov := none }) = some (.ok (), w2))
    (hr : (w2.frames (world s.u.u).count).recov = none) {v : QVal F} {w3 : World F}
    (hm : (more.den S (runs S (n + 1)) (n + 1) 0 : QVal F → Prog F (QVal F)) (w2.frames (world s.u.u).count).ret w2 = some (.ok v, w3)) :
    ∃ f s1 s2, exec S.host.lib ret U f src s = some (.ok () s1) ∧ (∀ f' m, (Qlang.ret : QM F _).run f' m s1 = some (.ok (some v) s2)) ∧
      Idle s2.u ∧ world s2.u.u = w3 := by
  obtain ⟨f, s1, s2, h1, h2, h3, _, h4⟩ := C82_exec_partial hS h _ hd hk hsrc hi ((callOf_does t body more hb hn ho (finish_ok hx hr)).trans hm)
  exact ⟨f, s1, s2, h1, h2, h3, h4⟩

/-- The same where the program fails behind the call: the failure is the one of what stands there. -/
theorem C137_fails_partial {S : Setup F} (hS : S.site = sites) (h : (client S.host.lib ret U).new grammarText mode U fuel = some (.ok ret))
    (t : Marks) (body : Tm .doc) (more : Tm .docTail) (hd : (callOf t body more).Ok) (hb : S.doc body.toks = some body)
    {s : St (QEng F)} (hk : KwScanner.Steps U KwScanner.zero s.u.scanner) {src : Str} {eof : Token}
    (hsrc : Tokenizes U s.u.scanner src ret.mode (callOf t body more).toks eof) (hi : Idle s.u)
    {n : Nat} {o : Except (QPanic F) (QVal F)} {w1 : World F}
    (hn : body.den S (runs S n) n (world s.u.u).count (callBegun (world s.u.u)) = some (o, w1)) (ho : BodyLeft o)
    (h0 : (w1.frames (world s.u.u).count).defers = []) {p : QPanic F} {w2 : World F}
    (hm : (more.den S (runs S (n + 1)) (n + 1) 0 : QVal F → Prog F (QVal F)) (w1.frames (world s.u.u).count).ret (over w1 (world s.u.u).count) = some (.error p, w2)) :
    ∃ f s1, exec S.host.lib ret U f src s = some (.panic p s1) ∧ world s1.u.u = w2 := by
  obtain ⟨f, s1, h1, _, h2⟩ := C80_runs hS h _ hd hk hsrc hi.ipt hi.base hi.count ((callOf_does t body more hb hn ho (finish_none h0)).trans hm)
  exact ⟨f, s1, h1, h2⟩

/-! ### Calls of other functions -/

/-- `e(args)`, followed by more statements. -/
def anyCall (e : Tm .prim) (lp : Tk LPAREN) (args : Tm .args) (comma : Option (Tk COMMA)) (rp : Tk RPAREN) (more : Tm .docTail) : Tm .doc :=
  .doc (.eval (one (.post e (.atom (.call lp args none comma rp) .noAtom)))) more

/-- What the body of the function begins with: a new frame, inside of the one the function has been
made in, in which the parameters have the arguments and nothing is deferred. -/
def entered (w : World F) (g : Fun) (vs : List (QVal F)) : World F where
  frames := fun i => if i = w.count then ⟨fun x => lastOf x (g.args.zip vs), .nil, none, g.parent :: (w.frames g.parent).parents, []⟩ else w.frames i
  count := w.count + 1
  heap := w.heap

theorem apply_entered {H : Host F} {R : Runs F} {g : Fun} {b : List Token} {vs : List (QVal F)} (hg : g.body = some b) (hv : g.variadic = false)
    (hl : vs.length = g.args.length) {w w1 w2 : World F} {v : QVal F} {o} (h : R.body b w.count (entered w g vs) = some (o, w1))
    (ho : BodyLeft o) (h0 : finish R w.count none w1 = some (.ok v, w2)) : apply H R g vs w = some (.ok v, w2) := by
  obtain ⟨as, body, q, var⟩ := g
  dsimp only at hg hv hl
  subst hg hv
  have e : apply H R ⟨as, some b, q, false⟩ vs = (bindTo H ⟨as, some b, q, false⟩ vs >>= fun vars => enter ⟨as, some b, q, false⟩ vars >>= fun c =>
      try_ (R.body b c) >>= fun r => match leaves r with
      | .exit n => exit_ n
      | .normal => finish R c none
      | .panic p => finish R c (some p)) := if_pos hl
  rw [e]
  have e : (bindTo H ⟨as, some b, q, false⟩ vs >>= fun vars => enter ⟨as, some b, q, false⟩ vars >>= fun c =>
      try_ (R.body b c) >>= fun r => match leaves r with
      | .exit n => exit_ n
      | .normal => finish R c none
      | .panic p => finish R c (some p)) w = (try_ (R.body b w.count) >>= fun r => match leaves r with
      | .exit n => exit_ n
      | .normal => finish R w.count none
      | .panic p => finish R w.count (some p)) (entered w ⟨as, some b, q, false⟩ vs) := rfl
  rw [e, bind_run]
  unfold try_
  rw [h]
  cases ho <;> exact h0

theorem anyCall_does {S : Setup F} {n : Nat} {e : Tm .prim} {lp : Tk LPAREN} {args : Tm .args} {comma : Option (Tk COMMA)} {rp : Tk RPAREN} {more : Tm .docTail}
    {w w0 w0' w1 w2 : World F} {a : Nat} {g : Fun} {vs : List (QVal F)} {b : List Token} {body : Tm .doc} {v : QVal F} {o}
    (hf : (e.den S (runs S (n + 1)) (n + 1) 0 : Prog F (QVal F)) w = some (.ok (.fn a g), w0))
    (hargs : (args.den S (runs S (n + 1)) (n + 1) 0 : Prog F (List (QVal F))) w0 = some (.ok vs, w0'))
    (hg : g.body = some b) (hv : g.variadic = false) (hl : vs.length = g.args.length) (hb : S.doc b = some body)
    (h : body.den S (runs S n) n w0'.count (entered w0' g vs) = some (o, w1)) (ho : BodyLeft o)
    (h0 : finish (runs S (n + 1)) w0'.count none w1 = some (.ok v, w2)) :
    (anyCall e lp args comma rp more).does S (n + 1) w = (more.den S (runs S (n + 1)) (n + 1) 0 : QVal F → Prog F (QVal F)) v w2 := by
  have hR : (runs S (n + 1)).body b w0'.count (entered w0' g vs) = some (o, w1) := by
    change (match S.doc b with
      | some d => d.den S (runs S n) n w0'.count
      | none => fun _ => none) (entered w0' g vs) = _
    rw [hb]
    exact h
  have ha := apply_entered (H := S.host) hg hv hl hR ho h0
  have hcall : ((Tm.call lp args none comma rp).den S (runs S (n + 1)) (n + 1) 0 : QVal F → Prog F (QVal F)) (.fn a g) w0 = some (.ok v, w2) := by
    have e : ((Tm.call lp args none comma rp).den S (runs S (n + 1)) (n + 1) 0 : QVal F → Prog F (QVal F)) (.fn a g) w0 =
      Prog.andThen (β := QVal F) (args.den S (runs S (n + 1)) (n + 1) 0 : Prog F (List (QVal F)))
        (fun vs => S.at "call" [rp.tok] (apply S.host (runs S (n + 1)) g vs)) w0 := rfl
    rw [e]
    exact (then_run hargs).trans (at_ok ha)
  have h3 : ((Tm.atom (.call lp args none comma rp) .noAtom).den S (runs S (n + 1)) (n + 1) 0 : QVal F → Prog F (QVal F)) (.fn a g) w0 = some (.ok v, w2) :=
    then_run hcall
  have h2 : (Tm.post e (.atom (.call lp args none comma rp) .noAtom)).den S (runs S (n + 1)) (n + 1) 0 w = some (.ok v, w2) := by
    have e : (Tm.post e (.atom (.call lp args none comma rp) .noAtom)).den S (runs S (n + 1)) (n + 1) 0 w = Prog.andThen (α := QVal F) (β := QVal F)
      (e.den S (runs S (n + 1)) (n + 1) 0) ((Tm.atom (.call lp args none comma rp) .noAtom).den S (runs S (n + 1)) (n + 1) 0) w := rfl
    rw [e]
    exact Eq.trans (then_run hf) h3
  have hc : (Tm.eval (one (.post e (.atom (.call lp args none comma rp) .noAtom)))).den S (runs S (n + 1)) (n + 1) 0 w = some (.ok v, w2) :=
    then_run (then_run (then_run (then_run (then_run h2))))
  exact then_run hc

/-- C137: the same for the call `e(args)` of any function of the program with as many parameters as
arguments, whatever the expression `e` is that gives it. Missing: variadic functions, methods, and
calls inside of other expressions. -/
theorem C137_any_call_partial {S : Setup F} (hS : S.site = sites) (h : (client S.host.lib ret U).new grammarText mode U fuel = some (.ok ret))
    {e : Tm .prim} {lp : Tk LPAREN} {args : Tm .args} {comma : Option (Tk COMMA)} {rp : Tk RPAREN} {more : Tm .docTail} (hd : (anyCall e lp args comma rp more).Ok)
    {s : St (QEng F)} (hk : KwScanner.Steps U KwScanner.zero s.u.scanner) {src : Str} {eof : Token}
    (hsrc : Tokenizes U s.u.scanner src ret.mode (anyCall e lp args comma rp more).toks eof) (hi : Idle s.u)
    -- the function and the arguments
    {n : Nat} {w0 w0' : World F} {a : Nat} {g : Fun} {vs : List (QVal F)} {b : List Token} {body : Tm .doc}
    (hf : (e.den S (runs S (n + 1)) (n + 1) 0 : Prog F (QVal F)) (world s.u.u) = some (.ok (.fn a g), w0))
    (hargs : (args.den S (runs S (n + 1)) (n + 1) 0 : Prog F (List (QVal F))) w0 = some (.ok vs, w0'))
    (hg : g.body = some b) (hv : g.variadic = false) (hl : vs.length = g.args.length) (hb : S.doc b = some body)
    -- the body and the deferred expressions
    {o : Except (QPanic F) (QVal F)} {w1 w2 : World F} (hn : body.den S (runs S n) n w0'.count (entered w0' g vs) = some (o, w1)) (ho : BodyLeft o)
    (hx : runDefers (runs S (n + 1)) w0'.count (w1.change w0'.count fun f => { f with recov := none }) = some (.ok (), w2))
    (hr : (w2.frames w0'.count).recov = none)
    -- the rest of the program
    {v : QVal F} {w3 : World F}
    (hm : (more.den S (runs S (n + 1)) (n + 1) 0 : QVal F → Prog F (QVal F)) (w2.frames w0'.count).ret w2 = some (.ok v, w3)) :
    ∃ f s1 s2, exec S.host.lib ret U f src s = some (.ok () s1) ∧ (∀ f' m, (Qlang.ret : QM F _).run f' m s1 = some (.ok (some v) s2)) ∧
      Idle s2.u ∧ world s2.u.u = w3 := by
  obtain ⟨f, s1, s2, h1, h2, h3, _, h4⟩ := C82_exec_partial hS h _ hd hk hsrc hi ((anyCall_does hf hargs hg hv hl hb hn ho (finish_ok hx hr)).trans hm)
  exact ⟨f, s1, s2, h1, h2, h3, h4⟩

/-- A panic that is left after the body goes on if nothing has been deferred. -/
theorem finish_some {R : Runs F} {c : Nat} {p : QPanic F} {w : World F} (h0 : (w.frames c).defers = []) : ∃ w', finish R c (some p) w = some (.error p, w') := by
  have h1 : runDefers R c (w.change c fun f => { f with recov := some p }) =
      some (.ok (), (w.change c fun f => { f with recov := some p }).change c fun f => { f with defers := [] }) := by
    have e : runDefers R c (w.change c fun f => { f with recov := some p }) =
      (deferredOnes R c ((w.change c fun f => { f with recov := some p }).frames c).defers >>= fun _ => change c fun f => { f with defers := [] }) (w.change c fun f => { f with recov := some p }) := rfl
    have hd : ((w.change c fun f => { f with recov := some p }).frames c).defers = [] := by simp [World.change, h0]
    rw [e, hd]
    rfl
  have e : finish R c (some p) w = (runDefers R c >>= fun _ => _) (w.change c fun f => { f with recov := some p }) := rfl
  rw [e, bind_run, h1]
  have hr : (((w.change c fun f => { f with recov := some p }).change c fun f => { f with defers := [] }).frames c).recov = some p := by simp [World.change]
  change ∃ w', (match (((w.change c fun f => { f with recov := some p }).change c fun f => { f with defers := [] }).frames c).recov with
      | some p => raise p
      | none => (frame c >>= fun f => pure f.ret : Prog F (QVal F))) ((w.change c fun f => { f with recov := some p }).change c fun f => { f with defers := [] }) = some (.error p, w')
  rw [hr]
  exact ⟨_, rfl⟩

theorem appendRaw_ok (M : Fl F) (s : Sl) (vs : List (QVal F)) (h : Heap F) : ∃ s' h', appendRaw M s vs h = (.ok s', h') := by
  have e : appendRaw M s vs h = (if s.len + vs.length ≤ s.cap then _ else _ : HM F Sl) h := rfl
  rw [e]
  split <;> exact ⟨_, _, rfl⟩

/-- Arguments are bound without a `return`. -/
theorem bindTo_stays {H : Host F} {g : Fun} {vs : List (QVal F)} {w w' : World F} {gr : Gr Str} {ts : List Token} :
    bindTo H g vs w ≠ some (.error (.user (.runtime gr ts (.err .return_))), w') := by
  intro h
  unfold bindTo at h
  cases hv : g.variadic with
  | true =>
    rw [hv, if_pos rfl] at h
    cases hq : g.args.getLast? with
    | none => rw [hq] at h; cases h
    | some last =>
      rw [hq] at h
      dsimp only at h
      rw [bind_run] at h
      have e : onHeap (sliceOf H (vs.drop (g.args.length - 1))) w = some ((appendRaw H.fl ⟨.var, w.heap.next, 0, 0, (vs.drop (g.args.length - 1)).length⟩ (vs.drop (g.args.length - 1))
        (makeSlice H.fl .var 0 (vs.drop (g.args.length - 1)).length w.heap).2).1, { w with heap := (appendRaw H.fl ⟨.var, w.heap.next, 0, 0, (vs.drop (g.args.length - 1)).length⟩ (vs.drop (g.args.length - 1))
        (makeSlice H.fl .var 0 (vs.drop (g.args.length - 1)).length w.heap).2).2 }) := rfl
      rw [e] at h
      obtain ⟨s', h', e⟩ := appendRaw_ok H.fl ⟨.var, w.heap.next, 0, 0, (vs.drop (g.args.length - 1)).length⟩ (vs.drop (g.args.length - 1))
        (makeSlice H.fl .var 0 (vs.drop (g.args.length - 1)).length w.heap).2
      rw [e] at h
      cases h
  | false =>
    rw [hv, if_neg Bool.false_ne_true] at h
    cases h

/-- A new frame with these variables. -/
def enteredWith (w : World F) (g : Fun) (vars : Str → Option (QVal F)) : World F where
  frames := fun i => if i = w.count then ⟨vars, .nil, none, g.parent :: (w.frames g.parent).parents, []⟩ else w.frames i
  count := w.count + 1
  heap := w.heap

/-- C137, for calls at any place of a program: a `return` goes on behind the call of a function only
if the function has something deferred when its body ends. -/
theorem C137_leaves_partial {H : Host F} {R : Runs F} {g : Fun} {vs : List (QVal F)} {w w' : World F} {gr : Gr Str} {ts : List Token}
    (h : apply H R g vs w = some (.error (.user (.runtime gr ts (.err .return_))), w')) :
    ∃ vars w0 b o w1, bindTo H g vs w = some (.ok vars, w0) ∧ g.body = some b ∧ R.body b w0.count (enteredWith w0 g vars) = some (o, w1) ∧
      (w1.frames w0.count).defers ≠ [] := by
  unfold Src.apply at h
  by_cases hl : (if g.variadic then g.args.length ≤ vs.length + 1 else vs.length = g.args.length)
  · rw [if_pos hl] at h
    cases hb : g.body with
    | none => rw [hb] at h; cases h
    | some b =>
      rw [hb] at h
      dsimp only at h
      rw [bind_run] at h
      cases hv : bindTo H g vs w with
      | none => rw [hv] at h; cases h
      | some x =>
        obtain ⟨vars, w0⟩ := x
        rw [hv] at h
        cases vars with
        | error p =>
          cases h
          exact absurd hv bindTo_stays
        | ok vars =>
          have h : (try_ (R.body b w0.count) >>= fun r => match leaves r with
              | .exit n => exit_ n
              | .normal => finish R w0.count none
              | .panic p => finish R w0.count (some p)) (enteredWith w0 g vars) = _ := h
          rw [bind_run] at h
          unfold try_ at h
          cases ho : R.body b w0.count (enteredWith w0 g vars) with
          | none => rw [ho] at h; cases h
          | some x =>
            obtain ⟨o, w1⟩ := x
            refine ⟨vars, w0, b, o, w1, rfl, rfl, ho, fun h0 => ?_⟩
            rw [ho] at h
            dsimp only at h
            cases hq : leaves o with
            | exit n => rw [hq] at h; cases h
            | normal =>
              rw [hq] at h
              dsimp only at h
              rw [finish_none h0] at h
              cases h
            | panic p =>
              rw [hq] at h
              dsimp only at h
              obtain ⟨w2, h2⟩ := finish_some (R := R) (p := p) h0
              rw [h2] at h
              cases h
              unfold leaves at hq
              split at hq
              · cases hq
              · cases hq
              · cases hq
              · rename_i h3
                cases hq
                exact h3 _ _ rfl
  · rw [if_neg hl] at h
    cases h

/-! ### What does not hold: `f = fn() { defer switch { default: return } }; g = fn() { f(); return 2 }; g()` -/

def retBack : Tm (.term 5) := one (.switch (tk kSwitch 17 "switch") .noExpr (tk 123 24 "") .noCase
  (.default (tk kDefault 26 "default") (tk 58 33 "") (.someDoc (.doc (.return_ (tk kReturn 35 "return") .noExpr) .endDoc))) (tk 125 42 ""))
def retF : Tm .doc := .doc (.defer (tk kDefer 11 "defer") retBack) .endDoc
def noArgCall (p : Nat) (f : String) : Tm (.term 0) :=
  .post (.name (tk IDENT p f)) (.atom (.call (tk 40 (p + 1) "") .noArgs none none (tk 41 (p + 2) "")) .noAtom)
def retG : Tm .doc := .doc (.eval (one (noArgCall 58 "f"))) (.next (tk 59 61 ";") (.return_ (tk kReturn 63 "return") (.expr (one (.int (tk INT 70 "2"))))) .endDoc)
def retDoc : Tm .doc := .doc (.assign (tk IDENT 0 "f") (tk 61 2 "") (one (.post (.fn (tk kFn 4 "fn") (.fnBody (tk 40 6 "") none none (tk 41 7 "") (tk 123 9 "")
    (.someDoc retF) (tk 125 44 ""))) .noAtom)))
  (.next (tk 59 45 ";") (.assign (tk IDENT 47 "g") (tk 61 49 "") (one (.post (.fn (tk kFn 51 "fn") (.fnBody (tk 40 53 "") none none (tk 41 54 "") (tk 123 56 "")
    (.someDoc retG) (tk 125 72 ""))) .noAtom)))
  (.next (tk 59 73 ";") (.eval (one (noArgCall 75 "g"))) .endDoc))

theorem retBack_ok : retBack.Ok := by
  refine ⟨⟨⟨⟨⟨⟨?_, trivial, trivial, ⟨trivial, trivial⟩⟩, trivial⟩, trivial⟩, trivial⟩, trivial⟩, trivial⟩
  rintro ⟨_, _, h, _⟩
  cases h
theorem retF_ok : retF.Ok := ⟨retBack_ok, trivial⟩
theorem retG_ok : retG.Ok := by repeat' first | exact trivial | refine ⟨?_, ?_⟩
theorem retDoc_ok : retDoc.Ok := by repeat' first | exact trivial | exact retBack_ok | refine ⟨?_, ?_⟩

def retSetup (H : Host F) : Setup F where
  host := H
  site := sites
  doc := fun ts => if ts = retF.toks then some retF else if ts = retG.toks then some retG else none
  expr := fun ts => if ts = retBack.toks then some retBack else none
  doc_ok := by
    intro ts d h
    split at h
    · rename_i e
      cases h
      exact ⟨retF_ok, e.symm⟩
    · split at h
      · rename_i e
        cases h
        exact ⟨retG_ok, e.symm⟩
      · cases h
  expr_ok := by
    intro ts d h
    split at h
    · rename_i e
      cases h
      exact ⟨retBack_ok, e.symm⟩
    · cases h

def retText : Str := str "f = fn() { defer switch { default: return } }; g = fn() { f(); return 2 }; g()"

theorem retText_tokens (sc : Scanner) : ((⟨sc, keywords, some kwTable⟩ : KwScanner).tokenize ascii retText ⟨false, false⟩).1 = (retDoc.toks, none) := by kernel_rfl

theorem retDoc_does (H : Host F) : ∃ w, retDoc.does (retSetup H) 5 (world QState.new) = some (.ok .nil, w) := ⟨_, rfl⟩

/-- C137 is violated: whatever the library is, on a new engine the program
`f = fn() { defer switch { default: return } }; g = fn() { f(); return 2 }; g()` has the value nil:
the `return` in the deferred expression of `f` ends `g`, the caller. -/
theorem C137_violated (H : Host F) : ∃ f s1 s2, exec H.lib (qlangRet ascii ⟨false, false⟩) ascii f
      (str "f = fn() { defer switch { default: return } }; g = fn() { f(); return 2 }; g()") (newEngine ascii ⟨false, false⟩) = some (.ok () s1) ∧
    ∀ f' m, (Qlang.ret : QM F _).run f' m s1 = some (.ok (some .nil) s2) := by
  have hk := newEngine_steps (F := F) ascii ⟨false, false⟩
  obtain ⟨fuel, h⟩ := compiled_new H.lib ascii ⟨false, false⟩
  have ht : ((newEngine (F := F) ascii ⟨false, false⟩).u.scanner.tokenize ascii retText ⟨false, false⟩).1 = (retDoc.toks, none) := by
    rw [newEngine_scanner]
    exact retText_tokens _
  obtain ⟨eof, hsrc⟩ := (tokenizes_iff hk).mp ht
  have hi := newEngine_idle (F := F) ascii ⟨false, false⟩
  obtain ⟨w, hw⟩ := retDoc_does H
  obtain ⟨f, s1, s2, h1, h2, _⟩ := C82_exec_partial (S := retSetup H) rfl h retDoc retDoc_ok hk hsrc hi hw
  exact ⟨f, s1, s2, h1, h2⟩

/-- The hypotheses of `C137_leaves_partial` are met by the call of `f`. -/
example (H : Host F) : ∃ gr ts w', apply H (runs (retSetup H) 4) ⟨[], some retF.toks, 0, false⟩ [] (world QState.new) =
    some (.error (.user (.runtime gr ts (.err .return_))), w') := ⟨_, _, _, rfl⟩

/-! The hypotheses are met by `fn() { return 5; 6 }()`, of value 5: -/

def retBody : Tm .doc := .doc (.return_ (tk kReturn 7 "return") (.expr (one (.int (tk INT 14 "5"))))) (.next (tk 59 15 ";") (.eval (one (.int (tk INT 17 "6")))) .endDoc)
def retMarks : Marks := ⟨tk kFn 0 "fn", tk 40 2 "", tk 41 3 "", tk 123 5 "", tk 125 19 "", tk 40 20 "", tk 41 21 ""⟩

theorem retBody_ok : retBody.Ok := by repeat' first | exact trivial | refine ⟨?_, ?_⟩

def retSetup5 (H : Host F) : Setup F where
  host := H
  site := sites
  doc := fun ts => if ts = retBody.toks then some retBody else none
  expr := fun _ => none
  doc_ok := by
    intro ts d h
    split at h
    · rename_i e
      cases h
      exact ⟨retBody_ok, e.symm⟩
    · cases h
  expr_ok := nofun

theorem retCall_text (sc : Scanner) : ((⟨sc, keywords, some kwTable⟩ : KwScanner).tokenize ascii (str "fn() { return 5; 6 }()") ⟨false, false⟩).1 =
    ((callOf retMarks retBody .endDoc).toks, none) := by kernel_rfl

example (H : Host F) : ∃ f s1 s2, exec H.lib (qlangRet ascii ⟨false, false⟩) ascii f (str "fn() { return 5; 6 }()") (newEngine ascii ⟨false, false⟩) = some (.ok () s1) ∧
    ∀ f' m, (Qlang.ret : QM F _).run f' m s1 = some (.ok (some (.int 5)) s2) := by
  have hk := newEngine_steps (F := F) ascii ⟨false, false⟩
  obtain ⟨fuel, h⟩ := compiled_new H.lib ascii ⟨false, false⟩
  have ht : ((newEngine (F := F) ascii ⟨false, false⟩).u.scanner.tokenize ascii (str "fn() { return 5; 6 }()") ⟨false, false⟩).1 =
      ((callOf retMarks retBody .endDoc).toks, none) := by
    rw [newEngine_scanner]
    exact retCall_text _
  obtain ⟨eof, hsrc⟩ := (tokenizes_iff hk).mp ht
  have hi := newEngine_idle (F := F) ascii ⟨false, false⟩
  have hr : ∃ g ts w1, retBody.den (retSetup5 H) (runs (retSetup5 H) 3) 3 1 (callBegun (world QState.new)) = some (.error (.user (.runtime g ts (.err .return_))), w1) ∧
      (w1.frames 1).defers = [] ∧ (w1.frames 1).ret = .int 5 := ⟨_, _, _, rfl, rfl, rfl⟩
  obtain ⟨g, ts, w1, h1, h2, h3⟩ := hr
  obtain ⟨f, s1, s2, h4, h5, _⟩ := C137_goes_on_partial (S := retSetup5 H) rfl h retMarks retBody .endDoc (by repeat' first | exact trivial | refine ⟨?_, ?_⟩)
    (by unfold retSetup5; dsimp only; exact if_pos rfl) hk hsrc hi h1 (.returned g ts) h2 rfl
  exact ⟨f, s1, s2, h4, fun f' m => (h5 f' m).trans (by rw [show (world (newEngine (F := F) ascii ⟨false, false⟩).u.u).count = 1 from rfl, h3])⟩

/-! And those of `C137_deferred_partial` by `fn() { defer 1; return 5 }()`. -/

def retOne : Tm (.term 5) := one (.int (tk INT 13 "1"))
def retDeferred : Tm .doc := .doc (.defer (tk kDefer 7 "defer") retOne) (.next (tk 59 14 ";") (.return_ (tk kReturn 16 "return") (.expr (one (.int (tk INT 23 "5"))))) .endDoc)
def retMarks' : Marks := ⟨tk kFn 0 "fn", tk 40 2 "", tk 41 3 "", tk 123 5 "", tk 125 25 "", tk 40 26 "", tk 41 27 ""⟩

theorem retOne_ok : retOne.Ok := by repeat' first | exact trivial | refine ⟨?_, ?_⟩
theorem retDeferred_ok : retDeferred.Ok := by repeat' first | exact trivial | refine ⟨?_, ?_⟩

def retSetup1 (H : Host F) : Setup F where
  host := H
  site := sites
  doc := fun ts => if ts = retDeferred.toks then some retDeferred else none
  expr := fun ts => if ts = retOne.toks then some retOne else none
  doc_ok := by
    intro ts d h
    split at h
    · rename_i e
      cases h
      exact ⟨retDeferred_ok, e.symm⟩
    · cases h
  expr_ok := by
    intro ts d h
    split at h
    · rename_i e
      cases h
      exact ⟨retOne_ok, e.symm⟩
    · cases h

theorem retDeferred_text (sc : Scanner) : ((⟨sc, keywords, some kwTable⟩ : KwScanner).tokenize ascii (str "fn() { defer 1; return 5 }()") ⟨false, false⟩).1 =
    ((callOf retMarks' retDeferred .endDoc).toks, none) := by kernel_rfl

example (H : Host F) : ∃ f s1 s2, exec H.lib (qlangRet ascii ⟨false, false⟩) ascii f (str "fn() { defer 1; return 5 }()") (newEngine ascii ⟨false, false⟩) = some (.ok () s1) ∧
    ∀ f' m, (Qlang.ret : QM F _).run f' m s1 = some (.ok (some (.int 5)) s2) := by
  have hk := newEngine_steps (F := F) ascii ⟨false, false⟩
  obtain ⟨fuel, h⟩ := compiled_new H.lib ascii ⟨false, false⟩
  have ht : ((newEngine (F := F) ascii ⟨false, false⟩).u.scanner.tokenize ascii (str "fn() { defer 1; return 5 }()") ⟨false, false⟩).1 =
      ((callOf retMarks' retDeferred .endDoc).toks, none) := by
    rw [newEngine_scanner]
    exact retDeferred_text _
  obtain ⟨eof, hsrc⟩ := (tokenizes_iff hk).mp ht
  have hi := newEngine_idle (F := F) ascii ⟨false, false⟩
  have hr : ∃ g ts w1 w2, retDeferred.den (retSetup1 H) (runs (retSetup1 H) 3) 3 1 (callBegun (world QState.new)) = some (.error (.user (.runtime g ts (.err .return_))), w1) ∧
      (w1.frames 1).defers ≠ [] ∧ runDefers (runs (retSetup1 H) 4) 1 (w1.change 1 fun f => { f with recov := none }) = some (.ok (), w2) ∧
      (w2.frames 1).recov = none ∧ (w2.frames 1).ret = .int 5 := ⟨_, _, _, _, rfl, (fun e => by cases e), rfl, rfl, rfl⟩
  obtain ⟨g, ts, w1, w2, h1, _, h2, h3, h6⟩ := hr
  obtain ⟨f, s1, s2, h4, h5, _⟩ := C137_deferred_partial (S := retSetup1 H) rfl h retMarks' retDeferred .endDoc (by repeat' first | exact trivial | refine ⟨?_, ?_⟩)
    (by unfold retSetup1; dsimp only; exact if_pos rfl) hk hsrc hi h1 (.returned g ts) h2 h3 rfl
  exact ⟨f, s1, s2, h4, fun f' m => (h5 f' m).trans (by rw [show (world (newEngine (F := F) ascii ⟨false, false⟩).u.u).count = 1 from rfl, h6])⟩

/-! And those of `C137_any_call_partial` by `fn(x) { return x; 6 }(5)`. -/

def retX : Tm .doc := .doc (.return_ (tk kReturn 8 "return") (.expr (one (var 15 "x")))) (.next (tk 59 16 ";") (.eval (one (.int (tk INT 18 "6")))) .endDoc)
def retFnX : Tm .prim := .fn (tk kFn 0 "fn") (.fnBody (tk 40 2 "") (some (tk IDENT 3 "x", [])) none (tk 41 4 "") (tk 123 6 "") (.someDoc retX) (tk 125 20 ""))
def retCallX : Tm .doc := anyCall retFnX (tk 40 21 "") (.args (one (.int (tk INT 22 "5"))) .lastArg) none (tk 41 23 "") .endDoc

theorem retX_ok : retX.Ok := by repeat' first | exact trivial | refine ⟨?_, ?_⟩

def retSetupX (H : Host F) : Setup F where
  host := H
  site := sites
  doc := fun ts => if ts = retX.toks then some retX else none
  expr := fun _ => none
  doc_ok := by
    intro ts d h
    split at h
    · rename_i e
      cases h
      exact ⟨retX_ok, e.symm⟩
    · cases h
  expr_ok := nofun

theorem retCallX_text (sc : Scanner) : ((⟨sc, keywords, some kwTable⟩ : KwScanner).tokenize ascii (str "fn(x) { return x; 6 }(5)") ⟨false, false⟩).1 =
    (retCallX.toks, none) := by kernel_rfl

example (H : Host F) : ∃ f s1 s2, exec H.lib (qlangRet ascii ⟨false, false⟩) ascii f (str "fn(x) { return x; 6 }(5)") (newEngine ascii ⟨false, false⟩) = some (.ok () s1) ∧
    ∀ f' m, (Qlang.ret : QM F _).run f' m s1 = some (.ok (some (.int 5)) s2) := by
  have hk := newEngine_steps (F := F) ascii ⟨false, false⟩
  obtain ⟨fuel, h⟩ := compiled_new H.lib ascii ⟨false, false⟩
  have ht : ((newEngine (F := F) ascii ⟨false, false⟩).u.scanner.tokenize ascii (str "fn(x) { return x; 6 }(5)") ⟨false, false⟩).1 = (retCallX.toks, none) := by
    rw [newEngine_scanner]
    exact retCallX_text _
  obtain ⟨eof, hsrc⟩ := (tokenizes_iff hk).mp ht
  have hi := newEngine_idle (F := F) ascii ⟨false, false⟩
  have hr : ∃ a w0 w0', (retFnX.den (retSetupX H) (runs (retSetupX H) 4) 4 0 : Prog F (QVal F)) (world QState.new) = some (.ok (.fn a ⟨[str "x"], some retX.toks, 0, false⟩), w0) ∧
      ((Tm.args (one (.int (tk INT 22 "5"))) .lastArg).den (retSetupX H) (runs (retSetupX H) 4) 4 0 : Prog F (List (QVal F))) w0 = some (.ok [.int 5], w0') ∧
      ∃ g ts w1 w2, retX.den (retSetupX H) (runs (retSetupX H) 3) 3 w0'.count (entered w0' ⟨[str "x"], some retX.toks, 0, false⟩ [.int 5]) =
        some (.error (.user (.runtime g ts (.err .return_))), w1) ∧
      runDefers (runs (retSetupX H) 4) w0'.count (w1.change w0'.count fun f => { f with recov := none }) = some (.ok (), w2) ∧
      (w2.frames w0'.count).recov = none ∧ (w2.frames w0'.count).ret = .int 5 := ⟨_, _, _, rfl, rfl, _, _, _, _, rfl, rfl, rfl, rfl⟩
  obtain ⟨a, w0, w0', h1, h2, g, ts, w1, w2, h3, h4, h5, h6⟩ := hr
  obtain ⟨f, s1, s2, h7, h8, _⟩ := C137_any_call_partial (S := retSetupX H) rfl h (by repeat' first | exact trivial | refine ⟨?_, ?_⟩)
    hk hsrc hi h1 h2 rfl rfl rfl (by unfold retSetupX; dsimp only; exact if_pos rfl) h3 (.returned g ts) h4 h5 rfl
  exact ⟨f, s1, s2, h7, fun f' m => (h8 f' m).trans (by rw [h6])⟩

end Tpl.Props
