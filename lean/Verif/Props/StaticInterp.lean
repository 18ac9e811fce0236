import Verif.Props.Generator
import Verif.Props.Reads
import Verif.Props.Extractor
import Verif.Proof.StaticInterp

/-! C110: the interpreter that `tplgen -i` generates, and the one that `interpreter.New` makes. -/
namespace Tpl.Props
open Tpl Tpl.Spec Tpl.Gen
variable {E X I τ F W : Type} {U : Uni}

/-- Both scanners read a text in the same way and end in the same state. -/
theorem tokenize_same {k k' : KwScanner} (h : k = k' ∨ Wordless k ∧ Wordless k') (src : Str) (mode : Mode) :
    k.tokenize U src mode = k'.tokenize U src mode := by
  rcases h with rfl | ⟨h, h'⟩
  · rfl
  · have e : k.init src mode = k'.init src mode := by
      obtain ⟨sc, toks, kw⟩ := k
      obtain ⟨sc', toks', kw'⟩ := k'
      have e1 : toks = [] := h.tokens
      have e2 : toks' = [] := h'.tokens
      subst e1 e2
      unfold KwScanner.init
      dsimp only
      rw [init_sc (h.ok.trans h'.ok.symm)]
      rcases h.keywords with (h1 : kw = _) | (h1 : kw = _) <;> rcases h'.keywords with (h2 : kw' = _) | (h2 : kw' = _) <;> subst h1 h2 <;> rfl
    unfold KwScanner.tokenize
    rw [e]

theorem sameEngine_refl (s : St (Eng I τ)) : SameEngine s s := ⟨rfl, rfl, rfl, rfl, .inl rfl⟩

theorem exactly_eq (m : Matcher Str (Eng I τ) Unit (IPanic E X)) (hg : m.grammar ≠ .nil) (fuel : Nat) (k : KwScanner) (src : Str) (s : St (Eng I τ))
    {s1 : St (Eng I τ)} (hi : m.init s = .ok () s1) :
    (m.matchExactly U fuel k src s).1 = match (k.tokenize U src m.mode).1 with
      | (_, some (off, msg)) => some (.err (.tokenize off msg) s)
      | (tokens, none) => (matchG m.env m.sem fuel m.grammar tokens s1).map (exactly tokens) := by
  have h := match_eq m hg U fuel k src s
  unfold Matcher.matchExactly
  generalize m.match_ U fuel k src s = r at h
  obtain ⟨r, k'⟩ := r
  dsimp only at h ⊢
  subst h
  generalize (k.tokenize U src m.mode).1 = t
  obtain ⟨toks, e⟩ := t
  cases e with
  | some e => rfl
  | none =>
    dsimp only
    rw [hi]
    dsimp only
    cases matchG m.env m.sem fuel m.grammar toks s1 with
    | none => rfl
    | some r =>
      cases r with
      | ok n s =>
        unfold exactly
        dsimp only [Option.map_some]
        split <;> rfl
      | _ => rfl

/-- C110 (partial): an interpreter generated from a `Mild` grammar without the mark `_tr`, for a
client whose functions have at most one parameter behind the receiver (not `*Context`) and leave
the engine alone, answers every text as the interpreter that `New` makes does, if engine options
are the default ones and numbers in the text are decimal: it fails with the same error, succeeds,
or panics in the same cases, with the same effects on the client.  Missing is everything else,
where answers differ: see the theorems below. -/
theorem C110_eval_partial (c : Client E X I τ F W) (hc : Modest c) (o : Orders) (grammar : Str) {ts : List Token} {eof : Token} {rs : List Rule}
    (ht : Tokenizes U KwScanner.zero grammar clMode ts eof) (hd : IsDoc ts rs) (hm : Mild rs) (htr : bytes "_tr" ∉ marksDoc rs)
    {fuel : Nat} {ret : CompileRet Str} (h : c.new grammar ⟨false, false⟩ U fuel = some (.ok ret)) (hroot : ret.root ≠ .nil) :
    Wordless ret.tab.scanner ∧
    ∃ (fuel' : Nat) (P : GoProg) (r : CompileRet Str), genStaticCode U o fuel' grammar = some (.ok P.text) ∧ P.Returns (Static.marker c) r ∧
      ∀ s s', SameEngine s s' → ∀ src, DecimalText U s.u.scanner src →
        (∀ f x, c.eval ret U f src s = some x → ∃ f' x', Static.eval c r U f' src s' = some x' ∧ SameEnd x x') ∧
        (∀ f x', Static.eval c r U f src s' = some x' → ∃ f' x, c.eval ret U f' src s = some x ∧ SameEnd x x') := by
  obtain ⟨f1, P, hgen, hP⟩ := C74_builds_partial (B := Str) ⟨grammar, c.marker, ⟨false, false⟩⟩ o ht hd hm h
  obtain ⟨f2, h2⟩ := cl_doc (c := (⟨grammar, c.marker, ⟨false, false⟩⟩ : Compiler Str)) (.refl _) ht hd
  have he := cl_unique h2 h
  cases hden : denDoc c.marker rs (clStart Str U KwScanner.zero grammar) with
  | error p => rw [hden] at he; cases he
  | ok T =>
    rw [hden] at he
    obtain ⟨root, hrt, hall, rfl⟩ := clFinish_ok he
    have hA : Adds (· ≠ bytes "_tr") (clStart Str U KwScanner.zero grammar) T := by
      refine doc_adds rs hm.body (charsOk_doc (.refl _) ht hd) ?_ ⟨(fun n g hn => by cases hn), (fun n g hn => by cases hn)⟩ hden
      intro n hn a g hg ha
      have hne : n ≠ bytes "_tr" := fun e => htr (e ▸ hn)
      have : g = .action n a := by
        unfold Client.marker at hg
        dsimp only at hg
        repeat' split at hg
        all_goals (cases hg; try rfl)
      subst this
      intro x hx
      rcases List.mem_cons.mp hx with rfl | hx
      · exact hne
      · exact ha x hx
    have hw : Wordless T.scanner := by
      rw [hA.scanner]
      exact ⟨(tokenize_keeps U KwScanner.zero grammar ⟨false, true⟩ rfl).2, rfl, .inr rfl⟩
    refine ⟨hw, f1, P, Static.compiled T root, hgen, ⟨T, root, by rw [marker_same hc]; exact hP, hrt, rfl⟩, ?_⟩
    intro s s' hs src hD
    have hsc := tokenize_same (U := U) hs.scanner src ⟨false, false⟩
    -- both start in the same state
    have hst : ({ s with u := { s.u.reset with scanner := (s.u.scanner.tokenize U src ⟨false, false⟩).2 } } : St (Eng I τ)) =
        { s' with u := { s'.u.reset with scanner := (s'.u.scanner.tokenize U src ⟨false, false⟩).2 } } := by
      rw [hsc]
      obtain ⟨len, mute, ipt, k, u⟩ := s
      obtain ⟨len', mute', ipt', k', u'⟩ := s'
      have e1 : len = len' := hs.len
      have e3 : ipt = ipt' := hs.ipt
      have e4 : u = u' := hs.u
      subst e1 e3 e4
      rfl
    have hL : ∀ f, c.eval ⟨root, T, ⟨false, false⟩⟩ U f src s = match (s.u.scanner.tokenize U src ⟨false, false⟩).1 with
        | (_, some (off, msg)) => some (.err (.tokenize off msg) s)
        | (tokens, none) => (matchG T.env c.sem f root tokens
            { s with u := { s.u.reset with scanner := (s.u.scanner.tokenize U src ⟨false, false⟩).2 } }).map (exactly tokens) :=
      fun f => exactly_eq _ hroot f _ src s rfl
    have hR : ∀ f, Static.eval c (Static.compiled T root) U f src s' = match (s.u.scanner.tokenize U src ⟨false, false⟩).1 with
        | (_, some (off, msg)) => some (.err (.tokenize off msg) s')
        | (tokens, none) => (matchG T.env (Static.sem c) f (.named (bytes "doc") root) tokens
            { s with u := { s.u.reset with scanner := (s.u.scanner.tokenize U src ⟨false, false⟩).2 } }).map (exactly tokens) := by
      intro f
      rw [hst, hsc]
      exact exactly_eq _ (by intro e; cases e) f _ src s' rfl
    have hone : ∀ f toks s1, (∀ t ∈ toks, Decimal t.lit) → Alike (matchG T.env c.sem f root toks s1) (matchG T.env (Static.sem c) f root toks s1) := by
      intro f toks s1 hdec
      refine matchG_alike (Q := (· ≠ bytes "_tr")) (D := fun t => Decimal t.lit) ?_ ?_ ?_ ?_ f root toks s1 ?_ hdec
      · intro v g hv
        unfold Tab.env at hv
        cases hx : T.vars[v]? with
        | none => rw [hx] at hv; cases hv
        | some y =>
          rw [hx] at hv
          obtain ⟨n, y⟩ := y
          replace hv : y = some g := hv
          subst hv
          exact hA.only.vars n g (List.mem_of_getElem? hx)
      · intro f m m' a g toks s hq hdd
        exact action_alike hc hq hdd g f m m' s
      · intro a s; rfl
      · intro a v e s; rfl
      · exact hA.only.grammars _ _ (lookup_mem hrt)
    unfold DecimalText at hD
    generalize (s.u.scanner.tokenize U src ⟨false, false⟩) = t at hL hR hD
    obtain ⟨⟨toks, e⟩, k⟩ := t
    cases e with
    | some e =>
      constructor
      · intro f x hx
        rw [hL] at hx
        cases hx
        exact ⟨0, _, hR 0, .err hs⟩
      · intro f x hx
        rw [hR] at hx
        cases hx
        exact ⟨0, _, hL 0, .err hs⟩
    | none =>
      dsimp only at hL hR hD
      have hend : ∀ {r r' : Res Str (Eng I τ) (IPanic E X)}, Alike (some r) (some r') → SameEnd (exactly toks r) (exactly toks r') := by
        intro r r' ha
        cases ha with
        | panic => exact .panic (sameEngine_refl _)
        | same =>
          cases r with
          | panic p s => exact .panic (sameEngine_refl _)
          | fail n e s => exact .err (sameEngine_refl _)
          | ok n s =>
            unfold exactly
            dsimp only
            split
            · exact .err (sameEngine_refl _)
            · exact .ok (sameEngine_refl _)
      constructor
      · intro f x hx
        rw [hL] at hx
        obtain ⟨r, hr, rfl⟩ := Option.map_eq_some_iff.mp hx
        have ha := hone f toks { s with u := { s.u.reset with scanner := k } } hD
        rw [hr] at ha
        cases hr' : matchG T.env (Static.sem c) f root toks { s with u := { s.u.reset with scanner := k } } with
        | none => rw [hr'] at ha; cases ha
        | some r' =>
          rw [hr'] at ha
          refine ⟨f + 1, exactly toks r', ?_, hend ha⟩
          rw [hR]
          show Option.map _ (matchG T.env (Static.sem c) f root toks _) = _
          rw [hr']; rfl
      · intro f x hx
        rw [hR] at hx
        obtain ⟨r, hr, rfl⟩ := Option.map_eq_some_iff.mp hx
        cases f with
        | zero => cases hr
        | succ f =>
          replace hr : matchG T.env (Static.sem c) f root toks { s with u := { s.u.reset with scanner := k } } = some r := hr
          have ha := hone f toks { s with u := { s.u.reset with scanner := k } } hD
          rw [hr] at ha
          cases hr' : matchG T.env c.sem f root toks { s with u := { s.u.reset with scanner := k } } with
          | none => rw [hr'] at ha; cases ha
          | some r' =>
            rw [hr'] at ha
            refine ⟨f, exactly toks r', ?_, hend ha⟩
            rw [hL, hr']; rfl

/-! ### Where the answers differ -/

/-- `Cl` of the generated code keeps no table of rules: `EvalSub` and `EvalCode` find nothing,
whatever the grammar is. -/
theorem C110_violated_sub (T : Tab Str) (doc : Gr Str) (name : Str) (src : SubSrc) :
    (engSub (Static.compiled T doc) U name src : Code E X I τ _) = pure (some (.m .noGrammar)) := rfl

/-- A function with a second parameter behind the receiver: `New` accepts it, generated
interpreters do not. -/
theorem C110_violated_params (c : Client E X I τ F W) {mark : Str} {t : ArgTy} {body} (h : c.table mark = some (.recv [t, .ctx] true body))
    (hm : ∃ ch, lenChar mark = some ch) (g : Gr Str) :
    c.marker g mark = .ok (.action mark g) ∧ ∃ e, Static.marker c g mark = .error e := by
  obtain ⟨ch, hm⟩ := hm
  unfold Client.marker Static.marker
  simp only [h, hm]
  exact ⟨rfl, _, rfl⟩

/-- A function with a `*Context`: `New` hands it over, generated interpreters take it for a
literal and panic. -/
theorem C110_violated_context (L : Lits F) {mark : Str} (hm : isLenMark mark = false) (tok : Token) (toks : List Token) (g : Gr Str)
    {e : Int} (he : ((tok :: toks).getLast (by simp)).End = .ok e) (f : Nat) (m) (s : St (Eng I τ)) :
    (markArgs L mark [.ctx] (tok :: toks) g : Code E X I τ _).run f m s = some (.ok [.ctx ⟨tok :: toks, tok.pos, e⟩] s) ∧
    (Static.markArgs L mark [.ctx] (tok :: toks) g : Code E X I τ _).run f m s = some (.panic (.user (.str (.arg mark .unsupported))) s) := by
  constructor
  · unfold markArgs ctxValue
    simp only [hm, List.head?_cons, List.getLast?_eq_some_getLast (List.cons_ne_nil tok toks), he]
    rfl
  · unfold Static.markArgs Static.litArg
    simp only [hm]
    rfl

/-- The mark `_tr` prints the tokens in the one and dereferences nil in the other. -/
theorem C110_violated_trace (c : Client E X I τ F W) (h : c.table (bytes "_tr") = none) (g : Gr Str) {toks : List Token} (ht : toks ≠ []) (f : Nat) (m)
    (s : St (Eng I τ)) :
    (c.action (bytes "_tr") g toks).run f m s = some (.ok () s) ∧
    (Static.action c (bytes "_tr") g toks).run f m s = some (.panic .nilDeref s) := by
  constructor
  · unfold Client.action
    rw [h]
    rfl
  · unfold Static.action
    rw [h]
    dsimp only
    rw [if_neg (by decide), if_neg (by decide), if_pos ⟨rfl, ht⟩]
    rfl

/-- A client with a list of integers and the function `push`. -/
def pusher : Client Unit Unit Unit (List Int) Nat Unit where
  table mark := if mark = bytes "push" then some (.recv [.int] true fun args => match args with
    | [.int v] => Go.modify fun s => { s with u := v :: s.u }
    | _ => pure ()) else none
  stack := ⟨fun _ => pure none, fun _ => pure none⟩
  callFn := none
  lits := ⟨Int.toNat, fun s => if s = bytes "0" then some 0 else none⟩
  refl := ⟨fun _ => GoTy.int, fun _ _ => true, fun _ => (), id⟩

theorem pusher_modest : Modest pusher where
  one mark params ok body h := by
    unfold pusher at h
    dsimp only at h
    split at h
    · cases h; decide
    · cases h
  recv mark params ok body h args := by
    unfold pusher at h
    dsimp only at h
    split at h
    · cases h
      intro f m m' s
      dsimp only
      split <;> rfl
    · cases h
  plain mark fn h := by
    unfold pusher at h
    dsimp only at h
    split at h <;> cases h
  pop n := fun _ _ _ _ => rfl
  push ws := fun _ _ _ _ => rfl
  callFn call h := by cases h
  zero := rfl
  empty := rfl

/-- An interpreter with nothing on its list. -/
def pusherNew (k : KwScanner) : St (Eng Unit (List Int)) := ⟨fun _ => 0, ⟨0, (), k, []⟩⟩

/-- What `Eval` of the interpreter that `New` makes leaves on the list; the first component
says whether it succeeds, `none` that it panics. -/
def libAnswer (grammar : String) (mode : Mode) (src : String) : Option (Bool × List Int) :=
  match pusher.new (bytes grammar) mode ascii 60 with
  | some (.ok ret) => match pusher.eval ret ascii 60 (bytes src) (pusherNew ret.tab.scanner) with
    | some (.ok _ s) => some (true, s.u.u)
    | some (.err _ s) => some (false, s.u.u)
    | _ => none
  | _ => none

/-- The same for the generated interpreter. -/
def genAnswer (grammar : String) (mode : Mode) (src : String) : Option (Bool × List Int) :=
  match pusher.new (bytes grammar) mode ascii 60 with
  | some (.ok ret) => match Static.eval pusher (Static.compiled ret.tab ret.root) ascii 60 (bytes src) (pusherNew KwScanner.zero) with
    | some (.ok _ s) => some (true, s.u.u)
    | some (.err _ s) => some (false, s.u.u)
    | _ => none
  | _ => none

/-- What `genAnswer` takes for the generated interpreter is one. -/
theorem generated_returns (c : Client E X I τ F W) (hc : Modest c) (o : Orders) (grammar : Str) (mode : Mode) {ts : List Token} {eof : Token} {rs : List Rule}
    (ht : Tokenizes U KwScanner.zero grammar clMode ts eof) (hd : IsDoc ts rs) (hm : Mild rs)
    {fuel : Nat} {ret : CompileRet Str} (h : c.new grammar mode U fuel = some (.ok ret)) :
    ∃ (fuel' : Nat) (P : GoProg), genStaticCode U o fuel' grammar = some (.ok P.text) ∧ P.Returns (Static.marker c) (Static.compiled ret.tab ret.root) := by
  obtain ⟨f1, P, hgen, hP⟩ := C74_builds_partial (B := Str) ⟨grammar, c.marker, mode⟩ o ht hd hm h
  obtain ⟨f2, h2⟩ := cl_doc (c := (⟨grammar, c.marker, mode⟩ : Compiler Str)) (.refl _) ht hd
  have he := cl_unique h2 h
  cases hden : denDoc c.marker rs (clStart Str U KwScanner.zero grammar) with
  | error p => rw [hden] at he; cases he
  | ok T =>
    rw [hden] at he
    obtain ⟨root, hrt, hall, rfl⟩ := clFinish_ok he
    exact ⟨f1, P, hgen, T, root, by rw [marker_same hc]; exact hP, hrt, rfl⟩

/-- Octal numbers. -/
theorem C110_violated_octal : libAnswer "doc = INT/push;" ⟨false, false⟩ "010" = some (true, [8]) ∧
    genAnswer "doc = INT/push;" ⟨false, false⟩ "010" = some (true, [10]) := by decide +kernel

/-- Hexadecimal numbers. -/
theorem C110_violated_hex : libAnswer "doc = INT/push;" ⟨false, false⟩ "0x10" = some (true, [16]) ∧
    genAnswer "doc = INT/push;" ⟨false, false⟩ "0x10" = none := by decide +kernel

/-- Semicolons at line ends. -/
theorem C110_violated_semis : libAnswer "doc = INT/push ';';" ⟨false, true⟩ "7\n" = some (true, [7]) ∧
    genAnswer "doc = INT/push ';';" ⟨false, true⟩ "7\n" = some (false, [7]) := by decide +kernel

/-- No grammar. -/
theorem C110_violated_nil : libAnswer "doc = !;" ⟨false, false⟩ "7" = some (false, []) ∧
    genAnswer "doc = !;" ⟨false, false⟩ "7" = none := by decide +kernel

/-! ### Examples -/

/-- `doc = INT/push;` -/
def pushRules : List Rule := [⟨bytes "doc", .one (.term (.ident (bytes "INT")) (.mark (bytes "push") .nil)) .nil⟩]

theorem pushRules_mild : Mild pushRules where
  body := by decide
  order := by
    intro pre r post h hr
    match pre, h with
    | [], h => cases h; revert hr; decide
    | _ :: pre, h => simp [pushRules] at h
  names := by
    intro n h
    have : n ∈ [bytes "doc"] := by
      rcases h with ⟨r, hr, rfl⟩ | h
      · revert r; decide
      · revert h; revert n; decide
    clear h; revert this; revert n; decide

example : (KwScanner.zero.tokenize ascii (bytes "doc = INT/push;") clMode).1.1.map key = flatDoc pushRules := by decide +kernel
example : bytes "_tr" ∉ marksDoc pushRules := by decide
example : Modest pusher := pusher_modest
example (k : KwScanner) (h : Wordless k) : SameEngine (pusherNew k) (pusherNew KwScanner.zero) := ⟨rfl, rfl, rfl, rfl, .inr ⟨h, rfl, rfl, .inl rfl⟩⟩
example : DecimalText ascii KwScanner.zero (bytes "42") := by
  intro t ht
  have : t.lit = bytes "42" := by revert t; decide +kernel
  intro b rest e
  rw [this] at e
  cases e
example : libAnswer "doc = INT/push;" ⟨false, false⟩ "42" = some (true, [42]) ∧ genAnswer "doc = INT/push;" ⟨false, false⟩ "42" = some (true, [42]) := by decide +kernel
example : libAnswer "doc = INT/push;" ⟨false, false⟩ "42 x" = some (false, [42]) ∧ genAnswer "doc = INT/push;" ⟨false, false⟩ "42 x" = some (false, [42]) := by decide +kernel
example : libAnswer "doc = INT/push;" ⟨false, false⟩ "99999999999999999999" = none ∧ genAnswer "doc = INT/push;" ⟨false, false⟩ "99999999999999999999" = none := by decide +kernel

end Tpl.Props
