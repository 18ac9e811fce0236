import Verif.Proof.QlangInterp
import Verif.Props.Reads
import Verif.Proof.CalcGrammar

/-
C84 to C89: interpreters written in qlang (tpl/qlang/cl/interpreter).
-/
namespace Tpl.Props
open Tpl Tpl.Spec QInterp QInterp.Spec KwScanner
variable {E X Obj Cls τ F V W : Type}

/-! ## C84: what the functions of the table get -/

/-- Every name asks for exactly one thing. -/
theorem C84_wants (mark : Str) : ∃ w, Wants mark w ∧ ∀ w', Wants mark w' → w' = w := by
  have differ : ∀ (a b : String), Tpl.str a ≠ Tpl.str b → LastWord mark (Tpl.str a) → ¬ LastWord mark (Tpl.str b) :=
    fun a b h h1 h2 => h (lastWord_unique h1 h2)
  by_cases hc : Counts mark
  · refine ⟨_, .length hc, fun w' h => ?_⟩
    cases h <;> first | rfl | contradiction
  · by_cases h1 : LastWord mark (Tpl.str "Src")
    · refine ⟨_, .tokens hc h1, fun w' h => ?_⟩
      cases h with
      | tokens => rfl
      | length h => exact absurd h hc
      | engine _ h => exact absurd h (differ _ _ (by decide) h1)
      | float _ h => exact absurd h (differ _ _ (by decide) h1)
      | int _ h => exact absurd h (differ _ _ (by decide) h1)
      | text _ h => exact absurd h1 (h _ (by simp))
    · by_cases h2 : LastWord mark (Tpl.str "Engine")
      · refine ⟨_, .engine hc h2, fun w' h => ?_⟩
        cases h with
        | engine => rfl
        | length h => exact absurd h hc
        | tokens _ h => exact absurd h h1
        | float _ h => exact absurd h (differ _ _ (by decide) h2)
        | int _ h => exact absurd h (differ _ _ (by decide) h2)
        | text _ h => exact absurd h2 (h _ (by simp))
      · by_cases h3 : LastWord mark (Tpl.str "Float")
        · refine ⟨_, .float hc h3, fun w' h => ?_⟩
          cases h with
          | float => rfl
          | length h => exact absurd h hc
          | tokens _ h => exact absurd h h1
          | engine _ h => exact absurd h h2
          | int _ h => exact absurd h (differ _ _ (by decide) h3)
          | text _ h => exact absurd h3 (h _ (by simp))
        · by_cases h4 : LastWord mark (Tpl.str "Int")
          · refine ⟨_, .int hc h4, fun w' h => ?_⟩
            cases h with
            | int => rfl
            | length h => exact absurd h hc
            | tokens _ h => exact absurd h h1
            | engine _ h => exact absurd h h2
            | float _ h => exact absurd h h3
            | text _ h => exact absurd h4 (h _ (by simp))
          · refine ⟨_, .text hc ?_, fun w' h => ?_⟩
            · intro w hw
              simp only [List.mem_cons, List.not_mem_nil, or_false] at hw
              rcases hw with rfl | rfl | rfl | rfl <;> assumption
            · cases h with
              | text => rfl
              | length h => exact absurd h hc
              | tokens _ h => exact absurd h h1
              | engine _ h => exact absurd h h2
              | float _ h => exact absurd h h3
              | int _ h => exact absurd h h4

/-- The names of the examples in the documentation style. -/
example : Wants (Tpl.str "pushInt") .int ∧ Wants (Tpl.str "ARITY") .length ∧ Wants (Tpl.str "_ARITY") .length ∧
    Wants (Tpl.str "codeSrc") .tokens ∧ Wants (Tpl.str "pushs") .text := by
  have cap : ∀ b : UInt8, Capital b → b ≠ 112 ∧ b ≠ 99 ∧ b ≠ 95 := by
    rintro b ⟨h1, h2⟩
    refine ⟨?_, ?_, ?_⟩ <;> rintro rfl <;> exact absurd h2 (by decide)
  have nc : ∀ {b rest}, (b = 112 ∨ b = 99) → ¬ Counts (b :: rest) := by
    rintro b rest hb ⟨b', rest', hc, h | h⟩ <;> cases h
    · rcases hb with rfl | rfl
      · exact (cap _ hc).1 rfl
      · exact (cap _ hc).2.1 rfl
    · rcases hb with hb | hb <;> cases hb
  refine ⟨.int (nc (.inl rfl)) ((lastWord_iff (by decide)).mp (by decide)), .length ⟨65, _, by unfold Capital; decide, .inl rfl⟩,
    .length ⟨65, _, by unfold Capital; decide, .inr rfl⟩, .tokens (nc (.inr rfl)) ((lastWord_iff (by decide)).mp (by decide)),
    .text (nc (.inl rfl)) ?_⟩
  intro w hw h
  have : Tpl.str w ≠ [] := by obtain ⟨_, _, _, _, e, _⟩ := h; rw [e]; nofun
  have := (lastWord_iff this).mpr h
  simp only [List.mem_cons, List.not_mem_nil, or_false] at hw
  rcases hw with rfl | rfl | rfl | rfl <;> exact absurd this (by decide)

section
variable (H : Host E X Obj Cls τ F V W) [DecidableEq Cls] {P : Entries E X Obj Cls τ V W} {env : Env Str}

/-- The object a method is called on: the stack, or the current interpreter. -/
inductive On (P : Entries E X Obj Cls τ V W) (cur : Obj) : Option Cls → Obj → Prop
  | stack : On P cur (some (H.cls P.stk)) P.stk
  | interpreter : H.cls P.ip ≠ H.cls P.stk → On P cur (some (H.cls P.ip)) cur

theorem on_receiver {cur : Obj} {fn : Fun (Go Str (Eng Obj τ) (IPanic E X)) Cls V} {this : Obj} (h : On H P cur fn.cls this) :
    receiver H P fn ≠ 0 ∧ (if receiver H P fn = 1 then P.stk else cur) = this := by
  unfold receiver
  generalize fn.cls = c at h
  cases h with
  | stack => rw [if_pos rfl]; exact ⟨nofun, rfl⟩
  | interpreter hn =>
    rw [if_neg (fun h => by injection h with h; exact hn h), if_pos rfl]
    exact ⟨nofun, rfl⟩

theorem eval_act {mark : Str} {e} (he : P.table mark = some e) {g : Gr Str} {src : List Token} {s s1 : St (Eng Obj τ)} {n}
    (h : Eval env (sem H P) g src s (.ok n s1)) (hr : Runs s1.u.mute mark) {f : Nat} {o}
    (hp : (perform H P mark e (src.take n) g).run f (matchG env (sem H P) f) s1 = some o) :
    Eval env (sem H P) (.action mark g) src s (match o with
      | .ok _ s2 => .ok n s2
      | .panic p s2 => .panic p s2) := by
  refine eval_action.mpr ⟨_, h, .inr ⟨eval_le h, o, ⟨f, ?_⟩, ?_⟩⟩
  · exact (act_runs H he hr).trans hp
  · cases o <;> rfl

/-- C84: a method of the class of the stack or of the interpreter is called with its object and,
if it has a second parameter, with what the name of the mark asks for.  It may do anything,
also run the engine again; how it ends is how the match goes on.  If what the name asks for
is not there (no token, no number), the match panics and the method is not called. -/
theorem C84_method {mark : Str} {fn : Fun (Go Str (Eng Obj τ) (IPanic E X)) Cls V} (he : P.table mark = some (.fn fn))
    {g : Gr Str} {src : List Token} {s s1 : St (Eng Obj τ)} {n} (h : Eval env (sem H P) g src s (.ok n s1))
    (hr : Runs s1.u.mute mark) {this : Obj} (hon : On H P s1.u.ipt fn.cls this) {w : Want} (hw : Wants mark w) :
    (fn.arity = 1 → ∀ f o, (fn.call [H.obj this]).run f (matchG env (sem H P) f) s1 = some o →
      Eval env (sem H P) (.action mark g) src s (match o with
        | .ok _ s2 => .ok n s2
        | .panic p s2 => .panic p s2)) ∧
    (fn.arity = 2 → ∀ a, argument H mark (src.take n) (g.len s1.len) w = .ok a →
      ∀ f o, (fn.call [H.obj this, a]).run f (matchG env (sem H P) f) s1 = some o →
      Eval env (sem H P) (.action mark g) src s (match o with
        | .ok _ s2 => .ok n s2
        | .panic p s2 => .panic p s2)) ∧
    (fn.arity = 2 → ∀ p, argument H mark (src.take n) (g.len s1.len) w = .error p →
      Eval env (sem H P) (.action mark g) src s (.panic (.user p) s1)) := by
  obtain ⟨hk, hthis⟩ := on_receiver H hon
  refine ⟨?_, ?_, ?_⟩
  · intro ha f o ho
    have := perform_one H (mark := mark) (g := g) (toks := src.take n) (f := f) (m := matchG env (sem H P) f) (s := s1) hk (by omega)
    rw [hthis, Go.run_bind, ho] at this
    cases o with
    | ok v s2 => exact eval_act H he h hr this
    | panic p s2 => exact eval_act H he h hr this
  · intro ha a hg f o ho
    have := perform_two H hw (g := g) (toks := src.take n) (f := f) (m := matchG env (sem H P) f) (s := s1) hk ha
    rw [hg] at this
    dsimp only at this
    rw [hthis, Go.run_bind, ho] at this
    cases o with
    | ok v s2 => exact eval_act H he h hr this
    | panic p s2 => exact eval_act H he h hr this
  · intro ha p hg
    have := perform_two H hw (g := g) (toks := src.take n) (f := 0) (m := matchG env (sem H P) 0) (s := s1) hk ha
    rw [hg] at this
    exact eval_act H he h hr this

/-- The class of the function is neither that of the stack nor that of the interpreter. -/
def Plain (P : Entries E X Obj Cls τ V W) (fn : Fun (Go Str (Eng Obj τ) (IPanic E X)) Cls V) : Prop :=
  fn.cls ≠ some (H.cls P.stk) ∧ fn.cls ≠ some (H.cls P.ip)

/-- C84: another function gets from the method popArgs of the stack as many arguments as it has
parameters, in that order, and its value is given to the method push. -/
theorem C84_function {mark : Str} {fn : Fun (Go Str (Eng Obj τ) (IPanic E X)) Cls V} (he : P.table mark = some (.fn fn))
    {g : Gr Str} {src : List Token} {s s1 : St (Eng Obj τ)} {n} (h : Eval env (sem H P) g src s (.ok n s1))
    (hr : Runs s1.u.mute mark) (hpl : Plain H P fn) {pop push : Fun (Go Str (Eng Obj τ) (IPanic E X)) Cls V}
    (hpop : H.method (H.cls P.stk) (Tpl.str "popArgs") = some pop) (hpush : H.method (H.cls P.stk) (Tpl.str "push") = some push)
    {f : Nat} {v args ret s2 s3} (h1 : (pop.call [H.obj P.stk, H.int fn.arity]).run f (matchG env (sem H P) f) s1 = some (.ok v s2))
    (hv : H.elems v = some args) (h2 : (fn.call args).run f (matchG env (sem H P) f) s2 = some (.ok ret s3)) {o}
    (h3 : (push.call [H.obj P.stk, ret]).run f (matchG env (sem H P) f) s3 = some o) :
    Eval env (sem H P) (.action mark g) src s (match o with
      | .ok _ s2 => .ok n s2
      | .panic p s2 => .panic p s2) := by
  have hk : receiver H P fn = 0 := by unfold receiver; rw [if_neg hpl.1, if_neg hpl.2]
  have : (perform H P mark (.fn fn) (src.take n) g).run f (matchG env (sem H P) f) s1 =
      (push.call [H.obj P.stk, ret] >>= fun _ => pure ()).run f (matchG env (sem H P) f) s3 := by
    rw [perform_plain H hk]
    unfold callVfn callN
    rw [hpop, hpush]
    dsimp only
    rw [Go.bind_ok h1, hv]
    dsimp only
    rw [Go.bind_ok h2]
  rw [Go.run_bind, h3] at this
  cases o with
  | ok v s2 => exact eval_act H he h hr this
  | panic p s2 => exact eval_act H he h hr this

/-- C84: a muted mark calls nothing. -/
theorem C84_muted {mark : Str} {e} (he : P.table mark = some e) {g : Gr Str} {src : List Token} {s s1 : St (Eng Obj τ)} {n}
    (h : Eval env (sem H P) g src s (.ok n s1)) (hr : ¬ Runs s1.u.mute mark) :
    Eval env (sem H P) (.action mark g) src s (.ok n s1) :=
  eval_action.mpr ⟨_, h, .inr ⟨eval_le h, .ok () s1, ⟨0, act_skipped H he hr⟩, rfl⟩⟩

/-! ## C85: Go functions in the table -/

/-- The panic of package reflect for arguments of the wrong type. -/
def badArgs : Panic Str (IPanic E X) := .user (.str .reflect)

/-- C85, as far as it holds: a Go function is called with the arguments that popArgs returns if
they can be passed to it, as `reflect` sees the elements of the slice; its first result, or
nil, is given to push. -/
theorem C85_go_partial {mark : Str} {fn : GoFn (Go Str (Eng Obj τ) (IPanic E X)) W} (he : P.table mark = some (.go fn))
    {g : Gr Str} {src : List Token} {s s1 : St (Eng Obj τ)} {n} (h : Eval env (sem H P) g src s (.ok n s1))
    (hr : Runs s1.u.mute mark) (hf : fn.rest = none) {pop push : Fun (Go Str (Eng Obj τ) (IPanic E X)) Cls V}
    (hpop : H.method (H.cls P.stk) (Tpl.str "popArgs") = some pop) (hpush : H.method (H.cls P.stk) (Tpl.str "push") = some push)
    {f : Nat} {v ws s2} (h1 : (pop.call [H.obj P.stk, H.int fn.ins.length]).run f (matchG env (sem H P) f) s1 = some (.ok v s2))
    (hv : H.index v = some ws) :
    ((ws.length = fn.ins.length ∧ ∀ p ∈ ws.zip fn.ins, H.refl.assignable p.1 p.2 = true) →
      ∀ outs s3, (fn.body ws).run f (matchG env (sem H P) f) s2 = some (.ok outs s3) →
      ∀ o, (push.call [H.obj P.stk, (outs.head?.map H.iface).getD H.nil]).run f (matchG env (sem H P) f) s3 = some o →
      Eval env (sem H P) (.action mark g) src s (match o with
        | .ok _ s2 => .ok n s2
        | .panic p s2 => .panic p s2)) ∧
    (¬ (ws.length = fn.ins.length ∧ ∀ p ∈ ws.zip fn.ins, H.refl.assignable p.1 p.2 = true) →
      Eval env (sem H P) (.action mark g) src s (.panic badArgs s2)) := by
  have key : ∀ (ws : List W) (ts : List GoTy), ((ws.map some).zip ts).all (fun (v, t) => match v with
      | none => false
      | some w => H.refl.assignable w t) = true ↔ ∀ p ∈ ws.zip ts, H.refl.assignable p.1 p.2 = true := by
    intro ws
    induction ws with
    | nil => intro ts; simp
    | cons w ws ih =>
      intro ts
      cases ts with
      | nil => simp
      | cons t ts =>
        rw [List.map_cons, List.zip_cons_cons, List.all_cons, Bool.and_eq_true, ih, List.zip_cons_cons, List.forall_mem_cons]
  have hft : ∀ n, fn.types n = fn.ins := by intro n; unfold GoFn.types; rw [hf]
  have hcall : (perform H P mark (.go fn) (src.take n) g).run f (matchG env (sem H P) f) s1 =
      (reflectCall H.refl fn (ws.map some) >>= fun out => callN H P.stk (Tpl.str "push") [pushed H out] >>= fun _ => pure ()).run f (matchG env (sem H P) f) s2 := by
    unfold perform callFn
    dsimp only
    rw [Go.bind_ok (a := v) (s' := s2) (by unfold callN; rw [hpop]; exact h1), hv]
  unfold reflectCall at hcall
  rw [hft] at hcall
  constructor
  · rintro ⟨hl, ha⟩ outs s3 hb o ho
    rw [if_pos ⟨by rw [List.length_map]; exact hl, (key _ _).mpr ha⟩] at hcall
    have hfm : (ws.map some).filterMap id = ws := by simp [List.filterMap_map]
    rw [hfm, Go.bind_ok hb] at hcall
    have hp : (callN H P.stk (Tpl.str "push") [pushed H outs]).run f (matchG env (sem H P) f) s3 = some o := by
      have hh : pushed H outs = (outs.head?.map H.iface).getD H.nil := by cases outs <;> rfl
      unfold callN; rw [hpush, hh]; exact ho
    rw [Go.run_bind, hp] at hcall
    cases o with
    | ok v s2 => exact eval_act H he h hr hcall
    | panic p s2 => exact eval_act H he h hr hcall
  · intro hn
    rw [if_neg (fun h => hn ⟨by simpa using h.1, (key _ _).mp h.2⟩)] at hcall
    exact eval_act H he h hr hcall

/-! ## C87, C88: programs -/

/-- The state in which the match of a text begins. -/
def begun (U : Uni) (r : CompileRet Str) (src : Str) (s : St (Eng Obj τ)) : St (Eng Obj τ) :=
  { s with u := { s.u with mute := 0, scanner := (s.u.scanner.tokenize U src r.mode).2 } }

/-- How `Exec` ends, by how the match ends. -/
def ended (toks : List Token) : Res Str (Eng Obj τ) (IPanic E X) → Cb Str (Eng Obj τ) (IPanic E X) (Option (QInterp.ExecErr E X))
  | .ok n s => if n = toks.length then .ok none s else .ok (some (.matched (.match_ (mismatch .eof (toks.drop n))))) s
  | .fail _ e s => .ok (some (.matched (.match_ e))) s
  | .panic p s => if returned p then .ok (some (.panicked p)) s else .panic p s

theorem exec_tokens {r : CompileRet Str} (hr : r.root ≠ .nil) {U : Uni} {src : Str} {s : St (Eng Obj τ)}
    (hk : Steps U KwScanner.zero s.u.scanner) {toks eof} (ht : Tokenizes U s.u.scanner src r.mode toks eof) (fuel : Nat) :
    exec H P r U fuel src s = (matchG r.env (sem H P) fuel r.root toks (begun U r src s)).map (ended toks) := by
  unfold exec QInterp.matchExactly Matcher.matchExactly
  dsimp only
  have := match_eq ⟨r.root, r.mode, engInit (s.u.scanner.tokenize U src r.mode).2, r.env, sem H P⟩ hr U fuel s.u.scanner src s
  generalize hm : Matcher.match_ ⟨r.root, r.mode, engInit (s.u.scanner.tokenize U src r.mode).2, r.env, sem H P⟩ U fuel s.u.scanner src s = x at this
  obtain ⟨x, k⟩ := x
  dsimp only at this
  rw [(tokenizes_ok hk ht).1] at this
  dsimp only at this
  rw [show (engInit (s.u.scanner.tokenize U src r.mode).2 s : Cb Str (Eng Obj τ) (IPanic E X) Unit) = .ok () (begun U r src s) from rfl] at this
  dsimp only at this
  subst this
  cases he : matchG r.env (sem H P) fuel r.root toks (begun U r src s) with
  | none => rfl
  | some o =>
    cases o with
    | ok n s1 =>
      dsimp only [Option.map, ended]
      have hn : n ≤ toks.length := matchG_short _ _ _ _ _ he
      by_cases hl : n = toks.length
      · rw [if_neg (by rw [List.length_drop]; omega), if_pos hl]
      · rw [if_pos (by rw [List.length_drop]; omega), if_neg hl]
    | fail n e s1 => rfl
    | panic p s1 =>
      dsimp only [Option.map, ended]
      split <;> rfl

/-- A text that does not tokenize: `Exec` returns that error and nothing has been called. -/
theorem exec_untokenized {r : CompileRet Str} (hr : r.root ≠ .nil) {U : Uni} {src : Str} {s : St (Eng Obj τ)}
    {us off msg} (ht : (s.u.scanner.tokenize U src r.mode).1 = (us, some (off, msg))) (fuel : Nat) :
    exec H P r U fuel src s = some (.ok (some (.matched (.tokenize off msg))) s) := by
  unfold exec QInterp.matchExactly Matcher.matchExactly
  dsimp only
  have := match_eq ⟨r.root, r.mode, engInit (s.u.scanner.tokenize U src r.mode).2, r.env, sem H P⟩ hr U fuel s.u.scanner src s
  generalize hm : Matcher.match_ ⟨r.root, r.mode, engInit (s.u.scanner.tokenize U src r.mode).2, r.env, sem H P⟩ U fuel s.u.scanner src s = x at this
  obtain ⟨x, k⟩ := x
  dsimp only at this
  rw [ht] at this
  subst this
  rfl

section
variable {H} {L : Lang E X Obj τ Cls V} (hd : Describes H L P) {want : Str → Want} (hw : ∀ mark, Wants mark (want mark))
include hd hw

/-- C87: `Exec` returns nil and leaves the state `v` iff the text tokenizes, the grammar matches
all tokens, and the functions of the marks of the match, called one after the other as far as
they are not muted, make `v` of the state from before. -/
theorem C87_program {r : CompileRet Str} (hr : r.root ≠ .nil) {U : Uni} {src : Str} {s : St (Eng Obj τ)}
    (hk : Steps U KwScanner.zero s.u.scanner) (v : τ) :
    (∃ fuel s', exec H P r U fuel src s = some (.ok none s') ∧ s'.u.u = v) ↔
      ∃ toks eof len evs c, Tokenizes U s.u.scanner src r.mode toks eof ∧ Tr r.env (.one r.root) toks (.succ toks.length len) evs ∧
        play L (does H L want s.u.ipt) 0 evs s.u.u = .ok (c, v) := by
  constructor
  · rintro ⟨fuel, s', h, rfl⟩
    rcases tokenize_cases (U := U) s.u.scanner src r.mode with ⟨ts, ht⟩ | ⟨us, off, msg, ht⟩
    · obtain ⟨eof, ht⟩ := (tokenizes_iff hk).mp ht
      rw [exec_tokens H hr hk ht] at h
      cases he : matchG r.env (sem H P) fuel r.root ts (begun U r src s) with
      | none => rw [he] at h; cases h
      | some o =>
        rw [he] at h
        cases o with
        | fail n e s1 => cases h
        | panic p s1 => simp only [Option.map, ended] at h; split at h <;> cases h
        | ok n s1 =>
          simp only [Option.map, ended] at h
          split at h
          · rename_i hn
            subst hn
            injection h with h
            injection h with _ h
            subst h
            rw [sem_calls H hd hw] at he
            obtain ⟨o, evs, htr, hev⟩ := C34_effect ⟨fuel, he⟩
            obtain ⟨rfl, hrun⟩ := hev
            have := calls_run H (L := L) want evs (begun U r src s).u []
            cases hp : play L (does H L want (begun U r src s).u.ipt) (begun U r src s).u.mute evs (begun U r src s).u.u with
            | error e =>
              rw [hp] at this
              obtain ⟨c, hc⟩ := this
              rw [hrun] at hc
              cases hc
            | ok x =>
              obtain ⟨c, v⟩ := x
              rw [hp] at this
              obtain ⟨vs', hc⟩ := this
              rw [hrun] at hc
              injection hc with hc
              injection hc with hc _
              refine ⟨ts, eof, _, evs, c, ht, htr, ?_⟩
              have e : s1.u.u = v := by rw [hc]
              rw [e]
              exact hp
          · cases h
    · rw [exec_untokenized H hr ht] at h
      injection h with h
      injection h with h
      cases h
  · rintro ⟨toks, eof, len, evs, c, ht, htr, hp⟩
    obtain ⟨o, h, hf⟩ := realise (c := calls H L want) htr (begun U r src s) [] stops_succ
    have := calls_run H (L := L) want evs (begun U r src s).u []
    change match play L (does H L want s.u.ipt) 0 evs s.u.u with
      | .ok (c, v) => ∃ vs', (calls H L want).run evs ((begun U r src s).u, []) = .ok ({ (begun U r src s).u with mute := c, u := v }, vs')
      | .error (p, v) => _ at this
    rw [hp] at this
    obtain ⟨vs', hc⟩ := this
    rcases cfit_succ hf with ⟨p, lens, u, hq, _⟩ | ⟨s1, rfl, _, hq⟩
    · rw [hc] at hq; cases hq
    · rw [hc] at hq
      injection hq with hq
      injection hq with hq _
      rw [← sem_calls H hd hw] at h
      obtain ⟨fuel, h⟩ := h
      refine ⟨fuel, s1, ?_, by rw [← hq]⟩
      rw [exec_tokens H hr hk ht, h]
      dsimp only [Option.map, ended]
      rw [if_pos rfl]

/-- C87: a panic `p` of one of the functions (or for want of an argument) that is a string or an
error is what `Exec` returns; what has been done before is done. -/
theorem C87_panics {r : CompileRet Str} (hr : r.root ≠ .nil) {U : Uni} {src : Str} {s : St (Eng Obj τ)}
    (hk : Steps U KwScanner.zero s.u.scanner) (p : IPanic E X) (hp : ∀ x, p ≠ .other x) (v : τ) :
    (∃ fuel s', exec H P r U fuel src s = some (.ok (some (.panicked (.user p))) s') ∧ s'.u.u = v) ↔
      ∃ toks eof evs, Tokenizes U s.u.scanner src r.mode toks eof ∧ Tr r.env (.one r.root) toks (.abort true) evs ∧
        play L (does H L want s.u.ipt) 0 evs s.u.u = .error (p, v) := by
  have hret : returned (.user p : Panic Str (IPanic E X)) = true := by
    unfold returned
    split
    · rename_i x h; injection h with h; exact absurd h (hp x)
    · rfl
  constructor
  · rintro ⟨fuel, s', h, rfl⟩
    rcases tokenize_cases (U := U) s.u.scanner src r.mode with ⟨ts, ht⟩ | ⟨us, off, msg, ht⟩
    · obtain ⟨eof, ht⟩ := (tokenizes_iff hk).mp ht
      rw [exec_tokens H hr hk ht] at h
      cases he : matchG r.env (sem H P) fuel r.root ts (begun U r src s) with
      | none => rw [he] at h; cases h
      | some o =>
        rw [he] at h
        cases o with
        | fail n e s1 => cases h
        | ok n s1 => simp only [Option.map, ended] at h; split at h <;> cases h
        | panic q s1 =>
          simp only [Option.map, ended] at h
          split at h
          · injection h with h
            injection h with h1 h2
            injection h1 with h1
            injection h1 with h1
            subst h1 h2
            rw [sem_calls H hd hw] at he
            obtain ⟨o, evs, htr, hev⟩ := C34_effect ⟨fuel, he⟩
            obtain ⟨rfl, hrun⟩ := hev
            have := calls_run H (L := L) want evs (begun U r src s).u []
            cases hp : play L (does H L want (begun U r src s).u.ipt) (begun U r src s).u.mute evs (begun U r src s).u.u with
            | ok x =>
              obtain ⟨c, v⟩ := x
              rw [hp] at this
              obtain ⟨vs', hc⟩ := this
              rw [hrun] at hc
              cases hc
            | error x =>
              obtain ⟨q, v⟩ := x
              rw [hp] at this
              obtain ⟨c, hc⟩ := this
              rw [hrun] at hc
              injection hc with hc
              injection hc with hc1 hc2
              subst hc1
              refine ⟨ts, eof, evs, ht, htr, ?_⟩
              have e : s1.u.u = v := by rw [hc2]
              rw [e]
              exact hp
          · cases h
    · rw [exec_untokenized H hr ht] at h
      injection h with h
      injection h with h
      injection h with h
      cases h
  · rintro ⟨toks, eof, evs, ht, htr, hpl⟩
    have := calls_run H (L := L) want evs (begun U r src s).u []
    change match play L (does H L want s.u.ipt) 0 evs s.u.u with
      | .ok (c, v) => _
      | .error (p, v) => ∃ c, (calls H L want).run evs ((begun U r src s).u, []) = .error (p, { (begun U r src s).u with mute := c, u := v }) at this
    rw [hpl] at this
    obtain ⟨c, hc⟩ := this
    obtain ⟨o, h, hf⟩ := realise (c := calls H L want) htr (begun U r src s) [] (fun _ => ⟨_, hc⟩)
    obtain ⟨q, s1, rfl, hq⟩ := cfit_abort hf
    have hq := hq fun l => r.root.len l
    rw [hc] at hq
    have : q = .user p ∧ s1.u.u = v := by
      rcases hq with ⟨p', lens, u, h1, h2⟩ | hq
      · injection h1 with h1; injection h1 with h1 h3; injection h2 with h2 h4
        subst h1 h2 h4 h3
        exact ⟨rfl, rfl⟩
      · rcases hq with ⟨_, q', h1, h2⟩ | ⟨h1, _⟩
        · injection h2 with h2; injection h2 with h2 h3
          subst h1 h2
          exact ⟨rfl, by rw [← h3]⟩
        · cases h1
    obtain ⟨rfl, rfl⟩ := this
    rw [← sem_calls H hd hw] at h
    obtain ⟨fuel, h⟩ := h
    refine ⟨fuel, s1, ?_, rfl⟩
    rw [exec_tokens H hr hk ht, h]
    simp only [Option.map, ended]
    rw [if_pos hret]

end

/-- C88: whatever the functions of the interpreter do, `Exec` panics with no other values than
those that are neither strings nor errors, and these it passes on. -/
theorem C88_returns (r : CompileRet Str) (U : Uni) (fuel : Nat) (src : Str) (s s' : St (Eng Obj τ)) (p : Panic Str (IPanic E X)) :
    exec H P r U fuel src s = some (.panic p s') ↔
      (∃ x, p = .user (.other x)) ∧ QInterp.matchExactly H P r U fuel src s = some (.panic p s') := by
  have key : ∀ q : Panic Str (IPanic E X), returned q = false ↔ ∃ x, q = .user (.other x) := by
    intro q
    unfold returned
    split
    · exact ⟨fun _ => ⟨_, rfl⟩, fun _ => rfl⟩
    · rename_i hn; exact ⟨nofun, fun ⟨x, hx⟩ => absurd hx (hn x)⟩
  unfold exec
  cases hm : QInterp.matchExactly H P r U fuel src s with
  | none => exact ⟨nofun, fun h => nomatch h.2⟩
  | some o =>
    cases o with
    | ok n s1 => exact ⟨nofun, fun h => nomatch h.2⟩
    | err e s1 => exact ⟨nofun, fun h => nomatch h.2⟩
    | panic q s1 =>
      dsimp only
      cases hq : returned q with
      | true =>
        rw [if_pos rfl]
        refine ⟨nofun, fun ⟨hx, h⟩ => ?_⟩
        injection h with h
        injection h with h
        rw [h, (key p).mpr hx] at hq
        cases hq
      | false =>
        rw [if_neg (by nofun)]
        constructor
        · intro h
          injection h with h
          injection h with h h'
          rw [h] at hq
          rw [h, h']
          exact ⟨(key p).mp hq, rfl⟩
        · rintro ⟨_, h⟩
          injection h with h
          injection h with h h'
          rw [h, h']

/-- C88: what an earlier program left in the mute counter does not matter: a text that tokenizes
is run as with a counter of 0. -/
theorem C88_unmuted {r : CompileRet Str} (hr : r.root ≠ .nil) {U : Uni} {src : Str} {s : St (Eng Obj τ)}
    (hk : Steps U KwScanner.zero s.u.scanner) {toks eof} (ht : Tokenizes U s.u.scanner src r.mode toks eof) (fuel : Nat) (c : Int) :
    exec H P r U fuel src { s with u := { s.u with mute := c } } = exec H P r U fuel src s := by
  rw [exec_tokens H hr hk ht, exec_tokens H hr (s := { s with u := { s.u with mute := c } }) hk ht]
  rfl

/-- C88: however `EvalCode` ends, the current interpreter and the counter are those from before.
(interpret.go:320-330 is the same code as tpl/interpreter's, modelled by `evalCode`.) -/
theorem C88_evalCode (r : CompileRet Str) (U : Uni) (fn : Obj) (name : Str) (src : SubSrc) (f : Nat) (s : St (Eng Obj τ)) {o}
    (h : (evalCode r U fn name src).run f (matchG r.env (sem H P) f) s = some o) :
    o.st.u.ipt = s.u.ipt ∧ o.st.u.mute = s.u.mute := C49_restores r U fn name src f _ s h

/-! ## C89: New -/

/-- The marks `New` accepts: muting and tracing; Go functions with a fixed number of parameters,
at least one; qlang functions of the same kind, those of the class of the stack or the
interpreter with at most two; a qlang function needs a name other than `_`. -/
inductive Accepted (P : Entries E X Obj Cls τ V W) (mark : Str) : Prop
  | builtin : P.table mark = none → mark = Tpl.str "_mute" ∨ mark = Tpl.str "_unmute" ∨ mark = Tpl.str "_tr" → Accepted P mark
  | go fn : P.table mark = some (.go fn) → fn.rest = none → 1 ≤ fn.ins.length → Accepted P mark
  | method fn : P.table mark = some (.fn fn) → ¬ Plain H P fn → fn.variadic = false → 1 ≤ fn.arity → fn.arity ≤ 2 →
      mark ≠ [] → mark ≠ Tpl.str "_" → Accepted P mark
  | function fn : P.table mark = some (.fn fn) → Plain H P fn → fn.variadic = false → 1 ≤ fn.arity →
      mark ≠ [] → mark ≠ Tpl.str "_" → Accepted P mark

omit [DecidableEq Cls] in
theorem lenChar_iff (mark : Str) : (∃ c, lenChar mark = some c) ↔ mark ≠ [] ∧ mark ≠ Tpl.str "_" := by
  match mark with
  | [] => exact ⟨(by rintro ⟨c, h⟩; cases h), fun h => absurd rfl h.1⟩
  | [95] => exact ⟨(by rintro ⟨c, h⟩; cases h), fun h => absurd rfl h.2⟩
  | 95 :: b :: rest => exact ⟨fun _ => ⟨nofun, by intro h; cases h⟩, fun _ => ⟨b, rfl⟩⟩
  | c :: rest =>
    by_cases hc : c = 95
    · subst hc
      cases rest with
      | nil => exact ⟨(by rintro ⟨c, h⟩; cases h), fun h => absurd rfl h.2⟩
      | cons b rest => exact ⟨fun _ => ⟨nofun, by intro h; cases h⟩, fun _ => ⟨b, rfl⟩⟩
    · exact ⟨fun _ => ⟨nofun, fun h => hc (by injection h)⟩, fun _ => ⟨c, lenChar_cons hc rest⟩⟩

/-- C89: the mark is accepted iff `Accepted`, and then it is attached to its grammar. -/
theorem C89_marks (g g' : Gr Str) (mark : Str) :
    marker H P g mark = .ok g' ↔ Accepted H P mark ∧ g' = .action mark g := by
  have rec0 : ∀ fn, receiver H P fn > 0 ↔ ¬ Plain H P fn := by
    intro fn
    unfold receiver Plain
    by_cases h1 : fn.cls = some (H.cls P.stk)
    · rw [if_pos h1]; exact ⟨fun _ h => h.1 h1, fun _ => by decide⟩
    · rw [if_neg h1]
      by_cases h2 : fn.cls = some (H.cls P.ip)
      · rw [if_pos h2]; exact ⟨fun _ h => h.2 h2, fun _ => by decide⟩
      · rw [if_neg h2]; exact ⟨fun h => by omega, fun h => absurd ⟨h1, h2⟩ h⟩
  unfold marker
  cases ht : P.table mark with
  | none =>
    dsimp only
    constructor
    · intro h
      split at h
      · rename_i hm; cases h; exact ⟨.builtin ht hm, rfl⟩
      · cases h
    · rintro ⟨ha, rfl⟩
      cases ha with
      | builtin _ hm => rw [if_pos hm]
      | go fn h => rw [ht] at h; cases h
      | method fn h => rw [ht] at h; cases h
      | function fn h => rw [ht] at h; cases h
  | some e =>
    cases e with
    | nil =>
      refine ⟨nofun, fun ⟨ha, _⟩ => ?_⟩
      cases ha with
      | builtin h => rw [ht] at h; cases h
      | go fn h => rw [ht] at h; cases h
      | method fn h => rw [ht] at h; cases h
      | function fn h => rw [ht] at h; cases h
    | other =>
      refine ⟨nofun, fun ⟨ha, _⟩ => ?_⟩
      cases ha with
      | builtin h => rw [ht] at h; cases h
      | go fn h => rw [ht] at h; cases h
      | method fn h => rw [ht] at h; cases h
      | function fn h => rw [ht] at h; cases h
    | go fn =>
      dsimp only
      constructor
      · intro h
        split at h
        · cases h
        · rename_i h1
          split at h
          · cases h
          · cases h
            exact ⟨.go fn ht (by cases hr : fn.rest with
              | none => rfl
              | some t => rw [hr] at h1; exact absurd rfl h1) (by omega), rfl⟩
      · rintro ⟨ha, rfl⟩
        cases ha with
        | builtin h => rw [ht] at h; cases h
        | go fn h h1 h2 =>
          rw [ht] at h; cases h
          rw [h1, if_neg (by nofun), if_neg (by omega)]
        | method fn h => rw [ht] at h; cases h
        | function fn h => rw [ht] at h; cases h
    | fn fn =>
      dsimp only
      constructor
      · intro h
        split at h
        · cases h
        · rename_i h1
          split at h
          · cases h
          · split at h
            · cases h
            · rename_i h2 h3
              split at h
              · rename_i c hc
                cases h
                obtain ⟨n1, n2⟩ := (lenChar_iff mark).mp ⟨_, hc⟩
                have hv : fn.variadic = false := by simpa using h1
                by_cases hp : Plain H P fn
                · exact ⟨.function fn ht hp hv (by omega) n1 n2, rfl⟩
                · exact ⟨.method fn ht hp hv (by omega) (by
                    have := (rec0 fn).mpr hp
                    by_cases h4 : fn.arity > 2
                    · exact absurd ⟨this, h4⟩ h3
                    · omega) n1 n2, rfl⟩
              · cases h
      · rintro ⟨ha, rfl⟩
        cases ha with
        | builtin h => rw [ht] at h; cases h
        | go fn h => rw [ht] at h; cases h
        | method fn h hp hv h1 h2 n1 n2 =>
          rw [ht] at h; cases h
          obtain ⟨c, hc⟩ := (lenChar_iff mark).mpr ⟨n1, n2⟩
          rw [hv, if_neg (by nofun), if_neg (by omega), if_neg (by rintro ⟨_, h⟩; omega), hc]
        | function fn h hp hv h1 n1 n2 =>
          rw [ht] at h; cases h
          obtain ⟨c, hc⟩ := (lenChar_iff mark).mpr ⟨n1, n2⟩
          rw [hv, if_neg (by nofun), if_neg (by omega), if_neg (by rintro ⟨h, _⟩; exact (rec0 fn).mp h hp), hc]

/-- The method `name` of `o`, called without arguments, returns `v`. -/
def Answers (m : Mat Str (Eng Obj τ) (IPanic E X)) (o : Obj) (name : Str) (s : St (Eng Obj τ)) (v : V) (s' : St (Eng Obj τ)) : Prop :=
  ∃ fn f, H.method (H.cls o) name = some fn ∧ (fn.call [H.obj o]).run f m s = some (.ok v s')

omit [DecidableEq Cls] in
theorem answers_iff {m : Mat Str (Eng Obj τ) (IPanic E X)} {o : Obj} {name : Str} {s s' : St (Eng Obj τ)} {v : V} :
    Answers H m o name s v s' ↔ ∃ f, (callN H o name []).run f m s = some (.ok v s') := by
  unfold Answers callN
  constructor
  · rintro ⟨fn, f, h1, h2⟩; exact ⟨f, by rw [h1]; exact h2⟩
  · rintro ⟨f, h⟩
    cases hm : H.method (H.cls o) name with
    | none => rw [hm] at h; cases h
    | some fn => rw [hm] at h; exact ⟨fn, f, rfl, h⟩

/-- C89: `New` returns an engine iff its argument is an object whose methods stack, fntable and
grammar, called in this order, return an object, a map and a string, and the string compiles
as a grammar with the marks accepted for that stack and table (`C89_marks`, C40).  The new
engine interprets for that object, nothing is muted, and the state is as the methods left it. -/
theorem C89_new (ip1 : V) (mode : Mode) (U : Uni) (m : Mat Str (Eng Obj τ) (IPanic E X)) (s s' : St (Eng Obj τ)) (r : CompileRet Str) :
    (∃ fuel, new H ip1 mode U fuel m s = some (.engine P r, s')) ↔
      ∃ vstk s1 vtab tab s2 vgr grammar s3, H.asObj ip1 = some P.ip ∧
        Answers H m P.ip (Tpl.str "stack") s vstk s1 ∧ H.asObj vstk = some P.stk ∧
        Answers H m P.ip (Tpl.str "fntable") s1 vtab s2 ∧ H.asTable vtab = some tab ∧ P.table = tab s3.u.u ∧
        Answers H m P.ip (Tpl.str "grammar") s2 vgr s3 ∧ H.asStr vgr = some grammar ∧
        (∃ fuel, Compiler.cl ⟨grammar, marker H P, mode⟩ U fuel KwScanner.zero = some (.ok r)) ∧
        s' = ⟨fun _ => 0, ⟨0, P.ip, r.tab.scanner, s3.u.u⟩⟩ := by
  simp only [answers_iff]
  constructor
  · rintro ⟨fuel, h⟩
    unfold new at h
    cases hp : (prepare H ip1).run fuel m s with
    | none => rw [hp] at h; cases h
    | some o =>
      rw [hp] at h
      cases o with
      | panic p s1 => dsimp only at h; split at h <;> cases h
      | ok x s3 =>
        obtain ⟨P', grammar⟩ := x
        dsimp only at h
        cases hc : Compiler.cl ⟨grammar, marker H P', mode⟩ U fuel KwScanner.zero with
        | none => rw [hc] at h; cases h
        | some c =>
          rw [hc] at h
          cases c with
          | err e => cases h
          | panic p => cases h
          | ok r' =>
            cases h
            unfold prepare at hp
            cases h1 : H.asObj ip1 with
            | none => rw [h1] at hp; cases hp
            | some ip =>
              rw [h1] at hp
              dsimp only at hp
              rcases Go.bind_some.mp hp with ⟨_, _, _, e⟩ | ⟨vstk, s1, a1, hp⟩
              · cases e
              cases h2 : H.asObj vstk with
              | none => rw [h2] at hp; cases hp
              | some stk =>
                rw [h2] at hp
                dsimp only at hp
                rcases Go.bind_some.mp hp with ⟨_, _, _, e⟩ | ⟨vtab, s2, a2, hp⟩
                · cases e
                cases h3 : H.asTable vtab with
                | none => rw [h3] at hp; cases hp
                | some tab =>
                  rw [h3] at hp
                  dsimp only at hp
                  rcases Go.bind_some.mp hp with ⟨_, _, _, e⟩ | ⟨vgr, s4, a3, hp⟩
                  · cases e
                  cases h4 : H.asStr vgr with
                  | none => rw [h4] at hp; cases hp
                  | some gr =>
                    rw [h4] at hp
                    cases hp
                    exact ⟨vstk, s1, vtab, tab, s2, vgr, grammar, s3, rfl, ⟨fuel, a1⟩, h2, ⟨fuel, a2⟩, h3, rfl, ⟨fuel, a3⟩, h4, ⟨fuel, hc⟩, rfl⟩
  · rintro ⟨vstk, s1, vtab, tab, s2, vgr, grammar, s3, h1, ⟨f1, a1⟩, h2, ⟨f2, a2⟩, h3, ht, ⟨f3, a3⟩, h4, ⟨f4, hc⟩, rfl⟩
    obtain ⟨fuel, l1, l2, l3, l4⟩ : ∃ n, f1 ≤ n ∧ f2 ≤ n ∧ f3 ≤ n ∧ f4 ≤ n := ⟨max (max f1 f2) (max f3 f4), by omega, by omega, by omega, by omega⟩
    have le : Mat.le m m := fun _ _ _ _ h => h
    have a1 := (callN H P.ip (Tpl.str "stack") []).mono f1 fuel m m l1 le _ _ a1
    have a2 := (callN H P.ip (Tpl.str "fntable") []).mono f2 fuel m m l2 le _ _ a2
    have a3 := (callN H P.ip (Tpl.str "grammar") []).mono f3 fuel m m l3 le _ _ a3
    have hc := cl_mono l4 hc
    have hprep : (prepare H ip1).run fuel m s = some (.ok (P, grammar) s3) := by
      unfold prepare
      rw [h1]
      dsimp only
      rw [Go.bind_ok a1, h2]
      dsimp only
      rw [Go.bind_ok a2, h3]
      dsimp only
      rw [Go.bind_ok a3, h4]
      dsimp only
      rw [Go.bind_ok Go.run_get, ← ht]
      rfl
    refine ⟨fuel, ?_⟩
    unfold new
    rw [hprep]
    dsimp only
    rw [hc]

/-- C89: the engine that `New` returns is one that C87 and C88 are about, unless its rule `doc` is
the nil grammar. -/
theorem C89_ready {ip1 : V} {mode : Mode} {U : Uni} {fuel : Nat} {m : Mat Str (Eng Obj τ) (IPanic E X)} {s s' : St (Eng Obj τ)} {r : CompileRet Str}
    (h : new H ip1 mode U fuel m s = some (.engine P r, s')) : Steps U KwScanner.zero s'.u.scanner ∧ s'.u.ipt = P.ip := by
  obtain ⟨_, _, _, _, _, _, _, _, _, _, _, _, _, _, _, _, ⟨_, hc⟩, rfl⟩ := (C89_new H ip1 mode U m s s' r).mp ⟨fuel, h⟩
  exact ⟨cl_steps (.refl _) hc, rfl⟩

/-- C89: the only panics that leave `New` are those of the methods with values that are neither
strings nor errors. -/
theorem C89_panics (ip1 : V) (mode : Mode) (U : Uni) (fuel : Nat) (m : Mat Str (Eng Obj τ) (IPanic E X)) (s s' : St (Eng Obj τ)) (p)
    (h : new H ip1 mode U fuel m s = some (.panic p, s')) : ∃ x, p = .user (.other x) := by
  unfold new at h
  split at h
  · cases h
  · rename_i q s1 hq
    split at h
    · cases h
    · rename_i hr
      cases h
      unfold returned at hr
      split at hr
      · exact ⟨_, rfl⟩
      · exact absurd rfl hr
  · split at h <;> cases h

/-! ## C86: numbers -/

omit [DecidableEq Cls] in
/-- C86, as far as it holds: a mark that asks for an integer gets the value of the INT token if
that is written in decimal; a panic from 2^63 on. -/
theorem C86_partial {U : Uni} {s0 : Scanner} {src : Str} {mode : Mode} {ts : List Token} {s' : Scanner}
    (h : Run U (Scanner.init s0 src mode) ts s') (he : s'.errs = []) {t : Token} (ht : t ∈ ts) (hk : t.kind = INT)
    (hdec : t.lit = [48] ∨ t.lit.head? ≠ some 48) {mark : Str} (more : List Token) (len : Int) :
    argument H mark (t :: more) len .int =
      if intValue t.lit < 2 ^ 63 then .ok (H.int (intValue t.lit)) else .error (.str (.arg mark (.num .range))) := by
  have hv := C50_value h he ht hk
  have : ParseInt t.lit = .ok (strconvInt t.lit 10) := by
    rcases hdec with hz | hd
    · rw [hz]; rfl
    · unfold ParseInt at hv ⊢
      split
      · rename_i hl; rw [hl] at hv; cases hv
      · rename_i hl; rw [hl]; rfl
      · rename_i hl; rw [hl] at hd; exact absurd rfl hd
      · rfl
  rw [this] at hv
  injection hv with hv
  unfold argument
  dsimp only
  rw [hv]
  by_cases hlt : intValue t.lit < 2 ^ 63
  · rw [if_pos hlt, if_pos hlt]
  · rw [if_neg hlt, if_neg hlt]

end

/-! ## An interpreter -/

/-- Values of the example. -/
inductive XVal where
  | nil
  | int (n : Int)
  | str (s : Str)
  | toks (ts : List Token)
  | eng
  | slice (vs : List XVal)
  | obj (n : Nat)
  | table
deriving Inhabited

def XVal.pops (args : List XVal) : Own Empty Empty (List XVal) XVal := fun u =>
  match args with
  | [_, .int n] => .ok (.slice (u.drop (u.length - n.toNat)), u.take (u.length - n.toNat))
  | _ => .error (.value, u)

def XVal.pushes (args : List XVal) : Own Empty Empty (List XVal) XVal := fun u =>
  match args with
  | [_, v] => .ok (.nil, u ++ [v])
  | _ => .error (.value, u)

def XVal.adds (args : List XVal) : Own Empty Empty (List XVal) XVal := fun u =>
  match args with
  | [.int a, .int b] => .ok (.int (a + b), u)
  | _ => .error (.value, u)

/-- A stack of class 1 and an interpreter of class 0. -/
def xLang : Lang Empty Empty Nat (List XVal) Nat XVal where
  stk := 1
  ip := 0
  pop := XVal.pops
  push := XVal.pushes
  fns mark :=
    if mark = Tpl.str "pushInt" then some ⟨some 1, 2, XVal.pushes⟩
    else if mark = Tpl.str "add" then some ⟨none, 2, XVal.adds⟩
    else none

def xGrammar : Str := Tpl.str "doc = INT/pushInt *('+' INT/pushInt/add);"

abbrev XCode (α : Type) := Code Empty Empty Nat (List XVal) α

/-- A Go function of type `func(int) int`. -/
def xNeg : GoFn (Go Str (Eng Nat (List XVal)) (IPanic Empty Empty)) (GoTy × XVal) where
  ins := [GoTy.int]
  rest := none
  body ws := pure (match ws with
    | [(_, .int n)] => [(GoTy.int, .int (-n))]
    | _ => [])

def xTable (mark : Str) : Option (Item (Go Str (Eng Nat (List XVal)) (IPanic Empty Empty)) Nat XVal (GoTy × XVal)) :=
  (xLang.fns mark).map fun f => .fn f.fn

/-- The slices are those of type []interface{}: what `Index` gives has the type interface{}. -/
def xHost : Host Empty Empty Nat Nat (List XVal) Nat XVal (GoTy × XVal) where
  cls := id
  method c name :=
    if c = 1 then
      if name = Tpl.str "popArgs" then some ⟨some 1, 2, false, fun vs => (XVal.pops vs).code⟩
      else if name = Tpl.str "push" then some ⟨some 1, 2, false, fun vs => (XVal.pushes vs).code⟩
      else none
    else if name = Tpl.str "stack" then some ⟨some 0, 1, false, fun _ => pure (.obj 1)⟩
    else if name = Tpl.str "fntable" then some ⟨some 0, 1, false, fun _ => pure .table⟩
    else if name = Tpl.str "grammar" then some ⟨some 0, 1, false, fun _ => pure (.str xGrammar)⟩
    else none
  obj := .obj
  nil := .nil
  str := .str
  int := .int
  float _ := .nil
  toks := .toks
  eng := .eng
  asObj | .obj n => some n | _ => none
  asStr | .str s => some s | _ => none
  asTable | .table => some fun _ => xTable | _ => none
  elems | .slice vs => some vs | _ => none
  index | .slice vs => some (vs.map fun v => (⟨20, 0⟩, v)) | _ => none
  iface w := w.2
  refl := ⟨(·.1), fun w t => w.1 = t || t = ⟨20, 0⟩, fun t => (t, .nil), id⟩
  parseFloat _ := none

def xParts : Entries Empty Empty Nat Nat (List XVal) XVal (GoTy × XVal) := ⟨0, 1, xTable⟩

theorem xDescribes : Describes xHost xLang xParts :=
  ⟨rfl, rfl, ⟨_, _, rfl⟩, ⟨_, _, rfl⟩, fun _ => rfl⟩

/-- What `New` gives. -/
def xNew (s0 : List XVal) : Option (NewRes Empty Empty Nat (Item (Go Str (Eng Nat (List XVal)) (IPanic Empty Empty)) Nat XVal (GoTy × XVal)) × St (Eng Nat (List XVal))) :=
  new xHost (.obj 0) ⟨false, false⟩ ascii 60 (fun _ _ _ => none) ⟨fun _ => 0, ⟨7, 9, KwScanner.zero, s0⟩⟩

/-- What `New` and then `Exec` give: is the error nil, and the stack. -/
def xRun (src : String) (s0 : List XVal) : Option (Bool × List XVal) :=
  match xNew s0 with
  | some (.engine P r, s) =>
    match exec xHost P r ascii 60 (Tpl.str src) s with
    | some (.ok e s) => some (e.isNone, s.u.u)
    | _ => none
  | _ => none

/-- Non-vacuity of C84, C87, C89: `New` gives an engine, and programs compute on the stack. -/
example : xRun "1+2+30" [] = some (true, [.int 33]) := by kernel_rfl
example : xRun "1+2" [.int 5] = some (true, [.int 5, .int 3]) := by kernel_rfl
example : (xRun "1+" []).map (·.1) = some false := by kernel_rfl

def xRet : CompileRet Str := match xNew [] with
  | some (.engine _ r, _) => r
  | _ => ⟨.nil, ⟨[], [], 0, KwScanner.zero⟩, ⟨false, false⟩⟩

example : ∃ s', xNew [] = some (.engine xParts xRet, s') ∧ xRet.root ≠ .nil := by
  have h : ((match xNew [] with | some (.engine _ _, _) => true | _ => false) && (match xRet.root with | .nil => false | _ => true)) = true := by kernel_rfl
  refine ⟨(xNew []).elim ⟨fun _ => 0, ⟨7, 9, KwScanner.zero, []⟩⟩ (·.2), by kernel_rfl, fun h0 => ?_⟩
  rw [h0, Bool.and_false] at h
  cases h
example : Accepted xHost xParts (Tpl.str "pushInt") :=
  .method _ rfl (fun h => h.1 rfl) rfl (by decide) (by decide) (by decide) (by decide)
example : Accepted xHost xParts (Tpl.str "add") := .function _ rfl ⟨nofun, nofun⟩ rfl (by decide) (by decide) (by decide)

/-- The table with a Go function. -/
def xGo : Entries Empty Empty Nat Nat (List XVal) XVal (GoTy × XVal) :=
  ⟨0, 1, fun mark => if mark = Tpl.str "neg" then some (.go xNeg) else xTable mark⟩

/-- C85 is violated: the value on top of the stack is an int, as the Go function wants it, but the
element of the slice that popArgs returns has the static type interface{}, which `reflect`
does not pass for an int: the program panics. -/
theorem C85_violated : Accepted xHost xGo (Tpl.str "neg") ∧ xNeg.ins = [GoTy.int] ∧
    ∀ (toks : List Token) (g : Gr Str) (ip : Nat) (k : KwScanner) (l : List XVal) (n : Int) (len : Nat → Nat) (f : Nat) (m),
      (action xHost xGo (Tpl.str "neg") g toks).run f m ⟨len, ⟨0, ip, k, l ++ [.int n]⟩⟩ =
        some (.panic badArgs ⟨len, ⟨0, ip, k, l⟩⟩) := by
  refine ⟨.go xNeg rfl rfl (by decide), rfl, fun toks g ip k l n len f m => ?_⟩
  have hp : XVal.pops [.obj 1, .int 1] (l ++ [.int n]) = .ok (.slice [.int n], l) := by
    simp [XVal.pops]
  refine (act_runs xHost (P := xGo) (e := .go xNeg) rfl (.inl (Int.le_refl 0))).trans ?_
  unfold perform callFn
  dsimp only
  have h1 : (callN xHost xGo.stk (Tpl.str "popArgs") [xHost.int xNeg.ins.length]).run f m ⟨len, ⟨0, ip, k, l ++ [.int n]⟩⟩ =
      some (.ok (.slice [.int n]) ⟨len, ⟨0, ip, k, l⟩⟩) := by
    show some _ = _
    rw [show XVal.pops [xHost.obj xGo.stk, xHost.int xNeg.ins.length] (l ++ [.int n]) = .ok (.slice [.int n], l) from hp]
  rw [Go.bind_ok h1]
  rfl

/-- C86 is violated: octal and hexadecimal numbers. -/
theorem C86_violated :
    intValue (Tpl.str "010") = 8 ∧ argument xHost (Tpl.str "pushInt") [⟨INT, 0, Tpl.str "010"⟩] 0 .int = .ok (xHost.int 10) ∧
    intValue (Tpl.str "0x10") = 16 ∧ argument xHost (Tpl.str "pushInt") [⟨INT, 0, Tpl.str "0x10"⟩] 0 .int = .error (.str (.arg (Tpl.str "pushInt") (.num .syntax_))) ∧
    xRun "010+1" [] = some (true, [.int 11]) ∧ (xRun "0x10" []).map (·.1) = some false :=
  ⟨by kernel_rfl, by kernel_rfl, by kernel_rfl, by kernel_rfl, by kernel_rfl, by kernel_rfl⟩

end Tpl.Props
