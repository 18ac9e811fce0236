import Verif.Spec.Given
import Verif.Props.Interp
import Verif.Props.TokenEnd
import Verif.Proof.QlangInterp

/-! C113: what the functions of an interpreter are called with. -/
namespace Tpl.Props
open Tpl Tpl.Spec QInterp.Spec
variable {E X I τ F W : Type} {env : Env Str} {c : Client E X I τ F W}

theorem contextOf_unique {toks : List Token} {x y : Ctx} (h : ContextOf toks x) (h' : ContextOf toks y) : x = y := by
  cases h with
  | empty => cases h'; rfl
  | tokens h1 h2 =>
    cases h' with
    | tokens h3 h4 =>
      rw [h1] at h3
      cases h3
      rw [h2] at h4
      cases h4
      rfl

theorem gets_unique {L : Lits F} {mark : Str} {toks : List Token} {len : Int} {t : ArgTy} {a b : Arg F}
    (h : Gets L mark toks len t a) (h' : Gets L mark toks len t b) : a = b := by
  cases h with
  | items h1 => cases h' with
    | items => rfl
    | int h2 => exact absurd h1 h2
  | context _ h1 => cases h' with
    | context _ h2 => rw [contextOf_unique h1 h2]
    | int _ _ h2 => rcases h2 with h2 | h2 <;> cases h2
  | tokens => cases h' with
    | tokens => rfl
    | int _ _ h2 => rcases h2 with h2 | h2 <;> cases h2
  | engine => cases h' with
    | engine => rfl
    | int _ _ h2 => rcases h2 with h2 | h2 <;> cases h2
  | text _ h1 => cases h' with
    | text _ h2 => rw [h1] at h2; cases h2; rfl
    | int _ _ h2 => rcases h2 with h2 | h2 <;> cases h2
  | float _ h1 h3 => cases h' with
    | float _ h2 h4 => rw [h1] at h2; cases h2; rw [h3] at h4; cases h4; rfl
    | int _ _ h2 => rcases h2 with h2 | h2 <;> cases h2
  | int h0 h1 h5 h3 => cases h' with
    | int _ h2 _ h4 => rw [h1] at h2; cases h2; rw [h3] at h4; cases h4; rfl
    | items h => exact absurd h h0
    | _ => rcases h5 with h5 | h5 <;> cases h5

/-- The context, or the panic if there is none. -/
theorem ctxValue_run (toks : List Token) (f m) (s : St (Eng I τ)) :
    (∃ x, ContextOf toks x ∧ (ctxValue toks : Code E X I τ Ctx).run f m s = some (.ok x s)) ∨
    (¬ ∃ x, ContextOf toks x) ∧ (ctxValue toks : Code E X I τ Ctx).run f m s = some (.panic .slice s) := by
  cases toks with
  | nil => exact .inl ⟨_, .empty, rfl⟩
  | cons t toks =>
    have hl := List.getLast?_eq_some_getLast (List.cons_ne_nil t toks)
    cases he : ((t :: toks).getLast (List.cons_ne_nil t toks)).End with
    | ok e =>
      refine .inl ⟨_, .tokens hl he, ?_⟩
      unfold ctxValue
      simp only [List.head?_cons, hl, he]
      rfl
    | panic =>
      refine .inr ⟨?_, ?_⟩
      · rintro ⟨x, hx⟩
        cases hx with
        | tokens h1 h2 =>
          rw [hl] at h1
          cases h1
          rw [he] at h2
          cases h2
      · unfold ctxValue
        simp only [List.head?_cons, hl, he]
        rfl

/-- The panics of `markArgs` become causes. -/
def Bad (p : Panic Str (IPanic E X)) : Prop := ∃ cause, Causes p cause

theorem bad_str (m : PMsg E) : Bad (.user (.str m) : Panic Str (IPanic E X)) := ⟨_, .str m⟩
theorem bad_slice : Bad (.slice : Panic Str (IPanic E X)) := ⟨_, .slice⟩

/-- The literal as argument, or the panic if it is none. -/
theorem litArg_run (L : Lits F) (mark : Str) (hm : ¬ Counts mark) (t : ArgTy) (ht : t ≠ .ctx ∧ t ≠ .intf ∧ t ≠ .eng) (toks : List Token) (len : Int)
    (f m) (s : St (Eng I τ)) :
    (∃ a, Gets L mark toks len t a ∧ (litArg L mark t toks : Code E X I τ _).run f m s = some (.ok a s)) ∨
    (¬ ∃ a, Gets L mark toks len t a) ∧ ∃ p, Bad p ∧ (litArg L mark t toks : Code E X I τ _).run f m s = some (.panic p s) := by
  cases toks with
  | nil =>
    refine .inr ⟨?_, .slice, bad_slice, rfl⟩
    rintro ⟨a, ha⟩
    cases ha with
    | items h => exact hm h
    | context => exact ht.1 rfl
    | tokens => exact ht.2.1 rfl
    | engine => exact ht.2.2 rfl
    | text _ h => cases h
    | float _ h => cases h
    | int _ h => cases h
  | cons tok toks =>
    have integer : ∀ ty : ArgTy, ty = .int ∨ ty = .int64 →
        (∃ a, Gets L mark (tok :: toks) len ty a ∧ (litArg L mark ty (tok :: toks) : Code E X I τ _).run f m s = some (.ok a s)) ∨
        (¬ ∃ a, Gets L mark (tok :: toks) len ty a) ∧ ∃ p, Bad p ∧ (litArg L mark ty (tok :: toks) : Code E X I τ _).run f m s = some (.panic p s) := by
      intro ty hty
      have no : (∀ v, ParseInt tok.lit ≠ .ok (.ok v)) → ¬ ∃ a, Gets L mark (tok :: toks) len ty a := by
        rintro hv ⟨a, ha⟩
        rcases hty with rfl | rfl <;> cases ha with
        | int _ h1 _ h2 => cases h1; exact hv _ h2
        | _ => first | exact hm ‹_› | contradiction
      have e : (litArg L mark ty (tok :: toks) : Code E X I τ _) = (litArg L mark .int (tok :: toks)) := by
        rcases hty with rfl | rfl <;> rfl
      rw [e]
      cases hp : ParseInt tok.lit with
      | panic =>
        refine .inr ⟨no (by rw [hp]; nofun), .slice, bad_slice, ?_⟩
        unfold litArg
        dsimp only
        rw [hp]
        rfl
      | ok r =>
        cases r with
        | ok v =>
          refine .inl ⟨.int v, .int hm rfl hty hp, ?_⟩
          unfold litArg
          dsimp only
          rw [hp]
          rfl
        | error e =>
          refine .inr ⟨no (by rw [hp]; nofun), .user (.str (.arg mark (.num e))), bad_str _, ?_⟩
          unfold litArg
          dsimp only
          rw [hp]
          rfl
    cases t with
    | ctx => exact absurd rfl ht.1
    | intf => exact absurd rfl ht.2.1
    | eng => exact absurd rfl ht.2.2
    | string => exact .inl ⟨_, .text hm rfl, rfl⟩
    | int => exact integer _ (.inl rfl)
    | int64 => exact integer _ (.inr rfl)
    | float64 =>
      have no : (∀ v, ParseFloat L tok.lit ≠ .ok (.ok v)) → ¬ ∃ a, Gets L mark (tok :: toks) len .float64 a := by
        rintro hv ⟨a, ha⟩
        cases ha with
        | float _ h1 h2 => cases h1; exact hv _ h2
        | int _ _ h => rcases h with h | h <;> cases h
      cases hp : ParseFloat L tok.lit with
      | panic =>
        refine .inr ⟨no (by rw [hp]; nofun), .slice, bad_slice, ?_⟩
        unfold litArg
        dsimp only
        rw [hp]
        rfl
      | ok r =>
        cases r with
        | ok v =>
          refine .inl ⟨.float v, .float hm rfl hp, ?_⟩
          unfold litArg
          dsimp only
          rw [hp]
          rfl
        | error e =>
          refine .inr ⟨no (by rw [hp]; nofun), .user (.str (.arg mark e)), bad_str _, ?_⟩
          unfold litArg
          dsimp only
          rw [hp]
          rfl
    | fline =>
      refine .inr ⟨?_, _, bad_str _, rfl⟩
      rintro ⟨a, ha⟩
      cases ha with
      | int _ _ h => rcases h with h | h <;> cases h
    | other =>
      refine .inr ⟨?_, _, bad_str _, rfl⟩
      rintro ⟨a, ha⟩
      cases ha with
      | int _ _ h => rcases h with h | h <;> cases h

/-- The first argument. -/
def firstArg (L : Lits F) (mark : Str) (t : ArgTy) (toks : List Token) (g : Gr Str) : Code E X I τ (Arg F) :=
  if isLenMark mark then
    if t = .int then do pure (.len (← Go.len g)) else Go.panic (.user (.str (.notInt mark)))
  else match t with
    | .ctx => do pure (.ctx (← ctxValue toks))
    | .intf => pure (.src toks)
    | .eng => pure .eng
    | t => litArg L mark t toks

theorem markArgs_one (L : Lits F) (mark : Str) (t : ArgTy) (toks : List Token) (g : Gr Str) :
    (markArgs L mark [t] toks g : Code E X I τ _) = (do pure [← firstArg L mark t toks g]) := by
  unfold markArgs firstArg
  dsimp only
  split
  · split
    · simp only [bind_assoc, pure_bind]
    · rfl
  · split <;> simp only [bind_assoc, pure_bind]

theorem firstArg_run (L : Lits F) (mark : Str) (t : ArgTy) (toks : List Token) (g : Gr Str) (f m) (s : St (Eng I τ)) :
    (∃ a, Gets L mark toks (g.len s.len) t a ∧ (firstArg L mark t toks g : Code E X I τ _).run f m s = some (.ok a s)) ∨
    (¬ ∃ a, Gets L mark toks (g.len s.len) t a) ∧ ∃ p, Bad p ∧ (firstArg L mark t toks g : Code E X I τ _).run f m s = some (.panic p s) := by
  unfold firstArg
  by_cases hm : isLenMark mark = true
  · have hc := (QInterp.isLen_iff mark).mp hm
    rw [if_pos hm]
    by_cases ht : t = .int
    · subst ht
      rw [if_pos rfl]
      exact .inl ⟨_, .items hc, rfl⟩
    · rw [if_neg ht]
      refine .inr ⟨?_, _, bad_str _, rfl⟩
      rintro ⟨a, ha⟩
      cases ha with
      | items => exact ht rfl
      | _ h => exact h hc
  · have hc : ¬ Counts mark := fun h => hm ((QInterp.isLen_iff mark).mpr h)
    rw [if_neg hm]
    by_cases h1 : t = .ctx
    · subst h1
      rcases ctxValue_run (E := E) (X := X) toks f m s with ⟨x, hx, hr⟩ | ⟨hx, hr⟩
      · exact .inl ⟨_, .context hc hx, by dsimp only; rw [Go.bind_ok hr]; rfl⟩
      · refine .inr ⟨?_, .slice, bad_slice, by dsimp only; rw [Go.bind_panic hr]⟩
        rintro ⟨a, ha⟩
        cases ha with
        | context _ h => exact hx ⟨_, h⟩
        | int _ _ h => rcases h with h | h <;> cases h
    · by_cases h2 : t = .intf
      · subst h2; exact .inl ⟨_, .tokens hc, rfl⟩
      · by_cases h3 : t = .eng
        · subst h3; exact .inl ⟨_, .engine hc, rfl⟩
        · have := litArg_run (E := E) (X := X) L mark hc t ⟨h1, h2, h3⟩ toks (g.len s.len) f m s
          cases t <;> first | exact absurd rfl h1 | exact absurd rfl h2 | exact absurd rfl h3 | exact this

/-- The arguments, or the panic if there are none. -/
theorem markArgs_run (L : Lits F) (mark : Str) (params : List ArgTy) (hp : params.length ≤ 2) (toks : List Token) (g : Gr Str) (f m)
    (s : St (Eng I τ)) :
    (∃ as, Given L mark toks (g.len s.len) params as ∧ (markArgs L mark params toks g : Code E X I τ _).run f m s = some (.ok as s)) ∨
    (¬ ∃ as, Given L mark toks (g.len s.len) params as) ∧
      ∃ p, Bad p ∧ (markArgs L mark params toks g : Code E X I τ _).run f m s = some (.panic p s) := by
  match params, hp with
  | [], _ => exact .inl ⟨_, .none, rfl⟩
  | [t], _ =>
    rw [markArgs_one]
    rcases firstArg_run (E := E) (X := X) L mark t toks g f m s with ⟨a, ha, hr⟩ | ⟨ha, p, hb, hr⟩
    · exact .inl ⟨_, .one ha, by rw [Go.bind_ok hr]; rfl⟩
    · refine .inr ⟨?_, p, hb, by rw [Go.bind_panic hr]⟩
      rintro ⟨as, h⟩
      cases h with
      | one h => exact ha ⟨_, h⟩
  | [t, t2], _ =>
    have e : (markArgs L mark [t, t2] toks g : Code E X I τ _) = (do
        let a ← firstArg L mark t toks g
        let c ← ctxValue toks
        if t2 = .ctx ∨ t2 = .intf then pure [a, .ctx c] else Go.panic (.user (.str .reflect))) := by
      unfold markArgs firstArg
      dsimp only
      split
      · split
        · simp only [bind_assoc, pure_bind]
        · rfl
      · split <;> simp only [bind_assoc, pure_bind]
    rw [e]
    rcases firstArg_run (E := E) (X := X) L mark t toks g f m s with ⟨a, ha, hr⟩ | ⟨ha, p, hb, hr⟩
    · rw [Go.bind_ok hr]
      rcases ctxValue_run (E := E) (X := X) toks f m s with ⟨x, hx, hr⟩ | ⟨hx, hr⟩
      · rw [Go.bind_ok hr]
        by_cases h2 : t2 = .ctx ∨ t2 = .intf
        · rw [if_pos h2]; exact .inl ⟨_, .two ha h2 hx, rfl⟩
        · rw [if_neg h2]
          refine .inr ⟨?_, _, bad_str _, rfl⟩
          rintro ⟨as, h⟩
          cases h with
          | two _ h => exact h2 h
      · refine .inr ⟨?_, .slice, bad_slice, by rw [Go.bind_panic hr]⟩
        rintro ⟨as, h⟩
        cases h with
        | two _ _ h => exact hx ⟨_, h⟩
    · refine .inr ⟨?_, p, hb, by rw [Go.bind_panic hr]⟩
      rintro ⟨as, h⟩
      cases h with
      | two h => exact ha ⟨_, h⟩

/-- C113: the arguments are determined by the mark, the match and the types of the
parameters. -/
theorem C113_unique {L : Lits F} {mark : Str} {toks : List Token} {len : Int} {params : List ArgTy} {as bs : List (Arg F)}
    (h : Given L mark toks len params as) (h' : Given L mark toks len params bs) : as = bs := by
  cases h with
  | none => cases h'; rfl
  | one h1 => cases h' with
    | one h2 => rw [gets_unique h1 h2]
  | two h1 _ h3 => cases h' with
    | two h2 _ h4 => rw [gets_unique h1 h2, contextOf_unique h3 h4]

/-- C113: a function of the table is called with the arguments its parameters ask for.  If it
returns the match goes on; if it panics the match panics, as in C52. -/
theorem C113_called {mark : Str} {params ok body} (he : c.table mark = some (.recv params ok body)) (hp : params.length ≤ 2) {g : Gr Str}
    {src : List Token} {s s1 : St (Eng I τ)} {n} (h : Eval env c.sem g src s (.ok n s1)) (hr : Runs s1.u.mute mark) {as : List (Arg F)}
    (ha : Given c.lits mark (src.take n) (g.len s1.len) params as) {f : Nat} {o} (ho : (body as).run f (matchG env c.sem f) s1 = some o) :
    match o with
    | .ok _ s2 => Eval env c.sem (.action mark g) src s (.ok n s2)
    | .panic p s2 =>
      (∀ cause, Causes p cause → Eval env c.sem (.action mark g) src s (.panic (.user (.runtime g (src.take n) cause)) s2)) ∧
      (PassesThrough p → Eval env c.sem (.action mark g) src s (.panic p s2)) := by
  have run : (c.perform mark (.recv params ok body) (src.take n) g).run f (matchG env c.sem f) s1 = some o := by
    unfold Client.perform
    dsimp only
    rcases markArgs_run (E := E) (X := X) c.lits mark params hp (src.take n) g f (matchG env c.sem f) s1 with ⟨bs, hb, hr⟩ | ⟨hb, _⟩
    · rw [Go.bind_ok hr, C113_unique hb ha]; exact ho
    · exact absurd ⟨_, ha⟩ hb
  cases o with
  | ok u s2 =>
    refine eval_action.mpr ⟨_, h, .inr ⟨eval_le h, .ok () s2, ⟨f, ?_⟩, rfl⟩⟩
    rw [runs_iff] at hr
    show (c.action mark g (src.take n)).run _ _ s1 = _
    simp only [Client.action, he]
    rw [Go.bind_ok Go.run_get, if_neg (by rw [hr]; nofun), Go.run_recover, run]
  | panic p s2 => exact C52_wraps he h hr run

/-- C113: if there are no such arguments (a mark that counts items on a function that does not take an
int, a literal that is missing or is no number, a parameter of another type) the function is not
called: the match panics with a RuntimeError that carries the tokens. -/
theorem C113_refused {mark : Str} {params ok body} (he : c.table mark = some (.recv params ok body)) (hp : params.length ≤ 2) {g : Gr Str}
    {src : List Token} {s s1 : St (Eng I τ)} {n} (h : Eval env c.sem g src s (.ok n s1)) (hr : Runs s1.u.mute mark)
    (ha : ¬ ∃ as, Given c.lits mark (src.take n) (g.len s1.len) params as) :
    ∃ cause, Eval env c.sem (.action mark g) src s (.panic (.user (.runtime g (src.take n) cause)) s1) := by
  rcases markArgs_run (E := E) (X := X) c.lits mark params hp (src.take n) g 0 (matchG env c.sem 0) s1 with ⟨bs, hb, _⟩ | ⟨_, p, ⟨cause, hc⟩, hrun⟩
  · exact absurd ⟨_, hb⟩ ha
  · refine ⟨cause, (C52_wraps he h hr (f := 0) (p := p) (s2 := s1) ?_).1 cause hc⟩
    unfold Client.perform
    dsimp only
    rw [Go.bind_panic hrun]

/-- C113: functions with more parameters are refused when the grammar is compiled. -/
theorem C113_compile {mark : Str} {params ok body} (he : c.table mark = some (.recv params ok body)) (hp : 2 < params.length) (g : Gr Str) :
    ∃ e, c.marker g mark = .error e := by
  unfold Client.marker
  simp only [he]
  exact ⟨_, if_pos hp⟩

/-- C113: an int parameter on an INT token of a text without errors gets the value of the
numeral, if that is less than 2^63. -/
theorem C113_int {U : Uni} {s0 : Scanner} {text : Str} {mode : Mode} {ts : List Token} {s' : Scanner}
    (h : Run U (Scanner.init s0 text mode) ts s') (hs : s'.errs = []) {t : Token} (ht : t ∈ ts) (hk : t.kind = INT)
    (L : Lits F) {mark : Str} (hm : ¬ Counts mark) (more : List Token) (len : Int) :
    (intValue t.lit < 2 ^ 63 → Given L mark (t :: more) len [.int] [.int (intValue t.lit)]) ∧
    (¬ intValue t.lit < 2 ^ 63 → ¬ ∃ as, Given L mark (t :: more) len [.int] as) := by
  have hv := C50_value h hs ht hk
  constructor
  · intro hl
    rw [if_pos hl] at hv
    exact .one (.int hm rfl (.inl rfl) hv)
  · rintro hl ⟨as, ha⟩
    rw [if_neg hl] at hv
    cases ha with
    | one ha => cases ha with
      | items hc => exact hm hc
      | int _ h1 _ h2 => cases h1; rw [hv] at h2; cases h2

/-- `x 42` -/
def sample : List Token := [⟨IDENT, 0, bytes "x"⟩, ⟨INT, 2, bytes "42"⟩]

example (L : Lits F) : Given L (bytes "show") sample 2 [.string, .ctx] [.str (bytes "x"), .ctx ⟨sample, 0, 4⟩] ∧
    Given L (bytes "ARITY") sample 2 [.int] [.len 2] ∧
    Given L (bytes "_code") sample 2 [.intf] [.src sample] ∧
    (¬ ∃ as, Given L (bytes "num") sample 2 [.int] as) ∧
    (¬ ∃ as, Given L (bytes "ARITY") sample 2 [.intf] as) := by
  have low : ∀ m : Str, isLenMark m = false → ¬ Counts m := fun m h hc => by rw [(QInterp.isLen_iff m).mpr hc] at h; cases h
  have up : Counts (bytes "ARITY") := (QInterp.isLen_iff _).mp (by decide +kernel)
  refine ⟨.two (.text (low _ (by decide +kernel)) rfl) (.inl rfl) (.tokens (l := ⟨INT, 2, bytes "42"⟩) (by decide +kernel) (by decide +kernel)), .one (.items up),
    .one (.tokens (low _ (by decide +kernel))), ?_, ?_⟩
  · rintro ⟨as, ha⟩
    cases ha with
    | one ha => cases ha with
      | items hc => exact low _ (by decide +kernel) hc
      | int _ h1 _ h2 => cases h1; exact absurd h2 (by rw [show ParseInt (bytes "x") = .ok (.error .syntax_) from by decide +kernel]; nofun)
  · rintro ⟨as, ha⟩
    cases ha with
    | one ha => cases ha with
      | tokens hc => exact hc up
      | int _ _ h => rcases h with h | h <;> cases h

end Tpl.Props
