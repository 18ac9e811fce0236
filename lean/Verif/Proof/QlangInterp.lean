import Verif.Spec.QlangInterp
import Verif.Proof.Trace
import Verif.Proof.Go
import Verif.Proof.Interp
import Verif.Props.Interp

/-! Interpreters written in qlang: what the pieces do. -/
namespace Tpl.QInterp
open Tpl Tpl.Spec Tpl.Props Spec
variable {E X Obj Cls τ F V W : Type}

/-! ### Names of marks -/

theorem capital_iff (b : UInt8) : (65 ≤ b && b ≤ 90) = true ↔ Capital b := by
  unfold Capital
  rw [Bool.and_eq_true, decide_eq_true_iff, decide_eq_true_iff]

theorem lastWord_nil {s : Str} : lastWord s = [] ↔ ∀ x ∈ s, ¬ Capital x := by
  induction s with
  | nil => simp [lastWord]
  | cons b s ih =>
    rw [lastWord]
    constructor
    · intro h
      split at h
      · rename_i h0
        split at h
        · cases h
        · rename_i hb
          rintro x (_ | ⟨_, hx⟩)
          · exact fun hc => hb ((capital_iff _).mpr hc)
          · exact ih.mp h0 x hx
      · rename_i h0; exact absurd h h0
    · intro h
      rw [ih.mpr fun x hx => h x (.tail _ hx)]
      dsimp only
      rw [if_neg fun hb => h b (.head _) ((capital_iff _).mp hb)]

theorem lastWord_iff {s w : Str} (hw : w ≠ []) : lastWord s = w ↔ LastWord s w := by
  induction s with
  | nil =>
    constructor
    · intro h; exact absurd h.symm hw
    · rintro ⟨front, b, rest, h, rfl, _⟩
      cases front <;> cases h
  | cons a s ih =>
    rw [lastWord]
    constructor
    · intro h
      split at h
      · rename_i h0
        split at h
        · rename_i hb
          exact ⟨[], a, s, h ▸ rfl, h.symm, (capital_iff _).mp hb, lastWord_nil.mp h0⟩
        · exact absurd h.symm hw
      · obtain ⟨front, b, rest, h1, h2⟩ := ih.mp h
        exact ⟨a :: front, b, rest, by rw [h1]; rfl, h2⟩
    · rintro ⟨front, b, rest, h1, rfl, hb, hr⟩
      cases front with
      | nil =>
        cases h1
        rw [lastWord_nil.mpr hr]
        dsimp only
        rw [if_pos ((capital_iff _).mpr hb)]
      | cons c front =>
        cases h1
        have := ih.mpr ⟨front, b, rest, rfl, rfl, hb, hr⟩
        rw [this]

theorem lenChar_cons {b : UInt8} (h : b ≠ 95) (rest : Str) : lenChar (b :: rest) = some b := by
  unfold lenChar
  split
  · rename_i h'; cases h'
  · rename_i h'; cases h'; exact absurd rfl h
  · rename_i h'; cases h'; rfl

theorem isLen_iff (mark : Str) : isLenMark mark = true ↔ Counts mark := by
  unfold isLenMark Counts
  cases mark with
  | nil => exact ⟨nofun, fun ⟨b, rest, _, h⟩ => by rcases h with h | h <;> cases h⟩
  | cons c rest =>
    by_cases hc : c = 95
    · subst hc
      cases rest with
      | nil =>
        refine ⟨nofun, fun ⟨b, rest, hb, h⟩ => ?_⟩
        rcases h with h | h <;> cases h
        exact absurd hb.2 (by decide)
      | cons b rest =>
        refine (capital_iff b).trans ⟨fun h => ⟨b, rest, h, .inr rfl⟩, fun ⟨b', rest', hb, h⟩ => ?_⟩
        rcases h with h | h <;> cases h
        · exact absurd hb.2 (by decide)
        · exact hb
    · rw [lenChar_cons hc]
      refine (capital_iff c).trans ⟨fun h => ⟨c, rest, h, .inl rfl⟩, fun ⟨b', rest', hb, h⟩ => ?_⟩
      rcases h with h | h <;> cases h
      · exact hb
      · exact absurd rfl hc

theorem lastWord_unique {s w w' : Str} (h : LastWord s w) (h' : LastWord s w') : w = w' := by
  have hn : w ≠ [] := by obtain ⟨_, _, _, _, rfl, _⟩ := h; nofun
  have hn' : w' ≠ [] := by obtain ⟨_, _, _, _, rfl, _⟩ := h'; nofun
  rw [← (lastWord_iff hn).mpr h, ← (lastWord_iff hn').mpr h']

section
variable (H : Host E X Obj Cls τ F V W)

/-- A value or a panic, in the state `s`. -/
def giving {α : Type} (s : St (Eng Obj τ)) : Except (IPanic E X) α → Cb Str (Eng Obj τ) (IPanic E X) α
  | .ok a => .ok a s
  | .error p => .panic (.user p) s

theorem markArg_run {mark : Str} {w : Want} (hw : Wants mark w) (toks : List Token) (g : Gr Str) {f m} (s : St (Eng Obj τ)) :
    (markArg H mark toks g).run f m s = some (giving s (argument H mark toks (g.len s.len) w)) := by
  have key : ∀ w : String, Tpl.str w ≠ [] → (lastWord mark = Tpl.str w ↔ LastWord mark (Tpl.str w)) := fun w h => lastWord_iff h
  have ks := key "Src" (by decide)
  have ke := key "Engine" (by decide)
  have kf := key "Float" (by decide)
  have ki := key "Int" (by decide)
  unfold markArg
  cases hw with
  | length h => rw [if_pos ((isLen_iff _).mpr h)]; rfl
  | tokens hc h =>
    rw [if_neg (fun h => hc ((isLen_iff _).mp h)), if_pos (ks.mpr h)]
    cases toks <;> rfl
  | engine hc h =>
    have := ke.mpr h
    rw [if_neg (fun h => hc ((isLen_iff _).mp h)), if_neg (by rw [this]; decide), if_pos this]
    rfl
  | float hc h =>
    have := kf.mpr h
    rw [if_neg (fun h => hc ((isLen_iff _).mp h)), if_neg (by rw [this]; decide), if_neg (by rw [this]; decide)]
    cases toks with
    | nil => rfl
    | cons t toks =>
      dsimp only [argument]
      rw [if_pos this]
      cases H.parseFloat t.lit <;> rfl
  | int hc h =>
    have := ki.mpr h
    rw [if_neg (fun h => hc ((isLen_iff _).mp h)), if_neg (by rw [this]; decide), if_neg (by rw [this]; decide)]
    cases toks with
    | nil => rfl
    | cons t toks =>
      dsimp only [argument]
      rw [if_neg (by rw [this]; decide), if_pos this]
      cases strconvInt t.lit 10 <;> rfl
  | text hc h =>
    rw [if_neg (fun h => hc ((isLen_iff _).mp h)), if_neg (fun e => h "Src" (by simp) (ks.mp e)), if_neg (fun e => h "Engine" (by simp) (ke.mp e))]
    cases toks with
    | nil => rfl
    | cons t toks =>
      dsimp only [argument]
      rw [if_neg (fun e => h "Float" (by simp) (kf.mp e)), if_neg (fun e => h "Int" (by simp) (ki.mp e))]
      rfl

/-! ### Actions -/
variable [DecidableEq Cls] {P : Entries E X Obj Cls τ V W}

theorem act_skipped {mark : Str} {e} (he : P.table mark = some e) {g toks f m} {s : St (Eng Obj τ)} (hr : ¬ Runs s.u.mute mark) :
    (action H P mark g toks).run f m s = some (.ok () s) := by
  have : muted s.u.mute mark = true := by
    rw [runs_iff, Bool.not_eq_false] at hr; exact hr
  unfold action
  rw [he]
  dsimp only
  rw [Go.bind_ok Go.run_get, if_pos this]
  rfl

theorem act_runs {mark : Str} {e} (he : P.table mark = some e) {g toks f m} {s : St (Eng Obj τ)} (hr : Runs s.u.mute mark) :
    (action H P mark g toks).run f m s = (perform H P mark e toks g).run f m s := by
  have : muted s.u.mute mark = false := (runs_iff _ _).mp hr
  unfold action
  rw [he]
  dsimp only
  rw [Go.bind_ok Go.run_get, if_neg (by rw [this]; nofun)]

/-- A method with one parameter. -/
theorem perform_one {mark : Str} {fn : Fun (Go Str (Eng Obj τ) (IPanic E X)) Cls V} {g toks f m} {s : St (Eng Obj τ)}
    (hk : receiver H P fn ≠ 0) (ha : fn.arity ≠ 2) :
    (perform H P mark (.fn fn) toks g).run f m s =
      (fn.call [H.obj (if receiver H P fn = 1 then P.stk else s.u.ipt)] >>= fun _ => pure ()).run f m s := by
  unfold perform
  dsimp only
  rw [if_pos (by omega), Go.bind_ok Go.run_get, if_neg ha]

/-- A method with two parameters. -/
theorem perform_two {mark : Str} {w : Want} (hw : Wants mark w) {fn : Fun (Go Str (Eng Obj τ) (IPanic E X)) Cls V} {g toks f m} {s : St (Eng Obj τ)}
    (hk : receiver H P fn ≠ 0) (ha : fn.arity = 2) :
    (perform H P mark (.fn fn) toks g).run f m s = match argument H mark toks (g.len s.len) w with
      | .error p => some (.panic (.user p) s)
      | .ok a => (fn.call [H.obj (if receiver H P fn = 1 then P.stk else s.u.ipt), a] >>= fun _ => pure ()).run f m s := by
  unfold perform
  dsimp only
  rw [if_pos (by omega), Go.bind_ok Go.run_get, if_pos ha]
  have := markArg_run H hw toks g (f := f) (m := m) s
  cases h : argument H mark toks (g.len s.len) w with
  | error p => rw [h] at this; exact Go.bind_panic this
  | ok a => rw [h] at this; exact Go.bind_ok this

/-- Another function. -/
theorem perform_plain {mark : Str} {fn : Fun (Go Str (Eng Obj τ) (IPanic E X)) Cls V} {g toks}
    (hk : receiver H P fn = 0) : perform H P mark (.fn fn) toks g = callVfn H P.stk fn fn.arity := by
  unfold perform
  dsimp only
  rw [if_neg (by omega)]

/-! ### Functions on a state of their own -/

omit [DecidableEq Cls] in
theorem own_run {α : Type} (x : Own E X τ α) {f m} (s : St (Eng Obj τ)) : (x.code : Code E X Obj τ α).run f m s = some (match x s.u.u with
    | .ok (a, u) => .ok a { s with u := { s.u with u := u } }
    | .error (p, u) => .panic (.user p) { s with u := { s.u with u := u } }) := rfl

/-- How such a step ends. -/
def ending (s : St (Eng Obj τ)) : Except (IPanic E X × τ) τ → Cb Str (Eng Obj τ) (IPanic E X) Unit
  | .ok u => .ok () { s with u := { s.u with u := u } }
  | .error (p, u) => .panic (.user p) { s with u := { s.u with u := u } }

omit [DecidableEq Cls] in
theorem own_drop (x : Own E X τ V) {f m} (s : St (Eng Obj τ)) :
    ((x.code : Code E X Obj τ V) >>= fun _ => pure ()).run f m s = some (ending s ((x s.u.u).map (·.2))) := by
  rw [Go.run_bind, own_run]
  cases h : x s.u.u with
  | error e => rfl
  | ok r => rfl

variable {L : Lang E X Obj τ Cls V}

theorem callVfn_own (hd : Describes H L P) (fn : OwnFun E X τ Cls V) {f m} (s : St (Eng Obj τ)) (want : Str → Want) (cur : Obj) (mark : Str) (toks : List Token) (len : Int)
    (h1 : fn.cls ≠ some (H.cls L.stk)) (h2 : fn.cls ≠ some (H.cls L.ip)) :
    (callVfn H P.stk fn.fn fn.arity).run f m s = some (ending s (does H L want cur mark toks len fn s.u.u)) := by
  obtain ⟨c, a, hp⟩ := hd.pop
  obtain ⟨c', a', hq⟩ := hd.push
  unfold callVfn does callN
  rw [hd.stk, hp, hq]
  dsimp only
  rw [if_neg h1, if_neg h2, Go.run_bind, own_run]
  cases h : L.pop [H.obj L.stk, H.int fn.arity] s.u.u with
  | error e => rfl
  | ok r =>
    obtain ⟨v, u⟩ := r
    dsimp only
    cases he : H.elems v with
    | none => rfl
    | some args =>
      dsimp only [OwnFun.fn]
      rw [Go.run_bind, own_run]
      dsimp only
      cases hc : fn.call args u with
      | error e => rfl
      | ok r =>
        obtain ⟨ret, u'⟩ := r
        dsimp only
        rw [own_drop]
        rfl

theorem perform_own (hd : Describes H L P) {want : Str → Want} {mark : Str} (hw : Wants mark (want mark)) (fn : OwnFun E X τ Cls V) {f m toks g} (s : St (Eng Obj τ)) :
    (perform H P mark (.fn fn.fn) toks g).run f m s = some (ending s (does H L want s.u.ipt mark toks (g.len s.len) fn s.u.u)) := by
  by_cases h1 : fn.cls = some (H.cls L.stk)
  · have hr : receiver H P fn.fn = 1 := by unfold receiver; rw [hd.stk]; exact if_pos h1
    unfold does
    rw [if_pos h1]
    by_cases ha : fn.arity = 2
    · rw [perform_two H hw (by rw [hr]; nofun) ha]
      dsimp only
      rw [if_pos ha, hr, if_pos rfl, hd.stk]
      cases argument H mark toks (g.len s.len) (want mark) with
      | error p => rfl
      | ok a => exact own_drop _ s
    · rw [perform_one H (by rw [hr]; nofun) ha]
      dsimp only
      rw [if_neg ha, hr, if_pos rfl, hd.stk]
      exact own_drop _ s
  · by_cases h2 : fn.cls = some (H.cls L.ip)
    · have hr : receiver H P fn.fn = 2 := by unfold receiver; rw [hd.stk, hd.ip]; exact (if_neg h1).trans (if_pos h2)
      unfold does
      rw [if_neg h1, if_pos h2]
      by_cases ha : fn.arity = 2
      · rw [perform_two H hw (by rw [hr]; nofun) ha]
        dsimp only
        rw [if_pos ha, hr, if_neg (by decide)]
        cases argument H mark toks (g.len s.len) (want mark) with
        | error p => rfl
        | ok a => exact own_drop _ s
      · rw [perform_one H (by rw [hr]; nofun) ha]
        dsimp only
        rw [if_neg ha, hr, if_neg (by decide)]
        exact own_drop _ s
    · have hr : receiver H P fn.fn = 0 := by unfold receiver; rw [hd.stk, hd.ip]; exact (if_neg h1).trans (if_neg h2)
      rw [perform_plain H hr]
      exact callVfn_own H hd fn s want _ mark toks _ h1 h2

/-- The actions as callbacks on a state. -/
def calls (L : Lang E X Obj τ Cls V) (want : Str → Want) : Calls Str (Eng Obj τ) Unit (IPanic E X) where
  act mark _ toks len u := match L.fns mark with
    | none => .ok (if mark = Tpl.str "_mute" then { u with mute := u.mute + 1 }
        else if mark = Tpl.str "_unmute" then { u with mute := u.mute - 1 } else u)
    | some fn => if Runs u.mute mark then match does H L want u.ipt mark toks len fn u.u with
        | .ok v => .ok { u with u := v }
        | .error (p, v) => .error (p, { u with u := v })
      else .ok u
  start _ u := .ok ((), u)
  finish _ _ _ u := .ok u

theorem sem_calls (hd : Describes H L P) {want : Str → Want} (hw : ∀ mark, Wants mark (want mark)) : sem H P = (calls H L want).sem := by
  apply Sem.ext'
  · funext f m mark g toks s
    show (action H P mark g toks).run f m s = _
    simp only [Calls.sem, calls]
    have ht := hd.fns mark
    cases hf : L.fns mark with
    | none =>
      rw [hf] at ht
      unfold action
      rw [ht]
      dsimp only [Option.map]
      by_cases h1 : mark = Tpl.str "_mute"
      · rw [if_pos h1, if_pos h1]; rfl
      · rw [if_neg h1, if_neg h1]
        by_cases h2 : mark = Tpl.str "_unmute"
        · rw [if_pos h2, if_pos h2]; rfl
        · rw [if_neg h2, if_neg h2]; rfl
    | some fn =>
      rw [hf] at ht
      dsimp only
      by_cases hr : Runs s.u.mute mark
      · rw [act_runs H ht hr, if_pos hr, perform_own H hd (hw mark)]
        cases does H L want s.u.ipt mark toks (g.len s.len) fn s.u.u with
        | error e => rfl
        | ok u => rfl
      · rw [act_skipped H ht hr, if_neg hr]
  · rfl
  · rfl

/-- Running the callbacks of a trace is playing its marks. -/
theorem calls_run (want : Str → Want) : ∀ (evs : List (Ev Str)) (u : Eng Obj τ) (vs : List Unit),
    match play L (does H L want u.ipt) u.mute evs u.u with
    | .ok (c, v) => ∃ vs', (calls H L want).run evs (u, vs) = .ok ({ u with mute := c, u := v }, vs')
    | .error (p, v) => ∃ c, (calls H L want).run evs (u, vs) = .error (p, { u with mute := c, u := v }) := by
  intro evs
  induction evs with
  | nil => intro u vs; exact ⟨vs, rfl⟩
  | cons e evs ih =>
    intro u vs
    cases e with
    | opens t => exact ih u (() :: vs)
    | closes t fl =>
      cases vs with
      | nil => exact ih u []
      | cons v vs => exact ih u vs
    | act mark g toks len =>
      simp only [play, Calls.run, Calls.step, calls]
      cases hf : L.fns mark with
      | none =>
        dsimp only
        by_cases h1 : mark = Tpl.str "_mute"
        · rw [if_pos h1, if_pos h1]; exact ih { u with mute := u.mute + 1 } vs
        · rw [if_neg h1, if_neg h1]
          by_cases h2 : mark = Tpl.str "_unmute"
          · rw [if_pos h2, if_pos h2]; exact ih { u with mute := u.mute - 1 } vs
          · rw [if_neg h2, if_neg h2]; exact ih u vs
      | some fn =>
        dsimp only
        by_cases hr : Runs u.mute mark
        · rw [if_pos hr, if_pos hr]
          cases does H L want u.ipt mark toks len fn u.u with
          | error e => exact ⟨u.mute, rfl⟩
          | ok v => exact ih { u with u := v } vs
        · rw [if_neg hr, if_neg hr]; exact ih u vs

end
end Tpl.QInterp
