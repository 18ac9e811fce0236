import Verif.Proof.QlangGo

/-! Code that is kept as tokens and evaluated later. -/
namespace Tpl.Qlang.Src
open Spec
variable {F α β γ δ : Type}
variable {K : Bound} {H : Host F} {r : CompileRet Str} {U : Uni} {S : Setup F} {C : Conf} {l pre post : List (QVal F)} {w : World F}
variable {g : Gr Str} {ts : List Token} {n : Int} {p : Nat} {x : Str}

/-- The compiled grammar is the one of qlang. -/
structure Compiled (r : CompileRet Str) : Prop where
  env : r.env 0 = some gFactor
  tab : r.tab.grammars = table

/-- The grammar with this name reads the tokens, with these marks. -/
def Parses (r : CompileRet Str) (nm : Str) (ts : List Token) (es : List (Ev Str)) : Prop :=
  ∃ g l, table.lookup nm = some g ∧ Tr r.env (.one g) ts (.succ ts.length l) es

theorem parses_named {nm : Str} {es : List (Ev Str)} {l : Int} (hg : table.lookup nm = some g) (h : Rd r.env (.named nm g) ts l es []) : Parses r nm ts es := by
  unfold Rd at h
  rw [List.append_nil] at h
  generalize ho : Out.succ ts.length l = o at h
  cases h with
  | @named _ _ _ o _ h2 =>
    cases o with
    | succ n l => cases ho; exact ⟨g, l, hg, h2⟩
    | fail => cases ho
    | abort => cases ho

theorem parses_term {l : Nat} (hc : Compiled r) (t : Tm (.term (l + 1))) (ok : t.Ok) (hl : table.lookup (termName l) = some (bTerm l)) :
    Parses r (termName l) t.toks t.evs :=
  parses_named hl (reads hc.env t ok [] (after_le (l + 1) (by decide)))

theorem parses_term3 (hc : Compiled r) (t : Tm (.term 3)) (ok : t.Ok) : Parses r (str "term3") t.toks t.evs := parses_term hc t ok (by kernel_rfl)
theorem parses_term4 (hc : Compiled r) (t : Tm (.term 4)) (ok : t.Ok) : Parses r (str "term4") t.toks t.evs := parses_term hc t ok (by kernel_rfl)
theorem parses_expr (hc : Compiled r) (t : Tm (.term 5)) (ok : t.Ok) : Parses r (str "expr") t.toks t.evs := parses_term hc t ok (by kernel_rfl)

theorem parses_stmt (hc : Compiled r) (t : Tm .stmt) (ok : t.Ok) : Parses r (str "s") t.toks t.evs :=
  parses_named (g := bS) (by kernel_rfl) (reads hc.env t ok [] (by decide) nofun)

theorem parses_doc (hc : Compiled r) (t : Tm .doc) (ok : t.Ok) : Parses r (str "doc") t.toks t.evs :=
  parses_named (g := bDoc) (by kernel_rfl) (reads hc.env t ok [] (by decide))

/-- `EvalCode`. -/
theorem evals (hc : Compiled r) {nm : Str} {es : List (Ev Str)} (hp : Parses r nm ts es) {q N : Nat} {B : Nat → Nat} {y : Prog F β} {f : β → List (QVal F)}
    (h : Trace K H r U ⟨q, N, B⟩ l [] es y f) {o} (ho : y w = o) : Lost K o ∨ ∀ s : St (QEng F), Shows N B l w s.u.u →
    Halts (K.fuel + 1) r.env (client H.lib r U).sem (Tpl.evalCode r U q nm (.tokens ts)) s
      (fun a u => a = none ∧ u.ipt = s.u.ipt ∧ u.mute = s.u.mute ∧ ∃ b w', o = some (.ok b, w') ∧ Shows N B (l ++ f b) w' u.u)
      (fun p u => u.ipt = s.u.ipt ∧ u.mute = s.u.mute ∧ ∃ w', o = some (.error p, w') ∧ Broken N q B l w' u.u) (o = none) := by
  obtain ⟨g, len, hg, htr⟩ := hp
  refine (h w o ho).imp_right fun h s hs => ?_
  unfold Tpl.evalCode
  refine .get (.modify (.deferred ?_))
  unfold engSub
  rw [hc.tab, hg]
  refine .modify (g := Eng.reset) ?_
  have hk := krealise htr (nofun) _ _ { s with u := Eng.reset { s.u with ipt := q } } (h _ ⟨rfl, rfl, by rw [List.append_nil]; exact hs⟩) rfl
  refine .bind (Q0 := fun a u => a = (ts.length, none) ∧ OkPost ⟨q, N, B⟩ l o (fun b => ((), f b)) () u) (Halts.match_ ?_) ?_
  · rcases hk with ⟨res, h1, h2⟩ | h
    · refine .inl ⟨res, h1, ?_⟩
      rcases h2 with ⟨p, s', rfl, w', h3, h4⟩ | ⟨s', rfl, _, h3⟩
      · exact ⟨rfl, rfl, w', h3, h4⟩
      · exact ⟨rfl, h3⟩
    · exact .inr h
  · rintro _ s' ⟨rfl, b, w', h3, _, h4⟩
    dsimp only
    rw [if_neg (by simp)]
    exact .pure ⟨rfl, rfl, rfl, b, w', h3, h4.sees⟩

theorem Does.evalIn (hc : Compiled r) {nm : Str} {es : List (Ev Str)} (hp : Parses r nm ts es) {y : Prog F (QVal F)}
    (h : ∀ B, B C.p = (l ++ pre).length → Trace K H r U ⟨C.p, C.N, B⟩ (l ++ pre) [] es y (fun v => [v])) :
    Does K H r U C l pre (Qlang.evalIn r U C.p nm (.code ts)) y (fun v => ((), pre ++ [v])) w := by
  intro o ho
  refine (evals hc hp (h (fun i => if i = C.p then (l ++ pre).length else C.B i) (if_pos rfl)) ho).imp_right fun h s hs => ?_
  unfold Qlang.evalIn
  have hstk := hs.sees.stk
  refine .bind (Q0 := fun q u => q = s.u.u ∧ u = s.u) (.run run_getQ ⟨rfl, rfl⟩) ?_
  rintro _ s1 ⟨rfl, h1⟩
  refine .bind (Q0 := fun _ u => u = { s.u with u := s.u.u.modScope C.p fun c => { c with base := s.u.u.stk.length } })
    (.run (run_modQ _) (by rw [setQ, h1])) ?_
  rintro _ s2 h2
  have hsh : Shows C.N (fun i => if i = C.p then (l ++ pre).length else C.B i) (l ++ pre) w s2.u.u := by
    rw [h2]
    refine ⟨hstk, ?_, ?_, hs.sees.count⟩
    · rw [← hs.sees.wld]
      simp only [world, QState.modScope, QState.setScope]
      congr 1
      funext i
      by_cases h : i = C.p
      · subst h; rw [if_pos rfl]; rfl
      · rw [if_neg h]
    · intro i hi
      dsimp only
      rw [scopes_mod]
      by_cases h : i = C.p
      · rw [if_pos h, if_pos h, hstk]
      · rw [if_neg h, if_neg h]; exact hs.sees.base i hi
  refine .bind (((h s2 hsh).less (Nat.le_succ _)).mono (fun _ _ h => h) ?_ id) ?_
  · rintro p u ⟨_, _, w', h3, h4⟩
    refine ⟨w', h3, Broken.less (pre := pre) ⟨h4.stk, h4.wld, fun i hi hne => ?_, h4.count, fun hp _ => h4.top hp (by simp)⟩⟩
    rw [h4.base i hi hne, if_neg hne]
  · rintro _ s3 ⟨rfl, i3, m3, b, w', h3, h4⟩
    refine .bind (Q0 := fun _ u => u = { s3.u with u := s3.u.u.modScope C.p fun c => { c with base := (s.u.u.scopes C.p).base } })
      (.run (run_modQ _) rfl) ?_
    rintro _ s4 h5
    refine .pure ⟨b, w', h3, rfl, ?_⟩
    rw [h5]
    refine ⟨by rw [← hs.mute]; exact m3.trans (by rw [h2]), by rw [← hs.ipt]; exact i3.trans (by rw [h2]), by rw [← List.append_assoc]; exact h4.stk, ?_, ?_, h4.count⟩
    · rw [← h4.wld]
      simp only [world, QState.modScope, QState.setScope]
      congr 1
      funext i
      by_cases h : i = C.p
      · subst h; rw [if_pos rfl]; rfl
      · rw [if_neg h]
    · intro i hi
      dsimp only
      rw [scopes_mod]
      by_cases h : i = C.p
      · subst h
        rw [if_pos rfl]
        exact hs.sees.base _ hi
      · rw [if_neg h, h4.base i hi, if_neg h]

end Tpl.Qlang.Src
