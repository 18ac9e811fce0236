import Verif.Spec.QlangSession
import Verif.Props.QlangEngine
import Verif.Props.Reads
import Verif.Proof.QlangKeep

/-
Running qlang programs one after the other on one engine (C83).
-/
namespace Tpl.Props
open Tpl Tpl.Spec Tpl.Qlang Tpl.Qlang.Src Scanner
variable {F : Type} {S : Setup F} {U : Uni} {mode : Mode} {fuel : Nat} {ret : CompileRet Str}

/-! ### What any use of the engine keeps -/

/-- One call of the host, with whatever result. -/
inductive Call (L : Lib F) (ret : CompileRet Str) (U : Uni) : St (QEng F) → St (QEng F) → Prop
  | exec {f src s s'} : exec L ret U f src s = some (.ok () s') → Call L ret U s s'
  | execErr {f src s e s'} : exec L ret U f src s = some (.err e s') → Call L ret U s s'
  | execPanic {f src s p s'} : exec L ret U f src s = some (.panic p s') → Call L ret U s s'
  | safe {f src s e s'} : safeExec L ret U f src s = some (.ok e s') → Call L ret U s s'
  | safePanic {f src s p s'} : safeExec L ret U f src s = some (.panic p s') → Call L ret U s s'
  | ret {f s v s'} : (Qlang.ret : QM F _).run f (matchG ret.env (client L ret U).sem f) s = some (.ok v s') → Call L ret U s s'
  | retPanic {f s p s'} : (Qlang.ret : QM F _).run f (matchG ret.env (client L ret U).sem f) s = some (.panic p s') → Call L ret U s s'

/-- Any number of calls. -/
inductive Calls (L : Lib F) (ret : CompileRet Str) (U : Uni) : St (QEng F) → St (QEng F) → Prop
  | none (s) : Calls L ret U s s
  | more {a b c} : Calls L ret U a b → Call L ret U b c → Calls L ret U a c

section
variable {P : KwScanner → Prop} (hP : ∀ k src, P k → P (k.tokenize U src ret.mode).2) {L : Lib F} (hL : LibKeep P L)
include hP hL

theorem exec_keeps {f src} {s : St (QEng F)} {o} (h : exec L ret U f src s = some o) (hs : Stays P 0 s.u) : Stays P 0 (MRes.st' o).u := by
  have hm := matchG_keep ret.env (keep_sem hP hL) f
  have h : (Matcher.matchExactly ⟨ret.root, ret.mode, engInit (s.u.scanner.tokenize U src ret.mode).2, ret.env, (client L ret U).sem⟩ U f s.u.scanner src s).1 = some o := h
  unfold Matcher.matchExactly at h
  generalize hx : Matcher.match_ _ U f s.u.scanner src s = x at h
  obtain ⟨x, k⟩ := x
  have hx := congrArg Prod.fst hx
  have key : ∀ y, x = some y → Stays P 0 (MRes.st' y).u := by
    rintro y rfl
    by_cases hg : ret.root = .nil
    · rw [(C37_no_grammar _ hg U s.u.scanner src s f).1] at hx
      cases hx
      exact hs
    · rw [match_eq _ hg] at hx
      dsimp only at hx
      cases ht : (s.u.scanner.tokenize U src ret.mode).1 with
      | mk toks e =>
        rw [ht] at hx
        cases e with
        | some e => cases hx; exact hs
        | none =>
          dsimp only [engInit] at hx
          have h0 : Stays P 0 ({ s.u.reset with scanner := (s.u.scanner.tokenize U src ret.mode).2 } : QEng F) := ⟨hs.1, hP _ _ hs.2⟩
          split at hx
          · cases hx
          · rename_i h1; cases hx; exact hm 0 _ _ _ _ h1 h0
          · rename_i h1; cases hx; exact hm 0 _ _ _ _ h1 h0
          · rename_i h1; cases hx; exact hm 0 _ _ _ _ h1 h0
  cases x with
  | none => cases h
  | some y =>
    have h1 := key y rfl
    cases y with
    | err e s1 => cases h; exact h1
    | panic p s1 => cases h; exact h1
    | ok a s1 =>
      dsimp only at h
      split at h <;> cases h <;> exact h1

theorem safeExec_keeps {f src} {s : St (QEng F)} {o} (h : safeExec L ret U f src s = some o) (hs : Stays P 0 s.u) : Stays P 0 o.st.u := by
  have hm := matchG_keep ret.env (keep_sem hP hL) f
  have hE : ∀ e err, KeepS P (safeEnd ret U e err : QM F _) := by
    intro e err
    unfold safeEnd
    keepq [keep_execDefers hP]
  unfold safeExec at h
  cases he : exec L ret U f src s with
  | none => rw [he] at h; cases h
  | some r =>
    have h1 := exec_keeps hP hL he hs
    rw [he] at h
    cases r with
    | ok a s1 => exact (hE _ _).run 0 _ _ _ _ hm h h1
    | err e s1 => exact (hE _ _).run 0 _ _ _ _ hm h h1
    | panic p s1 =>
      split at h
      · rename_i h2; cases h2
      · rename_i h2; cases h2
      · rename_i h2; cases h2
      · rename_i h2; cases h2; cases h; exact h1
      · rename_i h2; cases h2; exact (hE _ _).run 0 _ _ _ _ hm h h1

theorem ret_keeps {f} {s : St (QEng F)} {o} (h : (Qlang.ret : QM F _).run f (matchG ret.env (client L ret U).sem f) s = some o) (hs : Stays P 0 s.u) :
    Stays P 0 o.st.u := by
  have hE : KeepS P (Qlang.ret : QM F _) := by
    unfold Qlang.ret
    keepq [keep_clear]
  exact hE.run 0 _ _ _ _ (matchG_keep ret.env (keep_sem hP hL) f) h hs

theorem call_keeps {s s' : St (QEng F)} (h : Call L ret U s s') (hs : Stays P 0 s.u) : Stays P 0 s'.u := by
  cases h with
  | exec h => exact exec_keeps hP hL h hs
  | execErr h => exact exec_keeps hP hL h hs
  | execPanic h => exact exec_keeps hP hL h hs
  | safe h => exact safeExec_keeps hP hL h hs
  | safePanic h => exact safeExec_keeps hP hL h hs
  | ret h => exact ret_keeps hP hL h hs
  | retPanic h => exact ret_keeps hP hL h hs

end

/-- C83, for any texts and whatever comes of them: the keywords are still the same, and every text
is read as it was before. -/
theorem C83_reads {k0 : KwScanner} (h0 : k0.sc.bad = false) {s s' : St (QEng F)} (hs : ReadsAs U k0 s.u.scanner) (hi : s.u.ipt = 0) (h : Calls S.host.lib ret U s s') :
    s'.u.ipt = 0 ∧ ReadsAs U k0 s'.u.scanner ∧ ∀ src ts eof, Tokenizes U k0 src ret.mode ts eof → Tokenizes U s'.u.scanner src ret.mode ts eof := by
  have key : Stays (ReadsAs U k0) 0 s'.u := by
    revert hs hi
    induction h with
    | none => exact fun hs hi => ⟨hi, hs⟩
    | more _ h1 ih => exact fun hs hi => call_keeps (P := ReadsAs U k0) (fun k src h => readsAs_tokenize h src _) (keep_host S.host) h1 (ih hs hi)
  exact ⟨key.1, key.2, fun src ts eof ht => readsAs_tokens h0 key.2 ht⟩

/-! ### With a stack that is not empty -/

/-- The first statement of a program runs with whatever is on the stack; the first semicolon
removes it. -/
theorem does_junk (hS : S.site = sites) (hc : Compiled ret) (c : Int) (n : Nat) (d : Tm .doc) (ok : d.Ok) {C : Conf} {l : List (QVal F)} (junk : List (QVal F)) (hp : C.p = 0)
    (hN : 0 < C.N) (hB : C.B 0 = l.length) : ∃ j, Trace ⟨n, c⟩ S.host ret U C l junk d.evs (d.doesOr S c n) fun v => j ++ [v] := by
  have hR := runs_ok (U := U) hS hc c n
  have hm : (⟨n, c⟩ : Bound).fuel ≤ n := Nat.le_refl _
  cases d with
  | doc st more =>
    have h1 := (live hS hc hR hm st ok.1 (p := 0) C (l ++ junk) hp hN).below
    subst_vars
    cases more with
    | endDoc => exact ⟨junk, h1.bind fun v _ => Trace.nil rfl⟩
    | next sc s more =>
      refine ⟨[], h1.bind fun v _ => ?_⟩
      refine Trace.marks (es := [evTok "clear" sc] ++ (s.evs ++ more.evs)) ?_ (by simp [Tm.evs])
      refine Trace.first (b := ()) (f := fun _ => []) (Trace.clear_ (hp ▸ hN) (hp ▸ hB) rfl) ?_
      exact (live hS hc hR hm s ok.2.1 C l hp hN).bind fun v _ => live hS hc hR hm more ok.2.2 C l v hp hN hB
    | semi sc more =>
      refine ⟨[], h1.bind fun v _ => ?_⟩
      refine Trace.marks (es := [evTok "clear" sc] ++ ([evTok "pushn" sc] ++ more.evs)) ?_ (by simp [Tm.evs])
      refine Trace.first (b := ()) (f := fun _ => []) (Trace.clear_ (hp ▸ hN) (hp ▸ hB) rfl) ?_
      refine Trace.first (b := ()) (f := fun _ => [.nil]) (Trace.pushn rfl) ?_
      exact live hS hc hR hm more ok.2 C l .nil hp hN hB

/-- The engine can run a program: something may be left on the stack. -/
structure Ready (u : QEng F) : Prop where
  ipt : u.ipt = 0
  base : (u.u.scopes 0).base ≤ u.u.stk.length
  count : 0 < u.u.nscopes

theorem Idle.ready {u : QEng F} (h : Idle u) : Ready u := ⟨h.ipt, Nat.le_of_eq h.base, h.count⟩

/-- What lies below the program. -/
def below (q : QState F) : List (QVal F) := q.stk.take (q.scopes 0).base

def JunkAfter (q : QState F) (w : World F) : Except (QPanic F) (QVal F) → QEng F → Prop
  | .ok v, u => ∃ j, At ⟨0, q.nscopes, fun i => (q.scopes i).base⟩ (below q ++ (j ++ [v])) w u
  | .error _, u => Broken q.nscopes 0 (fun i => (q.scopes i).base) (below q) w u.u

theorem below_len {u : QEng F} (h : Ready u) : (below u.u).length = (u.u.scopes 0).base := by
  unfold below
  rw [List.length_take, Nat.min_eq_left h.base]

theorem match_junk (hS : S.site = sites) (h : (client S.host.lib ret U).new grammarText mode U fuel = some (.ok ret)) (d : Tm .doc) (hd : d.Ok)
    {s : St (QEng F)} (hm : s.u.mute = 0) (hi : Ready s.u) {n o w} (hn : d.does S n (world s.u.u) = some (o, w)) :
    ∃ res s', Eval ret.env (client S.host.lib ret U).sem ret.root d.toks s res ∧ JunkAfter s.u.u w o s'.u ∧ match o with
      | .ok _ => res = .ok d.toks.length s'
      | .error p => res = .panic p s' := by
  obtain ⟨hc, hroot⟩ := compiled_ok h
  obtain ⟨g, len, hg, htr⟩ := parses_doc hc d hd
  rw [show table.lookup (str "doc") = some bDoc from table_doc] at hg
  cases hg
  obtain ⟨c, hj⟩ := not_lost n (o, w)
  obtain ⟨j, ht⟩ := does_junk (U := U) hS hc c n d hd (C := ⟨0, s.u.u.nscopes, fun i => (s.u.u.scopes i).base⟩) (l := below s.u.u)
    (s.u.u.stk.drop (s.u.u.scopes 0).base) rfl hi.count (below_len hi).symm
  have ht := ((ht _ _ (doesOr_le S c n d _ _ hn)).resolve_left hj s.u
    ⟨hm, hi.ipt, by unfold below; rw [List.take_append_drop], rfl, fun _ _ => rfl, Nat.le_refl _⟩).always nofun
  obtain ⟨res, h1, h2⟩ := hrealise htr nofun _ _ s ht rfl
  refine ⟨res, ?_⟩
  rcases h2 with ⟨p, s', rfl, w', h3, h4⟩ | ⟨s', rfl, _, v, w', h3, _, h4⟩
  · cases h3
    exact ⟨s', hroot ▸ h1, h4, rfl⟩
  · cases h3
    exact ⟨s', hroot ▸ h1, ⟨j, h4⟩, rfl⟩

theorem runs_junk (hS : S.site = sites) (h : (client S.host.lib ret U).new grammarText mode U fuel = some (.ok ret)) (d : Tm .doc) (hd : d.Ok)
    {s : St (QEng F)} (hk : KwScanner.Steps U KwScanner.zero s.u.scanner) {src : Str} {eof : Token} (hsrc : Tokenizes U s.u.scanner src ret.mode d.toks eof)
    (hi : Ready s.u) {n o w} (hn : d.does S n (world s.u.u) = some (o, w)) :
    ∃ s', JunkAfter s.u.u w o s'.u ∧ ∃ fuel, ∀ f, fuel ≤ f → exec S.host.lib ret U f src s = some (match o with
      | .ok _ => .ok () s'
      | .error p => .panic p s') := by
  have hr : ret.root ≠ .nil := by rw [(compiled_ok h).2]; nofun
  obtain ⟨res, s', h1, h2, h3⟩ := match_junk hS h d hd (s := { s with u := { s.u with mute := 0, scanner := (s.u.scanner.tokenize U src ret.mode).2 } }) rfl
    ⟨hi.ipt, hi.base, hi.count⟩ hn
  obtain ⟨f0, e⟩ := eval_ends _ ret hr hk hsrc h1
  refine ⟨s', h2, f0, fun f hf => ?_⟩
  cases o with
  | ok v => exact (e f hf).1 _ h3
  | error p => exact (e f hf).2 _ _ h3

theorem ret_last {l j : List (QVal F)} {v : QVal F} {s : St (QEng F)} (hs : s.u.u.stk = l ++ (j ++ [v])) (hb : (s.u.u.scopes 0).base = l.length) (f : Nat) (m) :
    (Qlang.ret : QM F _).run f m s = some (.ok (some v) (setQ s { s.u.u with stk := l })) := by
  cases j with
  | nil => exact ret_gives hs hb f m
  | cons y ys =>
    rw [List.cons_append] at hs
    rw [ret_gives hs hb f m, List.getLast_cons (by simp), List.getLast_append_singleton]

/-! ### One program after the other -/

/-- What the host sees of one text: of `Exec`, and of `Ret` if the value is asked for, or of
`SafeExec`. -/
inductive Observed (L : Lib F) (ret : CompileRet Str) (U : Uni) : Way → Str → St (QEng F) → Outcome F → St (QEng F) → Prop
  | exec {f src s s1 v s2} : exec L ret U f src s = some (.ok () s1) → (∀ f m, (Qlang.ret : QM F _).run f m s1 = some (.ok (some v) s2)) →
      Observed L ret U .exec src s (.value v) s2
  | ran {f src s s1} : exec L ret U f src s = some (.ok () s1) → Observed L ret U .exec src s .done s1
  | failed {f src s p s1} : exec L ret U f src s = some (.panic p s1) → Observed L ret U .exec src s (.panic p) s1
  | safe {f src s s1 v s2} : safeExec L ret U f src s = some (.ok none s1) → (∀ f m, (Qlang.ret : QM F _).run f m s1 = some (.ok (some v) s2)) →
      Observed L ret U .safe src s (.value v) s2
  | done {f src s s1} : safeExec L ret U f src s = some (.ok none s1) → Observed L ret U .safe src s .done s1
  | error {f src s p x s1} : safeExec L ret U f src s = some (.ok (some x) s1) → Reports p x → Observed L ret U .safe src s (.error p) s1
  | panic {f src s p s1} : safeExec L ret U f src s = some (.panic p s1) → Observed L ret U .safe src s (.panic p) s1

/-- What the host sees of one text after the other. -/
inductive ObservedAll (L : Lib F) (ret : CompileRet Str) (U : Uni) : List (Way × Str) → St (QEng F) → List (Outcome F) → St (QEng F) → Prop
  | nil (s) : ObservedAll L ret U [] s [] s
  | cons {x xs s o s1 os s'} : Observed L ret U x.1 x.2 s o s1 → ObservedAll L ret U xs s1 os s' → ObservedAll L ret U (x :: xs) s (o :: os) s'

section
variable (hS : S.site = sites) (h : (client S.host.lib ret U).new grammarText mode U fuel = some (.ok ret)) (d : Tm .doc) (hd : d.Ok)
  {s : St (QEng F)} (hk : KwScanner.Steps U KwScanner.zero s.u.scanner) {src : Str} {eof : Token} (hsrc : Tokenizes U s.u.scanner src ret.mode d.toks eof)
  (hi : Ready s.u)
include hS h hd hk hsrc hi

theorem exec_sees {n v w} (hn : d.does S n (world s.u.u) = some (.ok v, w)) :
    ∃ f s1 s2, exec S.host.lib ret U f src s = some (.ok () s1) ∧ (∀ f m, (Qlang.ret : QM F _).run f m s1 = some (.ok (some v) s2)) ∧
      (Ready s1.u ∧ world s1.u.u = w) ∧ Ready s2.u ∧ world s2.u.u = w := by
  obtain ⟨s1, ⟨j, h1⟩, f, h2⟩ := runs_junk hS h d hd hk hsrc hi hn
  have hb : (s1.u.u.scopes 0).base = (below s.u.u).length := (h1.sees.base 0 hi.count).trans (below_len hi).symm
  have hc := Nat.lt_of_lt_of_le hi.count h1.sees.count
  exact ⟨f, s1, _, h2 f (Nat.le_refl _), ret_last h1.sees.stk hb, ⟨⟨h1.ipt, by rw [hb, h1.sees.stk]; simp, hc⟩, h1.sees.wld⟩,
    ⟨h1.ipt, Nat.le_of_eq hb, hc⟩, h1.sees.wld⟩

/-- What `SafeExec` ends with. -/
def SafeAfter (L : Lib F) (ret : CompileRet Str) (U : Uni) (src : Str) (s : St (QEng F)) (w : World F) : Except (QPanic F) (Option (QPanic F)) → Prop
  | .ok x => ∃ f e s', safeExec L ret U f src s = some (.ok e s') ∧ Returned x e ∧ Ready s'.u ∧ world s'.u.u = w
  | .error p => ∃ f s', safeExec L ret U f src s = some (.panic p s') ∧ (NoExit p → Ready s'.u) ∧ world s'.u.u = w

theorem safe_after {n o w} (hn : d.safely S n (world s.u.u) = some (o, w)) : SafeAfter S.host.lib ret U src s w o := by
  obtain ⟨e, w1, h1, h2⟩ := safely_run hn
  obtain ⟨s1, h3, f1, h4⟩ := runs_junk hS h d hd hk hsrc hi h1
  have conc : ∀ {B l e'}, Shows s.u.u.nscopes B l w1 s1.u.u → B 0 ≤ l.length → s1.u.ipt = 0 → safeTail (runs S n) e' w1 = some (o, w) →
      (∀ f, f1 ≤ f → safeExec S.host.lib ret U f src s = (safeEnd ret U e' none).run f (matchG ret.env (client S.host.lib ret U).sem f) s1) →
      SafeAfter S.host.lib ret U src s w o := by
    intro B l e' h5 hB hi1 h6 h7
    obtain ⟨c, f2, h8, h9⟩ := safeEnd_ends (U := U) hS (compiled_ok h).1 hi.count h6 h5
    have h8 := (h7 _ (Nat.le_max_left f1 f2)).trans (Ends.raise h8 (Nat.le_max_right f1 f2))
    have hip := (safeExec_keeps (P := fun _ => True) (fun _ _ _ => trivial) (keep_host S.host) h8 ⟨hi.ipt, trivial⟩).1
    cases c with
    | ok a s' =>
      obtain ⟨x, w', vs, h10, h11, _, _, h12⟩ := h9
      cases h10
      exact ⟨_, a, s', h8, h11, ⟨hip, by rw [h12.base 0 hi.count, h12.stk, List.length_append]; omega, Nat.lt_of_lt_of_le hi.count h12.count⟩, h12.wld⟩
    | panic p s' =>
      obtain ⟨w', h10, h11, h12, h13⟩ := h9
      cases h10
      exact ⟨_, s', h8, fun _ => ⟨hip, h13 hB, Nat.lt_of_lt_of_le hi.count h12⟩, h11⟩
  rcases h2 with ⟨c, rfl, h2⟩ | ⟨hx, h2⟩
  · cases h2
    exact ⟨f1, s1, safe_exit (h4 f1 (Nat.le_refl _)), fun hx => absurd rfl (hx c), h3.wld⟩
  · cases e with
    | ok v =>
      obtain ⟨j, h3⟩ := h3
      exact conc h3.sees (by rw [List.length_append, below_len hi]; exact Nat.le_add_right _ _) h3.ipt h2 fun f hf => safe_ok (h4 f hf)
    | error p =>
      have hip := (exec_keeps (P := fun _ => True) (fun _ _ _ => trivial) (keep_host S.host) (h4 f1 (Nat.le_refl _)) ⟨hi.ipt, trivial⟩).1
      exact conc (B := fun i => (s1.u.u.scopes i).base) (l := s1.u.u.stk) ⟨rfl, h3.wld, fun _ _ => rfl, h3.count⟩ (h3.top hi.count (Nat.le_of_eq (below_len hi).symm)) hip h2
        fun f hf => safe_panic (h4 f hf) fun c hc => hx c (by rw [hc])

theorem exec_fails {n p w} (hn : d.does S n (world s.u.u) = some (.error p, w)) :
    ∃ f s1, exec S.host.lib ret U f src s = some (.panic p s1) ∧ Ready s1.u ∧ world s1.u.u = w := by
  obtain ⟨s1, h3, f1, h4⟩ := runs_junk hS h d hd hk hsrc hi hn
  have hip := (exec_keeps (P := fun _ => True) (fun _ _ _ => trivial) (keep_host S.host) (h4 f1 (Nat.le_refl _)) ⟨hi.ipt, trivial⟩).1
  exact ⟨f1, s1, h4 f1 (Nat.le_refl _), ⟨hip, h3.top hi.count (Nat.le_of_eq (below_len hi).symm), Nat.lt_of_lt_of_le hi.count h3.count⟩, h3.wld⟩

theorem safe_sees {n v w1 w} (hn : d.does S n (world s.u.u) = some (.ok v, w1)) (h0 : (w1.frames 0).defers = [])
    (hs : d.safely S n (world s.u.u) = some (.ok none, w)) :
    ∃ f s1 s2, safeExec S.host.lib ret U f src s = some (.ok none s1) ∧ (∀ f m, (Qlang.ret : QM F _).run f m s1 = some (.ok (some v) s2)) ∧
      Ready s2.u ∧ world s2.u.u = w := by
  obtain ⟨e, w1', h1, h2⟩ := safely_run hs
  rw [hn] at h1
  cases h1
  rcases h2 with ⟨c, h2, _⟩ | ⟨_, h2⟩
  · cases h2
  obtain ⟨s1, ⟨j, h3⟩, f1, h4⟩ := runs_junk hS h d hd hk hsrc hi hn
  obtain ⟨c, f2, h5, h6⟩ := safeEnd_ends (U := U) hS (compiled_ok h).1 hi.count h2 h3.sees
  have h7 := (safe_ok (h4 _ (Nat.le_max_left f1 f2))).trans (Ends.raise h5 (Nat.le_max_right f1 f2))
  cases c with
  | panic p s2 => obtain ⟨_, h8, _⟩ := h6; cases h8
  | ok a s2 =>
    obtain ⟨x, w', vs, h8, h9, h10, ⟨w2, h11⟩, h12⟩ := h6
    cases h8
    have h9 : a = none := h9
    subst h9
    rw [h0] at h11
    cases h11
    have hb : (s2.u.u.scopes 0).base = (below s.u.u).length := (h12.base 0 hi.count).trans (below_len hi).symm
    have hst : s2.u.u.stk = below s.u.u ++ (j ++ [v]) := by rw [h12.stk, List.append_nil]
    exact ⟨_, s2, _, h7, ret_last hst hb, ⟨h10.trans h3.ipt, Nat.le_of_eq hb, Nat.lt_of_lt_of_le hi.count h12.count⟩, h12.wld⟩

/-- One program. -/
theorem observed {way o w} (hg : Gives S way d (world s.u.u) o w) : ∃ s', Observed S.host.lib ret U way src s o s' ∧ Ready s'.u ∧ world s'.u.u = w := by
  cases hg with
  | exec hn =>
    obtain ⟨f, s1, s2, h1, h2, _, h3⟩ := exec_sees hS h d hd hk hsrc hi hn
    exact ⟨s2, .exec h1 h2, h3⟩
  | ran hn =>
    obtain ⟨f, s1, s2, h1, h2, h3, _⟩ := exec_sees hS h d hd hk hsrc hi hn
    exact ⟨s1, .ran h1, h3⟩
  | failed hn hp =>
    obtain ⟨f, s1, h1, h3⟩ := exec_fails hS h d hd hk hsrc hi hn
    exact ⟨s1, .failed h1, h3⟩
  | safe hn h0 hs =>
    obtain ⟨f, s1, s2, h1, h2, h3⟩ := safe_sees hS h d hd hk hsrc hi hn h0 hs
    exact ⟨s2, .safe h1 h2, h3⟩
  | done hs =>
    obtain ⟨f, e, s1, h1, h2, h3⟩ := safe_after hS h d hd hk hsrc hi hs
    cases h2
    exact ⟨s1, .done h1, h3⟩
  | error hs =>
    obtain ⟨f, e, s1, h1, ⟨x, rfl, h2⟩, h3⟩ := safe_after hS h d hd hk hsrc hi hs
    exact ⟨s1, .error h1 h2, h3⟩
  | panic hs hp =>
    obtain ⟨f, s1, h1, h2, h3⟩ := safe_after hS h d hd hk hsrc hi hs
    exact ⟨s1, .panic h1, h2 hp, h3⟩

end

/-- The calls a host makes. -/
theorem Observed.calls {L : Lib F} {way src} {s s' : St (QEng F)} {o} (h : Observed L ret U way src s o s') : Calls L ret U s s' := by
  cases h with
  | exec h1 h2 => exact .more (.more (.none _) (.exec h1)) (.ret (h2 0 _))
  | ran h1 => exact .more (.none _) (.exec h1)
  | failed h1 => exact .more (.none _) (.execPanic h1)
  | safe h1 h2 => exact .more (.more (.none _) (.safe h1)) (.ret (h2 0 _))
  | done h1 => exact .more (.none _) (.safe h1)
  | error h1 _ => exact .more (.none _) (.safe h1)
  | panic h1 => exact .more (.none _) (.safePanic h1)

/-- The text of a program, read with the scanner. -/
structure TextOf (U : Uni) (k : KwScanner) (mode : Mode) (x : Way × Str) (y : Way × Tm .doc) : Prop where
  way : x.1 = y.1
  ok : y.2.Ok
  text : ∃ eof, Tokenizes U k x.2 mode y.2.toks eof

/-- C83: of texts given to one engine one after the other, with `Exec` or with `SafeExec`, the
host sees what the programs mean, each run with the variables, functions and heap that the one
before it has left, whether it ended with a value, an error or a panic. -/
theorem C83_session (hS : S.site = sites) (h : (client S.host.lib ret U).new grammarText mode U fuel = some (.ok ret)) {k : KwScanner} (hb : k.sc.bad = false)
    {texts : List (Way × Str)} {ds : List (Way × Tm .doc)} (hd : List.Forall₂ (TextOf U k ret.mode) texts ds) {s : St (QEng F)} (hk : ReadsAs U k s.u.scanner)
    (hi : Ready s.u) {os w'} (hg : GivesAll S ds (world s.u.u) os w') :
    ∃ s', ObservedAll S.host.lib ret U texts s os s' ∧ Ready s'.u ∧ world s'.u.u = w' := by
  generalize hw : world s.u.u = w at hg
  induction hg generalizing s texts with
  | nil w => cases hd; exact ⟨s, .nil s, hi, hw⟩
  | @cons y ds w o w1 os w' h1 h2 ih =>
    cases hd with
    | cons hx hd =>
      obtain ⟨hway, hok, eof, ht⟩ := hx
      subst hw
      obtain ⟨s1, h3, h4, h5⟩ := observed hS h _ hok hk.steps (readsAs_tokens hb hk ht) hi h1
      obtain ⟨s', h6, h7⟩ := ih hd (C83_reads (S := S) hb hk hi.ipt h3.calls).2.1 h4 h5
      exact ⟨s', .cons (hway ▸ h3) h6, h7⟩

/-! ### A new engine -/

theorem mk_ok {sc : Scanner} {a b} (h : sc.bad = false) : (⟨sc, a, b⟩ : KwScanner).sc.bad = false := h

theorem newEngine_ok (U : Uni) (mode : Mode) : (newEngine (F := F) U mode).u.scanner.sc.bad = false := by
  have h := (tokenize_keeps U KwScanner.zero grammarText clMode rfl).2
  rw [newEngine_scanner]
  exact mk_ok h

theorem newEngine_reads (U : Uni) (mode : Mode) : ReadsAs U (newEngine (F := F) U mode).u.scanner (newEngine (F := F) U mode).u.scanner :=
  .mk (newEngine_steps (F := F) U mode) (newEngine_ok (F := F) U mode) rfl

/-- C83, on a new engine. -/
theorem C83_new (hS : S.site = sites) {texts : List (Way × Str)} {ds : List (Way × Tm .doc)}
    (hd : List.Forall₂ (TextOf U (newEngine (F := F) U mode).u.scanner mode) texts ds) {os w'} (hg : GivesAll S ds (world QState.new) os w') :
    ∃ s', ObservedAll S.host.lib (qlangRet U mode) U texts (newEngine U mode) os s' ∧ Ready s'.u ∧ world s'.u.u = w' := by
  obtain ⟨fuel, h⟩ := compiled_new S.host.lib U mode
  exact C83_session hS h (newEngine_reads U mode).ok hd (newEngine_reads U mode) (newEngine_idle U mode).ready hg

/-! `x = 1; panic(x)` with `Exec`, which panics with 1; `x = 1; y` with `SafeExec`, which gives an
error; then `x` with `Exec`: it is 1. -/

def exFail : Tm .doc := .doc (.assign (tk IDENT 0 "x") (tk 61 2 "") (one (.int (tk INT 4 "1"))))
  (.next (tk 59 5 ";") (.eval (one (.post (.name (tk IDENT 7 "panic")) (.atom (.call (tk 40 12 "") (.args (one (var 13 "x")) .lastArg) none none (tk 41 14 "")) .noAtom))))
    .endDoc)

def exX : Tm .doc := .doc (.eval (one (var 0 "x"))) .endDoc

theorem exFail_text (sc : Scanner) : ((⟨sc, keywords, some kwTable⟩ : KwScanner).tokenize ascii (str "x = 1; panic(x)") ⟨false, false⟩).1 = (exFail.toks, none) := by
  kernel_rfl
theorem exNoVar_text (sc : Scanner) : ((⟨sc, keywords, some kwTable⟩ : KwScanner).tokenize ascii (str "x = 1; y") ⟨false, false⟩).1 = (exNoVar.toks, none) := by
  kernel_rfl
theorem exX_text (sc : Scanner) : ((⟨sc, keywords, some kwTable⟩ : KwScanner).tokenize ascii (str "x") ⟨false, false⟩).1 = (exX.toks, none) := by
  kernel_rfl

def worldOf {α : Type} : Option (α × World Unit) → World Unit
  | some o => o.2
  | none => world QState.new

/-- What the three programs leave. -/
def exW1 : World Unit := worldOf (exFail.does setup0 3 (world QState.new))
def exErr : QPanic Unit := match exNoVar.safely setup0 3 exW1 with
  | some (.ok (some p), _) => p
  | _ => .user .value
def exW2 : World Unit := worldOf (exNoVar.safely setup0 3 exW1)
def exW3 : World Unit := worldOf (exX.does setup0 3 exW2)

theorem exW1_eq : exFail.does setup0 3 (world QState.new) = some (.error (.user (.other (.val (.int 1)))), exW1) := by kernel_rfl
theorem exW2_eq : exNoVar.safely setup0 3 exW1 = some (.ok (some exErr), exW2) := by kernel_rfl
theorem exW3_eq : exX.does setup0 3 exW2 = some (.ok (.int 1), exW3) := by kernel_rfl

example : ∃ p s', ObservedAll setup0.host.lib (qlangRet ascii ⟨false, false⟩) ascii
    [(.exec, str "x = 1; panic(x)"), (.safe, str "x = 1; y"), (.exec, str "x")] (newEngine ascii ⟨false, false⟩)
    [.panic (.user (.other (.val (.int 1)))), .error p, .value (.int 1)] s' := by
  have text : ∀ {way src} {d : Tm .doc}, d.Ok → (∀ sc, ((⟨sc, keywords, some kwTable⟩ : KwScanner).tokenize ascii src ⟨false, false⟩).1 = (d.toks, none)) →
      TextOf ascii (newEngine (F := Unit) ascii ⟨false, false⟩).u.scanner ⟨false, false⟩ (way, src) (way, d) := by
    intro way src d ok h
    refine ⟨rfl, ok, (tokenizes_iff (newEngine_steps (F := Unit) ascii ⟨false, false⟩)).mp ?_⟩
    rw [newEngine_scanner]
    exact h _
  obtain ⟨s', h4, _⟩ := C83_new (S := setup0) (U := ascii) (mode := ⟨false, false⟩) rfl
    (.cons (text (way := .exec) (by repeat' first | exact trivial | refine ⟨?_, ?_⟩) exFail_text)
      (.cons (text (way := .safe) (by repeat' first | exact trivial | refine ⟨?_, ?_⟩) exNoVar_text)
        (.cons (text (way := .exec) (by repeat' first | exact trivial | refine ⟨?_, ?_⟩) exX_text) .nil)))
    (.cons (.failed exW1_eq nofun) (.cons (.error exW2_eq) (.cons (.exec exW3_eq) (.nil _))))
  exact ⟨_, s', h4⟩

/-- The hypotheses of `C81_refused` and `C81_error`: a text that is no program, on a new engine. -/
def refused : Option (Bool × Nat) := match exec (F := Unit) setup0.host.lib (qlangRet ascii ⟨false, false⟩) ascii 60 (str "x = 1 )") (newEngine ascii ⟨false, false⟩) with
  | some (.err _ s) => some (true, (s.u.u.scopes 0).defers.length)
  | some _ => some (false, 0)
  | none => none

example : refused = some (true, 0) := by kernel_rfl

end Tpl.Props
