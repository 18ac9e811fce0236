import Verif.Props.Extractor

/-! Property C132: Result after a parse. -/
namespace Tpl.Props
open Tpl Tpl.Spec Tpl.Extractor
variable {W Q : Type} {getValue : Str → Str → Except Q W}

/-- `items` have been found in the tokens when the match ended, whether it succeeded, failed, was given up at
a `!` or was ended by a panic of a callback, which then has put nothing into the document. Nodes that were not
complete count with what they had. -/
inductive FoundIn (getValue : Str → Str → Except Q W) (r : CompileRet Mark) (toks : List Token) (items : List (DItem W)) : Prop
  | whole {o e ts} : Tr r.env (.one r.root) toks o e → o ≠ .abort true → Unclosed e ts →
      DItem.run getValue (e ++ ts.reverse.map (.closes · false)) [[]] = .ok [items] → FoundIn getValue r toks items
  | stopped {e x e' ts p} : Tr r.env (.one r.root) toks (.abort true) (e ++ x :: e') → Unclosed e ts →
      DItem.run getValue (e ++ [x]) [[]] = .error p →
      DItem.run getValue (e ++ ts.reverse.map (.closes · false)) [[]] = .ok [items] → FoundIn getValue r toks items

theorem balanced_append {e e' : List (Ev Mark)} (h : Balanced e) (h' : Balanced e') : Balanced (e ++ e') := by
  induction h with
  | nil => exact h'
  | act _ ih => exact .act ih
  | @pair t f e1 e2 h1 _ _ ih2 =>
    have := Balanced.pair (t := t) (failed := f) h1 ih2
    simpa using this

/-- Closing what is open. -/
theorem unclosed_closed {e : List (Ev Mark)} {ts : List Mark} (h : Unclosed e ts) : Balanced (e ++ ts.reverse.map (.closes · false)) := by
  induction h with
  | none h => simpa using h
  | @one e t e' ts h1 h2 ih =>
    have := balanced_append h1 (.pair (t := t) (failed := false) ih .nil)
    simpa using this

/-- Closing nodes does not change the result. -/
theorem closers_result (ts : List Mark) : ∀ (u u' : XEng W) (vs vs' : List (TransCtx W)), (calls getValue).run (ts.map (.closes · false)) (u, vs) = .ok (u', vs') → u'.result = u.result := by
  induction ts with
  | nil => intro u u' vs vs' h; cases h; rfl
  | cons t ts ih =>
    intro u u' vs vs' h
    cases vs with
    | nil => exact ih _ _ _ _ h
    | cons v vs => exact (ih _ _ _ _ h).trans rfl

/-- Closing nodes does not panic. -/
theorem closers_ok (ts : List Mark) : ∀ (u : XEng W) (vs : List (TransCtx W)), ∃ x, (calls getValue).run (ts.map (.closes · false)) (u, vs) = .ok x := by
  induction ts with
  | nil => intro u vs; exact ⟨_, rfl⟩
  | cons t ts ih =>
    intro u vs
    cases vs with
    | nil => exact ih u []
    | cons v vs =>
      obtain ⟨x, hx⟩ := ih (u.end_ v false) vs
      exact ⟨x, hx⟩

/-- The callbacks of a trace that is not stopped by one of them. -/
theorem unclosed_runs {e : List (Ev Mark)} {ts : List Mark} (h : Unclosed e ts) (u : XEng W) {u1 : XEng W} {vs : List (TransCtx W)}
    (hr : (calls getValue).run e (u.init, []) = .ok (u1, vs)) :
    ∃ items, DItem.run getValue (e ++ ts.reverse.map (.closes · false)) [[]] = .ok [items] ∧ u1.result = some (docOf items) := by
  obtain ⟨⟨u2, vs2⟩, hx⟩ := closers_ok (getValue := getValue) ts.reverse u1 vs
  rcases runs_init (getValue := getValue) (unclosed_closed h) u [] with ⟨p, u', _, h2⟩ | ⟨items, u', h1, h2, h3⟩
  · rw [run_append, hr] at h2
    dsimp only at h2
    rw [hx] at h2
    cases h2
  · refine ⟨items, h1, ?_⟩
    rw [run_append, hr] at h2
    rw [← h3]
    exact (closers_result _ _ _ _ _ h2).symm

theorem unclosed_before {b e : List (Ev Mark)} {ts} (hb : Balanced b) (h : Unclosed e ts) : Unclosed (b ++ e) ts := by
  cases h with
  | none h => exact .none (balanced_append hb h)
  | @one _ t _ _ h1 h2 =>
    have := Unclosed.one (t := t) (balanced_append hb h1) h2
    simpa using this

theorem unclosed_act {e : List (Ev Mark)} {ts a g toks l} (h : Unclosed e ts) : Unclosed (e ++ [.act a g toks l]) ts := by
  induction h with
  | none h => exact .none (balanced_append h (.act .nil))
  | @one _ t' _ _ h1 _ ih =>
    have := Unclosed.one (t := t') h1 ih
    simpa using this

theorem unclosed_opens {e : List (Ev Mark)} {ts t} (h : Unclosed e ts) : Unclosed (e ++ [.opens t]) (ts ++ [t]) := by
  induction h with
  | none h => exact .one h (.none .nil)
  | @one _ t' _ _ h1 _ ih =>
    have := Unclosed.one (t := t') h1 ih
    simpa using this

theorem balanced_prefix {e : List (Ev Mark)} (h : Balanced e) : ∀ a b, e = a ++ b → ∃ ts, Unclosed a ts := by
  induction h with
  | nil => intro a b he; cases a <;> cases he; exact ⟨[], .none .nil⟩
  | act _ ih =>
    intro a b he
    cases a with
    | nil => exact ⟨[], .none .nil⟩
    | cons x a =>
      cases he
      obtain ⟨ts, h⟩ := ih a b rfl
      exact ⟨ts, unclosed_before (.act .nil) h⟩
  | @pair t f e1 e2 h1 _ ih1 ih2 =>
    intro a b he
    cases a with
    | nil => exact ⟨[], .none .nil⟩
    | cons x a =>
      have hx : x = .opens t := by injection he with h _; exact h.symm
      have he' : e1 ++ .closes t f :: e2 = a ++ b := by injection he
      subst hx
      rcases List.append_eq_append_iff.mp he' with ⟨c, rfl, hc⟩ | ⟨c, rfl, _⟩
      · cases c with
        | nil => exact ⟨[t], by simpa using Unclosed.one .nil (.none h1)⟩
        | cons y c =>
          cases hc
          obtain ⟨ts, h⟩ := ih2 c b rfl
          exact ⟨ts, by simpa using unclosed_before (.pair (t := t) (failed := f) h1 .nil) h⟩
      · obtain ⟨ts, h⟩ := ih1 a c rfl
        exact ⟨t :: ts, .one .nil h⟩

theorem unclosed_prefix {e : List (Ev Mark)} {ts} (h : Unclosed e ts) : ∀ a b, e = a ++ b → ∃ ts, Unclosed a ts := by
  induction h with
  | none h => exact balanced_prefix h
  | @one e1 t e2 ts h1 _ ih =>
    intro a b he
    rcases List.append_eq_append_iff.mp he with ⟨c, rfl, hc⟩ | ⟨c, rfl, _⟩
    · cases c with
      | nil => exact ⟨[], by simpa using Unclosed.none h1⟩
      | cons y c =>
        cases hc
        obtain ⟨ts, h⟩ := ih c b rfl
        exact ⟨t :: ts, .one h1 h⟩
    · exact balanced_prefix h1 a c rfl

/-- The callback that panics. -/
theorem run_stops {c : Calls Mark (XEng W) (TransCtx W) (XPanic Q)} : ∀ (e : List (Ev Mark)) (st : XEng W × List (TransCtx W)) (x), c.run e st = .error x →
    ∃ e1 y e2 st1, e = e1 ++ y :: e2 ∧ c.run e1 st = .ok st1 ∧ c.step st1 y = .error x
  | [], st, x, h => by cases h
  | y :: e, st, x, h => by
    unfold Calls.run at h
    cases hs : c.step st y with
    | error z => rw [hs] at h; cases h; exact ⟨[], y, e, st, rfl, rfl, hs⟩
    | ok st1 =>
      rw [hs] at h
      obtain ⟨e1, z, e2, st2, rfl, h1, h2⟩ := run_stops e st1 x h
      refine ⟨y :: e1, z, e2, st2, rfl, ?_, h2⟩
      unfold Calls.run
      rw [hs]
      exact h1

/-- Closing nodes does not panic in the specification. -/
theorem closers_items (ts : List Mark) : ∀ o : List (List (DItem W)), ∃ o', DItem.run getValue (ts.map (.closes · false)) o = .ok o' := by
  induction ts with
  | nil => intro o; exact ⟨o, rfl⟩
  | cons t ts ih =>
    intro o
    have : ∃ o', DItem.step getValue o (.closes t false) = .ok o' := by
      cases o with
      | nil => exact ⟨_, rfl⟩
      | cons a o => cases o <;> exact ⟨_, rfl⟩
    obtain ⟨o1, h1⟩ := this
    obtain ⟨o2, h2⟩ := ih o1
    exact ⟨o2, by rw [List.map_cons, DItem.run, h1]; exact h2⟩

/-- The first callback that panics is the same in the specification. -/
theorem stops_iff {e : List (Ev Mark)} {ts : List Mark} (h : Unclosed e ts) (u : XEng W) (x : Ev Mark) {u1 : XEng W} {vs : List (TransCtx W)}
    (hr : (calls getValue).run e (u.init, []) = .ok (u1, vs)) :
    (∃ y, (calls getValue).step (u1, vs) x = .error y) ↔ ∃ p, DItem.run getValue (e ++ [x]) [[]] = .error p := by
  obtain ⟨items, hd, _⟩ := unclosed_runs h u hr
  have key : ∀ ts', Unclosed (e ++ [x]) ts' →
      ((∃ y, (calls getValue).step (u1, vs) x = .error y) ↔ ∃ p, DItem.run getValue (e ++ [x]) [[]] = .error p) := by
    intro ts' hx
    have h1 : (calls getValue).run (e ++ [x]) (u.init, []) = (calls getValue).step (u1, vs) x := by
      rw [run_append, hr]
      dsimp only
      unfold Calls.run
      cases (calls getValue).step (u1, vs) x <;> rfl
    constructor
    · rintro ⟨y, hy⟩
      rcases runs_init (getValue := getValue) (unclosed_closed hx) u [] with ⟨p, u', h2, _⟩ | ⟨_, u', _, h2, _⟩
      · rw [DItem.run_append] at h2
        cases h3 : DItem.run getValue (e ++ [x]) [[]] with
        | error p' => exact ⟨p', rfl⟩
        | ok o =>
          rw [h3] at h2
          obtain ⟨o', h4⟩ := closers_items (getValue := getValue) ts'.reverse o
          dsimp only at h2
          rw [h4] at h2
          cases h2
      · rw [run_append, h1, hy] at h2
        cases h2
    · rintro ⟨p, hp⟩
      cases hy : (calls getValue).step (u1, vs) x with
      | error y => exact ⟨y, rfl⟩
      | ok st =>
        rcases runs_init (getValue := getValue) (unclosed_closed hx) u [] with ⟨p', u', _, h2⟩ | ⟨items', u', h2, _, _⟩
        · rw [run_append, h1, hy] at h2
          obtain ⟨y, h3⟩ := closers_ok (getValue := getValue) ts'.reverse st.1 st.2
          dsimp only at h2
          rw [h3] at h2
          cases h2
        · rw [DItem.run_append, hp] at h2
          cases h2
  cases x with
  | act a g toks l => exact key _ (unclosed_act h)
  | opens t => exact key _ (unclosed_opens h)
  | closes t f =>
    constructor
    · rintro ⟨y, hy⟩
      cases vs <;> cases hy
    · rintro ⟨p, hp⟩
      rw [DItem.run_append] at hd hp
      cases h3 : DItem.run getValue e [[]] with
      | error p' => rw [h3] at hd; cases hd
      | ok o =>
        rw [h3] at hp
        cases o with
        | nil => cases hp
        | cons a o => cases o <;> cases hp

/-- A callback that panics has not changed anything. -/
theorem step_error {u : XEng W} {vs : List (TransCtx W)} {x : Ev Mark} {p : XPanic Q} {u' : XEng W}
    (h : (calls getValue).step (u, vs) x = .error (p, u')) : u' = u := by
  cases x with
  | act a g toks l =>
    simp only [Calls.step, calls] at h
    cases hl : u.leaf getValue a toks with
    | error q => rw [hl] at h; cases h; rfl
    | ok v => rw [hl] at h; cases h
  | opens t =>
    simp only [Calls.step, calls] at h
    cases hl : (u.begin_ t : Except (XPanic Q) _) with
    | error q => rw [hl] at h; cases h; rfl
    | ok v => rw [hl] at h; cases h
  | closes t f => cases vs <;> cases h

/-- The state a match ends in. -/
def resState : Res Mark (XEng W) (XPanic Q) → St (XEng W)
  | .ok _ s => s
  | .fail _ _ s => s
  | .panic _ s => s

theorem tr_unclosed {env : Env Mark} {g : Gr Mark} {toks o e} (h : Tr env (.one g) toks o e) (ho : o ≠ .abort true) : ∃ ts, Unclosed e ts := by
  cases o with
  | succ n l => exact ⟨[], .none (C35_balanced.1 _ _ h)⟩
  | fail n => exact ⟨[], .none (C35_balanced.2.1 _ h)⟩
  | abort b =>
    cases b with
    | true => exact absurd rfl ho
    | false => exact C35_balanced.2.2.1 h

/-- A match leaves what has been found. -/
theorem match_found {r : CompileRet Mark} {toks : List Token} {s : St (XEng W)} {res : Res Mark (XEng W) (XPanic Q)}
    (h : Eval r.env (sem getValue) r.root toks { s with u := s.u.init } res) :
    ∃ items, FoundIn getValue r toks items ∧ (resState res).u.result = some (docOf items) := by
  obtain ⟨f, h⟩ := h
  rw [sem_eq] at h
  obtain ⟨o, e, ht, hf⟩ := sound_matchG f _ _ _ _ h
  have : (o ≠ .abort true ∧ ∃ vs, (calls getValue).run e (s.u.init, []) = .ok ((resState res).u, vs)) ∨
      o = .abort true ∧ ∃ q, (calls getValue).run e (s.u.init, []) = .error (q, (resState res).u) := by
    cases res with
    | ok n s' => obtain ⟨rfl, hw⟩ := hf []; exact .inl ⟨nofun, _, hw⟩
    | fail n er s' => obtain ⟨rfl, hw⟩ := hf []; exact .inl ⟨nofun, _, hw⟩
    | panic p s' =>
      rcases hf [] with ⟨rfl, q, _, hw⟩ | ⟨rfl, _, vs', hw⟩
      · exact .inr ⟨rfl, q, hw⟩
      · exact .inl ⟨nofun, _, hw⟩
  rcases this with ⟨ho, vs, hw⟩ | ⟨rfl, q, hw⟩
  · obtain ⟨ts, hu⟩ := tr_unclosed ht ho
    obtain ⟨items, h1, h2⟩ := unclosed_runs hu s.u hw
    exact ⟨items, .whole ht ho hu h1, h2⟩
  · obtain ⟨e1, x, e2, ⟨u1, vs⟩, rfl, h1, h2⟩ := run_stops _ _ _ hw
    obtain ⟨e', x', ts', he, hu', _⟩ := C35_balanced.2.2.2 ht
    have : ∃ ts, Unclosed e1 ts := by
      rcases List.append_eq_append_iff.mp he with ⟨c, rfl, _⟩ | ⟨c, rfl, hc⟩
      · exact unclosed_prefix hu' e1 c rfl
      · cases c with
        | nil => exact ⟨ts', by simpa using hu'⟩
        | cons y c => exact absurd (congrArg List.length hc) (by simp)
    obtain ⟨ts, hu⟩ := this
    obtain ⟨items, h3, h4⟩ := unclosed_runs hu s.u h1
    obtain ⟨p, hp⟩ := (stops_iff hu s.u x h1).mp ⟨_, h2⟩
    refine ⟨items, .stopped ht hu hp h3, ?_⟩
    rw [step_error h2]
    exact h4

/-- What can be found is what every match leaves. -/
theorem found_match {r : CompileRet Mark} {toks : List Token} {items : List (DItem W)} (h : FoundIn getValue r toks items) (s : St (XEng W)) :
    ∃ res, Eval r.env (sem getValue) r.root toks { s with u := s.u.init } res ∧ (resState res).u.result = some (docOf items) := by
  cases h with
  | @whole o e ts ht ho hu hd =>
    obtain ⟨u', h1, _⟩ := run_unique (unclosed_closed hu) hd s.u []
    obtain ⟨res, hr, hf⟩ := realise (c := calls getValue) ht { s with u := s.u.init } [] (fun h => absurd h ho)
    have : ∃ vs, (calls getValue).run e (s.u.init, []) = .ok ((resState res).u, vs) := by
      rcases hf with ⟨p, lens, u, hw, _⟩ | hf
      · have := run_error (e' := ts.reverse.map (.closes · false)) hw
        rw [h1] at this
        cases this
      · cases res with
        | ok n s' => exact ⟨_, hf.2⟩
        | fail n er s' => exact ⟨_, hf.2⟩
        | panic p s' =>
          rcases hf with ⟨h, _⟩ | ⟨_, _, vs', hw⟩
          · exact absurd h ho
          · exact ⟨_, hw⟩
    obtain ⟨vs, hw⟩ := this
    obtain ⟨items', h2, h3⟩ := unclosed_runs hu s.u hw
    rw [hd] at h2
    cases h2
    rw [sem_eq]
    exact ⟨res, hr, h3⟩
  | @stopped e x e' ts p ht hu hp hd =>
    obtain ⟨u', h1, _⟩ := run_unique (unclosed_closed hu) hd s.u []
    cases hw : (calls getValue).run e (s.u.init, []) with
    | error y =>
      have := run_error (e' := ts.reverse.map (.closes · false)) hw
      rw [h1] at this
      cases this
    | ok st =>
      obtain ⟨u1, vs⟩ := st
      obtain ⟨items', h2, h3⟩ := unclosed_runs hu s.u hw
      rw [hd] at h2
      cases h2
      obtain ⟨⟨q, u2⟩, hy⟩ := (stops_iff hu s.u x hw).mpr ⟨p, hp⟩
      have hu2 := step_error hy
      subst hu2
      have hrun : (calls getValue).run (e ++ x :: e') (s.u.init, []) = .error (q, u2) := by
        rw [run_append, hw]
        dsimp only
        unfold Calls.run
        rw [hy]
      obtain ⟨res, hr, hf⟩ := realise (c := calls getValue) ht { s with u := s.u.init } [] (fun _ => ⟨_, hrun⟩)
      rw [sem_eq]
      refine ⟨res, hr, ?_⟩
      rcases hf with ⟨p', lens, u3, hw', rfl⟩ | hf
      · rw [hrun] at hw'
        cases hw'
        exact h3
      · cases res with
        | ok n s' => cases hf.1
        | fail n er s' => cases hf.1
        | panic p' s' =>
          rcases hf with ⟨_, q', _, hw'⟩ | ⟨h, _⟩
          · rw [hrun] at hw'
            injection hw' with hw'
            injection hw' with _ hw'
            show s'.u.result = _
            rw [← hw']
            exact h3
          · cases h

/-- The state after a parse. -/
def leftBy : MRes Mark (XEng W) (XPanic Q) (DMap W) → St (XEng W)
  | .ok _ s => s
  | .err _ s => s
  | .panic _ s => s

/-- The parse came to match the tokens. -/
def CameToMatch : MRes Mark (XEng W) (XPanic Q) (DMap W) → Prop
  | .ok _ _ => True
  | .err (.match_ _) _ => True
  | .err _ _ => False
  | .panic _ _ => True

/-- C132: what has been found depends on the tokens only. -/
theorem C132_unique {r : CompileRet Mark} {toks : List Token} {items items' : List (DItem W)}
    (h : FoundIn getValue r toks items) (h' : FoundIn getValue r toks items') : docOf items = docOf items' := by
  obtain ⟨res, h1, h2⟩ := found_match h ⟨fun _ => 0, XEng.new⟩
  obtain ⟨res', h1', h2'⟩ := found_match h' ⟨fun _ => 0, XEng.new⟩
  cases Eval.unique h1 h1'
  exact Option.some.inj (h2.symm.trans h2')

/-- C132, the part that holds: after a Parse that came to match the tokens of the text, Result is the document of
what has been found in the text, whether the match succeeded, failed, left tokens over, was given up at a
`!` or was ended by a panic of the value function, and whatever was parsed before. Missing: texts that cannot be
tokenized (`C132_violated`, `C132_stale`). -/
theorem C132_found_partial {r : CompileRet Mark} {U : Uni} {k : KwScanner} (hk : KwScanner.Steps U KwScanner.zero k) {fuel : Nat} {src : Str}
    {s : St (XEng W)} {res : MRes Mark (XEng W) (XPanic Q) (DMap W)} (h : parse getValue r U fuel k src s = some res) (hm : CameToMatch res) :
    ∃ toks eof items, Tokenizes U k src r.mode toks eof ∧ FoundIn getValue r toks items ∧
      (leftBy res).u.result = some (docOf items) ∧ ∀ m s', res = .ok m s' → m = docOf items := by
  by_cases hg : r.root = .nil
  · unfold parse at h
    rw [(C37_no_grammar (matcher getValue r) hg U k src s fuel).2] at h
    cases h
    exact hm.elim
  · have hq := match_eq (matcher getValue r) hg U fuel k src s
    unfold parse Matcher.matchExactly at h
    generalize (matcher getValue r).match_ U fuel k src s = x at hq h
    obtain ⟨x, kx⟩ := x
    dsimp only at hq h
    rw [hq] at h
    simp only [matcher] at h
    cases htk : (k.tokenize U src r.mode).1 with
    | mk toks te =>
    rw [htk] at h
    cases te with
    | some te => cases h; exact hm.elim
    | none =>
      obtain ⟨eof, ht⟩ := (tokenizes_iff hk).mp htk
      dsimp only at h
      cases hx : matchG r.env (sem getValue) fuel r.root toks { s with u := s.u.init } with
      | none => rw [hx] at h; cases h
      | some mr =>
        rw [hx] at h
        cases mr with
        | panic p s1 =>
          cases h
          obtain ⟨items, h1, h2⟩ := match_found ⟨fuel, hx⟩
          exact ⟨toks, eof, items, ht, h1, h2, nofun⟩
        | fail n e s1 =>
          cases h
          obtain ⟨items, h1, h2⟩ := match_found ⟨fuel, hx⟩
          exact ⟨toks, eof, items, ht, h1, h2, nofun⟩
        | ok n s1 =>
          obtain ⟨items, h1, h2⟩ := match_found ⟨fuel, hx⟩
          dsimp only at h
          by_cases hd : (toks.drop n).length ≠ 0
          · rw [if_pos hd] at h
            cases h
            exact ⟨toks, eof, items, ht, h1, h2, nofun⟩
          · rw [if_neg hd] at h
            dsimp only [resState] at h h2
            rw [h2] at h
            cases h
            exact ⟨toks, eof, items, ht, h1, h2, fun m s' e => by cases e; rfl⟩

/-- C132: a Parse that does not come to match leaves Result as it was. -/
theorem C132_stale {r : CompileRet Mark} {U : Uni} {k : KwScanner} {fuel : Nat} {src : Str} {s s' : St (XEng W)} {e : MErr Mark}
    (h : parse getValue r U fuel k src s = some (.err e s')) (he : ∀ x, e ≠ .match_ x) : s'.u.result = s.u.result := by
  by_cases hg : r.root = .nil
  · unfold parse at h
    rw [(C37_no_grammar (matcher getValue r) hg U k src s fuel).2] at h
    cases h
    rfl
  · have hq := match_eq (matcher getValue r) hg U fuel k src s
    unfold parse Matcher.matchExactly at h
    generalize (matcher getValue r).match_ U fuel k src s = x at hq h
    obtain ⟨x, kx⟩ := x
    dsimp only at hq h
    rw [hq] at h
    simp only [matcher] at h
    generalize (k.tokenize U src r.mode).1 = tk at h
    obtain ⟨toks, te⟩ := tk
    cases te with
    | some te => cases h; rfl
    | none =>
      dsimp only at h
      cases hx : matchG r.env (sem getValue) fuel r.root toks { s with u := s.u.init } with
      | none => rw [hx] at h; cases h
      | some mr =>
        rw [hx] at h
        cases mr with
        | panic p s1 => cases h
        | fail n e s1 => cases h; exact absurd rfl (he _)
        | ok n s1 =>
          dsimp only at h
          by_cases hd : (toks.drop n).length ≠ 0
          · rw [if_pos hd] at h; cases h; exact absurd rfl (he _)
          · rw [if_neg hd] at h
            dsimp only at h
            split at h <;> cases h

/-- What Result shows after two parses: the error of the second is one of tokenizing, of matching, or there is none. -/
def twice (text src src' tag : Str) : Option (List Str × Option (Nat × List Str)) :=
  match extract text src with
  | none => none
  | some (r, m, s) => some (look [] (m tag), match parse textOf r ascii 60 r.tab.scanner src' s with
    | some (.err (.tokenize _ _) s') => some (1, match s'.u.result with | some m => look [] (m tag) | none => [])
    | some (.err (.match_ _) s') => some (2, match s'.u.result with | some m => look [] (m tag) | none => [])
    | some (.ok _ s') => some (0, match s'.u.result with | some m => look [] (m tag) | none => [])
    | _ => none)

/-- C132 does not hold for all texts: after the second Parse, which fails because the text cannot be tokenized,
Result is still the document of the first text. -/
theorem C132_violated : twice leakText (str "a+") (str "\"b") (str "x") = some ([str "a"], some (1, [str "a"])) := by kernel_rfl

-- A text that does not match, one that is too long, and one in which nothing is found.
example : twice leakText (str "a+") (str "b*") (str "x") = some ([str "a"], some (2, [str "b"])) := by kernel_rfl

example : twice leakText (str "a+") (str "b+ c") (str "x") = some ([str "a"], some (2, [str "b"])) := by kernel_rfl

example : twice leakText (str "a+") (str "1") (str "x") = some ([str "a"], some (2, [])) := by kernel_rfl

-- Given up at a `!`: the node that is open counts with what it has.
example : FoundIn textOf (W := Str) ⟨.trans ⟨str "n", str "Node", false⟩ (.and [.action ⟨str "a", str "Text", false⟩ (.tok IDENT), .nil, .tok 43]), ⟨[], [], 1, KwScanner.zero⟩, plain⟩
    [⟨IDENT, 0, str "b"⟩] [.node (str "n") false [.leaf (str "a") false (str "b")]] :=
  .whole (ts := [⟨str "n", str "Node", false⟩])
    (.transAbort (.and (o := .abort false) (.seqNext (g := .action _ _) (o := .abort false) nofun (.action (.tok (.inl rfl))) (.seqMark (.seqCut (g := .tok _) nofun .tokEnd))))) nofun
    (.one .nil (.none (.act .nil))) rfl

-- Ended by a panic of the value function, for the second leaf.
example : FoundIn (fun _ lit => if lit = str "c" then .error () else .ok lit) (W := Str)
    ⟨.and [.action ⟨str "a", str "Text", false⟩ (.tok IDENT), .action ⟨str "b", str "Text", false⟩ (.tok IDENT)], ⟨[], [], 1, KwScanner.zero⟩, plain⟩
    [⟨IDENT, 0, str "b"⟩, ⟨IDENT, 2, str "c"⟩] [.leaf (str "a") false (str "b")] :=
  .stopped (e := [.act ⟨str "a", str "Text", false⟩ (.tok IDENT) [⟨IDENT, 0, str "b"⟩] (-1)])
    (x := .act ⟨str "b", str "Text", false⟩ (.tok IDENT) [⟨IDENT, 2, str "c"⟩] (-1)) (e' := []) (ts := []) (p := .value ())
    (.and (o := .abort true) (.seqNext (g := .action _ _) (o := .abort true) (n := 1) nofun (.action (src := [⟨IDENT, 0, str "b"⟩, ⟨IDENT, 2, str "c"⟩]) (n := 1) (l := -1) (e := []) (.tok (.inl rfl))) (.seqAbort (g := .action _ _) nofun (.actionStop (src := [⟨IDENT, 2, str "c"⟩]) (n := 1) (l := -1) (e := []) (.tok (.inl rfl))))))
    (.none (.act .nil)) rfl rfl

end Tpl.Props
