import Verif.Proof.Trace
import Verif.Proof.Go

/-!
Matching from what its callbacks do one after the other.  `realise` (Proof/Trace) is for
callbacks that are functions of a state; here they are the callbacks of any `Sem`, which may
call the matcher again, described by what holds before and after.
-/
namespace Tpl
open Spec
variable {A σ V P : Type}

/-- Do the actions `g` ends with leave the lengths of the grammars alone?  `still` tells which
ones do. -/
def Gr.Still (still : A → Prop) : Gr A → Prop
  | .action a g => still a ∧ g.Still still
  | .trans _ _ => False
  | _ => True

/-- A callback invocation starting where `B` holds ends where `C` holds, or panics so that `E`
holds.  (Transactions do not occur here.) -/
def HStep (env : Env A) (sem : Sem A σ V P) (still : A → Prop) (E : Panic A P → σ → Prop) (B C : σ → Prop) : Ev A → Prop
  | .act a g toks l => ∀ s, B s.u → (g.Still still → g.len s.len = l) → ∃ c, ActEval env sem a g toks s c ∧ (match c with
      | .ok _ s' => C s'.u ∧ (still a → s'.len = s.len)
      | .panic p s' => E p s'.u)
  | _ => ∀ u, ¬ B u

/-- The same for a sequence of invocations. -/
def HRun (env : Env A) (sem : Sem A σ V P) (still : A → Prop) (E : Panic A P → σ → Prop) : List (Ev A) → (σ → Prop) → (σ → Prop) → Prop
  | [], B, C => ∀ u, B u → C u
  | e :: es, B, C => ∃ D, HStep env sem still E B D e ∧ HRun env sem still E es D C

section
variable {env : Env A} {sem : Sem A σ V P} {still : A → Prop} {E : Panic A P → σ → Prop}

theorem HStep.weaken {B B' C C' : σ → Prop} {e : Ev A} (h : HStep env sem still E B C e) (hb : ∀ u, B' u → B u) (hc : ∀ u, C u → C' u) :
    HStep env sem still E B' C' e := by
  cases e with
  | opens | closes => exact fun u hu => h u (hb u hu)
  | act a g toks l =>
    intro s hs hl
    obtain ⟨c, h1, h2⟩ := h s (hb _ hs) hl
    refine ⟨c, h1, ?_⟩
    cases c with
    | ok _ s' => exact ⟨hc _ h2.1, h2.2⟩
    | panic p s' => exact h2

theorem HRun.before {B B' C : σ → Prop} {es : List (Ev A)} (h : HRun env sem still E es B C) (hb : ∀ u, B' u → B u) :
    HRun env sem still E es B' C := by
  cases es with
  | nil => exact fun u hu => h u (hb u hu)
  | cons e es =>
    obtain ⟨D, h1, h2⟩ := h
    exact ⟨D, h1.weaken hb (fun _ h => h), h2⟩

theorem HRun.after {C C' : σ → Prop} (hc : ∀ u, C u → C' u) : ∀ {es : List (Ev A)} {B : σ → Prop},
    HRun env sem still E es B C → HRun env sem still E es B C'
  | [], _, h => fun u hu => hc u (h u hu)
  | _ :: _, _, ⟨D, h1, h2⟩ => ⟨D, h1, h2.after hc⟩

theorem HRun.append_iff : ∀ {es es' : List (Ev A)} {B C : σ → Prop},
    HRun env sem still E (es ++ es') B C ↔ ∃ D, HRun env sem still E es B D ∧ HRun env sem still E es' D C
  | [], es', B, C => ⟨fun h => ⟨B, fun _ h => h, h⟩, fun ⟨_, h1, h2⟩ => h2.before h1⟩
  | e :: es, es', B, C => by
    constructor
    · rintro ⟨D, h1, h2⟩
      obtain ⟨D', h3, h4⟩ := append_iff.mp h2
      exact ⟨D', ⟨D, h1, h3⟩, h4⟩
    · rintro ⟨D', ⟨D, h1, h3⟩, h4⟩
      exact ⟨D, h1, append_iff.mpr ⟨D', h3, h4⟩⟩

theorem HRun.append {es es' : List (Ev A)} {B C D : σ → Prop} (h : HRun env sem still E es B D) (h' : HRun env sem still E es' D C) :
    HRun env sem still E (es ++ es') B C := append_iff.mpr ⟨D, h, h'⟩

theorem HRun.one {e : Ev A} {B C : σ → Prop} (h : HStep env sem still E B C e) : HRun env sem still E [e] B C := ⟨C, h, fun _ h => h⟩

theorem HStep.panics {E' : Panic A P → σ → Prop} {B C : σ → Prop} {e : Ev A} (h : HStep env sem still E B C e)
    (he : ∀ p u, E p u → E' p u) : HStep env sem still E' B C e := by
  cases e with
  | opens | closes => exact h
  | act a g toks l =>
    intro s hs hl
    obtain ⟨c, h1, h2⟩ := h s hs hl
    refine ⟨c, h1, ?_⟩
    cases c with
    | ok _ s' => exact h2
    | panic p s' => exact he _ _ h2

theorem HRun.panics {E' : Panic A P → σ → Prop} (he : ∀ p u, E p u → E' p u) : ∀ {es : List (Ev A)} {B C : σ → Prop},
    HRun env sem still E es B C → HRun env sem still E' es B C
  | [], _, _, h => h
  | _ :: _, _, _, ⟨D, h1, h2⟩ => ⟨D, h1.panics he, h2.panics he⟩

/-- It is enough to look at one state at a time. -/
theorem HRun.each : ∀ {es : List (Ev A)} {B C : σ → Prop}, (∀ u, B u → HRun env sem still E es (· = u) C) → HRun env sem still E es B C
  | [], _, _, h => fun u hu => h u hu u rfl
  | e :: es, B, C, h => by
    refine ⟨fun u' => ∃ u D, B u ∧ HStep env sem still E (· = u) D e ∧ HRun env sem still E es D C ∧ D u', ?_, ?_⟩
    · cases e with
      | opens | closes =>
        intro u hu
        obtain ⟨D, h1, _⟩ := h u hu
        exact h1 u rfl
      | act a g toks l =>
        intro s hs hl
        obtain ⟨D, h1, h2⟩ := h _ hs
        obtain ⟨c, h3, h4⟩ := h1 s rfl hl
        refine ⟨c, h3, ?_⟩
        cases c with
        | ok _ s' => exact ⟨⟨_, D, hs, h1, h2, h4.1⟩, h4.2⟩
        | panic p s' => exact h4
    · exact HRun.each fun u ⟨_, D, _, _, h3, h4⟩ => h3.before (by rintro _ rfl; exact h4)

/-- The outcome of a call after such a sequence. -/
def HFit (E : Panic A P → σ → Prop) (L : (Nat → Nat) → Int → Prop) (C : σ → Prop) (o : Out) (r : Res A σ P) : Prop :=
  (∃ p s, r = .panic p s ∧ E p s.u) ∨ match o with
    | .succ n l => ∃ s, r = .ok n s ∧ L s.len l ∧ C s.u
    | .fail n => ∃ e s, r = .fail n e s ∧ C s.u
    | .abort _ => False

def HFitL (E : Panic A P → σ → Prop) (n0 k0 : Nat) (C : σ → Prop) (o : Out) (r : LoopRes A σ P) : Prop :=
  (∃ p s, r = .panic p s ∧ E p s.u) ∨ ∃ m i : Nat, o = .succ m i ∧ ∃ s, r = .done (n0 + m) (k0 + i) s ∧ C s.u

/-- What is proved of every trace that does not end the whole match. -/
def HReal (env : Env A) (sem : Sem A σ V P) (still : A → Prop) (E : Panic A P → σ → Prop) : Job A → List Token → Out → List (Ev A) → Prop
  | .one g, src, o, e => ∀ B C s, HRun env sem still E e B C → B s.u → ∃ r, Eval env sem g src s r ∧ HFit E (fun c l => g.Still still → l = g.len c) C o r
  | .seq gs ff, src, o, e => ∀ B C all src0 n s, HRun env sem still E e B C → B s.u → src = src0.drop n → n ≤ src0.length →
      ∃ r, AndRun (Eval env sem) all src0 gs ff n s r ∧ ∀ L, HFit E (fun _ l => l = L) C ((o.withLen L).shift n) r
  | .alt gs, src, o, e => ∀ B C all nMax errMax multi s, HRun env sem still E e B C → B s.u → (multi = false → errMax ≠ none) →
      ∃ r, OrRun (Eval env sem) all src gs nMax errMax multi s r ∧ ∀ L, HFit E (fun _ l => l = L) C ((o.withLen L).atLeast nMax) r
  | .many g, src, o, e => ∀ B C n k s, HRun env sem still E e B C → B s.u →
      ∃ r, RepRun (Eval env sem) g src n k s r ∧ HFitL E n k C o r

theorem hfit_succ {L : (Nat → Nat) → Int → Prop} {C : σ → Prop} {n l} {r : Res A σ P} (h : HFit E L C (.succ n l) r) :
    (∃ p s, r = .panic p s ∧ E p s.u) ∨ ∃ s, r = .ok n s ∧ L s.len l ∧ C s.u := h
theorem hfit_fail {L : (Nat → Nat) → Int → Prop} {C : σ → Prop} {n} {r : Res A σ P} (h : HFit E L C (.fail n) r) :
    (∃ p s, r = .panic p s ∧ E p s.u) ∨ ∃ e s, r = .fail n e s ∧ C s.u := h

theorem hrealise {j : Job A} {src o e} (h : Tr env j src o e) (ho : ∀ b, o ≠ .abort b) : HReal env sem still E j src o e := by
  induction h with
  | nil | peekAbort | notAbort | rep1Abort | optAbort | listAbort | actionStop | actionAbort | transAbort | transStopOk
  | transStopFail | transStop | seqCut | seqAbort | altAbort | manyAbort => exact absurd rfl (ho _)
  | tok hk => exact fun B C s hr hb => ⟨_, eval_tok_cons.mpr (if_pos hk).symm, .inr ⟨s, rfl, fun _ => rfl, hr _ hb⟩⟩
  | tokNot hk => exact fun B C s hr hb => ⟨_, eval_tok_cons.mpr (if_neg hk).symm, .inr ⟨_, s, rfl, hr _ hb⟩⟩
  | tokEnd => exact fun B C s hr hb => ⟨_, eval_tok_nil.mpr rfl, .inr ⟨_, s, rfl, hr _ hb⟩⟩
  | tru => exact fun B C s hr hb => ⟨_, eval_tru.mpr rfl, .inr ⟨s, rfl, fun _ => rfl, hr _ hb⟩⟩
  | eof => exact fun B C s hr hb => ⟨_, eval_eof.mpr (if_pos rfl).symm, .inr ⟨s, rfl, fun _ => rfl, hr _ hb⟩⟩
  | eofNot => exact fun B C s hr hb => ⟨_, eval_eof.mpr (if_neg nofun).symm, .inr ⟨_, s, rfl, hr _ hb⟩⟩
  | peek _ ih =>
    intro B C s hr hb
    obtain ⟨r, h1, hf⟩ := ih nofun B C s hr hb
    refine ⟨_, eval_peek.mpr ⟨r, h1, rfl⟩, ?_⟩
    rcases hfit_succ hf with ⟨p, s1, rfl, hp⟩ | ⟨s1, rfl, _, hw⟩
    · exact .inl ⟨p, s1, rfl, hp⟩
    · exact .inr ⟨s1, rfl, fun _ => rfl, hw⟩
  | peekNot _ ih =>
    intro B C s hr hb
    obtain ⟨r, h1, hf⟩ := ih nofun B C s hr hb
    refine ⟨_, eval_peek.mpr ⟨r, h1, rfl⟩, ?_⟩
    rcases hfit_fail hf with ⟨p, s1, rfl, hp⟩ | ⟨e1, s1, rfl, hw⟩
    · exact .inl ⟨p, s1, rfl, hp⟩
    · exact .inr ⟨_, s1, rfl, hw⟩
  | notNot _ ih =>
    intro B C s hr hb
    obtain ⟨r, h1, hf⟩ := ih nofun B C s hr hb
    refine ⟨_, eval_not.mpr ⟨r, h1, rfl⟩, ?_⟩
    rcases hfit_succ hf with ⟨p, s1, rfl, hp⟩ | ⟨s1, rfl, _, hw⟩
    · exact .inl ⟨p, s1, rfl, hp⟩
    · exact .inr ⟨_, s1, rfl, hw⟩
  | not _ ih =>
    intro B C s hr hb
    obtain ⟨r, h1, hf⟩ := ih nofun B C s hr hb
    refine ⟨_, eval_not.mpr ⟨r, h1, rfl⟩, ?_⟩
    rcases hfit_fail hf with ⟨p, s1, rfl, hp⟩ | ⟨e1, s1, rfl, hw⟩
    · exact .inl ⟨p, s1, rfl, hp⟩
    · exact .inr ⟨s1, rfl, fun _ => rfl, hw⟩
  | @and gs src o e _ ih =>
    intro B C s hr hb
    obtain ⟨r, h1, hf⟩ := ih (by intro b; rintro rfl; exact ho b rfl) B C (.and gs) src 0 s hr hb rfl (Nat.zero_le _)
    refine ⟨r, eval_and.mpr h1, ?_⟩
    have hz : ∀ o : Out, o.shift 0 = o := by intro o; cases o <;> simp [Out.shift]
    have := hf gs.length
    rw [hz] at this
    rcases this with h | h
    · exact .inl h
    · cases o with
      | abort b => exact h.elim
      | succ n l => obtain ⟨s1, h2, h3, h4⟩ := h; exact .inr ⟨s1, h2, fun _ => h3, h4⟩
      | fail n => exact .inr h
  | @or gs src o e _ ih =>
    intro B C s hr hb
    obtain ⟨r, h1, hf⟩ := ih (by intro b; rintro rfl; exact ho b rfl) B C (.or gs) 0 none true s hr hb nofun
    refine ⟨r, eval_or.mpr h1, ?_⟩
    have hz : ∀ o : Out, o.atLeast 0 = o := by intro o; cases o <;> simp [Out.atLeast]
    have := hf gs.length
    rw [hz] at this
    rcases this with h | h
    · exact .inl h
    · cases o with
      | abort b => exact h.elim
      | succ n l => obtain ⟨s1, h2, h3, h4⟩ := h; exact .inr ⟨s1, h2, fun _ => h3, h4⟩
      | fail n => exact .inr h
  | @rep0 id g src o e _ ih =>
    intro B C s hr hb
    obtain ⟨r, h1, hf⟩ := ih ho B C 0 0 s hr hb
    refine ⟨_, eval_rep0.mpr ⟨r, h1, rfl⟩, ?_⟩
    rcases hf with ⟨p, s1, rfl, hp⟩ | ⟨m, i, rfl, s1, rfl, hw⟩
    · exact .inl ⟨p, s1, rfl, hp⟩
    · exact .inr ⟨s1.setLen id (0 + i), by simp, fun _ => by simp [Gr.len, St.setLen], hw⟩
  | @rep1 id g src n l e o e' t1 t2 ih1 ih2 =>
    intro B C s hr hb
    obtain ⟨D, hr1, hr2⟩ := HRun.append_iff.mp hr
    obtain ⟨r1, h1, hf1⟩ := ih1 nofun B D s hr1 hb
    rcases hfit_succ hf1 with ⟨p, s1, rfl, hp⟩ | ⟨s1, rfl, _, hw⟩
    · exact ⟨_, eval_rep1.mpr ⟨_, h1, rfl⟩, .inl ⟨p, s1, rfl, hp⟩⟩
    · obtain ⟨r, h2, hf⟩ := ih2 (by intro b; rintro rfl; exact ho b rfl) D C 0 0 s1 hr2 hw
      refine ⟨_, eval_rep1.mpr ⟨_, h1, .inr ⟨tr_bound t1, r, h2, rfl⟩⟩, ?_⟩
      rcases hf with ⟨p, s1, rfl, hp⟩ | ⟨m, i, rfl, s2, rfl, hw⟩
      · exact .inl ⟨p, s1, rfl, hp⟩
      · exact .inr ⟨s2.setLen id (0 + i + 1), by simp, fun _ => by simp [Gr.len, St.setLen], hw⟩
  | rep1Fail _ ih =>
    intro B C s hr hb
    obtain ⟨r, h1, hf⟩ := ih nofun B C s hr hb
    rcases hfit_fail hf with ⟨p, s1, rfl, hp⟩ | ⟨e1, s1, rfl, hw⟩
    · exact ⟨_, eval_rep1.mpr ⟨_, h1, rfl⟩, .inl ⟨p, s1, rfl, hp⟩⟩
    · exact ⟨_, eval_rep1.mpr ⟨_, h1, rfl⟩, .inr ⟨_, _, rfl, hw⟩⟩
  | opt _ ih =>
    intro B C s hr hb
    obtain ⟨r, h1, hf⟩ := ih nofun B C s hr hb
    refine ⟨_, eval_rep01.mpr ⟨r, h1, rfl⟩, ?_⟩
    rcases hfit_succ hf with ⟨p, s1, rfl, hp⟩ | ⟨s1, rfl, _, hw⟩
    · exact .inl ⟨p, s1, rfl, hp⟩
    · exact .inr ⟨_, rfl, fun _ => by simp [Gr.len, St.setLen], hw⟩
  | optNone _ ih =>
    intro B C s hr hb
    obtain ⟨r, h1, hf⟩ := ih nofun B C s hr hb
    refine ⟨_, eval_rep01.mpr ⟨r, h1, rfl⟩, ?_⟩
    rcases hfit_fail hf with ⟨p, s1, rfl, hp⟩ | ⟨e1, s1, rfl, hw⟩
    · exact .inl ⟨p, s1, rfl, hp⟩
    · exact .inr ⟨_, rfl, fun _ => by simp [Gr.len, St.setLen], hw⟩
  | @list id a b l0 src n l e o e' t1 t2 ih1 ih2 =>
    intro B C s hr hb
    obtain ⟨D, hr1, hr2⟩ := HRun.append_iff.mp hr
    obtain ⟨r1, h1, hf1⟩ := ih1 nofun B D s hr1 hb
    rcases hfit_succ hf1 with ⟨p, s1, rfl, hp⟩ | ⟨s1, rfl, _, hw⟩
    · exact ⟨_, eval_list.mpr ⟨_, h1, rfl⟩, .inl ⟨p, s1, rfl, hp⟩⟩
    · obtain ⟨r, h2, hf⟩ := ih2 (by intro b; rintro rfl; exact ho b rfl) D C n 1 s1 hr2 hw
      refine ⟨_, eval_list.mpr ⟨_, h1, .inr ⟨tr_bound t1, r, h2, rfl⟩⟩, ?_⟩
      rcases hf with ⟨p, s1, rfl, hp⟩ | ⟨m, i, rfl, s2, rfl, hw⟩
      · exact .inl ⟨p, s1, rfl, hp⟩
      · exact .inr ⟨s2.setLen id (1 + i), by simp, fun _ => by simp [Gr.len, St.setLen, Int.add_comm], hw⟩
  | list0 _ ih =>
    intro B C s hr hb
    obtain ⟨r, h1, hf⟩ := ih nofun B C s hr hb
    rcases hfit_fail hf with ⟨p, s1, rfl, hp⟩ | ⟨e1, s1, rfl, hw⟩
    · exact ⟨_, eval_list.mpr ⟨_, h1, rfl⟩, .inl ⟨p, s1, rfl, hp⟩⟩
    · exact ⟨_, eval_list.mpr ⟨_, h1, rfl⟩, .inr ⟨_, rfl, fun _ => by simp [Gr.len, St.setLen], hw⟩⟩
  | listFail _ ih =>
    intro B C s hr hb
    obtain ⟨r, h1, hf⟩ := ih nofun B C s hr hb
    rcases hfit_fail hf with ⟨p, s1, rfl, hp⟩ | ⟨e1, s1, rfl, hw⟩
    · exact ⟨_, eval_list.mpr ⟨_, h1, rfl⟩, .inl ⟨p, s1, rfl, hp⟩⟩
    · exact ⟨_, eval_list.mpr ⟨_, h1, rfl⟩, .inr ⟨_, _, rfl, hw⟩⟩
  | varNone hv =>
    intro B C s hr hb
    exact ⟨.fail 0 .varNotAssigned s, eval_var.mpr (by rw [hv]), .inr ⟨_, _, rfl, hr _ hb⟩⟩
  | @var v g src o e hv _ ih =>
    intro B C s hr hb
    obtain ⟨r, h1, hf⟩ := ih (by intro b; rintro rfl; exact ho b rfl) B C s hr hb
    refine ⟨r, eval_var.mpr (by rw [hv]; exact h1), ?_⟩
    rcases hf with h | hf
    · exact .inl h
    · cases o with
      | abort b => exact hf.elim
      | succ n l => obtain ⟨s1, rfl, _, hw⟩ := hf; exact .inr ⟨s1, rfl, fun _ => rfl, hw⟩
      | fail n => exact .inr hf
  | @named nm g src o e _ ih =>
    intro B C s hr hb
    obtain ⟨r, h1, hf⟩ := ih (by intro b; rintro rfl; exact ho b rfl) B C s hr hb
    refine ⟨r, eval_named.mpr h1, ?_⟩
    rcases hf with h | hf
    · exact .inl h
    · cases o with
      | abort b => exact hf.elim
      | succ n l => obtain ⟨s1, rfl, _, hw⟩ := hf; exact .inr ⟨s1, rfl, fun _ => rfl, hw⟩
      | fail n => exact .inr hf
  | @action a g src n l e t1 ih =>
    intro B C s hr hb
    obtain ⟨D, hr1, C', hr2, hr3⟩ := HRun.append_iff.mp hr
    change ∀ u, C' u → C u at hr3
    obtain ⟨r, h1, hf⟩ := ih nofun B D s hr1 hb
    rcases hfit_succ hf with ⟨p, s1, rfl, hp⟩ | ⟨s1, rfl, hl, hw⟩
    · exact ⟨_, eval_action.mpr ⟨_, h1, rfl⟩, .inl ⟨p, s1, rfl, hp⟩⟩
    · obtain ⟨c, hc, hk⟩ := hr2 s1 hw fun h => (hl h).symm
      refine ⟨_, eval_action.mpr ⟨_, h1, .inr ⟨tr_bound t1, c, hc, rfl⟩⟩, ?_⟩
      cases c with
      | ok _ s2 => exact .inr ⟨s2, rfl, fun h => by rw [hl h.2]; simp only [Gr.len]; rw [hk.2 h.1], hr3 _ hk.1⟩
      | panic p s2 => exact .inl ⟨p, s2, rfl, hk⟩
  | actionFail _ ih =>
    intro B C s hr hb
    obtain ⟨r, h1, hf⟩ := ih nofun B C s hr hb
    rcases hfit_fail hf with ⟨p, s1, rfl, hp⟩ | ⟨e1, s1, rfl, hw⟩
    · exact ⟨_, eval_action.mpr ⟨_, h1, rfl⟩, .inl ⟨p, s1, rfl, hp⟩⟩
    · exact ⟨_, eval_action.mpr ⟨_, h1, rfl⟩, .inr ⟨_, _, rfl, hw⟩⟩
  | trans | transFail =>
    intro B C s hr hb
    obtain ⟨D, h, _⟩ := hr
    exact absurd hb (h _)
  | seqEnd =>
    intro B C all src0 n s hr hb _ _
    exact ⟨_, .nil, fun L => .inr ⟨s, rfl, rfl, hr _ hb⟩⟩
  | seqMark _ ih =>
    intro B C all src0 n s hr hb h1 h2
    obtain ⟨r, h3, hf⟩ := ih ho B C all src0 n s hr hb h1 h2
    exact ⟨r, .mark h3, hf⟩
  | @seqNext g gs cut src n l e o e' hg t1 t2 ih1 ih2 =>
    intro B C all src0 n0 s hr hb hsrc hn
    obtain ⟨D, hr1, hr2⟩ := HRun.append_iff.mp hr
    obtain ⟨r1, h1, hf1⟩ := ih1 nofun B D s hr1 hb
    rw [hsrc] at h1
    rcases hfit_succ hf1 with ⟨p, s1, rfl, hp⟩ | ⟨s1, rfl, _, hw⟩
    · exact ⟨_, .panic hg hn h1, fun L => .inl ⟨p, s1, rfl, hp⟩⟩
    · have hb := tr_bound t1
      simp only [Out.Within, hsrc, List.length_drop] at hb
      obtain ⟨r, h2, hf⟩ := ih2 (by intro b; rintro rfl; exact ho b rfl) D C all src0 (n0 + n) s1 hr2 hw
        (by rw [hsrc, List.drop_drop]) (by omega)
      refine ⟨r, .ok hg hn h1 h2, fun L => ?_⟩
      have := hf L
      cases o with
      | abort => exact this
      | succ m l => simpa only [Out.shift, Out.withLen, Nat.add_assoc] using this
      | fail m => simpa only [Out.shift, Out.withLen, Nat.add_assoc] using this
  | seqFail hg _ ih =>
    intro B C all src0 n0 s hr hb hsrc hn
    obtain ⟨r, h1, hf⟩ := ih nofun B C s hr hb
    rw [hsrc] at h1
    rcases hfit_fail hf with ⟨p, s1, rfl, hp⟩ | ⟨e1, s1, rfl, hw⟩
    · exact ⟨_, .panic hg hn h1, fun L => .inl ⟨p, s1, rfl, hp⟩⟩
    · exact ⟨_, .fail hg hn h1, fun L => .inr ⟨_, _, rfl, hw⟩⟩
  | altEnd =>
    intro B C all nMax errMax multi s hr hb hm
    cases multi with
    | true => exact ⟨_, .multi, fun L => .inr ⟨_, s, by simp [Out.withLen, Out.atLeast]; rfl, hr _ hb⟩⟩
    | false =>
      cases errMax with
      | none => exact absurd rfl (hm rfl)
      | some e => exact ⟨_, .single, fun L => .inr ⟨_, s, by simp [Out.withLen, Out.atLeast]; rfl, hr _ hb⟩⟩
  | altHit _ ih =>
    intro B C all nMax errMax multi s hr hb hm
    obtain ⟨r, h1, hf⟩ := ih nofun B C s hr hb
    rcases hfit_succ hf with ⟨p, s1, rfl, hp⟩ | ⟨s1, rfl, _, hw⟩
    · exact ⟨_, .panic h1, fun L => .inl ⟨p, s1, rfl, hp⟩⟩
    · exact ⟨_, .ok h1, fun L => .inr ⟨s1, rfl, rfl, hw⟩⟩
  | @altNext g gs src n e o e' t1 t2 ih1 ih2 =>
    intro B C all nMax errMax multi s hr hb hm
    obtain ⟨D, hr1, hr2⟩ := HRun.append_iff.mp hr
    obtain ⟨r1, h1, hf1⟩ := ih1 nofun B D s hr1 hb
    have ho' : ∀ b, o ≠ .abort b := by intro b; rintro rfl; exact ho b rfl
    rcases hfit_fail hf1 with ⟨p, s1, rfl, hp⟩ | ⟨e1, s1, rfl, hw⟩
    · exact ⟨_, .panic h1, fun L => .inl ⟨p, s1, rfl, hp⟩⟩
    · have key : ∀ L, ((o.atLeast n).withLen L).atLeast nMax = ((o.withLen L).atLeast (max nMax n)) := by
        intro L
        cases o with
        | abort | succ => rfl
        | fail m => simp only [Out.withLen, Out.atLeast, Nat.max_assoc]
      by_cases h3 : n = nMax
      · subst h3
        obtain ⟨r, h2, hf⟩ := ih2 ho' D C all n errMax true s1 hr2 hw nofun
        refine ⟨r, .same h1 h2, fun L => ?_⟩
        rw [key, Nat.max_self]
        exact hf L
      · by_cases h4 : nMax < n
        · obtain ⟨r, h2, hf⟩ := ih2 ho' D C all n (some e1) false s1 hr2 hw nofun
          refine ⟨r, .more h1 h4 h2, fun L => ?_⟩
          rw [key, Nat.max_eq_right (Nat.le_of_lt h4)]
          exact hf L
        · obtain ⟨r, h2, hf⟩ := ih2 ho' D C all nMax errMax multi s1 hr2 hw hm
          refine ⟨r, .less h1 (by omega) h2, fun L => ?_⟩
          rw [key, Nat.max_eq_left (by omega)]
          exact hf L
  | manyEnd _ ih =>
    intro B C n k s hr hb
    obtain ⟨r, h1, hf⟩ := ih nofun B C s hr hb
    rcases hfit_fail hf with ⟨p, s1, rfl, hp⟩ | ⟨e1, s1, rfl, hw⟩
    · exact ⟨_, .panic h1, .inl ⟨p, s1, rfl, hp⟩⟩
    · exact ⟨_, .stop h1, .inr ⟨0, 0, rfl, s1, rfl, hw⟩⟩
  | @manyMore g src n l e o e' t1 t2 ih1 ih2 =>
    intro B C n0 k s hr hb
    obtain ⟨D, hr1, hr2⟩ := HRun.append_iff.mp hr
    obtain ⟨r1, h1, hf1⟩ := ih1 nofun B D s hr1 hb
    rcases hfit_succ hf1 with ⟨p, s1, rfl, hp⟩ | ⟨s1, rfl, _, hw⟩
    · exact ⟨_, .panic h1, .inl ⟨p, s1, rfl, hp⟩⟩
    · obtain ⟨r, h2, hf⟩ := ih2 (by intro b; rintro rfl; exact ho b rfl) D C (n0 + n) (k + 1) s1 hr2 hw
      refine ⟨r, .more h1 (tr_bound t1) h2, ?_⟩
      rcases hf with h | ⟨m, i, rfl, s2, rfl, hw⟩
      · exact .inl h
      · exact .inr ⟨n + m, i + 1, by simp [Out.oneMore], s2, by simp [Nat.add_assoc, Nat.add_comm, Nat.add_left_comm], hw⟩

end
end Tpl
