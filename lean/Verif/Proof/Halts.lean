import Verif.Proof.Ends

/-!
Matching from what its callbacks do one after the other (Proof/Hoare), where a callback may also
not come to an end: with no more fuel than `K` it gives nothing, and then neither does the match.
-/
namespace Tpl
open Spec
variable {A σ V P α β : Type}

/-! ### Matching that does not end -/

section
variable (K : Nat) (env : Env A) (sem : Sem A σ V P)

def Dead (g : Gr A) (src : List Token) (s : St σ) : Prop := ∀ f ≤ K + 1, matchG env sem f g src s = none
def DeadSeq (all : Gr A) (src : List Token) (gs : List (Gr A)) (ff : Bool) (n : Nat) (s : St σ) : Prop :=
  ∀ f ≤ K, andLoop (matchG env sem f) all src gs ff n s = none
def DeadAlt (all : Gr A) (src : List Token) (gs : List (Gr A)) (n : Nat) (e : Option (Err A)) (b : Bool) (s : St σ) : Prop :=
  ∀ f ≤ K, orLoop (matchG env sem f) all src gs n e b s = none
def DeadMany (g : Gr A) (src : List Token) (n k : Nat) (s : St σ) : Prop :=
  ∀ f ≤ K, ∀ i, repLoop (matchG env sem f) g i src n k s = none
def DeadAct (a : A) (g : Gr A) (toks : List Token) (s : St σ) : Prop := ∀ f ≤ K, sem.act f (matchG env sem f) a g toks s = none

end

section
variable {K : Nat} {env : Env A} {sem : Sem A σ V P} {g : Gr A} {gs : List (Gr A)} {src : List Token} {s s1 : St σ} {all : Gr A}

theorem Eval.when {r : Res A σ P} (h : Eval env sem g src s r) (f : Nat) : matchG env sem f g src s = none ∨ matchG env sem f g src s = some r := by
  obtain ⟨f', h⟩ := h
  cases hm : matchG env sem f g src s with
  | none => exact .inl rfl
  | some r' =>
    have h1 := matchG_mono env sem (Nat.le_max_left f f') _ _ _ _ hm
    have h2 := matchG_mono env sem (Nat.le_max_right f f') _ _ _ _ h
    exact .inr (h1.symm.trans h2)

theorem dead_of {g' : Gr A} {src' : List Token} {s' : St σ} (h : ∀ f ≤ K, matchStep env sem (matchG env sem f) f g' src' s' = none) : Dead K env sem g' src' s' := by
  intro f hf
  cases f with
  | zero => rfl
  | succ f => exact h f (by omega)

namespace Dead
variable (hd : Dead K env sem g src s)
include hd

theorem lt {f : Nat} (hf : f ≤ K) : matchG env sem f g src s = none := hd f (by omega)
theorem peek : Dead K env sem (.peek g) src s := dead_of fun f hf => by simp only [matchStep]; rw [hd.lt hf]
theorem not : Dead K env sem (.not g) src s := dead_of fun f hf => by simp only [matchStep]; rw [hd.lt hf]
theorem rep1 {id : Nat} : Dead K env sem (.rep1 id g) src s := dead_of fun f hf => by simp only [matchStep]; rw [hd.lt hf]
theorem rep01 {id : Nat} : Dead K env sem (.rep01 id g) src s := dead_of fun f hf => by simp only [matchStep]; rw [hd.lt hf]
theorem list {id : Nat} {b : Gr A} {l0 : Bool} : Dead K env sem (.list id g b l0) src s := dead_of fun f hf => by simp only [matchStep]; rw [hd.lt hf]
theorem var {v : Nat} (hv : env v = some g) : Dead K env sem (.var v) src s := dead_of fun f hf => by simp only [matchStep]; rw [hv]; exact hd.lt hf
theorem named {nm : Str} : Dead K env sem (.named nm g) src s := dead_of fun f hf => by simp only [matchStep]; exact hd.lt hf
theorem action {a : A} : Dead K env sem (.action a g) src s := dead_of fun f hf => by simp only [matchStep]; rw [hd.lt hf]
theorem alt {n : Nat} {e : Option (Err A)} {b : Bool} : DeadAlt K env sem all src (g :: gs) n e b s := fun f hf => by simp only [orLoop]; rw [hd.lt hf]
theorem many {n k : Nat} : DeadMany K env sem g src n k s := fun f hf i => by
  cases i with
  | zero => rfl
  | succ i => simp only [repLoop]; rw [hd.lt hf]

end Dead

theorem Dead.seq {src0 : List Token} {n : Nat} {ff : Bool} (hd : Dead K env sem g (src0.drop n) s) (hg : g ≠ .nil) (hn : n ≤ src0.length) :
    DeadSeq K env sem all src0 (g :: gs) ff n s := fun f hf => by
  rw [andLoop.eq_3 _ _ _ _ _ _ _ _ (fun h => hg h), if_pos hn, hd.lt hf]

theorem DeadSeq.and (hd : DeadSeq K env sem (.and gs) src gs false 0 s) : Dead K env sem (.and gs) src s :=
  dead_of fun f hf => by simp only [matchStep]; exact hd f hf
theorem DeadSeq.mark {n : Nat} {ff : Bool} (hd : DeadSeq K env sem all src gs true n s) : DeadSeq K env sem all src (.nil :: gs) ff n s := fun f hf => by
  simp only [andLoop]; exact hd f hf
theorem DeadSeq.rest {n n1 : Nat} {ff : Bool} (hd : DeadSeq K env sem all src gs ff (n + n1) s1) (hg : g ≠ .nil) (hn : n ≤ src.length)
    (h : Eval env sem g (src.drop n) s (.ok n1 s1)) : DeadSeq K env sem all src (g :: gs) ff n s := fun f hf => by
  rw [andLoop.eq_3 _ _ _ _ _ _ _ _ (fun h => hg h), if_pos hn]
  rcases h.when f with h | h <;> rw [h]
  exact hd f hf

theorem DeadAlt.or (hd : DeadAlt K env sem (.or gs) src gs 0 none true s) : Dead K env sem (.or gs) src s :=
  dead_of fun f hf => by simp only [matchStep]; exact hd f hf
theorem DeadAlt.same {n : Nat} {e : Option (Err A)} {b : Bool} {er : Err A} (hd : DeadAlt K env sem all src gs n e true s1)
    (h : Eval env sem g src s (.fail n er s1)) : DeadAlt K env sem all src (g :: gs) n e b s := fun f hf => by
  simp only [orLoop]
  rcases h.when f with h | h <;> rw [h]
  simpa using hd f hf
theorem DeadAlt.more {n nMax : Nat} {e : Option (Err A)} {b : Bool} {er : Err A} (hd : DeadAlt K env sem all src gs n (some er) false s1)
    (h : Eval env sem g src s (.fail n er s1)) (hn : nMax < n) : DeadAlt K env sem all src (g :: gs) nMax e b s := fun f hf => by
  simp only [orLoop]
  rcases h.when f with h | h <;> rw [h]
  dsimp only
  rw [if_pos (by omega), if_neg (by omega)]
  exact hd f hf
theorem DeadAlt.less {n nMax : Nat} {e : Option (Err A)} {b : Bool} {er : Err A} (hd : DeadAlt K env sem all src gs nMax e b s1)
    (h : Eval env sem g src s (.fail n er s1)) (hn : n < nMax) : DeadAlt K env sem all src (g :: gs) nMax e b s := fun f hf => by
  simp only [orLoop]
  rcases h.when f with h | h <;> rw [h]
  dsimp only
  rw [if_neg (by omega)]
  exact hd f hf

theorem DeadMany.rep0 {id : Nat} (hd : DeadMany K env sem g src 0 0 s) : Dead K env sem (.rep0 id g) src s :=
  dead_of fun f hf => by simp only [matchStep]; rw [hd f hf f]
theorem DeadMany.rep1 {id n : Nat} (hd : DeadMany K env sem g (src.drop n) 0 0 s1) (h : Eval env sem g src s (.ok n s1)) (hn : n ≤ src.length) :
    Dead K env sem (.rep1 id g) src s := dead_of fun f hf => by
  simp only [matchStep]
  rcases h.when f with h | h <;> rw [h]
  dsimp only
  rw [if_pos hn, hd f hf f]
theorem DeadMany.list {id n : Nat} {b : Gr A} {l0 : Bool} (hd : DeadMany K env sem (.and [b, g]) (src.drop n) n 1 s1) (h : Eval env sem g src s (.ok n s1))
    (hn : n ≤ src.length) : Dead K env sem (.list id g b l0) src s := dead_of fun f hf => by
  simp only [matchStep]
  rcases h.when f with h | h <;> rw [h]
  dsimp only
  rw [if_pos hn, hd f hf f]
theorem DeadMany.rest {n n1 k : Nat} (hd : DeadMany K env sem g (src.drop n1) (n + n1) (k + 1) s1) (h : Eval env sem g src s (.ok n1 s1))
    (hn : n1 ≤ src.length) : DeadMany K env sem g src n k s := fun f hf i => by
  cases i with
  | zero => rfl
  | succ i =>
    simp only [repLoop]
    rcases h.when f with h | h <;> rw [h]
    dsimp only
    rw [if_pos hn, hd f hf i]

theorem dead_act {a : A} {n : Nat} (h : Eval env sem g src s (.ok n s1)) (hn : n ≤ src.length) (hd : DeadAct K env sem a g (src.take n) s1) :
    Dead K env sem (.action a g) src s := dead_of fun f hf => by
  simp only [matchStep]
  rcases h.when f with h | h <;> rw [h]
  dsimp only
  rw [if_pos hn, hd f hf]

end

/-! ### Sequences of callbacks -/

/-- A callback invocation starting where `B` holds ends where `C` holds, or panics so that `E`
holds, or, if `N`, does not end. -/
def KStep (K : Nat) (env : Env A) (sem : Sem A σ V P) (still : A → Prop) (E : Panic A P → σ → Prop) (N : Prop) (B C : σ → Prop) : Ev A → Prop
  | .act a g toks l => ∀ s, B s.u → (g.Still still → g.len s.len = l) → (∃ c, ActEval env sem a g toks s c ∧ (match c with
      | .ok _ s' => C s'.u ∧ (still a → s'.len = s.len)
      | .panic p s' => E p s'.u)) ∨ (N ∧ DeadAct K env sem a g toks s)
  | _ => ∀ u, ¬ B u

/-- The same for a sequence of invocations. -/
def KRun (K : Nat) (env : Env A) (sem : Sem A σ V P) (still : A → Prop) (E : Panic A P → σ → Prop) (N : Prop) : List (Ev A) → (σ → Prop) → (σ → Prop) → Prop
  | [], B, C => ∀ u, B u → C u
  | e :: es, B, C => ∃ D, KStep K env sem still E N B D e ∧ KRun K env sem still E N es D C

section
variable {K : Nat} {env : Env A} {sem : Sem A σ V P} {still : A → Prop} {E : Panic A P → σ → Prop} {N : Prop}

theorem KStep.weaken {B B' C C' : σ → Prop} {e : Ev A} (h : KStep K env sem still E N B C e) (hb : ∀ u, B' u → B u) (hc : ∀ u, C u → C' u) :
    KStep K env sem still E N B' C' e := by
  cases e with
  | opens | closes => exact fun u hu => h u (hb u hu)
  | act a g toks l =>
    intro s hs hl
    rcases h s (hb _ hs) hl with ⟨c, h1, h2⟩ | h
    · refine .inl ⟨c, h1, ?_⟩
      cases c with
      | ok _ s' => exact ⟨hc _ h2.1, h2.2⟩
      | panic p s' => exact h2
    · exact .inr h

theorem KRun.before {B B' C : σ → Prop} {es : List (Ev A)} (h : KRun K env sem still E N es B C) (hb : ∀ u, B' u → B u) :
    KRun K env sem still E N es B' C := by
  cases es with
  | nil => exact fun u hu => h u (hb u hu)
  | cons e es =>
    obtain ⟨D, h1, h2⟩ := h
    exact ⟨D, h1.weaken hb (fun _ h => h), h2⟩

theorem KRun.after {C C' : σ → Prop} (hc : ∀ u, C u → C' u) : ∀ {es : List (Ev A)} {B : σ → Prop},
    KRun K env sem still E N es B C → KRun K env sem still E N es B C'
  | [], _, h => fun u hu => hc u (h u hu)
  | _ :: _, _, ⟨D, h1, h2⟩ => ⟨D, h1, h2.after hc⟩

theorem KRun.append_iff : ∀ {es es' : List (Ev A)} {B C : σ → Prop},
    KRun K env sem still E N (es ++ es') B C ↔ ∃ D, KRun K env sem still E N es B D ∧ KRun K env sem still E N es' D C
  | [], es', B, C => ⟨fun h => ⟨B, fun _ h => h, h⟩, fun ⟨_, h1, h2⟩ => h2.before h1⟩
  | e :: es, es', B, C => by
    constructor
    · rintro ⟨D, h1, h2⟩
      obtain ⟨D', h3, h4⟩ := append_iff.mp h2
      exact ⟨D', ⟨D, h1, h3⟩, h4⟩
    · rintro ⟨D', ⟨D, h1, h3⟩, h4⟩
      exact ⟨D, h1, append_iff.mpr ⟨D', h3, h4⟩⟩

theorem KRun.append {es es' : List (Ev A)} {B C D : σ → Prop} (h : KRun K env sem still E N es B D) (h' : KRun K env sem still E N es' D C) :
    KRun K env sem still E N (es ++ es') B C := append_iff.mpr ⟨D, h, h'⟩

theorem KRun.one {e : Ev A} {B C : σ → Prop} (h : KStep K env sem still E N B C e) : KRun K env sem still E N [e] B C := ⟨C, h, fun _ h => h⟩

theorem KStep.panics {E' : Panic A P → σ → Prop} {N' : Prop} {B C : σ → Prop} {e : Ev A} (h : KStep K env sem still E N B C e)
    (he : ∀ p u, E p u → E' p u) (hn : N → N') : KStep K env sem still E' N' B C e := by
  cases e with
  | opens | closes => exact h
  | act a g toks l =>
    intro s hs hl
    rcases h s hs hl with ⟨c, h1, h2⟩ | h
    · refine .inl ⟨c, h1, ?_⟩
      cases c with
      | ok _ s' => exact h2
      | panic p s' => exact he _ _ h2
    · exact .inr ⟨hn h.1, h.2⟩

theorem KRun.panics {E' : Panic A P → σ → Prop} {N' : Prop} (he : ∀ p u, E p u → E' p u) (hn : N → N') : ∀ {es : List (Ev A)} {B C : σ → Prop},
    KRun K env sem still E N es B C → KRun K env sem still E' N' es B C
  | [], _, _, h => h
  | _ :: _, _, _, ⟨D, h1, h2⟩ => ⟨D, h1.panics he hn, h2.panics he hn⟩

/-- It is enough to look at one state at a time. -/
theorem KRun.each : ∀ {es : List (Ev A)} {B C : σ → Prop}, (∀ u, B u → KRun K env sem still E N es (· = u) C) → KRun K env sem still E N es B C
  | [], _, _, h => fun u hu => h u hu u rfl
  | e :: es, B, C, h => by
    refine ⟨fun u' => ∃ u D, B u ∧ KStep K env sem still E N (· = u) D e ∧ KRun K env sem still E N es D C ∧ D u', ?_, ?_⟩
    · cases e with
      | opens | closes =>
        intro u hu
        obtain ⟨D, h1, _⟩ := h u hu
        exact h1 u rfl
      | act a g toks l =>
        intro s hs hl
        obtain ⟨D, h1, h2⟩ := h _ hs
        rcases h1 s rfl hl with ⟨c, h3, h4⟩ | h5
        · refine .inl ⟨c, h3, ?_⟩
          cases c with
          | ok _ s' => exact ⟨⟨_, D, hs, h1, h2, h4.1⟩, h4.2⟩
          | panic p s' => exact h4
        · exact .inr h5
    · exact KRun.each fun u ⟨_, D, _, _, h3, h4⟩ => h3.before (by rintro _ rfl; exact h4)

/-- Callbacks that always end. -/
theorem HRun.ends : ∀ {es : List (Ev A)} {B C : σ → Prop}, HRun env sem still E es B C → KRun K env sem still E N es B C
  | [], _, _, h => h
  | e :: _, _, _, ⟨D, h1, h2⟩ => ⟨D, by
      cases e with
      | opens | closes => exact h1
      | act => exact fun s hs hl => .inl (h1 s hs hl), h2.ends⟩

theorem KRun.always : ∀ {es : List (Ev A)} {B C : σ → Prop}, ¬ N → KRun K env sem still E N es B C → HRun env sem still E es B C
  | [], _, _, _, h => h
  | e :: _, _, _, hN, ⟨D, h1, h2⟩ => ⟨D, by
      cases e with
      | opens | closes => exact h1
      | act => exact fun s hs hl => (h1 s hs hl).resolve_right fun h => hN h.1, h2.always hN⟩

/-- What is proved of every trace that does not end the whole match. -/
def KReal (K : Nat) (env : Env A) (sem : Sem A σ V P) (still : A → Prop) (E : Panic A P → σ → Prop) (N : Prop) : Job A → List Token → Out → List (Ev A) → Prop
  | .one g, src, o, e => ∀ B C s, KRun K env sem still E N e B C → B s.u → (∃ r, Eval env sem g src s r ∧ HFit E (fun c l => g.Still still → l = g.len c) C o r) ∨
      (N ∧ Dead K env sem g src s)
  | .seq gs ff, src, o, e => ∀ B C all src0 n s, KRun K env sem still E N e B C → B s.u → src = src0.drop n → n ≤ src0.length →
      (∃ r, AndRun (Eval env sem) all src0 gs ff n s r ∧ ∀ L, HFit E (fun _ l => l = L) C ((o.withLen L).shift n) r) ∨
      (N ∧ DeadSeq K env sem all src0 gs ff n s)
  | .alt gs, src, o, e => ∀ B C all nMax errMax multi s, KRun K env sem still E N e B C → B s.u → (multi = false → errMax ≠ none) →
      (∃ r, OrRun (Eval env sem) all src gs nMax errMax multi s r ∧ ∀ L, HFit E (fun _ l => l = L) C ((o.withLen L).atLeast nMax) r) ∨
      (N ∧ DeadAlt K env sem all src gs nMax errMax multi s)
  | .many g, src, o, e => ∀ B C n k s, KRun K env sem still E N e B C → B s.u →
      (∃ r, RepRun (Eval env sem) g src n k s r ∧ HFitL E n k C o r) ∨ (N ∧ DeadMany K env sem g src n k s)

theorem krealise {j : Job A} {src o e} (h : Tr env j src o e) (ho : ∀ b, o ≠ .abort b) : KReal K env sem still E N j src o e := by
  induction h with
  | nil | peekAbort | notAbort | rep1Abort | optAbort | listAbort | actionStop | actionAbort | transAbort | transStopOk
  | transStopFail | transStop | seqCut | seqAbort | altAbort | manyAbort => exact absurd rfl (ho _)
  | tok hk => exact fun B C s hr hb => .inl ⟨_, eval_tok_cons.mpr (if_pos hk).symm, .inr ⟨s, rfl, fun _ => rfl, hr _ hb⟩⟩
  | tokNot hk => exact fun B C s hr hb => .inl ⟨_, eval_tok_cons.mpr (if_neg hk).symm, .inr ⟨_, s, rfl, hr _ hb⟩⟩
  | tokEnd => exact fun B C s hr hb => .inl ⟨_, eval_tok_nil.mpr rfl, .inr ⟨_, s, rfl, hr _ hb⟩⟩
  | tru => exact fun B C s hr hb => .inl ⟨_, eval_tru.mpr rfl, .inr ⟨s, rfl, fun _ => rfl, hr _ hb⟩⟩
  | eof => exact fun B C s hr hb => .inl ⟨_, eval_eof.mpr (if_pos rfl).symm, .inr ⟨s, rfl, fun _ => rfl, hr _ hb⟩⟩
  | eofNot => exact fun B C s hr hb => .inl ⟨_, eval_eof.mpr (if_neg nofun).symm, .inr ⟨_, s, rfl, hr _ hb⟩⟩
  | peek _ ih =>
    intro B C s hr hb
    rcases ih nofun B C s hr hb with ⟨r, h1, hf⟩ | ⟨hN, hd⟩
    rotate_left
    · exact .inr ⟨hN, hd.peek⟩
    left
    refine ⟨_, eval_peek.mpr ⟨r, h1, rfl⟩, ?_⟩
    rcases hfit_succ hf with ⟨p, s1, rfl, hp⟩ | ⟨s1, rfl, _, hw⟩
    · exact .inl ⟨p, s1, rfl, hp⟩
    · exact .inr ⟨s1, rfl, fun _ => rfl, hw⟩
  | peekNot _ ih =>
    intro B C s hr hb
    rcases ih nofun B C s hr hb with ⟨r, h1, hf⟩ | ⟨hN, hd⟩
    rotate_left
    · exact .inr ⟨hN, hd.peek⟩
    left
    refine ⟨_, eval_peek.mpr ⟨r, h1, rfl⟩, ?_⟩
    rcases hfit_fail hf with ⟨p, s1, rfl, hp⟩ | ⟨e1, s1, rfl, hw⟩
    · exact .inl ⟨p, s1, rfl, hp⟩
    · exact .inr ⟨_, s1, rfl, hw⟩
  | notNot _ ih =>
    intro B C s hr hb
    rcases ih nofun B C s hr hb with ⟨r, h1, hf⟩ | ⟨hN, hd⟩
    rotate_left
    · exact .inr ⟨hN, hd.not⟩
    left
    refine ⟨_, eval_not.mpr ⟨r, h1, rfl⟩, ?_⟩
    rcases hfit_succ hf with ⟨p, s1, rfl, hp⟩ | ⟨s1, rfl, _, hw⟩
    · exact .inl ⟨p, s1, rfl, hp⟩
    · exact .inr ⟨_, s1, rfl, hw⟩
  | not _ ih =>
    intro B C s hr hb
    rcases ih nofun B C s hr hb with ⟨r, h1, hf⟩ | ⟨hN, hd⟩
    rotate_left
    · exact .inr ⟨hN, hd.not⟩
    left
    refine ⟨_, eval_not.mpr ⟨r, h1, rfl⟩, ?_⟩
    rcases hfit_fail hf with ⟨p, s1, rfl, hp⟩ | ⟨e1, s1, rfl, hw⟩
    · exact .inl ⟨p, s1, rfl, hp⟩
    · exact .inr ⟨s1, rfl, fun _ => rfl, hw⟩
  | @and gs src o e _ ih =>
    intro B C s hr hb
    rcases ih (by intro b; rintro rfl; exact ho b rfl) B C (.and gs) src 0 s hr hb rfl (Nat.zero_le _) with ⟨r, h1, hf⟩ | ⟨hN, hd⟩
    rotate_left
    · exact .inr ⟨hN, hd.and⟩
    left
    refine ⟨r, eval_and.mpr h1, ?_⟩
    have hz : ∀ o : Out, o.shift 0 = o := by intro o; cases o <;> simp [Out.shift]
    have := hf gs.length
    rw [hz] at this
    rcases this with h | h
    · exact .inl h
    · cases o with
      | abort b => exact h.elim
      | succ n l => obtain ⟨s1, h2, h3, h4⟩ := h; exact .inr ⟨s1, h2, fun _ => h3, h4⟩
      | fail n => exact .inr h
  | @or gs src o e _ ih =>
    intro B C s hr hb
    rcases ih (by intro b; rintro rfl; exact ho b rfl) B C (.or gs) 0 none true s hr hb nofun with ⟨r, h1, hf⟩ | ⟨hN, hd⟩
    rotate_left
    · exact .inr ⟨hN, hd.or⟩
    left
    refine ⟨r, eval_or.mpr h1, ?_⟩
    have hz : ∀ o : Out, o.atLeast 0 = o := by intro o; cases o <;> simp [Out.atLeast]
    have := hf gs.length
    rw [hz] at this
    rcases this with h | h
    · exact .inl h
    · cases o with
      | abort b => exact h.elim
      | succ n l => obtain ⟨s1, h2, h3, h4⟩ := h; exact .inr ⟨s1, h2, fun _ => h3, h4⟩
      | fail n => exact .inr h
  | @rep0 id g src o e _ ih =>
    intro B C s hr hb
    rcases ih ho B C 0 0 s hr hb with ⟨r, h1, hf⟩ | ⟨hN, hd⟩
    rotate_left
    · exact .inr ⟨hN, hd.rep0⟩
    left
    refine ⟨_, eval_rep0.mpr ⟨r, h1, rfl⟩, ?_⟩
    rcases hf with ⟨p, s1, rfl, hp⟩ | ⟨m, i, rfl, s1, rfl, hw⟩
    · exact .inl ⟨p, s1, rfl, hp⟩
    · exact .inr ⟨s1.setLen id (0 + i), by simp, fun _ => by simp [Gr.len, St.setLen], hw⟩
  | @rep1 id g src n l e o e' t1 t2 ih1 ih2 =>
    intro B C s hr hb
    obtain ⟨D, hr1, hr2⟩ := KRun.append_iff.mp hr
    rcases ih1 nofun B D s hr1 hb with ⟨r1, h1, hf1⟩ | ⟨hN, hd⟩
    rotate_left
    · exact .inr ⟨hN, hd.rep1⟩
    rcases hfit_succ hf1 with ⟨p, s1, rfl, hp⟩ | ⟨s1, rfl, _, hw⟩
    · exact .inl ⟨_, eval_rep1.mpr ⟨_, h1, rfl⟩, .inl ⟨p, s1, rfl, hp⟩⟩
    · rcases ih2 (by intro b; rintro rfl; exact ho b rfl) D C 0 0 s1 hr2 hw with ⟨r, h2, hf⟩ | ⟨hN, hd⟩
      rotate_left
      · exact .inr ⟨hN, hd.rep1 h1 (tr_bound t1)⟩
      left
      refine ⟨_, eval_rep1.mpr ⟨_, h1, .inr ⟨tr_bound t1, r, h2, rfl⟩⟩, ?_⟩
      rcases hf with ⟨p, s1, rfl, hp⟩ | ⟨m, i, rfl, s2, rfl, hw⟩
      · exact .inl ⟨p, s1, rfl, hp⟩
      · exact .inr ⟨s2.setLen id (0 + i + 1), by simp, fun _ => by simp [Gr.len, St.setLen], hw⟩
  | rep1Fail _ ih =>
    intro B C s hr hb
    rcases ih nofun B C s hr hb with ⟨r, h1, hf⟩ | ⟨hN, hd⟩
    rotate_left
    · exact .inr ⟨hN, hd.rep1⟩
    left
    rcases hfit_fail hf with ⟨p, s1, rfl, hp⟩ | ⟨e1, s1, rfl, hw⟩
    · exact ⟨_, eval_rep1.mpr ⟨_, h1, rfl⟩, .inl ⟨p, s1, rfl, hp⟩⟩
    · exact ⟨_, eval_rep1.mpr ⟨_, h1, rfl⟩, .inr ⟨_, _, rfl, hw⟩⟩
  | opt _ ih =>
    intro B C s hr hb
    rcases ih nofun B C s hr hb with ⟨r, h1, hf⟩ | ⟨hN, hd⟩
    rotate_left
    · exact .inr ⟨hN, hd.rep01⟩
    left
    refine ⟨_, eval_rep01.mpr ⟨r, h1, rfl⟩, ?_⟩
    rcases hfit_succ hf with ⟨p, s1, rfl, hp⟩ | ⟨s1, rfl, _, hw⟩
    · exact .inl ⟨p, s1, rfl, hp⟩
    · exact .inr ⟨_, rfl, fun _ => by simp [Gr.len, St.setLen], hw⟩
  | optNone _ ih =>
    intro B C s hr hb
    rcases ih nofun B C s hr hb with ⟨r, h1, hf⟩ | ⟨hN, hd⟩
    rotate_left
    · exact .inr ⟨hN, hd.rep01⟩
    left
    refine ⟨_, eval_rep01.mpr ⟨r, h1, rfl⟩, ?_⟩
    rcases hfit_fail hf with ⟨p, s1, rfl, hp⟩ | ⟨e1, s1, rfl, hw⟩
    · exact .inl ⟨p, s1, rfl, hp⟩
    · exact .inr ⟨_, rfl, fun _ => by simp [Gr.len, St.setLen], hw⟩
  | @list id a b l0 src n l e o e' t1 t2 ih1 ih2 =>
    intro B C s hr hb
    obtain ⟨D, hr1, hr2⟩ := KRun.append_iff.mp hr
    rcases ih1 nofun B D s hr1 hb with ⟨r1, h1, hf1⟩ | ⟨hN, hd⟩
    rotate_left
    · exact .inr ⟨hN, hd.list⟩
    rcases hfit_succ hf1 with ⟨p, s1, rfl, hp⟩ | ⟨s1, rfl, _, hw⟩
    · exact .inl ⟨_, eval_list.mpr ⟨_, h1, rfl⟩, .inl ⟨p, s1, rfl, hp⟩⟩
    · rcases ih2 (by intro b; rintro rfl; exact ho b rfl) D C n 1 s1 hr2 hw with ⟨r, h2, hf⟩ | ⟨hN, hd⟩
      rotate_left
      · exact .inr ⟨hN, hd.list h1 (tr_bound t1)⟩
      left
      refine ⟨_, eval_list.mpr ⟨_, h1, .inr ⟨tr_bound t1, r, h2, rfl⟩⟩, ?_⟩
      rcases hf with ⟨p, s1, rfl, hp⟩ | ⟨m, i, rfl, s2, rfl, hw⟩
      · exact .inl ⟨p, s1, rfl, hp⟩
      · exact .inr ⟨s2.setLen id (1 + i), by simp, fun _ => by simp [Gr.len, St.setLen, Int.add_comm], hw⟩
  | list0 _ ih =>
    intro B C s hr hb
    rcases ih nofun B C s hr hb with ⟨r, h1, hf⟩ | ⟨hN, hd⟩
    rotate_left
    · exact .inr ⟨hN, hd.list⟩
    left
    rcases hfit_fail hf with ⟨p, s1, rfl, hp⟩ | ⟨e1, s1, rfl, hw⟩
    · exact ⟨_, eval_list.mpr ⟨_, h1, rfl⟩, .inl ⟨p, s1, rfl, hp⟩⟩
    · exact ⟨_, eval_list.mpr ⟨_, h1, rfl⟩, .inr ⟨_, rfl, fun _ => by simp [Gr.len, St.setLen], hw⟩⟩
  | listFail _ ih =>
    intro B C s hr hb
    rcases ih nofun B C s hr hb with ⟨r, h1, hf⟩ | ⟨hN, hd⟩
    rotate_left
    · exact .inr ⟨hN, hd.list⟩
    left
    rcases hfit_fail hf with ⟨p, s1, rfl, hp⟩ | ⟨e1, s1, rfl, hw⟩
    · exact ⟨_, eval_list.mpr ⟨_, h1, rfl⟩, .inl ⟨p, s1, rfl, hp⟩⟩
    · exact ⟨_, eval_list.mpr ⟨_, h1, rfl⟩, .inr ⟨_, _, rfl, hw⟩⟩
  | varNone hv =>
    intro B C s hr hb
    exact .inl ⟨.fail 0 .varNotAssigned s, eval_var.mpr (by rw [hv]), .inr ⟨_, _, rfl, hr _ hb⟩⟩
  | @var v g src o e hv _ ih =>
    intro B C s hr hb
    rcases ih (by intro b; rintro rfl; exact ho b rfl) B C s hr hb with ⟨r, h1, hf⟩ | ⟨hN, hd⟩
    rotate_left
    · exact .inr ⟨hN, hd.var hv⟩
    left
    refine ⟨r, eval_var.mpr (by rw [hv]; exact h1), ?_⟩
    rcases hf with h | hf
    · exact .inl h
    · cases o with
      | abort b => exact hf.elim
      | succ n l => obtain ⟨s1, rfl, _, hw⟩ := hf; exact .inr ⟨s1, rfl, fun _ => rfl, hw⟩
      | fail n => exact .inr hf
  | @named nm g src o e _ ih =>
    intro B C s hr hb
    rcases ih (by intro b; rintro rfl; exact ho b rfl) B C s hr hb with ⟨r, h1, hf⟩ | ⟨hN, hd⟩
    rotate_left
    · exact .inr ⟨hN, hd.named⟩
    left
    refine ⟨r, eval_named.mpr h1, ?_⟩
    rcases hf with h | hf
    · exact .inl h
    · cases o with
      | abort b => exact hf.elim
      | succ n l => obtain ⟨s1, rfl, _, hw⟩ := hf; exact .inr ⟨s1, rfl, fun _ => rfl, hw⟩
      | fail n => exact .inr hf
  | @action a g src n l e t1 ih =>
    intro B C s hr hb
    obtain ⟨D, hr1, C', hr2, hr3⟩ := KRun.append_iff.mp hr
    change ∀ u, C' u → C u at hr3
    rcases ih nofun B D s hr1 hb with ⟨r, h1, hf⟩ | ⟨hN, hd⟩
    rotate_left
    · exact .inr ⟨hN, hd.action⟩
    rcases hfit_succ hf with ⟨p, s1, rfl, hp⟩ | ⟨s1, rfl, hl, hw⟩
    · exact .inl ⟨_, eval_action.mpr ⟨_, h1, rfl⟩, .inl ⟨p, s1, rfl, hp⟩⟩
    · rcases hr2 s1 hw (fun h => (hl h).symm) with ⟨c, hc, hk⟩ | ⟨hN, hd⟩
      rotate_left
      · exact .inr ⟨hN, dead_act h1 (tr_bound t1) hd⟩
      left
      refine ⟨_, eval_action.mpr ⟨_, h1, .inr ⟨tr_bound t1, c, hc, rfl⟩⟩, ?_⟩
      cases c with
      | ok _ s2 => exact .inr ⟨s2, rfl, fun h => by rw [hl h.2]; simp only [Gr.len]; rw [hk.2 h.1], hr3 _ hk.1⟩
      | panic p s2 => exact .inl ⟨p, s2, rfl, hk⟩
  | actionFail _ ih =>
    intro B C s hr hb
    rcases ih nofun B C s hr hb with ⟨r, h1, hf⟩ | ⟨hN, hd⟩
    rotate_left
    · exact .inr ⟨hN, hd.action⟩
    left
    rcases hfit_fail hf with ⟨p, s1, rfl, hp⟩ | ⟨e1, s1, rfl, hw⟩
    · exact ⟨_, eval_action.mpr ⟨_, h1, rfl⟩, .inl ⟨p, s1, rfl, hp⟩⟩
    · exact ⟨_, eval_action.mpr ⟨_, h1, rfl⟩, .inr ⟨_, _, rfl, hw⟩⟩
  | trans | transFail =>
    intro B C s hr hb
    obtain ⟨D, h, _⟩ := hr
    exact absurd hb (h _)
  | seqEnd =>
    intro B C all src0 n s hr hb _ _
    exact .inl ⟨_, .nil, fun L => .inr ⟨s, rfl, rfl, hr _ hb⟩⟩
  | seqMark _ ih =>
    intro B C all src0 n s hr hb h1 h2
    rcases ih ho B C all src0 n s hr hb h1 h2 with ⟨r, h3, hf⟩ | ⟨hN, hd⟩
    rotate_left
    · exact .inr ⟨hN, hd.mark⟩
    left
    exact ⟨r, .mark h3, hf⟩
  | @seqNext g gs cut src n l e o e' hg t1 t2 ih1 ih2 =>
    intro B C all src0 n0 s hr hb hsrc hn
    obtain ⟨D, hr1, hr2⟩ := KRun.append_iff.mp hr
    rcases ih1 nofun B D s hr1 hb with ⟨r1, h1, hf1⟩ | ⟨hN, hd⟩
    rotate_left
    · exact .inr ⟨hN, (hsrc ▸ hd).seq hg hn⟩
    rw [hsrc] at h1
    rcases hfit_succ hf1 with ⟨p, s1, rfl, hp⟩ | ⟨s1, rfl, _, hw⟩
    · exact .inl ⟨_, .panic hg hn h1, fun L => .inl ⟨p, s1, rfl, hp⟩⟩
    · have hb := tr_bound t1
      simp only [Out.Within, hsrc, List.length_drop] at hb
      rcases ih2 (by intro b; rintro rfl; exact ho b rfl) D C all src0 (n0 + n) s1 hr2 hw (by rw [hsrc, List.drop_drop]) (by omega) with ⟨r, h2, hf⟩ | ⟨hN, hd⟩
      rotate_left
      · exact .inr ⟨hN, hd.rest hg hn h1⟩
      left
      refine ⟨r, .ok hg hn h1 h2, fun L => ?_⟩
      have := hf L
      cases o with
      | abort => exact this
      | succ m l => simpa only [Out.shift, Out.withLen, Nat.add_assoc] using this
      | fail m => simpa only [Out.shift, Out.withLen, Nat.add_assoc] using this
  | seqFail hg _ ih =>
    intro B C all src0 n0 s hr hb hsrc hn
    rcases ih nofun B C s hr hb with ⟨r, h1, hf⟩ | ⟨hN, hd⟩
    rotate_left
    · exact .inr ⟨hN, (hsrc ▸ hd).seq hg hn⟩
    left
    rw [hsrc] at h1
    rcases hfit_fail hf with ⟨p, s1, rfl, hp⟩ | ⟨e1, s1, rfl, hw⟩
    · exact ⟨_, .panic hg hn h1, fun L => .inl ⟨p, s1, rfl, hp⟩⟩
    · exact ⟨_, .fail hg hn h1, fun L => .inr ⟨_, _, rfl, hw⟩⟩
  | altEnd =>
    intro B C all nMax errMax multi s hr hb hm
    cases multi with
    | true => exact .inl ⟨_, .multi, fun L => .inr ⟨_, s, by simp [Out.withLen, Out.atLeast]; rfl, hr _ hb⟩⟩
    | false =>
      cases errMax with
      | none => exact absurd rfl (hm rfl)
      | some e => exact .inl ⟨_, .single, fun L => .inr ⟨_, s, by simp [Out.withLen, Out.atLeast]; rfl, hr _ hb⟩⟩
  | altHit _ ih =>
    intro B C all nMax errMax multi s hr hb hm
    rcases ih nofun B C s hr hb with ⟨r, h1, hf⟩ | ⟨hN, hd⟩
    rotate_left
    · exact .inr ⟨hN, hd.alt⟩
    left
    rcases hfit_succ hf with ⟨p, s1, rfl, hp⟩ | ⟨s1, rfl, _, hw⟩
    · exact ⟨_, .panic h1, fun L => .inl ⟨p, s1, rfl, hp⟩⟩
    · exact ⟨_, .ok h1, fun L => .inr ⟨s1, rfl, rfl, hw⟩⟩
  | @altNext g gs src n e o e' t1 t2 ih1 ih2 =>
    intro B C all nMax errMax multi s hr hb hm
    obtain ⟨D, hr1, hr2⟩ := KRun.append_iff.mp hr
    rcases ih1 nofun B D s hr1 hb with ⟨r1, h1, hf1⟩ | ⟨hN, hd⟩
    rotate_left
    · exact .inr ⟨hN, hd.alt⟩
    have ho' : ∀ b, o ≠ .abort b := by intro b; rintro rfl; exact ho b rfl
    rcases hfit_fail hf1 with ⟨p, s1, rfl, hp⟩ | ⟨e1, s1, rfl, hw⟩
    · exact .inl ⟨_, .panic h1, fun L => .inl ⟨p, s1, rfl, hp⟩⟩
    · have key : ∀ L, ((o.atLeast n).withLen L).atLeast nMax = ((o.withLen L).atLeast (max nMax n)) := by
        intro L
        cases o with
        | abort | succ => rfl
        | fail m => simp only [Out.withLen, Out.atLeast, Nat.max_assoc]
      by_cases h3 : n = nMax
      · subst h3
        rcases ih2 ho' D C all n errMax true s1 hr2 hw nofun with ⟨r, h2, hf⟩ | ⟨hN, hd⟩
        rotate_left
        · exact .inr ⟨hN, hd.same h1⟩
        left
        refine ⟨r, .same h1 h2, fun L => ?_⟩
        rw [key, Nat.max_self]
        exact hf L
      · by_cases h4 : nMax < n
        · rcases ih2 ho' D C all n (some e1) false s1 hr2 hw nofun with ⟨r, h2, hf⟩ | ⟨hN, hd⟩
          rotate_left
          · exact .inr ⟨hN, hd.more h1 h4⟩
          left
          refine ⟨r, .more h1 h4 h2, fun L => ?_⟩
          rw [key, Nat.max_eq_right (Nat.le_of_lt h4)]
          exact hf L
        · rcases ih2 ho' D C all nMax errMax multi s1 hr2 hw hm with ⟨r, h2, hf⟩ | ⟨hN, hd⟩
          rotate_left
          · exact .inr ⟨hN, hd.less h1 (by omega)⟩
          left
          refine ⟨r, .less h1 (by omega) h2, fun L => ?_⟩
          rw [key, Nat.max_eq_left (by omega)]
          exact hf L
  | manyEnd _ ih =>
    intro B C n k s hr hb
    rcases ih nofun B C s hr hb with ⟨r, h1, hf⟩ | ⟨hN, hd⟩
    rotate_left
    · exact .inr ⟨hN, hd.many⟩
    left
    rcases hfit_fail hf with ⟨p, s1, rfl, hp⟩ | ⟨e1, s1, rfl, hw⟩
    · exact ⟨_, .panic h1, .inl ⟨p, s1, rfl, hp⟩⟩
    · exact ⟨_, .stop h1, .inr ⟨0, 0, rfl, s1, rfl, hw⟩⟩
  | @manyMore g src n l e o e' t1 t2 ih1 ih2 =>
    intro B C n0 k s hr hb
    obtain ⟨D, hr1, hr2⟩ := KRun.append_iff.mp hr
    rcases ih1 nofun B D s hr1 hb with ⟨r1, h1, hf1⟩ | ⟨hN, hd⟩
    rotate_left
    · exact .inr ⟨hN, hd.many⟩
    rcases hfit_succ hf1 with ⟨p, s1, rfl, hp⟩ | ⟨s1, rfl, _, hw⟩
    · exact .inl ⟨_, .panic h1, .inl ⟨p, s1, rfl, hp⟩⟩
    · rcases ih2 (by intro b; rintro rfl; exact ho b rfl) D C (n0 + n) (k + 1) s1 hr2 hw with ⟨r, h2, hf⟩ | ⟨hN, hd⟩
      rotate_left
      · exact .inr ⟨hN, hd.rest h1 (tr_bound t1)⟩
      left
      refine ⟨r, .more h1 (tr_bound t1) h2, ?_⟩
      rcases hf with h | ⟨m, i, rfl, s2, rfl, hw⟩
      · exact .inl h
      · exact .inr ⟨n + m, i + 1, by simp [Out.oneMore], s2, by simp [Nat.add_assoc, Nat.add_comm, Nat.add_left_comm], hw⟩


/-! ### Code -/

/-- Run by the matcher, the code ends so that `Q` holds, or panics so that `E` holds, or, if `N`,
gives nothing with fuel up to `K`. -/
def Halts (K : Nat) (env : Env A) (sem : Sem A σ V P) (x : Go A σ P α) (s : St σ) (Q : α → σ → Prop) (E : Panic A P → σ → Prop) (N : Prop) : Prop :=
  Ends env sem x s Q E ∨ (N ∧ ∀ f ≤ K, x.run f (matchG env sem f) s = none)

theorem Go.bind_none {x : Go A σ P β} {k : β → Go A σ P α} {f : Nat} {m : Mat A σ P} {s : St σ} (h : x.run f m s = none) : (x >>= k).run f m s = none := by
  rw [Go.run_bind, h]

namespace Halts
variable {s : St σ} {Q Q' : α → σ → Prop} {E' : Panic A P → σ → Prop} {N' : Prop}

/-- With some fuel the code ends in one way only. -/
theorem only {x : Go A σ P α} {f : Nat} {c : Cb A σ P α} (h : x.run f (matchG env sem f) s = some c) (f' : Nat) :
    x.run f' (matchG env sem f') s = none ∨ x.run f' (matchG env sem f') s = some c := by
  cases hx : x.run f' (matchG env sem f') s with
  | none => exact .inl rfl
  | some c' =>
    have h1 := Ends.raise h (Nat.le_max_left f f')
    have h2 := Ends.raise hx (Nat.le_max_right f f')
    exact .inr (h2.symm.trans h1)

theorem ends {x : Go A σ P α} (h : Ends env sem x s Q E) : Halts K env sem x s Q E N := .inl h

theorem less {x : Go A σ P α} {K' : Nat} (h : Halts K env sem x s Q E N) (hk : K' ≤ K) : Halts K' env sem x s Q E N :=
  h.imp_right fun h => ⟨h.1, fun f hf => h.2 f (by omega)⟩

theorem mono {x : Go A σ P α} (h : Halts K env sem x s Q E N) (hq : ∀ a u, Q a u → Q' a u) (he : ∀ p u, E p u → E' p u) (hn : N → N') :
    Halts K env sem x s Q' E' N' := by
  rcases h with h | h
  · exact .inl (h.mono hq he)
  · exact .inr ⟨hn h.1, h.2⟩

theorem pure {a : α} (h : Q a s.u) : Halts K env sem (pure a) s Q E N := .inl (.pure h)
theorem panic {p : Panic A P} (h : E p s.u) : Halts K env sem (Go.panic p) s Q E N := .inl (.panic h)
theorem run {x : Go A σ P α} {a : α} {s' : St σ} (h : x.run 0 (matchG env sem 0) s = some (.ok a s')) (hq : Q a s'.u) : Halts K env sem x s Q E N :=
  .inl ⟨_, 0, h, hq⟩

theorem bind {x : Go A σ P β} {k : β → Go A σ P α} {Q0 : β → σ → Prop} (h : Halts K env sem x s Q0 E N)
    (hk : ∀ b s', Q0 b s'.u → Halts K env sem (k b) s' Q E N) : Halts K env sem (x >>= k) s Q E N := by
  rcases h with ⟨c, f, h1, h2⟩ | ⟨hn, h⟩
  · cases c with
    | panic p s' => exact .inl ⟨_, f, Go.bind_panic h1, h2⟩
    | ok b s' =>
      rcases hk b s' h2 with ⟨c, f', h3, h4⟩ | ⟨hn, h⟩
      · exact .inl ⟨c, max f f', by rw [Go.bind_ok (Ends.raise h1 (Nat.le_max_left _ _))]; exact Ends.raise h3 (Nat.le_max_right _ _), h4⟩
      · refine .inr ⟨hn, fun f' hf => ?_⟩
        rcases only h1 f' with h1 | h1
        · exact Go.bind_none h1
        · rw [Go.bind_ok h1]; exact h f' hf
  · exact .inr ⟨hn, fun f hf => Go.bind_none (h f hf)⟩

theorem recover {x : Go A σ P α} {k : Panic A P → Go A σ P α} {E0 : Panic A P → σ → Prop} (h : Halts K env sem x s Q E0 N)
    (hk : ∀ p s', E0 p s'.u → Halts K env sem (k p) s' Q E N) : Halts K env sem (Go.recover x k) s Q E N := by
  rcases h with ⟨c, f, h1, h2⟩ | ⟨hn, h⟩
  · cases c with
    | ok a s' => exact .inl ⟨_, f, by rw [Go.run_recover, h1], h2⟩
    | panic p s' =>
      rcases hk p s' h2 with ⟨c, f', h3, h4⟩ | ⟨hn, h⟩
      · exact .inl ⟨c, max f f', by rw [Go.run_recover, Ends.raise h1 (Nat.le_max_left _ _)]; exact Ends.raise h3 (Nat.le_max_right _ _), h4⟩
      · refine .inr ⟨hn, fun f' hf => ?_⟩
        rcases only h1 f' with h1 | h1
        · rw [Go.run_recover, h1]
        · rw [Go.run_recover, h1]; exact h f' hf
  · exact .inr ⟨hn, fun f hf => by rw [Go.run_recover, h f hf]⟩

/-- A deferred change of the state. -/
theorem deferred {x : Go A σ P α} {g : σ → σ} (h : Halts K env sem x s (fun a u => Q a (g u)) (fun p u => E p (g u)) N) :
    Halts K env sem (Go.deferred x (Go.modify g)) s Q E N := by
  rcases h with h | ⟨hn, h⟩
  · exact .inl (.deferred h)
  · exact .inr ⟨hn, fun f hf => by rw [Go.run_deferred, h f hf]⟩

theorem get {k : σ → Go A σ P α} (h : Halts K env sem (k s.u) s Q E N) : Halts K env sem (Go.get >>= k) s Q E N := by
  rcases h with h | ⟨hn, h⟩
  · exact .inl (.get h)
  · exact .inr ⟨hn, fun f hf => by rw [Go.bind_ok Go.run_get]; exact h f hf⟩

theorem modify {g : σ → σ} {k : Unit → Go A σ P α} (h : Halts K env sem (k ()) { s with u := g s.u } Q E N) :
    Halts K env sem (Go.modify g >>= k) s Q E N := by
  rcases h with h | ⟨hn, h⟩
  · exact .inl (.modify h)
  · exact .inr ⟨hn, fun f hf => by rw [Go.bind_ok (Go.run_modify g)]; exact h f hf⟩

theorem len {g : Gr A} {k : Int → Go A σ P α} (h : Halts K env sem (k (g.len s.len)) s Q E N) : Halts K env sem (Go.len g >>= k) s Q E N := by
  rcases h with h | ⟨hn, h⟩
  · exact .inl (.len h)
  · exact .inr ⟨hn, fun f hf => by rw [Go.bind_ok (Go.run_len g)]; exact h f hf⟩

theorem match_ {g : Gr A} {src : List Token} {Q : Nat × Option (Err A) → σ → Prop} (h : (∃ r, Eval env sem g src s r ∧ (match r with
      | .ok n s' => Q (n, none) s'.u
      | .fail n e s' => Q (n, some e) s'.u
      | .panic p s' => E p s'.u)) ∨ (N ∧ Dead K env sem g src s)) : Halts (K + 1) env sem (Go.match_ g src) s Q E N := by
  rcases h with ⟨r, h, hr⟩ | ⟨hn, h⟩
  · refine .inl (.match_ h ?_)
    cases r <;> exact hr
  · exact .inr ⟨hn, fun f hf => by rw [Go.run_match, h f hf]⟩

/-- How an action ends. -/
theorem act {a : A} {g : Gr A} {toks : List Token} {x : Go A σ P Unit} (hx : ∀ f m s, sem.act f m a g toks s = x.run f m s)
    {Q : σ → Prop} (h : Halts K env sem x s (fun _ => Q) E N) : (∃ c, ActEval env sem a g toks s c ∧ (match c with
      | .ok _ s' => Q s'.u
      | .panic p s' => E p s'.u)) ∨ (N ∧ DeadAct K env sem a g toks s) := by
  rcases h with h | ⟨hn, h⟩
  · exact .inl (Ends.act hx h)
  · exact .inr ⟨hn, fun f hf => by rw [hx]; exact h f hf⟩

/-- Rounds of a loop: it ends, or, if `N`, does not in `n` rounds. -/
def Loops (K : Nat) (env : Env A) (sem : Sem A σ V P) (n : Nat) (body : β → Go A σ P (β ⊕ α)) (b : β) (s : St σ) (Q : α → σ → Prop) (E : Panic A P → σ → Prop)
    (N : Prop) : Prop :=
  Ends env sem (Go.loop body b) s Q E ∨ (N ∧ ∀ f ≤ K, ∀ j ≤ n, Go.loopN body f (matchG env sem f) j b s = none)

theorem Loops.zero {body : β → Go A σ P (β ⊕ α)} {b : β} (hn : N) : Loops K env sem 0 body b s Q E N :=
  .inr ⟨hn, fun f _ j hj => by rw [Nat.le_zero.mp hj]; rfl⟩

theorem Loops.succ {n : Nat} {body : β → Go A σ P (β ⊕ α)} {b : β} {Q0 : β ⊕ α → σ → Prop} (h : Halts K env sem (body b) s Q0 E N)
    (hr : ∀ a u, Q0 (.inr a) u → Q a u) (hl : ∀ b' s', Q0 (.inl b') s'.u → Loops K env sem n body b' s' Q E N) :
    Loops K env sem (n + 1) body b s Q E N := by
  rcases h with ⟨c, f, h1, h2⟩ | ⟨hn, h⟩
  · match c, h1, h2 with
    | .panic p s', h1, h2 => exact .inl (Ends.loop (Q0 := fun _ _ => False) ⟨_, f, h1, h2⟩ (fun _ _ h => h.elim) fun _ _ h => h.elim)
    | .ok (.inr a) s', h1, h2 => exact .inl (Ends.loop (Q0 := fun x u => x = .inr a ∧ Q0 x u) ⟨_, f, h1, rfl, h2⟩ (fun _ _ h => hr _ _ h.2) fun _ _ h => by cases h.1)
    | .ok (.inl b') s', h1, h2 =>
      rcases hl b' s' h2 with h3 | ⟨hn, h⟩
      · exact .inl (Ends.loop_next h1 h3)
      · refine .inr ⟨hn, fun f' hf j hj => ?_⟩
        cases j with
        | zero => rfl
        | succ j =>
          rcases only h1 f' with h1 | h1
          · rw [Go.loopN, h1]
          · rw [Go.loopN, h1]; exact h f' hf j (by omega)
  · refine .inr ⟨hn, fun f' hf j hj => ?_⟩
    cases j with
    | zero => rfl
    | succ j => rw [Go.loopN, h f' hf]

theorem Loops.halts {n : Nat} {body : β → Go A σ P (β ⊕ α)} {b : β} (hK : K ≤ n) (h : Loops K env sem n body b s Q E N) :
    Halts K env sem (Go.loop body b) s Q E N := by
  rcases h with h | ⟨hn, h⟩
  · exact .inl h
  · exact .inr ⟨hn, fun f hf => h f hf f (by omega)⟩

end Halts
end
end Tpl
