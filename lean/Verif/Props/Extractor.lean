import Verif.Proof.Extractor
import Verif.Proof.Relate
import Verif.Proof.Keeps
import Verif.Props.Calc

/-
Properties of the extractor (C58-C62, C75-C77).
-/
namespace Tpl.Props
open Tpl Tpl.Spec Tpl.Extractor
variable {W Q : Type} {getValue : Str → Str → Except Q W}

/-! ### C75: the result is the document of the match -/

/-- `items` is the document of a match of all of `toks` with the grammar of `r`. -/
def Doc (getValue : Str → Str → Except Q W) (r : CompileRet Mark) (toks : List Token) (items : List (DItem W)) : Prop :=
  ∃ l e, Tr r.env (.one r.root) toks (.succ toks.length l) e ∧ DItem.run getValue e [[]] = .ok [items]

/-- The callbacks of a balanced trace, from the beginning of a parse. -/
theorem runs_init {e : List (Ev Mark)} (h : Balanced e) (u : XEng W) (vs : List (TransCtx W)) :
    (∃ p u', DItem.run getValue e [[]] = .error p ∧ (calls getValue).run e (u.init, vs) = .error (p, u')) ∨
    ∃ items u', DItem.run getValue e [[]] = .ok [items] ∧ (calls getValue).run e (u.init, vs) = .ok (u', vs) ∧
      u'.result = some (docOf items) := by
  rcases runsTo (getValue := getValue) h u.init vs 0 [0] [] [] rfl (Nat.zero_le _) (by simp) (by simp)
    (show Rep u.init.hds [0] u.init.next 1 [] [] from .nil) with h | ⟨items, u', h1, h2, _, _, h5, _⟩
  · exact .inl h
  · exact .inr ⟨items, u', h1, h2, result_eq h5⟩

theorem run_unique {e : List (Ev Mark)} {items : List (DItem W)} (h : Balanced e) (hr : DItem.run getValue e [[]] = .ok [items])
    (u : XEng W) (vs : List (TransCtx W)) : ∃ u', (calls getValue).run e (u.init, vs) = .ok (u', vs) ∧ u'.result = some (docOf items) := by
  rcases runs_init (getValue := getValue) h u vs with ⟨p, u', h1, _⟩ | ⟨items', u', h1, h2, h3⟩
  · rw [h1] at hr; cases hr
  · rw [h1] at hr
    cases hr
    exact ⟨u', h2, h3⟩

/-- A match has a document, and its result is the document. -/
theorem match_doc {r : CompileRet Mark} {toks : List Token} {s s' : St (XEng W)}
    (h : Eval r.env (sem getValue) r.root toks { s with u := s.u.init } (.ok toks.length s')) :
    ∃ items, Doc getValue r toks items ∧ s'.u.result = some (docOf items) := by
  obtain ⟨f, h⟩ := h
  rw [sem_eq] at h
  obtain ⟨o, e, ht, hf⟩ := sound_matchG f _ _ _ _ h
  obtain ⟨rfl, hw⟩ := hf []
  have hb := C35_balanced.1 _ _ ht
  rcases runs_init (getValue := getValue) hb s.u [] with ⟨p, u', h1, h2⟩ | ⟨items, u', h1, h2, h3⟩
  · rw [h2] at hw; cases hw
  · rw [h2] at hw
    cases hw
    exact ⟨items, ⟨_, e, ht, h1⟩, h3⟩

theorem doc_match {r : CompileRet Mark} {toks : List Token} {items : List (DItem W)} (h : Doc getValue r toks items) (s : St (XEng W)) :
    ∃ s', Eval r.env (sem getValue) r.root toks { s with u := s.u.init } (.ok toks.length s') ∧ s'.u.result = some (docOf items) := by
  obtain ⟨l, e, ht, hi⟩ := h
  obtain ⟨u', h1, h2⟩ := run_unique (C35_balanced.1 _ _ ht) hi s.u []
  obtain ⟨res, hr, hf⟩ := realise (c := calls getValue) ht { s with u := s.u.init } [] nofun
  rcases cfit_succ hf with ⟨p, lens, u, hw, _⟩ | ⟨s', rfl, _, hw⟩
  · rw [h1] at hw; cases hw
  · rw [h1] at hw
    cases hw
    rw [sem_eq]
    exact ⟨s', hr, h2⟩

theorem parse_ok_iff {r : CompileRet Mark} {U : Uni} {fuel : Nat} {k : KwScanner} {src : Str} {s s' : St (XEng W)} {m : DMap W} :
    parse getValue r U fuel k src s = some (.ok m s') ↔
      ((matcher getValue r).matchExactly U fuel k src s).1 = some (.ok () s') ∧ s'.u.result = some m := by
  unfold parse
  cases ((matcher getValue r).matchExactly U fuel k src s).1 with
  | none => simp
  | some x =>
    cases x with
    | err e s1 => simp
    | panic p s1 => simp
    | ok u s1 =>
      dsimp only
      constructor
      · intro h
        split at h
        · cases h
        · rename_i m' hm; cases h; exact ⟨rfl, hm⟩
      · rintro ⟨h1, h2⟩
        cases h1
        rw [h2]

/-- C75: Parse returns the document of a match of the whole input, and nothing else. -/
theorem C75_document {r : CompileRet Mark} (hg : r.root ≠ .nil) {U : Uni} {k : KwScanner}
    (hk : KwScanner.Steps U KwScanner.zero k) (src : Str) (s : St (XEng W)) (m : DMap W) :
    (∃ fuel s', parse getValue r U fuel k src s = some (.ok m s')) ↔
      ∃ toks eof items, Tokenizes U k src r.mode toks eof ∧ Doc getValue r toks items ∧ m = docOf items := by
  constructor
  · rintro ⟨fuel, s', h⟩
    obtain ⟨h1, h2⟩ := parse_ok_iff.mp h
    obtain ⟨toks, eof, s1, ht, hi, he⟩ := (C37_matchExactly (matcher getValue r) hg hk src s s').mp ⟨fuel, h1⟩
    cases hi
    obtain ⟨items, hd, hres⟩ := match_doc he
    rw [h2] at hres
    cases hres
    exact ⟨toks, eof, items, ht, hd, rfl⟩
  · rintro ⟨toks, eof, items, ht, hd, rfl⟩
    obtain ⟨s', he, hres⟩ := doc_match hd s
    obtain ⟨fuel, h⟩ := (C37_matchExactly (matcher getValue r) hg hk src s s').mpr ⟨toks, eof, _, ht, rfl, he⟩
    exact ⟨fuel, s', parse_ok_iff.mpr ⟨h, hres⟩⟩

/-- The document determines the result. -/
theorem C75_unique {r : CompileRet Mark} {toks : List Token} {items items' : List (DItem W)} (h : Doc getValue r toks items)
    (h' : Doc getValue r toks items') : docOf items = docOf items' := by
  obtain ⟨s1, h1, h2⟩ := doc_match h (⟨fun _ => 0, XEng.new⟩ : St (XEng W))
  obtain ⟨s2, h3, h4⟩ := doc_match h' (⟨fun _ => 0, XEng.new⟩ : St (XEng W))
  have := Eval.unique h1 h3
  cases this
  rw [h2] at h4
  exact Option.some.inj h4

/-! ### C58: failed nodes -/

/-- The document of a match is the same without the invocations of a failed node. -/
theorem C58_document {e1 e e2 : List (Ev Mark)} {m : Mark} (h : Balanced e) {open_ open' : List (List (DItem W))} (hne : open_ ≠ [])
    (hr : DItem.run getValue (e1 ++ (.opens m :: e ++ .closes m true :: e2)) open_ = .ok open') :
    DItem.run getValue (e1 ++ e2) open_ = .ok open' := by
  rw [DItem.run_append] at hr ⊢
  cases h1 : DItem.run getValue e1 open_ with
  | error p => rw [h1] at hr; cases hr
  | ok o =>
    rw [h1] at hr
    dsimp only at hr ⊢
    have hlen : ∀ (es : List (Ev Mark)) (a b : List (List (DItem W))), DItem.run getValue es a = .ok b → a ≠ [] → b ≠ [] := by
      intro es
      induction es with
      | nil => intro a b h hn; cases h; exact hn
      | cons x es ih =>
        intro a b h hn
        rw [DItem.run] at h
        cases hs : DItem.step getValue a x with
        | error p => rw [hs] at h; cases h
        | ok a' =>
          rw [hs] at h
          refine ih a' b h ?_
          cases a with
          | nil => exact absurd rfl hn
          | cons cur outer =>
            cases x with
            | act m g toks l =>
              cases toks with
              | nil => cases hs
              | cons t toks =>
                simp only [DItem.step] at hs
                split at hs
                · cases hs
                · cases hs; nofun
            | opens m => cases hs; nofun
            | closes m f =>
              cases outer with
              | nil => cases hs; nofun
              | cons => cases hs; nofun
    have ho := hlen _ _ _ h1 hne
    cases o with
    | nil => exact absurd rfl ho
    | cons cur outer =>
      have e1' : DItem.run getValue (.opens m :: e ++ .closes m true :: e2) (cur :: outer) =
          DItem.run getValue (e ++ .closes m true :: e2) ([] :: cur :: outer) := rfl
      rw [e1', DItem.run_append] at hr
      rcases runsTo (getValue := getValue) h (XEng.new.init : XEng W) [] 0 [0] [] (cur :: outer) rfl (Nat.zero_le _) (by simp) (by simp)
        (show Rep (XEng.new.init : XEng W).hds [0] 0 1 [] [] from .nil) with ⟨p, u', h2, _⟩ | ⟨items, u', h2, _⟩
      · rw [h2] at hr; cases hr
      · rw [h2] at hr
        exact hr

/-- C58: after a node has failed the current node is the one it was before, and no node
that existed before has changed. -/
theorem C58_state {env : Env Mark} {m : Mark} {g : Gr Mark} {toks : List Token} {s s' : St (XEng W)} {n : Nat} {err : Err Mark} {id : Nat}
    (hid : s.u.stk = some id) (hle : id ≤ s.u.next) (h : Eval env (sem getValue) (.trans m g) toks s (.fail n err s')) :
    s'.u.stk = s.u.stk ∧ s.u.next ≤ s'.u.next ∧ ∀ i ≤ s.u.next, s'.u.hds i = s.u.hds i := by
  obtain ⟨f, h⟩ := h
  rw [sem_eq] at h
  obtain ⟨o, e, ht, hf⟩ := sound_matchG f _ _ _ _ h
  obtain ⟨rfl, hw⟩ := hf []
  cases ht with
  | @transFail _ _ _ _ e ht =>
    have hb := C35_balanced.2.1 _ ht
    rw [List.cons_append, run_opens] at hw
    simp only [calls, XEng.begin_, hid] at hw
    have hw := (Tpl.run_append (calls getValue) e [.closes m true] _).symm.trans hw
    rcases runsTo (getValue := getValue) hb
      { (s.u.setHd (s.u.next + 1) []).setHd id (.node m.tag m.isArray (s.u.next + 1) :: s.u.hds id) with
        next := s.u.next + 1, stk := some (s.u.next + 1) } [⟨id, s.u.hds id⟩] (s.u.next + 1) [s.u.next + 1] [] [] rfl (Nat.le_refl _)
      (by simp) (by simp) (by
        have : (if s.u.next + 1 = id then (.node m.tag m.isArray (s.u.next + 1) :: s.u.hds id) else
            if s.u.next + 1 = s.u.next + 1 then [] else s.u.hds (s.u.next + 1)) = ([] : List (Extractor.Cons W)) := by
          rw [if_neg (by omega), if_pos rfl]
        show Rep _ _ _ _ (if s.u.next + 1 = id then _ else if s.u.next + 1 = s.u.next + 1 then [] else s.u.hds (s.u.next + 1)) _
        rw [this]
        exact .nil) with ⟨p, u', _, h2⟩ | ⟨items, u', _, h2, _, h4, _, h6, _⟩
    · rw [h2] at hw; cases hw
    · rw [h2] at hw
      simp only [Calls.run, Calls.step, calls, XEng.end_, if_true] at hw
      injection hw with hw
      injection hw with hw _
      rw [← hw]
      have h4' : s.u.next + 1 ≤ u'.next := h4
      refine ⟨hid.symm, show s.u.next ≤ u'.next by omega, ?_⟩
      intro i hi
      show (if i = id then s.u.hds id else u'.hds i) = s.u.hds i
      by_cases hc : i = id
      · rw [if_pos hc, hc]
      · rw [if_neg hc, h6 i (show i ≤ s.u.next + 1 by omega) (by omega)]
        show (if i = id then _ else if i = s.u.next + 1 then [] else s.u.hds i) = _
        rw [if_neg hc, if_neg (by omega)]

/-- The states an engine can be in: new, at the beginning of a parse, or after callbacks of
a grammar; `vs` are the values of the open transactions.  (A callback that panics changes
nothing.) -/
inductive Reached (getValue : Str → Str → Except Q W) : XEng W → List (TransCtx W) → Prop
  | new : Reached getValue XEng.new []
  | init {u vs} : Reached getValue u vs → Reached getValue u.init []
  | call {u vs ev u' vs'} : Reached getValue u vs → (calls getValue).step (u, vs) ev = .ok (u', vs') → Reached getValue u' vs'

/-- The nodes in `hd` have addresses above `id`, up to `nx`. -/
def Above (id nx : Nat) (hd : List (Extractor.Cons W)) : Prop := ∀ tag arr j, Extractor.Cons.node tag arr j ∈ hd → id < j ∧ j ≤ nx

theorem Reached.above {u : XEng W} {vs : List (TransCtx W)} (h : Reached getValue u vs) :
    (∀ i, Above i u.next (u.hds i)) ∧ (∀ id, u.stk = some id → id ≤ u.next) ∧ ∀ c ∈ vs, c.stk ≤ u.next ∧ Above c.stk u.next c.hd := by
  have none_ : ∀ i nx, Above i nx ([] : List (Extractor.Cons W)) := by intro i nx tag arr j h; cases h
  have more : ∀ {i nx nx' : Nat} {hd : List (Extractor.Cons W)}, Above i nx hd → nx ≤ nx' → Above i nx' hd := by
    intro i nx nx' hd h hle tag arr j hj
    have := h tag arr j hj
    omega
  induction h with
  | new => exact ⟨fun i => none_ i 0, nofun, nofun⟩
  | @init u vs _ ih =>
    refine ⟨?_, ?_, nofun⟩
    · intro i
      show Above i u.next (if i = 0 then [] else u.hds i)
      by_cases hi : i = 0
      · rw [if_pos hi]; exact none_ _ _
      · rw [if_neg hi]; exact ih.1 i
    · intro id h; cases h; exact Nat.zero_le _
  | @call u vs ev u' vs' _ hs ih =>
    obtain ⟨h1, h2, h3⟩ := ih
    cases ev with
    | act m g toks l =>
      simp only [Calls.step, calls, XEng.leaf] at hs
      cases toks with
      | nil => cases hs
      | cons t toks =>
        simp only at hs
        cases hv : getValue m.typ t.lit with
        | error q => rw [hv] at hs; cases hs
        | ok w =>
          rw [hv] at hs
          cases hst : u.stk with
          | none => rw [hst] at hs; cases hs
          | some id =>
            rw [hst] at hs
            simp only [Except.ok.injEq, Prod.mk.injEq] at hs
            obtain ⟨rfl, rfl⟩ := hs
            refine ⟨?_, h2, h3⟩
            intro i
            show Above i u.next (if i = id then _ else u.hds i)
            by_cases hi : i = id
            · rw [if_pos hi]
              intro tag arr j hj
              rcases List.mem_cons.mp hj with hj | hj
              · cases hj
              · rw [hi]; exact h1 id tag arr j hj
            · rw [if_neg hi]; exact h1 i
    | opens m =>
      simp only [Calls.step, calls, XEng.begin_] at hs
      cases hst : u.stk with
      | none => rw [hst] at hs; cases hs
      | some id =>
        rw [hst] at hs
        simp only [Except.ok.injEq, Prod.mk.injEq] at hs
        obtain ⟨rfl, rfl⟩ := hs
        have hid := h2 id hst
        refine ⟨?_, ?_, ?_⟩
        · intro i
          show Above i (u.next + 1) (if i = id then _ else if i = u.next + 1 then [] else u.hds i)
          by_cases hi : i = id
          · rw [if_pos hi]
            intro tag arr j hj
            rcases List.mem_cons.mp hj with hj | hj
            · cases hj; omega
            · rw [hi]; exact more (h1 id) (Nat.le_succ _) tag arr j hj
          · rw [if_neg hi]
            by_cases hi' : i = u.next + 1
            · rw [if_pos hi']; exact none_ _ _
            · rw [if_neg hi']; exact more (h1 i) (Nat.le_succ _)
        · intro id' h; cases h; exact Nat.le_refl _
        · intro c hc
          rcases List.mem_cons.mp hc with rfl | hc
          · exact ⟨Nat.le_succ_of_le hid, more (h1 id) (Nat.le_succ _)⟩
          · exact ⟨Nat.le_succ_of_le (h3 c hc).1, more (h3 c hc).2 (Nat.le_succ _)⟩
    | closes m failed =>
      cases vs with
      | nil =>
        simp only [Calls.step, Except.ok.injEq, Prod.mk.injEq] at hs
        obtain ⟨rfl, rfl⟩ := hs
        exact ⟨h1, h2, h3⟩
      | cons c vs =>
        simp only [Calls.step, calls, Except.ok.injEq, Prod.mk.injEq] at hs
        obtain ⟨rfl, rfl⟩ := hs
        have hc := h3 c (by simp)
        cases failed with
        | false => exact ⟨h1, by intro id h; cases h; exact hc.1, fun c' hc' => h3 c' (by simp [hc'])⟩
        | true =>
          refine ⟨?_, by intro id h; cases h; exact hc.1, fun c' hc' => h3 c' (by simp [hc'])⟩
          intro i
          show Above i u.next (if i = c.stk then c.hd else u.hds i)
          by_cases hi : i = c.stk
          · rw [if_pos hi, hi]; exact hc.2
          · rw [if_neg hi]; exact h1 i

theorem rep_of_above {hds : Nat → List (Extractor.Cons W)} {nx : Nat} (h : ∀ i, Above i nx (hds i)) : ∀ (k i : Nat), nx ≤ i + k →
    ∃ items, Rep hds [] nx (i + 1) (hds i) items := by
  intro k
  induction k with
  | zero =>
    intro i hi
    have : ∀ hd, Above i nx hd → ∃ items, Rep hds [] nx (i + 1) hd items := by
      intro hd
      induction hd with
      | nil => intro _; exact ⟨[], .nil⟩
      | cons c hd ih =>
        intro ha
        obtain ⟨items, hr⟩ := ih (fun tag arr j hj => ha tag arr j (List.mem_cons_of_mem _ hj))
        cases c with
        | leaf tag arr w => exact ⟨_, .leaf hr⟩
        | node tag arr j =>
          have := ha tag arr j (by simp)
          omega
    exact this _ (h i)
  | succ k ih =>
    intro i hi
    have : ∀ hd, Above i nx hd → ∃ items, Rep hds [] nx (i + 1) hd items := by
      intro hd
      induction hd with
      | nil => intro _; exact ⟨[], .nil⟩
      | cons c hd ih' =>
        intro ha
        obtain ⟨items, hr⟩ := ih' (fun tag arr j hj => ha tag arr j (List.mem_cons_of_mem _ hj))
        cases c with
        | leaf tag arr w => exact ⟨_, .leaf hr⟩
        | node tag arr j =>
          have hj := ha tag arr j (by simp)
          obtain ⟨its, hi⟩ := ih j (by omega)
          exact ⟨_, .node hr hj.1 hj.2 (by simp) hi⟩
    exact this _ (h i)

/-- C58: after a node has failed the document is what it was before. -/
theorem C58_result {env : Env Mark} {m : Mark} {g : Gr Mark} {toks : List Token} {s s' : St (XEng W)} {n : Nat} {err : Err Mark}
    {vs : List (TransCtx W)} (hs : Reached getValue s.u vs) (h : Eval env (sem getValue) (.trans m g) toks s (.fail n err s')) :
    s'.u.result = s.u.result ∧ s.u.result ≠ none := by
  obtain ⟨h1, h2, _⟩ := hs.above
  have hid : ∃ id, s.u.stk = some id := by
    cases hst : s.u.stk with
    | some id => exact ⟨id, rfl⟩
    | none =>
      obtain ⟨f, h⟩ := h
      cases f with
      | zero => cases h
      | succ f => simp [matchG, matchStep, sem, XEng.begin_, hst] at h
  obtain ⟨id, hid⟩ := hid
  obtain ⟨_, h4, h5⟩ := C58_state hid (h2 id hid) h
  obtain ⟨items, hr⟩ := rep_of_above h1 s.u.next 0 (by omega)
  have hr' : Rep s'.u.hds [] s'.u.next 1 (s'.u.hds 0) items := by
    rw [h5 0 (Nat.zero_le _)]
    exact hr.keep (fun i hi _ => h5 i hi) (fun _ _ h => h) h4
  rw [result_eq hr, result_eq hr']
  exact ⟨rfl, nofun⟩

/-! ### C60, C61: arrays and repeated tags -/

/-- A parse returns the document. -/
theorem parse_doc {r : CompileRet Mark} (hg : r.root ≠ .nil) {U : Uni} {k : KwScanner} (hk : KwScanner.Steps U KwScanner.zero k)
    {src : Str} {s s' : St (XEng W)} {m : DMap W} {fuel : Nat} (h : parse getValue r U fuel k src s = some (.ok m s'))
    {toks : List Token} {eof : Token} (ht : Tokenizes U k src r.mode toks eof) {items : List (DItem W)} (hd : Doc getValue r toks items) :
    m = docOf items := by
  obtain ⟨toks', eof', items', ht', hd', rfl⟩ := (C75_document hg hk src s m).mp ⟨fuel, s', h⟩
  have h1 := (tokenizes_ok hk ht).1
  have h2 := (tokenizes_ok hk ht').1
  rw [h1] at h2
  cases h2
  exact C75_unique hd' hd

/-- The tag of an item. -/
def tagOf : DItem W → Str
  | .leaf t _ _ => t
  | .node t _ _ => t

theorem convs_eq (items : List (DItem W)) : convs items = items.map DItem.conv := by
  induction items with
  | nil => rfl
  | cons x items ih => simp [convs, ih]

theorem tag_conv (x : DItem W) : x.conv.tag = tagOf x := by cases x <;> rfl

theorem drop_tags {pre post : List (DItem W)} {tag : Str} (h : ∀ x ∈ pre, tagOf x ≠ tag) :
    (convs (pre ++ post)).dropWhile (fun x => decide (x.tag ≠ tag)) = (convs post).dropWhile (fun x => decide (x.tag ≠ tag)) := by
  rw [convs_append]
  refine dropWhile_append_none ?_ _
  refine dropWhile_nil ?_
  intro z hz
  rw [convs_eq] at hz
  obtain ⟨x, hx, rfl⟩ := List.mem_map.mp hz
  rw [tag_conv]
  simpa using h x hx

theorem same_tag_false {x y : VItem W} (h : x.tag ≠ y.tag) : VItem.Same x y = false := by
  unfold VItem.Same
  rw [decide_eq_false h]
  rfl

theorem takeWhile_stop {α : Type} {p : α → Bool} {a b : List α} (ha : ∀ x ∈ a, p x = true) (hb : ∀ x ∈ b, p x = false) :
    (a ++ b).takeWhile p = a := by
  rw [List.takeWhile_append_of_pos ha]
  cases b with
  | nil => simp
  | cons y b => simp [List.takeWhile, hb y (by simp)]

/-- C60: leaves inserted one after the other under an array tag are all in the result, in
order. -/
theorem C60_leaves {pre post : List (DItem W)} {tag : Str} {ws : List W} (hne : ws ≠ []) (hpre : ∀ x ∈ pre, tagOf x ≠ tag)
    (hpost : ∀ x ∈ post, tagOf x ≠ tag) : docOf (pre ++ (ws.map (.leaf tag true) ++ post)) tag = some (.leaves ws) := by
  cases ws with
  | nil => exact absurd rfl hne
  | cons w ws =>
    have hd := drop_tags (post := .leaf tag true w :: (ws.map (.leaf tag true) ++ post)) hpre
    have hd2 : (convs (DItem.leaf tag true w :: (ws.map (.leaf tag true) ++ post))).dropWhile (fun x => decide (x.tag ≠ tag)) =
        .leaf tag true w :: convs (ws.map (.leaf tag true) ++ post) := by
      simp [convs, DItem.conv, List.dropWhile, VItem.tag]
    have ht : (convs (ws.map (DItem.leaf tag true) ++ post)).takeWhile (VItem.Same (.leaf tag true w)) = ws.map (.leaf tag true) := by
      have : convs (ws.map (DItem.leaf tag true) ++ post) = ws.map (VItem.leaf tag true) ++ convs post := by
        rw [convs_append, convs_eq (ws.map _), List.map_map]
        rfl
      rw [this]
      refine takeWhile_stop ?_ ?_
      · intro x hx
        obtain ⟨v, _, rfl⟩ := List.mem_map.mp hx
        simp [VItem.Same, VItem.tag, VItem.isArray, VItem.isNode]
      · intro x hx
        rw [convs_eq] at hx
        obtain ⟨y, hy, rfl⟩ := List.mem_map.mp hx
        have := hpost y hy
        refine same_tag_false ?_
        rw [tag_conv]
        exact fun h => this h.symm
    simp only [docOf, mapOf, List.map_cons, List.cons_append]
    rw [hd, hd2]
    simp only [ht]
    have : ∀ l : List W, (l.map (VItem.leaf tag true)).filterMap VItem.leaf? = l := by
      intro l
      induction l with
      | nil => rfl
      | cons x l ih => simp [VItem.leaf?, ih]
    simp [VItem.leaf?, this]

/-- C60: the same for nodes; each is the document of its items. -/
theorem C60_nodes {pre post : List (DItem W)} {tag : Str} {ns : List (List (DItem W))} (hne : ns ≠ []) (hpre : ∀ x ∈ pre, tagOf x ≠ tag)
    (hpost : ∀ x ∈ post, tagOf x ≠ tag) : docOf (pre ++ (ns.map (.node tag true) ++ post)) tag = some (.nodes (ns.map docOf)) := by
  cases ns with
  | nil => exact absurd rfl hne
  | cons w ws =>
    have hd := drop_tags (post := .node tag true w :: (ws.map (.node tag true) ++ post)) hpre
    have hd2 : (convs (DItem.node tag true w :: (ws.map (.node tag true) ++ post))).dropWhile (fun x => decide (x.tag ≠ tag)) =
        .node tag true (docOf w) :: convs (ws.map (.node tag true) ++ post) := by
      simp [convs, DItem.conv, List.dropWhile, VItem.tag, docOf]
    have ht : (convs (ws.map (DItem.node tag true) ++ post)).takeWhile (VItem.Same (.node tag true (docOf w))) =
        (ws.map docOf).map (.node tag true) := by
      have : convs (ws.map (DItem.node tag true) ++ post) = (ws.map docOf).map (VItem.node tag true) ++ convs post := by
        rw [convs_append, convs_eq (ws.map _), List.map_map, List.map_map]
        congr 1
      rw [this]
      refine takeWhile_stop ?_ ?_
      · intro x hx
        obtain ⟨v, _, rfl⟩ := List.mem_map.mp hx
        simp [VItem.Same, VItem.tag, VItem.isArray, VItem.isNode]
      · intro x hx
        rw [convs_eq] at hx
        obtain ⟨y, hy, rfl⟩ := List.mem_map.mp hx
        have := hpost y hy
        refine same_tag_false ?_
        rw [tag_conv]
        exact fun h => this h.symm
    simp only [docOf, mapOf, List.map_cons, List.cons_append]
    rw [hd, hd2]
    simp only [ht]
    have : ∀ l : List (DMap W), (l.map (VItem.node tag true)).filterMap VItem.node? = l := by
      intro l
      induction l with
      | nil => rfl
      | cons x l ih => simp [VItem.node?, ih]
    simp only [List.filterMap_cons, VItem.node?, this]
    rfl

/-- C60: in the result of a parse. -/
theorem C60_parse {r : CompileRet Mark} (hg : r.root ≠ .nil) {U : Uni} {k : KwScanner} (hk : KwScanner.Steps U KwScanner.zero k)
    {src : Str} {s s' : St (XEng W)} {m : DMap W} {fuel : Nat} (h : parse getValue r U fuel k src s = some (.ok m s'))
    {toks : List Token} {eof : Token} (ht : Tokenizes U k src r.mode toks eof) {pre post : List (DItem W)} {tag : Str}
    (hpre : ∀ x ∈ pre, tagOf x ≠ tag) (hpost : ∀ x ∈ post, tagOf x ≠ tag) :
    (∀ ws, ws ≠ [] → Doc getValue r toks (pre ++ (ws.map (.leaf tag true) ++ post)) → m tag = some (.leaves ws)) ∧
    (∀ ns, ns ≠ [] → Doc getValue r toks (pre ++ (ns.map (.node tag true) ++ post)) → m tag = some (.nodes (ns.map docOf))) := by
  constructor
  · intro ws hne hd
    rw [parse_doc hg hk h ht hd]
    exact C60_leaves hne hpre hpost
  · intro ns hne hd
    rw [parse_doc hg hk h ht hd]
    exact C60_nodes hne hpre hpost

/-- C61: of several values under a tag that is not an array the first is in the result. -/
theorem C61_first {pre post : List (DItem W)} {tag : Str} (hpre : ∀ x ∈ pre, tagOf x ≠ tag) :
    (∀ w, docOf (pre ++ .leaf tag false w :: post) tag = some (.leaf w)) ∧
    (∀ items, docOf (pre ++ .node tag false items :: post) tag = some (.node (docOf items))) := by
  constructor
  · intro w
    simp only [docOf, mapOf]
    rw [drop_tags hpre]
    simp [convs, DItem.conv, List.dropWhile, VItem.tag]
  · intro items
    simp only [docOf, mapOf]
    rw [drop_tags hpre]
    simp [convs, DItem.conv, List.dropWhile, VItem.tag, mapOf]

/-- C61: in the result of a parse. -/
theorem C61_parse {r : CompileRet Mark} (hg : r.root ≠ .nil) {U : Uni} {k : KwScanner} (hk : KwScanner.Steps U KwScanner.zero k)
    {src : Str} {s s' : St (XEng W)} {m : DMap W} {fuel : Nat} (h : parse getValue r U fuel k src s = some (.ok m s'))
    {toks : List Token} {eof : Token} (ht : Tokenizes U k src r.mode toks eof) {pre post : List (DItem W)} {tag : Str}
    (hpre : ∀ x ∈ pre, tagOf x ≠ tag) :
    (∀ w, Doc getValue r toks (pre ++ .leaf tag false w :: post) → m tag = some (.leaf w)) ∧
    (∀ items, Doc getValue r toks (pre ++ .node tag false items :: post) → m tag = some (.node (docOf items))) := by
  constructor
  · intro w hd
    rw [parse_doc hg hk h ht hd]
    exact (C61_first hpre).1 w
  · intro items hd
    rw [parse_doc hg hk h ht hd]
    exact (C61_first hpre).2 items

/-- Tags that do not occur have no value. -/
theorem C61_absent {items : List (DItem W)} {tag : Str} (h : ∀ x ∈ items, tagOf x ≠ tag) : docOf items tag = none := by
  have := drop_tags (post := []) h
  rw [List.append_nil] at this
  simp only [docOf, mapOf]
  rw [this]
  rfl

/-! ### C62: every parse starts from an empty document -/

/-- What a caller of Parse sees. -/
inductive Seen (W Q : Type) where
  | doc (m : DMap W)
  | err (e : MErr Mark)
  | panic (p : Panic Mark (XPanic Q))

def seen : MRes Mark (XEng W) (XPanic Q) (DMap W) → Seen W Q
  | .ok m _ => .doc m
  | .err e _ => .err e
  | .panic p _ => .panic p

/-- There is a current node. -/
def Started (s s' : St (XEng W)) : Prop := s.u.stk.isSome = true ∧ s'.u.stk.isSome = true

theorem relates_sem : Relates Started (sem getValue) (sem getValue) where
  setLen _ _ _ _ h := h
  act _ _ _ _ m g toks s s' h := by
    obtain ⟨id, hi⟩ := Option.isSome_iff_exists.mp h.1
    obtain ⟨id', hi'⟩ := Option.isSome_iff_exists.mp h.2
    refine .some ?_
    simp only [XEng.leaf, hi, hi']
    cases toks with
    | nil => exact .panic
    | cons t toks =>
      dsimp only
      cases getValue m.typ t.lit with
      | error q => exact .panic
      | ok w => exact .ok h
  start m s s' h := by
    obtain ⟨id, hi⟩ := Option.isSome_iff_exists.mp h.1
    obtain ⟨id', hi'⟩ := Option.isSome_iff_exists.mp h.2
    simp only [sem, XEng.begin_, hi, hi']
    exact .ok ⟨rfl, rfl⟩
  finish m v v' e s s' h := by
    refine .ok ?_
    cases e <;> exact ⟨rfl, rfl⟩

/-- C62: what Parse returns does not depend on what happened to the engine before: not on the
nodes and the open transactions it has, nor on the lengths of the repetitions, nor on the
last text. -/
theorem C62_fresh {r : CompileRet Mark} {U : Uni} {k k' : KwScanner} (hb : k.sc.bad = k'.sc.bad)
    (hkw : k.keywords.get = k'.keywords.get) (fuel : Nat) (src : Str) (s s' : St (XEng W)) :
    (parse getValue r U fuel k src s).map seen = (parse getValue r U fuel k' src s').map seen := by
  by_cases hg : r.root = .nil
  · have h : ∀ k s, parse getValue r U fuel k src s = some (.err .noGrammar s) := by
      intro k s
      unfold parse
      rw [(C37_no_grammar (matcher getValue r) hg U k src s fuel).2]
    rw [h, h]
    rfl
  · have htok : (k.tokenize U src r.mode).1 = (k'.tokenize U src r.mode).1 := by
      rw [(tokenize_kw U k src r.mode).1, (tokenize_kw U k' src r.mode).1, hkw]
      simp only [tokenize]
      rw [Scanner.init_reset _ _ hb]
    have e1 : ∀ k s, (parse getValue r U fuel k src s).map seen = match (k.tokenize U src r.mode).1 with
        | (_, some (off, msg)) => some (.err (.tokenize off msg))
        | (toks, none) => match matchG r.env (sem getValue) fuel r.root toks { s with u := s.u.init } with
          | none => none
          | some (.panic p _) => some (.panic p)
          | some (.fail _ e _) => some (.err (.match_ e))
          | some (.ok n s) => if (toks.drop n).length ≠ 0 then some (.err (.match_ (mismatch .eof (toks.drop n))))
            else s.u.result.map .doc := by
      intro k s
      have hm := match_eq (matcher getValue r) hg U fuel k src s
      unfold parse Matcher.matchExactly
      generalize (matcher getValue r).match_ U fuel k src s = x at hm
      obtain ⟨x, kx⟩ := x
      dsimp only at hm
      rw [hm]
      simp only [matcher]
      generalize (k.tokenize U src r.mode).1 = tk
      obtain ⟨toks, te⟩ := tk
      cases te with
      | some te => rfl
      | none =>
        dsimp only
        cases matchG r.env (sem getValue) fuel r.root toks { s with u := s.u.init } with
        | none => rfl
        | some res =>
          cases res with
          | panic p s => rfl
          | fail n e s => rfl
          | ok n s =>
            dsimp only
            by_cases hd : (toks.drop n).length ≠ 0
            · rw [if_pos hd, if_pos hd]; rfl
            · rw [if_neg hd, if_neg hd]
              dsimp only
              cases s.u.result <;> rfl
    rw [e1, e1, htok]
    generalize (k'.tokenize U src r.mode).1 = tk
    obtain ⟨toks, te⟩ := tk
    cases te with
    | some te => rfl
    | none =>
      dsimp only
      have := matchG_rel (env := r.env) (relates_sem (getValue := getValue)) fuel r.root toks
        { s with u := s.u.init } { s' with u := s'.u.init } ⟨rfl, rfl⟩
      generalize h1 : matchG r.env (sem getValue) fuel r.root toks { s with u := s.u.init } = x at this
      generalize h2 : matchG r.env (sem getValue) fuel r.root toks { s' with u := s'.u.init } = x' at this
      cases this with
      | none => rfl
      | fail => rfl
      | panic => rfl
      | @ok n t t' _ =>
        dsimp only
        by_cases hd : (toks.drop n).length ≠ 0
        · rw [if_pos hd, if_pos hd]
        · rw [if_neg hd, if_neg hd]
          have hn : n = toks.length := by
            have hb := matchG_short fuel r.root toks _ _ h1
            have hb : n ≤ toks.length := hb
            simp at hd
            omega
          subst hn
          obtain ⟨items, hdoc, hres⟩ := match_doc ⟨fuel, h1⟩
          obtain ⟨t2, he, hres'⟩ := doc_match hdoc s'
          have := Eval.unique he ⟨fuel, h2⟩
          cases this
          rw [hres, hres']

/-- A tokenization does not change the keywords and never panics. -/
theorem tokenize_keeps (U : Uni) (k : KwScanner) (src : Str) (mode : Mode) (hb : k.sc.bad = false) :
    (k.tokenize U src mode).2.keywords.get = k.keywords.get ∧ (k.tokenize U src mode).2.sc.bad = false := by
  have loop : ∀ (kw : Str → Option Nat) (f : Nat) (s : Scanner), Scanner.Inv s → s.bad = false → (tokenizeLoop U kw f s).2.2.bad = false := by
    intro kw f
    induction f with
    | zero => intro s _ h; exact h
    | succ f ih =>
      intro s hi h
      rw [tokenizeLoop]
      have h1 : (kwScan U kw s).2 = (s.scan U).2 := by
        unfold kwScan
        dsimp only
        split
        · cases kw (s.scan U).1.lit <;> rfl
        · rfl
      obtain ⟨g, x, a, b, hok⟩ := Scanner.scan_spec U hi
      have h2 : (kwScan U kw s).2.bad = false := by rw [h1, hok.go.bad]; exact h
      have h3 : Scanner.Inv (kwScan U kw s).2 := by rw [h1]; exact Scanner.scan_inv U hi
      generalize kwScan U kw s = y at h2 h3
      obtain ⟨t, s1⟩ := y
      dsimp only at h2 h3 ⊢
      cases s1.errs with
      | cons e es => exact h2
      | nil =>
        dsimp only
        split
        · exact h2
        · exact ih s1 h3 h2
  constructor
  · exact init_get k src mode
  · rw [(tokenize_kw U k src mode).2]
    exact loop _ _ _ (Scanner.init_inv ..) (by rw [(Scanner.init_fields ..).2.2.2]; exact hb)

/-- The state a parse leaves behind. -/
def left : MRes Mark (XEng W) (XPanic Q) Unit → St (XEng W)
  | .ok _ s => s
  | .err _ s => s
  | .panic _ s => s

/-- Any number of parses with the engine, with whatever results. -/
inductive Parses (getValue : Str → Str → Except Q W) (r : CompileRet Mark) (U : Uni) :
    KwScanner → St (XEng W) → KwScanner → St (XEng W) → Prop
  | none {k s} : Parses getValue r U k s k s
  | more {k s k' s' fuel src res} : Parses getValue r U k s k' s' →
      ((matcher getValue r).matchExactly U fuel k' src s').1 = some res →
      Parses getValue r U k s ((matcher getValue r).matchExactly U fuel k' src s').2 (left res)

/-- C62: what Parse returns after any number of parses, successful or not, is what it returns
from a new engine. -/
theorem C62_history {r : CompileRet Mark} {U : Uni} {k k' : KwScanner} {s s' : St (XEng W)} (hb : k.sc.bad = false)
    (h : Parses getValue r U k s k' s') (fuel : Nat) (src : Str) :
    (parse getValue r U fuel k' src s').map seen = (parse getValue r U fuel k src ⟨fun _ => 0, XEng.new⟩).map seen := by
  have hk : k'.sc.bad = false ∧ k'.keywords.get = k.keywords.get := by
    clear fuel src
    induction h with
    | none => exact ⟨hb, rfl⟩
    | @more k' s' fuel src res _ _ ih =>
      have : ((matcher getValue r).matchExactly U fuel k' src s').2 = k' ∨
          ((matcher getValue r).matchExactly U fuel k' src s').2 = (k'.tokenize U src r.mode).2 := by
        have h1 : ((matcher getValue r).matchExactly U fuel k' src s').2 = ((matcher getValue r).match_ U fuel k' src s').2 := rfl
        rw [h1]
        by_cases hg : r.root = .nil
        · rw [(C37_no_grammar (matcher getValue r) hg U k' src s' fuel).1]
          exact .inl rfl
        · refine .inr ?_
          unfold Matcher.match_
          have hm : (matcher getValue r).mode = r.mode := rfl
          have hr : (matcher getValue r).grammar = r.root := rfl
          rw [hm, hr]
          cases hroot : r.root with
          | nil => exact absurd hroot hg
          | _ =>
            dsimp only
            generalize k'.tokenize U src r.mode = x
            obtain ⟨⟨toks, te⟩, kx⟩ := x
            cases te <;> rfl
      rcases this with h1 | h1
      · rw [h1]; exact ih
      · rw [h1]
        have := tokenize_keeps U k' src r.mode ih.1
        exact ⟨this.2, this.1.trans ih.2⟩
  exact C62_fresh (hk.1.trans hb.symm) hk.2 fuel src s' _

/-! ### C59: leaves -/

/-- C59, the part that holds: a leaf whose grammar fails is not inserted.  Missing: a leaf
that matches in an alternative that fails later stays (`C59_violated`), unless it is inside
a node that fails (`C58_document`). -/
theorem C59_leaf_partial {env : Env Mark} {m : Mark} {g : Gr Mark} {toks : List Token} {s s' : St (XEng W)} {n : Nat} {err : Err Mark}
    (h : Eval env (sem getValue) (.action m g) toks s (.fail n err s')) : Eval env (sem getValue) g toks s (.fail n err s') := by
  obtain ⟨r, h1, h2⟩ := eval_action.mp h
  cases r with
  | panic p s1 => cases h2
  | fail n1 e1 s1 => cases h2; exact h1
  | ok n1 s1 =>
    rcases h2 with ⟨_, h2⟩ | ⟨_, c, _, h3⟩
    · cases h2
    · cases c <;> cases h3

/-! ### C76: SafeParse -/

/-- Panics of the value function are panics it made. -/
theorem panics_value {env : Env Mark} {g : Gr Mark} {toks : List Token} {s s' : St (XEng W)} {q : Q}
    (h : Eval env (sem getValue) g toks s (.panic (.user (.value q)) s')) : ∃ typ lit, getValue typ lit = .error q := by
  have K : Keeping env (sem getValue) (fun _ _ => True) (fun p => ∀ q, p = .user (.value q) → ∃ typ lit, getValue typ lit = .error q) :=
    { refl := fun _ => trivial
      trans := fun _ _ => trivial
      setLen := fun _ _ _ => trivial
      cut := fun _ _ _ _ => nofun
      nilDeref := nofun
      act := by
        intro f _ m g src n s0 s c _ _ h
        refine ⟨trivial, ?_⟩
        rintro p s' rfl q rfl
        simp only [sem, Option.some.injEq] at h
        cases ht : src.take n with
        | nil => rw [ht] at h; simp [XEng.leaf] at h
        | cons t toks =>
          rw [ht] at h
          simp only [XEng.leaf] at h
          cases hv : getValue m.typ t.lit with
          | error q' =>
            rw [hv] at h
            simp at h
            exact ⟨_, _, h.1 ▸ hv⟩
          | ok w =>
            rw [hv] at h
            cases hst : s.u.stk with
            | none => rw [hst] at h; simp at h
            | some id => rw [hst] at h; simp at h
      start := by
        intro m s
        refine ⟨trivial, ?_⟩
        rintro p s' h q rfl
        simp only [sem, XEng.begin_] at h
        cases hst : s.u.stk with
        | none => rw [hst] at h; simp at h
        | some id => rw [hst] at h; simp at h
      finish := fun _ _ _ _ => ⟨trivial, nofun⟩ }
  exact (h.kept K).2 _ _ rfl q rfl

/-- The panic of a parse came from the match. -/
theorem parse_panic {r : CompileRet Mark} {U : Uni} {k : KwScanner} {fuel : Nat} {src : Str} {s s' : St (XEng W)}
    {p : Panic Mark (XPanic Q)} (h : parse getValue r U fuel k src s = some (.panic p s')) :
    ∃ toks, Eval r.env (sem getValue) r.root toks { s with u := s.u.init } (.panic p s') := by
  by_cases hg : r.root = .nil
  · unfold parse at h
    rw [(C37_no_grammar (matcher getValue r) hg U k src s fuel).2] at h
    cases h
  · have hm := match_eq (matcher getValue r) hg U fuel k src s
    unfold parse Matcher.matchExactly at h
    generalize (matcher getValue r).match_ U fuel k src s = x at hm h
    obtain ⟨x, kx⟩ := x
    dsimp only at hm h
    rw [hm] at h
    simp only [matcher] at h
    generalize (k.tokenize U src r.mode).1 = tk at h
    obtain ⟨toks, te⟩ := tk
    cases te with
    | some te => cases h
    | none =>
      dsimp only at h
      cases hx : matchG r.env (sem getValue) fuel r.root toks { s with u := s.u.init } with
      | none => rw [hx] at h; cases h
      | some res =>
        rw [hx] at h
        cases res with
        | panic p' s1 => cases h; exact ⟨toks, fuel, hx⟩
        | fail n e s1 => cases h
        | ok n s1 =>
          dsimp only at h
          by_cases hd : (toks.drop n).length ≠ 0
          · rw [if_pos hd] at h; cases h
          · rw [if_neg hd] at h
            dsimp only at h
            split at h <;> cases h

/-- C76: SafeParse panics only with what the value function has panicked with, and only if
that is neither a string nor an error. -/
theorem C76_safe {isErr : Q → Bool} {r : CompileRet Mark} {U : Uni} {k : KwScanner} {fuel : Nat} {src : Str} {s : St (XEng W)} {q : Q}
    (h : safeParse isErr getValue r U fuel k src s = some (.panic q)) : isErr q = false ∧ ∃ typ lit, getValue typ lit = .error q := by
  unfold safeParse at h
  cases hp : parse getValue r U fuel k src s with
  | none => rw [hp] at h; cases h
  | some x =>
    rw [hp] at h
    cases x with
    | ok m s1 => cases h
    | err e s1 => cases h
    | panic p s1 =>
      cases p with
      | user p =>
        cases p with
        | value q' =>
          dsimp only at h
          cases he : isErr q' with
          | true => rw [he] at h; cases h
          | false =>
            rw [he] at h
            simp only [Bool.false_eq_true, if_false, Option.some.injEq, SafeRes.panic.injEq] at h
            subst h
            obtain ⟨toks, hm⟩ := parse_panic hp
            exact ⟨he, panics_value hm⟩
        | index => cases h
        | nilStk => cases h
      | err | nilDeref | slice => cases h

/-- C76: otherwise SafeParse returns what Parse returns, a panic as an error. -/
theorem C76_same {isErr : Q → Bool} {r : CompileRet Mark} {U : Uni} {k : KwScanner} {fuel : Nat} {src : Str} {s : St (XEng W)} :
    (∀ m, (∃ s', parse getValue r U fuel k src s = some (.ok m s')) ↔ safeParse isErr getValue r U fuel k src s = some (.ok m)) ∧
    (∀ e, (∃ s', parse getValue r U fuel k src s = some (.err e s')) ↔ safeParse isErr getValue r U fuel k src s = some (.err e)) ∧
    (∀ p, safeParse isErr getValue r U fuel k src s = some (.caught p) → ∃ s', parse getValue r U fuel k src s = some (.panic p s')) := by
  unfold safeParse
  cases parse getValue r U fuel k src s with
  | none => simp
  | some x =>
    cases x with
    | ok m s1 => simp
    | err e s1 => simp
    | panic p s1 =>
      cases p with
      | user p =>
        cases p with
        | value q => cases hq : isErr q <;> simp [hq]
        | index => simp
        | nilStk => simp
      | err | nilDeref | slice => simp

/-! ### C77: marks -/

theorem lastIndex_none {b : UInt8} : ∀ {s : Str}, b ∉ s → lastIndex b s = none
  | [], _ => rfl
  | x :: s, h => by
    rw [lastIndex, lastIndex_none (fun hx => h (List.mem_cons_of_mem _ hx))]
    exact if_neg (fun hx : x = b => h (hx ▸ List.mem_cons_self))

theorem lastIndex_eq {b : UInt8} {t : Str} (ht : b ∉ t) : ∀ s : Str, lastIndex b (s ++ b :: t) = some s.length
  | [] => by rw [List.nil_append, lastIndex, lastIndex_none ht]; exact if_pos rfl
  | x :: s => by rw [List.cons_append, lastIndex, lastIndex_eq ht s]; rfl

theorem mark_parts {tag typ : Str} (h : (95 : UInt8) ∉ typ) :
    lastIndex 95 (tag ++ 95 :: typ) = some tag.length ∧ (tag ++ 95 :: typ).take tag.length = tag ∧
    (tag ++ 95 :: typ).drop (tag.length + 1) = typ := by
  refine ⟨lastIndex_eq h tag, by simp, ?_⟩
  rw [← List.drop_drop, List.drop_left]
  rfl

theorem isSuffixOf_append (a b : Str) : a.isSuffixOf (b ++ a) = true := by
  rw [List.isSuffixOf_iff_suffix]
  exact List.suffix_append b a

/-- C77: `tag_Type` marks a value of the type under the tag, `tag_Types` and `tag_TypeArray`
items of an array. -/
theorem C77_marks {tag typ : Str} (h : (95 : UInt8) ∉ typ) :
    ((str "s").isSuffixOf (tag ++ 95 :: typ) = false → (str "Array").isSuffixOf (tag ++ 95 :: typ) = false →
      parseMark (tag ++ 95 :: typ) = .ok ⟨tag, typ, false⟩) ∧
    parseMark (tag ++ 95 :: typ ++ str "s") = .ok ⟨tag, typ, true⟩ ∧
    parseMark (tag ++ 95 :: typ ++ str "Array") = .ok ⟨tag, typ, true⟩ := by
  obtain ⟨h1, h2, h3⟩ := mark_parts (tag := tag) h
  refine ⟨?_, ?_, ?_⟩
  · intro ha hb
    unfold parseMark
    rw [if_neg (by rw [ha]; nofun), if_neg (by rw [hb]; nofun)]
    dsimp only
    rw [h1]
    dsimp only
    rw [h2, h3]
  · unfold parseMark
    rw [if_pos (isSuffixOf_append _ _)]
    have : (tag ++ 95 :: typ ++ str "s").take ((tag ++ 95 :: typ ++ str "s").length - 1) = tag ++ 95 :: typ := by
      have hl : (tag ++ 95 :: typ ++ str "s").length - 1 = (tag ++ 95 :: typ).length := by
        rw [List.length_append]; rfl
      rw [hl, List.take_left]
    rw [this]
    dsimp only
    rw [h1]
    dsimp only
    rw [h2, h3]
  · unfold parseMark
    have hs : ¬ (str "s").isSuffixOf (tag ++ 95 :: typ ++ str "Array") = true := by
      intro hc
      rw [List.isSuffixOf_iff_suffix] at hc
      obtain ⟨l, hl⟩ := hc
      have := congrArg List.getLast? hl
      have e1 : str "s" = [115] := rfl
      have e2 : str "Array" = [65, 114, 114, 97] ++ [121] := rfl
      rw [e1, e2, ← List.append_assoc, List.getLast?_concat, List.getLast?_concat] at this
      cases this
    rw [if_neg hs, if_pos (isSuffixOf_append _ _)]
    have : (tag ++ 95 :: typ ++ str "Array").take ((tag ++ 95 :: typ ++ str "Array").length - 5) = tag ++ 95 :: typ := by
      have hl : (tag ++ 95 :: typ ++ str "Array").length - 5 = (tag ++ 95 :: typ).length := by
        rw [List.length_append]; rfl
      rw [hl, List.take_left]
    rw [this]
    dsimp only
    rw [h1]
    dsimp only
    rw [h2, h3]

/-- C77: a mark without an underscore is refused, one that makes a node is a transaction,
all others are actions. -/
theorem C77_marker (g : Gr Mark) (mark : Str) :
    ((95 : UInt8) ∉ mark → marker g mark = .error (str "invalid mark: " ++ mark)) ∧
    (∀ m, parseMark mark = .ok m → marker g mark = .ok (if m.typ = str "Node" then .trans m g else .action m g)) := by
  constructor
  · intro h
    have hp : parseMark mark = .error (str "invalid mark: " ++ mark) := by
      unfold parseMark
      split
      rename_i m arr hm
      have : (95 : UInt8) ∉ m := by
        split at hm
        · cases hm; exact fun hx => h (List.mem_of_mem_take hx)
        · split at hm
          · cases hm; exact fun hx => h (List.mem_of_mem_take hx)
          · cases hm; exact h
      rw [lastIndex_none this]
    unfold marker
    rw [hp]
  · intro m h
    unfold marker
    rw [h]
    dsimp only
    by_cases hc : m.typ = str "Node"
    · rw [if_pos hc, if_neg (by simpa using hc)]
    · rw [if_neg hc, if_pos hc]

/-! ### Examples, and what goes wrong -/

/-- All values are the texts. -/
def textOf : Str → Str → Except Empty Str := fun _ lit => .ok lit

/-- Compile and parse. -/
def extract (text src : Str) : Option (CompileRet Mark × DMap Str × St (XEng Str)) :=
  match new text plain ascii 60 with
  | some (.ok r) => match parse textOf r ascii 60 r.tab.scanner src ⟨fun _ => 0, XEng.new⟩ with
    | some (.ok m s) => some (r, m, s)
    | _ => none
  | _ => none

/-- A value, seen from the outside: leaves as they are, of nodes the values under `tags`. -/
def look (tags : List Str) : Option (Data Str) → List Str
  | some (.leaf w) => [w]
  | some (.leaves ws) => ws
  | some (.node m) => tags.flatMap fun t => match m t with
    | some (.leaf w) => [w]
    | _ => []
  | some (.nodes ms) => ms.flatMap fun m => tags.flatMap fun t => match m t with
    | some (.leaf w) => [w]
    | _ => []
  | none => []

def itemText : Str := str "item = IDENT/name_Text '=' INT/val_Text; doc = *(item/items_NodeArray) ?((item '!')/rest_Node) *(IDENT/more_Texts)"

/-- Nodes in an array, a node that fails, an array of leaves. -/
example : ((extract itemText (str "a=1 b=2 c d")).map fun x => (look [str "name", str "val"] (x.2.1 (str "items")),
    look [str "name"] (x.2.1 (str "rest")), look [] (x.2.1 (str "more")), look [] (x.2.1 (str "name")))) =
    some ([str "a", str "1", str "b", str "2"], [], [str "c", str "d"], []) := by kernel_rfl

def leakText : Str := str "doc = IDENT/x_Text '+' | IDENT/y_Text '-'"

/-- The alternative with `x`. -/
def leakAlt : Gr Mark := .and [.action ⟨str "x", str "Text", false⟩ (.tok IDENT), .tok 43]

/-- The other one. -/
def leakAlt2 : Gr Mark := .and [.action ⟨str "y", str "Text", false⟩ (.tok IDENT), .tok 45]

/-- C59 does not hold: `doc = IDENT/x_Text '+' | IDENT/y_Text '-'` applied to `a-` gives a
document with `x` although the alternative with `x` fails. -/
theorem C59_violated : ∃ (r : CompileRet Mark) (m : DMap Str) (s : St (XEng Str)),
    new leakText plain ascii 60 = some (.ok r) ∧ r.root = .or [leakAlt, leakAlt2] ∧
    parse textOf r ascii 60 r.tab.scanner (str "a-") ⟨fun _ => 0, XEng.new⟩ = some (.ok m s) ∧
    look [] (m (str "x")) = [str "a"] ∧ look [] (m (str "y")) = [str "a"] ∧
    ∀ s0 : St (XEng Str), s0.u.stk = some 0 →
      ∃ n e s1, Eval r.env (sem textOf) leakAlt [⟨IDENT, 0, str "a"⟩, ⟨45, 1, []⟩] s0 (.fail n e s1) := by
  have h : (extract leakText (str "a-")).map (fun x => (x.1.root, look [] (x.2.1 (str "x")), look [] (x.2.1 (str "y")))) =
      some (.or [leakAlt, leakAlt2], [str "a"], [str "a"]) := by kernel_rfl
  unfold extract at h
  generalize hn : new leakText plain ascii 60 = c at h
  cases c with
  | none => cases h
  | some c =>
    cases c with
    | ok r =>
      dsimp only at h
      generalize hp : parse textOf r ascii 60 r.tab.scanner (str "a-") ⟨fun _ => 0, XEng.new⟩ = q at h
      cases q with
      | none => cases h
      | some q =>
        cases q with
        | ok m s =>
          simp only [Option.map_some, Option.some.injEq, Prod.mk.injEq] at h
          refine ⟨r, m, s, rfl, h.1, hp, h.2.1, h.2.2, ?_⟩
          intro s0 hs
          refine ⟨1, mismatch (.tok 43) [⟨45, 1, []⟩], { s0 with u := s0.u.setHd 0 (.leaf (str "x") false (str "a") :: s0.u.hds 0) }, 3, ?_⟩
          simp [leakAlt, matchG, matchStep, andLoop, sem, XEng.leaf, hs, textOf, XEng.setHd, mismatch, IDENT, INT]
        | err => cases h
        | panic => cases h
    | err => cases h
    | _ => cases h

def mixText : Str := str "doc = *(IDENT/a_Texts | INT/b_Texts)"

/-- Items of an array that are not next to each other: only the first group is in the
result. -/
theorem C60_interleaved : (extract mixText (str "x y 1 z")).map (fun x => (look [] (x.2.1 (str "a")), look [] (x.2.1 (str "b")))) =
    some ([str "x", str "y"], [str "1"]) := by kernel_rfl

/-- C61: the first value. -/
example : (extract (str "doc = IDENT/a_Text IDENT/a_Text INT/a_Text") (str "x y 1")).map (fun x => look [] (x.2.1 (str "a"))) =
    some [str "x"] := by kernel_rfl

/-- C60, C75: a document, from a parse. -/
example : ∃ toks items, Doc textOf (W := Str) ⟨.rep0 0 (.action ⟨str "a", str "Text", true⟩ (.tok IDENT)), ⟨[], [], 1, KwScanner.zero⟩, plain⟩ toks items ∧
    toks.length = 2 ∧ items = [str "x", str "y"].map (.leaf (str "a") true) := by
  refine ⟨[⟨IDENT, 0, str "x"⟩, ⟨IDENT, 2, str "y"⟩], _, ⟨2,
    [.act ⟨str "a", str "Text", true⟩ (.tok IDENT) [⟨IDENT, 0, str "x"⟩] (-1),
      .act ⟨str "a", str "Text", true⟩ (.tok IDENT) [⟨IDENT, 2, str "y"⟩] (-1)], ?_, rfl⟩, rfl, rfl⟩
  exact .rep0 (.manyMore (n := 1) (e := [_]) (o := .succ 1 1) (.action (e := []) (.tok (.inl rfl)))
      (.manyMore (n := 1) (e := [_]) (e' := []) (o := .succ 0 0) (.action (e := []) (.tok (.inl rfl))) (.manyEnd (n := 0) (.actionFail .tokEnd))))

/-- C62: parses that fail. -/
example : ((extract leakText (str "a+")).map fun x => (parse textOf x.1 ascii 60 x.1.tab.scanner (str "b-") x.2.2).map fun
    | .ok m _ => (look [] (m (str "x")), look [] (m (str "y")))
    | _ => ([], [])) = some (some ([str "b"], [str "b"])) := by kernel_rfl

/-- C76: a value function that panics with something else. -/
example : safeParse (W := Unit) (fun _ : Bool => false) (fun _ _ => .error true)
    ⟨.action ⟨str "a", str "Text", true⟩ (.tok IDENT), ⟨[], [], 0, KwScanner.zero⟩, plain⟩ ascii 5 KwScanner.zero (str "x") ⟨fun _ => 0, XEng.new⟩ =
    some (.panic true) := by kernel_rfl

/-- C77 -/
example : parseMark (str "my_list_Ints") = .ok ⟨str "my_list", str "Int", true⟩ ∧
    parseMark (str "x_NodeArray") = .ok ⟨str "x", str "Node", true⟩ ∧ parseMark (str "x_Float") = .ok ⟨str "x", str "Float", false⟩ :=
  ⟨rfl, rfl, rfl⟩

end Tpl.Props
