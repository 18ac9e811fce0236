import Verif.Proof.Match

/-!
Two sets of callbacks that do the same, except that they may panic with different values, on
the actions of a grammar and on tokens of some kind: then matching does the same.
-/
namespace Tpl
variable {A σ V P α : Type}

mutual
/-- The labels of the actions and transactions in a grammar, without those of variables. -/
def Gr.acts : Gr A → List A
  | .nil | .tok _ | .tru | .eof | .var _ => []
  | .peek g | .not g | .rep0 _ g | .rep1 _ g | .rep01 _ g | .named _ g => g.acts
  | .and gs | .or gs => actsAll gs
  | .list _ a b _ => a.acts ++ b.acts
  | .action a g | .trans a g => a :: g.acts
def actsAll : List (Gr A) → List A
  | [] => []
  | g :: gs => g.acts ++ actsAll gs
end

theorem mem_actsAll {gs : List (Gr A)} {g : Gr A} (h : g ∈ gs) {a : A} (ha : a ∈ g.acts) : a ∈ actsAll gs := by
  induction gs with
  | nil => cases h
  | cons g' gs ih =>
    unfold actsAll
    cases h with
    | head => exact List.mem_append_left _ ha
    | tail _ h => exact List.mem_append_right _ (ih h)

/-- All actions of a grammar are in `Q`. -/
def Gr.Only (Q : A → Prop) (g : Gr A) : Prop := ∀ a ∈ g.acts, Q a

variable {Q : A → Prop} {D : Token → Prop}

theorem only_all {gs : List (Gr A)} (h : ∀ g ∈ gs, g.Only Q) : ∀ a ∈ actsAll gs, Q a := by
  induction gs with
  | nil => intro a ha; cases ha
  | cons g gs ih =>
    intro a ha
    unfold actsAll at ha
    rcases List.mem_append.mp ha with ha | ha
    · exact h g (by simp) a ha
    · exact ih (fun g hg => h g (by simp [hg])) a ha

/-- The same, or panics in the same state. -/
inductive Alike : Option (Res A σ P) → Option (Res A σ P) → Prop
  | same (x) : Alike x x
  | panic {p p' s} : Alike (some (.panic p s)) (some (.panic p' s))

inductive AlikeLoop : Option (LoopRes A σ P) → Option (LoopRes A σ P) → Prop
  | same (x) : AlikeLoop x x
  | panic {p p' s} : AlikeLoop (some (.panic p s)) (some (.panic p' s))

inductive AlikeCb : Option (Cb A σ P α) → Option (Cb A σ P α) → Prop
  | same (x) : AlikeCb x x
  | panic {p p' s} : AlikeCb (some (.panic p s)) (some (.panic p' s))

/-- `m` and `m'` do the same with grammars whose actions are in `Q`, on tokens in `D`. -/
def AlikeMat (Q : A → Prop) (D : Token → Prop) (m m' : Mat A σ P) : Prop :=
  ∀ g src s, g.Only Q → (∀ t ∈ src, D t) → Alike (m g src s) (m' g src s)

theorem forall_drop {src : List Token} (h : ∀ t ∈ src, D t) (n : Nat) : ∀ t ∈ src.drop n, D t :=
  fun t ht => h t (List.mem_of_mem_drop ht)

variable {m m' : Mat A σ P}

theorem andLoop_alike (hm : AlikeMat Q D m m') (all : Gr A) (src : List Token) (hD : ∀ t ∈ src, D t) : ∀ gs ff n s, (∀ g ∈ gs, g.Only Q) →
    Alike (andLoop m all src gs ff n s) (andLoop m' all src gs ff n s) := by
  intro gs
  induction gs with
  | nil => intro ff n s _; exact .same _
  | cons g gs ih =>
    intro ff n s hq
    by_cases hg : g = .nil
    · subst hg
      simp only [andLoop]
      exact ih _ _ _ fun g hg => hq g (by simp [hg])
    · rw [andLoop.eq_3 _ _ _ _ _ _ _ _ hg, andLoop.eq_3 _ _ _ _ _ _ _ _ hg]
      by_cases hn : n ≤ src.length
      · rw [if_pos hn, if_pos hn]
        have := hm g (src.drop n) s (hq g (by simp)) (forall_drop hD n)
        generalize m g (src.drop n) s = x at this
        generalize m' g (src.drop n) s = x' at this
        cases this with
        | panic => exact .panic
        | same =>
          cases x with
          | none => exact .same _
          | some x =>
            cases x with
            | ok n1 s => exact ih _ _ _ fun g hg => hq g (by simp [hg])
            | fail n1 e s => exact .same _
            | panic p s => exact .same _
      · rw [if_neg hn, if_neg hn]
        exact .same _

theorem orLoop_alike (hm : AlikeMat Q D m m') (all : Gr A) (src : List Token) (hD : ∀ t ∈ src, D t) : ∀ gs n e b s, (∀ g ∈ gs, g.Only Q) →
    Alike (orLoop m all src gs n e b s) (orLoop m' all src gs n e b s) := by
  intro gs
  induction gs with
  | nil => intro n e b s _; exact .same _
  | cons g gs ih =>
    intro n e b s hq
    simp only [orLoop]
    have := hm g src s (hq g (by simp)) hD
    have hq' : ∀ g ∈ gs, g.Only Q := fun g hg => hq g (by simp [hg])
    generalize m g src s = x at this
    generalize m' g src s = x' at this
    cases this with
    | panic => exact .panic
    | same =>
      cases x with
      | none => exact .same _
      | some x =>
        cases x with
        | ok n1 s => exact .same _
        | fail n1 e s =>
          dsimp only
          split
          · split
            · exact ih _ _ _ _ hq'
            · exact ih _ _ _ _ hq'
          · exact ih _ _ _ _ hq'
        | panic p s => exact .same _

theorem repLoop_alike (hm : AlikeMat Q D m m') (g : Gr A) (hg : g.Only Q) : ∀ f src n k s, (∀ t ∈ src, D t) →
    AlikeLoop (repLoop m g f src n k s) (repLoop m' g f src n k s) := by
  intro f
  induction f with
  | zero => intro src n k s _; exact .same _
  | succ f ih =>
    intro src n k s hD
    simp only [repLoop]
    have := hm g src s hg hD
    generalize m g src s = x at this
    generalize m' g src s = x' at this
    cases this with
    | panic => exact .panic
    | same =>
      cases x with
      | none => exact .same _
      | some x =>
        cases x with
        | ok n1 s =>
          dsimp only
          split
          · exact ih _ _ _ _ (forall_drop hD n1)
          · exact .same _
        | fail n1 e s => exact .same _
        | panic p s => exact .same _

theorem matchStep_alike {env : Env A} {sem sem' : Sem A σ V P} (henv : ∀ v g, env v = some g → g.Only Q)
    (hact : ∀ f m m' a g toks s, Q a → (∀ t ∈ toks, D t) → AlikeCb (sem.act f m a g toks s) (sem'.act f m' a g toks s))
    (hstart : ∀ a s, sem.start a s = sem'.start a s) (hfin : ∀ a v e s, sem.finish a v e s = sem'.finish a v e s)
    (hm : AlikeMat Q D m m') (f : Nat) : AlikeMat Q D (matchStep env sem m f) (matchStep env sem' m' f) := by
  intro g src s hg hD
  cases g with
  | nil => exact .same _
  | tok k => exact .same _
  | tru => exact .same _
  | eof => exact .same _
  | peek g =>
    have := hm g src s hg hD
    simp only [matchStep]
    generalize m g src s = x at this
    generalize m' g src s = x' at this
    cases this with
    | panic => exact .panic
    | same => exact .same _
  | not g =>
    have := hm g src s hg hD
    simp only [matchStep]
    generalize m g src s = x at this
    generalize m' g src s = x' at this
    cases this with
    | panic => exact .panic
    | same => exact .same _
  | and gs => exact andLoop_alike hm _ _ hD _ _ _ _ fun g h a ha => hg a (mem_actsAll h ha)
  | or gs => exact orLoop_alike hm _ _ hD _ _ _ _ _ fun g h a ha => hg a (mem_actsAll h ha)
  | rep0 id g =>
    have := repLoop_alike hm g hg f src 0 0 s hD
    simp only [matchStep]
    generalize repLoop m g f src 0 0 s = x at this
    generalize repLoop m' g f src 0 0 s = x' at this
    cases this with
    | panic => exact .panic
    | same => exact .same _
  | rep1 id g =>
    have := hm g src s hg hD
    simp only [matchStep]
    generalize m g src s = x at this
    generalize m' g src s = x' at this
    cases this with
    | panic => exact .panic
    | same =>
      cases x with
      | none => exact .same _
      | some x =>
        cases x with
        | fail n e s => exact .same _
        | panic p s => exact .same _
        | ok n s =>
          dsimp only
          split
          · have := repLoop_alike hm g hg f (src.drop n) 0 0 s (forall_drop hD n)
            generalize repLoop m g f (src.drop n) 0 0 s = x at this
            generalize repLoop m' g f (src.drop n) 0 0 s = x' at this
            cases this with
            | panic => exact .panic
            | same => exact .same _
          · exact .same _
  | rep01 id g =>
    have := hm g src s hg hD
    simp only [matchStep]
    generalize m g src s = x at this
    generalize m' g src s = x' at this
    cases this with
    | panic => exact .panic
    | same => exact .same _
  | list id a b l0 =>
    have ha : a.Only Q := fun x hx => hg x (List.mem_append_left _ hx)
    have hb : b.Only Q := fun x hx => hg x (List.mem_append_right _ hx)
    have := hm a src s ha hD
    simp only [matchStep]
    generalize m a src s = x at this
    generalize m' a src s = x' at this
    cases this with
    | panic => exact .panic
    | same =>
      cases x with
      | none => exact .same _
      | some x =>
        cases x with
        | fail n e s => exact .same _
        | panic p s => exact .same _
        | ok n s =>
          dsimp only
          split
          · have := repLoop_alike hm (.and [b, a]) (only_all (by simpa using ⟨hb, ha⟩)) f (src.drop n) n 1 s (forall_drop hD n)
            generalize repLoop m _ f (src.drop n) n 1 s = x at this
            generalize repLoop m' _ f (src.drop n) n 1 s = x' at this
            cases this with
            | panic => exact .panic
            | same => exact .same _
          · exact .same _
  | var v =>
    simp only [matchStep]
    cases he : env v with
    | none => exact .same _
    | some g => exact hm g src s (henv v g he) hD
  | named n g => exact hm g src s hg hD
  | action a g =>
    have := hm g src s (fun x hx => hg x (List.mem_cons_of_mem _ hx)) hD
    simp only [matchStep]
    generalize m g src s = x at this
    generalize m' g src s = x' at this
    cases this with
    | panic => exact .panic
    | same =>
      cases x with
      | none => exact .same _
      | some x =>
        cases x with
        | fail n e s => exact .same _
        | panic p s => exact .same _
        | ok n s =>
          dsimp only
          split
          · have := hact f m m' a g (src.take n) s (hg a (List.mem_cons_self ..)) fun t ht => hD t (List.mem_of_mem_take ht)
            generalize sem.act f m a g (src.take n) s = x at this
            generalize sem'.act f m' a g (src.take n) s = x' at this
            cases this with
            | panic => exact .panic
            | same => exact .same _
          · exact .same _
  | trans a g =>
    simp only [matchStep]
    rw [hstart a s]
    cases sem'.start a s with
    | panic p s => exact .same _
    | ok v s =>
      have := hm g src s (fun x hx => hg x (List.mem_cons_of_mem _ hx)) hD
      dsimp only
      generalize m g src s = x at this
      generalize m' g src s = x' at this
      cases this with
      | panic => exact .panic
      | same =>
        cases x with
        | none => exact .same _
        | some x =>
          cases x with
          | ok n s => dsimp only; rw [hfin]; exact .same _
          | fail n e s => dsimp only; rw [hfin]; exact .same _
          | panic p s => exact .same _

/-- Matching does the same. -/
theorem matchG_alike {env : Env A} {sem sem' : Sem A σ V P} (henv : ∀ v g, env v = some g → g.Only Q)
    (hact : ∀ f m m' a g toks s, Q a → (∀ t ∈ toks, D t) → AlikeCb (sem.act f m a g toks s) (sem'.act f m' a g toks s))
    (hstart : ∀ a s, sem.start a s = sem'.start a s) (hfin : ∀ a v e s, sem.finish a v e s = sem'.finish a v e s) :
    ∀ f, AlikeMat Q D (matchG env sem f) (matchG env sem' f)
  | 0 => fun _ _ _ _ _ => .same _
  | f + 1 => matchStep_alike henv hact hstart hfin (matchG_alike henv hact hstart hfin f) f

end Tpl
