import Verif.Spec.Share
import Verif.Proof.Print

/-! Matching and compiling with other kinds for the keywords. -/
namespace Tpl
open Spec
variable {A σ V P α : Type} {R Q : Nat → Nat → Prop}

/-! ### Kinds -/

/-- Corresponding kinds are equal or not together. -/
structure KindRel (R : Nat → Nat → Prop) : Prop where
  inj : ∀ {a b a' b'}, R a b → R a' b' → (a = a' ↔ b = b')
  int : ∀ {a b}, R a b → (a = INT ↔ b = INT)
  float : ∀ {a b}, R a b → (a = FLOAT ↔ b = FLOAT)

mutual
theorem Spec.SameGr.mono {R R' : Nat → Nat → Prop} (hR : ∀ a b, R a b → R' a b) : ∀ {g g' : Gr A}, SameGr R g g' → SameGr R' g g'
  | _, _, .nil => .nil
  | _, _, .tok h => .tok (hR _ _ h)
  | _, _, .tru => .tru
  | _, _, .eof => .eof
  | _, _, .peek h => .peek (h.mono hR)
  | _, _, .not h => .not (h.mono hR)
  | _, _, .and h => .and (h.mono hR)
  | _, _, .or h => .or (h.mono hR)
  | _, _, .rep0 h => .rep0 (h.mono hR)
  | _, _, .rep1 h => .rep1 (h.mono hR)
  | _, _, .rep01 h => .rep01 (h.mono hR)
  | _, _, .list h h' => .list (h.mono hR) (h'.mono hR)
  | _, _, .var => .var
  | _, _, .named h => .named (h.mono hR)
  | _, _, .action h => .action (h.mono hR)
  | _, _, .trans h => .trans (h.mono hR)
theorem Spec.SameGrs.mono {R R' : Nat → Nat → Prop} (hR : ∀ a b, R a b → R' a b) : ∀ {gs gs' : List (Gr A)}, SameGrs R gs gs' → SameGrs R' gs gs'
  | _, _, .nil => .nil
  | _, _, .cons h h' => .cons (h.mono hR) (h'.mono hR)
end

/-! ### Tokens -/

theorem Spec.SameToks.length {ts ts' : List Token} (h : SameToks R Q ts ts') : ts.length = ts'.length := by
  induction h with
  | nil => rfl
  | cons _ _ _ ih => simp [ih]

theorem Spec.SameToks.drop {ts ts' : List Token} (h : SameToks R Q ts ts') : ∀ n, SameToks R Q (ts.drop n) (ts'.drop n) := by
  induction h with
  | nil => intro n; simp; exact .nil
  | cons h1 h2 h3 ih =>
    intro n
    cases n with
    | zero => exact .cons h1 h2 h3
    | succ n => exact ih n

theorem Spec.SameToks.take {ts ts' : List Token} (h : SameToks R Q ts ts') : ∀ n, SameToks R Q (ts.take n) (ts'.take n) := by
  induction h with
  | nil => intro n; simp; exact .nil
  | cons h1 h2 h3 ih =>
    intro n
    cases n with
    | zero => exact .nil
    | succ n => exact .cons h1 h2 (ih n)

/-! ### Matching -/

inductive SameLoop : Option (LoopRes A σ P) → Option (LoopRes A σ P) → Prop
  | none : SameLoop none none
  | done {n k s} : SameLoop (some (.done n k s)) (some (.done n k s))
  | panic {p p' s} : SameLoop (some (.panic p s)) (some (.panic p' s))

variable {m m' : Mat A σ P}

theorem andLoop_same (hm : SameMat R Q m m') {all all' : Gr A} {src src' : List Token} (hs : SameToks R Q src src') :
    ∀ {gs gs'}, SameGrs R gs gs' → ∀ ff n s, SameRes (andLoop m all src gs ff n s) (andLoop m' all' src' gs' ff n s) := by
  intro gs
  induction gs with
  | nil =>
    intro gs' h ff n s
    cases h
    exact .ok
  | cons g gs ih =>
    intro gs' h ff n s
    cases h with
    | cons h1 h2 =>
      rename_i g' gs'
      by_cases hg : g = .nil
      · subst hg
        cases h1
        simp only [andLoop]
        exact ih h2 _ _ _
      · have hg' : g' ≠ .nil := by rintro rfl; cases h1; exact hg rfl
        rw [andLoop.eq_3 _ _ _ _ _ _ _ _ hg, andLoop.eq_3 _ _ _ _ _ _ _ _ hg', ← hs.length]
        by_cases hn : n ≤ src.length
        · rw [if_pos hn, if_pos hn]
          have := hm g g' (src.drop n) (src'.drop n) s h1 (hs.drop n)
          generalize m g (src.drop n) s = x at this
          generalize m' g' (src'.drop n) s = x' at this
          cases this with
          | none => exact .none
          | panic => exact .panic
          | ok => exact ih h2 _ _ _
          | fail =>
            dsimp only
            split
            · exact .panic
            · exact .fail
        · rw [if_neg hn, if_neg hn]
          exact .panic

theorem orLoop_same (hm : SameMat R Q m m') {all all' : Gr A} {src src' : List Token} (hs : SameToks R Q src src') :
    ∀ {gs gs'}, SameGrs R gs gs' → ∀ n e e' b s, (e = none ↔ e' = none) → SameRes (orLoop m all src gs n e b s) (orLoop m' all' src' gs' n e' b s) := by
  intro gs
  induction gs with
  | nil =>
    intro gs' h n e e' b s he
    cases h
    simp only [orLoop]
    split
    · exact .fail
    · cases e with
      | none => rw [he.mp rfl]; exact .ok
      | some e =>
        cases e' with
        | none => exact absurd (he.mpr rfl) (by simp)
        | some e' => exact .fail
  | cons g gs ih =>
    intro gs' h n e e' b s he
    cases h with
    | cons h1 h2 =>
      rename_i g' gs'
      simp only [orLoop]
      have := hm g g' src src' s h1 hs
      generalize m g src s = x at this
      generalize m' g' src' s = x' at this
      cases this with
      | none => exact .none
      | panic => exact .panic
      | ok => exact .ok
      | fail =>
        dsimp only
        split
        · split
          · exact ih h2 _ _ _ _ _ he
          · exact ih h2 _ _ _ _ _ (by simp)
        · exact ih h2 _ _ _ _ _ he

theorem repLoop_same (hm : SameMat R Q m m') {g g' : Gr A} (hg : SameGr R g g') : ∀ f {src src'}, SameToks R Q src src' → ∀ n k s,
    SameLoop (repLoop m g f src n k s) (repLoop m' g' f src' n k s) := by
  intro f
  induction f with
  | zero => intro src src' _ n k s; exact .none
  | succ f ih =>
    intro src src' hs n k s
    simp only [repLoop]
    have := hm g g' src src' s hg hs
    generalize m g src s = x at this
    generalize m' g' src' s = x' at this
    cases this with
    | none => exact .none
    | panic => exact .panic
    | fail => exact .done
    | ok =>
      dsimp only
      rw [← hs.length]
      split
      · exact ih (hs.drop _) _ _ _
      · exact .panic

theorem matchStep_same {env env' : Env A} {sem : Sem A σ V P} (hR : KindRel R) (hsem : Blind R Q sem)
    (henv : ∀ v, (env v = none ∧ env' v = none) ∨ ∃ g g', env v = some g ∧ env' v = some g' ∧ SameGr R g g')
    (hm : SameMat R Q m m') (f : Nat) : SameMat R Q (matchStep env sem m f) (matchStep env' sem m' f) := by
  intro g g' src src' s hg hs
  cases hg with
  | nil => exact .panic
  | tok h =>
    cases hs with
    | nil => exact .fail
    | cons h1 h2 h3 =>
      rename_i a b a1 b1 pos pos' lit ts ts'
      simp only [matchStep]
      have e : (a1 = a ∨ (a1 = INT ∧ a = FLOAT)) ↔ (b1 = b ∨ (b1 = INT ∧ b = FLOAT)) := by
        rw [hR.inj h1 h, hR.int h1, hR.float h]
      by_cases hc : a1 = a ∨ (a1 = INT ∧ a = FLOAT)
      · rw [if_pos hc, if_pos (e.mp hc)]; exact .ok
      · rw [if_neg hc, if_neg (fun h => hc (e.mpr h))]; exact .fail
  | tru => exact .ok
  | eof =>
    simp only [matchStep]
    rw [← hs.length]
    split
    · exact .fail
    · exact .ok
  | @peek g g' h =>
    have := hm g g' src src' s h hs
    simp only [matchStep]
    generalize m g src s = x at this
    generalize m' g' src' s = x' at this
    cases this <;> constructor
  | @not g g' h =>
    have := hm g g' src src' s h hs
    simp only [matchStep]
    generalize m g src s = x at this
    generalize m' g' src' s = x' at this
    cases this <;> constructor
  | and h => exact andLoop_same hm hs h _ _ _
  | or h => exact orLoop_same hm hs h _ _ _ _ _ Iff.rfl
  | @rep0 id g g' h =>
    have := repLoop_same hm h f hs 0 0 s
    simp only [matchStep]
    generalize repLoop m g f src 0 0 s = x at this
    generalize repLoop m' g' f src' 0 0 s = x' at this
    cases this <;> constructor
  | @rep1 id g g' h =>
    have := hm g g' src src' s h hs
    simp only [matchStep]
    generalize m g src s = x at this
    generalize m' g' src' s = x' at this
    cases this with
    | none => exact .none
    | panic => exact .panic
    | fail => exact .fail
    | ok =>
      rename_i n s
      dsimp only
      rw [← hs.length]
      split
      · have := repLoop_same hm h f (hs.drop n) 0 0 s
        generalize repLoop m g f (src.drop n) 0 0 s = x at this
        generalize repLoop m' g' f (src'.drop n) 0 0 s = x' at this
        cases this <;> constructor
      · exact .panic
  | @rep01 id g g' h =>
    have := hm g g' src src' s h hs
    simp only [matchStep]
    generalize m g src s = x at this
    generalize m' g' src' s = x' at this
    cases this <;> constructor
  | @list id a b a' b' l h1 h2 =>
    have := hm a a' src src' s h1 hs
    simp only [matchStep]
    generalize m a src s = x at this
    generalize m' a' src' s = x' at this
    cases this with
    | none => exact .none
    | panic => exact .panic
    | fail =>
      dsimp only
      split
      · exact .ok
      · exact .fail
    | ok =>
      rename_i n s
      dsimp only
      rw [← hs.length]
      split
      · have := repLoop_same hm (.and (.cons h2 (.cons h1 .nil))) f (hs.drop n) n 1 s
        generalize repLoop m _ f (src.drop n) n 1 s = x at this
        generalize repLoop m' _ f (src'.drop n) n 1 s = x' at this
        cases this <;> constructor
      · exact .panic
  | @var v =>
    simp only [matchStep]
    rcases henv v with ⟨e, e'⟩ | ⟨g, g', e, e', h⟩
    · rw [e, e']; exact .fail
    · rw [e, e']; exact hm _ _ _ _ _ h hs
  | named h => exact hm _ _ _ _ _ h hs
  | @action a g g' h =>
    have := hm g g' src src' s h hs
    simp only [matchStep]
    generalize m g src s = x at this
    generalize m' g' src' s = x' at this
    cases this with
    | none => exact .none
    | panic => exact .panic
    | fail => exact .fail
    | ok =>
      rename_i n s
      dsimp only
      rw [← hs.length]
      split
      · have := hsem.act f m m' a g g' (src.take n) (src'.take n) s hm h (hs.take n)
        generalize sem.act f m a g (src.take n) s = x at this
        generalize sem.act f m' a g' (src'.take n) s = x' at this
        cases this <;> constructor
      · exact .panic
  | @trans a g g' h =>
    simp only [matchStep]
    cases sem.start a s with
    | panic p s => exact .panic
    | ok v s =>
      have := hm g g' src src' s h hs
      dsimp only
      generalize m g src s = x at this
      generalize m' g' src' s = x' at this
      cases this with
      | none => exact .none
      | panic => exact .panic
      | ok =>
        dsimp only
        split
        · exact .panic
        · exact .ok
      | @fail n e e' s =>
        dsimp only
        have := hsem.finish a v e e' s
        generalize sem.finish a v (some e) s = x at this
        generalize sem.finish a v (some e') s = x' at this
        cases this <;> constructor

/-- Matching does the same. -/
theorem matchG_same {env env' : Env A} {sem : Sem A σ V P} (hR : KindRel R) (hsem : Blind R Q sem)
    (henv : ∀ v, (env v = none ∧ env' v = none) ∨ ∃ g g', env v = some g ∧ env' v = some g' ∧ SameGr R g g') :
    ∀ f, SameMat R Q (matchG env sem f) (matchG env' sem f)
  | 0 => fun _ _ _ _ _ _ _ => .none
  | f + 1 => matchStep_same hR hsem henv (matchG_same hR hsem henv f) f

end Tpl
