import Verif.Props.Lexer
import Verif.Props.Matcher
import Verif.Proof.Layout
import Verif.Spec.Message

/-
Lemmas about the messages of errors: the lines of tokens, and the text shown.
-/
namespace Tpl
open Spec Scanner

theorem dec_ne {b : UInt8} (h : IsDec b) : b ≠ 10 := by
  rintro rfl; simp [IsDec] at h

theorem last_ne_of {x : Str} (h : ∀ b ∈ x, b ≠ 10) : x.getLast? ≠ some 10 := by
  intro e
  exact h 10 (List.mem_of_getLast? e) rfl

theorem Spec.ExpText.no_nl {x r : Str} (h : ExpText x r) : ∀ b ∈ x, b ≠ 10 := by
  cases h with
  | none => simp
  | some he hs hd _ _ =>
    intro b hb
    simp only [List.mem_cons, List.mem_append] at hb
    rcases hb with rfl | hb | hb
    · rcases he with rfl | rfl <;> decide
    · rcases hs with rfl | rfl | rfl
      · cases hb
      · simp at hb; subst hb; decide
      · simp at hb; subst hb; decide
    · exact dec_ne (hd b hb)

theorem Spec.FloatText.no_nl {x r : Str} (h : FloatText x r) : ∀ b ∈ x, b ≠ 10 := by
  cases h with
  | frac h1 h2 _ _ h3 =>
    intro b hb
    simp only [List.mem_cons, List.mem_append] at hb
    rcases hb with hb | rfl | hb | hb
    · exact dec_ne (h1 b hb)
    · decide
    · exact dec_ne (h2 b hb)
    · exact h3.no_nl b hb
  | exp h1 _ _ h3 =>
    intro b hb
    rcases List.mem_append.mp hb with hb | hb
    · exact dec_ne (h1 b hb)
    · exact h3.no_nl b hb

/-- A token after which a semicolon is due does not end in a newline. -/
theorem semi_text_end {U : Uni} {c semi : Bool} {t : Token} {x r : Str} {s2 : Bool}
    (h : TokText U true c semi t x r s2) (hs : true = s2) : x.getLast? ≠ some 10 := by
  cases h with
  | ident _ _ hr _ =>
    refine last_ne_of (Runes.bytes hr _ ?_ ?_)
    · rintro b _ hb rfl
      simp [Letter, Digit] at hb
    · rintro b hb _ rfl
      simp at hb
  | int h =>
    refine last_ne_of ?_
    cases h with
    | dec h1 _ h2 _ _ =>
      intro b hb
      rcases List.mem_cons.mp hb with rfl | hb
      · exact dec_ne h1
      · exact dec_ne (h2 b hb)
    | oct h1 _ _ _ =>
      intro b hb
      rcases List.mem_cons.mp hb with rfl | hb
      · decide
      · have := h1 b hb
        simp only [if_true] at this
        rintro rfl
        simp [IsOct] at this
    | hex h1 h2 _ _ =>
      intro b hb
      simp only [List.mem_cons] at hb
      rcases hb with rfl | rfl | hb
      · decide
      · rcases h1 with rfl | rfl <;> decide
      · have := h2 b hb
        rintro rfl
        simp [IsHex] at this
  | float h _ => exact last_ne_of h.no_nl
  | imag h => cases h <;> simp
  | char _ h =>
    obtain ⟨b, rfl, _⟩ := h rfl
    rw [List.getLast?_cons_of_ne_nil (by simp)]; simp
  | string _ h =>
    obtain ⟨b, rfl, _⟩ := h rfl
    rw [List.getLast?_cons_of_ne_nil (by simp)]; simp
  | raw _ h =>
    obtain ⟨b, rfl, _⟩ := h rfl
    rw [List.getLast?_cons_of_ne_nil (by simp)]; simp
  | op hop => exact last_ne_of fun b hb => ((ops_ascii _ hop).2 b hb).2.2.2.2.2
  | illegal h => cases h
  | _ => cases hs

/-- While a semicolon is due no newline is skipped. -/
theorem gap_semi {ok c : Bool} {semi : Bool} {g r : Str} {s2 : Bool} (h : Gap ok c semi g r s2) (hs : s2 = true) :
    semi = true ∧ ∀ b ∈ g, b ≠ 10 := by
  induction h with
  | nil => exact ⟨hs, by simp⟩
  | space hb _ ih =>
    obtain ⟨h1, h2⟩ := ih hs
    refine ⟨h1, ?_⟩
    intro b hm
    rcases List.mem_cons.mp hm with rfl | hm
    · rintro rfl
      rw [h1] at hb
      simp [Space] at hb
    · exact h2 b hm
  | comment _ _ _ _ ih => exact absurd (ih hs).1 (by simp)

theorem getLast_app {a b : Str} (ha : a.getLast? ≠ some 10) (hb : b.getLast? ≠ some 10) : (a ++ b).getLast? ≠ some 10 := by
  cases b with
  | nil => simpa using ha
  | cons c b => rw [List.getLast?_append_of_ne_nil _ (by simp)]; exact hb

/-- A token other than EOF lies before the end of a text that ends in a newline. -/
theorem lexes_before {U : Uni} {mode : Mode} {o : Nat} {txt : Str} {semi : Bool} {ts : List Token}
    (h : Lexes U true mode o txt semi ts) : ∀ pre : Str, pre.length = o → (semi = true → pre.getLast? ≠ some 10) →
    ∀ t ∈ ts.dropLast, t.pos < o + txt.length ∨ (pre ++ txt).getLast? ≠ some 10 := by
  induction h with
  | eof => intro pre _ _ t ht; simp at ht
  | @cons o g x r semi semi1 semi2 t ts hk hg hp ht hl ih =>
    intro pre hpre hsemi u hu
    have hne : ts ≠ [] := by cases hl <;> simp
    rw [List.dropLast_cons_of_ne_nil hne] at hu
    rcases List.mem_cons.mp hu with rfl | hu
    · by_cases hx : x ++ r = []
      · right
        obtain ⟨rfl, rfl⟩ := List.append_eq_nil_iff.mp hx
        have h1 : semi1 = true := by
          generalize hxx : ([] : Str) = xx at ht
          generalize hrr : ([] : Str) = rr at ht
          cases ht with
          | semiAtEnd => rfl
          | newline => rfl
          | semiAtComment => rfl
          | eof => exact absurd rfl hk
          | ident h => exact absurd hxx.symm h
          | int h => cases h <;> cases hxx
          | float h =>
            subst hxx
            generalize hyy : ([] : Str) = yy at h
            cases h with
            | frac => simp at hyy
            | exp _ h => simp [h] at hyy
          | imag h =>
            subst hxx
            generalize hyy : ([] : Str) = yy at h
            cases h <;> simp at hyy
          | char h => obtain ⟨_, h⟩ := h; rw [← hxx] at h; cases h
          | string h => obtain ⟨_, h⟩ := h; rw [← hxx] at h; cases h
          | raw h => obtain ⟨_, h⟩ := h; rw [← hxx] at h; cases h
          | comment _ h => cases h <;> cases hxx
          | op h => exact absurd hxx.symm (ops_ascii _ h).1
          | dots => cases hxx
          | illegal _ h => exact absurd hxx.symm h
        subst h1
        obtain ⟨h2, h3⟩ := gap_semi hg rfl
        simp only [List.append_nil]
        exact getLast_app (hsemi h2) (last_ne_of h3)
      · left
        have := List.length_pos_iff.mpr hx
        simp only [List.length_append] at this ⊢
        omega
    · have := ih (pre ++ (g ++ x)) (by simp [hpre]; omega) (by
        intro h
        simp only [Bool.and_eq_true] at h
        obtain ⟨rfl, _⟩ := h
        have h1 := semi_text_end ht rfl
        by_cases hx : x = []
        · subst hx
          generalize hxx : ([] : Str) = xx at ht
          generalize hs : true = s2 at ht
          cases ht with
          | ident h => exact absurd hxx.symm h
          | int h => cases h <;> cases hxx
          | float h =>
            subst hxx
            generalize hyy : ([] : Str) = yy at h
            cases h with
            | frac => simp at hyy
            | exp _ h => simp [h] at hyy
          | imag h =>
            subst hxx
            generalize hyy : ([] : Str) = yy at h
            cases h <;> simp at hyy
          | char h => obtain ⟨_, h⟩ := h; rw [← hxx] at h; cases h
          | string h => obtain ⟨_, h⟩ := h; rw [← hxx] at h; cases h
          | raw h => obtain ⟨_, h⟩ := h; rw [← hxx] at h; cases h
          | comment _ h => cases h <;> cases hxx
          | op h => exact absurd hxx.symm (ops_ascii _ h).1
          | illegal _ h => exact absurd hxx.symm h
          | _ => cases hs
        · rw [← List.append_assoc, List.getLast?_append_of_ne_nil _ hx]; exact h1) u hu
      simp only [List.length_append, List.append_assoc] at this ⊢
      rcases this with h | h
      · left; omega
      · exact .inr h

theorem nextLines_spec (n : Nat) (s : Str) : (s.count 10 < n ∧ nextLines s n = s.length) ∨
    (nextLines s n ≤ s.length ∧ (s.take (nextLines s n)).count 10 = n ∧ (n = 0 ∨ (s.take (nextLines s n)).getLast? = some 10)) := by
  induction s generalizing n with
  | nil =>
    cases n with
    | zero => simp [nextLines]
    | succ n => simp [nextLines]
  | cons b s ih =>
    cases n with
    | zero => right; simp [nextLines]
    | succ n =>
      rw [nextLines]
      by_cases hb : b = 10
      · subst hb
        rw [if_pos rfl]
        rcases ih n with ⟨h1, h2⟩ | ⟨h1, h2, h3⟩
        · left; simp [h2]; omega
        · right
          rw [Nat.add_comm 1, List.take_succ_cons]
          refine ⟨by simp; omega, by simp [h2], .inr ?_⟩
          rcases h3 with rfl | h3
          · simp [nextLines]
          · rw [List.getLast?_cons, h3]; rfl
      · rw [if_neg hb]
        rcases ih (n + 1) with ⟨h1, h2⟩ | ⟨h1, h2, h3⟩
        · left; simp [h2, List.count_cons, hb]; omega
        · right
          rw [Nat.add_comm 1, List.take_succ_cons]
          refine ⟨by simp; omega, by simp [h2, List.count_cons, hb], .inr ?_⟩
          rcases h3 with h3 | h3
          · omega
          · rw [List.getLast?_cons, h3]; rfl

/-! ### Where a failure comes from -/

section
variable {A σ V P : Type} {env : Env A} {sem : Sem A σ V P}

/-- The error is that of a grammar failing at a place behind the start of `src`. -/
def FromAt (env : Env A) (sem : Sem A σ V P) (src : List Token) (e : Err A) : Prop :=
  e = .varNotAssigned ∨ ∃ g' src', src' <:+ src ∧ e = mismatch g' src' ∧ ∃ s1 n s2, Eval env sem g' src' s1 (.fail n e s2)

theorem FromAt.mono {src src' : List Token} (hs : src' <:+ src) {e : Err A} (h : FromAt env sem src' e) : FromAt env sem src e := by
  rcases h with h | ⟨g', s', h1, h2⟩
  · exact .inl h
  · exact .inr ⟨g', s', h1.trans hs, h2⟩

theorem AndRun.from {E : Gr A → List Token → St σ → Res A σ P → Prop} {all : Gr A} {src : List Token} {gs ff k s r}
    (h : AndRun E all src gs ff k s r) (hE : ∀ g src s n e s', E g src s (.fail n e s') → FromAt env sem src e) :
    ∀ n e s', r = .fail n e s' → FromAt env sem src e := by
  induction h with
  | nil | cut | panic | slice => intro n e s' h; cases h
  | mark _ ih => exact ih
  | ok _ _ _ _ ih => exact ih
  | fail _ _ h1 => intro n e s' h; cases h; exact (hE _ _ _ _ _ _ h1).mono (List.drop_suffix _ _)

theorem OrRun.from {E : Gr A → List Token → St σ → Res A σ P → Prop} {all : Gr A} {src : List Token} {gs a b c s r}
    (h : OrRun E all src gs a b c s r) (hE : ∀ g src s n e s', E g src s (.fail n e s') → FromAt env sem src e)
    (hb : ∀ e, b = some e → FromAt env sem src e) :
    ∀ n e s', r = .fail n e s' → e = mismatch all src ∨ FromAt env sem src e := by
  induction h with
  | multi => intro n e s' h; cases h; exact .inl rfl
  | single => intro n e s' h; cases h; exact .inr (hb _ rfl)
  | none | ok | panic => intro n e s' h; cases h
  | same _ _ ih => exact ih hb
  | more h1 _ _ ih => exact ih (fun e he => by cases he; exact hE _ _ _ _ _ _ h1)
  | less _ _ _ ih => exact ih hb

/-- An error is that of a grammar which fails at the place the error names. -/
theorem matchG_from : ∀ f g src s n (e : Err A) s', matchG env sem f g src s = some (.fail n e s') → FromAt env sem src e := by
  intro f
  induction f with
  | zero => intro g src s n e s' h; cases h
  | succ f ih =>
    intro g src s n e s' h
    have self : ∀ g', g = g' → e = mismatch g src → FromAt env sem src e := by
      rintro g' rfl he
      exact .inr ⟨g, src, List.suffix_refl _, he, s, n, s', f + 1, h⟩
    cases g with
    | nil => cases h
    | tok k =>
      refine self _ rfl ?_
      simp only [matchG, matchStep] at h
      cases src with
      | nil => cases h; rfl
      | cons t src => dsimp only at h; split at h <;> cases h; rfl
    | tru => cases h
    | eof => refine self _ rfl ?_; cases src <;> cases h; rfl
    | peek g =>
      refine self _ rfl ?_
      simp only [matchG, matchStep] at h
      cases hm : matchG env sem f g src s with
      | none => rw [hm] at h; cases h
      | some r1 => rw [hm] at h; cases r1 <;> cases h; rfl
    | not g =>
      refine self _ rfl ?_
      simp only [matchG, matchStep] at h
      cases hm : matchG env sem f g src s with
      | none => rw [hm] at h; cases h
      | some r1 => rw [hm] at h; cases r1 <;> cases h; rfl
    | and gs => exact (andLoop_iff.mp h).from (fun g src s n e s' h => ih g src s n e s' h) _ _ _ rfl
    | or gs =>
      rcases (orLoop_iff.mp h).from (fun g src s n e s' h => ih g src s n e s' h) (by intro e h; cases h) _ _ _ rfl with h1 | h1
      · exact self _ rfl h1
      · exact h1
    | rep0 id g =>
      simp only [matchG, matchStep] at h
      cases hm : repLoop (matchG env sem f) g f src 0 0 s with
      | none => rw [hm] at h; cases h
      | some r1 => rw [hm] at h; cases r1 <;> cases h
    | rep1 id g =>
      simp only [matchG, matchStep] at h
      cases hm : matchG env sem f g src s with
      | none => rw [hm] at h; cases h
      | some r1 =>
        rw [hm] at h
        cases r1 with
        | fail n er s1 => cases h; exact ih _ _ _ _ _ _ hm
        | panic p s1 => cases h
        | ok n s1 =>
          dsimp only at h
          split at h
          · cases hl : repLoop (matchG env sem f) g f (src.drop n) 0 0 s1 with
            | none => rw [hl] at h; cases h
            | some r2 => rw [hl] at h; cases r2 <;> cases h
          · cases h
    | rep01 id g =>
      simp only [matchG, matchStep] at h
      cases hm : matchG env sem f g src s with
      | none => rw [hm] at h; cases h
      | some r1 => rw [hm] at h; cases r1 <;> cases h
    | list id a b l0 =>
      simp only [matchG, matchStep] at h
      cases hm : matchG env sem f a src s with
      | none => rw [hm] at h; cases h
      | some r1 =>
        rw [hm] at h
        cases r1 with
        | fail n er s1 => cases l0 <;> cases h; exact ih _ _ _ _ _ _ hm
        | panic p s1 => cases h
        | ok n s1 =>
          dsimp only at h
          split at h
          · cases hl : repLoop (matchG env sem f) (.and [b, a]) f (src.drop n) n 1 s1 with
            | none => rw [hl] at h; cases h
            | some r2 => rw [hl] at h; cases r2 <;> cases h
          · cases h
    | var v =>
      simp only [matchG, matchStep] at h
      cases hv : env v with
      | none => rw [hv] at h; cases h; exact .inl rfl
      | some g => rw [hv] at h; exact ih _ _ _ _ _ _ h
    | named nm g => exact ih g _ _ _ _ _ h
    | action a g =>
      simp only [matchG, matchStep] at h
      cases hm : matchG env sem f g src s with
      | none => rw [hm] at h; cases h
      | some r1 =>
        rw [hm] at h
        cases r1 with
        | fail n er s1 => cases h; exact ih _ _ _ _ _ _ hm
        | panic p s1 => cases h
        | ok n s1 =>
          dsimp only at h
          split at h
          · split at h <;> cases h
          · cases h
    | trans t g =>
      simp only [matchG, matchStep] at h
      cases hst : sem.start t s with
      | panic p s1 => rw [hst] at h; cases h
      | ok v s2 =>
        rw [hst] at h
        dsimp only at h
        cases hm : matchG env sem f g src s2 with
        | none => rw [hm] at h; cases h
        | some r1 =>
          rw [hm] at h
          cases r1 with
          | panic p s1 => cases h
          | ok n s1 => dsimp only at h; split at h <;> cases h
          | fail n e s1 => dsimp only at h; split at h <;> cases h; exact ih _ _ _ _ _ _ hm
end

end Tpl
