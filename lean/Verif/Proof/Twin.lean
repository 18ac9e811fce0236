import Verif.Spec.Order
import Verif.Proof.Share
import Verif.Proof.ShareCl
import Verif.Proof.Trace

/-! Grammars that refer to the same rules, by variables or directly. -/
namespace Tpl
open Spec
variable {A B σ V P : Type}

/-- The grammar is a reference to a rule. -/
def IsRef (g : Gr B) : Prop := (∃ n x, g = .named n x) ∨ ∃ v, g = .var v

mutual
/-- The same grammar twice: kinds of tokens (`R`), cells, the names of rules and the way rules are referred to
(`Q`) may differ. -/
inductive Akin (R : Nat → Nat → Prop) (Q : Gr B → Gr B → Prop) : Gr B → Gr B → Prop
  | nil : Akin R Q .nil .nil
  | tok {a b} : R a b → Akin R Q (.tok a) (.tok b)
  | tru : Akin R Q .tru .tru
  | peek {g g'} : Akin R Q g g' → Akin R Q (.peek g) (.peek g')
  | not {g g'} : Akin R Q g g' → Akin R Q (.not g) (.not g')
  | and {gs gs'} : Akins R Q gs gs' → Akin R Q (.and gs) (.and gs')
  | or {gs gs'} : Akins R Q gs gs' → Akin R Q (.or gs) (.or gs')
  | rep0 {i i' g g'} : Akin R Q g g' → Akin R Q (.rep0 i g) (.rep0 i' g')
  | rep1 {i i' g g'} : Akin R Q g g' → Akin R Q (.rep1 i g) (.rep1 i' g')
  | rep01 {i i' g g'} : Akin R Q g g' → Akin R Q (.rep01 i g) (.rep01 i' g')
  | list {i i' a b a' b' l} : Akin R Q a a' → Akin R Q b b' → Akin R Q (.list i a b l) (.list i' a' b' l)
  | action {a g g'} : Akin R Q g g' → Akin R Q (.action a g) (.action a g')
  | trans {a g g'} : Akin R Q g g' → Akin R Q (.trans a g) (.trans a g')
  | named {n n' g g'} : Akin R Q g g' → Akin R Q (.named n g) (.named n' g')
  | ref {g g'} : IsRef g → IsRef g' → Q g g' → Akin R Q g g'
inductive Akins (R : Nat → Nat → Prop) (Q : Gr B → Gr B → Prop) : List (Gr B) → List (Gr B) → Prop
  | nil : Akins R Q [] []
  | cons {g g' gs gs'} : Akin R Q g g' → Akins R Q gs gs' → Akins R Q (g :: gs) (g' :: gs')
end

variable {R : Nat → Nat → Prop} {Q : Gr B → Gr B → Prop}

theorem Akins.len {gs gs' : List (Gr B)} (h : Akins R Q gs gs') : gs.length = gs'.length := by
  induction gs generalizing gs' with
  | nil => cases h; rfl
  | cons g gs ih => cases h with
    | cons _ h => simp [ih h]

theorem Akin.nil_iff {g g' : Gr B} (h : Akin R Q g g') : g = .nil ↔ g' = .nil := by
  cases h with
  | nil => simp
  | ref h1 h2 _ =>
    rcases h1 with ⟨_, _, rfl⟩ | ⟨_, rfl⟩ <;> rcases h2 with ⟨_, _, rfl⟩ | ⟨_, rfl⟩ <;> simp
  | _ => simp

section inversions


theorem alike_nil {y : Gr B} (h : Akin R Q .nil y) : y = .nil := h.nil_iff.mp rfl
theorem alike_tok {a : Nat} {y : Gr B} (h : Akin R Q (.tok a) y) : ∃ b, y = .tok b ∧ R a b := by
  cases h with
  | tok h => exact ⟨_, rfl, h⟩
  | ref h1 _ _ => rcases h1 with ⟨_, _, h⟩ | ⟨_, h⟩ <;> cases h
theorem alike_tru {y : Gr B} (h : Akin R Q .tru y) : y = .tru := by
  cases h with
  | tru => rfl
  | ref h1 _ _ => rcases h1 with ⟨_, _, h⟩ | ⟨_, h⟩ <;> cases h
theorem alike_eof {y : Gr B} (h : Akin R Q .eof y) : False := by
  cases h with
  | ref h1 _ _ => rcases h1 with ⟨_, _, h⟩ | ⟨_, h⟩ <;> cases h
theorem alike_peek {g y : Gr B} (h : Akin R Q (.peek g) y) : ∃ g', y = .peek g' ∧ Akin R Q g g' := by
  cases h with
  | peek h => exact ⟨_, rfl, h⟩
  | ref h1 _ _ => rcases h1 with ⟨_, _, h⟩ | ⟨_, h⟩ <;> cases h
theorem alike_not {g y : Gr B} (h : Akin R Q (.not g) y) : ∃ g', y = .not g' ∧ Akin R Q g g' := by
  cases h with
  | not h => exact ⟨_, rfl, h⟩
  | ref h1 _ _ => rcases h1 with ⟨_, _, h⟩ | ⟨_, h⟩ <;> cases h
theorem alike_and {gs : List (Gr B)} {y : Gr B} (h : Akin R Q (.and gs) y) : ∃ gs', y = .and gs' ∧ Akins R Q gs gs' := by
  cases h with
  | and h => exact ⟨_, rfl, h⟩
  | ref h1 _ _ => rcases h1 with ⟨_, _, h⟩ | ⟨_, h⟩ <;> cases h
theorem alike_or {gs : List (Gr B)} {y : Gr B} (h : Akin R Q (.or gs) y) : ∃ gs', y = .or gs' ∧ Akins R Q gs gs' := by
  cases h with
  | or h => exact ⟨_, rfl, h⟩
  | ref h1 _ _ => rcases h1 with ⟨_, _, h⟩ | ⟨_, h⟩ <;> cases h
theorem alike_rep0 {i : Nat} {g y : Gr B} (h : Akin R Q (.rep0 i g) y) : ∃ i' g', y = .rep0 i' g' ∧ Akin R Q g g' := by
  cases h with
  | rep0 h => exact ⟨_, _, rfl, h⟩
  | ref h1 _ _ => rcases h1 with ⟨_, _, h⟩ | ⟨_, h⟩ <;> cases h
theorem alike_rep1 {i : Nat} {g y : Gr B} (h : Akin R Q (.rep1 i g) y) : ∃ i' g', y = .rep1 i' g' ∧ Akin R Q g g' := by
  cases h with
  | rep1 h => exact ⟨_, _, rfl, h⟩
  | ref h1 _ _ => rcases h1 with ⟨_, _, h⟩ | ⟨_, h⟩ <;> cases h
theorem alike_rep01 {i : Nat} {g y : Gr B} (h : Akin R Q (.rep01 i g) y) : ∃ i' g', y = .rep01 i' g' ∧ Akin R Q g g' := by
  cases h with
  | rep01 h => exact ⟨_, _, rfl, h⟩
  | ref h1 _ _ => rcases h1 with ⟨_, _, h⟩ | ⟨_, h⟩ <;> cases h
theorem alike_list {i : Nat} {a b y : Gr B} {l : Bool} (h : Akin R Q (.list i a b l) y) :
    ∃ i' a' b', y = .list i' a' b' l ∧ Akin R Q a a' ∧ Akin R Q b b' := by
  cases h with
  | list h h' => exact ⟨_, _, _, rfl, h, h'⟩
  | ref h1 _ _ => rcases h1 with ⟨_, _, h⟩ | ⟨_, h⟩ <;> cases h
theorem alike_action {a : B} {g y : Gr B} (h : Akin R Q (.action a g) y) : ∃ g', y = .action a g' ∧ Akin R Q g g' := by
  cases h with
  | action h => exact ⟨_, rfl, h⟩
  | ref h1 _ _ => rcases h1 with ⟨_, _, h⟩ | ⟨_, h⟩ <;> cases h
theorem alike_trans {a : B} {g y : Gr B} (h : Akin R Q (.trans a g) y) : ∃ g', y = .trans a g' ∧ Akin R Q g g' := by
  cases h with
  | trans h => exact ⟨_, rfl, h⟩
  | ref h1 _ _ => rcases h1 with ⟨_, _, h⟩ | ⟨_, h⟩ <;> cases h
theorem alike_var {v : Nat} {y : Gr B} (h : Akin R Q (.var v) y) : Q (.var v) y := by
  cases h with
  | ref _ _ h => exact h
theorem alike_named {n : Str} {g y : Gr B} (h : Akin R Q (.named n g) y) : (∃ n' g', y = .named n' g' ∧ Akin R Q g g') ∨ Q (.named n g) y := by
  cases h with
  | named h => exact .inl ⟨_, _, rfl, h⟩
  | ref _ _ h => exact .inr h
end inversions

theorem sameToks_mono {R R' Q : Nat → Nat → Prop} (hR : ∀ a b, R a b → R' a b) {ts ts' : List Token} (h : SameToks R Q ts ts') : SameToks R' Q ts ts' := by
  induction h with
  | nil => exact .nil
  | cons h1 h2 _ ih => exact .cons (hR _ _ h1) h2 ih

/-! ### Matching -/

/-- The grammar is a reference that leads to `x`. -/
def Leads (env : Env B) (g x : Gr B) : Prop := (∃ n, g = .named n x) ∨ ∃ v, g = .var v ∧ env v = some x

/-- References lead to grammars that are alike, or nowhere. -/
structure Linked (env env' : Env B) (R : Nat → Nat → Prop) (Q : Gr B → Gr B → Prop) : Prop where
  kinds : KindRel R
  rules : ∀ g g', Q g g' → (∃ v v', g = .var v ∧ g' = .var v' ∧ env v = none ∧ env' v' = none) ∨ ∃ x x', Leads env g x ∧ Leads env' g' x' ∧ Akin R Q x x'

theorem leads_tr {env : Env B} {g x : Gr B} (h : Leads env g x) {src o e} (h' : Tr env (.one x) src o e) : Tr env (.one g) src (o.withLen (-1)) e := by
  rcases h with ⟨n, rfl⟩ | ⟨v, rfl, hv⟩
  · exact .named h'
  · exact .var hv h'

def JobAlike (R : Nat → Nat → Prop) (Q : Gr B → Gr B → Prop) : Job B → Job B → Prop
  | .one g, .one g' => Akin R Q g g'
  | .seq gs c, .seq gs' c' => Akins R Q gs gs' ∧ c = c'
  | .alt gs, .alt gs' => Akins R Q gs gs'
  | .many g, .many g' => Akin R Q g g'
  | _, _ => False

theorem Spec.SameEvs.append {R : Nat → Nat → Prop} {a a' b b' : List (Ev A)} (h : SameEvs R a a') (h' : SameEvs R b b') : SameEvs R (a ++ b) (a' ++ b') := by
  induction h with
  | nil => exact h'
  | cons h1 _ ih => exact .cons h1 ih


theorem Spec.SameEvs.snoc {R : Nat → Nat → Prop} {a a' : List (Ev A)} {x y : Ev A} (h : SameEvs R a a') (h' : SameEv R x y) : SameEvs R (a ++ [x]) (a' ++ [y]) :=
  h.append (.cons h' .nil)

theorem fits_same {R : Nat → Nat → Prop} (hR : KindRel R) {k k' a b pos pos' : Nat} {lit lit' : Str} (hk : R k k') (ht : R a b) :
    Fits k ⟨a, pos, lit⟩ ↔ Fits k' ⟨b, pos', lit'⟩ := by
  unfold Fits
  rw [hR.inj ht hk, hR.int ht, hR.float hk]

section transfer
variable {env env' : Env B}

/-- What is proved of every trace. -/
def Moves (env' : Env B) (R : Nat → Nat → Prop) (Q : Gr B → Gr B → Prop) (j : Job B) (src : List Token) (o : Out) (e : List (Ev B)) : Prop :=
  ∀ j' src', JobAlike R Q j j' → SameToks R Eq src src' →
    ∃ e', Tr env' j' src' o e' ∧ SameEvs R e e'

theorem moves_one {g : Gr B} {src o e} (h : ∀ g' src', Akin R Q g g' → SameToks R Eq src src' →
    ∃ e', Tr env' (.one g') src' o e' ∧ SameEvs R e e') : Moves env' R Q (.one g) src o e := by
  intro j' src' hj hs
  cases j' with
  | one g' => exact h g' src' hj hs
  | seq => exact hj.elim
  | alt => exact hj.elim
  | many => exact hj.elim

theorem moves_seq {gs : List (Gr B)} {c src o e} (h : ∀ gs' src', Akins R Q gs gs' → SameToks R Eq src src' →
    ∃ e', Tr env' (.seq gs' c) src' o e' ∧ SameEvs R e e') : Moves env' R Q (.seq gs c) src o e := by
  intro j' src' hj hs
  cases j' with
  | seq gs' c' => obtain ⟨h1, rfl⟩ := hj; exact h gs' src' h1 hs
  | one => exact hj.elim
  | alt => exact hj.elim
  | many => exact hj.elim

theorem moves_alt {gs : List (Gr B)} {src o e} (h : ∀ gs' src', Akins R Q gs gs' → SameToks R Eq src src' →
    ∃ e', Tr env' (.alt gs') src' o e' ∧ SameEvs R e e') : Moves env' R Q (.alt gs) src o e := by
  intro j' src' hj hs
  cases j' with
  | alt gs' => exact h gs' src' hj hs
  | one => exact hj.elim
  | seq => exact hj.elim
  | many => exact hj.elim

theorem moves_many {g : Gr B} {src o e} (h : ∀ g' src', Akin R Q g g' → SameToks R Eq src src' →
    ∃ e', Tr env' (.many g') src' o e' ∧ SameEvs R e e') : Moves env' R Q (.many g) src o e := by
  intro j' src' hj hs
  cases j' with
  | many g' => exact h g' src' hj hs
  | one => exact hj.elim
  | seq => exact hj.elim
  | alt => exact hj.elim

/-- A trace of one table is a trace of the other. -/
theorem transfer (ht : Linked env env' R Q) {j : Job B} {src o e} (h : Tr env j src o e) : Moves env' R Q j src o e := by
  have hR := ht.kinds
  induction h with
  | nil =>
    refine moves_one fun g' src' hg hs => ?_
    rw [alike_nil hg]; exact ⟨[], .nil, .nil⟩
  | tok hk =>
    refine moves_one fun g' src' hg hs => ?_
    obtain ⟨b, rfl, hb⟩ := alike_tok hg
    cases hs with
    | cons h1 h2 h3 => exact ⟨[], .tok ((fits_same hR hb h1).mp hk), .nil⟩
  | tokNot hk =>
    refine moves_one fun g' src' hg hs => ?_
    obtain ⟨b, rfl, hb⟩ := alike_tok hg
    cases hs with
    | cons h1 h2 h3 => exact ⟨[], .tokNot (fun h => hk ((fits_same hR hb h1).mpr h)), .nil⟩
  | tokEnd =>
    refine moves_one fun g' src' hg hs => ?_
    obtain ⟨b, rfl, hb⟩ := alike_tok hg
    cases hs
    exact ⟨[], .tokEnd, .nil⟩
  | tru =>
    refine moves_one fun g' src' hg hs => ?_
    rw [alike_tru hg]; exact ⟨[], .tru, .nil⟩
  | eof => exact moves_one fun g' src' hg hs => (alike_eof hg).elim
  | eofNot => exact moves_one fun g' src' hg hs => (alike_eof hg).elim
  | peek _ ih =>
    refine moves_one fun g' src' hg hs => ?_
    obtain ⟨g1, rfl, hg1⟩ := alike_peek hg
    obtain ⟨e', h1, h2⟩ := ih (.one g1) src' hg1 hs
    exact ⟨e', .peek h1, h2⟩
  | peekNot _ ih =>
    refine moves_one fun g' src' hg hs => ?_
    obtain ⟨g1, rfl, hg1⟩ := alike_peek hg
    obtain ⟨e', h1, h2⟩ := ih (.one g1) src' hg1 hs
    exact ⟨e', .peekNot h1, h2⟩
  | peekAbort _ ih =>
    refine moves_one fun g' src' hg hs => ?_
    obtain ⟨g1, rfl, hg1⟩ := alike_peek hg
    obtain ⟨e', h1, h2⟩ := ih (.one g1) src' hg1 hs
    exact ⟨e', .peekAbort h1, h2⟩
  | not _ ih =>
    refine moves_one fun g' src' hg hs => ?_
    obtain ⟨g1, rfl, hg1⟩ := alike_not hg
    obtain ⟨e', h1, h2⟩ := ih (.one g1) src' hg1 hs
    exact ⟨e', .not h1, h2⟩
  | notNot _ ih =>
    refine moves_one fun g' src' hg hs => ?_
    obtain ⟨g1, rfl, hg1⟩ := alike_not hg
    obtain ⟨e', h1, h2⟩ := ih (.one g1) src' hg1 hs
    exact ⟨e', .notNot h1, h2⟩
  | notAbort _ ih =>
    refine moves_one fun g' src' hg hs => ?_
    obtain ⟨g1, rfl, hg1⟩ := alike_not hg
    obtain ⟨e', h1, h2⟩ := ih (.one g1) src' hg1 hs
    exact ⟨e', .notAbort h1, h2⟩
  | rep1Fail _ ih =>
    refine moves_one fun g' src' hg hs => ?_
    obtain ⟨i1, g1, rfl, hg1⟩ := alike_rep1 hg
    obtain ⟨e', h1, h2⟩ := ih (.one g1) src' hg1 hs
    exact ⟨e', .rep1Fail h1, h2⟩
  | rep1Abort _ ih =>
    refine moves_one fun g' src' hg hs => ?_
    obtain ⟨i1, g1, rfl, hg1⟩ := alike_rep1 hg
    obtain ⟨e', h1, h2⟩ := ih (.one g1) src' hg1 hs
    exact ⟨e', .rep1Abort h1, h2⟩
  | opt _ ih =>
    refine moves_one fun g' src' hg hs => ?_
    obtain ⟨i1, g1, rfl, hg1⟩ := alike_rep01 hg
    obtain ⟨e', h1, h2⟩ := ih (.one g1) src' hg1 hs
    exact ⟨e', .opt h1, h2⟩
  | optNone _ ih =>
    refine moves_one fun g' src' hg hs => ?_
    obtain ⟨i1, g1, rfl, hg1⟩ := alike_rep01 hg
    obtain ⟨e', h1, h2⟩ := ih (.one g1) src' hg1 hs
    exact ⟨e', .optNone h1, h2⟩
  | optAbort _ ih =>
    refine moves_one fun g' src' hg hs => ?_
    obtain ⟨i1, g1, rfl, hg1⟩ := alike_rep01 hg
    obtain ⟨e', h1, h2⟩ := ih (.one g1) src' hg1 hs
    exact ⟨e', .optAbort h1, h2⟩
  | list0 _ ih =>
    refine moves_one fun g' src' hg hs => ?_
    obtain ⟨i1, g1, b1, rfl, hg1, hb1⟩ := alike_list hg
    obtain ⟨e', h1, h2⟩ := ih (.one g1) src' hg1 hs
    exact ⟨e', .list0 h1, h2⟩
  | listFail _ ih =>
    refine moves_one fun g' src' hg hs => ?_
    obtain ⟨i1, g1, b1, rfl, hg1, hb1⟩ := alike_list hg
    obtain ⟨e', h1, h2⟩ := ih (.one g1) src' hg1 hs
    exact ⟨e', .listFail h1, h2⟩
  | listAbort _ ih =>
    refine moves_one fun g' src' hg hs => ?_
    obtain ⟨i1, g1, b1, rfl, hg1, hb1⟩ := alike_list hg
    obtain ⟨e', h1, h2⟩ := ih (.one g1) src' hg1 hs
    exact ⟨e', .listAbort h1, h2⟩
  | actionFail _ ih =>
    refine moves_one fun g' src' hg hs => ?_
    obtain ⟨g1, rfl, hg1⟩ := alike_action hg
    obtain ⟨e', h1, h2⟩ := ih (.one g1) src' hg1 hs
    exact ⟨e', .actionFail h1, h2⟩
  | actionAbort _ ih =>
    refine moves_one fun g' src' hg hs => ?_
    obtain ⟨g1, rfl, hg1⟩ := alike_action hg
    obtain ⟨e', h1, h2⟩ := ih (.one g1) src' hg1 hs
    exact ⟨e', .actionAbort h1, h2⟩
  | and _ ih =>
    refine moves_one fun g' src' hg hs => ?_
    obtain ⟨gs1, rfl, hg1⟩ := alike_and hg
    obtain ⟨e', h1, h2⟩ := ih (.seq gs1 false) src' ⟨hg1, rfl⟩ hs
    exact ⟨e', hg1.len ▸ .and h1, h2⟩
  | or _ ih =>
    refine moves_one fun g' src' hg hs => ?_
    obtain ⟨gs1, rfl, hg1⟩ := alike_or hg
    obtain ⟨e', h1, h2⟩ := ih (.alt gs1) src' hg1 hs
    exact ⟨e', hg1.len ▸ .or h1, h2⟩
  | rep0 _ ih =>
    refine moves_one fun g' src' hg hs => ?_
    obtain ⟨i1, g1, rfl, hg1⟩ := alike_rep0 hg
    obtain ⟨e', h1, h2⟩ := ih (.many g1) src' hg1 hs
    exact ⟨e', .rep0 h1, h2⟩
  | rep1 _ _ ih ih' =>
    refine moves_one fun g' src' hg hs => ?_
    obtain ⟨i1, g1, rfl, hg1⟩ := alike_rep1 hg
    obtain ⟨e1, h1, h2⟩ := ih (.one g1) src' hg1 hs
    obtain ⟨e2, h3, h4⟩ := ih' (.many g1) _ hg1 (hs.drop _)
    exact ⟨_, .rep1 h1 h3, h2.append h4⟩
  | list _ _ ih ih' =>
    refine moves_one fun g' src' hg hs => ?_
    obtain ⟨i1, g1, b1, rfl, hg1, hb1⟩ := alike_list hg
    obtain ⟨e1, h1, h2⟩ := ih (.one g1) src' hg1 hs
    obtain ⟨e2, h3, h4⟩ := ih' (.many (.and [b1, g1])) _ (.and (.cons hb1 (.cons hg1 .nil))) (hs.drop _)
    exact ⟨_, .list h1 h3, h2.append h4⟩
  | varNone hv =>
    refine moves_one fun g' src' hg hs => ?_
    rcases ht.rules _ _ (alike_var hg) with ⟨v, v', h1, rfl, _, h3⟩ | ⟨x, x', h1, _, _⟩
    · exact ⟨[], .varNone h3, .nil⟩
    · rcases h1 with ⟨_, h1⟩ | ⟨v, h1, h2⟩
      · cases h1
      · cases h1; rw [hv] at h2; cases h2
  | var hv _ ih =>
    refine moves_one fun g' src' hg hs => ?_
    rcases ht.rules _ _ (alike_var hg) with ⟨v, v', h1, rfl, h2, h3⟩ | ⟨x, x', h1, hd, hx⟩
    · cases h1; rw [hv] at h2; cases h2
    · rcases h1 with ⟨_, h1⟩ | ⟨v, h1, h2⟩
      · cases h1
      · cases h1
        rw [hv] at h2
        cases h2
        obtain ⟨e', h3, h4⟩ := ih (.one x') src' hx hs
        exact ⟨e', leads_tr hd h3, h4⟩
  | named _ ih =>
    refine moves_one fun g' src' hg hs => ?_
    rcases alike_named hg with ⟨n', g1, rfl, hg1⟩ | hq
    · obtain ⟨e', h3, h4⟩ := ih (.one g1) src' hg1 hs
      exact ⟨e', .named h3, h4⟩
    · rcases ht.rules _ _ hq with ⟨v, v', h1, _⟩ | ⟨x, x', h1, hd, hx⟩
      · cases h1
      · rcases h1 with ⟨_, h1⟩ | ⟨v, h1, h2⟩
        · cases h1
          obtain ⟨e', h3, h4⟩ := ih (.one x') src' hx hs
          exact ⟨e', leads_tr hd h3, h4⟩
        · cases h1
  | action _ ih =>
    refine moves_one fun g' src' hg hs => ?_
    obtain ⟨g1, rfl, hg1⟩ := alike_action hg
    obtain ⟨e', h1, h2⟩ := ih (.one g1) src' hg1 hs
    exact ⟨_, .action h1, h2.snoc (.act (hs.take _))⟩
  | actionStop _ ih =>
    refine moves_one fun g' src' hg hs => ?_
    obtain ⟨g1, rfl, hg1⟩ := alike_action hg
    obtain ⟨e', h1, h2⟩ := ih (.one g1) src' hg1 hs
    exact ⟨_, .actionStop h1, h2.snoc (.act (hs.take _))⟩
  | trans _ ih =>
    refine moves_one fun g' src' hg hs => ?_
    obtain ⟨g1, rfl, hg1⟩ := alike_trans hg
    obtain ⟨e', h1, h2⟩ := ih (.one g1) src' hg1 hs
    exact ⟨_, .trans h1, .cons .opens (h2.snoc .closes)⟩
  | transFail _ ih =>
    refine moves_one fun g' src' hg hs => ?_
    obtain ⟨g1, rfl, hg1⟩ := alike_trans hg
    obtain ⟨e', h1, h2⟩ := ih (.one g1) src' hg1 hs
    exact ⟨_, .transFail h1, .cons .opens (h2.snoc .closes)⟩
  | transStopOk _ ih =>
    refine moves_one fun g' src' hg hs => ?_
    obtain ⟨g1, rfl, hg1⟩ := alike_trans hg
    obtain ⟨e', h1, h2⟩ := ih (.one g1) src' hg1 hs
    exact ⟨_, .transStopOk h1, .cons .opens (h2.snoc .closes)⟩
  | transStopFail _ ih =>
    refine moves_one fun g' src' hg hs => ?_
    obtain ⟨g1, rfl, hg1⟩ := alike_trans hg
    obtain ⟨e', h1, h2⟩ := ih (.one g1) src' hg1 hs
    exact ⟨_, .transStopFail h1, .cons .opens (h2.snoc .closes)⟩
  | transAbort _ ih =>
    refine moves_one fun g' src' hg hs => ?_
    obtain ⟨g1, rfl, hg1⟩ := alike_trans hg
    obtain ⟨e', h1, h2⟩ := ih (.one g1) src' hg1 hs
    exact ⟨_, .transAbort h1, .cons .opens h2⟩
  | transStop =>
    refine moves_one fun g' src' hg hs => ?_
    obtain ⟨g1, rfl, hg1⟩ := alike_trans hg
    exact ⟨_, .transStop, .cons .opens .nil⟩
  | seqEnd =>
    refine moves_seq fun gs' src' hg hs => ?_
    cases hg
    exact ⟨_, .seqEnd, .nil⟩
  | seqMark _ ih =>
    refine moves_seq fun gs' src' hg hs => ?_
    cases hg with
    | cons hg hgs =>
      obtain ⟨e', h1, h2⟩ := ih (.seq _ true) src' ⟨hgs, rfl⟩ hs
      rw [alike_nil hg]
      exact ⟨_, .seqMark h1, h2⟩
  | seqNext hn _ _ ih ih' =>
    refine moves_seq fun gs' src' hg hs => ?_
    cases hg with
    | cons hg hgs =>
      obtain ⟨e1, h1, h2⟩ := ih (.one _) src' hg hs
      obtain ⟨e2, h3, h4⟩ := ih' (.seq _ _) _ ⟨hgs, rfl⟩ (hs.drop _)
      exact ⟨_, .seqNext (fun e => hn (hg.nil_iff.mpr e)) h1 h3, h2.append h4⟩
  | seqFail hn _ ih =>
    refine moves_seq fun gs' src' hg hs => ?_
    cases hg with
    | cons hg hgs =>
      obtain ⟨e1, h1, h2⟩ := ih (.one _) src' hg hs
      exact ⟨_, .seqFail (fun e => hn (hg.nil_iff.mpr e)) h1, h2⟩
  | seqCut hn _ ih =>
    refine moves_seq fun gs' src' hg hs => ?_
    cases hg with
    | cons hg hgs =>
      obtain ⟨e1, h1, h2⟩ := ih (.one _) src' hg hs
      exact ⟨_, .seqCut (fun e => hn (hg.nil_iff.mpr e)) h1, h2⟩
  | seqAbort hn _ ih =>
    refine moves_seq fun gs' src' hg hs => ?_
    cases hg with
    | cons hg hgs =>
      obtain ⟨e1, h1, h2⟩ := ih (.one _) src' hg hs
      exact ⟨_, .seqAbort (fun e => hn (hg.nil_iff.mpr e)) h1, h2⟩
  | altEnd =>
    refine moves_alt fun gs' src' hg hs => ?_
    cases hg
    exact ⟨_, .altEnd, .nil⟩
  | altHit _ ih =>
    refine moves_alt fun gs' src' hg hs => ?_
    cases hg with
    | cons hg hgs =>
      obtain ⟨e1, h1, h2⟩ := ih (.one _) src' hg hs
      exact ⟨_, .altHit h1, h2⟩
  | altNext _ _ ih ih' =>
    refine moves_alt fun gs' src' hg hs => ?_
    cases hg with
    | cons hg hgs =>
      obtain ⟨e1, h1, h2⟩ := ih (.one _) src' hg hs
      obtain ⟨e2, h3, h4⟩ := ih' (.alt _) _ hgs hs
      exact ⟨_, .altNext h1 h3, h2.append h4⟩
  | altAbort _ ih =>
    refine moves_alt fun gs' src' hg hs => ?_
    cases hg with
    | cons hg hgs =>
      obtain ⟨e1, h1, h2⟩ := ih (.one _) src' hg hs
      exact ⟨_, .altAbort h1, h2⟩
  | manyEnd _ ih =>
    refine moves_many fun g' src' hg hs => ?_
    obtain ⟨e1, h1, h2⟩ := ih (.one g') src' hg hs
    exact ⟨_, .manyEnd h1, h2⟩
  | manyMore _ _ ih ih' =>
    refine moves_many fun g' src' hg hs => ?_
    obtain ⟨e1, h1, h2⟩ := ih (.one g') src' hg hs
    obtain ⟨e2, h3, h4⟩ := ih' (.many g') _ hg (hs.drop _)
    exact ⟨_, .manyMore h1 h3, h2.append h4⟩
  | manyAbort _ ih =>
    refine moves_many fun g' src' hg hs => ?_
    obtain ⟨e1, h1, h2⟩ := ih (.one g') src' hg hs
    exact ⟨_, .manyAbort h1, h2⟩

end transfer

/-- Callbacks that look at texts only do the same. -/
theorem run_same {c : Calls A σ V P} (hc : TextOnly c) {R : Nat → Nat → Prop} {e e' : List (Ev A)} (h : SameEvs R e e') (st : σ × List V) :
    c.run e st = c.run e' st := by
  induction h generalizing st with
  | nil => rfl
  | @cons x y _ _ h1 _ ih =>
    have : c.step st x = c.step st y := by
      cases h1 with
      | act ht =>
        simp only [Calls.step]
        rw [hc _ _ _ _ _ _ _ (sameToks_mono (fun _ _ _ => trivial) ht)]
      | opens => rfl
      | closes => rfl
    unfold Calls.run
    rw [this]
    split
    · exact ih _
    · rfl


/-! ### Tables -/

/-- The grammar is a reference to the rule `n`. -/
def Refs (t : Tab B) (n : Str) (g : Gr B) : Prop :=
  (∃ x, g = .named n x ∧ t.grammars.lookup n = some x) ∨ ∃ v o, g = .var v ∧ t.vars[v]? = some (n, o)

/-- References to the same rule. -/
def BothRef (t t' : Tab B) (g g' : Gr B) : Prop := ∃ n, Refs t n g ∧ Refs t' n g'

/-- The same grammar in two tables. -/
abbrev Twin (t t' : Tab B) : Gr B → Gr B → Prop := Akin (SameKind t.scanner t'.scanner) (BothRef t t')
abbrev Twins (t t' : Tab B) : List (Gr B) → List (Gr B) → Prop := Akins (SameKind t.scanner t'.scanner) (BothRef t t')

theorem Refs.isRef {t : Tab B} {n : Str} {g : Gr B} (h : Refs t n g) : IsRef g := by
  rcases h with ⟨x, rfl, _⟩ | ⟨v, o, rfl, _⟩
  · exact .inl ⟨n, x, rfl⟩
  · exact .inr ⟨v, rfl⟩

theorem twin_ref {t t' : Tab B} {n : Str} {g g' : Gr B} (h : Refs t n g) (h' : Refs t' n g') : Twin t t' g g' := .ref h.isRef h'.isRef ⟨n, h, h'⟩

/-- Tables whose rules are the same. -/
structure Twinned (t t' : Tab B) : Prop where
  left : ∀ v : Nat, ∀ n o, t.vars[v]? = some (n, o) → o ≠ none
  right : ∀ v : Nat, ∀ n o, t'.vars[v]? = some (n, o) → o ≠ none
  rules : ∀ n x x', Def t n x → Def t' n x' → Twin t t' x x'
  kinds : KindRel (SameKind t.scanner t'.scanner)

/-- A reference leads to its rule. -/
theorem refs_leads {t : Tab B} (ha : ∀ v : Nat, ∀ n o, t.vars[v]? = some (n, o) → o ≠ none) {n : Str} {g : Gr B} (h : Refs t n g) :
    ∃ x, Def t n x ∧ Leads t.env g x := by
  rcases h with ⟨x, rfl, hl⟩ | ⟨v, o, rfl, hv⟩
  · exact ⟨x, .inl hl, .inl ⟨n, rfl⟩⟩
  · cases o with
    | none => exact absurd rfl (ha v n none hv)
    | some x => exact ⟨x, .inr ⟨v, hv⟩, .inr ⟨v, rfl, by unfold Tab.env; rw [hv]; rfl⟩⟩

theorem Twinned.linked {t t' : Tab B} (h : Twinned t t') : Linked t.env t'.env (SameKind t.scanner t'.scanner) (BothRef t t') := by
  refine ⟨h.kinds, ?_⟩
  rintro g g' ⟨n, h1, h2⟩
  obtain ⟨x, d, l⟩ := refs_leads h.left h1
  obtain ⟨x', d', l'⟩ := refs_leads h.right h2
  exact .inr ⟨x, x', l, l', h.rules n x x' d d'⟩

end Tpl
