import Verif.Proof.Group

/-! Grammars without marks and without references to rules: they match in one way only and call nothing. -/
namespace Tpl
open Spec
variable {B : Type} {env : Env B}

mutual
/-- The same grammar without marks and references, with other cells. -/
inductive Unmarked : Gr B → Gr B → Prop
  | nil : Unmarked .nil .nil
  | tok {a} : Unmarked (.tok a) (.tok a)
  | tru : Unmarked .tru .tru
  | peek {g g'} : Unmarked g g' → Unmarked (.peek g) (.peek g')
  | not {g g'} : Unmarked g g' → Unmarked (.not g) (.not g')
  | and {gs gs'} : UnmarkedL gs gs' → Unmarked (.and gs) (.and gs')
  | or {gs gs'} : UnmarkedL gs gs' → Unmarked (.or gs) (.or gs')
  | rep0 {i i' g g'} : Unmarked g g' → Unmarked (.rep0 i g) (.rep0 i' g')
  | rep1 {i i' g g'} : Unmarked g g' → Unmarked (.rep1 i g) (.rep1 i' g')
  | rep01 {i i' g g'} : Unmarked g g' → Unmarked (.rep01 i g) (.rep01 i' g')
  | list {i i' a b a' b' l} : Unmarked a a' → Unmarked b b' → Unmarked (.list i a b l) (.list i' a' b' l)
/-- One by one. -/
inductive UnmarkedL : List (Gr B) → List (Gr B) → Prop
  | nil : UnmarkedL [] []
  | cons {g g' gs gs'} : Unmarked g g' → UnmarkedL gs gs' → UnmarkedL (g :: gs) (g' :: gs')
end

mutual
theorem Unmarked.symm : ∀ {g g' : Gr B}, Unmarked g g' → Unmarked g' g
  | _, _, .nil => .nil
  | _, _, .tok => .tok
  | _, _, .tru => .tru
  | _, _, .peek h => .peek h.symm
  | _, _, .not h => .not h.symm
  | _, _, .and h => .and h.symm
  | _, _, .or h => .or h.symm
  | _, _, .rep0 h => .rep0 h.symm
  | _, _, .rep1 h => .rep1 h.symm
  | _, _, .rep01 h => .rep01 h.symm
  | _, _, .list h h' => .list h.symm h'.symm
theorem UnmarkedL.symm : ∀ {gs gs' : List (Gr B)}, UnmarkedL gs gs' → UnmarkedL gs' gs
  | _, _, .nil => .nil
  | _, _, .cons h h' => .cons h.symm h'.symm
end

theorem Unmarked.nil_iff {g g' : Gr B} (h : Unmarked g g') : g = .nil ↔ g' = .nil := by
  cases h <;> first | exact Iff.rfl | exact ⟨nofun, nofun⟩

theorem UnmarkedL.len {gs gs' : List (Gr B)} (h : UnmarkedL gs gs') : gs.length = gs'.length := by
  induction gs generalizing gs' with
  | nil => cases h; rfl
  | cons g gs ih => cases h with
    | cons _ h => simp [ih h]

/-- Nothing is called, and the other one does the same. -/
def PlainCopies (env : Env B) (src : List Token) (o : Out) (e : List (Ev B)) : Job B → Prop
  | .one g => ∀ g', Unmarked g g' → e = [] ∧ Tr env (.one g') src o []
  | .seq gs c => ∀ gs', UnmarkedL gs gs' → e = [] ∧ Tr env (.seq gs' c) src o []
  | .alt gs => ∀ gs', UnmarkedL gs gs' → e = [] ∧ Tr env (.alt gs') src o []
  | .many g => ∀ g', Unmarked g g' → e = [] ∧ Tr env (.many g') src o []

theorem plain_copies {j : Job B} {src o e} (h : Tr env j src o e) : PlainCopies env src o e j := by
  induction h with
  | nil => intro _ hg; cases hg; exact ⟨rfl, .nil⟩
  | tok hk => intro _ hg; cases hg; exact ⟨rfl, .tok hk⟩
  | tokNot hk => intro _ hg; cases hg; exact ⟨rfl, .tokNot hk⟩
  | tokEnd => intro _ hg; cases hg; exact ⟨rfl, .tokEnd⟩
  | tru => intro _ hg; cases hg; exact ⟨rfl, .tru⟩
  | peek _ ih => intro _ hg; cases hg with | peek hg => obtain ⟨rfl, t⟩ := ih _ hg; exact ⟨rfl, .peek t⟩
  | peekNot _ ih => intro _ hg; cases hg with | peek hg => obtain ⟨rfl, t⟩ := ih _ hg; exact ⟨rfl, .peekNot t⟩
  | peekAbort _ ih => intro _ hg; cases hg with | peek hg => obtain ⟨rfl, t⟩ := ih _ hg; exact ⟨rfl, .peekAbort t⟩
  | not _ ih => intro _ hg; cases hg with | not hg => obtain ⟨rfl, t⟩ := ih _ hg; exact ⟨rfl, .not t⟩
  | notNot _ ih => intro _ hg; cases hg with | not hg => obtain ⟨rfl, t⟩ := ih _ hg; exact ⟨rfl, .notNot t⟩
  | notAbort _ ih => intro _ hg; cases hg with | not hg => obtain ⟨rfl, t⟩ := ih _ hg; exact ⟨rfl, .notAbort t⟩
  | and _ ih => intro _ hg; cases hg with | and hg => obtain ⟨rfl, t⟩ := ih _ hg; exact ⟨rfl, hg.len ▸ .and t⟩
  | or _ ih => intro _ hg; cases hg with | or hg => obtain ⟨rfl, t⟩ := ih _ hg; exact ⟨rfl, hg.len ▸ .or t⟩
  | rep0 _ ih => intro _ hg; cases hg with | rep0 hg => obtain ⟨rfl, t⟩ := ih _ hg; exact ⟨rfl, .rep0 t⟩
  | rep1 _ _ ih ih' => intro _ hg; cases hg with | rep1 hg => obtain ⟨rfl, t⟩ := ih _ hg; obtain ⟨rfl, t'⟩ := ih' _ hg; exact ⟨rfl, .rep1 t t'⟩
  | rep1Fail _ ih => intro _ hg; cases hg with | rep1 hg => obtain ⟨rfl, t⟩ := ih _ hg; exact ⟨rfl, .rep1Fail t⟩
  | rep1Abort _ ih => intro _ hg; cases hg with | rep1 hg => obtain ⟨rfl, t⟩ := ih _ hg; exact ⟨rfl, .rep1Abort t⟩
  | opt _ ih => intro _ hg; cases hg with | rep01 hg => obtain ⟨rfl, t⟩ := ih _ hg; exact ⟨rfl, .opt t⟩
  | optNone _ ih => intro _ hg; cases hg with | rep01 hg => obtain ⟨rfl, t⟩ := ih _ hg; exact ⟨rfl, .optNone t⟩
  | optAbort _ ih => intro _ hg; cases hg with | rep01 hg => obtain ⟨rfl, t⟩ := ih _ hg; exact ⟨rfl, .optAbort t⟩
  | list _ _ ih ih' =>
    intro _ hg
    cases hg with
    | list hg hb =>
      obtain ⟨rfl, t⟩ := ih _ hg
      obtain ⟨rfl, t'⟩ := ih' _ (.and (.cons hb (.cons hg .nil)))
      exact ⟨rfl, .list t t'⟩
  | list0 _ ih => intro _ hg; cases hg with | list hg hb => obtain ⟨rfl, t⟩ := ih _ hg; exact ⟨rfl, .list0 t⟩
  | listFail _ ih => intro _ hg; cases hg with | list hg hb => obtain ⟨rfl, t⟩ := ih _ hg; exact ⟨rfl, .listFail t⟩
  | listAbort _ ih => intro _ hg; cases hg with | list hg hb => obtain ⟨rfl, t⟩ := ih _ hg; exact ⟨rfl, .listAbort t⟩
  | seqEnd => intro _ hg; cases hg; exact ⟨rfl, .seqEnd⟩
  | seqMark _ ih => intro _ hg; cases hg with | cons hg hs => cases hg; obtain ⟨rfl, t⟩ := ih _ hs; exact ⟨rfl, .seqMark t⟩
  | seqNext hn _ _ ih ih' =>
    intro _ hg
    cases hg with
    | cons hg hs => obtain ⟨rfl, t⟩ := ih _ hg; obtain ⟨rfl, t'⟩ := ih' _ hs; exact ⟨rfl, .seqNext (fun e => hn (hg.nil_iff.mpr e)) t t'⟩
  | seqFail hn _ ih => intro _ hg; cases hg with | cons hg hs => obtain ⟨rfl, t⟩ := ih _ hg; exact ⟨rfl, .seqFail (fun e => hn (hg.nil_iff.mpr e)) t⟩
  | seqCut hn _ ih => intro _ hg; cases hg with | cons hg hs => obtain ⟨rfl, t⟩ := ih _ hg; exact ⟨rfl, .seqCut (fun e => hn (hg.nil_iff.mpr e)) t⟩
  | seqAbort hn _ ih => intro _ hg; cases hg with | cons hg hs => obtain ⟨rfl, t⟩ := ih _ hg; exact ⟨rfl, .seqAbort (fun e => hn (hg.nil_iff.mpr e)) t⟩
  | altEnd => intro _ hg; cases hg; exact ⟨rfl, .altEnd⟩
  | altHit _ ih => intro _ hg; cases hg with | cons hg hs => obtain ⟨rfl, t⟩ := ih _ hg; exact ⟨rfl, .altHit t⟩
  | altNext _ _ ih ih' => intro _ hg; cases hg with | cons hg hs => obtain ⟨rfl, t⟩ := ih _ hg; obtain ⟨rfl, t'⟩ := ih' _ hs; exact ⟨rfl, .altNext t t'⟩
  | altAbort _ ih => intro _ hg; cases hg with | cons hg hs => obtain ⟨rfl, t⟩ := ih _ hg; exact ⟨rfl, .altAbort t⟩
  | manyEnd _ ih => intro _ hg; obtain ⟨rfl, t⟩ := ih _ hg; exact ⟨rfl, .manyEnd t⟩
  | manyMore _ _ ih ih' => intro _ hg; obtain ⟨rfl, t⟩ := ih _ hg; obtain ⟨rfl, t'⟩ := ih' _ hg; exact ⟨rfl, .manyMore t t'⟩
  | manyAbort _ ih => intro _ hg; obtain ⟨rfl, t⟩ := ih _ hg; exact ⟨rfl, .manyAbort t⟩
  | _ => intro _ hg; cases hg

/-- A plain grammar. -/
def PlainJob : Job B → Prop
  | .one g => ∃ g', Unmarked g g'
  | .seq gs _ => ∃ gs', UnmarkedL gs gs'
  | .alt gs => ∃ gs', UnmarkedL gs gs'
  | .many g => ∃ g', Unmarked g g'

local macro "settle" ih:term "," ih':term : tactic =>
  `(tactic| first
    | rfl
    | contradiction
    | exact absurd rfl (by assumption)
    | (rename_i t; cases $ih _ _ t <;> rfl)
    | (rename_i t _; cases $ih _ _ t <;> rfl)
    | (rename_i t t'; cases $ih _ _ t; cases $ih' _ _ t'; rfl))

/-- It ends in one way only. -/
theorem plain_one {j : Job B} {src o e} (h : Tr env j src o e) : PlainJob j → ∀ o' e', Tr env j src o' e' → o = o' := by
  induction h with
  | nil => intro _ _ _ t'; cases t'; rfl
  | tok hk => intro _ _ _ t'; cases t' <;> first | rfl | contradiction
  | tokNot hk => intro _ _ _ t'; cases t' <;> first | rfl | contradiction
  | tokEnd => intro _ _ _ t'; cases t'; rfl
  | tru => intro _ _ _ t'; cases t'; rfl
  | peek _ ih => rintro ⟨_, hg⟩ _ _ t'; cases hg with | peek hg => cases t' <;> settle (ih ⟨_, hg⟩), (ih ⟨_, hg⟩)
  | peekNot _ ih => rintro ⟨_, hg⟩ _ _ t'; cases hg with | peek hg => cases t' <;> settle (ih ⟨_, hg⟩), (ih ⟨_, hg⟩)
  | peekAbort _ ih => rintro ⟨_, hg⟩ _ _ t'; cases hg with | peek hg => cases t' <;> settle (ih ⟨_, hg⟩), (ih ⟨_, hg⟩)
  | not _ ih => rintro ⟨_, hg⟩ _ _ t'; cases hg with | not hg => cases t' <;> settle (ih ⟨_, hg⟩), (ih ⟨_, hg⟩)
  | notNot _ ih => rintro ⟨_, hg⟩ _ _ t'; cases hg with | not hg => cases t' <;> settle (ih ⟨_, hg⟩), (ih ⟨_, hg⟩)
  | notAbort _ ih => rintro ⟨_, hg⟩ _ _ t'; cases hg with | not hg => cases t' <;> settle (ih ⟨_, hg⟩), (ih ⟨_, hg⟩)
  | rep1Fail _ ih => rintro ⟨_, hg⟩ _ _ t'; cases hg with | rep1 hg => cases t' <;> settle (ih ⟨_, hg⟩), (ih ⟨_, hg⟩)
  | rep1Abort _ ih => rintro ⟨_, hg⟩ _ _ t'; cases hg with | rep1 hg => cases t' <;> settle (ih ⟨_, hg⟩), (ih ⟨_, hg⟩)
  | opt _ ih => rintro ⟨_, hg⟩ _ _ t'; cases hg with | rep01 hg => cases t' <;> settle (ih ⟨_, hg⟩), (ih ⟨_, hg⟩)
  | optNone _ ih => rintro ⟨_, hg⟩ _ _ t'; cases hg with | rep01 hg => cases t' <;> settle (ih ⟨_, hg⟩), (ih ⟨_, hg⟩)
  | optAbort _ ih => rintro ⟨_, hg⟩ _ _ t'; cases hg with | rep01 hg => cases t' <;> settle (ih ⟨_, hg⟩), (ih ⟨_, hg⟩)
  | and _ ih => rintro ⟨_, hg⟩ _ _ t'; cases hg with | and hg => cases t' <;> settle (ih ⟨_, hg⟩), (ih ⟨_, hg⟩)
  | or _ ih => rintro ⟨_, hg⟩ _ _ t'; cases hg with | or hg => cases t' <;> settle (ih ⟨_, hg⟩), (ih ⟨_, hg⟩)
  | rep0 _ ih => rintro ⟨_, hg⟩ _ _ t'; cases hg with | rep0 hg => cases t' <;> settle (ih ⟨_, hg⟩), (ih ⟨_, hg⟩)
  | rep1 _ _ ih ih' => rintro ⟨_, hg⟩ _ _ t'; cases hg with | rep1 hg => cases t' <;> settle (ih ⟨_, hg⟩), (ih' ⟨_, hg⟩)
  | list _ _ ih ih' => rintro ⟨_, hg⟩ _ _ t'; cases hg with | list hg hb => cases t' <;> settle (ih ⟨_, hg⟩), (ih' ⟨_, .and (.cons hb (.cons hg .nil))⟩)
  | list0 _ ih => rintro ⟨_, hg⟩ _ _ t'; cases hg with | list hg hb => cases t' <;> settle (ih ⟨_, hg⟩), (ih ⟨_, hg⟩)
  | listFail _ ih => rintro ⟨_, hg⟩ _ _ t'; cases hg with | list hg hb => cases t' <;> settle (ih ⟨_, hg⟩), (ih ⟨_, hg⟩)
  | listAbort _ ih => rintro ⟨_, hg⟩ _ _ t'; cases hg with | list hg hb => cases t' <;> settle (ih ⟨_, hg⟩), (ih ⟨_, hg⟩)
  | seqEnd => intro _ _ _ t'; cases t'; rfl
  | seqMark _ ih => rintro ⟨_, hg⟩ _ _ t'; cases hg with | cons hg hs => cases t' <;> settle (ih ⟨_, hs⟩), (ih ⟨_, hs⟩)
  | seqNext hn _ _ ih ih' => rintro ⟨_, hg⟩ _ _ t'; cases hg with | cons hg hs => cases t' <;> settle (ih ⟨_, hg⟩), (ih' ⟨_, hs⟩)
  | seqFail hn _ ih => rintro ⟨_, hg⟩ _ _ t'; cases hg with | cons hg hs => cases t' <;> settle (ih ⟨_, hg⟩), (ih ⟨_, hg⟩)
  | seqCut hn _ ih => rintro ⟨_, hg⟩ _ _ t'; cases hg with | cons hg hs => cases t' <;> settle (ih ⟨_, hg⟩), (ih ⟨_, hg⟩)
  | seqAbort hn _ ih => rintro ⟨_, hg⟩ _ _ t'; cases hg with | cons hg hs => cases t' <;> settle (ih ⟨_, hg⟩), (ih ⟨_, hg⟩)
  | altEnd => intro _ _ _ t'; cases t'; rfl
  | altHit _ ih => rintro ⟨_, hg⟩ _ _ t'; cases hg with | cons hg hs => cases t' <;> settle (ih ⟨_, hg⟩), (ih ⟨_, hg⟩)
  | altAbort _ ih => rintro ⟨_, hg⟩ _ _ t'; cases hg with | cons hg hs => cases t' <;> settle (ih ⟨_, hg⟩), (ih ⟨_, hg⟩)
  | altNext _ _ ih ih' => rintro ⟨_, hg⟩ _ _ t'; cases hg with | cons hg hs => cases t' <;> settle (ih ⟨_, hg⟩), (ih' ⟨_, hs⟩)
  | manyEnd _ ih => rintro ⟨_, hg⟩ _ _ t'; cases t' <;> settle (ih ⟨_, hg⟩), (ih ⟨_, hg⟩)
  | manyAbort _ ih => rintro ⟨_, hg⟩ _ _ t'; cases t' <;> settle (ih ⟨_, hg⟩), (ih ⟨_, hg⟩)
  | manyMore _ _ ih ih' => rintro ⟨_, hg⟩ _ _ t'; cases t' <;> settle (ih ⟨_, hg⟩), (ih' ⟨_, hg⟩)
  | _ => rintro ⟨_, hg⟩; cases hg

theorem Unmarked.sure {g g' : Gr B} (h : Unmarked g g') : Sure g := fun _ _ _ _ _ _ t t' => ⟨plain_one t ⟨_, h⟩ _ _ t', (plain_copies t _ h).1⟩
theorem Unmarked.clone {g g' : Gr B} (h : Unmarked g g') : Clone g g' :=
  ⟨h.sure, h.symm.sure, fun _ _ _ => ⟨fun t => (plain_copies t _ h).2, fun t => (plain_copies t _ h.symm).2⟩⟩

end Tpl
