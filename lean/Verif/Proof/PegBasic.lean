import Verif.Spec.Peg

/-! Facts about parsing expressions alone: determinism, height, termination. -/
namespace Tpl.Spec
variable {R : Type} {rules : R → Option (Peg R)}

theorem PegEval.unique {p : Peg R} {w o o'} (h : PegEval rules p w o) (h' : PegEval rules p w o') : o = o' := by
  induction h generalizing o' with
  | empty | symEnd | crash => cases h'; rfl
  | sym hp => cases h' with
    | sym => rfl
    | symNot hq => rw [hp] at hq; cases hq
  | symNot hp => cases h' with
    | symNot => rfl
    | sym hq => rw [hp] at hq; cases hq
  | seq _ _ ih1 ih2 => cases h' with
    | seq h1 h2 => cases ih1 h1; cases ih2 h2; rfl
    | seqFail h1 => cases ih1 h1
    | seqAbort h1 => cases ih1 h1
    | seqFail2 h1 h2 => cases ih1 h1; cases ih2 h2
    | seqAbort2 h1 h2 => cases ih1 h1; cases ih2 h2
  | seqFail _ ih1 => cases h' with
    | seq h1 h2 => cases ih1 h1
    | seqFail h1 => rfl
    | seqAbort h1 => cases ih1 h1
    | seqFail2 h1 h2 => rfl
    | seqAbort2 h1 h2 => cases ih1 h1
  | seqAbort _ ih1 => cases h' with
    | seq h1 h2 => cases ih1 h1
    | seqFail h1 => cases ih1 h1
    | seqAbort h1 => rfl
    | seqFail2 h1 h2 => cases ih1 h1
    | seqAbort2 h1 h2 => rfl
  | seqFail2 _ _ ih1 ih2 => cases h' with
    | seq h1 h2 => cases ih1 h1; cases ih2 h2
    | seqFail h1 => rfl
    | seqAbort h1 => cases ih1 h1
    | seqFail2 h1 h2 => rfl
    | seqAbort2 h1 h2 => cases ih1 h1; cases ih2 h2
  | seqAbort2 _ _ ih1 ih2 => cases h' with
    | seq h1 h2 => cases ih1 h1; cases ih2 h2
    | seqFail h1 => cases ih1 h1
    | seqAbort h1 => rfl
    | seqFail2 h1 h2 => cases ih1 h1; cases ih2 h2
    | seqAbort2 h1 h2 => rfl
  | altHit _ ih1 => cases h' with
    | altHit h1 => cases ih1 h1; rfl
    | altNext h1 => cases ih1 h1
    | altAbort h1 => cases ih1 h1
  | altNext _ _ ih1 ih2 => cases h' with
    | altHit h1 => cases ih1 h1
    | altNext _ h2 => exact ih2 h2
    | altAbort h1 => cases ih1 h1
  | altAbort _ ih1 => cases h' with
    | altHit h1 => cases ih1 h1
    | altNext h1 => cases ih1 h1
    | altAbort h1 => rfl
  | starEnd _ ih1 => cases h' with
    | starEnd => rfl
    | starMore h1 => cases ih1 h1
    | starAbort h1 => cases ih1 h1
    | starAbort2 h1 => cases ih1 h1
  | starMore _ _ ih1 ih2 => cases h' with
    | starEnd h1 => cases ih1 h1
    | starMore h1 h2 => cases ih1 h1; cases ih2 h2; rfl
    | starAbort h1 => cases ih1 h1
    | starAbort2 h1 h2 => cases ih1 h1; cases ih2 h2
  | starAbort _ ih1 => cases h' with
    | starEnd h1 => cases ih1 h1
    | starMore h1 => cases ih1 h1
    | starAbort h1 => rfl
    | starAbort2 h1 => rfl
  | starAbort2 _ _ ih1 ih2 => cases h' with
    | starEnd h1 => cases ih1 h1
    | starMore h1 h2 => cases ih1 h1; cases ih2 h2
    | starAbort h1 => rfl
    | starAbort2 h1 => rfl
  | neg _ ih1 => cases h' with
    | neg => rfl
    | negNot h1 => cases ih1 h1
    | negAbort h1 => cases ih1 h1
  | negNot _ ih1 => cases h' with
    | neg h1 => cases ih1 h1
    | negNot h1 => rfl
    | negAbort h1 => cases ih1 h1
  | negAbort _ ih1 => cases h' with
    | neg h1 => cases ih1 h1
    | negNot h1 => cases ih1 h1
    | negAbort h1 => rfl
  | must _ ih1 => cases h' with
    | must h1 => cases ih1 h1; rfl
    | mustFail h1 => cases ih1 h1
    | mustAbort h1 => cases ih1 h1
  | mustFail _ ih1 => cases h' with
    | must h1 => cases ih1 h1
    | mustFail h1 => rfl
    | mustAbort h1 => rfl
  | mustAbort _ ih1 => cases h' with
    | must h1 => cases ih1 h1
    | mustFail h1 => rfl
    | mustAbort h1 => rfl
  | rule hr _ ih1 => cases h' with
    | rule hr' h1 => rw [hr] at hr'; cases hr'; exact ih1 h1
    | ruleNone hr' => rw [hr] at hr'; cases hr'
  | ruleNone hr => cases h' with
    | rule hr' h1 => rw [hr] at hr'; cases hr'
    | ruleNone => rfl

theorem PegEval.bound {p : Peg R} {w o} (h : PegEval rules p w o) : ∀ n, o = .succ n → n ≤ w.length := by
  induction h with
  | seq _ _ ih1 ih2 | starMore _ _ ih1 ih2 =>
    intro k hk
    cases hk
    have a := ih1 _ rfl
    have b := ih2 _ rfl
    rw [List.length_drop] at b
    omega
  | sym => intro k hk; cases hk; simp
  | altHit _ ih | must _ ih => intro k hk; cases hk; exact ih _ rfl
  | altNext _ _ _ ih => exact ih
  | rule _ _ ih => exact ih
  | _ => intro k hk; cases hk <;> exact Nat.zero_le _

/-- Matching empty is only possible for nullable expressions. -/
theorem PegEval.nullable {p : Peg R} {w o} (h : PegEval rules p w o) : o = .succ 0 → Nullable rules p := by
  induction h with
  | seq _ _ ih1 ih2 =>
    intro h
    injection h with h
    exact .seq (ih1 (by congr; omega)) (ih2 (by congr; omega))
  | empty => exact fun _ => .empty
  | altHit _ ih => exact fun h => .altL (ih h)
  | altNext _ _ _ ih => exact fun h => .altR (ih h)
  | starEnd | starMore => exact fun _ => .star
  | neg => exact fun _ => .neg
  | must _ ih => exact fun h => .must (ih h)
  | rule hr _ ih => exact fun h => .rule hr (ih h)
  | _ => intro h; cases h

/-- Termination: see Props, C30. -/
theorem PegEval.total (hstar : ∀ r p, rules r = some p → p.StarsOk rules) (hwf : WellFounded (LeftCalls rules))
    (p : Peg R) (hp : p.StarsOk rules) (w : List Nat) : ∃ o, PegEval rules p w o := by
  have main : ∀ n, ∀ w : List Nat, w.length = n → ∀ p : Peg R, p.StarsOk rules → ∃ o, PegEval rules p w o := by
    intro n
    induction n using Nat.strongRecOn with
    | ind n ih =>
    intro w hw
    -- at this input: if the rules used leftmost end, so does the expression
    have shorter : ∀ m : Nat, 0 < m → m ≤ w.length → ∀ p : Peg R, p.StarsOk rules → ∃ o, PegEval rules p (w.drop m) o := by
      intro m h0 h1 p hp
      exact ih (w.drop m).length (by rw [List.length_drop]; omega) _ rfl p hp
    have expr : ∀ p : Peg R, p.StarsOk rules → (∀ r, Leftmost rules p r → ∃ o, PegEval rules (.rule r) w o) →
        ∃ o, PegEval rules p w o := by
      intro p
      induction p with
      | empty => exact fun _ _ => ⟨_, .empty⟩
      | crash => exact fun _ _ => ⟨_, .crash⟩
      | sym q =>
        intro _ _
        cases w with
        | nil => exact ⟨_, .symEnd⟩
        | cons k w =>
          cases hq : q k with
          | true => exact ⟨_, .sym hq⟩
          | false => exact ⟨_, .symNot hq⟩
      | rule r => exact fun _ h => h r .rule
      | seq a b iha ihb =>
        intro hp hl
        obtain ⟨o, ho⟩ := iha hp.1 (fun r h => hl r (.seqL h))
        cases o with
        | fail => exact ⟨_, .seqFail ho⟩
        | abort => exact ⟨_, .seqAbort ho⟩
        | succ n =>
          have hb : ∃ o, PegEval rules b (w.drop n) o := by
            cases n with
            | zero => exact ihb hp.2 (fun r h => hl r (.seqR (ho.nullable rfl) h))
            | succ n => exact shorter _ (Nat.succ_pos n) (ho.bound _ rfl) b hp.2
          obtain ⟨o, hb⟩ := hb
          cases o with
          | fail => exact ⟨_, .seqFail2 ho hb⟩
          | abort => exact ⟨_, .seqAbort2 ho hb⟩
          | succ n => exact ⟨_, .seq ho hb⟩
      | alt a b iha ihb =>
        intro hp hl
        obtain ⟨o, ho⟩ := iha hp.1 (fun r h => hl r (.altL h))
        cases o with
        | succ n => exact ⟨_, .altHit ho⟩
        | abort => exact ⟨_, .altAbort ho⟩
        | fail =>
          obtain ⟨o, hb⟩ := ihb hp.2 (fun r h => hl r (.altR h))
          exact ⟨_, .altNext ho hb⟩
      | star a iha =>
        intro hp hl
        obtain ⟨o, ho⟩ := iha hp.2 (fun r h => hl r (.star h))
        cases o with
        | fail => exact ⟨_, .starEnd ho⟩
        | abort => exact ⟨_, .starAbort ho⟩
        | succ n =>
          cases n with
          | zero => exact absurd (ho.nullable rfl) hp.1
          | succ n =>
            have he : ∀ {w o}, PegEval rules (.star a) w o → o ≠ .fail := by
              intro w o h; cases h <;> nofun
            obtain ⟨o, hs⟩ := shorter _ (Nat.succ_pos n) (ho.bound _ rfl) (.star a) hp
            cases o with
            | fail => exact absurd rfl (he hs)
            | abort => exact ⟨_, .starAbort2 ho hs⟩
            | succ m => exact ⟨_, .starMore ho hs⟩
      | neg a iha =>
        intro hp hl
        obtain ⟨o, ho⟩ := iha hp (fun r h => hl r (.neg h))
        cases o with
        | fail => exact ⟨_, .neg ho⟩
        | abort => exact ⟨_, .negAbort ho⟩
        | succ n => exact ⟨_, .negNot ho⟩
      | must a iha =>
        intro hp hl
        obtain ⟨o, ho⟩ := iha hp (fun r h => hl r (.must h))
        cases o with
        | fail => exact ⟨_, .mustFail ho⟩
        | abort => exact ⟨_, .mustAbort ho⟩
        | succ n => exact ⟨_, .must ho⟩
    have rule : ∀ r, ∃ o, PegEval rules (.rule r) w o := by
      intro r
      induction r using hwf.induction with
      | _ r ihr =>
        cases hr : rules r with
        | none => exact ⟨_, .ruleNone hr⟩
        | some p =>
          obtain ⟨o, ho⟩ := expr p (hstar r p hr) (fun q hq => ihr q ⟨p, hr, hq⟩)
          exact ⟨o, .rule hr ho⟩
    intro p hp
    exact expr p hp (fun r _ => rule r)
  exact main _ w rfl p hp

/-! ### Height of a derivation -/

/-- Derivable within `n` levels. -/
inductive PegH (rules : R → Option (Peg R)) : Nat → Peg R → List Nat → POut → Prop
  | empty {i w} : PegH rules (i + 1) .empty w (.succ 0)
  | sym {i p k w} : p k = true → PegH rules (i + 1) (.sym p) (k :: w) (.succ 1)
  | symNot {i p k w} : p k = false → PegH rules (i + 1) (.sym p) (k :: w) .fail
  | symEnd {i p} : PegH rules (i + 1) (.sym p) [] .fail
  | seq {i a b w n m} : PegH rules i a w (.succ n) → PegH rules i b (w.drop n) (.succ m) →
      PegH rules (i + 1) (.seq a b) w (.succ (n + m))
  | seqFail {i a b w} : PegH rules i a w .fail → PegH rules (i + 1) (.seq a b) w .fail
  | seqAbort {i a b w} : PegH rules i a w .abort → PegH rules (i + 1) (.seq a b) w .abort
  | seqFail2 {i a b w n} : PegH rules i a w (.succ n) → PegH rules i b (w.drop n) .fail → PegH rules (i + 1) (.seq a b) w .fail
  | seqAbort2 {i a b w n} : PegH rules i a w (.succ n) → PegH rules i b (w.drop n) .abort →
      PegH rules (i + 1) (.seq a b) w .abort
  | altHit {i a b w n} : PegH rules i a w (.succ n) → PegH rules (i + 1) (.alt a b) w (.succ n)
  | altNext {i a b w o} : PegH rules i a w .fail → PegH rules i b w o → PegH rules (i + 1) (.alt a b) w o
  | altAbort {i a b w} : PegH rules i a w .abort → PegH rules (i + 1) (.alt a b) w .abort
  | starEnd {i a w} : PegH rules i a w .fail → PegH rules (i + 1) (.star a) w (.succ 0)
  | starMore {i a w n m} : PegH rules i a w (.succ n) → PegH rules i (.star a) (w.drop n) (.succ m) →
      PegH rules (i + 1) (.star a) w (.succ (n + m))
  | starAbort {i a w} : PegH rules i a w .abort → PegH rules (i + 1) (.star a) w .abort
  | starAbort2 {i a w n} : PegH rules i a w (.succ n) → PegH rules i (.star a) (w.drop n) .abort →
      PegH rules (i + 1) (.star a) w .abort
  | neg {i a w} : PegH rules i a w .fail → PegH rules (i + 1) (.neg a) w (.succ 0)
  | negNot {i a w n} : PegH rules i a w (.succ n) → PegH rules (i + 1) (.neg a) w .fail
  | negAbort {i a w} : PegH rules i a w .abort → PegH rules (i + 1) (.neg a) w .abort
  | must {i a w n} : PegH rules i a w (.succ n) → PegH rules (i + 1) (.must a) w (.succ n)
  | mustFail {i a w} : PegH rules i a w .fail → PegH rules (i + 1) (.must a) w .abort
  | mustAbort {i a w} : PegH rules i a w .abort → PegH rules (i + 1) (.must a) w .abort
  | rule {i r p w o} : rules r = some p → PegH rules i p w o → PegH rules (i + 1) (.rule r) w o
  | ruleNone {i r w} : rules r = none → PegH rules (i + 1) (.rule r) w .fail
  | crash {i w} : PegH rules (i + 1) .crash w .abort

theorem PegH.succ {i} {p : Peg R} {w o} (h : PegH rules i p w o) : PegH rules (i + 1) p w o := by
  induction h with
  | empty => exact .empty
  | sym h => exact .sym h
  | symNot h => exact .symNot h
  | symEnd => exact .symEnd
  | seq _ _ ih1 ih2 => exact .seq ih1 ih2
  | seqFail _ ih => exact .seqFail ih
  | seqAbort _ ih => exact .seqAbort ih
  | seqFail2 _ _ ih1 ih2 => exact .seqFail2 ih1 ih2
  | seqAbort2 _ _ ih1 ih2 => exact .seqAbort2 ih1 ih2
  | altHit _ ih => exact .altHit ih
  | altNext _ _ ih1 ih2 => exact .altNext ih1 ih2
  | altAbort _ ih => exact .altAbort ih
  | starEnd _ ih => exact .starEnd ih
  | starMore _ _ ih1 ih2 => exact .starMore ih1 ih2
  | starAbort _ ih => exact .starAbort ih
  | starAbort2 _ _ ih1 ih2 => exact .starAbort2 ih1 ih2
  | neg _ ih => exact .neg ih
  | negNot _ ih => exact .negNot ih
  | negAbort _ ih => exact .negAbort ih
  | must _ ih => exact .must ih
  | mustFail _ ih => exact .mustFail ih
  | mustAbort _ ih => exact .mustAbort ih
  | rule h _ ih => exact .rule h ih
  | ruleNone h => exact .ruleNone h
  | crash => exact .crash

theorem PegH.mono {i j} {p : Peg R} {w o} (h : PegH rules i p w o) (hij : i ≤ j) : PegH rules j p w o := by
  induction hij with
  | refl => exact h
  | step _ ih => exact ih.succ

theorem PegH.eval {i} {p : Peg R} {w o} (h : PegH rules i p w o) : PegEval rules p w o := by
  induction h with
  | empty => exact .empty
  | sym h => exact .sym h
  | symNot h => exact .symNot h
  | symEnd => exact .symEnd
  | seq _ _ ih1 ih2 => exact .seq ih1 ih2
  | seqFail _ ih => exact .seqFail ih
  | seqAbort _ ih => exact .seqAbort ih
  | seqFail2 _ _ ih1 ih2 => exact .seqFail2 ih1 ih2
  | seqAbort2 _ _ ih1 ih2 => exact .seqAbort2 ih1 ih2
  | altHit _ ih => exact .altHit ih
  | altNext _ _ ih1 ih2 => exact .altNext ih1 ih2
  | altAbort _ ih => exact .altAbort ih
  | starEnd _ ih => exact .starEnd ih
  | starMore _ _ ih1 ih2 => exact .starMore ih1 ih2
  | starAbort _ ih => exact .starAbort ih
  | starAbort2 _ _ ih1 ih2 => exact .starAbort2 ih1 ih2
  | neg _ ih => exact .neg ih
  | negNot _ ih => exact .negNot ih
  | negAbort _ ih => exact .negAbort ih
  | must _ ih => exact .must ih
  | mustFail _ ih => exact .mustFail ih
  | mustAbort _ ih => exact .mustAbort ih
  | rule h _ ih => exact .rule h ih
  | ruleNone h => exact .ruleNone h
  | crash => exact .crash

theorem PegEval.height {p : Peg R} {w o} (h : PegEval rules p w o) : ∃ i, PegH rules i p w o := by
  induction h with
  | empty => exact ⟨1, .empty⟩
  | sym h => exact ⟨1, .sym h⟩
  | symNot h => exact ⟨1, .symNot h⟩
  | symEnd => exact ⟨1, .symEnd⟩
  | seq _ _ ih1 ih2 =>
    obtain ⟨i, h1⟩ := ih1; obtain ⟨j, h2⟩ := ih2
    exact ⟨_, .seq (h1.mono (Nat.le_max_left i j)) (h2.mono (Nat.le_max_right i j))⟩
  | seqFail _ ih => obtain ⟨i, h⟩ := ih; exact ⟨_, .seqFail h⟩
  | seqAbort _ ih => obtain ⟨i, h⟩ := ih; exact ⟨_, .seqAbort h⟩
  | seqFail2 _ _ ih1 ih2 =>
    obtain ⟨i, h1⟩ := ih1; obtain ⟨j, h2⟩ := ih2
    exact ⟨_, .seqFail2 (h1.mono (Nat.le_max_left i j)) (h2.mono (Nat.le_max_right i j))⟩
  | seqAbort2 _ _ ih1 ih2 =>
    obtain ⟨i, h1⟩ := ih1; obtain ⟨j, h2⟩ := ih2
    exact ⟨_, .seqAbort2 (h1.mono (Nat.le_max_left i j)) (h2.mono (Nat.le_max_right i j))⟩
  | altHit _ ih => obtain ⟨i, h⟩ := ih; exact ⟨_, .altHit h⟩
  | altNext _ _ ih1 ih2 =>
    obtain ⟨i, h1⟩ := ih1; obtain ⟨j, h2⟩ := ih2
    exact ⟨_, .altNext (h1.mono (Nat.le_max_left i j)) (h2.mono (Nat.le_max_right i j))⟩
  | altAbort _ ih => obtain ⟨i, h⟩ := ih; exact ⟨_, .altAbort h⟩
  | starEnd _ ih => obtain ⟨i, h⟩ := ih; exact ⟨_, .starEnd h⟩
  | starMore _ _ ih1 ih2 =>
    obtain ⟨i, h1⟩ := ih1; obtain ⟨j, h2⟩ := ih2
    exact ⟨_, .starMore (h1.mono (Nat.le_max_left i j)) (h2.mono (Nat.le_max_right i j))⟩
  | starAbort _ ih => obtain ⟨i, h⟩ := ih; exact ⟨_, .starAbort h⟩
  | starAbort2 _ _ ih1 ih2 =>
    obtain ⟨i, h1⟩ := ih1; obtain ⟨j, h2⟩ := ih2
    exact ⟨_, .starAbort2 (h1.mono (Nat.le_max_left i j)) (h2.mono (Nat.le_max_right i j))⟩
  | neg _ ih => obtain ⟨i, h⟩ := ih; exact ⟨_, .neg h⟩
  | negNot _ ih => obtain ⟨i, h⟩ := ih; exact ⟨_, .negNot h⟩
  | negAbort _ ih => obtain ⟨i, h⟩ := ih; exact ⟨_, .negAbort h⟩
  | must _ ih => obtain ⟨i, h⟩ := ih; exact ⟨_, .must h⟩
  | mustFail _ ih => obtain ⟨i, h⟩ := ih; exact ⟨_, .mustFail h⟩
  | mustAbort _ ih => obtain ⟨i, h⟩ := ih; exact ⟨_, .mustAbort h⟩
  | rule h _ ih => obtain ⟨i, h'⟩ := ih; exact ⟨_, .rule h h'⟩
  | ruleNone h => exact ⟨1, .ruleNone h⟩
  | crash => exact ⟨1, .crash⟩

/-- What begins a derivation has a smaller one. -/
theorem Begins.smaller {p q : Peg R} (hb : Begins rules p q) : ∀ {i w o}, PegH rules i p w o →
    ∃ j o', j < i ∧ PegH rules j q w o' := by
  induction hb with
  | seq => intro i w o h; cases h <;> exact ⟨_, _, Nat.lt_succ_self _, by assumption⟩
  | alt => intro i w o h; cases h <;> exact ⟨_, _, Nat.lt_succ_self _, by assumption⟩
  | star => intro i w o h; cases h <;> exact ⟨_, _, Nat.lt_succ_self _, by assumption⟩
  | neg => intro i w o h; cases h <;> exact ⟨_, _, Nat.lt_succ_self _, by assumption⟩
  | must => intro i w o h; cases h <;> exact ⟨_, _, Nat.lt_succ_self _, by assumption⟩
  | rule hr =>
    intro i w o h
    cases h with
    | rule hr' h => rw [hr] at hr'; cases hr'; exact ⟨_, _, Nat.lt_succ_self _, h⟩
    | ruleNone hr' => rw [hr] at hr'; cases hr'
  | trans _ _ ih1 ih2 =>
    intro i w o h
    obtain ⟨j, o', hj, h1⟩ := ih1 h
    obtain ⟨k, o'', hk, h2⟩ := ih2 h1
    exact ⟨k, o'', Nat.lt_trans hk hj, h2⟩

theorem Begins.diverges {p : Peg R} (hb : Begins rules p p) {w o} : ¬ PegEval rules p w o := by
  intro h
  obtain ⟨i, hi⟩ := h.height
  clear h
  have h := hi
  clear hi
  induction i using Nat.strongRecOn generalizing o with
  | ind i ih =>
    obtain ⟨j, o', hj, h'⟩ := hb.smaller h
    exact ih j hj h'

/-- Repeating what matches empty here never ends. -/
theorem star_empty_diverges {a : Peg R} {w} (ha : PegEval rules a w (.succ 0)) {o} : ¬ PegEval rules (.star a) w o := by
  intro h
  obtain ⟨i, hi⟩ := h.height
  clear h
  have h := hi
  clear hi
  induction i using Nat.strongRecOn generalizing o with
  | ind i ih =>
    cases h with
    | starEnd h => cases ha.unique h.eval
    | starAbort h => cases ha.unique h.eval
    | starMore h1 h2 => cases ha.unique h1.eval; exact ih _ (Nat.lt_succ_self _) h2
    | starAbort2 h1 h2 => cases ha.unique h1.eval; exact ih _ (Nat.lt_succ_self _) h2

end Tpl.Spec
