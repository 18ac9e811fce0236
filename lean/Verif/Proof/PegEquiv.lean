import Verif.Spec.GrPeg

/-! Parsing expressions that parse everything alike. -/
namespace Tpl.Spec
variable {R : Type}

/-- The two expressions agree on every input, whatever the rules are. -/
def PegEquiv (p q : Peg R) : Prop := ∀ rules w o, PegEval rules p w o ↔ PegEval rules q w o

theorem PegEquiv.refl (p : Peg R) : PegEquiv p p := fun _ _ _ => Iff.rfl
theorem PegEquiv.symm {p q : Peg R} (h : PegEquiv p q) : PegEquiv q p := fun r w o => (h r w o).symm
theorem PegEquiv.trans {p q r : Peg R} (h : PegEquiv p q) (h' : PegEquiv q r) : PegEquiv p r := fun a b c => (h a b c).trans (h' a b c)

/-- Half of it. -/
def PegSub (p q : Peg R) : Prop := ∀ rules w o, PegEval rules p w o → PegEval rules q w o

theorem PegEquiv.of_sub {p q : Peg R} (h : PegSub p q) (h' : PegSub q p) : PegEquiv p q := fun r w o => ⟨h r w o, h' r w o⟩
theorem PegEquiv.sub {p q : Peg R} (h : PegEquiv p q) : PegSub p q := fun r w o => (h r w o).mp

theorem PegSub.seq {a a' b b' : Peg R} (h : PegSub a a') (h' : PegSub b b') : PegSub (.seq a b) (.seq a' b') := by
  intro rules w o he
  cases he with
  | seq h1 h2 => exact .seq (h _ _ _ h1) (h' _ _ _ h2)
  | seqFail h1 => exact .seqFail (h _ _ _ h1)
  | seqAbort h1 => exact .seqAbort (h _ _ _ h1)
  | seqFail2 h1 h2 => exact .seqFail2 (h _ _ _ h1) (h' _ _ _ h2)
  | seqAbort2 h1 h2 => exact .seqAbort2 (h _ _ _ h1) (h' _ _ _ h2)

theorem PegSub.alt {a a' b b' : Peg R} (h : PegSub a a') (h' : PegSub b b') : PegSub (.alt a b) (.alt a' b') := by
  intro rules w o he
  cases he with
  | altHit h1 => exact .altHit (h _ _ _ h1)
  | altNext h1 h2 => exact .altNext (h _ _ _ h1) (h' _ _ _ h2)
  | altAbort h1 => exact .altAbort (h _ _ _ h1)

theorem PegSub.neg {a a' : Peg R} (h : PegSub a a') : PegSub (.neg a) (.neg a') := by
  intro rules w o he
  cases he with
  | neg h1 => exact .neg (h _ _ _ h1)
  | negNot h1 => exact .negNot (h _ _ _ h1)
  | negAbort h1 => exact .negAbort (h _ _ _ h1)

theorem PegSub.star {a a' : Peg R} (h : PegSub a a') : PegSub (.star a) (.star a') := by
  intro rules w o he
  generalize hp : Peg.star a = p at he
  induction he with
  | starEnd h1 => cases hp; exact .starEnd (h _ _ _ h1)
  | starMore h1 _ _ ih => cases hp; exact .starMore (h _ _ _ h1) (ih rfl)
  | starAbort h1 => cases hp; exact .starAbort (h _ _ _ h1)
  | starAbort2 h1 _ _ ih => cases hp; exact .starAbort2 (h _ _ _ h1) (ih rfl)
  | _ => cases hp

theorem PegEquiv.seq {a a' b b' : Peg R} (h : PegEquiv a a') (h' : PegEquiv b b') : PegEquiv (.seq a b) (.seq a' b') :=
  .of_sub (.seq h.sub h'.sub) (.seq h.symm.sub h'.symm.sub)
theorem PegEquiv.alt {a a' b b' : Peg R} (h : PegEquiv a a') (h' : PegEquiv b b') : PegEquiv (.alt a b) (.alt a' b') :=
  .of_sub (.alt h.sub h'.sub) (.alt h.symm.sub h'.symm.sub)
theorem PegEquiv.neg {a a' : Peg R} (h : PegEquiv a a') : PegEquiv (.neg a) (.neg a') := .of_sub (.neg h.sub) (.neg h.symm.sub)
theorem PegEquiv.star {a a' : Peg R} (h : PegEquiv a a') : PegEquiv (.star a) (.star a') := .of_sub (.star h.sub) (.star h.symm.sub)

/-! Laws -/

theorem PegEquiv.seq_empty (p : Peg R) : PegEquiv (.seq p .empty) p := by
  refine .of_sub ?_ ?_
  · intro rules w o h
    cases h with
    | seq h1 h2 => cases h2; exact h1
    | seqFail h1 => exact h1
    | seqAbort h1 => exact h1
    | seqFail2 h1 h2 => cases h2
    | seqAbort2 h1 h2 => cases h2
  · intro rules w o h
    cases o with
    | succ n => exact .seq (m := 0) h .empty
    | fail => exact .seqFail h
    | abort => exact .seqAbort h

theorem PegEquiv.empty_seq (p : Peg R) : PegEquiv (.seq .empty p) p := by
  refine .of_sub ?_ ?_
  · intro rules w o h
    cases h with
    | seq h1 h2 => cases h1; simpa using h2
    | seqFail h1 => cases h1
    | seqAbort h1 => cases h1
    | seqFail2 h1 h2 => cases h1; exact h2
    | seqAbort2 h1 h2 => cases h1; exact h2
  · intro rules w o h
    cases o with
    | succ n =>
      have := PegEval.seq (b := p) (n := 0) (m := n) (.empty (rules := rules) (w := w)) h
      simpa using this
    | fail => exact .seqFail2 .empty h
    | abort => exact .seqAbort2 .empty h

theorem PegEquiv.seq_assoc (a b c : Peg R) : PegEquiv (.seq (.seq a b) c) (.seq a (.seq b c)) := by
  refine .of_sub ?_ ?_
  · intro rules w o h
    cases h with
    | seq h1 h2 =>
      cases h1 with
      | seq h3 h4 =>
        rw [Nat.add_assoc]
        refine .seq h3 (.seq h4 ?_)
        rw [List.drop_drop]; exact h2
    | seqFail h1 =>
      cases h1 with
      | seqFail h3 => exact .seqFail h3
      | seqFail2 h3 h4 => exact .seqFail2 h3 (.seqFail h4)
    | seqAbort h1 =>
      cases h1 with
      | seqAbort h3 => exact .seqAbort h3
      | seqAbort2 h3 h4 => exact .seqAbort2 h3 (.seqAbort h4)
    | seqFail2 h1 h2 =>
      cases h1 with
      | seq h3 h4 => exact .seqFail2 h3 (.seqFail2 h4 (by rw [List.drop_drop]; exact h2))
    | seqAbort2 h1 h2 =>
      cases h1 with
      | seq h3 h4 => exact .seqAbort2 h3 (.seqAbort2 h4 (by rw [List.drop_drop]; exact h2))
  · intro rules w o h
    cases h with
    | seq h1 h2 =>
      cases h2 with
      | seq h3 h4 =>
        rw [← Nat.add_assoc]
        refine .seq (.seq h1 h3) ?_
        rw [List.drop_drop] at h4; exact h4
    | seqFail h1 => exact .seqFail (.seqFail h1)
    | seqAbort h1 => exact .seqAbort (.seqAbort h1)
    | seqFail2 h1 h2 =>
      cases h2 with
      | seqFail h3 => exact .seqFail (.seqFail2 h1 h3)
      | seqFail2 h3 h4 => exact .seqFail2 (.seq h1 h3) (by rw [List.drop_drop] at h4; exact h4)
    | seqAbort2 h1 h2 =>
      cases h2 with
      | seqAbort h3 => exact .seqAbort (.seqAbort2 h1 h3)
      | seqAbort2 h3 h4 => exact .seqAbort2 (.seq h1 h3) (by rw [List.drop_drop] at h4; exact h4)

theorem never_fails {rules : R → Option (Peg R)} {w : List Nat} : PegEval rules .never w .fail := by
  cases w with
  | nil => exact .symEnd
  | cons k w => exact .symNot rfl

theorem never_only {rules : R → Option (Peg R)} {w : List Nat} {o} (h : PegEval rules .never w o) : o = .fail := by
  unfold Peg.never at h
  cases h with
  | sym h => cases h
  | _ => rfl

theorem PegEquiv.alt_never (p : Peg R) : PegEquiv (.alt p .never) p := by
  refine .of_sub ?_ ?_
  · intro rules w o h
    cases h with
    | altHit h1 => exact h1
    | altNext h1 h2 => rw [never_only h2]; exact h1
    | altAbort h1 => exact h1
  · intro rules w o h
    cases o with
    | succ n => exact .altHit h
    | fail => exact .altNext h never_fails
    | abort => exact .altAbort h

theorem PegEquiv.never_alt (p : Peg R) : PegEquiv (.alt .never p) p := by
  refine .of_sub ?_ ?_
  · intro rules w o h
    cases h with
    | altHit h1 => cases never_only h1
    | altNext h1 h2 => exact h2
    | altAbort h1 => cases never_only h1
  · intro rules w o h
    exact .altNext never_fails h

theorem PegEquiv.alt_assoc (a b c : Peg R) : PegEquiv (.alt (.alt a b) c) (.alt a (.alt b c)) := by
  refine .of_sub ?_ ?_
  · intro rules w o h
    cases h with
    | altHit h1 =>
      cases h1 with
      | altHit h2 => exact .altHit h2
      | altNext h2 h3 => exact .altNext h2 (.altHit h3)
    | altNext h1 h2 =>
      cases h1 with
      | altNext h3 h4 => exact .altNext h3 (.altNext h4 h2)
    | altAbort h1 =>
      cases h1 with
      | altNext h2 h3 => exact .altNext h2 (.altAbort h3)
      | altAbort h2 => exact .altAbort h2
  · intro rules w o h
    cases h with
    | altHit h1 => exact .altHit (.altHit h1)
    | altNext h1 h2 =>
      cases h2 with
      | altHit h3 => exact .altHit (.altNext h1 h3)
      | altNext h3 h4 => exact .altNext (.altNext h1 h3) h4
      | altAbort h3 => exact .altAbort (.altNext h1 h3)
    | altAbort h1 => exact .altAbort (.altAbort h1)

/-! Other rules -/

/-- Rules that agree. -/
def RulesSub (r r' : R → Option (Peg R)) : Prop := ∀ x, (r x = none → r' x = none) ∧ ∀ p, r x = some p → ∃ q, r' x = some q ∧ PegSub p q

theorem RulesSub.eval {r r' : R → Option (Peg R)} (hr : RulesSub r r') {p : Peg R} {w : List Nat} {o} (h : PegEval r p w o) : PegEval r' p w o := by
  induction h with
  | empty => exact .empty
  | sym h => exact .sym h
  | symNot h => exact .symNot h
  | symEnd => exact .symEnd
  | seq _ _ h1 h2 => exact .seq h1 h2
  | seqFail _ h1 => exact .seqFail h1
  | seqAbort _ h1 => exact .seqAbort h1
  | seqFail2 _ _ h1 h2 => exact .seqFail2 h1 h2
  | seqAbort2 _ _ h1 h2 => exact .seqAbort2 h1 h2
  | altHit _ h1 => exact .altHit h1
  | altNext _ _ h1 h2 => exact .altNext h1 h2
  | altAbort _ h1 => exact .altAbort h1
  | starEnd _ h1 => exact .starEnd h1
  | starMore _ _ h1 h2 => exact .starMore h1 h2
  | starAbort _ h1 => exact .starAbort h1
  | starAbort2 _ _ h1 h2 => exact .starAbort2 h1 h2
  | neg _ h1 => exact .neg h1
  | negNot _ h1 => exact .negNot h1
  | negAbort _ h1 => exact .negAbort h1
  | must _ h1 => exact .must h1
  | mustFail _ h1 => exact .mustFail h1
  | mustAbort _ h1 => exact .mustAbort h1
  | rule e _ h1 =>
    obtain ⟨q, e2, hs⟩ := (hr _).2 _ e
    exact .rule e2 (hs _ _ _ h1)
  | ruleNone e => exact .ruleNone ((hr _).1 e)
  | crash => exact .crash

/-! Sequences and alternatives -/

theorem seqOf_append (ps qs : List (Peg R)) :
    PegEquiv (seqOf ((ps ++ qs).map some) false) (.seq (seqOf (ps.map some) false) (seqOf (qs.map some) false)) := by
  induction ps with
  | nil => exact (PegEquiv.empty_seq _).symm
  | cons p ps ih => exact (PegEquiv.seq (.refl _) ih).trans (PegEquiv.seq_assoc _ _ _).symm

theorem altOf_append (ps qs : List (Peg R)) : PegEquiv (altOf (ps ++ qs)) (.alt (altOf ps) (altOf qs)) := by
  induction ps with
  | nil => exact (PegEquiv.never_alt _).symm
  | cons p ps ih => exact (PegEquiv.alt (.refl _) ih).trans (PegEquiv.alt_assoc _ _ _).symm

end Tpl.Spec
