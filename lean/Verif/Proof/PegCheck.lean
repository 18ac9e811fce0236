import Verif.Spec.Peg

/-! A check for well-formedness of parsing expression grammars. -/
namespace Tpl.Spec
variable {R : Type}

/-- `p` may match empty, if the rules that may are among `nul`. -/
def Peg.nullB (nul : R → Bool) : Peg R → Bool
  | .empty => true
  | .sym _ => false
  | .seq a b => a.nullB nul && b.nullB nul
  | .alt a b => a.nullB nul || b.nullB nul
  | .star _ => true
  | .neg _ => true
  | .must a => a.nullB nul
  | .rule r => nul r
  | .crash => false

/-- All rules `p` may use before anything is consumed satisfy `ok`. -/
def Peg.leftB (nul : R → Bool) (ok : R → Bool) : Peg R → Bool
  | .seq a b => a.leftB nul ok && (!a.nullB nul || b.leftB nul ok)
  | .alt a b => a.leftB nul ok && b.leftB nul ok
  | .star a => a.leftB nul ok
  | .neg a => a.leftB nul ok
  | .must a => a.leftB nul ok
  | .rule r => ok r
  | _ => true

/-- Nothing that may match empty is repeated. -/
def Peg.starsB (nul : R → Bool) : Peg R → Bool
  | .seq a b => a.starsB nul && b.starsB nul
  | .alt a b => a.starsB nul && b.starsB nul
  | .star a => !a.nullB nul && a.starsB nul
  | .neg a => a.starsB nul
  | .must a => a.starsB nul
  | _ => true

/-- The check of all rules. -/
def Checked (rules : R → Option (Peg R)) (nul : R → Bool) (rank : R → Nat) : Prop :=
  ∀ r p, rules r = some p → (p.nullB nul = true → nul r = true) ∧
    p.leftB nul (fun q => rank q < rank r) = true ∧ p.starsB nul = true

variable {rules : R → Option (Peg R)} {nul : R → Bool} {rank : R → Nat}

theorem Checked.nullable (hc : Checked rules nul rank) {p : Peg R} (h : Nullable rules p) : p.nullB nul = true := by
  induction h with
  | empty | star | neg => rfl
  | seq _ _ ih1 ih2 => simp [Peg.nullB, ih1, ih2]
  | altL _ ih => simp [Peg.nullB, ih]
  | altR _ ih => simp [Peg.nullB, ih]
  | must _ ih => exact ih
  | rule hr _ ih => exact (hc _ _ hr).1 ih

theorem Checked.left (hc : Checked rules nul rank) {p : Peg R} {q} (h : Leftmost rules p q) {ok : R → Bool}
    (hp : p.leftB nul ok = true) : ok q = true := by
  induction h with
  | rule => exact hp
  | seqL _ ih => simp only [Peg.leftB, Bool.and_eq_true] at hp; exact ih hp.1
  | seqR hn _ ih =>
    simp only [Peg.leftB, Bool.and_eq_true, hc.nullable hn, Bool.not_true, Bool.false_or] at hp
    exact ih hp.2
  | altL _ ih => simp only [Peg.leftB, Bool.and_eq_true] at hp; exact ih hp.1
  | altR _ ih => simp only [Peg.leftB, Bool.and_eq_true] at hp; exact ih hp.2
  | star _ ih | neg _ ih | must _ ih => exact ih hp

theorem Checked.lower (hc : Checked rules nul rank) {q r : R} (h : LeftCalls rules q r) : rank q < rank r := by
  obtain ⟨p, hp, hl⟩ := h
  simpa using hc.left hl (hc _ _ hp).2.1

theorem Checked.stars (hc : Checked rules nul rank) {p : Peg R} (h : p.starsB nul = true) : p.StarsOk rules := by
  induction p with
  | empty | sym | rule | crash => trivial
  | seq a b iha ihb => simp only [Peg.starsB, Bool.and_eq_true] at h; exact ⟨iha h.1, ihb h.2⟩
  | alt a b iha ihb => simp only [Peg.starsB, Bool.and_eq_true] at h; exact ⟨iha h.1, ihb h.2⟩
  | star a iha =>
    simp only [Peg.starsB, Bool.and_eq_true, Bool.not_eq_true'] at h
    refine ⟨fun hn => ?_, iha h.2⟩
    rw [hc.nullable hn] at h
    cases h.1
  | neg a iha => exact iha h
  | must a iha => exact iha h

end Tpl.Spec
