import Verif.Spec.Errors
import Verif.Proof.MatchBound

/-! The errors a match can return. -/
namespace Tpl
open Tpl.Spec
variable {A σ V P : Type}

def Panic.ErrIn (toks : List Token) (Q : Gr A → Prop) : Panic A P → Prop
  | .err e => CutAt toks Q e
  | _ => True

/-- The error of a result, if any, is as described. -/
def Res.ErrIn (toks : List Token) (Q : Gr A → Prop) : Res A σ P → Prop
  | .fail _ e _ => FailAt toks Q e
  | .panic p _ => p.ErrIn toks Q
  | .ok _ _ => True

def LoopRes.ErrIn (toks : List Token) (Q : Gr A → Prop) : LoopRes A σ P → Prop
  | .panic p _ => p.ErrIn toks Q
  | .done _ _ _ => True

/-- No callback panics with a match error. -/
structure NoErr (sem : Sem A σ V P) : Prop where
  act : ∀ f m a g toks s e s', sem.act f m a g toks s ≠ some (.panic (.err e) s')
  start : ∀ a s e s', sem.start a s ≠ .panic (.err e) s'
  finish : ∀ a v e0 s e s', sem.finish a v e0 s ≠ .panic (.err e) s'

section
variable {E : Gr A → List Token → St σ → Res A σ P → Prop} {toks : List Token} {Q : Gr A → Prop}

theorem AndRun.errIn {all gs0} (hall : all = .and gs0) (hq : Q all)
    {src : List Token} (hs : src <:+ toks) {gs ff n s r} (h : AndRun E all src gs ff n s r)
    (hE : ∀ g ∈ gs, ∀ src s r, src <:+ toks → E g src s r → r.ErrIn toks Q)
    (hshort : ∀ g src s r, E g src s r → r.Short src.length)
    (hgs : ∀ g ∈ gs, g ∈ gs0) (hff : ff = true → .nil ∈ gs0) (hn : n ≤ src.length) : r.ErrIn toks Q := by
  induction h with
  | nil => trivial
  | mark _ ih =>
    exact ih (fun g hg => hE g (.tail _ hg)) (fun g hg => hgs g (.tail _ hg)) (fun _ => hgs _ (.head _)) hn
  | ok _ _ h1 _ ih =>
    have := hshort _ _ _ _ h1
    simp only [Res.Short, List.length_drop] at this
    exact ih (fun g hg => hE g (.tail _ hg)) (fun g hg => hgs g (.tail _ hg)) hff (by omega)
  | fail _ _ h1 => have := hE _ (.head _) _ _ _ ((List.drop_suffix _ _).trans hs) h1; exact this
  | cut _ _ h1 =>
    have := hshort _ _ _ _ h1
    simp only [Res.Short, List.length_drop] at this
    subst hall
    exact .cut hq (hff rfl) hs (by omega) (hE _ (.head _) _ _ _ ((List.drop_suffix _ _).trans hs) h1)
  | panic _ _ h1 => exact hE _ (.head _) _ _ _ ((List.drop_suffix _ _).trans hs) h1
  | slice => trivial

theorem OrRun.errIn {all} (ha : all ≠ .nil) (hq : Q all)
    {src : List Token} (hs : src <:+ toks) {gs a b c s r} (h : OrRun E all src gs a b c s r)
    (hE : ∀ g ∈ gs, ∀ src s r, src <:+ toks → E g src s r → r.ErrIn toks Q)
    (hb : ∀ e, b = some e → FailAt toks Q e) : r.ErrIn toks Q := by
  induction h with
  | multi => exact .plain ha hq hs
  | single => exact hb _ rfl
  | none => trivial
  | ok => trivial
  | panic h1 => exact hE _ (.head _) _ _ _ hs h1
  | same _ _ ih => exact ih (fun g hg => hE g (.tail _ hg)) hb
  | more h1 _ _ ih =>
    exact ih (fun g hg => hE g (.tail _ hg)) (fun e he => by cases he; exact hE _ (.head _) _ _ _ hs h1)
  | less _ _ _ ih => exact ih (fun g hg => hE g (.tail _ hg)) hb

theorem RepRun.errIn {g : Gr A} {src n k s r} (h : RepRun E g src n k s r) (hs : src <:+ toks)
    (hE : ∀ src s r, src <:+ toks → E g src s r → r.ErrIn toks Q) : r.ErrIn toks Q := by
  induction h with
  | stop => trivial
  | panic h1 => have := hE _ _ _ hs h1; exact this
  | more _ _ _ ih => exact ih ((List.drop_suffix _ _).trans hs)
  | slice => trivial
end

variable {env : Env A} {sem : Sem A σ V P}

theorem matchG_err {toks : List Token} {Q : Gr A → Prop} (hsub : ∀ g g', Sub env g g' → Q g → Q g') (hsem : NoErr sem) :
    ∀ f g src s r, Q g → src <:+ toks → matchG env sem f g src s = some r → r.ErrIn toks Q := by
  intro f
  induction f with
  | zero => intro g src s r _ _ h; cases h
  | succ f ih =>
    intro g src s r hq hs h
    cases g with
    | nil => cases h; trivial
    | tok k =>
      simp only [matchG, matchStep] at h
      cases src with
      | nil => cases h; exact .plain nofun hq hs
      | cons t src => dsimp only at h; split at h <;> (cases h; first | trivial | exact .plain nofun hq hs)
    | tru => cases h; trivial
    | eof => cases src <;> cases h <;> first | trivial | exact .plain nofun hq hs
    | peek g =>
      simp only [matchG, matchStep] at h
      cases hm : matchG env sem f g src s with
      | none => rw [hm] at h; cases h
      | some r1 =>
        rw [hm] at h
        have h1 := ih _ _ _ _ (hsub _ _ .peek hq) hs hm
        cases r1 <;> cases h
        · trivial
        · exact .plain nofun hq hs
        · exact h1
    | not g =>
      simp only [matchG, matchStep] at h
      cases hm : matchG env sem f g src s with
      | none => rw [hm] at h; cases h
      | some r1 =>
        rw [hm] at h
        have h1 := ih _ _ _ _ (hsub _ _ .not hq) hs hm
        cases r1 <;> cases h
        · exact .plain nofun hq hs
        · trivial
        · exact h1
    | and gs =>
      exact (andLoop_iff.mp h).errIn rfl hq hs (fun g hg src s r h1 h2 => ih _ _ _ _ (hsub _ _ (.and hg) hq) h1 h2)
        (matchG_short f) (fun _ h => h) nofun (Nat.zero_le _)
    | or gs =>
      exact (orLoop_iff.mp h).errIn (by intro h; cases h) hq hs (fun g hg src s r h1 h2 => ih _ _ _ _ (hsub _ _ (.or hg) hq) h1 h2) (by intro e h; cases h)
    | rep0 id g =>
      simp only [matchG, matchStep] at h
      cases hm : repLoop (matchG env sem f) g f src 0 0 s with
      | none => rw [hm] at h; cases h
      | some r1 =>
        rw [hm] at h
        have := (repLoop_run hm).errIn hs (fun src s r h1 h2 => ih _ _ _ _ (hsub _ _ .rep0 hq) h1 h2)
        cases r1 <;> cases h
        · trivial
        · exact this
    | rep1 id g =>
      simp only [matchG, matchStep] at h
      cases hm : matchG env sem f g src s with
      | none => rw [hm] at h; cases h
      | some r1 =>
        rw [hm] at h
        have h1 := ih _ _ _ _ (hsub _ _ .rep1 hq) hs hm
        cases r1 with
        | fail n er s1 => cases h; exact h1
        | panic p s1 => cases h; exact h1
        | ok n s1 =>
          dsimp only at h
          split at h
          · cases hl : repLoop (matchG env sem f) g f (src.drop n) 0 0 s1 with
            | none => rw [hl] at h; cases h
            | some r2 =>
              rw [hl] at h
              have := (repLoop_run hl).errIn ((List.drop_suffix _ _).trans hs) (fun src s r h1 h2 => ih _ _ _ _ (hsub _ _ .rep1 hq) h1 h2)
              cases r2 <;> cases h
              · trivial
              · exact this
          · cases h; trivial
    | rep01 id g =>
      simp only [matchG, matchStep] at h
      cases hm : matchG env sem f g src s with
      | none => rw [hm] at h; cases h
      | some r1 =>
        rw [hm] at h
        have h1 := ih _ _ _ _ (hsub _ _ .rep01 hq) hs hm
        cases r1 <;> cases h
        · trivial
        · trivial
        · exact h1
    | list id a b l0 =>
      simp only [matchG, matchStep] at h
      cases hm : matchG env sem f a src s with
      | none => rw [hm] at h; cases h
      | some r1 =>
        rw [hm] at h
        have h1 := ih _ _ _ _ (hsub _ _ .listA hq) hs hm
        cases r1 with
        | fail n er s1 =>
          cases l0 <;> cases h
          · exact h1
          · trivial
        | panic p s1 => cases h; exact h1
        | ok n s1 =>
          dsimp only at h
          split at h
          · cases hl : repLoop (matchG env sem f) (.and [b, a]) f (src.drop n) n 1 s1 with
            | none => rw [hl] at h; cases h
            | some r2 =>
              rw [hl] at h
              have := (repLoop_run hl).errIn ((List.drop_suffix _ _).trans hs) (fun src s r h1 h2 => ih _ _ _ _ (hsub _ _ .listRest hq) h1 h2)
              cases r2 <;> cases h
              · trivial
              · exact this
          · cases h; trivial
    | var v =>
      simp only [matchG, matchStep] at h
      cases hv : env v with
      | none => rw [hv] at h; cases h; exact .var
      | some g => rw [hv] at h; exact ih _ _ _ _ (hsub _ _ (.var hv) hq) hs h
    | named nm g => exact ih g _ _ _ (hsub _ _ .named hq) hs h
    | action a g =>
      simp only [matchG, matchStep] at h
      cases hm : matchG env sem f g src s with
      | none => rw [hm] at h; cases h
      | some r1 =>
        rw [hm] at h
        have h1 := ih _ _ _ _ (hsub _ _ .action hq) hs hm
        cases r1 with
        | fail n er s1 => cases h; exact h1
        | panic p s1 => cases h; exact h1
        | ok n s1 =>
          dsimp only at h
          split at h
          · split at h
            · cases h
            · rename_i p s2 hp
              cases h
              cases p with
              | err e => exact absurd hp (hsem.act _ _ _ _ _ _ _ _)
              | _ => trivial
            · cases h; trivial
          · cases h; trivial
    | trans t g =>
      simp only [matchG, matchStep] at h
      cases hst : sem.start t s with
      | panic p s1 =>
        rw [hst] at h
        cases h
        cases p with
        | err e => exact absurd hst (hsem.start _ _ _ _)
        | _ => trivial
      | ok v s2 =>
        rw [hst] at h
        dsimp only at h
        cases hm : matchG env sem f g src s2 with
        | none => rw [hm] at h; cases h
        | some r1 =>
          rw [hm] at h
          have h1 := ih _ _ _ _ (hsub _ _ .trans hq) hs hm
          cases r1 with
          | panic p s1 => cases h; exact h1
          | ok n s1 =>
            dsimp only at h
            split at h <;> cases h
            · rename_i p s3 hp
              cases p with
              | err e => exact absurd hp (hsem.finish _ _ _ _ _ _)
              | _ => trivial
            · trivial
          | fail n e s1 =>
            dsimp only at h
            split at h <;> cases h
            · rename_i p s3 hp
              cases p with
              | err e => exact absurd hp (hsem.finish _ _ _ _ _ _)
              | _ => trivial
            · exact h1

/-! ### Printing -/

theorem GoRes.app_ok {a b : GoRes Str} (ha : a ≠ .panic) (hb : b ≠ .panic) : GoRes.app a b ≠ .panic := by
  cases a with
  | panic => exact absurd rfl ha
  | ok a => cases b with
    | panic => exact absurd rfl hb
    | ok b => nofun

theorem GoRes.paren_ok {b : Bool} {a : GoRes Str} (ha : a ≠ .panic) : GoRes.paren b a ≠ .panic := by
  unfold GoRes.paren
  split
  · exact app_ok nofun (app_ok ha nofun)
  · exact ha

theorem marshalAnd_ok {ttol names} : ∀ (gs : List (Gr A)) i,
    (∀ g ∈ gs, g ≠ .nil → ∀ lvl, g.marshal ttol names lvl ≠ .panic) → marshalAnd ttol names gs i ≠ .panic := by
  intro gs
  induction gs with
  | nil => intro i _; simp [marshalAnd]
  | cons g gs ih =>
    intro i h
    have h1 := ih (i + 1) (fun g hg => h g (.tail _ hg))
    cases g with
    | nil => simpa [marshalAnd] using h1
    | _ =>
      rw [marshalAnd]
      exact GoRes.app_ok nofun (GoRes.app_ok (h _ (.head _) nofun _) h1)
      nofun

theorem marshalOr_ok {ttol names} : ∀ (gs : List (Gr A)) i,
    (∀ g ∈ gs, ∀ lvl, g.marshal ttol names lvl ≠ .panic) → marshalOr ttol names gs i ≠ .panic := by
  intro gs
  induction gs with
  | nil => intro i _; simp [marshalOr]
  | cons g gs ih =>
    intro i h
    rw [marshalOr]
    exact GoRes.app_ok nofun (GoRes.app_ok (h _ (.head _) _) (ih (i + 1) (fun g hg => h g (.tail _ hg))))

theorem marshal_ok {ttol : Nat → GoRes Str} {names} {g : Gr A} (h : Printable (fun k => ttol k ≠ .panic) g) :
    ∀ lvl, g.marshal ttol names lvl ≠ .panic := by
  induction h with
  | tok h => intro _; exact h
  | tru | eof | var | named => intro _; simp [Gr.marshal]
  | peek _ ih | not _ ih | rep0 _ ih | rep1 _ ih | rep01 _ ih =>
    intro _; rw [Gr.marshal]; exact GoRes.app_ok nofun (ih _)
  | and _ ih => intro _; rw [Gr.marshal]; exact GoRes.paren_ok (marshalAnd_ok _ _ ih)
  | or _ ih => intro _; rw [Gr.marshal]; exact GoRes.paren_ok (marshalOr_ok _ _ ih)
  | list _ _ ih1 ih2 =>
    intro _; rw [Gr.marshal]
    exact GoRes.paren_ok (GoRes.app_ok (ih1 _) (GoRes.app_ok nofun (ih2 _)))
  | action _ ih | trans _ ih => intro _; rw [Gr.marshal]; exact ih _

end Tpl
