import Verif.Proof.Place
import Verif.Spec.Rename
import Verif.Proof.Order

/-! Other names for the rules of a grammar text. -/
namespace Tpl
open Spec
variable {A B σ V P : Type} {ρ : Str → Str} {mk : Marker B}

/-- The same variable. -/
def SameVar (g g' : Gr B) : Prop := ∃ v, g = .var v ∧ g' = .var v

/-- The same grammar up to names. -/
abbrev Ren : Gr B → Gr B → Prop := Akin Eq SameVar
abbrev Rens : List (Gr B) → List (Gr B) → Prop := Akins Eq SameVar

theorem ren_var (v : Nat) : Ren (B := B) (.var v) (.var v) := .ref (.inr ⟨v, rfl⟩) (.inr ⟨v, rfl⟩) ⟨v, rfl, rfl⟩

def GrRen (ρ : Str → Str) (a b : Str × Gr B) : Prop := b.1 = ρ a.1 ∧ Ren a.2 b.2
def VarRen (ρ : Str → Str) (a b : Str × Option (Gr B)) : Prop :=
  b.1 = ρ a.1 ∧ ((a.2 = none ∧ b.2 = none) ∨ ∃ g g', a.2 = some g ∧ b.2 = some g' ∧ Ren g g')

/-- The tables of a text and those of the text with other names. -/
structure TabRen (ρ : Str → Str) (t t' : Tab B) : Prop where
  gr : All2 (GrRen ρ) t.grammars t'.grammars
  vars : All2 (VarRen ρ) t.vars t'.vars
  tokens : t'.scanner.tokens = t.scanner.tokens
  keywords : t'.scanner.keywords = t.scanner.keywords

theorem lookup_ren (hρ : Renames ρ) {as bs : List (Str × Gr B)} (h : All2 (GrRen ρ) as bs) (n : Str) :
    (as.lookup n = none ∧ bs.lookup (ρ n) = none) ∨ ∃ g g', as.lookup n = some g ∧ bs.lookup (ρ n) = some g' ∧ Ren g g' := by
  induction h with
  | nil => exact .inl ⟨rfl, rfl⟩
  | @cons a b as bs h1 _ ih =>
    obtain ⟨m, g⟩ := a
    obtain ⟨m', g'⟩ := b
    obtain ⟨rfl, h2⟩ : m' = ρ m ∧ Ren g g' := h1
    by_cases hm : n = m
    · subst hm
      simp only [List.lookup_cons, beq_self_eq_true]
      exact .inr ⟨_, _, rfl, rfl, h2⟩
    · have e1 : (n == m) = false := by simpa using hm
      have e2 : (ρ n == ρ m) = false := by
        cases e : ρ n == ρ m with
        | false => rfl
        | true => exact absurd (hρ.inj _ _ (by simpa using e)) hm
      simp only [List.lookup_cons, e1, e2]
      exact ih

theorem varNo_ren (hρ : Renames ρ) {as bs : List (Str × Option (Gr B))} (h : All2 (VarRen ρ) as bs) (n : Str) : varNo (ρ n) bs = varNo n as := by
  induction h with
  | nil => rfl
  | @cons a b as bs h1 _ ih =>
    unfold varNo
    rw [h1.1, ih]
    by_cases e : a.1 = n
    · rw [if_pos e, if_pos (congrArg ρ e)]
    · rw [if_neg e, if_neg fun h => e (hρ.inj _ _ h)]

/-- What is left of the two compilations. -/
inductive Den3 {α : Type} (ρ : Str → Str) (rel : α → α → Prop) : Except ClPanic (α × Tab B) → Except ClPanic (α × Tab B) → Prop
  | err (e e') : Den3 ρ rel (.error e) (.error e')
  | ok {x x' u u'} : TabRen ρ u u' → rel x x' → Den3 ρ rel (.ok (x, u)) (.ok (x', u'))

theorem Den3.bind {α β : Type} {rel : α → α → Prop} {rel2 : β → β → Prop} {d d'} (h : Den3 (B := B) ρ rel d d') {f f' : α × Tab B → Except ClPanic (β × Tab B)}
    (hf : ∀ x x' u u', TabRen ρ u u' → rel x x' → Den3 ρ rel2 (f (x, u)) (f' (x', u'))) : Den3 ρ rel2 (d.bind f) (d'.bind f') := by
  cases h with
  | err e e' => exact .err e e'
  | ok a b => exact hf _ _ _ _ a b

theorem newObj_ren {t t' : Tab B} (h : TabRen ρ t t') (f f' : Nat → Gr B) : TabRen ρ (newObj f t).2 (newObj f' t').2 :=
  ⟨h.gr, h.vars, h.tokens, h.keywords⟩

theorem tokenOf_ren {t t' : Tab B} (h : TabRen ρ t t') (l : Str) : Den3 ρ Ren (tokenOf l t) (tokenOf l t') := by
  have key : (t.scanner.ltot l = .panic ∧ t'.scanner.ltot l = .panic) ∨
      ∃ n k k', t.scanner.ltot l = .ok (n, k) ∧ t'.scanner.ltot l = .ok (n, k') ∧ k'.tokens = k.tokens ∧ k'.keywords = k.keywords := by
    unfold KwScanner.ltot
    rw [h.keywords, h.tokens]
    dsimp only
    split
    · exact .inr ⟨_, _, _, rfl, rfl, h.tokens, h.keywords⟩
    · split
      · exact .inl ⟨rfl, rfl⟩
      · split
        · split
          · exact .inl ⟨rfl, rfl⟩
          · split
            · exact .inr ⟨_, _, _, rfl, rfl, h.tokens, h.keywords⟩
            · split
              · exact .inl ⟨rfl, rfl⟩
              · exact .inr ⟨_, _, _, rfl, rfl, rfl, rfl⟩
        · exact .inr ⟨_, _, _, rfl, rfl, h.tokens, h.keywords⟩
  unfold tokenOf
  rcases key with ⟨e1, e2⟩ | ⟨n, k, k', e1, e2, h1, h2⟩
  · rw [e1, e2]; exact .err _ _
  · rw [e1, e2]
    cases n with
    | zero => exact .err _ _
    | succ n => exact .ok ⟨h.gr, h.vars, h1, h2⟩ (.tok rfl)

theorem nameOf_ren (hρ : Renames ρ) {t t' : Tab B} (h : TabRen ρ t t') (n : Str) : Den3 ρ Ren (nameOf n t) (nameOf (ρ n) t') := by
  unfold nameOf
  by_cases h0 : n = []
  · subst h0; rw [if_pos rfl, if_pos hρ.nil]; exact .err _ _
  have h0' : ρ n ≠ [] := fun e => h0 (hρ.inj _ _ (e.trans hρ.nil.symm))
  rw [if_neg h0, if_neg h0']
  by_cases hu : isUpper n = true
  · rw [if_pos hu, hρ.upper n hu, if_pos hu]; exact tokenOf_ren h n
  have hu' : isUpper n = false := by simpa using hu
  have hu2 : ¬ isUpper (ρ n) = true := by rw [hρ.lower n hu']; simp
  rw [if_neg hu, if_neg hu2, varNo_ren hρ h.vars n]
  rcases lookup_ren hρ h.gr n with ⟨e1, e2⟩ | ⟨g1, g1', e1, e2, hl⟩
  · rw [e1, e2]
    cases varNo n t.vars with
    | some v => exact .ok h (ren_var v)
    | none =>
      dsimp only
      by_cases ht : n = bytes "true"
      · rw [if_pos ht, if_pos (by rw [ht, hρ.tru])]
        exact .ok h .tru
      · have ht' : ρ n ≠ bytes "true" := fun e => ht (hρ.inj _ _ (e.trans hρ.tru.symm))
        rw [if_neg ht, if_neg ht', ← h.vars.length]
        exact .ok ⟨h.gr, h.vars.append (.cons ⟨rfl, .inl ⟨rfl, rfl⟩⟩ .nil), h.tokens, h.keywords⟩ (ren_var _)
  · rw [e1, e2]
    exact .ok h (.named hl)

theorem oneOrAnd_ren {gs gs' : List (Gr B)} (h : Rens gs gs') : Ren (oneOrAnd gs) (oneOrAnd gs') := by
  cases h with
  | nil => exact .and .nil
  | cons h1 h2 =>
    cases h2 with
    | nil => exact h1
    | cons h2 h3 => exact .and (.cons h1 (.cons h2 h3))

theorem oneOrOr_ren {gs gs' : List (Gr B)} (h : Rens gs gs') : Ren (oneOrOr gs) (oneOrOr gs') := by
  cases h with
  | nil => exact .or .nil
  | cons h1 h2 =>
    cases h2 with
    | nil => exact h1
    | cons h2 h3 => exact .or (.cons h1 (.cons h2 h3))

section
variable (hmk : Uniform mk) (hρ : Renames ρ)
include hmk hρ

mutual
theorem fac_ren : ∀ (f : Fac) {t t' : Tab B}, TabRen ρ t t' → Den3 ρ Ren (f.den mk t) ((f.rename ρ).den mk t')
  | .ident n, t, t', h => nameOf_ren hρ h n
  | .char l, t, t', h => tokenOf_ren h l
  | .string l, t, t', h => tokenOf_ren h l
  | .int l, t, t', h => by
    simp only [Fac.rename, Fac.den]
    split
    · exact .ok h .tru
    · exact .err _ _
  | .rep0 f, t, t', h => (fac_ren f h).bind fun x x' u u' hu hx => .ok (newObj_ren hu (.rep0 · x) (.rep0 · x')) (.rep0 hx)
  | .rep1 f, t, t', h => (fac_ren f h).bind fun x x' u u' hu hx => .ok (newObj_ren hu (.rep1 · x) (.rep1 · x')) (.rep1 hx)
  | .rep01 f, t, t', h => (fac_ren f h).bind fun x x' u u' hu hx => .ok (newObj_ren hu (.rep01 · x) (.rep01 · x')) (.rep01 hx)
  | .not f, t, t', h => (fac_ren f h).bind fun x x' u u' hu hx => .ok hu (.not hx)
  | .peek f, t, t', h => (fac_ren f h).bind fun x x' u u' hu hx => .ok hu (.peek hx)
  | .paren g, t, t', h => (alts_ren g h).bind fun x x' u u' hu hx => .ok hu (oneOrOr_ren hx)
theorem sufs_ren : ∀ (s : Sufs) {t t' : Tab B} {a a' : Gr B}, TabRen ρ t t' → Ren a a' → Den3 ρ Ren (s.den mk a t) ((s.rename ρ).den mk a' t')
  | .nil, t, t', a, a', h, ha => .ok h ha
  | .list f r, t, t', a, a', h, ha => (fac_ren f h).bind fun x x' u u' hu hx =>
    sufs_ren r (newObj_ren hu (.list · a x false) (.list · a' x' false)) (.list ha hx)
  | .list0 f r, t, t', a, a', h, ha => (fac_ren f h).bind fun x x' u u' hu hx =>
    sufs_ren r (newObj_ren hu (.list · a x true) (.list · a' x' true)) (.list ha hx)
  | .mark n r, t, t', a, a', h, ha => by
    simp only [Sufs.rename, Sufs.den]
    rcases hmk n with e | ⟨l, e⟩ | ⟨l, e⟩ | ⟨p, e⟩
    · rw [e, e]; exact sufs_ren r h ha
    · rw [e, e]; exact sufs_ren r h (.action ha)
    · rw [e, e]; exact sufs_ren r h (.trans ha)
    · rw [e, e]; exact .err _ _
theorem item_ren : ∀ (i : Item) {t t' : Tab B}, TabRen ρ t t' → Den3 ρ Ren (i.den mk t) ((i.rename ρ).den mk t')
  | .term f s, t, t', h => (fac_ren f h).bind fun x x' u u' hu hx => sufs_ren s hu hx
  | .cut, t, t', h => .ok h .nil
theorem seq_ren : ∀ (s : ItemSeq) {t t' : Tab B}, TabRen ρ t t' → Den3 ρ Rens (s.den mk t) ((s.rename ρ).den mk t')
  | .nil, t, t', h => .ok h .nil
  | .cons i r, t, t', h => (item_ren i h).bind fun x x' u u' hu hx => (seq_ren r hu).bind fun y y' v v' hv hy => .ok hv (.cons hx hy)
theorem alts_ren : ∀ (a : Alts) {t t' : Tab B}, TabRen ρ t t' → Den3 ρ Rens (a.den mk t) ((a.rename ρ).den mk t')
  | .one i is, t, t', h => (item_ren i h).bind fun x x' u u' hu hx => (seq_ren is hu).bind fun y y' v v' hv hy =>
    .ok hv (.cons (oneOrAnd_ren (.cons hx hy)) .nil)
  | .alt i is r, t, t', h => (item_ren i h).bind fun x x' u u' hu hx => (seq_ren is hu).bind fun y y' v v' hv hy =>
    (alts_ren r hv).bind fun z z' w w' hw hz => .ok hw (.cons (oneOrAnd_ren (.cons hx hy)) hz)
end

omit hmk in
theorem define_ren {t t' : Tab B} (h : TabRen ρ t t') (n : Str) {g g' : Gr B} (hg : Ren g g') :
    (∃ e e', define n g t = .error e ∧ define (ρ n) g' t' = .error e') ∨ ∃ u u', define n g t = .ok u ∧ define (ρ n) g' t' = .ok u' ∧ TabRen ρ u u' := by
  unfold define
  rw [varNo_ren hρ h.vars n]
  cases hv : varNo n t.vars with
  | some v =>
    dsimp only
    rcases h.vars.get v with ⟨e1, e2⟩ | ⟨⟨a, o⟩, ⟨b, o'⟩, e1, e2, hab⟩
    · obtain ⟨o, ho⟩ := varNo_some hv
      rw [e1] at ho; cases ho
    · rw [e1, e2]
      rcases hab.2 with ⟨h1, h2⟩ | ⟨x, x', h1, h2, _⟩
      · dsimp only at h1 h2
        subst h1 h2
        by_cases hn : g = .nil
        · have hn' := hg.nil_iff.mp hn
          subst hn hn'
          exact .inr ⟨_, _, rfl, rfl, h⟩
        · have hn' : g' ≠ .nil := fun e => hn (hg.nil_iff.mpr e)
          have hset : TabRen ρ { t with vars := t.vars.set v (n, some g) } { t' with vars := t'.vars.set v (ρ n, some g') } :=
            ⟨h.gr, h.vars.set v ⟨rfl, .inr ⟨_, _, rfl, rfl, hg⟩⟩, h.tokens, h.keywords⟩
          refine .inr ⟨_, _, ?_, ?_, hset⟩
          · cases g with
            | nil => exact absurd rfl hn
            | _ => rfl
          · cases g' with
            | nil => exact absurd rfl hn'
            | _ => rfl
      · dsimp only at h1 h2
        subst h1 h2
        exact .inl ⟨_, _, rfl, rfl⟩
  | none =>
    rcases lookup_ren hρ h.gr n with ⟨e1, e2⟩ | ⟨g1, g1', e1, e2, _⟩
    · rw [e1, e2]
      exact .inr ⟨_, _, rfl, rfl, .cons ⟨rfl, hg⟩ h.gr, h.vars, h.tokens, h.keywords⟩
    · rw [e1, e2]
      exact .inl ⟨_, _, rfl, rfl⟩

theorem doc_ren : ∀ (rs : List Rule) {t t' : Tab B}, TabRen ρ t t' →
    (∃ e e', denDoc mk rs t = .error e ∧ denDoc mk (rs.map (Rule.rename ρ)) t' = .error e') ∨
      ∃ u u', denDoc mk rs t = .ok u ∧ denDoc mk (rs.map (Rule.rename ρ)) t' = .ok u' ∧ TabRen ρ u u'
  | [], t, t', h => .inr ⟨t, t', rfl, rfl, h⟩
  | r :: rs, t, t', h => by
    simp only [List.map_cons, denDoc, Rule.den]
    have h1 := alts_ren hmk hρ r.body h
    change Den3 ρ Rens _ ((r.rename ρ).body.den mk t') at h1
    generalize r.body.den mk t = d at h1
    generalize (r.rename ρ).body.den mk t' = d' at h1
    cases h1 with
    | err e e' => exact .inl ⟨e, e', rfl, rfl⟩
    | @ok x x' u u' hu hx =>
      rcases define_ren hρ hu r.name (oneOrOr_ren hx) with ⟨e, e', h2, h3⟩ | ⟨v, v', h2, h3, hv⟩
      · refine .inl ⟨e, e', ?_, ?_⟩
        · show Except.bind (define r.name (oneOrOr x) u) _ = _
          rw [h2]; rfl
        · show Except.bind (define (ρ r.name) (oneOrOr x') u') _ = _
          rw [h3]; rfl
      · have a1 : Except.bind (define r.name (oneOrOr x) u) (fun t => denDoc mk rs t) = denDoc mk rs v := by rw [h2]; rfl
        have a2 : Except.bind (define (ρ r.name) (oneOrOr x') u') (fun t => denDoc mk (rs.map (Rule.rename ρ)) t) = denDoc mk (rs.map (Rule.rename ρ)) v' := by rw [h3]; rfl
        have := doc_ren rs hv
        rw [← a1, ← a2] at this
        exact this
end


/-- References lead to grammars that are the same up to names. -/
theorem TabRen.linked {t t' : Tab B} (h : TabRen ρ t t') : Linked t.env t'.env Eq (SameVar (B := B)) := by
  refine ⟨kindRel_eq, ?_⟩
  rintro _ _ ⟨v, rfl, rfl⟩
  unfold Tab.env
  rcases h.vars.get v with ⟨e1, e2⟩ | ⟨⟨a, o⟩, ⟨b, o'⟩, e1, e2, hab⟩
  · exact .inl ⟨v, v, rfl, rfl, by rw [e1]; rfl, by rw [e2]; rfl⟩
  · rcases hab.2 with ⟨h1, h2⟩ | ⟨x, x', h1, h2, hx⟩
    · dsimp only at h1 h2
      subst h1 h2
      exact .inl ⟨v, v, rfl, rfl, by rw [e1]; rfl, by rw [e2]; rfl⟩
    · dsimp only at h1 h2
      subst h1 h2
      exact .inr ⟨x, x', .inr ⟨v, rfl, by dsimp only; rw [e1]; rfl⟩, .inr ⟨v, rfl, by dsimp only; rw [e2]; rfl⟩, hx⟩

end Tpl
