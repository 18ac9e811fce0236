import Verif.Spec.Crash
import Verif.Proof.MatchBound
import Verif.Proof.CompilerNames

/-! Grammars in which the nil interface is only a marker inside of sequences do not crash. -/
namespace Tpl
open Spec
variable {A B σ V P : Type}

/-- The nil interface is nowhere but in sequences. -/
inductive Intact : Gr A → Prop
  | tok (k) : Intact (.tok k)
  | tru : Intact .tru
  | eof : Intact .eof
  | peek {g} : Intact g → Intact (.peek g)
  | not {g} : Intact g → Intact (.not g)
  | and {gs} : (∀ g ∈ gs, g ≠ .nil → Intact g) → Intact (.and gs)
  | or {gs} : (∀ g ∈ gs, Intact g) → Intact (.or gs)
  | rep0 {id g} : Intact g → Intact (.rep0 id g)
  | rep1 {id g} : Intact g → Intact (.rep1 id g)
  | rep01 {id g} : Intact g → Intact (.rep01 id g)
  | list {id a b l} : Intact a → Intact b → Intact (.list id a b l)
  | var (v) : Intact (.var v)
  | named {n g} : Intact g → Intact (.named n g)
  | action {a g} : Intact g → Intact (.action a g)
  | trans {a g} : Intact g → Intact (.trans a g)

theorem Intact.ne {g : Gr A} (h : Intact g) : g ≠ .nil := by
  rintro rfl; cases h

/-- No crash. -/
def Res.Calm : Res A σ P → Prop
  | .panic p _ => ¬ Crash p
  | _ => True

def LoopRes.Calm : LoopRes A σ P → Prop
  | .panic p _ => ¬ Crash p
  | _ => True

variable {m : Mat A σ P}

/-- A matcher that does not crash for whole grammars and whose counts are right. -/
structure MatFine (m : Mat A σ P) : Prop where
  calm : ∀ g src s r, Intact g → m g src s = some r → r.Calm
  short : ∀ g src s r, m g src s = some r → r.Short src.length

theorem andLoop_calm (hm : MatFine m) {all : Gr A} {src : List Token} :
    ∀ (gs : List (Gr A)), (∀ g ∈ gs, g ≠ .nil → Intact g) → ∀ ff n s r, n ≤ src.length → andLoop m all src gs ff n s = some r → r.Calm
  | [], _, ff, n, s, r, hn, h => by unfold andLoop at h; cases h; trivial
  | g :: gs, hw, ff, n, s, r, hn, h => by
    have ih := andLoop_calm hm (all := all) (src := src) gs (fun g hg => hw g (List.mem_cons_of_mem _ hg))
    by_cases hg : g = .nil
    · subst hg
      unfold andLoop at h
      exact ih _ _ _ _ hn h
    · have hwg := hw g List.mem_cons_self hg
      have h : (if n ≤ src.length then
          match m g (src.drop n) s with
          | none => none
          | some (.panic p s) => some (.panic p s)
          | some (.fail n1 err1 s) =>
            if ff then some (.panic (.err (.mismatch all src (some err1) (n + n1))) s)
            else some (.fail (n + n1) err1 s)
          | some (.ok n1 s) => andLoop m all src gs ff (n + n1) s
        else some (.panic .slice s)) = some r := by
        cases g <;> first | exact absurd rfl hg | exact h
      rw [if_pos hn] at h
      cases hx : m g (src.drop n) s with
      | none => rw [hx] at h; cases h
      | some x =>
        rw [hx] at h
        have hc := hm.calm _ _ _ _ hwg hx
        have hs := hm.short _ _ _ _ hx
        cases x with
        | panic p s => cases h; exact hc
        | fail n1 e s =>
          dsimp only at h
          split at h <;> cases h
          · intro hc; cases hc
          · trivial
        | ok n1 s =>
          simp only [Res.Short, List.length_drop] at hs
          exact ih _ _ _ _ (by omega) h

theorem orLoop_calm (hm : MatFine m) {all : Gr A} {src : List Token} :
    ∀ (gs : List (Gr A)), (∀ g ∈ gs, Intact g) → ∀ nM eM mu s r, orLoop m all src gs nM eM mu s = some r → r.Calm
  | [], _, nM, eM, mu, s, r, h => by
    unfold orLoop at h
    split at h
    · cases h; trivial
    · split at h <;> cases h <;> trivial
  | g :: gs, hw, nM, eM, mu, s, r, h => by
    have ih := orLoop_calm hm (all := all) (src := src) gs (fun g hg => hw g (List.mem_cons_of_mem _ hg))
    unfold orLoop at h
    cases hx : m g src s with
    | none => rw [hx] at h; cases h
    | some x =>
      rw [hx] at h
      have hc := hm.calm _ _ _ _ (hw g List.mem_cons_self) hx
      cases x with
      | panic p s => cases h; exact hc
      | ok n s => cases h; trivial
      | fail n e s =>
        dsimp only at h
        split at h
        · split at h <;> exact ih _ _ _ _ _ h
        · exact ih _ _ _ _ _ h

theorem repLoop_calm (hm : MatFine m) {g : Gr A} (hw : Intact g) :
    ∀ f src n k s r, repLoop m g f src n k s = some r → r.Calm
  | 0, src, n, k, s, r, h => by cases h
  | f + 1, src, n, k, s, r, h => by
    unfold repLoop at h
    cases hx : m g src s with
    | none => rw [hx] at h; cases h
    | some x =>
      rw [hx] at h
      have hc := hm.calm _ _ _ _ hw hx
      have hs := hm.short _ _ _ _ hx
      cases x with
      | panic p s => cases h; exact hc
      | fail n1 e s => cases h; trivial
      | ok n1 s =>
        dsimp only at h
        rw [if_pos (show _ ≤ _ from hs)] at h
        exact repLoop_calm hm hw f _ _ _ _ _ h

variable {env : Env A} {sem : Sem A σ V P}

/-- A whole grammar does not crash if what variables stand for is whole and callbacks do not. -/
theorem matchG_calm (he : ∀ v g, env v = some g → Intact g) (hd : Decent Intact sem) :
    ∀ f g src s r, Intact g → matchG env sem f g src s = some r → r.Calm := by
  intro f
  induction f with
  | zero => intro g src s r _ h; cases h
  | succ f ih =>
    have hm : MatFine (matchG env sem f) := ⟨ih, matchG_short f⟩
    intro g src s r hw h
    cases g with
    | nil => cases hw
    | tok k =>
      simp only [matchG, matchStep] at h
      cases src with
      | nil => cases h; trivial
      | cons t src => dsimp only at h; split at h <;> (cases h; trivial)
    | tru => cases h; trivial
    | eof => cases src <;> (cases h; trivial)
    | peek g | not g =>
      have hw : Intact g := by cases hw; assumption
      simp only [matchG, matchStep] at h
      cases hx : matchG env sem f g src s with
      | none => rw [hx] at h; cases h
      | some x =>
        rw [hx] at h
        have hc := ih _ _ _ _ hw hx
        cases x <;> cases h <;> first | trivial | exact hc
    | and gs => cases hw with | and hw => exact andLoop_calm hm gs hw _ _ _ _ (Nat.zero_le _) h
    | or gs => cases hw with | or hw => exact orLoop_calm hm gs hw _ _ _ _ _ h
    | rep0 id g =>
      cases hw with
      | rep0 hw =>
      simp only [matchG, matchStep] at h
      cases hx : repLoop (matchG env sem f) g f src 0 0 s with
      | none => rw [hx] at h; cases h
      | some x =>
        rw [hx] at h
        have hc := repLoop_calm hm hw _ _ _ _ _ _ hx
        cases x <;> cases h <;> first | trivial | exact hc
    | rep1 id g =>
      cases hw with
      | rep1 hw =>
      simp only [matchG, matchStep] at h
      cases hx : matchG env sem f g src s with
      | none => rw [hx] at h; cases h
      | some x =>
        rw [hx] at h
        have hc := ih _ _ _ _ hw hx
        have hs := hm.short _ _ _ _ hx
        cases x with
        | panic p s => cases h; exact hc
        | fail n e s => cases h; trivial
        | ok n s1 =>
          dsimp only at h
          rw [if_pos (show _ ≤ _ from hs)] at h
          cases hy : repLoop (matchG env sem f) g f (src.drop n) 0 0 s1 with
          | none => rw [hy] at h; cases h
          | some y =>
            rw [hy] at h
            have hc := repLoop_calm hm hw _ _ _ _ _ _ hy
            cases y <;> cases h <;> first | trivial | exact hc
    | rep01 id g =>
      cases hw with
      | rep01 hw =>
      simp only [matchG, matchStep] at h
      cases hx : matchG env sem f g src s with
      | none => rw [hx] at h; cases h
      | some x =>
        rw [hx] at h
        have hc := ih _ _ _ _ hw hx
        cases x <;> cases h <;> first | trivial | exact hc
    | list id a b l =>
      cases hw with
      | list ha hb =>
      simp only [matchG, matchStep] at h
      cases hx : matchG env sem f a src s with
      | none => rw [hx] at h; cases h
      | some x =>
        rw [hx] at h
        have hc := ih _ _ _ _ ha hx
        have hs := hm.short _ _ _ _ hx
        cases x with
        | panic p s => cases h; exact hc
        | fail n e s => dsimp only at h; split at h <;> cases h <;> trivial
        | ok n s1 =>
          dsimp only at h
          rw [if_pos (show _ ≤ _ from hs)] at h
          cases hy : repLoop (matchG env sem f) (.and [b, a]) f (src.drop n) n 1 s1 with
          | none => rw [hy] at h; cases h
          | some y =>
            rw [hy] at h
            have hw : Intact (.and [b, a]) := .and (by
              intro g hg _
              simp only [List.mem_cons, List.not_mem_nil, or_false] at hg
              rcases hg with rfl | rfl <;> assumption)
            have hc := repLoop_calm hm hw _ _ _ _ _ _ hy
            cases y <;> cases h <;> first | trivial | exact hc
    | var v =>
      simp only [matchG, matchStep] at h
      cases hv : env v with
      | none => rw [hv] at h; cases h; trivial
      | some g => rw [hv] at h; exact ih _ _ _ _ (he v g hv) h
    | named n g =>
      cases hw with
      | named hw =>
      exact ih _ _ _ _ hw h
    | action a g =>
      cases hw with
      | action hw =>
      simp only [matchG, matchStep] at h
      cases hx : matchG env sem f g src s with
      | none => rw [hx] at h; cases h
      | some x =>
        rw [hx] at h
        have hc := ih _ _ _ _ hw hx
        have hs := hm.short _ _ _ _ hx
        cases x with
        | panic p s => cases h; exact hc
        | fail n e s => cases h; trivial
        | ok n s1 =>
          dsimp only at h
          rw [if_pos (show _ ≤ _ from hs)] at h
          cases hy : sem.act f (matchG env sem f) a g (src.take n) s1 with
          | none => rw [hy] at h; cases h
          | some y =>
            rw [hy] at h
            cases y with
            | ok _ s2 => cases h; trivial
            | panic p s2 =>
              cases h
              exact hd.act f _ (fun g src s p s' hg h => ih g src s _ hg h) _ _ _ _ _ _ hy
    | trans a g =>
      cases hw with
      | trans hw =>
      simp only [matchG, matchStep] at h
      cases hz : sem.start a s with
      | panic p s1 => rw [hz] at h; cases h; exact hd.start _ _ _ _ hz
      | ok v s1 =>
        rw [hz] at h
        dsimp only at h
        cases hx : matchG env sem f g src s1 with
        | none => rw [hx] at h; cases h
        | some x =>
          rw [hx] at h
          have hc := ih _ _ _ _ hw hx
          cases x with
          | panic p s => cases h; exact hc
          | ok n s2 =>
            dsimp only at h
            cases hy : sem.finish a v none s2 with
            | ok _ s3 => rw [hy] at h; cases h; trivial
            | panic p s3 => rw [hy] at h; cases h; exact hd.finish _ _ _ _ _ _ hy
          | fail n e s2 =>
            dsimp only at h
            cases hy : sem.finish a v (some e) s2 with
            | ok _ s3 => rw [hy] at h; cases h; trivial
            | panic p s3 => rw [hy] at h; cases h; exact hd.finish _ _ _ _ _ _ hy

/-! ### Compiled grammars -/

/-- The tables hold whole grammars. -/
structure IntactTab (t : Tab B) : Prop where
  grammars : ∀ n g, t.grammars.lookup n = some g → Intact g
  vars : ∀ (v : Nat) n g, t.vars[v]? = some (n, some g) → Intact g

/-- Markers keep grammars whole. -/
def KeepsIntact (mk : Marker B) : Prop := ∀ a n g, mk a n = .ok g → Intact a → Intact g

theorem tokenOf_intact {lit : Str} {t : Tab B} {x : Gr B × Tab B} (h : tokenOf lit t = .ok x) (ht : IntactTab t) : Intact x.1 ∧ IntactTab x.2 := by
  unfold tokenOf at h
  split at h
  · cases h
  · cases h; exact ⟨.tok _, ⟨ht.grammars, ht.vars⟩⟩
  · cases h

theorem nameOf_intact {n : Str} {t : Tab B} {x : Gr B × Tab B} (h : nameOf n t = .ok x) (ht : IntactTab t) : Intact x.1 ∧ IntactTab x.2 := by
  unfold nameOf at h
  split at h
  · cases h
  · split at h
    · exact tokenOf_intact h ht
    · split at h
      · rename_i g hg
        cases h
        exact ⟨.named (ht.grammars _ _ hg), ht⟩
      · cases h; exact ⟨.var _, ht⟩
      · split at h
        · cases h; exact ⟨.tru, ht⟩
        · cases h
          refine ⟨.var _, ht.grammars, fun v m g hv => ?_⟩
          dsimp only at hv
          rw [List.getElem?_append] at hv
          split at hv
          · exact ht.vars v m g hv
          · cases hi : v - t.vars.length with
            | zero => rw [hi] at hv; cases hv
            | succ i => rw [hi] at hv; cases hv

theorem newObj_intact {f : Nat → Gr B} {t : Tab B} (hf : ∀ i, Intact (f i)) (ht : IntactTab t) : Intact (newObj f t).1 ∧ IntactTab (newObj f t).2 :=
  ⟨hf _, ht.grammars, ht.vars⟩

/-- One item is not nil; of several any may be. -/
theorem oneOrAnd_intact {gs : List (Gr B)} (h1 : ∀ g ∈ gs, g ≠ .nil → Intact g) (h2 : ∀ g, gs = [g] → g ≠ .nil) : Intact (oneOrAnd gs) := by
  match gs, h1, h2 with
  | [], h1, _ => exact .and h1
  | [g], h1, h2 => exact h1 g List.mem_cons_self (h2 g rfl)
  | _ :: _ :: _, h1, _ => exact .and h1

theorem oneOrOr_intact {gs : List (Gr B)} (h1 : ∀ g ∈ gs, Intact g) : Intact (oneOrOr gs) := by
  match gs, h1 with
  | [], h1 => exact .or h1
  | [g], h1 => exact h1 g List.mem_cons_self
  | _ :: _ :: _, h1 => exact .or h1

variable {mk : Marker B}

/-- What an item gives: nil if it is `!`. -/
def ItemIntact (i : Item) (g : Gr B) : Prop := (i = .cut → g = .nil) ∧ (i ≠ .cut → Intact g)

theorem seq_len : ∀ (s : ItemSeq) {t : Tab B} {x : List (Gr B) × Tab B}, s.den mk t = .ok x → s ≠ .nil → x.1 ≠ []
  | .nil, t, x, _, hn => absurd rfl hn
  | .cons i r, t, x, h, _ => by
    simp only [ItemSeq.den] at h
    obtain ⟨y, _, h⟩ := bind_ok h
    obtain ⟨z, _, h⟩ := bind_ok h
    cases h
    nofun

/-- One sequence. -/
theorem one_intact {i : Item} {is : ItemSeq} {t1 : Tab B} {g : Gr B} {y : List (Gr B) × Tab B} (hi : ItemIntact i g)
    (hs : is.den mk t1 = .ok y) (hw : ∀ g ∈ y.1, g ≠ .nil → Intact g) (hc : ¬ (i = .cut ∧ is = .nil)) : Intact (oneOrAnd (g :: y.1)) := by
  refine oneOrAnd_intact (fun x hx hne => ?_) fun x hx => ?_
  · rcases List.mem_cons.mp hx with rfl | hx
    · by_cases hic : i = .cut
      · exact absurd (hi.1 hic) hne
      · exact hi.2 hic
    · exact hw x hx hne
  · injection hx with h1 h2
    subst h1
    by_cases hic : i = .cut
    · exact absurd h2 (seq_len is hs fun h => hc ⟨hic, h⟩)
    · exact (hi.2 hic).ne

mutual
theorem fac_intact (hm : KeepsIntact mk) : ∀ (f : Fac) {t : Tab B} {x : Gr B × Tab B}, f.loneCut = false → f.den mk t = .ok x → IntactTab t →
    Intact x.1 ∧ IntactTab x.2
  | .ident n, t, x, _, h, ht => nameOf_intact h ht
  | .char l, t, x, _, h, ht => tokenOf_intact h ht
  | .string l, t, x, _, h, ht => tokenOf_intact h ht
  | .int l, t, x, _, h, ht => by
    simp only [Fac.den] at h
    split at h <;> cases h
    exact ⟨.tru, ht⟩
  | .rep0 f, t, x, hl, h, ht => by
    simp only [Fac.den] at h
    obtain ⟨y, h1, h⟩ := bind_ok h
    cases h
    obtain ⟨a, b⟩ := fac_intact hm f (by simpa only [Fac.loneCut] using hl) h1 ht
    exact newObj_intact (fun _ => .rep0 a) b
  | .rep1 f, t, x, hl, h, ht => by
    simp only [Fac.den] at h
    obtain ⟨y, h1, h⟩ := bind_ok h
    cases h
    obtain ⟨a, b⟩ := fac_intact hm f (by simpa only [Fac.loneCut] using hl) h1 ht
    exact newObj_intact (fun _ => .rep1 a) b
  | .rep01 f, t, x, hl, h, ht => by
    simp only [Fac.den] at h
    obtain ⟨y, h1, h⟩ := bind_ok h
    cases h
    obtain ⟨a, b⟩ := fac_intact hm f (by simpa only [Fac.loneCut] using hl) h1 ht
    exact newObj_intact (fun _ => .rep01 a) b
  | .not f, t, x, hl, h, ht => by
    simp only [Fac.den] at h
    obtain ⟨y, h1, h⟩ := bind_ok h
    cases h
    obtain ⟨a, b⟩ := fac_intact hm f (by simpa only [Fac.loneCut] using hl) h1 ht
    exact ⟨.not a, b⟩
  | .peek f, t, x, hl, h, ht => by
    simp only [Fac.den] at h
    obtain ⟨y, h1, h⟩ := bind_ok h
    cases h
    obtain ⟨a, b⟩ := fac_intact hm f (by simpa only [Fac.loneCut] using hl) h1 ht
    exact ⟨.peek a, b⟩
  | .paren g, t, x, hl, h, ht => by
    simp only [Fac.den] at h
    obtain ⟨y, h1, h⟩ := bind_ok h
    cases h
    obtain ⟨a, b⟩ := alts_intact hm g (by simpa only [Fac.loneCut] using hl) h1 ht
    exact ⟨oneOrOr_intact a, b⟩
theorem sufs_intact (hm : KeepsIntact mk) : ∀ (s : Sufs) {a : Gr B} {t : Tab B} {x : Gr B × Tab B}, s.loneCut = false → s.den mk a t = .ok x →
    Intact a → IntactTab t → Intact x.1 ∧ IntactTab x.2
  | .nil, a, t, x, _, h, ha, ht => by cases h; exact ⟨ha, ht⟩
  | .list f r, a, t, x, hl, h, ha, ht => by
    simp only [Sufs.loneCut, Bool.or_eq_false_iff] at hl
    simp only [Sufs.den] at h
    obtain ⟨y, h1, h⟩ := bind_ok h
    obtain ⟨c, d⟩ := fac_intact hm f hl.1 h1 ht
    obtain ⟨c, d⟩ := newObj_intact (f := (.list · a y.1 false)) (fun _ => .list ha c) d
    exact sufs_intact hm r hl.2 h c d
  | .list0 f r, a, t, x, hl, h, ha, ht => by
    simp only [Sufs.loneCut, Bool.or_eq_false_iff] at hl
    simp only [Sufs.den] at h
    obtain ⟨y, h1, h⟩ := bind_ok h
    obtain ⟨c, d⟩ := fac_intact hm f hl.1 h1 ht
    obtain ⟨c, d⟩ := newObj_intact (f := (.list · a y.1 true)) (fun _ => .list ha c) d
    exact sufs_intact hm r hl.2 h c d
  | .mark n r, a, t, x, hl, h, ha, ht => by
    simp only [Sufs.loneCut] at hl
    simp only [Sufs.den] at h
    cases hg : mk a n with
    | error e => rw [hg] at h; cases h
    | ok g => rw [hg] at h; exact sufs_intact hm r hl h (hm a n g hg ha) ht
theorem item_intact (hm : KeepsIntact mk) : ∀ (i : Item) {t : Tab B} {x : Gr B × Tab B}, i.loneCut = false → i.den mk t = .ok x → IntactTab t →
    ItemIntact i x.1 ∧ IntactTab x.2
  | .term f s, t, x, hl, h, ht => by
    simp only [Item.loneCut, Bool.or_eq_false_iff] at hl
    simp only [Item.den] at h
    obtain ⟨y, h1, h⟩ := bind_ok h
    obtain ⟨c, d⟩ := fac_intact hm f hl.1 h1 ht
    obtain ⟨c, d⟩ := sufs_intact hm s hl.2 h c d
    exact ⟨⟨nofun, fun _ => c⟩, d⟩
  | .cut, t, x, _, h, ht => by cases h; exact ⟨⟨fun _ => rfl, fun h => absurd rfl h⟩, ht⟩
theorem seq_intact (hm : KeepsIntact mk) : ∀ (s : ItemSeq) {t : Tab B} {x : List (Gr B) × Tab B}, s.loneCut = false → s.den mk t = .ok x → IntactTab t →
    (∀ g ∈ x.1, g ≠ .nil → Intact g) ∧ IntactTab x.2
  | .nil, t, x, _, h, ht => by cases h; exact ⟨by simp, ht⟩
  | .cons i r, t, x, hl, h, ht => by
    simp only [ItemSeq.loneCut, Bool.or_eq_false_iff] at hl
    simp only [ItemSeq.den] at h
    obtain ⟨y, h1, h⟩ := bind_ok h
    obtain ⟨z, h2, h⟩ := bind_ok h
    cases h
    obtain ⟨c, d⟩ := item_intact hm i hl.1 h1 ht
    obtain ⟨e, d⟩ := seq_intact hm r hl.2 h2 d
    refine ⟨fun g hg hne => ?_, d⟩
    rcases List.mem_cons.mp hg with rfl | hg
    · by_cases hic : i = .cut
      · exact absurd (c.1 hic) hne
      · exact c.2 hic
    · exact e g hg hne
theorem alts_intact (hm : KeepsIntact mk) : ∀ (a : Alts) {t : Tab B} {x : List (Gr B) × Tab B}, a.loneCut = false → a.den mk t = .ok x → IntactTab t →
    (∀ g ∈ x.1, Intact g) ∧ IntactTab x.2
  | .one i is, t, x, hl, h, ht => by
    have hc : ¬ (i = .cut ∧ is = .nil) ∧ i.loneCut = false ∧ is.loneCut = false := by
      refine ⟨?_, ?_⟩
      · rintro ⟨rfl, rfl⟩; simp [Alts.loneCut] at hl
      · cases i <;> cases is <;> simp_all [Alts.loneCut, ItemSeq.loneCut, Item.loneCut]
    simp only [Alts.den] at h
    obtain ⟨y, h1, h⟩ := bind_ok h
    obtain ⟨z, h2, h⟩ := bind_ok h
    cases h
    obtain ⟨c, d⟩ := item_intact hm i hc.2.1 h1 ht
    obtain ⟨e, d⟩ := seq_intact hm is hc.2.2 h2 d
    refine ⟨fun g hg => ?_, d⟩
    rw [List.mem_singleton] at hg
    subst hg
    exact one_intact c h2 e hc.1
  | .alt i is r, t, x, hl, h, ht => by
    have hc : ¬ (i = .cut ∧ is = .nil) ∧ i.loneCut = false ∧ is.loneCut = false ∧ r.loneCut = false := by
      refine ⟨?_, ?_⟩
      · rintro ⟨rfl, rfl⟩; simp [Alts.loneCut] at hl
      · cases i <;> cases is <;> simp_all [Alts.loneCut, ItemSeq.loneCut, Item.loneCut]
    simp only [Alts.den] at h
    obtain ⟨y, h1, h⟩ := bind_ok h
    obtain ⟨z, h2, h⟩ := bind_ok h
    obtain ⟨w, h3, h⟩ := bind_ok h
    cases h
    obtain ⟨c, d⟩ := item_intact hm i hc.2.1 h1 ht
    obtain ⟨e, d⟩ := seq_intact hm is hc.2.2.1 h2 d
    obtain ⟨f, d⟩ := alts_intact hm r hc.2.2.2 h3 d
    refine ⟨fun g hg => ?_, d⟩
    rcases List.mem_cons.mp hg with rfl | hg
    · exact one_intact c h2 e hc.1
    · exact f g hg
end

theorem define_intact {n : Str} {g : Gr B} {t t' : Tab B} (h : define n g t = .ok t') (hg : Intact g) (ht : IntactTab t) : IntactTab t' := by
  unfold define at h
  split at h
  · split at h
    · cases h
    · exact absurd rfl hg.ne
    · rename_i v _ _ _ _ _
      cases h
      refine ⟨ht.grammars, fun w m x hw => ?_⟩
      dsimp only at hw
      rw [List.getElem?_set] at hw
      split at hw
      · split at hw
        · cases hw; exact hg
        · cases hw
      · exact ht.vars w m x hw
  · cases h
  · cases h
    refine ⟨fun m x hx => ?_, ht.vars⟩
    dsimp only at hx
    rw [List.lookup_cons] at hx
    split at hx
    · cases hx; exact hg
    · exact ht.grammars m x hx

theorem denDoc_intact (hm : KeepsIntact mk) : ∀ (rs : List Rule) {t t' : Tab B}, (∀ r ∈ rs, r.body.loneCut = false) → denDoc mk rs t = .ok t' →
    IntactTab t → IntactTab t'
  | [], t, t', _, h, ht => by cases h; exact ht
  | r :: rs, t, t', hl, h, ht => by
    simp only [denDoc, Rule.den] at h
    obtain ⟨u, h1, h⟩ := bind_ok h
    obtain ⟨y, h2, h1⟩ := bind_ok h1
    obtain ⟨a, b⟩ := alts_intact hm r.body (hl r List.mem_cons_self) h2 ht
    exact denDoc_intact hm rs (fun r hr => hl r (List.mem_cons_of_mem _ hr)) h (define_intact h1 (oneOrOr_intact a) b)

theorem env_intact {t : Tab B} (ht : IntactTab t) (v : Nat) (g : Gr B) (h : t.env v = some g) : Intact g := by
  unfold Tab.env at h
  cases hv : t.vars[v]? with
  | none => rw [hv] at h; cases h
  | some x =>
    obtain ⟨n, o⟩ := x
    rw [hv] at h
    cases o with
    | none => cases h
    | some g' => cases h; exact ht.vars v n g hv

end Tpl
