import Verif.Proof.Group
import Verif.Proof.Print

/-! Texts with parentheses removed: what they are compiled to. -/
namespace Tpl
open Spec
variable {B : Type}

/-- Both panic with the same value, or both give something. -/
inductive ExL {α β : Type} (P : α → β → Prop) : Except ClPanic α → Except ClPanic β → Prop
  | ok {a b} : P a b → ExL P (.ok a) (.ok b)
  | error {p} : ExL P (.error p) (.error p)

theorem ExL.bind {α β α' β' : Type} {P : α → β → Prop} {P' : α' → β' → Prop} {x : Except ClPanic α} {y : Except ClPanic β} {f : α → Except ClPanic α'} {g : β → Except ClPanic β'}
    (h : ExL P x y) (hf : ∀ a b, P a b → ExL P' (f a) (g b)) : ExL P' (x.bind f) (y.bind g) := by
  cases h with
  | ok h => exact hf _ _ h
  | error => exact .error
theorem ExL.mono {α β : Type} {P P' : α → β → Prop} {x : Except ClPanic α} {y : Except ClPanic β} (h : ExL P x y) (hp : ∀ a b, P a b → P' a b) : ExL P' x y := by
  cases h with
  | ok h => exact .ok (hp _ _ h)
  | error => exact .error

def OptG (o o' : Option (Gr B)) : Prop := (o = none ∧ o' = none) ∨ ∃ x x', o = some x ∧ o' = some x' ∧ Gp false x x'

/-- The same tables up to groups. -/
structure TabG (t t' : Tab B) : Prop where
  kw : t.scanner.keywords = t'.scanner.keywords
  toks : t.scanner.tokens = t'.scanner.tokens
  gr : All2 (fun p q => p.1 = q.1 ∧ Gp false p.2 q.2) t.grammars t'.grammars
  vars : All2 (fun p q => p.1 = q.1 ∧ OptG p.2 q.2) t.vars t'.vars

theorem TabG.cells {t t' : Tab B} (h : TabG t t') (f f' : Nat → Gr B) : TabG (newObj f t).2 (newObj f' t').2 := ⟨h.kw, h.toks, h.gr, h.vars⟩

theorem TabG.lookup {t t' : Tab B} (h : TabG t t') (n : Str) : OptG (t.grammars.lookup n) (t'.grammars.lookup n) := by
  have := h.gr
  generalize t.grammars = a at this
  generalize t'.grammars = b at this
  induction this with
  | nil => exact .inl ⟨rfl, rfl⟩
  | @cons p q _ _ h _ ih =>
    obtain ⟨p1, p2⟩ := p
    obtain ⟨q1, q2⟩ := q
    obtain ⟨rfl, h⟩ : p1 = q1 ∧ Gp false p2 q2 := h
    simp only [List.lookup_cons]
    split
    · exact .inr ⟨_, _, rfl, rfl, h⟩
    · exact ih

theorem TabG.varNo {t t' : Tab B} (h : TabG t t') (n : Str) : varNo n t.vars = Spec.varNo n t'.vars := by
  have := h.vars
  generalize t.vars = a at this
  generalize t'.vars = b at this
  induction this with
  | nil => rfl
  | cons h _ ih => simp only [Spec.varNo, h.1, ih]

theorem TabG.env {t t' : Tab B} (h : TabG t t') : GpEnv t.env t'.env := by
  intro v
  rcases h.vars.get v with ⟨h1, h2⟩ | ⟨a, b, h1, h2, h3⟩
  · exact .inl ⟨by simp [Tab.env, h1], by simp [Tab.env, h2]⟩
  · rcases h3.2 with ⟨h3, h4⟩ | ⟨x, x', h3, h4, h5⟩
    · exact .inl ⟨by simp [Tab.env, h1, h3], by simp [Tab.env, h2, h4]⟩
    · exact .inr ⟨x, x', by simp [Tab.env, h1, h3], by simp [Tab.env, h2, h4], h5⟩

/-- Results that go together. -/
abbrev ResG (m : Bool) (x x' : Gr B × Tab B) : Prop := Gp m x.1 x'.1 ∧ TabG x.2 x'.2

theorem tokenOf_gp {t t' : Tab B} (h : TabG t t') (l : Str) (m : Bool) : ExL (ResG m) (tokenOf l t) (tokenOf l t') := by
  unfold tokenOf
  cases hk : t.scanner.ltot l with
  | ok r =>
    obtain ⟨n, k⟩ := r
    obtain ⟨k', e1, e2, e3⟩ := ltot_rel h.kw h.toks l hk
    rw [e1]
    cases n with
    | zero => exact .error
    | succ n => exact .ok ⟨.tok, e2, e3, h.gr, h.vars⟩
  | panic =>
    cases hk' : t'.scanner.ltot l with
    | ok r =>
      obtain ⟨n, k⟩ := r
      obtain ⟨k', e1, _⟩ := ltot_rel h.kw.symm h.toks.symm l hk'
      rw [hk] at e1; cases e1
    | panic => exact .error

theorem nameOf_gp {t t' : Tab B} (h : TabG t t') (n : Str) (m : Bool) : ExL (ResG m) (nameOf n t) (nameOf n t') := by
  unfold nameOf
  split
  · exact .error
  · split
    · exact tokenOf_gp h n m
    · rw [← h.varNo n]
      rcases h.lookup n with ⟨e, e'⟩ | ⟨x, x', e, e', hx⟩
      · rw [e, e']
        cases varNo n t.vars with
        | some v => exact .ok ⟨.var, h⟩
        | none =>
          dsimp only
          split
          · exact .ok ⟨.tru, h⟩
          · refine .ok ⟨?_, h.kw, h.toks, h.gr, h.vars.append (.cons ⟨rfl, .inl ⟨rfl, rfl⟩⟩ .nil)⟩
            rw [h.vars.length]; exact .var
      · rw [e, e']
        exact .ok ⟨.named hx, h⟩

theorem define_gp {t t' : Tab B} (h : TabG t t') (n : Str) {g g' : Gr B} (hg : Gp false g g') : ExL TabG (define n g t) (define n g' t') := by
  unfold define
  rw [← h.varNo n]
  cases varNo n t.vars with
  | some v =>
    dsimp only
    have hg0 := hg
    rcases h.vars.get v with ⟨h1, h2⟩ | ⟨⟨a1, a2⟩, ⟨b1, b2⟩, h1, h2, h3⟩
    · rw [h1, h2]
      cases hg <;> first | exact .ok h | exact .ok ⟨h.kw, h.toks, h.gr, h.vars.set v ⟨rfl, .inr ⟨_, _, rfl, rfl, hg0⟩⟩⟩
    · rw [h1, h2]
      rcases h3.2 with ⟨h3, h4⟩ | ⟨x, x', h3, h4, h5⟩
      · cases h3; cases h4
        cases hg <;> first | exact .ok h | exact .ok ⟨h.kw, h.toks, h.gr, h.vars.set v ⟨rfl, .inr ⟨_, _, rfl, rfl, hg0⟩⟩⟩
      · cases h3; cases h4
        cases hg <;> exact .error
  | none =>
    rcases h.lookup n with ⟨e, e'⟩ | ⟨x, x', e, e', hx⟩
    · rw [e, e']
      exact .ok ⟨h.kw, h.toks, .cons ⟨rfl, hg⟩ h.gr, h.vars⟩
    · rw [e, e']
      exact .error

/-! ### What the parts of a text are compiled to -/

section
variable {mk : Marker B}

theorem bind_bind {α β γ : Type} (x : Except ClPanic α) (f : α → Except ClPanic β) (g : β → Except ClPanic γ) : (x.bind f).bind g = x.bind fun a => (f a).bind g := by cases x <;> rfl

theorem single_den (f : Fac) (t : Tab B) : (Fac.paren (.one (.term f .nil) .nil)).den mk t = f.den mk t := by
  simp only [Fac.den, Alts.den, Item.den, Sufs.den, ItemSeq.den]
  cases f.den mk t <;> rfl
theorem one_den (i : Item) (is : ItemSeq) (t : Tab B) : (Alts.one i is).den mk t = ((ItemSeq.cons i is).den mk t).bind fun y => .ok ([oneOrAnd y.1], y.2) := by
  simp only [Alts.den, ItemSeq.den, bind_bind]; rfl
theorem alt_den (i : Item) (is : ItemSeq) (r : Alts) (t : Tab B) :
    (Alts.alt i is r).den mk t = ((ItemSeq.cons i is).den mk t).bind fun y => (r.den mk y.2).bind fun z => .ok (oneOrAnd y.1 :: z.1, z.2) := by
  simp only [Alts.den, ItemSeq.den, bind_bind]; rfl
theorem append_den (r : ItemSeq) : ∀ (s : ItemSeq) (t : Tab B), (s.append r).den mk t = (s.den mk t).bind fun y => (r.den mk y.2).bind fun z => .ok (y.1 ++ z.1, z.2)
  | .nil, t => by
    simp only [ItemSeq.append, ItemSeq.den]
    cases h : r.den mk t with
    | ok x => simp only [Except.bind, h]; rfl
    | error e => simp only [Except.bind, h]
  | .cons i s, t => by
    simp only [ItemSeq.append, ItemSeq.den, bind_bind, append_den r s]; rfl
theorem group_den (i j : Item) (js is : ItemSeq) (t : Tab B) : (ItemSeq.cons (.term (.paren (.one i (.cons j js))) .nil) is).den mk t =
    ((ItemSeq.cons i (.cons j js)).den mk t).bind fun y => (is.den mk y.2).bind fun z => .ok (.and y.1 :: z.1, z.2) := by
  simp only [ItemSeq.den, Item.den, Fac.den, Sufs.den, Alts.den, bind_bind]; rfl
theorem choice_append (r : Alts) : ∀ (b : Alts) (t : Tab B), (b.append r).den mk t = (b.den mk t).bind fun x => (r.den mk x.2).bind fun z => .ok (x.1 ++ z.1, z.2)
  | .one i is, t => by simp only [Alts.append, Alts.den, bind_bind]; rfl
  | .alt i is s, t => by simp only [Alts.append, Alts.den, bind_bind, choice_append r s]; rfl
theorem choice_group (b r : Alts) (t : Tab B) : (Alts.alt (.term (.paren b) .nil) .nil r).den mk t =
    (b.den mk t).bind fun x => (r.den mk x.2).bind fun z => .ok (oneOrOr x.1 :: z.1, z.2) := by
  simp only [ItemSeq.den, Item.den, Fac.den, Sufs.den, Alts.den, bind_bind]; rfl
theorem choice_last (b : Alts) (t : Tab B) : (Alts.one (.term (.paren b) .nil) .nil).den mk t = (b.den mk t).bind fun x => .ok ([oneOrOr x.1], x.2) := by
  simp only [ItemSeq.den, Item.den, Fac.den, Sufs.den, Alts.den, bind_bind]; rfl

theorem seq_size : ∀ {s : ItemSeq} {t : Tab B} {x : List (Gr B) × Tab B}, s.den mk t = .ok x → x.1.length = s.size
  | .nil, t, x, h => by cases h; rfl
  | .cons i s, t, x, h => by
    obtain ⟨y, h1, h2⟩ := bind_ok h
    obtain ⟨z, h3, h4⟩ := bind_ok h2
    cases h4
    simp [ItemSeq.size, seq_size h3]
theorem choice_size : ∀ {a : Alts} {t : Tab B} {x : List (Gr B) × Tab B}, a.den mk t = .ok x → x.1.length = a.size
  | .one i is, t, x, h => by
    obtain ⟨y, h1, h2⟩ := bind_ok h
    obtain ⟨z, h3, h4⟩ := bind_ok h2
    cases h4; rfl
  | .alt i is r, t, x, h => by
    obtain ⟨y, h1, h2⟩ := bind_ok h
    obtain ⟨z, h3, h4⟩ := bind_ok h2
    obtain ⟨w, h5, h6⟩ := bind_ok h4
    cases h6
    simp [Alts.size, choice_size h5]

theorem mark_gp (hmk : Uniform mk) {a a' : Gr B} (ha : Gp true a a') (n : Str) :
    (∃ g g', mk a n = .ok g ∧ mk a' n = .ok g' ∧ Gp true g g') ∨ ∃ e, mk a n = .error e ∧ mk a' n = .error e := by
  rcases hmk n with e | ⟨l, e⟩ | ⟨l, e⟩ | ⟨p, e⟩
  · exact .inl ⟨_, _, e a, e a', ha⟩
  · exact .inl ⟨_, _, e a, e a', .action ha⟩
  · exact .inl ⟨_, _, e a, e a', .trans ha⟩
  · exact .inr ⟨p, e a, e a'⟩

theorem oneOrAnd_gp {gs gs' : List (Gr B)} (h : GpS gs gs') (hne : gs ≠ []) : Gp false (oneOrAnd gs) (oneOrAnd gs') := by
  cases h with
  | nil => exact absurd rfl hne
  | cons h1 h2 =>
    have more : ∀ {g g' : Gr B} {gs gs' : List (Gr B)}, Gp false g g' → GpS gs gs' → gs ≠ [] → gs' ≠ [] → Gp false (oneOrAnd (g :: gs)) (oneOrAnd (g' :: gs')) := by
      intro g g' gs gs' h h' hn hn'
      obtain ⟨a, as, rfl⟩ := List.exists_cons_of_ne_nil hn
      obtain ⟨b, bs, rfl⟩ := List.exists_cons_of_ne_nil hn'
      exact .and (.cons h h') nofun
    cases h2 with
    | nil => exact h1
    | cons a b => exact more h1 (.cons a b) nofun nofun
    | opened a b c =>
      refine more h1 (.opened a b c) nofun ?_
      cases a; nofun
    | closed a b c => exact more h1 (.closed a b c) nofun nofun
  | opened a b c =>
    cases a with
    | cons a1 a =>
      cases a with
      | cons a2 a3 =>
        cases c with
        | nil => rw [List.append_nil]; exact .and (.cons a1 (.cons a2 a3.seq)) nofun
        | _ => exact .and (.opened (.cons a1 (.cons a2 a3)) b (by first | exact .cons ‹_› ‹_› | exact .opened ‹_› ‹_› ‹_› | exact .closed ‹_› ‹_› ‹_›)) nofun
  | closed a b c =>
    cases a with
    | cons a1 a =>
      cases a with
      | cons a2 a3 =>
        cases c with
        | nil => rw [List.append_nil]; exact .and (.cons a1 (.cons a2 a3.seq)) nofun
        | cons c1 c2 => exact .and (.closed (.cons a1 (.cons a2 a3)) b (.cons c1 c2)) nofun
        | opened c1 c2 c3 =>
          cases c1 with
          | cons c0 c1 => exact .and (.closed (.cons a1 (.cons a2 a3)) b (.opened (.cons c0 c1) c2 c3)) nofun
        | closed c1 c2 c3 => exact .and (.closed (.cons a1 (.cons a2 a3)) b (.closed c1 c2 c3)) nofun

theorem oneOrOr_gp {gs gs' : List (Gr B)} (h : GpA gs gs') (hne : gs ≠ []) : Gp false (oneOrOr gs) (oneOrOr gs') := by
  cases h with
  | nil => exact absurd rfl hne
  | cons h1 h2 =>
    have more : ∀ {g g' : Gr B} {gs gs' : List (Gr B)}, Gp false g g' → GpA gs gs' → gs ≠ [] → gs' ≠ [] → Gp false (oneOrOr (g :: gs)) (oneOrOr (g' :: gs')) := by
      intro g g' gs gs' h h' hn hn'
      obtain ⟨a, as, rfl⟩ := List.exists_cons_of_ne_nil hn
      obtain ⟨b, bs, rfl⟩ := List.exists_cons_of_ne_nil hn'
      exact .or (.cons h h') nofun
    cases h2 with
    | nil => exact h1
    | cons a b => exact more h1 (.cons a b) nofun nofun
    | opened a c =>
      refine more h1 (.opened a c) nofun ?_
      cases a; nofun
    | closed a c => exact more h1 (.closed a c) nofun nofun
  | opened a c =>
    cases a with
    | cons a1 a =>
      cases a with
      | cons a2 a3 =>
        cases c with
        | nil => rw [List.append_nil]; exact .or (.cons a1 (.cons a2 a3.alts)) nofun
        | _ => exact .or (.opened (.cons a1 (.cons a2 a3)) (by first | exact .cons ‹_› ‹_› | exact .opened ‹_› ‹_› | exact .closed ‹_› ‹_›)) nofun
  | closed a c =>
    cases a with
    | cons a1 a =>
      cases a with
      | cons a2 a3 =>
        cases c with
        | nil => rw [List.append_nil]; exact .or (.cons a1 (.cons a2 a3.alts)) nofun
        | cons c1 c2 => exact .or (.closed (.cons a1 (.cons a2 a3)) (.cons c1 c2)) nofun
        | opened c1 c3 =>
          cases c1 with
          | cons c0 c1 => exact .or (.closed (.cons a1 (.cons a2 a3)) (.opened (.cons c0 c1) c3)) nofun
        | closed c1 c3 => exact .or (.closed (.cons a1 (.cons a2 a3)) (.closed c1 c3)) nofun


/-! ### The same text in two tables -/

mutual
theorem fac_twice (hmk : Uniform mk) : ∀ (f : Fac) {t t' : Tab B}, TabG t t' → ExL (ResG true) (f.den mk t) (f.den mk t')
  | .ident n, t, t', h => by simp only [Fac.den]; exact nameOf_gp h n true
  | .char l, t, t', h => by simp only [Fac.den]; exact tokenOf_gp h l true
  | .string l, t, t', h => by simp only [Fac.den]; exact tokenOf_gp h l true
  | .int l, t, t', h => by
    simp only [Fac.den]
    split
    · exact .ok ⟨.tru, h⟩
    · exact .error
  | .rep0 f, t, t', h => by simp only [Fac.den]; exact (fac_twice hmk f h).bind fun a b hab => .ok ⟨.rep0 hab.1.weaken, hab.2.cells _ _⟩
  | .rep1 f, t, t', h => by simp only [Fac.den]; exact (fac_twice hmk f h).bind fun a b hab => .ok ⟨.rep1 hab.1.weaken, hab.2.cells _ _⟩
  | .rep01 f, t, t', h => by simp only [Fac.den]; exact (fac_twice hmk f h).bind fun a b hab => .ok ⟨.rep01 hab.1.weaken, hab.2.cells _ _⟩
  | .not f, t, t', h => by simp only [Fac.den]; exact (fac_twice hmk f h).bind fun a b hab => .ok ⟨.not hab.1.weaken, hab.2⟩
  | .peek f, t, t', h => by simp only [Fac.den]; exact (fac_twice hmk f h).bind fun a b hab => .ok ⟨.peek hab.1.weaken, hab.2⟩
  | .paren g, t, t', h => by simp only [Fac.den]; exact (alts_twice hmk g h).bind fun a b hab => .ok ⟨hab.2.2, hab.2.1⟩
theorem sufs_twice (hmk : Uniform mk) : ∀ (s : Sufs) {a a' : Gr B} {t t' : Tab B}, Gp true a a' → TabG t t' → ExL (ResG true) (s.den mk a t) (s.den mk a' t')
  | .nil, a, a', t, t', ha, h => .ok ⟨ha, h⟩
  | .list f s, a, a', t, t', ha, h => by
    simp only [Sufs.den]
    exact (fac_twice hmk f h).bind fun x y hxy => sufs_twice hmk s (.list ha.weaken hxy.1.weaken) (hxy.2.cells _ _)
  | .list0 f s, a, a', t, t', ha, h => by
    simp only [Sufs.den]
    exact (fac_twice hmk f h).bind fun x y hxy => sufs_twice hmk s (.list ha.weaken hxy.1.weaken) (hxy.2.cells _ _)
  | .mark n s, a, a', t, t', ha, h => by
    simp only [Sufs.den]
    rcases mark_gp hmk ha n with ⟨g, g', e, e', hg⟩ | ⟨p, e, e'⟩
    · rw [e, e']; exact sufs_twice hmk s hg h
    · rw [e, e']; exact .error
theorem item_twice (hmk : Uniform mk) : ∀ (i : Item) {t t' : Tab B}, TabG t t' → ExL (ResG true) (i.den mk t) (i.den mk t')
  | .cut, t, t', h => .ok ⟨.nil, h⟩
  | .term f s, t, t', h => by
    simp only [Item.den]
    exact (fac_twice hmk f h).bind fun x y hxy => sufs_twice hmk s hxy.1 hxy.2
theorem seq_twice (hmk : Uniform mk) : ∀ (s : ItemSeq) {t t' : Tab B}, TabG t t' →
    ExL (fun x x' : List (Gr B) × Tab B => GpL x.1 x'.1 ∧ TabG x.2 x'.2) (s.den mk t) (s.den mk t')
  | .nil, t, t', h => .ok ⟨.nil, h⟩
  | .cons i s, t, t', h => by
    simp only [ItemSeq.den]
    exact (item_twice hmk i h).bind fun x y hxy => (seq_twice hmk s hxy.2).bind fun z w hzw => .ok ⟨.cons hxy.1.weaken hzw.1, hzw.2⟩
theorem alts_twice (hmk : Uniform mk) : ∀ (a : Alts) {t t' : Tab B}, TabG t t' →
    ExL (fun x x' : List (Gr B) × Tab B => (GpL x.1 x'.1 ∧ x.1 ≠ []) ∧ TabG x.2 x'.2 ∧ Gp true (oneOrOr x.1) (oneOrOr x'.1)) (a.den mk t) (a.den mk t')
  | .one i is, t, t', h => by
    simp only [Alts.den]
    refine (item_twice hmk i h).bind fun x y hxy => (seq_twice hmk is hxy.2).bind fun z w hzw => .ok ?_
    have hg : Gp true (oneOrAnd (x.1 :: z.1)) (oneOrAnd (y.1 :: w.1)) := by
      obtain ⟨z1, z2⟩ := z
      obtain ⟨w1, w2⟩ := w
      obtain ⟨h1, h2⟩ := hzw
      cases h1 with
      | nil => exact hxy.1
      | cons h1 h3 => exact .and (.cons hxy.1.weaken (.cons h1 h3.seq)) fun _ => by simp [h3.len]
    exact ⟨⟨.cons hg.weaken .nil, nofun⟩, hzw.2, hg⟩
  | .alt i is r, t, t', h => by
    simp only [Alts.den]
    refine (item_twice hmk i h).bind fun x y hxy => (seq_twice hmk is hxy.2).bind fun z w hzw => (alts_twice hmk r hzw.2).bind fun u v huv => .ok ?_
    have hg : Gp false (oneOrAnd (x.1 :: z.1)) (oneOrAnd (y.1 :: w.1)) := oneOrAnd_gp (.cons hxy.1.weaken hzw.1.seq) nofun
    refine ⟨⟨.cons hg huv.1.1, nofun⟩, huv.2.1, ?_⟩
    obtain ⟨u1, u2⟩ := u
    obtain ⟨v1, v2⟩ := v
    obtain ⟨⟨h1, h2⟩, _⟩ := huv
    cases h1 with
    | nil => exact absurd rfl h2
    | cons h1 h3 => exact .or (.cons hg (.cons h1 h3.alts)) fun _ => by simp [h3.len]
end

/-! ### Items that are not `!` -/

mutual
theorem fac_calm (hmk : Uniform mk) : ∀ {f : Fac} {t : Tab B} {x : Gr B × Tab B}, f.bang = false → f.den mk t = .ok x → x.1 ≠ .nil
  | .ident n, t, x, _, h => nameOf_ne (by simpa [Fac.den] using h)
  | .char l, t, x, _, h => by
    obtain ⟨a, e, _⟩ := tokenOf_kind (by simpa [Fac.den] using h)
    rw [e]; nofun
  | .string l, t, x, _, h => by
    obtain ⟨a, e, _⟩ := tokenOf_kind (by simpa [Fac.den] using h)
    rw [e]; nofun
  | .int l, t, x, _, h => by
    simp only [Fac.den] at h
    split at h
    · cases h; nofun
    · cases h
  | .rep0 f, t, x, _, h => by obtain ⟨y, h1, h2⟩ := bind_ok h; cases h2; nofun
  | .rep1 f, t, x, _, h => by obtain ⟨y, h1, h2⟩ := bind_ok h; cases h2; nofun
  | .rep01 f, t, x, _, h => by obtain ⟨y, h1, h2⟩ := bind_ok h; cases h2; nofun
  | .not f, t, x, _, h => by obtain ⟨y, h1, h2⟩ := bind_ok h; cases h2; nofun
  | .peek f, t, x, _, h => by obtain ⟨y, h1, h2⟩ := bind_ok h; cases h2; nofun
  | .paren g, t, x, hb, h => by
    obtain ⟨y, h1, h2⟩ := bind_ok h
    cases h2
    exact alts_calm hmk (by simpa [Fac.bang] using hb) h1
theorem sufs_calm (hmk : Uniform mk) : ∀ {s : Sufs} {a : Gr B} {t : Tab B} {x : Gr B × Tab B}, a ≠ .nil → s.den mk a t = .ok x → x.1 ≠ .nil
  | .nil, a, t, x, ha, h => by cases h; exact ha
  | .list f s, a, t, x, ha, h => by obtain ⟨y, h1, h2⟩ := bind_ok h; exact sufs_calm hmk (s := s) (a := .list y.2.cells a y.1 false) nofun h2
  | .list0 f s, a, t, x, ha, h => by obtain ⟨y, h1, h2⟩ := bind_ok h; exact sufs_calm hmk (s := s) (a := .list y.2.cells a y.1 true) nofun h2
  | .mark n s, a, t, x, ha, h => by
    simp only [Sufs.den] at h
    rcases hmk n with e | ⟨l, e⟩ | ⟨l, e⟩ | ⟨p, e⟩
    · rw [e] at h; exact sufs_calm hmk (s := s) ha h
    · rw [e] at h; exact sufs_calm hmk (s := s) (a := .action l a) nofun h
    · rw [e] at h; exact sufs_calm hmk (s := s) (a := .trans l a) nofun h
    · rw [e] at h; cases h
theorem item_calm (hmk : Uniform mk) : ∀ {i : Item} {t : Tab B} {x : Gr B × Tab B}, i.bang = false → i.den mk t = .ok x → x.1 ≠ .nil
  | .cut, t, x, hb, h => by cases hb
  | .term f s, t, x, hb, h => by
    obtain ⟨y, h1, h2⟩ := bind_ok h
    exact sufs_calm hmk (fac_calm hmk (by simpa [Item.bang] using hb) h1) h2
theorem alts_calm (hmk : Uniform mk) : ∀ {a : Alts} {t : Tab B} {x : List (Gr B) × Tab B}, a.bang = false → a.den mk t = .ok x → oneOrOr x.1 ≠ .nil
  | .one i .nil, t, x, hb, h => by
    obtain ⟨y, h1, h2⟩ := bind_ok h
    obtain ⟨z, h3, h4⟩ := bind_ok h2
    cases h4
    cases h3
    exact item_calm hmk (by simpa [Alts.bang] using hb) h1
  | .one i (.cons j is), t, x, hb, h => by
    obtain ⟨y, h1, h2⟩ := bind_ok h
    obtain ⟨z, h3, h4⟩ := bind_ok h2
    cases h4
    obtain ⟨w, e1, e2⟩ := bind_ok h3
    obtain ⟨v, e3, e4⟩ := bind_ok e2
    cases e4
    nofun
  | .alt i is r, t, x, hb, h => by
    obtain ⟨y, h1, h2⟩ := bind_ok h
    obtain ⟨z, h3, h4⟩ := bind_ok h2
    obtain ⟨w, h5, h6⟩ := bind_ok h4
    cases h6
    obtain ⟨a, as, e⟩ := List.exists_cons_of_ne_nil (alts_ne h5)
    dsimp only
    rw [e]
    nofun
end

theorem seq_calm (hmk : Uniform mk) : ∀ {s : ItemSeq} {t : Tab B} {x : List (Gr B) × Tab B}, s.calm = true → s.den mk t = .ok x → Gr.nil ∉ x.1
  | .nil, t, x, hb, h => by cases h; exact List.not_mem_nil
  | .cons i s, t, x, hb, h => by
    obtain ⟨y, h1, h2⟩ := bind_ok h
    obtain ⟨z, h3, h4⟩ := bind_ok h2
    cases h4
    simp only [ItemSeq.calm, Bool.and_eq_true, Bool.not_eq_true'] at hb
    rw [List.mem_cons, not_or]
    exact ⟨fun e => item_calm hmk hb.1 h1 e.symm, seq_calm hmk hb.2 h3⟩

/-! ### Texts with parentheses removed -/

/-- The items of a sequence in the two tables. -/
abbrev SeqG (x x' : List (Gr B) × Tab B) : Prop := GpS x.1 x'.1 ∧ TabG x.2 x'.2
abbrev ChoiceG (x x' : List (Gr B) × Tab B) : Prop := GpA x.1 x'.1 ∧ TabG x.2 x'.2

theorem ExL.also {α β : Type} {P : α → β → Prop} {x : Except ClPanic α} {y : Except ClPanic β} (h : ExL P x y) : ExL (fun a b => P a b ∧ x = .ok a ∧ y = .ok b) x y := by
  cases h with
  | ok h => exact .ok ⟨h, rfl, rfl⟩
  | error => exact .error

theorem Gp.any {m : Bool} {g g' : Gr B} (h : Gp true g g') : Gp m g g' := by
  cases m
  · exact h.weaken
  · exact h

theorem alts_gp (hmk : Uniform mk) {m : Bool} {a a' : Alts} (hl : AltsLoose m a a') : ∀ {t t' : Tab B}, TabG t t' →
    ExL (fun x x' : List (Gr B) × Tab B => Gp m (oneOrOr x.1) (oneOrOr x'.1) ∧ TabG x.2 x'.2) (a.den mk t) (a'.den mk t') := by
  refine AltsLoose.rec
    (motive_1 := fun m f f' _ => ∀ {t t' : Tab B}, TabG t t' → ExL (ResG m) (f.den mk t) (f'.den mk t'))
    (motive_2 := fun s s' _ => ∀ {a a' : Gr B} {t t' : Tab B}, Gp true a a' → TabG t t' → ExL (ResG true) (s.den mk a t) (s'.den mk a' t'))
    (motive_3 := fun m i i' _ => ∀ {t t' : Tab B}, TabG t t' → ExL (ResG m) (i.den mk t) (i'.den mk t'))
    (motive_4 := fun s s' _ => ∀ {t t' : Tab B}, TabG t t' → ExL SeqG (s.den mk t) (s'.den mk t'))
    (motive_5 := fun a a' _ => ∀ {t t' : Tab B}, TabG t t' → ExL ChoiceG (a.den mk t) (a'.den mk t'))
    (motive_6 := fun m a a' _ => ∀ {t t' : Tab B}, TabG t t' →
      ExL (fun x x' : List (Gr B) × Tab B => Gp m (oneOrOr x.1) (oneOrOr x'.1) ∧ TabG x.2 x'.2) (a.den mk t) (a'.den mk t'))
    ?_ ?_ ?_ ?_ ?_ ?_ ?_ ?_ ?_ ?_ ?_ ?_ ?_ ?_ ?_ ?_ ?_ ?_ ?_ ?_ ?_ ?_ ?_ ?_ ?_ ?_ ?_ ?_ ?_ ?_ ?_ hl
  · intro m n t t' h; simp only [Fac.den]; exact nameOf_gp h n m
  · intro m l t t' h; simp only [Fac.den]; exact tokenOf_gp h l m
  · intro m l t t' h; simp only [Fac.den]; exact tokenOf_gp h l m
  · intro m l t t' h
    simp only [Fac.den]
    split
    · exact .ok ⟨.tru, h⟩
    · exact .error
  · intro m f f' _ ih t t' h; simp only [Fac.den]; exact (ih h).bind fun a b hab => .ok ⟨.rep0 hab.1, hab.2.cells _ _⟩
  · intro m f f' _ ih t t' h; simp only [Fac.den]; exact (ih h).bind fun a b hab => .ok ⟨.rep1 hab.1, hab.2.cells _ _⟩
  · intro m f f' _ ih t t' h; simp only [Fac.den]; exact (ih h).bind fun a b hab => .ok ⟨.rep01 hab.1, hab.2.cells _ _⟩
  · intro m f f' _ ih t t' h; simp only [Fac.den]; exact (ih h).bind fun a b hab => .ok ⟨.not hab.1, hab.2⟩
  · intro m f f' _ ih t t' h; simp only [Fac.den]; exact (ih h).bind fun a b hab => .ok ⟨.peek hab.1, hab.2⟩
  · intro m g g' _ ih t t' h; simp only [Fac.den]; exact (ih h).bind fun a b hab => .ok hab
  · intro m f f' _ ih t t' h; rw [single_den]; exact ih h
  · intro a a' t t' ha h; exact .ok ⟨ha, h⟩
  · intro f f' s s' _ _ ihf ihs a a' t t' ha h
    simp only [Sufs.den]
    exact (ihf h).bind fun x y hxy => ihs (.list ha.weaken hxy.1) (hxy.2.cells _ _)
  · intro f f' s s' _ _ ihf ihs a a' t t' ha h
    simp only [Sufs.den]
    exact (ihf h).bind fun x y hxy => ihs (.list ha.weaken hxy.1) (hxy.2.cells _ _)
  · intro n s s' _ ihs a a' t t' ha h
    simp only [Sufs.den]
    rcases mark_gp hmk ha n with ⟨g, g', e, e', hg⟩ | ⟨p, e, e'⟩
    · rw [e, e']; exact ihs hg h
    · rw [e, e']; exact .error
  · intro m f f' _ ih t t' h
    simp only [Item.den, Sufs.den]
    exact (ih h).bind fun x y hxy => .ok hxy
  · intro m f f' g g' s s' _ _ _ ihf ihg ihs t t' h
    simp only [Item.den, Sufs.den]
    exact (ihf h).bind fun x y hxy => (ihg hxy.2).bind fun z w hzw =>
      (ihs (.list hxy.1 hzw.1) (hzw.2.cells _ _)).mono fun _ _ hr => ⟨Gp.any hr.1, hr.2⟩
  · intro m f f' g g' s s' _ _ _ ihf ihg ihs t t' h
    simp only [Item.den, Sufs.den]
    exact (ihf h).bind fun x y hxy => (ihg hxy.2).bind fun z w hzw =>
      (ihs (.list hxy.1 hzw.1) (hzw.2.cells _ _)).mono fun _ _ hr => ⟨Gp.any hr.1, hr.2⟩
  · intro m f f' n s s' _ _ ihf ihs t t' h
    simp only [Item.den, Sufs.den]
    refine (ihf h).bind fun x y hxy => ?_
    rcases mark_gp hmk hxy.1 n with ⟨g, g', e, e', hg⟩ | ⟨p, e, e'⟩
    · rw [e, e']; exact (ihs hg hxy.2).mono fun _ _ hr => ⟨Gp.any hr.1, hr.2⟩
    · rw [e, e']; exact .error
  · intro m t t' h; exact .ok ⟨.nil, h⟩
  · intro t t' h; exact .ok ⟨.nil, h⟩
  · intro i i' is is' _ _ ihi ihs t t' h
    simp only [ItemSeq.den]
    exact (ihi h).bind fun x y hxy => (ihs hxy.2).bind fun z w hzw => .ok ⟨.cons hxy.1 hzw.1, hzw.2⟩
  · intro i j js is is' hc _ ih t t' h
    rw [group_den, append_den]
    refine (seq_twice hmk _ h).also.bind fun x y hxy => (ih hxy.1.2).bind fun z w hzw => .ok ⟨?_, hzw.2⟩
    have hn := seq_calm hmk hc hxy.2.1
    have hl := seq_size hxy.2.1
    have hx := hxy.1.1
    obtain ⟨x1, x2⟩ := x
    simp only [ItemSeq.size] at hl hn hx
    match x1, hl, hn, hx with
    | h1 :: h2 :: hs, _, hn, hx => exact .opened hx hn hzw.1
  · intro i i' is is' _ ih t t' h
    rw [one_den, one_den]
    refine (ih h).also.bind fun x y hxy => .ok ⟨.cons (oneOrAnd_gp hxy.1.1 fun e => ?_) .nil, hxy.1.2⟩
    have := seq_size hxy.2.1
    rw [e] at this
    simp [ItemSeq.size] at this
  · intro i i' is is' r r' _ _ ihs ihr t t' h
    rw [alt_den, alt_den]
    refine (ihs h).also.bind fun x y hxy => (ihr hxy.1.2).bind fun z w hzw => .ok ⟨.cons (oneOrAnd_gp hxy.1.1 fun e => ?_) hzw.1, hzw.2⟩
    have := seq_size hxy.2.1
    rw [e] at this
    simp [ItemSeq.size] at this
  · intro b r r' _ ih t t' h
    rw [choice_group, choice_append]
    refine (alts_twice hmk _ h).bind fun x y hxy => (ih hxy.2.1).bind fun z w hzw => .ok ⟨?_, hzw.2⟩
    obtain ⟨x1, x2⟩ := x
    obtain ⟨y1, y2⟩ := y
    obtain ⟨⟨h1, h2⟩, _⟩ := hxy
    cases h1 with
    | nil => exact absurd rfl h2
    | cons h1 h3 =>
      cases h3 with
      | nil => exact .cons h1 hzw.1
      | cons h4 h5 => exact .opened (.cons h1 (.cons h4 h5)) hzw.1
  · intro b t t' h
    rw [choice_last]
    have e : b.den mk t' = (b.den mk t').bind .ok := by cases b.den mk t' <;> rfl
    rw [e]
    refine (alts_twice hmk _ h).bind fun x y hxy => .ok ⟨?_, hxy.2.1⟩
    obtain ⟨x1, x2⟩ := x
    obtain ⟨y1, y2⟩ := y
    obtain ⟨⟨h1, h2⟩, _⟩ := hxy
    cases h1 with
    | nil => exact absurd rfl h2
    | cons h1 h3 =>
      cases h3 with
      | nil => exact .cons h1 .nil
      | cons h4 h5 =>
        have := GpA.opened (.cons h1 (.cons h4 h5)) .nil
        rw [List.append_nil] at this
        exact this
  · intro a a' _ ih t t' h
    exact (ih h).also.mono fun x y hxy => ⟨oneOrOr_gp hxy.1.1 (alts_ne hxy.2.1), hxy.1.2⟩
  · intro i i' _ ih t t' h
    simp only [Alts.den, ItemSeq.den]
    exact (ih h).bind fun x y hxy => .ok hxy
  · intro i i' j j' is is' _ he ih t t' h
    rw [one_den, one_den]
    refine (ih h).also.bind fun x y hxy => .ok ⟨?_, hxy.1.2⟩
    have l1 := seq_size hxy.2.1
    have l2 := seq_size hxy.2.2
    obtain ⟨x1, x2⟩ := x
    obtain ⟨y1, y2⟩ := y
    obtain ⟨h1, _⟩ := hxy.1
    simp only [ItemSeq.size] at l1 l2 h1
    match x1, y1, l1, l2, h1 with
    | a :: b :: as, c :: d :: cs, l1, l2, h1 => exact .and h1 fun _ => by rw [l1, l2, he]
  · intro i i' is is' r r' _ he ih t t' h
    refine (ih h).also.mono fun x y hxy => ⟨?_, hxy.1.2⟩
    have l1 := choice_size hxy.2.1
    have l2 := choice_size hxy.2.2
    have p1 : 0 < r.size := by cases r <;> simp [Alts.size]
    have p2 : 0 < r'.size := by cases r' <;> simp [Alts.size]
    obtain ⟨x1, x2⟩ := x
    obtain ⟨y1, y2⟩ := y
    obtain ⟨h1, _⟩ := hxy.1
    simp only [Alts.size] at l1 l2 h1
    match x1, y1, l1, l2, h1 with
    | [], _, l1, _, _ => exact absurd l1 (by simp)
    | _, [], _, l2, _ => exact absurd l2 (by simp)
    | [_], _, l1, _, _ => exact absurd l1 (by simp; omega)
    | _, [_], _, l2, _ => exact absurd l2 (by simp; omega)
    | a :: b :: as, c :: d :: cs, l1, l2, h1 => exact .or h1 fun _ => by rw [l1, l2, he]

theorem doc_gp (hmk : Uniform mk) {rs rs' : List Rule} (hr : RulesLoose rs rs') {t t' : Tab B} (h : TabG t t') : ExL TabG (denDoc mk rs t) (denDoc mk rs' t') := by
  induction hr generalizing t t' with
  | nil => exact .ok h
  | cons hb _ ih =>
    simp only [denDoc, Rule.den]
    exact ((alts_gp hmk hb h).bind fun x y hxy => define_gp hxy.2 _ hxy.1).bind fun t t' h => ih h

end

end Tpl
