import Verif.Proof.Print

/-! The printed form of a grammar is the text of a tree that means the same. -/
namespace Tpl
open Spec Scanner
variable {B : Type}

section
variable (L : Leaves) (mk : Marker B) (g : Gr B) (t t' : Tab B)

/-- Printed where a factor is expected. -/
def AsFac : Prop := ∃ x f, g.marshal L.ttol L.names lvlRepeat = .ok x ∧ Spells L.U L.kw x (Fac.flat f) ∧ (isRep1 g = false → x.head? ≠ some 43) ∧
  ∀ t2, TabRel t t2 → ∃ y, f.den mk t2 = .ok y ∧ TabRel t' y.2 ∧ Like g y.1

/-- Printed where a term is expected. -/
def AsTerm : Prop := ∃ x f s, g.marshal L.ttol L.names lvlList = .ok x ∧ Spells L.U L.kw x (Fac.flat f ++ Sufs.flat s) ∧
  ∀ t2, TabRel t t2 → ∃ y, (Item.term f s).den mk t2 = .ok y ∧ TabRel t' y.2 ∧ Like g y.1

/-- A sequence of items that is parsed as `p`. -/
def SeqMeans (p : Peg Nat) (is : ItemSeq) : Prop :=
  ∀ t2, TabRel t t2 → ∃ y, is.den mk t2 = .ok y ∧ TabRel t' y.2 ∧ PegEquiv p (seqOf ((y.1.map toPeg).map some) false) ∧
    (∀ a ∈ y.1, isNil a = false) ∧ y.1 ≠ []

/-- Printed where a sequence is expected. -/
def AsSeq : Prop := ∃ x is, g.marshal L.ttol L.names lvlAnd = .ok x ∧ Spells L.U L.kw x (ItemSeq.flat is) ∧ is ≠ .nil ∧ SeqMeans mk t t' (toPeg g) is

/-- Alternatives that are parsed as `p`. -/
def AltsMean (p : Peg Nat) (a : Alts) : Prop :=
  ∀ t2, TabRel t t2 → ∃ y, a.den mk t2 = .ok y ∧ TabRel t' y.2 ∧ PegEquiv p (altOf (y.1.map toPeg)) ∧ (∀ b ∈ y.1, isNil b = false) ∧ y.1 ≠ []

/-- Printed where alternatives are expected. -/
def AsAlts : Prop := ∃ x a, g.marshal L.ttol L.names lvlOr = .ok x ∧ Spells L.U L.kw x (Alts.flat a) ∧ AltsMean mk t t' (toPeg g) a

/-- Printed anywhere. -/
structure Good : Prop where
  fac : AsFac L mk g t t'
  term : AsTerm L mk g t t'
  seq : AsSeq L mk g t t'
  alts : AsAlts L mk g t t'
end

variable {L : Leaves} {mk : Marker B} {g : Gr B} {t t' : Tab B}

theorem toItems_some : ∀ {gs : List (Gr B)}, (∀ a ∈ gs, isNil a = false) → toItems gs = (gs.map toPeg).map some
  | [], _ => by simp [toItems]
  | g :: gs, h => by
    have h1 := h g (by simp)
    have h2 := toItems_some (gs := gs) fun a ha => h a (by simp [ha])
    simp [toItems, h1, h2]

theorem toPegs_eq_map : ∀ (gs : List (Gr B)), toPegs gs = gs.map toPeg
  | [] => by simp [toPegs]
  | g :: gs => by simp [toPegs, toPegs_eq_map gs]

theorem oneOrAnd_like {gs : List (Gr B)} (h : ∀ a ∈ gs, isNil a = false) (hne : gs ≠ []) :
    PegEquiv (seqOf ((gs.map toPeg).map some) false) (toPeg (oneOrAnd gs)) ∧ isNil (oneOrAnd gs) = false := by
  match gs, hne with
  | [g], _ => exact ⟨.seq_empty _, h g (by simp)⟩
  | a :: b :: gs, _ =>
    refine ⟨?_, rfl⟩
    simp only [oneOrAnd, toPeg]
    rw [toItems_some h]
    exact .refl _

theorem oneOrOr_like {gs : List (Gr B)} (h : ∀ a ∈ gs, isNil a = false) (hne : gs ≠ []) :
    PegEquiv (altOf (gs.map toPeg)) (toPeg (oneOrOr gs)) ∧ isNil (oneOrOr gs) = false := by
  match gs, hne with
  | [g], _ => exact ⟨.alt_never _, h g (by simp)⟩
  | a :: b :: gs, _ =>
    refine ⟨?_, rfl⟩
    simp only [oneOrOr, toPeg]
    rw [toPegs_eq_map]
    exact .refl _

theorem fac_term (h : AsFac L mk g t t') (hm : g.marshal L.ttol L.names lvlList = g.marshal L.ttol L.names lvlRepeat) : AsTerm L mk g t t' := by
  obtain ⟨x, f, h1, h2, _, h3⟩ := h
  refine ⟨x, f, .nil, by rw [hm, h1], by simpa [Sufs.flat] using h2, ?_⟩
  intro t2 hr
  obtain ⟨y, h4, h5, h6⟩ := h3 t2 hr
  exact ⟨y, by simp only [Item.den]; rw [h4]; rfl, h5, h6⟩

theorem term_seq (h : AsTerm L mk g t t') (hm : g.marshal L.ttol L.names lvlAnd = g.marshal L.ttol L.names lvlList) : AsSeq L mk g t t' := by
  obtain ⟨x, f, s, h1, h2, h3⟩ := h
  refine ⟨x, .cons (.term f s) .nil, by rw [hm, h1], by simpa [ItemSeq.flat, Item.flat] using h2, by simp, ?_⟩
  intro t2 hr
  obtain ⟨y, h4, h5, h6⟩ := h3 t2 hr
  refine ⟨([y.1], y.2), by simp only [ItemSeq.den]; rw [h4]; rfl, h5, ?_, ?_, by simp⟩
  · exact h6.peg.trans (PegEquiv.seq_empty _).symm
  · intro a ha
    obtain rfl := List.mem_singleton.mp ha
    exact h6.right

theorem seqMeans_alts {p : Peg Nat} {i : Item} {is : ItemSeq} (h : SeqMeans mk t t' p (.cons i is)) : AltsMean mk t t' p (.one i is) := by
  intro t2 hr
  obtain ⟨y, h4, h5, h6, h7, h8⟩ := h t2 hr
  obtain ⟨u, e1, e2⟩ := bind_ok h4
  obtain ⟨v, e3, e4⟩ := bind_ok e2
  cases e4
  obtain ⟨q1, q2⟩ := oneOrAnd_like h7 (by simp)
  refine ⟨([oneOrAnd (u.1 :: v.1)], v.2), by simp only [Alts.den]; rw [e1]; simp only [Except.bind]; rw [e3], h5, ?_, ?_, by simp⟩
  · exact (h6.trans q1).trans (PegEquiv.alt_never _).symm
  · intro a ha
    obtain rfl := List.mem_singleton.mp ha
    exact q2

theorem seq_alts (h : AsSeq L mk g t t') (hm : g.marshal L.ttol L.names lvlOr = g.marshal L.ttol L.names lvlAnd) : AsAlts L mk g t t' := by
  obtain ⟨x, is, h1, h2, hne, h3⟩ := h
  cases is with
  | nil => exact absurd rfl hne
  | cons i is => exact ⟨x, .one i is, by rw [hm, h1], by simpa [ItemSeq.flat, Alts.flat] using h2, seqMeans_alts h3⟩

theorem alts_fac (h : AsAlts L mk g t t') (hn : isNil g = false)
    (hm : g.marshal L.ttol L.names lvlRepeat = GoRes.paren true (g.marshal L.ttol L.names lvlOr)) : AsFac L mk g t t' := by
  obtain ⟨x, a, h1, h2, h3⟩ := h
  refine ⟨40 :: (x ++ [41]), .paren a, by rw [hm, h1]; rfl, by simpa [Fac.flat] using h2.paren, fun _ => by simp, ?_⟩
  intro t2 hr
  obtain ⟨y, h4, h5, h6, h7, h8⟩ := h3 t2 hr
  obtain ⟨q1, q2⟩ := oneOrOr_like h7 h8
  exact ⟨(oneOrOr y.1, y.2), by simp only [Fac.den]; rw [h4]; rfl, h5, h6.trans q1, hn, q2⟩

/-- Grammars that are never put in parentheses. -/
theorem Good.of_fac (h : AsFac L mk g t t') (hm : ∀ l, g.marshal L.ttol L.names l = g.marshal L.ttol L.names lvlRepeat) : Good L mk g t t' := by
  have h1 := fac_term h (hm _)
  have h2 := term_seq h1 ((hm _).trans (hm _).symm)
  exact ⟨h, h1, h2, seq_alts h2 ((hm _).trans (hm _).symm)⟩

theorem app_ok (a b : Str) : GoRes.app (.ok a) (.ok b) = .ok (a ++ b) := rfl

theorem prefix_fac {g' : Gr B} {t1 : Tab B} {k : Nat} {s : String} {F : Fac → Fac} (h : AsFac L mk g t t1) (hq : (k, s) ∈ tplOps) (hk : k ≠ 61 ∧ k ≠ 124)
    (h43 : k = 43 → isRep1 g = false) (hrep : isRep1 g' = false → k ≠ 43) (hs : (bytes s).head? = some 43 → k = 43)
    (hm : ∀ l, g'.marshal L.ttol L.names l = GoRes.app (.ok (bytes s)) (g.marshal L.ttol L.names lvlRepeat))
    (hf : ∀ f, (F f).flat = opr k :: f.flat)
    (hd : ∀ f t2 y, f.den mk t2 = .ok y → Like g y.1 → TabRel t1 y.2 → ∃ z, (F f).den mk t2 = .ok z ∧ TabRel t' z.2 ∧ Like g' z.1) : Good L mk g' t t' := by
  obtain ⟨x, f, h1, h2, h3, h4⟩ := h
  refine .of_fac ⟨bytes s ++ x, F f, by rw [hm, h1]; rfl, ?_, ?_, ?_⟩ fun l => (hm l).trans (hm _).symm
  · rw [hf]
    exact h2.prefix_ hq hk fun e => h3 (h43 e)
  · intro hr he
    have hne := (tplOps_shape _ hq).2.2
    dsimp only at hne
    cases hb : bytes s with
    | nil => exact hne hb
    | cons c bs =>
      rw [hb] at he hs
      exact hrep hr (hs he)
  · intro t2 hr
    obtain ⟨y, h5, h6, h7⟩ := h4 t2 hr
    exact hd f t2 y h5 h7 h6

/-- Lists are not printed differently inside a repetition, except for lists. -/
theorem marshal_34 (hp : prints g = true) (hl : isList g = false) : g.marshal L.ttol L.names lvlList = g.marshal L.ttol L.names lvlRepeat := by
  cases g <;> first | rfl | (cases hp; done) | (cases hl; done)

theorem marshalAnd_cons {gs : List (Gr B)} (i : Nat) (h : isNil g = false) : marshalAnd L.ttol L.names (g :: gs) i =
    GoRes.app (.ok (if i > 0 then [32] else [])) (GoRes.app (g.marshal L.ttol L.names lvlAnd) (marshalAnd L.ttol L.names gs (i + 1))) := by
  cases g <;> first | rfl | (cases h; done)

theorem prints_nil (h : prints g = true) : isNil g = false := by
  cases g <;> first | rfl | (cases h; done)

mutual
/-- The printed form of a grammar, wherever it is printed. -/
theorem print_gr : ∀ (g : Gr B) {t t' : Tab B}, prints g = true → Builds L g t t' → Good L mk g t t'
  | .tok k, t, t', _, hb => by
    obtain ⟨l, h1, h2, h3⟩ := hb
    refine .of_fac ?_ fun _ => rfl
    have den : ∀ t2, TabRel t t2 → ∃ y, tokenOf l t2 = .ok y ∧ TabRel t' y.2 ∧ Like (.tok k) y.1 := by
      intro t2 hr
      obtain ⟨t2', e1, e2⟩ := tokenOf_rel hr h3
      exact ⟨_, e1, e2, .refl _, rfl, rfl⟩
    rcases h1 with ⟨h1, hu⟩ | h1 | h1
    · refine ⟨l, .ident l, h2, h1.word.spells, ?_, ?_⟩
      · obtain ⟨c, z, rfl, _, _, h⟩ := h1.head
        intro _; simpa using h
      · intro t2 hr
        obtain ⟨y, e1, e2⟩ := den t2 hr
        refine ⟨y, ?_, e2⟩
        simp only [Fac.den]
        unfold nameOf
        rw [if_neg h1.ne, if_pos hu]
        exact e1
    · refine ⟨l, .char l, h2, h1.spells, ?_, den⟩
      obtain ⟨c, z, rfl, _, _, h⟩ := h1.head
      intro _; simpa using h
    · refine ⟨l, .string l, h2, h1.spells, ?_, den⟩
      obtain ⟨c, z, rfl, _, _, h⟩ := h1.head
      intro _; simpa using h
  | .tru, t, t', _, hb => by
    refine .of_fac ⟨[49], .int [49], rfl, one_word.spells, fun _ => by decide, ?_⟩ fun _ => rfl
    intro t2 hr
    refine ⟨(.tru, t2), ?_, SameTab.rel hb hr, .refl _, rfl, rfl⟩
    simp only [Fac.den]
    rw [if_pos (by decide +kernel)]
  | .var v, t, t', _, hb => by
    obtain ⟨h1, h2, h3⟩ := hb
    refine .of_fac ⟨L.names v, .ident (L.names v), rfl, h1.word.spells, ?_, ?_⟩ fun _ => rfl
    · obtain ⟨c, z, e, _, _, h⟩ := h1.head
      intro _; rw [e]; simpa using h
    · intro t2 hr
      obtain ⟨g2, t2', e1, e2, e3⟩ := nameOf_rel hr h2 h3
      exact ⟨_, e1, e2, e3⟩
  | .named n g, t, t', _, hb => by
    obtain ⟨h1, h2, h3⟩ := hb
    refine .of_fac ⟨n, .ident n, rfl, h1.word.spells, ?_, ?_⟩ fun _ => rfl
    · obtain ⟨c, z, rfl, _, _, h⟩ := h1.head
      intro _; simpa using h
    · intro t2 hr
      obtain ⟨g2, t2', e1, e2, e3⟩ := nameOf_rel hr h2 h3
      exact ⟨_, e1, e2, e3⟩
  | .peek g, t, t', hp, hb => by
    refine prefix_fac (F := .peek) (s := "@") (print_gr g hp hb).fac (k := 64) (by decide +kernel) (by decide) nofun (fun _ => by decide) (by decide +kernel) (fun _ => rfl)
      (fun _ => rfl) ?_
    intro f t2 y h1 h2 h3
    exact ⟨(.peek y.1, y.2), by simp only [Fac.den]; rw [h1]; rfl, h3, h2.peg.neg.neg, rfl, rfl⟩
  | .not g, t, t', hp, hb => by
    refine prefix_fac (F := .not) (s := "~") (print_gr g hp hb).fac (k := 126) (by decide +kernel) (by decide) nofun (fun _ => by decide) (by decide +kernel) (fun _ => rfl)
      (fun _ => rfl) ?_
    intro f t2 y h1 h2 h3
    exact ⟨(.not y.1, y.2), by simp only [Fac.den]; rw [h1]; rfl, h3, h2.peg.neg, rfl, rfl⟩
  | .rep0 i g, t, t', hp, hb => by
    obtain ⟨t1, hb, hs⟩ := hb
    refine prefix_fac (F := .rep0) (s := "*") (print_gr g hp hb).fac (k := 42) (by decide +kernel) (by decide) nofun (fun _ => by decide) (by decide +kernel) (fun _ => rfl)
      (fun _ => rfl) ?_
    intro f t2 y h1 h2 h3
    exact ⟨newObj (.rep0 · y.1) y.2, by simp only [Fac.den]; rw [h1]; rfl, (hs.rel h3).same (newObj_same _ _), h2.peg.star, rfl, rfl⟩
  | .rep1 i g, t, t', hp, hb => by
    obtain ⟨t1, hb, hs⟩ := hb
    simp only [prints, Bool.and_eq_true] at hp
    have hn : isRep1 g = false := by simpa using hp.2
    refine prefix_fac (F := .rep1) (s := "+") (print_gr g hp.1 hb).fac (k := 43) (by decide +kernel) (by decide) (fun _ => hn) nofun (by decide +kernel)
      (fun _ => rfl) (fun _ => rfl) ?_
    intro f t2 y h1 h2 h3
    exact ⟨newObj (.rep1 · y.1) y.2, by simp only [Fac.den]; rw [h1]; rfl, (hs.rel h3).same (newObj_same _ _), h2.peg.seq h2.peg.star, rfl, rfl⟩
  | .rep01 i g, t, t', hp, hb => by
    obtain ⟨t1, hb, hs⟩ := hb
    refine prefix_fac (F := .rep01) (s := "?") (print_gr g hp hb).fac (k := 63) (by decide +kernel) (by decide) nofun (fun _ => by decide) (by decide +kernel) (fun _ => rfl)
      (fun _ => rfl) ?_
    intro f t2 y h1 h2 h3
    exact ⟨newObj (.rep01 · y.1) y.2, by simp only [Fac.den]; rw [h1]; rfl, (hs.rel h3).same (newObj_same _ _), h2.peg.alt (.refl _), rfl, rfl⟩
  | .list i a b l0, t, t', hp, hb => by
    obtain ⟨t1, t2, hb1, hb2, hs⟩ := hb
    simp only [prints, Bool.and_eq_true] at hp
    have hn : isList b = false := by simpa using hp.2
    obtain ⟨xa, f, s, a1, a2, a3⟩ := (print_gr a hp.1.1 hb1).term
    obtain ⟨xb, fb, b1, b2, _, b3⟩ := (print_gr b hp.1.2 hb2).fac
    rw [← marshal_34 hp.1.2 hn] at b1
    have term : AsTerm L mk (.list i a b l0) t t' := by
      have means : ∀ (na nb na' nb' : Gr B), Like na na' → Like nb nb' → ∀ j, Like (.list i na nb l0) (.list j na' nb' l0) := by
        intro na nb na' nb' h1 h2 j
        have hmore : PegEquiv (seqOf [some (toPeg nb), some (toPeg na)] false) (seqOf [some (toPeg nb'), some (toPeg na')] false) :=
          .seq h2.peg (.seq h1.peg (.refl _))
        refine ⟨?_, rfl, rfl⟩
        simp only [toPeg, h1.left, h1.right, h2.left, h2.right]
        cases l0
        · exact h1.peg.seq hmore.star
        · exact (h1.peg.seq hmore.star).alt (.refl _)
      cases l0 with
      | false =>
        refine ⟨xa ++ 32 :: (bytes "%" ++ 32 :: xb), f, sufsAppend s (.list fb .nil), ?_, ?_, ?_⟩
        · simp only [Gr.marshal]
          rw [a1, b1]
          rfl
        · have := a2.infix_ (k := 37) (s := "%") (by decide +kernel) b2
          simpa [sufsAppend_flat, Sufs.flat] using this
        · intro t3 hr
          obtain ⟨y, e1, e2, e3⟩ := a3 t3 hr
          obtain ⟨z, e4, e5⟩ := bind_ok e1
          obtain ⟨w, e6, e7, e8⟩ := b3 y.2 e2
          refine ⟨newObj (.list · y.1 w.1 false) w.2, ?_, (hs.rel e7).same (newObj_same _ _), means _ _ _ _ e3 e8 _⟩
          simp only [Item.den]
          rw [e4]
          simp only [Except.bind]
          rw [sufsAppend_den s _ _ _ e5]
          simp only [Sufs.den]
          rw [e6]
          rfl
      | true =>
        refine ⟨xa ++ 32 :: (bytes "%=" ++ 32 :: xb), f, sufsAppend s (.list0 fb .nil), ?_, ?_, ?_⟩
        · simp only [Gr.marshal]
          rw [a1, b1]
          rfl
        · have := a2.infix_ (k := 0x88) (s := "%=") (by decide +kernel) b2
          simpa [sufsAppend_flat, Sufs.flat] using this
        · intro t3 hr
          obtain ⟨y, e1, e2, e3⟩ := a3 t3 hr
          obtain ⟨z, e4, e5⟩ := bind_ok e1
          obtain ⟨w, e6, e7, e8⟩ := b3 y.2 e2
          refine ⟨newObj (.list · y.1 w.1 true) w.2, ?_, (hs.rel e7).same (newObj_same _ _), means _ _ _ _ e3 e8 _⟩
          simp only [Item.den]
          rw [e4]
          simp only [Except.bind]
          rw [sufsAppend_den s _ _ _ e5]
          simp only [Sufs.den]
          rw [e6]
          rfl
    have seq := term_seq term rfl
    have alts := seq_alts seq rfl
    exact ⟨alts_fac alts rfl rfl, term, seq, alts⟩
  | .and gs, t, t', hp, hb => by
    obtain ⟨x, is, h1, h2, h3, h4⟩ := print_and gs 0 hp hb.1 hb.2
    have seq : AsSeq L mk (.and gs) t t' := by
      refine ⟨x, is, ?_, h2, h3, ?_⟩
      · simp only [Gr.marshal]
        rw [h1]
        rfl
      · simp only [toPeg]
        exact h4
    have alts := seq_alts seq rfl
    have fac := alts_fac alts rfl rfl
    exact ⟨fac, fac_term fac rfl, seq, alts⟩
  | .or gs, t, t', hp, hb => by
    obtain ⟨x, a, h1, h2, h4⟩ := print_or gs 0 hp hb.1 hb.2
    have alts : AsAlts L mk (.or gs) t t' := by
      refine ⟨x, a, ?_, h2, ?_⟩
      · simp only [Gr.marshal]
        rw [h1]
        rfl
      · simp only [toPeg]
        exact h4
    have fac := alts_fac alts rfl rfl
    have term := fac_term fac rfl
    exact ⟨fac, term, term_seq term rfl, alts⟩
  | .nil, t, t', hp, _ => by cases hp
  | .eof, t, t', hp, _ => by cases hp
  | .action _ _, t, t', hp, _ => by cases hp
  | .trans _ _, t, t', hp, _ => by cases hp

theorem print_and : ∀ (gs : List (Gr B)) (i : Nat) {t t' : Tab B}, printsAll gs = true → gs ≠ [] → BuildsAll L gs t t' →
    ∃ x is, marshalAnd L.ttol L.names gs i = .ok ((if i > 0 then [32] else []) ++ x) ∧ Spells L.U L.kw x (ItemSeq.flat is) ∧ is ≠ .nil ∧
      SeqMeans mk t t' (seqOf (toItems gs) false) is
  | [], i, t, t', _, hne, _ => absurd rfl hne
  | g :: gs, i, t, t', hp, _, hb => by
    obtain ⟨t1, hb1, hb2⟩ := hb
    simp only [printsAll, Bool.and_eq_true] at hp
    have hn := prints_nil hp.1
    obtain ⟨x, is, h1, h2, h3, h4⟩ := (print_gr g hp.1 hb1).seq
    rw [marshalAnd_cons i hn, h1]
    have hitems : toItems (g :: gs) = some (toPeg g) :: toItems gs := by simp [toItems, hn]
    rw [hitems]
    cases gs with
    | nil =>
      refine ⟨x, is, by simp only [marshalAnd]; rw [app_ok, app_ok, List.append_nil], h2, h3, ?_⟩
      intro t2 hr
      obtain ⟨y, e1, e2, e3, e4, e5⟩ := h4 t2 hr
      exact ⟨y, e1, (show t' = t1 from hb2) ▸ e2, (PegEquiv.seq_empty _).trans e3, e4, e5⟩
    | cons g' gs =>
      obtain ⟨x', is', h1', h2', h3', h4'⟩ := print_and (g' :: gs) (i + 1) hp.2 (by simp) hb2
      refine ⟨x ++ 32 :: x', seqAppend is is', ?_, ?_, ?_, ?_⟩
      · rw [h1', if_pos (Nat.succ_pos i), app_ok, app_ok]
        simp
      · rw [seqAppend_flat]
        exact h2.seq h2'
      · cases is with
        | nil => exact absurd rfl h3
        | cons i is => simp [seqAppend]
      · intro t2 hr
        obtain ⟨y, e1, e2, e3, e4, e5⟩ := h4 t2 hr
        obtain ⟨z, d1, d2, d3, d4, d5⟩ := h4' y.2 e2
        refine ⟨(y.1 ++ z.1, z.2), seqAppend_den is is' _ e1 d1, d2, ?_, ?_, by simp [e5]⟩
        · refine (PegEquiv.seq e3 d3).trans ?_
          dsimp only
          rw [List.map_append]
          exact (seqOf_append _ _).symm
        · intro a ha
          rcases List.mem_append.mp ha with ha | ha
          · exact e4 a ha
          · exact d4 a ha

theorem print_or : ∀ (gs : List (Gr B)) (i : Nat) {t t' : Tab B}, printsAll gs = true → gs ≠ [] → BuildsAll L gs t t' →
    ∃ x a, marshalOr L.ttol L.names gs i = .ok ((if i > 0 then str " | " else []) ++ x) ∧ Spells L.U L.kw x (Alts.flat a) ∧
      AltsMean mk t t' (altOf (toPegs gs)) a
  | [], i, t, t', _, hne, _ => absurd rfl hne
  | g :: gs, i, t, t', hp, _, hb => by
    obtain ⟨t1, hb1, hb2⟩ := hb
    simp only [printsAll, Bool.and_eq_true] at hp
    obtain ⟨x, a, h1, h2, h4⟩ := (print_gr g hp.1 hb1).alts
    simp only [marshalOr]
    rw [h1]
    have hitems : toPegs (g :: gs) = toPeg g :: toPegs gs := by simp [toPegs]
    rw [hitems]
    cases gs with
    | nil =>
      refine ⟨x, a, by simp only [marshalOr]; rw [app_ok, app_ok, List.append_nil], h2, ?_⟩
      intro t2 hr
      obtain ⟨y, e1, e2, e3, e4, e5⟩ := h4 t2 hr
      exact ⟨y, e1, (show t' = t1 from hb2) ▸ e2, (PegEquiv.alt_never _).trans e3, e4, e5⟩
    | cons g' gs =>
      obtain ⟨x', a', h1', h2', h4'⟩ := print_or (g' :: gs) (i + 1) hp.2 (by simp) hb2
      refine ⟨x ++ 32 :: (bytes "|" ++ 32 :: x'), altsAppend a a', ?_, ?_, ?_⟩
      · rw [h1', if_pos (Nat.succ_pos i), app_ok, app_ok]
        have e : str " | " = 32 :: (bytes "|" ++ [32]) := by decide +kernel
        rw [e]
        simp
      · rw [altsAppend_flat]
        exact h2.infix_ (k := 124) (s := "|") (by decide +kernel) h2'
      · intro t2 hr
        obtain ⟨y, e1, e2, e3, e4, e5⟩ := h4 t2 hr
        obtain ⟨z, d1, d2, d3, d4, d5⟩ := h4' y.2 e2
        refine ⟨(y.1 ++ z.1, z.2), altsAppend_den a a' _ e1 d1, d2, ?_, ?_, by simp [e5]⟩
        · refine (PegEquiv.alt e3 d3).trans ?_
          dsimp only
          rw [List.map_append]
          exact (altOf_append _ _).symm
        · intro a ha
          rcases List.mem_append.mp ha with ha | ha
          · exact e4 a ha
          · exact d4 a ha
end

theorem marshal_01 (hp : prints g = true) : g.marshal L.ttol L.names 0 = g.marshal L.ttol L.names lvlOr := by
  cases g <;> first | rfl | (cases hp; done)

end Tpl
