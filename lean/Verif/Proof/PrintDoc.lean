import Verif.Proof.PrintText

/-! The grammars of a compiled document are printed as texts that are read back. -/
namespace Tpl
open Spec Scanner KwScanner
variable {B : Type} {mk : Marker B} {U : Uni} {kw : Str → Option Nat}

/-! ### Later tables -/

/-- Every keyword is printed as the literal it was made of. -/
def KwOk (k : KwScanner) : Prop := ∀ w n, k.keywords.get w = some n → 0xb0 ≤ n ∧ k.tokens[n - 0xb0]? = some (34 :: (w ++ [34]))

/-- `T` has the keywords and variables of `t` and perhaps more. -/
structure Later (t T : Tab B) : Prop where
  toks : ∃ ls, T.scanner.tokens = t.scanner.tokens ++ ls
  vars : ∃ ns, T.used = t.used ++ ns

theorem Later.refl (t : Tab B) : Later t t := ⟨⟨[], by simp⟩, ⟨[], by simp⟩⟩

theorem Later.trans {t t' t'' : Tab B} (h : Later t t') (h' : Later t' t'') : Later t t'' := by
  obtain ⟨⟨ls, h1⟩, ⟨ns, h2⟩⟩ := h
  obtain ⟨⟨ls', h3⟩, ⟨ns', h4⟩⟩ := h'
  exact ⟨⟨ls ++ ls', by rw [h3, h1, List.append_assoc]⟩, ⟨ns ++ ns', by rw [h4, h2, List.append_assoc]⟩⟩

theorem Later.tok {t T : Tab B} (h : Later t T) {i : Nat} {l : Str} (hi : t.scanner.tokens[i]? = some l) : T.scanner.tokens[i]? = some l := by
  obtain ⟨ls, e⟩ := h.toks
  rw [e, List.getElem?_append_left (List.getElem?_eq_some_iff.mp hi).1, hi]

theorem Later.var {t T : Tab B} (h : Later t T) {v : Nat} {n : Str} (hi : t.used[v]? = some n) : T.used[v]? = some n := by
  obtain ⟨ls, e⟩ := h.vars
  rw [e, List.getElem?_append_left (List.getElem?_eq_some_iff.mp hi).1, hi]

theorem SameTab.later {t t' : Tab B} (h : SameTab t t') : Later t t' := by
  obtain ⟨h1, h2, h3⟩ := h
  exact ⟨⟨[], by rw [h3]; simp⟩, ⟨[], by unfold Tab.used; rw [h2]; simp⟩⟩

/-- How the grammars of the document with the table `T` are printed. -/
def leavesOf (U : Uni) (kw : Str → Option Nat) (T : Tab B) : Leaves := ⟨U, kw, T.scanner.ttol, fun v => (T.vars[v]?.map (·.1)).getD []⟩

theorem names_of {T : Tab B} {v : Nat} {n : Str} (h : T.used[v]? = some n) : (leavesOf U kw T).names v = n := by
  unfold Tab.used at h
  rw [List.getElem?_map] at h
  show (T.vars[v]?.map (·.1)).getD [] = n
  rw [h]
  rfl

/-! ### Tokens -/

theorem names_small : ∀ p ∈ Spec.names, p.1 < 0xb0 := by decide +kernel

theorem lit_known {l : Str} (h : Lit2Token l ≠ ILLEGAL) : Lit2Token l < 0xb0 ∧ Token2Lit (Lit2Token l) = .ok l ∧ ∃ p ∈ Spec.names, bytes p.2 = l := by
  have hex : ∃ k s, (k, s) ∈ Spec.names ∧ l = bytes s := by
    refine Classical.byContradiction fun hn => h (Props.C01_lit2token_other l fun k s hm e => hn ⟨k, s, hm, e⟩)
  obtain ⟨k, s, hm, rfl⟩ := hex
  obtain ⟨h1, h2⟩ := Props.C01_lit2token_token2lit k s hm
  rw [h2]
  exact ⟨names_small _ hm, h1, _, hm, rfl⟩

theorem tokenOf_leaf {l : Str} {t t' : Tab B} {g : Gr B} (hk : KwOk t.scanner)
    (hl : l.head? = some 34 → ∃ b, l = 34 :: (b ++ [34])) (h : tokenOf l t = .ok (g, t')) :
    KwOk t'.scanner ∧ Later t t' ∧ (l.head? ≠ some 34 → Lit2Token l ≠ ILLEGAL) ∧
      ∃ k, g = .tok k ∧ ∀ T, Later t' T → T.scanner.ttol k = .ok l := by
  have low : ∀ k, k < 0xb0 → Token2Lit k = .ok l → ∀ T : Tab B, T.scanner.ttol k = .ok l := by
    intro k h1 h2 T
    unfold ttol
    rw [if_neg (by unfold userTokenBegin; omega), h2]
  have high : ∀ k (T : Tab B), 0xb0 ≤ k → T.scanner.tokens[k - 0xb0]? = some l → T.scanner.ttol k = .ok l := by
    intro k T h1 h2
    unfold ttol
    rw [if_pos (by unfold userTokenBegin; omega)]
    unfold userTokenBegin
    rw [h2]
  unfold tokenOf at h
  unfold ltot at h
  dsimp only at h
  by_cases h0 : Lit2Token l ≠ ILLEGAL
  · rw [if_pos h0] at h
    obtain ⟨h1, h2, _⟩ := lit_known h0
    split at h
    · cases h
    · rename_i k k1 hne heq
      cases heq
      cases h
      exact ⟨hk, .refl _, fun _ => h0, _, rfl, fun T _ => low _ h1 h2 T⟩
    · rename_i heq; cases heq
  · rw [if_neg h0] at h
    cases l with
    | nil => cases h
    | cons c rest =>
      dsimp only at h
      by_cases hc : c = 34
      · subst hc
        obtain ⟨b, e⟩ := hl rfl
        obtain rfl : rest = b ++ [34] := by injection e
        rw [if_pos rfl, if_neg (by simp), List.dropLast_concat] at h
        cases hg : t.scanner.keywords.get b with
        | some n =>
          rw [hg] at h
          obtain ⟨h1, h2⟩ := hk b n hg
          cases n with
          | zero => omega
          | succ n =>
            cases h
            exact ⟨hk, .refl _, fun hne => absurd rfl hne, _, rfl, fun T hT => high _ T h1 (hT.tok h2)⟩
        | none =>
          rw [hg] at h
          cases hm : t.scanner.keywords with
          | none => rw [hm] at h; cases h
          | some m =>
            rw [hm] at h
            dsimp only at h
            have hn : ∃ n, userTokenBegin + t.scanner.tokens.length = n + 1 := ⟨175 + t.scanner.tokens.length, by unfold userTokenBegin; omega⟩
            obtain ⟨n, hn⟩ := hn
            rw [hn] at h
            cases h
            unfold userTokenBegin at hn
            have hlast : (t.scanner.tokens ++ [34 :: (b ++ [34])])[n + 1 - 0xb0]? = some (34 :: (b ++ [34])) := by
              have : n + 1 - 0xb0 = t.scanner.tokens.length := by omega
              rw [this]
              simp
            refine ⟨?_, ⟨⟨_, rfl⟩, ⟨[], by simp [Tab.used]⟩⟩, fun hne => absurd rfl hne, _, rfl, fun T hT => high _ T (by omega) (hT.tok hlast)⟩
            intro w k hw
            change List.lookup w ((b, n + 1) :: m) = some k at hw
            dsimp only
            by_cases hwb : w = b
            · subst hwb
              rw [List.lookup_cons_self] at hw
              cases hw
              exact ⟨by omega, hlast⟩
            · rw [List.lookup_cons, show (w == b) = false by simpa using hwb] at hw
              obtain ⟨h1, h2⟩ := hk w k (by rw [hm]; exact hw)
              exact ⟨h1, by rw [List.getElem?_append_left (List.getElem?_eq_some_iff.mp h2).1, h2]⟩
      · rw [if_neg hc] at h
        have : Lit2Token (c :: rest) = 0 := by
          exact Classical.byContradiction fun hn => h0 hn
        rw [this] at h
        cases h

theorem char_names : ∀ p ∈ Spec.names, (bytes p.2).head? = some 39 → ∃ c ∈ (List.range 256).map UInt8.ofNat, bytes p.2 = [39, c, 39] ∧
    c.toNat ≠ 0 ∧ c.toNat < 0x80 ∧ c ≠ 10 ∧ c ≠ 39 ∧ c ≠ 92 := by decide +kernel

/-! ### From the text to the grammar -/

/-- The words of a text can be written again. -/
def Words (U : Uni) (kw : Str → Option Nat) (ks : List (Nat × Str)) : Prop :=
  ∀ p ∈ ks, (p.1 = IDENT → OkIdent U kw p.2) ∧ (p.1 = STRING → OkStr p.2 ∨ p.2.head? = some 96) ∧ (p.1 = CHAR → p.2.head? = some 39)

theorem Words.left {a b : List (Nat × Str)} (h : Words U kw (a ++ b)) : Words U kw a := fun p hp => h p (List.mem_append_left _ hp)
theorem Words.right {a b : List (Nat × Str)} (h : Words U kw (a ++ b)) : Words U kw b := fun p hp => h p (List.mem_append_right _ hp)
theorem Words.tail {a : Nat × Str} {b : List (Nat × Str)} (h : Words U kw (a :: b)) : Words U kw b := fun p hp => h p (List.mem_cons_of_mem _ hp)

/-- Building `g` leads from `t` to `t'`. -/
structure Built (U : Uni) (kw : Str → Option Nat) (g : Gr B) (t t' : Tab B) : Prop where
  kwOk : KwOk t'.scanner
  later : Later t t'
  builds : ∀ T, Later t' T → Builds (leavesOf U kw T) g t t'

structure BuiltAll (U : Uni) (kw : Str → Option Nat) (gs : List (Gr B)) (t t' : Tab B) : Prop where
  kwOk : KwOk t'.scanner
  later : Later t t'
  builds : ∀ T, Later t' T → BuildsAll (leavesOf U kw T) gs t t'

theorem BuiltAll.cons {g : Gr B} {gs : List (Gr B)} {t t1 t2 : Tab B} (h : Built U kw g t t1) (h' : BuiltAll U kw gs t1 t2) : BuiltAll U kw (g :: gs) t t2 :=
  ⟨h'.kwOk, h.later.trans h'.later, fun T hT => ⟨t1, h.builds T (h'.later.trans hT), h'.builds T hT⟩⟩

theorem BuiltAll.and {gs : List (Gr B)} {t t' : Tab B} (h : BuiltAll U kw gs t t') (hne : gs ≠ []) : Built U kw (oneOrAnd gs) t t' := by
  refine ⟨h.kwOk, h.later, fun T hT => ?_⟩
  have := h.builds T hT
  match gs, hne with
  | [g], _ =>
    obtain ⟨t1, h1, h2⟩ := this
    obtain rfl : t' = t1 := h2
    exact h1
  | a :: b :: gs, _ => exact ⟨by simp, this⟩

theorem BuiltAll.or {gs : List (Gr B)} {t t' : Tab B} (h : BuiltAll U kw gs t t') (hne : gs ≠ []) : Built U kw (oneOrOr gs) t t' := by
  refine ⟨h.kwOk, h.later, fun T hT => ?_⟩
  have := h.builds T hT
  match gs, hne with
  | [g], _ =>
    obtain ⟨t1, h1, h2⟩ := this
    obtain rfl : t' = t1 := h2
    exact h1
  | a :: b :: gs, _ => exact ⟨by simp, this⟩

/-- One object more. -/
theorem Built.obj {g g' : Gr B} {t t1 t' : Tab B} (h : Built U kw g t t1) (hs : SameTab t1 t')
    (hb : ∀ T : Tab B, Builds (leavesOf U kw T) g t t1 → Builds (leavesOf U kw T) g' t t') : Built U kw g' t t' :=
  ⟨hs.2.2 ▸ h.kwOk, h.later.trans hs.later, fun T hT => hb T (h.builds T (hs.later.trans hT))⟩

theorem built_ident {n : Str} {t : Tab B} {x : Gr B × Tab B} (hk : KwOk t.scanner) (hw : OkIdent U kw n) (h : nameOf n t = .ok x) : Built U kw x.1 t x.2 := by
  unfold nameOf at h
  rw [if_neg hw.ne] at h
  split at h
  · rename_i hu
    obtain ⟨g, t'⟩ := x
    have hne : n.head? ≠ some 34 := by
      intro e
      cases n with
      | nil => cases e
      | cons c n =>
        obtain rfl : c = 34 := by simpa using e
        exact absurd hu (by simp [isUpper])
    obtain ⟨h1, h2, h3, k, rfl, h4⟩ := tokenOf_leaf hk (fun e => absurd e hne) h
    exact ⟨h1, h2, fun T hT => ⟨n, .inl ⟨hw, hu⟩, h4 T hT, h⟩⟩
  · rename_i hu
    have hu : isUpper n = false := by simpa using hu
    have goal := h
    have key : nameOf n t = .ok x := by
      unfold nameOf
      rw [if_neg hw.ne, if_neg (by simp [hu])]
      exact h
    clear goal
    cases hl : t.grammars.lookup n with
    | some g =>
      rw [hl] at h
      cases h
      exact ⟨hk, .refl _, fun T hT => ⟨hw, hu, key⟩⟩
    | none =>
      rw [hl] at h
      cases hv : varNo n t.vars with
      | some v =>
        rw [hv] at h
        cases h
        obtain ⟨o, ho⟩ := varNo_some hv
        refine ⟨hk, .refl _, fun T hT => ?_⟩
        have e : (leavesOf U kw T).names v = n := names_of (hT.var (by unfold Tab.used; rw [List.getElem?_map, ho]; rfl))
        show OkIdent _ _ ((leavesOf U kw T).names v) ∧ _
        rw [e]
        exact ⟨hw, hu, key⟩
      | none =>
        rw [hv] at h
        dsimp only at h
        split at h
        · cases h
          exact ⟨hk, .refl _, fun T hT => .refl _⟩
        · cases h
          refine ⟨hk, ⟨⟨[], by simp⟩, ⟨[n], by simp [Tab.used]⟩⟩, fun T hT => ?_⟩
          have e : (leavesOf U kw T).names t.vars.length = n := names_of (hT.var (by simp [Tab.used]))
          show OkIdent _ _ ((leavesOf U kw T).names t.vars.length) ∧ _
          rw [e]
          exact ⟨hw, hu, key⟩

mutual
theorem fac_built : ∀ (f : Fac) {t : Tab B} {x : Gr B × Tab B}, f.plain = true → Words U kw f.flat → KwOk t.scanner → f.den mk t = .ok x →
    Built U kw x.1 t x.2
  | .ident n, t, x, _, hw, hk, h => built_ident hk ((hw (IDENT, n) (by simp [Fac.flat])).1 rfl) h
  | .char l, t, x, _, hw, hk, h => by
    have h39 := (hw (CHAR, l) (by simp [Fac.flat])).2.2 rfl
    dsimp only at h39
    have hne : l.head? ≠ some 34 := by rw [h39]; decide
    obtain ⟨g, t'⟩ := x
    obtain ⟨h1, h2, h3, k, rfl, h4⟩ := tokenOf_leaf hk (fun e => absurd e hne) h
    obtain ⟨_, _, p, hp, rfl⟩ := lit_known (h3 hne)
    obtain ⟨c, _, e, c0, c1, c2, c3, c4⟩ := char_names p hp h39
    exact ⟨h1, h2, fun T hT => ⟨_, .inr (.inl (by rw [e]; exact char_word c0 c1 c2 c3 c4)), h4 T hT, h⟩⟩
  | .string l, t, x, _, hw, hk, h => by
    obtain ⟨g, t'⟩ := x
    rcases (hw (STRING, l) (by simp [Fac.flat])).2.1 rfl with hs | hs
    · obtain ⟨h1, h2, h3, k, rfl, h4⟩ := tokenOf_leaf hk (fun _ => let ⟨b, e, _⟩ := hs.body; ⟨b, e⟩) h
      exact ⟨h1, h2, fun T hT => ⟨l, .inr (.inr hs.word), h4 T hT, h⟩⟩
    · dsimp only at hs
      have hne : l.head? ≠ some 34 := by rw [hs]; decide
      obtain ⟨h1, h2, h3, k, rfl, h4⟩ := tokenOf_leaf hk (fun e => absurd e hne) h
      obtain ⟨_, _, p, hp, rfl⟩ := lit_known (h3 hne)
      have : ∀ p ∈ Spec.names, (bytes p.2).head? ≠ some 96 := by decide +kernel
      exact absurd hs (this p hp)
  | .int l, t, x, _, _, hk, h => by
    simp only [Fac.den] at h
    split at h
    · cases h
      exact ⟨hk, .refl _, fun T hT => .refl _⟩
    · cases h
  | .rep0 f, t, x, hp, hw, hk, h => by
    obtain ⟨y, h1, h2⟩ := bind_ok h
    cases h2
    exact (fac_built f hp hw.tail hk h1).obj (newObj_same (.rep0 · y.1) y.2) fun T hb => ⟨y.2, hb, newObj_same (.rep0 · y.1) y.2⟩
  | .rep1 f, t, x, hp, hw, hk, h => by
    obtain ⟨y, h1, h2⟩ := bind_ok h
    cases h2
    exact (fac_built f hp hw.tail hk h1).obj (newObj_same (.rep1 · y.1) y.2) fun T hb => ⟨y.2, hb, newObj_same (.rep1 · y.1) y.2⟩
  | .rep01 f, t, x, hp, hw, hk, h => by
    obtain ⟨y, h1, h2⟩ := bind_ok h
    cases h2
    exact (fac_built f hp hw.tail hk h1).obj (newObj_same (.rep01 · y.1) y.2) fun T hb => ⟨y.2, hb, newObj_same (.rep01 · y.1) y.2⟩
  | .not f, t, x, hp, hw, hk, h => by
    obtain ⟨y, h1, h2⟩ := bind_ok h
    cases h2
    exact (fac_built f hp hw.tail hk h1).obj (.refl _) fun T hb => hb
  | .peek f, t, x, hp, hw, hk, h => by
    obtain ⟨y, h1, h2⟩ := bind_ok h
    cases h2
    exact (fac_built f hp hw.tail hk h1).obj (.refl _) fun T hb => hb
  | .paren g, t, x, hp, hw, hk, h => by
    obtain ⟨y, h1, h2⟩ := bind_ok h
    cases h2
    obtain ⟨h3, h4⟩ := alts_built g hp hw.tail.left hk h1
    exact h3.or h4

theorem sufs_built : ∀ (s : Sufs) {a : Gr B} {t0 t : Tab B} {x : Gr B × Tab B}, s.plain = true → Words U kw s.flat → Built U kw a t0 t → s.den mk a t = .ok x →
    Built U kw x.1 t0 x.2
  | .nil, a, t0, t, x, _, _, ha, h => by
    cases h
    exact ha
  | .list f r, a, t0, t, x, hp, hw, ha, h => by
    simp only [Sufs.plain, Bool.and_eq_true] at hp
    obtain ⟨y, h1, h2⟩ := bind_ok h
    have hb := fac_built f hp.1 hw.tail.left ha.kwOk h1
    have hs := newObj_same (.list · a y.1 false) y.2
    refine sufs_built r hp.2 hw.tail.right (⟨hs.2.2 ▸ hb.kwOk, (ha.later.trans hb.later).trans hs.later, fun T hT => ?_⟩) h2
    have hT' := hs.later.trans hT
    exact ⟨t, y.2, ha.builds T (hb.later.trans hT'), hb.builds T hT', hs⟩
  | .list0 f r, a, t0, t, x, hp, hw, ha, h => by
    simp only [Sufs.plain, Bool.and_eq_true] at hp
    obtain ⟨y, h1, h2⟩ := bind_ok h
    have hb := fac_built f hp.1 hw.tail.left ha.kwOk h1
    have hs := newObj_same (.list · a y.1 true) y.2
    refine sufs_built r hp.2 hw.tail.right (⟨hs.2.2 ▸ hb.kwOk, (ha.later.trans hb.later).trans hs.later, fun T hT => ?_⟩) h2
    have hT' := hs.later.trans hT
    exact ⟨t, y.2, ha.builds T (hb.later.trans hT'), hb.builds T hT', hs⟩
  | .mark n r, a, t0, t, x, hp, _, _, _ => by cases hp

theorem item_built : ∀ (i : Item) {t : Tab B} {x : Gr B × Tab B}, i.plain = true → Words U kw i.flat → KwOk t.scanner → i.den mk t = .ok x →
    Built U kw x.1 t x.2
  | .term f s, t, x, hp, hw, hk, h => by
    simp only [Item.plain, Bool.and_eq_true] at hp
    obtain ⟨y, h1, h2⟩ := bind_ok h
    exact sufs_built s hp.2 hw.right (fac_built f hp.1 hw.left hk h1) h2
  | .cut, t, x, hp, _, _, _ => by cases hp

theorem seq_built : ∀ (s : ItemSeq) {t : Tab B} {x : List (Gr B) × Tab B}, s.plain = true → Words U kw s.flat → KwOk t.scanner → s.den mk t = .ok x →
    BuiltAll U kw x.1 t x.2
  | .nil, t, x, _, _, hk, h => by
    cases h
    exact ⟨hk, .refl _, fun T hT => rfl⟩
  | .cons i r, t, x, hp, hw, hk, h => by
    simp only [ItemSeq.plain, Bool.and_eq_true] at hp
    obtain ⟨y, h1, h2⟩ := bind_ok h
    obtain ⟨z, h3, h4⟩ := bind_ok h2
    cases h4
    have h5 := item_built i hp.1 hw.left hk h1
    exact .cons h5 (seq_built r hp.2 hw.right h5.kwOk h3)

theorem alts_built : ∀ (a : Alts) {t : Tab B} {x : List (Gr B) × Tab B}, a.plain = true → Words U kw a.flat → KwOk t.scanner → a.den mk t = .ok x →
    BuiltAll U kw x.1 t x.2 ∧ x.1 ≠ []
  | .one i is, t, x, hp, hw, hk, h => by
    simp only [Alts.plain, Bool.and_eq_true] at hp
    obtain ⟨y, h1, h2⟩ := bind_ok h
    obtain ⟨z, h3, h4⟩ := bind_ok h2
    cases h4
    have h5 := item_built i hp.1 hw.left hk h1
    have h6 := seq_built is hp.2 hw.right h5.kwOk h3
    have h7 := (BuiltAll.cons h5 h6).and (by simp)
    exact ⟨.cons h7 ⟨h7.kwOk, .refl _, fun T hT => rfl⟩, by simp⟩
  | .alt i is r, t, x, hp, hw, hk, h => by
    simp only [Alts.plain, Bool.and_eq_true] at hp
    obtain ⟨y, h1, h2⟩ := bind_ok h
    obtain ⟨z, h3, h4⟩ := bind_ok h2
    obtain ⟨w, h8, h9⟩ := bind_ok h4
    cases h9
    have h5 := item_built i hp.1.1 hw.left.left hk h1
    have h6 := seq_built is hp.1.2 hw.left.right h5.kwOk h3
    have h7 := (BuiltAll.cons h5 h6).and (by simp)
    exact ⟨.cons h7 (alts_built r hp.2 hw.right.tail h7.kwOk h8).1, by simp⟩
end

end Tpl
