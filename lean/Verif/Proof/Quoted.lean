import Verif.Spec.Quoted
import Verif.Props.Lexer
import Verif.Props.Token

/-! Proofs for C117. -/
namespace Tpl
open Spec KwScanner Scanner

/-- The name of a one-character operator is its spelling in single quotes. -/
theorem names_single (k : Nat) (w : Str) (s : String) (h : (k, s) ∈ names) (e : bytes s = 39 :: (w ++ [39])) :
    ∃ o, (k, o) ∈ operators ∧ o.length = 1 ∧ w = bytes o := by
  have key : names.all (fun n => (bytes n.2).head? != some 39 ||
      operators.any (fun o => o.1 == n.1 && o.2.length == 1 && bytes o.2 == (bytes n.2).tail.dropLast)) = true := by decide +kernel
  have := List.all_eq_true.mp key _ h
  simp only [e, List.head?_cons, bne_self_eq_false, Bool.false_or, List.tail_cons, List.dropLast_concat] at this
  obtain ⟨⟨k', o⟩, h1, h2⟩ := List.any_eq_true.mp this
  simp only [Bool.and_eq_true, beq_iff_eq] at h2
  obtain ⟨⟨rfl, h3⟩, h4⟩ := h2
  exact ⟨o, h1, h3, h4.symm⟩

theorem names_double (k : Nat) (w : Str) (s : String) (h : (k, s) ∈ names) (e : bytes s = 34 :: (w ++ [34])) :
    ∃ o, (k, o) ∈ operators ∧ o.length ≠ 1 ∧ w = bytes o := by
  have key : names.all (fun n => (bytes n.2).head? != some 34 ||
      operators.any (fun o => o.1 == n.1 && o.2.length != 1 && bytes o.2 == (bytes n.2).tail.dropLast)) = true := by decide +kernel
  have := List.all_eq_true.mp key _ h
  simp only [e, List.head?_cons, bne_self_eq_false, Bool.false_or, List.tail_cons, List.dropLast_concat] at this
  obtain ⟨⟨k', o⟩, h1, h2⟩ := List.any_eq_true.mp this
  simp only [Bool.and_eq_true, beq_iff_eq, bne_iff_ne, ne_eq] at h2
  obtain ⟨⟨rfl, h3⟩, h4⟩ := h2
  exact ⟨o, h1, h3, h4.symm⟩

/-- The literal of an operator. -/
theorem lit2token_op (k : Nat) (o : String) (h : (k, o) ∈ operators) :
    (o.length = 1 → Lit2Token (39 :: (bytes o ++ [39])) = k) ∧ (o.length ≠ 1 → Lit2Token (34 :: (bytes o ++ [34])) = k) := by
  have key : operators.all (fun o => (o.2.length != 1 || Lit2Token (39 :: (bytes o.2 ++ [39])) == o.1) &&
      (o.2.length == 1 || Lit2Token (34 :: (bytes o.2 ++ [34])) == o.1)) = true := by decide +kernel
  have := List.all_eq_true.mp key _ h
  simp only [Bool.and_eq_true, Bool.or_eq_true, bne_iff_ne, ne_eq, beq_iff_eq] at this
  exact ⟨fun h => this.1.resolve_left (fun c => c h), fun h => this.2.resolve_left h⟩

theorem lit2token_mem {lit : Str} (h : Lit2Token lit ≠ ILLEGAL) : ∃ s, (Lit2Token lit, s) ∈ names ∧ lit = bytes s := by
  refine Classical.byContradiction fun hn => h (Props.C01_lit2token_other lit fun k s hm e => hn ⟨s, ?_, e⟩)
  rw [e, (Props.C01_lit2token_token2lit k s hm).2]
  exact hm

/-- Kinds of operators and their first characters. -/
theorem op_facts (k : Nat) (o : String) (h : (k, o) ∈ operators) :
    k < 0xb0 ∧ k ≠ IDENT ∧ k ≠ ILLEGAL ∧ k ≠ FLOAT ∧ ∃ b r, bytes o = b :: r ∧ b.toNat < 0x80 ∧
      ¬ (97 ≤ b.toNat ∧ b.toNat ≤ 122) ∧ ¬ (65 ≤ b.toNat ∧ b.toNat ≤ 90) ∧ b.toNat ≠ 95 := by
  have key : operators.all (fun o => decide (o.1 < 0xb0 ∧ o.1 ≠ IDENT ∧ o.1 ≠ ILLEGAL ∧ o.1 ≠ FLOAT) &&
      match bytes o.2 with
      | [] => false
      | b :: _ => decide (b.toNat < 0x80 ∧ ¬ (97 ≤ b.toNat ∧ b.toNat ≤ 122) ∧ ¬ (65 ≤ b.toNat ∧ b.toNat ≤ 90) ∧ b.toNat ≠ 95)) = true := by
    decide +kernel
  have := List.all_eq_true.mp key _ h
  simp only [Bool.and_eq_true, decide_eq_true_eq] at this
  obtain ⟨⟨h1, h2, h3, h4⟩, h5⟩ := this
  refine ⟨h1, h2, h3, h4, ?_⟩
  cases hb : bytes o with
  | nil => rw [hb] at h5; cases h5
  | cons b r =>
    rw [hb] at h5
    exact ⟨b, r, rfl, by simpa only [decide_eq_true_eq] using h5⟩

/-- Operators are told apart by their spelling. -/
theorem op_inj {k k' : Nat} {o o' : String} (h : (k, o) ∈ operators) (h' : (k', o') ∈ operators) : k = k' ↔ bytes o = bytes o' := by
  have key : operators.all (fun a => operators.all fun b => (a.1 == b.1) == (bytes a.2 == bytes b.2)) = true := by decide +kernel
  have := List.all_eq_true.mp (List.all_eq_true.mp key _ h) _ h'
  simp only [beq_iff_eq] at this
  rw [← beq_iff_eq, this, beq_iff_eq]

/-- No identifier is spelled like an operator. -/
theorem ident_not_op {U : Uni} {mode : Mode} {o : Nat} {txt : Str} {semi : Bool} {us : List Token} (h : Lexes U true mode o txt semi us)
    {u : Token} (hu : u ∈ us) (hk : u.kind = IDENT) {k : Nat} {s : String} (hs : (k, s) ∈ operators) : u.lit ≠ bytes s := by
  intro e
  obtain ⟨pre, x, r, a, b, _, _, ht, _⟩ := lexes_mem h hu
  obtain ⟨_, _, _, _, c, y, hb, h1, h2, h3, h4⟩ := op_facts k s hs
  have key : ∀ x r : Str, x = bytes s → Letter U (headRune (x ++ r)) → False := by
    intro x r ex hl
    rw [ex, hb, List.cons_append] at hl
    have : headRune (c :: (y ++ r)) = (c.toNat : Int) := by
      unfold headRune
      rw [if_neg (by simp), decodeRune_ascii h1]
    rw [this] at hl
    rcases hl with hl | hl | hl | hl <;> omega
  cases ht with
  | ident h1 h2 h3 h4 => exact key _ _ e h2
  | op hop => exact (op_facts _ _ hop).2.1 hk
  | _ => exact absurd hk (by dsimp only; decide)

/-- The kind a quoted text gets, for the tokens of a text. -/
theorem quoted_kind {U : Uni} {mode : Mode} {o : Nat} {txt : Str} {semi : Bool} {us : List Token} (hl : Lexes U true mode o txt semi us)
    {k k1 k2 : KwScanner} (hk : Steps U KwScanner.zero k) {f : Fac} {dbl : Bool} {w lit : Str} (hf : Quotes f dbl w)
    (hlit : lit = if dbl then 34 :: (w ++ [34]) else 39 :: (w ++ [39]))
    {kind : Nat} (h : k.ltot lit = .ok (kind, k1)) (h0 : kind ≠ ILLEGAL) (hs : Steps U k1 k2) {u : Token} (hu : u ∈ us) :
    (kwTok k2.keywords.get u).kind = kind ↔ SpelledAs w u ∧ ¬ (dbl = true ∧ OneChar w) := by
  have hinv := (Steps.inv hk zero_inv).1
  have hq : (∃ w, lit = 34 :: (w ++ [34])) ∨ lit.head? ≠ some 34 := by
    cases dbl
    · exact .inr (by rw [hlit]; simp)
    · exact .inl ⟨w, hlit⟩
  have hinv1 := (KwScanner.ltot_inv hinv hq h).1
  obtain ⟨hinv2, hkeep1, hkeep2⟩ := Steps.inv hs hinv1
  have hge : ∀ x kd, k2.keywords.get x = some kd → 0xb0 ≤ kd := by
    intro x kd hx
    obtain ⟨i, l, e, _⟩ := hinv2.get x kd hx
    rw [e]; unfold userTokenBegin; omega
  -- the token with its keyword kind
  have hkw : ∀ n, n < 0xb0 → n ≠ IDENT → ((kwTok k2.keywords.get u).kind = n ↔ u.kind = n) := by
    intro n hn hi
    unfold kwTok
    by_cases hid : u.kind = IDENT
    · rw [if_pos hid]
      cases hg : k2.keywords.get u.lit with
      | none => exact Iff.rfl
      | some kd =>
        have := hge _ _ hg
        dsimp only
        constructor
        · intro e; omega
        · intro e; rw [hid] at e; exact absurd e.symm hi
    · rw [if_neg hid]
  by_cases hL : Lit2Token lit ≠ ILLEGAL
  · -- an operator
    obtain ⟨_, rfl⟩ := KwScanner.ltot_other (.inl hL) h
    obtain ⟨s, hs1, hs2⟩ := lit2token_mem hL
    have hop : ∃ op, (Lit2Token lit, op) ∈ operators ∧ w = bytes op ∧ ¬ (dbl = true ∧ OneChar w) := by
      cases dbl with
      | false =>
        obtain ⟨op, h1, h2, h3⟩ := names_single _ w s hs1 (by rw [← hs2, hlit]; rfl)
        exact ⟨op, h1, h3, fun h => by cases h.1⟩
      | true =>
        obtain ⟨op, h1, h2, h3⟩ := names_double _ w s hs1 (by rw [← hs2, hlit]; rfl)
        refine ⟨op, h1, h3, ?_⟩
        rintro ⟨_, k', s', g1, g2, g3⟩
        have e : bytes s' = bytes op := g3.symm.trans h3
        have hkk := (op_inj g1 h1).mpr e
        have : ∀ a ∈ operators, ∀ b ∈ operators, a.1 = b.1 → a.2.length = b.2.length := by
          have key : operators.all (fun a => operators.all fun b => a.1 != b.1 || a.2.length == b.2.length) = true := by decide +kernel
          intro a ha b hb e
          have := List.all_eq_true.mp (List.all_eq_true.mp key _ ha) _ hb
          simpa [e] using this
        exact h2 ((this _ h1 _ g1 hkk.symm).trans g2)
    obtain ⟨op, h1, h2, h3⟩ := hop
    obtain ⟨f1, f2, _⟩ := op_facts _ _ h1
    rw [hkw _ f1 f2]
    constructor
    · intro e
      exact ⟨.inr ⟨op, by rw [e]; exact h1, h2⟩, h3⟩
    · rintro ⟨⟨g1, g2⟩ | ⟨s', g1, g2⟩, _⟩
      · exact absurd (g2.trans h2) (ident_not_op hl hu g1 h1)
      · exact (op_inj g1 h1).mpr (g2.symm.trans h2)
  · have hL : Lit2Token lit = ILLEGAL := Classical.byContradiction hL
    cases dbl with
    | false =>
      obtain ⟨_, rfl⟩ := KwScanner.ltot_other (.inr (by rw [hlit]; simp)) h
      exact absurd hL h0
    | true =>
      simp only [if_true] at hlit
      have hkey : Keyword lit := ⟨⟨w, hlit⟩, hL⟩
      obtain ⟨i, e1, e2, e3⟩ := KwScanner.ltot_registered hinv hkey h
      have hword : KwScanner.word lit = w := by rw [hlit, KwScanner.word_quoted]
      rw [hword] at e3
      have e4 : k2.keywords.get w = some kind := hkeep2 _ _ e3
      have hinj : ∀ x, k2.keywords.get x = some kind → x = w := by
        intro x hx
        obtain ⟨j, l, a1, a2, a3⟩ := hinv2.get x kind hx
        have hj : j = i := by omega
        subst hj
        have := hkeep1 _ _ e2
        rw [a2] at this
        cases this
        rw [← a3, hword]
      have hkge : 0xb0 ≤ kind := hge _ _ e4
      constructor
      · intro e
        unfold kwTok at e
        by_cases hid : u.kind = IDENT
        · rw [if_pos hid] at e
          cases hg : k2.keywords.get u.lit with
          | none => rw [hg] at e; dsimp only at e; rw [hid] at e; subst e; exact absurd hkge (by decide)
          | some kd =>
            rw [hg] at e
            dsimp only at e
            subst e
            have hw := hinj _ hg
            refine ⟨.inl ⟨hid, hw⟩, ?_⟩
            rintro ⟨_, k', s', g1, _, g3⟩
            exact ident_not_op hl hu hid g1 (hw.trans g3)
        · rw [if_neg hid] at e
          obtain ⟨pre, x, r, a, b, _, _, ht, _⟩ := lexes_mem hl hu
          exfalso
          cases ht with
          | op hop => have := (op_facts _ _ hop).1; dsimp only at e; omega
          | _ => dsimp only at e; subst e; exact absurd hkge (by decide)
      · rintro ⟨⟨g1, g2⟩ | ⟨s', g1, g2⟩, hn⟩
        · unfold kwTok
          rw [if_pos g1, g2, e4]
        · exfalso
          by_cases h1 : s'.length = 1
          · exact hn ⟨rfl, _, _, g1, h1, g2⟩
          · have := (lit2token_op _ _ g1).2 h1
            rw [← g2, ← hlit, hL] at this
            exact (op_facts _ _ g1).2.2.1 this.symm

end Tpl
