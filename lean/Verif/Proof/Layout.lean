import Verif.Proof.ScannerSpell
import Verif.Spec.Layout

/-! Tokens that are written down with white space between them are read back. -/
namespace Tpl
namespace Scanner
open Spec

/-- A text that starts with white space. -/
def StartsWhite (r : Str) : Prop := ∃ b t, r = b :: t ∧ Space true b

theorem space_lt {nl : Bool} {b : UInt8} (h : Space nl b) : b = 32 ∨ b = 9 ∨ b = 13 ∨ b = 10 := by
  rcases h with h | h | h | h
  · exact .inl h
  · exact .inr (.inl h)
  · exact .inr (.inr (.inl h))
  · exact .inr (.inr (.inr h.1))

theorem space_true {nl : Bool} {b : UInt8} (h : Space nl b) : Space true b := by
  rcases h with h | h | h | h
  · exact .inl h
  · exact .inr (.inl h)
  · exact .inr (.inr (.inl h))
  · exact .inr (.inr (.inr ⟨h.1, rfl⟩))

theorem StartsWhite.dec {r : Str} (h : StartsWhite r) : ¬ DecNext r := by
  obtain ⟨b, t, rfl, hb⟩ := h
  rintro ⟨c, u, e, hc⟩
  cases e
  unfold IsDec at hc
  rcases space_lt hb with rfl | rfl | rfl | rfl <;> exact absurd hc (by decide)

theorem StartsWhite.hex {r : Str} (h : StartsWhite r) : ¬ HexNext r := by
  obtain ⟨b, t, rfl, hb⟩ := h
  rintro ⟨c, u, e, hc⟩
  cases e
  unfold IsHex at hc
  rcases space_lt hb with rfl | rfl | rfl | rfl <;> exact absurd hc (by decide)

theorem StartsWhite.char {r : Str} (h : StartsWhite r) {c : UInt8} (hc : c ≠ 32 ∧ c ≠ 9 ∧ c ≠ 13 ∧ c ≠ 10) : ¬ CharNext c r := by
  obtain ⟨b, t, rfl, hb⟩ := h
  rintro ⟨u, e⟩
  cases e
  rcases space_lt hb with rfl | rfl | rfl | rfl
  · exact hc.1 rfl
  · exact hc.2.1 rfl
  · exact hc.2.2.1 rfl
  · exact hc.2.2.2 rfl

theorem StartsWhite.frac {r : Str} (h : StartsWhite r) : ¬ FracNext r := by
  rintro (e | e | e | e)
  all_goals exact h.char (by decide) e

theorem StartsWhite.word {U : Uni} {r : Str} (h : StartsWhite r) : ¬ (Letter U (headRune r) ∨ Digit U (headRune r)) := by
  obtain ⟨b, t, rfl, hb⟩ := h
  have hb := space_lt hb
  have hlt : b.toNat < 0x80 := by rcases hb with rfl | rfl | rfl | rfl <;> decide
  have e : headRune (b :: t) = b.toNat := by
    unfold headRune
    rw [if_neg (by simp), decodeRune_ascii hlt]
  rw [e]
  unfold Letter Digit
  rcases hb with rfl | rfl | rfl | rfl
  · have : ((32 : UInt8).toNat : Int) = 32 := rfl
    omega
  · have : ((9 : UInt8).toNat : Int) = 9 := rfl
    omega
  · have : ((13 : UInt8).toNat : Int) = 13 := rfl
    omega
  · have : ((10 : UInt8).toNat : Int) = 10 := rfl
    omega

/-! ### Cutting clean texts behind tokens -/

theorem clean_behind {c : UInt8} {a r : Str} (hc : c.toNat < 0x80) (h : Clean (a ++ c :: r)) : Clean (a ++ [c]) ∧ Clean r := by
  obtain ⟨h1, h2⟩ := clean_cut hc a.length (Nat.le_refl _) h
  have h3 : Clean r := clean_tail (u := [c]) h2 (by simp) (by rw [List.singleton_append, decodeRune_ascii hc]; rfl)
  have h0 : c.toNat ≠ 0 := by
    obtain ⟨u, t, d, e, u1, u2, u3, _⟩ := clean_first h2 (by simp)
    rw [decodeRune_ascii hc] at u2
    rw [(Prod.mk.inj u2).1]
    exact u3
  exact ⟨clean_append h1 (clean_cons h0 hc .nil), h3⟩

/-- A text whose last byte is ASCII. -/
def EndsAscii (x : Str) : Prop := ∃ a c, x = a ++ [c] ∧ c.toNat < 0x80

theorem EndsAscii.clean {x r : Str} (h : EndsAscii x) (hc : Clean (x ++ r)) : Clean x ∧ Clean r := by
  obtain ⟨a, c, rfl, h1⟩ := h
  rw [List.append_assoc] at hc
  exact clean_behind h1 hc

theorem endsAscii_all {x : Str} (hne : x ≠ []) (h : ∀ b ∈ x, b.toNat < 0x80) : EndsAscii x := by
  refine ⟨x.dropLast, x.getLast hne, (List.dropLast_concat_getLast hne).symm, h _ (List.getLast_mem hne)⟩

theorem isDec_lt {b : UInt8} (h : IsDec b) : b.toNat < 0x80 := by unfold IsDec at h; omega
theorem isOct_lt {b : UInt8} (h : IsOct b) : b.toNat < 0x80 := by unfold IsOct at h; omega
theorem isHex_lt {b : UInt8} (h : IsHex b) : b.toNat < 0x80 := by unfold IsHex at h; omega

theorem intText_ascii {x r : Str} (h : IntText true x r) : x ≠ [] ∧ ∀ b ∈ x, b.toNat < 0x80 := by
  cases h with
  | dec h1 h2 h3 =>
    refine ⟨by simp, fun b hb => ?_⟩
    rcases List.mem_cons.mp hb with rfl | hb
    · exact isDec_lt h1
    · exact isDec_lt (h3 b hb)
  | oct h1 =>
    refine ⟨by simp, fun b hb => ?_⟩
    rcases List.mem_cons.mp hb with rfl | hb
    · decide
    · exact isOct_lt (h1 b hb)
  | hex h1 h2 =>
    refine ⟨by simp, fun b hb => ?_⟩
    rcases List.mem_cons.mp hb with rfl | hb
    · decide
    · rcases List.mem_cons.mp hb with rfl | hb
      · rcases h1 with rfl | rfl <;> decide
      · exact isHex_lt (h2 b hb)

theorem expText_ascii {x r : Str} (h : ExpText x r) : ∀ b ∈ x, b.toNat < 0x80 := by
  cases h with
  | none => simp
  | some h1 h2 h3 =>
    intro b hb
    rcases List.mem_cons.mp hb with rfl | hb
    · rcases h1 with rfl | rfl <;> decide
    · rcases List.mem_append.mp hb with hb | hb
      · rcases h2 with rfl | rfl | rfl
        · cases hb
        · rw [List.mem_singleton.mp hb]; decide
        · rw [List.mem_singleton.mp hb]; decide
      · exact isDec_lt (h3 b hb)

theorem floatText_ascii {x r : Str} (h : FloatText x r) : x ≠ [] ∧ ∀ b ∈ x, b.toNat < 0x80 := by
  cases h with
  | frac h1 h2 h3 h4 h5 =>
    refine ⟨by simp, fun b hb => ?_⟩
    rcases List.mem_append.mp hb with hb | hb
    · exact isDec_lt (h1 b hb)
    · rcases List.mem_cons.mp hb with rfl | hb
      · decide
      · rcases List.mem_append.mp hb with hb | hb
        · exact isDec_lt (h2 b hb)
        · exact expText_ascii h5 b hb
  | exp h1 h2 h3 h4 =>
    refine ⟨by simp [h2], fun b hb => ?_⟩
    rcases List.mem_append.mp hb with hb | hb
    · exact isDec_lt (h1 b hb)
    · exact expText_ascii h4 b hb

theorem imagText_ascii {x r : Str} (h : ImagText x r) : x ≠ [] ∧ ∀ b ∈ x, b.toNat < 0x80 := by
  cases h with
  | int h1 h2 =>
    refine ⟨by simp, fun b hb => ?_⟩
    rcases List.mem_append.mp hb with hb | hb
    · exact isDec_lt (h1 b hb)
    · rw [List.mem_singleton.mp hb]; decide
  | float h1 =>
    refine ⟨by simp, fun b hb => ?_⟩
    rcases List.mem_append.mp hb with hb | hb
    · exact (floatText_ascii h1).2 b hb
    · rw [List.mem_singleton.mp hb]; decide

theorem ops_ascii : ∀ p ∈ operators, bytes p.2 ≠ [] ∧ ∀ b ∈ bytes p.2, b.toNat ≠ 0 ∧ b.toNat < 0x80 ∧ b ≠ 32 ∧ b ≠ 9 ∧ b ≠ 13 ∧ b ≠ 10 := by
  decide +kernel

theorem ops_find : ∀ p ∈ operators, operators.find? (·.1 = p.1) = some p := by decide +kernel

theorem ops_lens : ∀ p ∈ operators, (bytes p.2).length = p.2.length := by decide +kernel

theorem commentText_clean {c r : Str} (h : CommentText true c r) (hc : Clean (c ++ r)) : Clean r := by
  have line : ∀ {x : Str}, LineEnd r → Clean (x ++ r) → Clean r := by
    intro x hr hx
    rcases hr with rfl | ⟨t, rfl⟩
    · exact .nil
    · exact (clean_cut (by decide) x.length (Nat.le_refl _) hx).2
  cases h with
  | line h1 h2 => exact line h2 hc
  | sharp h1 h2 => exact line h2 hc
  | @block b _ h1 =>
    have e : 47 :: 42 :: (b ++ [42, 47]) ++ r = (47 :: 42 :: (b ++ [42])) ++ 47 :: r := by simp
    rw [e] at hc
    exact (clean_behind (by decide) hc).2
  | unclosed h1 => cases h1

theorem gap_behind {semi semi' : Bool} {g r : Str} (h : Gap true false semi g r semi') (hc : Clean (g ++ r)) : Clean r := by
  induction h with
  | nil => exact hc
  | space hb _ ih =>
    refine ih (clean_tail (u := [_]) hc (by simp) ?_)
    rw [List.cons_append, decodeRune_ascii (by rcases space_lt hb with rfl | rfl | rfl | rfl <;> decide)]
    rfl
  | comment _ h1 _ _ ih =>
    rw [List.append_assoc] at hc
    exact ih (commentText_clean h1 hc)

/-! ### Tokens do not depend on the white space behind them -/

theorem intText_white {x r r' : Str} (h : IntText true x r) (hr : StartsWhite r') : IntText true x r' := by
  cases h with
  | dec h1 h2 h3 => exact .dec h1 h2 h3 hr.dec hr.frac
  | oct h1 => exact .oct h1 hr.dec hr.frac (fun h => h.2.elim (hr.char (by decide)) (hr.char (by decide)))
  | hex h1 h2 h3 => exact .hex h1 h2 h3 hr.hex

theorem expText_white {x r r' : Str} (h : ExpText x r) (hr : ¬ DecNext r' ∧ ¬ CharNext 101 r' ∧ ¬ CharNext 69 r' ∧ ¬ CharNext 45 r' ∧ ¬ CharNext 43 r') :
    ExpText x r' := by
  cases h with
  | none => exact .none hr.2.1 hr.2.2.1
  | some h1 h2 h3 => exact .some h1 h2 h3 hr.1 (fun _ _ => ⟨hr.2.2.2.1, hr.2.2.2.2⟩)

theorem floatText_white {x r r' : Str} (h : FloatText x r) (hr : ¬ DecNext r' ∧ ¬ CharNext 101 r' ∧ ¬ CharNext 69 r' ∧ ¬ CharNext 45 r' ∧ ¬ CharNext 43 r') :
    FloatText x r' := by
  cases h with
  | @frac ds fs ex _ h1 h2 h3 h4 h5 =>
    refine .frac h1 h2 h3 ?_ (expText_white h5 hr)
    cases ex with
    | nil => exact hr.1
    | cons e ex =>
      rintro ⟨b, t, e1, hb⟩
      exact h4 ⟨b, ex ++ r, by simp only [List.cons_append, List.cons.injEq] at e1 ⊢; exact ⟨e1.1, trivial⟩, hb⟩
  | exp h1 h2 h3 h4 => exact .exp h1 h2 h3 (expText_white h4 hr)

theorem StartsWhite.exp {r : Str} (h : StartsWhite r) : ¬ DecNext r ∧ ¬ CharNext 101 r ∧ ¬ CharNext 69 r ∧ ¬ CharNext 45 r ∧ ¬ CharNext 43 r :=
  ⟨h.dec, h.char (by decide), h.char (by decide), h.char (by decide), h.char (by decide)⟩

theorem imagText_white {x r r' : Str} (h : ImagText x r) : ImagText x r' := by
  cases h with
  | int h1 h2 => exact .int h1 h2
  | float h1 =>
    refine .float (floatText_white h1 ⟨?_, ?_, ?_, ?_, ?_⟩)
    · rintro ⟨b, t, e, hb⟩
      cases e
      exact absurd hb (by unfold IsDec; decide)
    all_goals
      rintro ⟨t, e⟩
      injection e with e _
      exact absurd e (by decide)

theorem charBody_stable {b r r' : Str} (h : CharBody b (39 :: r)) (hc : Clean b) : CharBody b (39 :: r') := by
  cases h with
  | esc h => exact .esc h
  | char h1 h2 h3 h4 h5 =>
    obtain ⟨u, t, c, rfl, h6, h7, h8, h9, h10, h11⟩ := clean_first hc h2
    have e1 := decode_stable h6 h7 h10 (t ++ 39 :: r)
    have e2 := decode_stable h6 h7 h10 (t ++ 39 :: r')
    rw [List.append_assoc, e1] at h1
    have hl : u.length = (u ++ t).length := (Prod.mk.inj h1).2
    refine .char ?_ h2 h3 h4 h5
    rw [List.append_assoc, e2, ← hl]

theorem clean_filter {x : Str} (h : Clean x) : Clean (x.filter (· ≠ 13)) := by
  induction h with
  | nil => exact .nil
  | @cons u t c h1 h2 h3 h4 h5 _ ih =>
    rw [List.filter_append]
    match u, h1 with
    | b :: u, _ =>
      by_cases hb : b.toNat < 0x80
      · rw [List.cons_append, decodeRune_ascii hb] at h2
        have hl : u = [] := List.length_eq_zero_iff.mp (by have := (Prod.mk.inj h2).2; rw [List.length_cons] at this; omega)
        subst hl
        by_cases h13 : b = 13
        · subst h13; exact ih
        · rw [show [b].filter (· ≠ 13) = [b] by simp [h13], List.singleton_append]
          exact clean_cons (by rw [(Prod.mk.inj h2).1]; exact h3) hb ih
      · have hu : ∀ y ∈ b :: u, 0x80 ≤ y.toNat := by
          have := decodeRune_bytes b (u ++ t) (by omega)
          rw [← List.cons_append, h2] at this
          simpa using this
        have e : (b :: u).filter (· ≠ 13) = b :: u := by
          rw [List.filter_eq_self]
          intro y hy
          simp only [ne_eq, decide_eq_true_eq]
          rintro rfl
          exact absurd (hu _ hy) (by decide)
        rw [e]
        exact .cons (by simp) (decode_stable (by simp) h2 h5 _) h3 h4 h5 ih

variable {U : Uni}

/-- How a token that is not an automatic semicolon is written. -/
theorem tokText_write {semi semi2 : Bool} {t : Token} {x r : Str} (h : TokText U true false semi t x r semi2) (hk : t.kind ≠ EOF)
    (hc : Clean (x ++ r)) :
    Clean r ∧ ((t = ⟨SEMICOLON, t.pos, [10]⟩ ∧ semi = true ∧ semi2 = false) ∨
      (Clean (tokenText t) ∧ tokenText t ≠ [] ∧ (t.kind = IDENT → t.lit ≠ []) ∧ (semi2 = true → t.kind ≠ SEMICOLON) ∧
        ∀ semi' p r', StartsWhite r' → TokText U true false semi' { t with pos := p } (tokenText t) r' semi2)) := by
  have lit : ∀ {k p : Nat} {l : Str}, l ≠ [] → tokenText ⟨k, p, l⟩ = l := by
    intro k p l hl
    unfold tokenText
    rw [if_pos hl]
  cases h with
  | ident h1 h2 h3 h4 =>
    obtain ⟨c1, c2⟩ := runes_clean h3 hc
    rw [lit h1]
    refine ⟨c2, .inr ⟨c1, h1, fun _ => h1, fun _ => by dsimp only; decide, fun semi' p r' hr => .ident h1 ?_ (runes_stable h3 c1 r') hr.word⟩⟩
    rw [headRune_stable c1 h1] at h2 ⊢
    exact h2
  | int h1 =>
    obtain ⟨n1, n2⟩ := intText_ascii h1
    obtain ⟨c1, c2⟩ := (endsAscii_all n1 n2).clean hc
    rw [lit n1]
    exact ⟨c2, .inr ⟨c1, n1, fun _ => n1, fun _ => by dsimp only; decide, fun semi' p r' hr => .int (intText_white h1 hr)⟩⟩
  | float h1 h2 =>
    obtain ⟨n1, n2⟩ := floatText_ascii h1
    obtain ⟨c1, c2⟩ := (endsAscii_all n1 n2).clean hc
    rw [lit n1]
    exact ⟨c2, .inr ⟨c1, n1, fun _ => n1, fun _ => by dsimp only; decide, fun semi' p r' hr => .float (floatText_white h1 hr.exp) (hr.char (by decide))⟩⟩
  | imag h1 =>
    obtain ⟨n1, n2⟩ := imagText_ascii h1
    obtain ⟨c1, c2⟩ := (endsAscii_all n1 n2).clean hc
    rw [lit n1]
    exact ⟨c2, .inr ⟨c1, n1, fun _ => n1, fun _ => by dsimp only; decide, fun semi' p r' hr => .imag (imagText_white h1)⟩⟩
  | char h1 h2 =>
    obtain ⟨b, rfl, hb⟩ := h2 rfl
    obtain ⟨c1, c2⟩ := EndsAscii.clean ⟨39 :: b, 39, rfl, by decide⟩ hc
    rw [lit (by simp)]
    have c3 : Clean b := by
      have c4 : Clean (b ++ [39]) := clean_tail (u := [39]) c1 (by simp) (by rw [List.singleton_append, decodeRune_ascii (by decide)]; rfl)
      exact (clean_cut (by decide) b.length (Nat.le_refl _) c4).1
    exact ⟨c2, .inr ⟨c1, by simp, fun _ => by simp, fun _ => by dsimp only; decide, fun semi' p r' hr => .char h1 fun _ => ⟨b, rfl, charBody_stable hb c3⟩⟩⟩
  | string h1 h2 =>
    obtain ⟨b, rfl, hb⟩ := h2 rfl
    obtain ⟨c1, c2⟩ := EndsAscii.clean ⟨34 :: b, 34, rfl, by decide⟩ hc
    rw [lit (by simp)]
    exact ⟨c2, .inr ⟨c1, by simp, fun _ => by simp, fun _ => by dsimp only; decide, fun semi' p r' hr => .string h1 fun _ => ⟨b, rfl, hb⟩⟩⟩
  | raw h1 h2 =>
    obtain ⟨b, rfl, hb⟩ := h2 rfl
    obtain ⟨c1, c2⟩ := EndsAscii.clean ⟨96 :: b, 96, rfl, by decide⟩ hc
    have e : (96 :: (b ++ [96])).filter (· ≠ 13) = 96 :: (b.filter (· ≠ 13) ++ [96]) := by simp
    rw [e, lit (by simp)]
    refine ⟨c2, .inr ⟨?_, by simp, fun _ => by simp, fun _ => by dsimp only; decide, fun semi' p r' hr => ?_⟩⟩
    · rw [← e]; exact clean_filter c1
    · have := TokText.raw (U := U) (ok := true) (comments := false) (semi := semi') (p := p) (x := 96 :: (b.filter (· ≠ 13) ++ [96])) (r := r') ⟨_, rfl⟩
        fun _ => ⟨b.filter (· ≠ 13), rfl, fun hm => hb (List.mem_filter.mp hm).1⟩
      simpa [List.filter_filter] using this
  | comment h1 => cases h1
  | @op _ _ k s _ h1 h2 h3 h4 =>
    obtain ⟨n1, n2⟩ := ops_ascii _ h1
    obtain ⟨c1, c2⟩ := (endsAscii_all n1 (fun b hb => (n2 b hb).2.1)).clean hc
    have e : ∀ p, tokenText ⟨k, p, if k = SEMICOLON then [59] else []⟩ = bytes s := by
      intro p
      unfold tokenText
      by_cases hk : k = SEMICOLON
      · have : ∀ p ∈ operators, p.1 = SEMICOLON → bytes p.2 = [59] := by decide +kernel
        rw [if_pos hk, if_pos (by simp), this _ h1 hk]
      · rw [if_neg hk, if_neg (by simp), ops_find _ h1]
    rw [e]
    refine ⟨c2, .inr ⟨c1, n1, fun hi => ?_, fun hs => ?_, fun semi' p r' hr => .op h1 ?_ ?_ ?_⟩⟩
    · have : ∀ p ∈ operators, p.1 ≠ IDENT := by decide +kernel
      exact absurd hi (this _ h1)
    · rintro rfl
      exact absurd hs (by decide)
    · intro k' s' h5 h6
      rw [← ops_lens _ h5, ← ops_lens _ h1]
      obtain ⟨z, h6⟩ := h6
      rcases List.append_eq_append_iff.mp h6 with ⟨y, e1, e2⟩ | ⟨y, e1, e2⟩
      · rw [e1]; simp
      · obtain ⟨b, t, rfl, hb⟩ := hr
        cases y with
        | nil => rw [e1]; simp
        | cons c y =>
          cases e2
          have h7 := ((ops_ascii _ h5).2 b (by rw [e1]; simp)).2.2
          rcases space_lt hb with rfl | rfl | rfl | rfl
          · exact absurd rfl h7.1
          · exact absurd rfl h7.2.1
          · exact absurd rfl h7.2.2.1
          · exact absurd rfl h7.2.2.2
    · exact fun h => h.2.elim (hr.char (by decide)) (hr.char (by decide))
    · exact fun h => h.2.elim hr.dec (hr.char (by decide))
  | newline => exact ⟨clean_tail (u := [10]) hc (by simp) (by rw [List.singleton_append, decodeRune_ascii (by decide)]; rfl), .inl ⟨rfl, rfl, rfl⟩⟩
  | semiAtComment => exact ⟨hc, .inl ⟨rfl, rfl, rfl⟩⟩
  | semiAtEnd => exact ⟨hc, .inl ⟨rfl, rfl, rfl⟩⟩
  | eof => exact absurd rfl hk
  | dots h1 =>
    have e : ∀ p, tokenText ⟨ILLEGAL, p, []⟩ = [46, 46] := by
      intro p
      unfold tokenText
      rw [if_neg (by simp), show operators.find? (·.1 = ILLEGAL) = none by decide +kernel]
    rw [e]
    exact ⟨(EndsAscii.clean ⟨[46], 46, rfl, by decide⟩ hc).2, .inr ⟨clean_cons (by decide) (by decide) (clean_cons (by decide) (by decide) .nil), by simp,
      fun h => absurd h (by dsimp only; decide), fun h => absurd h (by decide), fun semi' p r' hr => .dots (hr.char (by decide))⟩⟩
  | illegal h1 => cases h1

theorem gap_due {semi : Bool} {g r : Str} (h : Gap true false semi g r true) : semi = true := by
  suffices key : ∀ {semi' : Bool}, Gap true false semi g r semi' → semi' = true → semi = true from key h rfl
  clear h
  intro b h e
  induction h with
  | nil => exact e
  | space _ _ ih => exact ih e
  | comment _ _ _ _ ih => exact absurd (ih e) (by decide)

theorem space_due {ins : Bool} (s : Bool) {b : UInt8} (h : Space (!ins) b) : Space (!(s && ins)) b := by
  rcases h with h | h | h | ⟨h, hi⟩
  · exact .inl h
  · exact .inr (.inl h)
  · exact .inr (.inr (.inl h))
  · refine .inr (.inr (.inr ⟨h, ?_⟩))
    cases ins
    · cases s <;> rfl
    · cases hi

theorem lexes_white {mode : Mode} {semi : Bool} : ∀ {w : Str} {o : Nat} {r : Str} {ts : List Token}, (∀ b ∈ w, Space (!semi) b) →
    Lexes U true mode (o + w.length) r semi ts → Lexes U true mode o (w ++ r) semi ts
  | [], o, r, ts, _, h => h
  | b :: w, o, r, ts, hb, h => by
    have h1 : Lexes U true mode (o + 1) (w ++ r) semi ts := by
      refine lexes_white (fun c hc => hb c (List.mem_cons_of_mem _ hc)) ?_
      have e : o + (b :: w).length = o + 1 + w.length := by simp; omega
      rw [← e]; exact h
    have hb := hb b List.mem_cons_self
    rw [List.cons_append]
    generalize w ++ r = r at h1
    cases h1 with
    | eof h3 h4 => exact Lexes.eof (g := b :: r) (.space hb h3) (by rw [h4]; simp; omega)
    | @cons _ g x r _ semi1 semi2 t ts h3 h4 h5 h6 h7 =>
      refine Lexes.cons (g := b :: g) (x := x) (r := r) h3 (.space hb h4) (by rw [h5]; simp; omega) h6 ?_
      have e : o + (b :: g).length + x.length = o + 1 + g.length + x.length := by simp; omega
      rw [e]; exact h7

theorem white_clean {nl : Bool} {w : Str} (h : ∀ b ∈ w, Space nl b) : Clean w := by
  refine clean_of_ascii fun b hb => ?_
  rcases space_lt (h b hb) with rfl | rfl | rfl | rfl <;> decide

theorem lexes_ne {mode : Mode} {o : Nat} {r : Str} {semi : Bool} {ts : List Token} (h : Lexes U true mode o r semi ts) : ts ≠ [] := by
  cases h <;> simp

theorem layout_lexes {kw : Str → Option Nat} (hkw : ∀ w k, kw w = some k → k ≠ SEMICOLON) {ins : Bool} {o : Nat} {T : Str} {semi : Bool} {ts : List Token}
    (h : Lexes U true ⟨false, ins⟩ o T semi ts) : Clean T → ∀ {o' : Nat} {txt : Str} {us : List Token},
    LaidOut (!ins) o' (ts.dropLast.map (kwTok kw)) txt us →
    ((ts.dropLast = [] → semi = false) ∧ (ins = true → ∀ t ∈ (ts.dropLast.map (kwTok kw)).getLast?, t.kind = SEMICOLON)) →
    ∃ vs, vs.map (kwTok kw) = us ∧ Clean txt ∧ Lexes U true ⟨false, ins⟩ o' txt semi (vs ++ [⟨EOF, o' + txt.length, []⟩]) := by
  generalize hm : (⟨false, ins⟩ : Mode) = mode at h
  induction h with
  | @eof o g semi p h1 h2 =>
    intro _ o' txt us hl hs
    cases hl
    have hs := hs.1 rfl
    subst hs
    exact ⟨[], rfl, .nil, .eof .nil rfl⟩
  | @cons o g x r semi semi1 semi2 t ts h1 h2 h3 h4 h5 ih =>
    intro hc o' txt us hl hs
    subst hm
    have hne := lexes_ne h5
    rw [List.dropLast_cons_of_ne_nil hne, List.map_cons] at hl hs
    have c1 := gap_behind h2 hc
    obtain ⟨c2, hw⟩ := tokText_write h4 h1 c1
    cases hl with
    | @cons _ _ w _ txt ts' l1 l2 l3 =>
    have key : tokenText (kwTok kw t) = tokenText t ∧ (kwTok kw { t with pos := o' } = { kwTok kw t with pos := o' }) ∧ ((kwTok kw t).kind = SEMICOLON → t.kind = SEMICOLON) := by
      unfold kwTok
      dsimp only
      split
      · rename_i hi
        cases hq : kw t.lit with
        | none => exact ⟨rfl, rfl, id⟩
        | some k =>
          refine ⟨?_, rfl, fun hk => absurd hk (hkw _ _ hq)⟩
          rcases hw with ⟨e, _⟩ | ⟨_, _, hl, _⟩
          · rw [e] at hi; exact absurd hi (by dsimp only; decide)
          · unfold tokenText
            rw [if_pos (hl hi), if_pos (hl hi)]
      · exact ⟨rfl, rfl, id⟩
    obtain ⟨k1, k2, k3⟩ := key
    rw [k1] at l3 ⊢
    have hs' : (ts.dropLast = [] → (semi2 && ins) = false) ∧ (ins = true → ∀ t ∈ (ts.dropLast.map (kwTok kw)).getLast?, t.kind = SEMICOLON) := by
      refine ⟨fun he => ?_, fun hi u hu => hs.2 hi u ?_⟩
      · cases hi : ins with
        | false => cases semi2 <;> rfl
        | true =>
          have h6 := hs.2 hi
          rw [he] at h6
          have h7 := k3 (h6 (kwTok kw t) rfl)
          rcases hw with ⟨_, _, e⟩ | ⟨_, _, _, e, _⟩
          · rw [e]; rfl
          · cases semi2
            · rfl
            · exact absurd h7 (e rfl)
      · cases hd : ts.dropLast.map (kwTok kw) with
        | nil => rw [hd] at hu; cases hu
        | cons a l => rw [List.getLast?_cons_cons, ← hd]; exact hu
    obtain ⟨vs, v1, v2, v3⟩ := ih c2 l3 hs'
    have hr : StartsWhite (w ++ txt) := by
      match w, l1 with
      | b :: w, _ => exact ⟨b, w ++ txt, rfl, space_true (l2 b List.mem_cons_self)⟩
    have e1 : o' + (tokenText t).length + w.length + txt.length = o' + (tokenText t ++ (w ++ txt)).length := by simp; omega
    rw [e1] at v3
    have v4 := lexes_white (fun b hb => space_due semi2 (l2 b hb)) v3
    refine ⟨{ t with pos := o' } :: vs, ?_, ?_, ?_⟩
    · rw [List.map_cons, k2, v1]
    · rcases hw with ⟨e, _⟩ | ⟨e, _⟩
      · rw [e]
        exact clean_append (clean_cons (t := []) (b := 10) (by decide) (by decide) .nil) (clean_append (white_clean l2) v2)
      · exact clean_append e (clean_append (white_clean l2) v2)
    · rcases hw with ⟨e, s1, s2⟩ | ⟨_, _, _, _, e⟩
      · subst s1 s2
        have hd := gap_due h2
        subst hd
        have e2 : tokenText t = [10] := by rw [e]; rfl
        rw [e2] at v4 ⊢
        refine Lexes.cons (g := []) (x := [10]) (semi2 := false) h1 .nil rfl ?_ v4
        rw [e]
        exact .newline
      · exact Lexes.cons (g := []) (semi2 := semi2) h1 .nil rfl (e semi o' _ hr) v4

end Scanner
end Tpl
