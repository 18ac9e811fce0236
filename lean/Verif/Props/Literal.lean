import Verif.Proof.Strconv
import Verif.Proof.Interp
import Verif.Props.Compiler
import Verif.Model.Qlang
import Verif.Spec.Literal

/-! C107–C109: the values of string, character and integer literals.

`Tokenizes U k src mode ts eof` (Spec/Errors) says that the text tokenizes without error;
`Written src t x` (Spec/Literal) that the token `t` is written as `x`.  `StringValue`,
`CharValue` and `IntValue` are the values a programmer expects.  `getValue` is `GetValue` of
package extractor; `pushString` and `pushByte` are what a program of qlang does with literals.
`Uses L` says that these use the functions of package strconv. -/
namespace Tpl.Props
open Tpl Tpl.Spec Tpl.Scanner Tpl.Extractor
open Tpl.Qlang (Lib pushString pushByte push throwQ failMsg)
variable {F : Type} {U : Uni}

/-! ### Tokens and where they are written -/

/-- A literal of a text that tokenizes. -/
theorem literal_text {k : KwScanner} (hk : KwScanner.Steps U KwScanner.zero k) {src : Str} {mode : Mode} {ts : List Token} {eof : Token}
    (h : Tokenizes U k src mode ts eof) {t : Token} (ht : t ∈ ts) (hkind : t.kind = STRING ∨ t.kind = CHAR ∨ t.kind = INT) :
    ∃ p x r semi1 semi2, src = p ++ (x ++ r) ∧ t.pos = p.length ∧ TokText U true mode.scanComments semi1 t x r semi2 ∧ Clean (x ++ r) := by
  obtain ⟨full, s', hrun, herr, hmap⟩ := h
  obtain ⟨hc, hl⟩ := (run_iff U k.sc src mode full).1 ⟨s', hrun, herr⟩
  have hm : t ∈ full.map fun t => if t.kind = IDENT then { t with kind := (k.keywords.get t.lit).getD IDENT } else t := by
    rw [← hmap]
    exact List.mem_append_left _ ht
  obtain ⟨t0, ht0, e⟩ := List.mem_map.1 hm
  have e0 : t0 = t := by
    split at e
    · exfalso
      subst e
      dsimp only at hkind
      cases hg : k.keywords.get t0.lit with
      | none =>
        rw [hg] at hkind
        exact absurd hkind (by decide)
      | some kd =>
        have := kw_ge hk _ _ hg
        rw [hg, Option.getD_some] at hkind
        rcases hkind with rfl | rfl | rfl <;> exact absurd this (by decide)
    · exact e
  subst e0
  obtain ⟨p, x, r, s1, s2, e1, hp, htt, _⟩ := lexes_mem hl ht0
  have hq : ∃ c y, x = c :: y ∧ c.toNat < 0x80 := by
    clear e1 hp hmap hl hrun hm hc
    cases htt with
    | int h =>
      cases h with
      | dec h1 _ _ _ _ => exact ⟨_, _, rfl, isHex_ascii (.inl h1)⟩
      | oct _ _ _ _ => exact ⟨_, _, rfl, by decide⟩
      | hex _ _ _ _ => exact ⟨_, _, rfl, by decide⟩
    | char _ h => obtain ⟨b, rfl, _⟩ := h rfl; exact ⟨_, _, rfl, by decide⟩
    | string _ h => obtain ⟨b, rfl, _⟩ := h rfl; exact ⟨_, _, rfl, by decide⟩
    | raw _ h => obtain ⟨b, rfl, _⟩ := h rfl; exact ⟨_, _, rfl, by decide⟩
    | @op _ _ k s _ h =>
      have h' : ∀ p ∈ operators, p.1 ≠ STRING ∧ p.1 ≠ CHAR ∧ p.1 ≠ INT := by decide
      have h' := h' _ h
      dsimp only at h' hkind
      rcases hkind with e | e | e
      exacts [absurd e h'.1, absurd e h'.2.1, absurd e h'.2.2]
    | _ => dsimp only at hkind; exact absurd hkind (by decide)
  obtain ⟨c, y, rfl, hc0⟩ := hq
  rw [e1] at hc
  have hc1 := (clean_cut hc0 _ (Nat.le_refl _) hc).2
  refine ⟨src.take (bomLen src) ++ p, _, r, s1, s2, ?_, ?_, htt, hc1⟩
  · rw [List.append_assoc, ← e1, List.take_append_drop]
  · rw [hp, List.length_append, List.length_take]
    have : bomLen src ≤ src.length := by
      unfold bomLen
      split
      · next h =>
        have := (List.isPrefixOf_iff_prefix.1 h).length_le
        simpa using this
      · omega
    omega

/-! ### Strings -/

/-- The first character or escape of a text between quotes. -/
theorem strValue_first {b v : Str} (h : StrValue 34 b v) : b = [] ∨
    ∃ u s w c mb, b = u ++ s ∧ u ≠ [] ∧ StrValue 34 s w ∧ ∀ r, unquoteChar 34 (u ++ r) = some (c, mb, r) := by
  cases h with
  | nil => exact .inl rfl
  | char h1 h2 h3 _ h => exact .inr ⟨_, _, _, _, _, rfl, h1.1, h, fun r => char_char h1 h2 h3⟩
  | byte h1 h => exact .inr ⟨_, _, _, _, _, rfl, escapeByte_ne h1, h, fun r => (escapeByte_char (.inl rfl) h1 r).1⟩
  | rune h1 _ h => exact .inr ⟨_, _, _, _, _, rfl, escapeRune_ne h1, h, fun r => (escapeRune_char (.inl rfl) h1 r).1⟩

/-- Where the literal ends. -/
theorem strValue_end : ∀ (n : Nat) {b b' v v' r r' : Str}, b.length ≤ n → StrValue 34 b v → StrValue 34 b' v' → b ++ 34 :: r = b' ++ 34 :: r' → b = b'
  | 0, b, b', v, v', r, r', hn, h, h', e => by
    obtain rfl := List.length_eq_zero_iff.1 (Nat.le_zero.1 hn)
    rcases strValue_first h' with rfl | ⟨u, s, w, c, mb, rfl, hu, _, hf⟩
    · rfl
    · have := hf (s ++ 34 :: r')
      rw [← List.append_assoc, ← e] at this
      cases this
  | n + 1, b, b', v, v', r, r', hn, h, h', e => by
    rcases strValue_first h with rfl | ⟨u, s, w, c, mb, rfl, hu, hs, hf⟩
    · exact strValue_end 0 (Nat.zero_le _) h h' e
    rcases strValue_first h' with rfl | ⟨u', s', w', c', mb', rfl, hu', hs', hf'⟩
    · exact (strValue_end 0 (Nat.zero_le _) h' h e.symm).symm
    have h1 := hf (s ++ 34 :: r)
    have h2 := hf' (s' ++ 34 :: r')
    rw [List.append_assoc, List.append_assoc] at e
    rw [e, h2] at h1
    simp only [Option.some.injEq, Prod.mk.injEq] at h1
    have hl : 1 ≤ u.length := by cases u with | nil => exact absurd rfl hu | cons => simp
    rw [List.length_append] at hn
    have e2 := strValue_end n (by omega) hs hs' h1.2.2.symm
    rw [h1.2.2] at e
    rw [List.append_cancel_right e, e2]

theorem raw_end : ∀ {b b' r r' : Str}, 96 ∉ b → 96 ∉ b' → b ++ 96 :: r = b' ++ (96 : UInt8) :: r' → b = b'
  | [], [], _, _, _, _, _ => rfl
  | [], a :: b', _, _, _, h', e => by cases e; exact absurd (List.mem_cons_self ..) h'
  | a :: b, [], _, _, h, _, e => by cases e; exact absurd (List.mem_cons_self ..) h
  | a :: b, a' :: b', r, r', h, h', e => by
    have e1 := (List.cons.inj e).1
    have e2 := (List.cons.inj e).2
    rw [e1, raw_end (fun hm => h (List.mem_cons_of_mem _ hm)) (fun hm => h' (List.mem_cons_of_mem _ hm)) e2]

theorem written_rest {src : Str} {t : Token} {x x' : Str} (h : Written src t x) (h' : Written src t x') : ∃ r r', x ++ r = x' ++ r' := by
  obtain ⟨p, r, e, hp⟩ := h
  obtain ⟨p', r', e', hp'⟩ := h'
  rw [e] at e'
  exact ⟨r, r', (List.append_inj e' (hp.symm.trans hp')).2⟩

/-- The host functions qlang leaves open are those of package strconv. -/
def Uses (L : Lib F) : Prop := L.unquote = unquote ∧ L.unquoteChar = unquoteChar 39

/-- **C107** — string literals stand for their values.  Every string token of a text that
tokenizes is written as a string literal, and `GetValue` and qlang give its value: the text
between the quotes, with every escape sequence replaced by what it means, and of a raw string
the text without carriage returns. -/
theorem C107_string {k : KwScanner} (hk : KwScanner.Steps U KwScanner.zero k) {src : Str} {mode : Mode} {ts : List Token} {eof : Token}
    (h : Tokenizes U k src mode ts eof) {t : Token} (ht : t ∈ ts) (hkind : t.kind = STRING) :
    ∃ x v, Written src t x ∧ StringValue x v ∧ (∀ L : Lits F, getValue L (str "String") t.lit = .ok (.str v)) ∧
      ∀ L : Lib F, Uses L → pushString L t.lit = push (.str v) := by
  obtain ⟨p, x, r, s1, s2, e, hp, htt, hc⟩ := literal_text hk h ht (.inl hkind)
  have key : ∃ v, StringValue x v ∧ unquote t.lit = some v := by
    clear hp e
    cases htt with
    | string _ h =>
      obtain ⟨b, rfl, hb⟩ := h rfl
      have hc1 : Clean (b ++ 34 :: r) := by
        have := clean_after (by decide) hc
        simpa using this
      obtain ⟨v, hv⟩ := strBody_value _ (Nat.le_refl _) hb (clean_cut (by decide) _ (Nat.le_refl _) hc1).1
      exact ⟨v, .quoted hv, unquote_value (.quoted hv)⟩
    | raw _ h =>
      obtain ⟨b, rfl, hb⟩ := h rfl
      exact ⟨_, .raw hb, unquote_raw hb⟩
    | @op _ _ k s _ h =>
      have h' : ∀ p ∈ operators, p.1 ≠ STRING := by decide
      exact absurd hkind (h' _ h)
    | _ => dsimp only at hkind; exact absurd hkind (by decide)
  obtain ⟨v, hv, hu⟩ := key
  refine ⟨x, v, ⟨p, r, e, hp⟩, hv, fun L => ?_, fun L hL => ?_⟩
  · unfold getValue
    rw [if_pos rfl, hu]
  · unfold pushString
    rw [hL.1, hu]

/-- There is one string literal at a place of a text, and it has one value. -/
theorem C107_unique {src : Str} {t : Token} {x x' v v' : Str} (h : Written src t x) (hv : StringValue x v) (h' : Written src t x')
    (hv' : StringValue x' v') : x = x' ∧ v = v' := by
  have hx : x = x' := by
    obtain ⟨r, r', e⟩ := written_rest h h'
    clear h h'
    cases hv with
    | quoted h =>
      cases hv' with
      | quoted h' =>
        rw [List.cons_append, List.cons_append, List.append_assoc, List.append_assoc] at e
        have e := (List.cons.inj e).2
        rw [strValue_end _ (Nat.le_refl _) h h' e]
      | raw => cases e
    | raw h =>
      cases hv' with
      | quoted h' => cases e
      | raw h' =>
        rw [List.cons_append, List.cons_append, List.append_assoc, List.append_assoc] at e
        have e := (List.cons.inj e).2
        rw [raw_end h h' e]
  subst hx
  exact ⟨rfl, Option.some.inj ((unquote_value hv).symm.trans (unquote_value hv'))⟩

/-! ### Characters -/

theorem charValue_char {x : Str} {n : Nat} (h : CharValue x n) : ∃ b mb, x = 39 :: (b ++ [39]) ∧ b ≠ [] ∧ (∀ r, unquoteChar 39 (b ++ r) = some (n, mb, r)) ∧
    (ByteChar x n → mb = false) ∧ (¬ ByteChar x n → mb = true) := by
  have esc : ∀ {e : Str} {n m : Nat}, EscapeRune e n → ¬ ByteChar (39 :: (e ++ [39])) m := by
    intro e n m he hb
    generalize hx : 39 :: (e ++ [39]) = x at hb
    cases hb with
    | @char b _ _ h _ =>
      have := (List.cons.inj hx).2
      cases he with
      | u4 => exact h (List.cons.inj this).1.symm
      | u8 => exact h (List.cons.inj this).1.symm
    | byte h =>
      have e1 := List.append_cancel_right (List.cons.inj hx).2
      subst e1
      have h1 := (escapeByte_char (.inr rfl) h []).1
      rw [(escapeRune_char (.inr rfl) he []).1] at h1
      cases h1
  cases h with
  | @char u c h1 h2 h3 h4 =>
    refine ⟨u, _, rfl, h1.1, fun r => char_char h1 h2 h3, ?_, ?_⟩
    · intro hb
      generalize hx : 39 :: (u ++ [39]) = x at hb
      cases hb with
      | char hlt _ _ _ => exact decide_eq_false (by omega)
      | @byte e _ he =>
        have e1 := List.append_cancel_right (List.cons.inj hx).2
        subst e1
        cases he <;> exact absurd rfl h3
    · intro hb
      rcases utf8_cases h1 with ⟨b, rfl, rfl, hlt⟩ | ⟨hc, _⟩
      · exact absurd (.char hlt (by simpa using h2) (by simpa using h3) (by simpa using h4)) hb
      · exact decide_eq_true hc
  | byte h => exact ⟨_, false, rfl, escapeByte_ne h, fun r => (escapeByte_char (.inr rfl) h r).1, fun _ => rfl, fun hb => absurd (.byte h) hb⟩
  | rune h => exact ⟨_, true, rfl, escapeRune_ne h, fun r => (escapeRune_char (.inr rfl) h r).1, fun hb => absurd hb (esc h), fun _ => rfl⟩

theorem byteChar_lt {x : Str} {n : Nat} (h : ByteChar x n) : n < 256 := by
  cases h with
  | char h _ _ _ => omega
  | byte h => exact (escapeByte_char (.inr rfl) h []).2

/-- **C108** — "character literals stand for their values": every character token of a text that
tokenizes is written as a character literal.  If this is an ASCII character or the escape of a
byte, `GetValue` and qlang give its value.  Of any other character literal both panic: the part
of the claim that fails. -/
theorem C108_char_partial {k : KwScanner} (hk : KwScanner.Steps U KwScanner.zero k) {src : Str} {mode : Mode} {ts : List Token} {eof : Token}
    (h : Tokenizes U k src mode ts eof) {t : Token} (ht : t ∈ ts) (hkind : t.kind = CHAR) :
    ∃ n, Written src t t.lit ∧ CharValue t.lit n ∧
      (ByteChar t.lit n → ∃ b : UInt8, b.toNat = n ∧ (∀ L : Lits F, getValue L (str "Char") t.lit = .ok (.byte b)) ∧
        ∀ L : Lib F, Uses L → pushByte L t.lit = push (.byte b)) ∧
      (¬ ByteChar t.lit n → (∀ L : Lits F, getValue L (str "Char") t.lit = .error (.text (str "invalid char: " ++ t.lit))) ∧
        ∀ L : Lib F, Uses L → pushByte L t.lit = throwQ (failMsg (str "invalid char: " ++ t.lit))) := by
  obtain ⟨p, x, r, s1, s2, e, hp, htt, hc⟩ := literal_text hk h ht (.inr (.inl hkind))
  have key : ∃ n, t.lit = x ∧ CharValue x n := by
    clear hp e
    cases htt with
    | char _ h =>
      obtain ⟨b, rfl, hb⟩ := h rfl
      cases hb with
      | esc he =>
        rcases escape_value he with ⟨n, hn⟩ | ⟨n, hn⟩
        · exact ⟨n, rfl, .byte hn⟩
        · exact ⟨n, rfl, .rune hn⟩
      | char hd hne h1 h2 h3 =>
        have hc1 : Clean (b ++ 39 :: r) := by
          have := clean_after (by decide) hc
          simpa using this
        obtain ⟨u, s, c, e, hu, _⟩ := utf8_clean (clean_cut (by decide) _ (Nat.le_refl _) hc1).1 hne
        have hs := decode_stable (t := []) hu.1 (by rw [List.append_nil]; exact hu.2.1) hu.2.2 (s ++ 39 :: r)
        rw [← List.append_assoc, ← e] at hs
        rw [hs] at hd
        have hl : u.length = b.length := (Prod.mk.inj hd).2
        have hs0 : s = [] := by
          have := congrArg List.length e
          rw [List.length_append] at this
          exact List.length_eq_zero_iff.1 (by omega)
        subst hs0
        rw [List.append_nil] at e
        subst e
        exact ⟨c, rfl, .char hu h2 h3 h1⟩
    | @op _ _ k s _ h =>
      have h' : ∀ p ∈ operators, p.1 ≠ CHAR := by decide
      exact absurd hkind (h' _ h)
    | _ => dsimp only at hkind; exact absurd hkind (by decide)
  obtain ⟨n, hx, hn⟩ := key
  subst hx
  obtain ⟨b, mb, hb, hne, hq, h1, h2⟩ := charValue_char hn
  have hq' : unquoteChar 39 (between t.lit) = some (n, mb, []) := by
    rw [hb, between_quotes]
    simpa using hq []
  have hlen : ¬ t.lit.length < 2 := by rw [hb]; simp
  have n1 : ¬ str "Char" = str "String" := by decide
  have n2 : ¬ str "Char" = str "Int" := by decide
  have n3 : ¬ str "Char" = str "Float" := by decide
  refine ⟨n, ⟨p, r, e, hp⟩, hn, fun hbc => ?_, fun hbc => ?_⟩
  · obtain rfl := h1 hbc
    refine ⟨n.toUInt8, toUInt8_toNat (byteChar_lt hbc), fun L => ?_, fun L hL => ?_⟩
    · unfold getValue
      rw [if_neg n1, if_neg n2, if_neg n3, if_pos rfl, if_neg hlen, hq']
      rfl
    · unfold pushByte
      rw [hL.2]
      show (match unquoteChar 39 (between t.lit) with
        | none => _
        | some (v, multibyte, tail) => _) = _
      rw [hq']
      rfl
  · obtain rfl := h2 hbc
    refine ⟨fun L => ?_, fun L hL => ?_⟩
    · unfold getValue
      rw [if_neg n1, if_neg n2, if_neg n3, if_pos rfl, if_neg hlen, hq']
      rfl
    · unfold pushByte
      rw [hL.2]
      show (match unquoteChar 39 (between t.lit) with
        | none => _
        | some (v, multibyte, tail) => _) = _
      rw [hq']
      rfl

/-- A character literal has one value. -/
theorem C108_unique {x : Str} {n n' : Nat} (h : CharValue x n) (h' : CharValue x n') : n = n' := by
  obtain ⟨b, mb, hb, _, hq, _⟩ := charValue_char h
  obtain ⟨b', mb', hb', _, hq', _⟩ := charValue_char h'
  have e : b = b' := List.append_cancel_right (List.cons.inj (hb.symm.trans hb')).2
  subst e
  have := (hq []).symm.trans (hq' [])
  simp only [Option.some.injEq, Prod.mk.injEq] at this
  exact this.1

/-! ### Integers -/

/-- **C109** — "`GetValue("Int", lit)` is the value of the integer literal": it is for decimal
literals that fit.  Other integer literals are read as if they were decimal: the part of the
claim that fails. -/
theorem C109_int_partial {k : KwScanner} (hk : KwScanner.Steps U KwScanner.zero k) {src : Str} {mode : Mode} {ts : List Token} {eof : Token}
    (h : Tokenizes U k src mode ts eof) {t : Token} (ht : t ∈ ts) (hkind : t.kind = INT) :
    ∃ n, Written src t t.lit ∧ IntValue t.lit n ∧
      ∀ L : Lits F,
        (t.lit.head? ≠ some 48 ∨ t.lit = [48] → getValue L (str "Int") t.lit = if n < 2 ^ 63 then .ok (.int n) else .error .err) ∧
        ((∀ b ∈ t.lit, IsDec b) → getValue L (str "Int") t.lit = if numeral 10 t.lit < 2 ^ 63 then .ok (.int (numeral 10 t.lit)) else .error .err) ∧
        ((¬ ∀ b ∈ t.lit, IsDec b) → getValue L (str "Int") t.lit = .error .err) := by
  obtain ⟨p, x, r, s1, s2, e, hp, htt, _⟩ := literal_text hk h ht (.inr (.inr hkind))
  have key : ∃ n, t.lit = x ∧ IntValue x n ∧ (x.head? ≠ some 48 ∨ x = [48] → n = numeral 10 x ∧ ∀ b ∈ x, IsDec b) ∧ x ≠ [] ∧
      ((¬ ∀ b ∈ x, IsDec b) → ∃ y ds, x = 48 :: y :: ds ∧ (y = 120 ∨ y = 88) ∧ ∀ b ∈ ds, IsHex b) := by
    clear hp e
    cases htt with
    | int h =>
      cases h with
      | dec h1 h2 h3 _ _ =>
        have hall : ∀ b ∈ _ :: _, IsDec b := fun b hb => (List.mem_cons.1 hb).elim (fun e => e ▸ h1) (h3 b)
        exact ⟨_, rfl, .dec h1 h2 h3, fun _ => ⟨rfl, hall⟩, by simp, fun hn => absurd hall hn⟩
      | @oct ds _ h1 _ _ _ =>
        have hall : ∀ b ∈ (48 : UInt8) :: ds, IsDec b := fun b hb =>
          (List.mem_cons.1 hb).elim (fun e => e ▸ ⟨by decide, by decide⟩) (fun hb => by have := h1 b hb; simp only [if_true] at this; unfold IsOct at this; unfold IsDec; omega)
        refine ⟨_, rfl, .oct h1, ?_, by simp, fun hn => absurd hall hn⟩
        rintro (h | h)
        · exact absurd rfl h
        · cases h; exact ⟨rfl, hall⟩
      | @hex y ds _ h1 h2 h3 _ =>
        refine ⟨_, rfl, .hex h1 h2 (h3 rfl), ?_, by simp, fun _ => ⟨y, ds, rfl, h1, h2⟩⟩
        rintro (h | h)
        · exact absurd rfl h
        · cases h
    | @op _ _ k s _ h =>
      have h' : ∀ p ∈ operators, p.1 ≠ INT := by decide
      exact absurd hkind (h' _ h)
    | _ => dsimp only at hkind; exact absurd hkind (by decide)
  obtain ⟨n, hx, hn, h1, hne, h2⟩ := key
  subst hx
  have n1 : ¬ str "Int" = str "String" := by decide
  have hget : ∀ L : Lits F, (∀ b ∈ t.lit, IsDec b) → getValue L (str "Int") t.lit = if numeral 10 t.lit < 2 ^ 63 then .ok (.int (numeral 10 t.lit)) else .error .err := by
    intro L hd
    unfold getValue
    rw [if_neg n1, if_pos rfl, strconvInt_numeral hne fun b hb => ⟨(hd b hb).1, decDigit (hd b hb)⟩]
    split <;> rename_i hh <;> split at hh <;> simp_all
  refine ⟨n, ⟨p, r, e, hp⟩, hn, fun L => ⟨fun h => ?_, hget L, fun h => ?_⟩⟩
  · obtain ⟨rfl, hd⟩ := h1 h
    exact hget L hd
  · obtain ⟨y, ds, e, hy, hds⟩ := h2 h
    have hbad : strconvInt t.lit 10 = .error .syntax_ := by
      refine strconvInt_bad (b := y) (by rw [e]; simp) ?_ ?_
      · rw [e]
        intro b hb
        rcases List.mem_cons.1 hb with rfl | hb
        · decide
        rcases List.mem_cons.1 hb with rfl | hb
        · rcases hy with rfl | rfl <;> decide
        · have := hds b hb
          unfold IsHex at this
          omega
      · intro d hd
        rcases hy with rfl | rfl <;> · cases hd; decide
    unfold getValue
    rw [if_neg n1, if_pos rfl, hbad]

/-- An integer literal has one value. -/
theorem C109_unique {x : Str} {n n' : Nat} (h : IntValue x n) (h' : IntValue x n') : n = n' := by
  cases h with
  | dec h1 h2 _ =>
    cases h' with
    | dec => rfl
    | oct => exact absurd rfl h2
    | hex => exact absurd rfl h2
  | oct h1 =>
    cases h' with
    | dec _ h2 _ => exact absurd rfl h2
    | oct => rfl
    | hex h2 _ _ =>
      have := h1 _ (List.mem_cons_self ..)
      rcases h2 with rfl | rfl <;> exact absurd this.2 (by decide)
  | hex h1 _ _ =>
    cases h' with
    | dec _ h2 _ => exact absurd rfl h2
    | oct h2 =>
      have := h2 _ (List.mem_cons_self ..)
      rcases h1 with rfl | rfl <;> exact absurd this.2 (by decide)
    | hex => rfl

/-! ### Texts for which the claims fail -/

/-- A text that is one token. -/
theorem one_token {src : Str} {t : Token} (h : (KwScanner.zero.tokenize ascii src plain).1 = ([t], none)) :
    ∃ eof, Tokenizes ascii KwScanner.zero src plain [t] eof := (tokenizes_iff (.refl _)).mp h

/-- `'é'` and `'\u0041'` are character literals without a value. -/
theorem C108_violated : ∃ src t eof n, Tokenizes ascii KwScanner.zero src plain [t] eof ∧ t.kind = CHAR ∧ CharValue t.lit n ∧ n < 256 ∧
    ∀ (L : Lits F) v, getValue L (str "Char") t.lit ≠ .ok v := by
  obtain ⟨eof, h⟩ := one_token (src := [39, 92, 117, 48, 48, 52, 49, 39]) (t := ⟨CHAR, 0, [39, 92, 117, 48, 48, 52, 49, 39]⟩) (by decide +kernel)
  refine ⟨_, _, eof, 65, h, rfl, ?_, by decide, ?_⟩
  · refine .rune (e := [92, 117, 48, 48, 52, 49]) (.u4 (ds := [48, 48, 52, 49]) rfl ?_ ⟨by decide, by decide⟩)
    intro b hb
    simp only [List.mem_cons, List.not_mem_nil, or_false] at hb
    unfold IsHex
    rcases hb with rfl | rfl | rfl | rfl <;> decide
  · intro L v h
    have : getValue L (str "Char") [39, 92, 117, 48, 48, 52, 49, 39] = .error (.text (str "invalid char: " ++ [39, 92, 117, 48, 48, 52, 49, 39])) := rfl
    rw [this] at h
    cases h

theorem C108_violated_wide : ∃ src t eof n, Tokenizes ascii KwScanner.zero src plain [t] eof ∧ t.kind = CHAR ∧ CharValue t.lit n ∧ n = 0xe9 ∧
    ∀ (L : Lits F) v, getValue L (str "Char") t.lit ≠ .ok v := by
  obtain ⟨eof, h⟩ := one_token (src := [39, 0xc3, 0xa9, 39]) (t := ⟨CHAR, 0, [39, 0xc3, 0xa9, 39]⟩) (by decide +kernel)
  refine ⟨_, _, eof, 0xe9, h, rfl, .char (u := [0xc3, 0xa9]) ⟨by simp, by decide, by decide⟩ (by simp) (by simp) (by simp), rfl, ?_⟩
  intro L v h
  have : getValue L (str "Char") [39, 0xc3, 0xa9, 39] = .error (.text (str "invalid char: " ++ [39, 0xc3, 0xa9, 39])) := rfl
  rw [this] at h
  cases h

/-- `010` is 8, and `GetValue` says 10. -/
theorem C109_violated : ∃ src t eof, Tokenizes ascii KwScanner.zero src plain [t] eof ∧ t.kind = INT ∧ IntValue t.lit 8 ∧
    ∀ L : Lits F, getValue L (str "Int") t.lit = .ok (.int 10) := by
  obtain ⟨eof, h⟩ := one_token (src := [48, 49, 48]) (t := ⟨INT, 0, [48, 49, 48]⟩) (by decide +kernel)
  refine ⟨_, _, eof, h, rfl, .oct (ds := [49, 48]) ?_, fun L => rfl⟩
  intro b hb
  simp only [List.mem_cons, List.not_mem_nil, or_false] at hb
  unfold IsOct
  rcases hb with rfl | rfl <;> decide

/-- `0x10` is 16, and `GetValue` panics. -/
theorem C109_violated_hex : ∃ src t eof, Tokenizes ascii KwScanner.zero src plain [t] eof ∧ t.kind = INT ∧ IntValue t.lit 16 ∧
    ∀ L : Lits F, getValue L (str "Int") t.lit = .error .err := by
  obtain ⟨eof, h⟩ := one_token (src := [48, 120, 49, 48]) (t := ⟨INT, 0, [48, 120, 49, 48]⟩) (by decide +kernel)
  refine ⟨_, _, eof, h, rfl, .hex (x := 120) (ds := [49, 48]) (.inl rfl) ?_ (by simp), fun L => rfl⟩
  intro b hb
  simp only [List.mem_cons, List.not_mem_nil, or_false] at hb
  unfold IsHex
  rcases hb with rfl | rfl <;> decide

/-! ### Examples -/

/-- `"a\té\x41"` -/
def exString : Str := [34, 97, 92, 116, 0xc3, 0xa9, 92, 120, 52, 49, 34]

example : ∃ eof, Tokenizes ascii KwScanner.zero exString plain [⟨STRING, 0, exString⟩] eof := one_token (by decide +kernel)

example : StringValue exString [97, 9, 0xc3, 0xa9, 65] :=
  .quoted (b := [97, 92, 116, 0xc3, 0xa9, 92, 120, 52, 49]) <|
    .char (u := [97]) (c := 97) ⟨by simp, by decide, by decide⟩ (by simp) (by simp) (by simp) <|
    .byte (e := [92, 116]) .tab <|
    .char (u := [0xc3, 0xa9]) (c := 0xe9) ⟨by simp, by decide, by decide⟩ (by simp) (by simp) (by simp) <|
    .byte (e := [92, 120, 52, 49]) (.hex (ds := [52, 49]) rfl (by
      intro b hb
      simp only [List.mem_cons, List.not_mem_nil, or_false] at hb
      unfold IsHex
      rcases hb with rfl | rfl <;> decide)) .nil

/-- A raw string over two lines. -/
def exRaw : Str := [96, 97, 13, 10, 92, 98, 96]

example : ∃ eof, Tokenizes ascii KwScanner.zero exRaw plain [⟨STRING, 0, [96, 97, 10, 92, 98, 96]⟩] eof := one_token (by decide +kernel)
example : StringValue exRaw [97, 10, 92, 98] := .raw (b := [97, 13, 10, 92, 98]) (by decide)

example : ∃ eof, Tokenizes ascii KwScanner.zero [39, 92, 39, 39] plain [⟨CHAR, 0, [39, 92, 39, 39]⟩] eof := one_token (by decide +kernel)
example : ByteChar [39, 92, 39, 39] 39 := .byte (e := [92, 39]) .quote

example : ∃ eof, Tokenizes ascii KwScanner.zero [49, 50] plain [⟨INT, 0, [49, 50]⟩] eof := one_token (by decide +kernel)

end Tpl.Props
