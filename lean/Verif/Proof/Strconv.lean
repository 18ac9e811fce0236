import Verif.Model.Strconv
import Verif.Proof.Utf8
import Verif.Props.Matcher

/-! `Unquote` and `UnquoteChar` compute the values of literals. -/
namespace Tpl
open Spec Scanner

/-! ### Digits -/

theorem hexDigit {b : UInt8} (h : IsHex b) : digitVal b = some (digit b) ∧ digit b < 16 := by
  unfold IsHex at h
  unfold digitVal digit
  simp only [UInt8.le_iff_toNat_le]
  have e1 : (48 : UInt8).toNat = 48 := rfl
  have e2 : (57 : UInt8).toNat = 57 := rfl
  have e3 : (97 : UInt8).toNat = 97 := rfl
  have e4 : (122 : UInt8).toNat = 122 := rfl
  have e5 : (65 : UInt8).toNat = 65 := rfl
  have e6 : (90 : UInt8).toNat = 90 := rfl
  rw [e1, e2, e3, e4, e5, e6]
  rcases h with h | h | h
  · rw [if_pos (by omega), if_pos (by omega)]; exact ⟨rfl, by omega⟩
  · rw [if_neg (by omega), if_pos (by omega), if_neg (by omega), if_neg (by omega)]; exact ⟨rfl, by omega⟩
  · rw [if_neg (by omega), if_neg (by omega), if_pos (by omega), if_neg (by omega), if_pos (by omega)]; exact ⟨rfl, by omega⟩

theorem decDigit {b : UInt8} (h : IsDec b) : digitVal b = some (digit b) ∧ digit b < 10 := by
  have h1 := hexDigit (b := b) (.inl h)
  refine ⟨h1.1, ?_⟩
  unfold IsDec at h
  unfold digit
  rw [if_pos (by omega)]
  omega

theorem octDigit {b : UInt8} (h : IsOct b) : digitVal b = some (digit b) ∧ digit b < 8 := by
  unfold IsOct at h
  have h1 := hexDigit (b := b) (.inl (by omega))
  refine ⟨h1.1, ?_⟩
  unfold digit
  rw [if_pos (by omega)]
  omega

theorem scanDigits_ok (base : Nat) (s : Str) : ∀ (ds : Str) (acc : Nat), (∀ b ∈ ds, digitVal b = some (digit b) ∧ digit b < base) →
    scanDigits base ds.length acc (ds ++ s) = some (ds.foldl (fun x d => x * base + digit d) acc, s)
  | [], acc, _ => rfl
  | b :: ds, acc, h => by
    rw [List.length_cons, List.cons_append, scanDigits, (h b (List.mem_cons_self ..)).1]
    dsimp only
    rw [if_pos (h b (List.mem_cons_self ..)).2, scanDigits_ok base s ds _ fun c hc => h c (List.mem_cons_of_mem _ hc)]
    rfl

theorem readHex {ds : Str} {n : Nat} (hl : ds.length = n) (h : ∀ b ∈ ds, IsHex b) (s : Str) : scanDigits 16 n 0 (ds ++ s) = some (numeral 16 ds, s) := by
  subst hl
  exact scanDigits_ok 16 s ds 0 fun b hb => hexDigit (h b hb)

/-! ### Escapes -/

theorem validRune_iff {n : Nat} : validRune n = true ↔ ValidRune n := by
  unfold validRune ValidRune
  simp
  omega

theorem numeral_two {ds : Str} (hl : ds.length = 2) (h : ∀ b ∈ ds, IsHex b) : numeral 16 ds < 256 := by
  match ds, hl with
  | [a, b], _ =>
    have h1 := (hexDigit (h a (by simp))).2
    have h2 := (hexDigit (h b (by simp))).2
    simp only [numeral, List.foldl_cons, List.foldl_nil]
    omega

theorem unquoteChar_esc {q : UInt8} (hq : q = 34 ∨ q = 39) (e : UInt8) (t : Str) : unquoteChar q (92 :: e :: t) = unescape q e t := by
  unfold unquoteChar
  dsimp only
  rw [if_neg (by rcases hq with rfl | rfl <;> decide), if_neg (by decide), if_neg (by simp)]

theorem escapeByte_char {q : UInt8} (hq : q = 34 ∨ q = 39) {e : Str} {n : Nat} (h : EscapeByte q e n) (s : Str) :
    unquoteChar q (e ++ s) = some (n, false, s) ∧ n < 256 := by
  cases h with
  | bell => exact ⟨unquoteChar_esc hq _ _, by decide⟩
  | backspace => exact ⟨unquoteChar_esc hq _ _, by decide⟩
  | formFeed => exact ⟨unquoteChar_esc hq _ _, by decide⟩
  | newline => exact ⟨unquoteChar_esc hq _ _, by decide⟩
  | carriageReturn => exact ⟨unquoteChar_esc hq _ _, by decide⟩
  | tab => exact ⟨unquoteChar_esc hq _ _, by decide⟩
  | verticalTab => exact ⟨unquoteChar_esc hq _ _, by decide⟩
  | backslash => exact ⟨unquoteChar_esc hq _ _, by decide⟩
  | quote =>
    refine ⟨(unquoteChar_esc hq _ _).trans ?_, q.toNat_lt⟩
    rcases hq with rfl | rfl <;> rfl
  | @oct ds hl hd hn =>
    match ds, hl with
    | d :: ds, hl =>
      have hd0 := hd d (List.mem_cons_self ..)
      unfold IsOct at hd0
      refine ⟨(unquoteChar_esc hq d (ds ++ s)).trans ?_, by omega⟩
      unfold unescape
      have ne : ∀ k : UInt8, 56 ≤ k.toNat → d ≠ k := by rintro k hk rfl; omega
      rw [if_neg (ne 97 (by decide)), if_neg (ne 98 (by decide)), if_neg (ne 102 (by decide)), if_neg (ne 110 (by decide)), if_neg (ne 114 (by decide)),
        if_neg (ne 116 (by decide)), if_neg (ne 118 (by decide)), if_neg (ne 120 (by decide)),
        if_neg (by rintro (h | h); exacts [ne 117 (by decide) h, ne 85 (by decide) h]), if_pos hd0]
      have h2 : ds.length = 2 := by simpa using hl
      have := scanDigits_ok 8 s ds (d.toNat - 48) fun b hb => octDigit (hd b (List.mem_cons_of_mem _ hb))
      rw [h2] at this
      rw [this]
      have hnum : numeral 8 (d :: ds) = ds.foldl (fun x d => x * 8 + digit d) (d.toNat - 48) := by
        have : digit d = d.toNat - 48 := by unfold digit; rw [if_pos (by omega)]
        simp only [numeral, List.foldl_cons, this, Nat.zero_mul, Nat.zero_add]
      rw [hnum] at hn ⊢
      dsimp only
      rw [if_neg (by omega)]
  | @hex ds hl hd =>
    refine ⟨(unquoteChar_esc hq 120 (ds ++ s)).trans ?_, numeral_two hl hd⟩
    show (match scanDigits 16 2 0 (ds ++ s) with | some (v, s) => some (v, false, s) | none => none) = _
    rw [readHex hl hd]

theorem escapeRune_char {q : UInt8} (hq : q = 34 ∨ q = 39) {e : Str} {n : Nat} (h : EscapeRune e n) (s : Str) :
    unquoteChar q (e ++ s) = some (n, true, s) ∧ ValidRune n := by
  cases h with
  | @u4 ds hl hd hv =>
    refine ⟨(unquoteChar_esc hq 117 (ds ++ s)).trans ?_, hv⟩
    show (match scanDigits 16 4 0 (ds ++ s) with | some (v, s) => if validRune v then some (v, true, s) else none | none => none) = _
    rw [readHex hl hd]
    dsimp only
    rw [if_pos (validRune_iff.2 hv)]
  | @u8 ds hl hd hv =>
    refine ⟨(unquoteChar_esc hq 85 (ds ++ s)).trans ?_, hv⟩
    show (match scanDigits 16 8 0 (ds ++ s) with | some (v, s) => if validRune v then some (v, true, s) else none | none => none) = _
    rw [readHex hl hd]
    dsimp only
    rw [if_pos (validRune_iff.2 hv)]

theorem char_char {q : UInt8} {u s : Str} {c : Nat} (h : Utf8 u c) (h1 : u.head? ≠ some q) (h2 : u.head? ≠ some 92) :
    unquoteChar q (u ++ s) = some (c, decide (0x80 ≤ c), s) := by
  rcases utf8_cases h with ⟨b, rfl, rfl, hb⟩ | ⟨hc, hu⟩
  · simp only [List.head?_cons, ne_eq, Option.some.injEq] at h1 h2
    unfold unquoteChar
    simp only [List.cons_append, List.nil_append]
    rw [if_neg (fun h => h1 h.1), if_neg (by omega), if_pos h2, decide_eq_false (by omega)]
  · match u, h, hu with
    | b :: u, h, hu =>
      have hb := hu b (List.mem_cons_self ..)
      have hd := decode_stable (t' := s) h.1 (by rw [List.append_nil]; exact h.2.1) h.2.2
      simp only [List.head?_cons, ne_eq, Option.some.injEq] at h1
      unfold unquoteChar
      simp only [List.cons_append] at hd ⊢
      rw [if_neg (fun h => h1 h.1), if_pos hb, hd, decide_eq_true hc]
      simp

theorem charBytes_byte {n : Nat} : charBytes n false = [n.toUInt8] := if_pos (.inr rfl)

theorem encodeRune_small {n : Nat} (h : n < 0x80) : encodeRune n = [n.toUInt8] := if_pos h

theorem charBytes_rune {n : Nat} : charBytes n true = encodeRune n := by
  unfold charBytes
  by_cases h : n < 0x80
  · rw [if_pos (.inl h), encodeRune_small h]
  · rw [if_neg (by simp [h])]

theorem charBytes_char {u : Str} {c : Nat} (h : Utf8 u c) : charBytes c (decide (0x80 ≤ c)) = u := by
  have he := encode_utf8 h
  by_cases hc : 0x80 ≤ c
  · rw [decide_eq_true hc, charBytes_rune, he]
  · rw [decide_eq_false hc, charBytes_byte, ← encodeRune_small (by omega), he]

/-! ### Strings -/

theorem escapeByte_ne {q : UInt8} {e : Str} {n : Nat} (h : EscapeByte q e n) : e ≠ [] := by
  cases h <;> simp

theorem escapeRune_ne {e : Str} {n : Nat} (h : EscapeRune e n) : e ≠ [] := by
  cases h <;> simp

theorem loop_step {n m : Nat} {s tail : Str} {c : Nat} {mb : Bool} (hs : s ≠ []) (hn : n = m + 1) (h : unquoteChar 34 s = some (c, mb, tail)) :
    unquoteLoop 34 n s = match unquoteLoop 34 m tail with
      | none => none
      | some v => some (charBytes c mb ++ v) := by
  subst hn
  cases s with
  | nil => exact absurd rfl hs
  | cons b s =>
    conv => lhs; unfold unquoteLoop
    rw [h]
    dsimp only
    rw [if_neg (fun hh => absurd hh.1 (by decide))]
    rfl

/-- The loop computes the value. -/
theorem strValue_loop {b v : Str} (h : StrValue 34 b v) : ∀ n, b.length ≤ n → unquoteLoop 34 n b = some v := by
  have step : ∀ {u s v : Str} {c : Nat} {mb : Bool} {w : Str}, u ≠ [] → unquoteChar 34 (u ++ s) = some (c, mb, s) → charBytes c mb = w →
      (∀ n, s.length ≤ n → unquoteLoop 34 n s = some v) → ∀ n, (u ++ s).length ≤ n → unquoteLoop 34 n (u ++ s) = some (w ++ v) := by
    intro u s v c mb w hu hc hw ih n hn
    have hu1 : 1 ≤ u.length := by cases u with | nil => exact absurd rfl hu | cons => simp
    rw [List.length_append] at hn
    rw [loop_step (m := n - 1) (by simp [hu]) (by omega) hc, ih (n - 1) (by omega), hw]
  induction h with
  | nil => intro n _; rw [unquoteLoop]
  | char hu h1 h2 _ _ ih => exact step hu.1 (char_char hu h1 h2) (charBytes_char hu) ih
  | @byte e n s v he _ ih => exact step (w := [n.toUInt8]) (escapeByte_ne he) (escapeByte_char (.inl rfl) he _).1 charBytes_byte ih
  | @rune e n u s v he hu _ ih => exact step (escapeRune_ne he) (escapeRune_char (.inl rfl) he _).1 (charBytes_rune.trans (encode_utf8 hu)) ih

theorem strValue_unique {b v v' : Str} (h : StrValue 34 b v) (h' : StrValue 34 b v') : v = v' :=
  Option.some.inj ((strValue_loop h _ (Nat.le_refl _)).symm.trans (strValue_loop h' _ (Nat.le_refl _)))

theorem isHex_ne {b : UInt8} (h : IsHex b) : b ≠ 10 := by
  rintro rfl
  unfold IsHex at h
  have : (10 : UInt8).toNat = 10 := rfl
  omega

theorem isOct_hex {b : UInt8} (h : IsOct b) : IsHex b := by
  unfold IsOct at h
  exact .inl (by omega)

theorem escape_hex {ds : Str} {a : UInt8} (ha : a ≠ 10) (hd : ∀ b ∈ ds, IsHex b) : 10 ∉ 92 :: a :: ds := by
  simp only [List.mem_cons, not_or]
  exact ⟨by decide, fun e => ha e.symm, fun h => isHex_ne (hd _ h) rfl⟩

theorem strValue_line {b v : Str} (h : StrValue 34 b v) : 10 ∉ b := by
  induction h with
  | nil => simp
  | @char u c s v hu h1 h2 h3 _ ih =>
    rw [List.mem_append, not_or]
    refine ⟨fun hm => ?_, ih⟩
    rcases utf8_cases hu with ⟨b, rfl, _, _⟩ | ⟨_, hu⟩
    · simp only [List.mem_singleton] at hm
      subst hm
      exact h3 rfl
    · have := hu _ hm
      revert this
      decide
  | @byte e n s v he _ ih =>
    rw [List.mem_append, not_or]
    refine ⟨?_, ih⟩
    cases he with
    | @oct ds hl hd _ =>
      simp only [List.mem_cons, not_or]
      exact ⟨by decide, fun h => isHex_ne (isOct_hex (hd _ h)) rfl⟩
    | hex hl hd => exact escape_hex (by decide) hd
    | _ => decide
  | @rune e n u s v he _ _ ih =>
    rw [List.mem_append, not_or]
    refine ⟨?_, ih⟩
    cases he with
    | u4 _ hd => exact escape_hex (by decide) hd
    | u8 _ hd => exact escape_hex (by decide) hd

theorem between_quotes (q : UInt8) (b : Str) : between (q :: (b ++ [q])) = b := by
  unfold between
  simp

theorem unquote_quotes (q : UInt8) (b : Str) : unquote (q :: (b ++ [q])) =
    if q = 96 then if 96 ∈ b then none else some (b.filter (· ≠ 13))
    else if q ≠ 34 ∧ q ≠ 39 then none
    else if 10 ∈ b then none
    else unquoteLoop q b.length b := by
  unfold unquote
  dsimp only
  rw [between_quotes, if_neg (by simp), if_neg (by simp)]

/-- `Unquote` of a string literal is its value (of a raw string without its carriage returns,
which are dropped twice). -/
theorem unquote_value {x v : Str} (h : StringValue x v) : unquote x = some v := by
  cases h with
  | quoted h =>
    rw [unquote_quotes, if_neg (by decide), if_neg (by decide), if_neg (strValue_line h)]
    exact strValue_loop h _ (Nat.le_refl _)
  | raw h => rw [unquote_quotes, if_pos rfl, if_neg h]

theorem unquote_raw {b : Str} (h : 96 ∉ b) : unquote ((96 :: (b ++ [96])).filter (· ≠ 13)) = some (b.filter (· ≠ 13)) := by
  have e : (96 :: (b ++ [96])).filter (· ≠ 13) = 96 :: (b.filter (· ≠ 13) ++ [96]) := by
    rw [List.filter_cons_of_pos (by decide), List.filter_append]
    rfl
  rw [e, unquote_quotes, if_pos rfl, if_neg (fun hm => h (List.mem_of_mem_filter hm)), List.filter_filter]
  simp

/-! ### What the scanner lets through has a value -/

theorem escape_value {q : UInt8} {e : Str} (h : Escape q e) : (∃ n, EscapeByte q e n) ∨ ∃ n, EscapeRune e n := by
  cases h with
  | @simple c h =>
    left
    simp only [List.mem_cons, List.not_mem_nil, or_false] at h
    rcases h with rfl | rfl | rfl | rfl | rfl | rfl | rfl | rfl | rfl
    exacts [⟨_, .bell⟩, ⟨_, .backspace⟩, ⟨_, .formFeed⟩, ⟨_, .newline⟩, ⟨_, .carriageReturn⟩, ⟨_, .tab⟩, ⟨_, .verticalTab⟩, ⟨_, .backslash⟩, ⟨_, .quote⟩]
  | oct h1 h2 h3 => exact .inl ⟨_, .oct h1 h2 h3⟩
  | hex h1 h2 => exact .inl ⟨_, .hex h1 h2⟩
  | u4 h1 h2 h3 => exact .inr ⟨_, .u4 h1 h2 h3⟩
  | u8 h1 h2 h3 => exact .inr ⟨_, .u8 h1 h2 h3⟩

theorem isHex_ascii {b : UInt8} (h : IsHex b) : b.toNat < 0x80 := by
  unfold IsHex at h
  omega

theorem escape_ascii {q : UInt8} (hq : q.toNat < 0x80) {e : Str} (h : Escape q e) : ∀ b ∈ e, b.toNat < 0x80 := by
  have hex : ∀ {a : UInt8} {ds : Str}, a.toNat < 0x80 → (∀ b ∈ ds, IsHex b) → ∀ b ∈ 92 :: a :: ds, b.toNat < 0x80 := by
    intro a ds ha hd b hb
    simp only [List.mem_cons] at hb
    rcases hb with rfl | rfl | hb
    · decide
    · exact ha
    · exact isHex_ascii (hd b hb)
  cases h with
  | @simple c h =>
    refine hex ?_ (fun b hb => by simp at hb)
    simp only [List.mem_cons, List.not_mem_nil, or_false] at h
    rcases h with rfl | rfl | rfl | rfl | rfl | rfl | rfl | rfl | rfl <;> first | decide | exact hq
  | oct h1 h2 h3 =>
    intro b hb
    simp only [List.mem_cons] at hb
    rcases hb with rfl | hb
    · decide
    · exact isHex_ascii (isOct_hex (h2 b hb))
  | hex h1 h2 => exact hex (by decide) h2
  | u4 h1 h2 h3 => exact hex (by decide) h2
  | u8 h1 h2 h3 => exact hex (by decide) h2

theorem clean_after {b : UInt8} {t : Str} (hb : b.toNat < 0x80) (h : Clean (b :: t)) : Clean t := by
  refine clean_tail (u := [b]) h (by simp) ?_
  rw [List.singleton_append, decodeRune_ascii hb]
  rfl

theorem clean_ascii_drop : ∀ {e t : Str}, (∀ b ∈ e, b.toNat < 0x80) → Clean (e ++ t) → Clean t
  | [], _, _, h => h
  | _ :: _, _, ha, h => clean_ascii_drop (fun c hc => ha c (List.mem_cons_of_mem _ hc)) (clean_after (ha _ (List.mem_cons_self ..)) h)

theorem strBody_skip {q : UInt8} : ∀ {u t : Str}, (∀ b ∈ u, 0x80 ≤ b.toNat) → StrBody q (u ++ t) → StrBody q t
  | [], _, _, h => h
  | b :: u, t, hu, h => by
    refine strBody_skip (u := u) (fun c hc => hu c (List.mem_cons_of_mem _ hc)) ?_
    have hb := hu b (List.mem_cons_self ..)
    generalize he : b :: u ++ t = x at h
    cases h with
    | nil => cases he
    | plain _ _ _ h => cases he; exact h
    | @esc e y hesc h =>
      have : ∃ e', e = 92 :: e' := by cases hesc <;> exact ⟨_, rfl⟩
      obtain ⟨e', rfl⟩ := this
      have e1 : b = 92 := (List.cons.inj he).1
      subst e1
      exact absurd hb (by decide)

theorem strBody_value : ∀ (n : Nat) {b : Str}, b.length ≤ n → StrBody 34 b → Clean b → ∃ v, StrValue 34 b v
  | 0, b, hn, _, _ => by
    obtain rfl := List.length_eq_zero_iff.1 (Nat.le_zero.1 hn)
    exact ⟨[], .nil⟩
  | n + 1, b, hn, hb, hc => by
    cases hb with
    | nil => exact ⟨[], .nil⟩
    | @esc e x he hx =>
      have hne : 1 ≤ e.length := by cases he <;> simp
      rw [List.length_append] at hn
      obtain ⟨v, hv⟩ := strBody_value n (by omega) hx (clean_ascii_drop (escape_ascii (by decide) he) hc)
      rcases escape_value he with ⟨m, hm⟩ | ⟨m, hm⟩
      · exact ⟨_, .byte hm hv⟩
      · exact ⟨_, .rune hm (utf8_encode (escapeRune_char (.inl rfl) hm []).2) hv⟩
    | @plain c x h1 h2 h3 hx =>
      obtain ⟨u, t, d, he, hu, ht⟩ := utf8_clean hc (by simp)
      rcases utf8_cases hu with ⟨b, rfl, _, _⟩ | ⟨_, hbig⟩
      · cases he
        obtain ⟨v, hv⟩ := strBody_value n (by simpa using hn) hx ht
        exact ⟨_, .char hu (by simpa using h2) (by simpa using h3) (by simpa using h1) hv⟩
      · have hlen : 1 ≤ u.length := by
          cases u with
          | nil => exact absurd rfl hu.1
          | cons => simp
        have hl := congrArg List.length he
        rw [List.length_append] at hl
        have hsb : StrBody 34 (u ++ t) := by rw [← he]; exact .plain h1 h2 h3 hx
        obtain ⟨v, hv⟩ := strBody_value n (by omega) (strBody_skip hbig hsb) ht
        have hh : u.head? = some c := by
          cases u with
          | nil => exact absurd rfl hu.1
          | cons a u => cases he; rfl
        rw [he]
        exact ⟨_, .char hu (by rw [hh]; simpa using h2) (by rw [hh]; simpa using h3) (by rw [hh]; simpa using h1) hv⟩

end Tpl
