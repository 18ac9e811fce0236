import Verif.Proof.ScannerSpell

/-! A check of the tokens of a plain text (ASCII, without comments, numbers and escapes) that is
quick to compute, proved against the lexical specification. -/
namespace Tpl
open Spec Scanner

/-- The operators, written as bytes. -/
def opTable : List (Nat × Str) := [
  (0x21, [33]), (0x25, [37]), (0x26, [38]), (0x28, [40]), (0x29, [41]), (0x2a, [42]), (0x2b, [43]),
  (0x2c, [44]), (0x2d, [45]), (0x2e, [46]), (0x2f, [47]), (0x3a, [58]), (0x3b, [59]), (0x3c, [60]),
  (0x3d, [61]), (0x3e, [62]), (0x3f, [63]), (0x40, [64]), (0x5b, [91]), (0x5d, [93]), (0x5e, [94]),
  (0x7b, [123]), (0x7c, [124]), (0x7d, [125]), (0x7e, [126]),
  (0x81, [60, 60]), (0x82, [62, 62]), (0x83, [38, 94]),
  (0x84, [43, 61]), (0x85, [45, 61]), (0x86, [42, 61]), (0x87, [47, 61]), (0x88, [37, 61]),
  (0x89, [38, 61]), (0x8a, [124, 61]), (0x8b, [94, 61]), (0x8c, [60, 60, 61]), (0x8d, [62, 62, 61]), (0x8e, [38, 94, 61]),
  (0x8f, [38, 38]), (0x90, [124, 124]), (0x91, [60, 45]), (0x92, [43, 43]), (0x93, [45, 45]),
  (0x94, [61, 61]), (0x95, [33, 61]), (0x96, [60, 61]), (0x97, [62, 61]), (0x98, [58, 61]), (0x99, [46, 46, 46])]

theorem opTable_eq : operators.map (fun p => (p.1, bytes p.2)) = opTable := by decide +kernel

theorem opTable_kinds : ∀ p ∈ opTable, p.1 ≠ EOF ∧ p.1 ≠ IDENT ∧ p.1 ∉ [IDENT, CHAR, STRING, INT] := by decide +kernel

def letterB (b : UInt8) : Bool := (97 ≤ b && b ≤ 122) || (65 ≤ b && b ≤ 90) || b == 95
def wordB (b : UInt8) : Bool := letterB b || (48 ≤ b && b ≤ 57)

/-- The longest operator at the start of a text. -/
def bestOp (r : Str) : Option (Nat × Str) :=
  let cs := opTable.filter fun p => p.2.isPrefixOf r
  cs.find? fun p => cs.all fun q => q.2.length ≤ p.2.length

/-- The token at the start of a text: what it is, its length, whether a semicolon is due after it. -/
def tokOf (r : Str) : Option ((Nat × Str) × Nat × Bool) :=
  match r with
  | [] => none
  | b :: t =>
    if letterB b then
      let x := (b :: t).takeWhile wordB
      if ((b :: t).dropWhile wordB).head?.all (· < 0x80) then some ((IDENT, x), x.length, true) else none
    else if b == 39 then
      match t with
      | c :: d :: _ => if c != 0 && c < 0x80 && c != 10 && c != 39 && c != 92 && d == 39 then some ((CHAR, [39, c, 39]), 3, true) else none
      | _ => none
    else if b == 34 then
      let x := t.takeWhile fun c => c != 10 && c != 34 && c != 92
      if (t.dropWhile fun c => c != 10 && c != 34 && c != 92).head? == some 34 then some ((STRING, 34 :: (x ++ [34])), x.length + 2, true) else none
    else match bestOp (b :: t) with
      | none => none
      | some (k, x) =>
        if k == PERIOD || (k == QUO && (((b :: t).drop x.length).head? == some 47 || ((b :: t).drop x.length).head? == some 42)) then none
        else some ((k, []), x.length, endsStatement k)

/-- Is `K` the list of tokens of the text? -/
def lexOk : Nat → Bool → Str → List (Nat × Str) → Bool
  | 0, _, _, _ => false
  | f + 1, semi, r, K =>
    match r with
    | [] => if semi then K == [(59, []), (EOF, [])] else K == [(EOF, [])]
    | b :: t =>
      if b == 32 || b == 9 || b == 13 then lexOk f semi t K
      else if b == 10 then
        if semi then
          match K with
          | [] => false
          | p :: K => if p == (59, []) then lexOk f false t K else false
        else lexOk f false t K
      else match tokOf (b :: t) with
        | none => false
        | some (p, n, semi') =>
          match K with
          | [] => false
          | q :: K => if p == q then lexOk f semi' ((b :: t).drop n) K else false

variable {U : Uni}

theorem lexes_skip {o : Nat} {b : UInt8} {r : Str} {semi : Bool} {ts : List Token} (hb : Space (!semi) b)
    (h : Lexes U true ⟨false, true⟩ (o + 1) r semi ts) : Lexes U true ⟨false, true⟩ o (b :: r) semi ts := by
  cases h with
  | eof h3 h4 => exact Lexes.eof (g := b :: r) (.space hb h3) (by rw [h4]; simp; omega)
  | @cons _ g x r _ semi1 semi2 t ts h3 h4 h5 h6 h7 =>
    refine Lexes.cons (g := b :: g) (x := x) (r := r) h3 (.space hb h4) (by rw [h5]; simp; omega) h6 ?_
    have e : o + (b :: g).length + x.length = o + 1 + g.length + x.length := by simp; omega
    rw [e]; exact h7

theorem letterB_spec {b : UInt8} (h : letterB b = true) : b.toNat < 0x80 ∧ Letter U b.toNat := by
  unfold letterB at h
  unfold Letter
  simp only [Bool.or_eq_true, Bool.and_eq_true, decide_eq_true_eq, beq_iff_eq, UInt8.le_iff_toNat_le] at h
  rcases h with (h | h) | h
  · have h1 : 97 ≤ b.toNat := h.1
    have h2 : b.toNat ≤ 122 := h.2
    omega
  · have h1 : 65 ≤ b.toNat := h.1
    have h2 : b.toNat ≤ 90 := h.2
    omega
  · subst h; exact ⟨by decide, .inr (.inr (.inl rfl))⟩

theorem wordB_spec {b : UInt8} (h : wordB b = true) : b.toNat < 0x80 ∧ (Letter U b.toNat ∨ Digit U b.toNat) := by
  unfold wordB at h
  rw [Bool.or_eq_true] at h
  rcases h with h | h
  · exact ⟨(letterB_spec (U := U) h).1, .inl (letterB_spec h).2⟩
  · simp only [Bool.and_eq_true, decide_eq_true_eq, UInt8.le_iff_toNat_le] at h
    have h1 : 48 ≤ b.toNat := h.1
    have h2 : b.toNat ≤ 57 := h.2
    refine ⟨by omega, .inr (.inl ?_)⟩
    omega

theorem wordB_not {b : UInt8} (h : wordB b = false) (hb : b.toNat < 0x80) : ¬ (Letter U b.toNat ∨ Digit U b.toNat) := by
  unfold wordB letterB at h
  unfold Letter Digit
  simp only [Bool.or_eq_false_iff, Bool.and_eq_false_iff, decide_eq_false_iff_not, beq_eq_false_iff_ne, UInt8.le_iff_toNat_le] at h
  obtain ⟨⟨⟨h1, h2⟩, h3⟩, h4⟩ := h
  have e : ∀ n : Nat, n < 256 → (UInt8.ofNat n).toNat = n := by intro n hn; simp; omega
  have h3 : b.toNat ≠ 95 := fun hh => h3 (UInt8.toNat_inj.mp (hh.trans rfl))
  have h1 : ¬ 97 ≤ b.toNat ∨ ¬ b.toNat ≤ 122 := h1
  have h2 : ¬ 65 ≤ b.toNat ∨ ¬ b.toNat ≤ 90 := h2
  have h4 : ¬ 48 ≤ b.toNat ∨ ¬ b.toNat ≤ 57 := h4
  omega

/-- What is known of a token found by `tokOf`. -/
def Found (U : Uni) (r : Str) (p : Nat × Str) (n : Nat) (s : Bool) : Prop :=
  ∃ x y, r = x ++ y ∧ n = x.length ∧
    ∀ semi o, ∃ t, t.pos = o ∧ t.kind ≠ EOF ∧ key t = p ∧ TokText U true false semi t x y s

theorem takeWhile_all {p : UInt8 → Bool} : ∀ {l : Str}, ∀ c ∈ l.takeWhile p, p c = true
  | [], c, h => by cases h
  | a :: l, c, h => by
    rw [List.takeWhile_cons] at h
    split at h
    · rename_i ha
      rcases List.mem_cons.mp h with rfl | h
      · exact ha
      · exact takeWhile_all c h
    · cases h

theorem dropWhile_first {p : UInt8 → Bool} : ∀ {l : Str} {c : UInt8} {t : Str}, l.dropWhile p = c :: t → p c = false
  | [], c, t, h => by cases h
  | a :: l, c, t, h => by
    rw [List.dropWhile_cons] at h
    split at h
    · exact dropWhile_first h
    · rename_i ha
      cases h
      simpa using ha

theorem found_word {b : UInt8} {t : Str} (hb : letterB b = true) (hr : ((b :: t).dropWhile wordB).head?.all (· < 0x80) = true) :
    Found U (b :: t) (IDENT, (b :: t).takeWhile wordB) ((b :: t).takeWhile wordB).length true := by
  refine ⟨_, (b :: t).dropWhile wordB, (List.takeWhile_append_dropWhile).symm, rfl, fun semi o => ⟨⟨IDENT, o, (b :: t).takeWhile wordB⟩, rfl, nofun, rfl, ?_⟩⟩
  have hw : wordB b = true := by unfold wordB; rw [hb]; rfl
  refine .ident ?_ ?_ (runes_ascii fun c hc => wordB_spec (takeWhile_all c hc)) ?_
  · rw [List.takeWhile_cons, if_pos hw]; simp
  · rw [List.takeWhile_append_dropWhile, headRune_cons (letterB_spec (U := U) hb).1]
    exact (letterB_spec hb).2
  · cases hd : (b :: t).dropWhile wordB with
    | nil => rw [headRune_nil]; unfold Letter Digit; omega
    | cons c u =>
      rw [hd] at hr
      have hc : c.toNat < 0x80 := by simpa [UInt8.lt_iff_toNat_lt] using hr
      rw [headRune_cons hc]
      exact wordB_not (dropWhile_first hd) hc

theorem found_char {c : UInt8} {t : Str} (h0 : c ≠ 0) (hc : c < 0x80) (h1 : c ≠ 10) (h2 : c ≠ 39) (h3 : c ≠ 92) :
    Found U (39 :: c :: 39 :: t) (CHAR, [39, c, 39]) 3 true := by
  refine ⟨[39, c, 39], t, rfl, rfl, fun semi o => ⟨⟨CHAR, o, _⟩, rfl, nofun, rfl, ?_⟩⟩
  refine .char ⟨_, rfl⟩ fun _ => ⟨[c], rfl, ?_⟩
  have hc' : c.toNat < 0x80 := by simpa [UInt8.lt_iff_toNat_lt] using hc
  refine .char ?_ (by simp) (by simpa using h1) (by simpa using h2) (by simpa using h3)
  rw [show [c] ++ 39 :: t = c :: 39 :: t from rfl, decodeRune_cons, if_pos hc']
  rfl

theorem strBody_plain : ∀ {x : Str}, (∀ c ∈ x, c ≠ 10 ∧ c ≠ 34 ∧ c ≠ 92) → StrBody 34 x
  | [], _ => .nil
  | c :: x, h => .plain (h c (by simp)).1 (h c (by simp)).2.1 (h c (by simp)).2.2 (strBody_plain fun d hd => h d (by simp [hd]))

theorem found_string {x t : Str} (h : ∀ c ∈ x, c ≠ 10 ∧ c ≠ 34 ∧ c ≠ 92) :
    Found U (34 :: (x ++ 34 :: t)) (STRING, 34 :: (x ++ [34])) (x.length + 2) true := by
  refine ⟨34 :: (x ++ [34]), t, by simp, by simp, fun semi o => ⟨⟨STRING, o, _⟩, rfl, nofun, rfl, ?_⟩⟩
  exact .string ⟨_, rfl⟩ fun _ => ⟨x, rfl, strBody_plain h⟩

theorem found_op {r x : Str} {k : Nat} (h : bestOp r = some (k, x)) (hp : k ≠ PERIOD)
    (hq : k = QUO → ¬ (CharNext 47 (r.drop x.length) ∨ CharNext 42 (r.drop x.length))) : Found U r (k, []) x.length (endsStatement k) := by
  unfold bestOp at h
  dsimp only at h
  have hm := List.mem_of_find?_eq_some h
  have hall := List.find?_some h
  rw [List.mem_filter] at hm
  obtain ⟨hm, hpre⟩ := hm
  have hpre := List.isPrefixOf_iff_prefix.mp hpre
  obtain ⟨y, rfl⟩ := hpre
  have hk := opTable_kinds _ hm
  rw [← opTable_eq] at hm
  obtain ⟨⟨k', s⟩, hs, he⟩ := List.mem_map.mp hm
  injection he with e1 e2
  dsimp only at e1 e2
  subst e1 e2
  refine ⟨_, y, rfl, rfl, fun semi o => ⟨⟨k', o, if k' = SEMICOLON then [59] else []⟩, rfl, hk.1, ?_, ?_⟩⟩
  · unfold key
    dsimp only
    rw [if_neg hk.2.2]
  · refine .op hs ?_ ?_ (fun h => hp h.1)
    · intro k2 s2 hs2 hp2
      have := List.all_eq_true.mp hall (k2, bytes s2) (by
        rw [List.mem_filter]
        refine ⟨?_, List.isPrefixOf_iff_prefix.mpr hp2⟩
        rw [← opTable_eq]
        exact List.mem_map.mpr ⟨_, hs2, rfl⟩)
      have := of_decide_eq_true this
      rw [op_len _ hs2, op_len _ hs] at this
      exact this
    · rintro ⟨h1, h2⟩
      rw [List.drop_left] at hq
      exact hq h1 h2

theorem head_char {r : Str} {c : UInt8} : CharNext c r ↔ r.head? = some c := by
  unfold CharNext
  cases r <;> simp

theorem tokOf_sound {r : Str} {p : Nat × Str} {n : Nat} {s : Bool} (h : tokOf r = some (p, n, s)) : Found U r p n s := by
  unfold tokOf at h
  split at h
  · cases h
  · rename_i b t
    split at h
    · rename_i hb
      dsimp only at h
      split at h
      · rename_i hr
        cases h
        exact found_word hb hr
      · cases h
    · split at h
      · rename_i hb
        have hb := beq_iff_eq.mp hb
        subst hb
        split at h
        · split at h
          · rename_i hc
            cases h
            simp only [Bool.and_eq_true, bne_iff_ne, ne_eq, decide_eq_true_eq, beq_iff_eq] at hc
            obtain ⟨⟨⟨⟨⟨h0, h1⟩, h2⟩, h3⟩, h4⟩, rfl⟩ := hc
            exact found_char h0 h1 h2 h3 h4
          · cases h
        · cases h
      · split at h
        · rename_i hb
          have hb := beq_iff_eq.mp hb
          subst hb
          dsimp only at h
          split at h
          · rename_i hd
            cases h
            obtain ⟨u, hu⟩ := head_char.mpr (beq_iff_eq.mp hd)
            have e : t = t.takeWhile (fun c => c != 10 && c != 34 && c != 92) ++ 34 :: u := by
              rw [← hu, List.takeWhile_append_dropWhile]
            have hx := found_string (U := U) (x := t.takeWhile (fun c => c != 10 && c != 34 && c != 92)) (t := u) (by
              intro c hc
              have := takeWhile_all c hc
              simp only [Bool.and_eq_true, bne_iff_ne, ne_eq] at this
              exact ⟨this.1.1, this.1.2, this.2⟩)
            rw [← e] at hx
            exact hx
          · cases h
        · split at h
          · cases h
          · rename_i k x hbest
            split at h
            · cases h
            · rename_i hn
              cases h
              simp only [Bool.or_eq_true, beq_iff_eq, Bool.and_eq_true, not_or, not_and] at hn
              refine found_op hbest hn.1 fun hq => ?_
              rw [head_char, head_char]
              have := hn.2 hq
              rintro (h | h)
              · exact this.1 h
              · exact this.2 h

theorem lexOk_sound : ∀ (f : Nat) {semi : Bool} {r : Str} {K : List (Nat × Str)}, lexOk f semi r K = true →
    ∀ o, ∃ ts, Lexes U true ⟨false, true⟩ o r semi ts ∧ ts.map key = K
  | 0, _, _, _, h, _ => by cases h
  | f + 1, semi, r, K, h, o => by
    unfold lexOk at h
    split at h
    · split at h
      · rename_i hs
        subst hs
        have := beq_iff_eq.mp h
        subst this
        refine ⟨[⟨SEMICOLON, o, [10]⟩, ⟨EOF, o, []⟩], ?_, rfl⟩
        exact Lexes.cons (g := []) (x := []) (r := []) nofun .nil rfl .semiAtEnd (Lexes.eof (g := []) .nil rfl)
      · rename_i hs
        have hs : semi = false := by simpa using hs
        subst hs
        have := beq_iff_eq.mp h
        subst this
        exact ⟨[⟨EOF, o, []⟩], Lexes.eof (g := []) .nil rfl, rfl⟩
    · rename_i b t
      split at h
      · rename_i hb
        obtain ⟨ts, h1, h2⟩ := lexOk_sound f h (o + 1)
        refine ⟨ts, lexes_skip ?_ h1, h2⟩
        simp only [Bool.or_eq_true, beq_iff_eq] at hb
        rcases hb with (hb | hb) | hb
        · exact .inl hb
        · exact .inr (.inl hb)
        · exact .inr (.inr (.inl hb))
      · split at h
        · rename_i hb
          have hb := beq_iff_eq.mp hb
          subst hb
          split at h
          · rename_i hs
            subst hs
            split at h
            · cases h
            · split at h
              · rename_i hp
                have hp := beq_iff_eq.mp hp
                subst hp
                obtain ⟨ts, h1, h2⟩ := lexOk_sound f h (o + 1)
                refine ⟨⟨SEMICOLON, o, [10]⟩ :: ts, ?_, by rw [List.map_cons, h2]; rfl⟩
                exact Lexes.cons (g := []) (x := [10]) (r := t) nofun .nil rfl .newline h1
              · cases h
          · rename_i hs
            have hs : semi = false := by simpa using hs
            subst hs
            obtain ⟨ts, h1, h2⟩ := lexOk_sound f h (o + 1)
            exact ⟨ts, lexes_skip (.inr (.inr (.inr ⟨rfl, rfl⟩))) h1, h2⟩
        · split at h
          · cases h
          · rename_i p n semi' ht
            split at h
            · cases h
            · split at h
              · rename_i hp
                have hp := beq_iff_eq.mp hp
                subst hp
                obtain ⟨x, y, hxy, rfl, hr⟩ := tokOf_sound (U := U) ht
                rw [hxy, List.drop_left] at h
                obtain ⟨ts, h1, h2⟩ := lexOk_sound f h (o + x.length)
                obtain ⟨tk, a1, a2, a3, a4⟩ := hr semi o
                refine ⟨tk :: ts, ?_, by rw [List.map_cons, h2, a3]⟩
                rw [hxy]
                refine Lexes.cons (g := []) (x := x) (r := y) a2 .nil (by rw [a1]; rfl) a4 ?_
                have e : (semi' && (⟨false, true⟩ : Mode).insertSemis) = semi' := by simp
                rw [e]
                exact h1
              · cases h

end Tpl
