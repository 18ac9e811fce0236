import Verif.Proof.ScannerAccept
import Verif.Proof.ScannerTok
import Verif.Spec.TplText

/-! Writing tokens down: texts that are read as given tokens, whatever follows. -/
namespace Tpl
namespace Scanner
open Spec

/-! ### Clean texts can be cut and joined -/

theorem decodeRune_cons (b0 : UInt8) (rest : Str) : decodeRune (b0 :: rest) =
    if b0.toNat < 0x80 then (b0.toNat, 1)
    else if b0.toNat < 0xC2 then (RuneError, 1)
    else if b0.toNat < 0xE0 then decode2 b0.toNat rest
    else if b0.toNat < 0xF0 then decode3 b0.toNat rest
    else if b0.toNat < 0xF5 then decode4 b0.toNat rest
    else (RuneError, 1) := rfl

/-- What a valid encoding decodes to does not depend on what follows. -/
theorem decode_stable {u t : Str} {c : Nat} (hu : u ≠ []) (h : decodeRune (u ++ t) = (c, u.length))
    (hc : ¬ (c = RuneError ∧ u.length = 1)) (t' : Str) : decodeRune (u ++ t') = (c, u.length) := by
  match u, hu with
  | b :: u, _ =>
    have bad : ∀ {P : Prop}, (RuneError, 1) = (c, (b :: u).length) → P := by
      intro P e
      injection e with e1 e2
      exact absurd ⟨e1.symm, e2.symm⟩ hc
    have one : ∀ {x : Nat} {n : Nat}, (x, n) = (c, (b :: u).length) → u.length = n - 1 := by
      intro x n e
      injection e with e1 e2
      simp only [List.length_cons] at e2
      omega
    simp only [List.cons_append] at h ⊢
    rw [decodeRune_cons] at h ⊢
    split at h
    · rw [if_pos (by assumption)]; exact h
    rw [if_neg (by assumption)]
    split at h
    · exact bad h
    rw [if_neg (by assumption)]
    split at h
    · rw [if_pos (by assumption)]
      unfold decode2 at h ⊢
      match u with
      | [] =>
        simp only [List.nil_append] at h
        split at h
        · split at h
          · exact absurd (one h) (by simp)
          · exact bad h
        · exact bad h
      | [b1] => exact h
      | b1 :: b2 :: u' =>
        simp only [List.cons_append] at h
        split at h
        · exact absurd (one h) (by simp)
        · exact bad h
    rw [if_neg (by assumption)]
    split at h
    · rw [if_pos (by assumption)]
      unfold decode3 at h ⊢
      match u with
      | [] =>
        simp only [List.nil_append] at h
        split at h
        · split at h
          · exact absurd (one h) (by simp)
          · exact bad h
        · exact bad h
      | [b1] =>
        simp only [List.cons_append, List.nil_append] at h
        split at h
        · split at h
          · exact absurd (one h) (by simp)
          · exact bad h
        · exact bad h
      | [b1, b2] => exact h
      | b1 :: b2 :: b3 :: u' =>
        simp only [List.cons_append] at h
        split at h
        · exact absurd (one h) (by simp)
        · exact bad h
    rw [if_neg (by assumption)]
    split at h
    · rw [if_pos (by assumption)]
      unfold decode4 at h ⊢
      match u with
      | [] =>
        simp only [List.nil_append] at h
        split at h
        · split at h
          · exact absurd (one h) (by simp)
          · exact bad h
        · exact bad h
      | [b1] =>
        simp only [List.cons_append, List.nil_append] at h
        split at h
        · split at h
          · exact absurd (one h) (by simp)
          · exact bad h
        · exact bad h
      | [b1, b2] =>
        simp only [List.cons_append, List.nil_append] at h
        split at h
        · split at h
          · exact absurd (one h) (by simp)
          · exact bad h
        · exact bad h
      | [b1, b2, b3] => exact h
      | b1 :: b2 :: b3 :: b4 :: u' =>
        simp only [List.cons_append] at h
        split at h
        · exact absurd (one h) (by simp)
        · exact bad h
    · exact bad h

theorem clean_append {x y : Str} (hx : Clean x) (hy : Clean y) : Clean (x ++ y) := by
  induction hx with
  | nil => exact hy
  | @cons u t c h1 h2 h3 h4 h5 _ ih =>
    rw [List.append_assoc]
    exact .cons h1 (decode_stable h1 h2 h5 _) h3 h4 h5 ih

theorem clean_cons {b : UInt8} {t : Str} (h0 : b.toNat ≠ 0) (hb : b.toNat < 0x80) (ht : Clean t) : Clean (b :: t) := by
  refine Clean.cons (u := [b]) (c := b.toNat) (by simp) ?_ h0 (by omega) ?_ ht
  · rw [List.singleton_append, decodeRune_ascii hb]; rfl
  · simp only [RuneError]; omega

/-- The first character of a clean text. -/
theorem clean_first {r : Str} (h : Clean r) (hne : r ≠ []) : ∃ u t c, r = u ++ t ∧ u ≠ [] ∧ decodeRune r = (c, u.length) ∧ c ≠ 0 ∧ c ≠ 0xFEFF ∧
    ¬ (c = RuneError ∧ u.length = 1) ∧ Clean t := by
  cases h with
  | nil => exact absurd rfl hne
  | cons h1 h2 h3 h4 h5 h6 => exact ⟨_, _, _, rfl, h1, h2, h3, h4, h5, h6⟩

/-- Cutting before an ASCII character. -/
theorem clean_cut {c : UInt8} {r : Str} (hc : c.toNat < 0x80) : ∀ (n : Nat) {a : Str}, a.length ≤ n → Clean (a ++ c :: r) → Clean a ∧ Clean (c :: r) := by
  intro n
  induction n with
  | zero =>
    intro a ha h
    obtain rfl := List.length_eq_zero_iff.mp (Nat.le_zero.mp ha)
    exact ⟨.nil, h⟩
  | succ n ih =>
    intro a ha h
    cases a with
    | nil => exact ⟨.nil, h⟩
    | cons b a =>
      obtain ⟨u, t, d, he, h1, h2, h3, h4, h5, h6⟩ := clean_first h (by simp)
      obtain ⟨a', ea, rfl⟩ : ∃ a', b :: a = u ++ a' ∧ t = a' ++ c :: r := by
        by_cases hb : b.toNat < 0x80
        · rw [List.cons_append, decodeRune_ascii hb] at h2
          have hl : u.length = 1 := (congrArg Prod.snd h2).symm
          match u, hl with
          | [b'], _ =>
            injection he with e1 e2
            exact ⟨a, by rw [e1]; rfl, e2.symm⟩
        · have hu : ∀ x ∈ u, 0x80 ≤ x.toNat := by
            have := decodeRune_bytes b (a ++ c :: r) (by omega)
            rw [← List.cons_append, h2, he] at this
            simpa using this
          exact rune_before he.symm hc hu
      rw [ea, List.append_assoc] at h2
      rw [ea] at ha ⊢
      have hlen : a'.length ≤ n := by
        have h7 := ha
        have : 1 ≤ u.length := List.length_pos_iff.mpr h1
        simp only [List.length_append] at h7
        omega
      obtain ⟨h8, h9⟩ := ih hlen h6
      exact ⟨.cons h1 (decode_stable h1 h2 h5 _) h3 h4 h5 h8, h9⟩

theorem runes_clean {P : Int → Prop} {x r : Str} (h : Runes P x r) (hc : Clean (x ++ r)) : Clean x ∧ Clean r := by
  induction h with
  | nil r => exact ⟨.nil, hc⟩
  | @cons u x r h1 h2 h3 _ ih =>
    rw [List.append_assoc] at hc
    obtain ⟨u', t, d, he, h4, h5, h6, h7, h8, h9⟩ := clean_first hc (by simp [h1])
    rw [h2] at h5
    injection h5 with h10 h11
    obtain ⟨rfl, rfl⟩ := List.append_inj he h11
    obtain ⟨h12, h13⟩ := ih h9
    refine ⟨.cons h1 (decode_stable h1 h2 ?_ _) ?_ ?_ ?_ h12, h13⟩
    · rw [h10]; exact h8
    · rw [h10]; exact h6
    · rw [h10]; exact h7
    · rw [h10]; exact h8

/-- Characters of a clean text are the same whatever follows. -/
theorem runes_stable {P : Int → Prop} {x r : Str} (h : Runes P x r) (hc : Clean x) (r' : Str) : Runes P x r' := by
  induction h with
  | nil r => exact .nil _
  | @cons u x r h1 h2 h3 _ ih =>
    obtain ⟨u', t, d, he, h4, h5, h6, h7, h8, h9⟩ := clean_first hc (by simp [h1])
    rw [he] at h5
    have h10 := decode_stable h4 h5 h8 (t ++ r)
    have e2 : u ++ (x ++ r) = u' ++ (t ++ r) := by rw [← List.append_assoc, he, List.append_assoc]
    rw [e2, h10] at h2
    injection h2 with _ h11
    obtain ⟨rfl, rfl⟩ := List.append_inj he h11.symm
    have h12 := decode_stable h4 h5 h8 (x ++ r')
    have h13 : headRune (u ++ (x ++ r')) = headRune (u ++ (x ++ r)) := by
      unfold headRune
      rw [if_neg (by simp [h1]), if_neg (by simp [h1]), h12, h10]
    exact .cons h1 (by rw [h12]) (by rw [h13]; exact h3) (ih h9)

theorem headRune_stable {x : Str} (hc : Clean x) (hne : x ≠ []) (r : Str) : headRune (x ++ r) = headRune x := by
  obtain ⟨u, t, d, rfl, h4, h5, h6, h7, h8, h9⟩ := clean_first hc hne
  unfold headRune
  rw [if_neg (by simp [h4]), if_neg hne, h5, List.append_assoc, decode_stable h4 h5 h8 (t ++ r)]

theorem bomLen_clean {x : Str} (hc : Clean x) : bomLen x = 0 := by
  unfold bomLen
  split
  · rename_i h
    have h := List.isPrefixOf_iff_prefix.mp h
    have h1 := (decode_bom x).mpr h
    rcases clean_head hc with rfl | h2
    · simp at h
    · exact absurd h1 h2.2.1
  · rfl

/-! ### Words and operators -/

variable {U : Uni} {kw : Str → Option Nat}

/-- What counts of a token that has been looked up among the keywords. -/
def kwKey (kw : Str → Option Nat) (t : Token) : Nat × Str := key (kwTok kw t)

/-- The text `r` has the tokens `K`, wherever it is. -/
def LexesAs (U : Uni) (kw : Str → Option Nat) (r : Str) (K : List (Nat × Str)) : Prop :=
  ∀ o semi, ∃ ts, Lexes U true ⟨false, true⟩ o r semi ts ∧ ts.map (kwKey kw) = K

/-- A blank, a closing parenthesis or a semicolon follows. -/
def Follow (r : Str) : Prop := CharNext 32 r ∨ CharNext 41 r ∨ CharNext 59 r

/-- `x` is read as the token `p`. -/
structure Word (U : Uni) (kw : Str → Option Nat) (p : Nat × Str) (x : Str) : Prop where
  clean : Clean x
  head : ∃ c t, x = c :: t ∧ c ≠ 61 ∧ c ≠ 124 ∧ c ≠ 43
  reads : ∀ semi r o, Follow r → ∃ t semi2, t.pos = o ∧ t.kind ≠ EOF ∧ kwKey kw t = p ∧ TokText U true false semi t x r semi2

theorem lexesAs_space {r : Str} {K : List (Nat × Str)} (h : LexesAs U kw r K) : LexesAs U kw (32 :: r) K := by
  intro o semi
  obtain ⟨ts, h1, h2⟩ := h (o + 1) semi
  refine ⟨ts, ?_, h2⟩
  cases h1 with
  | eof h3 h4 => exact Lexes.eof (g := 32 :: r) (.space (.inl rfl) h3) (by rw [h4]; simp; omega)
  | @cons _ g x r _ semi1 semi2 t ts h3 h4 h5 h6 h7 =>
    refine Lexes.cons (g := 32 :: g) (x := x) (r := r) h3 (.space (.inl rfl) h4) (by rw [h5]; simp; omega) h6 ?_
    have e : o + (32 :: g).length + x.length = o + 1 + g.length + x.length := by simp; omega
    rw [e]; exact h7

theorem Word.lexes {p : Nat × Str} {x r : Str} {K : List (Nat × Str)} (h : Word U kw p x) (hf : Follow r) (hr : LexesAs U kw r K) :
    LexesAs U kw (x ++ r) (p :: K) := by
  intro o semi
  obtain ⟨t, semi2, h1, h2, h3, h4⟩ := h.reads semi r o hf
  obtain ⟨ts, h5, h6⟩ := hr (o + x.length) (semi2 && true)
  exact ⟨t :: ts, Lexes.cons (g := []) h2 .nil (by rw [h1]; rfl) h4 h5, by rw [List.map_cons, h3, h6]⟩

/-- The operators of the TPL syntax. -/
def tplOps : List (Nat × String) := [(42, "*"), (43, "+"), (63, "?"), (126, "~"), (64, "@"), (40, "("), (41, ")"), (37, "%"), (0x88, "%="), (124, "|"),
  (61, "="), (59, ";")]

theorem tplOps_ext : ∀ q ∈ tplOps, ∀ p ∈ operators, (bytes q.2).length < (bytes p.2).length → bytes q.2 <+: bytes p.2 →
    ((bytes p.2).drop (bytes q.2).length).head? ∈ ([some 61, some 124] : List (Option UInt8)) ∨
    (q.1 = 43 ∧ ((bytes p.2).drop (bytes q.2).length).head? = some 43) := by decide +kernel

theorem tplOps_ops : ∀ q ∈ tplOps, q ∈ operators ∧ q.1 ≠ QUO ∧ q.1 ≠ PERIOD ∧ q.1 ≠ EOF ∧ q.1 ≠ IDENT ∧ q.1 ∉ [IDENT, CHAR, STRING, INT] := by
  decide +kernel

theorem op_text {k : Nat} {s : String} {r : Str} (hq : (k, s) ∈ tplOps) (hr : ∀ c, r.head? = some c → c ≠ 61 ∧ c ≠ 124 ∧ (k = 43 → c ≠ 43))
    (semi : Bool) (o : Nat) : TokText U true false semi ⟨k, o, if k = SEMICOLON then [59] else []⟩ (bytes s) r (endsStatement k) := by
  obtain ⟨h1, h2, h3, h4, h5, h6⟩ := tplOps_ops _ hq
  refine .op h1 ?_ (fun h => h2 h.1) (fun h => h3 h.1)
  intro k' s' hm hp
  refine Nat.le_of_not_lt fun hl => ?_
  have hl' : (bytes s).length < (bytes s').length := by rw [op_len _ hm, op_len _ h1]; exact hl
  have hpre : bytes s <+: bytes s' := List.prefix_of_prefix_length_le ⟨r, rfl⟩ hp (by omega)
  obtain ⟨z, hz⟩ := hp
  obtain ⟨y, hy⟩ := hpre
  rw [← hy, List.append_assoc] at hz
  have hz := List.append_cancel_left hz
  have hd : ((bytes s').drop (bytes s).length).head? = r.head? := by
    rw [← hy, ← hz, List.drop_left]
    cases y with
    | nil => rw [← hy] at hl'; simp at hl'
    | cons b y => rfl
  rcases tplOps_ext _ hq _ hm hl' ⟨y, hy⟩ with h | ⟨e, h⟩
  · dsimp only at h
    rw [hd] at h
    simp only [List.mem_cons, List.not_mem_nil, or_false] at h
    rcases h with h | h
    · exact (hr _ h).1 rfl
    · exact (hr _ h).2.1 rfl
  · dsimp only at h e
    rw [hd] at h
    exact (hr _ h).2.2 e rfl

theorem op_key {k : Nat} {s : String} (hq : (k, s) ∈ tplOps) (o : Nat) (l : Str) : kwKey kw ⟨k, o, l⟩ = opr k := by
  obtain ⟨h1, h2, h3, h4, h5, h6⟩ := tplOps_ops _ hq
  unfold kwKey kwTok key opr
  rw [if_neg h5]
  dsimp only
  rw [if_neg h6]

theorem op_lexes {k : Nat} {s : String} {r : Str} {K : List (Nat × Str)} (hq : (k, s) ∈ tplOps)
    (hr : ∀ c, r.head? = some c → c ≠ 61 ∧ c ≠ 124 ∧ (k = 43 → c ≠ 43)) (h : LexesAs U kw r K) : LexesAs U kw (bytes s ++ r) (opr k :: K) := by
  intro o semi
  obtain ⟨ts, h5, h6⟩ := h (o + (bytes s).length) (endsStatement k && true)
  exact ⟨_ :: ts, Lexes.cons (g := []) (tplOps_ops _ hq).2.2.2.1 .nil rfl (op_text hq hr semi o) h5, by rw [List.map_cons, op_key hq, h6]⟩

/-- `;` and a newline. -/
theorem semi_lexes {r : Str} {K : List (Nat × Str)} (h : ∀ o, ∃ ts, Lexes U true ⟨false, true⟩ o r false ts ∧ ts.map (kwKey kw) = K) :
    LexesAs U kw (59 :: 10 :: r) (opr 59 :: K) := by
  intro o semi
  obtain ⟨ts, h5, h6⟩ := h (o + 2)
  have hq : (59, ";") ∈ tplOps := by decide +kernel
  have e : (59 : UInt8) :: 10 :: r = [] ++ (bytes ";" ++ 10 :: r) := rfl
  refine ⟨⟨59, o, if 59 = SEMICOLON then [59] else []⟩ :: ts, ?_, by rw [List.map_cons, op_key hq, h6]⟩
  · rw [e]
    refine Lexes.cons (mode := ⟨false, true⟩) (g := []) (semi1 := semi) (tplOps_ops _ hq).2.2.2.1 .nil rfl (op_text hq ?_ semi o) ?_
    · intro c hc
      obtain rfl : (10 : UInt8) = c := by simpa using hc
      exact ⟨by decide, by decide, by decide⟩
    · have e2 : (endsStatement 59 && (⟨false, true⟩ : Mode).insertSemis) = false := by decide
      rw [e2]
      have e3 : o + ([] : Str).length + (bytes ";").length = o + 1 := by rfl
      rw [e3]
      cases h5 with
      | eof h3 h4 => exact Lexes.eof (g := 10 :: r) (.space (.inr (.inr (.inr ⟨rfl, rfl⟩))) h3) (by rw [h4]; simp; omega)
      | @cons _ g x r _ semi1 semi2 t ts h3 h4 h5 h9 h7 =>
        refine Lexes.cons (g := 10 :: g) (x := x) (r := r) h3 (.space (.inr (.inr (.inr ⟨rfl, rfl⟩))) h4) (by rw [h5]; simp; omega) h9 ?_
        have e : o + 1 + (10 :: g).length + x.length = o + 2 + g.length + x.length := by simp; omega
        rw [e]; exact h7

/-- The text `x` is read as the tokens `ks`. -/
structure Spells (U : Uni) (kw : Str → Option Nat) (x : Str) (ks : List (Nat × Str)) : Prop where
  clean : Clean x
  head : ∃ c t, x = c :: t ∧ c ≠ 61 ∧ c ≠ 124
  reads : ∀ r K, Follow r → LexesAs U kw r K → LexesAs U kw (x ++ r) (ks ++ K)

theorem Word.spells {p : Nat × Str} {x : Str} (h : Word U kw p x) : Spells U kw x [p] :=
  ⟨h.clean, let ⟨c, t, e, h1, h2, _⟩ := h.head; ⟨c, t, e, h1, h2⟩, fun _ _ hf hr => h.lexes hf hr⟩

theorem clean_of_ascii : ∀ {x : Str}, (∀ b ∈ x, b.toNat ≠ 0 ∧ b.toNat < 0x80) → Clean x := by
  intro x
  induction x with
  | nil => intro _; exact .nil
  | cons b t ih => intro h; exact clean_cons (h b (by simp)).1 (h b (by simp)).2 (ih fun c hc => h c (by simp [hc]))

theorem tplOps_shape : ∀ q ∈ tplOps, (∀ b ∈ bytes q.2, b.toNat ≠ 0 ∧ b.toNat < 0x80) ∧
    (q.1 ≠ 61 → q.1 ≠ 124 → ∃ c ∈ (bytes q.2).head?, c ≠ 61 ∧ c ≠ 124) ∧ bytes q.2 ≠ [] := by decide +kernel

/-- A prefix operator. -/
theorem Spells.prefix_ {k : Nat} {s : String} {x : Str} {ks : List (Nat × Str)} (h : Spells U kw x ks) (hq : (k, s) ∈ tplOps)
    (hk : k ≠ 61 ∧ k ≠ 124) (h43 : k = 43 → x.head? ≠ some 43) : Spells U kw (bytes s ++ x) (opr k :: ks) := by
  obtain ⟨q1, q2, q3⟩ := tplOps_shape _ hq
  refine ⟨clean_append (clean_of_ascii q1) h.clean, ?_, ?_⟩
  · obtain ⟨c, hc, h1⟩ := q2 hk.1 hk.2
    dsimp only at hc q3
    generalize bytes s = y at *
    cases y with
    | nil => exact absurd rfl q3
    | cons b y =>
      obtain rfl : b = c := by simpa using hc
      exact ⟨b, y ++ x, rfl, h1⟩
  · intro r K hf hr
    rw [List.append_assoc]
    refine op_lexes hq ?_ (h.reads r K hf hr)
    intro c hc
    obtain ⟨d, t, rfl, h1, h2⟩ := h.head
    obtain rfl : d = c := by simpa using hc
    exact ⟨h1, h2, fun e e2 => h43 e (by rw [e2]; rfl)⟩

/-- In parentheses. -/
theorem Spells.paren {x : Str} {ks : List (Nat × Str)} (h : Spells U kw x ks) : Spells U kw (40 :: (x ++ [41])) (opr 40 :: (ks ++ [opr 41])) := by
  refine ⟨clean_cons (by decide) (by decide) (clean_append h.clean (clean_of_ascii (by decide))), ⟨40, _, rfl, by decide, by decide⟩, ?_⟩
  intro r K hf hr
  have h1 : LexesAs U kw (41 :: r) (opr 41 :: K) := by
    refine op_lexes (s := ")") (by decide +kernel) ?_ hr
    intro c hc
    rcases hf with ⟨t, rfl⟩ | ⟨t, rfl⟩ | ⟨t, rfl⟩ <;> (simp at hc; subst hc; decide)
  have h2 := h.reads (41 :: r) _ (.inr (.inl ⟨_, rfl⟩)) h1
  have h3 : LexesAs U kw (40 :: (x ++ 41 :: r)) (opr 40 :: (ks ++ opr 41 :: K)) := by
    refine op_lexes (s := "(") (by decide +kernel) ?_ h2
    intro c hc
    obtain ⟨d, t, rfl, h1, h2⟩ := h.head
    obtain rfl : d = c := by simpa using hc
    exact ⟨h1, h2, nofun⟩
  simpa using h3

/-- One after the other. -/
theorem Spells.seq {x y : Str} {ks ls : List (Nat × Str)} (h : Spells U kw x ks) (h' : Spells U kw y ls) : Spells U kw (x ++ 32 :: y) (ks ++ ls) := by
  refine ⟨clean_append h.clean (clean_cons (by decide) (by decide) h'.clean), ?_, ?_⟩
  · obtain ⟨c, t, rfl, h1⟩ := h.head
    exact ⟨c, _, rfl, h1⟩
  · intro r K hf hr
    have := h.reads (32 :: (y ++ r)) _ (.inl ⟨_, rfl⟩) (lexesAs_space (h'.reads r K hf hr))
    simpa using this

/-- With an operator between them. -/
theorem Spells.infix_ {x y : Str} {ks ls : List (Nat × Str)} {k : Nat} {s : String} (h : Spells U kw x ks) (hq : (k, s) ∈ tplOps)
    (h' : Spells U kw y ls) : Spells U kw (x ++ 32 :: (bytes s ++ 32 :: y)) (ks ++ opr k :: ls) := by
  refine ⟨clean_append h.clean (clean_cons (by decide) (by decide) (clean_append (clean_of_ascii (tplOps_shape _ hq).1) (clean_cons (by decide) (by decide) h'.clean))), ?_, ?_⟩
  · obtain ⟨c, t, rfl, h1⟩ := h.head
    exact ⟨c, _, rfl, h1⟩
  · intro r K hf hr
    have h1 : LexesAs U kw (bytes s ++ 32 :: (y ++ r)) (opr k :: (ls ++ K)) := by
      refine op_lexes hq ?_ (lexesAs_space (h'.reads r K hf hr))
      intro c hc
      obtain rfl : 32 = c := by simpa using hc
      exact ⟨by decide, by decide, fun _ => by decide⟩
    have := h.reads (32 :: (bytes s ++ 32 :: (y ++ r))) _ (.inl ⟨_, rfl⟩) (lexesAs_space h1)
    simpa using this

/-! ### The words of TPL texts -/

/-- An identifier that is not a keyword. -/
structure OkIdent (U : Uni) (kw : Str → Option Nat) (n : Str) : Prop where
  clean : Clean n
  ne : n ≠ []
  letter : Letter U (headRune n)
  runes : Runes (fun c => Letter U c ∨ Digit U c) n []
  kw : kw n = none

/-- A string literal. -/
structure OkStr (l : Str) : Prop where
  clean : Clean l
  body : ∃ b, l = 34 :: (b ++ [34]) ∧ StrBody 34 b

theorem follow_head {r : Str} (h : Follow r) : headRune r = 32 ∨ headRune r = 41 ∨ headRune r = 59 := by
  rcases h with ⟨t, rfl⟩ | ⟨t, rfl⟩ | ⟨t, rfl⟩
  · exact .inl (headRune_cons (by decide))
  · exact .inr (.inl (headRune_cons (by decide)))
  · exact .inr (.inr (headRune_cons (by decide)))

theorem OkIdent.head {n : Str} (h : OkIdent U kw n) : ∃ c t, n = c :: t ∧ c ≠ 61 ∧ c ≠ 124 ∧ c ≠ 43 := by
  have h1 := h.letter
  cases n with
  | nil => exact absurd rfl h.ne
  | cons c t =>
    refine ⟨c, t, rfl, ?_⟩
    by_cases hc : c.toNat < 0x80
    · rw [headRune_cons hc] at h1
      unfold Letter at h1
      refine ⟨?_, ?_, ?_⟩ <;> (rintro rfl; revert h1; simp)
    · refine ⟨?_, ?_, ?_⟩ <;> (rintro rfl; exact absurd (by decide) hc)

theorem OkIdent.word {n : Str} (h : OkIdent U kw n) : Word U kw (IDENT, n) n := by
  refine ⟨h.clean, h.head, ?_⟩
  intro semi r o hf
  refine ⟨⟨IDENT, o, n⟩, true, rfl, nofun, ?_, .ident h.ne ?_ (runes_stable h.runes h.clean r) ?_⟩
  · unfold kwKey kwTok
    rw [if_pos rfl]
    dsimp only
    rw [h.kw]
    rfl
  · rw [headRune_stable h.clean h.ne]; exact h.letter
  · unfold Letter Digit
    rcases follow_head hf with e | e | e <;> rw [e] <;> omega

theorem kwKey_plain {k o : Nat} {l : Str} (hk : k ≠ IDENT) : kwKey kw ⟨k, o, l⟩ = key ⟨k, o, l⟩ := by
  unfold kwKey kwTok
  rw [if_neg hk]

theorem OkStr.word {l : Str} (h : OkStr l) : Word U kw (STRING, l) l := by
  obtain ⟨b, rfl, hb⟩ := h.body
  refine ⟨h.clean, ⟨34, _, rfl, by decide, by decide, by decide⟩, ?_⟩
  intro semi r o hf
  exact ⟨⟨STRING, o, _⟩, true, rfl, nofun, by rw [kwKey_plain (by decide)]; rfl, .string ⟨_, rfl⟩ fun _ => ⟨b, rfl, hb⟩⟩

/-- A character in single quotes. -/
theorem char_word {c : UInt8} (h0 : c.toNat ≠ 0) (hc : c.toNat < 0x80) (h1 : c ≠ 10) (h2 : c ≠ 39) (h3 : c ≠ 92) :
    Word U kw (CHAR, [39, c, 39]) [39, c, 39] := by
  refine ⟨clean_cons (by decide) (by decide) (clean_cons h0 hc (clean_of_ascii (by decide))), ⟨39, _, rfl, by decide, by decide, by decide⟩, ?_⟩
  intro semi r o hf
  refine ⟨⟨CHAR, o, _⟩, true, rfl, nofun, by rw [kwKey_plain (by decide)]; rfl, .char ⟨_, rfl⟩ fun _ => ⟨[c], rfl, .char ?_ (by simp) ?_ ?_ ?_⟩⟩
  · rw [List.singleton_append, decodeRune_ascii hc]; rfl
  · simpa using h1
  · simpa using h2
  · simpa using h3

/-- The numeral `1`. -/
theorem one_word : Word U kw (INT, [49]) [49] := by
  refine ⟨clean_of_ascii (by decide), ⟨49, _, rfl, by decide, by decide, by decide⟩, ?_⟩
  intro semi r o hf
  refine ⟨⟨INT, o, _⟩, true, rfl, nofun, by rw [kwKey_plain (by decide)]; rfl, .int (.dec (ds := []) (by unfold IsDec; decide) (by decide) (by simp) ?_ ?_)⟩
  · rintro ⟨b, t, rfl, hb⟩
    rcases hf with ⟨_, h⟩ | ⟨_, h⟩ | ⟨_, h⟩ <;> (injection h with h _; subst h; exact absurd hb (by unfold IsDec; decide))
  · rintro (⟨t, rfl⟩ | ⟨t, rfl⟩ | ⟨t, rfl⟩ | ⟨t, rfl⟩) <;>
      (rcases hf with ⟨_, h⟩ | ⟨_, h⟩ | ⟨_, h⟩ <;> (injection h with h _; exact absurd h (by decide)))

end Scanner
end Tpl
