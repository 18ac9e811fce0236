import Verif.Proof.ScannerLex

/-! Literals and comments. -/
namespace Tpl
namespace Scanner
open Spec

/-! ### escapes -/

theorem digit_eq {b : UInt8} (h : digitVal b.toNat < 16) : digit b = digitVal b.toNat := by
  have h1 := digitVal_lt_hex.mp h
  unfold digit digitVal
  split <;> split <;> (try split) <;> (try split) <;> (try split) <;> omega

theorem escapeDigits_spec (base : Nat) (hb : base ≤ 16) :
    ∀ (n x : Nat) (s : Scanner), Sync s → ∃ ds, Eat s ds (escapeDigits base n x s).2 ∧
      (∀ v, (escapeDigits base n x s).1 = some v →
        ds.length = n ∧ (∀ b ∈ ds, baseP base b) ∧ v = ds.foldl (fun x d => x * base + digit d) x) ∧
      ((escapeDigits base n x s).1 = none → ¬ Quiet s (escapeDigits base n x s).2) := by
  intro n
  induction n with
  | zero =>
    intro x s h
    refine ⟨[], Eat.refl h, ?_, ?_⟩
    · intro v hv
      simp only [escapeDigits, Option.some.injEq] at hv
      simp [hv]
    · intro hv; simp [escapeDigits] at hv
  | succ n ih =>
    intro x s h
    by_cases hd : digitVal s.ch ≥ base
    · simp only [escapeDigits, hd, if_true]
      refine ⟨[], (Eat.refl h).error _ _, by simp, ?_⟩
      intro _
      exact not_quiet_error (.refl s) _ _
    · simp only [escapeDigits, hd, if_false]
      have hx := digitVal_lt_hex.mp (show digitVal s.ch < 16 by omega)
      obtain ⟨b, hb, hr⟩ := h.rest_ascii (by omega) (by omega)
      have he : Eat s [b] s.next := ⟨h, (Steps.refl s).next, by simpa using hr⟩
      obtain ⟨ds, hed, h1, h2⟩ := ih (x * base + digitVal s.ch) s.next he.sync
      refine ⟨b :: ds, by simpa using he.trans hed, ?_, ?_⟩
      · intro v hv
        obtain ⟨l, d, e⟩ := h1 v hv
        have hbb : digitVal b.toNat < base := by rw [hb]; omega
        refine ⟨by simp [l], ?_, ?_⟩
        · intro c hc
          rcases List.mem_cons.mp hc with rfl | hc
          · exact hbb
          · exact d c hc
        · simp only [List.foldl_cons]
          rw [digit_eq (by omega), hb]
          exact e
      · intro hn q
        exact h2 hn (Quiet.split he.steps hed.steps q).2

theorem escapeTail_spec (offs n base max : Nat) (hb : base ≤ 16) {s : Scanner} (h : Sync s) :
    ∃ ds, Eat s ds (escapeTail offs n base max s).2 ∧
      ((escapeTail offs n base max s).1 = true → ds.length = n ∧ (∀ b ∈ ds, baseP base b) ∧
        numeral base ds ≤ max ∧ ¬ (0xD800 ≤ numeral base ds ∧ numeral base ds < 0xE000)) ∧
      ((escapeTail offs n base max s).1 = false → ¬ Quiet s (escapeTail offs n base max s).2) := by
  obtain ⟨ds, he, h1, h2⟩ := escapeDigits_spec base hb n 0 s h
  unfold escapeTail
  generalize escapeDigits base n 0 s = r at he h1 h2
  obtain ⟨o, s'⟩ := r
  cases o with
  | none => exact ⟨ds, he, by simp, fun _ => h2 rfl⟩
  | some v =>
    obtain ⟨l, d, e⟩ := h1 v rfl
    have e' : v = numeral base ds := e
    simp only
    by_cases hv : v > max ∨ (0xD800 ≤ v ∧ v < 0xE000)
    · simp only [hv, if_true]
      exact ⟨ds, he.error _ _, by simp, fun _ => not_quiet_error he.steps _ _⟩
    · simp only [hv, if_false]
      refine ⟨ds, he, ?_, by simp⟩
      intro _
      rw [← e']
      refine ⟨l, d, by omega, by omega⟩

/-- An escape sequence, scanned from after the backslash. -/
theorem scanEscape_spec (q : UInt8) (hq : q.toNat < 0x80) {s : Scanner} (h : Sync s) :
    ∃ x, Eat s x (scanEscape q.toNat s).2 ∧
      ((scanEscape q.toNat s).1 = true → Escape q (92 :: x)) ∧
      ((scanEscape q.toNat s).1 = false → ¬ Quiet s (scanEscape q.toNat s).2) := by
  unfold scanEscape
  dsimp only
  split
  · rename_i hc
    have hlt : 0 ≤ s.ch ∧ s.ch < 0x80 := by omega
    obtain ⟨b, hb, hr⟩ := h.rest_ascii hlt.1 hlt.2
    refine ⟨[b], ⟨h, (Steps.refl s).next, by simpa using hr⟩, ?_, by simp⟩
    intro _
    refine .simple ?_
    have key : ∀ c : UInt8, s.ch = c.toNat → b = c := fun c hc => toUInt8_eq (by omega)
    rcases hc with e | e | e | e | e | e | e | e | e
    · rw [key 97 e]; simp
    · rw [key 98 e]; simp
    · rw [key 102 e]; simp
    · rw [key 110 e]; simp
    · rw [key 114 e]; simp
    · rw [key 116 e]; simp
    · rw [key 118 e]; simp
    · rw [key 92 e]; simp
    · rw [key q e]; simp
  · split
    · obtain ⟨ds, he, h1, h2⟩ := escapeTail_spec s.offset 3 8 255 (by omega) h
      refine ⟨ds, he, ?_, h2⟩
      intro ht
      obtain ⟨l, d, v, _⟩ := h1 ht
      exact .oct l (fun b hb => baseP_oct (d b hb)) v
    · split
      · rename_i hc
        have h0 := h.eatAscii 120 (by decide) hc
        obtain ⟨ds, he, h1, h2⟩ := escapeTail_spec s.offset 2 16 255 (by omega) h0.sync
        refine ⟨120 :: ds, h0.trans he, ?_, fun hf q => h2 hf (Quiet.split h0.steps he.steps q).2⟩
        intro ht
        obtain ⟨l, d, v, _⟩ := h1 ht
        exact .hex l (fun b hb => baseP_hex (d b hb))
      · split
        · rename_i hc
          have h0 := h.eatAscii 117 (by decide) hc
          obtain ⟨ds, he, h1, h2⟩ := escapeTail_spec s.offset 4 16 0x10FFFF (by omega) h0.sync
          refine ⟨117 :: ds, h0.trans he, ?_, fun hf q => h2 hf (Quiet.split h0.steps he.steps q).2⟩
          intro ht
          obtain ⟨l, d, v, w⟩ := h1 ht
          exact .u4 l (fun b hb => baseP_hex (d b hb)) ⟨v, w⟩
        · split
          · rename_i hc
            have h0 := h.eatAscii 85 (by decide) hc
            obtain ⟨ds, he, h1, h2⟩ := escapeTail_spec s.offset 8 16 0x10FFFF (by omega) h0.sync
            refine ⟨85 :: ds, h0.trans he, ?_, fun hf q => h2 hf (Quiet.split h0.steps he.steps q).2⟩
            intro ht
            obtain ⟨l, d, v, w⟩ := h1 ht
            exact .u8 l (fun b hb => baseP_hex (d b hb)) ⟨v, w⟩
          · refine ⟨[], (Eat.refl h).error _ _, by simp, ?_⟩
            intro _
            exact not_quiet_error (.refl s) _ _

/-! ### interpreted strings -/

theorem strBody_plains (q : UInt8) {x : Str} (hx : StrBody q x) :
    ∀ u : Str, (∀ b ∈ u, b ≠ 10 ∧ b ≠ q ∧ b ≠ 92) → StrBody q (u ++ x) := by
  intro u
  induction u with
  | nil => intro _; exact hx
  | cons b u ih =>
    intro h
    have := h b (by simp)
    exact .plain this.1 this.2.1 this.2.2 (ih (fun c hc => h c (by simp [hc])))

/-- The bytes of a character different from given ASCII characters. -/
theorem plain_bytes {s : Scanner} {u : Str} (q : UInt8) (hq : q.toNat < 0x80)
    (hd : (s.ch < 0x80 ∧ ∃ b : UInt8, u = [b] ∧ (b.toNat : Int) = s.ch) ∨
       (0x80 ≤ s.ch ∧ ∀ x ∈ u, 0x80 ≤ x.toNat)) (hne : s.ch ≠ q.toNat) : ∀ b ∈ u, b ≠ q := by
  intro b hb e
  subst e
  rcases hd with ⟨_, c, rfl, hc⟩ | ⟨_, h⟩
  · simp at hb
    subst hb
    exact hne hc.symm
  · have := h b hb
    omega

theorem scanStringLoop_spec (offs : Nat) : ∀ (f : Nat) (s : Scanner), Sync s → s.mu < f →
    ∃ x, Eat s x (scanStringLoop offs f s) ∧
      (Quiet s (scanStringLoop offs f s) → ∃ b, x = b ++ [34] ∧ StrBody 34 b) := by
  intro f
  induction f with
  | zero => intro s h hf; omega
  | succ f ih =>
    intro s h hf
    simp only [scanStringLoop]
    split
    · exact ⟨[], (Eat.refl h).error _ _, fun q => absurd q (not_quiet_error (.refl s) _ _)⟩
    · rename_i hc
      have hlt := next_mu_lt (s := s) (by omega)
      split
      · rename_i h34
        have he := h.eatAscii 34 (by decide) h34
        exact ⟨[34], he, fun _ => ⟨[], rfl, .nil⟩⟩
      · rename_i h34
        split
        · rename_i h92
          have h0 := h.eatAscii 92 (by decide) h92
          obtain ⟨e, hee, he1, he2⟩ := scanEscape_spec 34 (by decide) h0.sync
          have hmu := hee.steps.mu
          obtain ⟨x, hex, hx⟩ := ih (scanEscape 34 s.next).2 hee.sync (by
            have : (scanEscape 34 s.next).2.mu ≤ s.next.mu := hmu
            omega)
          refine ⟨(92 :: e) ++ x, by simpa using h0.trans (hee.trans hex), ?_⟩
          intro q
          have q1 := (Quiet.split h0.steps (hee.steps.trans hex.steps) q).2
          have q2 := Quiet.split hee.steps hex.steps q1
          obtain ⟨b, hb, hs⟩ := hx q2.2
          have hesc : (scanEscape 34 s.next).1 = true := by
            cases hcs : (scanEscape 34 s.next).1
            · exact absurd q2.1 (he2 hcs)
            · rfl
          subst hb
          exact ⟨(92 :: e) ++ b, by simp, .esc (he1 hesc) hs⟩
        · rename_i h92
          obtain ⟨u, he, _, _, hd⟩ := h.eatNext (by omega)
          obtain ⟨x, hex, hx⟩ := ih s.next he.sync (by omega)
          refine ⟨u ++ x, he.trans hex, ?_⟩
          intro q
          obtain ⟨b, hb, hs⟩ := hx (Quiet.split he.steps hex.steps q).2
          subst hb
          refine ⟨u ++ b, by simp, strBody_plains 34 hs u ?_⟩
          intro c hcm
          exact ⟨plain_bytes 10 (by decide) hd (by intro e; exact hc (.inl e)) c hcm,
            plain_bytes 34 (by decide) hd h34 c hcm, plain_bytes 92 (by decide) hd h92 c hcm⟩

/-- `s.offset - 1` after one byte has been consumed. -/
theorem Eat.offsetM1 {s0 s : Scanner} {c : UInt8} (h : Eat s0 [c] s) : s.offsetM1 = s0.offset := by
  unfold Scanner.offsetM1
  rw [h.offset]
  simp

theorem scanString_spec {s0 s : Scanner} (h0 : Eat s0 [34] s) :
    Steps s (scanString s).2 ∧ ∃ x, Eat s0 x (scanString s).2 ∧ (scanString s).1 = x ∧ CharNext 34 x ∧
      (Quiet s (scanString s).2 → ∃ b, x = 34 :: (b ++ [34]) ∧ StrBody 34 b) := by
  obtain ⟨x, he, hx⟩ := scanStringLoop_spec s.offsetM1 (s.mu + 1) s h0.sync (by omega)
  have hall := h0.trans he
  have hoff := h0.offsetM1
  refine ⟨?_, [34] ++ x, ?_, ?_, ⟨x, rfl⟩, ?_⟩
  all_goals unfold scanString; simp only [hoff] at he hx hall ⊢; simp only [hall.check]
  · exact he.steps
  · exact hall
  · exact hall.slice
  · intro q
    obtain ⟨b, rfl, hb⟩ := hx q
    exact ⟨b, by simp, hb⟩

/-! ### raw strings -/

theorem scanRawStringLoop_spec (offs : Nat) : ∀ (f : Nat) (cr : Bool) (s : Scanner), Sync s → s.mu < f →
    ∃ x, Eat s x (scanRawStringLoop offs f cr s).2 ∧
      ((scanRawStringLoop offs f cr s).1 = false → cr = false ∧ 13 ∉ x) ∧
      (Quiet s (scanRawStringLoop offs f cr s).2 → ∃ b, x = b ++ [96] ∧ 96 ∉ b) := by
  intro f
  induction f with
  | zero => intro cr s h hf; omega
  | succ f ih =>
    intro cr s h hf
    simp only [scanRawStringLoop]
    split
    · exact ⟨[], (Eat.refl h).error _ _, by simp, fun q => absurd q (not_quiet_error (.refl s) _ _)⟩
    · rename_i hc
      have hlt := next_mu_lt (s := s) (by omega)
      split
      · rename_i h96
        have he := h.eatAscii 96 (by decide) h96
        exact ⟨[96], he, by simp, fun _ => ⟨[], rfl, by simp⟩⟩
      · rename_i h96
        obtain ⟨u, he, _, _, hd⟩ := h.eatNext (by omega)
        obtain ⟨x, hex, hcr, hx⟩ := ih (cr || s.ch == 13) s.next he.sync (by omega)
        refine ⟨u ++ x, he.trans hex, ?_, ?_⟩
        · intro hf
          obtain ⟨h1, h2⟩ := hcr hf
          simp only [Bool.or_eq_false_iff, beq_eq_false_iff_ne] at h1
          refine ⟨h1.1, ?_⟩
          intro hm
          rcases List.mem_append.mp hm with hm | hm
          · exact plain_bytes 13 (by decide) hd h1.2 13 hm rfl
          · exact h2 hm
        · intro q
          obtain ⟨b, hb, hs⟩ := hx (Quiet.split he.steps hex.steps q).2
          subst hb
          refine ⟨u ++ b, by simp, ?_⟩
          intro hm
          rcases List.mem_append.mp hm with hm | hm
          · exact plain_bytes 96 (by decide) hd h96 96 hm rfl
          · exact hs hm

theorem filter_no_cr {x : Str} (h : 13 ∉ x) : x.filter (· ≠ 13) = x := by
  rw [List.filter_eq_self]
  intro a ha
  simp only [ne_eq, decide_not, Bool.not_eq_eq_eq_not, Bool.not_true, decide_eq_false_iff_not]
  intro e
  exact h (e ▸ ha)

theorem stripCR_ite {x : Str} {cr : Bool} (h : cr = false → 13 ∉ x) :
    (if cr = true then stripCR x else x) = x.filter (· ≠ 13) := by
  cases cr with
  | true => rfl
  | false => simp only [Bool.false_eq_true, if_false]; rw [filter_no_cr (h rfl)]

theorem scanRawString_spec {s0 s : Scanner} (h0 : Eat s0 [96] s) :
    Steps s (scanRawString s).2 ∧ ∃ x, Eat s0 x (scanRawString s).2 ∧ (scanRawString s).1 = x.filter (· ≠ 13) ∧ CharNext 96 x ∧
      (Quiet s (scanRawString s).2 → ∃ b, x = 96 :: (b ++ [96]) ∧ 96 ∉ b) := by
  obtain ⟨x, he, hcr, hx⟩ := scanRawStringLoop_spec s.offsetM1 (s.mu + 1) false s h0.sync (by omega)
  have hall := h0.trans he
  have hoff := h0.offsetM1
  refine ⟨?_, [96] ++ x, ?_, ?_, ⟨x, rfl⟩, ?_⟩
  all_goals
    unfold scanRawString
    simp only [hoff] at he hx hall hcr ⊢
    simp only [hall.check]
  · exact he.steps
  · exact hall
  · rw [hall.slice]
    apply stripCR_ite
    intro hf
    have := (hcr hf).2
    simp [this]
  · intro q
    obtain ⟨b, rfl, hb⟩ := hx q
    exact ⟨b, by simp, hb⟩

/-! ### character literals -/

/-- `n` characters or escapes of a character literal followed by `r`. -/
inductive Elems : Nat → Str → Str → Prop
  | nil {r} : Elems 0 [] r
  | cons {n u x r} : CharBody u (x ++ r) → Elems n x r → Elems (n + 1) (u ++ x) r

theorem scanRuneLoop_eat (offs : Nat) : ∀ (f : Nat) (valid : Bool) (n : Nat) (s : Scanner), Sync s → s.mu < f →
    ∃ x, Eat s x (scanRuneLoop offs f valid n s).2.2 ∧
      (valid = true → Quiet s (scanRuneLoop offs f valid n s).2.2 →
        (scanRuneLoop offs f valid n s).1 = true ∧
        ∃ b m, x = b ++ [39] ∧ (scanRuneLoop offs f valid n s).2.1 = n + m ∧
          Elems m b (39 :: (scanRuneLoop offs f valid n s).2.2.rest)) := by
  intro f
  induction f with
  | zero => intro valid n s h hf; omega
  | succ f ih =>
    intro valid n s h hf
    simp only [scanRuneLoop]
    split
    · split
      · exact ⟨[], (Eat.refl h).error _ _, fun _ q => absurd q (not_quiet_error (.refl s) _ _)⟩
      · rename_i hv
        exact ⟨[], Eat.refl h, fun hv' => absurd hv' hv⟩
    · rename_i hc
      have hlt := next_mu_lt (s := s) (by omega)
      split
      · rename_i h39
        have he := h.eatAscii 39 (by decide) h39
        exact ⟨[39], he, fun hv _ => ⟨hv, [], 0, rfl, rfl, .nil⟩⟩
      · rename_i h39
        split
        · rename_i h92
          have h0 := h.eatAscii 92 (by decide) h92
          obtain ⟨e, hee, he1, he2⟩ := scanEscape_spec 39 (by decide) h0.sync
          have hmu : (scanEscape 39 s.next).2.mu ≤ s.next.mu := hee.steps.mu
          have hee' : Eat s.next e (scanEscape 39 s.next).2 := hee
          obtain ⟨x, hex, hx⟩ := ih (valid && (scanEscape 39 s.next).1) (n + 1) (scanEscape 39 s.next).2
            hee.sync (by omega)
          refine ⟨(92 :: e) ++ x, by simpa using h0.trans (hee'.trans hex), ?_⟩
          intro hv q
          have q1 := (Quiet.split h0.steps (hee'.steps.trans hex.steps) q).2
          have q2 := Quiet.split hee'.steps hex.steps q1
          have hesc : (scanEscape 39 s.next).1 = true := by
            cases hcs : (scanEscape 39 s.next).1
            · exact absurd q2.1 (he2 hcs)
            · rfl
          obtain ⟨hv', b, m, hb, hm, hel⟩ := hx (by simp [hv, hesc]) q2.2
          subst hb
          refine ⟨hv', (92 :: e) ++ b, m + 1, by simp, by omega, .cons (.esc (he1 hesc)) hel⟩
        · rename_i h92
          obtain ⟨u, he, hne, hdec, hd⟩ := h.eatNext (by omega)
          obtain ⟨x, hex, hx⟩ := ih valid (n + 1) s.next he.sync (by omega)
          refine ⟨u ++ x, he.trans hex, ?_⟩
          intro hv q
          obtain ⟨hv', b, m, hb, hm, hel⟩ := hx hv (Quiet.split he.steps hex.steps q).2
          subst hb
          refine ⟨hv', u ++ b, m + 1, by simp, by omega, .cons (.char ?_ hne ?_ ?_ ?_) hel⟩
          · have : s.rest = u ++ (b ++ 39 :: (scanRuneLoop offs f valid (n + 1) s.next).2.2.rest) := by
              rw [he.rest, hex.rest]; simp
            rw [← this]; exact hdec
          · intro e
            exact plain_bytes 10 (by decide) hd (by intro e; exact hc (.inl e)) 10 (List.mem_of_mem_head? e) rfl
          · intro e
            exact plain_bytes 39 (by decide) hd h39 39 (List.mem_of_mem_head? e) rfl
          · intro e
            exact plain_bytes 92 (by decide) hd h92 92 (List.mem_of_mem_head? e) rfl

theorem scanRune_spec {s0 s : Scanner} (h0 : Eat s0 [39] s) :
    Steps s (scanRune s).2 ∧ ∃ x, Eat s0 x (scanRune s).2 ∧ (scanRune s).1 = x ∧ CharNext 39 x ∧
      (Quiet s (scanRune s).2 → ∃ b, x = 39 :: (b ++ [39]) ∧ CharBody b (39 :: (scanRune s).2.rest)) := by
  obtain ⟨x, he, hx⟩ := scanRuneLoop_eat s.offsetM1 (s.mu + 1) true 0 s h0.sync (by omega)
  have hoff := h0.offsetM1
  unfold scanRune
  simp only [hoff] at he hx ⊢
  generalize scanRuneLoop s0.offset (s.mu + 1) true 0 s = r at he hx
  obtain ⟨valid, n, s'⟩ := r
  dsimp only at he hx ⊢
  have hall := h0.trans he
  have hall' := hall.ite_error (c := (valid = true ∧ n ≠ 1)) s0.offset .illegalRune
  refine ⟨?_, [39] ++ x, ?_, ?_, ⟨x, rfl⟩, ?_⟩
  all_goals simp only [hall'.check]
  · exact (he.ite_error _ _).steps
  · exact hall'
  · exact hall'.slice
  · intro q
    have hn := quiet_if_error he.steps q
    have q' : Quiet s s' := by rw [if_neg hn] at q; exact q
    obtain ⟨hv, b, m, rfl, hm, hel⟩ := hx trivial q'
    refine ⟨b, by simp, ?_⟩
    rw [ite_error_rest]
    have hn1 : n = 1 := by
      apply Classical.byContradiction
      intro h; exact hn ⟨hv, h⟩
    have hm1 : m = 1 := by omega
    subst hm1
    cases hel with
    | cons hb hnil =>
      cases hnil
      simpa using hb

/-! ### comments -/

theorem lineCommentLoop_spec : ∀ (f : Nat) (cr : Bool) (s : Scanner), Sync s → s.mu ≤ f →
    ∃ x, Eat s x (lineCommentLoop f cr s).2 ∧ 10 ∉ x ∧ LineEnd (lineCommentLoop f cr s).2.rest ∧
      ((lineCommentLoop f cr s).1 = false → cr = false ∧ 13 ∉ x) := by
  have hend : ∀ s : Scanner, Sync s → ¬ (s.ch ≠ 10 ∧ s.ch ≥ 0) → LineEnd s.rest := by
    intro s h hc
    by_cases h10 : s.ch = 10
    · exact .inr ((h.charNext 10 (by decide)).mpr h10)
    · exact .inl (h.rest_eof (by omega))
  intro f
  induction f with
  | zero =>
    intro cr s h hf
    have := mu_zero (s := s) (by omega)
    exact ⟨[], Eat.refl h, by simp, hend s h (by omega), by simp [lineCommentLoop]⟩
  | succ f ih =>
    intro cr s h hf
    simp only [lineCommentLoop]
    split
    · rename_i hc
      have hlt := next_mu_lt (s := s) (by omega)
      obtain ⟨u, he, _, _, hd⟩ := h.eatNext (by omega)
      obtain ⟨x, hex, hnl, hle, hcr⟩ := ih (cr || s.ch == 13) s.next he.sync (by omega)
      refine ⟨u ++ x, he.trans hex, ?_, hle, ?_⟩
      · intro hm
        rcases List.mem_append.mp hm with hm | hm
        · exact plain_bytes 10 (by decide) hd hc.1 10 hm rfl
        · exact hnl hm
      · intro hf
        obtain ⟨h1, h2⟩ := hcr hf
        simp only [Bool.or_eq_false_iff, beq_eq_false_iff_ne] at h1
        refine ⟨h1.1, ?_⟩
        intro hm
        rcases List.mem_append.mp hm with hm | hm
        · exact plain_bytes 13 (by decide) hd h1.2 13 hm rfl
        · exact h2 hm
    · rename_i hc
      exact ⟨[], Eat.refl h, by simp, hend s h hc, by simp⟩

/-- Adding characters that do not form the closing sequence. -/
theorem noClose_append {u x : Str} (hx : noClose x = true)
    (hu : ∀ b ∈ u, b = 42 → u = [42] ∧ x.head? ≠ some 47) : noClose (u ++ x) = true := by
  induction u with
  | nil => exact hx
  | cons a u ih =>
    simp only [List.cons_append, noClose, Bool.and_eq_true, Bool.not_eq_true', Bool.and_eq_false_iff,
      beq_eq_false_iff_ne]
    constructor
    · by_cases ha : a = 42
      · right
        obtain ⟨e, h⟩ := hu a (by simp) ha
        simp only [List.cons.injEq] at e
        rw [e.2]
        simpa using h
      · exact .inl ha
    · apply ih
      intro b hb e
      have := (hu b (by simp [hb]) e).1
      simp only [List.cons.injEq] at this
      rw [this.2] at hb
      simp at hb

theorem Sync.head_of_rest {s : Scanner} (h : Sync s) {b : UInt8} (hb : b.toNat < 0x80)
    (hr : s.rest.head? = some b) : s.ch = b.toNat := by
  cases hrr : s.rest with
  | nil => rw [hrr] at hr; simp at hr
  | cons a t =>
    rw [hrr] at hr
    simp at hr
    subst hr
    exact h.ch_of_rest hrr hb

/-- The step shared by the two loops that look for the end of a block comment. -/
theorem star_bytes {s : Scanner} {u : Str} {y : Str}
    (hd : (s.ch < 0x80 ∧ ∃ b : UInt8, u = [b] ∧ (b.toNat : Int) = s.ch) ∨
       (0x80 ≤ s.ch ∧ ∀ x ∈ u, 0x80 ≤ x.toNat)) (h1 : Sync s.next)
    (hno : ¬ (s.ch = 42 ∧ s.next.ch = 47)) (hy : y.head? = some 47 → s.next.rest.head? = some 47) :
    ∀ b ∈ u, b = 42 → u = [42] ∧ y.head? ≠ some 47 := by
  intro b hb e
  subst e
  rcases hd with ⟨_, c, rfl, hc⟩ | ⟨_, h⟩
  · simp at hb
    subst hb
    refine ⟨rfl, ?_⟩
    intro e
    have := h1.head_of_rest (by decide) (hy e)
    exact hno ⟨by rw [← hc]; rfl, this⟩
  · have := h _ hb
    simp at this

theorem blockCommentLoop_spec : ∀ (f : Nat) (cr : Bool) (s : Scanner), Sync s → s.mu ≤ f →
    ∃ x, Eat s x (blockCommentLoop f cr s).2.2 ∧
      ((blockCommentLoop f cr s).1 = true → ∃ b, x = b ++ [42, 47] ∧ noClose (b ++ [42]) = true) ∧
      ((blockCommentLoop f cr s).1 = false → noClose x = true ∧ (blockCommentLoop f cr s).2.2.rest = []) ∧
      ((blockCommentLoop f cr s).2.1 = false → cr = false ∧ 13 ∉ x) := by
  intro f
  induction f with
  | zero =>
    intro cr s h hf
    have := mu_zero (s := s) (by omega)
    exact ⟨[], Eat.refl h, by simp [blockCommentLoop], by simp [blockCommentLoop, noClose, h.rest_eof this],
      by simp [blockCommentLoop]⟩
  | succ f ih =>
    intro cr s h hf
    simp only [blockCommentLoop]
    split
    · rename_i hc
      have hlt := next_mu_lt (s := s) hc
      split
      · rename_i h42
        have h1 := h.eatAscii 42 (by decide) h42.1
        have h2 := h1.sync.eatAscii 47 (by decide) h42.2
        refine ⟨[42] ++ [47], h1.trans h2, fun _ => ⟨[], rfl, by decide⟩, by simp, ?_⟩
        intro hf
        simp only [Bool.or_eq_false_iff] at hf
        exact ⟨hf.1, by decide⟩
      · rename_i hno
        obtain ⟨u, he, hune, _, hd⟩ := h.eatNext hc
        obtain ⟨x, hex, ht, hfl, hcr⟩ := ih (cr || s.ch == 13) s.next he.sync (by omega)
        refine ⟨u ++ x, he.trans hex, ?_, ?_, ?_⟩
        · intro hcl
          obtain ⟨b, rfl, hb⟩ := ht hcl
          refine ⟨u ++ b, by simp, ?_⟩
          rw [List.append_assoc]
          refine noClose_append hb (star_bytes hd he.sync hno ?_)
          intro e
          rw [hex.rest]
          cases b with
          | nil => simp at e
          | cons a t => simpa using e
        · intro hcl
          obtain ⟨hx, hr⟩ := hfl hcl
          refine ⟨noClose_append hx (star_bytes hd he.sync hno ?_), hr⟩
          intro e
          rw [hex.rest, hr]
          simpa using e
        · intro hf
          obtain ⟨h1, h2⟩ := hcr hf
          simp only [Bool.or_eq_false_iff, beq_eq_false_iff_ne] at h1
          refine ⟨h1.1, ?_⟩
          intro hm
          rcases List.mem_append.mp hm with hm | hm
          · exact plain_bytes 13 (by decide) hd h1.2 13 hm rfl
          · exact h2 hm
    · rename_i hc
      exact ⟨[], Eat.refl h, by simp, by simp [noClose, h.rest_eof (by omega)], by simp⟩

theorem scanComment_spec {s0 s : Scanner} (h0 : Eat s0 [47] s) (hc : s.ch = 47 ∨ s.ch = 42) :
    Steps s (scanComment s).2 ∧ ∃ x, Eat s0 x (scanComment s).2 ∧ (scanComment s).1 = x.filter (· ≠ 13) ∧
      x.head? ≠ some 35 ∧ x.take 2 = [47, if s.ch = 47 then 47 else 42] ∧
      ∀ ok : Bool, (ok = true → Quiet s (scanComment s).2) →
        CommentText ok x (scanComment s).2.rest := by
  have hoff := h0.offsetM1
  unfold scanComment
  simp only [hoff]
  by_cases h47 : s.ch = 47
  · simp only [h47, if_true]
    have h1 := h0.sync.eatAscii 47 (by decide) h47
    obtain ⟨x, he, hnl, hle, hcr⟩ := lineCommentLoop_spec s.next.mu false s.next h1.sync (Nat.le_refl _)
    have hall := h0.trans (h1.trans he)
    refine ⟨?_, [47] ++ ([47] ++ x), ?_, ?_, by simp, by simp, ?_⟩
    all_goals simp only [hall.check]
    · exact (h1.trans he).steps
    · exact hall
    · rw [hall.slice]
      apply stripCR_ite
      intro hf
      have := (hcr hf).2
      simp [this]
    · intro ok _
      exact .line hnl hle
  · simp only [h47, if_false]
    have h42 : s.ch = 42 := by omega
    have h1 := h0.sync.eatAscii 42 (by decide) h42
    obtain ⟨x, he, ht, hfl, hcr⟩ := blockCommentLoop_spec s.next.mu false s.next h1.sync (Nat.le_refl _)
    generalize blockCommentLoop s.next.mu false s.next = r at he ht hfl hcr
    obtain ⟨closed, cr, s'⟩ := r
    dsimp only at he ht hfl hcr ⊢
    have hall := h0.trans (h1.trans he)
    have hall' : Eat s0 ([47] ++ ([42] ++ x))
        (if closed = true then s' else s'.error s0.offset .commentNotTerminated) := by
      split
      · exact hall
      · exact hall.error _ _
    refine ⟨?_, [47] ++ ([42] ++ x), ?_, ?_, by simp, by simp, ?_⟩
    all_goals simp only [hall'.check]
    · split
      · exact (h1.trans he).steps
      · exact ((h1.trans he).error _ _).steps
    · exact hall'
    · rw [hall'.slice]
      apply stripCR_ite
      intro hf
      have := (hcr hf).2
      simp [this]
    · intro ok hok
      cases closed with
      | true =>
        obtain ⟨b, rfl, hb⟩ := ht rfl
        exact .block hb
      | false =>
        obtain ⟨hx, hr⟩ := hfl rfl
        simp only [Bool.false_eq_true, if_false, error_rest, hr]
        refine .unclosed ?_ hx
        cases ok with
        | false => rfl
        | true => exact absurd (hok rfl) (not_quiet_error (h1.trans he).steps _ _)

theorem scanSharpComment_spec {s0 s : Scanner} (h0 : Eat s0 [35] s) :
    ∃ x, Eat s0 x (scanSharpComment s).2 ∧ (scanSharpComment s).1 = x ∧ CharNext 35 x ∧
      ∀ ok : Bool, CommentText ok x (scanSharpComment s).2.rest := by
  have hoff := h0.offsetM1
  obtain ⟨x, he, hr, hs⟩ := whileCh_spec (fun c => decide ¬(c = 10 ∨ c < 0))
    (by intro c hc; simp at hc; omega) s.mu s h0.sync (Nat.le_refl _)
  have hall := h0.trans he
  refine ⟨[35] ++ x, ?_, ?_, ⟨x, rfl⟩, ?_⟩
  all_goals unfold scanSharpComment; simp only [hoff, hall.check]
  · exact hall
  · exact hall.slice
  · intro ok
    refine .sharp ?_ ?_
    · intro hm
      have := Runes.bytes hr (fun b => b ≠ 10) (by
        intro b _ hb e
        subst e
        simp at hb) (by
        intro b hb _ e
        subst e
        simp at hb)
      exact this 10 hm rfl
    · have hs' : (whileCh (fun c => decide ¬(c = 10 ∨ c < 0)) s.mu s).ch = 10 ∨
          (whileCh (fun c => decide ¬(c = 10 ∨ c < 0)) s.mu s).ch < 0 := by
        have := of_decide_eq_false hs
        exact Classical.not_not.mp this
      rcases hs' with e | e
      · exact .inr ((he.sync.charNext 10 (by decide)).mpr e)
      · exact .inl (he.sync.rest_eof e)

end Scanner
end Tpl
