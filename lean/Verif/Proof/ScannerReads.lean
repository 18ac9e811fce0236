import Verif.Proof.ScannerForward

/-! The scanner reads well-formed text as the lexical grammar says, continued: literals. -/
namespace Tpl
namespace Scanner
open Spec

theorem expText_next {ex r : Str} (hx : ExpText ex r) (hne : ex ≠ []) : ¬ DecNext (ex ++ r) ∧ FracNext (ex ++ r) ∧ ¬ CharNext 46 (ex ++ r) := by
  cases hx with
  | none => exact absurd rfl hne
  | some h1 =>
    rename_i e sg ds
    refine ⟨?_, ?_, ?_⟩
    · rintro ⟨b, t, e1, hb⟩
      simp only [List.cons_append, List.cons.injEq] at e1
      obtain ⟨rfl, _⟩ := e1
      rcases h1 with rfl | rfl <;> exact absurd hb.2 (by decide)
    · rcases h1 with rfl | rfl
      · exact .inr (.inl ⟨_, rfl⟩)
      · exact .inr (.inr (.inl ⟨_, rfl⟩))
    · rintro ⟨t, e1⟩
      simp only [List.cons_append, List.cons.injEq] at e1
      rcases h1 with rfl | rfl <;> exact absurd e1.1 (by decide)

theorem decNext_head {s : Scanner} {r : Str} (h : At s r) (hd : DecNext r) : 48 ≤ s.ch ∧ s.ch ≤ 57 := by
  rw [← h.sync.decNext, h.rest]; exact hd

/-- Up to the exponent. -/
theorem At.float {x R : Str} (hx : FloatText x R) {s : Scanner} (h : At s (x ++ R)) :
    ∃ s1 tok ex y, x = y ++ ex ∧ Reads s y s1 ∧ At s1 (ex ++ R) ∧ ExpText ex R ∧ (tok = FLOAT ∨ ex ≠ []) ∧
      ((48 ≤ s.ch ∧ s.ch ≤ 57 ∧ scanNumberBody false s = scanExponent tok s1) ∨
       (s.ch = 46 ∧ 48 ≤ s.next.ch ∧ s.next.ch ≤ 57 ∧ Reads s [46] s.next ∧ scanNumberBody true s.next = scanExponent tok s1)) := by
  cases hx with
  | frac h1 h2 h3 h4 h5 =>
    rename_i ds fs ex
    by_cases hds : ds = []
    · subst hds
      have h' : At s (46 :: (fs ++ (ex ++ R))) := by simpa using h
      obtain ⟨hc, hr, ha⟩ := h'.one (by decide)
      have hdn : DecNext (fs ++ (ex ++ R)) := by
        obtain ⟨b, fs', rfl⟩ := List.exists_cons_of_ne_nil (h3 rfl)
        exact ⟨b, _, rfl, h2 b (by simp)⟩
      obtain ⟨q1, q2⟩ := At.decs h2 h4 ha
      have hd := decNext_head ha hdn
      refine ⟨_, FLOAT, ex, 46 :: fs, by simp, ?_, q2, h5, .inl rfl, .inr ⟨hc, hd.1, hd.2, hr, ?_⟩⟩
      · have := hr.trans q1
        simpa using this
      · unfold scanNumberBody
        rw [if_pos rfl]
    · have h' : At s (ds ++ (46 :: (fs ++ (ex ++ R)))) := by simpa using h
      have hd := decNext_head h' (by
        obtain ⟨b, ds', rfl⟩ := List.exists_cons_of_ne_nil hds
        exact ⟨b, _, rfl, h1 b (by simp)⟩)
      obtain ⟨s1, e1, r1, a1⟩ := At.digits h1 hds (by
        rintro ⟨b, t, e, hb⟩
        injection e with e _
        subst e
        exact absurd hb.1 (by decide)) (.inl ⟨_, rfl⟩) h'
      obtain ⟨hc, hr, ha⟩ := a1.one (by decide)
      have hc' : s1.ch = 46 := hc
      obtain ⟨q1, q2⟩ := At.decs h2 h4 ha
      refine ⟨_, FLOAT, ex, ds ++ 46 :: fs, by simp, ?_, q2, h5, .inl rfl, .inl ⟨hd.1, hd.2, ?_⟩⟩
      · have := r1.trans (hr.trans q1)
        simpa using this
      · rw [e1]
        unfold scanFraction
        rw [if_pos hc']
  | exp h1 h2 h3 h4 =>
    rename_i ds ex
    obtain ⟨n1, n2, n3⟩ := expText_next h4 h3
    have h' : At s (ds ++ (ex ++ R)) := by simpa using h
    have hd := decNext_head h' (by
      obtain ⟨b, ds', rfl⟩ := List.exists_cons_of_ne_nil h2
      exact ⟨b, _, rfl, h1 b (by simp)⟩)
    obtain ⟨s1, e1, r1, a1⟩ := At.digits h1 h2 n1 n2 h'
    refine ⟨s1, INT, ex, ds, rfl, r1, a1, h4, .inr h3, .inl ⟨hd.1, hd.2, ?_⟩⟩
    rw [e1]
    unfold scanFraction
    rw [charNext_ch a1 46 (by decide)] at n3
    have n3' : ¬ s1.ch = 46 := n3
    rw [if_neg n3']

theorem scanNumber_body {s s' : Scanner} {k : Nat} {x : Str} (hb : scanNumberBody false s = (k, s')) (he : Eat s x s') :
    scanNumber false s = (k, x, s') := by
  unfold scanNumber
  simp only [Bool.false_eq_true, if_false, hb, he.check, he.slice]

theorem scanNumber_dot {s0 s s' : Scanner} {k : Nat} {x : Str} (h0 : Eat s0 [46] s) (hb : scanNumberBody true s = (k, s')) (he : Eat s0 x s') :
    scanNumber true s = (k, x, s') := by
  unfold scanNumber
  simp only [if_true, h0.offsetM1, hb, he.check, he.slice]

theorem At.num {k : Nat} {x r : Str} (hx : NumText true k x r) {s : Scanner} (h : At s (x ++ r)) :
    (48 ≤ s.ch ∧ s.ch ≤ 57 ∧ ∃ s', scanNumber false s = (k, x, s') ∧ Reads s x s') ∨
    (s.ch = 46 ∧ 48 ≤ s.next.ch ∧ s.next.ch ≤ 57 ∧ ∃ s', scanNumber true s.next = (k, x, s') ∧ Reads s x s') := by
  rcases hx with ⟨rfl, hx⟩ | ⟨rfl, hx, hi⟩ | ⟨rfl, hx⟩
  · obtain ⟨h1, h2, h3⟩ := At.int hx h
    refine .inl ⟨h1.1, h1.2, (scanNumberBody false s).2, scanNumber_body ?_ h3.eat, h3⟩
    rw [← h2]
  · obtain ⟨s1, tok, ex, y, rfl, r1, a1, hex, ht, hcase⟩ := At.float hx h
    obtain ⟨e1, e2⟩ := At.exp_plain (tok := tok) hex hi a1
    have e1' : (scanExponent tok s1).1 = FLOAT := by
      rw [e1]
      split
      · rename_i e
        rcases ht with ht | ht
        · exact ht
        · exact absurd e ht
      · rfl
    rcases hcase with ⟨q1, q2, q3⟩ | ⟨q1, q2, q3, q4, q5⟩
    · refine .inl ⟨q1, q2, (scanExponent tok s1).2, scanNumber_body ?_ (r1.trans e2).eat, r1.trans e2⟩
      rw [q3, ← e1']
    · refine .inr ⟨q1, q2, q3, (scanExponent tok s1).2, scanNumber_dot q4.eat ?_ (r1.trans e2).eat, r1.trans e2⟩
      rw [q5, ← e1']
  · cases hx with
    | int h1 h2 =>
      rename_i ds
      have h' : At s (ds ++ (105 :: r)) := by simpa using h
      have hd := decNext_head h' (by
        obtain ⟨b, ds', rfl⟩ := List.exists_cons_of_ne_nil h2
        exact ⟨b, _, rfl, h1 b (by simp)⟩)
      obtain ⟨s1, e1, r1, a1⟩ := At.digits h1 h2 (by
        rintro ⟨b, t, e, hb⟩
        injection e with e _
        subst e
        exact absurd hb.2 (by decide)) (.inr (.inr (.inr ⟨_, rfl⟩))) h'
      obtain ⟨hc, hr, ha⟩ := a1.one (by decide)
      have hc' : s1.ch = 105 := hc
      refine .inl ⟨hd.1, hd.2, s1.next, scanNumber_body ?_ (r1.trans hr).eat, r1.trans hr⟩
      rw [e1]
      unfold scanFraction
      rw [if_neg (by omega)]
      unfold scanExponent
      have hne : ¬ (s1.ch = 101 ∨ s1.ch = 69) := by omega
      rw [if_neg hne]
      dsimp only
      rw [if_pos hc']
    | float hx =>
      rename_i x
      have h' : At s (x ++ (105 :: r)) := by simpa using h
      obtain ⟨s1, tok, ex, y, rfl, r1, a1, hex, ht, hcase⟩ := At.float hx h'
      obtain ⟨e1, e2⟩ := At.exp_imag (tok := tok) hex a1
      have hall := r1.trans e2
      rw [← List.append_assoc] at hall
      rcases hcase with ⟨q1, q2, q3⟩ | ⟨q1, q2, q3, q4, q5⟩
      · refine .inl ⟨q1, q2, (scanExponent tok s1).2, scanNumber_body ?_ hall.eat, hall⟩
        rw [q3, ← e1]
      · refine .inr ⟨q1, q2, q3, (scanExponent tok s1).2, scanNumber_dot q4.eat ?_ hall.eat, hall⟩
        rw [q5, ← e1]

/-! ### Escapes -/

theorem At.escDigits {base : Nat} (hb : base ≤ 16) {r : Str} : ∀ {ds : Str} {x : Nat} {s : Scanner}, (∀ b ∈ ds, baseP base b) → At s (ds ++ r) →
    (escapeDigits base ds.length x s).1 = some (ds.foldl (fun x d => x * base + digit d) x) ∧ Reads s ds (escapeDigits base ds.length x s).2 := by
  intro ds
  induction ds with
  | nil => intro x s _ h; exact ⟨rfl, .refl h.sync⟩
  | cons d ds ih =>
    intro x s hd h
    have hd0 := hd d (by simp)
    unfold baseP at hd0
    have h80 := digitVal_ascii hb hd0
    obtain ⟨hc, hr, ha⟩ := At.one (c := d) (r := ds ++ r) h (by omega)
    obtain ⟨q1, q2⟩ := ih (x := x * base + digitVal s.ch) (fun b hb => hd b (by simp [hb])) ha
    simp only [List.length_cons, escapeDigits]
    rw [if_neg (by rw [hc]; omega)]
    refine ⟨?_, hr.trans q2⟩
    rw [q1, hc, ← digit_eq (by omega)]
    rfl

theorem At.escTail {offs base max : Nat} (hb : base ≤ 16) {ds r : Str} (hd : ∀ b ∈ ds, baseP base b) {s : Scanner} (h : At s (ds ++ r))
    (hm : numeral base ds ≤ max) (hs : ¬ (0xD800 ≤ numeral base ds ∧ numeral base ds < 0xE000)) {n : Nat} (hn : ds.length = n) :
    (escapeTail offs n base max s).1 = true ∧ Reads s ds (escapeTail offs n base max s).2 := by
  subst hn
  obtain ⟨q1, q2⟩ := At.escDigits hb (x := 0) hd h
  unfold escapeTail
  generalize escapeDigits base ds.length 0 s = q at q1 q2
  obtain ⟨o, s1⟩ := q
  dsimp only at q1
  subst q1
  dsimp only
  unfold numeral at hm hs
  have hn : ¬ (List.foldl (fun x d => x * base + digit d) 0 ds > max ∨
      0xD800 ≤ List.foldl (fun x d => x * base + digit d) 0 ds ∧ List.foldl (fun x d => x * base + digit d) 0 ds < 0xE000) := by omega
  rw [if_neg hn]
  exact ⟨rfl, q2⟩

theorem digit_hex {b : UInt8} (h : IsHex b) : digit b < 16 := by
  have := hex_baseP h
  unfold baseP at this
  rw [digit_eq this]; exact this

theorem At.esc {q : UInt8} (hq : q = 34 ∨ q = 39) {e r : Str} (he : Escape q (92 :: e)) {s : Scanner} (h : At s (e ++ r)) :
    (scanEscape q.toNat s).1 = true ∧ Reads s e (scanEscape q.toNat s).2 := by
  generalize hg : 92 :: e = y at he
  cases he with
  | simple hc =>
    rename_i c
    injection hg with _ hg
    subst hg
    have hq80 : q.toNat < 0x80 := by rcases hq with rfl | rfl <;> decide
    have h80 : c.toNat < 0x80 := by
      simp only [List.mem_cons, List.not_mem_nil, or_false] at hc
      rcases hc with rfl | rfl | rfl | rfl | rfl | rfl | rfl | rfl | rfl <;> first | decide | exact hq80
    obtain ⟨hch, hr, ha⟩ := At.one (c := c) (r := r) h h80
    unfold scanEscape
    dsimp only
    rw [if_pos]
    · exact ⟨rfl, hr⟩
    · rw [hch]
      simp only [List.mem_cons, List.not_mem_nil, or_false] at hc
      rcases hc with rfl | rfl | rfl | rfl | rfl | rfl | rfl | rfl | rfl
      all_goals first | (left; rfl) | skip
      all_goals first | (right; left; rfl) | skip
      all_goals first | (right; right; left; rfl) | skip
      all_goals first | (right; right; right; left; rfl) | skip
      all_goals first | (right; right; right; right; left; rfl) | skip
      all_goals first | (right; right; right; right; right; left; rfl) | skip
      all_goals first | (right; right; right; right; right; right; left; rfl) | skip
      all_goals first | (right; right; right; right; right; right; right; left; rfl) | skip
      all_goals (right; right; right; right; right; right; right; right; rfl)
  | oct hl hd hm =>
    rename_i ds
    injection hg with _ hg
    subst hg
    obtain ⟨d, ds, rfl⟩ : ∃ d ds, e = d :: ds := by
      cases e with
      | nil => simp at hl
      | cons d ds => exact ⟨d, ds, rfl⟩
    have hd0 := hd d (by simp)
    unfold IsOct at hd0
    obtain ⟨hch, _, _⟩ := At.one (c := d) (r := ds ++ r) h (by omega)
    unfold scanEscape
    dsimp only
    rw [if_neg (by rcases hq with rfl | rfl <;> (rw [hch]; simp; omega)), if_pos (by omega)]
    exact At.escTail (by omega) (fun b hb => oct_baseP (hd b hb)) h hm (by omega) hl
  | hex hl hd =>
    rename_i ds
    injection hg with _ hg
    subst hg
    obtain ⟨hch, hr, ha⟩ := At.one (c := 120) (r := ds ++ r) h (by decide)
    have hch' : s.ch = 120 := hch
    unfold scanEscape
    dsimp only
    rw [if_neg (by rcases hq with rfl | rfl <;> (rw [hch']; decide)), if_neg (by omega), if_pos hch']
    have hle : numeral 16 ds ≤ 255 := by
      match ds, hl with
      | [a, b], _ =>
        have ha := digit_hex (hd a (by simp))
        have hb := digit_hex (hd b (by simp))
        simp only [numeral, List.foldl]
        omega
    obtain ⟨q1, q2⟩ := At.escTail (offs := s.offset) (max := 255) (by omega) (fun b hb => hex_baseP (hd b hb)) ha hle (by omega) hl
    exact ⟨q1, hr.trans q2⟩
  | u4 hl hd hv =>
    rename_i ds
    injection hg with _ hg
    subst hg
    obtain ⟨hch, hr, ha⟩ := At.one (c := 117) (r := ds ++ r) h (by decide)
    have hch' : s.ch = 117 := hch
    unfold scanEscape
    dsimp only
    rw [if_neg (by rcases hq with rfl | rfl <;> (rw [hch']; decide)), if_neg (by omega), if_neg (by omega), if_pos hch']
    obtain ⟨q1, q2⟩ := At.escTail (offs := s.offset) (max := 0x10FFFF) (by omega) (fun b hb => hex_baseP (hd b hb)) ha hv.1 hv.2 hl
    exact ⟨q1, hr.trans q2⟩
  | u8 hl hd hv =>
    rename_i ds
    injection hg with _ hg
    subst hg
    obtain ⟨hch, hr, ha⟩ := At.one (c := 85) (r := ds ++ r) h (by decide)
    have hch' : s.ch = 85 := hch
    unfold scanEscape
    dsimp only
    rw [if_neg (by rcases hq with rfl | rfl <;> (rw [hch']; decide)), if_neg (by omega), if_neg (by omega), if_neg (by omega), if_pos hch']
    obtain ⟨q1, q2⟩ := At.escTail (offs := s.offset) (max := 0x10FFFF) (by omega) (fun b hb => hex_baseP (hd b hb)) ha hv.1 hv.2 hl
    exact ⟨q1, hr.trans q2⟩

/-! ### Strings -/

theorem strBody_drop {q : UInt8} (hq : q.toNat < 0x80) : ∀ {u y : Str}, (∀ b ∈ u, 0x80 ≤ b.toNat) → StrBody q (u ++ y) → StrBody q y := by
  intro u
  induction u with
  | nil => intro y _ h; exact h
  | cons a u ih =>
    intro y hu h
    have ha := hu a (by simp)
    generalize hg : a :: u ++ y = z at h
    cases h with
    | nil => cases hg
    | plain _ _ _ h =>
      injection hg with _ hg
      subst hg
      exact ih (fun b hb => hu b (by simp [hb])) h
    | esc he h =>
      exfalso
      have : a = 92 := by
        cases he <;> (injection hg with h1 _)
      subst this
      exact absurd ha (by decide)

/-- A character before a known ASCII one ends before it. -/
theorem rune_before {u t b r : Str} {c : UInt8} (he : u ++ t = b ++ c :: r) (hc : c.toNat < 0x80) (hu : ∀ x ∈ u, 0x80 ≤ x.toNat) :
    ∃ y, b = u ++ y ∧ t = y ++ c :: r := by
  rcases List.append_eq_append_iff.mp he with ⟨a, e1, e2⟩ | ⟨a, e1, e2⟩
  · exact ⟨a, e1, e2⟩
  · cases a with
    | nil => exact ⟨[], by simpa using e1.symm, by simpa using e2.symm⟩
    | cons x a =>
      exfalso
      injection e2 with e2 _
      subst e2
      have := hu c (by rw [e1]; simp)
      omega

/-- The next character, which is not the given ASCII one. -/
theorem At.any {s : Scanner} {b0 : UInt8} {b r : Str} {c : UInt8} (hc : c.toNat < 0x80) (h : At s (b0 :: b ++ c :: r)) :
    ∃ u y, b0 :: b = u ++ y ∧ u ≠ [] ∧ Reads s u s.next ∧ At s.next (y ++ c :: r) ∧
      ((b0.toNat < 0x80 ∧ u = [b0] ∧ s.ch = b0.toNat) ∨ (0x80 ≤ s.ch ∧ ∀ x ∈ u, 0x80 ≤ x.toNat)) := by
  by_cases hb : b0.toNat < 0x80
  · obtain ⟨h1, h2, h3⟩ := At.one (c := b0) (r := b ++ c :: r) h hb
    exact ⟨[b0], b, rfl, by simp, h2, h3, .inl ⟨hb, rfl, h1⟩⟩
  · have h0 : 0 ≤ s.ch := by
      rw [h.ch]; unfold headRune
      rw [if_neg (by simp)]; omega
    obtain ⟨u, he, hne, hd, hcase⟩ := h.sync.eatNext h0
    have hr := he.rest
    rw [h.rest] at hr
    rcases hcase with ⟨h8, b1, rfl, hb1⟩ | ⟨h8, hall⟩
    · exfalso
      injection hr with hr _
      subst hr
      omega
    · obtain ⟨y, e1, e2⟩ := rune_before hr.symm hc hall
      have hre := (At.nreads (x := u) (r := s.next.rest) (by rw [← hr]; exact h) he (.one s))
      refine ⟨u, y, e1, hne, hre, ?_, .inr ⟨h8, hall⟩⟩
      rw [← e2]
      exact At.reads (x := u) (by rw [← hr]; exact h) hre

theorem At.strLoop {offs : Nat} {r : Str} : ∀ (f : Nat) {b : Str} {s : Scanner}, StrBody 34 b → At s (b ++ 34 :: r) → s.mu < f →
    Reads s (b ++ [34]) (scanStringLoop offs f s) := by
  intro f
  induction f with
  | zero => intro b s _ _ h; omega
  | succ f ih =>
    intro b s hb h hf
    cases hb with
    | nil =>
      obtain ⟨h1, h2, h3⟩ := At.one (c := 34) (r := r) h (by decide)
      have h1' : s.ch = 34 := h1
      unfold scanStringLoop
      rw [if_neg (by omega)]
      dsimp only
      rw [if_pos h1']
      exact h2
    | plain n1 n2 n3 hb =>
      rename_i b0 x
      obtain ⟨u, y, e, hne, hre, ha, hcase⟩ := At.any (c := 34) (b0 := b0) (b := x) (r := r) (by decide) h
      have hn : s.ch ≠ 10 ∧ 0 ≤ s.ch ∧ s.ch ≠ 34 ∧ s.ch ≠ 92 := by
        rcases hcase with ⟨_, _, hc⟩ | ⟨h8, _⟩
        · rw [hc]
          refine ⟨fun e => n1 (toUInt8_eq (by show b0.toNat = 10; omega)), by omega, fun e => n2 (toUInt8_eq (by show b0.toNat = 34; omega)),
            fun e => n3 (toUInt8_eq (by show b0.toNat = 92; omega))⟩
        · omega
      have hby : StrBody 34 y := by
        rcases hcase with ⟨_, hu, _⟩ | ⟨_, hu⟩
        · subst hu
          injection e with _ e
          subst e
          exact hb
        · refine strBody_drop (by decide) hu ?_
          rw [← e]
          exact .plain n1 n2 n3 hb
      have hmu := next_mu_lt hn.2.1
      have := ih hby ha (by omega)
      unfold scanStringLoop
      rw [if_neg (by omega)]
      dsimp only
      rw [if_neg hn.2.2.1, if_neg hn.2.2.2, e, List.append_assoc]
      exact hre.trans this
    | esc he hb =>
      rename_i e x
      obtain ⟨e', rfl⟩ : ∃ e', e = 92 :: e' := by cases he <;> exact ⟨_, rfl⟩
      obtain ⟨h1, h2, h3⟩ := At.one (c := 92) (r := e' ++ (x ++ 34 :: r)) (by simpa using h) (by decide)
      have h1' : s.ch = 92 := h1
      obtain ⟨q1, q2⟩ := At.esc (.inl rfl) he h3
      have ha2 := h3.reads q2
      have hmu := next_mu_lt (s := s) (by omega)
      have hmu2 := q2.eat.steps.mu
      have := ih hb ha2 (by have : (34 : UInt8).toNat = 34 := rfl; omega)
      unfold scanStringLoop
      rw [if_neg (by omega)]
      dsimp only
      rw [if_neg (by omega), if_pos h1']
      have := h2.trans (q2.trans this)
      simpa using this

theorem At.string {b r : Str} (hb : StrBody 34 b) {s : Scanner} (h : At s (34 :: (b ++ [34]) ++ r)) :
    s.ch = 34 ∧ (scanString s.next).1 = 34 :: (b ++ [34]) ∧ Reads s (34 :: (b ++ [34])) (scanString s.next).2 := by
  obtain ⟨h1, h2, h3⟩ := At.one (c := 34) (r := b ++ 34 :: r) (by simpa using h) (by decide)
  have hl := At.strLoop (offs := s.next.offsetM1) (s.next.mu + 1) hb h3 (by omega)
  have hall := h2.trans hl
  unfold scanString
  simp only [h2.eat.offsetM1, hall.eat.check, hall.eat.slice]
  rw [h2.eat.offsetM1] at hall
  simp only [hall.eat.check, hall.eat.slice]
  exact ⟨h1, rfl, hall⟩

theorem At.rawLoop {offs : Nat} {r : Str} : ∀ (f : Nat) {b : Str} {s : Scanner} {cr : Bool}, 96 ∉ b → At s (b ++ 96 :: r) → s.mu < f →
    Reads s (b ++ [96]) (scanRawStringLoop offs f cr s).2 := by
  intro f
  induction f with
  | zero => intro b s _ _ _ h; omega
  | succ f ih =>
    intro b s cr hb h hf
    cases b with
    | nil =>
      obtain ⟨h1, h2, h3⟩ := At.one (c := 96) (r := r) h (by decide)
      have h1' : s.ch = 96 := h1
      unfold scanRawStringLoop
      rw [if_neg (by omega)]
      dsimp only
      rw [if_pos h1']
      exact h2
    | cons b0 x =>
      obtain ⟨u, y, e, hne, hre, ha, hcase⟩ := At.any (c := 96) (b0 := b0) (b := x) (r := r) (by decide) h
      have hn : 0 ≤ s.ch ∧ s.ch ≠ 96 := by
        rcases hcase with ⟨_, _, hc⟩ | ⟨h8, _⟩
        · rw [hc]
          refine ⟨by omega, fun e => hb (by rw [show b0 = 96 from toUInt8_eq (by show b0.toNat = 96; omega)]; simp)⟩
        · omega
      have hmu := next_mu_lt hn.1
      have := ih (b := y) (cr := cr || s.ch == 13) (by intro hm; apply hb; rw [e]; simp [hm]) ha (by omega)
      unfold scanRawStringLoop
      rw [if_neg (by omega)]
      dsimp only
      rw [if_neg hn.2, e, List.append_assoc]
      exact hre.trans this

theorem At.raw {b r : Str} (hb : 96 ∉ b) {s : Scanner} (h : At s (96 :: (b ++ [96]) ++ r)) :
    s.ch = 96 ∧ (scanRawString s.next).1 = (96 :: (b ++ [96])).filter (· ≠ 13) ∧ Reads s (96 :: (b ++ [96])) (scanRawString s.next).2 := by
  obtain ⟨h1, h2, h3⟩ := At.one (c := 96) (r := b ++ 96 :: r) (by simpa using h) (by decide)
  have hl := At.rawLoop (offs := s.next.offsetM1) (s.next.mu + 1) (cr := false) hb h3 (by omega)
  obtain ⟨_, x, he, hx, _, _⟩ := scanRawString_spec h2.eat
  have hall := h2.trans hl
  have hst : (scanRawString s.next).2 = (scanRawStringLoop s.next.offsetM1 (s.next.mu + 1) false s.next).2 := by
    unfold scanRawString
    rw [h2.eat.offsetM1] at hall ⊢
    dsimp only
    exact hall.eat.check
  rw [← hst] at hall
  refine ⟨h1, ?_, hall⟩
  rw [hx]
  have : x = 96 :: (b ++ [96]) := by
    have e := he.rest
    rw [hall.eat.rest] at e
    exact (List.append_cancel_right e).symm
  rw [this]

/-! ### Character literals -/

theorem At.char {b r : Str} (hb : CharBody b (39 :: r)) {s : Scanner} (h : At s (39 :: (b ++ [39]) ++ r)) :
    s.ch = 39 ∧ (scanRune s.next).1 = 39 :: (b ++ [39]) ∧ Reads s (39 :: (b ++ [39])) (scanRune s.next).2 := by
  obtain ⟨h1, h2, h3⟩ := At.one (c := 39) (r := b ++ 39 :: r) (by simpa using h) (by decide)
  have key : ∃ s', scanRuneLoop s.next.offsetM1 (s.next.mu + 1) true 0 s.next = (true, 1, s') ∧ Reads s.next (b ++ [39]) s' := by
    -- the closing quote
    have close : ∀ {s1 : Scanner} {f : Nat}, At s1 (39 :: r) → s1.mu < f →
        scanRuneLoop s.next.offsetM1 f true 1 s1 = (true, 1, s1.next) ∧ Reads s1 [39] s1.next := by
      intro s1 f ha hf
      obtain ⟨q1, q2, _⟩ := At.one (c := 39) (r := r) ha (by decide)
      have q1' : s1.ch = 39 := q1
      obtain ⟨f, rfl⟩ : ∃ g, f = g + 1 := ⟨f - 1, by omega⟩
      unfold scanRuneLoop
      rw [if_neg (by omega)]
      dsimp only
      rw [if_pos q1']
      exact ⟨rfl, q2⟩
    cases hb with
    | esc he =>
      obtain ⟨e', rfl⟩ : ∃ e', b = 92 :: e' := by cases he <;> exact ⟨_, rfl⟩
      obtain ⟨c1, c2, c3⟩ := At.one (c := 92) (r := e' ++ 39 :: r) h3 (by decide)
      have c1' : s.next.ch = 92 := c1
      obtain ⟨q1, q2⟩ := At.esc (.inr rfl) he c3
      have ha2 := c3.reads q2
      have hmu := next_mu_lt (s := s.next) (by omega)
      have hmu2 := q2.eat.steps.mu
      obtain ⟨k1, k2⟩ := close ha2 (f := s.next.mu) (by omega)
      refine ⟨(scanEscape (39 : UInt8).toNat s.next.next).2.next, ?_, ?_⟩
      · unfold scanRuneLoop
        rw [if_neg (by omega)]
        dsimp only
        rw [if_neg (by omega), if_pos c1']
        have e39 : scanEscape 39 s.next.next = scanEscape (39 : UInt8).toNat s.next.next := rfl
        rw [e39]
        generalize scanEscape (39 : UInt8).toNat s.next.next = q at q1 k1 ⊢
        obtain ⟨o, s2⟩ := q
        dsimp only at q1 k1 ⊢
        subst q1
        exact k1
      · have := c2.trans (q2.trans k2)
        simpa using this
    | char hd hne n1 n2 n3 =>
      obtain ⟨hre, ha⟩ := h3.step hne (by rw [hd])
      obtain ⟨b0, b', rfl⟩ := List.exists_cons_of_ne_nil hne
      simp only [List.head?_cons, ne_eq, Option.some.injEq] at n1 n2 n3
      have hn : s.next.ch ≠ 10 ∧ 0 ≤ s.next.ch ∧ s.next.ch ≠ 39 ∧ s.next.ch ≠ 92 := by
        by_cases h8 : b0.toNat < 0x80
        · have hc := h3.sync.ch_of_rest (b := b0) (t := b' ++ 39 :: r) h3.rest h8
          rw [hc]
          exact ⟨fun e => n1 (toUInt8_eq (by show b0.toNat = 10; omega)), by omega, fun e => n2 (toUInt8_eq (by show b0.toNat = 39; omega)),
            fun e => n3 (toUInt8_eq (by show b0.toNat = 92; omega))⟩
        · have := decodeRune_ge b0 (b' ++ 39 :: r) (by omega)
          have hc := h3.ch
          unfold headRune at hc
          rw [if_neg (by simp), List.cons_append] at hc
          omega
      have hmu := next_mu_lt hn.2.1
      obtain ⟨k1, k2⟩ := close ha (f := s.next.mu) (by omega)
      refine ⟨_, ?_, hre.trans k2⟩
      unfold scanRuneLoop
      rw [if_neg (by omega)]
      dsimp only
      rw [if_neg hn.2.2.1, if_neg hn.2.2.2]
      exact k1
  obtain ⟨s', k1, k2⟩ := key
  have hall := h2.trans k2
  unfold scanRune
  rw [h2.eat.offsetM1] at k1 ⊢
  dsimp only
  rw [k1]
  dsimp only
  rw [if_neg (by simp)]
  rw [hall.eat.check, hall.eat.slice]
  exact ⟨h1, rfl, hall⟩

end Scanner
end Tpl
