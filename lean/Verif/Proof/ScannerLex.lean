import Verif.Proof.ScannerSteps

/-! The text consumed by each scanning helper. -/
namespace Tpl
namespace Scanner
open Spec

/-! ### whileCh -/

theorem whileCh_succ (p : Int → Bool) (hp : ∀ c, p c = true → 0 ≤ c) :
    ∀ (g : Nat) (t : Scanner), t.mu ≤ g → whileCh p (g + 1) t = whileCh p g t := by
  intro g
  induction g with
  | zero =>
    intro t ht
    have : ¬ p t.ch = true := by
      intro h1
      have := hp _ h1
      have := mu_zero (s := t) (by omega)
      omega
    simp [whileCh, this]
  | succ g ihg =>
    intro t ht
    by_cases h1 : p t.ch = true
    · have := next_mu_lt (hp _ h1)
      have e1 := ihg t.next (by omega)
      rw [whileCh, if_pos h1, e1]
      conv => rhs; rw [whileCh, if_pos h1]
    · simp [whileCh, h1]

theorem whileCh_fuel (p : Int → Bool) (hp : ∀ c, p c = true → 0 ≤ c)
    (f : Nat) (s : Scanner) (h : s.mu ≤ f) : whileCh p f s = whileCh p s.mu s := by
  obtain ⟨d, rfl⟩ : ∃ d, f = s.mu + d := ⟨f - s.mu, by omega⟩
  clear h
  induction d with
  | zero => rfl
  | succ d ih => rw [← ih]; exact whileCh_succ p hp (s.mu + d) s (by omega)

/-- The loop equation of `for p(s.ch) { s.next() }`. -/
theorem whileCh_unfold (p : Int → Bool) (hp : ∀ c, p c = true → 0 ≤ c) (s : Scanner) :
    whileCh p s.mu s = if p s.ch then whileCh p s.next.mu s.next else s := by
  by_cases hc : p s.ch = true
  · have hlt := next_mu_lt (hp _ hc)
    obtain ⟨m, hm⟩ : ∃ m, s.mu = m + 1 := ⟨s.mu - 1, by omega⟩
    rw [hm]
    simp only [whileCh, hc, if_true]
    exact whileCh_fuel p hp m _ (by omega)
  · cases hm : s.mu <;> simp [whileCh, hc]

theorem whileCh_spec (p : Int → Bool) (hp : ∀ c, p c = true → 0 ≤ c) :
    ∀ (f : Nat) (s : Scanner), Sync s → s.mu ≤ f →
      ∃ x, Eat s x (whileCh p f s) ∧ Runes (fun c => p c = true) x (whileCh p f s).rest ∧
        p (whileCh p f s).ch = false := by
  intro f
  induction f with
  | zero =>
    intro s h hf
    refine ⟨[], Eat.refl h, .nil _, ?_⟩
    have := mu_zero (s := s) (by omega)
    cases hc : p s.ch
    · exact hc
    · have := hp _ hc; omega
  | succ f ih =>
    intro s h hf
    by_cases hc : p s.ch = true
    · have h0 := hp _ hc
      have hlt := next_mu_lt h0
      obtain ⟨u, he, hne, hd, _⟩ := h.eatNext h0
      obtain ⟨x, ex, er, ep⟩ := ih s.next he.sync (by omega)
      simp only [whileCh, hc, if_true]
      have hr : s.rest = u ++ (x ++ (whileCh p f s.next).rest) := by rw [he.rest, ex.rest]
      refine ⟨u ++ x, he.trans ex, .cons hne ?_ ?_ er, ep⟩
      · rw [← hr]; exact hd
      · rw [← hr, ← h.head]; exact hc
    · have hc' : p s.ch = false := by simpa using hc
      simp only [whileCh, hc', Bool.false_eq_true, if_false]
      exact ⟨[], Eat.refl h, .nil _, trivial⟩

/-- Byte-level consequence of a character-level property. -/
theorem Runes.bytes {P : Int → Prop} {x r : Str} (h : Runes P x r) (Q : UInt8 → Prop)
    (h1 : ∀ b : UInt8, b.toNat < 0x80 → P b.toNat → Q b)
    (h2 : ∀ b : UInt8, 0x80 ≤ b.toNat → (∃ c, 0x80 ≤ c ∧ P c) → Q b) : ∀ b ∈ x, Q b := by
  induction h with
  | nil => simp
  | @cons u x r hne hd hP _ ih =>
    intro b hb
    rcases List.mem_append.mp hb with hb | hb
    · cases u with
      | nil => exact absurd rfl hne
      | cons a u =>
        simp only [List.cons_append] at hd hP
        unfold headRune at hP
        simp only [reduceCtorEq, if_false] at hP
        by_cases ha : 0x80 ≤ a.toNat
        · have hby := decodeRune_bytes a (u ++ (x ++ r)) ha
          have hge := decodeRune_ge a (u ++ (x ++ r)) ha
          have hw : (decodeRune (a :: (u ++ (x ++ r)))).2 = (a :: u).length := by rw [hd]
          refine h2 b (hby b ?_) ⟨_, by omega, hP⟩
          rw [hw]
          show b ∈ (a :: (u ++ (x ++ r))).take (a :: u).length
          rw [← List.cons_append, List.take_left]
          exact hb
        · rw [decodeRune_ascii (by omega)] at hd hP
          simp only [Prod.mk.injEq, true_and] at hd
          have : u = [] := by
            cases u with
            | nil => rfl
            | cons => simp at hd
          subst this
          simp at hb
          subst hb
          exact h1 b (by omega) hP
    · exact ih b hb

/-! ### identifiers -/

theorem isLetter_iff (U : Uni) (c : Int) : isLetter U c = true ↔ Letter U c := by
  unfold isLetter Letter
  simp only [Bool.or_eq_true, Bool.and_eq_true, decide_eq_true_eq, beq_iff_eq]
  constructor
  · rintro (((h | h) | h) | h)
    · exact .inl h
    · exact .inr (.inl h)
    · exact .inr (.inr (.inl h))
    · exact .inr (.inr (.inr h))
  · rintro (h | h | h | h)
    · exact .inl (.inl (.inl h))
    · exact .inl (.inl (.inr h))
    · exact .inl (.inr h)
    · exact .inr h

theorem isDigit_iff (U : Uni) (c : Int) : isDigit U c = true ↔ Digit U c := by
  unfold isDigit Digit
  simp only [Bool.or_eq_true, Bool.and_eq_true, decide_eq_true_eq]

theorem Letter.nonneg {U : Uni} {c : Int} (h : Letter U c) : 0 ≤ c := by
  unfold Letter at h; omega
theorem Digit.nonneg {U : Uni} {c : Int} (h : Digit U c) : 0 ≤ c := by
  unfold Digit at h; omega

theorem Runes.mono {P Q : Int → Prop} (h : ∀ c, P c → Q c) {x r} (hr : Runes P x r) : Runes Q x r := by
  induction hr with
  | nil => exact .nil _
  | cons h1 h2 h3 _ ih => exact .cons h1 h2 (h _ h3) ih

theorem scanIdentifier_spec (U : Uni) {s : Scanner} (h : Sync s) :
    ∃ x, Eat s x (scanIdentifier U s).2 ∧ (scanIdentifier U s).1 = x ∧
      Runes (fun c => Letter U c ∨ Digit U c) x (scanIdentifier U s).2.rest ∧
      ¬ (Letter U (headRune (scanIdentifier U s).2.rest) ∨ Digit U (headRune (scanIdentifier U s).2.rest)) := by
  obtain ⟨x, he, hr, hs⟩ := whileCh_spec (fun c => isLetter U c || isDigit U c)
    (by
      intro c hc
      rw [Bool.or_eq_true, isLetter_iff, isDigit_iff] at hc
      rcases hc with hc | hc
      · exact Letter.nonneg hc
      · exact Digit.nonneg hc) s.mu s h (Nat.le_refl _)
  refine ⟨x, ?_, ?_, ?_, ?_⟩
  all_goals unfold scanIdentifier; simp only [he.check]
  · exact he
  · exact he.slice
  · refine Runes.mono ?_ hr
    intro c hc
    simpa only [Bool.or_eq_true, isLetter_iff, isDigit_iff] using hc
  · rw [← he.sync.head]
    simp only [Bool.or_eq_false_iff] at hs
    rw [← isLetter_iff, ← isDigit_iff, hs.1, hs.2]
    simp

/-! ### numbers -/

theorem digitVal_lt_dec {c : Int} : digitVal c < 10 ↔ 48 ≤ c ∧ c ≤ 57 := by
  unfold digitVal; split <;> (try split) <;> (try split) <;> omega
theorem digitVal_lt_oct {c : Int} : digitVal c < 8 ↔ 48 ≤ c ∧ c ≤ 55 := by
  unfold digitVal; split <;> (try split) <;> (try split) <;> omega
theorem digitVal_lt_hex {c : Int} :
    digitVal c < 16 ↔ (48 ≤ c ∧ c ≤ 57) ∨ (97 ≤ c ∧ c ≤ 102) ∨ (65 ≤ c ∧ c ≤ 70) := by
  unfold digitVal; split <;> (try split) <;> (try split) <;> omega

/-- Digit predicate of a base. -/
def baseP (base : Nat) (b : UInt8) : Prop := digitVal b.toNat < base

theorem mantissa_spec (base : Nat) (hb : base ≤ 16) {s : Scanner} (h : Sync s) :
    ∃ ds, Eat s ds (scanMantissa base s) ∧ (∀ b ∈ ds, baseP base b) ∧
      ¬ digitVal (scanMantissa base s).ch < base := by
  have hp : ∀ c : Int, decide (digitVal c < base) = true → 0 ≤ c ∧ c < 0x80 := by
    intro c hc
    simp only [decide_eq_true_eq] at hc
    have := (digitVal_lt_hex (c := c)).mp (by omega)
    omega
  obtain ⟨x, he, hr, hs⟩ := whileCh_spec (fun c => decide (digitVal c < base))
    (fun c hc => (hp c hc).1) s.mu s h (Nat.le_refl _)
  refine ⟨x, he, ?_, of_decide_eq_false hs⟩
  refine Runes.bytes hr (baseP base) ?_ ?_
  · intro b _ hb; exact (of_decide_eq_true hb : digitVal b.toNat < base)
  · rintro b _ ⟨c, hc, hc'⟩
    have := hp c hc'
    omega

theorem baseP_dec {b : UInt8} (h : baseP 10 b) : IsDec b := by
  unfold baseP at h; rw [digitVal_lt_dec] at h; unfold IsDec; omega
theorem baseP_oct {b : UInt8} (h : baseP 8 b) : IsOct b := by
  unfold baseP at h; rw [digitVal_lt_oct] at h; unfold IsOct; omega
theorem baseP_hex {b : UInt8} (h : baseP 16 b) : IsHex b := by
  unfold baseP at h; rw [digitVal_lt_hex] at h; unfold IsHex; omega

theorem IsOct.dec {b : UInt8} (h : IsOct b) : IsDec b := ⟨h.1, by have := h.2; omega⟩

theorem Sync.decNext {s : Scanner} (h : Sync s) : DecNext s.rest ↔ 48 ≤ s.ch ∧ s.ch ≤ 57 := by
  constructor
  · rintro ⟨b, t, e, hb⟩
    have := h.ch_of_rest e (by have := hb.2; omega)
    have h1 := hb.1
    have h2 := hb.2
    omega
  · intro hc
    obtain ⟨b, hb, e⟩ := h.rest_ascii (by omega) (by omega)
    exact ⟨b, _, e, by unfold IsDec; omega⟩

theorem Sync.hexNext {s : Scanner} (h : Sync s) : HexNext s.rest ↔ digitVal s.ch < 16 := by
  rw [digitVal_lt_hex]
  constructor
  · rintro ⟨b, t, e, hb⟩
    unfold IsHex at hb
    have := h.ch_of_rest e (by omega)
    omega
  · intro hc
    obtain ⟨b, hb, e⟩ := h.rest_ascii (by omega) (by omega)
    exact ⟨b, _, e, by unfold IsHex; omega⟩

theorem Sync.octNext {s : Scanner} (h : Sync s) : OctNext s.rest ↔ 48 ≤ s.ch ∧ s.ch ≤ 55 := by
  constructor
  · rintro ⟨b, t, e, hb⟩
    have := h.ch_of_rest e (by have := hb.2; omega)
    have h1 := hb.1
    have h2 := hb.2
    omega
  · intro hc
    obtain ⟨b, hb, e⟩ := h.rest_ascii (by omega) (by omega)
    exact ⟨b, _, e, by unfold IsOct; omega⟩

theorem Sync.fracNext {s : Scanner} (h : Sync s) :
    FracNext s.rest ↔ s.ch = 46 ∨ s.ch = 101 ∨ s.ch = 69 ∨ s.ch = 105 := by
  unfold FracNext
  rw [h.charNext 46 (by decide), h.charNext 101 (by decide), h.charNext 69 (by decide),
    h.charNext 105 (by decide)]
  rfl

theorem dec_mantissa {s : Scanner} (h : Sync s) :
    ∃ ds, Eat s ds (scanMantissa 10 s) ∧ (∀ b ∈ ds, IsDec b) ∧ ¬ DecNext (scanMantissa 10 s).rest := by
  obtain ⟨ds, he, hd, hn⟩ := mantissa_spec 10 (by omega) h
  refine ⟨ds, he, fun b hb => baseP_dec (hd b hb), ?_⟩
  rw [he.sync.decNext]
  rwa [digitVal_lt_dec] at hn

/-- The exponent and the trailing `i`. -/
theorem scanExponent_spec (tok : Nat) {s : Scanner} (h : Sync s) :
    ∃ ex sfx, Eat s (ex ++ sfx) (scanExponent tok s).2 ∧
      ExpText ex (sfx ++ (scanExponent tok s).2.rest) ∧
      ((sfx = [] ∧ ¬ CharNext 105 (scanExponent tok s).2.rest ∧
          (scanExponent tok s).1 = if ex = [] then tok else FLOAT) ∨
        (sfx = [105] ∧ (scanExponent tok s).1 = IMAG)) := by
  -- first the optional exponent
  have h1 : ∃ ex, ∀ r : Nat × Scanner, (r = if s.ch = 101 ∨ s.ch = 69 then
      (FLOAT, scanMantissa 10 (if s.next.ch = 45 ∨ s.next.ch = 43 then s.next.next else s.next))
      else (tok, s)) → Eat s ex r.2 ∧ ExpText ex r.2.rest ∧ r.1 = if ex = [] then tok else FLOAT := by
    by_cases hc : s.ch = 101 ∨ s.ch = 69
    · obtain ⟨e, hce, hee⟩ : ∃ e : UInt8, (e = 101 ∨ e = 69) ∧ Eat s [e] s.next := by
        rcases hc with hc | hc
        · exact ⟨101, .inl rfl, h.eatAscii 101 (by decide) hc⟩
        · exact ⟨69, .inr rfl, h.eatAscii 69 (by decide) hc⟩
      have hs1 := hee.sync
      obtain ⟨sg, s2, hs2, hsg, he2, hsn⟩ : ∃ sg s2,
          s2 = (if s.next.ch = 45 ∨ s.next.ch = 43 then s.next.next else s.next) ∧
          (sg = [] ∨ sg = [45] ∨ sg = [43]) ∧ Eat s.next sg s2 ∧
          (sg = [] → s2.ch ≠ 45 ∧ s2.ch ≠ 43) := by
        by_cases h45 : s.next.ch = 45
        · exact ⟨[45], _, rfl, by simp, by simpa [h45] using hs1.eatAscii 45 (by decide) h45, by simp⟩
        · by_cases h43 : s.next.ch = 43
          · exact ⟨[43], _, rfl, by simp, by simpa [h43] using hs1.eatAscii 43 (by decide) h43, by simp⟩
          · exact ⟨[], _, rfl, by simp, by simpa [h45, h43] using Eat.refl hs1, by simp [h45, h43]⟩
      obtain ⟨ds, hed, hdd, hdn⟩ := dec_mantissa he2.sync
      refine ⟨e :: (sg ++ ds), ?_⟩
      intro r hr
      rw [if_pos hc, ← hs2] at hr
      subst hr
      refine ⟨?_, ?_, by simp⟩
      · have := hee.trans (he2.trans hed)
        simpa using this
      · refine .some hce hsg hdd hdn ?_
        intro e1 e2
        subst e1 e2
        have hrest : s2.rest = (scanMantissa 10 s2).rest := by simpa using hed.rest
        rw [← hrest, he2.sync.charNext 45 (by decide), he2.sync.charNext 43 (by decide)]
        exact hsn rfl
    · refine ⟨[], ?_⟩
      intro r hr
      rw [if_neg hc] at hr
      subst hr
      refine ⟨Eat.refl h, .none ?_ ?_, by simp⟩
      · rw [h.charNext 101 (by decide)]; intro e; exact hc (.inl e)
      · rw [h.charNext 69 (by decide)]; intro e; exact hc (.inr e)
  obtain ⟨ex, h1⟩ := h1
  obtain ⟨he, hx, hk⟩ := h1 _ rfl
  unfold scanExponent
  dsimp only
  generalize (if s.ch = 101 ∨ s.ch = 69 then
      (FLOAT, scanMantissa 10 (if s.next.ch = 45 ∨ s.next.ch = 43 then s.next.next else s.next))
      else (tok, s)) = r at he hx hk
  by_cases hi : r.2.ch = 105
  · rw [if_pos hi]
    have hei := he.sync.eatAscii 105 (by decide) hi
    refine ⟨ex, [105], he.trans hei, ?_, .inr ⟨rfl, rfl⟩⟩
    have : r.2.rest = [105] ++ r.2.next.rest := hei.rest
    rw [this] at hx
    exact hx
  · rw [if_neg hi]
    refine ⟨ex, [], by simpa using he, by simpa using hx, .inl ⟨rfl, ?_, hk⟩⟩
    rw [he.sync.charNext 105 (by decide)]
    exact hi

/-- What a number token may be, `x` being the text and `r` what follows. -/
def NumText (ok : Bool) (k : Nat) (x r : Str) : Prop :=
  (k = INT ∧ IntText ok x r) ∨ (k = FLOAT ∧ FloatText x r ∧ ¬ CharNext 105 r) ∨
    (k = IMAG ∧ ImagText x r)

/-- From the label `fraction:` on, after the digits `ds`. -/
theorem scanFraction_spec {s : Scanner} (h : Sync s) {ds : Str} (hds : ∀ b ∈ ds, IsDec b) (hne : ds ≠ []) :
    ∃ y, Eat s y (scanFraction INT s).2 ∧
      (((scanFraction INT s).1 = FLOAT ∧ FloatText (ds ++ y) (scanFraction INT s).2.rest ∧
          ¬ CharNext 105 (scanFraction INT s).2.rest) ∨
        ((scanFraction INT s).1 = IMAG ∧ ImagText (ds ++ y) (scanFraction INT s).2.rest) ∨
        ((scanFraction INT s).1 = INT ∧ y = [] ∧ ¬ FracNext s.rest)) := by
  unfold scanFraction
  by_cases hc : s.ch = 46
  · rw [if_pos hc]
    have he := h.eatAscii 46 (by decide) hc
    obtain ⟨fs, hef, hfd, hfn⟩ := dec_mantissa he.sync
    obtain ⟨ex, sfx, hee, hx, hk⟩ := scanExponent_spec FLOAT hef.sync
    have hall := he.trans (hef.trans hee)
    refine ⟨_, hall, ?_⟩
    have hr := hee.rest
    have hfn' : ¬ DecNext (ex ++ (sfx ++ (scanExponent FLOAT (scanMantissa 10 s.next)).2.rest)) := by
      rw [← List.append_assoc, ← hr]; exact hfn
    have hf := FloatText.frac hds hfd (fun e => absurd e hne) hfn' hx
    rcases hk with ⟨e1, h1, h2⟩ | ⟨e1, h2⟩
    · left
      subst e1
      refine ⟨by rw [h2]; split <;> rfl, ?_, h1⟩
      simpa using hf
    · right; left
      subst e1
      refine ⟨h2, ?_⟩
      have := ImagText.float (r := (scanExponent FLOAT (scanMantissa 10 s.next)).2.rest) (by simpa using hf)
      simpa using this
  · rw [if_neg hc]
    obtain ⟨ex, sfx, hee, hx, hk⟩ := scanExponent_spec INT h
    refine ⟨_, hee, ?_⟩
    rcases hk with ⟨e1, h1, h2⟩ | ⟨e1, h2⟩
    · subst e1
      by_cases hex : ex = []
      · right; right
        subst hex
        refine ⟨by simpa using h2, by simp, ?_⟩
        have hr : s.rest = (scanExponent INT s).2.rest := by simpa using hee.rest
        cases hx with
        | none n1 n2 =>
          intro hf
          rcases hf with hf | hf | hf | hf
          · rw [h.charNext 46 (by decide)] at hf; exact hc hf
          · rw [hr] at hf; exact n1 hf
          · rw [hr] at hf; exact n2 hf
          · rw [hr] at hf; exact h1 hf
      · left
        refine ⟨by rw [h2, if_neg hex], ?_, h1⟩
        have := FloatText.exp hds hne hex hx
        simpa using this
    · right; left
      subst e1
      refine ⟨h2, ?_⟩
      by_cases hex : ex = []
      · subst hex
        exact .int hds hne
      · have := ImagText.float (r := (scanExponent INT s).2.rest)
          (FloatText.exp hds hne hex (by simpa using hx))
        simpa using this

theorem quiet_if_error {s s' : Scanner} {c : Prop} [Decidable c] {o m} (h : Steps s s')
    (q : Quiet s (if c then s'.error o m else s')) : ¬ c := by
  intro hc
  rw [if_pos hc] at q
  exact not_quiet_error h o m q

theorem Eat.ite_error {s x s'} {c : Prop} [Decidable c] (h : Eat s x s') (o m) :
    Eat s x (if c then s'.error o m else s') := by
  split
  · exact h.error o m
  · exact h

theorem ite_error_rest {s' : Scanner} {c : Prop} [Decidable c] (o m) :
    (if c then s'.error o m else s').rest = s'.rest := by
  split <;> simp

theorem scanNumberBody_spec {s : Scanner} (h : Sync s) (hc : 48 ≤ s.ch ∧ s.ch ≤ 57) :
    ∃ x, Eat s x (scanNumberBody false s).2 ∧ ∀ ok : Bool,
      (ok = true → Quiet s (scanNumberBody false s).2) →
      NumText ok (scanNumberBody false s).1 x (scanNumberBody false s).2.rest := by
  unfold scanNumberBody
  simp only [Bool.false_eq_true, if_false]
  by_cases h48 : s.ch = 48
  · simp only [h48, if_true]
    have he0 := h.eatAscii 48 (by decide) h48
    by_cases hx : s.next.ch = 120 ∨ s.next.ch = 88
    · simp only [hx, if_true]
      obtain ⟨c, hcx, hec⟩ : ∃ c : UInt8, (c = 120 ∨ c = 88) ∧ Eat s.next [c] s.next.next := by
        rcases hx with hx | hx
        · exact ⟨120, .inl rfl, he0.sync.eatAscii 120 (by decide) hx⟩
        · exact ⟨88, .inr rfl, he0.sync.eatAscii 88 (by decide) hx⟩
      obtain ⟨ds, hed, hdd, hdn⟩ := mantissa_spec 16 (by omega) hec.sync
      have hall : Eat s (48 :: c :: ds) (scanMantissa 16 s.next.next) := by
        simpa using he0.trans (hec.trans hed)
      refine ⟨48 :: c :: ds, hall.ite_error _ _, ?_⟩
      intro ok hok
      left
      refine ⟨rfl, ?_⟩
      rw [ite_error_rest]
      refine .hex hcx (fun b hb => baseP_hex (hdd b hb)) ?_ ?_
      · intro hok'
        have := quiet_if_error hall.steps (hok hok')
        rw [hall.offset] at this
        intro e
        rw [e] at this
        simp at this
      · rw [hed.sync.hexNext]; exact hdn
    · simp only [hx, if_false]
      obtain ⟨os, heo, hoo, hon⟩ := mantissa_spec 8 (by omega) he0.sync
      obtain ⟨ds, hed, hdd, hdn, hds8⟩ : ∃ ds,
          Eat (scanMantissa 8 s.next) ds
            (if ((scanMantissa 8 s.next).ch == 56 || (scanMantissa 8 s.next).ch == 57) = true then
              scanMantissa 10 (scanMantissa 8 s.next) else scanMantissa 8 s.next) ∧
          (∀ b ∈ ds, IsDec b) ∧
          ¬ DecNext (if ((scanMantissa 8 s.next).ch == 56 || (scanMantissa 8 s.next).ch == 57) = true then
              scanMantissa 10 (scanMantissa 8 s.next) else scanMantissa 8 s.next).rest ∧
          (¬ ((scanMantissa 8 s.next).ch == 56 || (scanMantissa 8 s.next).ch == 57) = true → ds = []) := by
        by_cases h89 : ((scanMantissa 8 s.next).ch == 56 || (scanMantissa 8 s.next).ch == 57) = true
        · obtain ⟨ds, a, b, c⟩ := dec_mantissa heo.sync
          rw [if_pos h89]
          exact ⟨ds, a, b, c, fun h => absurd h89 h⟩
        · rw [if_neg h89]
          refine ⟨[], Eat.refl heo.sync, by simp, ?_, fun _ => rfl⟩
          rw [heo.sync.decNext]
          rw [digitVal_lt_oct] at hon
          simp only [Bool.or_eq_true, beq_iff_eq] at h89
          omega
      generalize hs3 : (if ((scanMantissa 8 s.next).ch == 56 || (scanMantissa 8 s.next).ch == 57) = true then
              scanMantissa 10 (scanMantissa 8 s.next) else scanMantissa 8 s.next) = s3 at hed hdn
      generalize hsd : ((scanMantissa 8 s.next).ch == 56 || (scanMantissa 8 s.next).ch == 57) = sd at hds8
      have hall : Eat s (48 :: (os ++ ds)) s3 := by simpa using he0.trans (heo.trans hed)
      have hosdec : ∀ b ∈ os ++ ds, IsDec b := by
        intro b hb
        rcases List.mem_append.mp hb with hb | hb
        · exact IsOct.dec (baseP_oct (hoo b hb))
        · exact hdd b hb
      by_cases hfr : s3.ch = 46 ∨ s3.ch = 101 ∨ s3.ch = 69 ∨ s3.ch = 105
      · simp only [hfr, if_true]
        obtain ⟨y, hey, hy⟩ := scanFraction_spec hed.sync (ds := 48 :: (os ++ ds)) (by
          intro b hb
          rcases List.mem_cons.mp hb with hb | hb
          · subst hb; exact ⟨by decide, by decide⟩
          · exact hosdec b hb) (by simp)
        refine ⟨_, hall.trans hey, ?_⟩
        intro ok hok
        rcases hy with ⟨a, b, c⟩ | ⟨a, b⟩ | ⟨a, b, c⟩
        · exact .inr (.inl ⟨a, b, c⟩)
        · exact .inr (.inr ⟨a, b⟩)
        · exact absurd (hed.sync.fracNext.mpr hfr) c
      · simp only [hfr, if_false]
        refine ⟨48 :: (os ++ ds), hall.ite_error _ _, ?_⟩
        intro ok hok
        left
        refine ⟨rfl, ?_⟩
        rw [ite_error_rest]
        refine .oct ?_ hdn (by rw [hed.sync.fracNext]; exact hfr) ?_
        · intro b hb
          cases ok with
          | false => simpa using hosdec b hb
          | true =>
            simp only [if_true]
            have := quiet_if_error hall.steps (hok rfl)
            rw [hds8 this] at hb
            simp only [List.append_nil] at hb
            exact baseP_oct (hoo b hb)
        · rintro ⟨e, hh⟩
          have e1 : os = [] := (List.append_eq_nil_iff.mp e).1
          have e2 : ds = [] := (List.append_eq_nil_iff.mp e).2
          subst e1 e2
          have hrr : s.next.rest = s3.rest := by
            have := (heo.trans hed).rest
            simpa using this
          rw [← hrr, he0.sync.charNext 120 (by decide), he0.sync.charNext 88 (by decide)] at hh
          exact hx hh
  · simp only [h48, if_false]
    obtain ⟨ds, hed, hdd, hdn⟩ := dec_mantissa h
    -- the first digit is consumed
    obtain ⟨b0, hb0, hr0⟩ := h.rest_ascii (by omega) (by omega)
    obtain ⟨d, ds', e, hd48⟩ : ∃ d ds', ds = d :: ds' ∧ d ≠ 48 := by
      cases ds with
      | nil =>
        exfalso
        apply hdn
        have : s.rest = (scanMantissa 10 s).rest := by simpa using hed.rest
        rw [← this, h.decNext]
        omega
      | cons d ds' =>
        refine ⟨d, ds', rfl, ?_⟩
        have := hed.rest
        rw [hr0] at this
        simp only [List.cons_append, List.cons.injEq] at this
        intro e
        rw [← this.1] at e
        rw [e] at hb0
        simp at hb0
        omega
    subst e
    obtain ⟨y, hey, hy⟩ := scanFraction_spec hed.sync hdd (by simp)
    refine ⟨_, hed.trans hey, ?_⟩
    intro ok hok
    rcases hy with ⟨a, b, c⟩ | ⟨a, b⟩ | ⟨a, b, c⟩
    · exact .inr (.inl ⟨a, b, c⟩)
    · exact .inr (.inr ⟨a, b⟩)
    · subst b
      left
      refine ⟨a, ?_⟩
      have hr : (scanMantissa 10 s).rest = (scanFraction INT (scanMantissa 10 s)).2.rest := by
        simpa using hey.rest
      rw [← hr]
      simp only [List.append_nil]
      exact .dec (hdd d (by simp)) hd48 (fun b hb => hdd b (by simp [hb])) hdn c

theorem scanNumber_spec {s : Scanner} (h : Sync s) (hc : 48 ≤ s.ch ∧ s.ch ≤ 57) :
    ∃ x, Eat s x (scanNumber false s).2.2 ∧ (scanNumber false s).2.1 = x ∧ ∀ ok : Bool,
      (ok = true → Quiet s (scanNumber false s).2.2) →
      NumText ok (scanNumber false s).1 x (scanNumber false s).2.2.rest := by
  obtain ⟨x, he, hx⟩ := scanNumberBody_spec h hc
  refine ⟨x, ?_, ?_, ?_⟩
  all_goals unfold scanNumber; simp only [Bool.false_eq_true, if_false, he.check]
  · exact he
  · exact he.slice
  · exact hx

/-- A number starting with '.', scanned from after the period. -/
theorem scanNumber_dot_spec {s0 s : Scanner} (h0 : Eat s0 [46] s) (hc : 48 ≤ s.ch ∧ s.ch ≤ 57) :
    ∃ x, Eat s0 x (scanNumber true s).2.2 ∧ (scanNumber true s).2.1 = x ∧ ∀ ok : Bool,
      NumText ok (scanNumber true s).1 x (scanNumber true s).2.2.rest := by
  have hoff : s.offsetM1 = s0.offset := by
    unfold offsetM1
    rw [h0.offset]
    simp
  obtain ⟨fs, hef, hfd, hfn⟩ := dec_mantissa h0.sync
  obtain ⟨ex, sfx, hee, hx, hk⟩ := scanExponent_spec FLOAT hef.sync
  have hall := h0.trans (hef.trans hee)
  have hfne : fs ≠ [] := by
    intro e
    subst e
    apply hfn
    have : s.rest = (scanMantissa 10 s).rest := by simpa using hef.rest
    rw [← this, h0.sync.decNext]
    exact hc
  refine ⟨[46] ++ (fs ++ (ex ++ sfx)), ?_, ?_, ?_⟩
  all_goals unfold scanNumber scanNumberBody; simp only [if_true, hoff, hall.check]
  · exact hall
  · exact hall.slice
  · intro ok
    have hr := hee.rest
    have hfn' : ¬ DecNext (ex ++ (sfx ++ (scanExponent FLOAT (scanMantissa 10 s)).2.rest)) := by
      rw [← List.append_assoc, ← hr]; exact hfn
    have hf := FloatText.frac (ds := []) (by simp) hfd (fun _ => hfne) hfn' hx
    rcases hk with ⟨e1, h1, h2⟩ | ⟨e1, h2⟩
    · right; left
      subst e1
      refine ⟨by rw [h2]; split <;> rfl, ?_, h1⟩
      simpa using hf
    · right; right
      subst e1
      refine ⟨h2, ?_⟩
      have := ImagText.float (r := (scanExponent FLOAT (scanMantissa 10 s)).2.rest) (by simpa using hf)
      simpa using this

end Scanner
end Tpl
