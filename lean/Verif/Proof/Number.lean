import Verif.Spec.Number
import Verif.Proof.Strconv
import Verif.Proof.Interp

/-! `strconv.ParseFloat` reads the value of a decimal number (C119). -/
namespace Tpl
open Tpl.Spec

theorem isDecDigit_iff (b : UInt8) : isDecDigit b = true ↔ IsDec b := by
  unfold isDecDigit IsDec
  simp only [Bool.and_eq_true, decide_eq_true_eq, UInt8.le_iff_toNat_le]
  exact Iff.rfl

theorem dec_digits {ds : Str} (h : ∀ b ∈ ds, IsDec b) : parseDigits 10 0 ds = some (numeral 10 ds) :=
  parseDigits_all (base := 10) (ds := ds) (fun b hb => ⟨digitVal_dec (h b hb), (decDigit (h b hb)).2⟩) 0

theorem dec_uint {ds : Str} (h : ∀ b ∈ ds, IsDec b) (hne : ds ≠ []) : parseUint 10 ds = some (numeral 10 ds) := by
  cases ds with
  | nil => exact absurd rfl hne
  | cons b ds => exact dec_digits h

/-- Not a digit, nor a point. -/
def NoDigit (x : Str) : Prop := ∀ b t, x = b :: t → ¬ IsDec b ∧ b ≠ 46

theorem span_digits {ds r : Str} (h : ∀ b ∈ ds, IsDec b) (hr : ∀ b t, r = b :: t → ¬ IsDec b) :
    (ds ++ r).takeWhile isDecDigit = ds ∧ (ds ++ r).dropWhile isDecDigit = r := by
  have h' : ∀ b ∈ ds, isDecDigit b = true := fun b hb => (isDecDigit_iff b).mpr (h b hb)
  rw [List.takeWhile_append_of_pos h', List.dropWhile_append_of_pos h']
  cases r with
  | nil => simp
  | cons b t =>
    have : isDecDigit b = false := by
      rw [Bool.eq_false_iff]
      exact fun c => hr b t rfl ((isDecDigit_iff b).mp c)
    simp [this]

theorem mantissa_whole {ds r : Str} (h : ∀ b ∈ ds, IsDec b) (hr : NoDigit r) : readMantissa (ds ++ r) = (ds, [], r) := by
  obtain ⟨h1, h2⟩ := span_digits h fun b t e => (hr b t e).1
  unfold readMantissa
  rw [h1, h2]
  split
  · exact absurd rfl (hr _ _ rfl).2
  · rfl

theorem mantissa_point {ds fs r : Str} (h : ∀ b ∈ ds, IsDec b) (hf : ∀ b ∈ fs, IsDec b) (hr : NoDigit r) :
    readMantissa (ds ++ 46 :: (fs ++ r)) = (ds, fs, r) := by
  obtain ⟨h1, h2⟩ := span_digits (r := 46 :: (fs ++ r)) h (by intro b t e; cases e; exact fun c => absurd c.1 (by decide))
  obtain ⟨h3, h4⟩ := span_digits hf fun b t e => (hr b t e).1
  unfold readMantissa
  rw [h1, h2]
  simp only [h3, h4]

theorem expValue_noDigit {ex : Str} {e : Int} (h : ExpValue ex e) : NoDigit ex := by
  have : ∀ c : UInt8, c = 101 ∨ c = 69 → ¬ IsDec c ∧ c ≠ 46 := by
    rintro c (rfl | rfl) <;> exact ⟨fun c => absurd c.2 (by decide), by decide⟩
  cases h with
  | none => intro b t e; cases e
  | plus h1 _ _ _ => intro b t e; cases e; exact this _ h1
  | minus h1 _ _ => intro b t e; cases e; exact this _ h1

theorem dec_head {ds : Str} (h : ∀ b ∈ ds, IsDec b) {b : UInt8} {t : Str} (e : ds = b :: t) : b ≠ 43 ∧ b ≠ 45 := by
  have := h b (by rw [e]; exact .head _)
  constructor
  · rintro rfl; exact absurd this.1 (by decide)
  · rintro rfl; exact absurd this.1 (by decide)

theorem readExp_value {ex : Str} {e : Int} (h : ExpValue ex e) : readExp ex = some e := by
  cases h with
  | none => rfl
  | @plus e sg ds h1 h2 h3 h4 =>
    unfold readExp
    dsimp only
    rw [if_pos h1]
    rcases h2 with rfl | rfl
    · rw [List.nil_append]
      split
      · exact absurd rfl (dec_head h3 rfl).1
      · exact absurd rfl (dec_head h3 rfl).2
      · rw [dec_uint h3 h4]; rfl
    · show (parseUint 10 ds).map Int.ofNat = _
      rw [dec_uint h3 h4]; rfl
  | @minus e ds h1 h2 h3 =>
    unfold readExp
    dsimp only
    rw [if_pos h1]
    show (parseUint 10 ds).map (fun n : Nat => -(n : Int)) = _
    rw [dec_uint h2 h3]; rfl

theorem numeral_append (ds fs : Str) : numeral 10 (ds ++ fs) = numeral 10 ds * 10 ^ fs.length + numeral 10 fs := by
  unfold numeral
  rw [List.foldl_append]
  generalize ds.foldl (fun x d => x * 10 + digit d) 0 = a
  have : ∀ (fs : Str) (a b : Nat), fs.foldl (fun x d => x * 10 + digit d) (a + b) = a * 10 ^ fs.length + fs.foldl (fun x d => x * 10 + digit d) b := by
    intro fs
    induction fs with
    | nil => intro a b; simp
    | cons f fs ih =>
      intro a b
      rw [List.foldl_cons, List.foldl_cons, show (a + b) * 10 + digit f = a * 10 + (b * 10 + digit f) by omega, ih, List.length_cons, Nat.pow_succ]
      congr 1
      rw [Nat.mul_assoc, Nat.mul_comm 10]
  have := this fs a 0
  simpa using this

theorem ten_ne : (10 : Rat) ≠ 0 := by decide

theorem ten_pow_ne (n : Nat) : (10 : Rat) ^ n ≠ 0 := by
  intro h
  have : ((10 ^ n : Nat) : Rat) = 0 := by rw [Rat.natCast_pow]; exact h
  have h2 : (10 ^ n : Nat) = 0 := by exact_mod_cast this
  exact absurd h2 (by have := Nat.pow_pos (n := n) (show 0 < 10 by decide); omega)

theorem point_value (a b n : Nat) (e : Int) :
    ((a * 10 ^ n + b : Nat) : Rat) * 10 ^ (e - (n : Int)) = (a + b / 10 ^ n) * 10 ^ e := by
  rw [Int.sub_eq_add_neg, Rat.zpow_add ten_ne, Rat.zpow_neg, Rat.zpow_natCast, Rat.natCast_add, Rat.natCast_mul, Rat.natCast_pow]
  have h := ten_pow_ne n
  have h' := Rat.mul_inv_cancel _ h
  have e10 : ((10 : Nat) : Rat) = 10 := rfl
  rw [e10]
  generalize (10 : Rat) ^ n = t at h h'
  generalize (10 : Rat) ^ e = s
  rw [Rat.div_def]
  grind

theorem readSign_none {x : Str} (h1 : ∀ t, x ≠ 43 :: t) (h2 : ∀ t, x ≠ 45 :: t) : readSign x = (false, x) := by
  unfold readSign
  split
  · exact absurd rfl (h1 _)
  · exact absurd rfl (h2 _)
  · rfl

/-- The value is what is read. -/
theorem readFloat_value {x : Str} {v : Rat} (h : DecimalValue x v) : readFloat x = some v := by
  have core : ∀ (x ds fs ex : Str) (e : Int), readMantissa x = (ds, fs, ex) → (∀ b ∈ ds, IsDec b) → (∀ b ∈ fs, IsDec b) → ds ++ fs ≠ [] → ExpValue ex e →
      (∀ t, x ≠ 43 :: t) → (∀ t, x ≠ 45 :: t) → readFloat x = some ((numeral 10 (ds ++ fs) : Rat) * 10 ^ (e - (fs.length : Int))) := by
    intro x ds fs ex e hm hd hf hne he h1 h2
    unfold readFloat
    rw [readSign_none h1 h2]
    dsimp only
    rw [hm]
    dsimp only
    rw [if_neg hne, dec_digits fun b hb => (List.mem_append.mp hb).elim (hd b) (hf b), readExp_value he]
    rfl
  cases h with
  | @whole ds ex e hd hne he =>
    have hh : ∀ c t, ds ++ ex = c :: t → c ≠ 43 ∧ c ≠ 45 := by
      intro c t h
      cases ds with
      | nil => exact absurd rfl hne
      | cons b ds => cases h; exact dec_head hd rfl
    rw [core _ ds [] ex e (mantissa_whole hd (expValue_noDigit he)) hd (by simp) (by simpa using hne) he (fun t h => (hh _ t h).1 rfl) (fun t h => (hh _ t h).2 rfl)]
    simp
  | @point ds fs ex e hd hf hne he =>
    have hh : ∀ c t, ds ++ 46 :: (fs ++ ex) = c :: t → c ≠ 43 ∧ c ≠ 45 := by
      intro c t h
      cases ds with
      | nil => cases h; decide
      | cons b ds => cases h; exact dec_head hd rfl
    rw [core _ ds fs ex e (mantissa_point hd hf (expValue_noDigit he)) hd hf hne he (fun t h => (hh _ t h).1 rfl) (fun t h => (hh _ t h).2 rfl)]
    rw [numeral_append, point_value]

theorem decimalValue_unique {x : Str} {v v' : Rat} (h : DecimalValue x v) (h' : DecimalValue x v') : v = v' := by
  have := readFloat_value h
  rw [readFloat_value h'] at this
  exact (Option.some.inj this).symm

/-- Nothing is read where the exponent has no digits. -/
theorem readFloat_bare {x : Str} (h : BareExponent x) : readFloat x = none := by
  obtain ⟨y, e, sg, rfl, hy, he, hs⟩ := h
  have hexp : readExp (e :: sg) = none := by
    unfold readExp
    dsimp only
    rw [if_pos he]
    rcases hs with rfl | rfl | rfl <;> rfl
  have hrest : ∀ (r : Str), (∀ b ∈ r, IsDec b ∨ b = 46) → ∀ s : Str, s = r ++ e :: sg → s = e :: sg ∨ (∃ b t, s = b :: t ∧ (IsDec b ∨ b = 46)) := by
    intro r hr s hs
    cases r with
    | nil => exact .inl hs
    | cons b r => exact .inr ⟨b, _, hs, hr b (.head _)⟩
  have hdrop : ∀ (y : Str), (∀ b ∈ y, IsDec b ∨ b = 46) → ∃ r, (∀ b ∈ r, IsDec b ∨ b = 46) ∧ (y ++ e :: sg).dropWhile isDecDigit = r ++ e :: sg := by
    intro y
    induction y with
    | nil =>
      intro _
      refine ⟨[], by simp, ?_⟩
      have : isDecDigit e = false := by rcases he with rfl | rfl <;> decide
      simp [this]
    | cons b y ih =>
      intro hy
      rw [List.cons_append, List.dropWhile_cons]
      split
      · exact ih fun b hb => hy b (.tail _ hb)
      · exact ⟨b :: y, hy, rfl⟩
  have hbad : ∀ r : Str, (∀ b ∈ r, IsDec b ∨ b = 46) → readExp (r ++ e :: sg) = none := by
    intro r hr
    cases r with
    | nil => exact hexp
    | cons b r =>
      unfold readExp
      have := hr b (.head _)
      rw [List.cons_append]
      dsimp only
      rw [if_neg]
      rintro (rfl | rfl) <;> rcases this with h | h
      · exact absurd h.2 (by decide)
      · cases h
      · exact absurd h.2 (by decide)
      · cases h
  have hm : ∃ ds fs r, readMantissa (y ++ e :: sg) = (ds, fs, r) ∧ readExp r = none := by
    unfold readMantissa
    obtain ⟨r, hr, e1⟩ := hdrop y hy
    rw [e1]
    split
    · rename_i r' e2
      cases r with
      | nil => rcases he with rfl | rfl <;> cases e2
      | cons b r =>
        cases e2
        obtain ⟨r2, hr2, e3⟩ := hdrop r fun b hb => hr b (.tail _ hb)
        exact ⟨_, _, _, rfl, (congrArg readExp e3).trans (hbad _ hr2)⟩
    · exact ⟨_, _, _, rfl, hbad _ hr⟩
  obtain ⟨ds, fs, r, hm, hr⟩ := hm
  have hsign : readSign (y ++ e :: sg) = (false, y ++ e :: sg) := by
    have : ∀ c t, y ++ e :: sg = c :: t → c ≠ 43 ∧ c ≠ 45 := by
      intro c t h
      cases y with
      | nil => cases h; rcases he with rfl | rfl <;> decide
      | cons b y =>
        cases h
        rcases hy _ (.head _) with h | h
        · exact dec_head (ds := [c]) (by simpa using h) rfl
        · rw [h]; decide
    exact readSign_none (fun t h => (this _ t h).1 rfl) fun t h => (this _ t h).2 rfl
  unfold readFloat
  rw [hsign]
  dsimp only
  rw [hm]
  dsimp only
  rw [hr]
  split
  · rfl
  · split
    · rename_i h; cases h
    · rfl

/-- What the scanner takes for a floating point number. -/
theorem floatText_value {x r : Str} (h : FloatText x r) : (∃ v, DecimalValue x v) ∨ BareExponent x := by
  have hex : ∀ {ex r}, ExpText ex r → (∃ e, ExpValue ex e) ∨ ∃ e sg, ex = e :: sg ∧ (e = 101 ∨ e = 69) ∧ (sg = [] ∨ sg = [43] ∨ sg = [45]) := by
    intro ex r h
    cases h with
    | none => exact .inl ⟨_, .none⟩
    | @some e sg ds _ h1 h2 h3 _ _ =>
      by_cases hd : ds = []
      · subst hd
        rw [List.append_nil]
        exact .inr ⟨e, sg, rfl, h1, by rcases h2 with rfl | rfl | rfl <;> simp⟩
      · rcases h2 with rfl | rfl | rfl
        · exact .inl ⟨_, .plus (sg := []) h1 (.inl rfl) h3 hd⟩
        · exact .inl ⟨_, .minus h1 h3 hd⟩
        · exact .inl ⟨_, .plus (sg := [43]) h1 (.inr rfl) h3 hd⟩
  cases h with
  | @frac ds fs ex _ hd hf hne _ he =>
    rcases hex he with ⟨e, he⟩ | ⟨e, sg, rfl, h1, h2⟩
    · refine .inl ⟨_, .point hd hf ?_ he⟩
      intro c
      obtain ⟨rfl, rfl⟩ := List.append_eq_nil_iff.mp c
      exact hne rfl rfl
    · refine .inr ⟨ds ++ 46 :: fs, e, sg, by simp, ?_, h1, h2⟩
      intro b hb
      rcases List.mem_append.mp hb with hb | hb
      · exact .inl (hd b hb)
      · cases hb with
        | head => exact .inr rfl
        | tail _ hb => exact .inl (hf b hb)
  | @exp ds ex _ hd hne hx he =>
    rcases hex he with ⟨e, he⟩ | ⟨e, sg, rfl, h1, h2⟩
    · exact .inl ⟨_, .whole hd hne he⟩
    · exact .inr ⟨ds, e, sg, rfl, fun b hb => .inl (hd b hb), h1, h2⟩

variable {F : Type}

/-- `strconv.ParseInt` refuses what has no sign and another character than digits. -/
theorem strconvInt_refuses {base : Nat} {ds : Str} {b : UInt8} (hb : b ∈ ds) (h : ∀ d, digitVal b = some d → base ≤ d)
    (h1 : ∀ t, ds ≠ 43 :: t) (h2 : ∀ t, ds ≠ 45 :: t) : strconvInt ds base = .error .syntax_ := by
  have hp : parseUint base ds = none := by
    cases ds with
    | nil => rfl
    | cons a ds => exact parseDigits_bad hb h 0
  unfold strconvInt
  split
  · exact absurd rfl (h2 _)
  · exact absurd rfl (h1 _)
  · rw [hp]

/-- What `ParseFloat` makes of a text that is not an integer. -/
def Floats.result (D : Floats F) (x : Str) : Except LitErr F :=
  match D.parse x with
  | some v => .ok v
  | none => .error .float

/-- A floating point number is digits, points and letters `e`, and has a character that is no digit. -/
theorem floatText_chars {x r : Str} (h : FloatText x r) :
    ∃ a t, x = a :: t ∧ (IsDec a ∨ a = 46) ∧ ∃ y c z, x = y ++ c :: z ∧ (∀ b ∈ y, IsDec b) ∧ (c = 46 ∨ c = 101 ∨ c = 69) := by
  cases h with
  | @frac ds fs ex _ hd hf hne _ he =>
    cases ds with
    | nil => exact ⟨46, _, rfl, .inr rfl, [], 46, _, rfl, by simp, .inl rfl⟩
    | cons a ds => exact ⟨a, _, rfl, .inl (hd _ (.head _)), a :: ds, 46, _, rfl, hd, .inl rfl⟩
  | @exp ds ex _ hd hne hx he =>
    cases ds with
    | nil => exact absurd rfl hne
    | cons a ds =>
      refine ⟨a, _, rfl, .inl (hd _ (.head _)), a :: ds, ?_⟩
      cases he with
      | none => exact absurd rfl hx
      | some h1 _ _ _ _ => exact ⟨_, _, rfl, hd, .inr h1⟩

theorem parseFloat_other (D : Floats F) {a : UInt8} {x : Str} (h : a ≠ 48) : ParseFloat D.lits (a :: x) = .ok (D.result (a :: x)) := by
  have : D.result (a :: x) = match D.lits.parse (a :: x) with | some x => Except.ok x | none => .error LitErr.float := rfl
  rw [this]
  generalize hr : a :: x = y
  unfold ParseFloat
  cases D.lits.parse y <;> dsimp only <;> split <;> first | rfl | (cases hr; done) | (cases hr; exact absurd rfl h)

theorem parseFloat_hex (D : Floats F) {c : UInt8} {ds : Str} (h : c = 120 ∨ c = 88) :
    ParseFloat D.lits (48 :: c :: ds) = .ok (match strconvInt ds 16 with
      | .ok v => .ok (D.ofInt v)
      | .error e => .error (.num e)) := by
  show (if c = 120 ∨ c = 88 then _ else _) = _
  rw [if_pos h]
  rfl

theorem parseFloat_oct (D : Floats F) {c : UInt8} {ds : Str} (h : ¬ (c = 120 ∨ c = 88)) :
    ParseFloat D.lits (48 :: c :: ds) = .ok (match strconvInt (c :: ds) 8 with
      | .ok v => .ok (D.ofInt v)
      | .error _ => D.result (48 :: c :: ds)) := by
  show (if c = 120 ∨ c = 88 then _ else _) = _
  rw [if_neg h]
  cases strconvInt (c :: ds) 8 <;> rfl

theorem parseFloat_float (D : Floats F) {x r : Str} (h : FloatText x r) : ParseFloat D.lits x = .ok (D.result x) := by
  obtain ⟨a, t, e1, ha, y, c, z, e2, hy, hc⟩ := floatText_chars h
  subst e1
  by_cases h48 : a = 48
  · subst h48
    cases t with
    | nil =>
      exfalso
      cases y with
      | nil => cases e2; rcases hc with h | h | h <;> exact absurd h (by decide)
      | cons b y => injection e2 with _ h3; cases y <;> cases h3
    | cons c' ds =>
      have hx' : ∃ y', c' :: ds = y' ++ c :: z ∧ ∀ b ∈ y', IsDec b := by
        cases y with
        | nil => cases e2; rcases hc with h | h | h <;> exact absurd h (by decide)
        | cons b y => injection e2 with _ e2; exact ⟨y, e2, fun b hb => hy b (.tail _ hb)⟩
      obtain ⟨y', e3, hy'⟩ := hx'
      have hcx : IsDec c' ∨ c' = 46 ∨ c' = 101 ∨ c' = 69 := by
        cases y' with
        | nil => cases e3; exact .inr hc
        | cons b y' => cases e3; exact .inl (hy' _ (.head _))
      have hn : ¬ (c' = 120 ∨ c' = 88) := by
        rintro (rfl | rfl) <;> rcases hcx with h | h | h | h <;> first | exact absurd h.2 (by decide) | cases h
      rw [parseFloat_oct D hn]
      have : strconvInt (c' :: ds) 8 = .error .syntax_ := by
        refine strconvInt_refuses (b := c) (by rw [e3]; simp) ?_ ?_ ?_
        · rcases hc with rfl | rfl | rfl <;> · intro d h; first | cases h; done | (cases h; decide)
        · rintro t h
          cases h
          rcases hcx with h | h | h | h
          · exact absurd h.1 (by decide)
          all_goals cases h
        · rintro t h
          cases h
          rcases hcx with h | h | h | h
          · exact absurd h.1 (by decide)
          all_goals cases h
      rw [this]
  · exact parseFloat_other D h48

theorem decimal_parse (D : Floats F) {x : Str} (h : ∀ b ∈ x, IsDec b) (hne : x ≠ []) : D.parse x = D.nearest (numeral 10 x) := by
  have := readFloat_value (.whole h hne .none)
  rw [List.append_nil] at this
  unfold Floats.parse
  rw [this]
  show D.nearest _ = _
  congr 1
  simp

/-- Rounded, or an error if the number is too large. -/
def Floats.round (D : Floats F) (v : Rat) : Except LitErr F :=
  match D.nearest v with
  | some x => .ok x
  | none => .error .float

/-- What `ParseFloat` makes of an integer. -/
theorem parseFloat_int (D : Floats F) {x : Str} {n : Nat} (h : IntValue x n) :
    (x.head? ≠ some 48 ∨ n < 2 ^ 63 → ParseFloat D.lits x = .ok (D.round n)) ∧
    (x.head? = some 48 → ¬ n < 2 ^ 63 → (∀ b ∈ x, IsDec b) → ParseFloat D.lits x = .ok (D.round (numeral 10 x))) ∧
    (¬ n < 2 ^ 63 → (¬ ∀ b ∈ x, IsDec b) → ParseFloat D.lits x = .ok (.error (.num .range))) := by
  have near : ∀ m : Nat, m < 2 ^ 63 → D.round m = .ok (D.ofInt m) := by
    intro m hm
    have := D.nearest_int m (by omega) (by omega)
    unfold Floats.round
    rw [show ((m : Nat) : Rat) = ((m : Int) : Rat) from rfl, this]
  have res : ∀ {y : Str}, (∀ b ∈ y, IsDec b) → y ≠ [] → D.result y = D.round (numeral 10 y) := by
    intro y hy hne
    unfold Floats.result
    rw [decimal_parse D hy hne]
    rfl
  cases h with
  | @dec d ds h1 h2 h3 =>
    have hall : ∀ b ∈ d :: ds, IsDec b := fun b hb => (List.mem_cons.1 hb).elim (fun e => e ▸ h1) (h3 b)
    refine ⟨fun _ => ?_, fun h => absurd (Option.some.inj h) h2, fun _ h => absurd hall h⟩
    rw [parseFloat_other D h2, res hall (by simp)]
  | @oct ds h1 =>
    have hall : ∀ b ∈ (48 : UInt8) :: ds, IsDec b := fun b hb =>
      (List.mem_cons.1 hb).elim (fun e => e ▸ ⟨by decide, by decide⟩) (fun hb => by have := h1 b hb; unfold IsOct at this; unfold IsDec; omega)
    cases ds with
    | nil => exact ⟨fun _ => by rw [near _ (by decide)]; rfl, fun _ h => absurd (by decide) h, fun _ h => absurd hall h⟩
    | cons c ds =>
      have hc := h1 c (.head _)
      have hn : ¬ (c = 120 ∨ c = 88) := by rintro (rfl | rfl) <;> exact absurd hc.2 (by decide)
      have hsi := strconvInt_numeral (base := 8) (ds := c :: ds) (by simp) fun b hb => ⟨(h1 b hb).1, by
        have hb' := h1 b hb
        have hd : IsDec b := by unfold IsOct at hb'; unfold IsDec; omega
        refine ⟨digitVal_dec hd, ?_⟩
        unfold IsOct at hb'
        unfold digit
        rw [if_pos (by omega)]
        omega⟩
      rw [parseFloat_oct D hn, hsi]
      refine ⟨fun h => ?_, fun _ h _ => ?_, fun _ h => absurd hall h⟩
      · have hlt := h.resolve_left fun h => h rfl
        rw [if_pos hlt, near _ hlt]
      · rw [if_neg h, ← res hall (by simp)]
  | @hex y ds h1 h2 h3 =>
    have hnd : ¬ ∀ b ∈ (48 : UInt8) :: y :: ds, IsDec b := by
      intro c
      have := c y (by simp)
      rcases h1 with rfl | rfl <;> exact absurd this.2 (by decide)
    have hx := strconvInt_numeral (base := 16) h3 fun b hb => ⟨by have := h2 b hb; unfold IsHex at this; omega, digitVal_hex (h2 b hb), by
      have := h2 b hb
      unfold IsHex at this
      unfold digit
      split
      · omega
      · split <;> omega⟩
    rw [parseFloat_hex D h1, hx]
    refine ⟨fun h => ?_, fun _ _ h => absurd h hnd, fun h _ => ?_⟩
    · have hlt := h.resolve_left fun h => h rfl
      rw [if_pos hlt, near _ hlt]
    · rw [if_neg h]

/-- ... and `strconv.ParseFloat`, which does not know other than decimal integers. -/
theorem parse_int (D : Floats F) {x : Str} {n : Nat} (h : IntValue x n) :
    ((∀ b ∈ x, IsDec b) → D.parse x = D.nearest (numeral 10 x)) ∧ ((¬ ∀ b ∈ x, IsDec b) → D.parse x = none) ∧
    (x.head? ≠ some 48 ∨ x = [48] → (∀ b ∈ x, IsDec b) ∧ numeral 10 x = n) := by
  refine ⟨fun h1 => decimal_parse D h1 (by intro c; subst c; cases h), fun h1 => ?_, fun h1 => ?_⟩
  · cases h with
    | dec a _ c => exact absurd (fun b hb => (List.mem_cons.1 hb).elim (fun e => e ▸ a) (c b)) h1
    | oct a =>
      refine absurd (fun b hb => (List.mem_cons.1 hb).elim (fun e => e ▸ ⟨by decide, by decide⟩) fun hb => ?_) h1
      have := a b hb
      unfold IsOct at this
      unfold IsDec
      omega
    | @hex y ds a b c =>
      have : readFloat (48 :: y :: ds) = none := by
        have hm := mantissa_whole (ds := [48]) (r := y :: ds) (by simp [IsDec]) (by
          intro b t e
          cases e
          rcases a with rfl | rfl <;> exact ⟨fun c => absurd c.2 (by decide), by decide⟩)
        unfold readFloat
        rw [show readSign (48 :: y :: ds) = (false, [48] ++ y :: ds) from rfl]
        dsimp only
        rw [hm]
        have he : readExp (y :: ds) = none := by
          unfold readExp
          dsimp only
          rw [if_neg]
          rcases a with rfl | rfl <;> decide
        dsimp only
        rw [he]
        rfl
      unfold Floats.parse
      rw [this]
      rfl
  · cases h with
    | dec a _ c => exact ⟨fun b hb => (List.mem_cons.1 hb).elim (fun e => e ▸ a) (c b), rfl⟩
    | oct a =>
      rcases h1 with h | h
      · exact absurd rfl h
      · cases h; exact ⟨by simp [IsDec], rfl⟩
    | hex _ _ _ =>
      rcases h1 with h | h
      · exact absurd rfl h
      · cases h

end Tpl
