import Verif.Proof.Builtin

/-
Properties of the operators and builtin functions of qlang (C63-C65, C72, C73).
-/
namespace Tpl.Props
open Tpl Tpl.Spec Tpl.Qlang
variable {F : Type}

/-! ### C63: integer arithmetic -/

/-- `+ - *`, negation, `++` and `--` give the exact result reduced to 64 bits. -/
theorem C63_wraps (M : Fl F) (a b : Int) :
    (∃ r, Qlang.Add M (.int a) (.int b) = .ok (.int r) ∧ Reduced (a + b) r) ∧
    (∃ r, Qlang.Sub M (.int a) (.int b) = .ok (.int r) ∧ Reduced (a - b) r) ∧
    (∃ r, Qlang.Mul M (.int a) (.int b) = .ok (.int r) ∧ Reduced (a * b) r) ∧
    (∃ r, Qlang.Neg M (.int a) = .ok (.int r) ∧ Reduced (-a) r) ∧
    (∃ r, Inc (.int a : QVal F) = .ok (.int r) ∧ Reduced (a + 1) r) ∧
    (∃ r, Dec (.int a : QVal F) = .ok (.int r) ∧ Reduced (a - 1) r) :=
  ⟨⟨_, rfl, wrap_reduced _⟩, ⟨_, rfl, wrap_reduced _⟩, ⟨_, rfl, wrap_reduced _⟩, ⟨_, rfl, wrap_reduced _⟩,
    ⟨_, rfl, wrap_reduced _⟩, ⟨_, rfl, wrap_reduced _⟩⟩

/-- Without overflow the results are exact. -/
theorem C63_exact (M : Fl F) (a b : Int) :
    (Is64 (a + b) → Qlang.Add M (.int a) (.int b) = .ok (.int (a + b))) ∧
    (Is64 (a - b) → Qlang.Sub M (.int a) (.int b) = .ok (.int (a - b))) ∧
    (Is64 (a * b) → Qlang.Mul M (.int a) (.int b) = .ok (.int (a * b))) ∧
    (Is64 (-a) → Qlang.Neg M (.int a) = .ok (.int (-a))) := by
  refine ⟨fun h => ?_, fun h => ?_, fun h => ?_, fun h => ?_⟩
  · rw [Qlang.Add, wrap_self h]
  · rw [Qlang.Sub, wrap_self h]
  · rw [Qlang.Mul, wrap_self h]
  · rw [Qlang.Neg, wrap_self h]

/-- There is only one reduced result. -/
theorem C63_unique {x r r' : Int} (h : Reduced x r) (h' : Reduced x r') : r = r' := reduced_unique h h'

example : Qlang.Add (F := Unit) ⟨⟨fun _ => (), fun _ => ()⟩, id, fun _ _ => (), fun _ _ => (), fun _ _ => (), fun _ _ => (),
    fun _ _ => false, fun _ _ => false, fun _ _ => false, fun _ => 0, fun _ => 0, fun _ n => n, fun _ _ => false⟩
    (.int (2 ^ 63 - 1)) (.int 1) = .ok (.int (-2 ^ 63)) := by rfl

/-- `/` truncates and `%` takes the sign of the dividend; the one quotient that does not fit
wraps. -/
theorem C63_division (M : Fl F) {a b : Int} (ha : Is64 a) (hb : b ≠ 0) :
    ∃ q m, Quo M (.int a) (.int b) = .ok (.int q) ∧ Qlang.Mod (.int a) (.int b : QVal F) = .ok (.int m) ∧ Is64 q ∧ Is64 m ∧
      (¬ (a = -2 ^ 63 ∧ b = -1) → Truncated a b q m) ∧
      (a = -2 ^ 63 ∧ b = -1 → q = -2 ^ 63 ∧ m = 0) := by
  refine ⟨wrap (a.tdiv b), wrap (a.tmod b), ?_, ?_, (wrap_reduced _).1, (wrap_reduced _).1, ?_, ?_⟩
  · rw [Quo, if_neg hb]
  · rw [Qlang.Mod, if_neg hb]
  · intro h
    rw [wrap_self (is64_tdiv ha hb h), wrap_self (is64_tmod ha hb)]
    exact truncated_div a b hb
  · rintro ⟨rfl, rfl⟩
    decide

/-- The identity `a == (a/b)*b + a%b` of the evaluated operators, with wrapping. -/
theorem C63_identity (M : Fl F) {a b : Int} (ha : Is64 a) (hb : b ≠ 0) :
    ∃ q m p, Quo M (.int a) (.int b) = .ok (.int q) ∧ Qlang.Mod (.int a) (.int b : QVal F) = .ok (.int m) ∧
      Qlang.Mul M (.int q) (.int b) = .ok (.int p) ∧ Qlang.Add M (.int p) (.int m) = .ok (.int a) := by
  obtain ⟨q, m, h1, h2, h3, h4, h5, h6⟩ := C63_division M ha hb
  refine ⟨q, m, wrap (q * b), h1, h2, rfl, ?_⟩
  rw [Qlang.Add]
  by_cases h : a = -2 ^ 63 ∧ b = -1
  · obtain ⟨rfl, rfl⟩ := h6 h
    obtain ⟨rfl, rfl⟩ := h
    rfl
  · have t := (h5 h).eq
    congr 2
    refine reduced_unique (wrap_reduced _) ⟨ha, ?_⟩
    obtain ⟨_, k, hk⟩ := wrap_reduced (q * b)
    refine ⟨-k, ?_⟩
    rw [hk]
    omega

/-- Dividing an int by the int zero panics. -/
theorem C63_zero (M : Fl F) (a : Int) :
    Quo M (.int a) (.int 0) = .error (failErr .divide) ∧ Qlang.Mod (.int a) (.int 0 : QVal F) = .error (failErr .divide) := ⟨rfl, rfl⟩

/-- An operator gives a value exactly for the operand types it is defined for, except that
integers are not divided by zero.  Otherwise it panics. -/
theorem C63_types (M : Fl F) (op : Op2) (a b : QVal F) :
    (∃ v, op.apply M a b = .ok v) ↔
      op.defined a b ∧ ¬ ((op = .quo ∨ op = .mod) ∧ (∃ n, a = .int n) ∧ b = .int 0) := by
  have num : ∀ v : QVal F, IsNum v ↔ (∃ n, v = .int n) ∨ ∃ x, v = .float x := by
    intro v
    constructor
    · rintro (n | x)
      · exact .inl ⟨_, rfl⟩
      · exact .inr ⟨_, rfl⟩
    · rintro (⟨n, rfl⟩ | ⟨x, rfl⟩)
      · exact .int n
      · exact .float x
  have st : ∀ v : QVal F, IsStr v ↔ ∃ s, v = .str s := by
    intro v
    constructor
    · rintro ⟨s⟩; exact ⟨s, rfl⟩
    · rintro ⟨s, rfl⟩; exact .str s
  cases op <;> simp only [Op2.apply, Op2.defined, num, st]
  case add => cases a <;> cases b <;> simp [Qlang.Add, unsupported]
  case sub => cases a <;> cases b <;> simp [Qlang.Sub, unsupported]
  case mul => cases a <;> cases b <;> simp [Qlang.Mul, unsupported]
  case quo =>
    cases a <;> cases b <;> simp [Quo, unsupported]
    rename_i n
    by_cases h : n = 0 <;> simp [h]
  case mod =>
    cases a <;> cases b <;> simp [Qlang.Mod, unsupported]
    rename_i n
    by_cases h : n = 0 <;> simp [h]

/-- An int and a float: both as floats. -/
theorem C63_mixed (M : Fl F) {a b : QVal F} (ha : IsNum a) (hb : IsNum b) (h : (∃ x, a = .float x) ∨ ∃ x, b = .float x) :
    Qlang.Add M a b = .ok (.float (M.add (toFloat M a) (toFloat M b))) ∧
    Qlang.Sub M a b = .ok (.float (M.sub (toFloat M a) (toFloat M b))) ∧
    Qlang.Mul M a b = .ok (.float (M.mul (toFloat M a) (toFloat M b))) ∧
    Quo M a b = .ok (.float (M.quo (toFloat M a) (toFloat M b))) := by
  cases ha <;> cases hb <;> first | exact ⟨rfl, rfl, rfl, rfl⟩ | simp at h

/-- Bytes count modulo 256, and `++` undoes `--`. -/
theorem C63_bytes (b : UInt8) :
    (∃ r, Inc (.byte b : QVal F) = .ok (.byte r) ∧ r.toNat = (b.toNat + 1) % 256 ∧ Dec (.byte r : QVal F) = .ok (.byte b)) ∧
    ∃ r, Dec (.byte b : QVal F) = .ok (.byte r) ∧ r.toNat = (b.toNat + 255) % 256 ∧ Inc (.byte r : QVal F) = .ok (.byte b) := by
  refine ⟨⟨b + 1, rfl, ?_, ?_⟩, b - 1, rfl, ?_, ?_⟩
  · simp [UInt8.toNat_add]
  · rw [Dec]; congr 2; exact UInt8.add_sub_cancel ..
  · rw [UInt8.toNat_sub]
    have := b.toNat_lt
    simp
    omega
  · rw [Inc]; congr 2; exact UInt8.sub_add_cancel ..

/-! ### C64: comparisons -/

/-- Exactly one of three. -/
def One (a b c : Bool) : Prop := (a = true ∧ b = false ∧ c = false) ∨ (a = false ∧ b = true ∧ c = false) ∨ (a = false ∧ b = false ∧ c = true)

/-- The comparisons of `a` with `b` all give a boolean, and fit together. -/
def Consistent (M : Fl F) (a b : QVal F) : Prop :=
  ∃ lt eq gt, Qlang.LT M a b = .ok (.bool lt) ∧ Qlang.EQ M a b = .ok (.bool eq) ∧ Qlang.GT M a b = .ok (.bool gt) ∧ One lt eq gt ∧
    Qlang.LE M a b = .ok (.bool (lt || eq)) ∧ Qlang.GE M a b = .ok (.bool (gt || eq)) ∧ Qlang.NE M a b = .ok (.bool (!eq))

/-- Violated between an int and a byte: they are compared as numbers by `<` and `>`, but are
never equal. -/
theorem C64_violated (M : Fl F) :
    ¬ Consistent M (.int 1) (.byte 1) ∧
    Qlang.LT M (.int 1) (.byte 1) = .ok (.bool false) ∧ Qlang.GT M (.int 1) (.byte 1) = .ok (.bool false) ∧
    Qlang.EQ M (.int 1) (.byte 1) = .ok (.bool false) ∧ Qlang.LE M (.int 1) (.byte 1) = .ok (.bool true) := by
  have h1 : Qlang.LT M (.int 1) (.byte 1) = .ok (.bool false) := rfl
  have h2 : Qlang.GT M (.int 1) (.byte 1) = .ok (.bool false) := rfl
  have h3 : Qlang.EQ M (.int 1) (.byte 1) = .ok (.bool false) := rfl
  refine ⟨?_, h1, h2, h3, rfl⟩
  rintro ⟨lt, eq, gt, g1, g2, g3, h, -⟩
  rw [h1] at g1; rw [h3] at g2; rw [h2] at g3
  cases g1; cases g2; cases g3
  rcases h with h | h | h
  · cases h.1
  · cases h.2.1
  · cases h.2.2

/-- Two ints, two bytes, two strings. -/
theorem C64_ints_partial (M : Fl F) (a b : Int) : Consistent M (.int a) (.int b) ∧
    (Qlang.LT M (.int a) (.int b) = .ok (.bool true) ↔ a < b) ∧ (Qlang.EQ M (.int a) (.int b) = .ok (.bool true) ↔ a = b) := by
  refine ⟨⟨decide (a < b), decide (a = b), decide (a > b), rfl, ?_, rfl, ?_, ?_, ?_, ?_⟩, ?_, ?_⟩
  · simp [Qlang.EQ, QVal.eq]
    by_cases h : a = b <;> simp [h]
  · unfold One
    rcases Int.lt_trichotomy a b with h | h | h
    · left; simp; omega
    · right; left; simp [h]
    · right; right; simp; omega
  · simp only [Qlang.LE, widen, compareBy, Except.ok.injEq, QVal.bool.injEq]
    rw [Bool.eq_iff_iff]; simp; omega
  · simp only [Qlang.GE, widen, compareBy, Except.ok.injEq, QVal.bool.injEq]
    rw [Bool.eq_iff_iff]; simp; omega
  · simp only [Qlang.NE, QVal.eq, Except.ok.injEq, QVal.bool.injEq]
    rw [Bool.eq_iff_iff]; simp
  · simp [Qlang.LT, widen, compareBy]
  · simp [Qlang.EQ, QVal.eq]

theorem C64_bytes_partial (M : Fl F) (a b : UInt8) : Consistent M (.byte a) (.byte b) ∧
    (Qlang.LT M (.byte a) (.byte b) = .ok (.bool true) ↔ a < b) ∧ (Qlang.EQ M (.byte a) (.byte b) = .ok (.bool true) ↔ a = b) := by
  have e : (a = b) ↔ (a.toNat : Int) = b.toNat := by
    rw [← UInt8.toNat_inj]; omega
  obtain ⟨lt, eq, gt, h1, h2, h3, h4, h5, h6, h7⟩ := (C64_ints_partial M a.toNat b.toNat).1
  have he : Qlang.EQ M (.byte a) (.byte b) = Qlang.EQ M (.int a.toNat) (.int b.toNat) := by
    simp only [Qlang.EQ, QVal.eq, Except.ok.injEq, QVal.bool.injEq]
    rw [Bool.eq_iff_iff]; simp [e]
  have hn : Qlang.NE M (.byte a) (.byte b) = Qlang.NE M (.int a.toNat) (.int b.toNat) := by
    simp only [Qlang.NE, QVal.eq, Except.ok.injEq, QVal.bool.injEq]
    rw [Bool.eq_iff_iff]; simp [e]
  refine ⟨⟨lt, eq, gt, h1, he.trans h2, h3, h4, h5, h6, hn.trans h7⟩, ?_, ?_⟩
  · simp [Qlang.LT, widen, compareBy, UInt8.lt_iff_toNat_lt]
  · simp [Qlang.EQ, QVal.eq]

theorem C64_strings_partial (M : Fl F) (a b : Str) : Consistent M (.str a) (.str b) ∧
    (Qlang.LT M (.str a) (.str b) = .ok (.bool true) ↔ a < b) ∧ (Qlang.EQ M (.str a) (.str b) = .ok (.bool true) ↔ a = b) := by
  have tri : (strLt a b = true ∧ a ≠ b ∧ strLt b a = false) ∨ (strLt a b = false ∧ a = b ∧ strLt b a = false) ∨
      (strLt a b = false ∧ a ≠ b ∧ strLt b a = true) := by
    cases h1 : strLt a b
    · cases h2 : strLt b a
      · exact .inr (.inl ⟨rfl, strLt_total _ _ h1 h2, rfl⟩)
      · refine .inr (.inr ⟨rfl, ?_, rfl⟩)
        rintro rfl
        rw [strLt_irrefl] at h2; cases h2
    · refine .inl ⟨rfl, ?_, strLt_asymm _ _ h1⟩
      rintro rfl
      rw [strLt_irrefl] at h1; cases h1
  refine ⟨⟨strLt a b, decide (a = b), strLt b a, rfl, ?_, rfl, ?_, ?_, ?_, ?_⟩, ?_, ?_⟩
  · simp only [Qlang.EQ, QVal.eq, Except.ok.injEq, QVal.bool.injEq]
    rw [Bool.eq_iff_iff]; simp
  · unfold One
    rcases tri with h | ⟨h, rfl, h'⟩ | h <;> simp [*]
  · simp only [Qlang.LE, widen, compareBy, Except.ok.injEq, QVal.bool.injEq]
    rcases tri with h | ⟨h, rfl, h'⟩ | h <;> simp [*, strLt_irrefl]
  · simp only [Qlang.GE, widen, compareBy, Except.ok.injEq, QVal.bool.injEq]
    rcases tri with h | ⟨h, rfl, h'⟩ | h <;> simp [*, strLt_irrefl]
  · simp only [Qlang.NE, QVal.eq, Except.ok.injEq, QVal.bool.injEq]
    rw [Bool.eq_iff_iff]; simp
  · simp [Qlang.LT, widen, compareBy, strLt_iff]
  · simp [Qlang.EQ, QVal.eq]

/-- An int and a byte: `< > <= >=` compare the numbers. -/
theorem C64_mixed_partial (M : Fl F) (a : Int) (b : UInt8) :
    Qlang.LT M (.int a) (.byte b) = .ok (.bool (a < b.toNat)) ∧ Qlang.LT M (.byte b) (.int a) = .ok (.bool (b.toNat < a)) ∧
    Qlang.GT M (.int a) (.byte b) = .ok (.bool (b.toNat < a)) ∧ Qlang.GT M (.byte b) (.int a) = .ok (.bool (a < b.toNat)) ∧
    Qlang.LE M (.int a) (.byte b) = .ok (.bool (a ≤ b.toNat)) ∧ Qlang.LE M (.byte b) (.int a) = .ok (.bool (b.toNat ≤ a)) ∧
    Qlang.GE M (.int a) (.byte b) = .ok (.bool (b.toNat ≤ a)) ∧ Qlang.GE M (.byte b) (.int a) = .ok (.bool (a ≤ b.toNat)) :=
  ⟨rfl, rfl, rfl, rfl, rfl, rfl, rfl, rfl⟩

/-- The order of numbers and strings is defined for exactly these operands. -/
theorem C64_types (M : Fl F) (a b : QVal F) :
    (∃ v, Qlang.LT M a b = .ok v) ↔ (IsNum (widen a) ∧ IsNum (widen b)) ∨ (IsStr a ∧ IsStr b) := by
  have num : ∀ v : QVal F, IsNum v ↔ (∃ n, v = .int n) ∨ ∃ x, v = .float x := by
    intro v
    constructor
    · rintro (n | x)
      · exact .inl ⟨_, rfl⟩
      · exact .inr ⟨_, rfl⟩
    · rintro (⟨n, rfl⟩ | ⟨x, rfl⟩)
      · exact .int n
      · exact .float x
  have st : ∀ v : QVal F, IsStr v ↔ ∃ s, v = .str s := by
    intro v
    constructor
    · rintro ⟨s⟩; exact ⟨s, rfl⟩
    · rintro ⟨s, rfl⟩; exact .str s
  rw [num, num, st, st]
  cases a <;> cases b <;> simp [Qlang.LT, widen, compareBy, unsupported]

/-! ### C65: max, min -/

theorem C65_ints (M : Fl F) {vs : List (QVal F)} (hne : vs ≠ []) (h : AllInt vs) :
    (∃ m, Qlang.Max M vs = .ok (.int m) ∧ .int m ∈ vs ∧ ∀ n, .int n ∈ vs → n ≤ m) ∧
    ∃ m, Qlang.Min M vs = .ok (.int m) ∧ .int m ∈ vs ∧ ∀ n, .int n ∈ vs → m ≤ n := by
  let f : QVal F → Int := fun
    | .int n => n
    | _ => 0
  have hf : ∀ a ∈ vs, assertInt a = .ok (f a) := by
    intro a ha
    obtain ⟨n, rfl⟩ := h a ha
    rfl
  have hm : ∀ n, n ∈ vs.map f ↔ .int n ∈ vs := by
    intro n
    constructor
    · intro hn
      obtain ⟨a, ha, rfl⟩ := List.mem_map.mp hn
      obtain ⟨k, rfl⟩ := h a ha
      exact ha
    · intro hn
      exact List.mem_map.mpr ⟨_, hn, rfl⟩
  have hk : kindOfArgs vs = 2 := kindOfArgs_int.mpr ⟨hne, h⟩
  have hl : ¬ vs.length = 0 := by simpa using hne
  constructor
  · obtain ⟨m, h1, h2, h3⟩ := bestOf_ok (get := assertInt) (better := fun t max => decide (t > max)) (args := vs) (f := f)
      (by simp) (by simp; omega) hne hf
    refine ⟨m, ?_, (hm m).mp h2, ?_⟩
    · rw [Qlang.Max, if_neg hl, if_pos hk, h1]; rfl
    · intro n hn
      have := h3 n ((hm n).mpr hn)
      simpa using this
  · obtain ⟨m, h1, h2, h3⟩ := bestOf_ok (get := assertInt) (better := fun t min => decide (t < min)) (args := vs) (f := f)
      (by simp) (by simp; omega) hne hf
    refine ⟨m, ?_, (hm m).mp h2, ?_⟩
    · rw [Qlang.Min, if_neg hl, if_pos hk, h1]; rfl
    · intro n hn
      have := h3 n ((hm n).mpr hn)
      simpa using this

/-- With a float among them all are promoted, and no one is greater (or less).  The order of
floats is irreflexive and transitive, NaNs included. -/
theorem C65_floats (M : Fl F) (irrefl : ∀ x, M.lt x x = false) (trans : ∀ x y z, M.lt x y = true → M.lt y z = true → M.lt x z = true)
    {vs : List (QVal F)} (h : SomeFloat vs) :
    (∃ m, Qlang.Max M vs = .ok (.float m) ∧ m ∈ vs.map (toFloat M) ∧ ∀ x ∈ vs.map (toFloat M), M.lt m x = false) ∧
    ∃ m, Qlang.Min M vs = .ok (.float m) ∧ m ∈ vs.map (toFloat M) ∧ ∀ x ∈ vs.map (toFloat M), M.lt x m = false := by
  have hf : ∀ a ∈ vs, asFloat M a = .ok (toFloat M a) := by
    intro a ha
    cases h.1 a ha <;> rfl
  have hk : kindOfArgs vs = 14 := kindOfArgs_float.mpr h
  have hne : vs ≠ [] := by
    obtain ⟨_, x, hx⟩ := h
    rintro rfl
    cases hx
  have hl : ¬ vs.length = 0 := by simpa using hne
  constructor
  · obtain ⟨m, h1, h2, h3⟩ := bestOf_ok (get := asFloat M) (better := fun t max => M.lt max t) (args := vs) (f := toFloat M)
      irrefl (fun b t u h1 h2 => trans _ _ _ h1 h2) hne hf
    refine ⟨m, ?_, h2, h3⟩
    rw [Qlang.Max, if_neg hl, if_neg (by rw [hk]; decide), if_pos hk, h1]; rfl
  · obtain ⟨m, h1, h2, h3⟩ := bestOf_ok (get := asFloat M) (better := fun t min => M.lt t min) (args := vs) (f := toFloat M)
      irrefl (fun b t u h1 h2 => trans _ _ _ h2 h1) hne hf
    refine ⟨m, ?_, h2, h3⟩
    rw [Qlang.Min, if_neg hl, if_neg (by rw [hk]; decide), if_pos hk, h1]; rfl

/-- Other arguments panic; without arguments the result is 0. -/
theorem C65_others (M : Fl F) (vs : List (QVal F)) (h : ¬ ∀ v ∈ vs, IsNum v) :
    (∃ p, Qlang.Max M vs = .error p) ∧ ∃ p, Qlang.Min M vs = .error p := by
  have h1 : ¬ kindOfArgs vs = 2 := by
    intro hk
    refine h fun v hv => ?_
    obtain ⟨n, rfl⟩ := (kindOfArgs_int.mp hk).2 v hv
    exact .int n
  have h2 : ¬ kindOfArgs vs = 14 := fun hk => h (kindOfArgs_float.mp hk).1
  have h3 : ¬ vs.length = 0 := by
    intro hl
    rw [List.length_eq_zero_iff] at hl
    subst hl
    exact h nofun
  constructor
  · rw [Qlang.Max, if_neg h3, if_neg h1, if_neg h2]; exact ⟨_, rfl⟩
  · rw [Qlang.Min, if_neg h3, if_neg h1, if_neg h2]; exact ⟨_, rfl⟩

theorem C65_empty (M : Fl F) : Qlang.Max M [] = .ok (.int 0) ∧ Qlang.Min M [] = .ok (.int 0) := ⟨rfl, rfl⟩

example : AllInt ([.int 3, .int 7, .int 5] : List (QVal F)) := by
  intro v hv
  simp only [List.mem_cons, List.not_mem_nil, or_false] at hv
  rcases hv with rfl | rfl | rfl <;> exact ⟨_, rfl⟩

example : SomeFloat ([.int 3, .float x] : List (QVal F)) :=
  ⟨by
    intro v hv
    simp only [List.mem_cons, List.not_mem_nil, or_false] at hv
    rcases hv with rfl | rfl
    · exact .int 3
    · exact .float x, x, by simp⟩

/-! ### C72: slice and map literals -/

/-- A slice literal has the values in order as elements, converted to the common type, in an
array of its own.  Nothing else on the heap changes. -/
theorem C72_slice (M : Fl F) (vs : List (QVal F)) (h : Heap F) :
    ∃ s h', SliceFrom M vs h = (.ok (.slice s), h') ∧ Common vs s.elem ∧ h'.elems s = vs.map (asElem M s.elem) ∧
      Len h' (.slice s) = .ok vs.length ∧ (vs ≠ [] → s.arr = h.next ∧ h'.next = h.next + 1) ∧
      (∀ a < h.next, h'.arrs a = h.arrs a) ∧ h'.maps = h.maps ∧ h'.objs = h.objs := by
  by_cases h0 : vs.length = 0
  · have := List.length_eq_zero_iff.mp h0
    subst this
    exact ⟨⟨.var, 0, 0, 0, 0⟩, h, rfl, .var (.inl rfl) (fun h => by obtain ⟨_, x, hx⟩ := h; cases hx) (.inl rfl),
      by simp [Heap.elems], rfl, fun h => absurd rfl h, fun _ _ => rfl, rfl, rfl⟩
  have hne : vs ≠ [] := fun h => h0 (by rw [h]; rfl)
  have main : ∀ (t : Ty) (r : HM F (QVal F)) (vs' : List (QVal F)), vs'.length = vs.length → (∃ l,
      r h = (.ok (.slice ⟨t, h.next, 0, 0 + vs.length, vs.length⟩),
        (({ h with next := h.next + 1 }).withArr h.next (List.replicate vs.length (zeroOf M t))).withArr h.next l) ∧
      ((({ h with next := h.next + 1 }).withArr h.next (List.replicate vs.length (zeroOf M t))).withArr h.next l).elems
        ⟨t, h.next, 0, 0 + vs.length, vs.length⟩ = vs') → Common vs t → vs' = vs.map (asElem M t) →
      ∃ s h', r h = (.ok (.slice s), h') ∧ Common vs s.elem ∧ h'.elems s = vs.map (asElem M s.elem) ∧
        Len h' (.slice s) = .ok vs.length ∧ (vs ≠ [] → s.arr = h.next ∧ h'.next = h.next + 1) ∧
        (∀ a < h.next, h'.arrs a = h.arrs a) ∧ h'.maps = h.maps ∧ h'.objs = h.objs := by
    rintro t r vs' hl ⟨l, h1, h2⟩ hc he
    refine ⟨_, _, h1, hc, h2.trans he, ?_, fun _ => ⟨rfl, rfl⟩, ?_, rfl, rfl⟩
    · simp [Len]
    · intro a ha
      have : a ≠ h.next := by omega
      simp [Heap.withArr, this]
  have raw : ∀ t : Ty, t ≠ .float → (∀ v ∈ vs, t = .var ∨ (v ≠ .nil ∧ assignable v t = true)) → ∃ l,
      (do Qlang.Append M (.slice (← makeSlice M t 0 vs.length)) vs : HM F (QVal F)) h =
        (.ok (.slice ⟨t, h.next, 0, 0 + vs.length, vs.length⟩),
          (({ h with next := h.next + 1 }).withArr h.next (List.replicate vs.length (zeroOf M t))).withArr h.next l) ∧
      ((({ h with next := h.next + 1 }).withArr h.next (List.replicate vs.length (zeroOf M t))).withArr h.next l).elems
        ⟨t, h.next, 0, 0 + vs.length, vs.length⟩ = vs := by
    intro t ht hv
    obtain ⟨e, w⟩ := makeSlice_eq (M := M) t vs.length h
    obtain ⟨l, h1, _, h3⟩ := appendRaw_whole (M := M) (vals := vs) w (by simp)
    refine ⟨l, ?_, by rw [h3]; simp [Heap.elems]⟩
    rw [hm_bind_ok e, Qlang.Append]
    dsimp only
    rw [if_neg ht]
    by_cases hvar : t = .var
    · rw [if_pos hvar, hm_bind_ok h1]; rfl
    · rw [if_neg hvar, appendReflect, appendArgs_ok vs fun v hv' => (hv v hv').resolve_left hvar]
      rw [hm_bind_ok h1]
      rfl
  have hmap : ∀ t, t ≠ .float → vs = vs.map (asElem M t) := by
    intro t ht
    have : asElem M t = fun v => v := by
      funext v
      cases t <;> first | rfl | exact absurd rfl ht
    rw [this]; simp
  have hck := common_kind hne
  unfold SliceFrom
  rw [if_neg h0]
  by_cases k2 : kindOfArgs vs = 2
  · have hi := (kindOfArgs_int.mp k2).2
    rw [if_pos k2]
    refine main .int _ vs rfl (raw .int nofun fun v hv => .inr ?_) ?_ (hmap _ nofun)
    · obtain ⟨n, rfl⟩ := hi v hv
      exact ⟨nofun, rfl⟩
    · exact .int hne hi
  · rw [if_neg k2]
    by_cases k14 : kindOfArgs vs = 14
    · have hf := kindOfArgs_float.mp k14
      rw [if_pos k14]
      refine main .float _ (vs.map (asElem M .float)) (by simp) ?_ (.float hf) rfl
      obtain ⟨e, w⟩ := makeSlice_eq (M := M) .float vs.length h
      obtain ⟨l, h1, h2⟩ := appendFloat_whole (M := M) vs _ _ w (by simp) hf.1
      refine ⟨l, ?_, ?_⟩
      · rw [hm_bind_ok e, hm_bind_ok h1]; rfl
      · rw [h2]; simp [Heap.elems, asElem]
    · rw [if_neg k14]
      by_cases k24 : kindOfArgs vs = 24
      · have hs := (kindOfArgs_str.mp k24).2
        rw [if_pos k24]
        refine main .string _ vs rfl (raw .string nofun fun v hv => .inr ?_) ?_ (hmap _ nofun)
        · cases hs v hv
          exact ⟨nofun, rfl⟩
        · exact .string hne hs
      · rw [if_neg k24]
        refine main .var _ vs rfl (raw .var nofun fun v hv => .inl rfl) ?_ (hmap _ nofun)
        rw [if_neg k24, if_neg k2, if_neg k14] at hck
        exact hck

/-- The common type is unique. -/
theorem C72_type_unique {vs : List (QVal F)} {t t' : Ty} (h : Common vs t) (h' : Common vs t') : t = t' := common_unique h h'

/-- What a map shows for a key. -/
def shown : Option (QVal F) → QVal F
  | some v => v
  | none => .undefined

/-- A map literal with string keys: every key has its last value.  The map is new, its length
is the number of different keys, and nothing else on the heap changes. -/
theorem C72_map_string (M : Fl F) (ps : List (Str × QVal F)) (h : Heap F) :
    ∃ (vt : Ty) (h' : Heap F) (ks : List Str), MapFrom M (mapArgs .str ps) h = (.ok (.map .string vt h.next), h') ∧ Common (ps.map Prod.snd) vt ∧
      (∀ k, Get M h' (.map .string vt h.next) (.str k) = .ok (shown (lastOf k (entriesOf M vt ps)))) ∧
      Len h' (.map .string vt h.next) = .ok ks.length ∧ ks.Nodup ∧ (∀ k, k ∈ ks ↔ k ∈ (entriesOf M vt ps).map Prod.fst) ∧
      h'.next = h.next + 1 ∧ h'.arrs = h.arrs ∧ h'.objs = h.objs ∧ ∀ a < h.next, h'.maps a = h.maps a := by
  unfold MapFrom
  rw [length_mapArgs, if_neg (by omega), evens_mapArgs]
  match ps with
  | [] =>
    refine ⟨.var, ({ h with next := h.next + 1 }).withMap h.next [], [], rfl,
      .var (.inl rfl) (fun h => by obtain ⟨_, x, hx⟩ := h; cases hx) (.inl rfl), ?_, ?_, by simp, by simp [entriesOf], rfl, rfl, rfl, ?_⟩
    · intro k
      simp [Get, assignable, QVal.ty, hashable, Ty.comparable, Heap.withMap, findKey, entriesOf, lastOf, shown]
    · simp [Len, Heap.withMap]
    · intro a ha
      exact if_neg (by omega)
  | p :: ps =>
    have hk : kindOfArgs ((p :: ps).map fun p => (QVal.str p.1 : QVal F)) = 24 := by
      apply kindOfArgs_str.mpr
      refine ⟨by simp, ?_⟩
      intro v hv
      obtain ⟨q, _, rfl⟩ := List.mem_map.mp hv
      exact .str _
    rw [if_neg (by simp), if_pos hk]
    obtain ⟨vt, l, ks, h1, h2, h3, h4, h5, h6⟩ := mapFromKeys_ok (keyEq_str M) (fun _ => rfl) (key := keepStr) (fun _ => rfl)
      .string (ps := p :: ps) (by simp) h
    refine ⟨vt, _, ks, h1, h2, ?_, ?_, h4, h5, rfl, rfl, rfl, ?_⟩
    · intro k
      rw [Get]
      rw [if_pos (show assignable (.str k : QVal F) .string = true by rfl), if_pos (show hashable (.str k : QVal F) = true by rfl)]
      simp only [Heap.withMap, if_true, h6]
      · cases lastOf k (entriesOf M vt (p :: ps)) <;> rfl
      · exact nofun
    · have := congrArg List.length h3
      simp only [List.length_map] at this
      simp [Len, Heap.withMap, this]
    · intro a ha
      exact if_neg (by omega)

/-- The same with int keys (a literal without entries is the one above). -/
theorem C72_map_int (M : Fl F) (ps : List (Int × QVal F)) (hne : ps ≠ []) (h : Heap F) :
    ∃ (vt : Ty) (h' : Heap F) (ks : List Int), MapFrom M (mapArgs .int ps) h = (.ok (.map .int vt h.next), h') ∧ Common (ps.map Prod.snd) vt ∧
      (∀ k, Get M h' (.map .int vt h.next) (.int k) = .ok (shown (lastOf k (entriesOf M vt ps)))) ∧
      Len h' (.map .int vt h.next) = .ok ks.length ∧ ks.Nodup ∧ (∀ k, k ∈ ks ↔ k ∈ (entriesOf M vt ps).map Prod.fst) ∧
      h'.next = h.next + 1 ∧ h'.arrs = h.arrs ∧ h'.objs = h.objs ∧ ∀ a < h.next, h'.maps a = h.maps a := by
  unfold MapFrom
  rw [length_mapArgs, if_neg (by omega), evens_mapArgs]
  have hk : kindOfArgs (ps.map fun p => (QVal.int p.1 : QVal F)) = 2 := by
    apply kindOfArgs_int.mpr
    refine ⟨by simpa using hne, ?_⟩
    intro v hv
    obtain ⟨q, _, rfl⟩ := List.mem_map.mp hv
    exact ⟨_, rfl⟩
  have hl : 2 * ps.length ≠ 0 := by
    have : ps.length ≠ 0 := by simpa using hne
    omega
  rw [if_neg hl, if_neg (by rw [hk]; decide), if_pos hk]
  obtain ⟨vt, l, ks, h1, h2, h3, h4, h5, h6⟩ := mapFromKeys_ok (keyEq_int M) (fun _ => rfl) (key := keepInt) (fun _ => rfl)
    .int (ps := ps) hne h
  refine ⟨vt, _, ks, h1, h2, ?_, ?_, h4, h5, rfl, rfl, rfl, ?_⟩
  · intro k
    rw [Get]
    rw [if_pos (show assignable (.int k : QVal F) .int = true by rfl), if_pos (show hashable (.int k : QVal F) = true by rfl)]
    simp only [Heap.withMap, if_true, h6]
    · cases lastOf k (entriesOf M vt ps) <;> rfl
    · exact nofun
  · have := congrArg List.length h3
    simp only [List.length_map] at this
    simp [Len, Heap.withMap, this]
  · intro a ha
    exact if_neg (by omega)

/-- Arguments in pairs are a list of entries if the keys are. -/
theorem pairs_of_keys {α : Type} {mk : α → QVal F} : ∀ (n : Nat) (args : List (QVal F)), args.length = 2 * n →
    (∀ v ∈ evens args, ∃ k, v = mk k) → ∃ ps, args = mapArgs mk ps
  | 0, args, h, _ => ⟨[], List.length_eq_zero_iff.mp (by omega)⟩
  | n + 1, [], h, _ => by simp at h
  | n + 1, [_], h, _ => by simp at h; omega
  | n + 1, k :: v :: args, h, hk => by
    rw [evens] at hk
    obtain ⟨ps, rfl⟩ := pairs_of_keys (mk := mk) n args (by simp at h; omega) fun v hv => hk v (List.mem_cons_of_mem _ hv)
    obtain ⟨k', rfl⟩ := hk k (List.mem_cons_self ..)
    exact ⟨(k', v) :: ps, rfl⟩

/-- There are no other maps: an odd number of arguments, and keys that are neither all strings
nor all ints, panic. -/
theorem C72_map_only (M : Fl F) (args : List (QVal F)) (h h' : Heap F) (m : QVal F) (hm : MapFrom M args h = (.ok m, h')) :
    (∃ ps : List (Str × QVal F), args = mapArgs .str ps) ∨ ∃ ps : List (Int × QVal F), args = mapArgs .int ps := by
  unfold MapFrom at hm
  by_cases h0 : args.length % 2 ≠ 0
  · rw [if_pos h0] at hm; cases hm
  rw [if_neg h0] at hm
  by_cases h1 : args.length = 0
  · exact .inl ⟨[], List.length_eq_zero_iff.mp h1⟩
  rw [if_neg h1] at hm
  have hn : args.length = 2 * (args.length / 2) := by omega
  by_cases k1 : kindOfArgs (evens args) = 24
  · refine .inl (pairs_of_keys _ args hn ?_)
    intro v hv
    cases (kindOfArgs_str.mp k1).2 v hv
    exact ⟨_, rfl⟩
  rw [if_neg k1] at hm
  by_cases k2 : kindOfArgs (evens args) = 2
  · refine .inr (pairs_of_keys _ args hn ?_)
    intro v hv
    exact (kindOfArgs_int.mp k2).2 v hv
  rw [if_neg k2] at hm
  cases hm

example : entriesOf (F := Unit) (α := Str) ⟨⟨fun _ => (), fun _ => ()⟩, id, fun _ _ => (), fun _ _ => (), fun _ _ => (), fun _ _ => (),
    fun _ _ => false, fun _ _ => false, fun _ _ => false, fun _ => 0, fun _ => 0, fun _ n => n, fun _ _ => false⟩
    .var [(str "a", .int 1), (str "b", .undefined), (str "a", .str [])] = [(str "a", .int 1), (str "a", .str [])] := by rfl

/-! ### C73: imports -/

/-- No sequence of imports changes a symbol that is not a placeholder, whether they panic or
not. -/
theorem C73_keeps {α : Type} {mk : List (Str × Sym α) → α} {tab tab' : Str → Option (Sym α)} (h : Imports mk tab tab')
    {n : Str} {a : α} (hn : tab n = some (.def_ a)) : tab' n = some (.def_ a) := by
  induction h with
  | none => exact hn
  | import_ mod table hi _ ih =>
    apply ih
    unfold Import at hi
    split at hi
    · split at hi
      · cases hi; exact hn
      · rename_i hm
        cases hi
        dsimp only
        rw [if_neg]
        · exact hn
        · rintro rfl; rw [hm] at hn; cases hn
    · have := importLoop_keeps table _ n a hn
      rwa [hi] at this

/-- Importing symbols panics exactly if one of the names is taken, in whatever order Go goes
through the table, and then names such a symbol. -/
theorem C73_panics {α : Type} (mk : List (Str × Sym α) → α) (tab : Str → Option (Sym α)) (table : List (Str × Sym α))
    (hn : (table.map Prod.fst).Nodup) :
    (∃ n, (Import mk tab [] table).1 = some n) ↔ ∃ p ∈ table, Taken tab p.1 := by
  have h := (importLoop_ok table tab hn).1
  have e : Import mk tab [] table = importLoop tab table := rfl
  rw [e]
  constructor
  · rintro ⟨n, hs⟩
    obtain ⟨h1, h2⟩ := (importLoop_ok table tab hn).2.2 n hs
    obtain ⟨p, hp, rfl⟩ := List.mem_map.mp h2
    exact ⟨p, hp, h1⟩
  · rintro ⟨p, hp, ht⟩
    cases hs : (importLoop tab table).1 with
    | some n => exact ⟨n, rfl⟩
    | none => exact absurd ht (h.mp hs p hp)

theorem C73_names {α : Type} (mk : List (Str × Sym α) → α) (tab : Str → Option (Sym α)) (table : List (Str × Sym α))
    (hn : (table.map Prod.fst).Nodup) {n : Str} (h : (Import mk tab [] table).1 = some n) : Taken tab n ∧ n ∈ table.map Prod.fst :=
  (importLoop_ok table tab hn).2.2 n h

/-- If there is no panic all symbols of the table are defined; other names are not touched in
any case. -/
theorem C73_defines {α : Type} (mk : List (Str × Sym α) → α) (tab : Str → Option (Sym α)) (table : List (Str × Sym α))
    (hn : (table.map Prod.fst).Nodup) :
    ((Import mk tab [] table).1 = none → ∀ p ∈ table, (Import mk tab [] table).2 p.1 = some p.2) ∧
    ∀ n, n ∉ table.map Prod.fst → (Import mk tab [] table).2 n = tab n :=
  ⟨(importLoop_ok table tab hn).2.1, importLoop_other table tab⟩

/-- A module is imported under its name if nothing has that name, and else nothing happens
but the panic. -/
theorem C73_module {α : Type} (mk : List (Str × Sym α) → α) (tab : Str → Option (Sym α)) (table : List (Str × Sym α)) {mod : Str} (hm : mod ≠ []) :
    (tab mod = none → (Import mk tab mod table).1 = none ∧
      ∀ n, (Import mk tab mod table).2 n = if n = mod then some (.def_ (mk table)) else tab n) ∧
    (tab mod ≠ none → Import mk tab mod table = (some mod, tab)) := by
  unfold Import
  rw [if_pos hm]
  constructor
  · intro h
    rw [h]
    exact ⟨rfl, fun _ => rfl⟩
  · intro h
    cases ht : tab mod with
    | none => exact absurd ht h
    | some _ => rfl

/-- Replacing a placeholder, then refusing to replace the symbol. -/
example : Import (fun _ => 0) (fun n => if n = str "$add" then some .dummy2 else none) [] [(str "$add", .def_ 1)] =
    (none, fun n => if n = str "$add" then some (.def_ 1) else if n = str "$add" then some .dummy2 else none) := by rfl

end Tpl.Props
