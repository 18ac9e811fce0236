import Verif.Proof.Number
import Verif.Props.Literal
import Verif.Props.Given
import Verif.Props.QlangInterp
import Verif.Model.Calc

/-! C119: numbers have the value they are written with.

`Floats` (Model/Strconv) is the type float64: `nearest v` is the float64 nearest to the rational number
`v`, or nothing if there is none.  `D.lits`, `D.parse` are the functions of package strconv for it. -/
namespace Tpl.Props
open Tpl Tpl.Spec Tpl.Scanner Tpl.Extractor Tpl.QInterp.Spec
variable {F : Type} {U : Uni}

/-- A number token of a text that tokenizes. -/
theorem number_text {k : KwScanner} (hk : KwScanner.Steps U KwScanner.zero k) {src : Str} {mode : Mode} {ts : List Token} {eof : Token}
    (h : Tokenizes U k src mode ts eof) {t : Token} (ht : t ∈ ts) (hkind : t.kind = INT ∨ t.kind = FLOAT ∨ t.kind = IMAG) :
    ∃ r, (t.kind = INT ∧ IntText true t.lit r) ∨ (t.kind = FLOAT ∧ FloatText t.lit r) ∨ (t.kind = IMAG ∧ ImagText t.lit r) := by
  obtain ⟨full, s', hrun, herr, hmap⟩ := h
  obtain ⟨hc, hl⟩ := (run_iff U k.sc src mode full).1 ⟨s', hrun, herr⟩
  have hm : t ∈ full.map fun t => if t.kind = IDENT then { t with kind := (k.keywords.get t.lit).getD IDENT } else t := by
    rw [← hmap]
    exact List.mem_append_left _ ht
  obtain ⟨t0, ht0, e⟩ := List.mem_map.1 hm
  have e0 : t0 = t := by
    split at e
    · exfalso
      subst e
      dsimp only at hkind
      cases hg : k.keywords.get t0.lit with
      | none =>
        rw [hg] at hkind
        exact absurd hkind (by decide)
      | some kd =>
        have := kw_ge hk _ _ hg
        rw [hg, Option.getD_some] at hkind
        rcases hkind with rfl | rfl | rfl <;> exact absurd this (by decide)
    · exact e
  subst e0
  obtain ⟨p, x, r, s1, s2, e1, hp, htt, _⟩ := lexes_mem hl ht0
  refine ⟨r, ?_⟩
  clear e1 hp hmap hl hrun hm hc
  cases htt with
  | int h => exact .inl ⟨rfl, h⟩
  | float h _ => exact .inr (.inl ⟨rfl, h⟩)
  | imag h => exact .inr (.inr ⟨rfl, h⟩)
  | @op _ _ k s _ h =>
    have h' : ∀ p ∈ operators, p.1 ≠ INT ∧ p.1 ≠ FLOAT ∧ p.1 ≠ IMAG := by decide
    have h' := h' _ h
    dsimp only at h' hkind
    rcases hkind with e | e | e
    exacts [absurd e h'.1, absurd e h'.2.1, absurd e h'.2.2]
  | _ => dsimp only at hkind; exact absurd hkind (by decide)

theorem intText_value {x r : Str} (h : IntText true x r) : ∃ n, IntValue x n := by
  cases h with
  | dec h1 h2 h3 _ _ => exact ⟨_, .dec h1 h2 h3⟩
  | oct h1 _ _ _ => exact ⟨_, .oct fun b hb => by simpa using h1 b hb⟩
  | hex h1 h2 h3 _ => exact ⟨_, .hex h1 h2 (h3 rfl)⟩

/-- C119: a number token of an accepted text has a value, if its exponent has digits. -/
theorem C119_value {k : KwScanner} (hk : KwScanner.Steps U KwScanner.zero k) {src : Str} {mode : Mode} {ts : List Token} {eof : Token}
    (h : Tokenizes U k src mode ts eof) {t : Token} (ht : t ∈ ts) (hkind : t.kind = INT ∨ t.kind = FLOAT) :
    (∃ v, NumberValue t v) ∨ (t.kind = FLOAT ∧ BareExponent t.lit) := by
  obtain ⟨r, ⟨e, h1⟩ | ⟨e, h1⟩ | ⟨e, _⟩⟩ := number_text hk h ht (hkind.elim .inl fun h => .inr (.inl h))
  · obtain ⟨n, hn⟩ := intText_value h1
    exact .inl ⟨n, .int e hn⟩
  · rcases floatText_value h1 with ⟨v, hv⟩ | hb
    · exact .inl ⟨v, .float e hv⟩
    · exact .inr ⟨e, hb⟩
  · rw [e] at hkind
    exact absurd hkind (by decide)

/-- ... and only one. -/
theorem C119_unique {t : Token} {v v' : Rat} (h : NumberValue t v) (h' : NumberValue t v') : v = v' := by
  cases h with
  | int e h =>
    cases h' with
    | int _ h' => rw [C109_unique h h']
    | float e' _ => rw [e] at e'; cases e'
  | float e h =>
    cases h' with
    | int e' _ => rw [e] at e'; cases e'
    | float _ h' => exact decimalValue_unique h h'

/-- C119, as far as it holds, for interpreters: a function with a parameter of type float64 that is
marked on a number gets the float64 nearest to the value of the number, and is not called if there is
none.  This is so unless the number is octal or hexadecimal and 2^63 or more, or its exponent has no
digits; in the latter case the function is not called. -/
theorem C119_given_partial {k : KwScanner} (hk : KwScanner.Steps U KwScanner.zero k) {src : Str} {mode : Mode} {ts : List Token} {eof : Token}
    (h : Tokenizes U k src mode ts eof) {t : Token} (ht : t ∈ ts) (D : Floats F) {mark : Str} (hm : ¬ Counts mark) (more : List Token) (len : Int) :
    (∀ v, NumberValue t v → (t.kind = INT → t.lit.head? = some 48 → v < 2 ^ 63) →
      (∀ x, D.nearest v = some x → Given D.lits mark (t :: more) len [.float64] [.float x]) ∧
      (D.nearest v = none → ¬ ∃ as, Given D.lits mark (t :: more) len [.float64] as)) ∧
    (t.kind = FLOAT → BareExponent t.lit → ¬ ∃ as, Given D.lits mark (t :: more) len [.float64] as) := by
  have refused : ∀ e, ParseFloat D.lits t.lit = .ok (.error e) → ¬ ∃ as, Given D.lits mark (t :: more) len [.float64] as := by
    rintro e he ⟨as, ha⟩
    cases ha with
    | one ha => cases ha with
      | float _ h1 h2 => cases h1; rw [he] at h2; cases h2
      | int _ _ h3 _ => rcases h3 with h3 | h3 <;> cases h3
  have rounded : ∀ v, ParseFloat D.lits t.lit = .ok (D.round v) →
      (∀ x, D.nearest v = some x → Given D.lits mark (t :: more) len [.float64] [.float x]) ∧
      (D.nearest v = none → ¬ ∃ as, Given D.lits mark (t :: more) len [.float64] as) := by
    intro v hv
    unfold Floats.round at hv
    constructor
    · intro x hx
      rw [hx] at hv
      exact .one (.float hm rfl hv)
    · intro hx
      rw [hx] at hv
      exact refused _ hv
  have floats : t.kind = FLOAT → ParseFloat D.lits t.lit = .ok (D.result t.lit) := by
    intro e
    obtain ⟨r, ⟨e', _⟩ | ⟨_, h1⟩ | ⟨e', _⟩⟩ := number_text hk h ht (.inr (.inl e))
    · rw [e] at e'; cases e'
    · exact parseFloat_float D h1
    · rw [e] at e'; cases e'
  constructor
  · intro v hv hs
    apply rounded
    cases hv with
    | @int n e hn =>
      refine (parseFloat_int D hn).1 ?_
      by_cases h0 : t.lit.head? = some 48
      · have := hs e h0
        refine .inr ?_
        have e2 : ((2 : Rat) ^ 63) = ((2 ^ 63 : Nat) : Rat) := by rw [Rat.natCast_pow]; rfl
        rw [e2] at this
        exact_mod_cast this
      · exact .inl h0
    | float e hv =>
      rw [floats e]
      unfold Floats.result Floats.parse
      rw [readFloat_value hv]
      rfl
  · intro e hb
    refine refused .float ?_
    rw [floats e]
    unfold Floats.result Floats.parse
    rw [readFloat_bare hb]
    rfl

/-- C119, as far as it holds, for extractors: a Float leaf on a number is the float64 nearest to the
value, and `GetValue` panics if there is none; unless the number is octal or hexadecimal (`0` is
neither), or its exponent has no digits, when `GetValue` panics. -/
theorem C119_leaf_partial {k : KwScanner} (hk : KwScanner.Steps U KwScanner.zero k) {src : Str} {mode : Mode} {ts : List Token} {eof : Token}
    (h : Tokenizes U k src mode ts eof) {t : Token} (ht : t ∈ ts) (D : Floats F) :
    (∀ v, NumberValue t v → (t.kind = INT → t.lit.head? ≠ some 48 ∨ t.lit = [48]) →
      getValue D.lits (str "Float") t.lit = match D.nearest v with
        | some x => .ok (.float x)
        | none => .error .err) ∧
    (t.kind = FLOAT → BareExponent t.lit → getValue D.lits (str "Float") t.lit = .error .err) := by
  have hget : getValue D.lits (str "Float") t.lit = match D.parse t.lit with
      | some x => .ok (.float x)
      | none => .error .err := by
    have n1 : ¬ str "Float" = str "String" := by decide
    have n2 : ¬ str "Float" = str "Int" := by decide
    unfold getValue
    rw [if_neg n1, if_neg n2, if_pos rfl]
    rfl
  rw [hget]
  constructor
  · intro v hv hs
    cases hv with
    | int e hn =>
      obtain ⟨h1, _, h3⟩ := parse_int D hn
      obtain ⟨h4, h5⟩ := h3 (hs e)
      rw [h1 h4, h5]
    | float e hv =>
      unfold Floats.parse
      rw [readFloat_value hv]
      rfl
  · intro e hb
    unfold Floats.parse
    rw [readFloat_bare hb]
    rfl

section
variable {E X Obj Cls τ V W : Type} (H : QInterp.Host E X Obj Cls τ F V W)

/-- C119, as far as it holds, for interpreters written in qlang: the same for marks that ask for a
float. -/
theorem C119_mark_partial {k : KwScanner} (hk : KwScanner.Steps U KwScanner.zero k) {src : Str} {mode : Mode} {ts : List Token} {eof : Token}
    (h : Tokenizes U k src mode ts eof) {t : Token} (ht : t ∈ ts) (D : Floats F) (hD : H.parseFloat = D.parse) (mark : Str) (more : List Token) (len : Int) :
    (∀ v, NumberValue t v → (t.kind = INT → t.lit.head? ≠ some 48 ∨ t.lit = [48]) →
      argument H mark (t :: more) len .float = match D.nearest v with
        | some x => .ok (H.float x)
        | none => .error (.str (.arg mark .float))) ∧
    (t.kind = FLOAT → BareExponent t.lit → argument H mark (t :: more) len .float = .error (.str (.arg mark .float))) := by
  have hget : argument H mark (t :: more) len .float = match D.parse t.lit with
      | some x => .ok (H.float x)
      | none => .error (.str (.arg mark .float)) := by
    unfold argument
    dsimp only
    rw [hD]
    rfl
  rw [hget]
  constructor
  · intro v hv hs
    cases hv with
    | int e hn =>
      obtain ⟨h1, _, h3⟩ := parse_int D hn
      obtain ⟨h4, h5⟩ := h3 (hs e)
      rw [h1 h4, h5]
    | float e hv =>
      unfold Floats.parse
      rw [readFloat_value hv]
      rfl
  · intro e hb
    unfold Floats.parse
    rw [readFloat_bare hb]
    rfl
end

/-- C119, as far as it holds, for the calculator for complex numbers: an imaginary number, a decimal
number with an `i` behind it, is the float64 nearest to the value of that, times i.  (If there is none it
is infinity, and if the exponent has no digits it is 0.) -/
theorem C119_imag_partial {k : KwScanner} (hk : KwScanner.Steps U KwScanner.zero k) {src : Str} {mode : Mode} {ts : List Token} {eof : Token}
    (h : Tokenizes U k src mode ts eof) {t : Token} (ht : t ∈ ts) (hkind : t.kind = IMAG) {Z : Type} (M : Complex128 F Z) (D : Floats F)
    (hD : M.parseAny = D.parseAny) :
    ∃ x, t.lit = x ++ [105] ∧ ∃ r ∈ (cmplx M).litRules, r.kind = IMAG ∧
      ((∃ v, DecimalValue x v ∧ r.push (.str t.lit) = .ok (M.ofImag ((D.nearest v).getD (D.inf (decide (v < 0)))))) ∨
        (BareExponent x ∧ r.push (.str t.lit) = .ok (M.ofImag (D.ofInt 0)))) := by
  obtain ⟨r, ⟨e, _⟩ | ⟨e, _⟩ | ⟨_, h1⟩⟩ := number_text hk h ht (.inr (.inr hkind))
  · rw [hkind] at e; cases e
  · rw [hkind] at e; cases e
  have hx : ∃ x, t.lit = x ++ [105] ∧ ((∃ v, DecimalValue x v) ∨ BareExponent x) := by
    cases hl : t.lit with
    | nil => rw [hl] at h1; exfalso; generalize hy : ([] : Str) = y at h1; cases h1 <;> simp at hy
    | cons a b =>
      rw [← hl]
      generalize t.lit = y at h1
      cases h1 with
      | int hd hne => exact ⟨_, rfl, .inl ⟨_, by simpa using DecimalValue.whole hd hne .none⟩⟩
      | float hf => exact ⟨_, rfl, floatText_value hf⟩
  obtain ⟨x, e, hx⟩ := hx
  refine ⟨x, e, _, .tail _ (.head _), rfl, ?_⟩
  dsimp only
  rw [if_neg (by rw [e]; simp), e, List.dropLast_concat, hD]
  unfold Floats.parseAny
  rcases hx with ⟨v, hv⟩ | hb
  · exact .inl ⟨v, hv, by rw [readFloat_value hv]⟩
  · exact .inr ⟨hb, by rw [readFloat_bare hb]⟩

/-! ### Violations and examples -/

/-- C119 does not hold: the scanner accepts `1e` as a number, and no function with a parameter of type
float64 is called for it. -/
theorem C119_violated : ∃ src t eof, Tokenizes ascii KwScanner.zero src plain [t] eof ∧ t.kind = FLOAT ∧
    ∀ (D : Floats F) (mark : Str), ¬ Counts mark → ∀ len, ¬ ∃ as, Given D.lits mark [t] len [.float64] as := by
  obtain ⟨eof, h⟩ := one_token (src := bytes "1e") (t := ⟨FLOAT, 0, bytes "1e"⟩) (by decide +kernel)
  refine ⟨_, _, eof, h, rfl, fun D mark hm len => ?_⟩
  refine (C119_given_partial (.refl _) h (.head _) D hm [] len).2 rfl ?_
  exact ⟨bytes "1", 101, [], by decide +kernel, fun b hb => .inl (by simp only [show bytes "1" = [49] from rfl, List.mem_singleton] at hb; subst hb; exact ⟨by decide, by decide⟩), .inl rfl, .inl rfl⟩

/-- The text of 8^21 = 2^63. -/
def bigOctal : Str := bytes "01000000000000000000000"

/-- ... the octal number 2^63 is taken for 10^21, ... -/
theorem C119_violated_octal : ∃ src t eof, Tokenizes ascii KwScanner.zero src plain [t] eof ∧ NumberValue t (2 ^ 63) ∧
    ∀ (D : Floats F) (x : F), D.nearest (10 ^ 21) = some x → ∀ (mark : Str), ¬ Counts mark → ∀ len, Given D.lits mark [t] len [.float64] [.float x] := by
  obtain ⟨eof, h⟩ := one_token (src := bigOctal) (t := ⟨INT, 0, bigOctal⟩) (by decide +kernel)
  have hv : IntValue bigOctal (2 ^ 63) := by
    have e : bigOctal = 48 :: bigOctal.tail := by decide +kernel
    have hn : numeral 8 bigOctal.tail = 2 ^ 63 := by decide +kernel
    rw [← hn, e]
    have : ∀ b ∈ bigOctal.tail, 48 ≤ b.toNat ∧ b.toNat ≤ 55 := by decide +kernel
    exact .oct this
  refine ⟨_, _, eof, h, ?_, fun D x hx mark hm len => ?_⟩
  · have := NumberValue.int (t := ⟨INT, 0, bigOctal⟩) rfl hv
    have e2 : ((2 : Rat) ^ 63) = ((2 ^ 63 : Nat) : Rat) := by rw [Rat.natCast_pow]; rfl
    rw [e2]
    exact this
  · have hd : ∀ b ∈ bigOctal, 48 ≤ b.toNat ∧ b.toNat ≤ 57 := by decide +kernel
    have h2 := (parseFloat_int D hv).2.1 (by decide +kernel) (by decide) hd
    have hn : numeral 10 bigOctal = 10 ^ 21 := by decide +kernel
    have e2 : ((10 ^ 21 : Nat) : Rat) = 10 ^ 21 := by rw [Rat.natCast_pow]; rfl
    rw [hn, e2] at h2
    unfold Floats.round at h2
    rw [hx] at h2
    exact .one (.float hm rfl h2)

/-- ... and `010` is 10 in a Float leaf, `0x10` is refused. -/
theorem C119_violated_leaf : (∃ src t eof, Tokenizes ascii KwScanner.zero src plain [t] eof ∧ NumberValue t 8 ∧
      ∀ (D : Floats F), getValue D.lits (str "Float") t.lit = .ok (.float (D.ofInt 10))) ∧
    (∃ src t eof, Tokenizes ascii KwScanner.zero src plain [t] eof ∧ NumberValue t 16 ∧
      ∀ (D : Floats F), getValue D.lits (str "Float") t.lit = .error .err) := by
  constructor
  · obtain ⟨eof, h⟩ := one_token (src := bytes "010") (t := ⟨INT, 0, bytes "010"⟩) (by decide +kernel)
    have : ∀ b ∈ (bytes "10"), 48 ≤ b.toNat ∧ b.toNat ≤ 55 := by decide +kernel
    refine ⟨_, _, eof, h, .int rfl (n := 8) (.oct (ds := bytes "10") this), fun D => ?_⟩
    show (match (readFloat (bytes "010")).bind D.nearest with | some x => _ | none => _) = _
    rw [show readFloat (bytes "010") = some ((10 : Int) : Rat) from by decide +kernel]
    show (match D.nearest ((10 : Int) : Rat) with | some x => _ | none => _) = _
    rw [D.nearest_int 10 (by decide) (by decide)]
  · obtain ⟨eof, h⟩ := one_token (src := bytes "0x10") (t := ⟨INT, 0, bytes "0x10"⟩) (by decide +kernel)
    have : ∀ b ∈ (bytes "10"), (48 ≤ b.toNat ∧ b.toNat ≤ 57) ∨ (97 ≤ b.toNat ∧ b.toNat ≤ 102) ∨ (65 ≤ b.toNat ∧ b.toNat ≤ 70) := by decide +kernel
    refine ⟨_, _, eof, h, .int rfl (n := 16) (.hex (x := 120) (ds := bytes "10") (.inl rfl) this (by decide +kernel)), fun D => ?_⟩
    show (match (readFloat (bytes "0x10")).bind D.nearest with | some x => Except.ok (GValue.float x) | none => Except.error GPanic.err) = _
    rw [show readFloat (bytes "0x10") = none from by decide +kernel]
    rfl

/-- Some numbers: `12.5e-1`, `.5`, `5.` and `1E3`. -/
example : readFloat (bytes "12.5e-1") = some (5 / 4) ∧ readFloat (bytes ".5") = some (1 / 2) ∧ readFloat (bytes "5.") = some 5 ∧
    readFloat (bytes "1E3") = some 1000 ∧ readFloat (bytes "-2.0") = some (-2) ∧ readFloat (bytes ".") = none ∧ readFloat (bytes "1.2.3") = none := by
  decide +kernel

/-- The hypotheses of the theorems are met: `012.5e-1` is one FLOAT token of value 5/4. -/
example : ∃ eof, Tokenizes ascii KwScanner.zero (bytes "012.5e-1") plain [⟨FLOAT, 0, bytes "012.5e-1"⟩] eof ∧
    NumberValue ⟨FLOAT, 0, bytes "012.5e-1"⟩ (5 / 4) := by
  obtain ⟨eof, h⟩ := one_token (src := bytes "012.5e-1") (t := ⟨FLOAT, 0, bytes "012.5e-1"⟩) (by decide +kernel)
  refine ⟨eof, h, .float rfl ?_⟩
  have hd : ∀ b ∈ (bytes "012"), 48 ≤ b.toNat ∧ b.toNat ≤ 57 := by decide +kernel
  have hf : ∀ b ∈ (bytes "5"), 48 ≤ b.toNat ∧ b.toNat ≤ 57 := by decide +kernel
  have he : ∀ b ∈ (bytes "1"), 48 ≤ b.toNat ∧ b.toNat ≤ 57 := by decide +kernel
  have hx : ExpValue (bytes "e-1") (-1) := .minus (e := 101) (ds := bytes "1") (.inl rfl) he (by decide +kernel)
  have := DecimalValue.point hd hf (by decide +kernel) hx
  have hv : ((numeral 10 (bytes "012") : Rat) + (numeral 10 (bytes "5") : Rat) / 10 ^ (bytes "5").length) * 10 ^ (-1 : Int) = 5 / 4 := by decide +kernel
  rw [hv] at this
  exact this

/-- There is a type of numbers as `Floats` asks for: rational numbers. -/
example : Floats Rat := ⟨some, fun _ => 0, fun n => n, fun _ _ _ => rfl⟩

end Tpl.Props
