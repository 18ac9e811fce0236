import Verif.Model.BigRat
import Verif.Spec.Whole
import Verif.Props.Number
import Verif.Props.ReplBack

/-! C121: whole numbers are exact in the calculator for rational numbers.

`setRat p` is `(*big.Rat).SetString`, of Go 1.14 and later if `p` is true, and of earlier versions. -/
namespace Tpl.Props
open Tpl Tpl.Spec Tpl.Scanner
variable {F : Type} {U : Uni}

theorem readFloat_dec {x : Str} (h : ∀ b ∈ x, IsDec b) (hne : x ≠ []) : readFloat x = some (numeral 10 x : Nat) := by
  have := readFloat_value (.whole h hne .none)
  rw [List.append_nil] at this
  rw [this]
  simp

/-- The specification: `wholeValue` is the value of whole numbers. -/
theorem whole_value {x : Str} {n : Nat} (h : IntValue x n) : wholeValue x = n := by
  cases h with
  | @dec d ds h1 h2 h3 =>
    unfold wholeValue
    split
    · rename_i e
      injection e with e _
      exact absurd e h2
    · rfl
  | @oct ds h1 =>
    cases ds with
    | nil => rfl
    | cons c ds =>
      rw [wholeValue, if_neg (dec_not_x (oct_dec (h1 c (by simp))))]
  | @hex c ds h1 h2 h3 => rw [wholeValue, if_pos h1]

theorem readFloat_hex {c : UInt8} (h : c = 120 ∨ c = 88) (ds : Str) : readFloat (48 :: c :: ds) = none := by
  have h1 : readSign (48 :: c :: ds) = (false, 48 :: c :: ds) := readSign_none (by simp) (by simp)
  have h2 : readMantissa (48 :: c :: ds) = ([48], [], c :: ds) := by
    have := mantissa_whole (ds := [48]) (r := c :: ds) (by simp [IsDec]) (by
      intro b t e
      injection e with e _
      subst e
      refine ⟨fun hd => dec_not_x hd h, ?_⟩
      rcases h with rfl | rfl <;> decide)
    exact this
  unfold readFloat
  rw [h1]
  dsimp only
  rw [h2]
  dsimp only
  rw [if_neg (by simp)]
  have h3 : readExp (c :: ds) = none := by
    unfold readExp
    dsimp only
    rw [if_neg (by rcases h with rfl | rfl <;> decide)]
  rw [h3]
  cases parseDigits 10 0 ([48] ++ []) <;> rfl

/-- C121: what `SetString` makes of the integers of a text: a decimal number of any size has its
value; a hexadecimal number has its value or none, depending on the version of Go; an octal number
has the value its digits have as a decimal number. -/
theorem C121_literal_partial {k : KwScanner} (hk : KwScanner.Steps U KwScanner.zero k) {src : Str} {mode : Mode} {ts : List Token} {eof : Token}
    (h : Tokenizes U k src mode ts eof) {t : Token} (ht : t ∈ ts) (hi : t.kind = INT) (p : Bool) :
    (PlainDecimal t.lit → setRat p t.lit = some (wholeValue t.lit)) ∧
    (Hexadecimal t.lit → setRat p t.lit = if p then some (wholeValue t.lit) else none) ∧
    (¬ PlainDecimal t.lit → ¬ Hexadecimal t.lit → setRat p t.lit = some (numeral 10 t.lit : Nat)) := by
  obtain ⟨r, ⟨_, h1⟩ | ⟨e, _⟩ | ⟨e, _⟩⟩ := number_text hk h ht (.inl hi)
  · obtain ⟨n, hn⟩ := intText_value h1
    rw [whole_value hn]
    generalize t.lit = x at hn
    cases hn with
    | @dec d ds h1 h2 h3 =>
      have hd : ∀ b ∈ d :: ds, IsDec b := by
        intro b hb
        rcases List.mem_cons.mp hb with rfl | hb
        · exact h1
        · exact h3 b hb
      have hs : setRat p (d :: ds) = readFloat (d :: ds) := by
        unfold setRat
        split
        · rename_i e
          injection e with e _
          exact absurd e h2
        · rfl
      refine ⟨fun _ => hs.trans (readFloat_dec hd (by simp)), ?_, fun hp => absurd (.inl (by simpa using h2)) hp⟩
      rintro ⟨c, es, e, _⟩
      injection e with e _
      exact absurd e h2
    | @oct ds h1 =>
      have hd : ∀ b ∈ 48 :: ds, IsDec b := by
        intro b hb
        rcases List.mem_cons.mp hb with rfl | hb
        · simp [IsDec]
        · exact oct_dec (h1 b hb)
      have hs : setRat p (48 :: ds) = readFloat (48 :: ds) := by
        cases ds with
        | nil => rfl
        | cons c ds => rw [setRat, if_neg (fun hc => dec_not_x (hd c (by simp)) hc.2)]
      refine ⟨?_, ?_, fun _ _ => hs.trans (readFloat_dec hd (by simp))⟩
      · rintro (hp | hp)
        · simp at hp
        · rw [hs, readFloat_dec hd (by simp), hp]
          injection hp with _ hp
          subst hp
          rfl
      · rintro ⟨c, es, e, hc⟩
        injection e with _ e
        subst e
        exact absurd hc (dec_not_x (hd c (by simp)))
    | @hex c ds h1 h2 h3 =>
      refine ⟨?_, fun _ => ?_, fun _ hh => absurd ⟨c, ds, rfl, h1⟩ hh⟩
      · rintro (hp | hp)
        · simp at hp
        · cases hp
      · cases p with
        | false => rw [setRat, if_neg (by simp), readFloat_hex h1]; rfl
        | true =>
          have hu : parseUint 16 ds = some (numeral 16 ds) := by
            cases ds with
            | nil => exact absurd rfl h3
            | cons b ds => exact parseDigits_all (base := 16) (fun b hb => hexDigit (h2 b hb)) 0
          rw [setRat, if_pos ⟨rfl, h1⟩, hu]
          rfl
  · rw [hi] at e; cases e
  · rw [hi] at e; cases e

mutual
/-- The literals of an expression are tokens of the text. -/
theorem reads_lits {V : Type} {C : Calc V F} {G Q : Token → Prop} : ∀ {l ts e}, Reads C l ts e →
    (∀ t ∈ ts, (litRule? C t).isSome → G t → Q t) → e.AllNums G → e.AllNums Q
  | _, _, _, .sum h, hq, hg => reads_lits h hq hg
  | _, _, _, .add h _ h', hq, hg => ⟨reads_lits h (fun t ht => hq t (by simp [ht])) hg.1, reads_lits h' (fun t ht => hq t (by simp [ht])) hg.2⟩
  | _, _, _, .sub h _ h', hq, hg => ⟨reads_lits h (fun t ht => hq t (by simp [ht])) hg.1, reads_lits h' (fun t ht => hq t (by simp [ht])) hg.2⟩
  | _, _, _, .product h, hq, hg => reads_lits h hq hg
  | _, _, _, .mul h _ h', hq, hg => ⟨reads_lits h (fun t ht => hq t (by simp [ht])) hg.1, reads_lits h' (fun t ht => hq t (by simp [ht])) hg.2⟩
  | _, _, _, .num h, hq, hg => hq _ (by simp) (by simp [h]) hg
  | _, _, _, .name _ _, _, _ => trivial
  | _, _, _, .neg (e := e) _ h, hq, hg => by
    rw [Ex.AllNums] at hg ⊢
    exact reads_lits h (fun t ht => hq t (by simp [ht])) hg
  | _, _, _, .pos _ h, hq, hg => reads_lits h (fun t ht => hq t (by simp [ht])) hg
  | _, _, _, .paren _ h _, hq, hg => reads_lits h (fun t ht => hq t (by simp [ht])) hg
  | _, _, _, .call _ _ h _, hq, hg => by
    rw [Ex.AllNums] at hg ⊢
    exact readsArgs_lits h (fun t ht => hq t (by simp [ht])) hg
theorem readsArgs_lits {V : Type} {C : Calc V F} {G Q : Token → Prop} : ∀ {ts es}, ReadsArgs C ts es →
    (∀ t ∈ ts, (litRule? C t).isSome → G t → Q t) → allNums G es → allNums Q es
  | _, _, .nil, _, _ => trivial
  | _, _, .some h h', hq, hg => ⟨reads_lits h (fun t ht => hq t (by simp [ht])) hg.1, readsMore_lits h' (fun t ht => hq t (by simp [ht])) hg.2⟩
theorem readsMore_lits {V : Type} {C : Calc V F} {G Q : Token → Prop} : ∀ {ts es}, ReadsMore C ts es →
    (∀ t ∈ ts, (litRule? C t).isSome → G t → Q t) → allNums G es → allNums Q es
  | _, _, .nil, _, _ => trivial
  | _, _, .cons _ h h', hq, hg => ⟨reads_lits h (fun t ht => hq t (by simp [ht])) hg.1, readsMore_lits h' (fun t ht => hq t (by simp [ht])) hg.2⟩
end

theorem rat_lit_kind {L : Lits F} {ss : Str → Option Rat} {t : Token} (h : (litRule? (rat L ss) t).isSome) : t.kind = INT := by
  rw [Option.isSome_iff_exists] at h
  obtain ⟨r, h⟩ := h
  have h1 := List.mem_of_find?_eq_some h
  have h2 := List.find?_some h
  simp only [rat, List.mem_cons, List.not_mem_nil, or_false] at h1
  subst h1
  have h3 : t.kind = INT ∨ t.kind = INT ∧ INT = FLOAT := by simpa using h2
  exact h3.elim id fun h => h.1

/-- Numbers that are read as they are written, by the version of Go. -/
def ReadWell (p : Bool) (t : Token) : Prop := PlainDecimal t.lit ∨ (p = true ∧ Hexadecimal t.lit)

theorem rat_lits {k : KwScanner} (hk : KwScanner.Steps U KwScanner.zero k) {src : Str} {mode : Mode} {ts : List Token} {eof : Token}
    (h : Tokenizes U k src mode ts eof) (L : Lits F) (p : Bool) {e : Ex} (he : Reads (rat L (setRat p)) 0 ts e) (hw : e.AllNums (ReadWell p)) :
    e.AllNums fun t => setRat p t.lit = some (wholeValue t.lit) := by
  refine reads_lits he (fun t ht hr hg => ?_) hw
  obtain ⟨h1, h2, _⟩ := C121_literal_partial hk h ht (rat_lit_kind hr) p
  rcases hg with hg | ⟨rfl, hg⟩
  · exact h1 hg
  · exact h2 hg

/-- C121 (what holds): package rat computes the value of an expression with the values of the whole numbers
in it, of any size, unless there are octal numbers in it, or hexadecimal numbers and Go is
older than 1.14. -/
theorem C121_computes_partial (L : Lits F) (p : Bool) {mode : Mode} {fuel0 : Nat} {r : CompileRet Str}
    (hr : (rat L (setRat p)).client.new ratGrammar mode U fuel0 = some (.ok r)) (s : St (Calc.Eng (Option Rat)))
    (hk : KwScanner.Steps U KwScanner.zero s.u.scanner)
    {src : Str} {toks : List Token} {eof : Token} (ht : Tokenizes U s.u.scanner src mode toks eof)
    {e : Ex} (he : Reads (rat L (setRat p)) 0 toks e) (hw : e.AllNums (ReadWell p)) :
    Computes (rat L (setRat p)) r U src s ((ratValue wholeValue e).map some) :=
  C53_rat L (setRat p) hr s hk ht he (rat_lits hk ht L p he hw)

/-- C121 (what holds): examples/ratcalc answers lines with such numbers with the values of the
expressions, and everything else as C91 says. -/
theorem C121_session_partial (L : Lits F) (p : Bool) {ls : List Str} {stdin : Str} (h : Lines ls stdin) (hl : ∀ l ∈ ls, l.length < 64 * 1024)
    (hw : ∀ l ∈ ls, ∀ core e, Trimmed l core → Expression (rat L (setRat p)) U core e → e.AllNums (ReadWell p)) :
    ∃ fuel os, Repl.main (Repl.ratcalc L (setRat p)) U fuel stdin = some ⟨0, os.flatten⟩ ∧
      List.Forall₂ (Answer (rat L (setRat p)) U (ratcalcText wholeValue)) ls os := by
  obtain ⟨fuel, os, h1, h2⟩ := session (U := U) (P := Repl.ratcalc L (setRat p)) (ratcalc_package L _) (rat_counts _ _ _)
    (v := printed (Repl.ratcalc L (setRat p))) (fun _ _ _ => rfl) h hl
  refine ⟨fuel, os, h1, ?_⟩
  have same : ∀ core e, Expression (rat L (setRat p)) U core e → e.AllNums (ReadWell p) →
      printed (Repl.ratcalc L (setRat p)) e = ratcalcText wholeValue e := by
    intro core e ⟨toks, eof, ht, hr⟩ hw
    show ((e.eval (rat L (setRat p))).bind (Repl.ratcalc L (setRat p)).text) = _
    rw [rat_value L (setRat p) wholeValue e (reads_nums hr) (rat_lits (.refl _) ht L p hr hw), ratcalcText]
    cases ratValue wholeValue e <;> rfl
  have go : ∀ {ls os}, List.Forall₂ (Answer (rat L (setRat p)) U (printed (Repl.ratcalc L (setRat p)))) ls os →
      (∀ l ∈ ls, ∀ core e, Trimmed l core → Expression (rat L (setRat p)) U core e → e.AllNums (ReadWell p)) →
      List.Forall₂ (Answer (rat L (setRat p)) U (ratcalcText wholeValue)) ls os := by
    intro ls os hf hw
    induction hf with
    | nil => exact .nil
    | @cons l o ls os ha _ ih =>
      refine .cons ?_ (ih fun l hl => hw l (.tail _ hl))
      have hw := hw l (.head _)
      cases ha with
      | blank h1 => exact .blank h1
      | value h1 h2 h3 => exact .value h1 h2 ((same _ _ h2 (hw _ _ h1 h2)).symm.trans h3)
      | fault h1 h2 h3 h4 => exact .fault h1 h2 ((same _ _ h2 (hw _ _ h1 h2)).symm.trans h3) h4
      | other h1 h2 h3 h4 => exact .other h1 h2 h3 h4
  exact go h2 hw

/-- C121: the numbers ratcalc prints are read as they are written, so it answers them with themselves
(C93), with every version of Go. -/
theorem C121_read_back (L : Lits F) (p : Bool) (xs : List Rat) (hl : ∀ x ∈ xs, (ratText x).length < 64 * 1024) :
    ∃ fuel, Repl.main (Repl.ratcalc L (setRat p)) U fuel (withEnds (xs.map ratText)) = some ⟨0, xs.map fun x => shown (ratText x)⟩ := by
  refine C93_read_back L (setRat p) (fun n => ?_) xs hl
  have h1 : ∀ b ∈ Repl.digits n, IsDec b := digitsAux_dec _ _
  obtain ⟨d, ds, h2, h3⟩ := digitsAux_head (n + 1) n (by omega)
  have h2 : Repl.digits n = d :: ds := h2
  have hs : setRat p (Repl.digits n) = readFloat (Repl.digits n) := by
    rw [h2]
    unfold setRat
    split
    · rename_i e
      injection e with e1 e2
      obtain ⟨_, e3⟩ := h3 e1
      rw [e2] at e3
      cases e3
    · rfl
  rw [hs, readFloat_dec h1 (by rw [h2]; simp)]
  unfold Repl.digits
  rw [digitsAux_numeral _ _ (by omega)]
  rfl

/-- C121: a number that begins with 0 is octal in TPL text (and package number takes it so, C119), but package
rat takes it for decimal: it computes 10 for `010`, which is 8. -/
theorem C121_violated (p : Bool) : ∃ src t eof, Tokenizes ascii KwScanner.zero src plain [t] eof ∧ NumberValue t 8 ∧
    wholeValue t.lit = 8 ∧ setRat p t.lit = some 10 := by
  obtain ⟨eof, h⟩ := one_token (src := bytes "010") (t := ⟨INT, 0, bytes "010"⟩) (by decide +kernel)
  refine ⟨_, _, _, h, ?_, by decide +kernel, by revert p; decide +kernel⟩
  have hv : IntValue (bytes "010") 8 := .oct (ds := bytes "10") (by unfold IsOct; decide)
  exact .int rfl hv

/-- C121: with the version of Go the module is for, hexadecimal numbers have no value: the calculator for
rational numbers computes with a nil pointer. -/
theorem C121_violated_hex : ∃ src t eof, Tokenizes ascii KwScanner.zero src plain [t] eof ∧ NumberValue t 16 ∧
    wholeValue t.lit = 16 ∧ setRat false t.lit = none := by
  obtain ⟨eof, h⟩ := one_token (src := bytes "0x10") (t := ⟨INT, 0, bytes "0x10"⟩) (by decide +kernel)
  refine ⟨_, _, _, h, ?_, by decide +kernel, by decide +kernel⟩
  have hv : IntValue (bytes "0x10") 16 := .hex (x := 120) (ds := bytes "10") (by decide) (by unfold IsHex; decide) (by decide)
  exact .int rfl hv

/-! Non-vacuity -/

example : ReadWell false ⟨INT, 0, bytes "123456789012345678901234567890"⟩ ∧ ReadWell true ⟨INT, 0, bytes "0xFFFFFFFFFFFFFFFFFF"⟩ :=
  ⟨.inl (.inl (by decide)), .inr ⟨rfl, 120, _, rfl, .inl rfl⟩⟩

example : setRat false (bytes "123456789012345678901234567890") = some 123456789012345678901234567890 ∧
    setRat true (bytes "0xFFFFFFFFFFFFFFFFFF") = some (2 ^ 72 - 1) := by decide +kernel

/-- A session: a number of 30 digits and a hexadecimal one, and an octal one, which is taken for
decimal. -/
example : ((Repl.main (Repl.ratcalc noFloats (setRat true)) ascii 60 (str "100000000000000000000000000000/3 + 1\n0x10/6\n010\n")).map fun e =>
    (e.code, e.prints.map fun
    | .out text => some text
    | _ => none)) = some (0, [some (str "> 100000000000000000000000000003/3\n\n"), some (str "> 8/3\n\n"), some (str "> 10\n\n")]) := by kernel_rfl

/-- With the older version a hexadecimal number is a nil pointer; the answer to it in an expression is an error. -/
example : ((Repl.main (Repl.ratcalc noFloats (setRat false)) ascii 60 (str "0x10 + 1\n1\n")).map fun e =>
    (e.code, e.prints.map fun
    | .out text => some text
    | _ => none)) = some (0, [none, some (str "> 1\n\n")]) := by kernel_rfl

end Tpl.Props
