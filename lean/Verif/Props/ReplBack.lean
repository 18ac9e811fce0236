import Verif.Props.Repl
import Verif.Proof.ScannerSpell

/-! C93: what ratcalc prints can be typed in again. -/
namespace Tpl.Props
open Tpl Tpl.Spec Tpl.Scanner Repl
variable {V F Z : Type} {U : Uni}

/-! ### Numerals -/

theorem digitByte (k : Nat) (h : k < 10) : IsDec (48 + k.toUInt8) ∧ (48 + k.toUInt8 = 48 → k = 0) := by
  revert k; unfold IsDec; decide

theorem digitsAux_dec : ∀ (f n : Nat), ∀ b ∈ digitsAux f n, IsDec b
  | 0, _, _, h => by cases h
  | f + 1, n, b, h => by
    rw [digitsAux] at h
    split at h
    · next hn => rw [List.mem_singleton.mp h]; exact (digitByte n hn).1
    · rcases List.mem_append.mp h with h | h
      · exact digitsAux_dec f _ b h
      · rw [List.mem_singleton.mp h]; exact (digitByte _ (Nat.mod_lt _ (by decide))).1

theorem digitsAux_head : ∀ (f n : Nat), n < f → ∃ d ds, digitsAux f n = d :: ds ∧ (d = 48 → n = 0 ∧ ds = [])
  | f + 1, n, h => by
    rw [digitsAux]
    split
    · next hn => exact ⟨_, [], rfl, fun h => ⟨(digitByte n hn).2 h, rfl⟩⟩
    · next hn =>
      obtain ⟨d, ds, e, hd⟩ := digitsAux_head f (n / 10) (by omega)
      rw [e]
      exact ⟨d, ds ++ [48 + (n % 10).toUInt8], rfl, fun h => absurd (hd h).1 (by omega)⟩

theorem digits_text (n : Nat) {r : Str} (h1 : ¬ DecNext r) (h2 : ¬ FracNext r) (h3 : ¬ (CharNext 120 r ∨ CharNext 88 r)) :
    IntText true (digits n) r := by
  have hd := digitsAux_dec (n + 1) n
  obtain ⟨d, ds, e, h0⟩ := digitsAux_head (n + 1) n (by omega)
  unfold digits
  rw [e] at hd ⊢
  by_cases hz : d = 48
  · obtain rfl := (h0 hz).2
    subst hz
    exact .oct (by simp) h1 h2 fun h => h3 h.2
  · exact .dec (hd d (by simp)) hz (fun b hb => hd b (by simp [hb])) h1 h2

theorem digits_head (n : Nat) (r : Str) : DecNext (digits n ++ r) := by
  obtain ⟨d, ds, e, _⟩ := digitsAux_head (n + 1) n (by omega)
  refine ⟨d, ds ++ r, ?_, digitsAux_dec (n + 1) n d (by rw [e]; simp)⟩
  unfold digits
  rw [e]
  rfl

/-- An operator before a digit. -/
theorem op_len2 : ∀ p ∈ operators, ∀ b ∈ (bytes p.2).drop 1, ¬ (48 ≤ b.toNat ∧ b.toNat ≤ 57) := by decide +kernel

theorem op_before_digit {k : Nat} {s : String} {r : Str} (h : (k, s) ∈ operators) (h1 : (bytes s).length = 1) (hk : k ≠ PERIOD)
    (hr : DecNext r) {semi : Bool} {p : Nat} :
    TokText U true false semi ⟨k, p, if k = SEMICOLON then [59] else []⟩ (bytes s) r (endsStatement k) := by
  obtain ⟨b, t, rfl, hb⟩ := hr
  refine .op h (fun k' s' h' hp => ?_) ?_ (fun h => hk h.1)
  · rw [← op_len _ h', ← op_len _ h]
    dsimp only
    rw [h1]
    apply Nat.le_of_not_lt
    intro hl
    obtain ⟨c, hc⟩ := List.length_eq_one_iff.mp h1
    rw [hc] at hp
    have hn := op_len2 _ h'
    dsimp only at hn
    generalize hx : bytes s' = x at *
    match x, hl with
    | y :: z :: w, _ =>
      obtain ⟨v, hv⟩ := hp
      simp only [List.cons_append, List.nil_append, List.cons.injEq] at hv
      obtain ⟨_, rfl, _⟩ := hv
      exact hn z (by simp) hb
  · rintro ⟨_, ⟨t', h'⟩ | ⟨t', h'⟩⟩ <;> cases h' <;> exact absurd hb (by unfold IsDec; decide)

/-! ### Fractions as tokens -/

theorem lexes_digits {n o : Nat} {semi : Bool} {r : Str} (h1 : ¬ DecNext r) (h2 : ¬ FracNext r) (h3 : ¬ (CharNext 120 r ∨ CharNext 88 r))
    {ts} (h : Lexes U true ⟨false, false⟩ (o + (digits n).length) r false ts) :
    Lexes U true ⟨false, false⟩ o (digits n ++ r) semi (⟨INT, o, digits n⟩ :: ts) :=
  Lexes.cons (mode := ⟨false, false⟩) (g := []) (semi1 := semi) (semi2 := true) (t := ⟨INT, o, digits n⟩) (show INT ≠ EOF by decide) .nil rfl (.int (digits_text n h1 h2 h3)) h

theorem lexes_end (o : Nat) : Lexes U true ⟨false, false⟩ o [] false [⟨EOF, o, []⟩] := .eof (g := []) .nil rfl

theorem lexes_op {k : Nat} {s : String} {c : UInt8} (h : (k, s) ∈ operators) (h1 : bytes s = [c]) (hk : k ≠ PERIOD ∧ k ≠ SEMICOLON ∧ k ≠ EOF)
    {r : Str} (hr : DecNext r) {o : Nat} {semi : Bool} {ts} (hl : Lexes U true ⟨false, false⟩ (o + 1) r false ts) :
    Lexes U true ⟨false, false⟩ o (c :: r) semi (⟨k, o, []⟩ :: ts) := by
  have ht := op_before_digit (U := U) (semi := semi) (p := o) h (by rw [h1]; rfl) hk.1 hr
  rw [if_neg hk.2.1, h1] at ht
  refine Lexes.cons (mode := ⟨false, false⟩) (g := []) (x := [c]) (semi1 := semi) (semi2 := endsStatement k) (t := ⟨k, o, []⟩) hk.2.2 .nil rfl ht ?_
  rw [Bool.and_false]
  exact hl

theorem no_next (b : UInt8) (r : Str) (h : b = 47) : ¬ DecNext (b :: r) ∧ ¬ FracNext (b :: r) ∧ ¬ (CharNext 120 (b :: r) ∨ CharNext 88 (b :: r)) := by
  subst h
  refine ⟨?_, ?_, ?_⟩
  · rintro ⟨_, _, h, hd⟩; cases h; exact absurd hd (by unfold IsDec; decide)
  · rintro (⟨_, h⟩ | ⟨_, h⟩ | ⟨_, h⟩ | ⟨_, h⟩) <;> cases h
  · rintro (⟨_, h⟩ | ⟨_, h⟩) <;> cases h

theorem no_next_end : ¬ DecNext [] ∧ ¬ FracNext [] ∧ ¬ (CharNext 120 [] ∨ CharNext 88 []) := by
  refine ⟨?_, ?_, ?_⟩
  · rintro ⟨_, _, h, hd⟩; cases h
  · rintro (⟨_, h⟩ | ⟨_, h⟩ | ⟨_, h⟩ | ⟨_, h⟩) <;> cases h
  · rintro (⟨_, h⟩ | ⟨_, h⟩) <;> cases h

theorem ops_here : (45, "-") ∈ operators ∧ bytes "-" = [45] ∧ (QUO, "/") ∈ operators ∧ bytes "/" = [47] := by decide +kernel

/-- The tokens of a numerator. -/
def numToks (n : Int) (o : Nat) : List Token := if n < 0 then [⟨45, o, []⟩, ⟨INT, o + 1, digits n.natAbs⟩] else [⟨INT, o, digits n.natAbs⟩]

theorem lexes_decimal {n : Int} {o : Nat} {semi : Bool} {r : Str} (h1 : ¬ DecNext r) (h2 : ¬ FracNext r) (h3 : ¬ (CharNext 120 r ∨ CharNext 88 r))
    {ts} (h : Lexes U true ⟨false, false⟩ (o + (decimal n).length) r false ts) :
    Lexes U true ⟨false, false⟩ o (decimal n ++ r) semi (numToks n o ++ ts) := by
  unfold decimal numToks at *
  split
  · next hn =>
    rw [if_pos hn] at h
    refine lexes_op (c := 45) ops_here.1 ops_here.2.1 (by decide) (digits_head _ _) (lexes_digits h1 h2 h3 ?_)
    rw [Nat.add_assoc, Nat.add_comm 1]
    exact h
  · next hn => rw [if_neg hn] at h; exact lexes_digits h1 h2 h3 h

/-- The tokens of a fraction. -/
def ratToks (x : Rat) : List Token :=
  if x.den = 1 then numToks x.num 0
  else numToks x.num 0 ++ [⟨QUO, (decimal x.num).length, []⟩, ⟨INT, (decimal x.num).length + 1, digits x.den⟩]

theorem decimal_nat (n : Nat) : decimal (n : Int) = digits n := by
  unfold decimal
  rw [if_neg (by omega)]
  rfl

theorem lexes_rat (x : Rat) : ∃ p, Lexes U true ⟨false, false⟩ 0 (ratText x) false (ratToks x ++ [⟨EOF, p, []⟩]) := by
  unfold ratText ratToks
  obtain ⟨a, b, c⟩ := no_next_end
  split
  · refine ⟨(decimal x.num).length, ?_⟩
    have := lexes_decimal (U := U) (n := x.num) (o := 0) (semi := false) a b c (lexes_end _)
    rw [List.append_nil, Nat.zero_add] at this
    exact this
  · have h1 := lexes_digits (U := U) (n := x.den) (o := (decimal x.num).length + 1) (semi := false) a b c (lexes_end _)
    have h2 := lexes_op (U := U) (c := 47) (semi := false) ops_here.2.2.1 ops_here.2.2.2 (by decide) (digits_head _ _) h1
    obtain ⟨a, b, c⟩ := no_next 47 (digits x.den ++ []) rfl
    have h3 := lexes_decimal (U := U) (n := x.num) (o := 0) (semi := false) a b c (by rw [Nat.zero_add]; exact h2)
    rw [decimal_nat]
    rw [show (str "/" : Str) = [47] by decide +kernel]
    simp only [List.append_nil] at h3
    exact ⟨_, by simpa using h3⟩

theorem decimal_ascii (n : Int) : ∀ b ∈ decimal n, b = 45 ∨ IsDec b := by
  intro b hb
  unfold decimal at hb
  split at hb
  · rcases List.mem_cons.mp hb with h | h
    · exact .inl h
    · exact .inr (digitsAux_dec _ _ b h)
  · exact .inr (digitsAux_dec _ _ b hb)

theorem ratText_bytes (x : Rat) : ∀ b ∈ ratText x, b = 45 ∨ b = 47 ∨ IsDec b := by
  intro b hb
  have h1 : ∀ n, b ∈ decimal n → b = 45 ∨ b = 47 ∨ IsDec b := fun n h => (decimal_ascii n b h).elim .inl fun h => .inr (.inr h)
  unfold ratText at hb
  split at hb
  · exact h1 _ hb
  · rw [List.mem_append, List.mem_append] at hb
    rcases hb with (h | h) | h
    · exact h1 _ h
    · rw [show (str "/" : Str) = [47] by decide +kernel] at h
      exact .inr (.inl (List.mem_singleton.mp h))
    · exact h1 _ h

theorem ratText_clean (x : Rat) : Clean (ratText x) := by
  refine clean_of_ascii fun b hb => ?_
  rcases ratText_bytes x b hb with rfl | rfl | ⟨h1, h2⟩
  · decide
  · decide
  · omega

theorem ratText_tokens (x : Rat) : ∃ eof, Tokenizes U KwScanner.zero (ratText x) ⟨false, false⟩ (ratToks x) eof := by
  obtain ⟨p, h⟩ := lexes_rat (U := U) x
  have hc := ratText_clean x
  have hb := bomLen_clean hc
  obtain ⟨s', r1, r2⟩ := (run_iff U KwScanner.zero.sc (ratText x) ⟨false, false⟩ _).mpr (by rw [hb]; exact ⟨hc, h⟩)
  refine ⟨⟨EOF, p, []⟩, _, s', r1, r2, ?_⟩
  symm
  rw [List.map_congr_left (g := id), List.map_id]
  intro t _
  split
  · next hk =>
    have : KwScanner.zero.keywords.get t.lit = none := rfl
    rw [this]
    exact hk ▸ rfl
  · rfl

/-! ### Fractions as expressions -/

section
variable (L : Lits F) (ss : Str → Option Rat)

def numEx (n : Int) : Ex := if n < 0 then .neg (.num ⟨INT, 1, digits n.natAbs⟩) else .num ⟨INT, 0, digits n.natAbs⟩

/-- A fraction as an expression. -/
def ratEx (x : Rat) : Ex :=
  if x.den = 1 then numEx x.num
  else .bin .quo (numEx x.num) (.num ⟨INT, (decimal x.num).length + 1, digits x.den⟩)

theorem lit_int (p : Nat) (l : Str) : ∃ r, litRule? (rat L ss) ⟨INT, p, l⟩ = some r := ⟨_, rfl⟩

theorem reads_num (n : Int) : Reads (rat L ss) 2 (numToks n 0) (numEx n) := by
  unfold numToks numEx
  split
  · exact .neg rfl (.num (lit_int L ss _ _).choose_spec)
  · exact .num (lit_int L ss _ _).choose_spec

theorem reads_rat (x : Rat) : Reads (rat L ss) 0 (ratToks x) (ratEx x) := by
  unfold ratToks ratEx
  split
  · exact .sum (.product (reads_num L ss _))
  · exact .sum (.mul (ts := numToks x.num 0) (t := ⟨QUO, _, []⟩) (.product (reads_num L ss _)) (.tail _ (.head _)) (.num (lit_int L ss _ _).choose_spec))

theorem ratText_expression (x : Rat) : Expression (rat L ss) U (ratText x) (ratEx x) := by
  obtain ⟨eof, h⟩ := ratText_tokens (U := U) x
  exact ⟨_, eof, h, reads_rat L ss x⟩

theorem rat_num_div_den (x : Rat) : (x.num : Rat) / (x.den : Rat) = x := by
  have h2 : Rat.divInt ((x.den : Rat).den : Int) (x.den : Rat).num = Rat.divInt (1 : Int) (x.den : Int) := by simp
  rw [Rat.div_def, Rat.inv_def, Rat.mul_def', h2]
  have : Rat.divInt (1 : Int) (x.den : Int) = ⟨1, x.den, x.den_nz, by simp⟩ := by
    rw [Rat.mk_eq_divInt]
  rw [this]
  simp [Rat.mkRat_self]

variable {lit : Str → Rat}

theorem numEx_value (hl : ∀ n : Nat, lit (digits n) = n) (n : Int) : ratValue lit (numEx n) = .ok (n : Rat) := by
  unfold numEx
  split
  · simp only [ratValue, hl, Except.bind]
    congr 1
    rw [← Rat.intCast_natCast, ← Rat.intCast_neg]
    congr 1
    omega
  · simp only [ratValue, hl]
    congr 1
    rw [← Rat.intCast_natCast]
    congr 1
    omega

theorem ratEx_value (hl : ∀ n : Nat, lit (digits n) = n) (x : Rat) : ratValue lit (ratEx x) = .ok x := by
  unfold ratEx
  split
  · next h => rw [numEx_value hl]; exact congrArg _ (Rat.ext rfl h.symm)
  · have hd : (x.den : Rat) ≠ 0 := by
      have := x.den_nz
      rw [Ne, ← Rat.intCast_natCast]
      intro h
      have h := congrArg Rat.num h
      rw [Rat.num_intCast] at h
      exact this (by simpa using h)
    simp only [ratValue, numEx_value hl, hl, Except.bind, if_neg hd]
    rw [rat_num_div_den]

end

/-! ### Answers are unique -/

theorem trimmed_whole {l core : Str} (h : Trimmed l core) (hw : ∀ b ∈ l, ¬ WhiteByte b) : core = l := by
  obtain ⟨⟨a, b, e, ha, hb⟩, _, _⟩ := h
  have h1 : a = [] := List.eq_nil_iff_forall_not_mem.mpr fun c hc => hw c (by rw [e]; simp [hc]) (ha c hc)
  have h2 : b = [] := List.eq_nil_iff_forall_not_mem.mpr fun c hc => hw c (by rw [e]; simp [hc]) (hb c hc)
  rw [e, h1, h2]
  simp

/-- An expression means one thing only. -/
theorem expression_value {C : Calc V F} {text : Str} (hp : IsPackage C text) (hn : ∀ n, Calc.Counts C n) {core : Str} {e e' : Ex}
    (h : Expression C U core e) (h' : Expression C U core e') : e.eval C = e'.eval C := by
  obtain ⟨f0, r, hr⟩ := C53_compiles hp U ⟨false, false⟩
  have hroot : r.root ≠ .nil := by rw [(package_engine hp hr).1]; intro h; cases h
  have hs : ReadsAs U KwScanner.zero (start (V := V) r).u.scanner := package_reads hp hr
  obtain ⟨ts, eof, h1, h2⟩ := h
  obtain ⟨ts', eof', h1', h2'⟩ := h'
  have a := calc_eval hp hr _ hs.steps (readsAs_tokens rfl hs h1) h2 (hn _)
  have b := calc_eval hp hr _ hs.steps (readsAs_tokens rfl hs h1') h2' (hn _)
  cases hv : e.eval C with
  | ok v =>
    rw [hv] at a
    obtain ⟨f, s1, a1, a2⟩ := a
    cases hw : e'.eval C with
    | ok w =>
      rw [hw] at b
      obtain ⟨f', s1', b1, b2⟩ := b
      cases computes_unique hroot a1 b1
      rw [a2] at b2
      have := List.append_cancel_left b2
      injection this with this
      rw [this]
    | error c =>
      rw [hw] at b
      obtain ⟨f', s1', g, us, b1⟩ := b
      cases computes_unique hroot a1 b1
  | error c =>
    rw [hv] at a
    obtain ⟨f, s1, g, us, a1⟩ := a
    cases hw : e'.eval C with
    | ok w =>
      rw [hw] at b
      obtain ⟨f', s1', b1, b2⟩ := b
      cases computes_unique hroot a1 b1
    | error d =>
      rw [hw] at b
      obtain ⟨f', s1', g', us', b1⟩ := b
      cases computes_unique hroot a1 b1
      rfl

/-- The answer to a printed number. -/
theorem ratText_answer {L : Lits F} {ss : Str → Option Rat} (hss : ∀ n : Nat, ss (digits n) = some (n : Rat)) (x : Rat) {o}
    (h : Answer (rat L ss) U (printed (ratcalc L ss)) (ratText x) o) : o = [shown (ratText x)] := by
  have hw : ∀ b ∈ ratText x, ¬ WhiteByte b := by
    intro b hb hw
    have := ratText_bytes x b hb
    rcases hw with rfl | rfl | rfl | rfl <;> (revert this; unfold IsDec; decide)
  have hx := ratText_expression (U := U) L ss x
  have hv : printed (ratcalc L ss) (ratEx x) = .ok (ratText x) := by
    have h1 := rat_value L ss (fun s => (ss s).getD 0) (ratEx x) (reads_nums (reads_rat L ss x)) (by
      unfold ratEx numEx
      split <;> split <;> simp only [Ex.AllNums, hss, Option.getD, and_self])
    rw [ratEx_value (fun n => by rw [hss]; rfl)] at h1
    show ((ratEx x).eval (rat L ss)).bind _ = _
    rw [h1]
    rfl
  have key : ∀ core e, Trimmed (ratText x) core → Expression (rat L ss) U core e → printed (ratcalc L ss) e = .ok (ratText x) := by
    intro core e h1 h2
    rw [trimmed_whole h1 hw] at h2
    rw [← hv]
    show (e.eval (rat L ss)).bind _ = ((ratEx x).eval (rat L ss)).bind _
    rw [expression_value (.rat L ss) (rat_counts L ss) h2 hx]
  cases h with
  | blank h =>
    exfalso
    have : ratText x = [] := List.eq_nil_iff_forall_not_mem.mpr fun c hc => hw c hc (h c hc)
    have h2 : ∃ b r, ratText x = b :: r := by
      unfold ratText decimal
      obtain ⟨b, r, h, _⟩ := digits_head x.num.natAbs []
      rw [List.append_nil] at h
      rw [h]
      split <;> split <;> exact ⟨_, _, rfl⟩
    obtain ⟨b, r, h2⟩ := h2
    rw [h2] at this
    cases this
  | value h1 h2 h3 => rw [key _ _ h1 h2] at h3; cases h3; rfl
  | fault h1 h2 h3 => rw [key _ _ h1 h2] at h3; cases h3
  | other h1 h2 h3 => rw [trimmed_whole h1 hw] at h3; exact absurd hx (h3 _)

/-- C93: ratcalc answers the numbers that it prints with themselves. -/
theorem C93_read_back (L : Lits F) (ss : Str → Option Rat) (hss : ∀ n : Nat, ss (digits n) = some (n : Rat)) (xs : List Rat)
    (hl : ∀ x ∈ xs, (ratText x).length < 64 * 1024) :
    ∃ fuel, Repl.main (ratcalc L ss) U fuel (withEnds (xs.map ratText)) = some ⟨0, xs.map fun x => shown (ratText x)⟩ := by
  have hn : ∀ l ∈ xs.map ratText, 10 ∉ l := by
    intro l hl h
    obtain ⟨x, _, rfl⟩ := List.mem_map.mp hl
    have := ratText_bytes x 10 h
    revert this
    unfold IsDec
    decide
  have hlines : ∀ ls : List Str, (∀ l ∈ ls, 10 ∉ l) → Lines ls (withEnds ls) := by
    intro ls
    induction ls with
    | nil => intro _; exact .nil
    | cons l ls ih =>
      intro h
      have := Lines.cons (h l (by simp)) (ih fun l hl => h l (by simp [hl]))
      simpa [withEnds] using this
  obtain ⟨fuel, os, h1, h2⟩ := session (U := U) (P := ratcalc L ss) (v := printed (ratcalc L ss)) (ratcalc_package L ss) (rat_counts L ss _)
    (fun _ _ _ => rfl) (hlines _ hn) (by
      intro l hm
      obtain ⟨x, hx, rfl⟩ := List.mem_map.mp hm
      exact hl x hx)
  refine ⟨fuel, ?_⟩
  rw [h1]
  have : ∀ (xs : List Rat) os, List.Forall₂ (Answer (rat L ss) U (printed (ratcalc L ss))) (xs.map ratText) os →
      os.flatten = xs.map fun x => shown (ratText x) := by
    intro xs
    induction xs with
    | nil => intro os h; cases h; rfl
    | cons x xs ih =>
      intro os h
      cases h with
      | cons h h' => rw [ratText_answer hss x h, List.flatten_cons, ih _ h']; rfl
  rw [this xs os h2]

theorem digit_byte (k : Nat) (h : k < 10) : digit (48 + k.toUInt8) = k := by
  revert k; decide

theorem digitsAux_numeral : ∀ (f n : Nat), n < f → numeral 10 (digitsAux f n) = n
  | f + 1, n, h => by
    rw [digitsAux]
    split
    · next hn => simp [numeral, digit_byte n hn]
    · next hn =>
      have ih := digitsAux_numeral f (n / 10) (by omega)
      unfold numeral at ih ⊢
      rw [List.foldl_append, ih]
      simp only [List.foldl_cons, List.foldl_nil, digit_byte _ (Nat.mod_lt n (by decide : 0 < 10))]
      omega

/-- A reading of decimal numerals. -/
def readDigits (s : Str) : Option Rat := some ((numeral 10 s : Nat) : Rat)

theorem readDigits_digits (n : Nat) : readDigits (digits n) = some (n : Rat) := by
  unfold readDigits digits
  rw [digitsAux_numeral _ _ (by omega)]

/-- C93: different numbers are printed differently. -/
theorem C93_injective {x y : Rat} (h : ratText x = ratText y) : x = y := by
  have hv := fun x => rat_value noFloats readDigits (fun s => (readDigits s).getD 0) (ratEx x) (reads_nums (reads_rat noFloats readDigits x)) (by
    unfold ratEx numEx
    split <;> split <;> simp only [Ex.AllNums, readDigits_digits, Option.getD, and_self])
  have hw : ∀ x, (ratEx x).eval (rat noFloats readDigits) = .ok (some x) := by
    intro x
    rw [hv, ratEx_value (fun n => by rw [readDigits_digits]; rfl)]
    rfl
  have h1 := ratText_expression (U := ascii) noFloats readDigits x
  have h2 := ratText_expression (U := ascii) noFloats readDigits y
  rw [h] at h1
  have := expression_value (.rat noFloats readDigits) (rat_counts _ _) h1 h2
  rw [hw, hw] at this
  cases this
  rfl

/-! ### Examples -/

/-- A session: two sums, an empty line, an unfinished line, a division by zero, and a line
without an end. -/
example : ((Repl.main (ratcalc noFloats readInt) ascii 60 (str "1/2 + 1/3\r\n\n1 +\n 2/0\n-6/3")).map fun e => (e.code, e.prints.map fun
    | .out text => some text
    | _ => none)) = some (0, [some (str "> 5/6\n\n"), none, none, some (str "> -2\n\n")]) := by kernel_rfl

example : ratText (-7/20) = str "-7/20" ∧ ratText 100 = str "100" := by decide +kernel

mutual
theorem allNums_of {P : Token → Prop} (h : ∀ t, P t) : ∀ e : Ex, e.AllNums P
  | .num t => h t
  | .name _ => trivial
  | .neg e => by rw [Ex.AllNums]; exact allNums_of h e
  | .bin _ a b => ⟨allNums_of h a, allNums_of h b⟩
  | .call _ es => by rw [Ex.AllNums]; exact allNums_of_list h es
theorem allNums_of_list {P : Token → Prop} (h : ∀ t, P t) : ∀ es : List Ex, allNums P es
  | [] => trivial
  | e :: es => ⟨allNums_of h e, allNums_of_list h es⟩
end

/-- C91 for ratcalc: literals can all be numbers. -/
example (core : Str) (e : Ex) (_ : Expression (rat noFloats readDigits) U core e) :
    e.AllNums fun t => readDigits t.lit = some ((readDigits t.lit).getD 0) := allNums_of (fun _ => rfl) e

/-- Integers instead of float64 and complex128. -/
def ints : Float64 Int where
  lits := ⟨fun n => n, fun s => some (numeral 10 s)⟩
  neg := fun a => -a
  add := fun a b => a + b
  sub := fun a b => a - b
  mul := fun a b => a * b
  quo := fun a b => a / b
  mod := fun a b => a % b
  gt := fun a b => decide (b < a)
  e := 3
  pi := 3
  phi := 2
  inf := 0
  nan := 0
  ofInt := fun n => n
  toInt := fun n => n
  zero := 0
  fn := fun _ _ => 0

def ints2 : Complex128 Int (Int × Int) where
  lits := ints.lits
  ofReal := fun a => (a, 0)
  ofImag := fun a => (0, a)
  parseAny := fun s => numeral 10 s
  neg := fun a => (-a.1, -a.2)
  add := fun a b => (a.1 + b.1, a.2 + b.2)
  sub := fun a b => (a.1 - b.1, a.2 - b.2)
  mul := fun a b => (a.1 * b.1 - a.2 * b.2, a.1 * b.2 + a.2 * b.1)
  quo := fun _ b => b
  isReal := fun a => a.2 = 0
  ofInt := fun n => (n, 0)
  toInt := fun a => a.1
  fn := fun _ _ => (0, 0)

example : (∀ k : Nat, k ≤ 2 ^ 53 → ints.toInt (ints.ofInt k) = k) ∧
    ∀ k : Nat, k ≤ 2 ^ 53 → ints2.toInt (ints2.ofInt k) = k ∧ ints2.isReal (ints2.ofInt k) = true :=
  ⟨fun _ _ => rfl, fun _ _ => ⟨rfl, rfl⟩⟩

example : ((Repl.main (calculator ints decimal) ascii 60 (str "7 % 4 * -5\n\tpi\nqi\n")).map fun e => (e.code, e.prints.map fun
    | .out text => some text
    | _ => none)) = some (0, [some (str "> -15\n\n"), some (str "> 3\n\n"), none]) := by kernel_rfl

example : ((Repl.main (cmplxcalc ints2 (fun z => decimal z.1) fun z => decimal z.1 ++ str "," ++ decimal z.2) ascii 60 (str "(1+2i)*3i\n2i*2i\n")).map
    fun e => (e.code, e.prints.map fun
    | .out text => some text
    | _ => none)) = some (0, [some (str "> -6,3\n\n"), some (str "> -4\n\n")]) := by kernel_rfl

/-- The lines of a text. -/
example : Lines [str "1\r", [], str "2"] (str "1\r\n\n2") :=
  .cons (l := str "1\r") (by decide) (.cons (l := []) (by decide) (.last (by decide) (by decide)))

end Tpl.Props
