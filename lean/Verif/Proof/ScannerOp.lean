import Verif.Proof.ScannerAhead

/-! Operators: `scanOp` reads the longest operator. -/
namespace Tpl
namespace Scanner
open Spec

/-- `str` is the longest operator at the start of `bytes str ++ r`. -/
def Longest (str : String) (r : Str) : Prop :=
  ∀ k' s', (k', s') ∈ operators → bytes s' <+: bytes str ++ r → s'.length ≤ str.length

/-- An operator's bytes are its characters. -/
theorem op_len : ∀ p ∈ operators, (bytes p.2).length = p.2.length := by decide +kernel

/-- Which bytes extend a prefix `x` to a longer operator. -/
def exts (x : Str) (cs : List UInt8) : Bool :=
  operators.all fun p => !(x.isPrefixOf (bytes p.2)) || (bytes p.2).length ≤ x.length ||
    (match (bytes p.2)[x.length]? with | some c => c ∈ cs | none => false)

theorem longest_of {k : Nat} {str : String} {r : Str} (cs : List UInt8) (hm : (k, str) ∈ operators)
    (hx : exts (bytes str) cs = true) (hr : ∀ c ∈ cs, ¬ CharNext c r) : Longest str r := by
  intro k' s' hm' hp
  have h1 := List.all_eq_true.mp hx _ hm'
  simp only [Bool.or_eq_true, Bool.not_eq_true', decide_eq_true_eq] at h1
  have l1 := op_len _ hm
  have l2 := op_len _ hm'
  simp only at l1 l2
  rw [← l1, ← l2]
  apply Classical.byContradiction
  intro hlt
  have hlt : (bytes str).length < (bytes s').length := by omega
  obtain ⟨y, hy⟩ := hp
  have hpre : (bytes str).isPrefixOf (bytes s') = true := by
    rw [List.isPrefixOf_iff_prefix]
    refine List.prefix_of_prefix_length_le (l₃ := bytes str ++ r) (List.prefix_append _ _) ⟨y, hy⟩ (by omega)
  rcases h1 with (h1 | h1) | h1
  · rw [hpre] at h1; cases h1
  · omega
  · rw [List.getElem?_eq_getElem hlt] at h1
    simp only [decide_eq_true_eq] at h1
    apply hr _ h1
    obtain ⟨z, hz⟩ := List.isPrefixOf_iff_prefix.mp hpre
    have h3 : (bytes s')[(bytes str).length]? = (bytes str ++ z)[(bytes str).length]? := by rw [hz]
    rw [List.getElem?_eq_getElem hlt, List.getElem?_append_right (Nat.le_refl _)] at h3
    simp only [Nat.sub_self] at h3
    cases z with
    | nil => simp at h3
    | cons c z =>
      simp at h3
      rw [h3]
      rw [← hz, List.append_assoc] at hy
      have := List.append_cancel_left hy
      exact ⟨z ++ y, by simpa using this.symm⟩

/-- What a result of `scanOp` means. -/
def OpOk (s0 : Scanner) (k : Nat) (s' : Scanner) : Prop :=
  (∃ str, (k, str) ∈ operators ∧ Eat s0 (bytes str) s' ∧ Longest str s'.rest) ∨
  (k = ILLEGAL ∧ Eat s0 [46, 46] s' ∧ ¬ CharNext 46 s'.rest)

theorem opOk_of {s0 s' : Scanner} {k : Nat} (str : String) (cs : List UInt8) (hm : (k, str) ∈ operators)
    (hx : exts (bytes str) cs = true) (hc : ∀ c ∈ cs, c.toNat < 0x80 ∧ s'.ch ≠ c.toNat)
    (he : Eat s0 (bytes str) s') : OpOk s0 k s' :=
  .inl ⟨str, hm, he, longest_of cs hm hx (fun c hcs =>
    fun h => (hc c hcs).2 ((he.sync.charNext c (hc c hcs).1).mp h))⟩

/-- One-character operators that start no longer one. -/
theorem op1 {s0 : Scanner} {k : Nat} (h : Sync s0) (str : String) (c : UInt8) (hb : bytes str = [c])
    (hc : c.toNat < 0x80) (hch : s0.ch = c.toNat) (hm : (k, str) ∈ operators)
    (hx : exts (bytes str) [] = true) : OpOk s0 k s0.next :=
  opOk_of str [] hm hx (by simp) (by rw [hb]; exact h.eatAscii c hc hch)

theorem op_switch2 {s0 : Scanner} {k0 k1 : Nat} (h : Sync s0) (str0 str1 : String) (c : UInt8)
    (hb0 : bytes str0 = [c]) (hb1 : bytes str1 = [c, 61])
    (hc : c.toNat < 0x80) (hch : s0.ch = c.toNat) (hm0 : (k0, str0) ∈ operators)
    (hm1 : (k1, str1) ∈ operators) (hx0 : exts (bytes str0) [61] = true)
    (hx1 : exts (bytes str1) [] = true) :
    OpOk s0 (s0.next.switch2 k0 k1).1 (s0.next.switch2 k0 k1).2 := by
  have he := h.eatAscii c hc hch
  unfold switch2
  split
  · rename_i h61
    exact opOk_of str1 [] hm1 hx1 (by simp) (by
      rw [hb1]; exact he.trans (he.sync.eatAscii 61 (by decide) h61))
  · rename_i h61
    exact opOk_of str0 [61] hm0 hx0 (by simpa using h61) (by rw [hb0]; exact he)

theorem op_switch3 {s0 : Scanner} {k0 k1 k2 : Nat} (h : Sync s0) (str0 str1 str2 : String) (c c2 : UInt8)
    (hb0 : bytes str0 = [c]) (hb1 : bytes str1 = [c, 61]) (hb2 : bytes str2 = [c, c2])
    (hc : c.toNat < 0x80) (hc2 : c2.toNat < 0x80) (hch : s0.ch = c.toNat) (hm0 : (k0, str0) ∈ operators)
    (hm1 : (k1, str1) ∈ operators) (hm2 : (k2, str2) ∈ operators) (cs : List UInt8)
    (hx0 : exts (bytes str0) cs = true) (hcs : ∀ d ∈ cs, d = 61 ∨ d = c2 ∨ (d.toNat < 0x80 ∧ s0.next.ch ≠ d.toNat))
    (hx1 : exts (bytes str1) [] = true) (hx2 : exts (bytes str2) [] = true) :
    OpOk s0 (s0.next.switch3 k0 k1 c2.toNat k2).1 (s0.next.switch3 k0 k1 c2.toNat k2).2 := by
  have he := h.eatAscii c hc hch
  unfold switch3
  split
  · rename_i h61
    exact opOk_of str1 [] hm1 hx1 (by simp) (by
      rw [hb1]; exact he.trans (he.sync.eatAscii 61 (by decide) h61))
  · rename_i h61
    split
    · rename_i h2
      exact opOk_of str2 [] hm2 hx2 (by simp) (by
        rw [hb2]; exact he.trans (he.sync.eatAscii c2 hc2 h2))
    · rename_i h2
      refine opOk_of str0 cs hm0 hx0 ?_ (by rw [hb0]; exact he)
      intro d hd
      rcases hcs d hd with rfl | rfl | h3
      · exact ⟨by decide, h61⟩
      · exact ⟨hc2, h2⟩
      · exact h3

theorem op_switch4 {s0 : Scanner} {k0 k1 k2 k3 : Nat} (h : Sync s0) (str0 str1 str2 str3 : String)
    (c : UInt8) (hb0 : bytes str0 = [c]) (hb1 : bytes str1 = [c, 61]) (hb2 : bytes str2 = [c, c])
    (hb3 : bytes str3 = [c, c, 61])
    (hc : c.toNat < 0x80) (hch : s0.ch = c.toNat) (hm0 : (k0, str0) ∈ operators)
    (hm1 : (k1, str1) ∈ operators) (hm2 : (k2, str2) ∈ operators) (hm3 : (k3, str3) ∈ operators)
    (cs : List UInt8)
    (hx0 : exts (bytes str0) cs = true) (hcs : ∀ d ∈ cs, d = 61 ∨ d = c ∨ (d.toNat < 0x80 ∧ s0.next.ch ≠ d.toNat))
    (hx1 : exts (bytes str1) [] = true) (hx2 : exts (bytes str2) [61] = true)
    (hx3 : exts (bytes str3) [] = true) :
    OpOk s0 (s0.next.switch4 k0 k1 c.toNat k2 k3).1 (s0.next.switch4 k0 k1 c.toNat k2 k3).2 := by
  have he := h.eatAscii c hc hch
  unfold switch4
  split
  · rename_i h61
    exact opOk_of str1 [] hm1 hx1 (by simp) (by
      rw [hb1]; exact he.trans (he.sync.eatAscii 61 (by decide) h61))
  · rename_i h61
    split
    · rename_i h2
      have he2 := he.trans (he.sync.eatAscii c hc h2)
      dsimp only
      split
      · rename_i h3
        exact opOk_of str3 [] hm3 hx3 (by simp) (by
          rw [hb3]; exact he2.trans (he2.sync.eatAscii 61 (by decide) h3))
      · rename_i h3
        exact opOk_of str2 [61] hm2 hx2 (by simpa using h3) (by rw [hb2]; exact he2)
    · rename_i h2
      refine opOk_of str0 cs hm0 hx0 ?_ (by rw [hb0]; exact he)
      intro d hd
      rcases hcs d hd with rfl | rfl | h3
      · exact ⟨by decide, h61⟩
      · exact ⟨hc, h2⟩
      · exact h3

theorem op_in {k : Nat} {str : String} (h : operators.contains (k, str) = true) : (k, str) ∈ operators := by
  simpa using h

theorem op_dot {s0 : Scanner} (h : Sync s0) (hch : s0.ch = 46) {k : Nat} {s' : Scanner}
    (hs : scanOp s0.ch s0.next = some (k, s')) : OpOk s0 k s' := by
  rw [hch] at hs
  have he := h.eatAscii 46 (by decide) hch
  by_cases h1 : s0.next.ch = 46
  · have he2 := he.sync.eatAscii 46 (by decide) h1
    by_cases h2 : s0.next.next.ch = 46
    · have he3 := he2.sync.eatAscii 46 (by decide) h2
      simp [scanOp, h1, h2] at hs
      obtain ⟨rfl, rfl⟩ := hs
      refine opOk_of "..." [] (op_in (by decide +kernel)) (by decide +kernel) (by simp) ?_
      have : bytes "..." = [46] ++ ([46] ++ [46]) := by decide +kernel
      rw [this]
      exact he.trans (he2.trans he3)
    · simp [scanOp, h1, h2] at hs
      obtain ⟨rfl, rfl⟩ := hs
      refine .inr ⟨rfl, he.trans he2, ?_⟩
      rw [he2.sync.charNext 46 (by decide)]
      exact h2
  · simp [scanOp, h1] at hs
    obtain ⟨rfl, rfl⟩ := hs
    exact opOk_of "." [46] (op_in (by decide +kernel)) (by decide +kernel) (by simpa using h1)
      (by have : bytes "." = [46] := by decide +kernel
          rw [this]; exact he)

theorem op_lt {s0 : Scanner} (h : Sync s0) (hch : s0.ch = 60) {k : Nat} {s' : Scanner}
    (hs : scanOp s0.ch s0.next = some (k, s')) : OpOk s0 k s' := by
  rw [hch] at hs
  have he := h.eatAscii 60 (by decide) hch
  by_cases h1 : s0.next.ch = 45
  · have he2 := he.sync.eatAscii 45 (by decide) h1
    simp [scanOp, h1] at hs
    obtain ⟨rfl, rfl⟩ := hs
    refine opOk_of "<-" [] (op_in (by decide +kernel)) (by decide +kernel) (by simp) ?_
    have : bytes "<-" = [60] ++ [45] := by decide +kernel
    rw [this]
    exact he.trans he2
  · simp only [scanOp, h1, if_false] at hs
    simp only [reduceIte, show ¬ ((60 : Int) = 58) by decide, show ¬ ((60 : Int) = 46) by decide,
      show ¬ ((60 : Int) = 44) by decide, show ¬ ((60 : Int) = 59) by decide,
      show ¬ ((60 : Int) = 40) by decide, show ¬ ((60 : Int) = 41) by decide,
      show ¬ ((60 : Int) = 91) by decide, show ¬ ((60 : Int) = 93) by decide,
      show ¬ ((60 : Int) = 123) by decide, show ¬ ((60 : Int) = 125) by decide,
      show ¬ ((60 : Int) = 43) by decide, show ¬ ((60 : Int) = 45) by decide,
      show ¬ ((60 : Int) = 42) by decide, show ¬ ((60 : Int) = 47) by decide,
      show ¬ ((60 : Int) = 37) by decide, show ¬ ((60 : Int) = 94) by decide, Option.some.injEq] at hs
    have := op_switch4 h "<" "<=" "<<" "<<=" 60 (by decide +kernel) (by decide +kernel) (by decide +kernel)
      (by decide +kernel) (by decide) hch (k0 := LT) (k1 := LE) (k2 := SHL) (k3 := SHL_ASSIGN)
      (op_in (by decide +kernel)) (op_in (by decide +kernel)) (op_in (by decide +kernel)) (op_in (by decide +kernel))
      [61, 60, 45] (by decide +kernel) (by simpa using h1) (by decide +kernel) (by decide +kernel) (by decide +kernel)
    have hs' : s0.next.switch4 LT LE (60 : UInt8).toNat SHL SHL_ASSIGN = (k, s') := hs
    rw [hs'] at this
    exact this

theorem op_and {s0 : Scanner} (h : Sync s0) (hch : s0.ch = 38) {k : Nat} {s' : Scanner}
    (hs : scanOp s0.ch s0.next = some (k, s')) : OpOk s0 k s' := by
  rw [hch] at hs
  have he := h.eatAscii 38 (by decide) hch
  by_cases h1 : s0.next.ch = 94
  · have he2 := he.sync.eatAscii 94 (by decide) h1
    by_cases h2 : s0.next.next.ch = 61
    · have he3 := he2.sync.eatAscii 61 (by decide) h2
      simp [scanOp, h1, switch2, h2] at hs
      obtain ⟨rfl, rfl⟩ := hs
      refine opOk_of "&^=" [] (op_in (by decide +kernel)) (by decide +kernel) (by simp) ?_
      have : bytes "&^=" = [38] ++ ([94] ++ [61]) := by decide +kernel
      rw [this]
      exact he.trans (he2.trans he3)
    · simp [scanOp, h1, switch2, h2] at hs
      obtain ⟨rfl, rfl⟩ := hs
      refine opOk_of "&^" [61] (op_in (by decide +kernel)) (by decide +kernel) (by simpa using h2) ?_
      have : bytes "&^" = [38] ++ [94] := by decide +kernel
      rw [this]
      exact he.trans he2
  · have := op_switch3 h "&" "&=" "&&" 38 38 (by decide +kernel) (by decide +kernel) (by decide +kernel)
      (by decide) (by decide) hch (k0 := AND) (k1 := AND_ASSIGN) (k2 := LAND)
      (op_in (by decide +kernel)) (op_in (by decide +kernel)) (op_in (by decide +kernel))
      [61, 38, 94] (by decide +kernel) (by simpa using h1) (by decide +kernel) (by decide +kernel)
    have hs' : s0.next.switch3 AND AND_ASSIGN (38 : UInt8).toNat LAND = (k, s') := by
      simpa [scanOp, h1] using hs
    rw [hs'] at this
    exact this

theorem scanOp_spec {s0 : Scanner} (h : Sync s0) {k : Nat} {s' : Scanner}
    (hs : scanOp s0.ch s0.next = some (k, s')) : OpOk s0 k s' := by
  by_cases h46 : s0.ch = 46
  · exact op_dot h h46 hs
  by_cases h60 : s0.ch = 60
  · exact op_lt h h60 hs
  by_cases h38 : s0.ch = 38
  · exact op_and h h38 hs
  unfold scanOp at hs
  simp only [h46, h60, h38, if_false] at hs
  have sw2 : ∀ (k0 k1 : Nat) (str0 str1 : String) (c : UInt8), s0.ch = c.toNat →
      (bytes str0 = [c] ∧ bytes str1 = [c, 61] ∧ c.toNat < 0x80 ∧ (operators.contains (k0, str0) = true) ∧
        (operators.contains (k1, str1) = true) ∧ exts (bytes str0) [61] = true ∧ exts (bytes str1) [] = true) →
      some (s0.next.switch2 k0 k1) = some (k, s') → OpOk s0 k s' := by
    intro k0 k1 str0 str1 c hch hd e
    have := op_switch2 h str0 str1 c hd.1 hd.2.1 hd.2.2.1 hch (op_in hd.2.2.2.1) (op_in hd.2.2.2.2.1)
      hd.2.2.2.2.2.1 hd.2.2.2.2.2.2
    rw [Option.some.inj e] at this
    exact this
  have sw3 : ∀ (k0 k1 k2 : Nat) (str0 str1 str2 : String) (c : UInt8), s0.ch = c.toNat →
      (bytes str0 = [c] ∧ bytes str1 = [c, 61] ∧ bytes str2 = [c, c] ∧ c.toNat < 0x80 ∧
        (operators.contains (k0, str0) = true) ∧
        (operators.contains (k1, str1) = true) ∧ (operators.contains (k2, str2) = true) ∧
        exts (bytes str0) [61, c] = true ∧ exts (bytes str1) [] = true ∧ exts (bytes str2) [] = true) →
      some (s0.next.switch3 k0 k1 c.toNat k2) = some (k, s') → OpOk s0 k s' := by
    intro k0 k1 k2 str0 str1 str2 c hch hd e
    obtain ⟨b0, b1, b2, hc, m0, m1, m2, x0, x1, x2⟩ := hd
    have := op_switch3 h str0 str1 str2 c c b0 b1 b2 hc hc hch (op_in m0) (op_in m1) (op_in m2) [61, c] x0
      (by simp) x1 x2
    rw [Option.some.inj e] at this
    exact this
  have sw1 : ∀ (k0 : Nat) (str0 : String) (c : UInt8), s0.ch = c.toNat →
      (bytes str0 = [c] ∧ c.toNat < 0x80 ∧ (operators.contains (k0, str0) = true) ∧ exts (bytes str0) [] = true) →
      some (k0, s0.next) = some (k, s') → OpOk s0 k s' := by
    intro k0 str0 c hch hd e
    obtain ⟨b0, hc, m0, x0⟩ := hd
    have := op1 h str0 c b0 hc hch (op_in m0) x0
    simp only [Option.some.injEq, Prod.mk.injEq] at e
    rw [← e.1, ← e.2]
    exact this
  by_cases c58 : s0.ch = 58
  · rw [if_pos c58] at hs; exact sw2 _ _ ":" ":=" 58 c58 (by decide +kernel) hs
  rw [if_neg c58] at hs
  by_cases c44 : s0.ch = 44
  · rw [if_pos c44] at hs; exact sw1 _ "," 44 c44 (by decide +kernel) hs
  rw [if_neg c44] at hs
  by_cases c59 : s0.ch = 59
  · rw [if_pos c59] at hs; exact sw1 _ ";" 59 c59 (by decide +kernel) hs
  rw [if_neg c59] at hs
  by_cases c40 : s0.ch = 40
  · rw [if_pos c40] at hs; exact sw1 _ "(" 40 c40 (by decide +kernel) hs
  rw [if_neg c40] at hs
  by_cases c41 : s0.ch = 41
  · rw [if_pos c41] at hs; exact sw1 _ ")" 41 c41 (by decide +kernel) hs
  rw [if_neg c41] at hs
  by_cases c91 : s0.ch = 91
  · rw [if_pos c91] at hs; exact sw1 _ "[" 91 c91 (by decide +kernel) hs
  rw [if_neg c91] at hs
  by_cases c93 : s0.ch = 93
  · rw [if_pos c93] at hs; exact sw1 _ "]" 93 c93 (by decide +kernel) hs
  rw [if_neg c93] at hs
  by_cases c123 : s0.ch = 123
  · rw [if_pos c123] at hs; exact sw1 _ "{" 123 c123 (by decide +kernel) hs
  rw [if_neg c123] at hs
  by_cases c125 : s0.ch = 125
  · rw [if_pos c125] at hs; exact sw1 _ "}" 125 c125 (by decide +kernel) hs
  rw [if_neg c125] at hs
  by_cases c43 : s0.ch = 43
  · rw [if_pos c43] at hs; exact sw3 _ _ _ "+" "+=" "++" 43 c43 (by decide +kernel) hs
  rw [if_neg c43] at hs
  by_cases c45 : s0.ch = 45
  · rw [if_pos c45] at hs; exact sw3 _ _ _ "-" "-=" "--" 45 c45 (by decide +kernel) hs
  rw [if_neg c45] at hs
  by_cases c42 : s0.ch = 42
  · rw [if_pos c42] at hs; exact sw2 _ _ "*" "*=" 42 c42 (by decide +kernel) hs
  rw [if_neg c42] at hs
  by_cases c47 : s0.ch = 47
  · rw [if_pos c47] at hs; exact sw2 _ _ "/" "/=" 47 c47 (by decide +kernel) hs
  rw [if_neg c47] at hs
  by_cases c37 : s0.ch = 37
  · rw [if_pos c37] at hs; exact sw2 _ _ "%" "%=" 37 c37 (by decide +kernel) hs
  rw [if_neg c37] at hs
  by_cases c94 : s0.ch = 94
  · rw [if_pos c94] at hs; exact sw2 _ _ "^" "^=" 94 c94 (by decide +kernel) hs
  rw [if_neg c94] at hs
  by_cases c62 : s0.ch = 62
  · rw [if_pos c62] at hs
    have := op_switch4 h ">" ">=" ">>" ">>=" 62 (by decide +kernel) (by decide +kernel) (by decide +kernel)
      (by decide +kernel) (by decide) c62 (k0 := GT) (k1 := GE) (k2 := SHR) (k3 := SHR_ASSIGN)
      (op_in (by decide +kernel)) (op_in (by decide +kernel)) (op_in (by decide +kernel)) (op_in (by decide +kernel))
      [61, 62] (by decide +kernel) (by simp) (by decide +kernel) (by decide +kernel) (by decide +kernel)
    have hs' : s0.next.switch4 GT GE (62 : UInt8).toNat SHR SHR_ASSIGN = (k, s') := Option.some.inj hs
    rw [hs'] at this
    exact this
  rw [if_neg c62] at hs
  by_cases c61 : s0.ch = 61
  · rw [if_pos c61] at hs; exact sw2 _ _ "=" "==" 61 c61 (by decide +kernel) hs
  rw [if_neg c61] at hs
  by_cases c33 : s0.ch = 33
  · rw [if_pos c33] at hs; exact sw2 _ _ "!" "!=" 33 c33 (by decide +kernel) hs
  rw [if_neg c33] at hs
  by_cases c124 : s0.ch = 124
  · rw [if_pos c124] at hs; exact sw3 _ _ _ "|" "|=" "||" 124 c124 (by decide +kernel) hs
  rw [if_neg c124] at hs
  by_cases c63 : s0.ch = 63
  · rw [if_pos c63] at hs; exact sw1 _ "?" 63 c63 (by decide +kernel) hs
  rw [if_neg c63] at hs
  by_cases c126 : s0.ch = 126
  · rw [if_pos c126] at hs; exact sw1 _ "~" 126 c126 (by decide +kernel) hs
  rw [if_neg c126] at hs
  by_cases c64 : s0.ch = 64
  · rw [if_pos c64] at hs; exact sw1 _ "@" 64 c64 (by decide +kernel) hs
  rw [if_neg c64] at hs
  cases hs

end Scanner
end Tpl
