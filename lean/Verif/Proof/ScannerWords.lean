import Verif.Proof.ScannerSpell
import Verif.Proof.CompilerCl

/-! The words of a text that tokenizes. -/
namespace Tpl
namespace Scanner
open Spec

theorem clean_ascii_tail {b : UInt8} {t : Str} (hb : b.toNat < 0x80) (h : Clean (b :: t)) : Clean t :=
  clean_tail (u := [b]) h (by simp) (by rw [List.singleton_append, decodeRune_ascii hb]; rfl)

theorem lineEnd_clean {b r : Str} (hr : LineEnd r) (h : Clean (b ++ r)) : Clean r := by
  rcases hr with rfl | ⟨t, rfl⟩
  · exact .nil
  · exact (clean_cut (by decide) _ (Nat.le_refl _) h).2

theorem comment_clean {c r : Str} (hc : CommentText true c r) (h : Clean (c ++ r)) : Clean r := by
  cases hc with
  | line _ h2 => exact lineEnd_clean h2 h
  | sharp _ h2 => exact lineEnd_clean h2 h
  | @block b _ h1 =>
    have e : 47 :: 42 :: (b ++ [42, 47]) ++ r = (47 :: 42 :: b) ++ 42 :: (47 :: r) := by simp
    rw [e] at h
    have := (clean_cut (by decide) _ (Nat.le_refl _) h).2
    exact clean_ascii_tail (by decide) (clean_ascii_tail (by decide) this)
  | unclosed h1 => cases h1

theorem gap_clean {c semi semi' : Bool} {g R : Str} (hg : Gap true c semi g R semi') : Clean (g ++ R) → Clean R := by
  induction hg with
  | nil => exact fun h => h
  | space h1 _ ih =>
    intro h
    refine ih (clean_ascii_tail ?_ h)
    rcases h1 with rfl | rfl | rfl | ⟨rfl, _⟩ <;> decide
  | comment h1 h2 h3 _ ih =>
    intro h
    rw [List.append_assoc] at h
    exact ih (comment_clean h2 h)

/-- Every token of a clean text is read from a clean piece of it. -/
theorem lexes_clean {U : Uni} {mode : Mode} {o : Nat} {txt : Str} {semi : Bool} {ts : List Token} (hl : Lexes U true mode o txt semi ts) :
    ∀ (s : Scanner), At s txt → s.mode = mode → s.offset = o → s.insertSemi = semi → (semi = true → mode.insertSemis = true) →
      ∀ t ∈ ts, t.kind = EOF ∨ ∃ x r semi1 semi2, Clean (x ++ r) ∧ TokText U true mode.scanComments semi1 t x r semi2 := by
  induction hl with
  | eof h1 h2 =>
    intro s h hm ho hs hi t ht
    obtain rfl := List.mem_singleton.mp ht
    exact .inl rfl
  | cons h1 h2 h3 h4 _ ih =>
    intro s h hm ho hs hi
    subst hm ho hs
    obtain ⟨s1, e, ha⟩ := scan_reads (U := U) h2 h4 h hi h3
    intro t ht
    rcases List.mem_cons.mp ht with rfl | ht
    · exact .inr ⟨_, _, _, _, gap_clean h2 h.clean, h4⟩
    · exact ih s1 ha.at_ ha.mode (by rw [ha.offset]; simp; omega) ha.semi (by
        intro e; simp only [Bool.and_eq_true] at e; exact e.2) t ht

theorem run_clean {U : Uni} {s0 s' : Scanner} {src : Str} {mode : Mode} {ts : List Token} (h : Run U (init s0 src mode) ts s') (he : s'.errs = []) :
    ∀ t ∈ ts, t.kind = EOF ∨ ∃ x r semi1 semi2, Clean (x ++ r) ∧ TokText U true mode.scanComments semi1 t x r semi2 := by
  obtain ⟨hc, hl⟩ := (run_iff U s0 src mode ts).mp ⟨s', h, he⟩
  have hi := init_inv s0 src mode
  obtain ⟨f1, f2, f3, f4⟩ := init_fields s0 src mode
  exact lexes_clean hl (init s0 src mode) ⟨hi.sync, hc, init_rest s0 src mode⟩ f2 (init_offset s0 src mode) f3 (by simp)

theorem op_kinds' : ∀ p ∈ operators, p.1 ≠ IDENT ∧ p.1 ≠ STRING ∧ p.1 ≠ CHAR := by decide +kernel

theorem clean_ident {U : Uni} {c semi semi2 : Bool} {t : Token} {x r : Str} (hc : Clean (x ++ r)) (ht : TokText U true c semi t x r semi2)
    (hk : t.kind = IDENT) : t.lit ≠ [] ∧ Clean t.lit ∧ Letter U (headRune t.lit) ∧ Runes (fun c => Letter U c ∨ Digit U c) t.lit [] := by
  cases ht with
  | ident h1 h2 h3 h4 =>
    obtain ⟨h5, _⟩ := runes_clean h3 hc
    rw [headRune_stable h5 h1] at h2
    exact ⟨h1, h5, h2, runes_stable h3 h5 []⟩
  | op hop => exact absurd hk (op_kinds' _ hop).1
  | int | float | imag | char | string | raw | comment | newline | semiAtComment | semiAtEnd | eof | dots => dsimp only at hk; exact absurd hk (by decide)
  | illegal h => cases h

theorem clean_str {U : Uni} {c semi semi2 : Bool} {t : Token} {x r : Str} (hc : Clean (x ++ r)) (ht : TokText U true c semi t x r semi2)
    (hk : t.kind = STRING) : OkStr t.lit ∨ t.lit.head? = some 96 := by
  cases ht with
  | string h1 h2 =>
    obtain ⟨b, rfl, hb⟩ := h2 rfl
    left
    refine ⟨?_, b, rfl, hb⟩
    have e : 34 :: (b ++ [34]) ++ r = (34 :: b) ++ 34 :: r := by simp
    rw [e] at hc
    have h3 := (clean_cut (by decide) _ (Nat.le_refl _) hc).1
    exact clean_append h3 (clean_of_ascii (by decide))
  | raw h1 h2 =>
    obtain ⟨b, rfl, hb⟩ := h2 rfl
    right
    rfl
  | op hop => exact absurd hk (op_kinds' _ hop).2.1
  | ident | int | float | imag | char | comment | newline | semiAtComment | semiAtEnd | eof | dots => dsimp only at hk; exact absurd hk (by decide)
  | illegal h => cases h

theorem clean_char {U : Uni} {c semi semi2 : Bool} {t : Token} {x r : Str} (ht : TokText U true c semi t x r semi2)
    (hk : t.kind = CHAR) : t.lit.head? = some 39 := by
  cases ht with
  | char h1 h2 =>
    obtain ⟨b, rfl, hb⟩ := h2 rfl
    rfl
  | op hop => exact absurd hk (op_kinds' _ hop).2.2
  | ident | int | float | imag | string | raw | comment | newline | semiAtComment | semiAtEnd | eof | dots => dsimp only at hk; exact absurd hk (by decide)
  | illegal h => cases h

end Scanner

open Spec Scanner KwScanner
variable {U : Uni} {k : KwScanner}

/-- The identifiers and strings of a text that tokenizes can be written again. -/
theorem tokenizes_words (hk : Steps U KwScanner.zero k) {src : Str} {mode : Mode} {ts : List Token} {eof : Token}
    (h : Tokenizes U k src mode ts eof) : ∀ t ∈ ts, (t.kind = IDENT → OkIdent U k.keywords.get t.lit) ∧ (t.kind = STRING → OkStr t.lit ∨ t.lit.head? = some 96) ∧
    (t.kind = CHAR → t.lit.head? = some 39) := by
  obtain ⟨full, s', h1, h2, h3⟩ := h
  intro t ht
  have hm : t ∈ full.map fun t => if t.kind = IDENT then { t with kind := (k.keywords.get t.lit).getD IDENT } else t := by
    rw [← h3]; simp [ht]
  obtain ⟨u, hu, rfl⟩ := List.mem_map.mp hm
  have hc := run_clean h1 h2 u hu
  have key : ∀ (P : Token → Prop) n, n < 0xb0 → n ≠ EOF → (u.kind = n → P u) →
      (if u.kind = IDENT then { u with kind := (k.keywords.get u.lit).getD IDENT } else u : Token).kind = n →
      P u ∧ (n = IDENT → k.keywords.get u.lit = none) ∧
        (if u.kind = IDENT then { u with kind := (k.keywords.get u.lit).getD IDENT } else u : Token).lit = u.lit := by
    intro P n hn hne hP hkind
    split at hkind
    · rename_i hid
      cases hkw : k.keywords.get u.lit with
      | none =>
        rw [hkw] at hkind
        have : n = IDENT := hkind.symm
        subst this
        exact ⟨hP hid, fun _ => rfl, by split <;> rfl⟩
      | some kd =>
        rw [hkw] at hkind
        have : kd = n := hkind
        have := Props.kw_ge hk _ _ hkw
        omega
    · rename_i hid
      refine ⟨hP hkind, fun e => absurd (hkind.trans e) hid, by split <;> rfl⟩
  refine ⟨?_, ?_, ?_⟩
  · intro hkind
    obtain ⟨h4, h5, h6⟩ := key (fun u => u.lit ≠ [] ∧ Clean u.lit ∧ Letter U (headRune u.lit) ∧ Runes (fun c => Letter U c ∨ Digit U c) u.lit []) IDENT
      (by decide) (by decide) (fun e => by
        rcases hc with hc | ⟨x, r, _, _, hx, htx⟩
        · rw [e] at hc; exact absurd hc (by decide)
        · exact clean_ident hx htx e) hkind
    rw [h6]
    exact ⟨h4.2.1, h4.1, h4.2.2.1, h4.2.2.2, h5 rfl⟩
  · intro hkind
    obtain ⟨h4, h5, h6⟩ := key (fun u => OkStr u.lit ∨ u.lit.head? = some 96) STRING
      (by decide) (by decide) (fun e => by
        rcases hc with hc | ⟨x, r, _, _, hx, htx⟩
        · rw [e] at hc; exact absurd hc (by decide)
        · exact clean_str hx htx e) hkind
    rw [h6]
    exact h4
  · intro hkind
    obtain ⟨h4, h5, h6⟩ := key (fun u => u.lit.head? = some 39) CHAR
      (by decide) (by decide) (fun e => by
        rcases hc with hc | ⟨x, r, _, _, hx, htx⟩
        · rw [e] at hc; exact absurd hc (by decide)
        · exact clean_char htx e) hkind
    rw [h6]
    exact h4

end Tpl
