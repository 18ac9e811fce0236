import Verif.Proof.Layout
import Verif.Spec.Concat

/-! Texts that are put together with a newline between them. -/
namespace Tpl
namespace Scanner
open Spec

theorem charNext_more {c : UInt8} (hc : c ≠ 10) {r b : Str} (h : CharNext c (r ++ 10 :: b)) : CharNext c r := by
  obtain ⟨t, e⟩ := h
  cases r with
  | nil => injection e with e _; exact absurd e.symm hc
  | cons d r => injection e with e _; exact ⟨r, by rw [e]⟩

theorem charNext_keep {c : UInt8} {r : Str} (b : Str) (h : CharNext c r) : CharNext c (r ++ b) := by
  obtain ⟨t, rfl⟩ := h
  exact ⟨t ++ b, rfl⟩

theorem decNext_more {r b : Str} (h : DecNext (r ++ 10 :: b)) : DecNext r := by
  obtain ⟨c, t, e, hc⟩ := h
  cases r with
  | nil =>
    injection e with e _
    subst e
    exact absurd hc (by unfold IsDec; decide)
  | cons d r => injection e with e _; exact ⟨d, r, rfl, e ▸ hc⟩

theorem hexNext_more {r b : Str} (h : HexNext (r ++ 10 :: b)) : HexNext r := by
  obtain ⟨c, t, e, hc⟩ := h
  cases r with
  | nil =>
    injection e with e _
    subst e
    exact absurd hc (by unfold IsHex; decide)
  | cons d r => injection e with e _; exact ⟨d, r, rfl, e ▸ hc⟩

theorem fracNext_more {r b : Str} (h : FracNext (r ++ 10 :: b)) : FracNext r := by
  rcases h with h | h | h | h
  · exact .inl (charNext_more (by decide) h)
  · exact .inr (.inl (charNext_more (by decide) h))
  · exact .inr (.inr (.inl (charNext_more (by decide) h)))
  · exact .inr (.inr (.inr (charNext_more (by decide) h)))

/-- A text without a newline at the start of a text that is cut at a newline. -/
theorem cut_newline {p t x b : Str} (hp : 10 ∉ p) (h : p ++ t = x ++ 10 :: b) : ∃ x', x = p ++ x' ∧ t = x' ++ 10 :: b := by
  rcases List.append_eq_append_iff.mp h with ⟨y, e1, e2⟩ | ⟨y, e1, e2⟩
  · exact ⟨y, e1, e2⟩
  · cases y with
    | nil => exact ⟨[], by rw [e1]; simp, by simpa using e2.symm⟩
    | cons c y =>
      injection e2 with e2 _
      subst e2
      exact absurd (by rw [e1]; simp) hp

theorem lineEnd_more {r : Str} (b : Str) (h : LineEnd r) : LineEnd (r ++ 10 :: b) := by
  rcases h with rfl | h
  · exact .inr ⟨b, rfl⟩
  · exact .inr (charNext_keep _ h)

theorem lineAhead_more {r : Str} (b : Str) (h : LineAhead r) : LineAhead (r ++ 10 :: b) := by
  induction h with
  | line => exact .line
  | @inside c t h1 h2 =>
    have := LineAhead.inside (t := t ++ 10 :: b) h1 h2
    simpa using this
  | @unclosed c h1 h2 => exact .inside h1 h2
  | @after c ws t h1 h2 h3 h4 =>
    have := LineAhead.after h1 h2 h3 (lineEnd_more b h4)
    simpa using this
  | @chain c ws t h1 h2 h3 _ ih =>
    have := LineAhead.chain h1 h2 h3 ih
    simpa using this

theorem space_no_newline {ws : Str} (h : ∀ c ∈ ws, Space false c) : 10 ∉ ws := by
  intro hm
  have := h 10 hm
  simp [Space] at this

theorem lineAhead_less {r b : Str} (h : LineAhead (r ++ 10 :: b)) : LineAhead r := by
  generalize e : r ++ 10 :: b = y at h
  induction h generalizing r with
  | @line t =>
    obtain ⟨x', rfl, _⟩ := cut_newline (p := [47, 47]) (t := t) (by decide) e.symm
    exact .line
  | @inside c t h1 h2 =>
    obtain ⟨x', rfl, e2⟩ := cut_newline (p := 47 :: 42 :: c) (t := 10 :: t) (by simp [h2]) e.symm
    cases x' with
    | nil => rw [List.append_nil]; exact .unclosed h1 h2
    | cons d x' =>
      injection e2 with e2 e3
      subst e2
      exact .inside h1 h2
  | @unclosed c h1 h2 =>
    have hm : (10 : UInt8) ∈ 47 :: 42 :: c := by rw [← e]; simp
    simp [h2] at hm
  | @after c ws t h1 h2 h3 h4 =>
    obtain ⟨x', rfl, e2⟩ := cut_newline (p := 47 :: 42 :: (c ++ 42 :: 47 :: ws)) (t := t) (by simp [h2, space_no_newline h3]) (by rw [e]; simp)
    have : LineAhead (47 :: 42 :: (c ++ 42 :: 47 :: (ws ++ x'))) := by
      refine .after h1 h2 h3 ?_
      cases x' with
      | nil => exact .inl rfl
      | cons d x' =>
        rcases h4 with rfl | ⟨t', rfl⟩
        · cases e2
        · injection e2 with e2 _
          exact .inr ⟨x', by rw [e2]⟩
    simpa using this
  | @chain c ws t h1 h2 h3 _ ih =>
    obtain ⟨x', rfl, e2⟩ := cut_newline (p := 47 :: 42 :: (c ++ 42 :: 47 :: ws)) (t := t) (by simp [h2, space_no_newline h3]) (by rw [e]; simp)
    have := LineAhead.chain h1 h2 h3 (ih e2.symm)
    simpa using this

theorem commentText_more {c r : Str} (b : Str) (h : CommentText true c r) : CommentText true c (r ++ 10 :: b) := by
  cases h with
  | line h1 h2 => exact .line h1 (lineEnd_more b h2)
  | sharp h1 h2 => exact .sharp h1 (lineEnd_more b h2)
  | block h1 => exact .block h1
  | unclosed h1 => cases h1

theorem gap_more {cm semi semi' : Bool} {g r : Str} (b : Str) (h : Gap true cm semi g r semi') : Gap true cm semi g (r ++ 10 :: b) semi' := by
  induction h with
  | nil => exact .nil
  | space h1 _ ih => exact .space h1 ih
  | @comment semi c g r semi' h1 h2 h3 _ ih =>
    refine .comment h1 ?_ (fun hs => ⟨fun h => (h3 hs).1 ?_, (h3 hs).2⟩) ih
    · rw [← List.append_assoc]; exact commentText_more b h2
    · refine lineAhead_less (b := b) ?_
      simpa using h

/-- Text that is skipped is followed by text that is skipped. -/
theorem gap_join {cm semi semi1 semi' : Bool} {g g2 r : Str} (h : Gap true cm semi g (g2 ++ r) semi1) (h2 : Gap true cm semi1 g2 r semi') : Gap true cm semi (g ++ g2) r semi' := by
  generalize e : g2 ++ r = y at h
  induction h with
  | nil => exact h2
  | space h1 _ ih => exact .space h1 (ih h2 e)
  | @comment semi c g r1 semi' h1 h3 h4 _ ih =>
    subst e
    rw [List.append_assoc]
    refine .comment h1 (by rw [List.append_assoc]; exact h3) (fun hs => by rw [List.append_assoc]; exact h4 hs) (ih h2 rfl)

theorem gap_cleared {cm semi semi' : Bool} {g r : Str} (h : Gap true cm semi g r semi') (hc : Clean (g ++ r)) : Clean r := by
  induction h with
  | nil => exact hc
  | space hb _ ih =>
    refine ih (clean_tail (u := [_]) hc (by simp) ?_)
    rw [List.cons_append, decodeRune_ascii (by rcases space_lt hb with rfl | rfl | rfl | rfl <;> decide)]
    rfl
  | comment _ h1 _ _ ih =>
    rw [List.append_assoc] at hc
    exact ih (commentText_clean h1 hc)

theorem intText_more {x r : Str} (b : Str) (h : IntText true x r) : IntText true x (r ++ 10 :: b) := by
  cases h with
  | dec h1 h2 h3 h4 h5 => exact .dec h1 h2 h3 (fun h => h4 (decNext_more h)) (fun h => h5 (fracNext_more h))
  | oct h1 h2 h3 h4 =>
    exact .oct h1 (fun h => h2 (decNext_more h)) (fun h => h3 (fracNext_more h))
      (fun h => h4 ⟨h.1, h.2.imp (charNext_more (by decide)) (charNext_more (by decide))⟩)
  | hex h1 h2 h3 h4 => exact .hex h1 h2 h3 (fun h => h4 (hexNext_more h))

theorem expText_more {x r : Str} (b : Str) (h : ExpText x r) : ExpText x (r ++ 10 :: b) := by
  cases h with
  | none h1 h2 => exact .none (fun h => h1 (charNext_more (by decide) h)) (fun h => h2 (charNext_more (by decide) h))
  | some h1 h2 h3 h4 h5 =>
    exact .some h1 h2 h3 (fun h => h4 (decNext_more h)) (fun e1 e2 => ⟨fun h => (h5 e1 e2).1 (charNext_more (by decide) h), fun h => (h5 e1 e2).2 (charNext_more (by decide) h)⟩)

theorem floatText_more {x r : Str} (b : Str) (h : FloatText x r) : FloatText x (r ++ 10 :: b) := by
  cases h with
  | @frac ds fs ex _ h1 h2 h3 h4 h5 =>
    refine .frac h1 h2 h3 (fun h => h4 (decNext_more (b := b) ?_)) (expText_more b h5)
    rw [List.append_assoc]; exact h
  | exp h1 h2 h3 h4 => exact .exp h1 h2 h3 (expText_more b h4)

theorem imagText_more {x r : Str} (b : Str) (h : ImagText x r) : ImagText x (r ++ 10 :: b) := by
  cases h with
  | int h1 h2 => exact .int h1 h2
  | float h1 => exact .float (floatText_more b h1)

variable {U : Uni}

/-- A token of a text is the token of the text with more lines behind it, unless it is the automatic
semicolon at the end. -/
theorem tokText_more {cm semi semi2 : Bool} {t : Token} {x r : Str} (b : Str) (h : TokText U true cm semi t x r semi2) (hk : t.kind ≠ EOF)
    (hc : Clean (x ++ r)) :
    Clean r ∧ ((x = [] ∧ r = [] ∧ t = ⟨SEMICOLON, t.pos, [10]⟩ ∧ semi = true ∧ semi2 = false) ∨ TokText U true cm semi t x (r ++ 10 :: b) semi2) := by
  cases h with
  | ident h1 h2 h3 h4 =>
    obtain ⟨c1, c2⟩ := runes_clean h3 hc
    refine ⟨c2, .inr (.ident h1 ?_ (runes_stable h3 c1 _) ?_)⟩
    · rw [headRune_stable c1 h1] at h2 ⊢
      exact h2
    · cases r with
      | nil => exact StartsWhite.word ⟨10, b, rfl, .inr (.inr (.inr ⟨rfl, rfl⟩))⟩
      | cons d r => rw [headRune_stable c2 (by simp)]; exact h4
  | int h1 =>
    obtain ⟨n1, n2⟩ := intText_ascii h1
    exact ⟨((endsAscii_all n1 n2).clean hc).2, .inr (.int (intText_more b h1))⟩
  | float h1 h2 =>
    obtain ⟨n1, n2⟩ := floatText_ascii h1
    exact ⟨((endsAscii_all n1 n2).clean hc).2, .inr (.float (floatText_more b h1) (fun h => h2 (charNext_more (by decide) h)))⟩
  | imag h1 =>
    obtain ⟨n1, n2⟩ := imagText_ascii h1
    exact ⟨((endsAscii_all n1 n2).clean hc).2, .inr (.imag (imagText_more b h1))⟩
  | char h1 h2 =>
    obtain ⟨c, rfl, hb⟩ := h2 rfl
    obtain ⟨c1, c2⟩ := EndsAscii.clean ⟨39 :: c, 39, rfl, by decide⟩ hc
    have c3 : Clean c := by
      have c4 : Clean (c ++ [39]) := clean_tail (u := [39]) c1 (by simp) (by rw [List.singleton_append, decodeRune_ascii (by decide)]; rfl)
      exact (clean_cut (by decide) c.length (Nat.le_refl _) c4).1
    exact ⟨c2, .inr (.char h1 fun _ => ⟨c, rfl, charBody_stable hb c3⟩)⟩
  | string h1 h2 =>
    obtain ⟨c, rfl, hb⟩ := h2 rfl
    obtain ⟨c1, c2⟩ := EndsAscii.clean ⟨34 :: c, 34, rfl, by decide⟩ hc
    exact ⟨c2, .inr (.string h1 fun _ => ⟨c, rfl, hb⟩)⟩
  | raw h1 h2 =>
    obtain ⟨c, rfl, hb⟩ := h2 rfl
    obtain ⟨c1, c2⟩ := EndsAscii.clean ⟨96 :: c, 96, rfl, by decide⟩ hc
    exact ⟨c2, .inr (.raw h1 fun _ => ⟨c, rfl, hb⟩)⟩
  | comment h1 h2 h3 =>
    refine ⟨commentText_clean h2 hc, .inr (.comment h1 (commentText_more b h2) fun hs => ⟨fun h => (h3 hs).1 (lineAhead_less (b := b) ?_), (h3 hs).2⟩)⟩
    rw [List.append_assoc]; exact h
  | @op _ _ k s _ h1 h2 h3 h4 =>
    obtain ⟨n1, n2⟩ := ops_ascii _ h1
    obtain ⟨c1, c2⟩ := (endsAscii_all n1 (fun b hb => (n2 b hb).2.1)).clean hc
    refine ⟨c2, .inr (.op h1 ?_ ?_ ?_)⟩
    · intro k' s' h5 h6
      refine h2 k' s' h5 ?_
      obtain ⟨z, h6⟩ := h6
      rw [← List.append_assoc] at h6
      obtain ⟨x', e, _⟩ := cut_newline (fun hm => ((ops_ascii _ h5).2 10 hm).2.2.2.2.2 rfl) h6
      exact ⟨x', e.symm⟩
    · exact fun h => h3 ⟨h.1, h.2.imp (charNext_more (by decide)) (charNext_more (by decide))⟩
    · exact fun h => h4 ⟨h.1, h.2.imp decNext_more (charNext_more (by decide))⟩
  | newline => exact ⟨clean_tail (u := [10]) hc (by simp) (by rw [List.singleton_append, decodeRune_ascii (by decide)]; rfl), .inr .newline⟩
  | semiAtComment h => exact ⟨hc, .inr (.semiAtComment (h.imp (lineAhead_more b) (charNext_keep _)))⟩
  | semiAtEnd => exact ⟨hc, .inl ⟨rfl, rfl, rfl, rfl, rfl⟩⟩
  | eof => exact absurd rfl hk
  | dots h1 => exact ⟨(EndsAscii.clean ⟨[46], 46, rfl, by decide⟩ hc).2, .inr (.dots fun h => h1 (charNext_more (by decide) h))⟩
  | illegal h1 => cases h1

theorem tokText_move (k : Nat) {cm semi semi2 : Bool} {t : Token} {x r : Str} (h : TokText U true cm semi t x r semi2) :
    TokText U true cm semi (moveTok k t) x r semi2 := by
  cases h with
  | ident h1 h2 h3 h4 => exact .ident h1 h2 h3 h4
  | int h1 => exact .int h1
  | float h1 h2 => exact .float h1 h2
  | imag h1 => exact .imag h1
  | char h1 h2 => exact .char h1 h2
  | string h1 h2 => exact .string h1 h2
  | raw h1 h2 => exact .raw h1 h2
  | comment h1 h2 h3 => exact .comment h1 h2 h3
  | op h1 h2 h3 h4 => exact .op h1 h2 h3 h4
  | newline => exact .newline
  | semiAtComment h => exact .semiAtComment h
  | semiAtEnd => exact .semiAtEnd
  | eof => exact .eof
  | dots h1 => exact .dots h1
  | illegal h1 => cases h1

theorem lexes_move (k : Nat) {mode : Mode} {o : Nat} {r : Str} {semi : Bool} {ts : List Token} (h : Lexes U true mode o r semi ts) :
    Lexes U true mode (k + o) r semi (ts.map (moveTok k)) := by
  induction h with
  | @eof o g semi p h1 h2 =>
    show Lexes U true mode (k + o) g semi [⟨EOF, k + p, []⟩]
    exact .eof h1 (by rw [h2, Nat.add_assoc])
  | cons h1 h2 h3 h4 _ ih =>
    refine .cons h1 h2 (by rw [moveTok, h3, Nat.add_assoc]) (tokText_move k h4) ?_
    simpa [Nat.add_assoc] using ih

/-- Skipped text and a newline before a text. -/
theorem lexes_gap {mode : Mode} {o : Nat} {g b : Str} {semi : Bool} {us : List Token} (hg : Gap true mode.scanComments semi g (10 :: b) false)
    (h : Lexes U true mode (o + g.length + 1) b false us) : Lexes U true mode o (g ++ 10 :: b) semi us := by
  have hs : Space (!false) 10 := .inr (.inr (.inr ⟨rfl, rfl⟩))
  cases h with
  | eof h1 h2 =>
    refine .eof (gap_join (g2 := 10 :: b) (by simpa using hg) (.space hs h1)) (by rw [h2]; simp; omega)
  | @cons _ g2 x r _ semi1 semi2 t ts h1 h2 h3 h4 h5 =>
    have hj := gap_join (g2 := 10 :: g2) (r := x ++ r) (by simpa using hg) (.space hs h2)
    have e : g ++ 10 :: (g2 ++ (x ++ r)) = (g ++ 10 :: g2) ++ (x ++ r) := by simp
    rw [e]
    refine .cons h1 hj (by rw [h3]; simp; omega) h4 ?_
    have e : o + (g ++ 10 :: g2).length + x.length = o + g.length + 1 + g2.length + x.length := by simp; omega
    rw [e]
    exact h5

/-- The tokens of a text, a newline and another text. -/
theorem lexes_concat {mode : Mode} {o : Nat} {a b : Str} {semi : Bool} {ts us : List Token} (h : Lexes U true mode o a semi ts) :
    Clean a → Lexes U true mode (o + a.length + 1) b false us → Lexes U true mode o (a ++ 10 :: b) semi (ts.dropLast ++ us) := by
  induction h with
  | @eof o g semi p h1 h2 =>
    intro _ h
    exact lexes_gap (by simpa using gap_more b h1) h
  | @cons o g x r semi semi1 semi2 t ts h1 h2 h3 h4 h5 ih =>
    intro hc h
    have hne := lexes_ne h5
    rw [List.dropLast_cons_of_ne_nil hne, List.cons_append]
    have c1 := gap_cleared h2 hc
    obtain ⟨c2, hw⟩ := tokText_more b h4 h1 c1
    have e : o + (g ++ (x ++ r)).length + 1 = o + g.length + x.length + r.length + 1 := by simp; omega
    rw [e] at h
    have e2 : (g ++ (x ++ r)) ++ 10 :: b = g ++ (x ++ (r ++ 10 :: b)) := by simp
    rcases hw with ⟨rfl, rfl, ht, rfl, rfl⟩ | hw
    · have hts : ts.dropLast = [] := by
        generalize hr : ([] : Str) = r at h5
        cases h5 with
        | eof _ _ => rfl
        | @cons _ g x r _ s1 s2 t ts k1 k2 k3 k4 k5 =>
          obtain ⟨rfl, hr'⟩ := List.append_eq_nil_iff.mp hr.symm
          obtain ⟨hx, rfl⟩ := List.append_eq_nil_iff.mp hr'
          have hf : s1 = false := by
            cases s1 with
            | false => rfl
            | true => exact absurd (gap_false k2 rfl) (by simp)
          subst hf
          cases k4 with
          | eof => exact absurd rfl k1
          | ident h1 => exact absurd hx h1
          | imag h1 => exact absurd hx (imagText_ascii h1).1
          | float h1 => exact absurd hx (floatText_ascii h1).1
          | int h1 => exact absurd hx (intText_ascii h1).1
          | char h1 => obtain ⟨_, e⟩ := h1; rw [hx] at e; cases e
          | string h1 => obtain ⟨_, e⟩ := h1; rw [hx] at e; cases e
          | raw h1 => obtain ⟨_, e⟩ := h1; rw [hx] at e; cases e
          | comment _ h1 => subst hx; cases h1
          | illegal h1 => cases h1
          | op h1 => exact absurd hx (ops_ascii _ h1).1
          | dots => cases hx
      rw [hts, List.nil_append]
      have hn : TokText U true mode.scanComments true t [10] b false := by rw [ht]; exact .newline
      have := Lexes.cons (x := [10]) (r := b) h1 (gap_more b (by simpa using h2)) h3 hn (by simpa using h)
      simpa using this
    · rw [e2]
      refine .cons h1 ?_ h3 hw (ih c2 h)
      have := gap_more b h2
      rwa [List.append_assoc] at this

end Scanner
end Tpl
