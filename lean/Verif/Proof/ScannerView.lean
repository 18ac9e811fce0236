import Verif.Proof.ScannerTok

/-! Consequences of the lexical specification used by the property theorems. -/
namespace Tpl
namespace Scanner
open Spec

theorem commentText_weak {ok : Bool} {x r : Str} (h : CommentText ok x r) : CommentText false x r := by
  cases h with
  | line a b => exact .line a b
  | sharp a b => exact .sharp a b
  | block a => exact .block a
  | unclosed _ a => exact .unclosed rfl a

theorem gap_blank {ok c : Bool} {g r : Str} {a b : Bool} (h : Gap ok c a g r b) : Blank c g := by
  induction h with
  | nil => exact .nil
  | space h _ ih =>
    refine .space ?_ ih
    unfold Space at h
    rcases h with h | h | h | h
    · exact .inl h
    · exact .inr (.inl h)
    · exact .inr (.inr (.inl h))
    · exact .inr (.inr (.inr h.1))
  | comment h1 h2 _ _ ih => exact .comment h1 (commentText_weak h2) ih

theorem intText_weak {ok : Bool} {x r : Str} (h : IntText ok x r) : IntText false x r := by
  cases h with
  | dec a b c d e => exact .dec a b c d e
  | oct a b c d =>
    refine .oct ?_ b c d
    intro b hb
    have := a b hb
    cases ok
    · simpa using this
    · simp only [if_true] at this
      simp only [Bool.false_eq_true, if_false]
      unfold IsOct at this
      unfold IsDec
      omega
  | hex a b _ c => exact .hex a b (by simp) c

theorem tokText_weak {U : Uni} {ok c : Bool} {semi semi2 : Bool} {t : Token} {x r : Str}
    (h : TokText U ok c semi t x r semi2) : TokText U false c semi t x r semi2 := by
  cases h with
  | ident a b c d => exact .ident a b c d
  | int a => exact .int (intText_weak a)
  | float a b => exact .float a b
  | imag a => exact .imag a
  | char a b => exact .char a (by simp)
  | string a b => exact .string a (by simp)
  | raw a b => exact .raw a (by simp)
  | comment a b c => exact .comment a (commentText_weak b) c
  | op a b c d => exact .op a b c d
  | newline => exact .newline
  | semiAtComment a => exact .semiAtComment a
  | semiAtEnd => exact .semiAtEnd
  | eof => exact .eof
  | dots a => exact .dots a
  | illegal _ a b c => exact .illegal rfl a b c

/-- The text is cut into gaps and token texts. -/
theorem lexes_parts {U : Uni} {ok : Bool} {mode : Mode} {o : Nat} {txt : Str} {semi : Bool} {ts : List Token}
    (h : Lexes U ok mode o txt semi ts) : ∃ parts : List (Str × Str × Token),
      parts.map (·.2.2) = ts ∧ txt = (parts.map (fun p => p.1 ++ p.2.1)).flatten ∧
      (∀ p ∈ parts, Blank mode.scanComments p.1 ∧ ∃ r, ReadFrom U mode.scanComments p.2.2 p.2.1 r ∧ (p.2.1 ++ r) <:+ txt) ∧
      (∀ l p l', parts = l ++ p :: l' → p.2.2.pos = o + (l.map (fun p => p.1 ++ p.2.1)).flatten.length + p.1.length) := by
  induction h with
  | eof hg hp =>
    rename_i o g semi p
    refine ⟨[(g, [], ⟨EOF, p, []⟩)], rfl, by simp, ?_, ?_⟩
    · intro q hq
      simp only [List.mem_singleton] at hq
      subst hq
      exact ⟨gap_blank hg, [], ⟨false, false, .eof⟩, by simp⟩
    · intro l q l' e
      cases l with
      | nil => simp at e; obtain ⟨rfl, _⟩ := e; simpa using hp
      | cons a l => simp at e
  | cons hk hg hp htt _ ih =>
    rename_i o g x r semi semi1 semi2 t ts _
    obtain ⟨parts, h1, h2, h3, h4⟩ := ih
    refine ⟨(g, x, t) :: parts, by simp [h1], by simp [← h2], ?_, ?_⟩
    · intro q hq
      rcases List.mem_cons.mp hq with rfl | hq
      · exact ⟨gap_blank hg, r, ⟨semi1, semi2, tokText_weak htt⟩, List.suffix_append _ _⟩
      · obtain ⟨a, r', b, c⟩ := h3 q hq
        exact ⟨a, r', b, c.trans ((List.suffix_append x r).trans (List.suffix_append g _))⟩
    · intro l q l' e
      cases l with
      | nil => simp at e; obtain ⟨rfl, _⟩ := e; simpa using hp
      | cons a l =>
        simp only [List.cons_append, List.cons.injEq] at e
        obtain ⟨rfl, e⟩ := e
        rw [h4 l q l' e]
        simp only [List.map_cons, List.flatten_cons, List.length_append]
        omega

/-- Tokens in order, with the ends of their texts. -/
theorem lexes_order {U : Uni} {ok : Bool} {mode : Mode} {src : Str} {o : Nat} {txt : Str} {semi : Bool} {ts : List Token}
    (h : Lexes U ok mode o txt semi ts) (hs : src.drop o = txt) (ho : o ≤ src.length) :
    ∃ l : List (Token × Nat), l.map (·.1) = ts ∧ InOrder o l ∧
      ∀ q ∈ l, q.2 ≤ src.length ∧ ∃ x r, src.drop q.1.pos = x ++ r ∧ q.2 = q.1.pos + x.length ∧
        ReadFrom U mode.scanComments q.1 x r := by
  induction h with
  | eof hg hp =>
    rename_i o g semi p
    have hl : o + g.length = src.length := by
      have := congrArg List.length hs
      simp only [List.length_drop] at this
      omega
    refine ⟨[(⟨EOF, p, []⟩, p)], rfl, ⟨by dsimp only; omega, Nat.le_refl _, trivial⟩, ?_⟩
    intro q hq
    simp only [List.mem_singleton] at hq
    subst hq
    refine ⟨by dsimp only; omega, [], [], ?_, rfl, ⟨false, false, .eof⟩⟩
    dsimp only
    rw [List.drop_eq_nil_of_le (by omega)]
    rfl
  | cons hk hg hp htt _ ih =>
    rename_i o g x r semi semi1 semi2 t ts _
    have hl : o + (g.length + (x.length + r.length)) = src.length := by
      have := congrArg List.length hs
      simp only [List.length_drop, List.length_append] at this
      omega
    have hd : src.drop (o + g.length) = x ++ r := by
      rw [← List.drop_drop, hs, List.drop_left]
    obtain ⟨l, h1, h2, h3⟩ := ih (by rw [← List.drop_drop, hd, List.drop_left]) (by omega)
    refine ⟨(t, o + g.length + x.length) :: l, by simp [h1], ⟨by omega, by omega, h2⟩, ?_⟩
    intro q hq
    rcases List.mem_cons.mp hq with rfl | hq
    · exact ⟨by dsimp only; omega, x, r, by simp only [hp, hd], by simp only [hp], ⟨semi1, semi2, tokText_weak htt⟩⟩
    · exact h3 q hq

theorem inOrder_pairwise {l : List (Token × Nat)} : ∀ {o : Nat}, InOrder o l →
    (∀ q ∈ l, o ≤ q.1.pos) ∧ (l.map (·.1)).Pairwise (fun a b => a.pos ≤ b.pos) := by
  induction l with
  | nil => intro o _; simp
  | cons q l ih =>
    obtain ⟨t, e⟩ := q
    intro o ⟨h1, h2, h3⟩
    obtain ⟨h4, h5⟩ := ih h3
    refine ⟨?_, ?_⟩
    · intro q hq
      rcases List.mem_cons.mp hq with rfl | hq
      · exact h1
      · have := h4 q hq; omega
    · simp only [List.map_cons, List.pairwise_cons, List.mem_map]
      refine ⟨?_, h5⟩
      rintro b ⟨q, hq, rfl⟩
      have := h4 q hq; omega

/-- Automatic semicolons. -/
theorem tokText_auto {U : Uni} {ok c : Bool} {semi semi2 : Bool} {t : Token} {x r : Str}
    (h : TokText U ok c semi t x r semi2) (ha : Automatic t) :
    semi = true ∧ (x = [10] ∨ (x = [] ∧ (LineAhead r ∨ CharNext 35 r ∨ r = []))) := by
  obtain ⟨hk, hl⟩ := ha
  cases h with
  | newline => exact ⟨rfl, .inl rfl⟩
  | semiAtComment h =>
    refine ⟨rfl, .inr ⟨rfl, ?_⟩⟩
    rcases h with h | h
    · exact .inl h
    · exact .inr (.inl h)
  | semiAtEnd => exact ⟨rfl, .inr ⟨rfl, .inr (.inr rfl)⟩⟩
  | op h1 =>
    dsimp only at hk hl
    rw [if_pos hk] at hl
    simp at hl
  | _ => simp only [] at hk; first | exact absurd hk (by decide) | (injection hk with hk; cases hk)

theorem tokText_semi {U : Uni} {ok c : Bool} {semi : Bool} {t : Token} {x r : Str}
    (h : TokText U ok c semi t x r true) : endsStatement t.kind = true ∨ (t.kind = ILLEGAL ∧ ok = false) := by
  generalize hb : true = b at h
  cases h with
  | ident | int | float | imag | char | string | raw => left; rfl
  | op => left; rw [← hb]
  | illegal h => right; exact ⟨rfl, h⟩
  | _ => cases hb

theorem lexes_auto {U : Uni} {ok : Bool} {mode : Mode} {o : Nat} {txt : Str} {semi : Bool} {ts : List Token}
    (h : Lexes U ok mode o txt semi ts) {l1 : List Token} {t : Token} {l2 : List Token} (he : ts = l1 ++ t :: l2)
    (ha : Automatic t) : (l1 = [] ∧ semi = true) ∨
      ∃ l0 t0, l1 = l0 ++ [t0] ∧ (endsStatement t0.kind = true ∨ (t0.kind = ILLEGAL ∧ ok = false)) ∧ mode.insertSemis = true := by
  induction h generalizing l1 with
  | eof hg hp =>
    exfalso
    have hm : t ∈ l1 ++ t :: l2 := by simp
    rw [← he] at hm
    rw [List.mem_singleton.mp hm] at ha
    exact absurd ha.1 (show EOF ≠ SEMICOLON by decide)
  | cons hk hg hp htt _ ih =>
    rename_i o g x r semi semi1 semi2 t' ts _
    cases l1 with
    | nil =>
      left
      simp only [List.nil_append, List.cons.injEq] at he
      obtain ⟨rfl, _⟩ := he
      exact ⟨rfl, gap_false hg (tokText_auto htt ha).1⟩
    | cons a l1 =>
      right
      simp only [List.cons_append, List.cons.injEq] at he
      obtain ⟨rfl, he⟩ := he
      rcases ih he with ⟨rfl, hs⟩ | ⟨l0, t0, e, h1⟩
      · simp only [Bool.and_eq_true] at hs
        obtain ⟨rfl, hs⟩ := hs
        exact ⟨[], t', rfl, tokText_semi htt, hs⟩
      · exact ⟨t' :: l0, t0, by rw [e]; rfl, h1⟩

/-- A token text does not start with white space other than a due newline. -/
theorem tokText_head {U : Uni} {ok c : Bool} {semi semi2 : Bool} {t : Token} {b : UInt8} {x r : Str}
    (h : TokText U ok c semi t (b :: x) r semi2) (hb : b = 32 ∨ b = 9 ∨ b = 13 ∨ b = 10) :
    b = 10 ∧ x = [] ∧ t.kind = SEMICOLON ∧ t.lit = [10] := by
  generalize hy : b :: x = y at h
  have hhead : ∀ r, headRune (y ++ r) = (b.toNat : Int) := by
    intro r
    rw [← hy]
    unfold headRune
    rw [if_neg (by simp)]
    have : b.toNat < 0x80 := by rcases hb with rfl | rfl | rfl | rfl <;> decide
    simp [decodeRune, this]
  have hbn : b.toNat = 32 ∨ b.toNat = 9 ∨ b.toNat = 13 ∨ b.toNat = 10 := by
    rcases hb with rfl | rfl | rfl | rfl <;> decide
  have hdec : ∀ ds : Str, (∀ b ∈ ds, IsDec b) → ∀ l c z, b :: x = ds ++ c :: (z : Str) → l = ds → b = c := by
    intro ds hds l c z e _
    cases ds with
    | nil => simp at e; exact e.1
    | cons d ds =>
      simp only [List.cons_append, List.cons.injEq] at e
      have := hds d (by simp)
      rw [← e.1] at this
      unfold IsDec at this
      omega
  have hfl : ∀ r', ¬ FloatText y r' := by
    intro r' hf
    rw [← hy] at hf
    generalize hz : b :: x = z at hf
    cases hf with
    | frac h1 h2 h3 h4 h5 =>
      rename_i ds fs ex
      have := hdec ds h1 ds _ _ hz rfl
      rw [this] at hbn
      exact absurd hbn (by decide)
    | exp h1 h2 h3 h4 =>
      rename_i ds ex
      cases ds with
      | nil => exact h2 rfl
      | cons d ds =>
        simp only [List.cons_append, List.cons.injEq] at hz
        have := h1 d (by simp)
        rw [← hz.1] at this
        unfold IsDec at this
        omega
  cases h with
  | ident h1 h2 =>
    rw [hhead] at h2
    unfold Letter at h2
    omega
  | int h1 =>
    subst hy
    cases h1 with
    | dec h => unfold IsDec at h; omega
    | oct => exact absurd hbn (by decide)
    | hex => exact absurd hbn (by decide)
  | float h1 => exact absurd h1 (hfl _)
  | imag h1 =>
    cases h1 with
    | int h1 h2 =>
      rename_i ds
      have := hdec ds h1 ds 105 [] hy rfl
      rw [this] at hbn
      exact absurd hbn (by decide)
    | float h1 =>
      rename_i z
      exfalso
      generalize hr' : 105 :: r = r' at h1
      cases h1 with
      | frac h1 h2 h3 h4 h5 =>
        rename_i ds fs ex
        have := hdec ds h1 ds 46 (fs ++ ex ++ [105]) (by rw [hy]; simp) rfl
        rw [this] at hbn
        exact absurd hbn (by decide)
      | exp h1 h2 h3 h4 =>
        rename_i ds ex
        cases ds with
        | nil => exact h2 rfl
        | cons d ds =>
          simp only [List.cons_append, List.cons.injEq] at hy
          have := h1 d (by simp)
          rw [← hy.1] at this
          unfold IsDec at this
          omega
  | char h1 => obtain ⟨t, e⟩ := h1; rw [← hy] at e; cases e; exact absurd hbn (by decide)
  | string h1 => obtain ⟨t, e⟩ := h1; rw [← hy] at e; cases e; exact absurd hbn (by decide)
  | raw h1 => obtain ⟨t, e⟩ := h1; rw [← hy] at e; cases e; exact absurd hbn (by decide)
  | comment _ h1 =>
    subst hy
    cases h1 <;> (exact absurd hbn (by decide))
  | op h1 =>
    obtain ⟨b', t', e, hm⟩ := opStarts_spec _ h1
    rw [← hy] at e
    cases e
    rcases hb with rfl | rfl | rfl | rfl <;> exact absurd hm (by decide)
  | newline => cases hy; exact ⟨rfl, rfl, rfl, rfl⟩
  | semiAtComment => cases hy
  | semiAtEnd => cases hy
  | eof => cases hy
  | dots => cases hy; exact absurd hbn (by decide)
  | illegal _ _ _ h =>
    exfalso
    have h3 := h.2.2.1 b (by rcases hb with rfl | rfl | rfl | rfl <;> decide)
    exact h3 ⟨x ++ r, by rw [← hy]; rfl⟩

/-- A newline where a semicolon is due gives one. -/
theorem lexes_newline {U : Uni} {ok : Bool} {mode : Mode} {o : Nat} {txt : Str} {ts : List Token}
    (h : Lexes U ok mode o txt true ts) {ws r : Str} (he : txt = ws ++ 10 :: r) (hws : ∀ b ∈ ws, b = 32 ∨ b = 9 ∨ b = 13) :
    ∃ l, ts = ⟨SEMICOLON, o + ws.length, [10]⟩ :: l := by
  -- the gap is a prefix of the blanks
  have key : ∀ g y semi', Gap ok mode.scanComments true g y semi' → ∀ ws, (∀ b ∈ ws, b = 32 ∨ b = 9 ∨ b = 13) →
      g ++ y = ws ++ 10 :: r → ∃ ws', ws = g ++ ws' ∧ y = ws' ++ 10 :: r := by
    intro g y semi' hg
    generalize hb : true = b at hg
    induction hg with
    | nil => intro ws _ e; exact ⟨ws, rfl, e⟩
    | space hsp _ ih =>
      subst hb
      intro ws hws e
      cases ws with
      | nil =>
        simp only [List.cons_append, List.nil_append, List.cons.injEq] at e
        obtain ⟨rfl, _⟩ := e
        unfold Space at hsp
        exact absurd hsp (by decide)
      | cons w ws =>
        simp only [List.cons_append, List.cons.injEq] at e
        obtain ⟨rfl, e⟩ := e
        obtain ⟨ws', e1, e2⟩ := ih rfl ws (fun b hb => hws b (by simp [hb])) e
        exact ⟨ws', by rw [e1]; rfl, e2⟩
    | comment _ hc _ _ _ =>
      intro ws hws e
      exfalso
      have hhd : ∃ a t, ws ++ 10 :: r = a :: t ∧ (a = 32 ∨ a = 9 ∨ a = 13 ∨ a = 10) := by
        cases ws with
        | nil => exact ⟨10, r, rfl, by simp⟩
        | cons w ws =>
          refine ⟨w, ws ++ 10 :: r, rfl, ?_⟩
          rcases hws w (by simp) with h | h | h
          · exact .inl h
          · exact .inr (.inl h)
          · exact .inr (.inr (.inl h))
      obtain ⟨a, t, e1, e2⟩ := hhd
      rw [e1] at e
      rename_i g' r' _ _ _ _ _
      generalize g' ++ r' = q at hc
      clear e1 hws
      cases hc <;> (simp only [List.cons_append, List.cons.injEq] at e; rw [← e.1] at e2; revert e2; decide)
  generalize hs : true = semi at h
  generalize ht : txt = txt' at h
  cases h with
  | eof hg hp =>
    exfalso
    subst hs ht
    obtain ⟨ws', _, e⟩ := key _ _ _ hg ws hws (by rw [List.append_nil]; exact he)
    cases ws' <;> simp at e
  | cons hk hg hp htt =>
    rename_i g x r' semi1 semi2 t l _
    subst hs ht
    obtain ⟨ws', e1, e2⟩ := key _ _ _ hg ws hws he
    subst e1
    have hws' : ∀ b ∈ ws', b = 32 ∨ b = 9 ∨ b = 13 := fun b hb => hws b (by simp [hb])
    cases x with
    | nil =>
      -- nothing but a semicolon or EOF has an empty text, and they need other contexts
      exfalso
      have hr' : r' = ws' ++ 10 :: r := by simpa using e2
      have hhd : ∃ a t, r' = a :: t ∧ (a = 32 ∨ a = 9 ∨ a = 13 ∨ a = 10) := by
        rw [hr']
        cases ws' with
        | nil => exact ⟨10, r, rfl, by simp⟩
        | cons w ws =>
          refine ⟨w, ws ++ 10 :: r, rfl, ?_⟩
          rcases hws' w (by simp) with h | h | h
          · exact .inl h
          · exact .inr (.inl h)
          · exact .inr (.inr (.inl h))
      obtain ⟨a, t0, ea, ha⟩ := hhd
      rcases tokText_progress htt hk with h1 | ⟨h1, h2⟩
      · exact h1 rfl
      · have hauto : Automatic t ∧ (LineAhead r' ∨ CharNext 35 r' ∨ r' = []) := by
          clear e2 hr'
          generalize hx : ([] : Str) = x at htt
          cases htt with
          | semiAtComment h =>
            refine ⟨⟨rfl, rfl⟩, ?_⟩
            rcases h with h | h
            · exact .inl h
            · exact .inr (.inl h)
          | semiAtEnd => exact ⟨⟨rfl, rfl⟩, .inr (.inr rfl)⟩
          | eof => exact absurd rfl hk
          | ident h => exact absurd hx.symm h
          | int h => subst hx; cases h
          | float h =>
            exfalso
            cases h with
            | frac => simp at hx
            | exp _ h => simp [h] at hx
          | imag h => exfalso; cases h <;> simp at hx
          | char h => subst hx; obtain ⟨_, h⟩ := h; cases h
          | string h => subst hx; obtain ⟨_, h⟩ := h; cases h
          | raw h => subst hx; obtain ⟨_, h⟩ := h; cases h
          | comment _ h => subst hx; cases h
          | op h => exact absurd hx.symm (operators_ne _ h).2.2.2.1
          | newline => cases hx
          | dots => cases hx
          | illegal _ h => exact absurd hx.symm h
        rcases hauto.2 with h | h | h
        · rw [ea] at h
          cases h <;> (revert ha; decide)
        · rw [ea] at h
          obtain ⟨_, h⟩ := h
          cases h
          revert ha; decide
        · rw [ea] at h; cases h
    | cons b x =>
      have hb : b = 32 ∨ b = 9 ∨ b = 13 ∨ b = 10 := by
        cases ws' with
        | nil => simp at e2; exact .inr (.inr (.inr e2.1))
        | cons w ws' =>
          simp only [List.cons_append, List.cons.injEq] at e2
          rw [e2.1]
          rcases hws' w (by simp) with h | h | h
          · exact .inl h
          · exact .inr (.inl h)
          · exact .inr (.inr (.inl h))
      obtain ⟨rfl, rfl, hk', hl'⟩ := tokText_head htt hb
      have hnil : ws' = [] := by
        cases ws' with
        | nil => rfl
        | cons w ws' =>
          simp only [List.cons_append, List.cons.injEq] at e2
          have := hws' w (by simp)
          rw [← e2.1] at this
          exact absurd this (by decide)
      subst hnil
      refine ⟨l, ?_⟩
      obtain ⟨k, p, lit⟩ := t
      simp only at hk' hl' hp
      subst hk' hl' hp
      simp

end Scanner
end Tpl
