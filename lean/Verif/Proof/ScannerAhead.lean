import Verif.Proof.ScannerLit

/-! White space and the look-ahead of `findLineEnd`. -/
namespace Tpl
namespace Scanner
open Spec

/-! ### white space -/

theorem isSpace_nonneg {semi : Bool} {c : Int} (h : isSpace semi c = true) : 0 ≤ c := by
  unfold isSpace at h
  simp only [Bool.or_eq_true, beq_iff_eq, Bool.and_eq_true] at h
  omega

theorem skipWhitespace_spec {s : Scanner} (h : Sync s) :
    ∃ g, Eat s g s.skipWhitespace ∧ (∀ b ∈ g, Space (!s.insertSemi) b) ∧
      isSpace s.insertSemi s.skipWhitespace.ch = false := by
  obtain ⟨x, he, hr, hs⟩ := whileCh_spec (isSpace s.insertSemi) (fun c => isSpace_nonneg) s.mu s h
    (Nat.le_refl _)
  refine ⟨x, he, Runes.bytes hr _ ?_ ?_, hs⟩
  · intro b _ hb
    unfold isSpace at hb
    simp only [Bool.or_eq_true, beq_iff_eq, Bool.and_eq_true, Bool.not_eq_true'] at hb
    unfold Space
    rcases hb with ((e | e) | ⟨e, n⟩) | e
    · exact .inl (toUInt8_eq (by have := e; revert this; exact fun h => by exact_mod_cast h))
    · exact .inr (.inl (toUInt8_eq (by have := e; revert this; exact fun h => by exact_mod_cast h)))
    · exact .inr (.inr (.inr ⟨toUInt8_eq (by have := e; revert this; exact fun h => by exact_mod_cast h), by simpa using n⟩))
    · exact .inr (.inr (.inl (toUInt8_eq (by have := e; revert this; exact fun h => by exact_mod_cast h))))
  · rintro b _ ⟨c, hc, hp⟩
    unfold isSpace at hp
    simp only [Bool.or_eq_true, beq_iff_eq, Bool.and_eq_true] at hp
    omega

/-! ### steps that do not pass a newline -/

inductive FSteps : Scanner → Scanner → Prop
  | refl (s) : FSteps s s
  | next {s s'} : FSteps s s' → s'.ch ≠ 10 → FSteps s s'.next

theorem FSteps.trans {a b c : Scanner} (h : FSteps a b) (h' : FSteps b c) : FSteps a c := by
  induction h' with
  | refl => exact h
  | next _ hc ih => exact ih.next hc

theorem FSteps.steps {s s' : Scanner} (h : FSteps s s') : Steps s s' := by
  induction h with
  | refl => exact .refl _
  | next _ _ ih => exact ih.next

/-- `s` after the errors `l` have been reported. -/
def addErrs (s : Scanner) (l : List (Nat × Msg)) : Scanner :=
  { s with errs := l ++ s.errs, errorCount := s.errorCount + l.length }

theorem addErrs_steps (s : Scanner) (l : List (Nat × Msg)) : Steps s (s.addErrs l) := by
  induction l with
  | nil => exact .refl s
  | cons a l ih =>
    have : s.addErrs (a :: l) = (s.addErrs l).error a.1 a.2 := by
      simp [addErrs, Scanner.error]; omega
    rw [this]
    exact ih.error _ _

theorem next_flat {s : Scanner} (h : s.ch ≠ 10) : ∃ l c o r, s.next =
    { s.addErrs l with ch := c, offset := o, rdOffset := r } := by
  unfold Scanner.next nextLine
  simp only [h, if_false]
  split
  · generalize (nextRune _ _ _) = e
    obtain ⟨r, w, e⟩ := e
    cases e with
    | none => exact ⟨[], _, _, _, rfl⟩
    | some m => exact ⟨[(_, m)], _, _, _, rfl⟩
  · exact ⟨[], -1, _, _, rfl⟩

theorem FSteps.flat {s s' : Scanner} (h : FSteps s s') : ∃ l c o r, s' =
    { s.addErrs l with ch := c, offset := o, rdOffset := r } := by
  induction h with
  | refl => exact ⟨[], s.ch, s.offset, s.rdOffset, rfl⟩
  | next _ hc ih =>
    obtain ⟨l, c, o, r, e⟩ := ih
    obtain ⟨l', c', o', r', e'⟩ := next_flat hc
    refine ⟨l' ++ l, c', o', r', ?_⟩
    rw [e', e]
    simp [addErrs]; omega

theorem whileCh_fsteps (p : Int → Bool) (hp : p 10 = false) : ∀ (f : Nat) (s : Scanner),
    FSteps s (whileCh p f s) := by
  intro f
  induction f with
  | zero => intro s; exact .refl s
  | succ f ih =>
    intro s
    unfold whileCh
    split
    · rename_i h
      refine FSteps.trans (.next (.refl s) ?_) (ih s.next)
      intro e; rw [e, hp] at h; cases h
    · exact .refl s

theorem findLineEndInner_fsteps : ∀ (f : Nat) (s : Scanner), FSteps s (findLineEndInner f s).2 := by
  intro f
  induction f with
  | zero => intro s; exact .refl s
  | succ f ih =>
    intro s
    simp only [findLineEndInner]
    split
    · split
      · exact .refl s
      · rename_i hc
        have h1 : FSteps s s.next := .next (.refl s) hc
        split
        · rename_i h2
          exact h1.next (by omega)
        · exact h1.trans (ih _)
    · exact .refl s

theorem findLineEndLoop_fsteps : ∀ (f : Nat) (s : Scanner), s.insertSemi = true →
    FSteps s (findLineEndLoop f s).2 := by
  intro f
  induction f with
  | zero => intro s _; exact .refl s
  | succ f ih =>
    intro s hsemi
    simp only [findLineEndLoop]
    split
    · exact .refl s
    · split
      · rename_i h42
        have h1 : FSteps s s.next := .next (.refl s) (by omega)
        have h2 := h1.trans (findLineEndInner_fsteps s.next.mu s.next)
        generalize findLineEndInner s.next.mu s.next = q at h2
        obtain ⟨b, s2⟩ := q
        cases b with
        | true => exact h2
        | false =>
          dsimp only at h2 ⊢
          have hs2 : s2.insertSemi = true := by rw [h2.steps.insertSemi]; exact hsemi
          have h3 : FSteps s s2.skipWhitespace := h2.trans (whileCh_fsteps _ (by simp [isSpace, hs2]) _ _)
          split
          · exact h3
          · split
            · exact h3
            · rename_i h47
              have h4 : FSteps s s2.skipWhitespace.next := h3.next (by omega)
              exact h4.trans (ih _ (by rw [h4.steps.insertSemi]; exact hsemi))
      · exact .refl s

theorem next_ascii {s : Scanner} {b : UInt8} {t : Str} (hc : s.ch ≠ 10) (hd : s.src.drop s.rdOffset = b :: t)
    (h0 : ¬ b.toNat = 0) (h1 : b.toNat < 0x80) :
    s.next = { s with offset := s.rdOffset, rdOffset := s.rdOffset + 1, ch := b.toNat } := by
  have hlt : s.rdOffset < s.src.length := by
    have := congrArg List.length hd
    simp at this
    omega
  have hr : nextRune s.src s.rdOffset s.rdOffset = (b.toNat, 1, none) := by
    unfold nextRune
    rw [hd]
    simp only [h0, if_false]
    rw [if_neg (by omega)]
  unfold Scanner.next nextLine
  rw [if_pos hlt, if_neg hc]
  simp only [hr]

/-- `findLineEnd` leaves the scanner where it was; it may only have reported errors. -/
theorem findLineEnd_state {s0 s : Scanner} (h0 : Eat s0 [47] s) (hc : s.ch = 47 ∨ s.ch = 42)
    (hsemi : s.insertSemi = true) : ∃ l, (findLineEnd s).2 = s.addErrs l := by
  have hoff := h0.offsetM1
  have hf := findLineEndLoop_fsteps (s.mu + 1) s hsemi
  unfold findLineEnd
  simp only [hoff]
  generalize findLineEndLoop (s.mu + 1) s = q at hf
  obtain ⟨r, s'⟩ := q
  dsimp only at hf ⊢
  obtain ⟨l, c, o, r', e⟩ := hf.flat
  subst e
  refine ⟨l, ?_⟩
  have hs := h0.sync
  have ho := h0.offset
  simp only [List.length_cons, List.length_nil] at ho
  obtain ⟨b, hb, hr⟩ := hs.rest_ascii (by omega) (by omega)
  have hd : s.src.drop (s0.offset + 1) = b :: s.next.rest := by
    rw [← hr]; unfold Scanner.rest; rw [ho]
  have hlt : s0.offset + 1 < s.src.length := by
    have := congrArg List.length hd
    simp at this
    omega
  have hb0 : ¬ b.toNat = 0 := by omega
  have hb1 : ¬ b.toNat ≥ 0x80 := by omega
  rw [next_ascii (b := b) (t := s.next.rest) (by simp) (by simpa [addErrs] using hd) hb0 (by omega)]
  have hrd := hs.rd
  unfold peek at hrd
  rw [ho, hd] at hrd
  simp only [hb1, if_false] at hrd
  simp [addErrs, hb, ho, hrd]

/-! ### what the look-ahead decides -/

theorem split_close : ∀ {b b' t t' : Str}, b ++ 42 :: 47 :: t = b' ++ 42 :: 47 :: t' →
    noClose (b ++ [42]) = true → noClose (b' ++ [42]) = true → b = b' ∧ t = t' := by
  intro b
  induction b with
  | nil =>
    intro b' t t' h h1 h2
    cases b' with
    | nil => simp at h; exact ⟨rfl, h⟩
    | cons a b' =>
      exfalso
      simp only [List.nil_append, List.cons_append, List.cons.injEq] at h
      obtain ⟨rfl, h⟩ := h
      simp only [List.cons_append, noClose, Bool.and_eq_true, Bool.not_eq_true', Bool.and_eq_false_iff,
        beq_eq_false_iff_ne] at h2
      cases b' with
      | nil => simp at h
      | cons c b' =>
        simp only [List.cons_append, List.cons.injEq] at h
        obtain ⟨rfl, _⟩ := h
        simp at h2
  | cons a b ih =>
    intro b' t t' h h1 h2
    cases b' with
    | nil =>
      exfalso
      simp only [List.nil_append, List.cons_append, List.cons.injEq] at h
      obtain ⟨rfl, h⟩ := h
      simp only [List.cons_append, noClose, Bool.and_eq_true, Bool.not_eq_true', Bool.and_eq_false_iff,
        beq_eq_false_iff_ne] at h1
      cases b with
      | nil => simp at h
      | cons c b =>
        simp only [List.cons_append, List.cons.injEq] at h
        obtain ⟨rfl, _⟩ := h
        simp at h1
    | cons a' b' =>
      simp only [List.cons_append, List.cons.injEq] at h
      obtain ⟨rfl, h⟩ := h
      simp only [List.cons_append, noClose, Bool.and_eq_true] at h1 h2
      obtain ⟨rfl, rfl⟩ := ih h h1.2 h2.2
      exact ⟨rfl, rfl⟩

theorem noClose_false {b t : Str} : noClose (b ++ 42 :: 47 :: t) = false := by
  induction b with
  | nil => simp [noClose]
  | cons a b ih => simp [noClose, ih]

theorem noClose_prefix {b t : Str} (h : noClose (b ++ t) = true) : noClose b = true := by
  induction b with
  | nil => rfl
  | cons a b ih =>
    simp only [List.cons_append, noClose, Bool.and_eq_true, Bool.not_eq_true', Bool.and_eq_false_iff,
      beq_eq_false_iff_ne] at h ⊢
    refine ⟨?_, ih h.2⟩
    rcases h.1 with h1 | h1
    · exact .inl h1
    · right
      cases b with
      | nil => simp
      | cons c b => simpa using h1

/-- A text without close before a newline, and one closed without newline, differ. -/
theorem newline_vs_close : ∀ {b b' t t' : Str}, b ++ 10 :: t = b' ++ 42 :: 47 :: t' →
    noClose b = true → 10 ∉ b' → False := by
  intro b
  induction b with
  | nil =>
    intro b' t t' h _ h2
    cases b' with
    | nil => simp at h
    | cons a b' =>
      simp only [List.nil_append, List.cons_append, List.cons.injEq] at h
      simp [← h.1] at h2
  | cons a b ih =>
    intro b' t t' h h1 h2
    cases b' with
    | nil =>
      simp only [List.nil_append, List.cons_append, List.cons.injEq] at h
      obtain ⟨rfl, h⟩ := h
      cases b with
      | nil => simp at h
      | cons c b =>
        simp only [List.cons_append, List.cons.injEq] at h
        obtain ⟨rfl, h⟩ := h
        simp [noClose] at h1
    | cons a' b' =>
      simp only [List.cons_append, List.cons.injEq] at h
      obtain ⟨rfl, h⟩ := h
      simp only [noClose, Bool.and_eq_true] at h1
      exact ih h h1.2 (fun hm => h2 (by simp [hm]))

theorem split_ws {P : UInt8 → Prop} : ∀ {ws ws' t t' : Str}, ws ++ t = ws' ++ t' → (∀ c ∈ ws, P c) →
    (∀ c ∈ ws', P c) → (∀ c, t.head? = some c → ¬ P c) → (∀ c, t'.head? = some c → ¬ P c) → ws = ws' ∧ t = t' := by
  intro ws
  induction ws with
  | nil =>
    intro ws' t t' h _ h2 h3 _
    cases ws' with
    | nil => exact ⟨rfl, h⟩
    | cons a ws' =>
      simp at h
      exact absurd (h2 a (by simp)) (h3 a (by simp [h]))
  | cons a ws ih =>
    intro ws' t t' h h1 h2 h3 h4
    cases ws' with
    | nil =>
      simp at h
      exact absurd (h1 a (by simp)) (h4 a (by simp [← h]))
    | cons b ws' =>
      simp only [List.cons_append, List.cons.injEq] at h
      obtain ⟨rfl, h⟩ := h
      obtain ⟨rfl, rfl⟩ := ih h (fun c hc => h1 c (by simp [hc])) (fun c hc => h2 c (by simp [hc])) h3 h4
      exact ⟨rfl, rfl⟩

theorem findLineEndInner_spec : ∀ (f : Nat) (s : Scanner), Sync s → s.mu ≤ f →
    ∃ x, Eat s x (findLineEndInner f s).2 ∧
      ((findLineEndInner f s).1 = true → noClose x = true ∧ 10 ∉ x ∧ CharNext 10 (findLineEndInner f s).2.rest) ∧
      ((findLineEndInner f s).1 = false →
        (∃ b, x = b ++ [42, 47] ∧ noClose (b ++ [42]) = true ∧ 10 ∉ b) ∨
        (noClose x = true ∧ 10 ∉ x ∧ (findLineEndInner f s).2.rest = [])) := by
  intro f
  induction f with
  | zero =>
    intro s h hf
    have := mu_zero (s := s) (by omega)
    exact ⟨[], Eat.refl h, by simp [findLineEndInner], fun _ => .inr ⟨rfl, by simp, h.rest_eof this⟩⟩
  | succ f ih =>
    intro s h hf
    simp only [findLineEndInner]
    split
    · rename_i hc
      have hlt := next_mu_lt (s := s) hc
      split
      · rename_i h10
        exact ⟨[], Eat.refl h, fun _ => ⟨rfl, by simp, (h.charNext 10 (by decide)).mpr h10⟩, by simp⟩
      · rename_i h10
        split
        · rename_i h42
          have h1 := h.eatAscii 42 (by decide) h42.1
          have h2 := h1.sync.eatAscii 47 (by decide) h42.2
          exact ⟨[42] ++ [47], h1.trans h2, by simp, fun _ => .inl ⟨[], rfl, by decide, by simp⟩⟩
        · rename_i hno
          obtain ⟨u, he, hune, _, hd⟩ := h.eatNext hc
          obtain ⟨x, hex, ht, hfl⟩ := ih s.next he.sync (by omega)
          have hu10 : 10 ∉ u := fun hm => plain_bytes 10 (by decide) hd h10 10 hm rfl
          refine ⟨u ++ x, he.trans hex, ?_, ?_⟩
          · intro hcl
            obtain ⟨hx, hx10, hr⟩ := ht hcl
            refine ⟨noClose_append hx (star_bytes hd he.sync hno ?_), ?_, hr⟩
            · intro e
              rw [hex.rest]
              cases x with
              | nil => simp at e
              | cons a t => simpa using e
            · intro hm
              rcases List.mem_append.mp hm with hm | hm
              · exact hu10 hm
              · exact hx10 hm
          · intro hcl
            rcases hfl hcl with ⟨b, rfl, hb, hb10⟩ | ⟨hx, hx10, hr⟩
            · left
              refine ⟨u ++ b, by simp, ?_, ?_⟩
              · rw [List.append_assoc]
                refine noClose_append hb (star_bytes hd he.sync hno ?_)
                intro e
                rw [hex.rest]
                cases b with
                | nil => simp at e
                | cons a t => simpa using e
              · intro hm
                rcases List.mem_append.mp hm with hm | hm
                · exact hu10 hm
                · exact hb10 hm
            · right
              refine ⟨noClose_append hx (star_bytes hd he.sync hno ?_), ?_, hr⟩
              · intro e
                rw [hex.rest, hr]
                simpa using e
              · intro hm
                rcases List.mem_append.mp hm with hm | hm
                · exact hu10 hm
                · exact hx10 hm
    · rename_i hc
      exact ⟨[], Eat.refl h, by simp, fun _ => .inr ⟨rfl, by simp, h.rest_eof (by omega)⟩⟩

theorem notSpace_head {s : Scanner} (h : Sync s) (hs : isSpace true s.ch = false) :
    ∀ c, s.rest.head? = some c → ¬ Space false c := by
  intro c hc hsp
  unfold Space at hsp
  unfold isSpace at hs
  simp only [Bool.false_eq_true, and_false, or_false] at hsp
  have key : ∀ d : UInt8, d.toNat < 0x80 → c = d → s.ch = d.toNat := by
    intro d hd e; subst e; exact h.head_of_rest hd hc
  rcases hsp with e | e | e
  · simp [key 32 (by decide) e] at hs
  · simp [key 9 (by decide) e] at hs
  · simp [key 13 (by decide) e] at hs

theorem lineEnd_head {t : Str} (h : LineEnd t) : ∀ c, t.head? = some c → ¬ Space false c := by
  intro c hc hsp
  rcases h with rfl | ⟨t, rfl⟩
  · simp at hc
  · simp at hc
    subst hc
    simp [Space] at hsp

theorem lineAhead_head {t : Str} (h : LineAhead t) : ∃ t', t = 47 :: t' := by
  cases h <;> exact ⟨_, rfl⟩

theorem findLineEndLoop_spec : ∀ (f : Nat) (s : Scanner), Sync s → s.mu < f → s.insertSemi = true →
    ((findLineEndLoop f s).1 = true ↔ LineAhead (47 :: s.rest)) := by
  intro f
  induction f with
  | zero => intro s h hf; omega
  | succ f ih =>
    intro s h hf hsemi
    simp only [findLineEndLoop]
    split
    · rename_i h47
      obtain ⟨t, ht⟩ := (h.charNext 47 (by decide)).mpr h47
      rw [ht]
      exact ⟨fun _ => .line, fun _ => rfl⟩
    · rename_i h47
      split
      · rename_i h42
        have h1 := h.eatAscii 42 (by decide) h42
        have hlt := next_mu_lt (s := s) (by omega)
        obtain ⟨x, hex, ht, hfl⟩ := findLineEndInner_spec s.next.mu s.next h1.sync (Nat.le_refl _)
        have hrest : s.rest = 42 :: (x ++ (findLineEndInner s.next.mu s.next).2.rest) := by
          have := (h1.trans hex).rest
          simpa using this
        have hsemi2 : (findLineEndInner s.next.mu s.next).2.insertSemi = true := by
          rw [(h1.trans hex).steps.insertSemi]; exact hsemi
        generalize findLineEndInner s.next.mu s.next = q at hex ht hfl hrest hsemi2
        obtain ⟨b, s2⟩ := q
        cases b with
        | true =>
          dsimp only at hex ht hrest ⊢
          obtain ⟨hx, hx10, t, htt⟩ := ht rfl
          rw [hrest, htt]
          exact ⟨fun _ => .inside hx hx10, fun _ => rfl⟩
        | false =>
          dsimp only at hex hfl hrest hsemi2 ⊢
          obtain ⟨ws, hew, hws, hns⟩ := skipWhitespace_spec hex.sync
          rw [hsemi2] at hws hns
          rcases hfl rfl with ⟨b, rfl, hb, hb10⟩ | ⟨hx, hx10, hr⟩
          · have hrest' : s.rest = 42 :: (b ++ 42 :: 47 :: (ws ++ s2.skipWhitespace.rest)) := by
              rw [hrest, hew.rest]; simp
            have hnsp := notSpace_head hew.sync hns
            split
            · rename_i hend
              refine ⟨fun _ => ?_, fun _ => rfl⟩
              rw [hrest']
              refine .after hb hb10 hws ?_
              rcases hend with e | e
              · exact .inl (hew.sync.rest_eof e)
              · exact .inr ((hew.sync.charNext 10 (by decide)).mpr e)
            · rename_i hend
              -- what `LineAhead` amounts to here
              have key : LineAhead (47 :: s.rest) → LineAhead s2.skipWhitespace.rest := by
                rw [hrest']
                generalize hT : (47 : UInt8) :: 42 :: (b ++ 42 :: 47 :: (ws ++ s2.skipWhitespace.rest)) = T
                intro hA
                cases hA with
                | line => simp at hT
                | inside h1 h2 =>
                  simp only [List.cons.injEq, true_and] at hT
                  exact absurd hT.symm (fun e => newline_vs_close e h1 hb10)
                | unclosed h1 h2 =>
                  simp only [List.cons.injEq, true_and] at hT
                  rw [← hT, noClose_false] at h1
                  cases h1
                | after h1 h2 h3 h4 =>
                  simp only [List.cons.injEq, true_and] at hT
                  obtain ⟨rfl, e⟩ := split_close hT hb h1
                  obtain ⟨rfl, rfl⟩ := split_ws (P := Space false) e hws h3 hnsp (lineEnd_head h4)
                  exfalso
                  apply hend
                  rcases h4 with h4 | h4
                  · left
                    rw [hew.sync.head, h4]; decide
                  · right
                    exact (hew.sync.charNext 10 (by decide)).mp h4
                | chain h1 h2 h3 h4 =>
                  simp only [List.cons.injEq, true_and] at hT
                  obtain ⟨rfl, e⟩ := split_close hT hb h1
                  obtain ⟨rfl, rfl⟩ := split_ws (P := Space false) e hws h3 hnsp (by
                    obtain ⟨t', rfl⟩ := lineAhead_head h4
                    intro c hc hsp
                    simp at hc
                    subst hc
                    simp [Space] at hsp)
                  exact h4
              split
              · rename_i h47
                refine ⟨fun h => (by cases h), fun hA => ?_⟩
                obtain ⟨t', e⟩ := lineAhead_head (key hA)
                exact absurd ((hew.sync.charNext 47 (by decide)).mp ⟨_, e⟩) h47
              · rename_i h47
                have hc : s2.skipWhitespace.ch = 47 := by omega
                have h4 := hew.sync.eatAscii 47 (by decide) hc
                have hmu := (h1.trans (hex.trans (hew.trans h4))).steps.mu
                have hmu' := next_mu_lt (s := s2.skipWhitespace) (by omega)
                have hmu2 := (h1.trans (hex.trans hew)).steps.mu
                have := ih s2.skipWhitespace.next h4.sync (by omega)
                  (by rw [(hew.trans h4).steps.insertSemi]; exact hsemi2)
                rw [this]
                have hr4 : s2.skipWhitespace.rest = 47 :: s2.skipWhitespace.next.rest := h4.rest
                rw [← hr4]
                refine ⟨fun hA => ?_, key⟩
                rw [hrest']
                exact .chain hb hb10 hws hA
          · have hc : s2.skipWhitespace.ch < 0 := by
              have := hew.rest
              rw [hr] at this
              have := List.append_eq_nil_iff.mp this.symm
              rw [hew.sync.head, this.2]; decide
            rw [if_pos (.inl hc)]
            refine ⟨fun _ => ?_, fun _ => rfl⟩
            rw [hrest, hr, List.append_nil]
            exact .unclosed hx hx10
      · rename_i h42
        refine ⟨fun h => (by cases h), fun hA => ?_⟩
        exfalso
        have key : ∀ c : UInt8, c.toNat < 0x80 → CharNext c s.rest → s.ch = c.toNat :=
          fun c hc h' => (h.charNext c hc).mp h'
        generalize hT : (47 : UInt8) :: s.rest = T at hA
        cases hA <;> simp only [List.cons.injEq, true_and] at hT
        · exact h47 (key 47 (by decide) ⟨_, hT⟩)
        all_goals exact h42 (key 42 (by decide) ⟨_, hT⟩)

theorem findLineEnd_spec {s0 s : Scanner} (h0 : Eat s0 [47] s) (hsemi : s.insertSemi = true) :
    (findLineEnd s).1 = true ↔ LineAhead s0.rest := by
  have := findLineEndLoop_spec (s.mu + 1) s h0.sync (by omega) hsemi
  rw [h0.rest]
  exact this

end Scanner
end Tpl
