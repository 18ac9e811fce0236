import Verif.Proof.Height
import Verif.Proof.CompilerParse
import Verif.Props.Matcher

/-! The operand stack of the grammar compiler never runs empty, and `Cl` panics for no
other reason than those it means to. -/
namespace Tpl
open Tpl.Spec KwScanner Tpl.Props
variable {B : Type}

/-- The panics `Cl` means: an illegal token, a rule defined twice, the marker. -/
def ClPanic.Meant : ClPanic → Prop
  | .stack | .index | .ltot => False
  | _ => True

/-- What is needed of a token. -/
def ClTok (t : Token) : Prop :=
  (t.kind = IDENT ∨ t.kind = CHAR ∨ t.kind = STRING) →
    t.lit ≠ [] ∧ ((∃ w, t.lit = 34 :: (w ++ [34])) ∨ t.lit.head? ≠ some 34)

def clCfg (U : Uni) : HCfg ClAct (ClSt B) ClPanic where
  ht u := u.stk.length
  inv u := Steps U KwScanner.zero u.tab.scanner ∧ u.tab.scanner.keywords ≠ none
  tok := ClTok
  may p := ∃ q, p = .user q ∧ q.Meant

theorem ltot_fine {U : Uni} {k : KwScanner} (hk : Steps U KwScanner.zero k) (hi : k.keywords ≠ none) {lit : Str}
    (hn : lit ≠ []) (hq : (∃ w, lit = 34 :: (w ++ [34])) ∨ lit.head? ≠ some 34) :
    ∃ t k', k.ltot lit = .ok (t, k') ∧ Steps U KwScanner.zero k' ∧ k'.keywords ≠ none := by
  have hok : ∃ t k', k.ltot lit = .ok (t, k') ∧ k'.keywords ≠ none := by
    by_cases h1 : Lit2Token lit ≠ ILLEGAL
    · exact ⟨Lit2Token lit, k, by unfold ltot; simp only; rw [if_pos h1], hi⟩
    · rcases hq with ⟨w, rfl⟩ | hq
      · have hkw : Keyword (34 :: (w ++ [34])) := ⟨⟨w, rfl⟩, by simpa using h1⟩
        rw [ltot_keyword hkw]
        cases k.keywords.get (word (34 :: (w ++ [34]))) with
        | some t => exact ⟨_, _, rfl, hi⟩
        | none =>
          cases hk : k.keywords with
          | none => exact absurd hk hi
          | some m => exact ⟨_, _, rfl, by simp [clCfg]⟩
      · cases lit with
        | nil => exact absurd rfl hn
        | cons c r =>
          simp only [List.head?_cons, ne_eq, Option.some.injEq] at hq
          refine ⟨Lit2Token (c :: r), k, ?_, hi⟩
          unfold ltot
          simp only
          rw [if_neg h1, if_neg hq]
  obtain ⟨t, k', h1, h2⟩ := hok
  exact ⟨t, k', h1, .step hk (.ltot hq h1), h2⟩

section
variable {U : Uni} {mk : Marker B} {f : Nat}

/-- The outcome of an action that leaves a stack of height at least `h`. -/
abbrev ActFine (U : Uni) (h : Nat) (o : Except ClPanic (ClSt B)) : Prop := (clCfg (B := B) U).After UserP h o

theorem meant {h : Nat} {p : ClPanic} (hp : p.Meant) : ActFine (B := B) U h (.error p) := fun q hq => ⟨p, hq, hp⟩

theorem onTop_fine {u : ClSt B} {F : Nat → Gr B → Gr B} (hi : (clCfg (B := B) U).inv u) (hh : 1 ≤ u.stk.length) :
    ActFine (B := B) U u.stk.length (u.onTop F) := by
  obtain ⟨stk, tab⟩ := u
  cases stk with
  | nil => simp at hh
  | cons a stk => exact ⟨hi, by simp [clCfg]⟩

theorem list_fine {u : ClSt B} {l0 : Bool} (hi : (clCfg (B := B) U).inv u) (hh : 2 ≤ u.stk.length) :
    ActFine (B := B) U (u.stk.length - 1) (u.list l0) := by
  obtain ⟨stk, tab⟩ := u
  match stk, hh with
  | b :: a :: stk, _ => exact ⟨hi, by simp [clCfg]⟩

theorem mark_fine {u : ClSt B} {toks : List Token} (hi : (clCfg (B := B) U).inv u) (hh : 1 ≤ u.stk.length) (ht : 1 ≤ toks.length) :
    ActFine (B := B) U u.stk.length (u.mark mk toks) := by
  obtain ⟨stk, tab⟩ := u
  match stk, toks, hh, ht with
  | a :: stk, t :: ts, _, _ =>
    simp only [ClSt.mark]
    cases mk a t.lit with
    | ok g => exact ⟨hi, by simp [clCfg]⟩
    | error e => exact meant trivial

theorem reduce_fine {u : ClSt B} {m : Nat} {F : List (Gr B) → Gr B} (hi : (clCfg (B := B) U).inv u) (hm : 1 ≤ m)
    (hh : m ≤ u.stk.length) : ActFine (B := B) U (u.stk.length - m + 1) (u.reduce m F) := by
  unfold ClSt.reduce
  by_cases h1 : (m : Int) = 1
  · rw [if_pos h1]
    exact ⟨hi, by simp only [clCfg]; omega⟩
  · rw [if_neg h1, if_pos (by omega)]
    exact ⟨hi, by simp [clCfg]⟩

theorem assign_fine {u : ClSt B} {toks : List Token} (hi : (clCfg (B := B) U).inv u) (hh : 1 ≤ u.stk.length) (ht : 1 ≤ toks.length) :
    ActFine (B := B) U (u.stk.length - 1) (u.assign toks) := by
  obtain ⟨stk, tab⟩ := u
  match stk, toks, hh, ht with
  | a :: stk, t :: ts, _, _ =>
    simp only [ClSt.assign]
    cases tab.vars.findIdx? (·.1 = t.lit) with
    | some i =>
      simp only
      cases GrVar.assign (tab.env i) a with
      | mk e b => cases b with
        | false => exact meant trivial
        | true => exact ⟨hi, by simp [clCfg]⟩
    | none =>
      simp only
      cases tab.grammars.lookup t.lit with
      | some g => exact meant trivial
      | none => exact ⟨hi, by simp [clCfg]⟩

theorem gr_fine {u : ClSt B} {lit : Str} (hi : (clCfg (B := B) U).inv u) (hn : lit ≠ [])
    (hq : (∃ w, lit = 34 :: (w ++ [34])) ∨ lit.head? ≠ some 34) : ActFine (B := B) U (u.stk.length + 1) (u.gr lit) := by
  obtain ⟨t, k', h1, h2, h3⟩ := ltot_fine hi.1 hi.2 hn hq
  unfold ClSt.gr
  rw [h1]
  simp only
  split
  · exact meant trivial
  · exact ⟨⟨h2, h3⟩, by simp [clCfg]⟩

theorem ident_fine {u : ClSt B} {lit : Str} (hi : (clCfg (B := B) U).inv u) (hn : lit ≠ [])
    (hq : (∃ w, lit = 34 :: (w ++ [34])) ∨ lit.head? ≠ some 34) : ActFine (B := B) U (u.stk.length + 1) (u.ident lit) := by
  cases hl : lit with
  | nil => exact absurd hl hn
  | cons c r =>
    rw [hl] at hn hq
    unfold ClSt.ident
    split
    · rename_i h; cases h
    rename_i ch x he
    cases he
    by_cases h1 : 65 ≤ c ∧ c ≤ 90
    · rw [if_pos h1]; exact gr_fine hi hn hq
    · rw [if_neg h1]
      cases u.tab.grammars.lookup (c :: r) with
      | some g => exact ⟨hi, by simp [clCfg]⟩
      | none =>
        simp only
        cases u.tab.vars.findIdx? (·.1 = c :: r) with
        | some i => exact ⟨hi, by simp [clCfg]⟩
        | none =>
          simp only
          split
          · exact ⟨hi, by simp [clCfg]⟩
          · exact ⟨hi, by simp [clCfg]⟩

/-! The grammars. -/

local notation "UT" => UpTo clEnv (clSem mk) (clCfg (B := B) U)

theorem up_prefix {a : ClAct} {kind : Nat} (h : UT f 0 1 1 clFactor)
    (ha : ∀ toks l (u : ClSt B), (clCfg (B := B) U).inv u → 1 ≤ u.stk.length → ActFine (B := B) U u.stk.length (clAct mk a toks l u)) :
    UT f 0 1 1 (.and [.tok kind, .action a clFactor]) := by
  have := upTo_and (AndUpTo.cons (g := .tok kind) (by intro h; cases h) upTo_tok
    (.cons (g := .action a clFactor) (by intro h; cases h)
      (upTo_action (k' := 1) (cl_plain mk) (h.mono (by omega : 0 ≤ 0 + 0) (Nat.le_refl 1) (Nat.le_refl 1))
        (fun toks l u _ _ hi hh => (ha toks l u hi (by simpa [clCfg] using hh)).le (by simp only [clCfg]; omega))) .nil))
  exact this.mono (Nat.le_refl _) (by omega) (by omega)

theorem up_suffix {a : ClAct} {kind : Nat} (h : UT f 0 1 1 clFactor)
    (ha : ∀ toks l (u : ClSt B), (clCfg (B := B) U).inv u → 2 ≤ u.stk.length → ActFine (B := B) U (u.stk.length - 1) (clAct mk a toks l u)) :
    UT f 1 1 0 (.and [.tok kind, .action a clFactor]) := by
  have := upTo_and (AndUpTo.cons (g := .tok kind) (by intro h; cases h) (upTo_tok (need := 1))
    (.cons (g := .action a clFactor) (by intro h; cases h)
      (upTo_action (k' := 0) (cl_plain mk) (h.mono (by omega : 0 ≤ 1 + 0) (Nat.le_refl 1) (Nat.le_refl 1))
        (fun toks l u _ _ hi hh => (ha toks l u hi (by simp only [clCfg] at hh; omega)).le
          (by simp only [clCfg] at hh ⊢; omega))) .nil))
  exact this.mono (Nat.le_refl _) (by omega) (by omega)

theorem up_mark : UT f 1 1 0 (.and [.tok 47, .action .mark (.tok IDENT)]) := by
  have := upTo_and (f := f) (env := clEnv) (sem := clSem mk) (H := clCfg (B := B) U) (AndUpTo.cons (g := .tok 47) (by intro h; cases h) (upTo_tok (need := 1))
    (.cons (g := .action .mark (.tok IDENT)) (by intro h; cases h)
      (upTo_action (k' := 0) (cl_plain mk) (upTo_tok (need := 1 + 0))
        (fun toks l u _ hc hi hh => (mark_fine (mk := mk) hi (by simp only [clCfg] at hh; omega) hc).le (by simp only [clCfg]; omega))) .nil))
  exact this.mono (Nat.le_refl _) (by omega) (by omega)

theorem up_term (h : UT f 0 1 1 clFactor) : UT f 0 1 1 clTerm := by
  have h1 : UT f (0 + 1) 0 0 (.rep0 0 (.or [
    .and [.tok 37, .action .list clFactor],
    .and [.tok REM_ASSIGN, .action .list0 clFactor],
    .and [.tok 47, .action .mark (.tok IDENT)]])) := by
    refine upTo_rep0 (c := 1) (k := 0) (upTo_or ?_)
    intro g hg
    simp only [List.mem_cons, List.not_mem_nil, or_false] at hg
    rcases hg with rfl | rfl | rfl
    · exact up_suffix h fun toks l u hi hh => list_fine hi hh
    · exact up_suffix h fun toks l u hi hh => list_fine hi hh
    · exact up_mark
  have := upTo_and (AndUpTo.cons (by intro h; cases h) h (.cons (by intro h; cases h) h1 .nil))
  exact this.mono (Nat.le_refl _) (by omega) (by omega)

theorem up_expr (h : UT f 0 1 1 clFactor) : UT f 0 1 1 clExpr := by
  refine upTo_action_len (cl_plain mk) (upLen_rep1 (k := 1) (upTo_or ?_)) ?_
  · intro g hg
    simp only [List.mem_cons, List.not_mem_nil, or_false] at hg
    rcases hg with rfl | rfl
    · exact up_term h
    · exact upTo_action (cl_plain mk) upTo_tok fun toks l u _ _ hi hh =>
        (show ActFine (B := B) U (u.stk.length + 1) (clAct mk .grNil toks l u) from ⟨hi, by simp [clCfg]⟩).le (by simp only [clCfg]; omega)
  · intro toks l u h0 _ _ hi hl _ hh
    have hh : h0 + l ≤ u.stk.length := by simpa [clCfg] using hh
    have := reduce_fine (F := .and) hi hl (by omega)
    change ActFine (B := B) U (u.stk.length - l + 1) (clAct mk .and toks l u) at this
    exact this.le (by omega)

theorem up_grammar (h : UT f 0 1 1 clFactor) : UT f 0 1 1 clGrammar := by
  refine upTo_action_len (k := 1) (cl_plain mk) (upLen_list (k' := 0 + (1 + 0)) (up_expr h) (upTo_and
    (.cons (g := .tok 124) (by intro h; cases h) upTo_tok (.cons (by intro h; cases h) (up_expr h) .nil))) (by omega)) ?_
  intro toks l u h0 _ _ hi hl _ hh
  have hh : h0 + l ≤ u.stk.length := by simpa [clCfg] using hh
  have := reduce_fine (F := .or) hi hl (by omega)
  change ActFine (B := B) U (u.stk.length - l + 1) (clAct mk .or toks l u) at this
  exact this.le (by omega)

theorem up_factor : ∀ f, UT f 0 1 1 clFactor := by
  intro f
  induction f with
  | zero => exact upTo_zero
  | succ f ih =>
    refine upTo_var rfl (upTo_or ?_)
    intro g hg
    simp only [List.mem_cons, List.not_mem_nil, or_false] at hg
    rcases hg with rfl | rfl | rfl | rfl | rfl | rfl | rfl | rfl | rfl | rfl
    · refine upTo_leaf (cl_plain mk) fun t l u hf ht hi _ => ?_
      have hk : t.kind = IDENT := by rcases hf with h | ⟨_, h⟩; exact h; cases h
      obtain ⟨h1, h2⟩ := ht (.inl hk)
      exact ident_fine hi h1 h2
    · refine upTo_leaf (cl_plain mk) fun t l u hf ht hi _ => ?_
      have hk : t.kind = CHAR := by rcases hf with h | ⟨_, h⟩; exact h; cases h
      obtain ⟨h1, h2⟩ := ht (.inr (.inl hk))
      exact gr_fine hi h1 h2
    · refine upTo_leaf (cl_plain mk) fun t l u hf ht hi _ => ?_
      have hk : t.kind = STRING := by rcases hf with h | ⟨_, h⟩; exact h; cases h
      obtain ⟨h1, h2⟩ := ht (.inr (.inr hk))
      exact gr_fine hi h1 h2
    · refine upTo_leaf (cl_plain mk) fun t l u hf ht hi _ => ?_
      simp only [clAct]
      split
      · exact meant trivial
      · exact ⟨hi, by simp [clCfg]⟩
    · exact up_prefix ih fun toks l u hi hh => onTop_fine hi hh
    · exact up_prefix ih fun toks l u hi hh => onTop_fine hi hh
    · exact up_prefix ih fun toks l u hi hh => onTop_fine hi hh
    · refine up_prefix ih fun toks l u hi hh => ?_
      obtain ⟨stk, tab⟩ := u
      cases stk with
      | nil => simp at hh
      | cons a stk => exact ⟨hi, by simp [clCfg]⟩
    · refine up_prefix ih fun toks l u hi hh => ?_
      obtain ⟨stk, tab⟩ := u
      cases stk with
      | nil => simp at hh
      | cons a stk => exact ⟨hi, by simp [clCfg]⟩
    · have := upTo_and (AndUpTo.cons (g := .tok 40) (by intro h; cases h) upTo_tok (.cons (by intro h; cases h) (up_grammar ih)
        (.cons (g := .tok 41) (by intro h; cases h) upTo_tok .nil)))
      exact this.mono (Nat.le_refl _) (by omega) (by omega)

theorem up_doc : UT f 0 1 0 clDoc := by
  refine (upLen_rep1 (k := 0) (c := 1) ?_).upTo
  have := upTo_and (f := f) (env := clEnv) (sem := clSem mk) (H := clCfg (B := B) U) (AndUpTo.cons (g := .tok IDENT) (by intro h; cases h) upTo_tok (.cons (g := .tok 61) (by intro h; cases h) upTo_tok
    (.cons (by intro h; cases h) ((up_grammar (mk := mk) (U := U) (up_factor f)).mono (by omega : 0 ≤ 0 + 0 + 0) (Nat.le_refl 1) (Nat.le_refl 1))
      (.cons (g := .tok 59) (by intro h; cases h) upTo_tok .nil))))
  refine upTo_action (cl_plain mk) (this.mono (Nat.le_refl _) (by omega : 1 ≤ _) (by omega : 1 ≤ _)) ?_
  intro toks l u _ hc hi hh
  have hh : 1 ≤ u.stk.length := by simpa [clCfg] using hh
  exact (assign_fine hi hh hc).le (by simp only [clCfg]; omega)
end

end Tpl
