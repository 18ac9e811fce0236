import Verif.Spec.Repl
import Verif.Props.Calc
import Verif.Props.Reads
import Verif.Proof.CalcKeep

/-! C91 and C92: the calculator programs.

`Repl.main P U fuel stdin` is a run of the program `P` on an input.  `Answer` (Spec/Repl)
says what the answer to a line has to be, `Lines` what the lines of a text are. -/
namespace Tpl.Props
open Tpl Tpl.Spec Tpl.Scanner
variable {V F Z : Type} {U : Uni}

/-! ### Lines -/

theorem scanLines_at : ∀ (l : Str) (acc rest : Str), 10 ∉ l →
    Repl.scanLines acc (l ++ 10 :: rest) =
      if (acc ++ l).length < Repl.maxToken then Repl.dropCR (acc ++ l) :: Repl.scanLines [] rest else []
  | [], acc, rest, _ => by simp [Repl.scanLines]
  | c :: l, acc, rest, h => by
    rw [List.cons_append, Repl.scanLines, if_neg (by intro hc; exact h (by simp [hc])), scanLines_at l _ _ (fun hc => h (by simp [hc]))]
    simp only [List.append_assoc, List.singleton_append]

theorem scanLines_end : ∀ (l : Str) (acc : Str), 10 ∉ l →
    Repl.scanLines acc l = if acc ++ l = [] then [] else if (acc ++ l).length < Repl.maxToken then [Repl.dropCR (acc ++ l)] else []
  | [], acc, _ => by simp [Repl.scanLines]
  | c :: l, acc, h => by
    rw [Repl.scanLines, if_neg (by intro hc; exact h (by simp [hc])), scanLines_end l _ (fun hc => h (by simp [hc]))]
    simp only [List.append_assoc, List.singleton_append]

/-- Lines that are not too long are delivered, without the carriage return. -/
theorem scanLines_lines {ls : List Str} {stdin : Str} (h : Lines ls stdin) (hl : ∀ l ∈ ls, l.length < Repl.maxToken) :
    Repl.scanLines [] stdin = ls.map Repl.dropCR := by
  induction h with
  | nil => rfl
  | last h1 h2 =>
    rw [scanLines_end _ _ h2, List.nil_append, if_neg h1, if_pos (hl _ (by simp))]
    rfl
  | cons h1 _ ih =>
    rw [scanLines_at _ _ _ h1, List.nil_append, if_pos (hl _ (by simp)), ih fun l hm => hl l (by simp [hm])]
    rfl

/-- Every text has lines. -/
theorem lines_exist : ∀ (stdin : Str), ∃ ls, Lines ls stdin
  | [] => ⟨[], .nil⟩
  | c :: cs => by
    obtain ⟨ls, h⟩ := lines_exist cs
    by_cases hc : c = 10
    · subst hc
      exact ⟨[] :: ls, .cons (l := []) (by simp) h⟩
    · have hm : ∀ {l : Str}, 10 ∉ l → 10 ∉ c :: l := by
        intro l hl hm
        rcases List.mem_cons.mp hm with h | h
        · exact hc h.symm
        · exact hl h
      cases h with
      | nil => exact ⟨[[c]], .last (by simp) (hm (by simp))⟩
      | last h1 h2 => exact ⟨[c :: cs], .last (by simp) (hm h2)⟩
      | cons h1 h2 => exact ⟨_, .cons (hm h1) h2⟩

/-! ### Trimming -/

theorem inCutset_iff {c : UInt8} : Repl.inCutset c = true ↔ WhiteByte c := by
  simp [Repl.inCutset, WhiteByte, or_assoc]

theorem mem_takeWhile {p : UInt8 → Bool} {c : UInt8} : ∀ {l : Str}, c ∈ l.takeWhile p → p c = true
  | d :: l, h => by
    rw [List.takeWhile_cons] at h
    split at h
    · next hd =>
      rcases List.mem_cons.mp h with rfl | h
      · exact hd
      · exact mem_takeWhile h
    · cases h

theorem trimmed (line : Str) : Trimmed line (Repl.trim line) := by
  refine ⟨⟨line.takeWhile Repl.inCutset, ((line.dropWhile Repl.inCutset).reverse.takeWhile Repl.inCutset).reverse, ?_, ?_, ?_⟩, ?_, ?_⟩
  · unfold Repl.trim
    rw [List.append_assoc, ← List.reverse_append, List.takeWhile_append_dropWhile, List.reverse_reverse, List.takeWhile_append_dropWhile]
  · intro c hc
    exact inCutset_iff.mp (mem_takeWhile hc)
  · intro c hc
    exact inCutset_iff.mp (mem_takeWhile (List.mem_reverse.mp hc))
  · intro c hc hb
    have hx : line.dropWhile Repl.inCutset =
        Repl.trim line ++ ((line.dropWhile Repl.inCutset).reverse.takeWhile Repl.inCutset).reverse := by
      unfold Repl.trim
      rw [← List.reverse_append, List.takeWhile_append_dropWhile, List.reverse_reverse]
    have := List.head?_dropWhile_not Repl.inCutset line
    rw [hx, List.head?_append, hc] at this
    dsimp only [Option.or] at this
    rw [inCutset_iff.mpr hb] at this
    cases this
  · intro c hc hb
    unfold Repl.trim at hc
    rw [List.getLast?_reverse] at hc
    have := List.head?_dropWhile_not Repl.inCutset (line.dropWhile Repl.inCutset).reverse
    rw [hc] at this
    dsimp only at this
    rw [inCutset_iff.mpr hb] at this
    cases this

theorem trim_nil {line : Str} (h : Repl.trim line = []) : ∀ c ∈ line, WhiteByte c := by
  obtain ⟨⟨a, b, e, ha, hb⟩, _, _⟩ := trimmed line
  rw [h, List.append_nil] at e
  intro c hc
  rw [e] at hc
  rcases List.mem_append.mp hc with hc | hc
  · exact ha c hc
  · exact hb c hc

/-- A carriage return at the end makes no difference. -/
theorem trimmed_cr {l core : Str} (h : Trimmed (Repl.dropCR l) core) : Trimmed l core := by
  unfold Repl.dropCR at h
  split at h
  · next hl =>
    obtain ⟨⟨a, b, e, ha, hb⟩, h1, h2⟩ := h
    have hl : l = l.dropLast ++ [13] := by
      rw [List.getLast?_eq_some_iff] at hl
      obtain ⟨ys, rfl⟩ := hl
      simp
    refine ⟨⟨a, b ++ [13], by rw [hl, e]; simp, ha, ?_⟩, h1, h2⟩
    intro c hc
    rcases List.mem_append.mp hc with hc | hc
    · exact hb c hc
    · rw [List.mem_singleton.mp hc]; exact .inr (.inr (.inl rfl))
  · exact h

theorem white_cr {l : Str} (h : ∀ c ∈ Repl.dropCR l, WhiteByte c) : ∀ c ∈ l, WhiteByte c := by
  unfold Repl.dropCR at h
  split at h
  · next hl =>
    have hl : l = l.dropLast ++ [13] := by
      rw [List.getLast?_eq_some_iff] at hl
      obtain ⟨ys, rfl⟩ := hl
      simp
    intro c hc
    rw [hl] at hc
    rcases List.mem_append.mp hc with hc | hc
    · exact h c hc
    · rw [List.mem_singleton.mp hc]; exact .inr (.inr (.inl rfl))
  · exact h

theorem answer_cr {C : Calc V F} {value l o} (h : Answer C U value (Repl.dropCR l) o) : Answer C U value l o := by
  cases h with
  | blank h => exact .blank (white_cr h)
  | value h1 h2 h3 => exact .value (trimmed_cr h1) h2 h3
  | fault h1 h2 h3 h4 => exact .fault (trimmed_cr h1) h2 h3 h4
  | other h1 h2 h3 h4 => exact .other (trimmed_cr h1) h2 h3 h4

/-! ### A line -/

/-- Evaluation keeps what tokenizing keeps of the scanner. -/
theorem calc_keeps {C : Calc V F} {r : CompileRet Str} (hroot : r.root ≠ .nil) {P : KwScanner → Prop} (hP : ∀ k src, P k → P (k.tokenize U src r.mode).2)
    {f src} {s : St (Calc.Eng V)} {o} (h : C.client.eval r U f src s = some o) (hs : P s.u.scanner) : P (MRes.st' o).u.scanner := by
  have hm := matchG_keep r.env (Calc.keepk_sem (C := C) (P := P)) f
  have h : (Matcher.matchExactly ⟨r.root, r.mode, engInit (s.u.scanner.tokenize U src r.mode).2, r.env, C.client.sem⟩ U f s.u.scanner src s).1 = some o := h
  unfold Matcher.matchExactly at h
  generalize hx : Matcher.match_ _ U f s.u.scanner src s = x at h
  obtain ⟨x, k⟩ := x
  have hx := congrArg Prod.fst hx
  have key : ∀ y, x = some y → P (MRes.st' y).u.scanner := by
    rintro y rfl
    rw [match_eq _ hroot] at hx
    dsimp only at hx
    cases ht : (s.u.scanner.tokenize U src r.mode).1 with
    | mk toks e =>
      rw [ht] at hx
      cases e with
      | some e => cases hx; exact hs
      | none =>
        dsimp only [engInit] at hx
        have h0 : P ({ s.u.reset with scanner := (s.u.scanner.tokenize U src r.mode).2 } : Calc.Eng V).scanner := hP _ _ hs
        split at hx
        · cases hx
        · rename_i h1; cases hx; exact hm () _ _ _ _ h1 h0
        · rename_i h1; cases hx; exact hm () _ _ _ _ h1 h0
        · rename_i h1; cases hx; exact hm () _ _ _ _ h1 h0
  cases x with
  | none => cases h
  | some y =>
    have h1 := key y rfl
    cases y with
    | err e s1 => cases h; exact h1
    | panic p s1 => cases h; exact h1
    | ok a s1 =>
      dsimp only at h
      split at h <;> cases h <;> exact h1

theorem tokens_bound {k : KwScanner} {src : Str} {mode : Mode} {ts : List Token} {eof : Token} (h : Tokenizes U k src mode ts eof) :
    ts.length ≤ 2 * src.length + 2 := by
  obtain ⟨full, s', hr, he, hf⟩ := h
  obtain ⟨ts', s'', h', hl⟩ := C03_terminates U k.sc src mode
  obtain ⟨rfl, rfl⟩ := hr.functional h'
  have := congrArg List.length hf
  rw [List.length_append, List.length_map] at this
  simp only [List.length_cons, List.length_nil] at this
  omega

theorem trim_length (line : Str) : (Repl.trim line).length ≤ line.length := by
  obtain ⟨⟨a, b, e, _, _⟩, _, _⟩ := trimmed line
  have := congrArg List.length e
  simp only [List.length_append] at this
  omega

/-- What an expression prints. -/
def printed (P : Repl.Prog V F) (e : Ex) : Except Fault Str := (e.eval P.pkg).bind P.text

section
variable {P : Repl.Prog V F} (hp : IsPackage P.pkg P.grammar) {fuel0 : Nat} {r : CompileRet Str}
  (hr : P.pkg.client.new P.grammar ⟨false, false⟩ U fuel0 = some (.ok r))
include hp hr

theorem root_ne : r.root ≠ .nil := by rw [(package_engine hp hr).1]; intro h; cases h

/-- `eval` ends, answers the line, and leaves the scanner ready for the next one. -/
theorem eval_answer {n : Nat} (hn : Calc.Counts P.pkg n) (line : Str) (hl : 2 * line.length + 2 ≤ n) (s : St (Calc.Eng V))
    (hs : ReadsAs U KwScanner.zero s.u.scanner) :
    ∃ fuel o s', Repl.eval P r U fuel line s = some (o, s') ∧ ReadsAs U KwScanner.zero s'.u.scanner ∧ Answer P.pkg U (printed P) line o := by
  have hroot := root_ne hp hr
  have hmode := (package_engine hp hr).2.2
  have ht := trimmed line
  by_cases h0 : Repl.trim line = []
  · exact ⟨0, [], s, by unfold Repl.eval; dsimp only; rw [if_pos h0], hs, .blank (trim_nil h0)⟩
  obtain ⟨fuel, o, ho⟩ := C55_terminates hp hr s (Repl.trim line)
  have hk := calc_keeps (P := ReadsAs U KwScanner.zero) hroot (fun k src h => readsAs_tokenize h src _) ho hs
  by_cases he : ∃ e, Expression P.pkg U (Repl.trim line) e
  · obtain ⟨e, toks, eof, htok, hrd⟩ := he
    have htok' := readsAs_tokens rfl hs htok
    have hlen : toks.length ≤ n := Nat.le_trans (tokens_bound htok) (Nat.le_trans (by have := trim_length line; omega) hl)
    have hev := calc_eval hp hr s hs.steps htok' hrd fun k hk => hn k (Nat.le_trans hk hlen)
    cases hv : e.eval P.pkg with
    | error c =>
      rw [hv] at hev
      obtain ⟨f', s', g, ts, h'⟩ := hev
      cases computes_unique hroot ho h'
      exact ⟨fuel, _, s', by unfold Repl.eval; dsimp only; rw [if_neg h0, ho], hk,
        .fault ht ⟨toks, eof, htok, hrd⟩ (by rw [printed, hv]; rfl) (.runtime g ts)⟩
    | ok v =>
      rw [hv] at hev
      obtain ⟨f', s', h', hu⟩ := hev
      cases computes_unique hroot ho h'
      have hret : (Calc.ret s'.u.u).1 = some v := by rw [hu, ret_append]
      cases htx : P.text v with
      | ok text =>
        refine ⟨fuel, [shown text], { s' with u := { s'.u with u := [] } }, ?_, ?_, .value ht ⟨toks, eof, htok, hrd⟩ (by rw [printed, hv]; exact htx)⟩
        · unfold Repl.eval
          dsimp only
          rw [if_neg h0, ho]
          dsimp only [Repl.answer]
          rw [hret]
          dsimp only [Option.getD]
          rw [htx]
          rfl
        · exact hk
      | error c =>
        refine ⟨fuel, [.panicked c.panic], { s' with u := { s'.u with u := [] } }, ?_, ?_, .fault ht ⟨toks, eof, htok, hrd⟩ (by rw [printed, hv]; exact htx) .plain⟩
        · unfold Repl.eval
          dsimp only
          rw [if_neg h0, ho]
          dsimp only [Repl.answer]
          rw [hret]
          dsimp only [Option.getD]
          rw [htx]
          rfl
        · exact hk
  · have hno : ∀ e, ¬ Expression P.pkg U (Repl.trim line) e := fun e h => he ⟨e, h⟩
    cases o with
    | ok u s' =>
      exfalso
      obtain ⟨toks, eof, e, h1, h2⟩ := C55_only_expressions hp hr hs.steps ho
      refine hno e ⟨toks, eof, ?_, h2⟩
      obtain ⟨full, sc, k1, k2, k3⟩ := h1
      exact ⟨full, sc, by rw [init_sc (s1 := KwScanner.zero.sc) (hs.ok.trans rfl)] at k1; exact k1, k2, by rw [← hs.words]; exact k3⟩
    | err e s' =>
      exact ⟨fuel, [.error e], s', by unfold Repl.eval; dsimp only; rw [if_neg h0, ho], hk, .other ht h0 hno (by intro t h; cases h)⟩
    | panic p s' =>
      exact ⟨fuel, [.panicked p], s', by unfold Repl.eval; dsimp only; rw [if_neg h0, ho], hk, .other ht h0 hno (by intro t h; cases h)⟩

theorem eval_more {f f' : Nat} (hf : f ≤ f') {line : Str} {s : St (Calc.Eng V)} {o} (h : Repl.eval P r U f line s = some o) :
    Repl.eval P r U f' line s = some o := by
  unfold Repl.eval at h ⊢
  dsimp only at h ⊢
  split at h
  · next h0 => rw [if_pos h0]; exact h
  · next h0 =>
    rw [if_neg h0]
    cases hm : P.pkg.client.eval r U f (Repl.trim line) s with
    | none => rw [hm] at h; cases h
    | some x => rw [hm] at h; rw [eval_mono (root_ne hp hr) hf hm]; exact h

theorem loop_more {f f' : Nat} (hf : f ≤ f') : ∀ {ls : List Str} {s : St (Calc.Eng V)} {o}, Repl.loop P r U f ls s = some o →
    Repl.loop P r U f' ls s = some o
  | [], _, _, h => h
  | l :: ls, s, o, h => by
    rw [Repl.loop] at h ⊢
    cases h1 : Repl.eval P r U f l s with
    | none => rw [h1] at h; cases h
    | some x =>
      obtain ⟨o1, s1⟩ := x
      rw [h1] at h
      rw [eval_more hp hr hf h1]
      dsimp only at h ⊢
      cases h2 : Repl.loop P r U f ls s1 with
      | none => rw [h2] at h; cases h
      | some x => rw [h2] at h; rw [loop_more hf h2]; exact h

/-- All lines are answered. -/
theorem loop_answers {n : Nat} (hn : Calc.Counts P.pkg n) : ∀ (ls : List Str), (∀ l ∈ ls, 2 * l.length + 2 ≤ n) → ∀ (s : St (Calc.Eng V)),
    ReadsAs U KwScanner.zero s.u.scanner →
    ∃ fuel os s', Repl.loop P r U fuel ls s = some (os.flatten, s') ∧ List.Forall₂ (Answer P.pkg U (printed P)) ls os
  | [], _, s, _ => ⟨0, [], s, rfl, .nil⟩
  | l :: ls, hl, s, hs => by
    obtain ⟨f1, o, s1, h1, hs1, ha⟩ := eval_answer hp hr hn l (hl l (by simp)) s hs
    obtain ⟨f2, os, s2, h2, hb⟩ := loop_answers hn ls (fun l h => hl l (by simp [h])) s1 hs1
    refine ⟨max f1 f2, o :: os, s2, ?_, .cons ha hb⟩
    rw [Repl.loop, eval_more hp hr (Nat.le_max_left _ _) h1]
    dsimp only
    rw [loop_more hp hr (Nat.le_max_right _ _) h2]
    rfl

end

theorem dropCR_length (l : Str) : (Repl.dropCR l).length ≤ l.length := by
  unfold Repl.dropCR
  split
  · rw [List.length_dropLast]; omega
  · exact Nat.le_refl _

theorem scanLines_short : ∀ (s acc : Str), ∀ l ∈ Repl.scanLines acc s, l.length < Repl.maxToken
  | [], acc, l, h => by
    rw [Repl.scanLines] at h
    split at h
    · cases h
    · split at h
      · next hl => rw [List.mem_singleton.mp h]; exact Nat.lt_of_le_of_lt (dropCR_length _) hl
      · cases h
  | c :: s, acc, l, h => by
    rw [Repl.scanLines] at h
    split at h
    · split at h
      · next hl =>
        rcases List.mem_cons.mp h with rfl | h
        · exact Nat.lt_of_le_of_lt (dropCR_length _) hl
        · exact scanLines_short s _ l h
      · cases h
    · exact scanLines_short s _ l h

/-- The scanner of the engine that `New` returns knows no keywords. -/
theorem package_reads {C : Calc V F} {text : Str} (hp : IsPackage C text) {fuel : Nat} {r : CompileRet Str} {mode : Mode}
    (hr : C.client.new text mode U fuel = some (.ok r)) : ReadsAs U KwScanner.zero r.tab.scanner := by
  have hsc : Calc.compiledScanner (C.client.new text mode U 60) = some (some [], false) := by
    cases hp
    · exact Calc.number_scanner _ U mode
    · exact Calc.rat_scanner _ _ U mode
    · exact Calc.cmplx_scanner _ U mode
  obtain ⟨r', h', _⟩ := package_parts hp U mode
  have := cl_unique hr h'
  cases this
  rw [h'] at hsc
  simp only [Calc.compiledScanner, Option.some.injEq, Prod.mk.injEq] at hsc
  exact ⟨cl_steps (.refl _) hr, hsc.2, by rw [hsc.1]; rfl⟩

/-- A run, in terms of the lines that the scanner delivers. -/
theorem main_answers {P : Repl.Prog V F} (hp : IsPackage P.pkg P.grammar) (hn : Calc.Counts P.pkg (2 ^ 53)) (stdin : Str) :
    ∃ fuel os, Repl.main P U fuel stdin = some ⟨0, os.flatten⟩ ∧
      List.Forall₂ (Answer P.pkg U (printed P)) (Repl.scanLines [] stdin) os := by
  obtain ⟨f0, r, hr⟩ := C53_compiles hp U ⟨false, false⟩
  obtain ⟨f1, os, s', h, ha⟩ := loop_answers hp hr hn (Repl.scanLines [] stdin)
    (fun l h => by have := scanLines_short stdin [] l h; simp only [Repl.maxToken] at this; omega) (Repl.start r) (package_reads hp hr)
  refine ⟨max f0 f1, os, ?_, ha⟩
  unfold Repl.main
  rw [show P.pkg.client.new P.grammar ⟨false, false⟩ U (max f0 f1) = some (.ok r) from cl_mono (Nat.le_max_left _ _) hr]
  dsimp only
  rw [loop_more hp hr (Nat.le_max_right _ _) h]
  rfl

theorem main_more {P : Repl.Prog V F} (hp : IsPackage P.pkg P.grammar) {f f' : Nat} (hf : f ≤ f') {stdin : Str} {o}
    (h : Repl.main P U f stdin = some o) : Repl.main P U f' stdin = some o := by
  unfold Repl.main at h ⊢
  cases hc : P.pkg.client.new P.grammar ⟨false, false⟩ U f with
  | none => rw [hc] at h; cases h
  | some x =>
    rw [hc] at h
    rw [show P.pkg.client.new P.grammar ⟨false, false⟩ U f' = some x from cl_mono hf hc]
    cases x with
    | err e => exact h
    | panic p => exact h
    | ok r =>
      dsimp only at h ⊢
      cases hl : Repl.loop P r U f (Repl.scanLines [] stdin) (Repl.start r) with
      | none => rw [hl] at h; cases h
      | some x => rw [hl] at h; rw [loop_more hp hc hf hl]; exact h

/-- C91: there is only one way a run can go. -/
theorem C91_unique {P : Repl.Prog V F} (hp : IsPackage P.pkg P.grammar) {f f' : Nat} {stdin : Str} {o o'}
    (h : Repl.main P U f stdin = some o) (h' : Repl.main P U f' stdin = some o') : o = o' := by
  rcases Nat.le_total f f' with hf | hf
  · have := main_more hp hf h; rw [h'] at this; injection this with this; exact this.symm
  · have := main_more hp hf h'; rw [h] at this; injection this

theorem forall₂_map {α β γ : Type} {R : β → γ → Prop} {R' : α → γ → Prop} {f : α → β} (h : ∀ a c, R (f a) c → R' a c) :
    ∀ {as : List α} {cs : List γ}, List.Forall₂ R (as.map f) cs → List.Forall₂ R' as cs
  | [], _, .nil => .nil
  | _ :: _, _, .cons h1 h2 => .cons (h _ _ h1) (forall₂_map h h2)

theorem answer_same {C : Calc V F} {v v' : Ex → Except Fault Str} (h : ∀ core e, Expression C U core e → v e = v' e) {l o}
    (ha : Answer C U v l o) : Answer C U v' l o := by
  cases ha with
  | blank h1 => exact .blank h1
  | value h1 h2 h3 => exact .value h1 h2 ((h _ _ h2).symm.trans h3)
  | fault h1 h2 h3 h4 => exact .fault h1 h2 ((h _ _ h2).symm.trans h3) h4
  | other h1 h2 h3 h4 => exact .other h1 h2 h3 h4

theorem session {P : Repl.Prog V F} (hp : IsPackage P.pkg P.grammar) (hn : Calc.Counts P.pkg (2 ^ 53)) {v : Ex → Except Fault Str}
    (hv : ∀ core e, Expression P.pkg U core e → printed P e = v e) {ls : List Str} {stdin : Str} (h : Lines ls stdin)
    (hl : ∀ l ∈ ls, l.length < 64 * 1024) :
    ∃ fuel os, Repl.main P U fuel stdin = some ⟨0, os.flatten⟩ ∧ List.Forall₂ (Answer P.pkg U v) ls os := by
  obtain ⟨fuel, os, h1, h2⟩ := main_answers (U := U) hp hn stdin
  rw [scanLines_lines h hl] at h2
  exact ⟨fuel, os, h1, forall₂_map (R' := Answer P.pkg U v) (fun _ _ ha => answer_same hv (answer_cr ha)) h2⟩

/-! ### C91 -/

theorem number_counts (M : Float64 F) {n : Nat} (hn : ∀ k : Nat, k ≤ n → M.toInt (M.ofInt k) = k) : Calc.Counts (number M) n :=
  fun k hk => congrArg Except.ok (hn k hk)

theorem cmplx_counts (M : Complex128 F Z) {n : Nat} (hn : ∀ k : Nat, k ≤ n → M.toInt (M.ofInt k) = k ∧ M.isReal (M.ofInt k) = true) :
    Calc.Counts (cmplx M) n := by
  intro k hk
  show (if M.isReal (M.ofInt k) = true then Except.ok (M.toInt (M.ofInt k)) else _) = _
  rw [if_pos (hn k hk).2, (hn k hk).1]

theorem calculator_package (M : Float64 F) (fmt : F → Str) : IsPackage (Repl.calculator M fmt).pkg (Repl.calculator M fmt).grammar := by
  dsimp only [Repl.calculator]; exact .number M
theorem ratcalc_package (L : Lits F) (ss : Str → Option Rat) : IsPackage (Repl.ratcalc L ss).pkg (Repl.ratcalc L ss).grammar := by
  dsimp only [Repl.ratcalc]; exact .rat L ss
theorem cmplxcalc_package (M : Complex128 F Z) (f g : Z → Str) : IsPackage (Repl.cmplxcalc M f g).pkg (Repl.cmplxcalc M f g).grammar := by
  dsimp only [Repl.cmplxcalc]; exact .cmplx M

/-- C91: examples/calculator answers every line, whatever the lines before it were. -/
theorem C91_calculator (M : Float64 F) (fmt : F → Str) (hn : ∀ k : Nat, k ≤ 2 ^ 53 → M.toInt (M.ofInt k) = k)
    {ls : List Str} {stdin : Str} (h : Lines ls stdin) (hl : ∀ l ∈ ls, l.length < 64 * 1024) :
    ∃ fuel os, Repl.main (Repl.calculator M fmt) U fuel stdin = some ⟨0, os.flatten⟩ ∧
      List.Forall₂ (Answer (number M) U (calculatorText M fmt)) ls os := by
  refine session (P := Repl.calculator M fmt) (calculator_package M fmt) (number_counts M hn) (fun core e he => ?_) h hl
  · obtain ⟨_, _, _, hr⟩ := he
    show ((e.eval (number M)).bind fun x => .ok (fmt x)) = _
    rw [number_value M e (reads_nums hr), calculatorText]
    cases numberValue M e <;> rfl

/-- C91: examples/ratcalc, where the literals are numbers. -/
theorem C91_ratcalc (L : Lits F) (setString : Str → Option Rat) {lit : Str → Rat}
    (hs : ∀ core e, Expression (rat L setString) U core e → e.AllNums fun t => setString t.lit = some (lit t.lit))
    {ls : List Str} {stdin : Str} (h : Lines ls stdin) (hl : ∀ l ∈ ls, l.length < 64 * 1024) :
    ∃ fuel os, Repl.main (Repl.ratcalc L setString) U fuel stdin = some ⟨0, os.flatten⟩ ∧
      List.Forall₂ (Answer (rat L setString) U (ratcalcText lit)) ls os :=
  session (P := Repl.ratcalc L setString) (ratcalc_package L setString) (rat_counts _ _ _) (fun core e he => by
    have ha := hs core e he
    obtain ⟨_, _, _, hr⟩ := he
    show ((e.eval (rat L setString)).bind (Repl.ratcalc L setString).text) = _
    rw [rat_value L setString lit e (reads_nums hr) ha, ratcalcText]
    cases ratValue lit e <;> rfl) h hl

/-- C91: examples/cmplxcalc. -/
theorem C91_cmplxcalc (M : Complex128 F Z) (fmtReal fmt : Z → Str)
    (hn : ∀ k : Nat, k ≤ 2 ^ 53 → M.toInt (M.ofInt k) = k ∧ M.isReal (M.ofInt k) = true)
    {ls : List Str} {stdin : Str} (h : Lines ls stdin) (hl : ∀ l ∈ ls, l.length < 64 * 1024) :
    ∃ fuel os, Repl.main (Repl.cmplxcalc M fmtReal fmt) U fuel stdin = some ⟨0, os.flatten⟩ ∧
      List.Forall₂ (Answer (cmplx M) U (cmplxcalcText M fmtReal fmt)) ls os :=
  session (P := Repl.cmplxcalc M fmtReal fmt) (cmplxcalc_package M fmtReal fmt) (cmplx_counts M hn) (fun core e ⟨_, _, _, hr⟩ => by
    show ((e.eval (cmplx M)).bind fun z => .ok (if M.isReal z then fmtReal z else fmt z)) = _
    rw [cmplx_value M e (reads_nums hr), cmplxcalcText]
    cases cmplxValue M e <;> rfl) h hl

/-! ### C92 -/

theorem scanLines_full : ∀ (s acc : Str), Repl.maxToken ≤ acc.length → Repl.scanLines acc s = []
  | [], acc, h => by
    rw [Repl.scanLines, if_neg (Nat.not_lt.mpr h)]
    split <;> rfl
  | c :: s, acc, h => by
    rw [Repl.scanLines, if_neg (Nat.not_lt.mpr h), scanLines_full s (acc ++ [c]) (by simp; omega)]
    split <;> rfl

theorem scanLines_long : ∀ (long acc rest : Str), 10 ∉ long → Repl.maxToken ≤ (acc ++ long).length → Repl.scanLines acc (long ++ rest) = []
  | [], acc, rest, _, h => scanLines_full _ _ (by simpa using h)
  | c :: long, acc, rest, hn, h => by
    rw [List.cons_append, Repl.scanLines, if_neg (by intro hc; exact hn (by simp [hc]))]
    exact scanLines_long long _ rest (fun hc => hn (by simp [hc])) (by simpa using h)

/-- Lines with their ends. -/
def withEnds (ls : List Str) : Str := (ls.map (· ++ [10])).flatten

theorem scanLines_front : ∀ (ls : List Str) (rest : Str), (∀ l ∈ ls, 10 ∉ l) → (∀ l ∈ ls, l.length < Repl.maxToken) →
    Repl.scanLines [] (withEnds ls ++ rest) = ls.map Repl.dropCR ++ Repl.scanLines [] rest
  | [], _, _, _ => rfl
  | l :: ls, rest, h, hl => by
    rw [show withEnds (l :: ls) ++ rest = l ++ 10 :: (withEnds ls ++ rest) by simp [withEnds],
      scanLines_at _ _ _ (h l (by simp)), List.nil_append, if_pos (hl l (by simp)),
      scanLines_front ls rest (fun l hm => h l (by simp [hm])) fun l hm => hl l (by simp [hm])]
    rfl

/-- C92, what the programs do: they answer the lines up to the first one that has 64 KB or
more, and end with exit code 0 and without a message, whatever follows. -/
theorem C92_answered_partial {P : Repl.Prog V F} (hp : IsPackage P.pkg P.grammar) (hn : Calc.Counts P.pkg (2 ^ 53))
    {ls : List Str} (h : ∀ l ∈ ls, 10 ∉ l) (hl : ∀ l ∈ ls, l.length < 64 * 1024) {long : Str} (h1 : 10 ∉ long) (h2 : 64 * 1024 ≤ long.length) (rest : Str) :
    ∃ fuel os, Repl.main P U fuel (withEnds ls ++ (long ++ rest)) = some ⟨0, os.flatten⟩ ∧
      List.Forall₂ (Answer P.pkg U (printed P)) ls os := by
  obtain ⟨fuel, os, ha, hb⟩ := main_answers (U := U) hp hn (withEnds ls ++ (long ++ rest))
  rw [scanLines_front _ _ h hl, scanLines_long _ _ _ h1 (by rw [List.nil_append]; exact h2), List.append_nil] at hb
  exact ⟨fuel, os, ha, forall₂_map (R' := Answer P.pkg U (printed P)) (fun _ _ ha => answer_cr ha) hb⟩

/-- C92 does not hold: lines are lost. -/
theorem C92_violated {P : Repl.Prog V F} (hp : IsPackage P.pkg P.grammar) (hn : Calc.Counts P.pkg (2 ^ 53)) :
    ¬ ∀ ls stdin, Lines ls stdin → ∃ fuel os, Repl.main P U fuel stdin = some ⟨0, os.flatten⟩ ∧
      List.Forall₂ (Answer P.pkg U (printed P)) ls os := by
  intro h
  have h10 : (10 : UInt8) ∉ List.replicate 65536 (32 : UInt8) := by
    intro h
    have := List.eq_of_mem_replicate h
    revert this
    decide
  obtain ⟨f, os, h1, h2⟩ := h [List.replicate 65536 32, str "1"] (List.replicate 65536 32 ++ 10 :: str "1")
    (.cons h10 (.last (by decide) (by decide)))
  obtain ⟨f', os', h1', h2'⟩ := C92_answered_partial (U := U) hp hn (ls := []) (by simp) (by simp) h10
    (by rw [List.length_replicate]) (10 :: str "1")
  cases h2'
  have := C91_unique hp h1 h1'
  simp only [Repl.End.mk.injEq, true_and, List.flatten_nil, List.flatten_eq_nil_iff] at this
  cases h2 with
  | cons _ h2 =>
    cases h2 with
    | @cons _ o _ _ h2 _ =>
      rw [this o (by simp)] at h2
      cases h2 with
      | blank h => 
        have := h 49 (by decide)
        revert this
        unfold WhiteByte
        decide

end Tpl.Props
