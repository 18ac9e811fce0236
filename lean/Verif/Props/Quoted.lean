import Verif.Proof.Quoted
import Verif.Props.Crash

/-! C117: a quoted text in a grammar matches the tokens that are spelled so. -/
namespace Tpl.Props
open Tpl Tpl.Spec KwScanner Scanner
variable {B σ V P : Type} {U : Uni}

/-- C117, exactly: let a factor of a grammar text quote `w`, let `g` be what it is compiled to, and
let any text be tokenized with the scanner of the compiled grammar (after any further use).  Then
`g` matches at the `i`-th token exactly if this token is an identifier or an operator spelled `w`,
and `w` is not a one-character operator in double quotes; it then matches this one token.  `us` is
what the text consists of before keywords are replaced. -/
theorem C117_exact {mk : Marker B} {T T' : Tab B} {f : Fac} {double : Bool} {w : Str} {g : Gr B}
    (hk : Steps U KwScanner.zero T.scanner) (hf : Quotes f double w) (hg : f.den mk T = .ok (g, T'))
    {k : KwScanner} (hs : Steps U T'.scanner k) {src : Str} {mode : Mode} {ts : List Token}
    (ht : (k.tokenize U src mode).1 = (ts, none)) :
    ∃ us eof, Lexes U true mode (bomLen src) (src.drop (bomLen src)) false (us ++ [eof]) ∧ us.length = ts.length ∧
      ∀ (env : Env B) (sem : Sem B σ V P) (i n : Nat) (s s' : St σ),
        Eval env sem g (ts.drop i) s (.ok n s') ↔
          n = 1 ∧ s' = s ∧ ∃ u, us[i]? = some u ∧ SpelledAs w u ∧ ¬ (double = true ∧ OneChar w) := by
  have hd : ∃ lit, lit = (if double then 34 :: (w ++ [34]) else 39 :: (w ++ [39])) ∧ f.den mk T = tokenOf lit T := by
    cases hf with
    | char w => exact ⟨_, rfl, by simp [Fac.den]⟩
    | string w => exact ⟨_, rfl, by simp [Fac.den]⟩
  obtain ⟨lit, hlit, hd⟩ := hd
  rw [hd] at hg
  unfold tokenOf at hg
  cases hlt : T.scanner.ltot lit with
  | panic => rw [hlt] at hg; cases hg
  | ok x =>
    obtain ⟨kind, k1⟩ := x
    rw [hlt] at hg
    have h0 : kind ≠ ILLEGAL := by
      intro e
      subst e
      cases hg
    have hg' : g = .tok kind ∧ T' = { T with scanner := k1 } := by
      cases kind with
      | zero => exact absurd rfl h0
      | succ n => cases hg; exact ⟨rfl, rfl⟩
    obtain ⟨rfl, rfl⟩ := hg'
    have hs2 : Steps U k1 (k.init src mode) := .step hs (.init k src mode)
    have hq : (∃ w, lit = 34 :: (w ++ [34])) ∨ lit.head? ≠ some 34 := by
      cases double
      · exact .inr (by rw [hlit]; simp)
      · exact .inl ⟨w, hlit⟩
    have hinv2 := (Steps.inv hs2 (KwScanner.ltot_inv (Steps.inv hk zero_inv).1 hq hlt).1).1
    have hkw : ∀ w kd, (k.init src mode).keywords.get w = some kd → kd ≠ EOF := by
      intro x kd hx e
      obtain ⟨i, l, e', _⟩ := hinv2.get x kd hx
      subst e
      unfold userTokenBegin at e'
      have : EOF = 1 := rfl
      omega
    have htk : ∃ s', tokenize U (k.init src mode).keywords.get k.sc src mode = (ts, none, s') := by
      unfold KwScanner.tokenize at ht
      have hsc : (k.init src mode).sc = Scanner.init k.sc src mode := by
        unfold KwScanner.init; split <;> rfl
      dsimp only at ht
      rw [hsc] at ht
      unfold Tpl.tokenize
      generalize tokenizeLoop U (k.init src mode).keywords.get (2 * src.length + 2) (Scanner.init k.sc src mode) = y at ht
      obtain ⟨a, b, c⟩ := y
      cases ht
      exact ⟨c, rfl⟩
    obtain ⟨hc, us, eof, hl, rfl⟩ := (C78_tokenize U _ hkw k.sc src mode ts).mp htk
    refine ⟨us, eof, hl, by simp, fun env sem i n s s' => ?_⟩
    have key : ∀ u ∈ us, (kwTok (k.init src mode).keywords.get u).kind = kind ↔ SpelledAs w u ∧ ¬ (double = true ∧ OneChar w) :=
      fun u hu => quoted_kind hl hk hf hlit hlt h0 hs2 (List.mem_append_left _ hu)
    have hfl : kind ≠ FLOAT := by
      intro e
      by_cases hL : Lit2Token lit ≠ ILLEGAL ∨ lit.head? ≠ some 34
      · obtain ⟨_, e2⟩ := KwScanner.ltot_other hL hlt
        have hne : Lit2Token lit ≠ ILLEGAL := by rw [← e2]; exact h0
        obtain ⟨s, hs1, hs2⟩ := lit2token_mem hne
        rw [← e2, e] at hs1
        have : ∀ n ∈ names, n.1 = FLOAT → (bytes n.2).head? ≠ some 34 ∧ (bytes n.2).head? ≠ some 39 := by decide +kernel
        have := this _ hs1 rfl
        rw [← hs2, hlit] at this
        cases double
        · exact this.2 rfl
        · exact this.1 rfl
      · obtain ⟨i, e1, _⟩ := KwScanner.ltot_registered (Steps.inv hk zero_inv).1 ⟨hq.resolve_right (fun c => hL (.inr c)), Classical.byContradiction fun c => hL (.inl c)⟩ hlt
        rw [e] at e1
        unfold userTokenBegin at e1
        have : FLOAT = 5 := rfl
        omega
    have hstep : ∀ r, Eval env sem (.tok kind) ((us.map (kwTok (k.init src mode).keywords.get)).drop i) s r ↔
        (match (us.map (kwTok (k.init src mode).keywords.get)).drop i with
          | t :: _ => if t.kind = kind ∨ (t.kind = INT ∧ kind = FLOAT) then Res.ok 1 s else .fail 0 (mismatch (.tok kind) ((us.map (kwTok (k.init src mode).keywords.get)).drop i)) s
          | [] => .fail 0 (mismatch (.tok kind) ((us.map (kwTok (k.init src mode).keywords.get)).drop i)) s) = r := by
      intro r
      generalize (us.map (kwTok (k.init src mode).keywords.get)).drop i = l
      constructor
      · rintro ⟨f, hf⟩
        cases f with
        | zero => cases hf
        | succ f =>
          simp only [matchG, matchStep] at hf
          cases l with
          | nil => exact Option.some.inj hf
          | cons t l => dsimp only at hf ⊢; split at hf <;> (rename_i hc; simp only [hc, if_true, if_false]; exact Option.some.inj hf)
      · intro hr
        refine ⟨1, ?_⟩
        simp only [matchG, matchStep]
        cases l with
        | nil => exact congrArg some hr
        | cons t l => dsimp only at hr ⊢; rw [← hr]; split <;> rfl
    rw [hstep, ← List.map_drop]
    cases hi : us.drop i with
    | nil =>
      have hn : us[i]? = none := by
        rw [List.getElem?_eq_none_iff]
        exact List.drop_eq_nil_iff.mp hi
      rw [hn]
      simp
    | cons u r =>
      have hu : us[i]? = some u := by
        have := congrArg List.head? hi
        rwa [List.head?_drop] at this
      have hm : u ∈ us := List.mem_of_getElem? hu
      rw [hu]
      simp only [List.map_cons, hfl, and_false, or_false]
      have := key u hm
      constructor
      · intro e
        split at e
        · rename_i hkk
          cases e
          exact ⟨rfl, rfl, u, rfl, this.mp hkk⟩
        · cases e
      · rintro ⟨rfl, rfl, v, hv, hsp⟩
        cases hv
        rw [if_pos (this.mpr hsp)]

/-- C117, as far as it holds: `'c'` and `"op"` and `"word"` match exactly the tokens that are an
identifier or an operator spelled so, if the text is not a one-character operator in double quotes. -/
theorem C117_quoted_partial {mk : Marker B} {T T' : Tab B} {f : Fac} {double : Bool} {w : Str} {g : Gr B}
    (hk : Steps U KwScanner.zero T.scanner) (hf : Quotes f double w) (hg : f.den mk T = .ok (g, T'))
    (hw : ¬ (double = true ∧ OneChar w))
    {k : KwScanner} (hs : Steps U T'.scanner k) {src : Str} {mode : Mode} {ts : List Token}
    (ht : (k.tokenize U src mode).1 = (ts, none)) :
    ∃ us eof, Lexes U true mode (bomLen src) (src.drop (bomLen src)) false (us ++ [eof]) ∧ us.length = ts.length ∧
      ∀ (env : Env B) (sem : Sem B σ V P) (i : Nat) (s : St σ),
        Eval env sem g (ts.drop i) s (.ok 1 s) ↔ ∃ u, us[i]? = some u ∧ SpelledAs w u := by
  obtain ⟨us, eof, h1, h2, h3⟩ := C117_exact (σ := σ) (V := V) (P := P) hk hf hg hs ht
  refine ⟨us, eof, h1, h2, fun env sem i s => ?_⟩
  rw [h3]
  constructor
  · rintro ⟨_, _, u, hu, hsp, _⟩
    exact ⟨u, hu, hsp⟩
  · rintro ⟨u, hu, hsp⟩
    exact ⟨rfl, rfl, u, hu, hsp, hw⟩

/-! ### Violations and examples -/

/-- How many tokens of the text the compiled grammar matches. -/
def takes (r : Option (ClRes Nat)) (text : String) : Option Nat :=
  match r with
  | some (.ok ret) =>
    match matchG ret.env noCalls.sem 40 ret.root (ret.tab.scanner.tokenize ascii (bytes text) ret.mode).1.1 st0 with
    | some (.ok n _) => some n
    | _ => none
  | _ => none

/-- C117 does not hold: `Cl` accepts `"+"` and `"1"` in double quotes, but they do not match the
tokens `+` and `1`. -/
theorem C117_violated : ClRes.isOk (compiled "doc = \"+\";") = true ∧ takes (compiled "doc = \"+\";") "+" = none ∧
    ClRes.isOk (compiled "doc = \"1\";") = true ∧ takes (compiled "doc = \"1\";") "1" = none := by decide +kernel

/-- Operators and words that are quoted match. -/
example : takes (compiled "doc = \"begin\" '+' \"<<=\" IDENT;") "begin + <<= begun" = some 4 ∧
    takes (compiled "doc = \"begin\" '+' \"<<=\" IDENT;") "begun + <<= begin" = none := by decide +kernel

/-- The hypotheses of `C117_exact` are met: the word `if` with a scanner that has just been
initialised, and the text `x if ++`, whose second token is the only one that is spelled so. -/
example : let k := KwScanner.zero.init [] clMode
    Quotes (.string (bytes "\"if\"")) true (bytes "if") ∧ ¬ OneChar (bytes "if") ∧
    (match Fac.den (compiler "").marker (.string (bytes "\"if\"")) ⟨[], [], 0, k⟩ with
      | .ok (.tok kind, T) => (T.scanner.tokenize ascii (bytes "x if ++") ⟨false, false⟩).1.1.map (fun t => decide (t.kind = kind))
      | _ => []) = [false, true, false] := by
  refine ⟨Quotes.string (bytes "if"), ?_, by decide +kernel⟩
  rintro ⟨k, s, h1, h2, h3⟩
  have : ∀ o ∈ operators, o.2.length = 1 → bytes o.2 ≠ bytes "if" := by decide +kernel
  exact this _ h1 h2 h3.symm

end Tpl.Props
