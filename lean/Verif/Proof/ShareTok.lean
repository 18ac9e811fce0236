import Verif.Proof.ShareCl
import Verif.Props.Extractor

/-! Tokenizing the same text with two scanners. -/
namespace Tpl
open Spec KwScanner Scanner
variable {A B σ V P : Type} {U : Uni} {R : Nat → Nat → Prop}

theorem op_small : ∀ p ∈ operators, p.1 < 0xb0 := by decide +kernel

/-- The kinds of the language. -/
theorem scan_kind {s : Scanner} (h : Scanner.Inv s) : (Scanner.scan U s).1.kind < 0xb0 := by
  obtain ⟨g, x, a, b, ho⟩ := Scanner.scan_spec U h
  have := (ho.text false (by simp)).2
  generalize (Scanner.scan U s).1 = t at this
  generalize (Scanner.scan U s).2.rest = r at this
  cases this with
  | op hop => exact op_small _ hop
  | ident | int | float | imag | char | string | raw | comment | newline | semiAtComment | semiAtEnd | eof | dots | illegal => dsimp only; decide

/-- The two scanners give the identifiers of the tokens kinds that mean the same. -/
def KwSame (R : Nat → Nat → Prop) (kw kw' : Str → Option Nat) (ts : List Token) : Prop :=
  ∀ t ∈ ts, t.kind = IDENT → (kw t.lit = none ∧ kw' t.lit = none) ∨ ∃ a b, kw t.lit = some a ∧ kw' t.lit = some b ∧ R a b

/-- Kinds. -/
structure TokRel (R : Nat → Nat → Prop) : Prop where
  raw : ∀ a, a < 0xb0 → R a a
  eof : ∀ a b, R a b → (a = EOF ↔ b = EOF)

theorem kwTok_same (hR : TokRel R) {kw kw' : Str → Option Nat} {t : Token} (ht : t.kind < 0xb0)
    (h : t.kind = IDENT → (kw t.lit = none ∧ kw' t.lit = none) ∨ ∃ a b, kw t.lit = some a ∧ kw' t.lit = some b ∧ R a b) :
    ∃ a b, kwTok kw t = ⟨a, t.pos, t.lit⟩ ∧ kwTok kw' t = ⟨b, t.pos, t.lit⟩ ∧ R a b := by
  unfold kwTok
  by_cases hi : t.kind = IDENT
  · rw [if_pos hi, if_pos hi]
    rcases h hi with ⟨h1, h2⟩ | ⟨a, b, h1, h2, h3⟩
    · rw [h1, h2]
      exact ⟨t.kind, t.kind, rfl, rfl, hR.raw _ ht⟩
    · rw [h1, h2]
      exact ⟨a, b, rfl, rfl, h3⟩
  · rw [if_neg hi, if_neg hi]
    exact ⟨t.kind, t.kind, rfl, rfl, hR.raw _ ht⟩

theorem tokenizeLoop_same (hR : TokRel R) {kw kw' : Str → Option Nat} {s s' : Scanner} {ts : List Token} (h : Run U s ts s')
    (hi : Scanner.Inv s) (hk : KwSame R kw kw' ts) : ∀ f, SameToks R Eq (tokenizeLoop U kw f s).1 (tokenizeLoop U kw' f s).1 ∧
      (tokenizeLoop U kw f s).2.1 = (tokenizeLoop U kw' f s).2.1 := by
  induction h with
  | @eof s t s1 h1 h2 =>
    intro f
    cases f with
    | zero => exact ⟨.nil, rfl⟩
    | succ f =>
      have hne : t.kind ≠ IDENT := by rw [h2]; decide
      have e : ∀ kw, kwTok kw t = t := fun kw => by unfold kwTok; rw [if_neg hne]
      rw [tokenizeLoop, tokenizeLoop, kwScan_eq, kwScan_eq, h1]
      dsimp only
      rw [e, e]
      cases s1.errs with
      | cons x xs => exact ⟨.nil, rfl⟩
      | nil =>
        dsimp only
        rw [if_pos h2, if_pos h2]
        exact ⟨.nil, rfl⟩
  | @cons s t s1 ts s2 h1 h2 hr ih =>
    intro f
    cases f with
    | zero => exact ⟨.nil, rfl⟩
    | succ f =>
      have hi1 : Scanner.Inv s1 := by have := Scanner.scan_inv U hi; rw [h1] at this; exact this
      have hkd : t.kind < 0xb0 := by have := scan_kind (U := U) hi; rw [h1] at this; exact this
      obtain ⟨a, b, e1, e2, hab⟩ := kwTok_same hR hkd (hk t (by simp))
      have hrec := ih hi1 (fun u hu => hk u (by simp [hu])) f
      rw [tokenizeLoop, tokenizeLoop, kwScan_eq, kwScan_eq, h1]
      dsimp only
      rw [e1, e2]
      cases s1.errs with
      | cons x xs => exact ⟨.nil, rfl⟩
      | nil =>
        dsimp only
        by_cases ha : a = EOF
        · rw [if_pos ha, if_pos ((hR.eof a b hab).mp ha)]
          exact ⟨.nil, rfl⟩
        · rw [if_neg ha, if_neg (fun hb => ha ((hR.eof a b hab).mpr hb))]
          exact ⟨.cons hab rfl hrec.1, hrec.2⟩

/-- The tokens of a text with two scanners. -/
theorem tokenize_alike (hR : TokRel R) {k k' : KwScanner} (hb : k.sc.bad = k'.sc.bad) {src : Str} {mode : Mode}
    (h : ∀ ts s', Run U (Scanner.init k.sc src mode) ts s' → KwSame R k.keywords.get k'.keywords.get ts) :
    SameToks R Eq (k.tokenize U src mode).1.1 (k'.tokenize U src mode).1.1 ∧ (k.tokenize U src mode).1.2 = (k'.tokenize U src mode).1.2 := by
  obtain ⟨full, s', hr, _⟩ := Props.C03_terminates U k.sc src mode
  rw [(Props.tokenize_kw U k src mode).1, (Props.tokenize_kw U k' src mode).1]
  unfold Tpl.tokenize
  rw [← Scanner.init_reset _ _ hb]
  exact tokenizeLoop_same hR hr (Scanner.init_inv k.sc src mode) (h full s' hr) _

/-- From `Match` to `MatchExactly`. -/
theorem exactly_same {m m' : Matcher A σ V P} {fuel : Nat} {k k' : KwScanner} {src src' : Str} {s : St σ}
    (h : (m.match_ U fuel k src s).1 = none ∧ (m'.match_ U fuel k' src' s).1 = none ∨
      (∃ e e' s1, (m.match_ U fuel k src s).1 = some (.err e s1) ∧ (m'.match_ U fuel k' src' s).1 = some (.err e' s1)) ∨
      (∃ p p' s1, (m.match_ U fuel k src s).1 = some (.panic p s1) ∧ (m'.match_ U fuel k' src' s).1 = some (.panic p' s1)) ∨
      ∃ x x' s1, (m.match_ U fuel k src s).1 = some (.ok x s1) ∧ (m'.match_ U fuel k' src' s).1 = some (.ok x' s1) ∧ x.length = x'.length) :
    SameAns (m.matchExactly U fuel k src s).1 (m'.matchExactly U fuel k' src' s).1 := by
  have key : ∀ r r' : Option (MRes A σ P (List Token)) × KwScanner, 
      (r.1 = none ∧ r'.1 = none ∨ (∃ e e' s, r.1 = some (.err e s) ∧ r'.1 = some (.err e' s)) ∨
      (∃ p p' s, r.1 = some (.panic p s) ∧ r'.1 = some (.panic p' s)) ∨ ∃ x x' s, r.1 = some (.ok x s) ∧ r'.1 = some (.ok x' s) ∧ x.length = x'.length) →
      SameAns (match r with
        | (r, k) =>
          ((match r with
          | none => none
          | some (.err e s) => some (.err e s)
          | some (.panic p s) => some (.panic p s)
          | some (.ok next s) => if next.length ≠ 0 then some (.err (.match_ (mismatch .eof next)) s) else some (.ok () s), k) : Option (MRes A σ P Unit) × KwScanner)).1
        (match r' with
        | (r, k) =>
          ((match r with
          | none => none
          | some (.err e s) => some (.err e s)
          | some (.panic p s) => some (.panic p s)
          | some (.ok next s) => if next.length ≠ 0 then some (.err (.match_ (mismatch .eof next)) s) else some (.ok () s), k) : Option (MRes A σ P Unit) × KwScanner)).1 := by
    rintro ⟨r, k⟩ ⟨r', k'⟩ h
    dsimp only at h
    rcases h with ⟨rfl, rfl⟩ | ⟨e, e', s, rfl, rfl⟩ | ⟨e, e', s, rfl, rfl⟩ | ⟨x, x', s, rfl, rfl, hx⟩
    · exact .none
    · exact .err
    · exact .panic
    · dsimp only
      by_cases h0 : x.length ≠ 0
      · rw [if_pos h0, if_pos (hx ▸ h0)]; exact .err
      · rw [if_neg h0, if_neg (hx ▸ h0)]; exact .ok
  exact key _ _ h

/-- `MatchExactly` with two scanners. -/
theorem matchExactly_same (hR : TokRel R) (hR' : KindRel R) {k k' : KwScanner} (hb : k.sc.bad = k'.sc.bad) {g g' : Gr A} {env env' : Env A}
    {sem : Sem A σ V P} (hsem : BlindSem sem) (hg : SameGr R g g')
    (henv : ∀ v, (env v = none ∧ env' v = none) ∨ ∃ g g', env v = some g ∧ env' v = some g' ∧ SameGr R g g') {src : Str} {mode : Mode}
    (h : ∀ ts s', Run U (Scanner.init k.sc src mode) ts s' → KwSame R k.keywords.get k'.keywords.get ts)
    (init : St σ → Cb A σ P Unit) (fuel : Nat) (s : St σ) :
    SameAns ((⟨g, mode, init, env, sem⟩ : Matcher A σ V P).matchExactly U fuel k src s).1
      ((⟨g', mode, init, env', sem⟩ : Matcher A σ V P).matchExactly U fuel k' src s).1 := by
  refine exactly_same ?_
  by_cases hn : g = .nil
  · subst hn
    cases hg
    exact .inr (.inl ⟨_, _, _, rfl, rfl⟩)
  · have hn' : g' ≠ .nil := by
      rintro rfl
      cases hg
      exact hn rfl
    rw [Props.match_eq ⟨g, mode, init, env, sem⟩ hn, Props.match_eq ⟨g', mode, init, env', sem⟩ hn']
    dsimp only
    obtain ⟨h1, h2⟩ := tokenize_alike (U := U) hR hb h
    generalize (k.tokenize U src mode).1 = t at h1 h2
    generalize (k'.tokenize U src mode).1 = t' at h1 h2
    obtain ⟨ts, e⟩ := t
    obtain ⟨ts', e'⟩ := t'
    dsimp only at h1 h2 ⊢
    subst h2
    cases e with
    | some e => exact .inr (.inl ⟨_, _, _, rfl, rfl⟩)
    | none =>
      dsimp only
      cases init s with
      | panic p s => exact .inr (.inr (.inl ⟨_, _, _, rfl, rfl⟩))
      | ok _ s =>
        dsimp only
        have := matchG_same hR' (hsem R) henv fuel g g' ts ts' s hg h1
        generalize matchG env sem fuel g ts s = r at this
        generalize matchG env' sem fuel g' ts' s = r' at this
        cases this with
        | none => exact .inl ⟨rfl, rfl⟩
        | ok => exact .inr (.inr (.inr ⟨_, _, _, rfl, rfl, by simp [h1.length]⟩))
        | fail => exact .inr (.inl ⟨_, _, _, rfl, rfl⟩)
        | panic => exact .inr (.inr (.inl ⟨_, _, _, rfl, rfl⟩))

end Tpl
