import Verif.Spec.Place
import Verif.Proof.ShareTok
import Verif.Props.Calc
import Verif.Props.Compiler

/-! The same tokens at different places. -/
namespace Tpl
open Spec KwScanner Scanner
variable {A B σ V P F : Type} {U : Uni}

/-! ### Tokens -/

abbrev Anywhere : Nat → Nat → Prop := fun _ _ => True

theorem sameToks_key {ts ts' : List Token} (h : SameToks Eq Anywhere ts ts') : ts.map kindLit = ts'.map kindLit := by
  induction h with
  | nil => rfl
  | cons h1 _ _ ih => subst h1; rw [List.map_cons, List.map_cons, ih]; rfl

theorem key_sameToks : ∀ {ts ts' : List Token}, ts.map kindLit = ts'.map kindLit → SameToks Eq Anywhere ts ts'
  | [], [], _ => .nil
  | [], _ :: _, h => nomatch h
  | _ :: _, [], h => nomatch h
  | ⟨a, p, l⟩ :: ts, ⟨b, q, l'⟩ :: ts', h => by
    injection h with h1 h2
    injection h1 with h3 h4
    dsimp only at h3 h4
    subst h3
    subst h4
    exact .cons rfl trivial (key_sameToks h2)

mutual
theorem sameGr_eq : ∀ {g g' : Gr A}, SameGr Eq g g' → g = g'
  | _, _, .nil => rfl
  | _, _, .tok h => by rw [h]
  | _, _, .tru => rfl
  | _, _, .eof => rfl
  | _, _, .peek h => by rw [sameGr_eq h]
  | _, _, .not h => by rw [sameGr_eq h]
  | _, _, .and h => by rw [sameGrs_eq h]
  | _, _, .or h => by rw [sameGrs_eq h]
  | _, _, .rep0 h => by rw [sameGr_eq h]
  | _, _, .rep1 h => by rw [sameGr_eq h]
  | _, _, .rep01 h => by rw [sameGr_eq h]
  | _, _, .list h h' => by rw [sameGr_eq h, sameGr_eq h']
  | _, _, .var => rfl
  | _, _, .named h => by rw [sameGr_eq h]
  | _, _, .action h => by rw [sameGr_eq h]
  | _, _, .trans h => by rw [sameGr_eq h]
theorem sameGrs_eq : ∀ {gs gs' : List (Gr A)}, SameGrs Eq gs gs' → gs = gs'
  | _, _, .nil => rfl
  | _, _, .cons h h' => by rw [sameGr_eq h, sameGrs_eq h']
end

mutual
theorem sameGr_refl : ∀ g : Gr A, SameGr Eq g g
  | .nil => .nil
  | .tok _ => .tok rfl
  | .tru => .tru
  | .eof => .eof
  | .peek g => .peek (sameGr_refl g)
  | .not g => .not (sameGr_refl g)
  | .and gs => .and (sameGrs_refl gs)
  | .or gs => .or (sameGrs_refl gs)
  | .rep0 _ g => .rep0 (sameGr_refl g)
  | .rep1 _ g => .rep1 (sameGr_refl g)
  | .rep01 _ g => .rep01 (sameGr_refl g)
  | .list _ a b _ => .list (sameGr_refl a) (sameGr_refl b)
  | .var _ => .var
  | .named _ g => .named (sameGr_refl g)
  | .action _ g => .action (sameGr_refl g)
  | .trans _ g => .trans (sameGr_refl g)
theorem sameGrs_refl : ∀ gs : List (Gr A), SameGrs Eq gs gs
  | [] => .nil
  | g :: gs => .cons (sameGr_refl g) (sameGrs_refl gs)
end

theorem kindRel_eq : KindRel Eq := ⟨fun h h' => by rw [h, h'], fun h => by rw [h], fun h => by rw [h]⟩

theorem Spec.PlaceBlind.blind {sem : Sem A σ V P} (h : PlaceBlind sem) : Blind Eq Anywhere sem := by
  refine ⟨fun f m m' a g g' ts ts' s hm hg ht => ?_, h.finish⟩
  obtain rfl := sameGr_eq hg
  exact h.act f m m' a g ts ts' s (fun g ts ts' s ht => hm g g ts ts' s (sameGr_refl g) (key_sameToks ht)) (sameToks_key ht)

/-- Matching does not look at positions. -/
theorem matchG_place {env : Env A} {sem : Sem A σ V P} (h : PlaceBlind sem) (f : Nat) (g : Gr A) {ts ts' : List Token}
    (ht : ts.map kindLit = ts'.map kindLit) (s : St σ) : SameRes (matchG env sem f g ts s) (matchG env sem f g ts' s) := by
  refine matchG_same kindRel_eq h.blind (fun v => ?_) f g g ts ts' s (sameGr_refl g) (key_sameToks ht)
  cases env v with
  | none => exact .inl ⟨rfl, rfl⟩
  | some g => exact .inr ⟨g, g, rfl, rfl, sameGr_refl g⟩

/-- Nor does `MatchExactly`. -/
theorem exactly_place (m : Matcher A σ V P) (h : PlaceBlind m.sem) {k : KwScanner} (hk : Steps U KwScanner.zero k) {src src' : Str}
    (ht : SameText U k m.mode src src') (fuel : Nat) (s : St σ) :
    SameAns (m.matchExactly U fuel k src s).1 (m.matchExactly U fuel k src' s).1 := by
  obtain ⟨ts, eof, ts', eof', h1, h2, h3⟩ := ht
  refine exactly_same ?_
  by_cases hn : m.grammar = .nil
  · refine .inr (.inl ⟨.noGrammar, .noGrammar, s, ?_, ?_⟩)
    · unfold Matcher.match_; rw [hn]
    · unfold Matcher.match_; rw [hn]
  · rw [Props.match_eq m hn, Props.match_eq m hn, (Props.tokenizes_ok hk h1).1, (Props.tokenizes_ok hk h2).1]
    dsimp only
    cases m.init s with
    | panic p s => exact .inr (.inr (.inl ⟨_, _, _, rfl, rfl⟩))
    | ok _ s =>
      dsimp only
      have := matchG_place (env := m.env) h fuel m.grammar h3 s
      generalize matchG m.env m.sem fuel m.grammar ts s = r at this
      generalize matchG m.env m.sem fuel m.grammar ts' s = r' at this
      have hl : ts.length = ts'.length := by simpa using congrArg List.length h3
      cases this with
      | none => exact .inl ⟨rfl, rfl⟩
      | ok => exact .inr (.inr (.inr ⟨_, _, _, rfl, rfl, by simp [hl]⟩))
      | fail => exact .inr (.inl ⟨_, _, _, rfl, rfl⟩)
      | panic => exact .inr (.inr (.inl ⟨_, _, _, rfl, rfl⟩))

/-! ### Grammar texts -/

/-- The tables with the scanner at another text. -/
def Tab.at_ (t : Tab B) (k : KwScanner) : Tab B := { t with scanner := atText t.scanner k }

theorem ltot_at (k k' : KwScanner) (l : Str) : (atText k k').ltot l = match k.ltot l with
    | .panic => .panic
    | .ok (n, u) => .ok (n, atText u k') := by
  unfold ltot atText
  dsimp only
  by_cases h0 : Lit2Token l ≠ ILLEGAL
  · rw [if_pos h0, if_pos h0]
  · rw [if_neg h0, if_neg h0]
    cases l with
    | nil => rfl
    | cons c rest =>
      dsimp only
      by_cases hc : c = 34
      · rw [if_pos hc, if_pos hc]
        by_cases hr : rest = []
        · rw [if_pos hr, if_pos hr]
        · rw [if_neg hr, if_neg hr]
          cases k.keywords.get rest.dropLast with
          | some t => rfl
          | none =>
            cases k.keywords with
            | none => rfl
            | some m => rfl
      · rw [if_neg hc, if_neg hc]

/-- A meaning with the scanner at another text. -/
def atR {α : Type} (k : KwScanner) : Except ClPanic (α × Tab B) → Except ClPanic (α × Tab B)
  | .error e => .error e
  | .ok (x, t) => .ok (x, t.at_ k)

theorem atR_bind {α β : Type} (k : KwScanner) {d : Except ClPanic (α × Tab B)} {d' : Except ClPanic (α × Tab B)} (h : d' = atR k d)
    {f : α × Tab B → Except ClPanic (β × Tab B)} (hf : ∀ x t, f (x, t.at_ k) = atR k (f (x, t))) : d'.bind f = atR k (d.bind f) := by
  subst h
  cases d with
  | error e => rfl
  | ok x => exact hf x.1 x.2

variable {mk : Marker B}

theorem tokenOf_at (k : KwScanner) (l : Str) (t : Tab B) : tokenOf l (t.at_ k) = atR k (tokenOf l t) := by
  unfold tokenOf
  rw [show (t.at_ k).scanner = atText t.scanner k from rfl, ltot_at]
  cases t.scanner.ltot l with
  | panic => rfl
  | ok x =>
    obtain ⟨n, u⟩ := x
    cases n <;> rfl

theorem nameOf_at (k : KwScanner) (n : Str) (t : Tab B) : nameOf n (t.at_ k) = atR k (nameOf n t) := by
  unfold nameOf
  rw [show (t.at_ k).grammars = t.grammars from rfl, show (t.at_ k).vars = t.vars from rfl]
  by_cases h0 : n = []
  · rw [if_pos h0, if_pos h0]; rfl
  rw [if_neg h0, if_neg h0]
  by_cases hu : isUpper n = true
  · rw [if_pos hu, if_pos hu]; exact tokenOf_at k n t
  rw [if_neg hu, if_neg hu]
  cases t.grammars.lookup n with
  | some g => rfl
  | none =>
    cases varNo n t.vars with
    | some v => rfl
    | none =>
      dsimp only
      by_cases ht : n = bytes "true"
      · rw [if_pos ht, if_pos ht]; rfl
      · rw [if_neg ht, if_neg ht]; rfl

mutual
theorem fac_at (k : KwScanner) : ∀ (f : Fac) (t : Tab B), f.den mk (t.at_ k) = atR k (f.den mk t)
  | .ident n, t => nameOf_at k n t
  | .char l, t => tokenOf_at k l t
  | .string l, t => tokenOf_at k l t
  | .int l, t => by
    simp only [Fac.den]
    split <;> rfl
  | .rep0 f, t => atR_bind k (fac_at k f t) fun _ _ => rfl
  | .rep1 f, t => atR_bind k (fac_at k f t) fun _ _ => rfl
  | .rep01 f, t => atR_bind k (fac_at k f t) fun _ _ => rfl
  | .not f, t => atR_bind k (fac_at k f t) fun _ _ => rfl
  | .peek f, t => atR_bind k (fac_at k f t) fun _ _ => rfl
  | .paren g, t => atR_bind k (alts_at k g t) fun _ _ => rfl
theorem sufs_at (k : KwScanner) : ∀ (s : Sufs) (a : Gr B) (t : Tab B), s.den mk a (t.at_ k) = atR k (s.den mk a t)
  | .nil, a, t => rfl
  | .list f r, a, t => atR_bind k (fac_at k f t) fun x u => sufs_at k r (.list u.cells a x false) u.bump
  | .list0 f r, a, t => atR_bind k (fac_at k f t) fun x u => sufs_at k r (.list u.cells a x true) u.bump
  | .mark n r, a, t => by
    simp only [Sufs.den]
    cases mk a n with
    | error e => rfl
    | ok g => exact sufs_at k r g t
theorem item_at (k : KwScanner) : ∀ (i : Item) (t : Tab B), i.den mk (t.at_ k) = atR k (i.den mk t)
  | .term f s, t => atR_bind k (fac_at k f t) fun x u => sufs_at k s x u
  | .cut, t => rfl
theorem seq_at (k : KwScanner) : ∀ (s : ItemSeq) (t : Tab B), s.den mk (t.at_ k) = atR k (s.den mk t)
  | .nil, t => rfl
  | .cons i r, t => atR_bind k (item_at k i t) fun x u => atR_bind k (seq_at k r u) fun _ _ => rfl
theorem alts_at (k : KwScanner) : ∀ (a : Alts) (t : Tab B), a.den mk (t.at_ k) = atR k (a.den mk t)
  | .one i is, t => atR_bind k (item_at k i t) fun x u => atR_bind k (seq_at k is u) fun _ _ => rfl
  | .alt i is r, t => atR_bind k (item_at k i t) fun x u => atR_bind k (seq_at k is u) fun y v => atR_bind k (alts_at k r v) fun _ _ => rfl
end

/-- The tables after a document, with the scanner at another text. -/
def atT (k : KwScanner) : Except ClPanic (Tab B) → Except ClPanic (Tab B)
  | .error e => .error e
  | .ok t => .ok (t.at_ k)

theorem define_at (k : KwScanner) (n : Str) (g : Gr B) (t : Tab B) : define n g (t.at_ k) = atT k (define n g t) := by
  unfold define
  rw [show (t.at_ k).grammars = t.grammars from rfl, show (t.at_ k).vars = t.vars from rfl]
  cases varNo n t.vars with
  | some v =>
    dsimp only
    rcases t.vars[v]? with _ | ⟨m, _ | x⟩
    · cases g <;> rfl
    · cases g <;> rfl
    · rfl
  | none =>
    cases t.grammars.lookup n with
    | some _ => rfl
    | none => rfl

theorem denDoc_at (k : KwScanner) : ∀ (rs : List Rule) (t : Tab B), denDoc mk rs (t.at_ k) = atT k (denDoc mk rs t)
  | [], t => rfl
  | r :: rs, t => by
    simp only [denDoc, Rule.den]
    rw [alts_at]
    cases r.body.den mk t with
    | error e => rfl
    | ok x =>
      obtain ⟨x, u⟩ := x
      simp only [atR, Except.bind]
      rw [define_at]
      cases define r.name (oneOrOr x) u with
      | error e => rfl
      | ok v => exact denDoc_at k rs v

/-- The scanner after `Tokenize` is the same but for the text. -/
theorem tokenize_at (k : KwScanner) (src src' : Str) (mode : Mode) :
    (k.tokenize U src' mode).2 = atText (k.tokenize U src mode).2 (k.tokenize U src' mode).2 := by
  unfold KwScanner.tokenize
  rfl

/-! ### Calculators -/

theorem kindLit_kind {t t' : Token} (h : kindLit t = kindLit t') : t.kind = t'.kind := congrArg Prod.fst h
theorem kindLit_lit {t t' : Token} (h : kindLit t = kindLit t') : t.lit = t'.lit := congrArg Prod.snd h

theorem kl_append {ts us vs : List Token} (h : (ts ++ us).map kindLit = vs.map kindLit) :
    ∃ ts' us', vs = ts' ++ us' ∧ ts.map kindLit = ts'.map kindLit ∧ us.map kindLit = us'.map kindLit := by
  rw [List.map_append] at h
  obtain ⟨a, b, rfl, h1, h2⟩ := List.map_eq_append_iff.mp h.symm
  exact ⟨a, b, rfl, h1.symm, h2.symm⟩

theorem kl_cons {t : Token} {us vs : List Token} (h : (t :: us).map kindLit = vs.map kindLit) :
    ∃ t' us', vs = t' :: us' ∧ kindLit t = kindLit t' ∧ us.map kindLit = us'.map kindLit := by
  cases vs with
  | nil => cases h
  | cons v vs =>
    rw [List.map_cons, List.map_cons] at h
    injection h with h1 h2
    exact ⟨v, vs, rfl, h1, h2⟩

theorem kl_nil {vs : List Token} (h : ([] : List Token).map kindLit = vs.map kindLit) : vs = [] := by
  cases vs with
  | nil => rfl
  | cons v vs => cases h

theorem litRule_place (C : Calc V F) {t t' : Token} (h : kindLit t = kindLit t') : litRule? C t = litRule? C t' := by
  unfold litRule?
  rw [kindLit_kind h]

theorem litValue_place (C : Calc V F) {t t' : Token} (h : kindLit t = kindLit t') : litValue C t = litValue C t' := by
  unfold litValue
  rw [litRule_place C h, kindLit_lit h]

mutual
theorem reads_place {C : Calc V F} : ∀ {n ts e}, Reads C n ts e → ∀ ts', ts.map kindLit = ts'.map kindLit →
    ∃ e', Reads C n ts' e' ∧ e'.eval C = e.eval C
  | _, _, _, .sum h, ts', ht => by
    obtain ⟨e', h1, h2⟩ := reads_place h ts' ht
    exact ⟨e', .sum h1, h2⟩
  | _, _, _, .add h hk h', ts', ht => by
    obtain ⟨x, y, rfl, hx, hy⟩ := kl_append ht
    obtain ⟨t, y, rfl, h0, hy⟩ := kl_cons hy
    obtain ⟨a, ha, va⟩ := reads_place h x hx
    obtain ⟨b, hb, vb⟩ := reads_place h' y hy
    exact ⟨_, .add ha (kindLit_kind h0 ▸ hk) hb, by simp only [Ex.eval, va, vb]⟩
  | _, _, _, .sub h hk h', ts', ht => by
    obtain ⟨x, y, rfl, hx, hy⟩ := kl_append ht
    obtain ⟨t, y, rfl, h0, hy⟩ := kl_cons hy
    obtain ⟨a, ha, va⟩ := reads_place h x hx
    obtain ⟨b, hb, vb⟩ := reads_place h' y hy
    exact ⟨_, .sub ha (kindLit_kind h0 ▸ hk) hb, by simp only [Ex.eval, va, vb]⟩
  | _, _, _, .product h, ts', ht => by
    obtain ⟨e', h1, h2⟩ := reads_place h ts' ht
    exact ⟨e', .product h1, h2⟩
  | _, _, _, .mul h hk h', ts', ht => by
    obtain ⟨x, y, rfl, hx, hy⟩ := kl_append ht
    obtain ⟨t, y, rfl, h0, hy⟩ := kl_cons hy
    obtain ⟨a, ha, va⟩ := reads_place h x hx
    obtain ⟨b, hb, vb⟩ := reads_place h' y hy
    exact ⟨_, .mul ha (kindLit_kind h0 ▸ hk) hb, by simp only [Ex.eval, va, vb]⟩
  | _, _, _, .num h, ts', ht => by
    obtain ⟨t, y, rfl, h0, hy⟩ := kl_cons ht
    obtain rfl := kl_nil hy
    exact ⟨.num t, .num (litRule_place C h0 ▸ h), by simp only [Ex.eval, litValue_place C h0]⟩
  | _, _, _, .name hk h, ts', ht => by
    obtain ⟨t, y, rfl, h0, hy⟩ := kl_cons ht
    obtain rfl := kl_nil hy
    exact ⟨.name t, .name (kindLit_kind h0 ▸ hk) h, by simp only [Ex.eval, kindLit_lit h0]⟩
  | _, _, _, .neg hk h, ts', ht => by
    obtain ⟨t, y, rfl, h0, hy⟩ := kl_cons ht
    obtain ⟨b, hb, vb⟩ := reads_place h y hy
    exact ⟨_, .neg (kindLit_kind h0 ▸ hk) hb, by simp only [Ex.eval, vb]⟩
  | _, _, _, .pos hk h, ts', ht => by
    obtain ⟨t, y, rfl, h0, hy⟩ := kl_cons ht
    obtain ⟨b, hb, vb⟩ := reads_place h y hy
    exact ⟨_, .pos (kindLit_kind h0 ▸ hk) hb, vb⟩
  | _, _, _, .paren hk h hk', ts', ht => by
    obtain ⟨t, y, rfl, h0, hy⟩ := kl_cons ht
    obtain ⟨x, y, rfl, hx, hy⟩ := kl_append hy
    obtain ⟨t', y, rfl, h1, hy⟩ := kl_cons hy
    obtain rfl := kl_nil hy
    obtain ⟨b, hb, vb⟩ := reads_place h x hx
    exact ⟨_, .paren (kindLit_kind h0 ▸ hk) hb (kindLit_kind h1 ▸ hk'), vb⟩
  | _, _, _, .call hf hk h hk', ts', ht => by
    obtain ⟨f, y, rfl, h0, hy⟩ := kl_cons ht
    obtain ⟨t, y, rfl, h1, hy⟩ := kl_cons hy
    obtain ⟨x, y, rfl, hx, hy⟩ := kl_append hy
    obtain ⟨t', y, rfl, h2, hy⟩ := kl_cons hy
    obtain rfl := kl_nil hy
    obtain ⟨b, hb, vb⟩ := readsArgs_place h x hx
    exact ⟨.call f b, .call (kindLit_kind h0 ▸ hf) (kindLit_kind h1 ▸ hk) hb (kindLit_kind h2 ▸ hk'), by simp only [Ex.eval, vb, kindLit_lit h0]⟩
theorem readsArgs_place {C : Calc V F} : ∀ {ts es}, ReadsArgs C ts es → ∀ ts', ts.map kindLit = ts'.map kindLit →
    ∃ es', ReadsArgs C ts' es' ∧ evalArgs C es' = evalArgs C es
  | _, _, .nil, ts', ht => by
    obtain rfl := kl_nil ht
    exact ⟨[], .nil, rfl⟩
  | _, _, .some h h', ts', ht => by
    obtain ⟨x, y, rfl, hx, hy⟩ := kl_append ht
    obtain ⟨a, ha, va⟩ := reads_place h x hx
    obtain ⟨b, hb, vb⟩ := readsMore_place h' y hy
    exact ⟨a :: b, .some ha hb, by simp only [evalArgs, va, vb]⟩
theorem readsMore_place {C : Calc V F} : ∀ {ts es}, ReadsMore C ts es → ∀ ts', ts.map kindLit = ts'.map kindLit →
    ∃ es', ReadsMore C ts' es' ∧ evalArgs C es' = evalArgs C es
  | _, _, .nil, ts', ht => by
    obtain rfl := kl_nil ht
    exact ⟨[], .nil, rfl⟩
  | _, _, .cons hk h h', ts', ht => by
    obtain ⟨t, y, rfl, h0, hy⟩ := kl_cons ht
    obtain ⟨x, y, rfl, hx, hy⟩ := kl_append hy
    obtain ⟨a, ha, va⟩ := reads_place h x hx
    obtain ⟨b, hb, vb⟩ := readsMore_place h' y hy
    exact ⟨a :: b, .cons (kindLit_kind h0 ▸ hk) ha hb, by simp only [evalArgs, va, vb]⟩
end

end Tpl
