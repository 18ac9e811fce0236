import Verif.Spec.Compose
import Verif.Props.Place
import Verif.Props.Concat
import Verif.Proof.Replace

/-! Property C135: the calculators compute the value of an expression from the values of its parts. -/
namespace Tpl.Props
open Tpl Tpl.Spec KwScanner Scanner
variable {V F : Type} {U : Uni} {k : KwScanner}

/-- The text is one token, of this kind. -/
def OneToken (U : Uni) (k : KwScanner) (mode : Mode) (src : Str) (t : Token) : Prop := (∃ e, Tokenizes U k src mode [t] e) ∧ bomLen src = 0

theorem lines_tokens (hk : Steps U KwScanner.zero k) {mode : Mode} : ∀ (ps : List (Str × List Token)) {a : Str} {ts : List Token},
    (∃ e, Tokenizes U k a mode ts e) → (∀ p ∈ ps, (∃ e, Tokenizes U k p.1 mode p.2 e) ∧ bomLen p.1 = 0) →
    ∃ vs e, Tokenizes U k (onLines a (ps.map (·.1))) mode vs e ∧ vs.map kindLit = (ts ++ (ps.map (·.2)).flatten).map kindLit
  | [], a, ts, ⟨e, ha⟩, _ => ⟨ts, e, ha, by simp⟩
  | p :: ps, a, ts, ⟨e, ha⟩, hp => by
    obtain ⟨⟨e1, h1⟩, hb⟩ := hp p (by simp)
    obtain ⟨vs, e2, h2, h3⟩ := lines_tokens hk ps (C122_texts hk ha h1 hb) (fun q hq => hp q (by simp [hq]))
    refine ⟨vs, e2, h2, h3.trans ?_⟩
    have e : (kindLit ∘ moveTok (a.length + 1)) = kindLit := rfl
    simp [e]

theorem tokens_unique (hk : Steps U KwScanner.zero k) {mode : Mode} {src : Str} {ts us : List Token} {e e' : Token} (h : Tokenizes U k src mode ts e)
    (h' : Tokenizes U k src mode us e') : us = ts := by
  have e1 := (tokenizes_ok hk h).1
  rw [(tokenizes_ok hk h').1] at e1
  injection e1

section
variable {C : Calc V F} {text : Str} {mode : Mode} {fuel0 : Nat} {r : CompileRet Str} {s : St (Calc.Eng V)}

theorem value_all (hp : IsPackage C text) (hr : C.client.new text mode U fuel0 = some (.ok r)) (hk : Steps U KwScanner.zero s.u.scanner)
    {a : Str} {v : V} (h : Computes C r U a s (.ok v)) {toks : List Token} {eof : Token} (ht : Tokenizes U s.u.scanner a mode toks eof)
    (hn : Calc.Counts C toks.length) {e : Ex} (he : Reads C 0 toks e) : e.eval C = .ok v := by
  obtain ⟨fuel, s', h1, h2⟩ := h
  have hroot : r.root ≠ .nil := by rw [(package_engine hp hr).1]; intro h; cases h
  have h3 := computes hp hr s hk ht he hn
  cases hv : e.eval C with
  | ok w =>
    rw [hv] at h3
    obtain ⟨f', s2, h4, h5⟩ := h3
    cases computes_unique hroot h1 h4
    rw [h2] at h5
    cases h5
    rfl
  | error c =>
    rw [hv] at h3
    obtain ⟨f', s2, g, ts, h4⟩ := h3
    cases computes_unique hroot h1 h4

/-- A text with a value is an expression with this value. -/
theorem value_reads (hp : IsPackage C text) (hr : C.client.new text mode U fuel0 = some (.ok r)) (hk : Steps U KwScanner.zero s.u.scanner)
    {a : Str} {v : V} (h : Computes C r U a s (.ok v)) :
    ∃ toks e, (∃ eof, Tokenizes U s.u.scanner a mode toks eof) ∧ Reads C 0 toks e ∧ (Calc.Counts C toks.length → e.eval C = .ok v) := by
  obtain ⟨fuel, s', h1, h2⟩ := h
  obtain ⟨toks, eof, e, ht, he⟩ := C55_only_expressions hp hr hk h1
  exact ⟨toks, e, ⟨eof, ht⟩, he, fun hn => value_all hp hr hk ⟨fuel, s', h1, h2⟩ ht hn he⟩

/-- An expression written on several lines. -/
theorem lines_computes (hp : IsPackage C text) (hr : C.client.new text mode U fuel0 = some (.ok r)) (hk : Steps U KwScanner.zero s.u.scanner)
    {a : Str} {ts : List Token} {ps : List (Str × List Token)} (ha : ∃ e, Tokenizes U s.u.scanner a mode ts e)
    (hps : ∀ p ∈ ps, (∃ e, Tokenizes U s.u.scanner p.1 mode p.2 e) ∧ bomLen p.1 = 0) {e : Ex} (he : Reads C 0 (ts ++ (ps.map (·.2)).flatten) e)
    (hn : Calc.Counts C (ts ++ (ps.map (·.2)).flatten).length) : Computes C r U (onLines a (ps.map (·.1))) s (e.eval C) := by
  obtain ⟨vs, eof, h1, h2⟩ := lines_tokens hk ps ha hps
  obtain ⟨e', he', hv⟩ := reads_place he vs h2.symm
  have hl := congrArg List.length h2
  rw [List.length_map, List.length_map] at hl
  rw [← hv]
  exact computes hp hr s hk h1 he' (hl ▸ hn)

/-- The counts of arguments that occur in a text survive the conversion to the values of the
calculator. -/
def Counted (C : Calc V F) (U : Uni) (k : KwScanner) (mode : Mode) (src : Str) : Prop := ∀ toks eof, Tokenizes U k src mode toks eof → Calc.Counts C toks.length

theorem counted_lines (hk : Steps U KwScanner.zero k) {a : Str} {ts : List Token} {ps : List (Str × List Token)} (ha : ∃ e, Tokenizes U k a mode ts e)
    (hps : ∀ p ∈ ps, (∃ e, Tokenizes U k p.1 mode p.2 e) ∧ bomLen p.1 = 0) (hn : Counted C U k mode (onLines a (ps.map (·.1)))) :
    Calc.Counts C (ts ++ (ps.map (·.2)).flatten).length := by
  obtain ⟨vs, eof, h1, h2⟩ := lines_tokens hk ps ha hps
  have hl := congrArg List.length h2
  rw [List.length_map, List.length_map] at hl
  exact hl ▸ hn vs eof h1

theorem counts_le {n m : Nat} (h : Calc.Counts C m) (hm : n ≤ m) : Calc.Counts C n := fun j hj => h j (Nat.le_trans hj hm)

/-- C135: an expression in parentheses has the value of the expression. -/
theorem C135_paren (hp : IsPackage C text) (hr : C.client.new text mode U fuel0 = some (.ok r)) (hk : Steps U KwScanner.zero s.u.scanner)
    {a : Str} {v : V} (ha : Computes C r U a s (.ok v)) (hb : bomLen a = 0) {lp rp : Str} {t t' : Token}
    (hl : OneToken U s.u.scanner mode lp t) (ht : t.kind = LPAREN) (hr' : OneToken U s.u.scanner mode rp t') (ht' : t'.kind = RPAREN)
    (hn : Counted C U s.u.scanner mode (onLines lp [a, rp])) : Computes C r U (onLines lp [a, rp]) s (.ok v) := by
  obtain ⟨ts, e, h1, h2, h3⟩ := value_reads hp hr hk ha
  have hps : ∀ p ∈ [(a, ts), (rp, [t'])], (∃ e, Tokenizes U s.u.scanner p.1 mode p.2 e) ∧ bomLen p.1 = 0 := by
    simp only [List.mem_cons, List.not_mem_nil, or_false, forall_eq_or_imp, forall_eq]
    exact ⟨⟨h1, hb⟩, hr'⟩
  have hc := counted_lines hk hl.1 hps hn
  have := lines_computes hp hr hk hl.1 hps (e := e) (.sum (.product (by simpa using .paren ht h2 ht'))) hc
  rwa [h3 (counts_le hc (by simp; omega))] at this

/-- C135: minus an expression in parentheses. -/
theorem C135_neg (hp : IsPackage C text) (hr : C.client.new text mode U fuel0 = some (.ok r)) (hk : Steps U KwScanner.zero s.u.scanner)
    {a : Str} {v : V} (ha : Computes C r U a s (.ok v)) (hb : bomLen a = 0) {op lp rp : Str} {o t t' : Token}
    (ho : OneToken U s.u.scanner mode op o) (hk' : o.kind = SUB)
    (hl : OneToken U s.u.scanner mode lp t) (ht : t.kind = LPAREN) (hr' : OneToken U s.u.scanner mode rp t') (ht' : t'.kind = RPAREN)
    (hn : Counted C U s.u.scanner mode (onLines op [lp, a, rp])) : Computes C r U (onLines op [lp, a, rp]) s (C.neg v) := by
  obtain ⟨ts, e, h1, h2, h3⟩ := value_reads hp hr hk ha
  have hps : ∀ p ∈ [(lp, [t]), (a, ts), (rp, [t'])], (∃ e, Tokenizes U s.u.scanner p.1 mode p.2 e) ∧ bomLen p.1 = 0 := by
    simp only [List.mem_cons, List.not_mem_nil, or_false, forall_eq_or_imp, forall_eq]
    exact ⟨hl, ⟨h1, hb⟩, hr'⟩
  have hc := counted_lines hk ho.1 hps hn
  have := lines_computes hp hr hk ho.1 hps (e := .neg e) (.sum (.product (by simpa using .neg hk' (.paren ht h2 ht')))) hc
  rw [Ex.eval, h3 (counts_le hc (by simp; omega))] at this
  exact this

/-- The operator that a token stands for. -/
def IsOp (C : Calc V F) (t : Token) (o : BinOp) : Prop := (t.kind = ADD ∧ o = .add) ∨ (t.kind = SUB ∧ o = .sub) ∨ (t.kind, o) ∈ C.mulOps

/-- C135: two expressions in parentheses with an operator between them. -/
theorem C135_op (hp : IsPackage C text) (hr : C.client.new text mode U fuel0 = some (.ok r)) (hk : Steps U KwScanner.zero s.u.scanner)
    {a b : Str} {v w : V} (ha : Computes C r U a s (.ok v)) (hb : bomLen a = 0) (ha' : Computes C r U b s (.ok w)) (hb' : bomLen b = 0)
    {op lp rp : Str} {t t' t2 : Token} {o : BinOp} (ho : OneToken U s.u.scanner mode op t2) (hop : IsOp C t2 o)
    (hl : OneToken U s.u.scanner mode lp t) (ht : t.kind = LPAREN) (hr' : OneToken U s.u.scanner mode rp t') (ht' : t'.kind = RPAREN)
    (hn : Counted C U s.u.scanner mode (onLines lp [a, rp, op, lp, b, rp])) : Computes C r U (onLines lp [a, rp, op, lp, b, rp]) s (C.bin o v w) := by
  obtain ⟨ts, e, h1, h2, h3⟩ := value_reads hp hr hk ha
  obtain ⟨us, e', h1', h2', h3'⟩ := value_reads hp hr hk ha'
  have hps : ∀ p ∈ [(a, ts), (rp, [t']), (op, [t2]), (lp, [t]), (b, us), (rp, [t'])], (∃ e, Tokenizes U s.u.scanner p.1 mode p.2 e) ∧ bomLen p.1 = 0 := by
    simp only [List.mem_cons, List.not_mem_nil, or_false, forall_eq_or_imp, forall_eq]
    exact ⟨⟨h1, hb⟩, hr', ho, hl, ⟨h1', hb'⟩, hr'⟩
  have hc := counted_lines hk hl.1 hps hn
  have p1 : Reads C 2 (t :: (ts ++ [t'])) e := .paren ht h2 ht'
  have p2 : Reads C 2 (t :: (us ++ [t'])) e' := .paren ht h2' ht'
  have p3 : Reads C 0 ((t :: (ts ++ [t'])) ++ t2 :: (t :: (us ++ [t']))) (.bin o e e') := by
    rcases hop with ⟨hx, rfl⟩ | ⟨hx, rfl⟩ | hx
    · exact .add (.sum (.product p1)) hx (.product p2)
    · exact .sub (.sum (.product p1)) hx (.product p2)
    · exact .sum (.mul (.product p1) hx p2)
  have := lines_computes hp hr hk hl.1 hps (e := .bin o e e') (by simpa using p3) hc
  rw [Ex.eval, h3 (counts_le hc (by simp; omega)), h3' (counts_le hc (by simp; omega))] at this
  exact this

theorem more_reads (hp : IsPackage C text) (hr : C.client.new text mode U fuel0 = some (.ok r)) (hk : Steps U KwScanner.zero s.u.scanner)
    {cm : Str} {t : Token} (hc : OneToken U s.u.scanner mode cm t) (ht : t.kind = COMMA) : ∀ (as : List (Str × V)),
    (∀ p ∈ as, Computes C r U p.1 s (.ok p.2) ∧ bomLen p.1 = 0) → ∃ (qs : List (Str × List Token)) (es : List Ex),
      qs.map (·.1) = (as.map (·.1)).flatMap (fun b => [cm, b]) ∧ (∀ q ∈ qs, (∃ e, Tokenizes U s.u.scanner q.1 mode q.2 e) ∧ bomLen q.1 = 0) ∧
      ReadsMore C (qs.map (·.2)).flatten es ∧ (Calc.Counts C (qs.map (·.2)).flatten.length → evalArgs C es = .ok (as.map (·.2)))
  | [], _ => ⟨[], [], rfl, by simp, .nil, fun _ => rfl⟩
  | p :: as, h => by
    obtain ⟨qs, es, h1, h2, h3, h4⟩ := more_reads hp hr hk hc ht as (fun q hq => h q (by simp [hq]))
    obtain ⟨hv, hb⟩ := h p (by simp)
    obtain ⟨ts, e, g1, g2, g3⟩ := value_reads hp hr hk hv
    refine ⟨(cm, [t]) :: (p.1, ts) :: qs, e :: es, by simp [h1], ?_, by simpa using .cons ht g2 h3, fun hn => ?_⟩
    · simp only [List.mem_cons, forall_eq_or_imp]
      exact ⟨hc, ⟨g1, hb⟩, h2⟩
    · simp only [evalArgs, g3 (counts_le hn (by simp; omega)), h4 (counts_le hn (by simp; omega)), Except.bind, List.map_cons]

theorem args_reads (hp : IsPackage C text) (hr : C.client.new text mode U fuel0 = some (.ok r)) (hk : Steps U KwScanner.zero s.u.scanner)
    {cm : Str} {t : Token} (hc : OneToken U s.u.scanner mode cm t) (ht : t.kind = COMMA) : ∀ (as : List (Str × V)),
    (∀ p ∈ as, Computes C r U p.1 s (.ok p.2) ∧ bomLen p.1 = 0) → ∃ (qs : List (Str × List Token)) (es : List Ex),
      qs.map (·.1) = separated cm (as.map (·.1)) ∧ (∀ q ∈ qs, (∃ e, Tokenizes U s.u.scanner q.1 mode q.2 e) ∧ bomLen q.1 = 0) ∧
      ReadsArgs C (qs.map (·.2)).flatten es ∧ (Calc.Counts C (qs.map (·.2)).flatten.length → evalArgs C es = .ok (as.map (·.2)))
  | [], _ => ⟨[], [], rfl, by simp, .nil, fun _ => rfl⟩
  | p :: as, h => by
    obtain ⟨qs, es, h1, h2, h3, h4⟩ := more_reads hp hr hk hc ht as (fun q hq => h q (by simp [hq]))
    obtain ⟨hv, hb⟩ := h p (by simp)
    obtain ⟨ts, e, g1, g2, g3⟩ := value_reads hp hr hk hv
    refine ⟨(p.1, ts) :: qs, e :: es, by simp [h1, separated], ?_, by simpa using .some g2 h3, fun hn => ?_⟩
    · simp only [List.mem_cons, forall_eq_or_imp]
      exact ⟨⟨g1, hb⟩, h2⟩
    · simp only [evalArgs, g3 (counts_le hn (by simp)), h4 (counts_le hn (by simp)), Except.bind, List.map_cons]

/-- C135: a function called with expressions gets their values, in order. -/
theorem C135_call (hp : IsPackage C text) (hr : C.client.new text mode U fuel0 = some (.ok r)) (hk : Steps U KwScanner.zero s.u.scanner)
    {as : List (Str × V)} (ha : ∀ p ∈ as, Computes C r U p.1 s (.ok p.2) ∧ bomLen p.1 = 0) {name lp cm rp : Str} {f t tc t' : Token}
    (hf : OneToken U s.u.scanner mode name f) (hi : f.kind = IDENT) (hl : OneToken U s.u.scanner mode lp t) (ht : t.kind = LPAREN)
    (hcm : OneToken U s.u.scanner mode cm tc) (htc : tc.kind = COMMA) (hr' : OneToken U s.u.scanner mode rp t') (ht' : t'.kind = RPAREN)
    (hn : Counted C U s.u.scanner mode (onLines name (lp :: (separated cm (as.map (·.1)) ++ [rp])))) :
    Computes C r U (onLines name (lp :: (separated cm (as.map (·.1)) ++ [rp]))) s (apply C f.lit (as.map (·.2))) := by
  obtain ⟨qs, es, h1, h2, h3, h4⟩ := args_reads hp hr hk hcm htc as ha
  have hps : ∀ p ∈ (lp, [t]) :: (qs ++ [(rp, [t'])]), (∃ e, Tokenizes U s.u.scanner p.1 mode p.2 e) ∧ bomLen p.1 = 0 := by
    intro p hp
    rcases List.mem_cons.mp hp with rfl | hp
    · exact hl
    · rcases List.mem_append.mp hp with hp | hp
      · exact h2 p hp
      · obtain rfl := List.mem_singleton.mp hp
        exact hr'
  have hx : ((lp, [t]) :: (qs ++ [(rp, [t'])])).map (·.1) = lp :: (separated cm (as.map (·.1)) ++ [rp]) := by simp [h1]
  rw [← hx] at hn ⊢
  have hc := counted_lines hk hf.1 hps hn
  have := lines_computes hp hr hk hf.1 hps (e := .call f es) (.sum (.product (by simpa using .call hi ht h3 ht'))) hc
  rw [Ex.eval, h4 (counts_le hc (by simp; omega))] at this
  exact this

/-- C135: a part in parentheses, or an argument of a function, may be replaced by any text with
the same value, wherever it stands. -/
theorem C135_replace (hp : IsPackage C text) (hr : C.client.new text mode U fuel0 = some (.ok r)) (hk : Steps U KwScanner.zero s.u.scanner)
    {a b : Str} {v w : V} (ha : Computes C r U a s (.ok v)) (hb : bomLen a = 0) (ha' : Computes C r U b s (.ok v)) (hb' : bomLen b = 0)
    {lp rp : Str} {t t' : Token} (hl : OneToken U s.u.scanner mode lp t) (ht : t.kind = LPAREN ∨ t.kind = COMMA) (hr' : OneToken U s.u.scanner mode rp t')
    (ht' : t'.kind = RPAREN ∨ t'.kind = COMMA) {first : Str} {pre post : List Str} (hf : ∃ ts e, Tokenizes U s.u.scanner first mode ts e)
    (hps : ∀ p ∈ pre ++ post, (∃ ts e, Tokenizes U s.u.scanner p mode ts e) ∧ bomLen p = 0)
    (hn : Counted C U s.u.scanner mode (onLines first (pre ++ lp :: a :: rp :: post)))
    (hn' : Counted C U s.u.scanner mode (onLines first (pre ++ lp :: b :: rp :: post)))
    (h : Computes C r U (onLines first (pre ++ lp :: a :: rp :: post)) s (.ok w)) :
    Computes C r U (onLines first (pre ++ lp :: b :: rp :: post)) s (.ok w) := by
  have hpack := package_ok hp
  obtain ⟨as, ea, h1, h2, -⟩ := value_reads hp hr hk ha
  obtain ⟨bs, eb, g1, g2, g3⟩ := value_reads hp hr hk ha'
  obtain ⟨fs, hf⟩ := hf
  have parts : ∀ ps : List Str, (∀ p ∈ ps, (∃ ts e, Tokenizes U s.u.scanner p mode ts e) ∧ bomLen p = 0) →
      ∃ qs : List (Str × List Token), qs.map (·.1) = ps ∧ ∀ q ∈ qs, (∃ e, Tokenizes U s.u.scanner q.1 mode q.2 e) ∧ bomLen q.1 = 0 := by
    intro ps
    induction ps with
    | nil => exact fun _ => ⟨[], rfl, by simp⟩
    | cons p ps ih =>
      intro h
      obtain ⟨qs, rfl, h2⟩ := ih (fun q hq => h q (by simp [hq]))
      obtain ⟨⟨ts, h3⟩, h4⟩ := h p (by simp)
      exact ⟨(p, ts) :: qs, rfl, List.forall_mem_cons.mpr ⟨⟨h3, h4⟩, h2⟩⟩
  obtain ⟨xs, rfl, hxs⟩ := parts pre (fun p hp => hps p (by simp [hp]))
  obtain ⟨ys, rfl, hys⟩ := parts post (fun p hp => hps p (by simp [hp]))
  have all : ∀ (c : Str) (cs : List Token), (∃ e, Tokenizes U s.u.scanner c mode cs e) → bomLen c = 0 →
      ∀ p ∈ xs ++ (lp, [t]) :: (c, cs) :: (rp, [t']) :: ys, (∃ e, Tokenizes U s.u.scanner p.1 mode p.2 e) ∧ bomLen p.1 = 0 := by
    intro c cs h h0 p hp
    rcases List.mem_append.mp hp with hp | hp
    · exact hxs p hp
    · simp only [List.mem_cons] at hp
      rcases hp with rfl | rfl | rfl | hp
      · exact hl
      · exact ⟨h, h0⟩
      · exact hr'
      · exact hys p hp
  have names : ∀ (c : Str) (cs : List Token), (xs ++ (lp, [t]) :: (c, cs) :: (rp, [t']) :: ys).map (·.1) =
      xs.map (·.1) ++ lp :: c :: rp :: ys.map (·.1) := by simp
  rw [← names a as] at hn h
  rw [← names b bs] at hn' ⊢
  have c1 := counted_lines hk hf (all a as h1 hb) hn
  have c2 := counted_lines hk hf (all b bs g1 hb') hn'
  obtain ⟨toks, e, ⟨eof, k1⟩, k2, k3⟩ := value_reads hp hr hk h
  obtain ⟨vs, eof', k4, k5⟩ := lines_tokens hk _ hf (all a as h1 hb)
  obtain rfl := tokens_unique hk k1 k4
  have hlen := congrArg List.length k5
  rw [List.length_map, List.length_map] at hlen
  have k3 := k3 (hlen ▸ c1)
  obtain ⟨e1, k6, k7⟩ := reads_place k2 _ k5
  have shape : ∀ (c : Str) (cs : List Token), fs ++ ((xs ++ (lp, [t]) :: (c, cs) :: (rp, [t']) :: ys).map (·.2)).flatten =
      (fs ++ (xs.map (·.2)).flatten) ++ t :: (cs ++ t' :: (ys.map (·.2)).flatten) := by simp
  rw [shape] at k6 c1 c2
  obtain ⟨eof2, h1'⟩ := h1
  obtain ⟨e2, k8, k9⟩ := reads_replace hpack h2 (reads_balanced hpack h2) (reads_covered hpack h2) g2 k6
    (fun x hx hy => (value_all hp hr hk ha h1' (counts_le c1 (by simp; omega)) hy).trans (g3 (counts_le c2 (by simp; omega))).symm) ht ht' rfl
  have := lines_computes hp hr hk hf (all b bs g1 hb') (e := e2) (by rw [shape]; exact k8) (by rw [shape]; exact c2)
  rwa [k9, k7, k3] at this
end

/-! ### Examples -/

/-- Texts that are one token; there may be comments. -/
theorem oneToken_of {src : Str} {t : Token} (h : (KwScanner.zero.tokenize ascii src plain).1 = ([t], none)) (hb : bomLen src = 0) :
    OneToken ascii KwScanner.zero plain src t := ⟨(tokenizes_iff (.refl _)).mp h, hb⟩
example : OneToken ascii KwScanner.zero plain (str "(") ⟨LPAREN, 0, []⟩ := oneToken_of (by decide +kernel) (by decide +kernel)
example : OneToken ascii KwScanner.zero plain (str ")") ⟨RPAREN, 0, []⟩ := oneToken_of (by decide +kernel) (by decide +kernel)
example : OneToken ascii KwScanner.zero plain (str " * // times") ⟨MUL, 1, []⟩ := oneToken_of (by decide +kernel) (by decide +kernel)
example : OneToken ascii KwScanner.zero plain (str ",") ⟨COMMA, 0, []⟩ := oneToken_of (by decide +kernel) (by decide +kernel)
example : OneToken ascii KwScanner.zero plain (str "max") ⟨IDENT, 0, str "max"⟩ := oneToken_of (by decide +kernel) (by decide +kernel)
example (L : Lits F) (f : Str → Option Rat) : IsOp (rat L f) ⟨MUL, 1, []⟩ .mul := .inr (.inr (by simp [rat, MUL]))
example (L : Lits F) (f : Str → Option Rat) (src : Str) : Counted (rat L f) ascii KwScanner.zero plain src := fun _ _ _ => rat_counts _ _ _

/-- Texts with values, and what is put together of them. -/
example : runRat (str "1 + 2 // three") [] = some (some (some 3), []) := by kernel_rfl
example : runRat (str "7 - 3") [] = some (some (some 4), []) := by kernel_rfl
example : runRat (onLines (str "(") [str "1 + 2 // three", str ")", str " * // times", str "(", str "7 - 3", str ")"]) [] = some (some (some 12), []) := by kernel_rfl
example : onLines (str "max") (str "(" :: (separated (str ",") [str "1 + 2 // three", str "7 - 3"] ++ [str ")"])) = str "max\n(\n1 + 2 // three\n,\n7 - 3\n)" := by kernel_rfl
example : runRat (str "max\n(\n1 + 2 // three\n,\n7 - 3\n)") [] = some (some (some 4), []) := by kernel_rfl

/-- On one line a comment would take in what comes behind it; and without parentheses the operators
inside and outside would mix. -/
example : runRat (str "(1 + 2 // three)") [] = none := by kernel_rfl
example : runRat (str "1 + 2 * 8 - 3") [] = some (some (some 14), []) := by kernel_rfl
example : runRat (str "(1 + 2) * (8 - 3)") [] = some (some (some 15), []) := by kernel_rfl

/-- A part replaced by another one with the same value, in the middle of an expression. -/
example : runRat (str "6 / 2") [] = some (some (some 3), []) := by kernel_rfl
example : runRat (onLines (str "10 -") [str "2 * max", str "(", str "1 + 2 // three", str ")", str "* 2"]) [] = some (some (some (-2)), []) := by kernel_rfl
example : runRat (onLines (str "10 -") [str "2 * max", str "(", str "6 / 2", str ")", str "* 2"]) [] = some (some (some (-2)), []) := by kernel_rfl
example : runRat (onLines (str "10 - max(1") [str ",", str "1 + 2 // three", str ",", str "2) * 2"]) [] = some (some (some 4), []) := by kernel_rfl
example : runRat (onLines (str "10 - max(1") [str ",", str "6 / 2", str ",", str "2) * 2"]) [] = some (some (some 4), []) := by kernel_rfl
example : (KwScanner.zero.tokenize ascii (str "2 * max") plain).1 = ([⟨INT, 0, str "2"⟩, ⟨MUL, 2, []⟩, ⟨IDENT, 4, str "max"⟩], none) := by kernel_rfl

end Tpl.Props
