import Verif.Proof.Generator

/-! The code `GenStaticCode` writes against the grammar `Cl` builds. -/
namespace Tpl.Gen
open Tpl Tpl.Spec KwScanner Tpl.Props
variable {B : Type} {mk : Marker B} {U : Uni}

/-! ### GenStaticCode -/

/-- The tables at the start. -/
def genStart (U : Uni) (src : Str) : GTab := ⟨[], [], (KwScanner.zero.tokenize U src ⟨false, true⟩).2⟩

def genRun (o : Orders) (fuel : Nat) (ts : List Token) (t0 : GTab) : Option GenRes :=
  match matchG genEnv genSem fuel genDoc ts ⟨fun _ => 0, ⟨[], t0⟩⟩ with
  | none => none
  | some (.panic p _) => some (.panic p)
  | some (.fail _ e _) => some (.err (.match_ e))
  | some (.ok n s) =>
    if n = ts.length then some (genFinish o s.u.tab) else some (.err (.match_ (mismatch .eof (ts.drop n))))

theorem gen_ok {o : Orders} {fuel : Nat} {src : Str} {ts : List Token}
    (h : (KwScanner.zero.tokenize U src ⟨false, true⟩).1 = (ts, none)) :
    genStaticCode U o fuel src = genRun o fuel ts (genStart U src) := by
  unfold genStaticCode Matcher.matchExactly
  dsimp only
  generalize hm : genMatcher (KwScanner.tokenize U .zero src ⟨false, true⟩).2 = m
  have h1 := match_eq m (by rw [← hm]; intro h; cases h) U fuel .zero src ⟨fun _ => 0, ⟨[], ⟨[], [], .zero⟩⟩⟩
  rw [show m.mode = ⟨false, true⟩ by rw [← hm]; rfl, h] at h1
  cases hr : m.match_ U fuel .zero src ⟨fun _ => 0, ⟨[], ⟨[], [], .zero⟩⟩⟩ with
  | mk r k' =>
    rw [hr] at h1
    dsimp only at h1 ⊢
    subst h1
    rw [show m.init = fun s => .ok () { s with u := ⟨[], ⟨[], [], (KwScanner.tokenize U .zero src ⟨false, true⟩).2⟩⟩ } by rw [← hm]; rfl]
    dsimp only
    rw [show m.env = genEnv by rw [← hm]; rfl, show m.sem = genSem by rw [← hm]; rfl,
      show m.grammar = genDoc by rw [← hm]; rfl]
    unfold genRun genStart
    cases he : matchG genEnv genSem fuel genDoc ts
      ⟨fun _ => 0, ⟨[], ⟨[], [], (KwScanner.tokenize U .zero src ⟨false, true⟩).2⟩⟩⟩ with
    | none => rfl
    | some r =>
      cases r with
      | panic p s => rfl
      | fail n e s => rfl
      | ok n s =>
        have hn := matchG_short _ _ _ _ _ he
        simp only [Res.Short] at hn
        dsimp only
        by_cases heq : n = ts.length
        · rw [if_pos heq, if_neg (by simp [heq])]
        · rw [if_neg heq, if_pos (by rw [List.length_drop]; omega)]

/-- A document. -/
theorem gen_doc {o : Orders} {src : Str} {ts : List Token} {eof : Token}
    (ht : Tokenizes U .zero src ⟨false, true⟩ ts eof) {rs : List Rule} (hd : IsDoc ts rs) :
    ∃ fuel, genStaticCode U o fuel src = some (match docG rs (genStart U src) with
      | .ok T => genFinish o T
      | .error p => .panic (.user p)) := by
  have h1 := (tokenizes_iff (.refl _)).mpr ⟨eof, ht⟩
  have h2 := doc_does hd ⟨[], genStart U src⟩ ⟨fun _ => 0, ⟨[], genStart U src⟩⟩ rfl
  rw [List.append_nil] at h2
  cases ho : docG rs (genStart U src) with
  | ok T =>
    rw [ho] at h2
    obtain ⟨s', ⟨f, hf⟩, hs⟩ := h2
    refine ⟨f, ?_⟩
    rw [gen_ok h1]
    unfold genRun
    rw [hf]
    dsimp only
    rw [if_pos rfl, hs]
  | error p =>
    rw [ho] at h2
    obtain ⟨q, s', ⟨f, hf⟩, rfl⟩ := h2
    refine ⟨f, ?_⟩
    rw [gen_ok h1]
    unfold genRun
    rw [hf]

/-! ### Texts -/

theorem text_name {n : Str} : (GoExpr.name n).text = n := by rw [GoExpr.text]

theorem commas_join : ∀ es : List GoExpr, joinComma (texts es) = commas (texts es)
  | [] => rfl
  | [e] => rfl
  | e :: e' :: es => by
    rw [texts, texts]
    rw [show commas (e.text :: e'.text :: texts es) = e.text ++ bytes "," ++ commas (texts (e' :: es)) by rw [texts]; rfl]
    rw [← commas_join (e' :: es)]
    rw [texts]
    rfl

/-- A sequence; one item is not wrapped. -/
def oneAnd : List GoExpr → GoExpr
  | [e] => e
  | es => .and es
def oneOrE : List GoExpr → GoExpr
  | [e] => e
  | es => .or es

theorem oneAnd_text (es : List GoExpr) : oneOr (str "tpl.And") (texts es) = (oneAnd es).text := by
  match es with
  | [] => rfl
  | [e] => rfl
  | e :: e' :: es =>
    rw [oneAnd, GoExpr.text, ← commas_join]
    · rfl
    · nofun

theorem oneOr_text (es : List GoExpr) : oneOr (str "tpl.Or") (texts es) = (oneOrE es).text := by
  match es with
  | [] => rfl
  | [e] => rfl
  | e :: e' :: es =>
    rw [oneOrE, GoExpr.text, ← commas_join]
    · rfl
    · nofun

/-! ### The meaning of code as more names come in -/

mutual
theorem makes_mono {nm nm' : Str → Option GoExpr} {vr vr' : Str → Option Nat} (hn : ∀ n e, nm n = some e → nm' n = some e)
    (hv : ∀ n i, vr n = some i → vr' n = some i) {e : GoExpr} {g : Gr B} : Makes mk nm vr e g → Makes mk nm' vr' e g
  | .var h => .var (hv _ _ h)
  | .named h h' => .named (hn _ _ h) (makes_mono hn hv h')
  | .kind h => .kind h
  | .char => .char
  | .grTrue => .grTrue
  | .nil => .nil
  | .repeat0 h => .repeat0 (makes_mono hn hv h)
  | .repeat1 h => .repeat1 (makes_mono hn hv h)
  | .repeat01 h => .repeat01 (makes_mono hn hv h)
  | .not h => .not (makes_mono hn hv h)
  | .peek h => .peek (makes_mono hn hv h)
  | .list h h' => .list (makes_mono hn hv h) (makes_mono hn hv h')
  | .list0 h h' => .list0 (makes_mono hn hv h) (makes_mono hn hv h')
  | .marker h h' => .marker (makes_mono hn hv h) h'
  | .and h => .and (makesAll_mono hn hv h)
  | .or h => .or (makesAll_mono hn hv h)
theorem makesAll_mono {nm nm' : Str → Option GoExpr} {vr vr' : Str → Option Nat} (hn : ∀ n e, nm n = some e → nm' n = some e)
    (hv : ∀ n i, vr n = some i → vr' n = some i) {es : List GoExpr} {gs : List (Gr B)} : MakesAll mk nm vr es gs → MakesAll mk nm' vr' es gs
  | .nil => .nil
  | .cons h h' => .cons (makes_mono hn hv h) (makesAll_mono hn hv h')
end

/-! ### Tables -/

/-- The code so far: what is assigned to variables (nothing yet: `none`) and rules. -/
structure Sofar where
  vars : List (Str × Option GoExpr)
  named : List (Str × GoExpr)

/-- The entry of a variable in the map `vars`. -/
def varText (p : Str × Option GoExpr) : Str :=
  match p.2 with
  | none => p.1
  | some e => call1 (p.1 ++ str ".Assign") e.text

/-- What is written for a variable against what is in the table of `Cl`. -/
def VarFits (M : GoExpr → Gr B → Prop) (p : Str × Option GoExpr) (v : Str × Option (Gr B)) : Prop :=
  p.1 = v.1 ∧
  match p.2, v.2 with
  | none, none => True
  | none, some _ => False
  | some e, none => M e .nil
  | some e, some g => M e g

inductive VarsFit (M : GoExpr → Gr B → Prop) : List (Str × Option GoExpr) → List (Str × Option (Gr B)) → Prop where
  | nil : VarsFit M [] []
  | cons {p v ps vs} : VarFits M p v → VarsFit M ps vs → VarsFit M (p :: ps) (v :: vs)

theorem VarFits.imp {M M' : GoExpr → Gr B → Prop} (h : ∀ e g, M e g → M' e g) {p : Str × Option GoExpr} {v : Str × Option (Gr B)}
    (hf : VarFits M p v) : VarFits M' p v := by
  obtain ⟨n, oe⟩ := p
  obtain ⟨n', o⟩ := v
  refine ⟨hf.1, ?_⟩
  have h2 := hf.2
  cases oe <;> cases o
  · trivial
  · exact h2
  · exact h _ _ h2
  · exact h _ _ h2

theorem VarsFit.imp {M M' : GoExpr → Gr B → Prop} (h : ∀ e g, M e g → M' e g) {ps : List (Str × Option GoExpr)}
    {vs : List (Str × Option (Gr B))} (hf : VarsFit M ps vs) : VarsFit M' ps vs := by
  induction hf with
  | nil => exact .nil
  | cons h1 _ ih => exact .cons (h1.imp h) ih

theorem VarsFit.names {M : GoExpr → Gr B → Prop} {ps : List (Str × Option GoExpr)} {vs : List (Str × Option (Gr B))}
    (hf : VarsFit M ps vs) : ps.map (·.1) = vs.map (·.1) := by
  induction hf with
  | nil => rfl
  | cons h1 _ ih => rw [List.map_cons, List.map_cons, ih, h1.1]

theorem VarsFit.snoc {M : GoExpr → Gr B → Prop} {ps : List (Str × Option GoExpr)} {vs : List (Str × Option (Gr B))}
    (hf : VarsFit M ps vs) {p : Str × Option GoExpr} {v : Str × Option (Gr B)} (h : VarFits M p v) : VarsFit M (ps ++ [p]) (vs ++ [v]) := by
  induction hf with
  | nil => exact .cons h .nil
  | cons h1 _ ih => exact .cons h1 ih

/-- The code so far against the tables of `Cl` and of `GenStaticCode`. -/
structure Rel (mk : Marker B) (t : Tab B) (τ : GTab) (P : Sofar) : Prop where
  sc : τ.scanner = t.scanner
  gr : τ.grammars = P.named.map fun p => (p.1, p.2.text)
  va : τ.vars = P.vars.map fun p => (p.1, varText p)
  gn : ∀ n, n ∈ P.named.map (·.1) ↔ n ∈ t.grammars.map (·.1)
  gd : (P.named.map (·.1)).Nodup
  gm : ∀ n e, (n, e) ∈ P.named → ∃ g, t.grammars.lookup n = some g ∧ Makes mk (P.named.lookup ·) (varNo · t.vars) e g
  vm : VarsFit (Makes mk (P.named.lookup ·) (varNo · t.vars)) P.vars t.vars

/-- More variables. -/
structure More (t t' : Tab B) (P P' : Sofar) : Prop where
  named : P'.named = P.named
  grammars : t'.grammars = t.grammars
  assigned : ∀ n e, (n, some e) ∈ P'.vars → (n, some e) ∈ P.vars
  vars : ∀ n i, varNo n t.vars = some i → varNo n t'.vars = some i

theorem More.refl {t : Tab B} {P : Sofar} : More t t P P := ⟨rfl, rfl, fun _ _ h => h, fun _ _ h => h⟩

theorem More.trans {t t' t'' : Tab B} {P P' P'' : Sofar} (h : More t t' P P') (h' : More t' t'' P' P'') : More t t'' P P'' :=
  ⟨h'.named.trans h.named, h'.grammars.trans h.grammars, fun n e he => h.assigned n e (h'.assigned n e he),
    fun n i hi => h'.vars n i (h.vars n i hi)⟩

theorem More.makes {t t' : Tab B} {P P' : Sofar} (h : More t t' P P') {e : GoExpr} {g : Gr B}
    (he : Makes mk (P.named.lookup ·) (varNo · t.vars) e g) : Makes mk (P'.named.lookup ·) (varNo · t'.vars) e g :=
  makes_mono (fun n e hn => by rw [h.named]; exact hn) h.vars he

/-- A change of the tables that does not touch names. -/
theorem Rel.same {t t' : Tab B} {τ τ' : GTab} {P : Sofar} (h : Rel mk t τ P) (h1 : τ'.scanner = t'.scanner) (h2 : τ'.grammars = τ.grammars)
    (h3 : τ'.vars = τ.vars) (h4 : t'.grammars = t.grammars) (h5 : t'.vars = t.vars) : Rel mk t' τ' P := by
  refine ⟨h1, h2.trans h.gr, h3.trans h.va, ?_, h.gd, ?_, ?_⟩
  · rw [h4]; exact h.gn
  · rw [h4, h5]; exact h.gm
  · rw [h5]; exact h.vm

theorem More.same {t t' : Tab B} {P : Sofar} (h4 : t'.grammars = t.grammars) (h5 : t'.vars = t.vars) : More t t' P P :=
  ⟨rfl, h4, fun _ _ h => h, fun n i h => by rw [h5]; exact h⟩

/-! ### Tokens -/

theorem rtokens_go : ∀ e ∈ rtokens, (isUpper e.1 = true → e.2 ≠ 0 → goConst.lookup e.1 = some e.2) ∧
    (e.1.head? = some 39 → e.1 = [39, UInt8.ofNat e.2, 39] ∧ (UInt8.ofNat e.2).toNat = e.2) := by decide +kernel

theorem lit2token_mem {lit : Str} (h : Lit2Token lit ≠ 0) : (lit, Lit2Token lit) ∈ rtokens := by
  unfold Lit2Token at *
  cases hl : rtokens.lookup lit with
  | none => rw [hl] at h; exact absurd rfl h
  | some k =>
    obtain ⟨l1, l2, h1, _⟩ := List.lookup_eq_some_iff.mp hl
    rw [h1]
    simp

theorem ltot_plain {k k' : KwScanner} {lit : Str} {n : Nat} (hq : lit.head? ≠ some 34) (h : k.ltot lit = .ok (n, k')) (hn : n ≠ 0) :
    Lit2Token lit = n := by
  unfold ltot at h
  dsimp only at h
  split at h
  · cases h; rfl
  · rename_i h0
    cases lit with
    | nil => cases h
    | cons c r =>
      dsimp only at h
      rw [if_neg (by rintro rfl; exact hq rfl)] at h
      cases h
      rfl

/-- The outcome of a piece of the generator. -/
def Codes (mk : Marker B) (t t' : Tab B) (P : Sofar) (r : Except GenPanic (Str × GTab)) (g : Gr B) : Prop :=
  ∃ e τ' P', r = .ok (e.text, τ') ∧ Rel mk t' τ' P' ∧ More t t' P P' ∧ Makes mk (P'.named.lookup ·) (varNo · t'.vars) e g

theorem token_codes {t t' : Tab B} {τ : GTab} {P : Sofar} {lit : Str} {g : Gr B} {e : GoExpr} (h : Rel mk t τ P)
    (hq : lit.head? ≠ some 34) (hd : tokenOf lit t = .ok (g, t'))
    (he : Lit2Token lit ≠ 0 → Makes mk (P.named.lookup ·) (varNo · t.vars) e (.tok (Lit2Token lit))) :
    Codes mk t t' P (tokenG lit e.text τ) g := by
  unfold tokenOf at hd
  unfold tokenG
  rw [h.sc]
  cases hl : t.scanner.ltot lit with
  | panic => rw [hl] at hd; cases hd
  | ok x =>
    obtain ⟨n, k⟩ := x
    rw [hl] at hd
    cases n with
    | zero => cases hd
    | succ n =>
      cases hd
      have := ltot_plain hq hl (by omega)
      rw [this] at he
      exact ⟨e, { τ with scanner := k }, P, rfl, h.same rfl rfl rfl rfl rfl, .same rfl rfl, he (by omega)⟩

/-- Names that are not referred to any more. -/
def Fresh (ns : List Str) (P : Sofar) : Prop := ∀ n ∈ ns, ∀ e, (n, some e) ∉ P.vars

theorem Fresh.more {t t' : Tab B} {ns : List Str} {P P' : Sofar} (h : Fresh ns P) (hm : More t t' P P') : Fresh ns P' :=
  fun n hn e he => h n hn e (hm.assigned n e he)

theorem Fresh.left {ns ns' : List Str} {P : Sofar} (h : Fresh (ns ++ ns') P) : Fresh ns P := fun n hn => h n (List.mem_append_left _ hn)
theorem Fresh.right {ns ns' : List Str} {P : Sofar} (h : Fresh (ns ++ ns') P) : Fresh ns' P := fun n hn => h n (List.mem_append_right _ hn)

theorem lookup_map {α β : Type} (f : Str × α → β) (n : Str) : ∀ l : List (Str × α),
    (l.map fun p => (p.1, f p)).lookup n = (l.lookup n).map fun a => f (n, a)
  | [] => rfl
  | p :: l => by
    obtain ⟨m, a⟩ := p
    rw [List.map_cons, List.lookup_cons, List.lookup_cons]
    cases h : n == m with
    | true => rw [beq_iff_eq] at h; subst h; rfl
    | false => exact lookup_map f n l

theorem lookup_mem {α : Type} {n : Str} {a : α} {l : List (Str × α)} (h : l.lookup n = some a) : (n, a) ∈ l := by
  obtain ⟨l1, l2, h1, _⟩ := List.lookup_eq_some_iff.mp h
  rw [h1]
  simp

theorem lookup_names {α : Type} {n : Str} {l : List (Str × α)} : l.lookup n = none ↔ n ∉ l.map (·.1) := by
  rw [List.lookup_eq_none_iff]
  constructor
  · intro h hm
    obtain ⟨p, hp, rfl⟩ := List.mem_map.mp hm
    have := h p hp
    simp at this
  · intro h p hp
    simp only [bne_iff_ne, ne_eq, beq_eq_false_iff_ne]
    rintro rfl
    exact h (List.mem_map.mpr ⟨p, hp, rfl⟩)

theorem putText_new {n v : Str} : ∀ {l : List (Str × Str)}, n ∉ l.map (·.1) → putText n v l = l ++ [(n, v)]
  | [], _ => rfl
  | p :: l, h => by
    simp only [List.map_cons, List.mem_cons, not_or] at h
    rw [putText, if_neg (fun e => h.1 e.symm), putText_new h.2]
    rfl

theorem varNo_append {n : Str} {i : Nat} {ws : List (Str × Option (Gr B))} : ∀ {vs : List (Str × Option (Gr B))}, varNo n vs = some i →
    varNo n (vs ++ ws) = some i := by
  intro vs
  induction vs generalizing i with
  | nil => intro h; cases h
  | cons v vs ih =>
    intro h
    rw [varNo] at h
    rw [List.cons_append, varNo]
    by_cases hne : v.1 = n
    · rw [if_pos hne] at h ⊢; exact h
    · rw [if_neg hne] at h ⊢
      cases hv : varNo n vs with
      | none => rw [hv] at h; cases h
      | some j => rw [hv] at h; rw [ih hv]; exact h

theorem varNo_new {n : Str} {o : Option (Gr B)} : ∀ {vs : List (Str × Option (Gr B))}, varNo n vs = none →
    varNo n (vs ++ [(n, o)]) = some vs.length := by
  intro vs
  induction vs with
  | nil => intro _; simp [varNo]
  | cons v vs ih =>
    intro h
    rw [varNo] at h
    rw [List.cons_append, varNo]
    by_cases hne : v.1 = n
    · rw [if_pos hne] at h; cases h
    · rw [if_neg hne] at h ⊢
      cases hv : varNo n vs with
      | some j => rw [hv] at h; cases h
      | none => rw [ih hv]; rfl

theorem Rel.lookup_named {t : Tab B} {τ : GTab} {P : Sofar} (h : Rel mk t τ P) (n : Str) :
    τ.grammars.lookup n = (P.named.lookup n).map GoExpr.text := by
  rw [h.gr]
  exact lookup_map (fun p : Str × GoExpr => p.2.text) n _

theorem Rel.lookup_vars {t : Tab B} {τ : GTab} {P : Sofar} (h : Rel mk t τ P) (n : Str) :
    τ.vars.lookup n = (P.vars.lookup n).map fun o => varText (n, o) := by
  rw [h.va]
  exact lookup_map varText n _

theorem name_codes {t t' : Tab B} {τ : GTab} {P : Sofar} {n : Str} {g : Gr B} (h : Rel mk t τ P)
    (ht : n ≠ bytes "true") (hf : Fresh (Fac.refs (.ident n)) P) (hd : nameOf n t = .ok (g, t')) :
    Codes mk t t' P (nameG n τ) g := by
  unfold nameOf at hd
  unfold nameG
  by_cases h0 : n = []
  · rw [if_pos h0] at hd; cases hd
  rw [if_neg h0] at hd ⊢
  by_cases hu : isUpper n = true
  · rw [if_pos hu] at hd ⊢
    have hq : n.head? ≠ some 34 := by
      cases n with
      | nil => simp
      | cons c r => intro hc; cases hc; exact absurd hu (by simp [isUpper])
    have := token_codes (e := .kind n) h hq hd (fun hk => .kind ((rtokens_go _ (lit2token_mem hk)).1 hu hk))
    rw [GoExpr.text] at this
    rw [show call1 (str "tpl.Gr") (str "tpl." ++ n) = bytes "tpl.Gr(tpl." ++ n ++ bytes ")" by rfl]
    exact this
  · rw [if_neg hu] at hd ⊢
    rw [Fac.refs, if_neg hu] at hf
    rw [h.lookup_named, h.lookup_vars]
    have hnames := h.vm.names
    cases hg : P.named.lookup n with
    | some e =>
      obtain ⟨g2, hg2, hm⟩ := h.gm n e (lookup_mem hg)
      rw [hg2] at hd
      cases hd
      exact ⟨.name n, τ, P, by rw [text_name]; rfl, h, .refl, .named hg hm⟩
    | none =>
      have hn1 : t.grammars.lookup n = none := lookup_none.mpr (fun hm => lookup_names.mp hg ((h.gn n).mpr hm))
      rw [hn1] at hd
      cases hv : P.vars.lookup n with
      | some o =>
        have : o = none := by
          cases o with
          | none => rfl
          | some e => exact absurd (lookup_mem hv) (hf n (.head _) e)
        subst this
        cases hi : varNo n t.vars with
        | none =>
          have := varNo_none.mp hi
          rw [← hnames] at this
          rw [lookup_names.mpr this] at hv
          cases hv
        | some i =>
          rw [hi] at hd
          cases hd
          exact ⟨.name n, τ, P, by rw [text_name]; rfl, h, .refl, .var hi⟩
      | none =>
        have hn2 : varNo n t.vars = none := by
          rw [varNo_none, ← hnames]
          exact lookup_names.mp hv
        rw [hn2] at hd
        dsimp only at hd
        rw [if_neg ht] at hd
        dsimp only [Option.map]
        rw [if_neg ht]
        cases hd
        have hmore : More t { t with vars := t.vars ++ [(n, none)] } P { P with vars := P.vars ++ [(n, none)] } := by
          refine ⟨rfl, rfl, ?_, fun m i hm => varNo_append hm⟩
          intro m e hm
          rcases List.mem_append.mp hm with hm | hm
          · exact hm
          · simp at hm
        have hpt : putText n n τ.vars = τ.vars ++ [(n, n)] := putText_new (by
          rw [h.va, List.map_map]
          exact lookup_names.mp hv)
        refine ⟨.name n, _, { P with vars := P.vars ++ [(n, none)] }, by rw [text_name], ?_, hmore, .var (varNo_new hn2)⟩
        refine ⟨h.sc, h.gr, ?_, h.gn, h.gd, ?_, ?_⟩
        · dsimp only
          rw [hpt, h.va, List.map_append]
          rfl
        · intro m e hm
          obtain ⟨g2, h1, h2⟩ := h.gm m e hm
          exact ⟨g2, h1, hmore.makes h2⟩
        · exact (h.vm.imp fun _ _ hm => hmore.makes hm).snoc ⟨rfl, trivial⟩

/-! ### Trees -/

/-- Characters are in quotes. -/
def CharsOk (l : List (Nat × Str)) : Prop := ∀ x ∈ l, x.1 = CHAR → x.2.head? = some 39

theorem CharsOk.left {l l' : List (Nat × Str)} (h : CharsOk (l ++ l')) : CharsOk l := fun x hx => h x (List.mem_append_left _ hx)
theorem CharsOk.right {l l' : List (Nat × Str)} (h : CharsOk (l ++ l')) : CharsOk l' := fun x hx => h x (List.mem_append_right _ hx)
theorem CharsOk.tail {x : Nat × Str} {l : List (Nat × Str)} (h : CharsOk (x :: l)) : CharsOk l := fun y hy => h y (.tail _ hy)

/-- The same for lists. -/
def CodesAll (mk : Marker B) (t t' : Tab B) (P : Sofar) (r : Except GenPanic (List Str × GTab)) (gs : List (Gr B)) : Prop :=
  ∃ es τ' P', r = .ok (texts es, τ') ∧ Rel mk t' τ' P' ∧ More t t' P P' ∧ MakesAll mk (P'.named.lookup ·) (varNo · t'.vars) es gs

theorem More.makesAll {t t' : Tab B} {P P' : Sofar} (h : More t t' P P') {es : List GoExpr} {gs : List (Gr B)}
    (he : MakesAll mk (P.named.lookup ·) (varNo · t.vars) es gs) : MakesAll mk (P'.named.lookup ·) (varNo · t'.vars) es gs :=
  makesAll_mono (fun n e hn => by rw [h.named]; exact hn) h.vars he

theorem makes_and {nm : Str → Option GoExpr} {vr : Str → Option Nat} {es : List GoExpr} {gs : List (Gr B)} (h : MakesAll mk nm vr es gs) :
    Makes mk nm vr (oneAnd es) (oneOrAnd gs) := by
  cases h with
  | nil => exact .and .nil
  | cons h1 h2 =>
    cases h2 with
    | nil => exact h1
    | cons h3 h4 => exact .and (.cons h1 (.cons h3 h4))

theorem makes_or {nm : Str → Option GoExpr} {vr : Str → Option Nat} {es : List GoExpr} {gs : List (Gr B)} (h : MakesAll mk nm vr es gs) :
    Makes mk nm vr (oneOrE es) (oneOrOr gs) := by
  cases h with
  | nil => exact .or .nil
  | cons h1 h2 =>
    cases h2 with
    | nil => exact h1
    | cons h3 h4 => exact .or (.cons h1 (.cons h3 h4))

theorem Rel.bump {t : Tab B} {τ : GTab} {P : Sofar} (h : Rel mk t τ P) : Rel mk { t with cells := t.cells + 1 } τ P :=
  h.same h.sc rfl rfl rfl rfl

theorem More.bump {t : Tab B} {P : Sofar} : More t { t with cells := t.cells + 1 } P P := .same rfl rfl

/-- An operator before a factor. -/
theorem prefix_codes {t : Tab B} {P : Sofar} {r : Except GenPanic (Str × GTab)} {y : Gr B × Tab B} {t' : Tab B} {g : Gr B} {f : Str}
    {c : GoExpr → GoExpr} (h : Codes mk t y.2 P r y.1) (hc : ∀ e, call1 f e.text = (c e).text)
    (ht : t' = y.2 ∨ t' = { y.2 with cells := y.2.cells + 1 })
    (hm : ∀ nm vr e, Makes mk nm vr e y.1 → Makes mk nm vr (c e) g) :
    Codes mk t t' P (r.bind fun x => .ok (call1 f x.1, x.2)) g := by
  obtain ⟨e, τ', P', rfl, h1, h2, h3⟩ := h
  refine ⟨c e, τ', P', by rw [← hc]; rfl, ?_, ?_, ?_⟩
  · rcases ht with rfl | rfl
    · exact h1
    · exact h1.bump
  · rcases ht with rfl | rfl
    · exact h2
    · exact h2.trans .bump
  · rcases ht with rfl | rfl
    · exact hm _ _ _ h3
    · exact hm _ _ _ h3

mutual
theorem fac_codes : ∀ (f : Fac) {t t' : Tab B} {τ : GTab} {P : Sofar} {g : Gr B}, f.mild = true → CharsOk f.flat → Rel mk t τ P →
    Fresh f.refs P → f.den mk t = .ok (g, t') → Codes mk t t' P (f.gen τ) g
  | .ident n, t, t', τ, P, g, hm, hc, h, hf, hd => by
    rw [Fac.mild, decide_eq_true_iff] at hm
    exact name_codes h hm hf hd
  | .char l, t, t', τ, P, g, hm, hc, h, hf, hd => by
    have hq : l.head? = some 39 := hc (CHAR, l) (.head _) rfl
    have := token_codes (e := .char l) h (by rw [hq]; decide) hd (fun hk => by
      obtain ⟨h1, h2⟩ := (rtokens_go _ (lit2token_mem hk)).2 hq
      dsimp only at h1 h2
      have := Makes.char (mk := mk) (named := (P.named.lookup ·)) (var := (varNo · t.vars)) (c := UInt8.ofNat (Lit2Token l))
      rw [← h1, h2] at this
      exact this)
    rw [GoExpr.text] at this
    exact this
  | .int l, t, t', τ, P, g, hm, hc, h, hf, hd => by
    rw [Fac.den] at hd
    rw [Fac.gen]
    by_cases hl : l = bytes "1"
    · rw [if_pos hl] at hd ⊢
      cases hd
      exact ⟨.grTrue, τ, P, by rw [GoExpr.text]; rfl, h, .refl, .grTrue⟩
    · rw [if_neg hl] at hd; cases hd
  | .rep0 f, t, t', τ, P, g, hm, hc, h, hf, hd => by
    obtain ⟨y, h1, h2⟩ := bind_ok hd
    cases h2
    exact prefix_codes (c := .repeat0) (fac_codes f hm hc.tail h hf h1) (fun e => by rw [GoExpr.text]; rfl) (.inr rfl) (fun _ _ _ => .repeat0)
  | .rep01 f, t, t', τ, P, g, hm, hc, h, hf, hd => by
    obtain ⟨y, h1, h2⟩ := bind_ok hd
    cases h2
    exact prefix_codes (c := .repeat01) (fac_codes f hm hc.tail h hf h1) (fun e => by rw [GoExpr.text]; rfl) (.inr rfl) (fun _ _ _ => .repeat01)
  | .not f, t, t', τ, P, g, hm, hc, h, hf, hd => by
    obtain ⟨y, h1, h2⟩ := bind_ok hd
    cases h2
    exact prefix_codes (c := .not) (fac_codes f hm hc.tail h hf h1) (fun e => by rw [GoExpr.text]; rfl) (.inl rfl) (fun _ _ _ => .not)
  | .peek f, t, t', τ, P, g, hm, hc, h, hf, hd => by
    obtain ⟨y, h1, h2⟩ := bind_ok hd
    cases h2
    exact prefix_codes (c := .peek) (fac_codes f hm hc.tail h hf h1) (fun e => by rw [GoExpr.text]; rfl) (.inl rfl) (fun _ _ _ => .peek)
  | .paren a, t, t', τ, P, g, hm, hc, h, hf, hd => by
    obtain ⟨y, h1, h2⟩ := bind_ok hd
    cases h2
    obtain ⟨es, τ', P', h3, h4, h5, h6⟩ := alts_codes a hm (by rw [Fac.flat] at hc; exact hc.tail.left) h hf h1
    refine ⟨oneOrE es, τ', P', ?_, h4, h5, makes_or h6⟩
    rw [Fac.gen, h3, ← oneOr_text]
    rfl
  | .string l, t, t', τ, P, g, hm, hc, h, hf, hd => by cases hm
  | .rep1 f, t, t', τ, P, g, hm, hc, h, hf, hd => by cases hm

theorem sufs_codes : ∀ (s : Sufs) {t t' : Tab B} {τ : GTab} {P : Sofar} {a : Gr B} {e : GoExpr} {g : Gr B}, s.mild = true → CharsOk s.flat →
    Rel mk t τ P → Fresh s.refs P → Makes mk (P.named.lookup ·) (varNo · t.vars) e a → s.den mk a t = .ok (g, t') →
    Codes mk t t' P (s.gen e.text τ) g
  | .nil, t, t', τ, P, a, e, g, hm, hc, h, hf, he, hd => by
    cases hd
    exact ⟨e, τ, P, rfl, h, .refl, he⟩
  | .list f r, t, t', τ, P, a, e, g, hm, hc, h, hf, he, hd => by
    obtain ⟨y, h1, h2⟩ := bind_ok hd
    rw [Sufs.mild, Bool.and_eq_true] at hm
    rw [Sufs.flat] at hc
    obtain ⟨e1, τ1, P1, h3, h4, h5, h6⟩ := fac_codes f hm.1 hc.tail.left h hf.left h1
    obtain ⟨e2, τ2, P2, h7, h8, h9, h10⟩ := sufs_codes r (e := .list e e1) hm.2 hc.tail.right h4.bump (hf.right.more h5)
      (.list (h5.makes he) h6) h2
    refine ⟨e2, τ2, P2, ?_, h8, (h5.trans .bump).trans h9, h10⟩
    rw [← h7, Sufs.gen, h3, GoExpr.text]
    dsimp only [Except.bind]
    rw [show call1 (str "tpl.List") (e.text ++ str "," ++ e1.text) = bytes "tpl.List(" ++ (e.text ++ bytes "," ++ e1.text) ++ bytes ")" by rfl]
    simp only [List.append_assoc]
  | .list0 f r, t, t', τ, P, a, e, g, hm, hc, h, hf, he, hd => by
    obtain ⟨y, h1, h2⟩ := bind_ok hd
    rw [Sufs.mild, Bool.and_eq_true] at hm
    rw [Sufs.flat] at hc
    obtain ⟨e1, τ1, P1, h3, h4, h5, h6⟩ := fac_codes f hm.1 hc.tail.left h hf.left h1
    obtain ⟨e2, τ2, P2, h7, h8, h9, h10⟩ := sufs_codes r (e := .list0 e e1) hm.2 hc.tail.right h4.bump (hf.right.more h5)
      (.list0 (h5.makes he) h6) h2
    refine ⟨e2, τ2, P2, ?_, h8, (h5.trans .bump).trans h9, h10⟩
    rw [← h7, Sufs.gen, h3, GoExpr.text]
    dsimp only [Except.bind]
    rw [show call1 (str "tpl.List0") (e.text ++ str "," ++ e1.text) = bytes "tpl.List0(" ++ (e.text ++ bytes "," ++ e1.text) ++ bytes ")" by rfl]
    simp only [List.append_assoc]
  | .mark n r, t, t', τ, P, a, e, g, hm, hc, h, hf, he, hd => by
    rw [Sufs.den] at hd
    rw [Sufs.flat] at hc
    cases hmk : mk a n with
    | error x => rw [hmk] at hd; cases hd
    | ok g1 =>
      rw [hmk] at hd
      obtain ⟨e2, τ2, P2, h7, h8, h9, h10⟩ := sufs_codes r (e := .marker e n) hm hc.tail.tail h hf (.marker he hmk) hd
      refine ⟨e2, τ2, P2, ?_, h8, h9, h10⟩
      rw [← h7, Sufs.gen, GoExpr.text]
      rw [show call1 (str "cmplr.Marker") (e.text ++ str ",\"" ++ n ++ str "\"") = bytes "cmplr.Marker(" ++ (e.text ++ bytes ",\"" ++ n ++ bytes "\"") ++ bytes ")" by rfl]
      rw [show bytes "\")" = bytes "\"" ++ bytes ")" by rfl]
      simp only [List.append_assoc]

theorem item_codes : ∀ (i : Item) {t t' : Tab B} {τ : GTab} {P : Sofar} {g : Gr B}, i.mild = true → CharsOk i.flat → Rel mk t τ P →
    Fresh i.refs P → i.den mk t = .ok (g, t') → Codes mk t t' P (i.gen τ) g
  | .term f s, t, t', τ, P, g, hm, hc, h, hf, hd => by
    obtain ⟨y, h1, h2⟩ := bind_ok hd
    rw [Item.mild, Bool.and_eq_true] at hm
    rw [Item.flat] at hc
    obtain ⟨e1, τ1, P1, h3, h4, h5, h6⟩ := fac_codes f hm.1 hc.left h hf.left h1
    obtain ⟨e2, τ2, P2, h7, h8, h9, h10⟩ := sufs_codes s hm.2 hc.right h4 (hf.right.more h5) h6 h2
    refine ⟨e2, τ2, P2, ?_, h8, h5.trans h9, h10⟩
    rw [← h7, Item.gen, h3]
    rfl
  | .cut, t, t', τ, P, g, hm, hc, h, hf, hd => by
    cases hd
    exact ⟨.nil, τ, P, by rw [GoExpr.text]; rfl, h, .refl, .nil⟩

theorem seq_codes : ∀ (s : ItemSeq) {t t' : Tab B} {τ : GTab} {P : Sofar} {gs : List (Gr B)}, s.mild = true → CharsOk s.flat → Rel mk t τ P →
    Fresh s.refs P → s.den mk t = .ok (gs, t') → CodesAll mk t t' P (s.gen τ) gs
  | .nil, t, t', τ, P, g, hm, hc, h, hf, hd => by
    cases hd
    exact ⟨[], τ, P, by rw [texts]; rfl, h, .refl, .nil⟩
  | .cons i r, t, t', τ, P, g, hm, hc, h, hf, hd => by
    obtain ⟨y, h1, h2⟩ := bind_ok hd
    obtain ⟨z, h2', hz⟩ := bind_ok h2
    cases hz
    rw [ItemSeq.mild, Bool.and_eq_true] at hm
    rw [ItemSeq.flat] at hc
    obtain ⟨e1, τ1, P1, h3, h4, h5, h6⟩ := item_codes i hm.1 hc.left h hf.left h1
    obtain ⟨es, τ2, P2, h7, h8, h9, h10⟩ := seq_codes r hm.2 hc.right h4 (hf.right.more h5) h2'
    refine ⟨e1 :: es, τ2, P2, ?_, h8, h5.trans h9, .cons (h9.makes h6) h10⟩
    rw [ItemSeq.gen, h3]
    dsimp only [Except.bind]
    rw [h7, texts]

theorem alts_codes : ∀ (a : Alts) {t t' : Tab B} {τ : GTab} {P : Sofar} {gs : List (Gr B)}, a.mild = true → CharsOk a.flat → Rel mk t τ P →
    Fresh a.refs P → a.den mk t = .ok (gs, t') → CodesAll mk t t' P (a.gen τ) gs
  | .one i is, t, t', τ, P, g, hm, hc, h, hf, hd => by
    obtain ⟨y, h1, h2⟩ := bind_ok hd
    obtain ⟨z, h2', hz⟩ := bind_ok h2
    cases hz
    rw [Alts.mild, Bool.and_eq_true] at hm
    rw [Alts.flat] at hc
    obtain ⟨e1, τ1, P1, h3, h4, h5, h6⟩ := item_codes i hm.1 hc.left h hf.left h1
    obtain ⟨es, τ2, P2, h7, h8, h9, h10⟩ := seq_codes is hm.2 hc.right h4 (hf.right.more h5) h2'
    refine ⟨[oneAnd (e1 :: es)], τ2, P2, ?_, h8, h5.trans h9, .cons (makes_and (.cons (h9.makes h6) h10)) .nil⟩
    rw [Alts.gen, h3]
    dsimp only [Except.bind]
    rw [h7, texts, texts, ← oneAnd_text, texts]
  | .alt i is r, t, t', τ, P, g, hm, hc, h, hf, hd => by
    obtain ⟨y, h1, h2⟩ := bind_ok hd
    obtain ⟨z, h2', hz⟩ := bind_ok h2
    obtain ⟨w, h2'', hz⟩ := bind_ok hz
    cases hz
    rw [Alts.mild, Bool.and_eq_true, Bool.and_eq_true] at hm
    rw [Alts.flat] at hc
    obtain ⟨e1, τ1, P1, h3, h4, h5, h6⟩ := item_codes i hm.1.1 hc.left.left h hf.left.left h1
    obtain ⟨es, τ2, P2, h7, h8, h9, h10⟩ := seq_codes is hm.1.2 hc.left.right h4 (hf.left.right.more h5) h2'
    obtain ⟨es', τ3, P3, h11, h12, h13, h14⟩ := alts_codes r hm.2 hc.right.tail h8 (hf.right.more (h5.trans h9)) h2''
    refine ⟨oneAnd (e1 :: es) :: es', τ3, P3, ?_, h12, (h5.trans h9).trans h13,
      .cons (h13.makes (makes_and (.cons (h9.makes h6) h10))) h14⟩
    rw [Alts.gen, h3]
    dsimp only [Except.bind]
    rw [h7]
    dsimp only
    rw [h11]
    dsimp only
    rw [texts, ← oneAnd_text, texts]
end

/-! ### Rules -/

theorem varNo_names {m : Str} : ∀ {vs ws : List (Str × Option (Gr B))}, vs.map (·.1) = ws.map (·.1) → varNo m vs = varNo m ws
  | [], [], _ => rfl
  | [], _ :: _, h => by cases h
  | _ :: _, [], h => by cases h
  | v :: vs, w :: ws, h => by
    injection h with h1 h2
    rw [varNo, varNo, varNo_names h2, show v.1 = w.1 from h1]

theorem VarsFit.put {M : GoExpr → Gr B → Prop} {ps : List (Str × Option GoExpr)} {vs : List (Str × Option (Gr B))} (h : VarsFit M ps vs)
    {n : Str} {i : Nat} {e : GoExpr} {o : Option (Gr B)} (hi : varNo n vs = some i) (ho : VarFits M (n, some e) (n, o)) :
    ∃ ps' : List (Str × Option GoExpr), putText n (call1 (n ++ str ".Assign") e.text) (ps.map fun p => (p.1, varText p)) = ps'.map (fun p => (p.1, varText p)) ∧
      VarsFit M ps' (vs.set i (n, o)) ∧ ∀ m e', (m, some e') ∈ ps' → (m, some e') ∈ ps ∨ m = n := by
  induction h generalizing i with
  | nil => cases hi
  | @cons p v ps vs h1 h2 ih =>
    rw [varNo] at hi
    by_cases hv : v.1 = n
    · rw [if_pos hv] at hi
      cases hi
      refine ⟨(n, some e) :: ps, ?_, .cons ho h2, ?_⟩
      · rw [List.map_cons, putText, if_pos (by rw [h1.1]; exact hv)]
        rfl
      · intro m e' hm
        cases hm with
        | head => exact .inr rfl
        | tail _ hm => exact .inl (.tail _ hm)
    · rw [if_neg hv] at hi
      cases hj : varNo n vs with
      | none => rw [hj] at hi; cases hi
      | some j =>
        rw [hj] at hi
        cases hi
        obtain ⟨ps', h3, h4, h5⟩ := ih hj
        refine ⟨p :: ps', ?_, .cons h1 h4, ?_⟩
        · rw [List.map_cons, putText, if_neg (by rw [h1.1]; exact hv), h3]
          rfl
        · intro m e' hm
          cases hm with
          | head => exact .inl (.head _)
          | tail _ hm =>
            rcases h5 m e' hm with h | h
            · exact .inl (.tail _ h)
            · exact .inr h

theorem lookup_append_some {α : Type} {n : Str} {a : α} {l l' : List (Str × α)} (h : l.lookup n = some a) : (l ++ l').lookup n = some a := by
  induction l with
  | nil => cases h
  | cons p l ih =>
    rw [List.lookup_cons] at h
    rw [List.cons_append, List.lookup_cons]
    cases hb : n == p.1 with
    | true => rw [hb] at h; exact h
    | false => rw [hb] at h; exact ih h

theorem define_codes {t t' : Tab B} {τ : GTab} {P : Sofar} {n : Str} {e : GoExpr} {g : Gr B} (h : Rel mk t τ P)
    (he : Makes mk (P.named.lookup ·) (varNo · t.vars) e g) (hd : define n g t = .ok t') :
    ∃ τ' P', defineG n e.text τ = .ok τ' ∧ Rel mk t' τ' P' ∧
      ∀ m e', (m, some e') ∈ P'.vars → (m, some e') ∈ P.vars ∨ (m = n ∧ n ∈ t.used) := by
  unfold define at hd
  unfold defineG
  rw [h.lookup_named, h.lookup_vars]
  cases hv : varNo n t.vars with
  | some i =>
    rw [hv] at hd
    obtain ⟨o, ho⟩ := varNo_some hv
    have hu : n ∈ t.used := by
      refine Classical.byContradiction fun hu => ?_
      rw [varNo_none.mpr hu] at hv
      cases hv
    cases hl : P.vars.lookup n with
    | none =>
      have := lookup_names.mp hl
      rw [h.vm.names] at this
      exact absurd hu this
    | some oe =>
      dsimp only at hd
      rw [ho] at hd
      -- both outcomes of `define` are a `set`
      have key : ∀ o', VarFits (Makes mk (P.named.lookup ·) (varNo · t.vars)) (n, some e) (n, o') →
          t' = { t with vars := t.vars.set i (n, o') } →
          ∃ τ' P', (Except.ok { τ with vars := putText n (call1 (n ++ str ".Assign") e.text) τ.vars } : Except GenPanic GTab) = .ok τ' ∧ Rel mk t' τ' P' ∧
            ∀ m e', (m, some e') ∈ P'.vars → (m, some e') ∈ P.vars ∨ (m = n ∧ n ∈ t.used) := by
        rintro o' hfit rfl
        obtain ⟨ps', h1, h2, h3⟩ := h.vm.put hv hfit
        have hnm : (t.vars.set i (n, o')).map (·.1) = t.vars.map (·.1) := set_keys ho
        refine ⟨_, { P with vars := ps' }, rfl, ?_, ?_⟩
        · refine ⟨h.sc, h.gr, ?_, h.gn, h.gd, ?_, ?_⟩
          · dsimp only
            rw [h.va, h1]
          · intro m e1 hm
            obtain ⟨g1, h4, h5⟩ := h.gm m e1 hm
            exact ⟨g1, h4, makes_mono (fun _ _ h => h) (fun m j hj => by rw [varNo_names hnm]; exact hj) h5⟩
          · exact h2.imp fun e1 g1 h5 => makes_mono (fun _ _ h => h) (fun m j hj => by rw [varNo_names hnm]; exact hj) h5
        · intro m e' hm
          rcases h3 m e' hm with h | h
          · exact .inl h
          · exact .inr ⟨h, hu⟩
      cases o with
      | some g' => cases hd
      | none =>
        by_cases hg : g = .nil
        · subst hg
          cases hd
          refine key none ⟨rfl, he⟩ ?_
          have : t.vars.set i (n, none) = t.vars := by
            obtain ⟨hi, h1⟩ := List.getElem?_eq_some_iff.mp ho
            rw [← h1]
            simp
          rw [this]
        · refine key (some g) ⟨rfl, he⟩ ?_
          cases g <;> first | exact absurd rfl hg | (cases hd; rfl)
  | none =>
    rw [hv] at hd
    have hu := varNo_none.mp hv
    rw [← h.vm.names] at hu
    rw [lookup_names.mpr hu]
    cases hl : t.grammars.lookup n with
    | some g' => rw [hl] at hd; cases hd
    | none =>
      rw [hl] at hd
      have hn : n ∉ P.named.map (·.1) := fun hm => lookup_none.mp hl ((h.gn n).mp hm)
      rw [lookup_names.mpr hn]
      cases hd
      have hpt : putText n e.text τ.grammars = τ.grammars ++ [(n, e.text)] := putText_new (by
        rw [h.gr, List.map_map]
        exact hn)
      have hmono : ∀ {e1 : GoExpr} {g1 : Gr B}, Makes mk (P.named.lookup ·) (varNo · t.vars) e1 g1 →
          Makes mk ((P.named ++ [(n, e)]).lookup ·) (varNo · t.vars) e1 g1 :=
        fun h1 => makes_mono (fun m e1 hm => lookup_append_some hm) (fun _ _ h => h) h1
      refine ⟨_, { P with named := P.named ++ [(n, e)] }, rfl, ?_, fun m e' hm => .inl hm⟩
      refine ⟨h.sc, ?_, h.va, ?_, ?_, ?_, ?_⟩
      · dsimp only
        rw [hpt, h.gr, List.map_append]
        rfl
      · intro m
        have := h.gn m
        simp only [List.map_append, List.map_cons, List.map_nil, List.mem_append, List.mem_cons, List.not_mem_nil, or_false] at this ⊢
        rw [this]
        exact Or.comm
      · rw [List.map_append, List.nodup_append]
        refine ⟨h.gd, by simp, ?_⟩
        intro a ha b hb
        simp only [List.map_cons, List.map_nil, List.mem_cons, List.not_mem_nil, or_false] at hb
        rintro rfl
        exact hn (hb ▸ ha)
      · intro m e1 hm
        rcases List.mem_append.mp hm with hm | hm
        · obtain ⟨g1, h4, h5⟩ := h.gm m e1 hm
          refine ⟨g1, ?_, hmono h5⟩
          rw [List.lookup_cons]
          have : (m == n) = false := by
            rw [beq_eq_false_iff_ne]
            intro hmn
            exact hn (List.mem_map.mpr ⟨(m, e1), hm, hmn⟩)
          rw [this]
          exact h4
        · simp only [List.mem_cons, List.not_mem_nil, or_false, Prod.mk.injEq] at hm
          obtain ⟨rfl, rfl⟩ := hm
          exact ⟨g, by simp, hmono he⟩
      · exact h.vm.imp fun e1 g1 h5 => hmono h5

theorem doc_codes (rs : List Rule) : ∀ (pre : List Rule) (t t' : Tab B) (τ : GTab) (P : Sofar),
    (∀ r ∈ rs, r.body.mild = true) → CharsOk (flatDoc rs) →
    (∀ pre' r post, pre ++ rs = pre' ++ r :: post → r.name ∈ refsDoc (pre' ++ [r]) → r.name ∉ refsDoc post) →
    (∀ n ∈ t.used, n ∈ refsDoc pre) → Rel mk t τ P → Fresh (refsDoc rs) P → denDoc mk rs t = .ok t' →
    ∃ τ' P', docG rs τ = .ok τ' ∧ Rel mk t' τ' P' := by
  induction rs with
  | nil =>
    intro pre t t' τ P _ _ _ _ h _ hd
    cases hd
    exact ⟨τ, P, rfl, h⟩
  | cons r rs ih =>
    intro pre t t' τ P hm hc ho hu h hf hd
    obtain ⟨t1, hd1, hd2⟩ := bind_ok hd
    obtain ⟨x, hd3, hd4⟩ := bind_ok hd1
    have hc1 : CharsOk r.body.flat := by
      intro y hy
      refine hc y (List.mem_flatten.mpr ⟨r.flat, by simp, ?_⟩)
      rw [Rule.flat]
      simp [hy]
    have hf1 : Fresh (r.body.refs ++ refsDoc rs) P := by
      intro n hn
      exact hf n (by simpa [refsDoc] using hn)
    obtain ⟨es, τ1, P1, h1, h2, h3, h4⟩ := alts_codes r.body (hm r (.head _)) hc1 h hf1.left hd3
    obtain ⟨τ2, P2, h5, h6, h7⟩ := define_codes (e := oneOrE es) h2 (makes_or h4) hd4
    have hnames := alts_names r.body hd3
    have hused : ∀ n ∈ x.2.used, n ∈ refsDoc (pre ++ [r]) := by
      intro n hn
      rcases hnames.from_ n hn with h | h
      · have := hu n h
        simp only [refsDoc, List.map_append, List.flatten_append, List.mem_append]
        exact .inl this
      · simp only [refsDoc, List.map_append, List.flatten_append, List.mem_append]
        exact .inr (by simpa using h)
    have hused' : ∀ n ∈ t1.used, n ∈ refsDoc (pre ++ [r]) := by
      intro n hn
      have : t1.used = x.2.used := by
        rcases define_cases hd4 with ⟨_, _, rfl, _⟩ | ⟨_, _, i, hi, rfl⟩ | ⟨_, _, rfl⟩
        · rfl
        · exact set_keys hi
        · rfl
      exact hused n (this ▸ hn)
    obtain ⟨τ3, P3, h8, h9⟩ := ih (pre ++ [r]) t1 t' τ2 P2 (fun y hy => hm y (.tail _ hy))
      (fun y hy => hc y (by
        simp only [flatDoc, List.map_cons, List.flatten_cons, List.mem_append]
        exact .inr hy))
      (fun pre' r' post he => ho pre' r' post (by simpa using he)) hused' h6 (by
        intro n hn e he
        rcases h7 n e he with h | ⟨rfl, h⟩
        · exact hf1.right n hn e (h3.assigned n e h)
        · exact ho pre r rs rfl (hused _ h) hn) hd2
    refine ⟨τ3, P3, ?_, h9⟩
    rw [docG, Rule.gen, h1]
    dsimp only [Except.bind]
    rw [oneOr_text, h5]
    exact h8

/-! ### Texts -/

/-- Characters of a text that tokenizes begin with a quote. -/
theorem tokens_char {k : KwScanner} (hk : Steps U KwScanner.zero k) {src : Str} {mode : Mode} {ts : List Token} {eof : Token}
    (h : Tokenizes U k src mode ts eof) : ∀ t ∈ ts, t.kind = CHAR → t.lit.head? = some 39 := by
  intro t ht hkind
  have h1 := (tokenizes_iff hk).mpr ⟨eof, h⟩
  rw [(tokenize_kw U k src mode).1] at h1
  have hts : (tokenize U k.keywords.get k.sc src mode).1 = ts := congrArg Prod.fst h1
  have he : (tokenize U k.keywords.get k.sc src mode).2.1 = none := congrArg Prod.snd h1
  have hlt : t.kind < 0xb0 := by rw [hkind]; decide
  obtain ⟨x, r, s1, s2, _, htx⟩ := tokenize_mem U k.keywords.get (kw_ge hk) k.sc src mode he t (hts ▸ ht) hlt
  cases htx with
  | char hc =>
    obtain ⟨y, rfl⟩ := hc
    rfl
  | op hop => exact absurd hkind (op_kinds _ hop).2.1
  | illegal h => cases h
  | _ =>
    dsimp only at hkind
    exact absurd hkind (by decide)

theorem charsOk_doc {k : KwScanner} (hk : Steps U KwScanner.zero k) {src : Str} {mode : Mode} {ts : List Token} {eof : Token}
    (h : Tokenizes U k src mode ts eof) {rs : List Rule} (hd : IsDoc ts rs) : CharsOk (flatDoc rs) := by
  intro x hx hxk
  rw [← hd.2] at hx
  obtain ⟨t, ht, rfl⟩ := List.mem_map.mp hx
  have hkind : t.kind = CHAR := hxk
  have := tokens_char hk h t ht hkind
  unfold key
  rw [if_pos (by rw [hkind]; decide)]
  exact this

theorem perm_map {α β : Type} (f : α → β) {l : List β} {m : List β} (h : l.Perm m) : ∀ xs : List α, m = xs.map f →
    ∃ ys : List α, ys.Perm xs ∧ l = ys.map f := by
  induction h with
  | nil =>
    intro xs hx
    exact ⟨xs, .refl _, hx⟩
  | cons b _ ih =>
    intro xs hx
    cases xs with
    | nil => cases hx
    | cons x xs =>
      injection hx with h1 h2
      obtain ⟨ys, h3, rfl⟩ := ih xs h2
      exact ⟨x :: ys, h3.cons x, by rw [List.map_cons, ← h1]⟩
  | swap a b l =>
    intro xs hx
    match xs, hx with
    | [], hx => cases hx
    | [_], hx => cases hx
    | x :: y :: xs, hx =>
      injection hx with h1 h2
      injection h2 with h2 h3
      exact ⟨y :: x :: xs, .swap x y xs, by rw [List.map_cons, List.map_cons, ← h1, ← h2, ← h3]⟩
  | trans _ _ ih1 ih2 =>
    intro xs hx
    obtain ⟨ys, h1, h2⟩ := ih2 xs hx
    obtain ⟨zs, h3, h4⟩ := ih1 ys h2
    exact ⟨zs, h3.trans h1, h4⟩

theorem vars_all {M : GoExpr → Gr B → Prop} {ps : List (Str × Option GoExpr)} {vs : List (Str × Option (Gr B))} (h : VarsFit M ps vs)
    (ha : ∀ v ∈ vs, v.2 ≠ none) : ∃ qs : List (Str × GoExpr), ps = qs.map (fun q => (q.1, some q.2)) ∧
      ∀ n e, (n, e) ∈ qs → ∃ g, (n, some g) ∈ vs ∧ M e g := by
  induction h with
  | nil => exact ⟨[], rfl, nofun⟩
  | @cons p v ps vs h1 _ ih =>
    obtain ⟨qs, h2, h3⟩ := ih (fun v hv => ha v (.tail _ hv))
    obtain ⟨n, oe⟩ := p
    obtain ⟨n', o⟩ := v
    obtain ⟨hn, h1⟩ := h1
    dsimp only at hn h1
    subst hn
    cases o with
    | none => exact absurd rfl (ha (n, none) (.head _))
    | some g =>
      cases oe with
      | none => exact absurd h1 id
      | some e =>
        refine ⟨(n, e) :: qs, by rw [List.map_cons, h2], ?_⟩
        intro m e' hm
        cases hm with
        | head => exact ⟨g, .head _, h1⟩
        | tail _ hm =>
          obtain ⟨g', h4, h5⟩ := h3 m e' hm
          exact ⟨g', .tail _ h4, h5⟩

/-- What is written out. -/
theorem emit_text (vs ns : List (Str × GoExpr)) :
    emit (vs.map fun q => (q.1, varText (q.1, some q.2))) (ns.map fun q => (q.1, q.2.text)) = GoProg.text ⟨vs, ns⟩ := by
  unfold emit GoProg.text
  simp only [List.map_map, Function.comp_def, varText, declVar, declNamed, assignVar, assignNamed, call1, head, tail]
  simp only [show ∀ s, str s = bytes s from fun _ => rfl]
  simp only [show bytes ".Assign(" = bytes ".Assign" ++ bytes "(" by rfl, List.append_assoc]

end Tpl.Gen
