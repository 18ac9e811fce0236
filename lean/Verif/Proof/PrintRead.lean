import Verif.Proof.PrintDoc

/-! The printed rules are read back. -/
namespace Tpl
open Spec Scanner KwScanner
variable {B : Type} {mk : Marker B} {U : Uni} {kw : Str → Option Nat}

/-! ### Definitions stay -/

def Keep (t t' : Tab B) : Prop := ∀ n g, defOf t n = some g → defOf t' n = some g

theorem lookup_none' {α : Type} {n : Str} {vs : List (Str × α)} : vs.lookup n = none ↔ n ∉ vs.map (·.1) := by
  induction vs with
  | nil => simp
  | cons v vs ih =>
    obtain ⟨m, a⟩ := v
    by_cases h : n = m
    · subst h; simp
    · rw [List.lookup_cons, show (n == m) = false by simpa using h]
      dsimp only
      rw [ih]
      simp [h]

theorem Ext.keep {t t' : Tab B} (h : Ext t t') : Keep t t' := by
  obtain ⟨ns, h1, h2, _⟩ := h.vars
  intro n g hd
  unfold defOf at *
  rw [h1, List.lookup_append, h.gr]
  cases hl : t.vars.lookup n with
  | some o => rw [hl] at hd; exact hd
  | none =>
    rw [hl] at hd
    dsimp only at hd
    have : List.lookup n (ns.map fun m => (m, (none : Option (Gr B)))) = none := by
      rw [lookup_none']
      simp only [List.map_map, Function.comp_def, List.map_id']
      intro hn
      exact (h2 n hn).1 (lookup_some hd)
    rw [this]
    exact hd

theorem varNo_lookup {n : Str} : ∀ {vs : List (Str × Option (Gr B))} {v : Nat} {o}, varNo n vs = some v → vs[v]? = some (n, o) → vs.lookup n = some o
  | [], v, o, h, _ => by cases h
  | a :: vs, v, o, h, h' => by
    obtain ⟨m, p⟩ := a
    unfold varNo at h
    dsimp only at h
    by_cases hm : m = n
    · subst hm
      rw [if_pos rfl] at h
      cases h
      cases h'
      simp
    · rw [if_neg hm] at h
      cases hv : varNo n vs with
      | none => rw [hv] at h; cases h
      | some w =>
        rw [hv] at h
        cases h
        rw [List.lookup_cons, show (n == m) = false by simpa using fun e => hm e.symm]
        exact varNo_lookup hv (by simpa using h')

theorem lookup_set {n m : Str} {o : Option (Gr B)} : ∀ {vs : List (Str × Option (Gr B))} {v : Nat}, varNo n vs = some v →
    (vs.set v (n, o)).lookup m = if m = n then some o else vs.lookup m
  | [], v, h => by cases h
  | a :: vs, v, h => by
    obtain ⟨l, p⟩ := a
    unfold varNo at h
    dsimp only at h
    by_cases hl : l = n
    · subst hl
      rw [if_pos rfl] at h
      cases h
      simp only [List.set_cons_zero, List.lookup_cons]
      by_cases hm : m = l
      · subst hm; simp
      · rw [show (m == l) = false by simpa using hm, if_neg hm]
    · rw [if_neg hl] at h
      cases hv : varNo n vs with
      | none => rw [hv] at h; cases h
      | some w =>
        rw [hv] at h
        cases h
        simp only [List.set_cons_succ, List.lookup_cons]
        by_cases hm : m = l
        · subst hm; simp [hl]
        · rw [show (m == l) = false by simpa using hm]
          exact lookup_set hv

theorem define_keep {n : Str} {g : Gr B} {t t' : Tab B} (hg : isNil g = false) (h : define n g t = .ok t') :
    defOf t' n = some g ∧ Keep t t' ∧ Later t t' ∧ t'.scanner = t.scanner := by
  cases hv : varNo n t.vars with
  | some v =>
    obtain ⟨o, ho⟩ := varNo_some hv
    cases o with
    | some g' =>
      unfold define at h
      rw [hv] at h
      dsimp only at h
      rw [ho] at h
      cases h
    | none =>
      rw [define_var hv ho hg] at h
      cases h
      refine ⟨?_, ?_, ⟨⟨[], by simp⟩, ⟨[], ?_⟩⟩, rfl⟩
      · unfold defOf
        dsimp only
        rw [lookup_set hv, if_pos rfl]
      · intro m g' hd
        unfold defOf at *
        dsimp only
        rw [lookup_set hv]
        by_cases hm : m = n
        · subst hm
          rw [varNo_lookup hv ho] at hd
          cases hd
        · rw [if_neg hm]; exact hd
      · unfold Tab.used
        dsimp only
        rw [set_keys ho]
        simp
  | none =>
    have hn : t.vars.lookup n = none := by rw [lookup_none', ← varNo_none]; exact hv
    unfold define at h
    rw [hv] at h
    cases hl : t.grammars.lookup n with
    | some g' => rw [hl] at h; cases h
    | none =>
      rw [hl] at h
      cases h
      refine ⟨?_, ?_, ⟨⟨[], by simp⟩, ⟨[], by simp [Tab.used]⟩⟩, rfl⟩
      · unfold defOf
        dsimp only
        rw [hn]
        simp
      · intro m g' hd
        unfold defOf at *
        dsimp only
        by_cases hm : m = n
        · subst hm
          rw [hn] at hd
          dsimp only at hd
          rw [hl] at hd
          cases hd
        · rw [List.lookup_cons, show (m == n) = false by simpa using hm]
          exact hd

/-! ### The document -/

theorem built_nil {g : Gr B} {t t' : Tab B} (h : Built U kw g t t') : isNil g = false := by
  have := h.builds t' (.refl _)
  cases g <;> first | rfl | (exact this.elim)

theorem rule_built {r : Rule} {t t' : Tab B} (hp : r.body.plain = true) (hw : Words U kw r.flat) (hk : KwOk t.scanner) (h : r.den mk t = .ok t') :
    ∃ g t1, Built U kw g t t1 ∧ define r.name g t1 = .ok t' ∧ KwOk t'.scanner ∧ Later t1 t' ∧ Keep t t' ∧ defOf t' r.name = some g := by
  obtain ⟨gs, t1, h1, h2, h3, _⟩ := rule_den h
  obtain ⟨h4, h5⟩ := alts_built r.body hp hw.tail.tail.left hk h1
  have h6 := h4.or h5
  obtain ⟨d1, d2, d3, d4⟩ := define_keep (built_nil h6) h2
  refine ⟨_, _, h6, h2, d4 ▸ h6.kwOk, d3, ?_, d1⟩
  intro n g hd
  exact d2 n g (h3.keep n g hd)

theorem doc_keep : ∀ {rs : List Rule} {t T : Tab B}, (∀ r ∈ rs, r.body.plain = true) → Words U kw (flatDoc rs) → KwOk t.scanner → denDoc mk rs t = .ok T →
    Keep t T ∧ Later t T
  | [], t, T, _, _, _, h => by
    cases h
    exact ⟨fun _ _ h => h, .refl _⟩
  | r :: rs, t, T, hp, hw, hk, h => by
    obtain ⟨t', h1, h2⟩ := bind_ok h
    have hw' : Words U kw (r.flat ++ flatDoc rs) := by simpa [flatDoc] using hw
    obtain ⟨g, t1, a1, a2, a3, a4, a5, a6⟩ := rule_built (hp r (by simp)) hw'.left hk h1
    obtain ⟨b1, b2⟩ := doc_keep (fun r hr => hp r (by simp [hr])) hw'.right a3 h2
    exact ⟨fun n g hd => b1 n g (a5 n g hd), (a1.later.trans a4).trans b2⟩

/-- The printed rules are a text whose rules mean the same. -/
theorem doc_print {T : Tab B} : ∀ {rs : List Rule} {t : Tab B}, (∀ r ∈ rs, r.body.plain = true) → Words U kw (flatDoc rs) → KwOk t.scanner →
    (∀ r ∈ rs, ∀ g, defOf T r.name = some g → prints g = true) → denDoc mk rs t = .ok T →
    ∃ txt rs2, Printed T (rs.map (·.name)) txt ∧ rs2.map Rule.name = rs.map Rule.name ∧ Clean txt ∧
      (∀ o, ∃ ts, Lexes U true ⟨false, true⟩ o txt false ts ∧ ts.map (kwKey kw) = flatDoc rs2 ++ [(EOF, [])]) ∧
      ∀ t2, TabRel t t2 → ∃ T2, denDoc mk rs2 t2 = .ok T2 ∧ TabRel T T2
  | [], t, _, _, _, _, h => by
    cases h
    refine ⟨[], [], .nil, rfl, .nil, fun o => ⟨[⟨EOF, o, []⟩], ?_, ?_⟩, fun t2 hr => ⟨t2, rfl, hr⟩⟩
    · exact Lexes.eof (g := []) .nil rfl
    · unfold kwKey
      rfl
  | r :: rs, t, hp, hw, hk, hpr, h => by
    obtain ⟨t', h1, h2⟩ := bind_ok h
    have hw' : Words U kw (r.flat ++ flatDoc rs) := by simpa [flatDoc] using hw
    obtain ⟨g, t1, a1, a2, a3, a4, a5, a6⟩ := rule_built (hp r (by simp)) hw'.left hk h1
    obtain ⟨b1, b2⟩ := doc_keep (fun r hr => hp r (by simp [hr])) hw'.right a3 h2
    have hd := b1 _ _ a6
    have hg := hpr r (by simp) g hd
    have hid : OkIdent U kw r.name := (hw' (IDENT, r.name) (by simp [Rule.flat])).1 rfl
    obtain ⟨x, a, c1, c2, c3⟩ := (print_gr (mk := mk) g hg (a1.builds T (a4.trans b2))).alts
    obtain ⟨txt, rs2, i1, i2, i3, i4, i5⟩ := doc_print (fun r hr => hp r (by simp [hr])) hw'.right a3
      (fun r hr => hpr r (by simp [hr])) h2
    refine ⟨r.name ++ bytes " = " ++ x ++ bytes ";\n" ++ txt, ⟨r.name, a⟩ :: rs2, ?_, by simp [i2], ?_, ?_, ?_⟩
    · refine .cons hd ?_ i1
      unfold codeOf Gr.code
      exact (marshal_01 (L := leavesOf U kw T) hg).trans c1
    · refine clean_append (clean_append (clean_append (clean_append hid.clean ?_) c2.clean) ?_) i3
      · exact clean_of_ascii (by decide +kernel)
      · exact clean_of_ascii (by decide +kernel)
    · intro o
      have j1 := semi_lexes (U := U) (kw := kw) i4
      have j2 := c2.reads _ _ (.inr (.inr ⟨_, rfl⟩)) j1
      have j3 := op_lexes (k := 61) (s := "=") (by decide +kernel) (by intro c hc; simp at hc; subst hc; decide) (lexesAs_space j2)
      have j4 := hid.word.lexes (r := 32 :: _) (.inl ⟨_, rfl⟩) (lexesAs_space j3)
      obtain ⟨ts, k1, k2⟩ := j4 o false
      refine ⟨ts, ?_, ?_⟩
      · have : r.name ++ bytes " = " ++ x ++ bytes ";\n" ++ txt = r.name ++ 32 :: (bytes "=" ++ 32 :: (x ++ 59 :: 10 :: txt)) := by
          have e1 : bytes " = " = 32 :: (bytes "=" ++ [32]) := by decide +kernel
          have e2 : bytes ";\n" = [59, 10] := by decide +kernel
          rw [e1, e2]
          simp
        rw [this]
        exact k1
      · rw [k2]
        simp [flatDoc, Rule.flat]
    · intro t2 hr
      obtain ⟨y, d1, d2, d3, d4, d5⟩ := c3 t2 hr
      obtain ⟨e1, e2⟩ := oneOrOr_like d4 d5
      obtain ⟨t2', f1, f2⟩ := define_rel d2 ⟨d3.trans e1, prints_nil hg, e2⟩ a2
      obtain ⟨T2, i6, i7⟩ := i5 t2' f2
      refine ⟨T2, ?_, i7⟩
      show (Rule.den mk ⟨r.name, a⟩ t2).bind _ = _
      unfold Rule.den
      dsimp only
      rw [d1]
      simp only [Except.bind]
      rw [f1]
      exact i6

end Tpl
