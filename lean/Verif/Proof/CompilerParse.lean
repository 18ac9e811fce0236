import Verif.Proof.Parsed
import Verif.Proof.Compiler

/-! What the grammar of `Cl` accepts are the tokens of a syntax tree; and what `Cl`
does on a document. -/
namespace Tpl
open Spec
variable {B : Type} {mk : Marker B}

theorem doc_loop (rs : List Rule) : ∀ toks u, toks.map key = flatDoc rs →
    DoesRep clEnv (clSem mk) UserP (.action .assign (.and [.tok IDENT, .tok 61, clGrammar, .tok 59])) toks [] u rs.length
      ((denDoc mk rs u.tab).map fun t => ⟨u.stk, t⟩) := by
  induction rs with
  | nil =>
    intro toks u h
    cases toks with
    | nil => exact doesRep_stop (rejects_of (f := 9) rfl)
    | cons t ts => cases h
  | cons r rs ih =>
    intro toks u h
    obtain ⟨t1, t2, rfl, ht1, ht2⟩ := List.map_eq_append_iff.mp h
    have h1 := rule_does (mk := mk) r t1 (t2 ++ []) u ht1
    rw [denDoc]
    cases hd : r.den mk u.tab with
    | error e =>
      rw [hd] at h1
      exact doesRep_more h1 (o2 := .ok) nofun
    | ok x =>
      rw [hd] at h1
      have h2 := ih t2 ⟨u.stk, x⟩ ht2
      exact doesRep_more h1 (o2 := fun _ => _) (fun u1 e => by cases e; exact h2)
where
  rule_does {mk : Marker B} (r : Rule) : ∀ toks rest u, toks.map key = r.flat →
      Does clEnv (clSem mk) UserP (.action .assign (.and [.tok IDENT, .tok 61, clGrammar, .tok 59])) toks rest u
        ((r.den mk u.tab).map fun t => ⟨u.stk, t⟩) := by
    intro toks rest u h
    obtain ⟨t, ts, rfl, ht, hts⟩ := map_key_cons h
    obtain ⟨t', ts', rfl, ht', hts'⟩ := map_key_cons hts
    obtain ⟨t1, t2, rfl, ht1, ht2⟩ := List.map_eq_append_iff.mp hts'
    obtain ⟨t3, rfl, ht3⟩ := map_key_one ht2
    obtain ⟨hk, hl⟩ := key_lit (by decide) ht
    have h1 := grammar_does r.body (mk := mk) t1 ([t3] ++ rest) u ht1 ⟨59, by decide, by simp [key_opr ht3]⟩
    have h2 := doesAll_cons (t2 := [t3]) (rest := rest) (o2 := .ok) (by intro h; cases h) h1
      (fun u1 _ => doesAll_one (by intro h; cases h) (does_tok (k := 59) (.inl (key_opr ht3))))
    have h3 := does_action (a := .assign) (f := fun u => ClSt.assign u (t :: t' :: (t1 ++ [t3]))) (cl_plain mk) (fun _ _ => rfl)
      (does_and (doesAll_tok (k := IDENT) (t := t) (.inl hk) (doesAll_tok (k := 61) (t := t') (.inl (key_opr ht')) h2)))
    refine does_cast h3 ?_
    unfold Rule.den
    cases r.body.den mk u.tab with
    | error e => rfl
    | ok x =>
      dsimp only [Except.bind, Except.map]
      rw [assign_define, hl]
      rfl

/-- What `doc` does on the tokens of a document. -/
theorem doc_does {rs : List Rule} {toks : List Token} (h : IsDoc toks rs) (u : ClSt B) :
    Does clEnv (clSem mk) UserP clDoc toks [] u ((denDoc mk rs u.tab).map fun t => ⟨u.stk, t⟩) := by
  obtain ⟨hne, h⟩ := h
  cases rs with
  | nil => exact absurd rfl hne
  | cons r rs =>
    obtain ⟨t1, t2, rfl, ht1, ht2⟩ := List.map_eq_append_iff.mp h
    have h1 := doc_loop.rule_does (mk := mk) r t1 (t2 ++ []) u ht1
    rw [denDoc]
    cases hd : r.den mk u.tab with
    | error e =>
      rw [hd] at h1
      exact (doesL_rep1 (k := 0) h1 (o2 := .ok) nofun).does
    | ok x =>
      rw [hd] at h1
      have h2 := doc_loop (mk := mk) rs t2 ⟨u.stk, x⟩ ht2
      exact (doesL_rep1 (id := 3) h1 (o2 := fun _ => _) (fun u1 e => by cases e; exact h2)).does

/-! ### Trees from tokens -/

def IsFac (ts : List Token) : Prop := ∃ f : Fac, ts.map key = f.flat
def IsAlts (ts : List Token) : Prop := ∃ a : Alts, ts.map key = a.flat
def IsSufs (ts : List Token) : Prop := ∃ s : Sufs, ts.map key = s.flat
def IsItem (ts : List Token) : Prop := ∃ i : Item, ts.map key = i.flat
def IsItems (ts : List Token) : Prop := ∃ i : ItemSeq, ts.map key = i.flat

theorem fac_ne {ts : List Token} (h : IsFac ts) : ts ≠ [] := by
  obtain ⟨f, h⟩ := h
  obtain ⟨x, xs, h1, _⟩ := fac_first f
  rw [h1] at h
  rintro rfl
  cases h

/-- A token of kind `k`; not used for FLOAT. -/
def IsTok (k : Nat) (ts : List Token) : Prop := ∃ t : Token, ts = [t] ∧ t.kind = k

theorem parsed_tok {k L : Nat} (hk : k ≠ FLOAT) : Parsed (toRules clEnv) (.sym (kindFits k)) (IsTok k) L := by
  refine parsed_sym.imp ?_
  rintro ts ⟨t, rfl, ht⟩
  refine ⟨t, rfl, ?_⟩
  simp [kindFits, hk] at ht
  exact ht

theorem isTok_ne {k : Nat} {ts : List Token} (h : IsTok k ts) : ts ≠ [] := by
  obtain ⟨t, rfl, _⟩ := h
  nofun

theorem key_tok {k : Nat} {ts : List Token} (h : IsTok k ts) (hk : k ∉ [IDENT, CHAR, STRING, INT]) : ts.map key = [opr k] := by
  obtain ⟨t, rfl, rfl⟩ := h
  simp only [List.map_cons, List.map_nil, key, opr]
  rw [if_neg hk]

theorem key_leaf {k : Nat} {ts : List Token} (h : IsTok k ts) (hk : k ∈ [IDENT, CHAR, STRING, INT]) : ∃ l, ts.map key = [(k, l)] := by
  obtain ⟨t, rfl, rfl⟩ := h
  refine ⟨t.lit, ?_⟩
  simp only [List.map_cons, List.map_nil, key]
  rw [if_pos hk]

/-- `seqOf` of two. -/
theorem parsed_two {a b : Peg Nat} {Q1 Q2 : List Token → Prop} {L : Nat} (h1 : Parsed (toRules clEnv) a Q1 L)
    (hne : ∀ t, Q1 t → t ≠ []) (h2 : ∀ L', L' < L → Parsed (toRules clEnv) b Q2 L') :
    Parsed (toRules clEnv) (.seq a (.seq b .empty)) (fun t => ∃ t1 t2, t = t1 ++ t2 ∧ Q1 t1 ∧ Q2 t2) L := by
  refine (parsed_seq_lt h1 hne (fun L' hl => parsed_seq (h2 L' hl) (parsed_empty (Q := (· = [])) rfl))).imp ?_
  rintro t ⟨t1, t2, rfl, hq1, t3, t4, rfl, hq2, rfl⟩
  exact ⟨t1, t3, by simp, hq1, hq2⟩

theorem sufs_join {ts : List (List Token)} (h : ∀ x ∈ ts, ∀ r : Sufs, ∃ s : Sufs, x.map key ++ r.flat = s.flat) : IsSufs ts.flatten := by
  induction ts with
  | nil => exact ⟨.nil, rfl⟩
  | cons x ts ih =>
    obtain ⟨s, hs⟩ := ih (fun y hy => h y (.tail _ hy))
    obtain ⟨s', hs'⟩ := h x (.head _) s
    refine ⟨s', ?_⟩
    rw [List.flatten_cons, List.map_append, hs, hs']

theorem items_join {ts : List (List Token)} (h : ∀ x ∈ ts, IsItem x) : IsItems ts.flatten := by
  induction ts with
  | nil => exact ⟨.nil, rfl⟩
  | cons x ts ih =>
    obtain ⟨s, hs⟩ := ih (fun y hy => h y (.tail _ hy))
    obtain ⟨i, hi⟩ := h x (.head _)
    refine ⟨.cons i s, ?_⟩
    rw [List.flatten_cons, List.map_append, hs, hi, ItemSeq.flat]

def IsExpr (ts : List Token) : Prop := ∃ (i : Item) (is : ItemSeq), ts.map key = i.flat ++ is.flat

theorem alts_join {ts : List (List Token)} (h : ∀ x ∈ ts, ∃ e, x.map key = opr 124 :: e.map key ∧ IsExpr e) :
    ∀ (i : Item) (is : ItemSeq), ∃ a : Alts, (i.flat ++ is.flat) ++ ts.flatten.map key = a.flat := by
  induction ts with
  | nil => intro i is; exact ⟨.one i is, by simp [Alts.flat]⟩
  | cons x ts ih =>
    intro i is
    obtain ⟨e, he, i', is', hi⟩ := h x (.head _)
    obtain ⟨a, ha⟩ := ih (fun y hy => h y (.tail _ hy)) i' is'
    refine ⟨.alt i is a, ?_⟩
    rw [List.flatten_cons, List.map_append, he, hi, Alts.flat, ← ha]
    simp

theorem parsed_sufs {L : Nat} (hf : Parsed (toRules clEnv) (.rule 0) IsFac L) :
    Parsed (toRules clEnv) (.star (toPeg sufBody)) IsSufs L := by
  refine (parsed_star (Q := fun x => ∀ r : Sufs, ∃ s : Sufs, x.map key ++ r.flat = s.flat) ?_).imp ?_
  · show Parsed _ (altOf _) _ _
    refine parsed_alt ?_ (parsed_alt ?_ (parsed_alt ?_ parsed_never))
    · refine (parsed_two (parsed_tok (by decide)) (fun _ => isTok_ne) (fun L' hl => hf.le (Nat.le_of_lt hl))).imp ?_
      rintro t ⟨t1, t2, rfl, h1, f, h2⟩ r
      refine ⟨.list f r, ?_⟩
      rw [List.map_append, key_tok h1 (by decide), h2, Sufs.flat]
      rfl
    · refine (parsed_two (parsed_tok (by decide)) (fun _ => isTok_ne) (fun L' hl => hf.le (Nat.le_of_lt hl))).imp ?_
      rintro t ⟨t1, t2, rfl, h1, f, h2⟩ r
      refine ⟨.list0 f r, ?_⟩
      rw [List.map_append, key_tok h1 (by decide), h2, Sufs.flat]
      rfl
    · refine (parsed_two (parsed_tok (by decide)) (fun _ => isTok_ne) (fun L' hl => parsed_tok (k := IDENT) (by decide))).imp ?_
      rintro t ⟨t1, t2, rfl, h1, h2⟩ r
      obtain ⟨l, hl⟩ := key_leaf h2 (by decide)
      refine ⟨.mark l r, ?_⟩
      rw [List.map_append, key_tok h1 (by decide), hl, Sufs.flat]
      rfl
  · rintro t ⟨ts, rfl, h⟩
    exact sufs_join h

theorem parsed_item {L : Nat} (hf : Parsed (toRules clEnv) (.rule 0) IsFac L) :
    Parsed (toRules clEnv) (toPeg itemBody) IsItem L := by
  show Parsed _ (altOf _) _ _
  refine parsed_alt ?_ (parsed_alt ?_ parsed_never)
  · refine (parsed_two hf (fun _ => fac_ne) (fun L' hl => parsed_sufs (hf.le (Nat.le_of_lt hl)))).imp ?_
    rintro t ⟨t1, t2, rfl, ⟨f, h1⟩, s, h2⟩
    refine ⟨.term f s, ?_⟩
    rw [List.map_append, h1, h2, Item.flat]
  · refine (parsed_tok (k := 33) (by decide)).imp ?_
    intro t h
    exact ⟨.cut, key_tok h (by decide)⟩

theorem parsed_expr {L : Nat} (hf : Parsed (toRules clEnv) (.rule 0) IsFac L) :
    Parsed (toRules clEnv) (toPeg clExpr) IsExpr L := by
  refine (parsed_seq (parsed_item hf) (parsed_star (parsed_item hf))).imp ?_
  rintro t ⟨t1, t2, rfl, ⟨i, h1⟩, ts, rfl, h2⟩
  obtain ⟨is, hs⟩ := items_join h2
  refine ⟨i, is, ?_⟩
  rw [List.map_append, h1, hs]

theorem parsed_grammar {L : Nat} (hf : Parsed (toRules clEnv) (.rule 0) IsFac L) :
    Parsed (toRules clEnv) (toPeg clGrammar) IsAlts L := by
  have hb : Parsed (toRules clEnv) (.seq (.sym (kindFits 124)) (.seq (toPeg clExpr) .empty))
      (fun x => ∃ e, x.map key = opr 124 :: e.map key ∧ IsExpr e) L := by
    refine (parsed_two (parsed_tok (by decide)) (fun _ => isTok_ne) (fun L' hl => parsed_expr (hf.le (Nat.le_of_lt hl)))).imp ?_
    rintro t ⟨t1, t2, rfl, h1, h2⟩
    refine ⟨t2, ?_, h2⟩
    rw [List.map_append, key_tok h1 (by decide)]
    rfl
  refine (parsed_seq (parsed_expr hf) (parsed_star hb)).imp ?_
  rintro t ⟨t1, t2, rfl, ⟨i, is, h1⟩, ts, rfl, h2⟩
  obtain ⟨a, ha⟩ := alts_join h2 i is
  refine ⟨a, ?_⟩
  rw [List.map_append, h1, ha]

theorem parsed_factor (L : Nat) : Parsed (toRules clEnv) (.rule 0) IsFac L := by
  induction L using Nat.strongRecOn with
  | _ L ih =>
    have pre : ∀ {k : Nat}, k ≠ FLOAT → k ∉ [IDENT, CHAR, STRING, INT] → ∀ c : Fac → Fac, (∀ f, (c f).flat = opr k :: f.flat) →
        Parsed (toRules clEnv) (.seq (.sym (kindFits k)) (.seq (.rule 0) .empty)) IsFac L := by
      intro k hk hk' c hc
      refine (parsed_two (parsed_tok hk) (fun _ => isTok_ne) ih).imp ?_
      rintro t ⟨t1, t2, rfl, h1, f, h2⟩
      refine ⟨c f, ?_⟩
      rw [List.map_append, key_tok h1 hk', h2, hc]
      rfl
    have leaf : ∀ {k : Nat}, k ∈ [IDENT, CHAR, STRING, INT] → ∀ c : Str → Fac, (∀ l, (c l).flat = [(k, l)]) →
        Parsed (toRules clEnv) (.sym (kindFits k)) IsFac L := by
      intro k hk c hc
      refine (parsed_tok (by rintro rfl; revert hk; decide)).imp ?_
      intro t h
      obtain ⟨l, hl⟩ := key_leaf h hk
      exact ⟨c l, by rw [hl, hc]⟩
    refine parsed_rule rfl ?_
    show Parsed _ (altOf _) _ _
    refine parsed_alt (leaf (by decide) Fac.ident (fun _ => rfl)) ?_
    refine parsed_alt (leaf (by decide) Fac.char (fun _ => rfl)) ?_
    refine parsed_alt (leaf (by decide) Fac.string (fun _ => rfl)) ?_
    refine parsed_alt (leaf (by decide) Fac.int (fun _ => rfl)) ?_
    refine parsed_alt (pre (by decide) (by decide) Fac.rep0 (fun _ => rfl)) ?_
    refine parsed_alt (pre (by decide) (by decide) Fac.rep1 (fun _ => rfl)) ?_
    refine parsed_alt (pre (by decide) (by decide) Fac.rep01 (fun _ => rfl)) ?_
    refine parsed_alt (pre (by decide) (by decide) Fac.not (fun _ => rfl)) ?_
    refine parsed_alt (pre (by decide) (by decide) Fac.peek (fun _ => rfl)) ?_
    refine parsed_alt ?_ parsed_never
    refine (parsed_seq_lt (parsed_tok (by decide)) (fun _ => isTok_ne) (fun L' hl =>
      parsed_seq (parsed_grammar (ih L' hl)) (parsed_seq (parsed_tok (by decide)) (parsed_empty (Q := (· = [])) rfl)))).imp ?_
    rintro t ⟨t1, t2, rfl, h1, t3, t4, rfl, ⟨a, ha⟩, t5, t6, rfl, h5, rfl⟩
    refine ⟨.paren a, ?_⟩
    simp only [List.map_append, key_tok h1 (by decide), ha, key_tok h5 (by decide), Fac.flat]
    rfl

theorem parsed_doc (L : Nat) : Parsed (toRules clEnv) (toPeg clDoc) (fun ts => ∃ rs, IsDoc ts rs) L := by
  have hr : Parsed (toRules clEnv) (.seq (.sym (kindFits IDENT)) (.seq (.sym (kindFits 61)) (.seq (toPeg clGrammar)
      (.seq (.sym (kindFits 59)) .empty)))) (fun ts => ∃ r : Rule, ts.map key = r.flat) L := by
    refine (parsed_seq (parsed_tok (by decide)) (parsed_seq (parsed_tok (by decide)) (parsed_seq (parsed_grammar (parsed_factor L))
      (parsed_seq (parsed_tok (by decide)) (parsed_empty (Q := (· = [])) rfl))))).imp ?_
    rintro t ⟨t1, t2, rfl, h1, t3, t4, rfl, h3, t5, t6, rfl, ⟨a, ha⟩, t7, t8, rfl, h7, rfl⟩
    obtain ⟨l, hl⟩ := key_leaf h1 (by decide)
    refine ⟨⟨l, a⟩, ?_⟩
    simp only [List.map_append, hl, key_tok h3 (by decide), ha, key_tok h7 (by decide), Rule.flat]
    rfl
  refine (parsed_seq hr (parsed_star hr)).imp ?_
  rintro t ⟨t1, t2, rfl, ⟨r, h1⟩, ts, rfl, h2⟩
  have : ∃ rs : List Rule, ts.flatten.map key = flatDoc rs := by
    induction ts with
    | nil => exact ⟨[], rfl⟩
    | cons x ts ih =>
      obtain ⟨rs, hrs⟩ := ih (fun y hy => h2 y (.tail _ hy))
      obtain ⟨r, hr⟩ := h2 x (.head _)
      refine ⟨r :: rs, ?_⟩
      rw [List.flatten_cons, List.map_append, hrs, hr]
      rfl
  obtain ⟨rs, hrs⟩ := this
  refine ⟨r :: rs, nofun, ?_⟩
  rw [List.map_append, h1, hrs]
  rfl

/-- What is matched by `doc` to the end is a document. -/
theorem doc_of_match {toks : List Token} {s s' : St (ClSt B)} (h : Eval clEnv (clSem mk) clDoc toks s (.ok toks.length s')) :
    ∃ rs, IsDoc toks rs := by
  obtain ⟨f, h⟩ := h
  have hp := peg_done f _ _ _ _ h nofun
  obtain ⟨t1, t2, he, hl, hd⟩ := parsed_doc toks.length toks (Nat.le_refl _) _ hp
  have : t2 = [] := by
    have := congrArg List.length he
    simp only [List.length_append, hl] at this
    exact List.length_eq_zero_iff.mp (by omega)
  subst this
  rw [List.append_nil] at he
  rw [he]
  exact hd

end Tpl
