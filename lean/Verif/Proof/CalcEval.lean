import Verif.Proof.Calc

/-!
An expression is evaluated to its value, by induction on its length.
-/
namespace Tpl
open Spec
namespace Calc
variable {V F : Type} {C : Calc V F}

/-- The operators of a level. -/
def ops (C : Calc V F) : Nat → List (Nat × BinOp)
  | 0 => [(43, .add), (45, .sub)]
  | _ => C.mulOps

/-- An expression `a`, continued by operators and operands. -/
inductive Tail (C : Calc V F) (l : Nat) : Ex → List Token → Ex → Prop
  | nil {a} : Tail C l a [] a
  | cons {a t o us b vs e} : (t.kind, o) ∈ C.ops l → Reads C (l + 1) us b → Tail C l (.bin o a b) vs e →
      Tail C l a (t :: us ++ vs) e

theorem Tail.snoc {l : Nat} {a e : Ex} {ts : List Token} (h : Tail C l a ts e) {t o us b} (ho : (t.kind, o) ∈ C.ops l)
    (hb : Reads C (l + 1) us b) : Tail C l a (ts ++ t :: us) (.bin o e b) := by
  induction h with
  | @nil a => have := Tail.cons (a := a) ho hb (Tail.nil (C := C)); simpa using this
  | cons h1 h2 _ ih => simpa using Tail.cons h1 h2 ih

theorem reads_tail {l : Nat} (hl : l < 2) : ∀ (n : Nat) {ts : List Token} {e : Ex}, ts.length ≤ n → Reads C l ts e →
    ∃ t1 t2 a, ts = t1 ++ t2 ∧ Reads C (l + 1) t1 a ∧ Tail C l a t2 e := by
  intro n
  induction n with
  | zero =>
    intro ts e hn h
    have : ts = [] := List.eq_nil_of_length_eq_zero (by omega)
    subst this
    generalize hts : ([] : List Token) = ts at h
    cases h with
    | sum h => exact ⟨_, [], _, by simp, h, .nil⟩
    | product h => exact ⟨_, [], _, by simp, h, .nil⟩
    | add => simp at hts
    | sub => simp at hts
    | mul => simp at hts
    | _ => omega
  | succ n ih =>
    intro ts e hn h
    cases h with
    | sum h => exact ⟨_, [], _, by simp, h, .nil⟩
    | product h => exact ⟨_, [], _, by simp, h, .nil⟩
    | @add ts us a b t h1 ht h2 =>
      obtain ⟨t1, t2, a', rfl, h3, h4⟩ := ih (by simp at hn; omega) h1
      exact ⟨t1, _, a', List.append_assoc .., h3, h4.snoc (by simp [ops, ht]) h2⟩
    | @sub ts us a b t h1 ht h2 =>
      obtain ⟨t1, t2, a', rfl, h3, h4⟩ := ih (by simp at hn; omega) h1
      exact ⟨t1, _, a', List.append_assoc .., h3, h4.snoc (by simp [ops, ht]) h2⟩
    | @mul ts us a b t o h1 ht h2 =>
      obtain ⟨t1, t2, a', rfl, h3, h4⟩ := ih (by simp at hn; omega) h1
      exact ⟨t1, _, a', List.append_assoc .., h3, h4.snoc ht h2⟩
    | _ => omega

theorem Tail.error {l : Nat} {a e : Ex} {ts : List Token} {c : Fault} (h : Tail C l a ts e) (ha : a.eval C = .error c) :
    e.eval C = .error c := by
  induction h with
  | nil => exact ha
  | cons _ _ _ ih => apply ih; simp only [Ex.eval, ha]; rfl

/-- What may follow an expression of level `l`. -/
def Stops (C : Calc V F) (l : Nat) (rest : List Token) : Prop :=
  ∀ t, rest.head? = some t → t.kind ≠ 40 ∧ ∀ l', l ≤ l' → l' < 2 → ∀ p ∈ C.ops l', t.kind ≠ p.1

theorem Stops.succ {l : Nat} {rest : List Token} (h : Stops C l rest) : Stops C (l + 1) rest :=
  fun t ht => ⟨(h t ht).1, fun l' h1 h2 => (h t ht).2 l' (by omega) h2⟩

theorem op_kind (hC : C.Ok) {l : Nat} {p : Nat × BinOp} (hp : p ∈ C.ops l) : p.1 ∈ [42, 47, 37, 43, 45] := by
  cases l with
  | zero => simp [ops] at hp; rcases hp with rfl | rfl <;> decide
  | succ l => have := hC.mulKind p hp; simp at this ⊢; omega

theorem op_mem {l : Nat} {p : Nat × BinOp} (hp : p ∈ C.ops l) : p.2 ∈ (C.mulOps.map (·.2)) ++ [BinOp.add, .sub] := by
  cases l with
  | zero => simp [ops] at hp; rcases hp with rfl | rfl <;> simp
  | succ l => exact List.mem_append_left _ (List.mem_map_of_mem hp)

theorem op_once (hC : C.Ok) (l : Nat) : ((C.ops l).map (·.1)).Nodup := by
  cases l with
  | zero => simp [ops]
  | succ l => exact hC.mulOnce

/-- An operator does not stand before a parenthesis by mistake: after an operand of a higher level. -/
theorem stops_tail (hC : C.Ok) {l : Nat} {a e : Ex} {ts rest : List Token} (h : Tail C l a ts e) (hl : l < 2) (hr : Stops C l rest) :
    Stops C (l + 1) (ts ++ rest) := by
  cases h with
  | nil => exact hr.succ
  | @cons _ t o us b vs _ h1 h2 h3 =>
    intro t' ht'
    simp at ht'
    subst ht'
    refine ⟨?_, fun l' hl1 hl2 p hp => ?_⟩
    · have := op_kind hC h1; simp at this; omega
    · have h0 : l = 0 := by omega
      have h1' : l' = 1 := by omega
      subst h0 h1'
      have := hC.mulKind p hp
      simp [ops] at h1 this
      omega

/-! ### Which tokens fit -/

theorem fits_iff {k : Nat} {t : Token} (hk : k ≠ FLOAT) : TokFits k t ↔ t.kind = k := by
  unfold TokFits
  constructor
  · rintro (h | ⟨_, h⟩)
    · exact h
    · exact absurd h hk
  · exact .inl

theorem rejects_kind {k : Nat} (hk : k ≠ FLOAT) {src : List Token} (h : ∀ t, src.head? = some t → t.kind ≠ k) :
    Rejects C.env C.client.sem (.tok k) src :=
  rejects_tok fun t ht hf => h t ht ((fits_iff hk).mp hf)

variable {R : Panic Str (IPanic CalcErr Empty) → Fault → Prop}

/-- The alternatives of an operator. -/
theorem rejects_ops (hC : C.Ok) {l : Nat} {item : Gr Str} {ps : List (Nat × BinOp)} (hps : ∀ p ∈ ps, p ∈ C.ops l) {src : List Token}
    (h : ∀ t, src.head? = some t → ∀ p ∈ ps, t.kind ≠ p.1) :
    ∀ g ∈ ps.map (fun p => (.and [.tok p.1, .action p.2.mark item] : Gr Str)), Rejects C.env C.client.sem g src := by
  intro g hg
  rw [List.mem_map] at hg
  obtain ⟨p, hp, rfl⟩ := hg
  refine rejects_and (by intro h; cases h) (rejects_kind ?_ fun t ht => h t ht p hp)
  have := op_kind hC (hps p hp)
  intro h
  rw [h] at this
  exact absurd this (by decide)

/-- `item *(op item/mark | ...)` -/
theorem does_chain (hC : C.Ok) {l : Nat} (hl : l < 2) {item : Gr Str} (hitem : item ≠ .nil) {id n : Nat}
    (ih : ∀ {ts e} {rest} {u : Eng V}, ts.length ≤ n → Reads C (l + 1) ts e → Stops C (l + 1) rest → u.mute = 0 →
      Does C.env C.client.sem Raises item ts rest u ((e.eval C).map (pushed u)))
    {ts rest : List Token} {e : Ex} {u : Eng V} (hn : ts.length ≤ n) (h : Reads C l ts e) (hr : Stops C l rest) (hu : u.mute = 0) :
    Does C.env C.client.sem Raises
      (.and [item, .rep0 id (.or ((C.ops l).map fun p => .and [.tok p.1, .action p.2.mark item]))]) ts rest u ((e.eval C).map (pushed u)) := by
  obtain ⟨t1, t2, a, rfl, h1, h2⟩ := reads_tail hl _ (Nat.le_refl _) h
  have hn2 : t2.length ≤ n := by simp at hn; omega
  have hrep : ∀ {a t2}, Tail C l a t2 e → t2.length ≤ n → ∀ x, a.eval C = .ok x → ∃ k, DoesRep C.env C.client.sem Raises
      (.or ((C.ops l).map fun p => .and [.tok p.1, .action p.2.mark item])) t2 rest (pushed u x) k ((e.eval C).map (pushed u)) := by
    clear h h1 h2 hn2 hn
    intro a t2 h2
    induction h2 with
    | nil =>
      intro _ x hx
      rw [hx]
      refine ⟨0, doesRep_stop (rejects_or (rejects_ops hC (fun _ h => h) ?_))⟩
      intro t ht p hp
      exact (hr t ht).2 l (Nat.le_refl _) hl p hp
    | @cons a t o us b vs e ho hb ht iht =>
      intro hn x hx
      have hnus : us.length ≤ n := by simp at hn; omega
      have hnvs : vs.length ≤ n := by simp at hn; omega
      have hstop := stops_tail hC ht hl hr
      -- the operator
      obtain ⟨pre, post, hsplit⟩ := List.append_of_mem ho
      have hnodup := op_once hC l
      have hk := op_kind hC ho
      have hfit : TokFits t.kind t := .inl rfl
      have halt : Does C.env C.client.sem Raises (.or ((C.ops l).map fun p => .and [.tok p.1, .action p.2.mark item]))
          (t :: us) (vs ++ rest) (pushed u x) (((Ex.bin o a b).eval C).map (pushed u)) := by
        rw [hsplit, List.map_append, List.map_cons]
        refine does_or ?_ ?_
        · refine rejects_ops (l := l) hC (fun p hp => by rw [hsplit]; exact List.mem_append_left _ hp) ?_
          intro t' ht' p hp heq
          simp at ht'
          subst ht'
          rw [hsplit, List.map_append, List.nodup_append] at hnodup
          exact hnodup.2.2 p.1 (List.mem_map_of_mem hp) t.kind (by simp) heq.symm
        · refine does_and (doesAll_tok hfit (doesAll_one (by intro h; cases h) ?_))
          have hact := does_act (a := o.mark) (f := fun u' => (match u'.u.getLast? with
              | some y => (C.bin o x y).map (pushed u)
              | none => .error .value)) (ih hnus hb hstop (u := pushed u x) hu) (by
            intro fu m s hs
            cases hy : b.eval C with
            | error c => rw [hy] at hs; cases hs
            | ok y =>
              rw [hy] at hs
              simp only [Except.map, Except.ok.injEq] at hs
              rw [← hs]
              simp only [pushed, List.getLast?_append, List.getLast?_singleton, Option.some_or]
              have := acts_bin (f := fu) (m := m) (g := item) (toks := us) (s := s) hC (op_mem ho) (base := u.u) (x := x) (y := y)
                (by rw [← hs]; exact hu) (by rw [← hs]; simp [pushed])
              rw [← hs] at this
              exact this)
          have heq : ((b.eval C).map (pushed (pushed u x))).bind (fun u' => (match u'.u.getLast? with
              | some y => (C.bin o x y).map (pushed u)
              | none => .error .value)) = ((Ex.bin o a b).eval C).map (pushed u) := by
            simp only [Ex.eval, hx]
            cases b.eval C with
            | error c => rfl
            | ok y => simp [Except.map, Except.bind, pushed]
          rw [heq] at hact
          exact hact
      cases hz : (Ex.bin o a b).eval C with
      | error c =>
        rw [hz] at halt
        refine ⟨0 + 1, ?_⟩
        have := doesRep_more (k := 0) (t2 := vs) (o2 := fun u => .ok u) halt (fun u1 h1 => by cases h1)
        rw [ht.error hz]
        exact this
      | ok z =>
        rw [hz] at halt
        obtain ⟨k, hk⟩ := iht hnvs z hz
        refine ⟨k + 1, ?_⟩
        have := doesRep_more (o2 := fun _ => (e.eval C).map (pushed u)) halt (fun u1 h1 => by cases h1; exact hk)
        exact this
  have hfirst := ih (u := u) (by simp at hn; omega) h1 (stops_tail hC h2 hl hr) hu
  cases hx : a.eval C with
  | error c =>
    rw [hx] at hfirst
    have := doesAll_cons (gs := [.rep0 id (.or ((C.ops l).map fun p => .and [.tok p.1, .action p.2.mark item]))])
      (o2 := fun u => .ok u) hitem hfirst (fun u1 h1 => by cases h1)
    rw [h2.error hx]
    exact does_and this
  | ok x =>
    rw [hx] at hfirst
    obtain ⟨k, hk⟩ := hrep h2 hn2 x hx
    have := doesAll_cons (gs := [.rep0 id (.or ((C.ops l).map fun p => .and [.tok p.1, .action p.2.mark item]))])
      (o2 := fun _ => (e.eval C).map (pushed u)) hitem hfirst
      (fun u1 h1 => by cases h1; exact doesAll_one (by intro h; cases h) (doesL_rep0 hk).does)
    exact does_and this

/-! ### Factors -/

theorem rejects_lit (hC : C.Ok) {src : List Token} (h : ∀ t, src.head? = some t → litRule? C t = none) :
    ∀ g ∈ C.litAlts, Rejects C.env C.client.sem g src := by
  intro g hg
  unfold litAlts at hg
  rw [List.mem_map] at hg
  obtain ⟨r, hr, rfl⟩ := hg
  refine rejects_action (rejects_tok ?_)
  intro t ht hf
  have := h t ht
  unfold litRule? at this
  rw [List.find?_eq_none] at this
  apply this r hr
  rcases hf with hf | ⟨h1, h2⟩ <;> simp_all

theorem litRule_none (hC : C.Ok) {t : Token} (h : t.kind ≠ INT ∧ t.kind ≠ FLOAT ∧ t.kind ≠ IMAG) : litRule? C t = none := by
  unfold litRule?
  rw [List.find?_eq_none]
  intro r hr hf
  have hf := of_decide_eq_true hf
  have := hC.litKind r hr
  rcases hf with hf | ⟨hf, _⟩
  · rw [hf] at h; obtain ⟨h1, h2, h3⟩ := h; rcases this with h' | h' | h' <;> contradiction
  · exact h.1 hf

theorem rejects_call_kind {src : List Token} (h : ∀ t, src.head? = some t → t.kind ≠ IDENT) :
    Rejects C.env C.client.sem C.callAlt src :=
  rejects_action (rejects_and (by intro h; cases h) (rejects_kind (by decide) h))

theorem rejects_call_paren {t : Token} {src : List Token} (ht : t.kind = IDENT) (h : ∀ t, src.head? = some t → t.kind ≠ 40) :
    Rejects C.env C.client.sem C.callAlt (t :: src) :=
  rejects_action (rejects_and_tok (.inl ht) (by intro h; cases h) (rejects_kind (by decide) h))

theorem rejects_neg {src : List Token} (h : ∀ t, src.head? = some t → t.kind ≠ 45) : Rejects C.env C.client.sem negAlt src :=
  rejects_and (by intro h; cases h) (rejects_kind (by decide) h)

theorem rejects_paren {src : List Token} (h : ∀ t, src.head? = some t → t.kind ≠ 40) : Rejects C.env C.client.sem C.parenAlt src :=
  rejects_and (by intro h; cases h) (rejects_kind (by decide) h)

theorem rejects_pos {src : List Token} (h : ∀ t, src.head? = some t → t.kind ≠ 43) : Rejects C.env C.client.sem posAlt src :=
  rejects_and (by intro h; cases h) (rejects_kind (by decide) h)

theorem rejects_ident {src : List Token} (h : ∀ t, src.head? = some t → t.kind ≠ IDENT) :
    ∀ g ∈ C.identAlts, Rejects C.env C.client.sem g src := by
  intro g hg
  unfold identAlts at hg
  cases hi : C.ident with
  | none => rw [hi] at hg; cases hg
  | some f =>
    rw [hi] at hg
    simp at hg
    subst hg
    exact rejects_action (rejects_kind (by decide) h)

/-- No expression begins with `)`. -/
theorem rejects_doc (hC : C.Ok) {t : Token} {src : List Token} (ht : t.kind = 41) :
    Rejects C.env C.client.sem (.named (str "doc") C.doc) (t :: src) := by
  have hne : ∀ k, 41 ≠ k → ∀ t', (t :: src).head? = some t' → t'.kind ≠ k := by
    intro k hk t' h' heq
    simp at h'
    subst h'
    omega
  refine rejects_named (rejects_and (by intro h; cases h) (rejects_named (rejects_and (by intro h; cases h)
    (rejects_var (g := C.factor) rfl (rejects_or ?_)))))
  intro g hg
  rw [List.mem_append] at hg
  rcases hg with hg | hg
  · refine rejects_lit hC ?_ g hg
    intro t' h'
    simp at h'
    subst h'
    apply litRule_none hC
    rw [ht]
    decide
  · simp only [List.mem_cons, List.mem_append, List.not_mem_nil, or_false] at hg
    rcases hg with rfl | rfl | rfl | hg | rfl
    · exact rejects_neg (hne _ (by decide))
    · exact rejects_paren (hne _ (by decide))
    · exact rejects_call_kind (hne _ (by decide))
    · exact rejects_ident (hne _ (by decide)) g hg
    · exact rejects_pos (hne _ (by decide))

/-- Pushed values, first one first. -/
def pushedAll (u : Eng V) (vs : List V) : Eng V := { u with u := u.u ++ vs }

theorem ops_closed (hC : C.Ok) {t : Token} {rest : List Token} {l : Nat} (h : t.kind = 41 ∨ t.kind = 44) : Stops C l (t :: rest) := by
  intro t' ht'
  simp at ht'
  subst ht'
  refine ⟨by omega, fun l' _ _ p hp heq => ?_⟩
  have := op_kind hC hp
  simp at this
  omega

theorem evalArgs_length : ∀ (es : List Ex) (vs : List V), evalArgs C es = .ok vs → vs.length = es.length
  | [], vs, h => by simp only [evalArgs] at h; cases h; rfl
  | e :: es, vs, h => by
    simp only [evalArgs] at h
    cases he : e.eval C with
    | error c => rw [he] at h; cases h
    | ok v =>
      rw [he] at h
      simp only [Except.bind] at h
      cases hes : evalArgs C es with
      | error c => rw [hes] at h; cases h
      | ok ws =>
        rw [hes] at h
        cases h
        simp [evalArgs_length es ws hes]

/-- The arguments behind the first. -/
theorem does_more (hC : C.Ok) {n : Nat} {d : Gr Str} (hd : d ≠ .nil)
    (ih : ∀ {ts e} {rest} {u : Eng V}, ts.length ≤ n → Reads C 0 ts e → Stops C 0 rest → u.mute = 0 →
      Does C.env C.client.sem Raises d ts rest u ((e.eval C).map (pushed u))) {t' : Token} {rest : List Token} (ht' : t'.kind = 41) :
    ∀ {es : List Ex} {ts : List Token} {u : Eng V}, ts.length ≤ n → ReadsMore C ts es → u.mute = 0 →
      DoesRep C.env C.client.sem Raises (.and [.tok 44, d]) ts (t' :: rest) u es.length ((evalArgs C es).map (pushedAll u)) := by
  intro es
  induction es with
  | nil =>
    intro ts u hn h hu
    cases h with
    | nil =>
      simp only [evalArgs, Except.map]
      have he : pushedAll u [] = u := by simp [pushedAll]
      rw [he]
      refine doesRep_stop (rejects_and (by intro h; cases h) (rejects_kind (by decide) ?_))
      intro t h
      simp at h
      subst h
      omega
  | cons e es ihes =>
    intro ts u hn h hu
    cases h with
    | @cons t us vs _ _ ht h1 h2 =>
      have hstop : Stops C 0 (vs ++ (t' :: rest)) := by
        cases h2 with
        | nil => exact ops_closed hC (.inl ht')
        | cons ht => exact ops_closed hC (.inr ht)
      have ha := ih (u := u) (by simp at hn; omega) h1 hstop hu
      have hfirst : Does C.env C.client.sem Raises (.and [.tok 44, d]) (t :: us) (vs ++ (t' :: rest)) u ((e.eval C).map (pushed u)) :=
        does_and (doesAll_tok (.inl ht) (doesAll_one hd ha))
      have := doesRep_more (k := es.length) (o2 := fun u1 => (evalArgs C es).map (pushedAll u1)) hfirst (fun u1 h1 => by
        cases hx : e.eval C with
        | error c => rw [hx] at h1; cases h1
        | ok x =>
          rw [hx] at h1
          cases h1
          exact ihes (by simp at hn; omega) h2 hu)
      have heq : ((e.eval C).map (pushed u)).bind (fun u1 => (evalArgs C es).map (pushedAll u1)) =
          (evalArgs C (e :: es)).map (pushedAll u) := by
        simp only [evalArgs]
        cases e.eval C with
        | error c => rfl
        | ok x =>
          cases evalArgs C es with
          | error c => rfl
          | ok vs => simp [Except.map, Except.bind, pushed, pushedAll]
      rw [heq] at this
      exact this

theorem does_args (hC : C.Ok) {n id : Nat} {d : Gr Str} (hd : d ≠ .nil)
    (hrej : ∀ {t : Token} {src : List Token}, t.kind = 41 → Rejects C.env C.client.sem d (t :: src))
    (ih : ∀ {ts e} {rest} {u : Eng V}, ts.length ≤ n → Reads C 0 ts e → Stops C 0 rest → u.mute = 0 →
      Does C.env C.client.sem Raises d ts rest u ((e.eval C).map (pushed u))) {t' : Token} {rest : List Token} (ht' : t'.kind = 41)
    {es : List Ex} {ts : List Token} {u : Eng V} (hn : ts.length ≤ n) (h : ReadsArgs C ts es) (hu : u.mute = 0) :
    DoesL C.env C.client.sem Raises (.list id d (.tok 44) true) ts (t' :: rest) u es.length ((evalArgs C es).map (pushedAll u)) := by
  cases h with
  | nil =>
    simp only [evalArgs, Except.map]
    have he : pushedAll u [] = u := by simp [pushedAll]
    rw [he]
    exact doesL_list0 (hrej ht')
  | @some us vs e es h1 h2 =>
    have hstop : Stops C 0 (vs ++ (t' :: rest)) := by
      cases h2 with
      | nil => exact ops_closed hC (.inl ht')
      | cons ht => exact ops_closed hC (.inr ht)
    have ha := ih (u := u) (by simp at hn; omega) h1 hstop hu
    have := doesL_list (id := id) (b := .tok 44) (l0 := true) (k := es.length) (o2 := fun u1 => (evalArgs C es).map (pushedAll u1)) ha (fun u1 h1 => by
      cases hx : e.eval C with
      | error c => rw [hx] at h1; cases h1
      | ok x =>
        rw [hx] at h1
        cases h1
        exact does_more hC hd ih ht' (by simp at hn; omega) h2 hu)
    have heq : ((e.eval C).map (pushed u)).bind (fun u1 => (evalArgs C es).map (pushedAll u1)) =
        (evalArgs C (e :: es)).map (pushedAll u) := by
      simp only [evalArgs]
      cases e.eval C with
      | error c => rfl
      | ok x =>
        cases evalArgs C es with
        | error c => rfl
        | ok vs => simp [Except.map, Except.bind, pushed, pushedAll]
    rw [heq] at this
    exact this

theorem readsMore_count : ∀ {es : List Ex} {ts : List Token}, ReadsMore C ts es → es.length ≤ ts.length
  | [], _, _ => Nat.zero_le _
  | _ :: es, _, h => by
    cases h with
    | cons _ _ h2 => have := readsMore_count h2; simp; omega

theorem readsArgs_count {es : List Ex} {ts : List Token} (h : ReadsArgs C ts es) : es.length ≤ ts.length + 1 := by
  cases h with
  | nil => exact Nat.zero_le _
  | some _ h => have := readsMore_count h; simp; omega

/-- Counts of arguments survive on the stack of numbers, up to `n`. -/
def Counts (C : Calc V F) (n : Nat) : Prop := ∀ k ≤ n, C.toArity (C.ofArity (k : Nat)) = .ok (k : Nat)

/-- Factors, given that smaller expressions work. -/
theorem does_factor (hC : C.Ok) {N n : Nat} (hN : Counts C N) (hnN : n ≤ N)
    (ihf : ∀ {ts e} {rest} {u : Eng V}, ts.length < n → Reads C 2 ts e → Stops C 2 rest → u.mute = 0 →
      Does C.env C.client.sem Raises (.var 0) ts rest u ((e.eval C).map (pushed u)))
    (ihd : ∀ {ts e} {rest} {u : Eng V}, ts.length < n → Reads C 0 ts e → Stops C 0 rest → u.mute = 0 →
      Does C.env C.client.sem Raises (.named (str "doc") C.doc) ts rest u ((e.eval C).map (pushed u)))
    {ts rest : List Token} {e : Ex} {u : Eng V} (hn : ts.length ≤ n) (h : Reads C 2 ts e) (hr : Stops C 2 rest) (hu : u.mute = 0) :
    Does C.env C.client.sem Raises (.var 0) ts rest u ((e.eval C).map (pushed u)) := by
  refine does_var (g := C.factor) rfl ?_
  have hne : ∀ {t : Token} {src : List Token} (k k' : Nat), t.kind = k' → k' ≠ k → ∀ t', (t :: src).head? = some t' → t'.kind ≠ k := by
    intro t src k k' hk hkk t' h' heq
    simp at h'
    subst h'
    omega
  have hlit : ∀ {t : Token} {src : List Token} (k : Nat), t.kind = k → (k ≠ INT ∧ k ≠ FLOAT ∧ k ≠ IMAG) →
      ∀ g ∈ C.litAlts, Rejects C.env C.client.sem g (t :: src) := by
    intro t src k hk h
    refine rejects_lit hC ?_
    intro t' h'
    simp at h'
    subst h'
    exact litRule_none hC (by rw [hk]; exact h)
  cases h with
  | @num t r hrule =>
    obtain ⟨pre, post, hsplit, hpre⟩ := (List.find?_eq_some_iff_append.mp hrule).2
    have : C.factor = .or ((pre.map fun r => .action r.mark (.tok r.kind)) ++ (.action r.mark (.tok r.kind)) ::
        ((post.map fun r => .action r.mark (.tok r.kind)) ++ (negAlt :: C.parenAlt :: C.callAlt :: (C.identAlts ++ [posAlt])))) := by
      unfold factor litAlts
      rw [hsplit]
      simp
    rw [this]
    refine does_or ?_ ?_
    · intro g hg
      rw [List.mem_map] at hg
      obtain ⟨r', hr', rfl⟩ := hg
      refine rejects_action (rejects_tok ?_)
      intro t' ht' hf
      simp at ht'
      subst ht'
      have := hpre r' hr'
      rcases hf with hf | ⟨h1, h2⟩ <;> simp_all
    · have hfit : TokFits r.kind t := by
        have := (List.find?_eq_some_iff_append.mp hrule).1
        have := of_decide_eq_true this
        rcases this with h | ⟨h1, h2⟩
        · exact .inl h
        · exact .inr ⟨h1, h2⟩
      have := does_act (a := r.mark) (R := Raises) (f := fun u => (litValue C t).map (pushed u)) (does_tok (rest := rest) (env := C.env)
          (sem := C.client.sem) (R := Raises) (u := u) hfit) (by
        intro fu m s hs
        cases hs
        exact acts_lit hC hrule hu rfl)
      simpa only [Ex.eval, Except.bind] using this
  | @name t ht hi =>
    cases hid : C.ident with
    | none => rw [hid] at hi; cases hi
    | some fn =>
      have : C.factor = .or ((C.litAlts ++ [negAlt, C.parenAlt, C.callAlt]) ++ (.action (str "ident") (.tok IDENT)) :: [posAlt]) := by
        unfold factor identAlts
        rw [hid]
        simp
      rw [this]
      refine does_or ?_ ?_
      · intro g hg
        simp only [List.mem_append, List.mem_cons, List.not_mem_nil, or_false] at hg
        rcases hg with hg | rfl | rfl | rfl
        · exact hlit _ ht (by decide) g hg
        · exact rejects_neg (hne _ _ ht (by decide))
        · exact rejects_paren (hne _ _ ht (by decide))
        · exact rejects_call_paren ht (fun t ht => (hr t ht).1)
      · have := does_act (a := str "ident") (R := Raises) (f := fun u => (fn t.lit).map (pushed u)) (does_tok (rest := rest) (env := C.env)
            (sem := C.client.sem) (R := Raises) (u := u) (k := IDENT) (.inl ht)) (by
          intro fu m s hs
          cases hs
          exact acts_ident hC hid hu rfl)
        simp only [Ex.eval, hid]
        simpa only [Except.bind] using this
  | @neg t ts e ht h1 =>
    refine does_or (hlit _ ht (by decide)) (does_and (doesAll_tok (.inl ht) (doesAll_one (by intro h; cases h) ?_)))
    have hx := ihf (u := u) (by simp at hn; omega) h1 hr hu
    have hact := does_act (a := str "neg") (f := fun u' => (match u'.u.getLast? with
        | some y => (C.neg y).map (pushed u)
        | none => .error .value)) hx (by
      intro fu m s hs
      cases hy : e.eval C with
      | error c => rw [hy] at hs; cases hs
      | ok y =>
        rw [hy] at hs
        simp only [Except.map, Except.ok.injEq] at hs
        rw [← hs]
        simp only [pushed, List.getLast?_append, List.getLast?_singleton, Option.some_or]
        have := acts_neg (f := fu) (m := m) (g := .var 0) (toks := ts) (s := s) hC (base := u.u) (x := y)
          (by rw [← hs]; exact hu) (by rw [← hs]; simp [pushed])
        rw [← hs] at this
        exact this)
    have heq : ((e.eval C).map (pushed u)).bind (fun u' => (match u'.u.getLast? with
        | some y => (C.neg y).map (pushed u)
        | none => .error .value)) = ((Ex.neg e).eval C).map (pushed u) := by
      simp only [Ex.eval]
      cases e.eval C with
      | error c => rfl
      | ok y => simp [Except.map, Except.bind, pushed]
    rw [heq] at hact
    exact hact
  | @pos t ts e ht h1 =>
    have : C.factor = .or ((C.litAlts ++ negAlt :: C.parenAlt :: C.callAlt :: C.identAlts) ++ posAlt :: []) := by
      unfold factor
      simp
    rw [this]
    refine does_or ?_ (does_and (doesAll_tok (.inl ht) (doesAll_one (by intro h; cases h) ?_)))
    · intro g hg
      simp only [List.mem_append, List.mem_cons] at hg
      rcases hg with hg | rfl | rfl | rfl | hg
      · exact hlit _ ht (by decide) g hg
      · exact rejects_neg (hne _ _ ht (by decide))
      · exact rejects_paren (hne _ _ ht (by decide))
      · exact rejects_call_kind (hne _ _ ht (by decide))
      · exact rejects_ident (hne _ _ ht (by decide)) g hg
    · exact ihf (by simp at hn; omega) h1 hr hu
  | @paren t ts t' e ht h1 ht' =>
    have : C.factor = .or ((C.litAlts ++ [negAlt]) ++ C.parenAlt :: (C.callAlt :: (C.identAlts ++ [posAlt]))) := by
      unfold factor
      simp
    rw [this]
    refine does_or ?_ (does_and (doesAll_tok (.inl ht) ?_))
    · intro g hg
      simp only [List.mem_append, List.mem_cons, List.not_mem_nil, or_false] at hg
      rcases hg with hg | rfl
      · exact hlit _ ht (by decide) g hg
      · exact rejects_neg (hne _ _ ht (by decide))
    · have hx := ihd (u := u) (rest := [t'] ++ rest) (by simp at hn; omega) h1 (ops_closed hC (.inl ht')) hu
      have := doesAll_cons (gs := [.tok 41]) (t2 := [t']) (o2 := fun u => .ok u) (by intro h; cases h) hx
        (fun u1 _ => doesAll_one (by intro h; cases h) (does_tok (.inl ht')))
      have heq : ((e.eval C).map (pushed u)).bind (fun u => .ok u) = (e.eval C).map (pushed u) := by
        cases e.eval C <;> rfl
      rw [heq] at this
      exact this
  | @call f t ts t' es hf ht h1 ht' =>
    have : C.factor = .or ((C.litAlts ++ [negAlt, C.parenAlt]) ++ C.callAlt :: (C.identAlts ++ [posAlt])) := by
      unfold factor
      simp
    rw [this]
    refine does_or ?_ ?_
    · intro g hg
      simp only [List.mem_append, List.mem_cons, List.not_mem_nil, or_false] at hg
      rcases hg with hg | rfl | rfl
      · exact hlit _ hf (by decide) g hg
      · exact rejects_neg (hne _ _ hf (by decide))
      · exact rejects_paren (hne _ _ hf (by decide))
    · have hcnt := readsArgs_count h1
      have hlen : ts.length + 3 ≤ n := by simp at hn; omega
      have hargs := does_args (id := 2) (n := ts.length) hC (by intro h; cases h) (rejects_doc hC)
        (fun a b c d => ihd (by omega) b c d) (rest := rest) ht' (Nat.le_refl _) h1 hu
      have har := doesL_act (a := str "ARITY") (f := fun u => .ok (pushed u (C.ofArity es.length))) hargs (by
        intro fu m s hs hl
        have := acts_arity (f := fu) (m := m) (g := .list 2 (.named (str "doc") C.doc) (.tok 44) true) (toks := ts) (s := s) hC (by
          cases hv : evalArgs C es with
          | error c => rw [hv] at hs; cases hs
          | ok vs =>
            rw [hv] at hs
            simp only [Except.map, Except.ok.injEq] at hs
            rw [← hs]
            exact hu)
        rw [hl] at this
        exact this)
      have hbody : Does C.env C.client.sem Raises (.and [.tok IDENT, .tok 40, .action (str "ARITY") (.list 2 (.named (str "doc") C.doc) (.tok 44) true), .tok 41])
          (f :: t :: (ts ++ [t'])) rest u ((evalArgs C es).map fun vs => pushed (pushedAll u vs) (C.ofArity es.length)) := by
        refine does_and (doesAll_tok (.inl hf) (doesAll_tok (.inl ht) ?_))
        have := doesAll_cons (gs := [.tok 41]) (t2 := [t']) (o2 := fun u => .ok u) (by intro h; cases h) har.does
          (fun u1 _ => doesAll_one (by intro h; cases h) (does_tok (.inl ht')))
        have heq : ((((evalArgs C es).map (pushedAll u)).bind fun u => .ok (pushed u (C.ofArity es.length))).bind fun u => .ok u) =
            (evalArgs C es).map fun vs => pushed (pushedAll u vs) (C.ofArity es.length) := by
          cases evalArgs C es <;> rfl
        rw [heq] at this
        exact this
      have hact := does_act (a := str "call") (f := fun u' => (match evalArgs C es with
          | .ok vs => (apply C f.lit vs).map (pushed u)
          | .error c => .error c)) hbody (by
        intro fu m s hs
        cases hv : evalArgs C es with
        | error c => rw [hv] at hs; cases hs
        | ok vs =>
          rw [hv] at hs
          simp only [Except.map, Except.ok.injEq] at hs
          have hl := evalArgs_length es vs hv
          have := acts_call (f := fu) (m := m) (s := s) (toks := f :: t :: (ts ++ [t'])) (t := f) (base := u.u) (vs := vs)
            (g := .and [.tok IDENT, .tok 40, .action (str "ARITY") (.list 2 (.named (str "doc") C.doc) (.tok 44) true), .tok 41]) hC
            (by rw [← hs]; exact hu) (by rw [← hs, hl]; simp [pushed, pushedAll]) (hN _ (by omega)) rfl
          rw [← hs] at this
          exact this)
      have heq : ((evalArgs C es).map fun vs => pushed (pushedAll u vs) (C.ofArity es.length)).bind (fun u' => (match evalArgs C es with
          | .ok vs => (apply C f.lit vs).map (pushed u)
          | .error c => .error c)) = ((Ex.call f es).eval C).map (pushed u) := by
        simp only [Ex.eval]
        cases evalArgs C es with
        | error c => rfl
        | ok vs => rfl
      rw [heq] at hact
      exact hact

/-- The value of an expression is pushed. -/
theorem does_expr (hC : C.Ok) {N : Nat} (hN : Counts C N) : ∀ n ≤ N + 1, ∀ {ts : List Token} {rest : List Token} {e : Ex} {u : Eng V},
    ts.length < n → u.mute = 0 →
    (Reads C 2 ts e → Stops C 2 rest → Does C.env C.client.sem Raises (.var 0) ts rest u ((e.eval C).map (pushed u))) ∧
    (Reads C 0 ts e → Stops C 0 rest → Does C.env C.client.sem Raises C.doc ts rest u ((e.eval C).map (pushed u))) := by
  intro n
  induction n with
  | zero => intro _ ts rest e u hn; omega
  | succ n ih =>
    intro hnN ts rest e u hn hu
    have ih := @ih (by omega)
    have hfac : ∀ {ts : List Token} {e : Ex} {rest : List Token} {u : Eng V}, ts.length ≤ n → Reads C 2 ts e → Stops C 2 rest →
        u.mute = 0 → Does C.env C.client.sem Raises (.var 0) ts rest u ((e.eval C).map (pushed u)) := by
      intro ts e rest u hn h hr hu
      exact does_factor hC hN (by omega) (fun a b c d => (ih a d).1 b c) (fun a b c d => does_named ((ih a d).2 b c)) hn h hr hu
    have hterm : ∀ {ts : List Token} {e : Ex} {rest : List Token} {u : Eng V}, ts.length ≤ n → Reads C 1 ts e → Stops C 1 rest →
        u.mute = 0 → Does C.env C.client.sem Raises (.named (str "term") C.term) ts rest u ((e.eval C).map (pushed u)) := by
      intro ts e rest u hn h hr hu
      exact does_named (does_chain (l := 1) hC (by decide) (by intro h; cases h) hfac hn h hr hu)
    refine ⟨fun h hr => hfac (by omega) h hr hu, fun h hr => ?_⟩
    exact does_chain (l := 0) hC (by decide) (by intro h; cases h) hterm (by omega) h hr hu

end Calc
end Tpl
