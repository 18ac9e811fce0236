import Verif.Proof.Parsed
import Verif.Proof.CalcEval
import Verif.Props.Grammar

/-!
What a calculator accepts is an expression, and it always comes to an end.
-/
namespace Tpl
open Spec

section
variable {rules : Nat → Option (Peg Nat)}

theorem parsed_altOf {Q : List Token → Prop} {L : Nat} : ∀ {ps : List (Peg Nat)}, (∀ p ∈ ps, Parsed rules p Q L) → Parsed rules (altOf ps) Q L
  | [], _ => parsed_never
  | _ :: _, h => parsed_alt (h _ (.head _)) (parsed_altOf fun p hp => h p (.tail _ hp))

theorem toPegs_map {A : Type} : ∀ (gs : List (Gr A)), toPegs gs = gs.map toPeg
  | [] => rfl
  | g :: gs => by simp only [toPegs, List.map_cons]; rw [toPegs_map gs]

theorem parsed_kind {A : Type} {k L : Nat} : Parsed rules (toPeg (.tok k : Gr A)) (fun ts => ∃ t : Token, ts = [t] ∧ TokFits k t) L := by
  refine Parsed.imp (parsed_sym (q := kindFits k)) ?_
  rintro ts ⟨t, rfl, h⟩
  refine ⟨t, rfl, ?_⟩
  unfold kindFits at h
  unfold TokFits
  simpa using h

theorem parsed_seq1 {a : Peg Nat} {Q : List Token → Prop} {L : Nat} (h : Parsed rules a Q L) : Parsed rules (.seq a .empty) Q L := by
  refine (parsed_seq h (parsed_empty (Q := fun t => t = []) rfl)).imp ?_
  rintro t ⟨t1, t2, rfl, h1, rfl⟩
  simpa using h1
end

namespace Calc
variable {V F : Type} {C : Calc V F}

/-- The tokens are an expression of level `l`. -/
def IsExpr (C : Calc V F) (l : Nat) (ts : List Token) : Prop := ∃ e, Reads C l ts e

theorem reads_up {ts : List Token} {e : Ex} {l : Nat} (hl : l < 2) (h : Reads C (l + 1) ts e) : Reads C l ts e := by
  match l, hl with
  | 0, _ => exact .sum h
  | 1, _ => exact .product h

theorem reads_op {ts us : List Token} {a b : Ex} {t : Token} {o : BinOp} {l : Nat} (hl : l < 2) (h : Reads C l ts a)
    (ho : (t.kind, o) ∈ C.ops l) (hb : Reads C (l + 1) us b) : Reads C l (ts ++ t :: us) (.bin o a b) := by
  match l, hl with
  | 0, _ =>
    simp [ops] at ho
    rcases ho with ⟨h1, rfl⟩ | ⟨h1, rfl⟩
    · exact .add h h1 hb
    · exact .sub h h1 hb
  | 1, _ => exact .mul h ho hb

theorem parsed_chain (hC : C.Ok) {rules : Nat → Option (Peg Nat)} {l : Nat} (hl : l < 2) {item : Gr Str} (hitem : isNil item = false)
    {id L : Nat} (h : Parsed rules (toPeg item) (IsExpr C (l + 1)) L) :
    Parsed rules (toPeg (.and [item, .rep0 id (.or ((C.ops l).map fun p => .and [.tok p.1, .action p.2.mark item]))] : Gr Str)) (IsExpr C l) L := by
  have hop : ∀ p ∈ C.ops l, Parsed rules (toPeg (.and [.tok p.1, .action p.2.mark item] : Gr Str))
      (fun ts => ∃ t us o, ts = t :: us ∧ (t.kind, o) ∈ C.ops l ∧ IsExpr C (l + 1) us) L := by
    intro p hp
    simp only [toPeg, toItems, isNil, seqOf]
    refine (parsed_seq (parsed_kind (A := Str)) (parsed_seq1 h)).imp ?_
    rintro ts ⟨t1, us, rfl, ⟨t, rfl, hf⟩, hus⟩
    refine ⟨t, us, p.2, rfl, ?_, hus⟩
    have hk := op_kind hC hp
    have : t.kind = p.1 := (fits_iff (by intro h; rw [h] at hk; exact absurd hk (by decide))).mp hf
    rw [this]
    exact hp
  simp only [toPeg, toItems, hitem, Bool.false_eq_true, if_false]
  simp only [isNil, seqOf, Bool.false_eq_true, if_false]
  refine (parsed_seq h (parsed_seq1 (parsed_star (parsed_altOf (Q := fun ts => ∃ t us o, ts = t :: us ∧ (t.kind, o) ∈ C.ops l ∧ IsExpr C (l + 1) us) ?_)))).imp ?_
  · intro q hq
    rw [toPegs_map, List.map_map, List.mem_map] at hq
    obtain ⟨p, hp, rfl⟩ := hq
    exact hop p hp
  · rintro ts ⟨t1, t2, rfl, ⟨a, ha⟩, pieces, rfl, hpieces⟩
    have key : ∀ (pieces : List (List Token)) (t1 : List Token) (a : Ex), Reads C l t1 a →
        (∀ x ∈ pieces, ∃ t us o, x = t :: us ∧ (t.kind, o) ∈ C.ops l ∧ IsExpr C (l + 1) us) → IsExpr C l (t1 ++ pieces.flatten) := by
      intro pieces
      induction pieces with
      | nil => intro t1 a ha _; exact ⟨a, by simpa using ha⟩
      | cons x pieces ih =>
        intro t1 a ha hp
        obtain ⟨t, us, o, rfl, ho, b, hb⟩ := hp x (.head _)
        have := ih (t1 ++ t :: us) _ (reads_op hl ha ho hb) (fun y hy => hp y (.tail _ hy))
        simpa using this
    exact key pieces t1 a (reads_up hl ha) hpieces

theorem kind_of_fits {k : Nat} (hk : k ≠ FLOAT) {t : Token} (h : TokFits k t) : t.kind = k := (fits_iff hk).mp h

theorem parsed_expr (hC : C.Ok) : ∀ L, Parsed (toRules C.env) (.rule 0) (IsExpr C 2) L ∧ Parsed (toRules C.env) (toPeg C.doc) (IsExpr C 0) L := by
  intro L
  induction L using Nat.strongRecOn with
  | ind L ih =>
    have hfac : Parsed (toRules C.env) (.rule 0) (IsExpr C 2) L := by
      refine parsed_rule (p := toPeg C.factor) rfl ?_
      unfold factor
      simp only [toPeg]
      refine parsed_altOf ?_
      intro q hq
      rw [toPegs_map, List.mem_map] at hq
      obtain ⟨g, hg, rfl⟩ := hq
      simp only [List.mem_append, List.mem_cons, List.not_mem_nil, or_false] at hg
      rcases hg with hg | rfl | rfl | rfl | hg | rfl
      · unfold litAlts at hg
        rw [List.mem_map] at hg
        obtain ⟨r, hr, rfl⟩ := hg
        simp only [toPeg]
        refine (parsed_kind (A := Str)).imp ?_
        rintro ts ⟨t, rfl, hf⟩
        cases hl : litRule? C t with
        | some r' => exact ⟨_, .num hl⟩
        | none =>
          unfold litRule? at hl
          rw [List.find?_eq_none] at hl
          exfalso
          apply hl r hr
          rcases hf with hf | ⟨h1, h2⟩ <;> simp_all
      · simp only [negAlt, toPeg, toItems, isNil, seqOf, Bool.false_eq_true, if_false]
        refine (parsed_seq_lt (parsed_kind (A := Str)) (by rintro t ⟨_, rfl, _⟩; simp) (fun L' hL' => parsed_seq1 (ih L' hL').1)).imp ?_
        rintro ts ⟨t1, us, rfl, ⟨t, rfl, hf⟩, e, he⟩
        exact ⟨_, .neg (kind_of_fits (by decide) hf) he⟩
      · simp only [parenAlt, toPeg, toItems, isNil, seqOf, Bool.false_eq_true, if_false]
        refine (parsed_seq_lt (parsed_kind (A := Str)) (by rintro t ⟨_, rfl, _⟩; simp)
          (fun L' hL' => parsed_seq (ih L' hL').2 (parsed_seq1 (parsed_kind (A := Str))))).imp ?_
        rintro ts ⟨t1, us, rfl, ⟨t, rfl, hf⟩, t2, t3, rfl, ⟨e, he⟩, t', rfl, hf'⟩
        exact ⟨_, .paren (kind_of_fits (by decide) hf) he (kind_of_fits (by decide) hf')⟩
      · simp only [callAlt, toPeg, toItems, isNil, seqOf, Bool.false_eq_true, if_false, if_true]
        have hmore : ∀ L' < L, Parsed (toRules C.env) (.alt (.seq (toPeg C.doc) (.star (.seq (.sym (kindFits 44)) (.seq (toPeg C.doc) .empty)))) .empty)
            (fun ts => ∃ es, ReadsArgs C ts es) L' := by
          intro L' hL'
          have hd := (ih L' hL').2
          refine parsed_alt ?_ (parsed_empty ⟨[], .nil⟩)
          refine (parsed_seq hd (parsed_star (parsed_seq (parsed_kind (A := Str)) (parsed_seq1 hd)))).imp ?_
          rintro ts ⟨t1, t2, rfl, ⟨a, ha⟩, pieces, rfl, hp⟩
          have key : ∀ (pieces : List (List Token)), (∀ x ∈ pieces, ∃ t1 t2, x = t1 ++ t2 ∧ (∃ t : Token, t1 = [t] ∧ TokFits 44 t) ∧ IsExpr C 0 t2) →
              ∃ es, ReadsMore C pieces.flatten es := by
            intro pieces
            induction pieces with
            | nil => intro _; exact ⟨[], .nil⟩
            | cons x pieces ihp =>
              intro hp
              obtain ⟨es, hes⟩ := ihp (fun y hy => hp y (.tail _ hy))
              obtain ⟨_, t2, rfl, ⟨t, rfl, hf⟩, b, hb⟩ := hp x (.head _)
              refine ⟨b :: es, ?_⟩
              have := ReadsMore.cons (kind_of_fits (by decide) hf) hb hes
              simpa using this
          obtain ⟨es, hes⟩ := key pieces hp
          exact ⟨a :: es, .some ha hes⟩
        refine (parsed_seq_lt (parsed_kind (A := Str)) (by rintro t ⟨_, rfl, _⟩; simp)
          (fun L' hL' => parsed_seq (parsed_kind (A := Str)) (parsed_seq (hmore L' hL') (parsed_seq1 (parsed_kind (A := Str)))))).imp ?_
        rintro ts ⟨_, _, rfl, ⟨f, rfl, hf⟩, _, _, rfl, ⟨t, rfl, ht⟩, us, _, rfl, ⟨es, hes⟩, t', rfl, ht'⟩
        exact ⟨_, .call (kind_of_fits (by decide) hf) (kind_of_fits (by decide) ht) hes (kind_of_fits (by decide) ht')⟩
      · unfold identAlts at hg
        cases hi : C.ident with
        | none => rw [hi] at hg; cases hg
        | some fn =>
          rw [hi] at hg
          simp only [List.mem_cons, List.not_mem_nil, or_false] at hg
          subst hg
          simp only [toPeg]
          refine (parsed_kind (A := Str)).imp ?_
          rintro ts ⟨t, rfl, hf⟩
          exact ⟨_, .name (kind_of_fits (by decide) hf) (by rw [hi]; rfl)⟩
      · simp only [posAlt, toPeg, toItems, isNil, seqOf, Bool.false_eq_true, if_false]
        refine (parsed_seq_lt (parsed_kind (A := Str)) (by rintro t ⟨_, rfl, _⟩; simp) (fun L' hL' => parsed_seq1 (ih L' hL').1)).imp ?_
        rintro ts ⟨t1, us, rfl, ⟨t, rfl, hf⟩, e, he⟩
        exact ⟨_, .pos (kind_of_fits (by decide) hf) he⟩
    refine ⟨hfac, ?_⟩
    have hterm : Parsed (toRules C.env) (toPeg (.named (str "term") C.term)) (IsExpr C 1) L := by
      have := parsed_chain (l := 1) hC (by decide) (item := .var 0) rfl (id := 0) (L := L) hfac
      exact this
    exact parsed_chain (l := 0) hC (by decide) rfl hterm

/-- What is accepted is an expression. -/
theorem eval_expr (hC : C.Ok) {toks : List Token} {s s' : St (Eng V)} (h : Eval C.env C.client.sem C.doc toks s (.ok toks.length s')) :
    ∃ e, Reads C 0 toks e := by
  have := (Props.C23_sound h).1 _ _ rfl
  obtain ⟨t1, t2, h1, h2, h3⟩ := (parsed_expr hC toks.length).2 toks (Nat.le_refl _) _ this
  have : t2 = [] := by
    have := congrArg List.length h1
    rw [List.length_append] at this
    exact List.eq_nil_of_length_eq_zero (by omega)
  subst this
  rw [List.append_nil] at h1
  rw [h1]
  exact h3

/-! ### It ends -/

/-- Code without matching and loops. -/
def Ends {α : Type} (x : Code V α) : Prop := ∀ f m s, (x.run f m s).isSome

theorem ends_pure {α : Type} (a : α) : Ends (pure a : Code V α) := fun _ _ _ => rfl
theorem ends_panic {α : Type} (p) : Ends (Go.panic p : Code V α) := fun _ _ _ => rfl
theorem ends_get : Ends (Go.get : Code V _) := fun _ _ _ => rfl
theorem ends_modify (g) : Ends (Go.modify g : Code V _) := fun _ _ _ => rfl
theorem ends_len (g) : Ends (Go.len g : Code V _) := fun _ _ _ => rfl

theorem ends_bind {α β : Type} {x : Code V α} {k : α → Code V β} (hx : Ends x) (hk : ∀ a, Ends (k a)) : Ends (x >>= k) := by
  intro f m s
  have := hx f m s
  rw [Go.run_bind]
  cases hr : x.run f m s with
  | none => rw [hr] at this; cases this
  | some c =>
    cases c with
    | panic p s' => rfl
    | ok a s' => exact hk a f m s'

theorem ends_recover {α : Type} {x : Code V α} {k} (hx : Ends x) (hk : ∀ p, Ends (k p)) : Ends (Go.recover x k) := by
  intro f m s
  have := hx f m s
  rw [Go.run_recover]
  cases hr : x.run f m s with
  | none => rw [hr] at this; cases this
  | some c =>
    cases c with
    | panic p s' => exact hk p f m s'
    | ok a s' => rfl

theorem ends_lift {α : Type} (x : Except Fault α) : Ends (lift x : Code V α) := by
  cases x
  · exact ends_panic _
  · exact ends_pure _

theorem ends_validateAll (R : Reflect V) : ∀ (vs : List (Option V)) (ts : List GoTy), Ends (validateAll R vs ts : Code V _)
  | [], _ => ends_pure _
  | _ :: _, [] => ends_pure _
  | v :: vs, t :: ts => by
    unfold validateAll
    refine ends_bind ?_ ?_
    · unfold validateType
      repeat' split
      all_goals first | exact ends_pure _ | exact ends_panic _
    · rintro (e | w)
      · exact ends_pure _
      · refine ends_bind (ends_validateAll R vs ts) ?_
        rintro (e | w) <;> exact ends_pure _

theorem ends_push : ∀ (ws : List V), Ends (stack.push ws : Code V _)
  | [] => ends_pure _
  | w :: ws => by
    unfold SliceStack.push
    simp only [stack]
    exact ends_bind (ends_modify _) fun _ => ends_push ws

theorem ends_doCall (R : Reflect V) {fn : GoFn (Go Str (Eng V) (IPanic CalcErr Empty)) V} (hfn : ∀ ws, Ends (fn.body ws)) (n : Nat) :
    Ends (doCall R stack.iface fn n) := by
  have hcall : ∀ ins, Ends (reflectCall R fn ins) := by
    intro ins
    unfold reflectCall
    split
    · exact hfn _
    · exact ends_panic _
  unfold doCall
  dsimp only
  split
  · refine ends_bind ?_ ?_
    · simp only [SliceStack.iface]
      refine ends_bind ends_get fun s => ?_
      split
      · exact ends_bind (ends_modify _) fun _ => ends_pure _
      · exact ends_pure _
    · rintro (_ | args)
      · exact ends_pure _
      · refine ends_bind ?_ ?_
        · unfold validateArgs
          cases fn.rest with
          | none => exact ends_validateAll R _ _
          | some t =>
            refine ends_bind (ends_validateAll R _ _) ?_
            rintro (e | rs)
            · exact ends_pure _
            · refine ends_bind (ends_validateAll R _ _) ?_
              rintro (e | rs) <;> exact ends_pure _
        · rintro (e | ins)
          · exact ends_pure _
          · exact ends_bind (hcall _) fun out => ends_bind (ends_push out) (by rintro (_ | e) <;> exact ends_pure _)
  · exact ends_bind (hcall _) fun out => ends_bind (ends_push out) (by rintro (_ | e) <;> exact ends_pure _)

theorem ends_goFn (fn : CalcFn V) : ∀ ws, Ends ((C.goFn fn).body ws) :=
  fun ws => ends_bind (ends_lift _) fun _ => ends_pure _

theorem ends_call (fn : CalcFn V) (n : Int) : Ends (call C.refl stack.iface (C.goFn fn) n) := by
  unfold call
  dsimp only
  cases (C.goFn fn).rest with
  | none => dsimp only; split <;> first | exact ends_pure _ | exact ends_doCall _ (ends_goFn fn) _
  | some t => dsimp only; split <;> first | exact ends_pure _ | exact ends_doCall _ (ends_goFn fn) _

theorem ends_callFn (name : Str) : Ends (C.callFn name) := by
  unfold callFn
  cases C.fns name with
  | none => exact ends_panic _
  | some fn =>
    refine ends_bind ?_ ?_
    · unfold pop
      refine ends_bind ends_get fun s => ?_
      split
      · exact ends_pure _
      · exact ends_bind (ends_modify _) fun _ => ends_pure _
    · rintro (_ | a)
      · exact ends_panic _
      · refine ends_bind (ends_lift _) fun n => ends_bind (ends_call fn n) ?_
        rintro (_ | e)
        · exact ends_pure _
        · exact ends_panic _

theorem ends_markArgs (L : Lits F) (mark : Str) (params : List ArgTy) (toks : List Token) (g : Gr Str) :
    Ends (markArgs L mark params toks g : Code V _) := by
  have hctx : Ends (ctxValue toks : Code V _) := by
    unfold ctxValue
    repeat' split
    all_goals first | exact ends_pure _ | exact ends_panic _
  unfold markArgs
  cases params with
  | nil => exact ends_pure _
  | cons t more =>
    have hjp : ∀ a : Arg F, Ends (match more with
        | [] => pure [a]
        | t2 :: _ => do
          let c ← ctxValue toks
          if t2 = ArgTy.ctx ∨ t2 = ArgTy.intf then pure [a, Arg.ctx c] else Go.panic (Panic.user (IPanic.str PMsg.reflect)) : Code V _) := by
      intro a
      cases more with
      | nil => exact ends_pure _
      | cons t2 _ =>
        refine ends_bind hctx fun c => ?_
        split
        · exact ends_pure _
        · exact ends_panic _
    have hlit : ∀ t, Ends (litArg L mark t toks : Code V _) := by
      intro t
      unfold litArg
      repeat' split
      all_goals first | exact ends_pure _ | exact ends_panic _
    dsimp only
    split
    · split
      · exact ends_bind (ends_len _) fun _ => hjp _
      · exact ends_bind (ends_panic _) fun _ => hjp _
    · split
      · exact ends_bind hctx fun _ => hjp _
      · exact hjp _
      · exact hjp _
      · exact ends_bind (hlit _) fun _ => hjp _

theorem ends_entry {mark : Str} {e} (he : C.table mark = some e) (toks : List Token) (g : Gr Str) :
    Ends (C.client.perform mark e toks g) := by
  have hrecv : ∀ ps ok (body : List (Arg F) → Code V Unit), (∀ as, Ends (body as)) →
      Ends (C.client.perform mark (.recv ps ok body) toks g) := by
    intro ps ok body h
    simp only [Client.perform]
    exact ends_bind (ends_markArgs _ _ _ _ _) h
  have hplain : ∀ fn, Ends (C.client.perform mark (.plain (C.goFn fn)) toks g) := by
    intro fn
    simp only [Client.perform, client]
    refine ends_bind (ends_doCall _ (ends_goFn fn) _) ?_
    rintro (_ | e)
    · exact ends_pure _
    · exact ends_panic _
  unfold table at he
  split at he
  · cases he
    refine hrecv _ _ _ fun as => ?_
    unfold litBody
    split
    · exact ends_bind (ends_lift _) fun _ => ends_modify _
    · exact ends_pure _
  · split at he
    · cases he; exact hplain _
    · split at he
      · cases he; exact hplain _
      · split at he
        · cases he
          refine hrecv _ _ _ fun as => ?_
          unfold arityBody
          split
          · exact ends_modify _
          · exact ends_pure _
        · split at he
          · cases he
            refine hrecv _ _ _ fun as => ?_
            unfold callBody
            split
            · exact ends_callFn _
            · exact ends_pure _
          · split at he
            · split at he
              · cases he
                refine hrecv _ _ _ fun as => ?_
                unfold identBody
                split
                · exact ends_bind (ends_lift _) fun _ => ends_modify _
                · exact ends_pure _
              · cases he
            · cases he

theorem returns (C : Calc V F) : Returns C.env C.client.sem := by
  intro a g toks s
  have : Ends (C.client.action a g toks) := by
    unfold Client.action
    cases he : C.client.table a with
    | none =>
      show Ends (if a = str "_mute" then _ else if a = str "_unmute" then _ else _)
      split
      · exact ends_modify _
      · split
        · exact ends_modify _
        · exact ends_pure _
    | some e =>
      refine ends_bind ends_get fun u => ?_
      split
      · exact ends_pure _
      · exact ends_recover (ends_entry he toks g) fun _ => ends_panic _
  have := this 0 (matchG C.env C.client.sem 0) s
  obtain ⟨c, hc⟩ := Option.isSome_iff_exists.mp this
  exact ⟨c, 0, hc⟩

end Calc
end Tpl
