import Verif.Proof.Keep
import Verif.Proof.CalcParse

/-! The actions of a calculator leave the scanner alone. -/
namespace Tpl
namespace Calc
variable {V F : Type} {C : Calc V F} {P : KwScanner → Prop}

/-- The code keeps the scanner. -/
abbrev KeepK (P : KwScanner → Prop) {α : Type} (x : Code V α) : Prop := Go.Keep (fun (_ : Unit) (u : Eng V) => P u.scanner) x

theorem keepk_mod {f : List V → List V} : KeepK P (Go.modify (Eng.onStack stack f) : Code V _) := Go.Keep.modify fun _ _ h => h

theorem keepk_lift {α : Type} (x : Except Fault α) : KeepK P (lift x : Code V α) := by
  cases x
  · exact Go.Keep.panic
  · exact Go.Keep.pure

theorem keepk_validateAll (R : Reflect V) : ∀ (vs : List (Option V)) (ts : List GoTy), KeepK P (validateAll R vs ts : Code V _)
  | [], _ => Go.Keep.pure
  | _ :: _, [] => Go.Keep.pure
  | v :: vs, t :: ts => by
    unfold validateAll
    refine Go.Keep.bind ?_ ?_
    · unfold validateType
      repeat' split
      all_goals first | exact Go.Keep.pure | exact Go.Keep.panic
    · rintro (e | w)
      · exact Go.Keep.pure
      · refine Go.Keep.bind (keepk_validateAll R vs ts) ?_
        rintro (e | w) <;> exact Go.Keep.pure

theorem keepk_push : ∀ (ws : List V), KeepK P (stack.push ws : Code V _)
  | [] => Go.Keep.pure
  | w :: ws => by
    unfold SliceStack.push
    simp only [stack]
    exact Go.Keep.bind keepk_mod fun _ => keepk_push ws

theorem keepk_doCall (R : Reflect V) {fn : GoFn (Go Str (Eng V) (IPanic CalcErr Empty)) V} (hfn : ∀ ws, KeepK P (fn.body ws)) (n : Nat) :
    KeepK P (doCall R stack.iface fn n) := by
  have hcall : ∀ ins, KeepK P (reflectCall R fn ins) := by
    intro ins
    unfold reflectCall
    split
    · exact hfn _
    · exact Go.Keep.panic
  unfold doCall
  dsimp only
  split
  · refine Go.Keep.bind ?_ ?_
    · simp only [SliceStack.iface]
      refine Go.Keep.bind Go.Keep.get fun s => ?_
      split
      · exact Go.Keep.bind keepk_mod fun _ => Go.Keep.pure
      · exact Go.Keep.pure
    · rintro (_ | args)
      · exact Go.Keep.pure
      · refine Go.Keep.bind ?_ ?_
        · unfold validateArgs
          cases fn.rest with
          | none => exact keepk_validateAll R _ _
          | some t =>
            refine Go.Keep.bind (keepk_validateAll R _ _) ?_
            rintro (e | rs)
            · exact Go.Keep.pure
            · refine Go.Keep.bind (keepk_validateAll R _ _) ?_
              rintro (e | rs) <;> exact Go.Keep.pure
        · rintro (e | ins)
          · exact Go.Keep.pure
          · exact Go.Keep.bind (hcall _) fun out => Go.Keep.bind (keepk_push out) (by rintro (_ | e) <;> exact Go.Keep.pure)
  · exact Go.Keep.bind (hcall _) fun out => Go.Keep.bind (keepk_push out) (by rintro (_ | e) <;> exact Go.Keep.pure)

theorem keepk_goFn (fn : CalcFn V) : ∀ ws, KeepK P ((C.goFn fn).body ws) :=
  fun ws => Go.Keep.bind (keepk_lift _) fun _ => Go.Keep.pure

theorem keepk_call (fn : CalcFn V) (n : Int) : KeepK P (call C.refl stack.iface (C.goFn fn) n) := by
  unfold call
  dsimp only
  cases (C.goFn fn).rest with
  | none => dsimp only; split <;> first | exact Go.Keep.pure | exact keepk_doCall _ (keepk_goFn fn) _
  | some t => dsimp only; split <;> first | exact Go.Keep.pure | exact keepk_doCall _ (keepk_goFn fn) _

theorem keepk_callFn (name : Str) : KeepK P (C.callFn name) := by
  unfold callFn
  cases C.fns name with
  | none => exact Go.Keep.panic
  | some fn =>
    refine Go.Keep.bind ?_ ?_
    · unfold pop
      refine Go.Keep.bind Go.Keep.get fun s => ?_
      split
      · exact Go.Keep.pure
      · exact Go.Keep.bind keepk_mod fun _ => Go.Keep.pure
    · rintro (_ | a)
      · exact Go.Keep.panic
      · refine Go.Keep.bind (keepk_lift _) fun n => Go.Keep.bind (keepk_call fn n) ?_
        rintro (_ | e)
        · exact Go.Keep.pure
        · exact Go.Keep.panic

theorem keepk_markArgs (L : Lits F) (mark : Str) (params : List ArgTy) (toks : List Token) (g : Gr Str) :
    KeepK P (markArgs L mark params toks g : Code V _) := by
  have hctx : KeepK P (ctxValue toks : Code V _) := by
    unfold ctxValue
    repeat' split
    all_goals first | exact Go.Keep.pure | exact Go.Keep.panic
  unfold markArgs
  cases params with
  | nil => exact Go.Keep.pure
  | cons t more =>
    have hjp : ∀ a : Arg F, KeepK P (match more with
        | [] => pure [a]
        | t2 :: _ => do
          let c ← ctxValue toks
          if t2 = ArgTy.ctx ∨ t2 = ArgTy.intf then pure [a, Arg.ctx c] else Go.panic (Panic.user (IPanic.str PMsg.reflect)) : Code V _) := by
      intro a
      cases more with
      | nil => exact Go.Keep.pure
      | cons t2 _ =>
        refine Go.Keep.bind hctx fun c => ?_
        split
        · exact Go.Keep.pure
        · exact Go.Keep.panic
    have hlit : ∀ t, KeepK P (litArg L mark t toks : Code V _) := by
      intro t
      unfold litArg
      repeat' split
      all_goals first | exact Go.Keep.pure | exact Go.Keep.panic
    dsimp only
    split
    · split
      · exact Go.Keep.bind Go.Keep.len fun _ => hjp _
      · exact Go.Keep.bind Go.Keep.panic fun _ => hjp _
    · split
      · exact Go.Keep.bind hctx fun _ => hjp _
      · exact hjp _
      · exact hjp _
      · exact Go.Keep.bind (hlit _) fun _ => hjp _

theorem keepk_entry {mark : Str} {e} (he : C.table mark = some e) (toks : List Token) (g : Gr Str) :
    KeepK P (C.client.perform mark e toks g) := by
  have hrecv : ∀ ps ok (body : List (Arg F) → Code V Unit), (∀ as, KeepK P (body as)) →
      KeepK P (C.client.perform mark (.recv ps ok body) toks g) := by
    intro ps ok body h
    simp only [Client.perform]
    exact Go.Keep.bind (keepk_markArgs _ _ _ _ _) h
  have hplain : ∀ fn, KeepK P (C.client.perform mark (.plain (C.goFn fn)) toks g) := by
    intro fn
    simp only [Client.perform, client]
    refine Go.Keep.bind (keepk_doCall _ (keepk_goFn fn) _) ?_
    rintro (_ | e)
    · exact Go.Keep.pure
    · exact Go.Keep.panic
  unfold table at he
  split at he
  · cases he
    refine hrecv _ _ _ fun as => ?_
    unfold litBody
    split
    · exact Go.Keep.bind (keepk_lift _) fun _ => keepk_mod
    · exact Go.Keep.pure
  · split at he
    · cases he; exact hplain _
    · split at he
      · cases he; exact hplain _
      · split at he
        · cases he
          refine hrecv _ _ _ fun as => ?_
          unfold arityBody
          split
          · exact keepk_mod
          · exact Go.Keep.pure
        · split at he
          · cases he
            refine hrecv _ _ _ fun as => ?_
            unfold callBody
            split
            · exact keepk_callFn _
            · exact Go.Keep.pure
          · split at he
            · split at he
              · cases he
                refine hrecv _ _ _ fun as => ?_
                unfold identBody
                split
                · exact Go.Keep.bind (keepk_lift _) fun _ => keepk_mod
                · exact Go.Keep.pure
              · cases he
            · cases he

theorem keepk_action (a : Str) (g : Gr Str) (toks : List Token) : KeepK P (C.client.action a g toks) := by
  unfold Client.action
  cases he : C.client.table a with
  | none =>
    show KeepK P (if a = str "_mute" then _ else if a = str "_unmute" then _ else _)
    split
    · exact Go.Keep.modify fun _ _ h => h
    · split
      · exact Go.Keep.modify fun _ _ h => h
      · exact Go.Keep.pure
  | some e =>
    refine Go.Keep.bind Go.Keep.get fun u => ?_
    split
    · exact Go.Keep.pure
    · exact Go.Keep.recover (keepk_entry he toks g) fun _ => Go.Keep.panic

theorem keepk_sem : C.client.sem.Keep (fun (_ : Unit) (u : Eng V) => P u.scanner) where
  act i f m a g toks s c hm e hs := (keepk_action a g toks).run i f m s c hm e hs
  start _ _ _ h := h
  finish _ _ _ _ _ h := h

end Calc
end Tpl
