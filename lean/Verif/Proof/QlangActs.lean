import Verif.Proof.QlangDoes
import Verif.Proof.QlangParses

/-! What single marks do. -/
namespace Tpl.Qlang.Src
open Spec
variable {F α β γ δ : Type}

/-! ### Places -/

/-- The grammars that runtime errors mention. -/
def sites (m : String) : Gr Str :=
  if m = "mul" ∨ m = "quo" ∨ m = "mod" then gTerm 0
  else if m = "add" ∨ m = "sub" then gTerm 1
  else if m = "lt" ∨ m = "gt" ∨ m = "eq" ∨ m = "le" ∨ m = "ge" ∨ m = "ne" then gTerm 2
  else if m = "and" then A "_unmute" (A "_code" (gTerm 3))
  else if m = "or" then A "_unmute" (A "_code" (gTerm 4))
  else if m = "pushi" then .tok INT
  else if m = "pushf" then .tok FLOAT
  else if m = "pushs" then .tok STRING
  else if m = "pushc" then .tok CHAR
  else if m = "if" then A "_unmute" (A "_ARITY" (.rep01 29 gElse))
  else if m = "switch" ∨ m = "for" ∨ m = "main" then A "_unmute" (.tok RBRACE)
  else if m = "new" then gNew
  else if m = "class" ∨ m = "map" then .tok RBRACE
  else if m = "recover" ∨ m = "call" then .tok RPAREN
  else if m = "not" ∨ m = "neg" then .var 0
  else if m = "ref" then .tok IDENT
  else if m = "fn" then gFn
  else if m = "slice" ∨ m = "index" then .tok RBRACK
  else if m = "mref" then gMember
  else if m = "assign" then .and [.tok 3, .tok 61, .nil, gExpr]
  else if m = "massign" then gExpr
  else if m = "inc" then .and [.tok 3, .tok 146]
  else if m = "dec" then .and [.tok 3, .tok 147]
  else if m = "adda" then .and [.tok 3, .tok AOp.add.kind, .nil, gExpr]
  else if m = "suba" then .and [.tok 3, .tok AOp.sub.kind, .nil, gExpr]
  else if m = "mula" then .and [.tok 3, .tok AOp.mul.kind, .nil, gExpr]
  else if m = "quoa" then .and [.tok 3, .tok AOp.quo.kind, .nil, gExpr]
  else if m = "moda" then .and [.tok 3, .tok AOp.mod.kind, .nil, gExpr]
  else A "ARITY" (.rep01 6 gExpr)

theorem rewrap_placed (g : Gr Str) (ts : List Token) (p : QPanic F) : rewrap g ts p = placed g ts p := by
  rcases p with e | _ | _ | p
  · cases e <;> rfl
  · rfl
  · rfl
  · cases p <;> rfl

variable {K : Bound} {H : Host F} {r : CompileRet Str} {U : Uni} {S : Setup F} {C : Conf} {l pre post : List (QVal F)} {w : World F}

theorem at_run (S : Setup F) (m : String) (ts : List Token) (y : Prog F β) (w : World F) : S.at m ts y w = match y w with
  | some (.error p, w) => some (.error (placed (S.site m) ts p), w)
  | o => o := rfl

/-- A panic gets its place. -/
theorem ends_placed {env : Env Str} {sem : Sem Str (QEng F) Unit (IPanic QErr (QX (QVal F)))} {m : String} {g : Gr Str} {ts : List Token}
    {y : Prog F β} {f : β → List (QVal F)} {x : QM F Unit} {s : St (QEng F)} {o} (hg : S.site m = g) (ho : S.at m ts y w = o)
    (hp : ∀ o, y w = o → Lost K o ∨ Halts K.fuel env sem x s (fun _ => OkPost C l o (fun b => ((), f b)) ()) (ErrPost C l o) (o = none)) :
    Lost K o ∨ Halts K.fuel env sem (Go.recover x fun p => Go.panic (rewrap g ts p)) s (fun _ => OkPost C l o (fun b => ((), f b)) ()) (ErrPost C l o) (o = none) := by
  rw [at_run] at ho
  cases hy : y w with
  | none =>
    rw [hy] at ho
    obtain rfl : none = o := ho
    rcases hp _ hy with ⟨w', h1⟩ | hp
    · cases h1
    refine .inr ?_
    refine Halts.recover (E0 := fun _ _ => False) (hp.mono (fun _ _ h => h) ?_ id) fun _ _ h => h.elim
    rintro p u ⟨w', h1, _⟩
    cases h1
  | some o1 =>
    rw [hy] at ho
    obtain ⟨o1, w1⟩ := o1
    cases o1 with
    | ok b =>
      subst ho
      rcases hp _ hy with ⟨w', h1⟩ | h1
      · cases h1
      refine .inr ?_
      refine Halts.recover (E0 := fun _ _ => False) (h1.mono (fun _ _ h => h) ?_ nofun) fun _ _ h => h.elim
      rintro p u ⟨w', h1, _⟩
      cases h1
    | error p =>
      subst ho
      rcases hp _ hy with ⟨w', h1⟩ | h1
      · cases h1; exact .inl ⟨_, rfl⟩
      refine .inr ?_
      refine Halts.recover (E0 := fun p' u => p' = p ∧ Broken C.N C.p C.B l w1 u.u) (h1.mono ?_ ?_ nofun) ?_
      · rintro _ u ⟨b, w', h1, _⟩; cases h1
      · rintro p' u ⟨w', h1, h2⟩; cases h1; exact ⟨rfl, h2⟩
      · rintro _ s' ⟨rfl, h2⟩
        refine .panic ⟨w1, ?_, h2⟩
        rw [rewrap_placed, hg]

theorem action_live {c : Client QErr (QX (QVal F)) Nat (QState F) F (QVal F)} {mk : Str} {e : QEntry F} {g : Gr Str} {ts : List Token}
    {env : Env Str} {sem : Sem Str (QEng F) Unit (IPanic QErr (QX (QVal F)))} {s : St (QEng F)} {Q : Unit → QEng F → Prop}
    {E : QPanic F → QEng F → Prop} {N : Prop} (hl : c.table mk = some e) (hm : s.u.mute = 0)
    (h : Halts K.fuel env sem (Go.recover (c.perform mk e ts g) fun p => Go.panic (rewrap g ts p)) s Q E N) :
    Halts K.fuel env sem (c.action mk g ts) s Q E N := by
  unfold Client.action
  rw [hl]
  refine .get ?_
  have : muted s.u.mute mk = false := by rw [hm]; rfl
  simp only [this, Bool.false_eq_true, if_false]
  exact h

/-- A mark that is not muted. -/
theorem Trace.act {m : String} {g : Gr Str} {ts : List Token} {n : Int} {e : QEntry F} {y : Prog F β} {f : β → List (QVal F)}
    (hl : (marks H.lib r U).lookup (str m) = some e) (hg : S.site m = g)
    (hp : ∀ w o, y w = o → Lost K o ∨ ∀ s : St (QEng F), At C (l ++ pre) w s.u → (g.Still (fun _ => False) → g.len s.len = n) →
      Halts K.fuel r.env (client H.lib r U).sem ((client H.lib r U).perform (str m) e ts g) s (fun _ => OkPost C l o (fun b => ((), f b)) ())
        (ErrPost C l o) (o = none)) :
    Trace K H r U C l pre [ev m g ts n] (S.at m ts y) f := by
  intro w o ho
  by_cases hlost : Lost K o
  · exact .inl hlost
  refine .inr fun u hu => KRun.one ?_
  rintro s rfl hlen
  rcases Halts.act (sem := (client H.lib r U).sem) (a := str m) (g := g) (toks := ts) (fun _ _ _ => rfl)
    (action_live (c := client H.lib r U) hl hu.mute ((ends_placed hg ho fun o ho => (hp w o ho).imp_right fun hp => hp s hu hlen).resolve_left hlost)) with ⟨c, h1, h2⟩ | h
  · refine .inl ⟨c, h1, ?_⟩
    cases c with
    | ok _ s' => exact ⟨h2, False.elim⟩
    | panic p s' => exact h2
  · exact .inr h

section
variable {m : String} {g : Gr Str} {ts : List Token} {n : Int} {y : Prog F β} {f : β → List (QVal F)}

theorem lost_or {α : Type} {o : Option (Except (QPanic F) α × World F)} {X : Prop} (h : ¬ Lost K o → X) : Lost K o ∨ X :=
  (Classical.em _).imp_right h

theorem Does.unit {x : QM F Unit} (h : Does K H r U C l pre x y (fun b => ((), f b)) w) {o} (ho : y w = o) : Lost K o ∨ ∀ s : St (QEng F), At C (l ++ pre) w s.u → Halts K.fuel r.env (client H.lib r U).sem x s (fun _ => OkPost C l o (fun b => ((), f b)) ()) (ErrPost C l o) (o = none) :=
  (h o ho).imp_right fun h s hs => (h s hs).mono (fun _ _ h => h) (fun _ _ h => h) id

/-- Marks whose function gets the stack. -/
theorem Trace.onStk {x : QM F Unit} (hx : ∀ w, Does K H r U C l pre x y (fun b => ((), f b)) w)
    (hl : (marks H.lib r U).lookup (str m) = some (Qlang.onStk x) := by rfl) (hg : S.site m = g := by rfl) :
    Trace K H r U C l pre [ev m g ts n] (S.at m ts y) f :=
  .act hl hg fun w _ ho => ((hx w).unit ho).imp_right fun h s hs _ => h s hs

theorem Trace.onIpt {x : Nat → QM F Unit} (hx : ∀ w, Does K H r U C l pre (x C.p) y (fun b => ((), f b)) w)
    (hl : (marks H.lib r U).lookup (str m) = some (Qlang.onIpt x) := by rfl) (hg : S.site m = g := by rfl) :
    Trace K H r U C l pre [ev m g ts n] (S.at m ts y) f :=
  .act hl hg fun w _ ho => ((Does.ipt (hx w)).unit ho).imp_right fun h s hs _ => h s hs

theorem Trace.onEng {x : Nat → QM F Unit} (hx : ∀ w, Does K H r U C l pre (x C.p) y (fun b => ((), f b)) w)
    (hl : (marks H.lib r U).lookup (str m) = some (Qlang.onEng x) := by rfl) (hg : S.site m = g := by rfl)
    (hm : isLenMark (str m) = false := by rfl) :
    Trace K H r U C l pre [ev m g ts n] (S.at m ts y) f :=
  .act hl hg fun w _ ho => ((Does.ipt (hx w)).unit ho).imp_right fun h s hs _ => by
    have := h s hs
    unfold Client.perform Qlang.onEng
    simp only [markArgs, hm, Bool.false_eq_true, if_false]
    exact this

theorem Trace.onStr {x : Nat → Str → QM F Unit} {t : Token} {ts : List Token} (hx : ∀ w, Does K H r U C l pre (x C.p t.lit) y (fun b => ((), f b)) w)
    (hl : (marks H.lib r U).lookup (str m) = some (Qlang.onStr x) := by rfl) (hg : S.site m = g := by rfl)
    (hm : isLenMark (str m) = false := by rfl) :
    Trace K H r U C l pre [ev m g (t :: ts) n] (S.at m (t :: ts) y) f :=
  .act hl hg fun w _ ho => ((Does.ipt (k := fun p => x p t.lit) (hx w)).unit ho).imp_right fun h s hs _ => by
    have := h s hs
    unfold Client.perform Qlang.onStr
    simp only [markArgs, hm, Bool.false_eq_true, if_false, litArg]
    exact this

end

end Tpl.Qlang.Src
