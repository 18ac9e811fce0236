import Verif.Proof.QlangCtl

/-! What muted code leaves on the stack: the tokens of the parts, for later. -/
namespace Tpl.Qlang.Src
open Spec
variable {F α β γ δ : Type} {L : Lib F}
variable {K : Bound} {H : Host F} {r : CompileRet Str} {U : Uni} {S : Setup F} {C : Conf} {l pre post : List (QVal F)} {w : World F}
variable {g : Gr Str} {ts : List Token} {n : Int} {u u' : QEng F} {es es' : List (Ev Str)}

/-- More on the stack. -/
def onto (u : QEng F) (vs : List (QVal F)) : QEng F := { u with u := { u.u with stk := u.u.stk ++ vs } }

theorem onto_nil : onto u [] = u := by unfold onto; simp

theorem onto_onto {vs ws : List (QVal F)} : onto (onto u vs) ws = onto u (vs ++ ws) := by unfold onto; simp

theorem Moves.code (h : u.mute = 1) : Moves L r U [ev "_code" g ts n] u (onto u [codeOf ts]) := by
  refine one fun env sem s hs _ E => ?_
  subst hs
  refine ⟨.ok () (setQ s { s.u.u with stk := s.u.u.stk ++ [codeOf ts] }), 0, ?_, rfl⟩
  obtain ⟨e, h1, h2⟩ : ∃ e, (client L r U).table (str "_code") = some e ∧
      ((client L r U).perform (str "_code") e ts g).run 0 (matchG env sem 0) s = some (.ok () (setQ s { s.u.u with stk := s.u.u.stk ++ [codeOf ts] })) :=
    ⟨_, rfl, by cases ts <;> exact run_push _⟩
  unfold Client.action
  rw [h1, Go.bind_ok Go.run_get]
  have : muted s.u.mute (str "_code") = false := by rw [h]; rfl
  simp only [this, Bool.false_eq_true, if_false]
  rw [Go.run_recover, h2]

theorem Moves.arity (h : u.mute = 1) {k : Nat} (hg : g.Still (fun _ => False) := by exact trivial) :
    Moves L r U [ev "_ARITY" g ts k] u (onto u [.int k]) := by
  refine one fun env sem s hs hl E => ?_
  subst hs
  have hl := hl hg
  refine ⟨.ok () (setQ s { s.u.u with stk := s.u.u.stk ++ [.int k] }), 0, ?_, rfl⟩
  unfold Client.action
  rw [show (client L r U).table (str "_ARITY") = some onLen from rfl, Go.bind_ok Go.run_get]
  have : muted s.u.mute (str "_ARITY") = false := by rw [h]; rfl
  simp only [this, Bool.false_eq_true, if_false]
  rw [Go.run_recover]
  have : ((client L r U).perform (str "_ARITY") onLen ts g).run 0 (matchG env sem 0) s = some (.ok () (setQ s { s.u.u with stk := s.u.u.stk ++ [.int k] })) := by
    unfold Client.perform onLen markArgs
    simp only [show isLenMark (str "_ARITY") = true from rfl, if_true, bind_assoc, pure_bind]
    rw [Go.bind_ok (Go.run_len g), hl]
    exact run_push _
  rw [this]

/-- Two pieces. -/
theorem Moves.both {vs ws : List (QVal F)} (h : Moves L r U es u (onto u vs)) (h' : Moves L r U es' (onto u vs) (onto (onto u vs) ws)) :
    Moves L r U (es ++ es') u (onto u (vs ++ ws)) := by
  rw [onto_onto] at h'
  exact h.append h'

/-- Muted marks that leave this on the stack. -/
def Keeps (L : Lib F) (r : CompileRet Str) (U : Uni) (es : List (Ev Str)) (vs : List (QVal F)) : Prop :=
  ∀ u : QEng F, u.mute = 1 → Moves L r U es u (onto u vs)

namespace Keeps
variable {vs ws : List (QVal F)}

theorem nil : Keeps L r U [] [] := fun u _ => by rw [onto_nil]; exact Moves.nil
theorem append (h : Keeps L r U es vs) (h' : Keeps L r U es' ws) : Keeps L r U (es ++ es') (vs ++ ws) :=
  fun u hu => (h u hu).both (h' (onto u vs) hu)
theorem code : Keeps L r U [ev "_code" g ts n] [codeOf ts] := fun _ hu => .code hu
theorem arity {k : Nat} (hg : g.Still (fun _ => False) := by exact trivial) : Keeps L r U [ev "_ARITY" g ts k] [.int k] := fun _ hu => .arity hu hg
theorem silent {c : Cat} (t : Tm c) (h : lvl c ≤ 1) : Keeps L r U t.evs [] := fun u hu => by
  rw [onto_nil]; exact silence t (by rw [hu]; exact h)
/-- A part that is kept as code. -/
theorem part {c : Cat} (t : Tm c) (h : lvl c ≤ 1) : Keeps L r U (t.evs ++ [ev "_code" g ts n]) [codeOf ts] := (silent t h).append code
theorem counted {k : Nat} (h : Keeps L r U es vs) (hg : g.Still (fun _ => False) := by exact trivial) :
    Keeps L r U (es ++ [ev "_ARITY" g ts k]) (vs ++ [.int k]) := h.append (.arity hg)

end Keeps

/-- The codes that a tree leaves. -/
def Tm.codes (F : Type) : {c : Cat} → Tm c → List (QVal F)
  | _, .elif _ c _ b _ more => codeOf c.toks :: codeOf b.toks :: more.codes F
  | _, .else_ _ _ b _ => [codeOf b.toks]
  | _, .case _ e _ b more => codeOf e.toks :: codeOf b.toks :: more.codes F
  | _, .default _ _ b => [codeOf b.toks]
  | _, .parts s more => codeOf s.toks :: more.codes F
  | _, .moreParts _ s more => codeOf s.toks :: more.codes F
  | _, _ => []

theorem keeps_elifs : ∀ t : Tm .elifs, Keeps L r U t.evs (t.codes F)
  | .noElif => .nil
  | .elif _ c _ b _ more => ((Keeps.part c (by decide)).append (Keeps.part b (by decide))).append (keeps_elifs more)

theorem keeps_else : ∀ t : Tm .else_, Keeps L r U t.evs (t.codes F)
  | .noElse => .nil
  | .else_ _ _ b _ => Keeps.part b (by decide)

theorem keeps_cases : ∀ t : Tm .cases, Keeps L r U t.evs (t.codes F)
  | .noCase => .nil
  | .case _ e _ b more => ((Keeps.part e (by decide)).append (Keeps.part b (by decide))).append (keeps_cases more)

theorem keeps_default : ∀ t : Tm .default, Keeps L r U t.evs (t.codes F)
  | .noDefault => .nil
  | .default _ _ b => Keeps.part b (by decide)

theorem keeps_moreParts : ∀ t : Tm .moreParts, Keeps L r U t.evs (t.codes F)
  | .lastPart => .nil
  | .moreParts _ s more => (Keeps.part s (by decide)).append (keeps_moreParts more)

theorem keeps_parts : ∀ t : Tm .parts, Keeps L r U t.evs (t.codes F)
  | .noParts => .nil
  | .parts s more => (Keeps.part s (by decide)).append (keeps_moreParts more)

theorem elifs_length : ∀ t : Tm .elifs, (t.codes F).length = 2 * t.cnt
  | .noElif => rfl
  | .elif _ c _ b _ more => by simp only [Tm.codes, Tm.cnt, List.length_cons, elifs_length more]; omega

theorem cases_length : ∀ t : Tm .cases, (t.codes F).length = 2 * t.cnt
  | .noCase => rfl
  | .case _ e _ b more => by simp only [Tm.codes, Tm.cnt, List.length_cons, cases_length more]; omega

theorem moreParts_length : ∀ t : Tm .moreParts, (t.codes F).length = t.cnt
  | .lastPart => rfl
  | .moreParts _ s more => by simp only [Tm.codes, Tm.cnt, List.length_cons, moreParts_length more]

theorem parts_length : ∀ t : Tm .parts, (t.codes F).length = t.cnt
  | .noParts => rfl
  | .parts s more => by simp only [Tm.codes, Tm.cnt, List.length_cons, moreParts_length more]

theorem else_codes : ∀ t : Tm .else_, (t.codes F).head?.toList = t.codes F ∧ optInt (t.codes F).head? = .int t.cnt
  | .noElse => ⟨rfl, rfl⟩
  | .else_ _ _ b _ => ⟨rfl, rfl⟩

theorem default_codes : ∀ t : Tm .default, (t.codes F).head?.toList = t.codes F ∧ optInt (t.codes F).head? = .int t.cnt
  | .noDefault => ⟨rfl, rfl⟩
  | .default _ _ b => ⟨rfl, rfl⟩

/-- A section of muted code. -/
theorem Trace.kept {es0 : List (Ev Str)} {vs : List (QVal F)} {b : β} {f : β → List (QVal F)} {g' : Gr Str} {ts' : List Token} {n' : Int} (h : Keeps H.lib r U es vs)
    (he : es0 = ev "_mute" g ts n :: (es ++ [ev "_unmute" g' ts' n']))
    (hf : f b = pre ++ vs) : Trace K H r U C l pre es0 (pure b) f := by
  subst he
  refine Trace.silent fun w u hu => ⟨onto u vs, ?_, ?_⟩
  · rw [hf]
    exact ⟨hu.mute, hu.ipt, by change u.u.stk ++ vs = _; rw [hu.sees.stk, List.append_assoc], hu.sees.wld, hu.sees.base, hu.sees.count⟩
  · have h1 : ({ u with mute := u.mute + 1 } : QEng F).mute = 1 := by change u.mute + 1 = 1; rw [hu.mute]; rfl
    have := Moves.cons (L := H.lib) (r := r) (U := U) (Moves.mute (u := u) (g := g) (ts := ts) (n := n)) ((h _ h1).append (Moves.unmute (g := g') (ts := ts') (n := n')))
    refine this.cast rfl ?_
    unfold onto
    simp

end Tpl.Qlang.Src
