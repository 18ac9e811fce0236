import Verif.Proof.QlangActs

/-! Muted code: what is only kept for later. -/
namespace Tpl.Qlang.Src
open Spec
variable {F : Type} {L : Lib F} {r : CompileRet Str} {U : Uni}

/-- The marks take this state to that one, whatever else. -/
def Moves (L : Lib F) (r : CompileRet Str) (U : Uni) (es : List (Ev Str)) (u u' : QEng F) : Prop :=
  ∀ E, HRun r.env (client L r U).sem (fun _ => False) E es (· = u) (· = u')

namespace Moves
variable {es es' : List (Ev Str)} {u u' u'' : QEng F} {g : Gr Str} {ts : List Token} {n : Int}

theorem nil : Moves L r U [] u u := fun _ _ h => h

theorem append (h : Moves L r U es u u') (h' : Moves L r U es' u' u'') : Moves L r U (es ++ es') u u'' := fun E => (h E).append (h' E)

theorem cons {e : Ev Str} (h : Moves L r U [e] u u') (h' : Moves L r U es u' u'') : Moves L r U (e :: es) u u'' := h.append h'

theorem one {m : Str} (h : ∀ env (sem : Sem Str (QEng F) Unit (IPanic QErr (QX (QVal F)))) (s : St (QEng F)), s.u = u → (g.Still (fun _ => False) → g.len s.len = n) →
    ∀ E, Ends env sem ((client L r U).action m g ts) s (fun _ u => u = u') E) : Moves L r U [.act m g ts n] u u' := by
  intro E
  refine HRun.one ?_
  intro s hs hl
  obtain ⟨c, h1, h2⟩ := Ends.act (sem := (client L r U).sem) (a := m) (g := g) (toks := ts) (fun _ _ _ => rfl) (h r.env (client L r U).sem s hs hl E)
  refine ⟨c, h1, ?_⟩
  cases c with
  | ok _ s' => exact ⟨h2, False.elim⟩
  | panic p s' => exact h2

theorem mute : Moves L r U [ev "_mute" g ts n] u { u with mute := u.mute + 1 } := by
  refine one fun env sem s hs hl E => ?_
  subst hs
  exact ⟨_, 0, rfl, rfl⟩

theorem unmute : Moves L r U [ev "_unmute" g ts n] u { u with mute := u.mute - 1 } := by
  refine one fun env sem s hs hl E => ?_
  subst hs
  exact ⟨_, 0, rfl, rfl⟩

/-- A muted mark. -/
theorem skip {m : Str} (hm : muted u.mute m = true) (hl : ((marks L r U).lookup m).isSome = true) : Moves L r U [.act m g ts n] u u := by
  refine one fun env sem s hs _ E => ?_
  subst hs
  obtain ⟨e, he⟩ := Option.isSome_iff_exists.mp hl
  unfold Client.action
  rw [show (client L r U).table m = some e from he]
  refine .get ?_
  simp only [hm, if_true]
  exact .pure rfl

/-- A mark of the program (not of the code kept for later). -/
theorem skip1 {m : String} (h : 1 ≤ u.mute) (hm : (str m).head? ≠ some 95 := by decide) (hl : ((marks L r U).lookup (str m)).isSome = true := by rfl) :
    Moves L r U [ev m g ts n] u u := by
  refine skip ?_ hl
  unfold muted
  have h1 : u.mute > 0 := by omega
  have h2 : ((str m).head? != some 95) = true := by simpa using hm
  simp [h1, h2]

theorem skip2 {m : String} (h : 2 ≤ u.mute) (hl : ((marks L r U).lookup (str m)).isSome = true := by rfl) : Moves L r U [ev m g ts n] u u := by
  refine skip ?_ hl
  unfold muted
  have h1 : u.mute > 0 := by omega
  have h2 : u.mute > 1 := by omega
  simp [h1, h2]

theorem cast {u1 u1' : QEng F} (h : Moves L r U es u u') (h1 : u = u1) (h2 : u' = u1') : Moves L r U es u1 u1' := by
  subst h1 h2; exact h

end Moves

/-- How deep trees must be muted. -/
def lvl : Cat → Int
  | .elifs | .else_ | .cases | .default | .parts | .moreParts => 2
  | _ => 1

theorem bop_skip {l : Nat} (o : BOp l) {u : QEng F} {g : Gr Str} {ts : List Token} {n : Int} (h : 1 ≤ u.mute) :
    Moves L r U [ev o.mark g ts n] u u := by
  cases o <;> exact .skip1 h

theorem aop_skip (o : AOp) {u : QEng F} {g : Gr Str} {ts : List Token} {n : Int} (h : 1 ≤ u.mute) : Moves L r U [ev o.mark g ts n] u u := by
  cases o <;> exact .skip1 h

theorem names_skip {u : QEng F} (h : 1 ≤ u.mute) : ∀ ns : Names, Moves L r U (namesEvs ns) u u
  | [] => .nil
  | _ :: more => .cons (.skip1 h) (names_skip h more)

theorem params_skip {u : QEng F} (h : 1 ≤ u.mute) : ∀ ps, Moves L r U (paramEvs ps) u u
  | none => .nil
  | some (_, more) => .cons (.skip1 h) (names_skip h more)

/-- Muted marks, then back. -/
theorem unmuted {u : QEng F} {g : Gr Str} {ts : List Token} {n : Int} :
    Moves L r U [ev "_unmute" g ts n] { u with mute := u.mute + 1 } u := by
  refine Moves.unmute.cast rfl ?_
  simp

theorem silence : ∀ {c : Cat} (t : Tm c) {u : QEng F}, lvl c ≤ u.mute → Moves L r U t.evs u u
  | _, .chain _ a b, u, h => (silence a h).append (silence b h)
  | _, .noOp, u, h => .nil
  | .tail _, .bin o _ b more, u, h => ((silence b h).append (bop_skip o h)).append (silence more h)
  | _, .and _ b more, u, h => by
    have h : (1 : Int) ≤ u.mute := h
    have h1 : (1 : Int) ≤ ({ u with mute := u.mute + 1 } : QEng F).mute := by change (1 : Int) ≤ u.mute + 1; omega
    have h2 : (2 : Int) ≤ ({ u with mute := u.mute + 1 } : QEng F).mute := by change (2 : Int) ≤ u.mute + 1; omega
    exact (Moves.cons .mute ((silence b h1).append (.cons (.skip2 h2) (.cons unmuted (.skip1 h))))).append (silence more h)
  | _, .or _ b more, u, h => by
    have h : (1 : Int) ≤ u.mute := h
    have h1 : (1 : Int) ≤ ({ u with mute := u.mute + 1 } : QEng F).mute := by change (1 : Int) ≤ u.mute + 1; omega
    have h2 : (2 : Int) ≤ ({ u with mute := u.mute + 1 } : QEng F).mute := by change (2 : Int) ≤ u.mute + 1; omega
    exact (Moves.cons .mute ((silence b h1).append (.cons (.skip2 h2) (.cons unmuted (.skip1 h))))).append (silence more h)
  | _, .int _, u, h => .skip1 h
  | _, .float _, u, h => .skip1 h
  | _, .string _, u, h => .skip1 h
  | _, .char _, u, h => .skip1 h
  | _, .post e ops, u, h => (silence e h).append (silence ops h)
  | _, .if_ _ c _ b _ es el, u, h => by
    have h : (1 : Int) ≤ u.mute := h
    have h1 : (1 : Int) ≤ ({ u with mute := u.mute + 1 } : QEng F).mute := by change (1 : Int) ≤ u.mute + 1; omega
    have h2 : (2 : Int) ≤ ({ u with mute := u.mute + 1 } : QEng F).mute := by change (2 : Int) ≤ u.mute + 1; omega
    exact .cons .mute (((silence c h1).append (.skip2 h2)).append (((silence b h1).append (.skip2 h2)).append
      (((silence es h2).append (.skip2 h2)).append ((silence el h2).append (.cons (.skip2 h2) (.cons unmuted (.skip1 h)))))))
  | _, .switch _ on _ cs d _, u, h => by
    have h : (1 : Int) ≤ u.mute := h
    have h1 : (1 : Int) ≤ ({ u with mute := u.mute + 1 } : QEng F).mute := by change (1 : Int) ≤ u.mute + 1; omega
    have h2 : (2 : Int) ≤ ({ u with mute := u.mute + 1 } : QEng F).mute := by change (2 : Int) ≤ u.mute + 1; omega
    exact .cons .mute (((silence on h1).append (.skip2 h2)).append ((((silence cs h2).append (.skip2 h2)).append
      ((silence d h2).append (.skip2 h2))).append (.cons unmuted (.skip1 h))))
  | _, .for_ _ ps _ b _, u, h => by
    have h : (1 : Int) ≤ u.mute := h
    have h1 : (1 : Int) ≤ ({ u with mute := u.mute + 1 } : QEng F).mute := by change (1 : Int) ≤ u.mute + 1; omega
    have h2 : (2 : Int) ≤ ({ u with mute := u.mute + 1 } : QEng F).mute := by change (2 : Int) ≤ u.mute + 1; omega
    exact .cons .mute (((silence ps h2).append (.skip2 h2)).append (((silence b h1).append (.skip2 h2)).append
      (.cons unmuted (.skip1 h))))
  | _, .new _ c as, u, h => (silence c h).append ((silence as h).append (.skip1 h))
  | _, .class_ _ _ ms _, u, h => ((silence ms h).append (.skip1 h)).append (.skip1 h)
  | _, .recover .., u, h => .skip1 h
  | _, .main _ _ b _, u, h => by
    have h : (1 : Int) ≤ u.mute := h
    have h1 : (1 : Int) ≤ ({ u with mute := u.mute + 1 } : QEng F).mute := by change (1 : Int) ≤ u.mute + 1; omega
    have h2 : (2 : Int) ≤ ({ u with mute := u.mute + 1 } : QEng F).mute := by change (2 : Int) ≤ u.mute + 1; omega
    exact .cons .mute (((silence b h1).append (.skip2 h2)).append (.cons unmuted (.skip1 h)))
  | _, .map _ ps _ _, u, h => ((silence ps h).append (.skip1 h)).append (.skip1 h)
  | _, .not _ e, u, h => (silence e h).append (.skip1 h)
  | _, .neg _ e, u, h => (silence e h).append (.skip1 h)
  | _, .pos _ e, u, h => silence e h
  | _, .name _, u, h => .skip1 h
  | _, .paren _ e _, u, h => silence e h
  | _, .fn _ f, u, h => (silence f h).append (.skip1 h)
  | _, .slice _ es _ _, u, h => ((silence es h).append (.skip1 h)).append (.skip1 h)
  | _, .noAtom, u, h => .nil
  | _, .atom a more, u, h => (silence a h).append (silence more h)
  | _, .call _ as _ _ _, u, h => ((silence as h).append (.skip1 h)).append (.cons (.skip1 h) (.skip1 h))
  | _, .member .., u, h => .skip1 h
  | _, .index _ i _, u, h => ((silence i h).append (.skip1 h)).append (.cons (.skip1 h) (.cons (.skip1 h) (.skip1 h)))
  | _, .range _ i _ j _, u, h => ((silence i h).append (.skip1 h)).append (.cons (.skip1 h) (((silence j h).append (.skip1 h)).append (.skip1 h)))
  | _, .noIndex .., u, h => .cons (.skip1 h) (.cons (.skip1 h) (.cons (.skip1 h) (.skip1 h)))
  | _, .index2 _ i j _, u, h => ((silence i h).append (.skip1 h)).append (.cons (.skip1 h) (((silence j h).append (.skip1 h)).append (.skip1 h)))
  | _, .noExpr, u, h => .nil
  | _, .expr e, u, h => silence e h
  | _, .noArgs, u, h => .nil
  | _, .args e more, u, h => (silence e h).append (silence more h)
  | _, .lastArg, u, h => .nil
  | _, .moreArgs _ e more, u, h => (silence e h).append (silence more h)
  | _, .noPairs, u, h => .nil
  | _, .pairs k _ v more, u, h => ((silence k h).append (silence v h)).append (silence more h)
  | _, .lastPair, u, h => .nil
  | _, .morePairs _ k _ v more, u, h => ((silence k h).append (silence v h)).append (silence more h)
  | _, .assign _ _ e, u, h => (silence e h).append (.skip1 h)
  | _, .multi _ _ _ more _ e, u, h => .cons (.skip1 h) ((Moves.append (.cons (.skip1 h) (names_skip h more)) (.skip1 h)).append
      ((silence e h).append (.skip1 h)))
  | _, .inc .., u, h => .skip1 h
  | _, .dec .., u, h => .skip1 h
  | _, .opAssign o _ _ e, u, h => (silence e h).append (aop_skip o h)
  | _, .return_ _ e, u, h => (silence e h).append (.cons (.skip1 h) (.skip1 h))
  | _, .defer _ e, u, h => by
    have h : (1 : Int) ≤ u.mute := h
    have h1 : (1 : Int) ≤ ({ u with mute := u.mute + 1 } : QEng F).mute := by change (1 : Int) ≤ u.mute + 1; omega
    have h2 : (2 : Int) ≤ ({ u with mute := u.mute + 1 } : QEng F).mute := by change (2 : Int) ≤ u.mute + 1; omega
    exact .cons .mute ((silence e h1).append (.cons (.skip2 h2) (.cons unmuted (.skip1 h))))
  | _, .eval e, u, h => silence e h
  | _, .doc s more, u, h => (silence s h).append (silence more h)
  | _, .endDoc, u, h => .nil
  | _, .next _ s more, u, h => (Moves.cons (.skip1 h) (silence s h)).append (silence more h)
  | _, .semi _ more, u, h => (Moves.cons (.skip1 h) (.skip1 h)).append (silence more h)
  | _, .noDoc, u, h => .nil
  | _, .someDoc d, u, h => silence d h
  | _, .noElif, u, h => .nil
  | _, .elif _ c _ b _ more, u, h => by
    have h : (2 : Int) ≤ u.mute := h
    have h1 : (1 : Int) ≤ u.mute := by omega
    exact (((silence c h1).append (.skip2 h)).append ((silence b h1).append (.skip2 h))).append (silence more h)
  | _, .noElse, u, h => .nil
  | _, .else_ _ _ b _, u, h => by
    have h : (2 : Int) ≤ u.mute := h
    have h1 : (1 : Int) ≤ u.mute := by omega
    exact (silence b h1).append (.skip2 h)
  | _, .noCase, u, h => .nil
  | _, .case _ e _ b more, u, h => by
    have h : (2 : Int) ≤ u.mute := h
    have h1 : (1 : Int) ≤ u.mute := by omega
    exact (((silence e h1).append (.skip2 h)).append ((silence b h1).append (.skip2 h))).append (silence more h)
  | _, .noDefault, u, h => .nil
  | _, .default _ _ b, u, h => by
    have h : (2 : Int) ≤ u.mute := h
    have h1 : (1 : Int) ≤ u.mute := by omega
    exact (silence b h1).append (.skip2 h)
  | _, .noParts, u, h => .nil
  | _, .parts s more, u, h => by
    have h : (2 : Int) ≤ u.mute := h
    have h1 : (1 : Int) ≤ u.mute := by omega
    exact ((silence s h1).append (.skip2 h)).append (silence more h)
  | _, .lastPart, u, h => .nil
  | _, .moreParts _ s more, u, h => by
    have h : (2 : Int) ≤ u.mute := h
    have h1 : (1 : Int) ≤ u.mute := by omega
    exact ((silence s h1).append (.skip2 h)).append (silence more h)
  | _, .fnBody _ ps _ _ _ b _, u, h => by
    have h : (1 : Int) ≤ u.mute := h
    have h1 : (1 : Int) ≤ ({ u with mute := u.mute + 1 } : QEng F).mute := by change (1 : Int) ≤ u.mute + 1; omega
    have h2 : (2 : Int) ≤ ({ u with mute := u.mute + 1 } : QEng F).mute := by change (2 : Int) ≤ u.mute + 1; omega
    exact ((params_skip h ps).append (.skip1 h)).append (.cons (.skip1 h) (.cons .mute (((silence b h1).append (.skip2 h2)).append unmuted)))
  | _, .noMethod, u, h => .nil
  | _, .method _ _ f _ more, u, h => (Moves.cons (.skip1 h) ((silence f h).append (.skip1 h))).append (silence more h)
  | _, .clsName _, u, h => .skip1 h
  | _, .clsParen .., u, h => .skip1 h
  | _, .noNewArgs, u, h => .skip1 h
  | _, .newArgs _ as _, u, h => ((silence as h).append (.skip1 h)).append (.skip1 h)

end Tpl.Qlang.Src
