import Verif.Proof.Accepts
import Verif.Proof.QlangTable
import Verif.Spec.QlangSyntax

/-! What the grammar of qlang accepts are programs. -/
namespace Tpl.Qlang.Src
open Spec

/-- The tokens of a tree. -/
def Is (c : Cat) (t _ : List Token) : Prop := ∃ d : Tm c, d.Loose ∧ d.toks = t

/-- Something that is put before a tree. -/
def Before (c : Cat) (t _ : List Token) : Prop := ∃ f : Tm c → Tm c, (∀ m, m.Loose → (f m).Loose) ∧ ∀ m, (f m).toks = t ++ m.toks

section
variable {env : Env Str} {Q Q1 Q2 : List Token → List Token → Prop} {L : Nat} {g : Gr Str} {gs : List (Gr Str)} {ff : Bool}

theorem accs_tree {c : Cat} (hg : isNil g = false) (h1 : Acc env g (Is c) L)
    (h2 : ∀ d : Tm c, d.Loose → AccS env ff gs (fun t2 r => Q (d.toks ++ t2) r) L) : AccS env ff (g :: gs) Q L := by
  refine accs_cons hg h1 fun t1 r1 hd => ?_
  obtain ⟨d, hd, rfl⟩ := hd
  exact (h2 d hd).imp fun t r h _ => h

/-- The last part. -/
theorem accs_last {c : Cat} (hg : isNil g = false) (h1 : Acc env g (Is c) L) (h2 : ∀ d : Tm c, d.Loose → ∀ r, Q d.toks r) :
    AccS env ff [g] Q L :=
  accs_tree hg h1 fun d hd => accs_nil fun r => by rw [List.append_nil]; exact h2 d hd r

theorem acc_act {m : String} (h : Acc env g Q L) : Acc env (A m g) Q L := h

theorem acc_rep {c : Cat} {id : Nat} (h : Acc env g (Before c) L) {d : Tm c} (hd : d.Loose) (ht : d.toks = []) : Acc env (.rep0 id g) (Is c) L := by
  refine acc_rep0 h (fun r => ⟨d, hd, ht⟩) ?_
  rintro t1 t2 r ⟨f, f1, f2⟩ ⟨m, hm, rfl⟩
  exact ⟨f m, f1 m hm, f2 m⟩

theorem acc_optTok {id k : Nat} (hk : k ≠ FLOAT) : Acc env (.rep01 id (.tok k)) (fun t _ => ∃ o : Option (Tk k), t = optTok o) L :=
  acc_opt (acc_tok hk fun t _ ht => ⟨some ⟨t, ht⟩, rfl⟩) fun _ _ => ⟨none, rfl⟩

theorem acc_optTree {c c' : Cat} {id : Nat} (h : Acc env g (Is c) L) {none : Tm c'} (hn : none.Loose) (h0 : none.toks = [])
    (some : Tm c → Tm c') (h1 : ∀ d, d.Loose → (some d).Loose) (h2 : ∀ d, (some d).toks = d.toks) : Acc env (.rep01 id g) (Is c') L :=
  acc_opt (h.imp fun t r ⟨d, hd, e⟩ => ⟨some d, h1 d hd, (h2 d).trans e⟩) fun _ _ => ⟨none, hn, h0⟩

theorem accs_optTok {id k : Nat} (hk : k ≠ FLOAT) (h : ∀ o : Option (Tk k), AccS env ff gs (fun t2 r => Q (optTok o ++ t2) r) L) :
    AccS env ff (.rep01 id (.tok k) :: gs) Q L := by
  refine accs_cons rfl (acc_optTok hk) fun t1 r1 ho => ?_
  obtain ⟨o, rfl⟩ := ho
  exact (h o).imp fun t r h _ => h

/-! ### Expressions -/

theorem acc_bin {l : Nat} (h : Acc env (gTerm l) (Is (.term l)) L) (o : BOp l) (hk : o.kind ≠ FLOAT) (m : String) :
    Acc env (.and [.tok o.kind, A m (gTerm l)]) (Before (.tail l)) L := by
  have hn : isNil (gTerm l) = false := by cases l <;> rfl
  refine accs_tok1 hk fun t ht => ?_
  refine accs_last (g := A m (gTerm l)) rfl h fun d hd r => ?_
  exact ⟨fun m => .bin o ⟨t, ht⟩ d m, fun m hm => ⟨hd, hm⟩, fun m => by simp [Tm.toks]⟩

theorem acc_ops {l : Nat} (hl : l < 5) (h : Acc env (gTerm l) (Is (.term l)) L) : Acc env (opG l (gTerm l)) (Before (.tail l)) L := by
  match l, hl with
  | 0, _ =>
    refine acc_or fun g hg => ?_
    simp only [List.mem_cons, List.not_mem_nil, or_false] at hg
    rcases hg with rfl | rfl | rfl
    · exact acc_bin h .mul (by decide) _
    · exact acc_bin h .quo (by decide) _
    · exact acc_bin h .mod (by decide) _
  | 1, _ =>
    refine acc_or fun g hg => ?_
    simp only [List.mem_cons, List.not_mem_nil, or_false] at hg
    rcases hg with rfl | rfl
    · exact acc_bin h .add (by decide) _
    · exact acc_bin h .sub (by decide) _
  | 2, _ =>
    refine acc_or fun g hg => ?_
    simp only [List.mem_cons, List.not_mem_nil, or_false] at hg
    rcases hg with rfl | rfl | rfl | rfl | rfl | rfl
    · exact acc_bin h .lt (by decide) _
    · exact acc_bin h .gt (by decide) _
    · exact acc_bin h .eq (by decide) _
    · exact acc_bin h .le (by decide) _
    · exact acc_bin h .ge (by decide) _
    · exact acc_bin h .ne (by decide) _
  | 3, _ =>
    refine accs_tok1 (by decide) fun t ht => ?_
    refine accs_last (g := A "and" (A "_unmute" (A "_code" (gTerm 3)))) rfl h fun d hd r => ?_
    exact ⟨fun m => .and ⟨t, ht⟩ d m, fun m hm => ⟨hd, hm⟩, fun m => by simp [Tm.toks]⟩
  | 4, _ =>
    refine accs_tok1 (by decide) fun t ht => ?_
    refine accs_last (g := A "or" (A "_unmute" (A "_code" (gTerm 4)))) rfl h fun d hd r => ?_
    exact ⟨fun m => .or ⟨t, ht⟩ d m, fun m hm => ⟨hd, hm⟩, fun m => by simp [Tm.toks]⟩

theorem acc_term (hf : Acc env (.var 0) (Is (.term 0)) L) : ∀ l, l ≤ 5 → Acc env (gTerm l) (Is (.term l)) L := by
  intro l
  induction l with
  | zero => exact fun _ => hf
  | succ l ih =>
    intro hl
    have h := ih (by omega)
    refine accs_tree (by cases l <;> rfl) h fun a ha => ?_
    refine accs_last rfl (acc_rep (acc_ops (by omega) h) (d := .noOp) trivial rfl) fun b hb r => ?_
    exact ⟨.chain (l := l) (Nat.lt_of_succ_le hl) a b, ⟨ha, hb⟩, rfl⟩

section
variable (hf : Acc env (.var 0) (Is (.term 0)) L)
include hf

theorem acc_expr : Acc env gExpr (Is (.term 5)) L := acc_term hf 5 (Nat.le_refl _)

theorem acc_args {id : Nat} : Acc env (.list id gExpr (.tok 44) true) (Is .args) L := by
  refine acc_list (Q2 := Is .moreArgs) (by decide) rfl (acc_expr hf) (fun _ r => ⟨.noArgs, trivial, rfl⟩) ?_ (fun r => ⟨.lastArg, trivial, rfl⟩) ?_
  · rintro t1 t2 r ⟨e, he, rfl⟩ ⟨m, hm, rfl⟩
    exact ⟨.args e m, ⟨he, hm⟩, rfl⟩
  · rintro t t1 t2 r ht ⟨e, he, rfl⟩ ⟨m, hm, rfl⟩
    exact ⟨.moreArgs ⟨t, ht⟩ e m, ⟨he, hm⟩, rfl⟩

theorem acc_pairs {id : Nat} : Acc env (.list id gPair (.tok 44) true) (Is .pairs) L := by
  refine acc_list (Q1 := fun t _ => ∃ (k v : Tm (.term 5)) (c : Tk COLON), k.Loose ∧ v.Loose ∧ t = k.toks ++ (c.tok :: v.toks)) (Q2 := Is .morePairs)
    (by decide) rfl ?_ (fun _ r => ⟨.noPairs, trivial, rfl⟩) ?_ (fun r => ⟨.lastPair, trivial, rfl⟩) ?_
  · refine accs_tree rfl (acc_expr hf) fun k hk => ?_
    refine accs_tok1 (by decide) fun t ht => ?_
    refine accs_last rfl (acc_expr hf) fun v hv r => ?_
    exact ⟨k, v, ⟨t, ht⟩, hk, hv, rfl⟩
  · rintro t1 t2 r ⟨k, v, c, hk, hv, rfl⟩ ⟨m, hm, rfl⟩
    exact ⟨.pairs k c v m, ⟨hk, hv, hm⟩, by simp [Tm.toks]⟩
  · rintro t t1 t2 r ht ⟨k, v, c, hk, hv, rfl⟩ ⟨m, hm, rfl⟩
    exact ⟨.morePairs ⟨t, ht⟩ k c v m, ⟨hk, hv, hm⟩, by simp [Tm.toks]⟩

end

theorem acc_names {id : Nat} {l0 : Bool} : Acc env (.list id (A "name" (.tok 3)) (.tok 44) l0)
    (fun t _ => (l0 = true ∧ t = []) ∨ ∃ (x : Tk IDENT) (more : Names), t = x.tok :: namesToks more) L := by
  refine acc_list (Q1 := fun t _ => ∃ x : Tk IDENT, t = [x.tok]) (Q2 := fun t _ => ∃ more : Names, t = namesToks more)
    (by decide) rfl (acc_tok (by decide) fun t _ ht => ⟨⟨t, ht⟩, rfl⟩) (fun h r => .inl ⟨h, rfl⟩) ?_ (fun r => ⟨[], rfl⟩) ?_
  · rintro t1 t2 r ⟨x, rfl⟩ ⟨m, rfl⟩
    exact .inr ⟨x, m, rfl⟩
  · rintro t t1 t2 r ht ⟨x, rfl⟩ ⟨m, rfl⟩
    exact ⟨(⟨t, ht⟩, x) :: m, rfl⟩

/-! ### An expression that begins with a brace does not just fail -/

theorem must_not_fail : ∀ (ps : List (Option (Peg Nat))) {w}, ¬ PegEval (toRules env) (seqOf ps true) w .fail
  | [], w, h => by cases h
  | none :: ps, w, h => must_not_fail ps h
  | some p :: ps, w, h => by
    cases h with
    | seqFail h => cases h
    | seqFail2 _ h => exact must_not_fail ps h

theorem alt_fail : ∀ {ps : List (Peg Nat)} {w}, PegEval (toRules env) (altOf ps) w .fail → ∀ p ∈ ps, PegEval (toRules env) p w .fail
  | _ :: ps, w, h, q, hq => by
    cases h with
    | altNext h1 h2 =>
      cases hq with
      | head => exact h1
      | tail _ hq => exact alt_fail h2 q hq

theorem brace_factor (he : env 0 = some gFactor) {w : List Nat} : ¬ PegEval (toRules env) (toPeg (.var 0 : Gr Str)) (123 :: w) .fail := by
  intro h
  cases h with
  | rule h1 h2 =>
    unfold toRules at h1
    rw [he] at h1
    cases h1
    have := alt_fail h2 (toPeg (.and [.tok 123, .nil, A "ARITY" (.list 35 gPair (.tok 44) true), .rep01 36 (.tok 44), A "map" (.tok 125)]))
      (by
        rw [toPegs_map]
        refine List.mem_map.mpr ⟨_, ?_, rfl⟩
        simp)
    change PegEval _ (.seq _ (seqOf _ true)) _ _ at this
    cases this with
    | seqFail h => cases h with | symNot h => cases h
    | seqFail2 _ h => exact must_not_fail _ h
  | ruleNone h1 =>
    unfold toRules at h1
    rw [he] at h1
    cases h1

theorem brace_term (he : env 0 = some gFactor) {w : List Nat} : ∀ l, ¬ PegEval (toRules env) (toPeg (gTerm l)) (123 :: w) .fail
  | 0 => brace_factor he
  | l + 1 => by
    intro h
    have hn : isNil (gTerm l) = false := by cases l <;> rfl
    change PegEval _ (seqOf (toItems [gTerm l, .rep0 l (opG l (gTerm l))]) false) _ _ at h
    rw [toItems, hn] at h
    cases h with
    | seqFail h => exact brace_term he l h
    | seqFail2 _ h =>
      cases h with
      | seqFail h => cases h
      | seqFail2 _ h => cases h

theorem no_brace (he : env 0 = some gFactor) {toks : List Token} (h : PegEval (toRules env) (toPeg gExpr) (kinds toks) .fail) : ¬ Braced toks := by
  rintro ⟨t, more, rfl, hk⟩
  have h : PegEval (toRules env) (toPeg (gTerm 5)) (t.kind :: kinds more) .fail := h
  rw [hk] at h
  exact brace_term he 5 h

/-! ### Statements -/

/-- The tokens of a statement, and what follows. -/
def IsS (t r : List Token) : Prop := ∃ d : Tm .stmt, d.Loose ∧ d.toks = t ∧ (d.Bare → ¬ Braced r)

theorem IsS.of {d : Tm .stmt} {r : List Token} (h : d.Loose) (hb : ¬ d.Bare) : IsS d.toks r := ⟨d, h, rfl, fun h => absurd h hb⟩

section
variable (he : env 0 = some gFactor) (hf : Acc env (.var 0) (Is (.term 0)) L)
include hf

theorem acc_opAssign (o : AOp) (hk : o.kind ≠ FLOAT) (m : String) : Acc env (A m (.and [.tok 3, .tok o.kind, .nil, gExpr])) IsS L := by
  refine accs_tok1 (by decide) fun x hx => accs_tok1 hk fun op hop => accs_cut ?_
  refine accs_last rfl (acc_expr hf) fun e h r => ?_
  exact IsS.of (d := .opAssign o ⟨x, hx⟩ ⟨op, hop⟩ e) h nofun

include he

theorem acc_stmt : Acc env gS IsS L := by
  have hE := acc_expr hf
  refine acc_or fun g hg => ?_
  simp only [List.mem_cons, List.not_mem_nil, or_false] at hg
  rcases hg with rfl | rfl | rfl | rfl | rfl | rfl | rfl | rfl | rfl | rfl | rfl | rfl
  · refine accs_tok1 (by decide) fun x hx => accs_tok1 (by decide) fun op hop => accs_cut ?_
    refine accs_last rfl hE fun e h r => ?_
    exact IsS.of (d := .assign ⟨x, hx⟩ ⟨op, hop⟩ e) h nofun
  · refine accs_cons (Q1 := fun t _ => ∃ (x : Tk IDENT) (c : Tk COMMA), t = [x.tok, c.tok]) rfl ?_ ?_
    · refine accs_tok1 (by decide) fun x hx => accs_tok1 (by decide) fun c hc => accs_cut (accs_nil fun r => ?_)
      exact ⟨⟨x, hx⟩, ⟨c, hc⟩, rfl⟩
    · rintro _ _ ⟨x, c, rfl⟩
      refine accs_cons rfl (acc_act acc_names) ?_
      rintro _ _ (⟨h, _⟩ | ⟨y, more, rfl⟩)
      · cases h
      refine accs_tok1 (by decide) fun op hop => ?_
      refine accs_last (g := A "massign" gExpr) rfl hE fun e h r _ _ => ?_
      exact ⟨.multi x c y more ⟨op, hop⟩ e, h, by simp [Tm.toks], nofun⟩
  · refine accs_tok1 (by decide) fun x hx => accs_tok1 (by decide) fun op hop => accs_nil fun r => ?_
    exact IsS.of (d := .inc ⟨x, hx⟩ ⟨op, hop⟩) trivial nofun
  · refine accs_tok1 (by decide) fun x hx => accs_tok1 (by decide) fun op hop => accs_nil fun r => ?_
    exact IsS.of (d := .dec ⟨x, hx⟩ ⟨op, hop⟩) trivial nofun
  · exact acc_opAssign hf .add (by decide) _
  · exact acc_opAssign hf .sub (by decide) _
  · exact acc_opAssign hf .mul (by decide) _
  · exact acc_opAssign hf .quo (by decide) _
  · exact acc_opAssign hf .mod (by decide) _
  · refine accs_tok1 (by decide) fun kw hkw => ?_
    refine accs_cons (g := A "return" (A "ARITY" (.rep01 6 gExpr))) (Q1 := fun t r => ∃ e : Tm .optExpr, e.Loose ∧ e.toks = t ∧ (e = .noExpr → ¬ Braced r)) rfl ?_ ?_
    · refine acc_opt (id := 6) (hE.imp ?_) fun toks h => ⟨.noExpr, trivial, rfl, fun _ => no_brace he h⟩
      rintro t r ⟨e, h, rfl⟩
      exact ⟨.expr e, h, rfl, nofun⟩
    · rintro t1 r1 ⟨e, h, rfl, hb⟩
      refine accs_nil fun r hr => ?_
      refine ⟨.return_ ⟨kw, hkw⟩ e, h, by simp [Tm.toks], fun hbare => ?_⟩
      have : e = .noExpr := by
        cases e with
        | noExpr => rfl
        | expr _ => exact hbare.elim
      rw [List.nil_append] at hr
      exact hr ▸ hb this
  · refine accs_tok1 (by decide) fun kw hkw => accs_cut ?_
    refine accs_last (g := A "defer" (A "_unmute" (A "_code" gExpr))) rfl hE fun e h r => ?_
    exact IsS.of (d := .defer ⟨kw, hkw⟩ e) h nofun
  · exact hE.imp fun t r ⟨e, h, ht⟩ => ⟨.eval e, h, ht, nofun⟩

theorem acc_doc : Acc env gDoc (Is .doc) L := by
  refine accs_cons (Q1 := IsS) rfl (acc_stmt he hf) ?_
  rintro _ r1 ⟨s, hs, rfl, _⟩
  refine accs_last rfl (acc_rep (c := .docTail) (d := .endDoc) (acc_or fun g hg => ?_) trivial rfl) fun m hm r _ => ⟨.doc s m, ⟨hs, hm⟩, rfl⟩
  simp only [List.mem_cons, List.not_mem_nil, or_false] at hg
  rcases hg with rfl | rfl
  · refine accs_tok1 (by decide) fun sc hsc => ?_
    refine accs_cons (Q1 := IsS) rfl (acc_stmt he hf) ?_
    rintro _ r1 ⟨s, hs, rfl, _⟩
    refine accs_nil fun r _ => ⟨fun m => .next ⟨sc, hsc⟩ s m, fun m hm => ⟨hs, hm⟩, fun m => by simp [Tm.toks]⟩
  · exact acc_tok (by decide) fun sc r hsc => ⟨fun m => .semi ⟨sc, hsc⟩ m, fun m hm => hm, fun m => rfl⟩

theorem acc_optDoc {id : Nat} : Acc env (.rep01 id gDoc) (Is .optDoc) L :=
  acc_optTree (acc_doc he hf) (none := .noDoc) trivial rfl .someDoc (fun _ h => h) fun _ => rfl

/-- A body in braces. -/
theorem acc_block : Acc env gIf (fun t _ => ∃ (lb : Tk LBRACE) (b : Tm .optDoc) (rb : Tk RBRACE), b.Loose ∧ t = lb.tok :: (b.toks ++ [rb.tok])) L := by
  refine accs_tok1 (by decide) fun lb hlb => ?_
  refine accs_tree (g := A "_code" (.rep01 8 gDoc)) rfl (acc_act <| acc_optDoc he hf) fun b hb => ?_
  refine accs_tok1 (by decide) fun rb hrb => accs_nil fun r => ⟨⟨lb, hlb⟩, b, ⟨rb, hrb⟩, hb, rfl⟩

theorem acc_fn : Acc env gFn (Is .fnBody) L := by
  refine accs_tok1 (by decide) fun lp hlp => ?_
  refine accs_cons (g := A "ARITY" (.list 13 (A "name" (.tok 3)) (.tok 44) true)) (Q1 := fun t _ => ∃ ps : Option (Tk IDENT × Names), t = paramToks ps) rfl
    (acc_act (acc_names.imp ?_)) ?_
  · rintro t r (⟨_, rfl⟩ | ⟨x, more, rfl⟩)
    · exact ⟨none, rfl⟩
    · exact ⟨some (x, more), rfl⟩
  rintro _ _ ⟨ps, rfl⟩
  refine accs_optTok (id := 14) (by decide) fun s => accs_tok1 (by decide) fun rp hrp => accs_tok1 (by decide) fun lb hlb => ?_
  refine accs_tree (g := A "_code" (.rep01 15 gDoc)) rfl (acc_act <| acc_optDoc he hf) fun b hb => ?_
  refine accs_tok1 (by decide) fun rb hrb => accs_nil fun r _ => ?_
  exact ⟨.fnBody ⟨lp, hlp⟩ ps s ⟨rp, hrp⟩ ⟨lb, hlb⟩ b ⟨rb, hrb⟩, hb, rfl⟩

theorem acc_switchBody : Acc env gSw (fun t _ => ∃ (cs : Tm .cases) (d : Tm .default), cs.Loose ∧ d.Loose ∧ t = cs.toks ++ d.toks) L := by
  refine accs_tree (c := .cases) (g := A "_ARITY" (.rep0 10 gCase)) rfl (acc_act <| acc_rep (d := .noCase) ?_ trivial rfl) fun cs hcs => ?_
  · refine accs_tok1 (by decide) fun kw hkw => accs_cut ?_
    refine accs_tree (g := A "_code" gExpr) rfl (acc_expr hf) fun e h => accs_tok1 (by decide) fun c hc => ?_
    refine accs_last (g := A "_code" (.rep01 9 gDoc)) rfl (acc_act <| acc_optDoc he hf) fun b hb r => ?_
    exact ⟨fun m => .case ⟨kw, hkw⟩ e ⟨c, hc⟩ b m, fun m hm => ⟨h, hb, hm⟩, fun m => by simp [Tm.toks]⟩
  · refine accs_last (c := .default) (g := A "_ARITY" (.rep01 12 gDefault)) rfl (acc_act <| acc_opt ?_ fun _ _ => ⟨.noDefault, trivial, rfl⟩) fun d hd r => ⟨cs, d, hcs, hd, rfl⟩
    refine accs_tok1 (by decide) fun kw hkw => accs_cut (accs_tok1 (by decide) fun c hc => ?_)
    refine accs_last (g := A "_code" (.rep01 11 gDoc)) rfl (acc_act <| acc_optDoc he hf) fun b hb r => ?_
    exact ⟨.default ⟨kw, hkw⟩ ⟨c, hc⟩ b, hb, rfl⟩

/-- The head of a `for`, before its body. -/
theorem acc_parts {id : Nat} : Acc env (.list id (A "_code" gPart) (.tok 59) true) (fun t r => ∃ d : Tm .parts, d.toks = t ∧ (Braced r → d.Loose)) L := by
  have hempty : ∀ {r : List Token} {m : Tm .moreParts} {s : Tm .stmt}, (s.Bare → ¬ Braced (m.toks ++ r)) → Braced r → m.toks = [] → ¬ s.Bare := by
    intro r m s h hr hm hb
    rw [hm] at h
    exact h hb hr
  refine acc_list (Q1 := fun t r => ¬ Braced t ∧ IsS t r) (Q2 := fun t r => ∃ d : Tm .moreParts, d.toks = t ∧ (Braced r → d.Loose)) (by decide) rfl ?_
    (fun _ r => ⟨.noParts, rfl, fun _ => trivial⟩) ?_ (fun r => ⟨.lastPart, rfl, fun _ => trivial⟩) ?_
  · refine accs_notTok ?_
    refine accs_cons (Q1 := IsS) rfl (acc_stmt he hf) fun t1 r1 h => accs_nil fun r hr hn => ?_
    rw [List.append_nil] at hn ⊢
    rw [List.nil_append] at hr
    refine ⟨?_, hr ▸ h⟩
    rintro ⟨x, more, rfl, hx⟩
    exact hn x _ rfl hx
  · rintro t1 t2 r ⟨hb, s, hs, rfl, hbare⟩ ⟨m, rfl, hm⟩
    exact ⟨.parts s m, rfl, fun hr => ⟨hb, hempty hbare hr, hs, hm hr⟩⟩
  · rintro t t1 t2 r ht ⟨hb, s, hs, rfl, hbare⟩ ⟨m, rfl, hm⟩
    exact ⟨.moreParts ⟨t, ht⟩ s m, rfl, fun hr => ⟨hb, hempty hbare hr, hs, hm hr⟩⟩

end

/-! ### Factors -/

theorem acc_prim (he : env 0 = some gFactor) (ih : ∀ L' < L, Acc env (.var 0) (Is (.term 0)) L') : Acc env gPrim (Is .prim) L := by
  refine acc_or fun g hg => ?_
  simp only [List.mem_cons, List.not_mem_nil, or_false] at hg
  rcases hg with rfl | rfl | rfl | rfl
  · exact acc_tok (k := 3) (by decide) fun t _ ht => ⟨.name ⟨t, ht⟩, trivial, rfl⟩
  · refine accs_tok (by decide) fun lp L' hlp hL => accs_cut ?_
    refine accs_tree rfl (acc_expr (ih L' hL)) fun e h => accs_tok1 (by decide) fun rp hrp => accs_nil fun r => ?_
    exact ⟨.paren ⟨lp, hlp⟩ e ⟨rp, hrp⟩, h, rfl⟩
  · refine accs_tok (by decide) fun kw L' hkw hL => accs_cut ?_
    refine accs_last (g := A "fn" gFn) rfl (acc_fn he (ih L' hL)) fun f h r => ⟨.fn ⟨kw, hkw⟩ f, h, rfl⟩
  · refine accs_tok (by decide) fun lb L' hlb hL => ?_
    refine accs_tree (g := A "ARITY" (.list 25 gExpr (.tok 44) true)) rfl (acc_act <| acc_args (ih L' hL)) fun es h => ?_
    refine accs_optTok (by decide) fun c => accs_tok1 (by decide) fun rb hrb => accs_nil fun r => ?_
    exact ⟨.slice ⟨lb, hlb⟩ es c ⟨rb, hrb⟩, h, rfl⟩

theorem acc_atom (ih : ∀ L' < L, Acc env (.var 0) (Is (.term 0)) L') : Acc env gAtom (Is .atom) L := by
  refine acc_or fun g hg => ?_
  simp only [List.mem_cons, List.not_mem_nil, or_false] at hg
  rcases hg with rfl | rfl | rfl
  · refine accs_tok (by decide) fun lp L' hlp hL => ?_
    refine accs_tree (g := A "ARITY" (.list 19 gExpr (.tok 44) true)) rfl (acc_act <| acc_args (ih L' hL)) fun as has => ?_
    refine accs_optTok (id := 20) (by decide) fun s => accs_optTok (by decide) fun c => accs_tok1 (by decide) fun rp hrp => accs_nil fun r => ?_
    exact ⟨.call ⟨lp, hlp⟩ as s c ⟨rp, hrp⟩, has, rfl⟩
  · refine accs_tok1 (by decide) fun d hd => ?_
    refine accs_cons (g := A "mref" gMember) (Q1 := fun t _ => ∃ x : Token, x.kind ∈ [IDENT, kClass, kNew, kRecover, kMain] ∧ t = [x]) rfl ?_ ?_
    · refine acc_or fun g hg => ?_
      simp only [List.mem_cons, List.not_mem_nil, or_false] at hg
      rcases hg with rfl | rfl | rfl | rfl | rfl <;>
        exact acc_tok (by decide) fun t _ ht => ⟨t, by rw [ht]; decide, rfl⟩
    · rintro _ _ ⟨x, hx, rfl⟩
      exact accs_nil fun r _ => ⟨.member ⟨d, hd⟩ x hx, trivial, rfl⟩
  · refine accs_tok (by decide) fun lb L' hlb hL => ?_
    have hO : ∀ {id : Nat}, Acc env (A "ARITY" (.rep01 id gExpr)) (Is .optExpr) L' :=
      fun {id} => acc_optTree (id := id) (acc_expr (ih L' hL)) (none := .noExpr) trivial rfl .expr (fun _ h => h) fun _ => rfl
    refine accs_tree rfl hO fun i hi => accs_optTok (id := 23) (by decide) fun c => accs_tree rfl hO fun j hj => ?_
    refine accs_tok1 (by decide) fun rb hrb => accs_nil fun r => ?_
    cases c with
    | some c => exact ⟨.range ⟨lb, hlb⟩ i c j ⟨rb, hrb⟩, ⟨hi, hj⟩, rfl⟩
    | none =>
      cases i with
      | noExpr =>
        cases j with
        | noExpr => exact ⟨.noIndex ⟨lb, hlb⟩ ⟨rb, hrb⟩, trivial, rfl⟩
        | expr j => exact ⟨.index ⟨lb, hlb⟩ j ⟨rb, hrb⟩, hj, rfl⟩
      | expr i =>
        cases j with
        | noExpr => exact ⟨.index ⟨lb, hlb⟩ i ⟨rb, hrb⟩, hi, rfl⟩
        | expr j => exact ⟨.index2 ⟨lb, hlb⟩ i j ⟨rb, hrb⟩, ⟨hi, hj⟩, rfl⟩

theorem acc_cls : Acc env gCls (Is .clsName) L := by
  refine acc_or fun g hg => ?_
  simp only [List.mem_cons, List.not_mem_nil, or_false] at hg
  rcases hg with rfl | rfl
  · refine accs_tok1 (by decide) fun lp hlp => accs_tok1 (k := 3) (by decide) fun x hx => accs_tok1 (by decide) fun rp hrp => accs_nil fun r => ?_
    exact ⟨.clsParen ⟨lp, hlp⟩ ⟨x, hx⟩ ⟨rp, hrp⟩, trivial, rfl⟩
  · exact acc_tok (k := 3) (by decide) fun x _ hx => ⟨.clsName ⟨x, hx⟩, trivial, rfl⟩

theorem acc_new (hf : Acc env (.var 0) (Is (.term 0)) L) : Acc env gNew (Is .newArgs) L := by
  refine acc_opt (g := gNewA) (id := 17) ?_ fun _ _ => ⟨.noNewArgs, trivial, rfl⟩
  refine accs_tok1 (by decide) fun lp hlp => ?_
  refine accs_tree (g := A "ARITY" (.list 16 gExpr (.tok 44) true)) rfl (acc_act <| acc_args hf) fun as has => ?_
  exact accs_tok1 (by decide) fun rp hrp => accs_nil fun r => ⟨.newArgs ⟨lp, hlp⟩ as ⟨rp, hrp⟩, has, rfl⟩

theorem acc_methods (he : env 0 = some gFactor) (hf : Acc env (.var 0) (Is (.term 0)) L) {id : Nat} : Acc env (.rep0 id gMethod) (Is .methods) L := by
  refine acc_rep (g := gMethod) (d := .noMethod) ?_ trivial rfl
  refine accs_tok1 (by decide) fun kw hkw => accs_cut (accs_tok1 (k := 3) (by decide) fun x hx => ?_)
  refine accs_tree rfl (acc_fn he hf) fun f h => accs_optTok (id := 18) (by decide) fun s => accs_nil fun r => ?_
  exact ⟨fun m => .method ⟨kw, hkw⟩ ⟨x, hx⟩ f s m, fun m hm => ⟨h, hm⟩, fun m => by simp [Tm.toks]⟩

theorem acc_factor (he : env 0 = some gFactor) : ∀ L, Acc env (.var 0) (Is (.term 0)) L := by
  intro L
  induction L using Nat.strongRecOn with
  | ind L ih =>
    refine acc_var he (acc_or fun g hg => ?_)
    simp only [List.mem_cons, List.not_mem_nil, or_false] at hg
    rcases hg with rfl | rfl | rfl | rfl | rfl | rfl | rfl | rfl | rfl | rfl | rfl | rfl | rfl | rfl | rfl | rfl
    · exact acc_tok (k := 4) (by decide) fun t _ ht => ⟨.int ⟨t, ht⟩, trivial, rfl⟩
    · refine acc_float fun t _ ht => ?_
      rcases ht with ht | ht
      · exact ⟨.float ⟨t, ht⟩, trivial, rfl⟩
      · exact ⟨.int ⟨t, ht⟩, trivial, rfl⟩
    · exact acc_tok (k := 8) (by decide) fun t _ ht => ⟨.string ⟨t, ht⟩, trivial, rfl⟩
    · exact acc_tok (k := 7) (by decide) fun t _ ht => ⟨.char ⟨t, ht⟩, trivial, rfl⟩
    · refine accs_tree rfl (acc_prim he ih) fun e h => ?_
      refine accs_last (c := .atoms) rfl (acc_rep (d := .noAtom) ((acc_atom ih).imp ?_) trivial rfl) fun as has r => ⟨.post e as, ⟨h, has⟩, rfl⟩
      rintro _ r ⟨a, ha, rfl⟩
      exact ⟨fun m => .atom a m, fun m hm => ⟨ha, hm⟩, fun m => rfl⟩
    · refine accs_actTok (by decide) fun kw L' hkw hL => accs_cut ?_
      have hf := ih L' hL
      refine accs_tree (g := A "_code" gExpr) rfl (acc_expr hf) fun c hc => accs_cons rfl (acc_block he hf) ?_
      rintro _ _ ⟨lb, b, rb, hb, rfl⟩
      refine accs_tree (c := .elifs) (g := A "_ARITY" (.rep0 28 gElif)) rfl (acc_act <| acc_rep (d := .noElif) ?_ trivial rfl) fun es hes => ?_
      · refine accs_tok1 (by decide) fun kw hkw => accs_tree (g := A "_code" gExpr) rfl (acc_expr hf) fun c hc => accs_cons rfl (acc_block he hf) ?_
        rintro _ _ ⟨lb, b, rb, hb, rfl⟩
        refine accs_nil fun r _ => ?_
        exact ⟨fun m => .elif ⟨kw, hkw⟩ c lb b rb m, fun m hm => ⟨hc, hb, hm⟩, fun m => by simp [Tm.toks]⟩
      · refine accs_last (c := .else_) (g := A "if" (A "_unmute" (A "_ARITY" (.rep01 29 gElse)))) rfl (acc_act <| acc_act <| acc_act <| acc_opt ?_ fun _ _ => ⟨.noElse, trivial, rfl⟩) fun el hel r _ => ?_
        · refine accs_tok1 (by decide) fun kw hkw => accs_cons rfl (acc_block he hf) ?_
          rintro _ _ ⟨lb, b, rb, hb, rfl⟩
          exact accs_nil fun r _ => ⟨.else_ ⟨kw, hkw⟩ lb b rb, hb, by simp [Tm.toks]⟩
        · exact ⟨.if_ ⟨kw, hkw⟩ c lb b rb es el, ⟨hc, hb, hes, hel⟩, by simp [Tm.toks]⟩
    · refine accs_actTok (by decide) fun kw L' hkw hL => accs_cut ?_
      have hf := ih L' hL
      refine accs_cons (g := A "_code" (.rep01 30 gOn)) (Q1 := fun t _ => ∃ e : Tm .optExpr, ¬ Braced e.toks ∧ e.Loose ∧ e.toks = t) rfl ?_ ?_
      · refine acc_opt (id := 30) (accs_notTok ?_) fun _ _ => ⟨.noExpr, nofun, trivial, rfl⟩
        refine accs_last rfl (acc_expr hf) fun e h r hn => ⟨.expr e, ?_, h, rfl⟩
        rintro ⟨x, more, hx, hk⟩
        exact hn x (more ++ r) (by have hx : e.toks = x :: more := hx; rw [hx]; rfl) hk
      · rintro _ _ ⟨e, hb, h, rfl⟩
        refine accs_tok1 (by decide) fun lb hlb => accs_cons rfl (acc_switchBody he hf) ?_
        rintro _ _ ⟨cs, d, hcs, hd, rfl⟩
        refine accs_tok1 (k := 125) (by decide) fun rb hrb => accs_nil fun r _ _ => ?_
        exact ⟨.switch ⟨kw, hkw⟩ e ⟨lb, hlb⟩ cs d ⟨rb, hrb⟩, ⟨hb, h, hcs, hd⟩, by simp [Tm.toks]⟩
    · refine accs_actTok (by decide) fun kw L' hkw hL => accs_cut ?_
      have hf := ih L' hL
      refine accs_cons (g := A "_ARITY" (.list 31 (A "_code" gPart) (.tok 59) true)) rfl (acc_act <| acc_parts he hf) ?_
      rintro _ r1 ⟨ps, rfl, hps⟩
      refine accs_tok1 (by decide) fun lb hlb => accs_tree (g := A "_code" (.rep01 32 gDoc)) rfl (acc_act <| acc_optDoc he hf) fun b hb => ?_
      refine accs_tok1 (k := 125) (by decide) fun rb hrb => accs_nil fun r hr => ?_
      exact ⟨.for_ ⟨kw, hkw⟩ ps ⟨lb, hlb⟩ b ⟨rb, hrb⟩, ⟨hps ⟨lb, _, hr, hlb⟩, hb⟩, rfl⟩
    · refine accs_tok (by decide) fun kw L' hkw hL => accs_cut (accs_tree rfl acc_cls fun c hc => ?_)
      exact accs_last (g := A "new" gNew) rfl (acc_new (ih L' hL)) fun as has r => ⟨.new ⟨kw, hkw⟩ c as, ⟨hc, has⟩, rfl⟩
    · refine accs_tok (by decide) fun kw L' hkw hL => accs_cut (accs_tok1 (by decide) fun lb hlb => ?_)
      refine accs_tree (g := A "ARITY" (.rep0 33 gMethod)) rfl (acc_act <| acc_methods he (ih L' hL)) fun ms hms => ?_
      exact accs_tok1 (k := 125) (by decide) fun rb hrb => accs_nil fun r => ⟨.class_ ⟨kw, hkw⟩ ⟨lb, hlb⟩ ms ⟨rb, hrb⟩, hms, rfl⟩
    · refine accs_tok (by decide) fun kw L' hkw hL => accs_tok1 (by decide) fun lp hlp => accs_tok1 (k := 41) (by decide) fun rp hrp => accs_nil fun r => ?_
      exact ⟨.recover ⟨kw, hkw⟩ ⟨lp, hlp⟩ ⟨rp, hrp⟩, trivial, rfl⟩
    · refine accs_tok (by decide) fun kw L' hkw hL => accs_tok1 (k := 123) (by decide) fun lb hlb => ?_
      refine accs_tree (g := A "_code" (.rep01 34 gDoc)) rfl (acc_act <| acc_optDoc he (ih L' hL)) fun b hb => accs_tok1 (k := 125) (by decide) fun rb hrb => accs_nil fun r => ?_
      exact ⟨.main ⟨kw, hkw⟩ ⟨lb, hlb⟩ b ⟨rb, hrb⟩, hb, rfl⟩
    · refine accs_tok (by decide) fun lb L' hlb hL => accs_cut ?_
      refine accs_tree (g := A "ARITY" (.list 35 gPair (.tok 44) true)) rfl (acc_act <| acc_pairs (ih L' hL)) fun ps h => ?_
      refine accs_optTok (by decide) fun c => accs_tok1 (k := 125) (by decide) fun rb hrb => accs_nil fun r => ?_
      exact ⟨.map ⟨lb, hlb⟩ ps c ⟨rb, hrb⟩, h, rfl⟩
    · refine accs_tok (by decide) fun op L' hop hL => ?_
      exact accs_last (g := A "not" (.var 0)) rfl (ih L' hL) fun e h r => ⟨.not ⟨op, hop⟩ e, h, rfl⟩
    · refine accs_tok (by decide) fun op L' hop hL => ?_
      exact accs_last (g := A "neg" (.var 0)) rfl (ih L' hL) fun e h r => ⟨.neg ⟨op, hop⟩ e, h, rfl⟩
    · refine accs_tok (by decide) fun op L' hop hL => ?_
      exact accs_last (g := (.var 0)) rfl (ih L' hL) fun e h r => ⟨.pos ⟨op, hop⟩ e, h, rfl⟩

/-- What the grammar accepts as a sequence of statements is one. -/
theorem acc_program (he : env 0 = some gFactor) (L : Nat) : Acc env gDoc (Is .doc) L := acc_doc he (acc_factor he L)

end
end Tpl.Qlang.Src
