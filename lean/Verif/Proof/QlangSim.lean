import Verif.Proof.QlangLive
import Verif.Proof.QlangMono

/-! The marks of a tree do what the tree means: the induction. -/
namespace Tpl.Qlang.Src
open Spec
variable {F : Type}
variable {K : Bound} {r : CompileRet Str} {U : Uni} {S : Setup F} {R : Runs F} {m : Nat}

theorem live (hS : S.site = sites) (hc : Compiled r) (hR : RunsOk K S.host r U R) (hm : K.fuel ≤ m) : ∀ {c : Cat} (t : Tm c) {p : Nat}, t.Ok → Live K S r U R m p t
  | _, .chain _ a b, p, ok => by
    intro C l hp hN
    exact (live hS hc hR hm a ok.1 C l hp hN).bind fun v _ => live hS hc hR hm b ok.2 C l v hp hN
  | _, .noOp, p, ok => fun C l v _ _ => .nil rfl
  | .tail _, .bin o _ b more, p, ok => by
    intro C l v hp hN
    refine Trace.congr (Trace.bind (f := fun v => [v]) (Trace.one (f := fun v => [v]) (live hS hc hR hm b ok.1 C (l ++ [v]) hp hN) fun w _ => ?_) fun v _ => live hS hc hR hm more ok.2 C l v hp hN) (bind_assoc _ _ _).symm
    have hg : S.site o.mark = sites o.mark := by rw [hS]
    cases o <;> exact Trace.op2_ (pre := []) rfl hg
  | _, .and op b more, p, ok => by
    intro C l v hp hN
    subst hp
    refine Trace.bind (f := fun v => [v]) ?_ fun v _ => live hS hc hR hm more ok.2 C l v rfl hN
    refine Trace.keptThen (ev "and" (A "_unmute" (A "_code" (gTerm 3))) b.toks (-1)) (Keeps.part (g := gTerm 3) (ts := b.toks) (n := -1) b (by decide))
      (.tok LAND) [op.tok] (-1) (A "_code" (gTerm 3)) b.toks (-1) ?_ ?_
    · rw [codeOf_begins (starts b)]
      exact Trace.onEng (pre := [] ++ [v, .code b.toks]) (x := Qlang.and_ r U) (f := fun v => [v])
        (fun w => Does.and_ (pre := []) hN (always_code hc (parses_term3 hc b ok.1) fun C l hp hN _ => live hS hc hR hm b ok.1 C l hp hN)) rfl (by rw [hS]; rfl)
    · simp [evCode, evTok]
  | _, .or op b more, p, ok => by
    intro C l v hp hN
    subst hp
    refine Trace.bind (f := fun v => [v]) ?_ fun v _ => live hS hc hR hm more ok.2 C l v rfl hN
    refine Trace.keptThen (ev "or" (A "_unmute" (A "_code" (gTerm 4))) b.toks (-1)) (Keeps.part (g := gTerm 4) (ts := b.toks) (n := -1) b (by decide))
      (.tok LOR) [op.tok] (-1) (A "_code" (gTerm 4)) b.toks (-1) ?_ ?_
    · rw [codeOf_begins (starts b)]
      exact Trace.onEng (pre := [] ++ [v, .code b.toks]) (x := Qlang.or_ r U) (f := fun v => [v])
        (fun w => Does.or_ (pre := []) hN (always_code hc (parses_term4 hc b ok.1) fun C l hp hN _ => live hS hc hR hm b ok.1 C l hp hN)) rfl (by rw [hS]; rfl)
    · simp [evCode, evTok]
  | _, .int _, p, ok => fun C l hp hN => Trace.int_ (pre := []) (by rw [hS]; rfl)
  | _, .float _, p, ok => fun C l hp hN => Trace.float_ (pre := []) (by rw [hS]; rfl)
  | _, .string _, p, ok => fun C l hp hN => Trace.string_ (pre := []) (by rw [hS]; rfl)
  | _, .char _, p, ok => fun C l hp hN => Trace.char_ (pre := []) (by rw [hS]; rfl)
  | _, .post e ops, p, ok => fun C l hp hN => (live hS hc hR hm e ok.1 C l hp hN).bind fun v _ => live hS hc hR hm ops ok.2 C l v hp hN
  | _, .if_ kw c lb b rb es el, p, ok => by
    intro C l hp hN
    subst hp
    have hcond : Always K S.host r U C.p (Qlang.evalIn r U C.p (str "expr") (.code c.toks)) (c.den S R m C.p) :=
      always_code hc (parses_expr hc c ok.1) fun C l hp hN _ => live hS hc hR hm c ok.1 C l hp hN
    have hb := live hS hc hR hm b ok.2.1 (p := C.p)
    have hes := live hS hc hR hm es ok.2.2.1 (p := C.p)
    have hel := live hS hc hR hm el ok.2.2.2 (p := C.p)
    have hall := ifLoop_step hcond hb.1 (hes _ _ hel)
    have hk : (.code c.toks :: codeOf b.toks :: es.codes F : List (QVal F)).length = 2 * (es.cnt + 1) := by
      rw [List.length_cons, List.length_cons, elifs_length]; omega
    obtain ⟨e1, e2⟩ := else_codes (F := F) el
    have hkept : Keeps S.host.lib r U _ _ := ((Keeps.part (g := gExpr) (ts := c.toks) (n := -1) c (by decide)).append
      ((Keeps.part (g := .rep01 8 gDoc) (ts := b.toks) (n := b.cnt) b (by decide)).append
      ((Keeps.counted (g := .rep0 28 gElif) (ts := es.toks) (k := es.cnt) (keeps_elifs es)).append
      (Keeps.counted (g := .rep01 29 gElse) (ts := el.toks) (k := el.cnt) (keeps_else el)))))
    refine Trace.keptThen (ev "if" (A "_unmute" (A "_ARITY" (.rep01 29 gElse))) el.toks el.cnt) hkept
      (.tok kIf) [kw.tok] (-1) (A "_ARITY" (.rep01 29 gElse)) el.toks el.cnt (Trace.restack (pre := [] ++ (.code c.toks :: codeOf b.toks :: es.codes F) ++ [.int es.cnt] ++ (el.codes F).head?.toList ++ [optInt (el.codes F).head?]) ?_ ?_) ?_
    · rw [e1, e2, codeOf_begins (starts c)]; simp
    · refine Trace.onCtx (x := Qlang.if_ r U) (f := fun v => [v]) (fun w => Does.if_ (pre := []) hN hk hall) ?_ rfl (by rw [hS]; rfl)
      intro t ht
      cases el with
      | noElse => cases ht
      | else_ kw lb b rb =>
        have e : (Tm.else_ kw lb b rb).toks = (kw.tok :: lb.tok :: b.toks) ++ [rb.tok] := by simp [Tm.toks]
        rw [e, List.getLast?_append] at ht
        cases ht
        change rb.tok.End ≠ .panic
        rw [Token.End, rb.ok, show TokenLen RBRACE = .ok 1 by kernel_rfl]
        intro h; cases h
    · simp [Tm.evs, evCode, evTok]
  | _, .switch kw on lb cs d rb, p, ok => by
    intro C l hp hN
    subst hp
    have hon := live hS hc hR hm on ok.2.1 (p := C.p)
    have hcs := live hS hc hR hm cs ok.2.2.1 (p := C.p)
    have hd := live hS hc hR hm d ok.2.2.2 (p := C.p)
    obtain ⟨e1, e2⟩ := default_codes (F := F) d
    have hkept : Keeps S.host.lib r U _ _ := ((Keeps.part (g := .rep01 30 gOn) (ts := on.toks) (n := on.cnt) on (by decide)).append
      ((Keeps.counted (g := .rep0 10 gCase) (ts := cs.toks) (k := cs.cnt) (keeps_cases cs)).append
      (Keeps.counted (g := .rep01 12 gDefault) (ts := d.toks) (k := d.cnt) (keeps_default d))))
    refine Trace.keptThen (ev "switch" (A "_unmute" (.tok RBRACE)) [rb.tok] (-1)) hkept
      (.tok kSwitch) [kw.tok] (-1) (.tok RBRACE) [rb.tok] (-1) (Trace.restack (pre := [] ++ [codeOf on.toks] ++ cs.codes F ++ [.int cs.cnt] ++ (d.codes F).head?.toList ++ [optInt (d.codes F).head?]) ?_ ?_) ?_
    · rw [e1, e2]; simp
    · refine Trace.onEng (x := Qlang.switch_ S.host.fl r U) (f := fun v => [v]) (fun w => ?_) rfl (by rw [hS]; rfl)
      rcases hon.2 with ⟨h1, h2⟩ | ⟨y, h1, h2, h3⟩
      · rw [h2]
        exact Does.switch_ (pre := []) hN (cases_length cs) (fun v => hcs _ _ v hd) (.inl ⟨by rw [h1]; rfl, rfl⟩)
      · rw [h1]
        refine Does.switch_ (pre := []) (yon := y) hN (cases_length cs) (fun v => hcs _ _ v hd) (.inr ?_)
        cases ht : on.toks with
        | nil => exact absurd ht h3
        | cons t more => rw [ht] at h2; exact ⟨⟨_, rfl⟩, h2⟩
    · simp [Tm.evs, evCode, evTok]
  | _, .for_ kw ps lb b rb, p, ok => by
    intro C l hp hN
    subst hp
    have hps := live hS hc hR hm ps ok.1 (p := C.p)
    have hb := live hS hc hR hm b ok.2 (p := C.p)
    have hkept : Keeps S.host.lib r U _ _ := ((Keeps.counted (g := .list 31 (A "_code" gPart) (.tok 59) true) (ts := ps.toks) (k := ps.cnt) (keeps_parts ps)).append
      (Keeps.part (g := .rep01 32 gDoc) (ts := b.toks) (n := b.cnt) b (by decide)))
    refine Trace.keptThen (ev "for" (A "_unmute" (.tok RBRACE)) [rb.tok] (-1)) hkept
      (.tok kFor) [kw.tok] (-1) (.tok RBRACE) [rb.tok] (-1) (Trace.restack (pre := [] ++ ps.codes F ++ [.int ps.cnt, codeOf b.toks]) ?_ ?_) ?_
    · simp
    · refine Trace.onEng (x := Qlang.for_ r U) (f := fun v => [v]) (fun w => ?_) rfl (by rw [hS]; rfl)
      refine (Does.forAll (pre := []) hN hps hb.2 hm (parts_length ps).symm).congr (congrFun ?_ w)
      unfold forParts
      rfl
    · simp [Tm.evs, evCode, evTok]
  | _, .new _ c as, p, ok => by
    intro C l hp hN
    refine Trace.congr (y := c.den S R m p >>= fun c => optRun (as.den S R m p) >>= fun vs => S.at "new" as.toks (makeObject S.host R c (vs.getD []))) ?_ ?_
    · refine Trace.bind (f := fun v => [v]) (live hS hc hR hm c ok.1 C l hp hN) fun v _ => ?_
      refine Trace.one (f := newStk) (live hS hc hR hm as ok.2 C (l ++ [v]) hp hN) fun vs _ => ?_
      exact Trace.new_ (pre := []) (calls_ok hR) (by rw [hS]; rfl)
    · refine bind_congr fun c => ?_
      cases h : (as.den S R m p : Option (Prog F (List (QVal F)))) with
      | none => simp only [optRun, pure_bind]; rfl
      | some vs => simp only [optRun, bind_assoc, pure_bind]; rfl
  | _, .class_ _ _ ms rb, p, ok => by
    intro C l hp hN
    subst hp
    refine Trace.congr (y := infos S R m C.p ms >>= fun is => S.at "class" [rb.tok] (makeClass C.p (is.map (·.2)))) ?_ ?_
    · refine Trace.marks (Trace.bind (f := fun is => is.map minfo) (live hS hc hR hm ms ok C l rfl hN) fun is h => ?_) (List.append_assoc _ _ _)
      obtain ⟨w, w', h⟩ := h
      refine Trace.first (b := ()) (f := fun _ => [] ++ is.map minfo ++ [.int ms.cnt]) (Trace.arity rfl) ?_
      exact Trace.class_ (pre := []) (infos_len ms w _ w' h).symm (by rw [hS]; rfl)
    · change ((ms.den S R m C.p : Prog F (List (Str × Fun))) >>= fun ms => S.at "class" [rb.tok] (makeClass C.p ms)) = _
      rw [infos_den, bind_assoc]
      rfl
  | _, .recover _ _ _, p, ok => by
    intro C l hp hN
    subst hp
    exact Trace.recover_ (pre := []) (by rw [hS]; rfl)
  | _, .main kw lb b rb, p, ok => by
    intro C l hp hN
    subst hp
    refine Trace.keptThen (ev "main" (A "_unmute" (.tok RBRACE)) [rb.tok] (-1)) (Keeps.part (g := .rep01 34 gDoc) (ts := b.toks) (n := b.cnt) b (by decide))
      (.tok LBRACE) [lb.tok] (-1) (.tok RBRACE) [rb.tok] (-1) ?_ ?_
    · exact Trace.main_ (pre := []) (calls_ok hR) (by rw [hS]; rfl)
    · simp [Tm.evs, evCode, evTok]
  | _, .map _ ps _ _, p, ok => by
    intro C l hp hN
    refine Trace.marks (Trace.bind (f := fun vs => vs) (live hS hc hR hm ps ok C l hp hN) fun vs h => ?_) (List.append_assoc _ _ _)
    obtain ⟨w, w', h⟩ := h
    refine Trace.first (b := ()) (f := fun _ => [] ++ vs ++ [.int ps.cnt]) (Trace.arity rfl) ?_
    exact Trace.map_ (pre := []) (pairs_len ps w _ w' h) (by rw [hS]; rfl)
  | _, .not _ e, p, ok => fun C l hp hN => (live hS hc hR hm e ok C l hp hN).bind fun v _ => Trace.op1_ (pre := []) rfl (by rw [hS]; rfl)
  | _, .neg _ e, p, ok => fun C l hp hN => (live hS hc hR hm e ok C l hp hN).bind fun v _ => Trace.op1_ (pre := []) rfl (by rw [hS]; rfl)
  | _, .pos _ e, p, ok => fun C l hp hN => live hS hc hR hm e ok C l hp hN
  | _, .name x, p, ok => by
    intro C l hp hN
    subst hp
    exact Trace.onStr (x := fun p s => Qlang.ref S.host.lib p s) (f := fun v => [v]) (fun _ => Does.ref (pre := [])) rfl (by rw [hS]; rfl)
  | _, .paren _ e _, p, ok => fun C l hp hN => live hS hc hR hm e ok C l hp hN
  | _, .fn _ f, p, ok => by
    intro C l hp hN
    subst hp
    obtain ⟨xs, b, v, h1, h2⟩ := live hS hc hR hm f ok (p := C.p) C l rfl hN
    refine Trace.congr (Trace.first (b := ()) h2 (Trace.fn_ (S := S) (pre := []) rfl (by rw [hS]; rfl))) ?_
    rw [← h1]
    rfl
  | _, .slice _ es _ _, p, ok => by
    intro C l hp hN
    refine Trace.marks (Trace.bind (f := fun vs => vs) (live hS hc hR hm es ok C l hp hN) fun vs h => ?_) (List.append_assoc _ _ _)
    obtain ⟨w, w', h⟩ := h
    refine Trace.first (b := ()) (f := fun _ => [] ++ vs ++ [.int es.cnt]) (Trace.arity rfl) ?_
    exact Trace.slice_ (pre := []) (args_len es w _ w' h).symm (by rw [hS]; rfl)
  | _, .noAtom, p, ok => fun C l v _ _ => .nil rfl
  | _, .atom a more, p, ok => fun C l v hp hN => (live hS hc hR hm a ok.1 C l v hp hN).bind fun v _ => live hS hc hR hm more ok.2 C l v hp hN
  | _, .call _ as s _ _, p, ok => by
    intro C l v hp hN
    refine Trace.marks (Trace.one (f := fun vs => vs) (live hS hc hR hm as ok C (l ++ [v]) hp hN) fun vs h => ?_) (List.append_assoc _ _ _)
    obtain ⟨w, w', h⟩ := h
    refine Trace.first (b := ()) (f := fun _ => [] ++ v :: vs ++ [.int as.cnt]) (Trace.arity rfl) ?_
    refine Trace.first (b := ()) (f := fun _ => [] ++ v :: vs ++ [.int as.cnt, .int (if s.isSome then 1 else 0)]) (es := [_]) (Trace.arity ?_) ?_
    · have := optCnt_bool (F := F) s
      rw [this]; simp [boolInt]
    · exact Trace.call_ (pre := []) (calls_ok hR) (args_len as w _ w' h).symm (by rw [hS]; rfl)
  | _, .member _ x _, p, ok => fun C l v hp hN => Trace.member_ (pre := []) (by rw [hS]; rfl)
  | _, .index _ i _, p, ok => by
    intro C l v hp hN
    refine Trace.marks (Trace.one (f := fun v => [v]) (live hS hc hR hm i ok C (l ++ [v]) hp hN) fun i h => ?_) (List.append_assoc _ _ _)
    refine Trace.first (b := ()) (f := fun _ => [v, i, .int 1]) (Trace.arity (k := 1) rfl) ?_
    refine Trace.first (b := ()) (f := fun _ => [v, i, .int 1, .int 0]) (es := [_]) (Trace.arity (k := 0) rfl) ?_
    refine Trace.first (b := ()) (f := fun _ => [v, i, .int 1, .int 0, .int 0]) (es := [_]) (Trace.arity (k := 0) rfl) ?_
    exact Trace.index_ (pre := []) (by rw [hS]; rfl)
  | _, .range _ i c j rb, p, ok => by
    intro C l v hp hN
    have hi : ∀ (t : Tm .optExpr) (o : Option (QVal F)), Yields (optRun (t.den S R m p)) fun o : Option (QVal F) => .int t.cnt = optInt o := by
      intro t _
      cases t with
      | noExpr => exact .pure rfl
      | expr e => exact (Yields.any _).bind fun v _ => .pure rfl
    refine Trace.congr (y := optRun (i.den S R m p) >>= fun i => optRun (j.den S R m p) >>= fun j =>
      S.at "index" [rb.tok] (do ofE (SubSlice (← theHeap) v (i.getD .nil) (j.getD .nil)))) ?_ ?_
    · refine Trace.marks (Trace.one (f := fun v => v.toList) ((live hS hc hR hm i ok.1 (p := p)).1 C (l ++ [v]) hp hN) fun vi h => ?_) (List.append_assoc _ _ _)
      obtain ⟨w, w', h⟩ := h
      refine Trace.first (b := ()) (f := fun _ => [v] ++ vi.toList ++ [optInt vi]) (Trace.arity (by rw [hi i vi w _ w' h])) ?_
      refine Trace.first (b := ()) (f := fun _ => [v] ++ vi.toList ++ [optInt vi, .int 1]) (es := [_]) (Trace.arity (k := 1) (by simp)) ?_
      refine Trace.marks (Trace.one (f := fun v => v.toList) ((live hS hc hR hm j ok.2 (p := p)).1 C _ hp hN) fun vj h => ?_) (List.append_assoc _ _ _)
      obtain ⟨w, w', h⟩ := h
      refine Trace.first (b := ()) (f := fun _ => [] ++ [v] ++ vi.toList ++ [optInt vi, .int 1] ++ vj.toList ++ [optInt vj]) (Trace.arity (by rw [hi j vj w _ w' h]; simp)) ?_
      exact Trace.range_ (pre := []) (by rw [hS]; rfl)
    · have e := fun t : Tm .optExpr => optVal_run (t.den S R m p : Option (Prog F (QVal F)))
      have h : (optVal (i.den S R m p) >>= fun vi => optVal (j.den S R m p) >>= fun vj => S.at "index" [rb.tok] (do ofE (SubSlice (← theHeap) v vi vj)) : Prog F (QVal F)) =
          (optRun (i.den S R m p) >>= fun i => optRun (j.den S R m p) >>= fun j => S.at "index" [rb.tok] (do ofE (SubSlice (← theHeap) v (i.getD .nil) (j.getD .nil)))) := by
        rw [e, e]
        simp only [bind_assoc, pure_bind]
      exact h
  | _, .noIndex _ _, p, ok => by
    intro C l v hp hN
    refine Trace.first (b := ()) (f := fun _ => [v, .int 0]) (es := [_]) (Trace.arity (k := 0) rfl) ?_
    refine Trace.first (b := ()) (f := fun _ => [v, .int 0, .int 0]) (es := [_]) (Trace.arity (k := 0) rfl) ?_
    refine Trace.first (b := ()) (f := fun _ => [v, .int 0, .int 0, .int 0]) (es := [_]) (Trace.arity (k := 0) rfl) ?_
    exact Trace.noIndex_ (pre := []) (by rw [hS]; rfl)
  | _, .index2 .., p, ok => ok.elim
  | _, .noExpr, p, ok => ⟨fun C l _ _ => .nil rfl, .inl ⟨rfl, rfl⟩⟩
  | _, .expr e, p, ok => ⟨fun C l hp hN => (live hS hc hR hm e ok C l hp hN).map fun _ => rfl,
      .inr ⟨_, rfl, always_code hc (parses_expr hc e ok) fun C l hp hN _ => live hS hc hR hm e ok C l hp hN, begins_ne (starts e)⟩⟩
  | _, .noArgs, p, ok => fun C l _ _ => .nil rfl
  | _, .args e more, p, ok => by
    intro C l hp hN
    refine Trace.bind (live hS hc hR hm e ok.1 C l hp hN) fun v _ => ?_
    exact (live hS hc hR hm more ok.2 C (l ++ [v]) hp hN).below.map fun _ => rfl
  | _, .lastArg, p, ok => fun C l _ _ => .nil rfl
  | _, .moreArgs _ e more, p, ok => by
    intro C l hp hN
    refine Trace.bind (live hS hc hR hm e ok.1 C l hp hN) fun v _ => ?_
    exact (live hS hc hR hm more ok.2 C (l ++ [v]) hp hN).below.map fun _ => rfl
  | _, .noPairs, p, ok => fun C l _ _ => .nil rfl
  | _, .pairs k _ v more, p, ok => by
    intro C l hp hN
    refine Trace.marks (Trace.bind (live hS hc hR hm k ok.1 C l hp hN) fun k _ => ?_) (List.append_assoc _ _ _)
    refine Trace.one (f := fun v => [v]) (live hS hc hR hm v ok.2.1 C (l ++ [k]) hp hN) fun v _ => ?_
    exact (live hS hc hR hm more ok.2.2 C (l ++ [k, v]) hp hN).below.map fun _ => rfl
  | _, .lastPair, p, ok => fun C l _ _ => .nil rfl
  | _, .morePairs _ k _ v more, p, ok => by
    intro C l hp hN
    refine Trace.marks (Trace.bind (live hS hc hR hm k ok.1 C l hp hN) fun k _ => ?_) (List.append_assoc _ _ _)
    refine Trace.one (f := fun v => [v]) (live hS hc hR hm v ok.2.1 C (l ++ [k]) hp hN) fun v _ => ?_
    exact (live hS hc hR hm more ok.2.2 C (l ++ [k, v]) hp hN).below.map fun _ => rfl
  | _, .assign _ _ e, p, ok => by
    intro C l hp hN
    subst hp
    refine Trace.bind (live hS hc hR hm e ok C l rfl hN) fun v _ => ?_
    exact Trace.onStr (x := Qlang.assign) (f := fun v => [v]) (fun _ => Does.assign (pre := [])) rfl (by rw [hS]; rfl)
  | _, .multi x c y more _ e, p, ok => by
    intro C l hp hN
    subst hp
    refine Trace.first (b := ()) (es := [_]) (f := fun _ => [.str x.tok.lit]) (Trace.name_ rfl) ?_
    refine Trace.marks (es := [evTok "name" y] ++ (namesEvs more ++ ([ev "ARITY" (.list 5 (A "name" (.tok 3)) (.tok 44) false) (y.tok :: namesToks more)
        (more.length + 1 : Nat)] ++ (e.evs ++ [ev "massign" gExpr e.toks (-1)])))) ?_ (by simp)
    refine Trace.first (b := ()) (f := fun _ => [.str x.tok.lit, .str y.tok.lit]) (Trace.name_ rfl) ?_
    refine Trace.first (b := ()) (f := fun _ => [.str x.tok.lit, .str y.tok.lit] ++ (nameLits more).map .str) (Trace.below (names_live more C _)) ?_
    refine Trace.first (b := ()) (f := fun _ => [.str x.tok.lit, .str y.tok.lit] ++ (nameLits more).map .str ++ [.int (more.length + 1 : Nat)]) (Trace.arity rfl) ?_
    refine Trace.one (f := fun v => [v]) (live hS hc hR hm e ok C _ rfl hN) fun v _ => ?_
    refine Trace.stack (pre := [] ++ (x.tok.lit :: y.tok.lit :: nameLits more).map .str ++ [.int (more.length + 1 : Nat), v]) ?_ (by simp)
    exact Trace.onIpt (x := Qlang.multiAssign) (f := fun v => [v]) (fun _ => Does.multi (pre := []) (by simp [nameLits_len])) rfl (by rw [hS]; rfl)
  | _, .inc .., p, ok => by
    intro C l hp hN
    subst hp
    exact Trace.onStr (x := Qlang.incDec Inc) (f := fun v => [v]) (fun _ => Does.incDec (pre := [])) rfl (by rw [hS]; rfl)
  | _, .dec .., p, ok => by
    intro C l hp hN
    subst hp
    exact Trace.onStr (x := Qlang.incDec Dec) (f := fun v => [v]) (fun _ => Does.incDec (pre := [])) rfl (by rw [hS]; rfl)
  | _, .opAssign o _ _ e, p, ok => by
    intro C l hp hN
    subst hp
    refine Trace.bind (live hS hc hR hm e ok C l rfl hN) fun v _ => ?_
    cases o <;> exact Trace.onStr (x := Qlang.opAssign _) (f := fun v => [v]) (fun _ => Does.opAssign (pre := [])) rfl (by rw [hS]; rfl)
  | _, .return_ _ e, p, ok => by
    intro C l hp hN
    subst hp
    have hi : Yields (optRun (e.den S R m C.p)) fun o : Option (QVal F) => .int e.cnt = optInt o := by
      cases e with
      | noExpr => exact .pure rfl
      | expr e => exact (Yields.any _).bind fun v _ => .pure rfl
    refine Trace.congr (y := optRun (e.den S R m C.p) >>= fun v => S.at "return" e.toks (returnFrom R C.p (v.getD .nil))) ?_ ?_
    · refine Trace.bind (f := fun v => v.toList) ((live hS hc hR hm e ok (p := C.p)).1 C l rfl hN) fun v h => ?_
      obtain ⟨w, w', h⟩ := h
      refine Trace.first (b := ()) (es := [_]) (f := fun _ => [] ++ v.toList ++ [optInt v]) (Trace.arity (by rw [hi w _ w' h]; rfl)) ?_
      exact Trace.return_ (pre := []) hR hN (by rw [hS]; rfl)
    · have h := optVal_run (e.den S R m C.p : Option (Prog F (QVal F)))
      exact Eq.trans (congrArg (· >>= _) h) (by simp only [bind_assoc, pure_bind])
  | _, .defer kw e, p, ok => by
    intro C l hp hN
    subst hp
    refine Trace.keptThen (ev "defer" (A "_unmute" (A "_code" gExpr)) e.toks (-1)) (Keeps.part (g := gExpr) (ts := e.toks) (n := -1) e (by decide))
      (.tok kDefer) [kw.tok] (-1) (A "_code" gExpr) e.toks (-1) ?_ ?_
    · rw [codeOf_begins (starts e)]
      exact Trace.defer_ (pre := [])
    · simp [Tm.evs, evCode, evTok]
  | _, .eval e, p, ok => fun C l hp hN => live hS hc hR hm e ok C l hp hN
  | _, .doc s more, p, ok => fun C l hp hN hB => (live hS hc hR hm s ok.1 C l hp hN).bind fun v _ => live hS hc hR hm more ok.2 C l v hp hN hB
  | _, .endDoc, p, ok => fun C l v _ _ _ => .nil rfl
  | _, .next sc s more, p, ok => by
    intro C l v hp hN hB
    refine Trace.marks (es := [evTok "clear" sc] ++ (s.evs ++ more.evs)) ?_ (by simp [Tm.evs])
    subst hp
    refine Trace.first (b := ()) (f := fun _ => []) (Trace.clear_ hN hB rfl) ?_
    exact (live hS hc hR hm s ok.1 C l rfl hN).bind fun v _ => live hS hc hR hm more ok.2 C l v rfl hN hB
  | _, .semi sc more, p, ok => by
    intro C l v hp hN hB
    refine Trace.marks (es := [evTok "clear" sc] ++ ([evTok "pushn" sc] ++ more.evs)) ?_ (by simp [Tm.evs])
    subst hp
    refine Trace.first (b := ()) (f := fun _ => []) (Trace.clear_ hN hB rfl) ?_
    refine Trace.first (b := ()) (f := fun _ => [.nil]) (Trace.pushn rfl) ?_
    exact live hS hc hR hm more ok C l .nil rfl hN hB
  | _, .noDoc, p, ok => ⟨always_nil, fun C l pre w hp hN => .ret rfl⟩
  | _, .someDoc d, p, ok => by
    have h := always_code hc (parses_doc hc d ok) (live hS hc hR hm d ok (p := p))
    have e : (codeOf (Tm.someDoc d).toks : QVal F) = .code d.toks := codeOf_begins (starts d)
    refine And.intro ?_ ?_
    · change Always K S.host r U p (runBody r U p (codeOf (Tm.someDoc d).toks)) _
      rw [e]
      exact h
    · change Drops K S.host r U p (Qlang.evalDrop r U p (str "doc") (codeOf (Tm.someDoc d).toks)) _
      rw [e]
      exact fun C l pre w hp hN => Does.evalDrop hp hN h
  | _, .noElif, p, ok => fun els no h => h
  | _, .elif _ c _ b _ more, p, ok => by
    intro els no h
    have hcond := always_code hc (parses_expr hc c ok.1) fun C l hp hN _ => live hS hc hR hm c ok.1 (p := p) C l hp hN
    have := ifLoop_step hcond (live hS hc hR hm b ok.2.1).1 (live hS hc hR hm more ok.2.2 els no h)
    rw [← codeOf_begins (starts c)] at this
    exact this
  | _, .noElse, p, ok => always_nil
  | _, .else_ _ _ b _, p, ok => (live hS hc hR hm b ok).1
  | _, .noCase, p, ok => fun dflt no v h => h
  | _, .case _ e _ b more, p, ok => by
    intro dflt no v h
    have hcond := always_code hc (parses_expr hc e ok.1) fun C l hp hN _ => live hS hc hR hm e ok.1 (p := p) C l hp hN
    have := switchLoop_step hcond (live hS hc hR hm b ok.2.1).1 (live hS hc hR hm more ok.2.2 dflt no v h)
    rw [← codeOf_begins (starts e)] at this
    exact this
  | _, .noDefault, p, ok => always_nil
  | _, .default _ _ b, p, ok => (live hS hc hR hm b ok).1
  | _, .noParts, p, ok => .nil
  | _, .parts s more, p, ok => by
    have h := always_code hc (parses_stmt hc s ok.2.2.1) fun C l hp hN _ => live hS hc hR hm s ok.2.2.1 (p := p) C l hp hN
    have := PartsOk.cons h (live hS hc hR hm more ok.2.2.2)
    rw [← codeOf_begins (starts s)] at this
    exact this
  | _, .lastPart, p, ok => .nil
  | _, .moreParts _ s more, p, ok => by
    have h := always_code hc (parses_stmt hc s ok.2.2.1) fun C l hp hN _ => live hS hc hR hm s ok.2.2.1 (p := p) C l hp hN
    have := PartsOk.cons h (live hS hc hR hm more ok.2.2.2)
    rw [← codeOf_begins (starts s)] at this
    exact this
  | _, .fnBody lp ps s rp lb b rb, p, ok => by
    intro C l hp hN
    refine ⟨paramLits ps, b.toks, s.isSome, rfl, ?_⟩
    refine Trace.marks (es := paramEvs ps ++ ([ev "ARITY" (.list 13 (A "name" (.tok 3)) (.tok 44) true) (paramToks ps) (paramCnt ps)] ++
      ([ev "ARITY" (.rep01 14 (.tok 153)) (optTok s) (optCnt s)] ++ (evTok "_mute" lb ::
      ((b.evs ++ [evCode (.rep01 15 gDoc) b.toks b.cnt]) ++ [evTok "_unmute" rb]))))) ?_ (by simp [Tm.evs])
    refine Trace.first (b := ()) (params_live ps C l) ?_
    refine Trace.first (b := ()) (f := fun _ => (paramLits ps).map .str ++ [.int (paramLits ps).length]) (Trace.arity (by rw [paramLits_len])) ?_
    refine Trace.first (b := ()) (f := fun _ => (paramLits ps).map .str ++ [.int (paramLits ps).length, boolInt s.isSome]) (Trace.arity (by rw [optCnt_bool]; simp)) ?_
    exact Trace.kept (Keeps.part b (by decide)) rfl (by simp)
  | _, .noMethod, p, ok => fun C l _ _ => by rw [infos]; exact .nil rfl
  | _, .method kw x f s more, p, ok => by
    intro C l hp hN
    subst hp
    obtain ⟨xs, b, v, h1, h2⟩ := live hS hc hR hm f ok.1 (p := C.p) C (l ++ [.str x.tok.lit]) rfl hN
    rw [infos, h1]
    refine Trace.bind (f := fun i => [minfo i]) ?_ fun i _ => ?_
    · refine Trace.first (b := ()) (es := [_]) (f := fun _ => [.str x.tok.lit]) (Trace.name_ rfl) ?_
      refine Trace.first (b := ()) h2.below ?_
      exact Trace.mfn_ (pre := []) rfl
    · exact (live hS hc hR hm more ok.2 C (l ++ [minfo i]) rfl hN).below.map fun _ => rfl
  | _, .clsName _, p, ok => by
    intro C l hp hN
    subst hp
    exact Trace.onStr (x := fun p s => Qlang.ref S.host.lib p s) (f := fun v => [v]) (fun _ => Does.ref (pre := [])) rfl (by rw [hS]; rfl)
  | _, .clsParen .., p, ok => by
    intro C l hp hN
    subst hp
    exact Trace.onStr (x := fun p s => Qlang.ref S.host.lib p s) (f := fun v => [v]) (fun _ => Does.ref (pre := [])) rfl (by rw [hS]; rfl)
  | _, .noNewArgs, p, ok => fun C l _ _ => Trace.arity (k := 0) rfl
  | _, .newArgs _ as _, p, ok => by
    intro C l hp hN
    refine Trace.marks (Trace.bind (f := fun vs => vs) (live hS hc hR hm as ok C l hp hN) fun vs h => ?_) (List.append_assoc _ _ _)
    obtain ⟨w, w', h⟩ := h
    refine Trace.first (b := ()) (f := fun _ => vs ++ [.int as.cnt]) (Trace.arity rfl) ?_
    refine Trace.arity (k := 1) ?_
    rw [← args_len as w _ w' h]
    simp [newStk]

/-- Without any fuel `EvalCode` gets nowhere. -/
theorem evalCode_zero (hc : Compiled r) {nm : Str} {g : Gr Str} (hg : table.lookup nm = some g) {ts : List Token} {q : Nat} {s : St (QEng F)} {Q E} :
    Halts 0 r.env (client S.host.lib r U).sem (Tpl.evalCode r U q nm (.tokens ts)) s Q E True := by
  unfold Tpl.evalCode
  refine .get (.modify (.deferred ?_))
  unfold engSub
  rw [hc.tab, hg]
  refine .modify (g := Eng.reset) (.bind (Q0 := fun _ _ => False) (.inr ⟨trivial, fun f hf => ?_⟩) fun _ _ h => h.elim)
  rw [Go.run_match, Nat.le_zero.mp hf]
  rfl

/-- Function bodies and deferred expressions do what they mean. -/
theorem runs_ok (hS : S.site = sites) (hc : Compiled r) (j : Int) : ∀ n, RunsOk ⟨n, j⟩ S.host r U (runsOr S j n)
  | 0 => ⟨fun _ _ _ _ _ _ _ _ _ ho => .inr fun s hs => (evalCode_zero hc (nm := str "doc") (g := bDoc) (by kernel_rfl)).mono (fun _ _ h => h) (fun _ _ h => h) fun _ => ho.symm,
      fun _ _ _ _ _ _ _ _ ho => .inr fun s hs => (evalCode_zero hc (nm := str "expr") (g := bTerm 4) (by kernel_rfl)).mono (fun _ _ h => h) (fun _ _ h => h) fun _ => ho.symm, fun w => ⟨w, rfl⟩⟩
  | n + 1 => by
    have hR := runs_ok hS hc j n
    refine ⟨?_, ?_, fun w => ⟨w, rfl⟩⟩
    · intro ts c N B l hN hB w o ho
      simp only [runsOr] at ho
      cases hd : S.doc ts with
      | none => rw [hd] at ho; exact .inl ⟨w, ho.symm⟩
      | some d =>
        rw [hd] at ho
        obtain ⟨ok, rfl⟩ := S.doc_ok hd
        exact evals hc (parses_doc hc d ok) (live hS hc hR (Nat.le_refl _) d ok ⟨c, N, B⟩ l rfl hN hB) ho
    · intro ts c N B l hN w o ho
      simp only [runsOr] at ho
      cases hd : S.expr ts with
      | none => rw [hd] at ho; exact .inl ⟨w, ho.symm⟩
      | some e =>
        rw [hd] at ho
        obtain ⟨ok, rfl⟩ := S.expr_ok hd
        exact evals hc (parses_expr hc e ok) (live hS hc hR (Nat.le_refl _) e ok ⟨c, N, B⟩ l rfl hN) ho

/-- A program. -/
theorem does_trace (hS : S.site = sites) (hc : Compiled r) (j : Int) (n : Nat) (d : Tm .doc) (ok : d.Ok) {C : Conf} {l : List (QVal F)} (hp : C.p = 0) (hN : 0 < C.N)
    (hB : C.B 0 = l.length) : Trace ⟨n, j⟩ S.host r U C l [] d.evs (d.doesOr S j n) fun v => [v] := live hS hc (runs_ok hS hc j n) (Nat.le_refl _) d ok C l hp hN hB

/-- Some exit code is not the one with which a run has ended. -/
theorem not_lost {α : Type} (n : Nat) (o : Except (QPanic F) α × World F) : ∃ j, ¬ Lost ⟨n, j⟩ (some o) := by
  by_cases h : Lost ⟨n, 0⟩ (some o)
  · obtain ⟨w', h⟩ := h
    refine ⟨1, ?_⟩
    rintro ⟨w2, h2⟩
    rw [h] at h2
    cases h2
  · exact ⟨0, h⟩

end Tpl.Qlang.Src
