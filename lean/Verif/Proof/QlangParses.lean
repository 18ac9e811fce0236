import Verif.Proof.QlangParse

/-! Every program is read by the grammar of qlang: the induction. -/
namespace Tpl.Qlang.Src
open Spec

variable {env : Env Str}

theorem Rj.and {g : Gr Str} {gs : List (Gr Str)} {src : List Token} (h : Rj env g src) (hg : g ≠ .nil := by nofun) :
    Rj env (.and (g :: gs)) src := by
  obtain ⟨n, h⟩ := h
  exact ⟨n, .and (.seqFail hg h)⟩

/-- Factors: the alternative is chosen by the first token. -/
theorem rd_factor (he : env 0 = some gFactor) {g : Gr Str} {k : Nat} (t : Tk k) {ts rest : List Token} {l : Int}
    {e : List (Ev Str)} (i : Nat) (hi : (match gFactor with
      | .or gs => gs[i]?
      | _ => none) = some g)
    (hr : ((match gFactor with
      | .or gs => gs.take i
      | _ => []).all fun x => rej 60 x [some k]) = true) (h : Rd env g (t.tok :: ts) l e rest) :
    Rd env (.var 0) (t.tok :: ts) (-1) e rest :=
  Rd.var he (Rd.orHd he i hi t.ok hr h)

theorem rd_binary (he : env 0 = some gFactor) {l : Nat} (o : BOp l) (op : Tk o.kind) {ts rest : List Token} {e : List (Ev Str)}
    (h : Rd env (gTerm l) ts (-1) e rest) :
    ∃ n, Rd env (opG l (gTerm l)) (op.tok :: ts) n (e ++ [ev o.mark (gTerm l) ts (-1)]) rest := by
  have h1 : Rd env (.and [.tok o.kind, A o.mark (gTerm l)]) (op.tok :: ts) 2 (e ++ [ev o.mark (gTerm l) ts (-1)]) rest :=
    .and (.tok op.ok (.last h.action))
  cases o with
  | mul => exact ⟨_, Rd.orHd he 0 rfl op.ok rfl h1⟩
  | quo => exact ⟨_, Rd.orHd he 1 rfl op.ok rfl h1⟩
  | mod => exact ⟨_, Rd.orHd he 2 rfl op.ok rfl h1⟩
  | add => exact ⟨_, Rd.orHd he 0 rfl op.ok rfl h1⟩
  | sub => exact ⟨_, Rd.orHd he 1 rfl op.ok rfl h1⟩
  | lt => exact ⟨_, Rd.orHd he 0 rfl op.ok rfl h1⟩
  | gt => exact ⟨_, Rd.orHd he 1 rfl op.ok rfl h1⟩
  | eq => exact ⟨_, Rd.orHd he 2 rfl op.ok rfl h1⟩
  | le => exact ⟨_, Rd.orHd he 3 rfl op.ok rfl h1⟩
  | ge => exact ⟨_, Rd.orHd he 4 rfl op.ok rfl h1⟩
  | ne => exact ⟨_, Rd.orHd he 5 rfl op.ok rfl h1⟩

theorem rej_op : ∀ l, l < 5 → rejAll (opG l (gTerm l)) (after (l + 1)) = true := by
  intro l hl
  match l, hl with
  | 0, _ | 1, _ | 2, _ | 3, _ | 4, _ => rfl

/-- Names after the first one. -/
theorem mn_names (more : Names) {rest : List Token} (h : hd rest ≠ some 44) :
    Mn env (.and [.tok 44, A "name" (.tok 3)]) (namesToks more) more.length (namesEvs more) rest := by
  induction more with
  | nil =>
    refine .none (Rj.and ⟨0, ?_⟩)
    match rest, h with
    | [], _ => exact .tokEnd
    | t :: rest, h => exact .tokNot fun hf => hf.elim (fun hk => h (congrArg some hk)) (fun hk => by cases hk.2)
  | cons p more ih =>
    obtain ⟨c, x⟩ := p
    exact Mn.more (ts := [c.tok, x.tok]) (e := [_]) (.and (.tok c.ok (.actLast x.ok))) ih

theorem rd_names (x : Tk IDENT) (more : Names) {id : Nat} {l0 : Bool} {rest : List Token} (h : hd rest ≠ some 44) :
    Rd env (.list id (A "name" (.tok 3)) (.tok 44) l0) (x.tok :: namesToks more) (more.length + 1 : Nat)
      (evTok "name" x :: namesEvs more) rest :=
  Rd.list (ts := [x.tok]) (e := [_]) (Rd.action (.tok x.ok)) (mn_names more h)

theorem rd_params (ps : Option (Tk IDENT × Names)) {id : Nat} {rest : List Token} (h : hd rest ∈ K [41, 153]) :
    Rd env (.list id (A "name" (.tok 3)) (.tok 44) true) (paramToks ps) (paramCnt ps) (paramEvs ps) rest := by
  have h44 : hd rest ≠ some 44 := by intro hh; rw [hh] at h; revert h; decide
  have h3 : Rj env (A "name" (.tok 3)) rest := by
    match rest, h with
    | t :: rest, h =>
      refine ⟨0, .actionFail (.tokNot fun hf => ?_)⟩
      rcases hf with hk | hk
      · have : some t.kind ∈ K [41, 153] := h
        rw [hk] at this
        revert this
        decide
      · cases hk.2
  match ps with
  | none => exact .list0 h3
  | some (x, more) => exact rd_names x more h44

/-- A token is not the first of another kind. -/
theorem rj_tk {k k' : Nat} (t : Tk k') {more : List Token} (h : fitsB k k' = false) : Rj env (.tok k) (t.tok :: more) := by
  refine ⟨0, .tokNot fun hf => ?_⟩
  have := fitsB_iff.2 hf
  rw [t.ok, h] at this
  cases this

theorem rd_stmt (he : env 0 = some gFactor) {g : Gr Str} {k : Nat} (t : Tk k) {ts rest : List Token} {l : Int}
    {e : List (Ev Str)} (i : Nat) (look : List (Option Nat)) (hs : Sees look (t.tok :: ts ++ rest)) (hi : (match bS with
      | .or gs => gs[i]?
      | _ => none) = some g)
    (hr : ((match bS with
      | .or gs => gs.take i
      | _ => []).all fun x => rej 60 x look) = true) (h : Rd env g (t.tok :: ts) l e rest) :
    Rd env gS (t.tok :: ts) (-1) e rest :=
  Rd.named (Rd.or i hi (fun x hx => (rejs he 60).1 x look _ hs (List.all_eq_true.1 hr x hx)) h)

theorem sees_tk2 {k k' : Nat} (t : Tk k) (t' : Tk k') (more : List Token) : Sees [some k, some k'] (t.tok :: t'.tok :: more) :=
  ⟨_, _, rfl, t.ok, _, _, rfl, t'.ok, trivial⟩

theorem sees_tk1 {k : Nat} (t : Tk k) (more : List Token) : Sees [some k] (t.tok :: more) := ⟨_, _, rfl, t.ok, trivial⟩

/-- An assignment with an operator. -/
theorem rd_opAssign (he : env 0 = some gFactor) (o : AOp) (x : Tk IDENT) (op : Tk o.kind) {ts rest : List Token} {e : List (Ev Str)}
    (h : Rd env gExpr ts (-1) e rest) :
    Rd env gS (x.tok :: op.tok :: ts) (-1) (e ++ [ev o.mark (.and [.tok 3, .tok o.kind, .nil, gExpr]) (x.tok :: op.tok :: ts) 4]) rest := by
  have h1 : Rd env (A o.mark (.and [.tok 3, .tok o.kind, .nil, gExpr])) (x.tok :: op.tok :: ts) 4
      (e ++ [ev o.mark (.and [.tok 3, .tok o.kind, .nil, gExpr]) (x.tok :: op.tok :: ts) 4]) rest :=
    Rd.action (.and (.tok x.ok (.tok op.ok (.mark (.last h)))))
  cases o with
  | add => exact rd_stmt he x 4 _ (sees_tk2 x op _) rfl rfl h1
  | sub => exact rd_stmt he x 5 _ (sees_tk2 x op _) rfl rfl h1
  | mul => exact rd_stmt he x 6 _ (sees_tk2 x op _) rfl rfl h1
  | quo => exact rd_stmt he x 7 _ (sees_tk2 x op _) rfl rfl h1
  | mod => exact rd_stmt he x 8 _ (sees_tk2 x op _) rfl rfl h1

/-- Nothing begins with `{`. -/
theorem rd_noBrace {ts rest : List Token} (hb : ¬ Braced (ts ++ rest)) : Rd env (.not (.tok 123)) [] (-1) [] (ts ++ rest) := by
  refine .not ⟨0, ?_⟩
  generalize ts ++ rest = src at hb
  match src, hb with
  | [], _ => exact .tokEnd
  | t :: more, hb => exact .tokNot fun hf => hf.elim (fun h => hb ⟨t, more, rfl, h⟩) (fun h => by cases h.2)

theorem braced_append {ks : List Nat} {ts rest : List Token} (hs : Begins ks ts) (h : ¬ Braced ts) : ¬ Braced (ts ++ rest) := by
  obtain ⟨t, more, rfl, _⟩ := hs
  rintro ⟨t', more', h1, h2⟩
  obtain ⟨rfl, _⟩ := List.cons.inj h1
  exact h ⟨t, more, rfl, h2⟩

theorem rd_part {s : Tm .stmt} {rest : List Token} (h : Rd env gS s.toks (-1) s.evs rest) (hb : ¬ Braced s.toks) :
    Rd env (A "_code" gPart) s.toks 2 (s.evs ++ [evCode gPart s.toks 2]) rest :=
  Rd.action (.and (.skip (rd_noBrace (braced_append (starts s) hb)) (.last h)))

set_option maxRecDepth 4000 in
/-- Every tree is read, with the actions of the tree. -/
theorem reads (he : env 0 = some gFactor) : ∀ {c : Cat} (t : Tm c), t.Ok → ∀ rest, Reads env t rest := by
  intro c t
  induction t with
  | @chain l hl a b iha ihb =>
    intro ok rest hr
    obtain ⟨k, hb⟩ := ihb ok.2 rest hl hr
    have ha := iha ok.1 (b.toks ++ rest) (after_tail b hr)
    exact Rd.named (.and (.cons ha (.last (.rep0 hb)) (by cases l <;> nofun)))
  | @noOp l =>
    intro _ rest hl hr
    exact ⟨0, .none (rj_of he (rej_op l hl) hr)⟩
  | @bin l o op b more ihb ihm =>
    intro ok rest hl hr
    obtain ⟨k, hm⟩ := ihm ok.2 rest hl hr
    have hb := ihb ok.1 (more.toks ++ rest) (after_tail more hr)
    obtain ⟨n, h⟩ := rd_binary he o op hb
    exact ⟨_, Mn.more (ts := op.tok :: b.toks) h hm⟩
  | and op b more ihb ihm =>
    intro ok rest hl hr
    obtain ⟨k, hm⟩ := ihm ok.2 rest hl hr
    have hb := ihb ok.1 (more.toks ++ rest) (after_tail more hr)
    exact ⟨_, Mn.more (ts := op.tok :: b.toks) (.and (.act op.ok (.last hb.action3))) hm⟩
  | or op b more ihb ihm =>
    intro ok rest hl hr
    obtain ⟨k, hm⟩ := ihm ok.2 rest hl hr
    have hb := ihb ok.1 (more.toks ++ rest) (after_tail more hr)
    exact ⟨_, Mn.more (ts := op.tok :: b.toks) (.and (.act op.ok (.last hb.action3))) hm⟩
  | int t => exact fun _ rest _ => rd_factor he t 0 rfl rfl (Rd.action (.tok t.ok))
  | float t => exact fun _ rest _ => rd_factor he t 1 rfl rfl (Rd.action (.tok t.ok))
  | string t => exact fun _ rest _ => rd_factor he t 2 rfl rfl (Rd.action (.tok t.ok))
  | char t => exact fun _ rest _ => rd_factor he t 3 rfl rfl (Rd.action (.tok t.ok))
  | post e ops ihe iho =>
    intro ok rest hr
    obtain ⟨k, ho⟩ := iho ok.2 rest hr
    have h1 := ihe ok.1 (ops.toks ++ rest)
    have h2 : Rd env (.and [gPrim, .rep0 27 gAtom]) (e.toks ++ ops.toks) 2 (e.evs ++ ops.evs) rest := .and (.cons h1 (.last (.rep0 ho)))
    have hb : Begins [3, 40, 180, 91] (e.toks ++ ops.toks) := by
      refine Begins.append ?_
      cases e with
      | name x => exact begins_tk x (by decide)
      | paren lp => exact begins_tk lp (by decide)
      | fn kw => exact begins_tk kw (by decide)
      | slice lb => exact begins_tk lb (by decide)
    refine Rd.var he (Rd.or 4 rfl ?_ h2)
    obtain ⟨t, more, ht, hk⟩ := hb
    intro x hx
    rw [show (e.post ops).toks = t :: more from ht]
    have hall : (List.all [3, 40, 180, 91] fun k => List.all (match gFactor with
        | .or gs => gs.take 4
        | _ => []) fun x => rej 60 x [some k]) = true := rfl
    exact (rejs he 60).1 x [some t.kind] _ ⟨t, more ++ rest, rfl, rfl, trivial⟩
      (List.all_eq_true.1 (List.all_eq_true.1 hall _ hk) x hx)
  | if_ kw c lb b rb es el ihc ihb ihe ihl =>
    intro ok rest hr
    obtain ⟨okc, okb, oke, okl⟩ := ok
    have h1 := ihl okl rest hr 29
    have h2 := ihe oke (el.toks ++ rest) (after_elifs el hr)
    have h3 := rd_if (env := env) (lb := lb) (rb := rb) (rest := (es.toks ++ el.toks) ++ rest) fun r => ihb okb r
    have h4 := rd_expr (ihc okc (((lb.tok :: (b.toks ++ [rb.tok])) ++ (es.toks ++ el.toks)) ++ rest)) (mem_tk lb _ (by decide))
    have h5 : Sq env true _ _ _ rest := .cons (h4.action (m := str "_code")) (.cons h3 (.cons ((Rd.rep0 (id := 28) h2).action (m := str "_ARITY"))
      (.last (h1.action3 (m := str "_ARITY") (m1 := str "_unmute") (m2 := str "if")))))
    have h6 := rd_factor he kw 5 rfl rfl (.and (.act kw.ok (.mark h5)))
    exact h6.cast (by simp [Tm.toks]) rfl rfl
  | switch kw on lb cs d rb iho ihc ihd =>
    intro ok rest hr
    obtain ⟨hb, oko, okc, okd⟩ := ok
    have h1 := ihd okd ([rb.tok] ++ rest) (mem_tk rb _ (by decide))
    have h2 := ihc okc (d.toks ++ ([rb.tok] ++ rest)) (after_cases d (mem_tk rb _ (by decide)))
    have h3 : Rd env gSw (cs.toks ++ d.toks) _ _ ([rb.tok] ++ rest) := Rd.named (.and (.cons ((Rd.rep0 (id := 10) h2).action (m := str "_ARITY"))
      (.last (h1.action (m := str "_ARITY")))))
    have h4 := (iho oko ((lb.tok :: ((cs.toks ++ d.toks) ++ [rb.tok])) ++ rest) (mem_tk lb _ (by decide))).2 (hd_tk lb _) hb 30
    have h5 : Sq env true _ _ _ rest := .cons (h4.action (m := str "_code")) (.tok lb.ok (.cons h3
      (.last (Rd.action2 (m := str "_unmute") (m1 := str "switch") (.tok rb.ok)))))
    have h6 := rd_factor he kw 6 rfl rfl (.and (.act kw.ok (.mark h5)))
    exact h6.cast (by simp [Tm.toks]) rfl rfl
  | for_ kw ps lb b rb ihp ihb =>
    intro ok rest hr
    have h1 := ihb ok.2 ([rb.tok] ++ rest) (mem_tk rb _ (by decide)) 32
    have h2 := ihp ok.1 ((lb.tok :: (b.toks ++ [rb.tok])) ++ rest) (mem_tk lb _ (by decide))
    have h5 : Sq env true _ _ _ rest := .cons (h2.action (m := str "_ARITY")) (.tok lb.ok (.cons (h1.action (m := str "_code"))
      (.last (Rd.action2 (m := str "_unmute") (m1 := str "for") (.tok rb.ok)))))
    exact rd_factor he kw 7 rfl rfl (.and (.act kw.ok (.mark h5)))
  | new kw c as ihc iha =>
    intro ok rest hr
    have h1 := iha ok.2 rest hr
    have h2 := ihc ok.1 (as.toks ++ rest)
    exact rd_factor he kw 8 rfl rfl (.and (.tok kw.ok (.mark (.cons h2 (.last (h1.action (m := str "new")))))))
  | class_ kw lb ms rb ihm =>
    intro ok rest hr
    have h1 := ihm ok ([rb.tok] ++ rest) (mem_tk rb _ (by decide))
    exact rd_factor he kw 9 rfl rfl (.and (.tok kw.ok (.mark (.tok lb.ok (.cons ((Rd.rep0 (id := 33) h1).action (m := str "ARITY"))
      (.actLast rb.ok))))))
  | recover kw lp rp =>
    intro ok rest hr
    exact rd_factor he kw 10 rfl rfl (.and (.tok kw.ok (.tok lp.ok (.actLast rp.ok))))
  | main kw lb b rb ihb =>
    intro ok rest hr
    have h1 := ihb ok ([rb.tok] ++ rest) (mem_tk rb _ (by decide)) 34
    exact rd_factor he kw 11 rfl rfl (.and (.tok kw.ok (.act lb.ok (.cons (h1.action (m := str "_code"))
      (.last (Rd.action2 (m := str "_unmute") (m1 := str "main") (.tok rb.ok)))))))
  | map lb ps c rb ihp =>
    intro ok rest hr
    have h1 := ihp ok ((optTok c ++ [rb.tok]) ++ rest) (by rw [List.append_assoc]; exact afterL_close rb (by decide) c rest) 35
    have h2 : Rd env (.rep01 36 (.tok 44)) (optTok c) (optCnt c) [] ([rb.tok] ++ rest) := rd_optTok c 36 (rj_tk rb rfl)
    have h3 : Sq env true [.rep01 36 (.tok 44), A "map" (.tok 125)] (optTok c ++ [rb.tok]) [evTok "map" rb] rest :=
      Sq.cons (e := []) h2 (.actLast rb.ok)
    exact rd_factor he lb 12 rfl rfl (.and (.tok lb.ok (.mark (.cons (h1.action (m := str "ARITY")) h3))))
  | not op e ih =>
    intro ok rest hr
    exact rd_factor he op 13 rfl rfl (.and (.tok op.ok (.last ((ih ok rest hr).action (m := str "not")))))
  | neg op e ih =>
    intro ok rest hr
    exact rd_factor he op 14 rfl rfl (.and (.tok op.ok (.last ((ih ok rest hr).action (m := str "neg")))))
  | pos op e ih =>
    intro ok rest hr
    exact rd_factor he op 15 rfl rfl (.and (.tok op.ok (.last (ih ok rest hr))))
  | name x =>
    intro _ rest
    exact Rd.orHd he 0 rfl x.ok rfl (Rd.action (.tok x.ok))
  | paren lp e rp ih =>
    intro ok rest
    have h1 := rd_expr (ih ok ([rp.tok] ++ rest)) (mem_tk rp _ (by decide))
    have h2 : Sq env true [gExpr, .tok 41] _ (e.evs ++ []) rest := .cons h1 (.tokLast rp.ok)
    rw [List.append_nil] at h2
    exact Rd.orHd he 1 rfl lp.ok rfl (.and (.tok lp.ok (.mark h2)))
  | fn kw f ih =>
    intro ok rest
    exact Rd.orHd he 2 rfl kw.ok rfl (.and (.tok kw.ok (.mark (.last ((ih ok rest).action (m := str "fn"))))))
  | slice lb es c rb ih =>
    intro ok rest
    have h1 := ih ok ((optTok c ++ [rb.tok]) ++ rest) (by rw [List.append_assoc]; exact afterL_close rb (by decide) c rest) 25
    have h2 : Rd env (.rep01 26 (.tok 44)) (optTok c) (optCnt c) [] ([rb.tok] ++ rest) := rd_optTok c 26 (rj_tk rb rfl)
    have h3 : Sq env false [.rep01 26 (.tok 44), A "slice" (.tok 93)] (optTok c ++ [rb.tok]) [evTok "slice" rb] rest :=
      Sq.cons (e := []) h2 (.actLast rb.ok)
    exact Rd.orHd he 3 rfl lb.ok rfl (.and (.tok lb.ok (.cons (h1.action (m := str "ARITY")) h3)))
  | noAtom =>
    intro _ rest hr
    exact ⟨0, .none (rj_of he (ks := after 0) rfl hr)⟩
  | atom a more iha ihm =>
    intro ok rest hr
    obtain ⟨k, hm⟩ := ihm ok.2 rest hr
    exact ⟨_, Mn.more (iha ok.1 (more.toks ++ rest)) hm⟩
  | call lp as s c rp ih =>
    intro ok rest
    have hA : AfterL (optTok s ++ (optTok c ++ ([rp.tok] ++ rest))) := by
      cases s with
      | none => exact afterL_close rp (by decide) c rest
      | some e => exact .inl (mem_tk e _ (by decide))
    have h1 := ih ok ((optTok s ++ (optTok c ++ [rp.tok])) ++ rest) (by rw [List.append_assoc, List.append_assoc]; exact hA) 19
    have hs : Rj env (.tok 153) ((optTok c ++ [rp.tok]) ++ rest) := by
      cases c with
      | none => exact rj_tk rp rfl
      | some c => exact rj_tk c rfl
    have h2 := Rd.action (m := str "ARITY") (rd_optTok s 20 hs)
    have h3 : Rd env (.rep01 21 (.tok 44)) (optTok c) (optCnt c) [] ([rp.tok] ++ rest) := rd_optTok c 21 (rj_tk rp rfl)
    have h4 : Sq env false [.rep01 21 (.tok 44), A "call" (.tok 41)] (optTok c ++ [rp.tok]) [evTok "call" rp] rest :=
      Sq.cons (e := []) h3 (.actLast rp.ok)
    exact Rd.named (Rd.orHd he 0 rfl lp.ok rfl (.and (.tok lp.ok (.cons (h1.action (m := str "ARITY")) (.cons h2 h4)))))
  | member d x h =>
    intro _ rest
    have hm : Rd env gMember [x] 5 [] rest := by
      simp only [List.mem_cons, List.not_mem_nil, or_false] at h
      rcases h with h | h | h | h | h
      · exact Rd.orHd he 0 rfl h rfl (.tok h)
      · exact Rd.orHd he 1 rfl h rfl (.tok h)
      · exact Rd.orHd he 2 rfl h rfl (.tok h)
      · exact Rd.orHd he 3 rfl h rfl (.tok h)
      · exact Rd.orHd he 4 rfl h rfl (.tok h)
    exact Rd.named (Rd.orHd he 1 rfl d.ok rfl (.and (.tok d.ok (.last (hm.action (m := str "mref"))))))
  | index lb i rb ih =>
    intro ok rest
    have h1 := Rd.action (m := str "ARITY") (Rd.opt (id := 22) (rd_expr (ih ok ([rb.tok] ++ rest)) (mem_tk rb _ (by decide))))
    have h2 : Rd env (A "ARITY" (.rep01 23 (.tok 58))) [] 0 [ev "ARITY" (.rep01 23 (.tok 58)) [] 0] ([rb.tok] ++ rest) :=
      Rd.action (e := []) (.optNone (rj_tk rb rfl))
    have h3 : Rd env (A "ARITY" (.rep01 24 gExpr)) [] 0 [ev "ARITY" (.rep01 24 gExpr) [] 0] ([rb.tok] ++ rest) :=
      Rd.action (e := []) (.optNone (rj_of he (ks := K [93]) rfl (mem_tk rb _ (by decide))))
    exact Rd.named (Rd.orHd he 2 rfl lb.ok rfl (.and (.tok lb.ok (.cons h1 (Sq.cons (ts := []) h2 (Sq.cons (ts := []) h3 (.actLast rb.ok)))))))
  | range lb i c j rb ihi ihj =>
    intro ok rest
    have h1 := ((ihi ok.1 ((c.tok :: (j.toks ++ [rb.tok])) ++ rest) (mem_tk c _ (by decide))).1 (fun h => by rw [List.cons_append, hd_tk] at h; cases h) 22).action (m := str "ARITY")
    have h2 : Rd env (A "ARITY" (.rep01 23 (.tok 58))) [c.tok] 1 [ev "ARITY" (.rep01 23 (.tok 58)) [c.tok] 1] ((j.toks ++ [rb.tok]) ++ rest) :=
      Rd.action (e := []) (.opt (.tok c.ok))
    have h3 := ((ihj ok.2 ([rb.tok] ++ rest) (mem_tk rb _ (by decide))).1 (fun h => by rw [List.cons_append, hd_tk] at h; cases h) 24).action (m := str "ARITY")
    exact Rd.named (Rd.orHd he 2 rfl lb.ok rfl (.and (.tok lb.ok (.cons h1 (Sq.cons (ts := [c.tok]) h2 (.cons h3 (.actLast rb.ok)))))))
  | noIndex lb rb =>
    intro _ rest
    have h1 : Rd env (A "ARITY" (.rep01 22 gExpr)) [] 0 [ev "ARITY" (.rep01 22 gExpr) [] 0] ([rb.tok] ++ rest) :=
      Rd.action (e := []) (.optNone (rj_of he (ks := K [93]) rfl (mem_tk rb _ (by decide))))
    have h2 : Rd env (A "ARITY" (.rep01 23 (.tok 58))) [] 0 [ev "ARITY" (.rep01 23 (.tok 58)) [] 0] ([rb.tok] ++ rest) :=
      Rd.action (e := []) (.optNone (rj_tk rb rfl))
    have h3 : Rd env (A "ARITY" (.rep01 24 gExpr)) [] 0 [ev "ARITY" (.rep01 24 gExpr) [] 0] ([rb.tok] ++ rest) :=
      Rd.action (e := []) (.optNone (rj_of he (ks := K [93]) rfl (mem_tk rb _ (by decide))))
    exact Rd.named (Rd.orHd he 2 rfl lb.ok rfl (.and (.tok lb.ok (Sq.cons (ts := []) h1 (Sq.cons (ts := []) h2 (Sq.cons (ts := []) h3 (.actLast rb.ok)))))))
  | index2 => exact fun ok => ok.elim
  | noExpr =>
    intro _ rest hr
    refine ⟨fun h id => .optNone (rj_of he (ks := afterE.filter (· ≠ some 123)) (by kernel_rfl) (by simp only [List.mem_filter, hr, true_and]; exact decide_eq_true fun h' => h h' rfl)), fun h _ id => .optNone ?_⟩
    refine rj_of he (ks := [some 123]) (by kernel_rfl) (by rw [h]; decide)
  | expr e ih =>
    intro ok rest hr
    have h1 := rd_expr (ih ok rest) hr
    refine ⟨fun _ id => .opt h1, fun _ hb id => .opt (.and (.skip (rd_noBrace (braced_append (starts e) hb)) (.last h1)))⟩
  | noArgs =>
    intro _ rest hr id
    refine .list0 (rj_of he (ks := K [41, 93, 125, 153, 44]) (by kernel_rfl) ?_)
    rcases hr with h | h
    · exact (show K [41, 93, 125, 153] ⊆ K [41, 93, 125, 153, 44] by decide) h
    · rw [h.1]; decide
  | args e more ihe ihm =>
    intro ok rest hr id
    exact .list (rd_expr (ihe ok.1 (more.toks ++ rest)) (after_args more hr)) (ihm ok.2 rest hr)
  | lastArg =>
    intro _ rest hr
    exact .none (rj_comma he (by kernel_rfl) hr)
  | moreArgs c e more ihe ihm =>
    intro ok rest hr
    exact Mn.more (ts := c.tok :: e.toks) (.and (.tok c.ok (.last (rd_expr (ihe ok.1 (more.toks ++ rest)) (after_args more hr))))) (ihm ok.2 rest hr)
  | noPairs =>
    intro _ rest hr id
    refine .list0 (rj_of he (ks := K [41, 93, 125, 153, 44]) (by kernel_rfl) ?_)
    rcases hr with h | h
    · exact (show K [41, 93, 125, 153] ⊆ K [41, 93, 125, 153, 44] by decide) h
    · rw [h.1]; decide
  | pairs k c v more ihk ihv ihm =>
    intro ok rest hr id
    have h1 := rd_expr (ihv ok.2.1 (more.toks ++ rest)) (after_pairs more hr)
    have h2 := rd_expr (ihk ok.1 ((c.tok :: v.toks) ++ (more.toks ++ rest))) (mem_tk c _ (by decide))
    exact (Rd.list (.and (.cons h2 (.tok c.ok (.last h1)))) (ihm ok.2.2 rest hr)).cast (by simp [Tm.toks]) rfl rfl
  | lastPair =>
    intro _ rest hr
    exact .none (rj_comma he (by kernel_rfl) hr)
  | morePairs d k c v more ihk ihv ihm =>
    intro ok rest hr
    have h1 := rd_expr (ihv ok.2.1 (more.toks ++ rest)) (after_pairs more hr)
    have h2 := rd_expr (ihk ok.1 ((c.tok :: v.toks) ++ (more.toks ++ rest))) (mem_tk c _ (by decide))
    have h3 : Rd env gPair _ _ _ (more.toks ++ rest) := .and (.cons h2 (.tok c.ok (.last h1)))
    exact (Mn.more (.and (.tok d.ok (.last h3))) (ihm ok.2.2 rest hr)).cast (by simp [Tm.toks]) rfl rfl
  | assign x op e ih =>
    intro ok rest hr _
    have h1 := rd_expr (ih ok rest) ((show afterS ⊆ afterE by decide) hr)
    exact rd_stmt he x 0 [] trivial rfl rfl (Rd.action (.and (.tok x.ok (.tok op.ok (.mark (.last h1))))))
  | multi x c y more op e ih =>
    intro ok rest hr _
    have h1 := rd_expr (ih ok rest) ((show afterS ⊆ afterE by decide) hr)
    have h2 := Rd.action (m := str "ARITY") (rd_names (env := env) y more (id := 5) (l0 := false) (rest := (op.tok :: e.toks) ++ rest)
      (by rw [List.cons_append, hd_tk]; decide))
    have h3 : Rd env (A "name" (.and [.tok 3, .tok 44, .nil])) [x.tok, c.tok] 3 [ev "name" (.and [.tok 3, .tok 44, .nil]) [x.tok, c.tok] 3]
        (((y.tok :: namesToks more) ++ (op.tok :: e.toks)) ++ rest) :=
      Rd.action (e := []) (.and (.tok x.ok (.tok c.ok (.mark .nil))))
    have h4 : Sq env false _ _ _ rest := Sq.cons (ts := [x.tok, c.tok]) h3 (.cons h2 (.tok op.ok (.last (h1.action (m := str "massign")))))
    exact rd_stmt he x 1 _ (sees_tk2 x c _) rfl rfl (.and h4)
  | inc x op =>
    intro _ rest _ _
    exact rd_stmt he x 2 _ (sees_tk2 x op _) rfl rfl (Rd.action (e := []) (.and (.tok x.ok (.tokLast op.ok))))
  | dec x op =>
    intro _ rest _ _
    exact rd_stmt he x 3 _ (sees_tk2 x op _) rfl rfl (Rd.action (e := []) (.and (.tok x.ok (.tokLast op.ok))))
  | opAssign o x op e ih =>
    intro ok rest hr _
    exact rd_opAssign he o x op (rd_expr (ih ok rest) ((show afterS ⊆ afterE by decide) hr))
  | return_ kw e ih =>
    intro ok rest hr hb
    have h1 : Rd env (.rep01 6 gExpr) e.toks e.cnt e.evs rest := by
      refine (ih ok rest ((show afterS ⊆ afterE by decide) hr)).1 (fun h => ?_) 6
      cases e with
      | noExpr => exact absurd trivial (hb h)
      | expr e => exact nofun
    exact rd_stmt he kw 9 _ (sees_tk1 kw _) rfl rfl (.and (.tok kw.ok (.last (h1.action2 (m := str "ARITY") (m1 := str "return")))))
  | defer kw e ih =>
    intro ok rest hr _
    have h1 := rd_expr (ih ok rest) ((show afterS ⊆ afterE by decide) hr)
    exact rd_stmt he kw 10 _ (sees_tk1 kw _) rfl rfl (.and (.act kw.ok (.mark (.last (h1.action3 (m := str "_code") (m1 := str "_unmute") (m2 := str "defer"))))))
  | eval e ih =>
    intro ok rest hr _
    exact Rd.named (Rd.or 11 rfl (rj_assign he e hr) (rd_expr (ih ok rest) ((show afterS ⊆ afterE by decide) hr)))
  | doc s more ihs ihm =>
    intro ok rest hr
    obtain ⟨k, h1⟩ := ihm ok.2 rest hr
    have h2 := after_docTail more hr
    have h3 := ihs ok.1 (more.toks ++ rest) ((show none :: K [125, 178, 179, 59] ⊆ afterS by decide) h2)
      (fun h => by rw [h] at h2; exact absurd h2 (by decide))
    exact Rd.named (.and (.cons h3 (.last (.rep0 h1))))
  | endDoc =>
    intro _ rest hr
    exact ⟨0, .none (rj_of he (ks := afterD) rfl hr)⟩
  | next c s more ihs ihm =>
    intro ok rest hr
    obtain ⟨k, h1⟩ := ihm ok.2 rest hr
    have h2 := after_docTail more hr
    have h3 := ihs ok.1 (more.toks ++ rest) ((show none :: K [125, 178, 179, 59] ⊆ afterS by decide) h2)
      (fun h => by rw [h] at h2; exact absurd h2 (by decide))
    exact ⟨_, Mn.more (ts := c.tok :: s.toks) (Rd.orHd he 0 rfl c.ok rfl (.and (.act c.ok (.last h3)))) h1⟩
  | semi c more ihm =>
    intro ok rest hr
    obtain ⟨k, h1⟩ := ihm ok rest hr
    obtain ⟨n, h2⟩ := rj_of he (g := gS) (by kernel_rfl) (after_docTail more hr)
    have h3 : Tr env (.one (.and [A "clear" (.tok 59), gS])) ([c.tok] ++ (more.toks ++ rest)) (.fail (1 + n)) [evTok "clear" c] :=
      .and (Tr.seqNext (g := A "clear" (.tok 59)) (e := [evTok "clear" c]) (o := .fail n) nofun
        (Tr.action (e := []) (.tok (.inl c.ok))) (.seqFail (g := gS) nofun h2))
    have h4 : Tr env (.one (A "pushn" (.tok 59))) ([c.tok] ++ (more.toks ++ rest)) (.succ 1 (-1)) [evTok "pushn" c] :=
      Tr.action (e := []) (.tok (.inl c.ok))
    exact ⟨_, Mn.more (ts := [c.tok]) (Tr.or (Tr.altNext (o := .succ 1 (-1)) h3 (.altHit h4))) h1⟩
  | noDoc =>
    intro _ rest hr id
    exact .optNone (rj_of he (ks := afterD) (by kernel_rfl) hr)
  | someDoc d ih =>
    intro ok rest hr id
    exact .opt (ih ok rest hr)
  | noElif =>
    intro _ rest hr
    exact .none (rj_of he (ks := some 187 :: after 0) rfl hr)
  | elif kw c lb b rb more ihc ihb ihm =>
    intro ok rest hr
    have h1 := ihm ok.2.2 rest hr
    have h2 := rd_if (env := env) (lb := lb) (rb := rb) (rest := more.toks ++ rest) fun r => ihb ok.2.1 r
    have h3 := rd_expr (ihc ok.1 ((lb.tok :: (b.toks ++ [rb.tok])) ++ (more.toks ++ rest))) (mem_tk lb _ (by decide))
    exact (Mn.more (.and (.tok kw.ok (.cons (h3.action (m := str "_code")) (.last h2)))) h1).cast (by simp [Tm.toks]) rfl rfl
  | noElse =>
    intro _ rest hr id
    exact .optNone (rj_of he (ks := after 0) rfl hr)
  | else_ kw lb b rb ihb =>
    intro ok rest hr id
    exact .opt (.and (.tok kw.ok (.last (rd_if fun r => ihb ok r))))
  | noCase =>
    intro _ rest hr
    exact .none (rj_of he (ks := K [179, 125]) rfl hr)
  | case kw e c b more ihe ihb ihm =>
    intro ok rest hr
    have h1 := ihm ok.2.2 rest hr
    have h2 := ihb ok.2.1 (more.toks ++ rest) (after_case more hr) 9
    have h3 := rd_expr (ihe ok.1 ((c.tok :: b.toks) ++ (more.toks ++ rest))) (mem_tk c _ (by decide))
    exact (Mn.more (.and (.tok kw.ok (.mark (.cons (h3.action (m := str "_code")) (.tok c.ok (.last (h2.action (m := str "_code")))))))) h1).cast
      (by simp [Tm.toks]) rfl rfl
  | noDefault =>
    intro _ rest hr
    exact .optNone (rj_of he (ks := K [125]) rfl hr)
  | default kw c b ihb =>
    intro ok rest hr
    have h2 := ihb ok rest ((show K [125] ⊆ afterD by decide) hr) 11
    exact .opt (.and (.tok kw.ok (.mark (.tok c.ok (.last (h2.action (m := str "_code")))))))
  | noParts =>
    intro _ rest hr
    exact .list0 (rj_of he (ks := K [123]) rfl hr)
  | parts s more ihs ihm =>
    intro ok rest hr
    have h1 := ihs ok.2.2.1 (more.toks ++ rest) ((show K [59, 123] ⊆ afterS by decide) (after_parts more hr)) (fun h => ok.2.1 (no_parts more h))
    exact .list (rd_part h1 ok.1) (ihm ok.2.2.2 rest hr)
  | lastPart =>
    intro _ rest hr
    exact .none (rj_of he (ks := K [123]) rfl hr)
  | moreParts c s more ihs ihm =>
    intro ok rest hr
    have h1 := ihs ok.2.2.1 (more.toks ++ rest) ((show K [59, 123] ⊆ afterS by decide) (after_parts more hr)) (fun h => ok.2.1 (no_parts more h))
    exact Mn.more (ts := c.tok :: s.toks) (.and (.tok c.ok (.last (rd_part h1 ok.1)))) (ihm ok.2.2.2 rest hr)
  | fnBody lp ps s rp lb b rb ihb =>
    intro ok rest
    have h1 := ihb ok ([rb.tok] ++ rest) (mem_tk rb _ (by decide)) 15
    have h2 := Rd.action (m := str "ARITY") (rd_optTok (env := env) s 14 (rest := (rp.tok :: lb.tok :: (b.toks ++ [rb.tok])) ++ rest) (rj_tk rp rfl))
    have h3 := Rd.action (m := str "ARITY") (rd_params (env := env) ps (id := 13)
      (rest := (optTok s ++ (rp.tok :: lb.tok :: (b.toks ++ [rb.tok]))) ++ rest) (by
        cases s with
        | none => exact mem_tk rp _ (by decide)
        | some s => exact mem_tk s _ (by decide)))
    exact Rd.named (.and (.tok lp.ok (.cons h3 (.cons h2 (.tok rp.ok (.act lb.ok (.cons (h1.action (m := str "_code")) (.actLast rb.ok))))))))
  | noMethod =>
    intro _ rest hr
    exact .none (rj_of he (ks := K [125]) rfl hr)
  | method kw x f s more ihf ihm =>
    intro ok rest hr
    have h1 := ihm ok.2 rest hr
    have hs : Rj env (.tok 59) (more.toks ++ rest) := by
      cases more with
      | noMethod => exact rj_of he (ks := K [125]) rfl hr
      | method kw => exact rj_tk kw rfl
    have h2 := Rd.action (m := str "mfn") (rd_optTok (env := env) s 18 hs)
    have h3 := ihf ok.1 (optTok s ++ (more.toks ++ rest))
    exact (Mn.more (ts := kw.tok :: x.tok :: (f.toks ++ optTok s)) (.named (.and (.tok kw.ok (.mark (.act x.ok (.cons h3 (.last h2))))))) h1).cast
      (by simp [Tm.toks]) rfl rfl
  | clsName x =>
    intro _ rest
    exact Rd.named (Rd.orHd he 1 rfl x.ok rfl (Rd.action (e := []) (.tok x.ok)))
  | clsParen lp x rp =>
    intro _ rest
    exact Rd.named (Rd.orHd he 0 rfl lp.ok rfl (.and (.tok lp.ok (.act x.ok (.tokLast rp.ok)))))
  | noNewArgs =>
    intro _ rest hr
    exact Rd.named (Rd.action (e := []) (.optNone (rj_of he (ks := after 0) rfl hr)))
  | newArgs lp as rp ih =>
    intro ok rest hr
    have h1 := ih ok ([rp.tok] ++ rest) (.inl (mem_tk rp _ (by decide))) 16
    have h2 : Sq env false [A "ARITY" (.list 16 gExpr (.tok 44) true), .tok 41] _ (_ ++ []) rest := .cons (h1.action (m := str "ARITY")) (.tokLast rp.ok)
    rw [List.append_nil] at h2
    exact Rd.named (Rd.action (.opt (.and (.tok lp.ok h2))))

end Tpl.Qlang.Src
