import Verif.Proof.GroupText
import Verif.Props.Order

/-! Property C134: alternatives that are added to the rule `doc`. -/
namespace Tpl.Props
open Tpl Tpl.Spec KwScanner Scanner
variable {A B σ V P : Type} {U : Uni} {k : KwScanner}

section
variable {env : Env A} {sem : Sem A σ V P}

theorem oneOrOr_ok {gs : List (Gr A)} {src : List Token} {s s' : St σ} {n : Nat} : Eval env sem (oneOrOr gs) src s (.ok n s') ↔
    ∃ pre g post fs s1, gs = pre ++ g :: post ∧ AllFail (Eval env sem) src pre s fs s1 ∧ Eval env sem g src s1 (.ok n s') := by
  match gs with
  | [] => exact C26_match
  | _ :: _ :: _ => exact C26_match
  | [g] =>
    constructor
    · intro h
      exact ⟨[], g, [], [], s, rfl, .nil, h⟩
    · rintro ⟨pre, g', post, fs, s1, e, hf, h⟩
      cases pre with
      | nil =>
        cases e
        cases hf
        exact h
      | cons x pre =>
        injection e with _ e
        cases pre <;> cases e

theorem oneOrOr_panic {gs : List (Gr A)} {src : List Token} {s s' : St σ} {p} : Eval env sem (oneOrOr gs) src s (.panic p s') ↔
    ∃ pre g post fs s1, gs = pre ++ g :: post ∧ AllFail (Eval env sem) src pre s fs s1 ∧ Eval env sem g src s1 (.panic p s') := by
  match gs with
  | [] => exact C26_panic
  | _ :: _ :: _ => exact C26_panic
  | [g] =>
    constructor
    · intro h
      exact ⟨[], g, [], [], s, rfl, .nil, h⟩
    · rintro ⟨pre, g', post, fs, s1, e, hf, h⟩
      cases pre with
      | nil =>
        cases e
        cases hf
        exact h
      | cons x pre =>
        injection e with _ e
        cases pre <;> cases e

theorem oneOrOr_fail {gs : List (Gr A)} {src : List Token} {s s' : St σ} :
    (∃ n e, Eval env sem (oneOrOr gs) src s (.fail n e s')) ↔ ∃ fs, AllFail (Eval env sem) src gs s fs s' := by
  match gs with
  | [] => exact C26_fail
  | _ :: _ :: _ => exact C26_fail
  | [g] =>
    constructor
    · rintro ⟨n, e, h⟩
      exact ⟨[(n, e)], .cons h .nil⟩
    · rintro ⟨fs, h⟩
      cases h with
      | cons h1 h2 => cases h2; exact ⟨_, _, h1⟩

theorem allFail_append {E : Gr A → List Token → St σ → Res A σ P → Prop} {src : List Token} {gs gs' : List (Gr A)} {s s1 s2 : St σ} {fs fs' : List (Nat × Err A)}
    (h : AllFail E src gs s fs s1) (h' : AllFail E src gs' s1 fs' s2) : AllFail E src (gs ++ gs') s (fs ++ fs') s2 := by
  induction h with
  | nil => exact h'
  | cons h1 _ ih => exact .cons h1 (ih h')

end

theorem alts_some {mk : Marker B} {a : Alts} {t : Tab B} {x : List (Gr B) × Tab B} (h : a.den mk t = .ok x) : x.1 ≠ [] := by
  cases a with
  | one i is =>
    obtain ⟨y, h1, h2⟩ := bind_ok h
    obtain ⟨z, h3, h4⟩ := bind_ok h2
    cases h4; nofun
  | alt i is r =>
    obtain ⟨y, h1, h2⟩ := bind_ok h
    obtain ⟨z, h3, h4⟩ := bind_ok h2
    obtain ⟨w, h5, h6⟩ := bind_ok h4
    cases h6; nofun

/-- The rule `doc`, as the last one. -/
theorem lastDoc_den {mk : Marker B} {l : List Rule} {b : Alts} {t T : Tab B} {root : Gr B} (hf : Fresh t) (hl : ∀ r ∈ l, r.name ≠ bytes "doc")
    (h : denDoc mk (l ++ [⟨bytes "doc", b⟩]) t = .ok T) (hr : T.grammars.lookup (bytes "doc") = some root) :
    ∃ T1 gs T2, denDoc mk l t = .ok T1 ∧ b.den mk T1 = .ok (gs, T2) ∧ root = oneOrOr gs ∧ T = { T2 with grammars := (bytes "doc", root) :: T2.grammars } := by
  obtain ⟨T1, h1, h2⟩ := denDoc_append.mp h
  obtain ⟨T', h3, h4⟩ := bind_ok h2
  cases h4
  obtain ⟨gs, T2, h5, h6, e, _⟩ := rule_den h3
  have hnd : bytes "doc" ∉ T2.defined := by
    intro hd
    have hd : bytes "doc" ∈ T1.defined := by unfold Tab.defined at *; rw [← e.gr]; exact hd
    rcases (doc_names h1).1 _ hd with h | ⟨r, h, hn⟩
    · simp [Tab.defined, hf.1] at h
    · exact hl r h hn
  have no : ∀ {T : Tab B}, T.grammars = T2.grammars → T.grammars.lookup (bytes "doc") = some root → False := fun e1 e2 =>
    hnd (by unfold Tab.defined; rw [← e1]; exact lookup_some e2)
  rcases define_cases h6 with ⟨_, _, rfl, _⟩ | ⟨_, _, i, hi, rfl⟩ | ⟨_, _, rfl⟩
  · exact (no rfl hr).elim
  · exact (no rfl hr).elim
  · have er : root = oneOrOr gs := by
      have : List.lookup (bytes "doc") ((bytes "doc", oneOrOr gs) :: T2.grammars) = some (oneOrOr gs) := by simp [List.lookup]
      exact (Option.some.inj (hr.symm.trans this))
    exact ⟨T1, gs, T2, h1, h5, er, by rw [er]⟩

/-- The grammar text `a` has the rules `l`, none of them named `doc`, and then the rule `doc` with
the alternatives `b`. -/
structure DocLast (U : Uni) (k : KwScanner) (l : List Rule) (b : Alts) (a : Str) : Prop where
  text : ∃ ts e, Tokenizes U k a clMode ts e ∧ IsDoc ts (l ++ [⟨bytes "doc", b⟩])
  other : ∀ r ∈ l, r.name ≠ bytes "doc"

theorem cl_docLast {mk : Marker B} {mode : Mode} (hk : Steps U KwScanner.zero k) {a : Str} {l : List Rule} {b : Alts} (ha : DocLast U k l b a)
    {f : Nat} {ret : CompileRet B} (h : Compiler.cl ⟨a, mk, mode⟩ U f k = some (.ok ret)) :
    ∃ T1 gs T2, denDoc mk l (clStart B U k a) = .ok T1 ∧ b.den mk T1 = .ok (gs, T2) ∧ ret.root = oneOrOr gs ∧
      ret.tab = { T2 with grammars := (bytes "doc", ret.root) :: T2.grammars } ∧ (∀ v ∈ T2.vars, v.2 ≠ none) ∧
      denDoc mk (l ++ [⟨bytes "doc", b⟩]) (clStart B U k a) = .ok ret.tab := by
  obtain ⟨⟨ts, e, ht, hd⟩, hl⟩ := ha
  obtain ⟨ts1, e1, rs1, T, root, htk, hd1, ho, hroot, hv, rfl⟩ := (C40_compiles _ hk ret).mp ⟨f, h⟩
  have ets : ts = ts1 := by
    have h1 := (tokenizes_ok hk ht).1
    rw [(tokenizes_ok hk htk).1] at h1
    injection h1 with h1
    exact h1.symm
  subst ets
  obtain rfl := C40_unambiguous hd hd1
  change denDoc mk _ (clStart B U k a) = _ at ho
  obtain ⟨T1, gs, T2, h1, h2, h3, h4⟩ := lastDoc_den ⟨rfl, rfl⟩ hl ho hroot
  subst h4
  exact ⟨T1, gs, T2, h1, h2, h3, rfl, hv, ho⟩

/-- What is known of a grammar text and the text with alternatives added to `doc`. -/
structure Widened (gs gs' : List (Gr B)) (ret ret' : CompileRet B) : Prop where
  root : ret.root = oneOrOr gs
  root' : ret'.root = oneOrOr (gs ++ gs')
  old : gs ≠ []
  more : gs' ≠ []
  env : ret'.env = ret.env
  words : ∀ w n, ret.tab.scanner.keywords.get w = some n → ret'.tab.scanner.keywords.get w = some n

theorem cl_widened {mk : Marker B} {mode : Mode} (hk : Steps U KwScanner.zero k) {a a' : Str} {l : List Rule} {b x : Alts} (ha : DocLast U k l b a)
    (ha' : DocLast U k l (b.append x) a') {f f' : Nat} {ret ret' : CompileRet B} (h : Compiler.cl ⟨a, mk, mode⟩ U f k = some (.ok ret))
    (h' : Compiler.cl ⟨a', mk, mode⟩ U f' k = some (.ok ret')) :
    ∃ gs gs' T1 T T', Widened gs gs' ret ret' ∧ denDoc mk l (clStart B U k a') = .ok T1 ∧ Ext T1 T ∧ Onward T1 T ∧ x.den mk T = .ok (gs', T') ∧
      ret'.tab = { T' with grammars := (bytes "doc", ret'.root) :: T'.grammars } ∧ (∀ v ∈ T'.vars, v.2 ≠ none) := by
  obtain ⟨T1, gs, T2, h1, h2, h3, h4, h5, h6⟩ := cl_docLast hk ha h
  obtain ⟨T1', gs1, T2', h1', h2', h3', h4', h5', _⟩ := cl_docLast hk ha' h'
  have h1s := h1'
  rw [clStart_at k a a', denDoc_at, h1] at h1'
  obtain rfl : T1.at_ (k.tokenize U a' clMode).2 = T1' := by simpa [atT] using h1'
  rw [choice_append] at h2'
  obtain ⟨⟨gs2, T3⟩, h7, h8⟩ := bind_ok h2'
  have h7' := h7
  rw [alts_at, h2] at h7'
  cases h7'
  obtain ⟨⟨gs', T4⟩, h9, h10⟩ := bind_ok h8
  cases h10
  have hvars : T4.vars = T2.vars := by
    obtain ⟨ns, e1, _⟩ := (alts_ext x h9).1.vars
    cases ns with
    | nil => simpa [Tab.at_] using e1
    | cons n ns => exact absurd rfl (h5' (n, none) (by dsimp only at e1; rw [e1]; simp))
  refine ⟨gs, gs', _, _, T4, ⟨h3, h3', alts_some h2, alts_some h9, ?_, ?_⟩, h1s, (alts_ext b h7).1, alts_onward b h7, h9, h4', h5'⟩
  · unfold CompileRet.env Tab.env
    rw [h4, h4']
    dsimp only
    rw [hvars]
  · intro w n hw
    rw [h4] at hw
    rw [h4']
    exact (alts_onward x h9).grows w n hw

section
variable {gs gs' : List (Gr B)} {ret ret' : CompileRet B} {sem : Sem B σ V P}

theorem Widened.ok (hw : Widened gs gs' ret ret') {toks : List Token} {s s' : St σ} {n : Nat} (h : Eval ret.env sem ret.root toks s (.ok n s')) :
    Eval ret'.env sem ret'.root toks s (.ok n s') := by
  rw [hw.root, oneOrOr_ok] at h
  obtain ⟨pre, g, post, fs, s1, rfl, h1, h2⟩ := h
  rw [hw.root', hw.env, oneOrOr_ok]
  exact ⟨pre, g, post ++ gs', fs, s1, by simp, h1, h2⟩

theorem Widened.panic (hw : Widened gs gs' ret ret') {toks : List Token} {s s' : St σ} {p} (h : Eval ret.env sem ret.root toks s (.panic p s')) :
    Eval ret'.env sem ret'.root toks s (.panic p s') := by
  rw [hw.root, oneOrOr_panic] at h
  obtain ⟨pre, g, post, fs, s1, rfl, h1, h2⟩ := h
  rw [hw.root', hw.env, oneOrOr_panic]
  exact ⟨pre, g, post ++ gs', fs, s1, by simp, h1, h2⟩

/-- Where the alternatives fail, the added ones are tried. -/
theorem Widened.next (hw : Widened gs gs' ret ret') {toks : List Token} {s s1 : St σ} {n e} (h : Eval ret.env sem ret.root toks s (.fail n e s1))
    {r : Res B σ P} (h' : Eval ret'.env sem (oneOrOr gs') toks s1 r) :
    match r with
    | .fail _ _ s2 => ∃ n e, Eval ret'.env sem ret'.root toks s (.fail n e s2)
    | r => Eval ret'.env sem ret'.root toks s r := by
  rw [hw.root] at h
  obtain ⟨fs, hf⟩ := oneOrOr_fail.mp ⟨n, e, h⟩
  rw [hw.root']
  rw [← hw.env] at hf
  cases r with
  | ok m s2 =>
    obtain ⟨pre, g, post, fs', s3, rfl, h1, h2⟩ := oneOrOr_ok.mp h'
    exact oneOrOr_ok.mpr ⟨gs ++ pre, g, post, _, _, by simp, allFail_append hf h1, h2⟩
  | panic p s2 =>
    obtain ⟨pre, g, post, fs', s3, rfl, h1, h2⟩ := oneOrOr_panic.mp h'
    exact oneOrOr_panic.mpr ⟨gs ++ pre, g, post, _, _, by simp, allFail_append hf h1, h2⟩
  | fail m e' s2 =>
    obtain ⟨fs', h1⟩ := oneOrOr_fail.mp ⟨m, e', h'⟩
    exact oneOrOr_fail.mpr ⟨_, allFail_append hf h1⟩
end

/-- The tables that the alternatives `x` are read with, alone and behind others. -/
theorem added_twinned {mk : Marker B} (hmk : Uniform mk) {l : List Rule} {t t' T1 T1' T T' : Tab B} (hf : Fresh t) (hf' : Fresh t')
    (h1 : denDoc mk l t = .ok T1) (h1' : denDoc mk l t' = .ok T1') (e : Ext T1 T) (e' : Ext T1' T') (o : Onward T1 T) (o' : Onward T1' T')
    (hn : NoTrue T) (hn' : NoTrue T') (hv : ∀ v ∈ T.vars, v.2 ≠ none) (hv' : ∀ v ∈ T'.vars, v.2 ≠ none) (hd : (l.map Rule.name).Nodup)
    (hk : KindRel (SameKind T.scanner T'.scanner)) : Twinned T T' := by
  have back : ∀ {u v : Tab B} {n : Str} {x : Gr B}, Ext u v → Def v n x → Def u n x := by
    intro u v n x he hx
    rcases hx with hx | ⟨i, hx⟩
    · exact .inl (by rw [← he.gr]; exact hx)
    · obtain ⟨ns, h1, _⟩ := he.vars
      rw [h1, List.getElem?_append] at hx
      split at hx
      · exact .inr ⟨i, hx⟩
      · rw [List.getElem?_map] at hx
        cases hy : ns[i - u.vars.length]? with
        | none => rw [hy] at hx; cases hx
        | some m => rw [hy] at hx; cases hx
  refine ⟨fun v n o e => hv _ (List.mem_iff_getElem?.mpr ⟨v, e⟩), fun v n o e => hv' _ (List.mem_iff_getElem?.mpr ⟨v, e⟩), fun n x x' hx hx' => ?_, hk⟩
  rcases doc_def h1 (back e hx) with h | ⟨r, hr, hrn, t1, gs, u, e1, l1, rfl⟩
  · exact absurd h (fresh_def hf)
  · rcases doc_def h1' (back e' hx') with h | ⟨r', hr', hrn', t1', gs', u', e1', l1', rfl⟩
    · exact absurd h (fresh_def hf')
    · obtain rfl := same_rule hd hr hr' (hrn.trans hrn'.symm)
      exact oneOrOr_twin (alts_twin hmk hn hn' r.body e1 e1' (l1.trans o) (l1'.trans o'))

theorem noTrue_tail {T T' : Tab B} {g : Gr B} (e : T' = { T with grammars := (bytes "doc", g) :: T.grammars }) (h : NoTrue T') : NoTrue T := by
  subst e
  refine ⟨?_, h.vars⟩
  have h1 := h.look
  rwa [List.lookup_cons, show (bytes "true" == bytes "doc") = false by decide] at h1

/-- The alternatives behind others do what they do alone. -/
theorem added_follows {mk : Marker B} (hmk : Uniform mk) {mode : Mode} (hk : Steps U KwScanner.zero k) {a a' c : Str} {l : List Rule} {b x : Alts}
    (ha : DocLast U k l b a) (ha' : DocLast U k l (b.append x) a') (hc : DocLast U k l x c) (hd : (l.map Rule.name).Nodup) (htr : ∀ r ∈ l, r.name ≠ bytes "true")
    {f f' f2 : Nat} {ret ret' ret2 : CompileRet B} (h : Compiler.cl ⟨a, mk, mode⟩ U f k = some (.ok ret))
    (h' : Compiler.cl ⟨a', mk, mode⟩ U f' k = some (.ok ret')) (h2 : Compiler.cl ⟨c, mk, mode⟩ U f2 k = some (.ok ret2)) :
    ∃ gs gs', Widened gs gs' ret ret' ∧ Follows ret2.env ret'.env (SameKind ret2.tab.scanner ret'.tab.scanner) ret2.root (oneOrOr gs') ∧
      KwFine ret2.tab.scanner ∧ KwFine ret'.tab.scanner := by
  have hnt : ∀ {b : Alts}, ∀ r ∈ l ++ [⟨bytes "doc", b⟩], r.name ≠ bytes "true" := by
    intro b r hr
    rcases List.mem_append.mp hr with hr | hr
    · exact htr r hr
    · obtain rfl := List.mem_singleton.mp hr
      exact (by decide : bytes "doc" ≠ bytes "true")
  obtain ⟨T1, gs2, T2, e1, e2, e3, e4, e5, e6⟩ := cl_docLast hk hc h2
  obtain ⟨_, _, _, _, _, _, _, _, e6'⟩ := cl_docLast hk ha' h'
  obtain ⟨gs, gs', T1', T', T2', hw, w1, w2, w3, w4, w5, w6⟩ := cl_widened hk ha ha' h h'
  have f1 := den_fine hmk hk e6
  have f1' := den_fine hmk hk e6'
  have n1 : NoTrue T2 := noTrue_tail e4 (doc_noTrue (t := clStart B U k c) ⟨rfl, rfl⟩ e6 (by rw [e4]; exact e5) hnt)
  have n1' : NoTrue T2' := noTrue_tail w5 (doc_noTrue (t := clStart B U k a') ⟨rfl, rfl⟩ e6' (by rw [w5]; exact w6) hnt)
  have hs : ret2.tab.scanner = T2.scanner := by rw [e4]
  have hs' : ret'.tab.scanner = T2'.scanner := by rw [w5]
  have tw := added_twinned hmk (t := clStart B U k c) (t' := clStart B U k a') ⟨rfl, rfl⟩ ⟨rfl, rfl⟩ e1 w1 (alts_ext x e2).1 (w2.trans (alts_ext x w4).1)
    (alts_onward x e2) (w3.trans (alts_onward x w4)) n1 n1' e5 w6 hd (by rw [← hs, ← hs']; exact kindRel f1 f1')
  have ht := oneOrOr_twin (alts_twin hmk n1 n1' x e2 w4 (.refl _) (.refl _))
  refine ⟨gs, gs', hw, fun hsrc htrc => ?_, f1, f1'⟩
  have he : ret2.env = T2.env := by unfold CompileRet.env Tab.env; rw [e4]
  have he' : ret'.env = T2'.env := by unfold CompileRet.env Tab.env; rw [w5]
  rw [hs, hs'] at hsrc
  rw [he, e3] at htrc
  rw [he', hs, hs']
  obtain ⟨ev, g1, g2⟩ := transfer tw.linked htrc (.one (oneOrOr gs')) _ ht hsrc
  exact ⟨_, ev, g1, fun _ => rfl, g2⟩

theorem or_not_nil {gs gs' : List (Gr B)} (h : gs ≠ []) (h' : gs' ≠ []) : oneOrOr (gs ++ gs') ≠ .nil := by
  cases gs with
  | nil => exact absurd rfl h
  | cons g gs =>
    cases gs with
    | nil =>
      cases gs' with
      | nil => exact absurd rfl h'
      | cons g' gs' => exact fun e => by cases e
    | cons g2 gs => exact fun e => by cases e

theorem exactly_of_match (m : Matcher B σ V P) (k : KwScanner) (fuel : Nat) (src : Str) (s : St σ) : (m.matchExactly U fuel k src s).1 = match (m.match_ U fuel k src s).1 with
    | none => none
    | some (.err e s) => some (.err e s)
    | some (.panic p s) => some (.panic p s)
    | some (.ok next s) => if next.length ≠ 0 then some (.err (.match_ (mismatch .eof next)) s) else some (.ok () s) := by
  unfold Matcher.matchExactly
  generalize m.match_ U fuel k src s = r
  obtain ⟨r, k'⟩ := r
  rfl

/-- What `Match` does is determined. -/
theorem match_det {m : Matcher B σ V P} {k : KwScanner} {fuel fuel' : Nat} {src : Str} {s : St σ} {r r' : MRes B σ P (List Token)}
    (h : (m.match_ U fuel k src s).1 = some r) (h' : (m.match_ U fuel' k src s).1 = some r') : r = r' := by
  by_cases hn : m.grammar = .nil
  · unfold Matcher.match_ at h h'
    rw [hn] at h h'
    exact Option.some.inj (h.symm.trans h')
  · rw [match_eq m hn] at h h'
    generalize (k.tokenize U src m.mode).1 = t at h h'
    obtain ⟨ts, e⟩ := t
    cases e with
    | some e => exact Option.some.inj (h.symm.trans h')
    | none =>
      dsimp only at h h'
      cases hi : m.init s with
      | panic p s => rw [hi] at h h'; exact Option.some.inj (h.symm.trans h')
      | ok u s1 =>
        rw [hi] at h h'
        dsimp only at h h'
        cases hx : matchG m.env m.sem fuel m.grammar ts s1 with
        | none => rw [hx] at h; cases h
        | some y =>
          cases hy : matchG m.env m.sem fuel' m.grammar ts s1 with
          | none => rw [hy] at h'; cases h'
          | some y' =>
            obtain rfl := C24_function ⟨_, hx⟩ ⟨_, hy⟩
            rw [hx] at h
            rw [hy] at h'
            exact Option.some.inj (h.symm.trans h')

theorem exactly_det {m : Matcher B σ V P} {k : KwScanner} {fuel fuel' : Nat} {src : Str} {s : St σ} {r r' : MRes B σ P Unit}
    (h : (m.matchExactly U fuel k src s).1 = some r) (h' : (m.matchExactly U fuel' k src s).1 = some r') : r = r' := by
  rw [exactly_of_match] at h h'
  cases hx : (m.match_ U fuel k src s).1 with
  | none => rw [hx] at h; cases h
  | some y =>
    cases hy : (m.match_ U fuel' k src s).1 with
    | none => rw [hy] at h'; cases h'
    | some y' =>
      obtain rfl := match_det hx hy
      rw [hx] at h
      rw [hy] at h'
      exact Option.some.inj (h.symm.trans h')

/-- The scanners of the two texts give the same tokens for texts without new words. -/
theorem widened_tokens {mk : Marker B} {mode : Mode} (hk : Steps U KwScanner.zero k) (hb : k.sc.bad = false) {a a' : Str} {gs gs' : List (Gr B)}
    {f f' : Nat} {ret ret' : CompileRet B} (h : Compiler.cl ⟨a, mk, mode⟩ U f k = some (.ok ret)) (h' : Compiler.cl ⟨a', mk, mode⟩ U f' k = some (.ok ret'))
    (hg : Widened gs gs' ret ret') {src : Str} (hw : ∀ w, IdentIn U src mode w → QuotedIn U a' w → QuotedIn U a w ∨ k.keywords.get w ≠ none) :
    (ret'.tab.scanner.tokenize U src mode).1 = (ret.tab.scanner.tokenize U src mode).1 := by
  obtain ⟨hbad, _, hold⟩ := cl_scanner _ hk hb h
  obtain ⟨hbad', _, hnew⟩ := cl_scanner _ hk hb h'
  refine tokenize_agree hbad hbad' fun w hid => ?_
  cases hq : ret.tab.scanner.keywords.get w with
  | some t => exact hg.words w t hq
  | none =>
    refine Classical.byContradiction fun hne => (hold w).mpr ?_ hq
    rcases (hnew w).mp hne with h1 | ⟨h1, h2⟩
    · exact .inl h1
    · rcases hw w hid h1 with h3 | h3
      · exact .inr ⟨h3, h2⟩
      · exact .inl h3

theorem append_flat (x : Alts) (p : Nat × Str) : ∀ (b : Alts), p ∈ x.flat → p ∈ (b.append x).flat
  | .one i is, h => by simp [Alts.append, Alts.flat, h]
  | .alt i is r, h => by simp [Alts.append, Alts.flat, append_flat x p r h]

/-- The words in quotes are still in quotes. -/
theorem append_words (hk : Steps U KwScanner.zero k) (hb : k.sc.bad = false) {a' c : Str} {l : List Rule} {b x : Alts}
    (ha' : DocLast U k l (b.append x) a') (hc : DocLast U k l x c) {w : Str} (h : QuotedIn U c w ∧ Lit2Token (34 :: (w ++ [34])) = ILLEGAL) :
    QuotedIn U a' w ∧ Lit2Token (34 :: (w ++ [34])) = ILLEGAL := by
  obtain ⟨ts, e, ht, hd⟩ := hc.text
  obtain ⟨ts', e', ht', hd'⟩ := ha'.text
  obtain ⟨q, h1, h2⟩ := (doc_quoted hk hb ht hd w).mpr h
  refine (doc_quoted hk hb ht' hd' w).mp ⟨q, ?_, h2⟩
  unfold flatDoc at *
  rw [List.map_append, List.flatten_append] at *
  rcases List.mem_append.mp h1 with h1 | h1
  · exact List.mem_append_left _ h1
  · refine List.mem_append_right _ ?_
    simp only [List.map_cons, List.map_nil, List.flatten_cons, List.flatten_nil, List.append_nil, Rule.flat, List.mem_cons, List.mem_append] at h1 ⊢
    rcases h1 with h1 | h1 | h1 | h1
    · exact .inl h1
    · exact .inr (.inl h1)
    · exact .inr (.inr (.inl (append_flat x _ b h1)))
    · exact .inr (.inr (.inr h1))

section
variable {mk : Marker B} {mode : Mode} {a a' c : Str} {l : List Rule} {b x : Alts} {f f' f2 : Nat} {ret ret' ret2 : CompileRet B}

/-- C134: if `doc` has alternatives added, `Match` ends as before, with the same tokens left, the
same calls and the same state, unless none of the old alternatives matches. -/
theorem C134_same_partial (hk : Steps U KwScanner.zero k) (hb : k.sc.bad = false) (ha : DocLast U k l b a) (ha' : DocLast U k l (b.append x) a')
    (h : Compiler.cl ⟨a, mk, mode⟩ U f k = some (.ok ret)) (h' : Compiler.cl ⟨a', mk, mode⟩ U f' k = some (.ok ret'))
    {src : Str} (hw : ∀ w, IdentIn U src mode w → QuotedIn U a' w → QuotedIn U a w ∨ k.keywords.get w ≠ none)
    {sem : Sem B σ V P} {init : St σ → Cb B σ P Unit} {s : St σ} {fuel : Nat} {r : MRes B σ P (List Token)}
    (hm : ((⟨ret.root, mode, init, ret.env, sem⟩ : Matcher B σ V P).match_ U fuel ret.tab.scanner src s).1 = some r)
    (hr : ∀ e s', r = .err e s' → ∃ off msg, e = .tokenize off msg) :
    ∃ fuel', ((⟨ret'.root, mode, init, ret'.env, sem⟩ : Matcher B σ V P).match_ U fuel' ret'.tab.scanner src s).1 = some r := by
  obtain ⟨gs, gs', _, _, _, hg, _⟩ := cl_widened hk ha ha' h h'
  have htk := widened_tokens hk hb h h' hg hw
  by_cases hn : ret.root = .nil
  · unfold Matcher.match_ at hm
    dsimp only at hm
    rw [hn] at hm
    cases hm
    obtain ⟨_, _, e⟩ := hr _ _ rfl
    cases e
  · have hn' : ret'.root ≠ .nil := by rw [hg.root']; exact or_not_nil hg.old hg.more
    rw [match_eq ⟨ret.root, mode, init, ret.env, sem⟩ hn] at hm
    simp only [match_eq ⟨ret'.root, mode, init, ret'.env, sem⟩ hn']
    rw [htk]
    dsimp only at hm ⊢
    generalize (ret.tab.scanner.tokenize U src mode).1 = t at hm
    obtain ⟨ts, e⟩ := t
    cases e with
    | some e => exact ⟨0, hm⟩
    | none =>
      dsimp only at hm ⊢
      cases hi : init s with
      | panic p s => rw [hi] at hm; exact ⟨0, hm⟩
      | ok u s1 =>
        rw [hi] at hm
        dsimp only at hm ⊢
        cases hx : matchG ret.env sem fuel ret.root ts s1 with
        | none => rw [hx] at hm; cases hm
        | some y =>
          rw [hx] at hm
          cases y with
          | ok n s2 =>
            obtain ⟨f1, e1⟩ := hg.ok ⟨fuel, hx⟩
            exact ⟨f1, by rw [e1]; exact hm⟩
          | panic p s2 =>
            obtain ⟨f1, e1⟩ := hg.panic ⟨fuel, hx⟩
            exact ⟨f1, by rw [e1]; exact hm⟩
          | fail n e s2 =>
            cases hm
            obtain ⟨_, _, e⟩ := hr _ _ rfl
            cases e

/-- C134: what was accepted is accepted, with the same calls and the same state. -/
theorem C134_accepts_partial (hk : Steps U KwScanner.zero k) (hb : k.sc.bad = false) (ha : DocLast U k l b a) (ha' : DocLast U k l (b.append x) a')
    (h : Compiler.cl ⟨a, mk, mode⟩ U f k = some (.ok ret)) (h' : Compiler.cl ⟨a', mk, mode⟩ U f' k = some (.ok ret'))
    {src : Str} (hw : ∀ w, IdentIn U src mode w → QuotedIn U a' w → QuotedIn U a w ∨ k.keywords.get w ≠ none)
    {sem : Sem B σ V P} {init : St σ → Cb B σ P Unit} {s s' : St σ} {fuel : Nat}
    (hm : ((⟨ret.root, mode, init, ret.env, sem⟩ : Matcher B σ V P).matchExactly U fuel ret.tab.scanner src s).1 = some (.ok () s')) :
    ∃ fuel', ((⟨ret'.root, mode, init, ret'.env, sem⟩ : Matcher B σ V P).matchExactly U fuel' ret'.tab.scanner src s).1 = some (.ok () s') := by
  rw [exactly_of_match] at hm
  cases hx : ((⟨ret.root, mode, init, ret.env, sem⟩ : Matcher B σ V P).match_ U fuel ret.tab.scanner src s).1 with
  | none => rw [hx] at hm; cases hm
  | some r =>
    rw [hx] at hm
    obtain ⟨fuel', e⟩ := C134_same_partial hk hb ha ha' h h' hw hx (fun e s1 e1 => by subst e1; cases hm)
    exact ⟨fuel', by rw [exactly_of_match, e]; exact hm⟩

/-- C134: where none of the old alternatives matches, the added ones do what they do alone, from the
state that the old ones have left. -/
theorem C134_next_partial (hmk : Uniform mk) (hk : Steps U KwScanner.zero k) (hb : k.sc.bad = false) (ha : DocLast U k l b a)
    (ha' : DocLast U k l (b.append x) a') (hc : DocLast U k l x c) (hd : (l.map Rule.name).Nodup) (htr : ∀ r ∈ l, r.name ≠ bytes "true")
    (h : Compiler.cl ⟨a, mk, mode⟩ U f k = some (.ok ret)) (h' : Compiler.cl ⟨a', mk, mode⟩ U f' k = some (.ok ret'))
    (h2 : Compiler.cl ⟨c, mk, mode⟩ U f2 k = some (.ok ret2)) {src : Str}
    (hw : ∀ w, IdentIn U src mode w → QuotedIn U a' w → (QuotedIn U a w ∧ QuotedIn U c w) ∨ k.keywords.get w ≠ none)
    {calls : Calls B σ V P} (ht : TextOnly calls) {init : St σ → Cb B σ P Unit} {s s1 : St σ} {fuel fuel2 : Nat} {e : Err B} {r : MRes B σ P Unit}
    (hm : ((⟨ret.root, mode, init, ret.env, calls.sem⟩ : Matcher B σ V P).match_ U fuel ret.tab.scanner src s).1 = some (.err (.match_ e) s1))
    (hm2 : ((⟨ret2.root, mode, fun s => .ok () s, ret2.env, calls.sem⟩ : Matcher B σ V P).matchExactly U fuel2 ret2.tab.scanner src s1).1 = some r)
    (hr : ∀ s', r ≠ .err .noGrammar s') :
    ∃ fuel' r', ((⟨ret'.root, mode, init, ret'.env, calls.sem⟩ : Matcher B σ V P).matchExactly U fuel' ret'.tab.scanner src s).1 = some r' ∧
      verdict r = verdict r' := by
  obtain ⟨gs, gs', hg, hfol, f1, f1'⟩ := added_follows hmk hk ha ha' hc hd htr h h' h2
  obtain ⟨hbad2, _, hold2⟩ := cl_scanner _ hk hb h2
  obtain ⟨hbad', _, hnew⟩ := cl_scanner _ hk hb h'
  have htk := widened_tokens hk hb h h' hg (fun w h1 h2 => (hw w h1 h2).imp And.left id)
  obtain ⟨hst, hse⟩ := tokenize_alike (U := U) (R := SameKind ret2.tab.scanner ret'.tab.scanner) (src := src) (mode := mode)
    ⟨fun a ha => .inl ⟨rfl, ha⟩, by
      rintro a b (⟨rfl, _⟩ | ⟨w, h1, h2⟩)
      · exact Iff.rfl
      · have := (f1.range h1).1; have := (f1'.range h2).1; unfold EOF; omega⟩ (hbad2.trans hbad'.symm) (fun ts s' hrun t htm hkd => by
    rw [Scanner.init_reset ret2.tab.scanner.sc Scanner.zero (hbad2.trans zero_bad.symm)] at hrun
    have hid : IdentIn U src mode t.lit := ⟨ts, s', t, hrun, htm, hkd, rfl⟩
    generalize t.lit = w at hid
    cases hg1 : ret2.tab.scanner.keywords.get w with
    | some x =>
      cases hg2 : ret'.tab.scanner.keywords.get w with
      | some y => exact .inr ⟨x, y, rfl, rfl, .inr ⟨w, hg1, hg2⟩⟩
      | none =>
        refine absurd hg2 ((hnew w).mpr ?_)
        rcases (hold2 w).mp (by rw [hg1]; simp) with h3 | h3
        · exact .inl h3
        · exact .inr (append_words hk hb ha' hc h3)
    | none =>
      cases hg2 : ret'.tab.scanner.keywords.get w with
      | none => exact .inl ⟨rfl, rfl⟩
      | some y =>
        refine absurd hg1 ((hold2 w).mpr ?_)
        rcases (hnew w).mp (by rw [hg2]; simp) with h3 | ⟨h3, h4⟩
        · exact .inl h3
        · rcases hw w hid h3 with ⟨_, h5⟩ | h5
          · exact .inr ⟨h5, h4⟩
          · exact .inl h5)
  have hn : ret.root ≠ .nil := by
    intro hn
    unfold Matcher.match_ at hm
    dsimp only at hm
    rw [hn] at hm
    cases hm
  have hn' : ret'.root ≠ .nil := by rw [hg.root']; exact or_not_nil hg.old hg.more
  have hn2 : ret2.root ≠ .nil := by
    intro hn
    rw [exactly_of_match] at hm2
    unfold Matcher.match_ at hm2
    dsimp only at hm2
    rw [hn] at hm2
    cases hm2
    exact hr _ rfl
  rw [match_eq ⟨ret.root, mode, init, ret.env, calls.sem⟩ hn] at hm
  rw [exactly_of_match, match_eq ⟨ret2.root, mode, fun s => .ok () s, ret2.env, calls.sem⟩ hn2] at hm2
  simp only [exactly_of_match, match_eq ⟨ret'.root, mode, init, ret'.env, calls.sem⟩ hn']
  dsimp only at hm hm2 ⊢
  rw [← htk] at hm
  generalize (ret'.tab.scanner.tokenize U src mode).1 = t' at hm hst hse
  generalize (ret2.tab.scanner.tokenize U src mode).1 = t2 at hm2 hst hse
  obtain ⟨ts', e'⟩ := t'
  obtain ⟨ts2, e2⟩ := t2
  dsimp only at hst hse hm hm2
  subst hse
  cases e2 with
  | some e2 => cases hm
  | none =>
    dsimp only at hm hm2 ⊢
    cases hi : init s with
    | panic p s => rw [hi] at hm; cases hm
    | ok u s0 =>
      rw [hi] at hm
      dsimp only at hm ⊢
      cases hx : matchG ret.env calls.sem fuel ret.root ts' s0 with
      | none => rw [hx] at hm; cases hm
      | some y =>
        rw [hx] at hm
        cases y with
        | ok n s2 => cases hm
        | panic p s2 => cases hm
        | fail n e0 s2 =>
          cases hm
          cases hy : matchG ret2.env calls.sem fuel2 ret2.root ts2 s1 with
          | none => rw [hy] at hm2; cases hm2
          | some y =>
            rw [hy] at hm2
            obtain ⟨f3, y', e3, e4⟩ := eval_follows hfol hst ht hy
            have nx := hg.next (sem := calls.sem) ⟨fuel, hx⟩ ⟨f3, e3⟩
            cases y with
            | ok n s3 =>
              cases y' with
              | ok n' s3' =>
                obtain ⟨rfl, hu⟩ := e4
                obtain ⟨f4, e5⟩ := nx
                refine ⟨f4, ?_⟩
                rw [e5]
                have hl : (ts2.drop n).length = (ts'.drop n).length := (hst.drop n).length
                dsimp only at hm2 ⊢
                by_cases h0 : (ts2.drop n).length ≠ 0
                · rw [if_pos h0] at hm2
                  rw [if_pos (hl ▸ h0)]
                  cases hm2
                  exact ⟨_, rfl, by simp [verdict, hu]⟩
                · rw [if_neg h0] at hm2
                  rw [if_neg (hl ▸ h0)]
                  cases hm2
                  exact ⟨_, rfl, by simp [verdict, hu]⟩
              | fail => exact e4.elim
              | panic => exact e4.elim
            | fail n e s3 =>
              cases y' with
              | fail n' e' s3' =>
                obtain ⟨_, hu⟩ := e4
                obtain ⟨n4, e4, f4, e5⟩ := nx
                refine ⟨f4, ?_⟩
                rw [e5]
                cases hm2
                exact ⟨_, rfl, by simp [verdict, hu]⟩
              | ok => exact e4.elim
              | panic => exact e4.elim
            | panic p s3 =>
              cases y' with
              | panic p' s3' =>
                obtain ⟨f4, e5⟩ := nx
                refine ⟨f4, ?_⟩
                rw [e5]
                cases hm2
                exact ⟨_, rfl, by simp [verdict, show s3.u = s3'.u from e4]⟩
              | ok => exact e4.elim
              | fail => exact e4.elim
/-- C134: the text with the added alternatives accepts a text exactly if the text without them does,
or none of the old alternatives matches and the text with only the added ones accepts it, from the
state that the old ones have left. -/
theorem C134_exactly_partial (hmk : Uniform mk) (hk : Steps U KwScanner.zero k) (hb : k.sc.bad = false) (ha : DocLast U k l b a)
    (ha' : DocLast U k l (b.append x) a') (hc : DocLast U k l x c) (hd : (l.map Rule.name).Nodup) (htr : ∀ r ∈ l, r.name ≠ bytes "true")
    (h : Compiler.cl ⟨a, mk, mode⟩ U f k = some (.ok ret)) (h' : Compiler.cl ⟨a', mk, mode⟩ U f' k = some (.ok ret'))
    (h2 : Compiler.cl ⟨c, mk, mode⟩ U f2 k = some (.ok ret2)) (hn : ret.root ≠ .nil) (hn2 : ret2.root ≠ .nil) {src : Str}
    (hw : ∀ w, IdentIn U src mode w → QuotedIn U a' w → (QuotedIn U a w ∧ QuotedIn U c w) ∨ k.keywords.get w ≠ none)
    {calls : Calls B σ V P} (ht : TextOnly calls) {init : St σ → Cb B σ P Unit} {s : St σ} {fuel : Nat} {r : MRes B σ P (List Token)}
    (hm : ((⟨ret.root, mode, init, ret.env, calls.sem⟩ : Matcher B σ V P).match_ U fuel ret.tab.scanner src s).1 = some r)
    (hm2 : ∀ e s1, r = .err (.match_ e) s1 → ∃ fuel2 r2,
      ((⟨ret2.root, mode, fun s => .ok () s, ret2.env, calls.sem⟩ : Matcher B σ V P).matchExactly U fuel2 ret2.tab.scanner src s1).1 = some r2) (u : σ) :
    (∃ fuel' s', ((⟨ret'.root, mode, init, ret'.env, calls.sem⟩ : Matcher B σ V P).matchExactly U fuel' ret'.tab.scanner src s).1 = some (.ok () s') ∧ s'.u = u) ↔
      (∃ fuel s', ((⟨ret.root, mode, init, ret.env, calls.sem⟩ : Matcher B σ V P).matchExactly U fuel ret.tab.scanner src s).1 = some (.ok () s') ∧ s'.u = u) ∨
      ∃ e s1, r = .err (.match_ e) s1 ∧ ∃ fuel2 s',
        ((⟨ret2.root, mode, fun s => .ok () s, ret2.env, calls.sem⟩ : Matcher B σ V P).matchExactly U fuel2 ret2.tab.scanner src s1).1 = some (.ok () s') ∧ s'.u = u := by
  have hw' : ∀ w, IdentIn U src mode w → QuotedIn U a' w → QuotedIn U a w ∨ k.keywords.get w ≠ none := fun w h1 h2 => (hw w h1 h2).imp And.left id
  constructor
  · rintro ⟨f3, s', e3, hu⟩
    have same : (∀ e s', r = .err e s' → ∃ off msg, e = .tokenize off msg) → ∃ fuel s',
        ((⟨ret.root, mode, init, ret.env, calls.sem⟩ : Matcher B σ V P).matchExactly U fuel ret.tab.scanner src s).1 = some (.ok () s') ∧ s'.u = u := by
      intro hr
      obtain ⟨f4, e4⟩ := C134_same_partial hk hb ha ha' h h' hw' hm hr
      refine ⟨fuel, s', ?_, hu⟩
      have e5 := exactly_of_match (U := U) (⟨ret'.root, mode, init, ret'.env, calls.sem⟩ : Matcher B σ V P) ret'.tab.scanner f4 src s
      rw [e4] at e5
      rw [exactly_of_match, hm]
      cases r with
      | ok next s1 =>
        dsimp only at e5 ⊢
        split at e5
        · cases exactly_det e3 e5
        · rename_i h0
          cases exactly_det e3 e5
          rw [if_neg h0]
      | err e s1 => cases exactly_det e3 e5
      | panic p s1 => cases exactly_det e3 e5
    cases r with
    | ok next s1 => exact .inl (same fun e s' e1 => by cases e1)
    | panic p s1 => exact .inl (same fun e s' e1 => by cases e1)
    | err e s1 =>
      cases e with
      | tokenize off msg => exact .inl (same fun e s' e1 => by cases e1; exact ⟨_, _, rfl⟩)
      | noGrammar =>
        exfalso
        rw [match_eq ⟨ret.root, mode, init, ret.env, calls.sem⟩ hn] at hm
        dsimp only at hm
        repeat' split at hm
        all_goals cases hm
      | match_ e =>
        refine .inr ⟨e, s1, rfl, ?_⟩
        obtain ⟨fuel2, r2, e2⟩ := hm2 e s1 rfl
        have hr2 : ∀ s', r2 ≠ .err .noGrammar s' := by
          rintro s' rfl
          rw [exactly_of_match, match_eq ⟨ret2.root, mode, fun s => .ok () s, ret2.env, calls.sem⟩ hn2] at e2
          dsimp only at e2
          repeat' split at e2
          all_goals cases e2
          all_goals (rename_i h9; repeat' split at h9)
          all_goals cases h9
        obtain ⟨f4, r', e4, e5⟩ := C134_next_partial hmk hk hb ha ha' hc hd htr h h' h2 hw ht hm e2 hr2
        cases exactly_det e3 e4
        cases r2 with
        | ok y s2 =>
          simp only [verdict, Prod.mk.injEq, true_and] at e5
          exact ⟨fuel2, s2, e2, e5.trans hu⟩
        | err => simp [verdict] at e5
        | panic => simp [verdict] at e5
  · rintro (⟨f3, s', e3, hu⟩ | ⟨e, s1, rfl, fuel2, s', e2, hu⟩)
    · obtain ⟨f4, e4⟩ := C134_accepts_partial hk hb ha ha' h h' hw' e3
      exact ⟨f4, s', e4, hu⟩
    · obtain ⟨f4, r', e4, e5⟩ := C134_next_partial hmk hk hb ha ha' hc hd htr h h' h2 hw ht hm e2 (fun s' e => by cases e)
      cases r' with
      | ok y s2 =>
        simp only [verdict, Prod.mk.injEq, true_and] at e5
        exact ⟨f4, s2, e4, e5.symm.trans hu⟩
      | err => simp [verdict] at e5
      | panic => simp [verdict] at e5

theorem append_refs (x : Alts) (n : Str) : ∀ (b : Alts), n ∈ (b.append x).refs → n ∈ b.refs ∨ n ∈ x.refs
  | .one i is, h => by
    simp only [Alts.append, Alts.refs, List.mem_append] at h ⊢
    grind
  | .alt i is r, h => by
    have := append_refs x n r
    simp only [Alts.append, Alts.refs, List.mem_append] at h ⊢
    grind

/-- C134: the text with the added alternatives compiles if the text without them and the text with
them alone do. -/
theorem C134_compiles_partial (hmk : Uniform mk) (hk : Steps U KwScanner.zero k) (ha : DocLast U k l b a) (hc : DocLast U k l x c)
    (ha' : DocLast U k l (b.append x) a') (hd : (l.map Rule.name).Nodup) (h : Compiler.cl ⟨a, mk, mode⟩ U f k = some (.ok ret))
    (h2 : Compiler.cl ⟨c, mk, mode⟩ U f2 k = some (.ok ret2)) (hbang : ∀ n g, Def ret.tab n g → g ≠ .nil)
    (hself : ∀ r ∈ l ++ [⟨bytes "doc", b.append x⟩], bytes "doc" ∉ r.body.refs) :
    ∃ f' ret', Compiler.cl ⟨a', mk, mode⟩ U f' k = some (.ok ret') := by
  obtain ⟨T1, gs, T2, h1, hb, h3, h4, h5, h6⟩ := cl_docLast hk ha h
  obtain ⟨_, gs2, _, _, hx, _⟩ := cl_docLast hk hc h2
  have hf := den_fine hmk hk h6
  obtain ⟨⟨gs', T'⟩, hx', _⟩ := alts_total hmk x hx (t' := T2) (by rw [h4] at hf; exact hf)
  have hnd : ∀ b : Alts, ((l ++ [(⟨bytes "doc", b⟩ : Rule)]).map Rule.name).Nodup := fun b => by
    rw [List.map_append, List.nodup_append]
    refine ⟨hd, by simp, ?_⟩
    intro n hn m hm e
    obtain ⟨r, hr, rfl⟩ := List.mem_map.mp hn
    obtain rfl : m = bytes "doc" := by simpa using hm
    exact ha.other r hr e
  have hbod := doc_bodies ⟨rfl, rfl⟩ h6 (by rw [h4]; exact h5) (hnd b) hbang
  obtain ⟨ts, e, ht, hdoc⟩ := ha.text
  obtain ⟨ts2, e2, ht2, hdoc2⟩ := hc.text
  obtain ⟨ts', e', ht', hdoc'⟩ := ha'.text
  have r1 := C43_defined _ hk ht hdoc h
  have r2 := C43_defined _ hk ht2 hdoc2 h2
  have there : ∀ {y : Alts} {n : Str}, (∃ r' ∈ l ++ [⟨bytes "doc", y⟩], r'.name = n) → ∃ r' ∈ l ++ [⟨bytes "doc", b.append x⟩], r'.name = n := by
    rintro y n ⟨r', hr', rfl⟩
    rcases List.mem_append.mp hr' with hr' | hr'
    · exact ⟨r', List.mem_append_left _ hr', rfl⟩
    · obtain rfl := List.mem_singleton.mp hr'
      exact ⟨_, List.mem_append_right _ (List.mem_singleton.mpr rfl), rfl⟩
  refine compiles_of hmk hk (l' := []) (d := ⟨bytes "doc", b.append x⟩) ht' hdoc' ?_ (hnd _) ?_ rfl hself
  · intro r hr
    rcases List.mem_append.mp hr with hr | hr
    · exact hbod r (List.mem_append_left _ hr)
    · obtain rfl := List.mem_singleton.mp hr
      refine ⟨T1, (gs ++ gs', T'), ?_, or_not_nil (alts_some hb) (alts_some hx')⟩
      dsimp only
      rw [choice_append, hb]
      change (x.den mk T2 >>= _) = _
      rw [hx']
      rfl
  · intro r hr n hn ht
    rcases List.mem_append.mp hr with hr | hr
    · exact there (r1 r (List.mem_append_left _ hr) n hn ht)
    · obtain rfl := List.mem_singleton.mp hr
      rcases append_refs x n b hn with hn | hn
      · exact there (r1 ⟨bytes "doc", b⟩ (by simp) n hn ht)
      · exact there (r2 ⟨bytes "doc", x⟩ (by simp) n hn ht)
end

/-! ### The code violates the property -/

/-- C134 does not hold for all texts: where an old alternative matches the beginning of a text, the
added ones are not tried. -/
theorem C134_violated :
    acceptsWith (scannerOf (compiled "doc = INT ',';")) (compiled "doc = INT ',';") "1," = true ∧
    acceptsWith (scannerOf (compiled "doc = INT;")) (compiled "doc = INT;") "1," = false ∧
    acceptsWith (scannerOf (compiled "doc = INT | INT ',';")) (compiled "doc = INT | INT ',';") "1," = false := by decide +kernel

/-- A word that only the added alternatives have in quotes is an identifier no more. -/
theorem C134_violated_word :
    acceptsWith (scannerOf (compiled "doc = IDENT;")) (compiled "doc = IDENT;") "let" = true ∧
    acceptsWith (scannerOf (compiled "doc = IDENT | \"let\" INT;")) (compiled "doc = IDENT | \"let\" INT;") "let" = false := by decide +kernel

/-! ### Instances -/

/-- `num`, repeated with commas, or an identifier and a list: three grammar texts. -/
def widerRule : Rule := ⟨bytes "num", .alt (.term (.ident (bytes "INT")) .nil) .nil (.one (.term (.ident (bytes "FLOAT")) .nil) .nil)⟩
def widerOld : Alts := .one (.term (.ident (bytes "num")) (.list (.char (bytes "','")) .nil)) .nil
def widerNew : Alts := .one (.term (.ident (bytes "IDENT")) .nil) (.cons (.term (.ident (bytes "num")) .nil) .nil)

def widerToks (a : String) : List Token := (KwScanner.zero.tokenize ascii (bytes a) clMode).1.1

theorem docLast_of {l : List Rule} {b : Alts} {a : String} (h : (KwScanner.zero.tokenize ascii (bytes a) clMode).1.2 = none)
    (h' : IsDoc (widerToks a) (l ++ [⟨bytes "doc", b⟩])) (hl : ∀ r ∈ l, r.name ≠ bytes "doc") : DocLast ascii KwScanner.zero l b (bytes a) := by
  obtain ⟨e, he⟩ := (tokenizes_iff (.refl _) (ts := widerToks a)).mp (Prod.ext rfl h)
  exact ⟨⟨_, e, he, h'⟩, hl⟩

/-- The three texts are as the theorems ask for, and they compile. -/
example : DocLast ascii KwScanner.zero [widerRule] widerOld (bytes "num = INT | FLOAT; doc = num % ',';") :=
  docLast_of (by decide +kernel) ⟨by simp, by decide +kernel⟩ (by decide)
example : DocLast ascii KwScanner.zero [widerRule] (widerOld.append widerNew) (bytes "num = INT | FLOAT; doc = num % ',' | IDENT num;") :=
  docLast_of (by decide +kernel) ⟨by simp, by decide +kernel⟩ (by decide)
example : DocLast ascii KwScanner.zero [widerRule] widerNew (bytes "num = INT | FLOAT; doc = IDENT num;") :=
  docLast_of (by decide +kernel) ⟨by simp, by decide +kernel⟩ (by decide)
example : ClRes.isOk (compiled "num = INT | FLOAT; doc = num % ',';") = true ∧ ClRes.isOk (compiled "num = INT | FLOAT; doc = num % ',' | IDENT num;") = true ∧
    ClRes.isOk (compiled "num = INT | FLOAT; doc = IDENT num;") = true := by decide +kernel
example : ([widerRule].map Rule.name).Nodup ∧ (∀ r ∈ [widerRule], r.name ≠ bytes "true") ∧
    ∀ r ∈ [widerRule, (⟨bytes "doc", widerOld.append widerNew⟩ : Rule)], bytes "doc" ∉ r.body.refs := by
  refine ⟨by decide, by decide, ?_⟩
  simp; decide
example : (match compiled "num = INT | FLOAT; doc = num % ',';" with
    | some (.ok ret) => ret.tab.grammars.all (fun p => !isBang p.2) && ret.tab.vars.all (fun p => !(p.2.map isBang).getD false)
    | _ => false) = true := by decide +kernel

example : (match compiled "num = INT | FLOAT; doc = IDENT num;" with
    | some (.ok ret) => !isBang ret.root
    | _ => false) = true := by decide +kernel

/-- The old text accepts `1, 2`, the added alternative `x 1`, and the text with both of them both. -/
example : let a := compiled "num = INT | FLOAT; doc = num % ',';"
    let c := compiled "num = INT | FLOAT; doc = IDENT num;"
    acceptsWith (scannerOf a) a "1, 2" = true ∧ acceptsWith (scannerOf a) a "x 1" = false ∧
    acceptsWith (scannerOf c) c "1, 2" = false ∧ acceptsWith (scannerOf c) c "x 1" = true := by decide +kernel
example : let a := compiled "num = INT | FLOAT; doc = num % ',' | IDENT num;"
    acceptsWith (scannerOf a) a "1, 2" = true ∧ acceptsWith (scannerOf a) a "x 1" = true ∧ acceptsWith (scannerOf a) a "1 2" = false := by decide +kernel

end Tpl.Props
