import Verif.Proof.QlangKept

/-! The marks of a tree do what the tree means. -/
namespace Tpl.Qlang.Src
open Spec
variable {F α β γ δ : Type}
variable {K : Bound} {H : Host F} {r : CompileRet Str} {U : Uni} {S : Setup F} {C : Conf} {l pre post : List (QVal F)} {w : World F}
variable {g : Gr Str} {ts : List Token} {p m : Nat} {x : Str} {R : Runs F} {es es' : List (Ev Str)}

/-! ### Results -/

/-- What is true of every value the code gives. -/
def Yields (y : Prog F β) (P : β → Prop) : Prop := ∀ w v w', y w = some (.ok v, w') → P v

theorem Yields.pure {v : β} {P : β → Prop} (h : P v) : Yields (pure v : Prog F β) P := by
  intro w v w' h'; cases h'; exact h

theorem Yields.bind {y : Prog F β} {k : β → Prog F δ} {P : β → Prop} {Q : δ → Prop} (h : Yields y P) (hk : ∀ v, P v → Yields (k v) Q) : Yields (y >>= k) Q := by
  intro w v w' h'
  rw [bind_run] at h'
  cases hy : y w with
  | none => rw [hy] at h'; cases h'
  | some o =>
    rw [hy] at h'
    obtain ⟨e | b, w1⟩ := o
    · cases h'
    · exact hk b (h _ _ _ hy) _ _ _ h'

theorem Yields.any (y : Prog F β) : Yields y fun _ => True := fun _ _ _ _ => trivial

theorem moreArgs_len : ∀ t : Tm .moreArgs, Yields (F := F) (β := List (QVal F)) (t.den S R m p) (·.length = t.cnt)
  | .lastArg => .pure rfl
  | .moreArgs _ e more => (Yields.any _).bind fun v _ => (moreArgs_len more).bind fun vs h => .pure (by rw [List.length_cons, h]; rfl)

theorem args_len : ∀ t : Tm .args, Yields (F := F) (β := List (QVal F)) (t.den S R m p) (·.length = t.cnt)
  | .noArgs => .pure rfl
  | .args e more => (Yields.any _).bind fun v _ => (moreArgs_len more).bind fun vs h => .pure (by rw [List.length_cons, h]; rfl)

theorem morePairs_len : ∀ t : Tm .morePairs, Yields (F := F) (β := List (QVal F)) (t.den S R m p) (·.length = 2 * t.cnt)
  | .lastPair => .pure rfl
  | .morePairs _ k _ v more => (Yields.any _).bind fun v _ => (Yields.any _).bind fun v _ => (morePairs_len more).bind fun vs h =>
    .pure (by rw [List.length_cons, List.length_cons, h]; simp only [Tm.cnt]; omega)

theorem pairs_len : ∀ t : Tm .pairs, Yields (F := F) (β := List (QVal F)) (t.den S R m p) (·.length = 2 * t.cnt)
  | .noPairs => .pure rfl
  | .pairs k _ v more => (Yields.any _).bind fun v _ => (Yields.any _).bind fun v _ => (morePairs_len more).bind fun vs h =>
    .pure (by rw [List.length_cons, List.length_cons, h]; simp only [Tm.cnt]; omega)

/-- The methods of a class, with the addresses of their descriptions. -/
def infos (S : Setup F) (R : Runs F) (m p : Nat) : Tm .methods → Prog F (List (Nat × Str × Fun))
  | .noMethod => pure []
  | .method _ x f _ more => do
    let i ← newAddr >>= fun a => pure (a, x.tok.lit, f.den S R m p)
    let is ← infos S R m p more
    pure (i :: is)

theorem infos_len : ∀ t : Tm .methods, Yields (infos S R m p t) (·.length = t.cnt)
  | .noMethod => by rw [infos]; exact .pure rfl
  | .method _ x f _ more => by
    rw [infos]
    exact (Yields.any _).bind fun _ _ => (infos_len more).bind fun vs h => .pure (congrArg (· + 1) h)

theorem infos_den : ∀ t : Tm .methods, t.den S R m p = (infos S R m p t >>= fun is => pure (is.map (·.2)) : Prog F (List (Str × Fun)))
  | .noMethod => by rw [infos]; rfl
  | .method _ x f _ more => by
    rw [infos]
    simp only [bind_assoc, pure_bind]
    change (newAddr >>= fun _ => (more.den S R m p : Prog F (List (Str × Fun))) >>= fun ms => pure ((x.tok.lit, f.den S R m p) :: ms) : Prog F (List (Str × Fun))) = _
    rw [infos_den more]
    simp only [bind_assoc, pure_bind]
    rfl

/-- An optional expression, as code. -/
def optRun : Option (Prog F β) → Prog F (Option β)
  | none => pure none
  | some y => y >>= fun v => pure (some v)

theorem optVal_run (o : Option (Prog F (QVal F))) : optVal o = (optRun o >>= fun v => pure (v.getD .nil)) := by
  cases o with
  | none => rfl
  | some y => simp [optVal, optRun]

/-! ### The statement -/

/-- What is to be shown about trees of each sort. -/
def Live (K : Bound) (S : Setup F) (r : CompileRet Str) (U : Uni) (R : Runs F) (m p : Nat) : {c : Cat} → Tm c → Prop
  | .term _, t => ∀ C l, C.p = p → p < C.N → Trace K S.host r U C l [] t.evs (t.den S R m p) fun v => [v]
  | .prim, t => ∀ C l, C.p = p → p < C.N → Trace K S.host r U C l [] t.evs (t.den S R m p) fun v => [v]
  | .stmt, t => ∀ C l, C.p = p → p < C.N → Trace K S.host r U C l [] t.evs (t.den S R m p) fun v => [v]
  | .clsName, t => ∀ C l, C.p = p → p < C.N → Trace K S.host r U C l [] t.evs (t.den S R m p) fun v => [v]
  | .tail _, t => ∀ C l v, C.p = p → p < C.N → Trace K S.host r U C l [v] t.evs (t.den S R m p v) fun v => [v]
  | .atom, t => ∀ C l v, C.p = p → p < C.N → Trace K S.host r U C l [v] t.evs (t.den S R m p v) fun v => [v]
  | .atoms, t => ∀ C l v, C.p = p → p < C.N → Trace K S.host r U C l [v] t.evs (t.den S R m p v) fun v => [v]
  | .docTail, t => ∀ C l v, C.p = p → p < C.N → C.B p = l.length → Trace K S.host r U C l [v] t.evs (t.den S R m p v) fun v => [v]
  | .doc, t => ∀ C l, C.p = p → p < C.N → C.B p = l.length → Trace K S.host r U C l [] t.evs (t.den S R m p) fun v => [v]
  | .optExpr, t => (∀ C l, C.p = p → p < C.N → Trace K S.host r U C l [] t.evs (optRun (t.den S R m p)) fun v => v.toList) ∧
      ((t.toks = [] ∧ t.den S R m p = none) ∨ ∃ y, t.den S R m p = some y ∧ Always K S.host r U p (Qlang.evalIn r U p (str "expr") (.code t.toks)) y ∧ t.toks ≠ [])
  | .args, t => ∀ C l, C.p = p → p < C.N → Trace K S.host r U C l [] t.evs (t.den S R m p) fun vs : List (QVal F) => vs
  | .moreArgs, t => ∀ C l, C.p = p → p < C.N → Trace K S.host r U C l [] t.evs (t.den S R m p) fun vs : List (QVal F) => vs
  | .pairs, t => ∀ C l, C.p = p → p < C.N → Trace K S.host r U C l [] t.evs (t.den S R m p) fun vs : List (QVal F) => vs
  | .morePairs, t => ∀ C l, C.p = p → p < C.N → Trace K S.host r U C l [] t.evs (t.den S R m p) fun vs : List (QVal F) => vs
  | .optDoc, t => Always K S.host r U p (runBody r U p (codeOf t.toks)) (t.den S R m p) ∧
      Drops K S.host r U p (Qlang.evalDrop r U p (str "doc") (codeOf t.toks)) (t.den S R m p)
  | .elifs, t => ∀ els no, Always K S.host r U p (runBody r U p els) no → Always K S.host r U p (ifLoop r U p els (t.codes F)) (t.den S R m p no)
  | .else_, t => Always K S.host r U p (runBody r U p ((t.codes F).head?.getD .nil)) (t.den S R m p)
  | .cases, t => ∀ dflt no v, Always K S.host r U p (runBody r U p dflt) no →
      Always K S.host r U p (switchLoop S.host.fl r U p v dflt (t.codes F)) (t.den S R m p v no)
  | .default, t => Always K S.host r U p (runBody r U p ((t.codes F).head?.getD .nil)) (t.den S R m p)
  | .parts, t => PartsOk K S.host r U p (t.codes F) (t.den S R m p)
  | .moreParts, t => PartsOk K S.host r U p (t.codes F) (t.den S R m p)
  | .fnBody, t => ∀ C l, C.p = p → p < C.N → ∃ (xs : List Str) (b : List Token) (v : Bool), (t.den S R m p : Fun) = ⟨xs, bodyOf b, p, v⟩ ∧
      Trace K S.host r U C l [] t.evs (pure ()) fun _ => xs.map .str ++ [.int xs.length, boolInt v, codeOf b]
  | .methods, t => ∀ C l, C.p = p → p < C.N → Trace K S.host r U C l [] t.evs (infos S R m p t) fun is => is.map minfo
  | .newArgs, t => ∀ C l, C.p = p → p < C.N → Trace K S.host r U C l [] t.evs (optRun (t.den S R m p)) newStk

/-! ### Pieces -/

namespace Trace
variable {y : Prog F β} {f : β → List (QVal F)}

theorem marks (h : Trace K H r U C l pre es y f) (he : es' = es) : Trace K H r U C l pre es' y f := he ▸ h

/-- Something, and then one value more. -/
theorem one (h : Trace K H r U C (l ++ pre) [] es y (fun v => f v)) {k : β → Prog F δ} {f' : δ → List (QVal F)}
    (hk : ∀ b, (∃ w w', y w = some (.ok b, w')) → Trace K H r U C l (pre ++ f b) es' (k b) f') : Trace K H r U C l pre (es ++ es') (y >>= k) f' :=
  h.below.bind hk

/-- Marks that have no effect but on the stack, in front. -/
theorem first {b : β} (h : Trace K H r U C l pre es (pure b) f) {k : Prog F δ} {f' : δ → List (QVal F)}
    (hk : Trace K H r U C l (f b) es' k f') : Trace K H r U C l pre (es ++ es') k f' := by
  have := h.bind (g := fun _ => k) (f' := f') fun b' hb => by
    obtain ⟨w, w', hb⟩ := hb
    cases hb
    exact hk
  exact this.congr rfl

theorem out {f' : β → List (QVal F)} (h : Trace K H r U C l pre es y f) (hf : f' = f) : Trace K H r U C l pre es y f' := hf ▸ h

theorem restack {pre' : List (QVal F)} (hp : pre' = pre) (h : Trace K H r U C l pre es y f) : Trace K H r U C l pre' es y f := hp ▸ h

theorem stack {pre' : List (QVal F)} (h : Trace K H r U C l pre es y f) (hp : pre' = pre) : Trace K H r U C l pre' es y f := hp ▸ h

end Trace

/-- Code that is kept, and then a mark. -/
theorem Trace.keptThen (z : Ev Str) {vs : List (QVal F)} (h : Keeps H.lib r U es vs) (g : Gr Str) (ts : List Token) (n : Int) (g' : Gr Str) (ts' : List Token) (n' : Int)
    {k : Prog F δ} {f' : δ → List (QVal F)} (hk : Trace K H r U C l (pre ++ vs) [z] k f')
    (he : es0 = ev "_mute" g ts n :: (es ++ [ev "_unmute" g' ts' n', z])) : Trace K H r U C l pre es0 k f' := by
  have := Trace.first (b := ()) (f := fun _ => pre ++ vs) (Trace.kept (g := g) (ts := ts) (n := n) (g' := g') (ts' := ts') (n' := n') h rfl rfl) hk
  refine this.marks ?_
  rw [he]
  simp only [List.cons_append, List.append_assoc, List.nil_append]

theorem names_live : ∀ xs : Names, ∀ C l, Trace K H r U C l [] (namesEvs xs) (pure ()) fun _ => (nameLits xs).map .str
  | [], _, _ => .nil rfl
  | (_, x) :: more, C, l => by
    refine Trace.first (b := ()) (es := [evTok "name" x]) (f := fun _ => [.str x.tok.lit]) (Trace.name_ rfl) ?_
    exact Trace.below (names_live more C (l ++ [.str x.tok.lit]))

theorem params_live : ∀ ps, ∀ C l, Trace K H r U C l [] (paramEvs ps) (pure ()) fun _ => (paramLits ps).map .str
  | none, _, _ => .nil rfl
  | some (x, more), C, l => by
    refine Trace.first (b := ()) (es := [evTok "name" x]) (f := fun _ => [.str x.tok.lit]) (Trace.name_ rfl) ?_
    exact Trace.below (names_live more C (l ++ [.str x.tok.lit]))

theorem nameLits_len : ∀ xs : Names, (nameLits xs).length = xs.length
  | [] => rfl
  | (_, _) :: more => by rw [nameLits, List.length_cons, List.length_cons, nameLits_len more]

theorem paramLits_len : ∀ ps, (paramLits ps).length = paramCnt ps
  | none => rfl
  | some (x, more) => by rw [paramLits, List.length_cons, nameLits_len]; rfl

theorem optCnt_bool {k : Nat} (s : Option (Tk k)) : (.int (optCnt s) : QVal F) = boolInt s.isSome := by cases s <;> rfl

/-! ### Code that is evaluated later -/

theorem always_code (hc : Compiled r) {nm : Str} {y : Prog F (QVal F)} (hp : Parses r nm ts es)
    (h : ∀ C l, C.p = p → p < C.N → C.B p = l.length → Trace K H r U C l [] es y fun v => [v]) : Always K H r U p (Qlang.evalIn r U p nm (.code ts)) y := by
  intro C l pre w hpp hN
  subst hpp
  exact Does.evalIn hc hp fun B hB => h _ _ rfl hN hB

theorem toks_cons {ks : List Nat} (h : Begins ks ts) : ∃ t more, ts = t :: more := let ⟨t, more, h, _⟩ := h; ⟨t, more, h⟩

theorem codeOf_begins {ks : List Nat} (h : Begins ks ts) : (codeOf ts : QVal F) = .code ts := by
  obtain ⟨t, more, rfl⟩ := toks_cons h
  rfl

theorem begins_ne {ks : List Nat} (h : Begins ks ts) : ts ≠ [] := by
  obtain ⟨t, more, rfl⟩ := toks_cons h
  nofun

end Tpl.Qlang.Src
