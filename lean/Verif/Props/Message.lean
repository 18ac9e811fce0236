import Verif.Proof.Message
import Verif.Model.Message
import Verif.Props.Interp

/-!
# C120: the messages of errors name the line of the place where the match failed
-/
namespace Tpl.Props
open Tpl Spec Scanner

variable {A σ V P : Type} {U : Uni} {k : KwScanner}

/-- The tokens before EOF lie before the end of a text that ends in a newline, and EOF is at the end. -/
theorem tokenizes_ends {text : Str} {mode : Mode} {ts : List Token} {eof : Token} (h : Tokenizes U k text mode ts eof) :
    eof.pos = text.length ∧ ∀ t ∈ ts, t.pos < text.length ∨ text.getLast? ≠ some 10 := by
  obtain ⟨full, s', hr, he, hf⟩ := h
  obtain ⟨_, hl⟩ := (run_iff U k.sc text mode full).mp ⟨s', hr, he⟩
  have hlen : bomLen text ≤ text.length := by
    unfold bomLen
    split
    · rename_i hb
      exact (List.isPrefixOf_iff_prefix.mp hb).length_le
    · omega
  have hend : ∀ {o txt semi us}, Lexes U true mode o txt semi us → ∀ u, us.getLast? = some u → u.pos = o + txt.length := by
    intro o txt semi us hl
    induction hl with
    | eof _ hp => intro u hu; cases hu; exact hp
    | @cons o g x r semi semi1 semi2 t ts _ _ _ _ hl ih =>
      intro u hu
      have hne : ts ≠ [] := by cases hl <;> simp
      rw [List.getLast?_cons_of_ne_nil hne] at hu
      have := ih u hu
      simp only [List.length_append]
      omega
  have hpos : ∀ t : Token, (if t.kind = IDENT then { t with kind := (k.keywords.get t.lit).getD IDENT } else t).pos = t.pos := by
    intro t; split <;> rfl
  constructor
  · have h1 := congrArg List.getLast? hf
    rw [List.getLast?_concat, List.getLast?_map] at h1
    cases hg : full.getLast? with
    | none => rw [hg] at h1; cases h1
    | some u =>
      rw [hg] at h1
      have := hend hl u hg
      simp only [Option.map_some, Option.some.injEq] at h1
      rw [h1, hpos, this, List.length_drop]
      omega
  · intro t ht
    have h1 := congrArg List.dropLast hf
    rw [List.dropLast_concat, ← List.map_dropLast] at h1
    rw [h1] at ht
    obtain ⟨u, hu, rfl⟩ := List.mem_map.mp ht
    rw [hpos]
    have := lexes_before hl (text.take (bomLen text)) (by rw [List.length_take]; omega) nofun u hu
    rw [List.take_append_drop, List.length_drop] at this
    rcases this with h | h
    · left; omega
    · exact .inr h

/-- The line of a token: one plus the newlines before it. -/
theorem tok_line (hk : KwScanner.Steps U KwScanner.zero k) {text : Str} {mode : Mode} {ts : List Token} {eof : Token}
    (h : Tokenizes U k text mode ts eof) {t : Token} (ht : t ∈ ts) :
    (k.tokenize U text mode).2.sc.source.line t.pos = 1 + newlinesBefore text t.pos := by
  have hends := (tokenizes_ends h).2 t ht
  obtain ⟨full, s', hr, he, hf⟩ := h
  have hpos : ∀ t : Token, (if t.kind = IDENT then { t with kind := (k.keywords.get t.lit).getD IDENT } else t).pos = t.pos := by
    intro t; split <;> rfl
  have hm : t ∈ ts ++ [eof] := by simp [ht]
  rw [hf] at hm
  obtain ⟨u, hu, rfl⟩ := List.mem_map.mp hm
  rw [hpos] at hends ⊢
  have := C18_lines_partial U k.sc s' text mode full hr u hu hends
  obtain ⟨_, h2⟩ := tokenize_kw U k text mode
  have hl : full.length ≤ 2 * text.length + 2 := by
    obtain ⟨ts', s'', h', hl⟩ := C03_terminates U k.sc text mode
    obtain ⟨rfl, rfl⟩ := hr.functional h'
    exact hl
  have hs : (k.tokenize U text mode).2.sc = s' := by
    rw [h2]
    unfold tokenize
    rw [tokenizeLoop_ok (kw_ne_eof hk) hr (init_inv k.sc text mode) he _ hl]
  rw [hs]
  exact this

/-- What `calcErrorInfo` gives. -/
theorem calc_gives (hk : KwScanner.Steps U KwScanner.zero k) {text : Str} {mode : Mode} {ts : List Token} {eof : Token}
    (h : Tokenizes U k text mode ts eof) {t : Token} {rest : List Token} (hs : t :: rest <:+ ts) {idx : Nat} {at_ after : Token}
    (ha : (t :: rest)[idx]? = some at_) (hb : (t :: rest ++ [eof])[idx + 1]? = some after) :
    ∃ x, Excerpt (text.drop t.pos) (after.pos - t.pos) x ∧
      calcErrorInfo ⟨t :: rest, [eof]⟩ idx (k.tokenize U text mode).2.sc.source = .ok (1 + newlinesBefore text at_.pos, x) := by
  obtain ⟨_, hsrc, _, hpw, hle⟩ := tokenizes_ok hk h
  have hend := (tokenizes_ends h).1
  have hpw' : (t :: rest ++ [eof]).Pairwise (fun a b => a.pos ≤ b.pos) :=
    hpw.sublist (List.Sublist.append hs.sublist (List.Sublist.refl _))
  have hle' : ∀ u ∈ t :: rest ++ [eof], u.pos ≤ text.length := by
    intro u hu
    refine hle u ?_
    rw [List.mem_append] at hu ⊢
    exact hu.imp (fun h => hs.subset h) id
  have h1 := hle' t (by simp)
  have h2 := hle' eof (by simp)
  have h4 := hle' after (List.mem_of_getElem? hb)
  have h5 : t.pos ≤ after.pos := by
    have h0 := hpw'
    rw [List.cons_append] at h0
    refine (List.pairwise_cons.mp h0).1 after ?_
    rw [List.cons_append, List.getElem?_cons_succ] at hb
    exact List.mem_of_getElem? hb
  have hline := tok_line hk h (hs.subset (List.mem_of_getElem? ha))
  have ha' : (t :: rest ++ [eof])[idx]? = some at_ := by
    rw [List.getElem?_append_left (List.getElem?_eq_some_iff.mp ha).1]; exact ha
  have hall : (text.drop t.pos).take (eof.pos - t.pos) = text.drop t.pos := by
    rw [List.take_of_length_le]; rw [List.length_drop]; omega
  refine ⟨if nextLines (text.drop t.pos) 9 < after.pos - t.pos then (text.drop t.pos).take (after.pos - t.pos)
    else (text.drop t.pos).take (nextLines (text.drop t.pos) 9), ?_, ?_⟩
  · rcases nextLines_spec 9 (text.drop t.pos) with ⟨n1, n2⟩ | ⟨n1, n2, n3⟩
    · rw [n2, List.length_drop, if_neg (by omega), ← List.length_drop, List.take_length]
      exact .all n1
    · split
      · rename_i hlt
        refine .token (List.take_prefix _ _) ?_ (by rw [List.length_take, List.length_drop]; omega)
        rw [← n2]
        refine List.Sublist.count_le _ ?_
        exact (List.take_prefix_take_left (by omega)).sublist
      · refine .lines (List.take_prefix _ _) n2 (n3.resolve_left (by omega)) (by rw [List.length_take]; omega)
  · unfold calcErrorInfo
    have hso : (k.tokenize U text mode).2.sc.source.src = text := hsrc
    dsimp only
    rw [hso, if_pos ⟨h1, h2⟩, hb]
    dsimp only
    rw [if_pos h4, if_pos (by omega), ha', hall]
    dsimp only
    rw [hline]
    congr 2
    by_cases hn : nextLines (text.drop t.pos) 9 < after.pos - t.pos
    · rw [if_pos hn, if_pos (by omega)]
    · rw [if_neg hn, if_neg (by omega)]

/-- The message of a mismatch of the grammar `code`, which shows `x` of the text. -/
def matchMessage (line : Nat) (x code : Str) : Str :=
  str "line " ++ str (toString line) ++ str ": match failed: `" ++ x ++ str "` doesn't match `" ++ code ++ str "`"

/-- C120: what the message of a match error says that points to a token: the line of this token (one
plus the number of newlines before it), the text from the first token of the error on, in full if
that is less than nine lines, and behind it what did not match. -/
theorem C120_message (hk : KwScanner.Steps U KwScanner.zero k) {text : Str} {mode : Mode} {ts : List Token} {eof : Token}
    (h : Tokenizes U k text mode ts eof) {t : Token} {rest : List Token} (hs : t :: rest <:+ ts) {idx : Nat} {at_ after : Token}
    (ha : (t :: rest)[idx]? = some at_) (hb : (t :: rest ++ [eof])[idx + 1]? = some after)
    {ttol : Nat → GoRes Str} {names : Nat → Str} {g : Gr A} {code : Str} (hc : g.code ttol names = .ok code) :
    ∃ x, Excerpt (text.drop t.pos) (after.pos - t.pos) x ∧
      Err.error ttol names (k.tokenize U text mode).2.sc.source [eof] (.mismatch g (t :: rest) none idx) =
        .ok (matchMessage (1 + newlinesBefore text at_.pos) x code) ∧
      ∀ e m, Err.error ttol names (k.tokenize U text mode).2.sc.source [eof] e = .ok m →
        Err.error ttol names (k.tokenize U text mode).2.sc.source [eof] (.mismatch g (t :: rest) (some e) idx) =
          .ok (matchMessage (1 + newlinesBefore text at_.pos) x code ++ 10 :: m) := by
  obtain ⟨x, hx, hcalc⟩ := calc_gives hk h hs ha hb
  refine ⟨x, hx, ?_, ?_⟩
  · rw [Err.error, hcalc, hc]
    simp [GoRes.app, matchMessage, List.append_assoc]
  · intro e m hm
    rw [Err.error, hcalc, hc]
    dsimp only
    rw [hm]
    simp [GoRes.app, matchMessage, List.append_assoc]

/-- C120: the excerpt is determined. -/
theorem C120_unique {all : Str} {reach : Nat} {x y : Str} (hx : Excerpt all reach x) (hy : Excerpt all reach y) : x = y := by
  have cut : ∀ {x y : Str}, x <+: all → y <+: all → x.length ≤ y.length → x <+: y := fun h1 h2 h => List.prefix_of_prefix_length_le h1 h2 h
  have count : ∀ {x : Str}, x <+: all → x.count 10 ≤ all.count 10 := fun h => h.sublist.count_le _
  -- two texts of nine lines are the same
  have nine : ∀ {x y : Str}, x <+: y → 9 ≤ x.count 10 → y.count 10 = 9 → y.getLast? = some 10 → x = y := by
    rintro x y ⟨z, rfl⟩ h1 h2 h3
    rw [List.count_append] at h2
    cases z with
    | nil => simp
    | cons c z =>
      rw [List.getLast?_append_of_ne_nil _ (by simp)] at h3
      have := List.count_pos_iff.mpr (List.mem_of_getLast? h3)
      omega
  cases hx with
  | all h1 =>
    cases hy with
    | all => rfl
    | lines h2 h3 => have := count h2; omega
    | token h2 h3 => have := count h2; omega
  | lines h1 h2 h3 h4 =>
    cases hy with
    | all h5 => have := count h1; omega
    | lines h5 h6 h7 h8 =>
      rcases Nat.le_total x.length y.length with hl | hl
      · exact nine (cut h1 h5 hl) (by omega) h6 h7
      · exact (nine (cut h5 h1 hl) (by omega) h2 h3).symm
    | token h5 h6 h7 => exact (nine (cut h5 h1 (by omega)) h6 h2 h3).symm
  | token h1 h2 h3 =>
    cases hy with
    | all h5 => have := count h1; omega
    | lines h5 h6 h7 h8 => exact nine (cut h1 h5 (by omega)) h2 h6 h7
    | token h5 h6 h7 => exact (cut h1 h5 (by omega)).eq_of_length (by omega)

/-- C120 (what holds): an error returned by a match on the tokens of a text says that a variable is not assigned, or it is the error of
a grammar that fails where the error says: its message names the line of the token there and shows
the text that begins with it.  If there is no token left (the match failed at the end of the text)
it says `line 0` and shows nothing. -/
theorem C120_returned_partial (hk : KwScanner.Steps U KwScanner.zero k) {text : Str} {mode : Mode} {ts : List Token} {eof : Token}
    (h : Tokenizes U k text mode ts eof) {env : Env A} {sem : Sem A σ V P} {g : Gr A} {s s' : St σ} {n e}
    (hm : Eval env sem g ts s (.fail n e s')) :
    e = .varNotAssigned ∨ ∃ g' src, src <:+ ts ∧ (∃ s1 m s2, Eval env sem g' src s1 (.fail m e s2)) ∧
      ∀ ttol names code, g'.code ttol names = .ok code →
        match src with
        | t :: rest => ∃ x, Excerpt (text.drop t.pos) (((rest ++ [eof]).head (by simp)).pos - t.pos) x ∧
            Err.error ttol names (k.tokenize U text mode).2.sc.source [eof] e = .ok (matchMessage (1 + newlinesBefore text t.pos) x code)
        | [] => Err.error ttol names (k.tokenize U text mode).2.sc.source [eof] e = .ok (matchMessage 0 [] code) := by
  obtain ⟨f, hm⟩ := hm
  rcases matchG_from f g ts s n e s' hm with h1 | ⟨g', src, h1, rfl, h2⟩
  · exact .inl h1
  · refine .inr ⟨g', src, h1, h2, ?_⟩
    intro ttol names code hc
    cases src with
    | nil =>
      dsimp only
      rw [mismatch, Err.error, hc]
      simp [calcErrorInfo, GoRes.app, matchMessage]
    | cons t rest =>
      dsimp only
      obtain ⟨x, hx, he, _⟩ := C120_message (idx := 0) (at_ := t) (after := (rest ++ [eof]).head (by simp)) hk h h1 rfl (by
        rw [List.cons_append, List.getElem?_cons_succ, ← List.head?_eq_getElem?, List.head?_eq_some_head (by simp)]) hc
      exact ⟨x, hx, he⟩

/-- C120 (what holds): a fail-fast error names the line of the token that failed behind the marker,
and shows the text from the beginning of the sequence to behind that token, or more; then follows the error of the part that failed.
(At the end of the text there is no message at all, see C38.) -/
theorem C120_failfast_partial (hk : KwScanner.Steps U KwScanner.zero k) {text : Str} {mode : Mode} {ts : List Token} {eof : Token}
    (h : Tokenizes U k text mode ts eof) {env : Env A} {sem : Sem A σ V P} (hsem : NoErr sem) {g : Gr A} {s s' : St σ} {e}
    (hm : Eval env sem g ts s (.panic (.err e) s')) :
    ∃ gs src e1 idx, e = .mismatch (.and gs) src (some e1) idx ∧ .nil ∈ gs ∧ src <:+ ts ∧ idx ≤ src.length ∧
      ∀ ttol names code, (Gr.and gs).code ttol names = .ok code → ∀ m,
        Err.error ttol names (k.tokenize U text mode).2.sc.source [eof] e1 = .ok m →
        ∀ t at_ after, src.head? = some t → src[idx]? = some at_ → (src ++ [eof])[idx + 1]? = some after →
        ∃ x, Excerpt (text.drop t.pos) (after.pos - t.pos) x ∧
          Err.error ttol names (k.tokenize U text mode).2.sc.source [eof] e =
            .ok (matchMessage (1 + newlinesBefore text at_.pos) x code ++ 10 :: m) := by
  have := (C38_errors hsem hm).2 _ _ rfl
  cases this with
  | @cut gs src e1 idx hq hn hs hi _ =>
    refine ⟨gs, src, e1, idx, rfl, hn, hs, hi, ?_⟩
    intro ttol names code hc m hm1 t at_ after h1 h2 h3
    cases src with
    | nil => cases h1
    | cons t' rest =>
      cases h1
      obtain ⟨x, hx, _, he⟩ := C120_message hk h hs h2 h3 hc
      exact ⟨x, hx, he _ _ hm1⟩

/-- C120: if MatchExactly refuses a text because tokens are left over, the message names the line of
the first of them and shows the text from it on. -/
theorem C120_leftover (hk : KwScanner.Steps U KwScanner.zero k) {text : Str} {mode : Mode} {ts : List Token} {eof : Token}
    (h : Tokenizes U k text mode ts eof) {n : Nat} {t after : Token} (ht : ts[n]? = some t) (ha : (ts ++ [eof])[n + 1]? = some after)
    (ttol : Nat → GoRes Str) (names : Nat → Str) :
    ∃ x, Excerpt (text.drop t.pos) (after.pos - t.pos) x ∧
      Err.error ttol names (k.tokenize U text mode).2.sc.source [eof] (.mismatch (.eof : Gr A) (ts.drop n) none 0) =
        .ok (matchMessage (1 + newlinesBefore text t.pos) x (str "EOF")) := by
  obtain ⟨hlt, hget⟩ := List.getElem?_eq_some_iff.mp ht
  have hd : ts.drop n = t :: ts.drop (n + 1) := by rw [← hget]; exact List.drop_eq_getElem_cons hlt
  have hs : t :: ts.drop (n + 1) <:+ ts := hd ▸ List.drop_suffix n ts
  obtain ⟨x, hx, he, _⟩ := C120_message (A := A) (idx := 0) (at_ := t) (after := after) (ttol := ttol) (names := names) (g := .eof) hk h hs rfl (by
    rw [← hd, ← ha, ← List.drop_append_of_le_length (by omega), List.getElem?_drop]) rfl
  exact ⟨x, hx, by rw [hd]; exact he⟩

/-- C120 (what holds): a function of the table that panics makes the match panic with a RuntimeError.
Its message is about the line on which the tokens of the mark begin; if the mark matched no tokens
the message says line 0 and does not name the file. -/
theorem C120_runtime_partial {E X I τ F W : Type} {c : Client E X I τ F W} {env : Env Str}
    (hk : KwScanner.Steps U KwScanner.zero k) {text : Str} {mode : Mode} {ts : List Token} {eof : Token}
    (h : Tokenizes U k text mode ts eof) {src : List Token} (hs : src <:+ ts)
    {mark : Str} {e} (he : c.table mark = some e) {g : Gr Str} {s s1 s2 : St (Eng I τ)} {n}
    (hm : Eval env c.sem g src s (.ok n s1)) (hr : Runs s1.u.mute mark) {f : Nat} {p}
    (hp : (c.perform mark e (src.take n) g).run f (matchG env c.sem f) s1 = some (.panic p s2)) {cause} (hcause : Causes p cause) :
    Eval env c.sem (.action mark g) src s (.panic (.user (.runtime g (src.take n) cause)) s2) ∧
    ∀ file m, runtimeMessage file (k.tokenize U text mode).2.sc.source (src.take n) m =
      match src.take n, file with
      | [], _ => str "line 0: runtime error: " ++ m
      | t :: _, [] => str "line " ++ str (toString (1 + newlinesBefore text t.pos)) ++ str ": runtime error: " ++ m
      | t :: _, _ :: _ => file ++ str ":" ++ str (toString (1 + newlinesBefore text t.pos)) ++ str ": runtime error: " ++ m := by
  refine ⟨(C52_wraps he hm hr hp).1 cause hcause, ?_⟩
  intro file m
  cases ht : src.take n with
  | nil =>
    have : str (toString 0) = str "0" := rfl
    simp only [runtimeMessage, if_true, FileLine, this]
    show str "line " ++ str "0" ++ str ": runtime error: " ++ m = str "line 0: runtime error: " ++ m
    congr 1
  | cons t rest =>
    have hmem : t ∈ ts := hs.subset (List.mem_of_mem_take (i := n) (by rw [ht]; simp))
    have := tok_line hk h hmem
    cases file with
    | nil => simp only [runtimeMessage, if_true, FileLine, this]
    | cons b file => simp [runtimeMessage, FileLine, this]

/-- The error and its message of matching `IDENT IDENT` with a text. -/
def twoIdents (text : Str) : Option (GoRes Str) :=
  let r := KwScanner.zero.tokenize ascii text plain
  match matchG noEnv noCalls.sem 3 (.and [.tok IDENT, .tok IDENT]) r.1.1 st0 with
  | some (.fail _ e _) => some (Err.error Token2Lit (fun _ => []) r.2.sc.source
      ((tokenArray ascii KwScanner.zero.keywords.get (2 * text.length + 2) (Scanner.init KwScanner.zero.sc text plain)).drop r.1.1.length) e)
  | _ => none

/-- C120 is violated at the end of a text: the message of the error names line 0 instead of line 3. -/
theorem C120_violated : twoIdents (bytes "\n\na") = some (.ok (bytes "line 0: match failed: `` doesn't match `IDENT`")) := by
  decide +kernel

/-- C120 is violated by a function that panics in a mark that has matched nothing: whatever the text
and the name of the file are, the message says line 0 and no file. -/
theorem C120_violated_runtime (file : Str) (t : TokSource) (m : Str) :
    runtimeMessage file t [] m = str "line 0: runtime error: " ++ m := by
  have : str (toString 0) = str "0" := rfl
  simp only [runtimeMessage, if_true, FileLine, this]
  show str "line " ++ str "0" ++ str ": runtime error: " ++ m = _
  congr 1

/-- The messages of errors in the middle of a text. -/
example : twoIdents (bytes "a\n  1 b\nc") = some (.ok (bytes "line 2: match failed: `1 b\nc` doesn't match `IDENT`")) := by
  decide +kernel
example : twoIdents (bytes "\n\n1\n2\n3\n4\n5\n6\n7\n8\n9\n10") =
    some (.ok (bytes "line 3: match failed: `1\n2\n3\n4\n5\n6\n7\n8\n9\n` doesn't match `IDENT`")) := by
  decide +kernel
example : twoIdents (bytes "a `\n\n\n\n\n\n\n\n\n\n\n` 1") =
    some (.ok (bytes "line 1: match failed: ``\n\n\n\n\n\n\n\n\n\n\n` ` doesn't match `IDENT`")) := by
  decide +kernel
example : runtimeMessage (bytes "f.tpl") (KwScanner.zero.tokenize ascii (bytes "a\nb") plain).2.sc.source [⟨IDENT, 2, bytes "b"⟩] (bytes "oops") =
    bytes "f.tpl:2: runtime error: oops" := by
  decide +kernel

/-- The hypotheses are met: a text of two lines. -/
example : Tokenizes ascii KwScanner.zero (bytes "a\nb") plain [⟨IDENT, 0, bytes "a"⟩, ⟨IDENT, 2, bytes "b"⟩] ⟨EOF, 3, []⟩ := by
  have ht : (KwScanner.zero.tokenize ascii (bytes "a\nb") plain).1 = ([⟨IDENT, 0, bytes "a"⟩, ⟨IDENT, 2, bytes "b"⟩], none) := by decide +kernel
  obtain ⟨eof, h⟩ := (tokenizes_iff (U := ascii) (.refl _)).mp ht
  have h1 := (tokenizes_ok (.refl _) h).2.2.1
  have h2 : tokenArray ascii KwScanner.zero.keywords.get (2 * (bytes "a\nb").length + 2) (Scanner.init KwScanner.zero.sc (bytes "a\nb") plain) =
      [⟨IDENT, 0, bytes "a"⟩, ⟨IDENT, 2, bytes "b"⟩, ⟨EOF, 3, []⟩] := by decide +kernel
  rw [h2] at h1
  cases h1
  exact h

end Tpl.Props
