import Verif.Spec.Parts
import Verif.Proof.QlangMono
import Verif.Props.QlangSession
import Verif.Props.Concat

/-
C124: a program can be run in parts.
-/
namespace Tpl.Props
open Tpl Tpl.Spec Tpl.Qlang Tpl.Qlang.Src Scanner
variable {F : Type} {S : Setup F} {U : Uni} {mode : Mode} {fuel : Nat} {ret : CompileRet Str}

/-! ### The tree -/

theorem closed_toks (d : Tm .doc) {more : Tm .docTail} (h : Closed more) : (Tm.thenDoc d more).toks = more.toks ++ d.toks := by
  induction h with
  | last sc => cases d; rfl
  | next sc s _ ih =>
    show sc.tok :: (s.toks ++ _) = sc.tok :: (s.toks ++ _) ++ _
    rw [ih]; simp
  | @semi sc more hm ih =>
    cases hm <;> exact (congrArg (sc.tok :: ·) ih).trans (by rfl)

theorem followed_toks {a : Tm .doc} (d : Tm .doc) (h : ClosedDoc a) : (followed a d).toks = a.toks ++ d.toks := by
  cases a with
  | doc s more =>
    show s.toks ++ _ = s.toks ++ _ ++ _
    rw [closed_toks d h, List.append_assoc]

theorem closed_ok {d : Tm .doc} (hd : d.Ok) {more : Tm .docTail} (h : Closed more) (hm : more.Ok) : (Tm.thenDoc d more).Ok := by
  induction h with
  | last sc => cases d; exact hd
  | next sc s _ ih => exact ⟨hm.1, ih hm.2⟩
  | @semi sc more h ih => cases h <;> exact ih hm

theorem followed_ok {a d : Tm .doc} (h : ClosedDoc a) (ha : a.Ok) (hd : d.Ok) : (followed a d).Ok := by
  cases a with
  | doc s more => exact ⟨ha.1, closed_ok hd h ha.2⟩

theorem andThen_assoc {α β γ : Type} (x : Prog F α) (f : α → Prog F β) (g : β → Prog F γ) :
    (x.andThen f).andThen g = x.andThen fun a => (f a).andThen g := by
  funext w
  unfold Prog.andThen
  cases x w with
  | none => rfl
  | some o => obtain ⟨e, w'⟩ := o; cases e <;> rfl

theorem closed_den (S : Setup F) (R : Runs F) (n p : Nat) (d : Tm .doc) {more : Tm .docTail} (h : Closed more) : ∀ v : QVal F,
    ((Tm.thenDoc d more).den S R n p : QVal F → Prog F (QVal F)) v =
      Prog.andThen ((more.den S R n p : QVal F → Prog F (QVal F)) v) fun _ => (d.den S R n p : Prog F (QVal F)) := by
  induction h with
  | last sc => intro v; cases d; rfl
  | @next sc s more _ ih =>
    intro v
    have key := andThen_assoc (α := QVal F) (s.den S R n p) (more.den S R n p) fun _ => (d.den S R n p : Prog F (QVal F))
    exact (congrArg (Prog.andThen (α := QVal F) (s.den S R n p)) (funext ih)).trans key.symm
  | @semi sc more h ih => intro v; cases h <;> exact ih .nil

theorem followed_den (S : Setup F) (n : Nat) {a : Tm .doc} (d : Tm .doc) (h : ClosedDoc a) :
    (followed a d).does S n = Prog.andThen (a.does S n) fun _ => d.does S n := by
  cases a with
  | doc s more =>
    have key := andThen_assoc (α := QVal F) (s.den S (runs S n) n 0) (more.den S (runs S n) n 0) fun _ => d.does S n
    exact (congrArg (Prog.andThen (α := QVal F) (s.den S (runs S n) n 0)) (funext (closed_den S _ n 0 d h))).trans key.symm

/-! ### The meaning -/

/-- C124: the result of a program does not depend on how long one waits for it. -/
theorem C124_result (d : Tm .doc) {w : World F} {n m r r'} (h : d.does S n w = some r) (h' : d.does S m w = some r') : r = r' := by
  have h1 := does_le S (Nat.le_max_left n m) d w r h
  rw [does_le S (Nat.le_max_right n m) d w r' h'] at h1
  exact (Option.some.inj h1).symm

/-- C124: the statements of two programs end as the second one does when it begins with the
variables, functions and heap that the first one has left, unless the first one panics; then they
panic like this. -/
theorem C124_meaning {a d : Tm .doc} (ha : ClosedDoc a) {w w' : World F} {o} :
    (∃ n, (followed a d).does S n w = some (o, w')) ↔
      (∃ v w1, (∃ n, a.does S n w = some (.ok v, w1)) ∧ ∃ n, d.does S n w1 = some (o, w')) ∨
      ∃ p, o = .error p ∧ ∃ n, a.does S n w = some (.error p, w') := by
  constructor
  · rintro ⟨n, h⟩
    rw [followed_den S n d ha] at h
    unfold Prog.andThen at h
    cases ha : a.does S n w with
    | none => rw [ha] at h; cases h
    | some r =>
      obtain ⟨e, w1⟩ := r
      rw [ha] at h
      cases e with
      | error p => cases h; exact .inr ⟨p, rfl, n, ha⟩
      | ok v => exact .inl ⟨v, w1, ⟨n, ha⟩, n, h⟩
  · rintro (⟨v, w1, ⟨n, h1⟩, m, h2⟩ | ⟨p, rfl, n, h⟩)
    · refine ⟨max n m, ?_⟩
      rw [followed_den S _ d ha]
      unfold Prog.andThen
      rw [does_le S (Nat.le_max_left n m) a w _ h1]
      exact does_le S (Nat.le_max_right n m) d w1 _ h2
    · refine ⟨n, ?_⟩
      rw [followed_den S _ d ha]
      unfold Prog.andThen
      rw [h]

/-! ### The texts -/

theorem blank_gap (ok c : Bool) : ∀ a : Str, Gap ok c false (blank a) [] false
  | [] => .nil
  | b :: a => .space (by
      show Space true (if b = 10 then 10 else 32)
      split
      · exact .inr (.inr (.inr ⟨rfl, rfl⟩))
      · exact .inl rfl) (blank_gap ok c a)

theorem blank_bom (a : Str) : bomLen (blank a) = 0 := by
  cases a with
  | nil => rfl
  | cons b a =>
    unfold bomLen
    rw [if_neg]
    simp only [blank, List.map_cons, List.isPrefixOf, Bool.and_eq_true, beq_iff_eq]
    rintro ⟨h, _⟩
    split at h <;> simp at h

theorem blank_clean (a : Str) : Clean (blank a) := by
  apply clean_ascii
  intro b hb
  obtain ⟨x, _, rfl⟩ := List.mem_map.mp hb
  split <;> decide

theorem blank_tokens {k : KwScanner} (hk : KwScanner.Steps U KwScanner.zero k) (mode : Mode) (a : Str) : ∃ e, Tokenizes U k (blank a) mode [] e := by
  obtain ⟨s', h⟩ := (C78_tokenize U k.keywords.get (kw_ne_eof hk) k.sc (blank a) mode []).mpr
    ⟨by rw [blank_bom]; exact blank_clean a, [], ⟨EOF, (blank a).length, []⟩, by
      rw [blank_bom]
      exact .eof (blank_gap _ _ a) (Nat.zero_add _).symm, rfl⟩
  refine (tokenizes_iff hk).mp ?_
  rw [(tokenize_kw U k _ mode).1, h]

/-- C124: what follows blanks is read as it is, at its place. -/
theorem part_tokens {k : KwScanner} (hk : KwScanner.Steps U KwScanner.zero k) {mode : Mode} {b : Str} {us : List Token} {e : Token} (a : Str)
    (hb : Tokenizes U k b mode us e) (hbom : bomLen b = 0) : ∃ e, Tokenizes U k (blank a ++ 10 :: b) mode (us.map (moveTok (a.length + 1))) e := by
  obtain ⟨e', h⟩ := blank_tokens hk mode a
  obtain ⟨e'', h⟩ := C122_texts hk h hb hbom
  refine ⟨e'', ?_⟩
  rw [show (blank a).length = a.length from List.length_map _] at h
  exact h

/-! ### The engine -/

section
variable (hS : S.site = sites) (h : (client S.host.lib ret U).new grammarText mode U fuel = some (.ok ret)) {s : St (QEng F)}
  (hk : KwScanner.Steps U KwScanner.zero s.u.scanner) (hbad : s.u.scanner.sc.bad = false) (hi : Ready s.u)
  {a b : Str} {ea eb : Token} {us : List Token} {da db : Tm .doc} (oka : da.Ok) (okb : db.Ok) (closed : ClosedDoc da)
  (ha : Tokenizes U s.u.scanner a ret.mode da.toks ea) (hb : Tokenizes U s.u.scanner b ret.mode us eb) (hbom : bomLen b = 0)
  (hus : db.toks = us.map (moveTok (a.length + 1)))
include hS h hk hbad hi oka okb closed ha hb hbom hus

/-- C124: if `Exec` of the first part ends, and `Exec` of the second part has the outcome `o` then,
`Exec` of the whole text has the outcome `o`, and leaves the same variables, functions and heap. -/
theorem C124_parts {w1 w' : World F} {o} (h1 : Gives S .exec da (world s.u.u) .done w1) (h2 : Gives S .exec db w1 o w') :
    (∃ s', ObservedAll S.host.lib ret U [(.exec, a), (.exec, blank a ++ 10 :: b)] s [.done, o] s' ∧ Ready s'.u ∧ world s'.u.u = w') ∧
    ∃ s', Observed S.host.lib ret U .exec (a ++ 10 :: b) s o s' ∧ Ready s'.u ∧ world s'.u.u = w' := by
  constructor
  · have ht : ∃ e, Tokenizes U s.u.scanner (blank a ++ 10 :: b) ret.mode db.toks e := hus ▸ part_tokens hk a hb hbom
    exact C83_session (ds := [(.exec, da), (.exec, db)]) hS h hbad (.cons ⟨rfl, oka, _, ha⟩ (.cons ⟨rfl, okb, ht⟩ .nil)) ⟨hk, hbad, rfl⟩ hi
      (.cons h1 (.cons h2 (.nil _)))
  · obtain ⟨e, ht⟩ := C122_texts hk ha hb hbom
    rw [← hus, ← followed_toks db closed] at ht
    refine observed hS h _ (followed_ok closed oka okb) hk ht hi ?_
    cases h1 with
    | ran h1 =>
      have key : ∀ {n o}, db.does S n w1 = some (o, w') → ∃ n, (followed da db).does S n (world s.u.u) = some (o, w') :=
        fun h2 => (C124_meaning closed).mpr (.inl ⟨_, _, ⟨_, h1⟩, _, h2⟩)
      cases h2 with
      | exec h2 => obtain ⟨n, h⟩ := key h2; exact .exec h
      | ran h2 => obtain ⟨n, h⟩ := key h2; exact .ran h
      | failed h2 hp => obtain ⟨n, h⟩ := key h2; exact .failed h hp

omit hbad in
/-- C124: if `Exec` of the first part panics, `Exec` of the whole text panics like this, and leaves
the same variables, functions and heap. -/
theorem C124_stops {w' : World F} {p} (h1 : Gives S .exec da (world s.u.u) (.panic p) w') :
    (∃ s', Observed S.host.lib ret U .exec a s (.panic p) s' ∧ Ready s'.u ∧ world s'.u.u = w') ∧
    ∃ s', Observed S.host.lib ret U .exec (a ++ 10 :: b) s (.panic p) s' ∧ Ready s'.u ∧ world s'.u.u = w' := by
  refine ⟨observed hS h _ oka hk ha hi h1, ?_⟩
  obtain ⟨e, ht⟩ := C122_texts hk ha hb hbom
  rw [← hus, ← followed_toks db closed] at ht
  refine observed hS h _ (followed_ok closed oka okb) hk ht hi ?_
  cases h1 with
  | failed h1 hp =>
    obtain ⟨n, h⟩ := (C124_meaning (d := db) closed).mpr (.inr ⟨_, rfl, _, h1⟩)
    exact .failed h hp

/-- C124: what the program that is written in the whole text gives is what its parts give. -/
theorem C124_whole {w' : World F} {o} (h1 : Gives S .exec (followed da db) (world s.u.u) o w') :
    (∃ s', Observed S.host.lib ret U .exec (a ++ 10 :: b) s o s' ∧ Ready s'.u ∧ world s'.u.u = w') ∧
    ((∃ s', ObservedAll S.host.lib ret U [(.exec, a), (.exec, blank a ++ 10 :: b)] s [.done, o] s' ∧ Ready s'.u ∧ world s'.u.u = w') ∨
      ∃ p, o = .panic p ∧ ∃ s', Observed S.host.lib ret U .exec a s (.panic p) s' ∧ Ready s'.u ∧ world s'.u.u = w') := by
  have key : ∀ {n r}, (followed da db).does S n (world s.u.u) = some (r, w') → _ := fun h => (C124_meaning closed).mp ⟨_, h⟩
  have parts : ∀ {w1}, Gives S .exec da (world s.u.u) .done w1 → Gives S .exec db w1 o w' → _ :=
    fun h1 h2 => C124_parts hS h hk hbad hi oka okb closed ha hb hbom hus h1 h2
  cases h1 with
  | exec h1 =>
    rcases key h1 with ⟨v, w1, ⟨n, h2⟩, m, h3⟩ | ⟨p, h2, _⟩
    · have := parts (.ran h2) (.exec h3); exact ⟨this.2, .inl this.1⟩
    · cases h2
  | ran h1 =>
    rcases key h1 with ⟨v, w1, ⟨n, h2⟩, m, h3⟩ | ⟨p, h2, _⟩
    · have := parts (.ran h2) (.ran h3); exact ⟨this.2, .inl this.1⟩
    · cases h2
  | failed h1 hp =>
    rcases key h1 with ⟨v, w1, ⟨n, h2⟩, m, h3⟩ | ⟨p, h2, n, h3⟩
    · have := parts (.ran h2) (.failed h3 hp); exact ⟨this.2, .inl this.1⟩
    · cases h2
      have := C124_stops hS h hk hi oka okb closed ha hb hbom hus (.failed h3 hp)
      exact ⟨this.2, .inr ⟨_, rfl, this.1⟩⟩

end

/-! ### `x = 1` and `x`, with inserted semicolons, on a new engine -/

def partA : Tm .doc := .doc (.assign (tk IDENT 0 "x") (tk 61 2 "") (one (.int (tk INT 4 "1")))) (.semi (tk 59 5 "\n") .endDoc)
def partB : Tm .doc := .doc (.eval (one (var 6 "x"))) (.semi (tk 59 7 "\n") .endDoc)
def partToks : List Token := [⟨IDENT, 0, str "x"⟩, ⟨59, 1, str "\n"⟩]

theorem partA_text (sc : Scanner) : ((⟨sc, keywords, some kwTable⟩ : KwScanner).tokenize ascii (str "x = 1") ⟨false, true⟩).1 = (partA.toks, none) := by
  kernel_rfl
theorem partB_text (sc : Scanner) : ((⟨sc, keywords, some kwTable⟩ : KwScanner).tokenize ascii (str "x") ⟨false, true⟩).1 = (partToks, none) := by
  kernel_rfl

def partW : World Unit := worldOf (partA.does setup0 3 (world QState.new))
def partW' : World Unit := worldOf (partB.does setup0 3 partW)
theorem partW_eq : partA.does setup0 3 (world QState.new) = some (.ok .nil, partW) := by kernel_rfl
theorem partW'_eq : partB.does setup0 3 partW = some (.ok .nil, partW') := by kernel_rfl
example : ((partW.frames 0).vars (str "x")) = some (.int 1) := by kernel_rfl

example : ∃ s', Observed setup0.host.lib (qlangRet ascii ⟨false, true⟩) ascii .exec (str "x = 1\nx") (newEngine ascii ⟨false, true⟩) (.value .nil) s' := by
  have text : ∀ {src ts}, (∀ sc, ((⟨sc, keywords, some kwTable⟩ : KwScanner).tokenize ascii src ⟨false, true⟩).1 = (ts, none)) →
      ∃ e, Tokenizes ascii (newEngine (F := Unit) ascii ⟨false, true⟩).u.scanner src ⟨false, true⟩ ts e := by
    intro src ts h
    refine (tokenizes_iff (newEngine_steps (F := Unit) ascii ⟨false, true⟩)).mp ?_
    rw [newEngine_scanner]
    exact h _
  obtain ⟨_, ha⟩ := text partA_text
  obtain ⟨_, hb⟩ := text partB_text
  obtain ⟨fuel, h⟩ := compiled_new setup0.host.lib ascii ⟨false, true⟩
  obtain ⟨_, s', h1, _⟩ := C124_parts (S := setup0) (ret := qlangRet ascii ⟨false, true⟩) (da := partA) (db := partB) rfl h
    (newEngine_steps ascii ⟨false, true⟩) (newEngine_ok ascii ⟨false, true⟩) (newEngine_idle ascii ⟨false, true⟩).ready
    (by repeat' first | exact trivial | refine ⟨?_, ?_⟩) (by repeat' first | exact trivial | refine ⟨?_, ?_⟩) (.last _) ha hb rfl rfl (.ran partW_eq) (.exec partW'_eq)
  exact ⟨s', h1⟩

/-- What `Exec` of a text on a new engine, with inserted semicolons, ends with: true if without an error. -/
def runsAlone (src : Str) : Option Bool := match exec (F := Unit) setup0.host.lib (qlangRet ascii ⟨false, true⟩) ascii 200 src (newEngine ascii ⟨false, true⟩) with
  | some (.ok _ _) => some true
  | some _ => some false
  | none => none

/-- Why the first part must end with a semicolon, which may be an inserted one: no semicolon is inserted
at the end of `1 /**/ #`.  Alone it is a program, and so is `2`, but with the newline between them
they are not one. -/
theorem C124_not_closed : runsAlone (str "1 /**/ #") = some true ∧ runsAlone (str "2") = some true ∧ runsAlone (str "1 /**/ #\n2") = some false :=
  ⟨by kernel_rfl, by kernel_rfl, by kernel_rfl⟩

/-- Without the comments they are. -/
example : runsAlone (str "1\n2") = some true := by kernel_rfl

end Tpl.Props
