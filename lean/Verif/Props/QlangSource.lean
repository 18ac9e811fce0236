import Verif.Proof.QlangText
import Verif.Proof.QlangMarks
import Verif.Proof.QlangParses
import Verif.Props.Compiler
import Verif.Props.Lexer
import Verif.Props.Grammar

/-
Properties of qlang programs as they are written (C79).
-/
namespace Tpl.Props
open Tpl Tpl.Spec Tpl.Qlang Tpl.Qlang.Src Scanner
variable {F : Type}

/-! ### C79: programs are accepted and read by precedence -/

/-- The grammar is tokenized without errors, and its tokens are those of the rules. -/
theorem grammar_tokens (U : Uni) : ∃ ts eof, Tokenizes U KwScanner.zero grammarText clMode ts eof ∧ IsDoc ts rules := by
  obtain ⟨full, l1, l2⟩ := lexOk_sound (U := U) 3000 grammar_lexOk 0
  obtain ⟨s', r1, r2⟩ := (run_iff U KwScanner.zero.sc grammarText clMode full).mpr (by rw [bomLen_clean grammar_clean]; exact ⟨grammar_clean, l1⟩)
  obtain ⟨us, e, rfl⟩ := run_snoc r1
  rw [List.map_append] at l2
  refine ⟨us, e, ⟨us ++ [e], s', r1, r2, ?_⟩, by simp [rules], (List.append_inj' l2 rfl).1⟩
  rw [← kwTok_spec, List.map_congr_left (fun t _ => zero_kw t), List.map_id']

theorem fresh_scanner (U : Uni) (src : Str) (mode : Mode) :
    (KwScanner.zero.tokenize U src mode).2 = ⟨(KwScanner.zero.tokenize U src mode).2.sc, [], some []⟩ := by
  unfold KwScanner.tokenize
  rfl

theorem table_doc : table.lookup (bytes "doc") = some bDoc := by kernel_rfl

/-- What the grammar of qlang compiles to. -/
theorem compiled_iff (L : Lib F) (r : CompileRet Str) (U : Uni) (mode : Mode) (ret : CompileRet Str) :
    (∃ fuel, (client L r U).new grammarText mode U fuel = some (.ok ret)) ↔
      ret = ⟨bDoc, ⟨table, [(str "factor", some gFactor)], 37,
        ⟨(KwScanner.zero.tokenize U grammarText clMode).2.sc, keywords, some kwTable⟩⟩, mode⟩ := by
  obtain ⟨ts, eof, ht, hd⟩ := grammar_tokens U
  have hden := tables F L r U (KwScanner.zero.tokenize U grammarText clMode).2.sc
  rw [← fresh_scanner] at hden
  obtain ⟨fuel', h'⟩ := (C40_compiles ⟨grammarText, (client L r U).marker, mode⟩ (U := U) (k := KwScanner.zero) (.refl _) _).mpr
      ⟨ts, eof, rules, _, bDoc, ht, hd, hden, table_doc, by simp, rfl⟩
  constructor
  · rintro ⟨fuel, h⟩
    have := cl_unique h h'
    injection this
  · rintro rfl
    exact ⟨fuel', h'⟩

/-- The grammar of qlang compiles, with every library. -/
theorem C79_compiles (L : Lib F) (r : CompileRet Str) (U : Uni) (mode : Mode) :
    ∃ fuel ret, (client L r U).new grammarText mode U fuel = some (.ok ret) := by
  obtain ⟨fuel, h⟩ := (compiled_iff L r U mode _).mpr rfl
  exact ⟨fuel, _, h⟩

variable {L : Lib F} {r : CompileRet Str} {U : Uni} {mode : Mode} {fuel : Nat} {ret : CompileRet Str}

/-- C79: matching the tokens of a program succeeds with all of them, and the marks run in
the order of the tree, each with the tokens of its part. -/
theorem C79_marks (h : (client L r U).new grammarText mode U fuel = some (.ok ret)) (d : Tm .doc) (hd : d.Ok) :
    ∃ l evs, Tr ret.env (.one ret.root) d.toks (.succ d.toks.length l) evs ∧ evs.map shown = d.marks := by
  obtain rfl := (compiled_iff L r U mode ret).mp ⟨_, h⟩
  have h1 := Src.reads (env := CompileRet.env ⟨bDoc, ⟨table, [(str "factor", some gFactor)], 37,
        ⟨(KwScanner.zero.tokenize U grammarText clMode).2.sc, keywords, some kwTable⟩⟩, mode⟩) rfl d hd [] (by decide)
  unfold Rd at h1
  rw [List.append_nil] at h1
  generalize ho : Out.succ d.toks.length (-1) = o at h1
  unfold gDoc at h1
  cases h1 with
  | @named _ _ _ o _ h2 =>
    cases o with
    | succ n l =>
      cases ho
      exact ⟨l, _, h2, evs_shown d⟩
    | fail => cases ho
    | abort => cases ho

/-- C79: whatever the callbacks do, a program is never refused: all its tokens are matched, or
a callback ended the match. -/
theorem C79_accepts {σ V P : Type} {sem : Sem Str σ V P} {s : St σ} {res : Res Str σ P}
    (h : (client L r U).new grammarText mode U fuel = some (.ok ret)) (d : Tm .doc) (hd : d.Ok)
    (he : Eval ret.env sem ret.root d.toks s res) :
    (∃ s', res = .ok d.toks.length s') ∨ ∃ p s', res = .panic p s' := by
  obtain ⟨l, evs, h1, _⟩ := C79_marks h d hd
  obtain ⟨s', h2, _⟩ := (C34_log (s := ⟨fun _ => 0, []⟩)).2.2.1 _ _ _ h1
  exact (C24_deterministic rfl h2 he).1 _ _ rfl

/-- C79: the text of a program determines its marks: trees with the same tokens have the same
marks. -/
theorem C79_unambiguous (d d' : Tm .doc) (hd : d.Ok) (hd' : d'.Ok) (ht : d.toks = d'.toks) : d.marks = d'.marks := by
  have h1 := Src.reads (env := fun _ => some gFactor) rfl d hd [] (by decide)
  have h2 := Src.reads (env := fun _ => some gFactor) rfl d' hd' [] (by decide)
  unfold Rd at h1 h2
  rw [List.append_nil] at h1 h2
  obtain ⟨s1, a1, a2⟩ := (C34_log (s := ⟨fun _ => 0, []⟩)).2.2.1 _ _ _ h1
  obtain ⟨s2, b1, b2⟩ := (C34_log (s := ⟨fun _ => 0, []⟩)).2.2.1 _ _ _ h2
  rw [ht] at a1
  have := C24_function a1 b1
  injection this with _ this
  have a2 : s1.u = d.evs := by simpa using a2
  have b2 : s2.u = d'.evs := by simpa using b2
  rw [← evs_shown, ← evs_shown, ← a2, ← b2, this]

/-! The program `x = 1 + 2 * 3; if !f(x) { return x }`. -/

def tk (k p : Nat) (lit : String) : Tk k := ⟨⟨k, p, str lit⟩, rfl⟩
def up1 (e : Tm (.term 0)) : Tm (.term 1) := .chain (by decide) e .noOp
def up2 (e : Tm (.term 1)) : Tm (.term 5) :=
  .chain (by decide) (.chain (by decide) (.chain (by decide) (.chain (by decide) e .noOp) .noOp) .noOp) .noOp
def one (e : Tm (.term 0)) : Tm (.term 5) := up2 (up1 e)
def var (p : Nat) (x : String) : Tm (.term 0) := .post (.name (tk IDENT p x)) .noAtom

def exSum : Tm (.term 5) :=
  .chain (by decide) (.chain (by decide) (.chain (by decide) (.chain (by decide) (up1 (.int (tk INT 4 "1")))
    (.bin .add (tk 43 6 "") (.chain (by decide) (.int (tk INT 8 "2")) (.bin .mul (tk 42 10 "") (.int (tk INT 12 "3")) .noOp)) .noOp)) .noOp) .noOp) .noOp

def exIf : Tm (.term 5) := one (.if_ (tk 185 15 "if") (one (.not (tk 33 18 "") (.post (.name (tk IDENT 19 "f"))
    (.atom (.call (tk 40 20 "") (.args (one (var 21 "x")) .lastArg) none none (tk 41 22 "")) .noAtom))))
  (tk 123 24 "") (.someDoc (.doc (.return_ (tk 176 26 "return") (.expr (one (var 33 "x")))) .endDoc)) (tk 125 35 "") .noElif .noElse)

def exProg : Tm .doc := .doc (.assign (tk IDENT 0 "x") (tk 61 2 "") exSum) (.next (tk 59 13 ";") (.eval exIf) .endDoc)

example : exProg.Ok := by repeat' first | exact trivial | refine ⟨?_, ?_⟩

/-- The tree is what the text is read as. -/
example : ((⟨Scanner.zero, keywords, some kwTable⟩ : KwScanner).tokenize ascii (str "x = 1 + 2 * 3; if !f(x) { return x }") ⟨false, true⟩).1.1.map
    (fun t => (t.kind, t.pos)) = exProg.toks.map (fun t => (t.kind, t.pos)) ++ [(59, 36)] := by kernel_rfl

/-- `*` binds stronger than `+`; the condition and the body of `if` are set aside. -/
example : exProg.marks.map (fun m => (m.name, m.toks.map (·.pos), m.items)) =
    ([("pushi", [4], none), ("pushi", [8], none), ("pushi", [12], none), ("mul", [12], none), ("add", [8, 10, 12], none),
      ("assign", [0, 2, 4, 6, 8, 10, 12], none), ("clear", [13], none), ("_mute", [15], none), ("ref", [19], none), ("ref", [21], none),
      ("ARITY", [21], some 1), ("ARITY", [], some 0), ("call", [22], none), ("not", [19, 20, 21, 22], none), ("_code", [18, 19, 20, 21, 22], none),
      ("ref", [33], none), ("ARITY", [33], some 1), ("return", [33], none), ("_code", [26, 33], none), ("_ARITY", [], some 0),
      ("_ARITY", [], some 0), ("_unmute", [], none), ("if", [], none)].map fun (a, b, c) => (str a, b, c)) := by kernel_rfl

end Tpl.Props
