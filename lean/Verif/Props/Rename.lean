import Verif.Proof.Rename
import Verif.Props.Order

/-! Property C127: the names of the rules of a grammar text. -/
namespace Tpl.Props
open Tpl Tpl.Spec KwScanner Scanner
variable {A B σ V P : Type} {U : Uni} {k : KwScanner} {ρ : Str → Str}

/-- The text `a'` is `a` with other names for the rules: `ρ n` for `n`. -/
def Renamed (U : Uni) (k : KwScanner) (ρ : Str → Str) (a a' : Str) : Prop :=
  ∃ ts e ts' e' rs, Tokenizes U k a clMode ts e ∧ IsDoc ts rs ∧ Tokenizes U k a' clMode ts' e' ∧ IsDoc ts' (rs.map (Rule.rename ρ))

theorem start_ren (a a' : Str) : TabRen ρ (clStart B U k a) (clStart B U k a') := by
  rw [clStart_eq, clStart_eq]
  exact ⟨.nil, .nil, by unfold KwScanner.tokenize; rfl, by unfold KwScanner.tokenize; rfl⟩

theorem vars_ren {T T' : Tab B} (h : TabRen ρ T T') : (∀ v ∈ T.vars, v.2 ≠ none) ↔ ∀ v ∈ T'.vars, v.2 ≠ none := by
  have key := h.vars
  generalize T.vars = as at key
  generalize T'.vars = bs at key
  induction key with
  | nil => simp
  | cons h1 _ ih =>
    rw [List.forall_mem_cons, List.forall_mem_cons]
    refine and_congr ?_ ih
    rcases h1.2 with ⟨e1, e2⟩ | ⟨x, x', e1, e2, _⟩
    · rw [e1, e2]
    · rw [e1, e2]; simp

/-- What is known of the tables of the two texts. -/
theorem docs_ren {mk : Marker B} (hmk : Uniform mk) (hρ : Renames ρ) {rs : List Rule} {a a' : Str} :
    (∃ T root, denDoc mk rs (clStart B U k a) = .ok T ∧ T.grammars.lookup (bytes "doc") = some root ∧ ∀ v ∈ T.vars, v.2 ≠ none) ↔
      ∃ T' root', denDoc mk (rs.map (Rule.rename ρ)) (clStart B U k a') = .ok T' ∧ T'.grammars.lookup (bytes "doc") = some root' ∧ ∀ v ∈ T'.vars, v.2 ≠ none := by
  rcases doc_ren hmk hρ rs (start_ren (U := U) (k := k) (ρ := ρ) a a') with ⟨e, e', h1, h2⟩ | ⟨u, u', h1, h2, h3⟩
  · rw [h1, h2]
    constructor <;> rintro ⟨_, _, h, _⟩ <;> cases h
  · rw [h1, h2]
    have hl := lookup_ren hρ h3.gr (bytes "doc")
    rw [hρ.doc] at hl
    have hv := vars_ren h3
    constructor
    · rintro ⟨T, root, h, hr, hT⟩
      cases h
      rcases hl with ⟨e1, e2⟩ | ⟨g, g', e1, e2, _⟩
      · rw [e1] at hr; cases hr
      · exact ⟨u', g', rfl, e2, hv.mp hT⟩
    · rintro ⟨T, root, h, hr, hT⟩
      cases h
      rcases hl with ⟨e1, e2⟩ | ⟨g, g', e1, e2, _⟩
      · rw [e2] at hr; cases hr
      · exact ⟨u, g, rfl, e1, hv.mpr hT⟩

theorem toks_same (hk : Steps U KwScanner.zero k) {a : Str} {ts us : List Token} {e e1 : Token} {mode : Mode} (h : Tokenizes U k a mode ts e) (h' : Tokenizes U k a mode us e1) : ts = us := by
  have h1 := (tokenizes_ok hk h).1
  rw [(tokenizes_ok hk h').1] at h1
  injection h1 with h1
  exact h1.symm

/-- What compiles. -/
theorem compiles_doc {c : Compiler B} (hk : Steps U KwScanner.zero k) {ts : List Token} {e : Token} {rs : List Rule} (ht : Tokenizes U k c.grammar clMode ts e) (hd : IsDoc ts rs)
    (ret : CompileRet B) : (∃ f, c.cl U f k = some (.ok ret)) ↔
      ∃ T root, denDoc c.marker rs (clStart B U k c.grammar) = .ok T ∧ T.grammars.lookup (bytes "doc") = some root ∧ (∀ v ∈ T.vars, v.2 ≠ none) ∧ ret = ⟨root, T, c.mode⟩ := by
  rw [C40_compiles _ hk ret]
  constructor
  · rintro ⟨ts1, e1, rs1, T, root, h1, h2, h3, h4, h5, h6⟩
    obtain rfl := toks_same hk h1 ht
    obtain rfl := C40_unambiguous hd h2
    exact ⟨T, root, h3, h4, h5, h6⟩
  · rintro ⟨T, root, h3, h4, h5, h6⟩
    exact ⟨ts, e, rs, T, root, ht, hd, h3, h4, h5, h6⟩

/-- C127: a grammar text compiles exactly if it does with other names for its rules. -/
theorem C127_compiles {mk : Marker B} (hmk : Uniform mk) (hρ : Renames ρ) (mode : Mode) (hk : Steps U KwScanner.zero k) {a a' : Str} (hr : Renamed U k ρ a a') :
    (∃ f ret, Compiler.cl ⟨a, mk, mode⟩ U f k = some (.ok ret)) ↔ ∃ f ret, Compiler.cl ⟨a', mk, mode⟩ U f k = some (.ok ret) := by
  obtain ⟨ts, e, ts', e', rs, h1, h2, h3, h4⟩ := hr
  have e1 := fun ret => compiles_doc (c := ⟨a, mk, mode⟩) hk h1 h2 ret
  have e2 := fun ret => compiles_doc (c := ⟨a', mk, mode⟩) hk h3 h4 ret
  have e3 := docs_ren (U := U) (k := k) (rs := rs) (a := a) (a' := a') hmk hρ
  constructor
  · rintro ⟨f, ret, h⟩
    obtain ⟨T, root, h5, h6, h7, _⟩ := (e1 ret).mp ⟨f, h⟩
    obtain ⟨T', root', h8, h9, h10⟩ := e3.mp ⟨T, root, h5, h6, h7⟩
    obtain ⟨f', h'⟩ := (e2 ⟨root', T', mode⟩).mpr ⟨T', root', h8, h9, h10, rfl⟩
    exact ⟨f', _, h'⟩
  · rintro ⟨f, ret, h⟩
    obtain ⟨T, root, h5, h6, h7, _⟩ := (e2 ret).mp ⟨f, h⟩
    obtain ⟨T', root', h8, h9, h10⟩ := e3.mpr ⟨T, root, h5, h6, h7⟩
    obtain ⟨f', h'⟩ := (e1 ⟨root', T', mode⟩).mpr ⟨T', root', h8, h9, h10, rfl⟩
    exact ⟨f', _, h'⟩

theorem cl_renamed {mk : Marker B} (hmk : Uniform mk) (hρ : Renames ρ) {mode : Mode} (hk : Steps U KwScanner.zero k) (hb : k.sc.bad = false) {a a' : Str} (hr : Renamed U k ρ a a')
    {f f' : Nat} {ret ret' : CompileRet B} (h : Compiler.cl ⟨a, mk, mode⟩ U f k = some (.ok ret)) (h' : Compiler.cl ⟨a', mk, mode⟩ U f' k = some (.ok ret')) :
    TabRen ρ ret.tab ret'.tab ∧ Both Eq SameVar ret ret' := by
  have hsc := cl_scanner _ hk hb h
  have hsc' := cl_scanner _ hk hb h'
  obtain ⟨ts, e, ts', e', rs, h1, h2, h3, h4⟩ := hr
  obtain ⟨T, root, h5, h6, h7, rfl⟩ := (compiles_doc (c := ⟨a, mk, mode⟩) hk h1 h2 ret).mp ⟨f, h⟩
  obtain ⟨T', root', h8, h9, h10, rfl⟩ := (compiles_doc (c := ⟨a', mk, mode⟩) hk h3 h4 ret').mp ⟨f', h'⟩
  rcases doc_ren hmk hρ rs (start_ren (U := U) (k := k) (ρ := ρ) a a') with ⟨e, e', g1, g2⟩ | ⟨u, u', g1, g2, hT⟩
  · change denDoc mk rs (clStart B U k a) = _ at h5
    rw [g1] at h5; cases h5
  change denDoc mk rs (clStart B U k a) = _ at h5
  change denDoc mk (rs.map (Rule.rename ρ)) (clStart B U k a') = _ at h8
  rw [g1] at h5
  rw [g2] at h8
  cases h5
  cases h8
  refine ⟨hT, hT.linked, ?_, ⟨fun _ _ => rfl, fun _ _ h => by rw [h]⟩, hsc.1, hsc'.1, fun w => ?_⟩
  · have hl := lookup_ren hρ hT.gr (bytes "doc")
    rw [hρ.doc] at hl
    rcases hl with ⟨e1, e2⟩ | ⟨g, g', e1, e2, hg⟩
    · rw [e1] at h6; cases h6
    · rw [e1] at h6; rw [e2] at h9; cases h6; cases h9; exact hg
  · have hw : T'.scanner.keywords = T.scanner.keywords := hT.keywords
    show (T.scanner.keywords.get w = none ∧ T'.scanner.keywords.get w = none) ∨ ∃ x y, T.scanner.keywords.get w = some x ∧ T'.scanner.keywords.get w = some y ∧ x = y
    rw [hw]
    cases T.scanner.keywords.get w with
    | none => exact .inl ⟨rfl, rfl⟩
    | some x => exact .inr ⟨x, x, rfl, rfl, rfl⟩

/-- C127: the keywords of both have the same kinds, and the rules are there under the new names. -/
theorem C127_rules {mk : Marker B} (hmk : Uniform mk) (hρ : Renames ρ) {mode : Mode} (hk : Steps U KwScanner.zero k) (hb : k.sc.bad = false) {a a' : Str} (hr : Renamed U k ρ a a')
    {f f' : Nat} {ret ret' : CompileRet B} (h : Compiler.cl ⟨a, mk, mode⟩ U f k = some (.ok ret)) (h' : Compiler.cl ⟨a', mk, mode⟩ U f' k = some (.ok ret')) :
    ret'.tab.scanner.keywords = ret.tab.scanner.keywords ∧ ret'.tab.scanner.tokens = ret.tab.scanner.tokens ∧
      ret'.tab.grammars.map (·.1) = ret.tab.grammars.map (fun p => ρ p.1) ∧ ret'.tab.vars.map (·.1) = ret.tab.vars.map (fun p => ρ p.1) := by
  obtain ⟨hT, _⟩ := cl_renamed hmk hρ hk hb hr h h'
  have names : ∀ {α : Type} {Q : Str × α → Str × α → Prop} (hQ : ∀ p q, Q p q → q.1 = ρ p.1) {as bs : List (Str × α)}, All2 Q as bs → bs.map (·.1) = as.map (fun p => ρ p.1) := by
    intro α Q hQ as bs h
    induction h with
    | nil => rfl
    | cons h1 _ ih => rw [List.map_cons, List.map_cons, ih, hQ _ _ h1]
  exact ⟨hT.keywords, hT.tokens, names (fun _ _ h => h.1) hT.gr, names (fun _ _ h => h.1) hT.vars⟩

theorem toks_refl : ∀ ts : List Token, SameToks Eq Eq ts ts
  | [] => .nil
  | ⟨_, _, _⟩ :: ts => .cons rfl rfl (toks_refl ts)

/-- C127: what a grammar text matches, how many items and tokens, and which marked functions it calls for which
tokens, does not depend on the names of its rules. -/
theorem C127_traces {mk : Marker B} (hmk : Uniform mk) (hρ : Renames ρ) {mode : Mode} (hk : Steps U KwScanner.zero k) (hb : k.sc.bad = false) {a a' : Str} (hr : Renamed U k ρ a a')
    {f f' : Nat} {ret ret' : CompileRet B} (h : Compiler.cl ⟨a, mk, mode⟩ U f k = some (.ok ret)) (h' : Compiler.cl ⟨a', mk, mode⟩ U f' k = some (.ok ret'))
    {src : List Token} {o : Out} {e : List (Ev B)} (ht : Tr ret.env (.one ret.root) src o e) :
    ∃ e', Tr ret'.env (.one ret'.root) src o e' ∧ SameEvs Eq e e' := by
  obtain ⟨_, hB⟩ := cl_renamed hmk hρ hk hb hr h h'
  exact transfer hB.linked ht (.one ret'.root) src hB.root (toks_refl src)

/-- C127 for texts: `MatchExactly` ends the same way, and the marked functions leave the same state behind. -/
theorem C127_text {mk : Marker B} (hmk : Uniform mk) (hρ : Renames ρ) {mode : Mode} (hk : Steps U KwScanner.zero k) (hb : k.sc.bad = false) {a a' : Str} (hr : Renamed U k ρ a a')
    {f f' : Nat} {ret ret' : CompileRet B} (h : Compiler.cl ⟨a, mk, mode⟩ U f k = some (.ok ret)) (h' : Compiler.cl ⟨a', mk, mode⟩ U f' k = some (.ok ret'))
    {c : Calls B σ V P} (hc : TextOnly c) (init : St σ → Cb B σ P Unit) (src : Str) (s : St σ) {fuel : Nat} {r : MRes B σ P Unit}
    (hm : ((⟨ret.root, mode, init, ret.env, c.sem⟩ : Matcher B σ V P).matchExactly U fuel ret.tab.scanner src s).1 = some r) :
    ∃ fuel' r', ((⟨ret'.root, mode, init, ret'.env, c.sem⟩ : Matcher B σ V P).matchExactly U fuel' ret'.tab.scanner src s).1 = some r' ∧ verdict r = verdict r' :=
  text_alike (cl_renamed hmk hρ hk hb hr h h').2.carried hc init src s hm

/-! ### Examples -/

/-- Two names change places. -/
def swapNames (x y n : Str) : Str := if n = x then y else if n = y then x else n

theorem renames_swap {x y : Str} (hx : isUpper x = false) (hy : isUpper y = false) (tx : x ≠ bytes "true") (ty : y ≠ bytes "true")
    (dx : x ≠ bytes "doc") (dy : y ≠ bytes "doc") (nx : x ≠ []) (ny : y ≠ []) : Renames (swapNames x y) where
  inj m n h := by unfold swapNames at h; split at h <;> split at h <;> (try split at h) <;> (try split at h) <;> simp_all
  upper n h := by
    unfold swapNames
    rw [if_neg (by rintro rfl; rw [hx] at h; cases h), if_neg (by rintro rfl; rw [hy] at h; cases h)]
  lower n h := by unfold swapNames; split; · exact hy
                  split; · exact hx
                  exact h
  tru := by unfold swapNames; rw [if_neg (Ne.symm tx), if_neg (Ne.symm ty)]
  doc := by unfold swapNames; rw [if_neg (Ne.symm dx), if_neg (Ne.symm dy)]
  nil := by unfold swapNames; rw [if_neg (Ne.symm nx), if_neg (Ne.symm ny)]

theorem numItem : Renames (swapNames (bytes "num") (bytes "item")) :=
  renames_swap (by decide) (by decide) (by decide) (by decide) (by decide) (by decide) (by decide) (by decide)

def itemToks : List Token := [⟨IDENT, 0, bytes "doc"⟩, ⟨ASSIGN, 4, []⟩, ⟨IDENT, 6, bytes "item"⟩, ⟨REM, 11, []⟩, ⟨CHAR, 13, bytes "','"⟩, ⟨SEMICOLON, 16, [59]⟩,
  ⟨IDENT, 18, bytes "item"⟩, ⟨ASSIGN, 23, []⟩, ⟨IDENT, 25, bytes "INT"⟩, ⟨OR, 29, []⟩, ⟨STRING, 31, bytes "\"nil\""⟩, ⟨SEMICOLON, 36, [59]⟩]

/-- `num` is called `item`. -/
example : Renamed ascii KwScanner.zero (swapNames (bytes "num") (bytes "item")) (bytes "doc = num % ','; num = INT | \"nil\";") (bytes "doc = item % ','; item = INT | \"nil\";") := by
  obtain ⟨⟨e, h1⟩, h2⟩ := docFirst
  have h3 : ∃ e, Tokenizes ascii KwScanner.zero (bytes "doc = item % ','; item = INT | \"nil\";") clMode itemToks e := (tokenizes_iff (.refl _)).mp (by decide +kernel)
  obtain ⟨e', h3⟩ := h3
  exact ⟨_, e, _, e', _, h1, h2, h3, by simp, by decide +kernel⟩

example : ClRes.isOk (compiled "doc = num % ','; num = INT | \"nil\";") = true ∧ ClRes.isOk (compiled "doc = item % ','; item = INT | \"nil\";") = true := by decide +kernel

example : let a := compiled "doc = item % ','; item = INT | \"nil\";"
    acceptsWith (scannerOf a) a "1, nil" = true ∧ acceptsWith (scannerOf a) a "1, x" = false := by decide +kernel

/-- Why `true` has to stay: under another name the reference is one to a rule that is not there. -/
example : ClRes.isOk (compiled "doc = true;") = true ∧ ClRes.isOk (compiled "doc = yes;") = false := by decide +kernel

/-- Why new names do not begin with capital letters: they are tokens. -/
example : let a := compiled "int = STRING; doc = int;"
    let a' := compiled "INT = STRING; doc = INT;"
    acceptsWith (scannerOf a) a "1" = false ∧ acceptsWith (scannerOf a') a' "1" = true := by decide +kernel

end Tpl.Props
