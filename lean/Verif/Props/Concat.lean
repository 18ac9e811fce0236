import Verif.Props.Compiler
import Verif.Props.Lexer
import Verif.Props.Literal
import Verif.Proof.Concat

/-! C122: texts can be put together.

`moveTok n t` is the token `t`, `n` bytes further on. -/
namespace Tpl.Props
open Tpl Tpl.Spec Scanner KwScanner
variable {U : Uni}

/-- The text without a byte order mark at its start. -/
theorem bom_append (a b : Str) : bomLen (a ++ 10 :: b) = bomLen a := by
  unfold bomLen
  have e : ([0xEF, 0xBB, 0xBF] : Str).isPrefixOf (a ++ 10 :: b) = ([0xEF, 0xBB, 0xBF] : Str).isPrefixOf a := by
    match a with
    | [] => rfl
    | [x] => simp [List.isPrefixOf]
    | [x, y] => simp [List.isPrefixOf]
    | x :: y :: z :: a => simp [List.isPrefixOf]
  rw [e]

theorem bom_le (a : Str) : bomLen a ≤ a.length := by
  unfold bomLen
  split
  · rename_i h
    exact (List.isPrefixOf_iff_prefix.mp h).length_le
  · omega

theorem lexes_files {mode : Mode} {a b : Str} {ts us : List Token} (ha : Clean (a.drop (bomLen a)))
    (h : Lexes U true mode (bomLen a) (a.drop (bomLen a)) false ts) (hb : bomLen b = 0) (hcb : Clean b) (h' : Lexes U true mode 0 b false us) :
    Clean ((a ++ 10 :: b).drop (bomLen (a ++ 10 :: b))) ∧
      Lexes U true mode (bomLen (a ++ 10 :: b)) ((a ++ 10 :: b).drop (bomLen (a ++ 10 :: b))) false (ts.dropLast ++ us.map (moveTok (a.length + 1))) := by
  have hl := bom_le a
  rw [bom_append, List.drop_append_of_le_length hl]
  refine ⟨clean_append ha (clean_cons (by decide) (by decide) hcb), lexes_concat h ha ?_⟩
  have := lexes_move (a.length + 1) h'
  have e : bomLen a + (a.drop (bomLen a)).length + 1 = a.length + 1 + 0 := by rw [List.length_drop]; omega
  rw [e]
  exact this

/-- C122: the tokens of two texts with a newline between them are those of the first text and those of the
second, in any mode: comments may be tokens, and semicolons be inserted (the newline counts as the
end of the first text). -/
theorem C122_tokens (kw : Str → Option Nat) (hkw : ∀ w k, kw w = some k → k ≠ EOF) (s : Scanner) {s0 s0' s1 s1' : Scanner} {mode : Mode}
    {a b : Str} {ts us : List Token} (ha : tokenize U kw s0 a mode = (ts, none, s0')) (hb : tokenize U kw s1 b mode = (us, none, s1'))
    (hbom : bomLen b = 0) :
    ∃ s', tokenize U kw s (a ++ 10 :: b) mode = (ts ++ us.map (moveTok (a.length + 1)), none, s') := by
  obtain ⟨c1, ts, e1, l1, rfl⟩ := (C78_tokenize U kw hkw s0 a mode ts).mp ⟨_, ha⟩
  obtain ⟨c2, us, e2, l2, rfl⟩ := (C78_tokenize U kw hkw s1 b mode us).mp ⟨_, hb⟩
  rw [hbom, List.drop_zero] at c2 l2
  obtain ⟨c3, l3⟩ := lexes_files c1 l1 hbom c2 l2
  refine (C78_tokenize U kw hkw s _ mode _).mpr ⟨c3, ts ++ us.map (moveTok (a.length + 1)), moveTok (a.length + 1) e2, ?_, ?_⟩
  · simpa using l3
  · have e : ∀ t : Token, moveTok (a.length + 1) (kwTok kw t) = kwTok kw (moveTok (a.length + 1) t) := by
      intro t
      unfold kwTok moveTok
      dsimp only
      split
      · cases kw t.lit <;> rfl
      · rfl
    simp [e]

/-- C122 for the texts a matcher reads, with its keywords. -/
theorem C122_texts {k : KwScanner} (hk : Steps U KwScanner.zero k) {mode : Mode} {a b : Str} {ts us : List Token} {e e' : Token}
    (ha : Tokenizes U k a mode ts e) (hb : Tokenizes U k b mode us e') (hbom : bomLen b = 0) :
    ∃ e'', Tokenizes U k (a ++ 10 :: b) mode (ts ++ us.map (moveTok (a.length + 1))) e'' := by
  have h1 := (tokenizes_ok hk ha).1
  have h2 := (tokenizes_ok hk hb).1
  have key : ∀ {src ts}, (k.tokenize U src mode).1 = (ts, none) ↔ ∃ s', tokenize U k.keywords.get k.sc src mode = (ts, none, s') := by
    intro src ts
    rw [(tokenize_kw U k src mode).1]
    constructor
    · intro h
      injection h with e1 e2
      exact ⟨_, Prod.ext e1 (Prod.ext e2 rfl)⟩
    · rintro ⟨s', h⟩
      rw [h]
  obtain ⟨s1, h1⟩ := key.mp h1
  obtain ⟨s2, h2⟩ := key.mp h2
  exact (tokenizes_iff hk).mp (key.mpr (C122_tokens k.keywords.get (kw_ne_eof hk) k.sc h1 h2 hbom))

/-- C122 for grammar texts: the rules of two texts with a newline between them are the rules of the first
and those of the second. -/
theorem C122_grammar {k : KwScanner} (hk : Steps U KwScanner.zero k) {a b : Str} {ts us : List Token} {e e' : Token} {rs rs' : List Rule}
    (ha : Tokenizes U k a clMode ts e) (hb : Tokenizes U k b clMode us e') (hbom : bomLen b = 0) (hd : IsDoc ts rs) (hd' : IsDoc us rs') :
    ∃ vs e'', Tokenizes U k (a ++ 10 :: b) clMode vs e'' ∧ IsDoc vs (rs ++ rs') := by
  obtain ⟨e'', h⟩ := C122_texts hk ha hb hbom
  refine ⟨_, e'', h, by simp [hd.1], ?_⟩
  have e : (key ∘ moveTok (a.length + 1)) = key := rfl
  rw [List.map_append, List.map_map, e, hd.2, hd'.2]
  simp [flatDoc]

theorem denDoc_split {B : Type} (mk : Marker B) : ∀ (rs rs' : List Rule) (t : Tab B),
    denDoc mk (rs ++ rs') t = (denDoc mk rs t).bind (denDoc mk rs')
  | [], _, _ => rfl
  | r :: rs, rs', t => by
    rw [List.cons_append, denDoc, denDoc]
    cases r.den mk t with
    | error e => rfl
    | ok t => exact denDoc_split mk rs rs' t

/-- C122: `Cl` of two grammar texts with a newline between them gives the meaning of the rules of the first
text followed by those of the second; what the first text has defined is defined in the second. -/
theorem C122_compiles {B : Type} (mk : Marker B) (mode : Mode) {k : KwScanner} (hk : Steps U KwScanner.zero k) {a b : Str} {ts us : List Token} {e e' : Token}
    {rs rs' : List Rule} (ha : Tokenizes U k a clMode ts e) (hb : Tokenizes U k b clMode us e') (hbom : bomLen b = 0) (hd : IsDoc ts rs) (hd' : IsDoc us rs')
    (ret : CompileRet B) :
    (∃ fuel, Compiler.cl ⟨a ++ 10 :: b, mk, mode⟩ U fuel k = some (.ok ret)) ↔
      ∃ T T' root, denDoc mk rs ⟨[], [], 0, (k.tokenize U (a ++ 10 :: b) clMode).2⟩ = .ok T ∧ denDoc mk rs' T = .ok T' ∧
        T'.grammars.lookup (bytes "doc") = some root ∧ (∀ v ∈ T'.vars, v.2 ≠ none) ∧ ret = ⟨root, T', mode⟩ := by
  obtain ⟨vs, e'', hv, hr⟩ := C122_grammar hk ha hb hbom hd hd'
  rw [C40_compiles ⟨a ++ 10 :: b, mk, mode⟩ hk ret]
  constructor
  · rintro ⟨vs', f, rs'', T', root, h1, h2, h3, h4, h5, h6⟩
    have ev : vs' = vs := by
      have e1 := (tokenizes_ok hk h1).1
      rw [(tokenizes_ok hk hv).1] at e1
      injection e1 with e1 _
      exact e1.symm
    subst ev
    obtain rfl := isDoc_unique h2 hr
    rw [denDoc_split] at h3
    cases ho : denDoc mk rs ⟨[], [], 0, (k.tokenize U (a ++ 10 :: b) clMode).2⟩ with
    | error p => rw [ho] at h3; cases h3
    | ok T => rw [ho] at h3; exact ⟨T, T', root, rfl, h3, h4, h5, h6⟩
  · rintro ⟨T, T', root, h1, h2, h3, h4, h5⟩
    refine ⟨vs, e'', _, T', root, hv, hr, ?_, h3, h4, h5⟩
    rw [denDoc_split, h1]
    exact h2

/-! Non-vacuity: `x = /* one */ 1 # end` and `y`, with inserted semicolons and comments as tokens. -/

def kindsAt (src : Str) (mode : Mode) : List (Nat × Nat) × Bool :=
  let r := tokenize ascii noKw Scanner.zero src mode
  (r.1.map fun t => (t.kind, t.pos), r.2.1.isNone)

example : kindsAt (bytes "x = /* one */ 1 # end") ⟨true, true⟩ = ([(IDENT, 0), (ASSIGN, 2), (COMMENT, 4), (INT, 14), (SEMICOLON, 16), (COMMENT, 16)], true) ∧
    kindsAt (bytes "y") ⟨true, true⟩ = ([(IDENT, 0), (SEMICOLON, 1)], true) ∧
    kindsAt (bytes "x = /* one */ 1 # end\ny") ⟨true, true⟩ =
      ([(IDENT, 0), (ASSIGN, 2), (COMMENT, 4), (INT, 14), (SEMICOLON, 16), (COMMENT, 16), (IDENT, 22), (SEMICOLON, 23)], true) := by decide +kernel

/-- The newline is needed: `1 +` and `+ 2` are read as `1 ++ 2`; and a byte order mark must not be in the
middle of a text. -/
example : kindsAt (bytes "1 +" ++ bytes "+ 2") ⟨false, false⟩ = ([(INT, 0), (INC, 2), (INT, 5)], true) ∧
    (kindsAt ([0xEF, 0xBB, 0xBF] ++ bytes "y") ⟨false, false⟩).2 = true ∧
    (kindsAt (bytes "x\n" ++ ([0xEF, 0xBB, 0xBF] ++ bytes "y")) ⟨false, false⟩).2 = false := by decide +kernel

/-- Two grammar texts: the second uses a rule of the first. -/
example : (∃ e, Tokenizes ascii KwScanner.zero (bytes "num = INT;") clMode [⟨IDENT, 0, bytes "num"⟩, ⟨ASSIGN, 4, []⟩, ⟨IDENT, 6, bytes "INT"⟩, ⟨SEMICOLON, 9, [59]⟩] e) ∧
    (∃ e, Tokenizes ascii KwScanner.zero (bytes "doc = num;") clMode [⟨IDENT, 0, bytes "doc"⟩, ⟨ASSIGN, 4, []⟩, ⟨IDENT, 6, bytes "num"⟩, ⟨SEMICOLON, 9, [59]⟩] e) :=
  ⟨(tokenizes_iff (.refl _)).mp (by decide +kernel), (tokenizes_iff (.refl _)).mp (by decide +kernel)⟩

example : IsDoc [⟨IDENT, 0, bytes "num"⟩, ⟨ASSIGN, 4, []⟩, ⟨IDENT, 6, bytes "INT"⟩, ⟨SEMICOLON, 9, [59]⟩] [⟨bytes "num", .one (.term (.ident (bytes "INT")) .nil) .nil⟩] :=
  ⟨by simp, by decide +kernel⟩

end Tpl.Props
