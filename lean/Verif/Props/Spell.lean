import Verif.Proof.SpellText
import Verif.Props.Group

/-! Property C131: operators may be written out. -/
namespace Tpl.Props
open Tpl Tpl.Spec KwScanner Scanner
variable {A B σ V P : Type} {U : Uni} {k : KwScanner}

/-- The two grammar texts differ only in operators that are written out: `A % B` is `(A *(B A))`, `A %= B` is
`?(A % B)`, `+A` is `(A *A)`, `*A` is `?+A`, `?A` is `(A | 1)`, `~(A | B)` is `(~A ~B)`, where no mark follows and in lists
and `+A` `A` is not just a `!`, and `@A` is `~~A`. Where `A` has no marks and no references to rules, `A (B | C)` is
`A B | A C`, and `A ?B` is `A B | A`. They may differ in parentheses, too. -/
def Respelt (U : Uni) (k : KwScanner) (a a' : Str) : Prop :=
  ∃ ts e ts' e' rs rs', Tokenizes U k a clMode ts e ∧ IsDoc ts rs ∧ Tokenizes U k a' clMode ts' e' ∧ IsDoc ts' rs' ∧ Respell rs rs'

theorem respell_even {mk : Marker B} (hmk : Uniform mk) {rs rs' : List Rule} (h : Respell rs rs') {t t' : Tab B} (ht : TabG t t') (ht' : TabG t' t') :
    ExL TabEven (denDoc mk rs t) (denDoc mk rs' t') := by
  induction h with
  | refl => exact (doc_twice hmk _ ht).mono fun _ _ h => h.even
  | spelt _ hl ih => exact exL_trans ih ((doc_spelt hmk hl ht').mono fun _ _ h => h.even)
  | unspelt _ hl ih => exact exL_trans ih (exL_symm ((doc_spelt hmk hl ht').mono fun _ _ h => h.even))
  | removed _ hl ih => exact exL_trans ih ((doc_gp hmk hl ht').mono fun _ _ h => h.even)
  | added _ hl ih => exact exL_trans ih (exL_symm ((doc_gp hmk hl ht').mono fun _ _ h => h.even))

theorem respelt_evened {mk : Marker B} (hmk : Uniform mk) {a a' : Str} (h : Respelt U k a a') : Evened mk U k a a' := by
  obtain ⟨ts, e, ts', e', rs, rs', h1, h2, h3, h4, h5⟩ := h
  exact ⟨ts, e, ts', e', rs, rs', h1, h2, h3, h4, respell_even hmk h5 (start_even a a') (start_even a' a')⟩

/-- C131 for tokens: what is matched, how many tokens, and which marked functions are called for which tokens and
numbers of items is the same, whether the operators are written out or not. -/
theorem C131_traces_partial {mk : Marker B} (hmk : Uniform mk) {mode : Mode} (hk : Steps U KwScanner.zero k) {a a' : Str} (hr : Respelt U k a a')
    {f f' : Nat} {ret ret' : CompileRet B} (h : Compiler.cl ⟨a, mk, mode⟩ U f k = some (.ok ret)) (h' : Compiler.cl ⟨a', mk, mode⟩ U f' k = some (.ok ret')) :
    Follows ret.env ret'.env Eq ret.root ret'.root ∧ Follows ret'.env ret.env Eq ret'.root ret.root :=
  have h := (ok_evened hk (respelt_evened hmk hr) h h').2
  ⟨h.1, h.2.1⟩

/-- C131 for texts: `MatchExactly` ends the same way, and the marked functions leave the same state behind. -/
theorem C131_text_partial {mk : Marker B} (hmk : Uniform mk) {mode : Mode} (hk : Steps U KwScanner.zero k) (hb : k.sc.bad = false) {a a' : Str} (hr : Respelt U k a a')
    {f f' : Nat} {ret ret' : CompileRet B} (h : Compiler.cl ⟨a, mk, mode⟩ U f k = some (.ok ret)) (h' : Compiler.cl ⟨a', mk, mode⟩ U f' k = some (.ok ret'))
    {c : Calls B σ V P} (hc : TextOnly c) (init : St σ → Cb B σ P Unit) (src : Str) (s : St σ) (v : Verdict × σ) :
    (∃ fuel r, ((⟨ret.root, mode, init, ret.env, c.sem⟩ : Matcher B σ V P).matchExactly U fuel ret.tab.scanner src s).1 = some r ∧ verdict r = v) ↔
    ∃ fuel r, ((⟨ret'.root, mode, init, ret'.env, c.sem⟩ : Matcher B σ V P).matchExactly U fuel ret'.tab.scanner src s).1 = some r ∧ verdict r = v :=
  text_evened hk hb (respelt_evened hmk hr) h h' hc init src s v

/-- C131: with the operators written out or not, the text compiles, or there is the same error, or the same panic. -/
theorem C131_compiles_partial {mk : Marker B} (hmk : Uniform mk) {mode : Mode} (hk : Steps U KwScanner.zero k) {a a' : Str} (hr : Respelt U k a a') :
    ((∃ f ret, Compiler.cl ⟨a, mk, mode⟩ U f k = some (.ok ret)) ↔ ∃ f ret, Compiler.cl ⟨a', mk, mode⟩ U f k = some (.ok ret)) ∧
    (∀ e, (∃ f, Compiler.cl ⟨a, mk, mode⟩ U f k = some (.err e)) ↔ ∃ f, Compiler.cl ⟨a', mk, mode⟩ U f k = some (.err e)) ∧
    ∀ p, (∃ f, Compiler.cl ⟨a, mk, mode⟩ U f k = some (.panic p)) ↔ ∃ f, Compiler.cl ⟨a', mk, mode⟩ U f k = some (.panic p) :=
  compiles_evened hk (respelt_evened hmk hr)

/-- Two grammars that are the same but for the numbers of items of their matches. -/
def SameButItems (env : Env B) (g g' : Gr B) : Prop :=
  (∀ src o e, Tr env (.one g) src o e → ∃ o', Tr env (.one g') src o' e ∧ ∀ l, o.withLen l = o'.withLen l) ∧
  ∀ src o e, Tr env (.one g') src o e → ∃ o', Tr env (.one g) src o' e ∧ ∀ l, o.withLen l = o'.withLen l

/-- C131 for combinators: a lookahead is a negation of a negation. -/
theorem C131_peek (env : Env B) (g : Gr B) (src : List Token) (o : Out) (e : List (Ev B)) :
    Tr env (.one (.peek g)) src o e ↔ Tr env (.one (.not (.not g))) src o e := by
  constructor
  · intro h
    cases h with
    | peek h => exact .not (.notNot h)
    | peekNot h => exact .notNot (.not h)
    | peekAbort h => exact .notAbort (.notAbort h)
  · intro h
    obtain ⟨o1, h1, rfl⟩ := not_split h
    obtain ⟨o2, h2, rfl⟩ := not_split h1
    cases o2 with
    | succ => exact .peek h2
    | fail => exact .peekNot h2
    | abort => exact .peekAbort h2

/-- C131 for combinators: none of the alternatives matches. -/
theorem C131_not_or_partial (env : Env B) (gs : List (Gr B)) : SameButItems env (.not (.or gs)) (.and (gs.map .not)) := by
  constructor
  · intro src o e h
    obtain ⟨o1, h1, rfl⟩ := not_split h
    obtain ⟨o0, h3, h4⟩ := gp_or h1
    obtain ⟨o', t, ho⟩ := nots_of h3
    exact ⟨_, .and t, fun l => by rw [withLen_withLen, ← ho, neg_near h4]⟩
  · intro src o e h
    obtain ⟨o0, h3, h4⟩ := gp_and h
    obtain ⟨o', t, ho⟩ := alt_of h3
    exact ⟨_, not_make (.or t), fun l => by rw [neg_withLen, ← h4, ho]⟩

/-- C131 for combinators: an option is a choice whose second alternative is empty. -/
theorem C131_option_partial (env : Env B) (i : Nat) (g : Gr B) : SameButItems env (.rep01 i g) (.or [g, .tru]) := by
  constructor
  · intro src o e h
    cases h with
    | opt h => exact ⟨_, .or (.altHit h), fun _ => rfl⟩
    | optNone h =>
      have t := Tr.or (.altNext h (.altHit (gs := []) .tru))
      rw [List.append_nil] at t
      exact ⟨_, t, fun _ => rfl⟩
    | optAbort h => exact ⟨_, .or (.altAbort h), fun _ => rfl⟩
  · intro src o e h
    obtain ⟨o0, h3, h4⟩ := gp_or h
    obtain ⟨o', t, ho⟩ := optional_of h3
    exact ⟨_, t, fun l => by rw [← h4, ho]⟩

/-- C131 for combinators: any number of repetitions is at least one, or none. -/
theorem C131_star_partial (env : Env B) (i i' i'' : Nat) (g : Gr B) : SameButItems env (.rep0 i g) (.rep01 i' (.rep1 i'' g)) := by
  constructor
  · intro src o e h
    cases h with
    | rep0 h => exact star_of h
  · intro src o e h
    cases h with
    | opt h =>
      rcases many_of h with ⟨_, h, _⟩ | ⟨_, t⟩
      · cases h
      · exact ⟨_, .rep0 t, fun _ => rfl⟩
    | optNone h =>
      rcases many_of h with ⟨_, _, t⟩ | ⟨h, _⟩
      · exact ⟨_, .rep0 t, fun _ => rfl⟩
      · exact absurd rfl (h _)
    | optAbort h =>
      rcases many_of h with ⟨_, h, _⟩ | ⟨_, t⟩
      · cases h
      · exact ⟨_, .rep0 t, fun _ => rfl⟩

/-- C131 for combinators: a common beginning may be factored out if it calls nothing and matches in one way only. -/
theorem C131_factor_partial {a b c : Gr B} (h : ∀ (env : Env B) src o o' e e', Tr env (.one a) src o e → Tr env (.one a) src o' e' → o = o' ∧ e = [])
    (ha : a ≠ .nil) (hb : b ≠ .nil) (hc : c ≠ .nil) (env : Env B) : SameButItems env (.and [a, .or [b, c]]) (.or [.and [a, b], .and [a, c]]) := by
  have hs : Clone a a := ⟨h, h, fun _ _ _ => Iff.rfl⟩
  constructor
  · intro src o e t
    obtain ⟨o0, t0, h0⟩ := gp_and t
    obtain ⟨o', t', ho⟩ := each_of hs ha ha hb hc t0
    exact ⟨_, .or t', fun l => by rw [withLen_withLen, ← ho, h0]⟩
  · intro src o e t
    obtain ⟨o0, t0, h0⟩ := gp_or t
    obtain ⟨o', t', ho⟩ := each_to hs ha ha hb hc t0
    exact ⟨_, t', fun l => by rw [← ho, h0]⟩

/-- C131 for combinators: the same where one of the alternatives is nothing but the beginning. -/
theorem C131_tail_partial {a b : Gr B} (h : ∀ (env : Env B) src o o' e e', Tr env (.one a) src o e → Tr env (.one a) src o' e' → o = o' ∧ e = [])
    (ha : a ≠ .nil) (hb : b ≠ .nil) (env : Env B) (i : Nat) : SameButItems env (.and [a, .rep01 i b]) (.or [.and [a, b], a]) := by
  have hs : Clone a a := ⟨h, h, fun _ _ _ => Iff.rfl⟩
  constructor
  · intro src o e t
    obtain ⟨o0, t0, h0⟩ := gp_and t
    obtain ⟨o', t', ho⟩ := orNot_of hs ha hb t0
    exact ⟨_, .or t', fun l => by rw [withLen_withLen, ← ho, h0]⟩
  · intro src o e t
    obtain ⟨o0, t0, h0⟩ := gp_or t
    obtain ⟨o', t', ho⟩ := orNot_to hs ha hb t0
    exact ⟨_, t', fun l => by rw [← ho, h0]⟩

-- A list of numbers is such a beginning.
example : ∀ (env : Env B) src o o' e e', Tr env (.one (.list 0 (.tok INT) (.tok 44) false)) src o e → Tr env (.one (.list 0 (.tok INT) (.tok 44) false)) src o' e' → o = o' ∧ e = [] :=
  Unmarked.sure (.list (i' := 0) .tok .tok)

/-! ### Where it does matter -/

/-- C131 is violated for a common beginning with a mark: its function is called for every alternative that is tried. -/
theorem C131_violated_factor :
    (counted "doc = (INT/f) (',' | ';');" "1;" = some (.accepted, [-1]) ∧ counted "doc = (INT/f) ',' | (INT/f) ';';" "1;" = some (.accepted, [-1, -1])) ∧
    (counted "doc = (INT/f) ?',';" "1" = some (.accepted, [-1]) ∧ counted "doc = (INT/f) ',' | (INT/f);" "1" = some (.accepted, [-1, -1])) := by decide +kernel

/-- C131 is violated for an operator with a mark: the function gets the number of elements, and the number of items
of what is written out. -/
theorem C131_violated_mark :
    (counted "doc = (INT % ',')/f;" "1,2,3" = some (.accepted, [3]) ∧ counted "doc = (INT *(',' INT))/f;" "1,2,3" = some (.accepted, [2])) ∧
    (counted "doc = (INT %= ',')/f;" "1,2,3" = some (.accepted, [3]) ∧ counted "doc = (?(INT % ','))/f;" "1,2,3" = some (.accepted, [1])) ∧
    (counted "doc = (+INT)/f;" "1 2 3" = some (.accepted, [3]) ∧ counted "doc = (INT *INT)/f;" "1 2 3" = some (.accepted, [2])) := by decide +kernel

/-- The same for the other operators. -/
theorem C131_violated_items :
    (counted "doc = (*INT)/f;" "1 2 3" = some (.accepted, [3]) ∧ counted "doc = (?+INT)/f;" "1 2 3" = some (.accepted, [1])) ∧
    (counted "doc = (?INT)/f;" "1" = some (.accepted, [1]) ∧ counted "doc = (INT | 1)/f;" "1" = some (.accepted, [2])) ∧
    (counted "doc = (~(INT | ','))/f IDENT;" "a" = some (.accepted, [-1]) ∧ counted "doc = (~INT ~',')/f IDENT;" "a" = some (.accepted, [2])) := by decide +kernel

/-- C131 is violated for a list of nothing but `!`: the list crashes, what is written out does not. -/
theorem C131_violated_bang : counted "doc = INT (!) % ',' ':' | INT ',';" "1," = some (.panicked, []) ∧
    counted "doc = INT ((!) *(',' (!))) ':' | INT ',';" "1," = some (.accepted, []) := by decide +kernel

/-! ### Examples -/

def sInt : Fac := .ident (bytes "INT")
def sComma : Fac := .char (bytes "','")
def sSemi : Fac := .char (bytes "';'")
def sDoc (a : Alts) : Rule := ⟨bytes "doc", a⟩
/-- `INT %= ',' % ';'` -/
def sShort : Rule := sDoc (.one (.term sInt (.list0 sComma (.list sSemi .nil))) .nil)
/-- `?(INT % ',') % ';'` -/
def sOpt : Rule := sDoc (.one (.term (.optList sInt sComma) (.list sSemi .nil)) .nil)
/-- `?(INT *(',' INT)) % ';'`, with one more pair of parentheses -/
def sStar : Rule := sDoc (.one (.term (.rep01 (.paren (.one (.term (.listed sInt sComma) .nil) .nil))) (.list sSemi .nil)) .nil)
/-- `?(INT *(',' INT)) % ';'` -/
def sLong : Rule := sDoc (.one (.term (.rep01 (.listed sInt sComma)) (.list sSemi .nil)) .nil)

def sToks : List Token := [⟨IDENT, 0, bytes "doc"⟩, ⟨ASSIGN, 4, []⟩, ⟨IDENT, 6, bytes "INT"⟩, ⟨REM_ASSIGN, 10, []⟩, ⟨CHAR, 13, bytes "','"⟩, ⟨REM, 17, []⟩, ⟨CHAR, 19, bytes "';'"⟩,
  ⟨SEMICOLON, 22, [59]⟩]
def sToks' : List Token := [⟨IDENT, 0, bytes "doc"⟩, ⟨ASSIGN, 4, []⟩, ⟨63, 6, []⟩, ⟨LPAREN, 7, []⟩, ⟨IDENT, 8, bytes "INT"⟩, ⟨42, 12, []⟩, ⟨LPAREN, 13, []⟩, ⟨CHAR, 14, bytes "','"⟩,
  ⟨IDENT, 18, bytes "INT"⟩, ⟨RPAREN, 21, []⟩, ⟨RPAREN, 22, []⟩, ⟨REM, 24, []⟩, ⟨CHAR, 26, bytes "';'"⟩, ⟨SEMICOLON, 29, [59]⟩]

theorem s_opt : RulesSpelt [sShort] [sOpt] := .cons (.item (.list0 rfl)) .nil
theorem s_star : RulesSpelt [sOpt] [sStar] :=
  .cons (.item (.term (.rep01 (.paren (.item (.list rfl rfl)))) (.list .same .nil))) .nil
theorem s_long : RulesLoose [sStar] [sLong] :=
  .cons (.free (.one (.cons (.list (.rep01 (.single (.paren (.free (.one (.cons (.bare .ident) (.cons (.bare (.rep0 (.paren (.free (.one (.cons (.bare .char) (.cons (.bare .ident) .nil)))))))
    .nil))))))) .char .nil) .nil))) .nil

/-- A list of lists. -/
example : Respelt ascii KwScanner.zero (bytes "doc = INT %= ',' % ';';") (bytes "doc = ?(INT *(',' INT)) % ';';") := by
  obtain ⟨e, h⟩ : ∃ e, Tokenizes ascii KwScanner.zero (bytes "doc = INT %= ',' % ';';") clMode sToks e := (tokenizes_iff (.refl _)).mp (by decide +kernel)
  obtain ⟨e', h'⟩ : ∃ e, Tokenizes ascii KwScanner.zero (bytes "doc = ?(INT *(',' INT)) % ';';") clMode sToks' e := (tokenizes_iff (.refl _)).mp (by decide +kernel)
  exact ⟨sToks, e, sToks', e', [sShort], [sLong], h, ⟨by simp, by decide +kernel⟩, h', ⟨by simp, by decide +kernel⟩,
    .removed (.spelt (.spelt .refl s_opt) s_star) s_long⟩

example : counted "doc = INT %= ',' % ';';" "1,2;;3" = some (.accepted, []) ∧ counted "doc = ?(INT *(',' INT)) % ';';" "1,2;;3" = some (.accepted, []) ∧
    counted "doc = INT %= ',' % ';';" "1,;3" = some (.rejected, []) ∧ counted "doc = ?(INT *(',' INT)) % ';';" "1,;3" = some (.rejected, []) := by decide +kernel

/-- `+(INT/f) ';'` and `(INT/f *(INT/f)) ';'`: the marks are in both copies. -/
example : AltsSpelt false (.one (.term (.rep1 (.paren (.one (.term sInt (.mark (bytes "f") .nil)) .nil))) .nil) (.cons (.term sSemi .nil) .nil))
    (.one (.term (Fac.oneMore (.paren (.one (.term sInt (.mark (bytes "f") .nil)) .nil))) .nil) (.cons (.term sSemi .nil) .nil)) :=
  .seq (.term (.plus (by decide)) .nil) (.cons (.term .same .nil) .nil)
example : counted "doc = +(INT/f) ';';" "1 2;" = some (.accepted, [-1, -1]) ∧ counted "doc = ((INT/f) *(INT/f)) ';';" "1 2;" = some (.accepted, [-1, -1]) := by decide +kernel

/-- `*(~(INT | ',') ?INT @';')` written out. -/
example : AltsSpelt false
    (.one (.term (.rep0 (.paren (.one (.term (.not (.paren (.alt (.term sInt .nil) .nil (.one (.term sComma .nil) .nil)))) .nil) (.cons (.term (.rep01 sInt) .nil) (.cons (.term (.peek sSemi) .nil) .nil))))) .nil) .nil)
    (.one (.term (.rep01 (.rep1 (.paren (.one (.term (.paren (.one (Item.neg (.term sInt .nil) .nil) (Alts.negs (.one (.term sComma .nil) .nil)))) .nil)
      (.cons (.term sInt.orOne .nil) (.cons (.term (.not (.not sSemi)) .nil) .nil)))))) .nil) .nil) :=
  .item (.term (.star (.paren (.seq (.term .nots .nil) (.cons (.term (.opt .same) .nil) (.cons (.term (.twice .same) .nil) .nil))))) .nil)

example : counted "doc = ~(INT | ',') ?(IDENT/f) @';' +';';" "a;;" = some (.accepted, [-1]) ∧ counted "doc = (~INT ~',') ((IDENT/f) | 1) ~~';' +';';" "a;;" = some (.accepted, [-1]) ∧
    counted "doc = ~(INT | ',') ?(IDENT/f) @';' +';';" "1;" = some (.rejected, []) ∧ counted "doc = (~INT ~',') ((IDENT/f) | 1) ~~';' +';';" "1;" = some (.rejected, []) := by decide +kernel

/-- `(INT % ',') (';' | (IDENT/f))` and `(INT % ',') ';' | (INT % ',') (IDENT/f)`, in parentheses -/
def sList : Fac := .paren (.one (.term sInt (.list sComma .nil)) .nil)
def sWord : Fac := .paren (.one (.term (.ident (bytes "IDENT")) (.mark (bytes "f") .nil)) .nil)
example : RulesSpelt [sDoc (.one (.term (.paren (.both sList sSemi sWord)) .nil) .nil)] [sDoc (.one (.term (.paren (.each sList sSemi sWord)) .nil) .nil)] :=
  .cons (.item (.term (.each (by decide) (by decide) (by decide) (by decide)) .nil)) .nil
example : counted "doc = (INT % ',') (';' | (IDENT/f));" "1,2 a" = some (.accepted, [-1]) ∧ counted "doc = (INT % ',') ';' | (INT % ',') (IDENT/f);" "1,2 a" = some (.accepted, [-1]) ∧
    counted "doc = (INT % ',') (';' | (IDENT/f));" "1,a" = some (.rejected, []) ∧ counted "doc = (INT % ',') ';' | (INT % ',') (IDENT/f);" "1,a" = some (.rejected, []) := by decide +kernel
example : counted "doc = (INT % ',') ?(IDENT/f);" "1,2 a" = some (.accepted, [-1]) ∧ counted "doc = (INT % ',') (IDENT/f) | (INT % ',');" "1,2 a" = some (.accepted, [-1]) := by decide +kernel

end Tpl.Props
