# Formal model of qiniu/text (TPL) in Lean 4

The properties are listed in `properties.jsonl`; `MANIFEST.json` maps each one
to the theorems proved about it; `seeded/LOG.jsonl` records the wrong-program
experiments.

## Trusted base

* Lean 4.33.0's kernel. No axioms of our own, no `sorry`/`admit`, no
  `native_decide`, no `bv_decide`. The theorems depend at most on Lean's three
  standard axioms `propext`, `Quot.sound`, `Classical.choice`.
* The faithfulness of the hand-written model to the Go source. Every definition
  under `lean/Verif/Model` cites the file and lines it models and says where it
  simplifies. Go itself (slices, maps, defer/recover, reflect) is modelled only
  as far as these definitions say.
* `Spec` modules: small independent definitions the property theorems are
  stated against.

## Layout

* `Verif/Model/*` – executable model of the Go code, function by function.
* `Verif/Spec/*`  – specifications that do not use the model's helpers.
* `Verif/Proof/*` – lemmas.
* `Verif/Props/*` – the property theorems, each with concrete cases showing
  that its hypotheses are satisfiable.

## Modelling conventions

* Go `string`/`[]byte` = `List UInt8`; `int` offsets = `Nat`/`Int`; a rune
  look-ahead `ch` is an `Int` with -1 for EOF, as in the Go code.
* Every possible Go panic on the modelled paths is an explicit outcome
  (slice bounds, nil dereference, `panic(v)`, failed type assertion), never a
  totalised default.
* Loops are fuelled functions `… → Option` (`none` = out of fuel) with a
  monotonicity lemma, so "terminates" is `∃ fuel` and "does not terminate" is
  `∀ fuel, … = none`.
* Mutable cells shared through pointers (the `len` field of a repeat node, a
  grammar variable, the extractor's document nodes, qlang scopes) are ids into
  an explicit store.
* User callbacks (actions, transaction callbacks, reflect-called functions) are
  parameters of the model, over which the theorems quantify.

## What is modelled

| Go | Lean module |
|---|---|
| tpl/token.go | Model/Token |
| unicode/utf8.DecodeRune, tpl/scanner.go | Model/Utf8, Model/Scanner |
| tpl/grammar.go (all combinators, Len, errors, Source) | Model/Grammar |
| tpl/match.go | Model/Matcher |
| tpl/match.go, the Match methods of tpl/grammar.go once more, as interleavable programs (sequentially consistent; accesses to scanners and `len` fields are the steps) | Model/Concurrent |
| tpl/compiler.go (AutoKwScanner, Cl, EvalSub) | Model/Compiler |
| tpl/interpreter/interpreter.go, interpreter.util/call.go | Model/Interp, Model/Message |
| tpl/number, tpl/rat, tpl/cmplx | Model/Calc |
| `(*big.Rat).SetString` of math/big, for texts of INT tokens | Model/BigRat |
| tpl/extractor | Model/Extractor |
| tpl/qlang/lib/builtin, tpl/qlang/cl (scopes, functions, control), tpl/qlang/spec | Model/Builtin, Model/Qlang |
| tpl/qlang/engine.go (Exec, SafeExec; SafeEval is SafeExec), Ret | Model/QlangEngine |
| tpl/qlang/cl/interpreter/interpret.go (New, Exec, callFn, callVfn, the marker; EvalCode as in Model/Interp) | Model/QlangInterp |
| tpl/generator | Model/Generator |
| tpl/examples/calculator, ratcalc, cmplxcalc (eval, main; lines as bufio.ScanLines gives them) | Model/Repl |
| tpl/cmd/tplconv | Model/Tplconv |
| tpl/cmd/tplgen (the search, main; of a Go file only the declarations it looks at) | Model/Tplgen |
| tpl/cmd/tplgen/output.tpl (the interpreter that is generated; Eval, the marker, the actions) | Model/StaticInterp |
| strconv.Unquote, strconv.UnquoteChar, strconv.ParseFloat for decimal numbers; GetValue of tpl/extractor/extractor.go | Model/Strconv |

Not modelled: floating point arithmetic (opaque), `reflect` beyond the calls
described in Model/Interp, printing of values, the qlang library bindings other
than builtin, go/parser, the templates of the command line programs, read errors,
`unicode.IsLetter/IsDigit` above 0x7f (arbitrary predicates), the position
arithmetic of `go/token.File` beyond a line table, `//line` directives.

## Plan per property

| Id | Modelled | Proof |
|---|---|---|
| C01, C02 | the token table as data | complete case analysis over the finite table plus a lemma for everything outside it; counterexamples for TokenLen |
| C03 | Scan and all its loops with fuel | progress measure: remaining bytes plus pending semicolon; fuel `length+1` never runs out |
| C04, C05, C06 | scanner states with the source they came from | invariant `ch` = rune at `offset`, `rdOffset` = offset + width; every helper advances along the source; induction over the Scan sequence |
| C07 | Scan at end of input | direct from the invariant, induction over the number of calls |
| C08, C09, C10 | scanner with both modes | simulation between two runs, states equal up to insertSemi |
| C11 | Scan | case analysis of Scan's post-state; counterexample for `a/**/#…` |
| C12, C13 | Scan, switch2/3/4, scanIdentifier | case analysis over the dispatch, list of all operators as spec |
| C14, C15, C16, C17 | errors reported by the scan helpers | invariant errorCount = length errors; counterexample `..`; independent recognisers for literals |
| C18 | line table | invariant: table = positions after the newlines before rdOffset |
| C19 | Init | Init overwrites every field that is read |
| C20, C21 | keyword map | invariant over request histories |
| C22 | Match with explicit slice bounds | induction on fuel, all constructors |
| C23 | independent PEG semantics (`Spec/Peg`) | refinement in both directions by induction |
| C24 | Match | erasure of positions and literals, of len cells and callbacks |
| C25–C29, C33 | Match | characterisation lemmas of an evaluation relation; fuel monotonicity gives determinism |
| C30 | nullability and left-reachability as a computable check | lexicographic induction (input length, rank, size) |
| C31 | Match | `∀ fuel, = none` by induction |
| C32, C34, C35 | trace-recording callbacks, len cells | independent trace semantics and simulation |
| C36 | GrVar cell | induction over histories |
| C37 | Matcher | unfolding against an independent statement |
| C38 | calcErrorInfo with explicit index panics | bound on idxErr for every error without fail-fast; counterexample |
| C39 | Source over Tokenize's slice with sentinel | from C04/C05 |
| C40–C44 | Cl's bootstrap grammar and stack actions, literally | syntax tree spec; both directions by induction over the tree / token list |
| C45, C46, C74 | Marshal, GenStaticCode | counterexamples and theorem for the good fragment |
| C47 | EvalSub | case analysis |
| C48–C52 | Engine marks, mute counter, EvalCode with defer, DoCall | independent specification of gating; case analysis of outcomes |
| C53–C57 | the calculators' compiled grammars with abstract value type and operations | induction over expression trees: tokens of e evaluate to push ⟦e⟧ on any stack |
| C58–C62 | extractor document heap and transaction callbacks | simulation with an immutable tree semantics |
| C63–C65, C72, C73 | builtin functions on a value type with int/byte/string/opaque float | case analysis, lemmas on two's complement |
| C66–C71 | scope heap, function frames, defers, control over code thunks | invariants over histories; induction |
| C75–C77 | extractor heap, document trace | simulation of the heap by an immutable tree |
| C78 | scanner | both directions: every run without errors is a derivation of the lexical grammar from clean text (C09), and every derivation of a clean text is read by `Scan` step by step, by induction on the derivation |
| C79 | the compiled qlang grammar and the matcher | programs as syntax trees (Spec/QlangSyntax); the tables are shown to be an explicit set of grammars; a decidable check shows which alternatives refuse a token; induction on the tree builds the trace of the match for every program |
| C80 | the qlang engine: marks, code values, scopes, calls | a semantics of the trees in terms of variables and values only, without stack, marks or grammars (Spec/QlangSem); a Hoare-style rule for the marks of a match (Proof/Hoare); induction on the trees: muted code changes nothing, live code does what the semantics says (Proof/QlangSim); induction on the depth of calls. Programs that do not end: the same simulation with a bound on the fuel (Proof/Halts) shows that a run ends only if the semantics has an outcome (C80_ends, C80_forever); pieces of program that the semantics is not given a tree for are followed through as an exit (`doesOr`, Proof/QlangLost) |
| C81 | tpl/qlang/engine.go (Model/QlangEngine) | the meaning of running a tree safely, on top of the semantics of C80 (Spec/QlangSafe); the run of the program from C80, then the deferred expressions; for arbitrary texts, case analysis of SafeExec |
| C82 | `Ret` and `Clear` (Model/QlangEngine) | the stack after a run is known from C80 and C81. Violated: `SafeExec` leaves the values of the deferred expressions on the stack, so `Ret` after `defer 5; 7` gives 5 (C82_deferred); a final semicolon, which InsertSemis adds to nearly every text, makes the value nil (C82_semicolon) |
| C83 | as C80–C82 | Spec/QlangSession says what a sequence of programs gives. An invariant of every engine call for arbitrary texts (scope of the program, keywords: Proof/Keep, Proof/QlangKeep) and, for programs, that the first statement runs whatever a failed program has left above the base and the first semicolon removes it (`does_junk`); induction over the sequence |
| C84 | Model/QlangInterp models interpret.go on top of Model/Interp. What a qlang value, class or object is stays abstract (`Host`): functions are arbitrary code of the engine's monad, so they may run the engine again | Spec/QlangInterp says by the words of a name what a mark asks for (C84_wants: exactly one thing), C84_method, C84_function, C84_muted: one mark, any function |
| C85 | `callFn`, `reflectCall` of Model/Interp | C85_go_partial for what `reflect` can pass. Violated: elements of a `[]interface{}` have the static type interface{}, `Call` refuses them for other parameter types |
| C86 | `markArg`, `strconvInt` | from C50. Violated: `strconv.Atoi` reads `010` as 10 and refuses `0x10` |
| C87 | `exec` for functions on a state of their own (`Describes`) | C34_effect/`Tr` gives the events of the match, induction over them (`sem_calls`); C87_panics for the first panic |
| C88 | `exec`, `evalCode` | case analysis of the outcome; C49_restores |
| C89 | `prepare`, `marker`, `new` | C89_marks (which marks), C89_new (equivalence, with C40 for the text), C89_ready (the scanner of the result fits the hypotheses of C87), C89_panics |
| C90 | the compiled qlang grammar and the matcher | Proof/Accepts has a rule for every combinator that says what the tokens matched and those behind them can be; Proof/QlangAccepts goes through the grammar with them (induction on the number of tokens, since every way back to `factor` takes a token) and builds a tree for every match. C90_accepted (nil: a program), C90_refused (error: not a program). Between the two are only trees with two indices without a colon (`a[1 2]`, accepted and meaning `a[1]`), which C79 leaves out |
| C91 | the three calculator programs: lines, trimming, eval with its recover, printing, main | C55 (every text is evaluated or refused), C53 (values) and an invariant of the loop: the scanner reads texts like a new one (Proof/CalcKeep: no action changes it); the stack may hold anything, since Ret takes the last value. Spec/Repl says what the answer to a line has to be. C91_unique: a run has one outcome |
| C92 | as C91 | lines of 64 KB and more: C92_violated and what the programs do instead (C92_answered_partial) |
| C93 | ratcalc; decimal digits, `big.Rat` as `Rat` | the printed text is lexed by the lexical grammar (C78), read as `-n / d`, and its value is the number. SetString is a parameter that has to read decimal numerals |
| C94 | the heap of qlang (arrays, maps, variables of objects, addresses) and Get, Set, SubSlice, Append, Slice, SliceFrom | `Works M h vs`: the heap and the values a program has after any history of calls. Invariant (Proof/Containers): slices lie in their arrays, addresses are old, stored values are in order. Proof/ContainerLaws says what each call does to each array. How a slice grows is a parameter |
| C95 | as C94 | C95_stored_partial: `set` takes exactly the values of the element type, and `append` takes those as they are; C95_violated, C95_violated_float: `append` takes more |
| C96 | Get, Set, Delete, Mkmap, MapFrom; maps as lists of pairs without equal keys | lemmas about finding in, putting into and deleting from such lists; `==` on floats has to be symmetric and transitive, not reflexive |
| C97 | variables of objects, New before the constructor runs, MemberRef | as C94 |
| C98 | as C94, C96; `reflect.Append` stores one after the other | C98_unchanged_partial for all calls but append and set with several pairs; C94_append_panics says what append may have changed; C98_violated, C98_violated_set |
| C99 | tplconv: `filepath.Ext`, reading, extractor, printing, the loop over the files; files are a function from paths to contents; json, html/template and the template directories are parameters | convert answers exactly the `Document` of the file (C75 for the extractor); C99_all, C99_stops by induction on the arguments; C99_stdout, C99_files (outputs apart from inputs), C99_touches, C99_help, C99_unique |
| C100 | as C99; `os.Create` empties the file | C100_unchanged_partial: nothing changes if the format is json or the error is another one, no file changes without -ext; C100_violated |
| C101 | as C99; panics of New are not recovered, of SafeParse only strings and errors | C101_crash_partial: a crash is a panic of New on a template, or of a value function; C101_violated |
| C102 | tplgen: findInGenDecl, findInAssignment, findInDecl, the loops over the maps as a list in the order of the visit, main | the two index loops by induction; each level of the search finds a literal declared there or there is none; C102_search, C102_writes, C102_builds (with C74) |
| C103 | as C102; the order of the visit is an argument | C103_order_partial: any two orders of the same files, if at most one declaration; C103_violated |
| C104 | as C102; `[1 : len-1]` | C104_value_partial for raw strings and strings without backslash, against an independent relation literal/value; C104_violated |
| C105 | as C102 with the old output file | C105_fresh by cases on where the run ends |
| C106 | as C102; run-time panics are values | C106_crash_partial; C106_violated, C106_violated_body, C106_violated_short |
| C107 | Model/Strconv: `Unquote`, `UnquoteChar`, `GetValue`; scanner as C78 | C107_string: for every text that tokenizes, against independent relations literal/value (Spec/Literal: StringValue); C107_unique: the relation is a function of the place in the text |
| C108 | as C107 | C108_char_partial: exactly the ASCII characters and byte escapes have a value, the others panic; C108_unique; C108_violated, C108_violated_wide |
| C109 | as C107; ParseInt of Model/Interp | C109_int_partial: what is returned for every integer literal; C109_unique; C109_violated, C109_violated_hex |
| C110 | output.tpl: marker, actions, GetValue; Cl of the generated code as in C74 | C110_eval_partial: two sets of callbacks that agree up to panic values give the same match (Proof/Alike, induction over fuel and grammar); by induction over the grammar text the compiled grammar has only marks of the text and leaves the scanner without keywords; C110_violated_octal, _hex, _semis, _sub, _params, _context, _trace, _nil |
| C111 | Token.End on the tokens of C78 | C111_end_partial: by cases over the lexical grammar, with the exact value for the wrong ones; C111_violated |
| C112 | Cl (C40) with a scanner that has a history | two runs side by side: grammars and tokens that are the same up to the kinds of keywords (Spec/Share) match alike (Proof/Share, induction over fuel), the same syntax tree compiled with two scanners gives such grammars (Proof/ShareCl), the same text such tokens (Proof/ShareTok); C112_keywords says which words are keywords afterwards; C112_first_partial, C112_second_compiles_partial, C112_second_matches_partial; C112_violated_first, _second, _compile. Not covered: the scanner after a `Cl` that fails |
| C113 | the actions of the engine (C48, C52): which arguments a function with a receiver gets | Spec/Given says which value a parameter gets (`Gets`, `Given`); C113_unique: at most one; C113_called: the function runs with exactly these, C113_refused: if there are none it is not called and the match ends with a RuntimeError; C113_compile: more than two parameters are refused by New; C113_int (with C50): numerals get their value |
| C114 | Tokenize (C78) on a text in which tokens are written down again | Spec/Layout says how tokens are written (`tokenText`) and when a text is a layout of them (`LaidOut`); each token of the lexical grammar does not depend on the white space behind it (Proof/Layout), induction over the lexical grammar; C114_laid_out without InsertSemis, C114_semis_partial with it for texts that end with a semicolon, C114_violated for the others |
| C115 | matching, the extractor, the calculators and Cl on two texts with the same tokens | Spec/Place says when texts have the same tokens and when callbacks do not look at positions; the simulation of C112 with a relation for positions (Proof/Share), syntax trees of C40 and C53 at other places (Proof/Place); C115_matches, C115_extractor, C115_value, C115_grammar, and with C114 C115_layout, C115_grammar_layout |
| C116 | matching with the grammars Cl returns | Spec/Crash says which panics are crashes and which texts have a lone `!`; nil is only in sequences of the grammar a syntax tree means (induction on the trees of C40), and such grammars do not dereference it (induction on fuel, Proof/Crash); C116_rules_partial, C116_text_partial, C116_engine_partial, C116_extractor_partial |
| C117 | the table of operators, keywords of AutoKwScanner, tokenizing, matching of one token | Spec/Quoted says when a factor quotes a text and when a token is spelled so; the kind of a quoted text is the operator's or a keyword's, keywords are kept and told apart (invariants of C20), and tokens come from the lexical grammar (C78), in which no identifier is spelled like an operator; C117_exact, C117_quoted_partial |
| C118 | match.go and the Match methods as programs with steps: accesses to the scanner and the `len` fields of a Matcher (Model/Concurrent), interleaved by a list of goroutine numbers | the programs alone are the functions of the model (C118_alone, induction on fuel); footprints (Spec/Concurrent) and a simulation by the goroutine alone, induction on the schedule; C118_own_partial, C118_shared_partial |
| C119 | ParseFloat and GetValue, and the decimal part of strconv.ParseFloat (Model/Strconv: readFloat), with rounding as a parameter | Spec/Number gives the value of a number as a rational; the lexical grammar of C78 says how number tokens are written; readFloat is shown to read that value; C119_value, C119_given_partial, C119_leaf_partial, C119_mark_partial, C119_imag_partial |
| C120 | MatchError.Error, calcErrorInfo (Model/Matcher), RuntimeError.Error (Model/Message) | from the lexical grammar of C78: a token other than EOF lies before the end of a text that ends in a newline, so its line is right (C18); induction over the match: the error is that of a part that fails where the error says; C120_message, C120_unique, C120_returned_partial, C120_failfast_partial, C120_leftover, C120_runtime_partial |
| C121 | (*big.Rat).SetString (Model/BigRat), package rat (Model/Calc), ratcalc (Model/Repl) | from the lexical form of INT tokens (C19): SetString gives the value for decimal and, from Go 1.14 on, hexadecimal numbers, and the decimal value of octal ones; with that C53, C91 and C93 for package rat have no hypotheses about SetString left; C121_literal_partial, C121_computes_partial, C121_session_partial, C121_read_back |
| C122 | Scanner (Model/Scanner), Cl (Model/Compiler) | on the lexical grammar of C78, by induction over the tokens of the first text: no token, and no text skipped, depends on what follows behind a newline; the automatic semicolon at the end becomes that of the newline; with C40 for grammar texts; C122_tokens, C122_texts, C122_grammar, C122_compiles |
| C123 | MatchError.Error (Model/Matcher), RuntimeError.Error (Model/Message), AutoKwScanner (Model/Tokener) | with C19 and C20: the source the scanner holds depends on the last text only, and names of kinds stay; what remains depends on nothing else; C123_again_partial, C123_keywords_partial, C123_runtime_partial; violated by concrete texts: C123_violated, C123_violated_panic |
| C124 | engine of qlang (Model/Qlang*), Scanner (Model/Scanner) | the meaning of programs (Spec/QlangSem) is monotone in the number of steps, by induction over the trees; the meaning of the statements of both is the meaning of the first and then of the second, by induction over the statements; the texts with C122, the engine with C83; C124_result, C124_meaning, C124_parts, C124_stops, C124_whole, C124_not_closed |
| C125 | Cl (Model/Compiler), matchG (Model/Grammar), AutoKwScanner (Model/Tokener) | the grammars of a compiled text have variables of this text only, by induction over its rules; variables that are assigned are not assigned again; a match does not see other variables, by induction over the steps; texts with C122, keywords with C112; C125_rules, C125_matches, C125_text_partial; violated by a concrete text: C125_violated |
| C126 | Cl (Model/Compiler), matchG (Model/Grammar), AutoKwScanner (Model/Tokener) | the tables of both texts have the same rules up to references (a variable here, the rule itself there) and numbers of token kinds, by induction over rule bodies; traces of one table are traces of the other, by induction over the steps of a match; a rule body that can be compiled in one place can be compiled in every other; C126_traces_partial, C126_text_partial, C126_compiles_partial; violated by concrete texts: C126_violated_true, C126_violated_doc, C126_violated_bang |
| C127 | Cl (Model/Compiler), matchG (Model/Grammar), renaming of the trees of grammar texts (Spec/Rename) | the tables of both texts have the same rules and variables under the new names, step by step through the rule bodies; traces of one table are traces of the other, by induction over the steps of a match; C127_compiles, C127_rules, C127_traces, C127_text |
| C128 | Cl (Model/Compiler), matchG (Model/Grammar), replaced references in the trees of grammar texts (Spec/Fold) | the tables of both texts have the same rules up to references that stand for the rule itself, by induction over the replacements; traces of one table are traces of the other up to the number of items of a reference, by induction over the steps of a match; C128_traces_partial, C128_text_partial, C128_compiles_partial; violated by concrete texts: C128_violated_mark, C128_violated_bang, C128_violated_true, C128_violated_doc |
| C129 | the qlang engine (Model/Qlang, Model/QlangEngine), its semantics (Spec/QlangSem); programs without loops and calls (Spec/QlangPlain) | every piece of such a program has an outcome and defers only such expressions, by induction over the tree (Proof/QlangPlain), then C80_runs and C81_safe; the counterexample by induction over the depth of the nested returns and C80_forever; C129_ends_partial, C129_forever |
| C130 | the grammar compiler (Model/Compiler, Spec/TplText), matching with callbacks as traces (Spec/Trace); removal of parentheses on the trees of grammar texts (Spec/Group) | the compiled grammars are related rule by rule: flattened sequences without `!` and flattened choices (Proof/Group, Proof/GroupText), traces are carried over by induction over the trace; chains of changes by transitivity; C130_traces_partial, C130_text_partial, C130_compiles_partial |
| C131 | the grammar compiler (Model/Compiler, Spec/TplText), matching with callbacks as traces (Spec/Trace); operators written out on the trees of grammar texts (Spec/Spell) | the relation of C130 between compiled grammars has cases for operators that are written out (Proof/Group); an operand that is compiled once more adds nothing to the tables and gives the same grammar (Proof/SpellText: fac_again); grammars without marks and references match in one way only and call nothing, so that a common beginning may be tried again (Proof/Plain); chains of changes by transitivity; C131_traces_partial, C131_text_partial, C131_compiles_partial |
| C132 | the extractor with its document in a heap of nodes (Model/Extractor), matching with callbacks as traces (Spec/Trace), items found by a trace (Spec/Extractor: DItem.run) | FoundIn says what has been found: the items of the trace up to its end or to the callback that panics, with the open nodes closed; closing nodes changes nothing in the document, so the balanced traces of C58 cover the open ones (Props/Result: unclosed_runs, stops_iff); uniqueness because a trace can be realised from every state and the match is a function; C132_found_partial, C132_unique, C132_stale |
| C133 | Import with the table as a list in the order Go happens to choose (Model/Builtin); a name is taken if it stands for something other than a placeholder (Spec/Builtin: Taken) | induction on the table for what a name stands for afterwards; permutations of the table with C73_panics and C73_defines for the order; C133_order_partial, C133_between_partial, C133_module |
| C134 | grammar texts as lists of rules whose last rule is doc (Props/Wider: DocLast); for texts that do not refer to doc this is by C126 no restriction; the added text is read with the tables that the old alternatives leave | the compiled grammars have the alternatives of the old text at the front (choice_append), the same variables and at least the same keywords; C26 for what an Or does; the two-table argument of C126 for the added alternatives; C134_same_partial, C134_accepts_partial, C134_next_partial, C134_exactly_partial, C134_compiles_partial |
| C135 | texts joined by newlines (Spec/Compose: onLines, separated); values as Eval and Ret show them (Computes of C53) | C55 makes an expression of an accepted text, C122 gives the tokens of the joined text, C115 (reads_place) moves the parts, C53 computes the whole; C135_paren, C135_neg, C135_op, C135_call; Proof/Replace: expressions are balanced and their commas stand in parentheses, so a part between parentheses or commas is a whole operand or argument; by induction over the reading it may be replaced: C135_replace |
| C136 | the text of a number (ratText of C93), texts joined by newlines (C135) | ratText is read as a quotient of two numbers (C93), computes gives its value: C136_value; C135_replace in both directions: C136_reuse |
| C137 | the qlang engine (Model/Qlang, Model/QlangEngine) and its semantics (Spec/QlangSem); programs `fn() { body }(); more` and `e(args); more` (Props/QlangReturn: callOf, anyCall) | the outcome of the call from the outcome of the body (callOf_does, anyCall_does), then C82_exec_partial and C80_runs for the engine; C137_any_call_partial, C137_goes_on_partial, C137_deferred_partial, C137_fails_partial, C137_leaves_partial; the counterexample by evaluating the semantics: C137_violated |

Properties found false of the code are proved as negations with a witness, and
the part that holds is proved under a `_partial` name.

## Where the code disagrees with the property

Each line is a theorem named `Cnn_violated…` (or as given) with a concrete
witness; the theorem is about the unchanged model.

| Id | What the code does |
|---|---|
| C02 | `TokenLen` indexes out of range for the first kind after the table and gives -2 for kinds without a name |
| C11 | an operand followed by a block comment and then a `#` comment gets no automatic semicolon |
| C15 | `..` gives an ILLEGAL token without an error |
| C18 | EOF after a final newline is reported on the line before |
| C38 | `Error()` of a fail-fast error at the end of the input indexes out of range |
| C43 | a rule whose first definition is `!` alone can be defined again |
| C45 | `Marshal` loses parentheses for lists and repetitions and prints `!` in places where it cannot be read back; without these the printed rules are read back (`C45_printed_partial`) |
| C46 | `EOF` compiles to a kind no token has |
| C47 | a rule referred to before its definition is unknown to `EvalSub` (`C47_forward`) |
| C48 | `EvalSub` on a text leaves the mute counter as it is |
| C59 | extractor leaves of abandoned alternatives stay in the document |
| C60 | a second group of the same name is lost (`C60_interleaved`) |
| C64 | `==` between an int and a byte of the same value is false while `<=` and `>=` hold |
| C66, C67 | the name `unset` reads as the builtin whatever was assigned; after `unset` sharing between closures can break |
| C68 | if a deferred expression panics the remaining ones do not run and stay registered; a defer registered by a deferred expression is lost |
| C69 | `fn(...)` with a variadic parameter but no name cannot be called (`C69_nameless`) |
| C70 | the right operand of `&&`/`||` need not be boolean |
| C74 | `+G` is emitted as `tpl.tpl.Repeat1(…)`, which is no Go; a string in quotes as the grammar of any string literal; a rule used before and after its definition as a second call of `Assign` |
| C82 | `SafeExec` leaves the values of deferred expressions on the stack: after `defer 5; 7` `Ret` gives 5; with automatic semicolons `Ret` after `7` gives nil |
| C85 | a Go function in the table of an interpreter written in qlang panics for every parameter type but interface{} if popArgs returns a qlang slice of mixed values: `ret.Index(i)` has the static type interface{} |
| C86 | an `...Int` mark reads `010` as 10 (8 everywhere else) and refuses `0x10` |
| C92 | the calculator programs drop a line of 64 KB or more and all lines after it, with exit code 0 and without a message |
| C95 | `append(a, nil)` and `append(floats, 1)` work, `set(a, 0, nil)` and `set(floats, 0, 1)` panic |
| C98 | `append(b, 9, "x")` on ints panics after it has stored the 9 behind `b`; `set(a, 0, 9, 1, "x")` after it has stored the 9 |
| C100 | `tplconv -o xml -ext out a.t` reports "unknown output format" after it has emptied `a.t.out` |
| C101 | the template `doc = IDENT/x` makes extractor.New, and so tplconv, panic |
| C103 | two declarations of `grammar` in two files: which one is used depends on the iteration order of a map |
| C104 | `const grammar = "doc = INT\\n"` is refused: the backslash is taken literally |
| C106 | `var grammar string`, `_, grammar = f()`, a function without body, a literal of one digit: tplgen panics |
| C108 | `'é'` and `'\u0041'` are accepted by the scanner and make `GetValue("Char")` and qlang panic |
| C109 | `010` is 10 for `GetValue("Int")`, and `0x10` makes it panic |
| C110 | the generated interpreter of `doc = INT/push;` pushes 10 for `010` and panics for `0x10` where New's pushes 8 and 16; `7` and a newline do not match `INT ';'` although InsertSemis is set; EvalSub and EvalCode return ErrNoGrammar always; functions with a `*Context` are refused or panic; `_tr` dereferences nil; so does `doc = !;` (also, the template imports github.com/qiniu/text/tpl.v1, a path outside this module) |
| C111 | `End` of the `;` in `a; b` is 3, of an automatic semicolon two behind its position; a raw string with a carriage return ends too early; `..` is accepted as an illegal token and ends where it begins |
| C112 | with one scanner for both, `doc = IDENT;` no longer accepts `let` once `doc = "let";` has been compiled, whichever comes first; after `doc = "doc";` the text `doc = IDENT;` does not compile |
| C114 | with InsertSemis `x /* c */ # d` has the token `x` only, `x ` has an automatic semicolon behind it |
| C116 | an alternative that is nothing but `!` compiles to the nil interface: `doc = IDENT \| !;` and `x = !; doc = x;` are accepted and crash with a nil dereference (C116_violated); proved for texts without such alternatives |
| C117 | one-character operators and numbers in double quotes (`"+"`, `"1"`) are accepted as keywords, but only identifiers are looked up as keywords, so they never match (C117_violated); C117_exact says exactly what matches |
| C118 | goroutines that share a Matcher share its scanner: one can be given the verdict on the other's text (C118_violated); goroutines that share a grammar share the counts of its repetitions, which actions read with Len (C118_violated_len); proved for goroutines with Matchers of their own, and for a shared grammar on tokens if no action reads Len |
| C119 | the scanner accepts `1e`, which is no number for ParseFloat (C119_violated); an octal number from 2^63 on is read as decimal (C119_violated_octal), a hexadecimal one is refused; Float leaves and Float marks take octal for decimal and refuse hexadecimal (C119_violated_leaf); an imaginary number that cannot be read is 0 (C119_imag_partial) |
| C120 | a match that fails at the end of the text is reported on line 0, with no text (C120_violated); so is a function that panics in a mark that has matched no tokens, and then the file is not named either (C120_violated_runtime) |
| C121 | 010 is 8 for package number and 10 for package rat (C121_violated); with Go 1.12, which go.mod names, 0x10 is a nil pointer (C121_violated_hex) |
| C123 | an error of a text shows a piece of the text that was matched after it (C123_violated); if that one is shorter Error() panics (C123_violated_panic) |
| C125 | a word that only an added rule has in quotes is no longer an identifier for the rules there were (C125_violated) |
| C126 | a rule named `true`, a reference to `doc` before its end, a rule that is a lone `!` (C126_violated_true, C126_violated_doc, C126_violated_bang) |
| C128 | a reference with a mark (the marked function gets -1 for the number of items), a rule that is a lone `!`, a rule named `true`, a rule that refers to `doc` (C128_violated_mark, C128_violated_bang, C128_violated_true, C128_violated_doc) |
| C129 | `defer switch { default: return }; return` runs forever (C129_forever) |
| C130 | `(INT (',' INT))/f` calls f with 2 items, `(INT ',' INT)/f` with 3; `INT (! ',') ':'` does not fail fast behind the group (C130_violated_mark, C130_violated_alts, C130_violated_bang) |
| C131 | `(INT % ',')/f` calls f with 3 for `1,2,3`, `(INT *(',' INT))/f` with 2, and likewise for the other operators but `@`; `(!) % ','` crashes, `((!) *(',' (!)))` does not; `(INT/f) (',' \| ';')` calls f once for `1;`, `(INT/f) ',' \| (INT/f) ';'` twice (C131_violated_mark, C131_violated_items, C131_violated_bang, C131_violated_factor) |
| C132 | after `a+`, parsing a text with an unclosed string gives an error, and Result is still the document of `a+`, because the text is tokenized before the document is cleared (C132_violated) |
| C133 | with `b` taken, importing `a` and `b` panics; `a` has been added or not, as the order of the map would have it (C133_violated) |
| C134 | `doc = INT | INT ',';` rejects `1,`, which the added alternative alone accepts (C134_violated); `doc = IDENT | "let" INT;` rejects `let`, which the old one accepts (C134_violated_word) |
| C137 | `f = fn() { defer switch { default: return } }; g = fn() { f(); return 2 }; g()` has the value nil instead of 2: the return in the deferred expression of f ends g (C137_violated) |

## Notes on single models

* `Model/Builtin`, `Model/Qlang`: floats are an abstract type `Fl`; values of
  host types are opaque tags. Code fragments (`{…}` bodies, deferred
  expressions, short-circuit operands) are thunks given by their tokens;
  evaluating them is a parameter on which the theorems quantify (`InTurn`,
  `BodyEnds`), except in the examples, where the compiled grammar is run.
* `Model/Generator`: the emitted program is modelled as text; `Spec/Generator`
  gives the small Go fragment it lies in and what running that fragment builds.
  Go map iteration orders are parameters (`Orders`).
