{
 "C01": [
  "proved",
  "Names of kinds and kinds of names are mutually inverse on the whole vocabulary; everything else has no name."
 ],
 "C02": [
  "partial",
  "Holds for operators, classes and kinds above the table. The code violates it: TokenLen(154) indexes out of range and unnamed kinds give -2 (C02_tokenLen_violated); C02_tokenLen_exact states the exact behaviour."
 ],
 "C03": [
  "proved",
  "Scanning reaches EOF within 2*len+2 calls from any prior state and any bytes; fuel never cuts the loop of Scan short."
 ],
 "C04": [
  "proved",
  "Tokens occupy consecutive intervals of the source and are read from them; positions never decrease."
 ],
 "C05": [
  "proved",
  "Literals of identifiers, numbers, strings and characters are source text; raw strings and comments up to removed carriage returns."
 ],
 "C06": [
  "proved",
  "The source after a byte order mark is a sequence of gaps and token texts; the whole sequence follows the lexical grammar of Spec/Lexical."
 ],
 "C07": [
  "proved",
  "Any number of Scan calls after EOF give the same token and the same state."
 ],
 "C08": [
  "proved",
  "Token sequences with and without InsertSemis agree after deleting automatic semicolons."
 ],
 "C09": [
  "proved",
  "Token sequences with and without ScanComments agree after deleting COMMENT tokens."
 ],
 "C10": [
  "proved",
  "Without InsertSemis every SEMICOLON token is a ; in the source."
 ],
 "C11": [
  "partial",
  "First half proved (for texts scanned with errors the previous token may also be ILLEGAL). Second half proved for blanks between operand and newline; the code violates it for a block comment followed by a # comment (C11_violated)."
 ],
 "C12": [
  "proved",
  "Operators are the longest of the table at their position."
 ],
 "C13": [
  "proved",
  "Identifiers and INT literals are maximal."
 ],
 "C14": [
  "proved",
  "ErrorCount is the number of reported errors; Tokenize fails exactly if there is one and otherwise returns all tokens before EOF."
 ],
 "C15": [
  "partial",
  "The code violates it for the text .. (C15_violated); proved that this is the only way."
 ],
 "C16": [
  "proved",
  "String and character literals of accepted text are closed and made of characters and escapes."
 ],
 "C17": [
  "proved",
  "INT literals of accepted text are well-formed numerals."
 ],
 "C18": [
  "partial",
  "Proved for every token except one at the very end of a text that ends in a newline, where the code reports the previous line (C18_violated)."
 ],
 "C19": [
  "proved",
  "Tokenize does not depend on previous use; no call panics. Stated for the scanner's own state; keywords kept by AutoKwScanner are the parameter kw."
 ],
 "C20": [
  "proved",
  "Keyword kinds are unique, stable, at least 0xb0, and Ttol inverts them, after any sequence of Init, Scan and Ltot calls."
 ],
 "C21": [
  "proved",
  "Keyword recognition changes only the kind of IDENT tokens with registered text."
 ],
 "C22": [
  "proved",
  "Counts bounded for arbitrary callbacks; absence of slice panics for callbacks that do not raise one themselves."
 ],
 "C23": [
  "proved",
  "Refinement both ways against an independent PEG semantics with cut; panicking callbacks covered by C23_sound/C23_complete."
 ],
 "C24": [
  "proved",
  "For any two callback sets, states and token sequences with equal kinds."
 ],
 "C25": [
  "proved",
  ""
 ],
 "C26": [
  "proved",
  ""
 ],
 "C27": [
  "proved",
  ""
 ],
 "C28": [
  "proved",
  "+G = G *G up to the contents of the repetition's own item counter (which differs by one by design)."
 ],
 "C29": [
  "proved",
  "Up to the item counters of the list objects; G1 is not the nil grammar."
 ],
 "C30": [
  "proved",
  "Well-formedness (no left recursion, no repetition of possibly-empty grammars) is Ford's static condition; a checker is proved sound."
 ],
 "C31": [
  "proved",
  ""
 ],
 "C32": [
  "proved",
  ""
 ],
 "C33": [
  "proved",
  ""
 ],
 "C34": [
  "proved",
  "Trace semantics Tr is the specification; equivalence with the combinators both ways."
 ],
 "C35": [
  "proved",
  ""
 ],
 "C36": [
  "proved",
  "Assigning the nil interface leaves the variable unassigned (noted in the model)."
 ],
 "C37": [
  "proved",
  "Match/MatchExactly/Eval return nil iff the text tokenizes and the grammar (its parsing expression) matches; rest returned; which error otherwise. Scanner: AutoKwScanner after any previous use."
 ],
 "C38": [
  "partial",
  "Violated: C38_violated (fail-fast error at end of input makes Error() panic with an index error). Proved: returned errors and leftover errors can always be rendered; a fail-fast error panics in Error() exactly when it lies at the end of a non-empty input."
 ],
 "C39": [
  "proved",
  "Source of any run of consecutive tokens never panics and is the text between the two positions; the EOF sentinel exists; action tokens are such runs."
 ],
 "C40": [
  "proved",
  "Cl succeeds exactly on texts whose tokens are the flattening of a syntax tree (Spec/TplText, precedence built in), with the result its compositional meaning; trees are unique; meaningless documents panic; other texts give an error."
 ],
 "C41": [
  "proved",
  "No action of Cl finds too few operands, whatever the text; after a match the stack is empty; the only panics are illegal token, duplicate rule, marker."
 ],
 "C42": [
  "proved",
  "Cl ends for every text (its grammar is well-formed) and its outcome is unique."
 ],
 "C43": [
  "partial",
  "Defined and undefined names proved. Duplicates: proved except when the first definition is only `!`, where the code accepts the second (C43_violated)."
 ],
 "C44": [
  "proved",
  "doc is required; a doc rule referred to before or within its definition is reported missing."
 ],
 "C45": [
  "partial",
  "Violated in general: C45_violated_list, C45_violated_repeat, C45_violated_cut give grammars whose printed form compiles to another grammar or not at all. C45_printed_partial and C45_matches_partial: for every document without `!` and marks in which no list is the right operand of a list and no + is directly inside a +, the rules printed with Code one below the other compile again to a grammar with the same keywords that matches every input alike."
 ],
 "C46": [
  "partial",
  "Violated: EOF compiles to a token kind (C46_violated) that no tokenized token has, so it matches nowhere (C46_never)."
 ],
 "C47": [
  "proved",
  "EvalSub on tokens, text and other sources, for every name; which rules it knows (C47_known). Rules referred to before their definition are not known to it (C47_forward)."
 ],
 "C48": [
  "partial",
  "Which marks run, for every counter (C48_skipped, C48_runs), the counter (C48_counter), every history of marks (C48_history), and that Eval and EvalSub on tokens start at 0. EvalSub on a text does not reset the counter (C48_violated)."
 ],
 "C49": [
  "proved",
  "For every source, outcome and matcher."
 ],
 "C50": [
  "proved",
  "For every INT token of every text, also the malformed ones the scanner reports (C50_all)."
 ],
 "C51": [
  "proved",
  "For every function, stack and argument count: success, wrong count, too few values, argument of a wrong type, panic of the function."
 ],
 "C52": [
  "proved",
  "C52_wraps for one mark, C52_only and C52_tokens for whole matches of any nesting depth. Values that are neither errors nor strings pass unchanged, as the code does deliberately."
 ],
 "C53": [
  "proved",
  "For the grammar texts of all three packages, compiled by the model of Cl, every text, every state of the engine. float64/complex128 and their functions are parameters; counts of arguments must survive the conversion to float64 and back. For rat the literals must be numbers for SetString."
 ],
 "C54": [
  "proved",
  "For any two states of the engine with the same keywords: same value or same cause of the RuntimeError; the stack below is untouched."
 ],
 "C55": [
  "proved",
  "C55_only_expressions, C55_terminates and C55_rejects for every text; C55_accepts says exactly which expressions are accepted."
 ],
 "C56": [
  "proved",
  "For any number of arguments and any nesting; unknown functions and wrong counts fail."
 ],
 "C57": [
  "proved",
  "rat for all arguments; number for arguments on which > is an order (no NaN)."
 ],
 "C58": [
  "proved",
  "For the document (trace of callbacks), the heap, and Result."
 ],
 "C59": [
  "partial",
  "Violated: leaves of abandoned alternatives stay (C59_violated). Proved: a leaf whose own grammar fails is not inserted; leaves inside a failed node disappear (C58)."
 ],
 "C60": [
  "proved",
  "Groups of consecutive items. C60_interleaved shows that a second group is lost."
 ],
 "C61": [
  "proved",
  ""
 ],
 "C62": [
  "proved",
  "After any number of parses with the engine, whatever they returned."
 ],
 "C75": [
  "proved",
  ""
 ],
 "C76": [
  "proved",
  ""
 ],
 "C77": [
  "proved",
  "typ must not contain an underscore (it is the part after the last one)."
 ],
 "C63": [
  "proved",
  "Floats are abstract (Fl)."
 ],
 "C64": [
  "partial",
  "Violated between int and byte (C64_violated). Proved for two ints, two bytes, two strings; between int and byte the four order operators compare the numbers."
 ],
 "C65": [
  "proved",
  "Floats are abstract with an irreflexive and transitive order (true of IEEE 754, NaNs included)."
 ],
 "C72": [
  "proved",
  ""
 ],
 "C73": [
  "proved",
  "Outside of safe mode, whose hook may change the imported table first."
 ],
 "C66": [
  "partial",
  "Every history of assignments, reads, ++/--, op=, multiple assignments and calls (with or without panics). Not for the name `unset`, which reads as the builtin whatever was assigned (C66_violated)."
 ],
 "C67": [
  "partial",
  "All parts for histories of reads, assignments and calls; histories with `unset` can break sharing and leak an internal mark (C67_violated)."
 ],
 "C68": [
  "partial",
  "Order, completeness and clearing for every body and every list of defers, as long as no deferred expression panics and none defers another one in the same function. Otherwise the code does not do what the property says (C68_violated_panic, C68_violated_nested)."
 ],
 "C69": [
  "proved",
  "Every function, argument list and state. fn(...) without a parameter name can never be called (C69_nameless)."
 ],
 "C70": [
  "partial",
  "Short circuit and values as stated; a right operand that is evaluated need not be boolean, its value is the result (C70_violated)."
 ],
 "C71": [
  "proved",
  "if and switch as equivalences, for in both directions (C71_for, C71_for_ends)."
 ],
 "C74": [
  "partial",
  "For texts without '+', strings and 'true' in which no rule used before its definition is used again afterwards, the generated program builds the tables of the compiled grammar, for every order of the map iterations; the excluded texts are shown to give wrong code by concrete witnesses. Missing: a positive statement about the excluded texts (there is none: the code is wrong)."
 ],
 "C78": [
  "proved",
  "Both directions for every text, mode and keyword table; the lexical grammar is also shown to be unambiguous on clean texts. Unicode letter and digit tables are a parameter."
 ],
 "C79": [
  "proved",
  "The programs are given as syntax trees in Spec/QlangSyntax.lean, which say nothing about the grammar; Spec/QlangMarks.lean says which marks a tree consists of. C79_compiles: the text Grammar (byte for byte that of qlang.go) compiles for every library, Unicode table and scan mode; C79_marks: for the result of any such compilation, matching the tokens of any program succeeds with all of them, and the callbacks made are exactly the marks of the tree, in its order, with its tokens and item counts; C79_accepts: with arbitrary callbacks in an arbitrary state a program is never refused; C79_unambiguous: trees with the same tokens have the same marks. Trees whose for or switch head begins with '{', or where a part of a for head is a return without value, are excluded (Tm.Ok), because the grammar reads these differently."
 ],
 "C80": [
  "proved",
  "Spec/QlangSem.lean gives syntax trees a meaning in terms of variables, functions, heap values and panics only; it knows no stack, marks, code values or grammars (except as the place that runtime errors mention). A run is bounded by a number (depth of calls, rounds of a loop); programs whose evaluation does not end get no meaning and nothing is claimed of them. C80_runs: with the compiled qlang grammar, running the text of any program from any state of an engine that is between two programs gives the value of the tree on the stack and the variables, functions and heap of the semantics, or panics with the panic of the semantics. C80_match: the same for tokens. C80_unique: the meaning depends on the tokens only. C80_setup: the parsers of function bodies that the semantics is given exist for every host. Host functions are those that work on values and heap; functions of the host that call back into the interpreter are not covered. The text must tokenize to the tokens of the tree; with the option to insert semicolons the tree has the last inserted semicolon."
 ],
 "C81": [
  "proved",
  "Spec/QlangSafe.lean says what running a tree safely means, on top of the semantics of C80. C81_safe: SafeExec of the text of any program whose safe evaluation ends returns nil, the error the panic stands for, or panics, as that meaning says, with the same variables, functions and heap. C81_panics: for every text and state, SafeExec panics only with a value that is neither string nor error (os.Exit is modelled as one of these), or because a deferred expression panics. Programs that do not end and host functions that call back into qlang are not covered, as in C80."
 ],
 "C82": [
  "partial",
  "C82_exec_partial, C82_safe_partial: after Exec, and after SafeExec of a program that has deferred nothing, Ret gives the value of the program and the engine is between two programs again. The full property is false of the code: C82_deferred (after SafeExec of a program that deferred something Ret gives the value of the deferred expression that ran last; example defer 5; 7) and C82_semicolon (the value of a program ending with a semicolon, also one that InsertSemis added, is nil); both shown on a new engine by C82_violated_deferred and C82_violated_semicolon."
 ],
 "C83": [
  "proved",
  "Spec/QlangSession.lean says what a sequence of programs gives: each begins with what the last one has left. C83_session: for every sequence of texts of programs run with Exec (then Ret or not) or SafeExec on an engine that is ready, the host sees those outcomes, and the engine is ready again after each; C83_new says it of a new engine. Ret is called only after a program that ended normally (and after SafeExec only if nothing was deferred, see C82). C83_reads: after any calls with any texts, failed or not, a text gives the same tokens as before. Not covered: what texts that are not programs leave behind, programs that do not end, programs that end the process."
 ],
 "C84": [
  "proved",
  "for any function, one mark of a match at a time; the function may run the engine again"
 ],
 "C85": [
  "partial",
  "the code violates the property (C85_violated: elements of a slice of interface{} are refused); C85_go_partial says exactly when the function is called, as reflect sees the elements"
 ],
 "C86": [
  "partial",
  "the code violates the property for octal and hexadecimal literals (C86_violated); C86_partial is the full property for decimal ones"
 ],
 "C87": [
  "proved",
  "for functions that work on a state of their own; for functions that call EvalCode see C84 and C88"
 ],
 "C88": [
  "proved",
  ""
 ],
 "C89": [
  "proved",
  ""
 ],
 "C90": [
  "proved",
  "Every accepted text is the text of a syntax tree; no text of a tree (without two indices in one pair of brackets) is refused."
 ],
 "C91": [
  "proved",
  "Lines up to 64 KB; the arithmetic of float64 and complex128 and their texts are parameters. For ratcalc the literals have to be numbers for SetString."
 ],
 "C92": [
  "partial",
  "the code violates the property (C92_violated: lines after one of 64 KB are lost); C92_answered_partial says what happens: all lines before are answered, the program ends with code 0"
 ],
 "C93": [
  "proved",
  "For every list of rationals whose texts are shorter than 64 KB."
 ],
 "C94": [
  "proved",
  "Every history of calls. How much a slice grows is a parameter."
 ],
 "C95": [
  "partial",
  "Violated: append takes nil, and ints for floats, set does not. Proved: which values each takes."
 ],
 "C96": [
  "proved",
  "For every == on floats that is symmetric and transitive."
 ],
 "C97": [
  "proved",
  ""
 ],
 "C98": [
  "partial",
  "Violated by append and by set with several pairs. Proved for all other calls; for append that only places behind the slice change."
 ],
 "C99": [
  "proved",
  "json output, html/template and the template directories are parameters; different paths are different files"
 ],
 "C100": [
  "partial",
  "proved for json output, for all errors other than those of the output format and its template, and for all errors without -ext; otherwise the code violates the property (C100_violated)"
 ],
 "C101": [
  "partial",
  "proved: a crash is a panic of extractor.New on a template or of a value function that is neither a string nor an error; the former happens (C101_violated)"
 ],
 "C102": [
  "proved",
  "go/parser and the output template are parameters; the code itself is the subject of C74"
 ],
 "C103": [
  "partial",
  "proved if the name is declared at most once; with two declarations the code violates the property (C103_violated)"
 ],
 "C104": [
  "partial",
  "proved for raw strings and strings without backslash; escapes are not replaced (C104_violated)"
 ],
 "C105": [
  "proved",
  "the file system is the content of the output file"
 ],
 "C106": [
  "partial",
  "proved when everything of that name has a value of its own, functions have bodies, literals have two quotes and GenStaticCode does not panic; otherwise the code crashes (C106_violated, C106_violated_body, C106_violated_short)"
 ],
 "C107": [
  "proved",
  "for texts that tokenize without error (C78); strconv.Unquote is modelled from its documentation and source"
 ],
 "C108": [
  "partial",
  "proved for ASCII characters and byte escapes, with the exact outcome for the others; the claim fails for them (C108_violated, C108_violated_wide)"
 ],
 "C109": [
  "partial",
  "proved for decimal literals, with the exact outcome for the others; the claim fails for octal and hexadecimal ones (C109_violated, C109_violated_hex)"
 ],
 "C110": [
  "partial",
  "proved for grammars C74 covers without the mark _tr, clients whose functions have at most one parameter behind the receiver (not *Context) and do not call the engine, default options and decimal numbers; panic values may differ; the claim fails for octal and hexadecimal numbers, InsertSemis, EvalSub/EvalCode, other functions, _tr and the empty grammar (C110_violated_*)"
 ],
 "C111": [
  "partial",
  "proved for all tokens but semicolons, the illegal token `..`, and raw strings and comments with carriage returns, with what End is for those; the claim fails for them (C111_violated)"
 ],
 "C112": [
  "partial",
  "the code violates the full statement (C112_violated_*); proved: which words become keywords, and that grammars sharing a scanner behave as with scanners of their own on texts and grammar texts that do not use each other's words as identifiers"
 ],
 "C113": [
  "proved",
  "For functions with a receiver that New accepts. float64 is a parameter; the value ParseInt gives is the subject of C50. Types that are defined as one of the predeclared types are not modelled."
 ],
 "C114": [
  "partial",
  "Layouts are read back without InsertSemis (C114_laid_out), and with it for texts that end with a semicolon (C114_semis_partial); C114_violated: with InsertSemis a block comment before a # comment prevents the automatic semicolon at the end."
 ],
 "C115": [
  "proved",
  "C115_matches for callbacks that do not look at positions; extractor, calculators and Cl; C115_layout/C115_grammar_layout combine it with C114"
 ],
 "C116": [
  "partial",
  "The code violates it: an alternative that is nothing but `!` is accepted and crashes when it is reached (C116_violated). Proved for every text without such an alternative, for matches, texts, interpreters and extractors."
 ],
 "C117": [
  "partial",
  "The code violates it: `\"+\"` and `\"1\"` are accepted and match nothing (C117_violated). C117_exact is the exact characterization for all quoted texts, C117_quoted_partial the property for words and operators in the right quotes."
 ],
 "C118": [
  "partial",
  "The code violates it for a shared Matcher (C118_violated) and a shared grammar whose actions read Len (C118_violated_len). Proved for every schedule if each goroutine has its own Matcher (C118_own_partial), and for a shared grammar on tokens if no action reads Len (C118_shared_partial)."
 ],
 "C119": [
  "partial",
  "The code violates it for `1e`, for octal and hexadecimal numbers from 2^63 on, and for octal and hexadecimal Float leaves (C119_violated, C119_violated_octal, C119_violated_leaf). Proved for all other numbers, for each of the four ways numbers are used."
 ],
 "C120": [
  "partial",
  "Violated at the end of the text (line 0). Proved: what every message says, for all errors that are about a token; the excerpt is determined (C120_unique)."
 ],
 "C121": [
  "partial",
  "Violated by octal and, before Go 1.14, hexadecimal numbers. Proved for all other numbers of any length, and exactly which value every literal gets (C121_literal_partial)."
 ],
 "C122": [
  "proved",
  "A byte order mark in front of the second text is an error in the middle of a text; the hypothesis excludes it."
 ],
 "C123": [
  "partial",
  "Violated (C123_violated, C123_violated_panic). The message is the same again as long as the scanner holds the text of the match. That File.Line of a runtime error panics when the text is shorter is not modelled: FileLine is only used for positions of the same text."
 ],
 "C124": [
  "proved",
  "Exec only: SafeExec runs the deferred expressions at the end of each part. So that functions and errors have the same places, the second part is given behind the first part made blank. C124_not_closed: `1 /**/ #` gets no inserted semicolon at its end, and cannot be followed by `2`."
 ],
 "C125": [
  "partial",
  "Violated (C125_violated) for texts with a word as identifier that only the added rules have in quotes. C125_text_partial has all other texts; the rules and what they do with tokens are as before without exception (C125_rules, C125_matches). Marked functions may use rules of the first text (EvalSub)."
 ],
 "C126": [
  "partial",
  "Violated (C126_violated_true, C126_violated_doc, C126_violated_bang) for a rule named true, for references to doc up to the end of its rule, and for a lone ! as a rule. All other texts whose rules have different names: C126_compiles_partial, C126_traces_partial, C126_text_partial; the marked functions do not look at the numbers of token kinds."
 ],
 "C127": [
  "proved",
  "C127_compiles, C127_rules, C127_traces, C127_text."
 ],
 "C128": [
  "partial",
  "Violated (C128_violated_mark, C128_violated_bang, C128_violated_true, C128_violated_doc) for a reference with a mark, a lone ! as a rule, a rule named true and a rule that refers to doc. All other references, any number of them: C128_traces_partial, C128_text_partial (both directions), C128_compiles_partial; the same words are quoted in both texts, and the marked functions do not look at the numbers of token kinds."
 ],
 "C129": [
  "partial",
  "Violated (C129_forever) by a return in a deferred expression of the program. All programs without such a return: C129_ends_partial."
 ],
 "C130": [
  "partial",
  "Violated where marks count the items of a group (C130_violated_mark, C130_violated_alts) and for `!` in a group (C130_violated_bang). All other groups: C130_traces_partial, C130_text_partial, C130_compiles_partial."
 ],
 "C131": [
  "partial",
  "Violated where a mark counts the elements of the operator (C131_violated_mark, C131_violated_items), for a list of nothing but `!` (C131_violated_bang) and for a common beginning with a mark (C131_violated_factor). Everywhere else: C131_traces_partial, C131_text_partial, C131_compiles_partial, and for combinators C131_peek, C131_not_or_partial, C131_option_partial, C131_star_partial, C131_factor_partial, C131_tail_partial (C29 has lists). Not covered: common beginnings that refer to rules, unless the rules are written out first (C128). Strengthens C29 from operators to grammar texts."
 ],
 "C132": [
  "partial",
  "Violated for texts that cannot be tokenized (C132_violated; C132_stale says that Result is then always the old one). All other ways to end: C132_found_partial with C132_unique."
 ],
 "C133": [
  "partial",
  "Violated for imports of symbols that panic (C133_violated). Modules: C133_module. Independence of the order: C133_order_partial. What can be left by a panic: C133_between_partial."
 ],
 "C134": [
  "partial",
  "Violated where an old alternative matches a beginning of the text (C134_violated) and for words that only the added alternatives have in quotes (C134_violated_word). As before where an old alternative matches or panics: C134_same_partial, C134_accepts_partial. As the added alternatives alone where none does: C134_next_partial. Accepted exactly if the old alternatives accept, or none of them matches and the added ones accept: C134_exactly_partial. The new text compiles if the other two do: C134_compiles_partial."
 ],
 "C135": [
  "proved",
  "C135_paren, C135_neg, C135_op, C135_call, C135_replace. In number and cmplx the counts of arguments have to survive the conversion to float64 and back (they do up to 2^53), as in C53."
 ],
 "C136": [
  "proved",
  "C136_value, C136_reuse. (*big.Rat).SetString is only assumed to read decimal digits, as in C93."
 ],
 "C137": [
  "partial",
  "Violated by a return in a deferred expression, which ends the caller too (C137_violated). Proved for every call at the beginning of a program of a function with as many parameters as arguments, with every body and every continuation, if what is deferred ends by itself (C137_any_call_partial; for function literals without parameters also C137_goes_on_partial, C137_deferred_partial, C137_fails_partial). For calls at any place of a program: a return goes on behind the call only if the function has deferred something (C137_leaves_partial, also for variadic functions). Missing: what the program does behind calls at other places."
 ]
}