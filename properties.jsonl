{"id": "C01", "title": "Token names and kinds are inverse", "statement": "Lit2Token(Token2Lit(k)) == k for every kind k that has a name in the token table, two different named kinds have different names, and Lit2Token of any string that is not a token name is ILLEGAL.", "quantifier": "every token kind, every string", "why_tests_cant": "the reverse table is consulted with arbitrary user strings; a test only samples names", "anchors": ["tpl/token.go: tokens, Token2Lit, Lit2Token, init"]}
{"id": "C02", "title": "TokenLen is the operator's spelling length and 0 otherwise", "statement": "TokenLen(k) is the number of bytes an operator of kind k has in source text, and 0 for every kind that is not an operator; it never panics. (Expected to fail at unnamed kinds inside the table and at k = len(table).)", "quantifier": "every token kind (uint)", "why_tests_cant": "kinds are an open set: user keywords start at 0xb0 and callers pass arbitrary kinds", "anchors": ["tpl/token.go: TokenLen", "tpl/scanner.go: Token.End"]}
{"id": "C03", "title": "Tokenizing always terminates", "statement": "For every byte string and every scan mode, repeated Scan reaches EOF after finitely many calls (at most two per source byte plus two), and every single Scan call returns.", "quantifier": "every byte string, every mode, including malformed UTF-8, NUL bytes, unterminated literals and comments", "why_tests_cant": "infinite loops depend on the particular malformed input", "anchors": ["tpl/scanner.go: Scan, next, skipWhitespace, scanComment, scanString, scanRawString, scanRune, scanNumber, findLineEnd", "tpl/match.go: Matcher.Tokenize"]}
{"id": "C04", "title": "Token positions are ordered and inside the file", "statement": "Token positions returned by successive Scan calls never decrease, each lies between the start and the end of the source, and tokens do not overlap: the text a token was read from ends at or before the position of the next token.", "quantifier": "every byte string, every mode, every prefix of the Scan call sequence", "why_tests_cant": "needs an invariant over scanner states; findLineEnd and '#' rewind the scanner", "anchors": ["tpl/scanner.go: Scan, next, findLineEnd"]}
{"id": "C05", "title": "Literals are verbatim source text", "statement": "For an IDENT, INT, FLOAT, IMAG, CHAR or STRING token the literal is exactly the source bytes starting at the token's position; for a raw string or COMMENT it is those bytes with carriage returns removed at most.", "quantifier": "every byte string, every mode, every token produced", "why_tests_cant": "slicing by tracked offsets is only right if the offset bookkeeping is right for every input", "anchors": ["tpl/scanner.go: scanIdentifier, scanNumber, scanString, scanRune, scanRawString, scanComment, scanSharpComment, stripCR"]}
{"id": "C06", "title": "No source text is lost", "statement": "Between the end of one token and the start of the next the source contains only white space and (skipped) comments: every other byte belongs to exactly one token.", "quantifier": "every byte string, every mode", "why_tests_cant": "coverage of all bytes is a statement about all inputs", "anchors": ["tpl/scanner.go: Scan, skipWhitespace, scanComment, scanSharpComment"]}
{"id": "C07", "title": "EOF is sticky", "statement": "After Scan has returned EOF every further Scan returns EOF at the same position and changes nothing observable.", "quantifier": "every reachable scanner state at end of input, any number of further calls", "why_tests_cant": "histories of arbitrary length", "anchors": ["tpl/scanner.go: Scan, next"]}
{"id": "C08", "title": "InsertSemis only adds semicolons", "statement": "Deleting the automatically inserted semicolons (literal \"\\n\") from the token sequence produced with InsertSemis gives exactly the token sequence produced without it.", "quantifier": "every byte string, with or without ScanComments", "why_tests_cant": "relates two runs of the scanner over all inputs; the insertSemi flag changes white space skipping and comment look-ahead", "anchors": ["tpl/scanner.go: Scan, skipWhitespace, findLineEnd"]}
{"id": "C09", "title": "ScanComments only adds comments", "statement": "Deleting COMMENT tokens from the token sequence produced with ScanComments gives exactly the sequence produced without it.", "quantifier": "every byte string, with or without InsertSemis", "why_tests_cant": "relates two runs of the scanner over all inputs", "anchors": ["tpl/scanner.go: Scan, scanComment, scanSharpComment"]}
{"id": "C10", "title": "No semicolon is invented without InsertSemis", "statement": "Without the InsertSemis flag every SEMICOLON token stands for a ';' in the source and has literal \";\".", "quantifier": "every byte string, every mode without InsertSemis", "why_tests_cant": "absence over all inputs", "anchors": ["tpl/scanner.go: Scan"]}
{"id": "C11", "title": "Automatic semicolons appear only after operands", "statement": "With InsertSemis a semicolon with literal \"\\n\" directly follows a token that can end a statement (identifier, literal, ')', ']', '}', \"++\", \"--\"), and stands at a newline, at a comment or at end of input; an operand directly followed by a newline is always followed by such a semicolon. (The second half is expected to fail when a block comment and a '#' comment separate operand and newline.)", "quantifier": "every byte string", "why_tests_cant": "the interplay of comments, newlines and EOF has unboundedly many shapes", "anchors": ["tpl/scanner.go: Scan, findLineEnd"]}
{"id": "C12", "title": "Operators are scanned by longest match", "statement": "When Scan returns an operator token, the source at its position spells exactly that operator, and no longer operator of the token table is spelled there.", "quantifier": "every byte string", "why_tests_cant": "every following byte must be considered", "anchors": ["tpl/scanner.go: Scan, switch2, switch3, switch4", "tpl/token.go: tokens"]}
{"id": "C13", "title": "Identifiers and numbers are scanned maximally", "statement": "An IDENT literal is the longest run of letters and digits at its position and starts with a letter; the character after an INT literal cannot extend it.", "quantifier": "every byte string", "why_tests_cant": "all continuations", "anchors": ["tpl/scanner.go: scanIdentifier, scanNumber, isLetter, isDigit"]}
{"id": "C14", "title": "Error accounting", "statement": "ErrorCount equals the number of error handler calls since Init, and Tokenize returns an error exactly when scanning the text reports at least one error; without error it returns every token up to EOF.", "quantifier": "every byte string, every mode", "why_tests_cant": "existence of an error anywhere in the input", "anchors": ["tpl/scanner.go: error, Init", "tpl/match.go: Tokenize"]}
{"id": "C15", "title": "Illegal tokens are always reported", "statement": "If Tokenize succeeds no token of kind ILLEGAL is in its result. (Expected to fail for the text \"..\".)", "quantifier": "every byte string", "why_tests_cant": "absence over all inputs", "anchors": ["tpl/scanner.go: Scan (case '.')", "tpl/match.go: Tokenize"]}
{"id": "C16", "title": "String and char literals of accepted text are closed", "statement": "If Tokenize succeeds, every STRING literal starts and ends with the same quote and an interpreted string contains no raw newline; every CHAR literal is enclosed in single quotes.", "quantifier": "every byte string", "why_tests_cant": "all escape sequences and unterminated forms", "anchors": ["tpl/scanner.go: scanString, scanRune, scanRawString, scanEscape"]}
{"id": "C17", "title": "Number literals of accepted text are well formed", "statement": "If Tokenize succeeds every INT literal is a decimal, octal or hexadecimal numeral of the documented shape (no bare 0x, no digit 8 or 9 after a leading 0).", "quantifier": "every byte string", "why_tests_cant": "all digit strings", "anchors": ["tpl/scanner.go: scanNumber, scanMantissa"]}
{"id": "C18", "title": "Line numbers are right", "statement": "The line reported for a token is one plus the number of newlines before its position (texts without //line directives).", "quantifier": "every byte string, every token", "why_tests_cant": "depends on the line table being updated at every newline under look-ahead and rewinding", "anchors": ["tpl/scanner.go: next, Init", "tpl/grammar.go: FileLine"]}
{"id": "C19", "title": "A reused scanner behaves like a fresh one", "statement": "Tokenize gives the same tokens and error for a text whatever the scanner was used for before.", "quantifier": "every byte string, every prior scanner state", "why_tests_cant": "all histories", "anchors": ["tpl/scanner.go: Init", "tpl/match.go: Tokenize"]}
{"id": "C20", "title": "Keyword kinds are unique, stable and invertible", "statement": "Ltot gives each keyword a kind of its own, at least 0xb0 and different from every built-in kind, the same one each time it is asked for; Ttol of that kind is the quoted keyword again.", "quantifier": "every sequence of Ltot requests", "why_tests_cant": "arbitrary histories of keyword registrations", "anchors": ["tpl/compiler.go: AutoKwScanner.Ltot, AutoKwScanner.Ttol"]}
{"id": "C21", "title": "Keyword recognition touches identifiers only", "statement": "AutoKwScanner.Scan differs from Scanner.Scan only in the kind of IDENT tokens whose text is a registered keyword; then the kind is that keyword's kind, so IDENT no longer matches it.", "quantifier": "every scanner state, every keyword table", "why_tests_cant": "all texts and tables", "anchors": ["tpl/compiler.go: AutoKwScanner.Scan"]}
{"id": "C22", "title": "Match never reads outside its input", "statement": "Whatever a grammar matches or fails at, the reported count lies between 0 and the number of tokens given, so no slice expression inside Match is out of range.", "quantifier": "every grammar, every token sequence, every action behaviour", "why_tests_cant": "all nestings of all combinators", "anchors": ["tpl/grammar.go: Match methods"]}
{"id": "C23", "title": "Matching is parsing-expression-grammar matching", "statement": "A grammar built from the combinators matches exactly the prefix that standard PEG semantics (ordered choice, greedy repetition, syntactic predicates, cut) prescribes, and fails or aborts exactly when that semantics does.", "quantifier": "every grammar, every token sequence", "why_tests_cant": "semantic equivalence over all grammars and inputs", "anchors": ["tpl/grammar.go: Match methods", "tpl/README.md"]}
{"id": "C24", "title": "Matching is deterministic in grammar and tokens", "statement": "The matched length does not depend on token positions, on tokens' literals, on earlier matches with the same grammar object, or on what well-behaved actions do.", "quantifier": "every grammar, tokens, internal state left by earlier matches", "why_tests_cant": "all histories of a shared grammar object", "anchors": ["tpl/grammar.go: Match methods"]}
{"id": "C25", "title": "Predicates consume nothing", "statement": "@G matches iff G matches, ~G matches iff G fails, and both leave the input position unchanged; @G is equivalent to ~~G.", "quantifier": "every grammar, every token sequence", "why_tests_cant": "all grammars", "anchors": ["tpl/grammar.go: grPeek.Match, grNot.Match"]}
{"id": "C26", "title": "Choice is ordered", "statement": "G1|...|Gn behaves as the first alternative that matches and fails only if all fail; an alternative after the first success is not tried.", "quantifier": "every list of grammars, every token sequence", "why_tests_cant": "all alternatives", "anchors": ["tpl/grammar.go: grOr.Match"]}
{"id": "C27", "title": "Choice reports the furthest failure", "statement": "When all alternatives fail, the reported position is the largest position any alternative failed at; the reported error is that alternative's own when it is the only one that got past the start, i.e. uniquely furthest.", "quantifier": "every list of failing grammars", "why_tests_cant": "all alternatives", "anchors": ["tpl/grammar.go: grOr.Match"]}
{"id": "C28", "title": "Repetition is greedy and maximal", "statement": "*G consumes the concatenation of successive matches of G until G fails at the remaining input, never fails, and +G is G *G.", "quantifier": "every grammar, every token sequence", "why_tests_cant": "unbounded iteration", "anchors": ["tpl/grammar.go: grRepeat0.Match, grRepeat1.Match"]}
{"id": "C29", "title": "List laws", "statement": "G1 % G2 behaves as G1 *(G2 G1) and G1 %= G2 as ?(G1 % G2), as the README states.", "quantifier": "all grammars, every token sequence", "why_tests_cant": "equivalence over all operands", "anchors": ["tpl/grammar.go: grList.Match", "tpl/README.md"]}
{"id": "C30", "title": "Well-formed grammars always terminate", "statement": "If no rule can reach itself without consuming a token and no repeated grammar can match empty, Match terminates on every input.", "quantifier": "every well-formed grammar, every token sequence", "why_tests_cant": "termination", "anchors": ["tpl/grammar.go: Match methods"]}
{"id": "C31", "title": "Repeating an empty match never returns", "statement": "If G matches the empty prefix at some input then *G, +G on that input do not terminate (no guard exists); a left recursive variable does not terminate either.", "quantifier": "every grammar matching empty", "why_tests_cant": "non-termination cannot be observed by a test", "anchors": ["tpl/grammar.go: grRepeat0.Match, GrVar.Match"]}
{"id": "C32", "title": "Len reports the last match's item count", "statement": "When the action of G/mark runs, Len of *G, +G, ?G, G1%G2, G1%=G2 is the number of items of this very match, even when the same grammar object was matched recursively inside.", "quantifier": "every grammar, every input, every recursion depth", "why_tests_cant": "re-entrancy over arbitrarily nested inputs", "anchors": ["tpl/grammar.go: Len, grAction.Match, grRepeat0, grRepeat1, grRepeat01, grList"]}
{"id": "C33", "title": "Fail-fast cannot be backtracked", "statement": "After the part of a sequence before '!' has matched, failure of a later part aborts the whole match with a MatchError panic: no enclosing choice, repetition or predicate continues.", "quantifier": "every grammar, every token sequence", "why_tests_cant": "all enclosing contexts", "anchors": ["tpl/grammar.go: grAnd.Match"]}
{"id": "C34", "title": "Actions run exactly on matches, inner first, with the matched tokens", "statement": "An action runs once per successful match of its grammar, immediately after it, with exactly the matched tokens, after the actions of its parts and in input order; actions of abandoned alternatives have run as well.", "quantifier": "every grammar, every input", "why_tests_cant": "all traces", "anchors": ["tpl/grammar.go: grAction.Match"]}
{"id": "C35", "title": "Transactions are balanced", "statement": "Begin and end callbacks nest like brackets, end receives exactly the value its begin returned and an error iff the grammar failed; an abort leaves the open ones unclosed, innermost last.", "quantifier": "every grammar, every input", "why_tests_cant": "all traces", "anchors": ["tpl/grammar.go: grTrans.Match"]}
{"id": "C36", "title": "A grammar variable is assigned once", "statement": "GrVar.Assign succeeds exactly on the first call and later calls return ErrVarAssigned and change nothing; matching an unassigned variable fails with ErrVarNotAssigned.", "quantifier": "every sequence of Assign calls", "why_tests_cant": "histories", "anchors": ["tpl/grammar.go: GrVar.Assign, GrVar.Match"]}
{"id": "C37", "title": "MatchExactly accepts exactly full matches", "statement": "MatchExactly returns nil iff the text tokenizes without error and the grammar matches all tokens; Match returns the unmatched rest.", "quantifier": "every grammar, every text", "why_tests_cant": "all texts", "anchors": ["tpl/match.go: Match, MatchExactly, Eval"]}
{"id": "C38", "title": "Error messages can always be rendered", "statement": "MatchError.Error() never panics for an error produced by matching. (Expected to fail: a fail-fast failure at end of input.)", "quantifier": "every error any match can produce", "why_tests_cant": "all failure positions", "anchors": ["tpl/grammar.go: MatchError.Error, calcErrorInfo, nextLines, grAnd.Match"]}
{"id": "C39", "title": "Source returns the matched text", "statement": "For the tokens an action receives Source returns the source text from the first token up to the start of the token after the last one, and never panics.", "quantifier": "every text, every contiguous run of its tokens", "why_tests_cant": "the sentinel behind the slice must exist for every run", "anchors": ["tpl/grammar.go: Source", "tpl/match.go: Tokenize"]}
{"id": "C40", "title": "The grammar compiler implements the documented precedence", "statement": "Cl accepts exactly the texts of the documented TPL syntax and the grammar it builds is the one the precedence rules prescribe: prefix operators, then % %= and /mark (left associative), then sequence, then |.", "quantifier": "every token sequence of grammar text", "why_tests_cant": "all nestings of the syntax", "anchors": ["tpl/compiler.go: Cl", "tpl/README.md"]}
{"id": "C41", "title": "The compiler never underflows its stack", "statement": "No action of Cl indexes outside the operand stack, and after a successful compilation the stack is empty.", "quantifier": "every grammar text", "why_tests_cant": "all texts, including rejected ones", "anchors": ["tpl/compiler.go: Cl"]}
{"id": "C42", "title": "Cl terminates on every text", "statement": "Compiling terminates for every byte string.", "quantifier": "every byte string", "why_tests_cant": "termination", "anchors": ["tpl/compiler.go: Cl"]}
{"id": "C43", "title": "Undefined and duplicate rules are rejected", "statement": "A successful Cl result has every referenced rule defined exactly once; a rule defined twice makes Cl panic, an undefined one makes it return an error.", "quantifier": "every grammar text", "why_tests_cant": "all rule sets", "anchors": ["tpl/compiler.go: Cl (assign, ident)"]}
{"id": "C44", "title": "doc rule is required", "statement": "Cl succeeds only if a rule doc is defined; a doc rule that is referenced before its definition ends (e.g. a recursive doc) is reported as missing.", "quantifier": "every grammar text", "why_tests_cant": "all rule orders", "anchors": ["tpl/compiler.go: Cl"]}
{"id": "C45", "title": "Printing a grammar and compiling it again gives an equivalent grammar", "statement": "Code(g) compiled again matches the same inputs as g. (Expected to fail for ++G, for lists nested on the right, for '!' and for EOF.)", "quantifier": "every compiled grammar", "why_tests_cant": "all grammars", "anchors": ["tpl/grammar.go: Marshal methods", "tpl/compiler.go: Cl"]}
{"id": "C46", "title": "EOF in grammar text means end of input", "statement": "A rule EOF in TPL text matches exactly at the end of the tokens, as the README says. (Expected to fail: it compiles to a token kind that never occurs.)", "quantifier": "every token sequence", "why_tests_cant": "all inputs", "anchors": ["tpl/compiler.go: Cl (ident)", "tpl/README.md"]}
{"id": "C47", "title": "EvalSub runs exactly the named rule", "statement": "EvalSub on tokens returns nil iff the rule exists and matches all of them; on text iff the text tokenizes and matches; other sources are rejected.", "quantifier": "every rule name, every source", "why_tests_cant": "all inputs", "anchors": ["tpl/compiler.go: CompileRet.EvalSub"]}
{"id": "C48", "title": "Muting", "statement": "A marked action runs iff the mute counter is 0 (or less), or is 1 and the mark starts with '_'; _mute and _unmute change the counter by one; each match starts with the counter 0.", "quantifier": "every mark, every history of marks", "why_tests_cant": "arbitrary sequences of marks", "anchors": ["tpl/interpreter/interpreter.go: New (marker, initer)", "tpl/README.md"]}
{"id": "C49", "title": "EvalCode restores the engine", "statement": "After EvalCode returns or panics the engine's interpreter and mute counter are what they were before.", "quantifier": "every source, every outcome including panics", "why_tests_cant": "all outcomes", "anchors": ["tpl/interpreter/interpreter.go: EvalCode"]}
{"id": "C50", "title": "ParseInt gives the value of the literal", "statement": "For every INT literal the scanner can produce ParseInt returns its value (decimal, octal with leading 0, hexadecimal with 0x) if it is below 2^63 and an error otherwise.", "quantifier": "every INT literal", "why_tests_cant": "unbounded digit strings, overflow boundary", "anchors": ["tpl/interpreter/interpreter.go: ParseInt"]}
{"id": "C51", "title": "Function calls respect the stack", "statement": "Call checks the argument count, pops exactly that many values in push order and pushes exactly the results; on a count error the stack is unchanged.", "quantifier": "every stack, function arity, variadic or not", "why_tests_cant": "all stacks and arities", "anchors": ["tpl/interpreter.util/call.go: Call, DoCall", "tpl/number/number.go: Stack.PopArgs, PushRet"]}
{"id": "C52", "title": "Runtime panics are wrapped once", "statement": "A panic in a marked function reaches the caller as a RuntimeError carrying the matched tokens, except that RuntimeError and MatchError panics pass through unchanged.", "quantifier": "every panic value, every nesting depth", "why_tests_cant": "all nestings", "anchors": ["tpl/interpreter/interpreter.go: New (action)"]}
{"id": "C53", "title": "Calculators compute the value of the expression", "statement": "For every arithmetic expression with +, -, *, /, (and % for number), unary signs, parentheses and function calls, Eval succeeds and Ret is its value under the usual precedence and left associativity.", "quantifier": "every expression tree, every parenthesization, any nesting depth", "why_tests_cant": "unbounded expressions", "anchors": ["tpl/number/number.go: Grammar, Fntable, Calculator", "tpl/rat/big.go", "tpl/cmplx/cmplx.go"]}
{"id": "C54", "title": "Calculator results do not depend on history", "statement": "The value returned for an expression does not depend on what is left on the stack by earlier, possibly failed, evaluations.", "quantifier": "every stack content, every expression", "why_tests_cant": "all histories", "anchors": ["tpl/number/number.go: Calculator.Ret, Stack"]}
{"id": "C55", "title": "Calculators accept exactly arithmetic expressions", "statement": "Eval returns an error or panics for every token sequence that is not an expression of the grammar.", "quantifier": "every token sequence", "why_tests_cant": "all inputs", "anchors": ["tpl/number/number.go: Grammar", "tpl/match.go: MatchExactly"]}
{"id": "C56", "title": "Function calls in calculators get their arguments in order", "statement": "f(e1,...,en) calls f with the values of e1..en in order, for any n including 0 for variadic functions; a wrong count is an error.", "quantifier": "every n, nested calls", "why_tests_cant": "unbounded argument lists and nesting", "anchors": ["tpl/number/number.go: Call, Arity", "tpl/interpreter.util/call.go"]}
{"id": "C57", "title": "max and min", "statement": "max/min of the rational calculator return an argument that is >= / <= all arguments, and 0 for no arguments.", "quantifier": "every argument list", "why_tests_cant": "all lists", "anchors": ["tpl/rat/big.go: Max, Min", "tpl/number/number.go: Max, Min"]}
{"id": "C58", "title": "A failed node leaves no trace", "statement": "When a grammar marked as node fails, the document is exactly what it was before the attempt.", "quantifier": "every grammar, every input, every nesting of nodes", "why_tests_cant": "all backtracking histories", "anchors": ["tpl/extractor/extractor.go: New (marker)", "tpl/extractor/document.go"]}
{"id": "C59", "title": "A failed leaf leaves no trace", "statement": "A leaf of an abandoned alternative does not appear in the result. (Expected to fail: only nodes are transactional.)", "quantifier": "every grammar, every input", "why_tests_cant": "all backtracking histories", "anchors": ["tpl/extractor/extractor.go: New (marker)"]}
{"id": "C60", "title": "Array items are complete and in input order", "statement": "For an array tag whose items were inserted consecutively the result holds all items in input order. (For interleaved tags items are lost.)", "quantifier": "every sequence of insertions", "why_tests_cant": "unbounded sequences", "anchors": ["tpl/extractor/document.go: toMap, arrayCollect, insertLeaf, insertNode"]}
{"id": "C61", "title": "First value wins", "statement": "When a non-array tag is inserted several times in one node the result holds the first inserted value.", "quantifier": "every sequence of insertions", "why_tests_cant": "unbounded sequences", "anchors": ["tpl/extractor/document.go: toMap"]}
{"id": "C62", "title": "Parsing starts from an empty document", "statement": "The result of Parse does not depend on earlier parses with the same engine, including ones that failed or panicked inside a node.", "quantifier": "every prior engine state", "why_tests_cant": "all histories", "anchors": ["tpl/extractor/extractor.go: New (initer), SafeParse"]}
{"id": "C63", "title": "Integer arithmetic of qlang", "statement": "On ints + - * are two's complement 64 bit, / truncates toward zero and % takes the sign of the dividend with a == (a/b)*b + a%b; division by zero and mixed unsupported types panic.", "quantifier": "all pairs of operands", "why_tests_cant": "2^128 pairs, overflow", "anchors": ["tpl/qlang/lib/builtin/number.go: Add, Sub, Mul, Quo, Mod, Neg, Inc, Dec"]}
{"id": "C64", "title": "Comparison operators are consistent", "statement": "For ints, bytes and strings exactly one of a<b, a==b, a>b holds, and <= >= are their unions. (Expected to fail between int and byte, where == compares types too.)", "quantifier": "all pairs of operands", "why_tests_cant": "all pairs", "anchors": ["tpl/qlang/lib/builtin/boolean.go: LT, GT, LE, GE, EQ, NE"]}
{"id": "C65", "title": "qlang max/min", "statement": "max/min of ints return an element that bounds all others; mixed int and float arguments are promoted to float; other types panic.", "quantifier": "every argument list", "why_tests_cant": "all lists", "anchors": ["tpl/qlang/lib/builtin/number.go: Max, Min, kindOfArgs"]}
{"id": "C66", "title": "Reading a variable gives the last assignment", "statement": "Ref after Assign of a name in the same scope returns the assigned value; assignments to other names do not affect it.", "quantifier": "every sequence of assignments", "why_tests_cant": "histories", "anchors": ["tpl/qlang/cl/function.go: Assign, Ref, getVars, getRef"]}
{"id": "C67", "title": "Closures share the variables of enclosing functions", "statement": "After a function has read an outer variable, assignments to it change the outer variable; assigning an outer variable not read before panics; names starting with '_' are never inherited.", "quantifier": "every chain of scopes, every history", "why_tests_cant": "arbitrary nesting and histories", "anchors": ["tpl/qlang/cl/function.go: getVars, getRef, externVar"]}
{"id": "C68", "title": "Deferred expressions run last-in first-out, once", "statement": "When a function ends all deferred expressions run in reverse order of their defer statements and none stays registered.", "quantifier": "every history of defers", "why_tests_cant": "histories", "anchors": ["tpl/qlang/cl/function.go: Defer, ExecDefers, Function.Call"]}
{"id": "C69", "title": "Calls check argument counts and restore the stack", "statement": "A qlang function call panics unless the argument count fits, binds parameters in order (rest as slice for variadic) and leaves the operand stack height unchanged.", "quantifier": "every function, argument list", "why_tests_cant": "all arities", "anchors": ["tpl/qlang/cl/function.go: Function.Call"]}
{"id": "C70", "title": "Short circuit", "statement": "a && b does not evaluate b when a is false, a || b does not when a is true; the value is the boolean result.", "quantifier": "every a, b", "why_tests_cant": "all operands", "anchors": ["tpl/qlang/cl/ctrl.go: And, Or"]}
{"id": "C71", "title": "if / switch / for evaluate exactly the chosen code", "statement": "if evaluates the conditions in order up to the first true one and only its body; for repeats body and step while the condition holds.", "quantifier": "every program", "why_tests_cant": "unbounded loops and branch lists", "anchors": ["tpl/qlang/cl/ctrl.go: If, Switch, For"]}
{"id": "C72", "title": "Slice and map literals", "statement": "[e1,...,en] builds a slice of the n values in order, of the common element type; {k1:v1,...} maps every key to its last value.", "quantifier": "every n", "why_tests_cant": "unbounded", "anchors": ["tpl/qlang/lib/builtin/builtin.go: SliceFrom, MapFrom, Append", "tpl/qlang/lib/builtin/number.go: kindOfArgs, kindOf2Args"]}
{"id": "C73", "title": "Imports never overwrite", "statement": "spec.Import adds symbols without replacing any existing non-placeholder symbol; it panics instead.", "quantifier": "every table, every import history", "why_tests_cant": "histories", "anchors": ["tpl/qlang/spec/spec.go: Import"]}
{"id": "C74", "title": "Static generation mirrors compilation", "statement": "GenStaticCode emits Go code that builds the grammar Cl would build. (Expected to fail for +G, quoted operators or keywords, and references to variables already assigned.)", "quantifier": "every grammar text", "why_tests_cant": "all texts", "anchors": ["tpl/generator/static_parser_gen.go: GenStaticCode"]}
{"id": "C75", "title": "The result is the document of the match", "statement": "Parse returns a map exactly when the whole input matches and no value function panics; the map is the tree of nodes and leaves the match created, in input order, without the nodes that failed.", "quantifier": "every grammar, every input, every value function", "why_tests_cant": "all inputs and all backtracking histories", "anchors": ["tpl/extractor/extractor.go: New, Parse, Result", "tpl/extractor/document.go: toMap"]}
{"id": "C76", "title": "SafeParse does not panic", "statement": "SafeParse panics only if the value function panics with a value that is neither a string nor an error; otherwise it returns what Parse returns, with a panic turned into an error.", "quantifier": "every grammar, every input, every engine state", "why_tests_cant": "all inputs", "anchors": ["tpl/extractor/extractor.go: SafeParse, Extract"]}
{"id": "C77", "title": "Marks are decoded as documented", "statement": "tag_Type marks a value, tag_Types and tag_TypeArray mark array items, of the given type under the given tag (which may itself contain underscores); Node makes a node, everything else a leaf; a mark without underscore is refused.", "quantifier": "every mark", "why_tests_cant": "unbounded strings", "anchors": ["tpl/extractor/extractor.go: New (marker)"]}
{"id": "C78", "title": "Exactly the well-formed texts are accepted", "statement": "Tokenize succeeds on a text exactly if the text is UTF-8 without NUL characters and inner byte order marks and is a sequence of well-formed tokens, white space and comments of the lexical grammar; the tokens it returns are then the only token sequence the lexical grammar gives the text.", "quantifier": "every text, every mode, every keyword table", "why_tests_cant": "all texts: tests can neither show that no malformed text is accepted nor that no well-formed text is refused", "anchors": ["tpl/scanner.go: Scan, Init", "tpl/match.go: Matcher.Tokenize"]}
{"id": "C79", "title": "Every qlang program is accepted and read with the documented precedence", "statement": "Every program that can be written as a syntax tree of qlang (expressions with the precedences || < && < comparisons < + - < * / % < unary, calls, indexing, functions, classes, control statements) is accepted by the qlang grammar, and the marks run in the order of the tree, each with the tokens of its part of the tree.", "quantifier": "every program, any size and nesting", "why_tests_cant": "unbounded programs", "anchors": ["tpl/qlang/cl/qlang.go: Grammar", "tpl/interpreter/interpreter.go: New"]}
{"id": "C80", "title": "Running a program does what its source says", "statement": "Running a qlang program has the effect of evaluating its syntax tree: operands left to right, only the chosen branches, assignments to the variables of the current function, calls with a new set of variables, deferred expressions at the end; the value is the value of the last statement, and a panic ends it at the place where it happens.", "quantifier": "every program whose evaluation ends, every library, every state of the variables", "why_tests_cant": "unbounded programs and executions", "anchors": ["tpl/qlang/cl/qlang.go: Grammar, Interpreter", "tpl/qlang/cl/ctrl.go", "tpl/qlang/cl/function.go", "tpl/interpreter/interpreter.go: New, EvalCode"]}
{"id": "C81", "title": "SafeExec runs what was deferred and returns panics as errors", "statement": "SafeExec runs the program and then its deferred expressions, the newest first, also when the program panicked. A panic with a string or an error that no deferred expression recovered is returned as an error; SafeExec itself panics only with other values, or when a deferred expression panics; the end of the process is not stopped.", "quantifier": "every program whose evaluation ends, every engine state between two programs; for the causes of a panic, every text and state", "why_tests_cant": "all programs and all places where a panic can happen", "anchors": ["tpl/qlang/engine.go: Exec, SafeExec, SafeEval", "tpl/qlang/cl/function.go: ExecDefers"]}
{"id": "C82", "title": "Ret gives the value of the program", "statement": "After a program has been run with Exec or SafeExec without an error, Ret returns the value of its last statement, and the engine is then ready for another program. (Fails for SafeExec of programs with deferred expressions, and for programs that end with a semicolon, also an automatic one.)", "quantifier": "every program whose evaluation ends normally, every engine state between two programs", "why_tests_cant": "all programs", "anchors": ["tpl/qlang/cl/qlang.go: Ret, Grammar (doc)", "tpl/qlang/engine.go: Exec, SafeExec", "tpl/qlang/cl/function.go: Clear, ExecDefers"]}
{"id": "C83", "title": "Programs on one engine follow each other", "statement": "Of programs run one after the other on one engine, with Exec or SafeExec, each has the outcome its source means when it begins with the variables, functions and heap the program before it has left, whether that one ended with a value, an error or a panic; Ret is optional. Whatever texts were run before, every text is read into the same tokens as on a new engine.", "quantifier": "every sequence of programs whose evaluations end, every mixture of Exec, SafeExec and Ret; for reading, every history of calls with any texts", "why_tests_cant": "all histories, also those with failed programs in between", "anchors": ["tpl/qlang/engine.go: Exec, SafeExec", "tpl/qlang/cl/qlang.go: Ret", "tpl/qlang/cl/function.go: Clear", "tpl/compiler.go: AutoKwScanner"]}
{"id": "C84", "title": "Functions of an interpreter written in qlang get what the name of the mark asks for", "statement": "A mark on a rule calls the function of that name in the table after the rule has matched. A method of the stack or of the interpreter gets its object and, if it has a second parameter, the number of items, the matched tokens, the engine, or the first matched token as float, int or text, as the name says (ARITY, ...Src, ...Engine, ...Float, ...Int, others); another function gets its parameters from the stack in order and its value is pushed. Muted marks do nothing.", "quantifier": "every mark, every table, every matched text, every state", "why_tests_cant": "all names, all histories", "anchors": ["tpl/qlang/cl/interpreter/interpret.go: newEngine (marker), callVfn"]}
{"id": "C85", "title": "Go functions in the table of an interpreter are called with the values on the stack", "statement": "A Go function in the table is called with the topmost values of the stack if they have the types of its parameters, and its first result is pushed. (Fails for every parameter type other than interface{} if popArgs returns a slice of interface{}.)", "quantifier": "every Go function, every stack", "why_tests_cant": "all types and values", "anchors": ["tpl/qlang/cl/interpreter/interpret.go: callFn"]}
{"id": "C86", "title": "Int marks give the value of the number", "statement": "A mark that ends in Int gives the function the value of the integer literal, as the calculators and qlang itself read it, or an error if it has no 64 bit value. (Fails for octal and hexadecimal literals.)", "quantifier": "every integer literal the scanner accepts", "why_tests_cant": "all literals", "anchors": ["tpl/qlang/cl/interpreter/interpret.go: newEngine (marker)"]}
{"id": "C87", "title": "A program of an interpreter written in qlang runs the functions of its match", "statement": "Exec returns nil exactly if the text tokenizes, the grammar matches all its tokens and the functions of the marks, called one after the other in the order of the match, all return; the state of the interpreter is then what they make of the state from before. It returns the panic of a function as an error, and the state is the one at the panic.", "quantifier": "every grammar, every text, every interpreter whose functions work on a state of their own", "why_tests_cant": "all texts and all backtracking histories", "anchors": ["tpl/qlang/cl/interpreter/interpret.go: Exec, newEngine"]}
{"id": "C88", "title": "Exec of an interpreter written in qlang does not panic and starts unmuted", "statement": "Whatever the functions of the interpreter do, Exec panics only with values that are neither strings nor errors. It does not depend on what an earlier, failed program left in the mute counter. EvalCode restores the current interpreter and the counter however it ends.", "quantifier": "every interpreter, every text, every state", "why_tests_cant": "all histories", "anchors": ["tpl/qlang/cl/interpreter/interpret.go: Exec, EvalCode"]}
{"id": "C89", "title": "New of an interpreter written in qlang", "statement": "New returns an engine exactly if its argument is an object whose methods stack, fntable and grammar give an object, a table and a grammar text that compiles with marks from the table: functions with a fixed number of parameters, at least one, methods at most two. It panics only with values of these methods that are neither strings nor errors.", "quantifier": "every object, every table, every grammar text", "why_tests_cant": "all texts and tables", "anchors": ["tpl/qlang/cl/interpreter/interpret.go: New, newEngine"]}
{"id": "C90", "title": "qlang accepts only programs", "statement": "If running a text returns without an error then the text is the text of a program: a syntax tree of qlang (see C79; two indices without a colon are also allowed) whose tokens are those of the text. If it returns an error of the match then the text is not the text of a program.", "quantifier": "every text, every library, every engine state", "why_tests_cant": "all texts: tests can show neither that no other text is accepted nor that no program is refused", "anchors": ["tpl/qlang/cl/qlang.go: Grammar", "tpl/qlang/engine.go: Exec"]}
{"id": "C91", "title": "The calculator programs answer every line", "statement": "examples/calculator, ratcalc and cmplxcalc answer the lines of standard input one after the other: nothing for a blank line, `> ` and the value for an expression (white space around it is ignored), a message on standard error for everything else; no line, also not a wrong one or one whose evaluation panics, changes the answers to later lines or ends the program. The last line need not be ended.", "quantifier": "every input whose lines are shorter than 64 KB, every number of lines", "why_tests_cant": "all inputs and all histories of lines", "anchors": ["tpl/examples/calculator/main.go: eval, main", "tpl/examples/ratcalc/bigcalc.go: eval, main", "tpl/examples/cmplxcalc/cmplx_calc.go: eval, main"]}
{"id": "C92", "title": "The calculator programs answer lines of every length", "statement": "C91 for lines of any length. (Fails: bufio.Scanner gives up at a line of 64 KB, the rest of the input is dropped and the program ends with exit code 0 and without a message.)", "quantifier": "every input", "why_tests_cant": "unbounded lines", "anchors": ["tpl/examples/calculator/main.go: main", "tpl/examples/ratcalc/bigcalc.go: main", "tpl/examples/cmplxcalc/cmplx_calc.go: main"]}
{"id": "C93", "title": "What ratcalc prints can be typed in again", "statement": "A number printed by ratcalc, typed in as a line, is answered with the same text; different numbers are printed differently.", "quantifier": "every rational number (whose text is shorter than 64 KB), every sequence of them", "why_tests_cant": "all numbers", "anchors": ["tpl/examples/ratcalc/bigcalc.go: eval", "tpl/rat/big.go: Grammar, PushString, Neg, Quo"]}
{"id": "C94", "title": "Slices of qlang share places exactly as documented", "statement": "Reading place i of a slice works exactly for 0 <= i < len and gives the value stored there last, through whatever slice. set(a, i, v) changes this one place, seen through every slice that shares it, and nothing else. a[i:j] works exactly for 0 <= i <= j <= cap(a) and shares the places of a. append(a, ...) gives the elements of a and then the values; it reuses the places behind a exactly if the capacity suffices, and changes no other place. New slices share no place with any other.", "quantifier": "every history of calls, every slice a program can have, all arguments", "why_tests_cant": "aliasing: all histories of slicing, appending and setting", "anchors": ["tpl/qlang/lib/builtin/builtin.go: Get, Set, SubSlice, Append, Slice, SliceFrom"]}
{"id": "C95", "title": "What can be appended to a slice can be stored in it", "statement": "set(a, i, v) works for every value v that append(a, v) takes. (Fails: append takes nil, and ints for floats; set does not.)", "quantifier": "every slice a program can have, every value", "why_tests_cant": "all types and values", "anchors": ["tpl/qlang/lib/builtin/builtin.go: Set, Append, appendFloat"]}
{"id": "C96", "title": "Maps of qlang hold what was stored last", "statement": "set(m, k, v) works exactly for keys of the key type that can be compared and values of the value type (nil: the zero value; undefined: removes). Then get(m, k) is the value for every key equal to k, all other keys and all other maps, slices and objects are as before, and len counts the keys. delete removes. A key that is not equal to itself (NaN) is added each time and never found. New maps are distinct from all others.", "quantifier": "every history of calls, every map, all keys and values", "why_tests_cant": "all histories, all keys, aliasing", "anchors": ["tpl/qlang/lib/builtin/builtin.go: Get, Set, Delete, Mkmap, MapFrom"]}
{"id": "C97", "title": "Objects of qlang hold what was stored last", "statement": "set(o, name, v) works exactly for names that are not the name of a method; then the variable has the value v and everything else is as before. o.name is the variable if there is one, else the method, else an error. A new object has no variables and is distinct from all others.", "quantifier": "every history of calls, every object, all names and values", "why_tests_cant": "all histories, aliasing", "anchors": ["tpl/qlang/cl/class.go: SetVar, SetMemberVar, New, MemberRef"]}
{"id": "C98", "title": "A builtin call that panics changes nothing", "statement": "If a call of a builtin function on slices, maps or objects panics, all values the program has are as before the call. (Fails for append, which stores the values before the wrong one behind the slice if the capacity suffices, and for set with several pairs.)", "quantifier": "every history of calls, all arguments", "why_tests_cant": "all histories and all places where a panic can happen", "anchors": ["tpl/qlang/lib/builtin/builtin.go: Append, appendFloat, Set"]}
{"id": "C99", "title": "tplconv converts its files one after the other", "statement": "tplconv reads each file, parses it with the template of its extension and writes the text of the document, as json or with an html template, to standard output or to the file with the output extension. Exit code 0 means that all files have been converted in the given order; otherwise the program stops at the first file that cannot be converted, and the files before it have been converted. Only the output files change. If no output file is one of the files the run reads, every file is converted as if it were alone. Without files it prints the usage and ends with exit code 1.", "quantifier": "every set of files, every list of arguments, every output format and extension", "why_tests_cant": "all file contents, all orders of arguments and all overlaps of outputs with inputs", "anchors": ["tpl/cmd/tplconv/tplconv.go: main, processFile", "tpl/extractor/extractor.go: New, SafeParse"]}
{"id": "C100", "title": "A failed conversion leaves the files as they were", "statement": "If tplconv reports an error for a file, the output file of this file is as before the run. (Fails: the output file is created, and so emptied, before the output format and the output template are looked at.)", "quantifier": "every set of files, every list of arguments, every error", "why_tests_cant": "all points where a conversion can fail", "anchors": ["tpl/cmd/tplconv/tplconv.go: processFile"]}
{"id": "C101", "title": "tplconv reports errors instead of crashing", "statement": "Whatever the files and templates contain, tplconv ends with an exit code and a message. (Fails: a template with a mark without an underscore, an illegal token or a variable defined twice makes extractor.New panic.)", "quantifier": "every set of files, every list of arguments", "why_tests_cant": "all file contents", "anchors": ["tpl/cmd/tplconv/tplconv.go: main, processFile", "tpl/extractor/extractor.go: New"]}
{"id": "C102", "title": "tplgen generates from the declaration of the grammar", "statement": "tplgen looks for the name in the variable and constant declarations and the assignments, at top level and in the bodies of functions, of all Go files of the directory; it says \"not found\" only if there is no such declaration with a literal. If there is one, the output file has the code GenStaticCode makes of it, in the package of the declaration; for grammars C74 covers that code builds what Cl builds.", "quantifier": "every directory of Go files in which everything of that name has a value of its own, every order of visiting the files", "why_tests_cant": "all programs and all iteration orders", "anchors": ["tpl/cmd/tplgen/main.go: main, findInDecl, findInGenDecl, findInAssignment", "tpl/generator/static_parser_gen.go: GenStaticCode"]}
{"id": "C103", "title": "tplgen is deterministic", "statement": "Two runs of tplgen in the same directory give the same result. (Fails if the name is declared twice: the files are visited in the random order of a Go map and the first declaration found is taken.)", "quantifier": "every directory of Go files, every pair of iteration orders", "why_tests_cant": "iteration orders differ from run to run", "anchors": ["tpl/cmd/tplgen/main.go: main"]}
{"id": "C104", "title": "tplgen uses the value of the grammar string", "statement": "The grammar is the value the Go string has in the program. (Fails for strings in double quotes with escapes, which are not replaced.)", "quantifier": "every string literal", "why_tests_cant": "all literals", "anchors": ["tpl/cmd/tplgen/main.go: main"]}
{"id": "C105", "title": "tplgen leaves no stale code", "statement": "After a run of tplgen that fails, whatever the reason, the output file does not contain code from an earlier run: it does not exist, or is empty if the output template cannot be used. After a run that succeeds it contains exactly the new code.", "quantifier": "every directory, every old output, every point of failure", "why_tests_cant": "all points of failure", "anchors": ["tpl/cmd/tplgen/main.go: main"]}
{"id": "C106", "title": "tplgen does not crash", "statement": "Whatever Go files are in the directory, tplgen ends with an exit code. (Fails: a variable of that name declared without a value, or assigned from a call with several results; a function without a body; a literal of one byte; and where GenStaticCode panics.)", "quantifier": "every directory of Go files", "why_tests_cant": "all programs", "anchors": ["tpl/cmd/tplgen/main.go: main, findInDecl, findInGenDecl, findInAssignment"]}
{"id": "C107", "title": "String literals stand for their values", "statement": "Every string token of a text that tokenizes is written as a string literal in the text, and GetValue(\"String\") and a program of qlang give its value: the text between the quotes with every escape sequence replaced by the byte or the UTF-8 encoding of the character it means; of a raw string the text without carriage returns. In particular they never panic on a string token.", "quantifier": "every text, every mode, every keyword table, every string token", "why_tests_cant": "all literals: tests can cover neither all escapes in all combinations nor all non-ASCII texts", "anchors": ["tpl/extractor/extractor.go: GetValue", "tpl/qlang/cl/qlang.go: PushString", "tpl/scanner.go: scanString, scanRawString, scanEscape"]}
{"id": "C108", "title": "Character literals stand for their values", "statement": "GetValue(\"Char\") and a program of qlang give the value of every character literal the scanner accepts. (Fails for characters that are not ASCII and for \\u and \\U escapes, also of ASCII characters: both panic.)", "quantifier": "every text, every character token", "why_tests_cant": "all literals", "anchors": ["tpl/extractor/extractor.go: GetValue", "tpl/qlang/cl/qlang.go: PushByte", "tpl/scanner.go: scanChar, scanEscape"]}
{"id": "C109", "title": "Int leaves have the value of the number", "statement": "GetValue(\"Int\") gives the value of every integer literal the scanner accepts, or panics if it has no 64 bit value. (Fails: octal literals are read as decimal numbers, hexadecimal ones make it panic.)", "quantifier": "every text, every integer token", "why_tests_cant": "all literals", "anchors": ["tpl/extractor/extractor.go: GetValue", "tpl/scanner.go: scanNumber"]}
{"id": "C110", "title": "A generated interpreter answers as the one New makes", "statement": "An interpreter generated by tplgen from a grammar text answers every text as the interpreter that interpreter.New makes of the same grammar text and the same client: it succeeds, fails with the same error or panics for the same texts, and the client's functions are called with the same values in the same order. (Fails for octal and hexadecimal numbers, for the option InsertSemis, for EvalSub and EvalCode, for functions with a *Context or with two parameters behind the receiver, for the mark _tr and for the empty grammar.)", "quantifier": "every grammar text, every client, every text, every state", "why_tests_cant": "all grammars, clients and texts, and all backtracking histories", "anchors": ["tpl/cmd/tplgen/output.tpl: NewStaticInterpreter, GetValue", "tpl/generator/static_parser_gen.go: GenStaticCode", "tpl/interpreter/interpreter.go: New"]}
{"id": "C111", "title": "End of a token is the offset behind its text", "statement": "For every token t of a text, src[t.Pos:t.End()] is the text the token was read from. (Fails for semicolons, written or automatic, for raw strings and comments with carriage returns and for the illegal token `..`.)", "quantifier": "every text Tokenize accepts, every mode, every keyword table, every token", "why_tests_cant": "all texts: functions with a *Context get End of the last token they match", "anchors": ["tpl/scanner.go: Token.End, Scan", "tpl/token.go: TokenLen", "tpl/interpreter/interpreter.go: ctxValue"]}
{"id": "C112", "title": "Grammars can share a scanner", "statement": "Compiler.Scanner lets several grammars use one scanner. A grammar compiled with a scanner that has been used for other grammars compiles and matches as with a new scanner, and a matcher goes on answering as before when further grammars are compiled with its scanner. (Fails: quoted words of one grammar become keywords in the texts of all others, also in the grammar texts compiled later. It holds for texts and grammar texts that do not use the words of the other grammars as identifiers.)", "quantifier": "every grammar text, every scanner with its history, every text, all callbacks that do not look at the kinds of tokens", "why_tests_cant": "all histories of compilations and all texts", "anchors": ["tpl/compiler.go: Compiler, Cl, AutoKwScanner", "tpl/match.go: MatchExactly"]}
{"id": "C113", "title": "Marked functions are called with what their parameters ask for", "statement": "A function of the table whose first parameter is the stack or the interpreter is called, each time its mark runs, with the values the types of its other parameters ask for: *Context the tokens of the match with where they begin and end, interface{} the tokens (nil if there are none), Engine the engine, string, int, int64 and float64 the first token as text or number; if the mark begins with a capital letter, maybe after an underscore, int gets the number of items. A third parameter gets the *Context. If there is no such value the function is not called and the match panics with a RuntimeError that carries the tokens.", "quantifier": "every function table, every mark, every grammar, every match in every history, every parameter list New accepts", "why_tests_cant": "all tokens and all histories; the arguments are chosen at run time by reflection", "anchors": ["tpl/interpreter/interpreter.go: New, GetValue, ctxValue, ParseInt, ParseFloat"]}
{"id": "C114", "title": "White space and comments only separate tokens", "statement": "If Tokenize accepts a text then it reads the same tokens (kinds and literals) back from every text in which they are written one after the other, each as its literal or the spelling of its operator, with any white space between them; with InsertSemis automatic semicolons are written as newlines. So removing comments and reformatting a text does not change what it means. (Fails with InsertSemis: block comments before a # comment prevent the automatic semicolon at the end of the text.)", "quantifier": "every text, every keyword table, every layout, every earlier use of the scanner", "why_tests_cant": "all texts and all layouts", "anchors": ["tpl/scanner.go: Scan, Tokenize, skipWhitespace, findLineEnd"]}
{"id": "C115", "title": "Results depend on the tokens, not on where they stand", "statement": "Two texts that consist of the same tokens (kinds and literals), wherever these stand, give the same results: MatchExactly answers the same if the callbacks do not look at positions (the errors may name other positions), an extractor gives the same document, a calculator computes the same value or fails with the same cause, and a grammar text compiles to the same grammar with the same rules, variables and keywords. In particular reformatting a text does not change its result.", "quantifier": "every pair of texts with the same tokens, every grammar and state, every layout", "why_tests_cant": "all texts, grammars and layouts", "anchors": ["tpl/grammar.go: Match", "tpl/match.go: MatchExactly", "tpl/compiler.go: Cl", "tpl/extractor/extractor.go: Parse", "calculators: Eval"]}
{"id": "C116", "title": "Matching with an accepted grammar does not crash", "statement": "If Cl accepts a grammar text then no match with the compiled grammar, or with one of its rules, panics with a run-time error of Go (nil dereference, slice out of range): the only panics are the MatchErrors of `!` and those of the callbacks. The same for Eval of interpreters and Parse of extractors.", "quantifier": "every grammar text Cl accepts, every marker, callbacks, tokens, text and state", "why_tests_cant": "all grammars and inputs", "anchors": ["tpl/compiler.go: Cl", "tpl/grammar.go: Match", "tpl/match.go: MatchExactly", "tpl/interpreter/interpreter.go: New", "tpl/extractor/extractor.go: Parse"]}
{"id": "C117", "title": "A quoted text in a grammar matches what it quotes", "statement": "If Cl accepts a grammar with a quoted text `'c'` or `\"text\"`, then in every text that is tokenized with the compiled grammar this factor matches at a token exactly if the token is spelled so, and takes this one token. It does not matter which other words the grammar or other grammars of the scanner quote, nor what has been tokenized before.", "quantifier": "every grammar and every quoted text in it, every use of the scanner before and after, every text and token, every mode, environment and callbacks", "why_tests_cant": "all quoted texts, scanner histories and input texts", "anchors": ["tpl/compiler.go: AutoKwScanner.Ltot, AutoKwScanner.Scan, Cl", "tpl/grammar.go: Gr", "tpl/token.go: Lit2Token"]}
{"id": "C118", "title": "Matchers can be used in several goroutines", "statement": "If several goroutines call MatchExactly at the same time, each gets what it would get without the others, under every schedule, and each returns if it is scheduled often enough.", "quantifier": "any number of goroutines, all their texts, grammars, callbacks and states, every interleaving of their accesses to what they share", "why_tests_cant": "all schedules", "anchors": ["tpl/match.go: Matcher.Tokenize, Matcher.Match, Matcher.MatchExactly", "tpl/grammar.go: Match, Len", "tpl/compiler.go: AutoKwScanner.Init, AutoKwScanner.Scan"]}
{"id": "C119", "title": "Numbers have the value they are written with", "statement": "A number in an accepted text that is handed on as a float64 - to a marked function of an interpreter with a float64 parameter, to a Float leaf of an extractor, to a Float mark of an interpreter written in qlang, as an imaginary number to the calculator for complex numbers - is the float64 nearest to the number that is written, whether it is written in decimal (with or without point and exponent), octal or hexadecimal. It is refused only if it is too large for a float64.", "quantifier": "every text that tokenizes, every number token in it, every rounding to float64 that keeps integers below 2^63 converted as float64(int64) does", "why_tests_cant": "all spellings of numbers: signs of exponents, leading zeros, missing digits before or behind the point, values around 2^63", "anchors": ["tpl/interpreter/interpreter.go: ParseFloat, GetValue", "tpl/extractor/extractor.go: GetValue", "tpl/qlang/cl/interpreter/interpret.go: Float marks", "tpl/cmplx/cmplx.go: PushImag", "tpl/scanner.go: scanNumber"]}
{"id": "C120", "title": "Error messages name the line of the error", "statement": "The message of an error names the line, counted from 1, of the place the error is about: for a match that failed, the token at which the part of the grammar it names failed; for tokens left over, the first of them; for a runtime error, the first token of the mark whose function panicked. It shows the text from there on, in full if that is less than nine lines, otherwise nine lines or as much as is needed to show the token in question. (Fails at the end of the text and for marks that matched nothing: the message says line 0.)", "quantifier": "every text that tokenizes, every grammar, every state of the callbacks, every error a match on the tokens of the text returns or panics with", "why_tests_cant": "all places an error can be at: behind comments and raw strings with newlines, at semicolons inserted by the scanner, at the end of a text with or without a newline, texts of more than nine lines", "anchors": ["tpl/grammar.go: MatchError.Error, calcErrorInfo, nextLines, FileLine", "tpl/interpreter/interpreter.go: RuntimeError.Error", "tpl/match.go: MatchExactly", "tpl/scanner.go: Scan (lines)"]}
{"id": "C121", "title": "Whole numbers are exact in the calculator for rational numbers", "statement": "Package rat computes the value of an expression with the values of the whole numbers as they are written, of any number of digits, decimal, octal (behind 0) or hexadecimal (behind 0x), and examples/ratcalc prints it; what it prints it reads as the same number. (Fails for octal numbers, which are taken for decimal, and with Go before 1.14 for hexadecimal ones, which have no value.)", "quantifier": "every expression, with numbers of any length, every line of a session, both versions of (*big.Rat).SetString", "why_tests_cant": "numbers of all sizes and all ways to write them; the same text means different numbers to packages number and rat", "anchors": ["tpl/rat/big.go: Grammar, Stack.PushString", "tpl/examples/ratcalc/bigcalc.go: main"]}
{"id": "C122", "title": "Texts can be put together", "statement": "If two texts are tokenized without errors, then so are the two with a newline between them, and the tokens are those of the first text followed by those of the second, with positions moved; the second text must not begin with a byte order mark. In particular the rules of two grammar texts put together are the rules of both.", "quantifier": "all pairs of texts that tokenize, all modes (comments as tokens or not, semicolons inserted or not), all keyword tables", "why_tests_cant": "all ways the first text can end: in the middle of a line, in a comment with or without a newline, with an operand whose semicolon is due, with a raw string; and everything a scanner looks ahead", "anchors": ["tpl/scanner.go: Scanner.Init, Scanner.Scan", "tpl/match.go: Matcher.Tokenize", "tpl/compiler.go: Compiler.Cl"]}
{"id": "C123", "title": "The message of an error does not change", "statement": "The text that Error returns for an error of a match, or of a marked function that panicked, is the same whenever it is asked for, also after the matcher or its scanner has been used for other texts. (Fails: the message is made from the text the scanner was last given; it then shows a piece and a line of another text, and if that text is shorter Error panics. As long as the scanner holds the same text, or holds it again, the message is the same, whatever keywords and grammars were added.)", "quantifier": "all texts, grammars and errors, all uses of the scanner between the match and the call of Error", "why_tests_cant": "all histories of the scanner between the failure and the report of it, for example a program that collects the errors of many texts and prints them at the end", "anchors": ["tpl/grammar.go: MatchError.Error, calcErrorInfo, FileLine", "tpl/interpreter/interpreter.go: RuntimeError.Error", "tpl/match.go: Matcher.Tokenize"]}
{"id": "C124", "title": "A qlang program can be run in parts", "statement": "If the statements of a program are given to an engine in two parts, one Exec after the other, the second part gives the value or the panic that one Exec of the whole text (the parts with a newline between them) gives, and the engine is left with the same variables, functions and heap; if the first part panics, the whole text panics in the same way. The first part must end with a semicolon, which may be an inserted one. How a program ends does not depend on how long one waits for it.", "quantifier": "all pairs of programs, all texts of them, all engines that have run any programs before, all hosts", "why_tests_cant": "all programs, with loops and calls of any depth, and all ways in which the first part can end: with a value, a panic, deferred expressions left over, functions that the second part calls", "anchors": ["tpl/qlang/engine.go: Qlang.Exec", "tpl/qlang/cl/interpreter/interpret.go: Engine.Exec", "tpl/qlang/cl/qlang.go: rule doc of the grammar", "tpl/scanner.go: Scanner.Scan"]}
{"id": "C125", "title": "Rules that are added to a grammar change nothing for the rules it had", "statement": "If rules are written behind a grammar text and both texts compile, the root and every rule of the first text are the same, its keywords keep their token kinds, and each of its rules matches the same tokens, calls the same marked functions, and ends in the same way as before; a text is accepted, rejected and interpreted as before. (Fails for texts in which an identifier is a word that only the added rules have in double quotes: the word has become a keyword, and the rules of the first text that expect an identifier reject it. It holds for all other texts.)", "quantifier": "all grammar texts, all lists of rules added, all texts, all marked functions that use rules of the first text only", "why_tests_cant": "all pairs of grammar texts with rules that refer to each other in any order, and all texts that are then matched", "anchors": ["tpl/compiler.go: Compiler.Cl", "tpl/grammar.go: GrVar.Assign, GrVar.Match", "tpl/compiler.go: AutoKwScanner.Ltot", "tpl/match.go: Matcher.MatchExactly"]}
{"id": "C126", "title": "The order of the rules in a grammar text does not matter", "statement": "Two grammar texts with the same rules in different orders are the same grammar: one compiles if the other does, and then a text is accepted by one exactly if it is by the other, with the same number of tokens used, and the marked functions are called in the same order for the same tokens and numbers of items and leave the same state behind. (Fails for a rule named true, which is only found by references behind it; for a text that refers to doc before its rule or in it, which does not compile; and for a rule that is a lone !, which has to stand before the references to it. It holds for all other texts in which every rule has a name of its own.)", "quantifier": "all pairs of grammar texts with the same rules in any two orders, all texts, all marked functions that look at the texts of tokens", "why_tests_cant": "all grammars in all orders of their rules, recursive ones included, and all texts that are matched; token kinds and variables are numbered differently in each order", "anchors": ["tpl/compiler.go: Compiler.Cl", "tpl/grammar.go: GrVar.Assign, GrVar.Match", "tpl/compiler.go: AutoKwScanner.Ltot", "tpl/match.go: Matcher.MatchExactly"]}
{"id": "C127", "title": "The names of the rules in a grammar text do not matter", "statement": "If the rules of a grammar text are given other names, everywhere in the text, different ones for different rules, the text stays the same grammar: it compiles if it did, with the same keywords and token kinds, and then a text is accepted exactly if it was, with the same number of tokens used, and the marked functions are called in the same order for the same tokens and numbers of items and leave the same state behind. The names doc and true keep their meaning, so rules must not be called so nor stop being called so, and names with a capital letter at the front stand for tokens.", "quantifier": "all grammar texts, all renamings, all texts, all marked functions that look at the texts of tokens", "why_tests_cant": "all grammars and all choices of names, recursive rules and rules used before they are defined included, and all texts that are matched", "anchors": ["tpl/compiler.go: Compiler.Cl", "tpl/grammar.go: GrVar.Assign, GrVar.Match, GrNamed.Assign, GrNamed.Match", "tpl/match.go: Matcher.MatchExactly"]}
{"id": "C128", "title": "A rule may be written out where it is referred to", "statement": "If references to a rule in a grammar text are replaced by the body of the rule in parentheses (or a part of a rule in parentheses is made a rule of its own), the text stays the same grammar: it compiles if it did, a text is accepted exactly if it was, with the same number of tokens used, and the marked functions are called in the same order for the same tokens and numbers of items and leave the same state behind. (Fails for a reference with a mark: the marked function gets -1 instead of the number of items; for a rule that is a lone !, which panics when it is referred to; for a rule named true that comes later; and for a rule that refers to doc, which does not compile when it is written out in doc. It holds for all other references, also for several of them, nested ones, and when the rule is dropped.)", "quantifier": "all grammar texts, all choices of references without marks, all texts, all marked functions that look at the texts of tokens", "why_tests_cant": "all grammars, recursive ones included, all sets of references that are replaced, in any order of the rules, and all texts that are matched", "anchors": ["tpl/compiler.go: Compiler.Cl", "tpl/grammar.go: GrVar.Match, GrVar.Len, GrNamed.Match, GrNamed.Len", "tpl/match.go: Matcher.MatchExactly"]}
{"id": "C129", "title": "Only loops and calls make a qlang program run forever", "statement": "Exec and SafeExec of a qlang program in which there is no loop, no call, no new and no main outside of the bodies of functions come to an end: they return, return an error, panic or end the process. (Fails for a return in a deferred expression of the program: a return runs the deferred expressions, the newest first, and forgets them only when all have ended, so that `defer switch { default: return }; return` never ends, until the stack overflows. It holds for all programs whose deferred expressions contain no return.)", "quantifier": "all such programs, all libraries, all states of the engine between two programs in which only such expressions are deferred", "why_tests_cant": "termination for every program; tests only see programs that end in time", "anchors": ["tpl/qlang/cl/function.go: Return, ExecDefers, Defer", "tpl/qlang/engine.go: Exec, SafeExec", "tpl/qlang/cl/qlang.go: Grammar"]}
{"id": "C130", "title": "Grouping does not matter", "statement": "Parentheses in a grammar text that group neighbouring items of a sequence, alternatives of a choice, or a single factor can be removed or added: both texts compile, or both give the same error or the same panic; the compiled grammars match the same tokens of every text, MatchExactly ends the same way, and the marked functions are called in the same order with the same tokens and the same numbers of items. (Fails where the parentheses are counted or limit something: a mark behind a group gets the number of items or alternatives between its own parentheses, so that the inner parentheses of `(INT (',' INT))/f` are seen by f, and a `!` in a group has no effect behind the group. It holds if the numbers of items of marked groups stay the same and no group that is removed or added has `!` as one of its items.)", "quantifier": "all grammar texts, all such changes of parentheses, any number of them at any depth, all markers, all functions that look at texts, positions and numbers of items, all texts", "why_tests_cant": "tests compare a few pairs of grammars on a few texts; the claim is about every grammar and every text", "anchors": ["tpl/compiler.go: Cl (and, or, factor)", "tpl/grammar.go: grAnd.Match, grOr.Match, grAnd.Len, grOr.Len, grAction.Match"]}
{"id": "C131", "title": "Operators may be written out", "statement": "In a grammar text `A % B` can be replaced by `(A *(B A))`, `A %= B` by `?(A % B)`, `+A` by `(A *A)`, `*A` by `?+A`, `?A` by `(A | 1)`, `~(A | B)` by `(~A ~B)` and `@A` by `~~A`, and, if A has no marks and refers to no rules, `A (B | C)` by `A B | A C` and `A ?B` by `A B | A`, or the other way round: both texts compile, or both give the same error or the same panic; the compiled grammars match the same tokens of every text, MatchExactly ends the same way, and the marked functions are called in the same order with the same tokens and the same numbers of items. (Fails for an operator with a mark directly behind it: its function gets the number of elements of the list, but the number of items of what is written out; for a list of nothing but `!`; and if the common beginning A of two alternatives has a mark, its function is called for each alternative that is tried. It holds if no such mark follows, which does not matter for `@A`, and A is not just a `!` in lists, in `+A` and as a beginning, nor B or C behind one.)", "quantifier": "all grammar texts, all operands (with rules used for the first time in them, keywords, marks and further operators), any number of such changes at any depth together with changes of parentheses as in C130, all markers, all functions that look at texts, positions and numbers of items, all texts", "why_tests_cant": "tests compare a few pairs of grammars on a few texts; the claim of the README is about every grammar and every text, and A is compiled twice, so that names, keywords and marks of A occur twice", "anchors": ["tpl/README.md: G1 % G2, G1 %= G2", "tpl/compiler.go: Cl (list, list0, repeat1)", "tpl/grammar.go: grList.Match, grRepeat1.Match, grRepeat0.Match, grRepeat01.Match"]}
{"id": "C132", "title": "Result gives what has been found in the last text", "statement": "After Parse or SafeParse of an extractor, Result returns the document of what has been found in the text that was parsed last: the document Parse has returned if there was no error, and otherwise what had been found when the match failed, was given up at a `!`, was ended by a panic of the value function or left tokens over, with the nodes that were still open holding what they had; nothing of earlier texts is in it. (Fails for a text that cannot be tokenized: Result stays that of the text before.)", "quantifier": "all compiled extractor grammars, all value functions (also panicking ones), all texts, all earlier uses of the engine", "why_tests_cant": "the document is built in place while the match runs and is kept in the engine between parses; that nothing of an earlier text or of an abandoned alternative's nodes is left depends on every way a match can end, at every depth", "anchors": ["tpl/extractor/extractor.go: Engine.Result, Engine.Parse, Engine.SafeParse, New (initer, marker)", "tpl/extractor/document.go: Node.insertLeaf, Node.insertNode, toMap", "tpl/match.go: Matcher.Match, Matcher.MatchExactly"]}
{"id": "C133", "title": "An import into qlang happens as a whole or not at all", "statement": "spec.Import (outside safe mode) either adds everything it is given or panics and changes nothing, and what it does depends only on the symbols already defined and those imported. (Holds for modules. An import of symbols that panics because a name is taken may have added some of the others, and which depends on the order in which Go goes through the map. Still, whether it panics and the outcome if it does not are independent of that order, and after a panic each name stands for what it did or for what was imported, the taken ones for what they did.)", "quantifier": "all tables of defined symbols, all imported tables, all orders in which Go may go through the map, all module names", "why_tests_cant": "Go goes through a map in an arbitrary order, so a test sees one of the orders; the property speaks about all of them and all tables", "anchors": ["tpl/qlang/spec/spec.go: Import, Fntable"]}
{"id": "C134", "title": "Alternatives can be added to a grammar", "statement": "If alternatives are written behind those of the rule doc of a grammar text, the new text accepts a source text exactly if the old alternatives or the added ones alone accept it, with the same calls. (Fails where an old alternative matches only a beginning of the source text, and for words that only the added alternatives have in quotes. Otherwise: wherever an old alternative matches or panics, Match ends exactly as before; so what was accepted is accepted with the same calls; and where none matches, MatchExactly ends as that of the text with only the added alternatives does.)", "quantifier": "all grammar texts whose last rule is doc, all alternatives added to it, all source texts, all states and marked functions", "why_tests_cant": "a test adds one alternative to one grammar and tries some texts; the property speaks about all grammars, all alternatives and all texts", "anchors": ["tpl/compiler.go: Compiler.Cl", "tpl/grammar.go: grOr.Match, Or", "tpl/match.go: Matcher.Match, Matcher.MatchExactly"]}
{"id": "C135", "title": "Expressions can be put together", "statement": "If a calculator gives the value v for a text a and w for a text b (Eval, then Ret), then for the texts `(a)`, `-(a)`, `(a) op (b)` and `f(a, b, ...)`, with each part on a line of its own, it gives v, minus v, v op w, and what f returns for the values in order. Only the values of the parts matter, not how the parts are written. And if a part in parentheses, or an argument of a function, of any longer expression that has a value is replaced by another text with the same value, the value of the whole stays the same. The parts must not begin with a byte order mark.", "quantifier": "the three calculators, all texts that have values, in any state of the engine, all spellings of the parentheses, operators and commas (there may be white space and comments), any number of arguments", "why_tests_cant": "a user puts together texts that are not known beforehand; tests try a few", "anchors": ["tpl/number/number.go: Grammar, Calculator", "tpl/rat/big.go: Grammar, Calculator", "tpl/cmplx/cmplx.go: Grammar, Calculator", "tpl/match.go: Matcher.Tokenize", "tpl/scanner.go: Scanner.Scan"]}
{"id": "C136", "title": "Results of the calculator for rational numbers can be used in further calculations", "statement": "What examples/ratcalc prints for a value has this value in package rat. A part of an expression that stands in parentheses or is an argument of a function may be replaced by what is printed for its value: the whole has the same value as before, and no value if it had none.", "quantifier": "all rational numbers, all expressions and parts of them, each part on a line of its own, in any state of the engine", "why_tests_cant": "fractions of all sizes, signs and in all places of expressions; a printed fraction is itself an expression with an operator and maybe a sign", "anchors": ["tpl/rat/big.go: Grammar, Calculator", "tpl/examples/ratcalc/bigcalc.go: main"]}
{"id": "C137", "title": "Return ends only the function it stands in", "statement": "A return in a qlang function ends this function and no other: the program goes on behind the call, and the value of the call is the value returned. (Fails for a return in a deferred expression, which also ends the function that has made the call. Holds for every call at the beginning of a program of a function of the program with as many parameters as arguments that ends, with or without return, and whose deferred expressions, if there are any, end by themselves: the program goes on behind the call with the value returned, and Exec and Ret have the result of what stands there. At every place of a program, a return goes on behind a call only if the function has deferred something.)", "quantifier": "all function bodies, all statements behind the call, all states of an engine, all libraries", "why_tests_cant": "return is a panic that has to be caught by the right call; a test returns from a few functions, and none of the tests returns from a deferred expression", "anchors": ["tpl/qlang/cl/function.go: Function.Call, Interpreter.Return, ErrReturn, Interpreter.ExecDefers", "tpl/qlang/cl/interpreter/interpret.go: Engine.Exec", "tpl/qlang/cl/qlang.go: Interpreter.Ret"]}
