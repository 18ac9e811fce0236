{
 "claims": [
  {
   "property": "C01",
   "status": "proved",
   "theorems": [
    "Tpl.Props.C01_lit2token_token2lit",
    "Tpl.Props.C01_token2lit_unnamed",
    "Tpl.Props.C01_lit2token_other",
    "Tpl.Props.C01_names_injective"
   ],
   "note": "Names of kinds and kinds of names are mutually inverse on the whole vocabulary; everything else has no name."
  },
  {
   "property": "C02",
   "status": "partial",
   "theorems": [
    "Tpl.Props.C02_tokenLen_partial",
    "Tpl.Props.C02_tokenLen_violated",
    "Tpl.Props.C02_tokenLen_exact"
   ],
   "note": "Holds for operators, classes and kinds above the table. The code violates it: TokenLen(154) indexes out of range and unnamed kinds give -2 (C02_tokenLen_violated); C02_tokenLen_exact states the exact behaviour."
  },
  {
   "property": "C03",
   "status": "proved",
   "theorems": [
    "Tpl.Props.C03_terminates",
    "Tpl.Props.C03_scan_returns",
    "Tpl.Props.C03_unique"
   ],
   "note": "Scanning reaches EOF within 2*len+2 calls from any prior state and any bytes; fuel never cuts the loop of Scan short."
  },
  {
   "property": "C04",
   "status": "proved",
   "theorems": [
    "Tpl.Props.C04_ordered",
    "Tpl.Props.C04_positions"
   ],
   "note": "Tokens occupy consecutive intervals of the source and are read from them; positions never decrease."
  },
  {
   "property": "C05",
   "status": "proved",
   "theorems": [
    "Tpl.Props.C05_verbatim",
    "Tpl.Props.C05_whole",
    "Tpl.Props.C05_comment"
   ],
   "note": "Literals of identifiers, numbers, strings and characters are source text; raw strings and comments up to removed carriage returns."
  },
  {
   "property": "C06",
   "status": "proved",
   "theorems": [
    "Tpl.Props.C06_nothing_lost",
    "Tpl.Props.C06_lexical_grammar"
   ],
   "note": "The source after a byte order mark is a sequence of gaps and token texts; the whole sequence follows the lexical grammar of Spec/Lexical."
  },
  {
   "property": "C07",
   "status": "proved",
   "theorems": [
    "Tpl.Props.C07_eof_sticky"
   ],
   "note": "Any number of Scan calls after EOF give the same token and the same state."
  },
  {
   "property": "C08",
   "status": "proved",
   "theorems": [
    "Tpl.Props.C08_erase_semis"
   ],
   "note": "Token sequences with and without InsertSemis agree after deleting automatic semicolons."
  },
  {
   "property": "C09",
   "status": "proved",
   "theorems": [
    "Tpl.Props.C09_erase_comments"
   ],
   "note": "Token sequences with and without ScanComments agree after deleting COMMENT tokens."
  },
  {
   "property": "C10",
   "status": "proved",
   "theorems": [
    "Tpl.Props.C10_no_invented_semis"
   ],
   "note": "Without InsertSemis every SEMICOLON token is a ; in the source."
  },
  {
   "property": "C11",
   "status": "partial",
   "theorems": [
    "Tpl.Props.C11_after_operand",
    "Tpl.Props.C11_newline_partial",
    "Tpl.Props.C11_violated"
   ],
   "note": "First half proved (for texts scanned with errors the previous token may also be ILLEGAL). Second half proved for blanks between operand and newline; the code violates it for a block comment followed by a # comment (C11_violated)."
  },
  {
   "property": "C12",
   "status": "proved",
   "theorems": [
    "Tpl.Props.C12_longest_operator"
   ],
   "note": "Operators are the longest of the table at their position."
  },
  {
   "property": "C13",
   "status": "proved",
   "theorems": [
    "Tpl.Props.C13_ident_maximal",
    "Tpl.Props.C13_int_maximal"
   ],
   "note": "Identifiers and INT literals are maximal."
  },
  {
   "property": "C14",
   "status": "proved",
   "theorems": [
    "Tpl.Props.C14_error_count",
    "Tpl.Props.C14_tokenize"
   ],
   "note": "ErrorCount is the number of reported errors; Tokenize fails exactly if there is one and otherwise returns all tokens before EOF."
  },
  {
   "property": "C15",
   "status": "partial",
   "theorems": [
    "Tpl.Props.C15_illegal_partial",
    "Tpl.Props.C15_violated"
   ],
   "note": "The code violates it for the text .. (C15_violated); proved that this is the only way."
  },
  {
   "property": "C16",
   "status": "proved",
   "theorems": [
    "Tpl.Props.C16_strings_closed",
    "Tpl.Props.C16_no_newline",
    "Tpl.Props.C16_chars_closed"
   ],
   "note": "String and character literals of accepted text are closed and made of characters and escapes."
  },
  {
   "property": "C17",
   "status": "proved",
   "theorems": [
    "Tpl.Props.C17_int_wellformed"
   ],
   "note": "INT literals of accepted text are well-formed numerals."
  },
  {
   "property": "C18",
   "status": "partial",
   "theorems": [
    "Tpl.Props.C18_lines_partial",
    "Tpl.Props.C18_violated"
   ],
   "note": "Proved for every token except one at the very end of a text that ends in a newline, where the code reports the previous line (C18_violated)."
  },
  {
   "property": "C19",
   "status": "proved",
   "theorems": [
    "Tpl.Props.C19_reuse",
    "Tpl.Props.C19_never_panics"
   ],
   "note": "Tokenize does not depend on previous use; no call panics. Stated for the scanner's own state; keywords kept by AutoKwScanner are the parameter kw."
  },
  {
   "property": "C20",
   "status": "proved",
   "theorems": [
    "Tpl.Props.C20_keyword_kind",
    "Tpl.Props.C20_injective"
   ],
   "note": "Keyword kinds are unique, stable, at least 0xb0, and Ttol inverts them, after any sequence of Init, Scan and Ltot calls."
  },
  {
   "property": "C21",
   "status": "proved",
   "theorems": [
    "Tpl.Props.C21_keyword_recognition",
    "Tpl.Props.C21_not_ident"
   ],
   "note": "Keyword recognition changes only the kind of IDENT tokens with registered text."
  },
  {
   "property": "C22",
   "status": "proved",
   "theorems": [
    "Tpl.Props.C22_in_bounds",
    "Tpl.Props.C22_no_slice_panic"
   ],
   "note": "Counts bounded for arbitrary callbacks; absence of slice panics for callbacks that do not raise one themselves."
  },
  {
   "property": "C23",
   "status": "proved",
   "theorems": [
    "Tpl.Props.C23_sound",
    "Tpl.Props.C23_complete",
    "Tpl.Props.C23_peg"
   ],
   "note": "Refinement both ways against an independent PEG semantics with cut; panicking callbacks covered by C23_sound/C23_complete."
  },
  {
   "property": "C24",
   "status": "proved",
   "theorems": [
    "Tpl.Props.C24_deterministic",
    "Tpl.Props.C24_terminates",
    "Tpl.Props.C24_function"
   ],
   "note": "For any two callback sets, states and token sequences with equal kinds."
  },
  {
   "property": "C25",
   "status": "proved",
   "theorems": [
    "Tpl.Props.C25_peek",
    "Tpl.Props.C25_not",
    "Tpl.Props.C25_peek_not_not"
   ],
   "note": ""
  },
  {
   "property": "C26",
   "status": "proved",
   "theorems": [
    "Tpl.Props.C26_match",
    "Tpl.Props.C26_fail",
    "Tpl.Props.C26_panic"
   ],
   "note": ""
  },
  {
   "property": "C27",
   "status": "proved",
   "theorems": [
    "Tpl.Props.C27_furthest",
    "Tpl.Props.C27_max"
   ],
   "note": ""
  },
  {
   "property": "C28",
   "status": "proved",
   "theorems": [
    "Tpl.Props.C28_star",
    "Tpl.Props.C28_star_never_fails",
    "Tpl.Props.C28_star_panic",
    "Tpl.Props.C28_plus"
   ],
   "note": "+G = G *G up to the contents of the repetition's own item counter (which differs by one by design)."
  },
  {
   "property": "C29",
   "status": "proved",
   "theorems": [
    "Tpl.Props.C29_list",
    "Tpl.Props.C29_list0"
   ],
   "note": "Up to the item counters of the list objects; G1 is not the nil grammar."
  },
  {
   "property": "C30",
   "status": "proved",
   "theorems": [
    "Tpl.Props.C30_terminates"
   ],
   "note": "Well-formedness (no left recursion, no repetition of possibly-empty grammars) is Ford's static condition; a checker is proved sound."
  },
  {
   "property": "C31",
   "status": "proved",
   "theorems": [
    "Tpl.Props.C31_star",
    "Tpl.Props.C31_star_diverges",
    "Tpl.Props.C31_plus_diverges",
    "Tpl.Props.C31_left_recursion"
   ],
   "note": ""
  },
  {
   "property": "C32",
   "status": "proved",
   "theorems": [
    "Tpl.Props.C32_action_state",
    "Tpl.Props.C32_star",
    "Tpl.Props.C32_plus",
    "Tpl.Props.C32_opt",
    "Tpl.Props.C32_list"
   ],
   "note": ""
  },
  {
   "property": "C33",
   "status": "proved",
   "theorems": [
    "Tpl.Props.C33_cut",
    "Tpl.Props.C33_uncatchable",
    "Tpl.Props.C33_no_cut"
   ],
   "note": ""
  },
  {
   "property": "C34",
   "status": "proved",
   "theorems": [
    "Tpl.Props.C34_log",
    "Tpl.Props.C34_effect",
    "Tpl.Props.C34_tokens"
   ],
   "note": "Trace semantics Tr is the specification; equivalence with the combinators both ways."
  },
  {
   "property": "C35",
   "status": "proved",
   "theorems": [
    "Tpl.Props.C35_balanced",
    "Tpl.Props.C35_begin_end"
   ],
   "note": ""
  },
  {
   "property": "C36",
   "status": "proved",
   "theorems": [
    "Tpl.Props.C36_assign_once",
    "Tpl.Props.C36_match"
   ],
   "note": "Assigning the nil interface leaves the variable unassigned (noted in the model)."
  },
  {
   "property": "C37",
   "status": "proved",
   "theorems": [
    "Tpl.Props.C37_match",
    "Tpl.Props.C37_matchExactly",
    "Tpl.Props.C37_errors",
    "Tpl.Props.C37_peg",
    "Tpl.Props.C37_no_grammar"
   ],
   "note": "Match/MatchExactly/Eval return nil iff the text tokenizes and the grammar (its parsing expression) matches; rest returned; which error otherwise. Scanner: AutoKwScanner after any previous use."
  },
  {
   "property": "C38",
   "status": "partial",
   "theorems": [
    "Tpl.Props.C38_errors",
    "Tpl.Props.C38_returned_partial",
    "Tpl.Props.C38_failfast_partial",
    "Tpl.Props.C38_leftover",
    "Tpl.Props.C38_violated"
   ],
   "note": "Violated: C38_violated (fail-fast error at end of input makes Error() panic with an index error). Proved: returned errors and leftover errors can always be rendered; a fail-fast error panics in Error() exactly when it lies at the end of a non-empty input."
  },
  {
   "property": "C39",
   "status": "proved",
   "theorems": [
    "Tpl.Props.C39_sentinel",
    "Tpl.Props.C39_source",
    "Tpl.Props.C39_action"
   ],
   "note": "Source of any run of consecutive tokens never panics and is the text between the two positions; the EOF sentinel exists; action tokens are such runs."
  },
  {
   "property": "C40",
   "status": "proved",
   "theorems": [
    "Tpl.Props.C40_compiles",
    "Tpl.Props.C40_unambiguous",
    "Tpl.Props.C40_panics",
    "Tpl.Props.C40_rejects"
   ],
   "note": "Cl succeeds exactly on texts whose tokens are the flattening of a syntax tree (Spec/TplText, precedence built in), with the result its compositional meaning; trees are unique; meaningless documents panic; other texts give an error."
  },
  {
   "property": "C41",
   "status": "proved",
   "theorems": [
    "Tpl.Props.C41_no_underflow",
    "Tpl.Props.C41_stack_empty"
   ],
   "note": "No action of Cl finds too few operands, whatever the text; after a match the stack is empty; the only panics are illegal token, duplicate rule, marker."
  },
  {
   "property": "C42",
   "status": "proved",
   "theorems": [
    "Tpl.Props.C42_terminates",
    "Tpl.Props.C42_unique"
   ],
   "note": "Cl ends for every text (its grammar is well-formed) and its outcome is unique."
  },
  {
   "property": "C43",
   "status": "partial",
   "theorems": [
    "Tpl.Props.C43_defined",
    "Tpl.Props.C43_undefined",
    "Tpl.Props.C43_duplicate_partial",
    "Tpl.Props.C43_violated"
   ],
   "note": "Defined and undefined names proved. Duplicates: proved except when the first definition is only `!`, where the code accepts the second (C43_violated)."
  },
  {
   "property": "C44",
   "status": "proved",
   "theorems": [
    "Tpl.Props.C44_doc",
    "Tpl.Props.C44_missing",
    "Tpl.Props.C44_early"
   ],
   "note": "doc is required; a doc rule referred to before or within its definition is reported missing."
  },
  {
   "property": "C45",
   "status": "partial",
   "theorems": [
    "Tpl.Props.C45_violated_list",
    "Tpl.Props.C45_violated_repeat",
    "Tpl.Props.C45_violated_cut",
    "Tpl.Props.C45_printed_partial",
    "Tpl.Props.C45_matches_partial"
   ],
   "note": "Violated in general: C45_violated_list, C45_violated_repeat, C45_violated_cut give grammars whose printed form compiles to another grammar or not at all. C45_printed_partial and C45_matches_partial: for every document without `!` and marks in which no list is the right operand of a list and no + is directly inside a +, the rules printed with Code one below the other compile again to a grammar with the same keywords that matches every input alike."
  },
  {
   "property": "C46",
   "status": "partial",
   "theorems": [
    "Tpl.Props.C46_violated",
    "Tpl.Props.C46_never"
   ],
   "note": "Violated: EOF compiles to a token kind (C46_violated) that no tokenized token has, so it matches nowhere (C46_never)."
  },
  {
   "property": "C47",
   "status": "proved",
   "theorems": [
    "Tpl.Props.C47_tokens",
    "Tpl.Props.C47_text",
    "Tpl.Props.C47_rejects",
    "Tpl.Props.C47_known",
    "Tpl.Props.C47_forward"
   ],
   "note": "EvalSub on tokens, text and other sources, for every name; which rules it knows (C47_known). Rules referred to before their definition are not known to it (C47_forward)."
  },
  {
   "property": "C48",
   "status": "partial",
   "theorems": [
    "Tpl.Props.C48_skipped",
    "Tpl.Props.C48_runs",
    "Tpl.Props.C48_counter",
    "Tpl.Props.C48_history",
    "Tpl.Props.C48_starts_at_zero",
    "Tpl.Props.C48_sub_starts_at_zero",
    "Tpl.Props.C48_violated"
   ],
   "note": "Which marks run, for every counter (C48_skipped, C48_runs), the counter (C48_counter), every history of marks (C48_history), and that Eval and EvalSub on tokens start at 0. EvalSub on a text does not reset the counter (C48_violated)."
  },
  {
   "property": "C49",
   "status": "proved",
   "theorems": [
    "Tpl.Props.C49_restores",
    "Tpl.Props.C49_outcome"
   ],
   "note": "For every source, outcome and matcher."
  },
  {
   "property": "C50",
   "status": "proved",
   "theorems": [
    "Tpl.Props.C50_value",
    "Tpl.Props.C50_all"
   ],
   "note": "For every INT token of every text, also the malformed ones the scanner reports (C50_all)."
  },
  {
   "property": "C51",
   "status": "proved",
   "theorems": [
    "Tpl.Props.C51_call",
    "Tpl.Props.C51_stack",
    "Tpl.Props.C51_count",
    "Tpl.Props.C51_damaged",
    "Tpl.Props.C51_type",
    "Tpl.Props.C51_panic"
   ],
   "note": "For every function, stack and argument count: success, wrong count, too few values, argument of a wrong type, panic of the function."
  },
  {
   "property": "C52",
   "status": "proved",
   "theorems": [
    "Tpl.Props.C52_wraps",
    "Tpl.Props.C52_cases",
    "Tpl.Props.C52_only",
    "Tpl.Props.C52_tokens"
   ],
   "note": "C52_wraps for one mark, C52_only and C52_tokens for whole matches of any nesting depth. Values that are neither errors nor strings pass unchanged, as the code does deliberately."
  },
  {
   "property": "C53",
   "status": "proved",
   "theorems": [
    "Tpl.Props.C53_compiles",
    "Tpl.Props.C53_number",
    "Tpl.Props.C53_rat",
    "Tpl.Props.C53_cmplx"
   ],
   "note": "For the grammar texts of all three packages, compiled by the model of Cl, every text, every state of the engine. float64/complex128 and their functions are parameters; counts of arguments must survive the conversion to float64 and back. For rat the literals must be numbers for SetString."
  },
  {
   "property": "C54",
   "status": "proved",
   "theorems": [
    "Tpl.Props.C54_history",
    "Tpl.Props.C54_stack"
   ],
   "note": "For any two states of the engine with the same keywords: same value or same cause of the RuntimeError; the stack below is untouched."
  },
  {
   "property": "C55",
   "status": "proved",
   "theorems": [
    "Tpl.Props.C55_only_expressions",
    "Tpl.Props.C55_terminates",
    "Tpl.Props.C55_rejects",
    "Tpl.Props.C55_accepts"
   ],
   "note": "C55_only_expressions, C55_terminates and C55_rejects for every text; C55_accepts says exactly which expressions are accepted."
  },
  {
   "property": "C56",
   "status": "proved",
   "theorems": [
    "Tpl.Props.C56_call",
    "Tpl.Props.C56_wrong"
   ],
   "note": "For any number of arguments and any nesting; unknown functions and wrong counts fail."
  },
  {
   "property": "C57",
   "status": "proved",
   "theorems": [
    "Tpl.Props.C57_rat",
    "Tpl.Props.C57_number"
   ],
   "note": "rat for all arguments; number for arguments on which > is an order (no NaN)."
  },
  {
   "property": "C58",
   "status": "proved",
   "theorems": [
    "Tpl.Props.C58_document",
    "Tpl.Props.C58_state",
    "Tpl.Props.C58_result"
   ],
   "note": "For the document (trace of callbacks), the heap, and Result."
  },
  {
   "property": "C59",
   "status": "partial",
   "theorems": [
    "Tpl.Props.C59_leaf_partial",
    "Tpl.Props.C59_violated"
   ],
   "note": "Violated: leaves of abandoned alternatives stay (C59_violated). Proved: a leaf whose own grammar fails is not inserted; leaves inside a failed node disappear (C58)."
  },
  {
   "property": "C60",
   "status": "proved",
   "theorems": [
    "Tpl.Props.C60_leaves",
    "Tpl.Props.C60_nodes",
    "Tpl.Props.C60_parse",
    "Tpl.Props.C60_interleaved"
   ],
   "note": "Groups of consecutive items. C60_interleaved shows that a second group is lost."
  },
  {
   "property": "C61",
   "status": "proved",
   "theorems": [
    "Tpl.Props.C61_first",
    "Tpl.Props.C61_parse",
    "Tpl.Props.C61_absent"
   ],
   "note": ""
  },
  {
   "property": "C62",
   "status": "proved",
   "theorems": [
    "Tpl.Props.C62_fresh",
    "Tpl.Props.C62_history"
   ],
   "note": "After any number of parses with the engine, whatever they returned."
  },
  {
   "property": "C63",
   "status": "proved",
   "theorems": [
    "Tpl.Props.C63_wraps",
    "Tpl.Props.C63_exact",
    "Tpl.Props.C63_unique",
    "Tpl.Props.C63_division",
    "Tpl.Props.C63_identity",
    "Tpl.Props.C63_zero",
    "Tpl.Props.C63_types",
    "Tpl.Props.C63_mixed",
    "Tpl.Props.C63_bytes"
   ],
   "note": "Floats are abstract (Fl)."
  },
  {
   "property": "C64",
   "status": "partial",
   "theorems": [
    "Tpl.Props.C64_violated",
    "Tpl.Props.C64_ints_partial",
    "Tpl.Props.C64_bytes_partial",
    "Tpl.Props.C64_strings_partial",
    "Tpl.Props.C64_mixed_partial",
    "Tpl.Props.C64_types"
   ],
   "note": "Violated between int and byte (C64_violated). Proved for two ints, two bytes, two strings; between int and byte the four order operators compare the numbers."
  },
  {
   "property": "C65",
   "status": "proved",
   "theorems": [
    "Tpl.Props.C65_ints",
    "Tpl.Props.C65_floats",
    "Tpl.Props.C65_others",
    "Tpl.Props.C65_empty"
   ],
   "note": "Floats are abstract with an irreflexive and transitive order (true of IEEE 754, NaNs included)."
  },
  {
   "property": "C66",
   "status": "partial",
   "theorems": [
    "Tpl.Props.C66_last_partial",
    "Tpl.Props.C66_other_names_partial",
    "Tpl.Props.C66_sequence_partial",
    "Tpl.Props.C66_violated"
   ],
   "note": "Every history of assignments, reads, ++/--, op=, multiple assignments and calls (with or without panics). Not for the name `unset`, which reads as the builtin whatever was assigned (C66_violated)."
  },
  {
   "property": "C67",
   "status": "partial",
   "theorems": [
    "Tpl.Props.C67_reads",
    "Tpl.Props.C67_assigns",
    "Tpl.Props.C67_refused",
    "Tpl.Props.C67_stable",
    "Tpl.Props.C67_history_partial",
    "Tpl.Props.C67_private",
    "Tpl.Props.C67_private_assign",
    "Tpl.Props.C67_violated"
   ],
   "note": "All parts for histories of reads, assignments and calls; histories with `unset` can break sharing and leak an internal mark (C67_violated)."
  },
  {
   "property": "C68",
   "status": "partial",
   "theorems": [
    "Tpl.Props.C68_registered",
    "Tpl.Props.C68_call_partial",
    "Tpl.Props.C68_violated_panic",
    "Tpl.Props.C68_violated_nested"
   ],
   "note": "Order, completeness and clearing for every body and every list of defers, as long as no deferred expression panics and none defers another one in the same function. Otherwise the code does not do what the property says (C68_violated_panic, C68_violated_nested)."
  },
  {
   "property": "C69",
   "status": "proved",
   "theorems": [
    "Tpl.Props.C69_count",
    "Tpl.Props.C69_binds",
    "Tpl.Props.C69_nameless",
    "Tpl.Props.C69_height"
   ],
   "note": "Every function, argument list and state. fn(...) without a parameter name can never be called (C69_nameless)."
  },
  {
   "property": "C70",
   "status": "partial",
   "theorems": [
    "Tpl.Props.C70_and_false",
    "Tpl.Props.C70_or_true",
    "Tpl.Props.C70_and_true",
    "Tpl.Props.C70_or_false",
    "Tpl.Props.C70_left",
    "Tpl.Props.C70_violated"
   ],
   "note": "Short circuit and values as stated; a right operand that is evaluated need not be boolean, its value is the result (C70_violated)."
  },
  {
   "property": "C71",
   "status": "proved",
   "theorems": [
    "Tpl.Props.C71_if",
    "Tpl.Props.C71_switch",
    "Tpl.Props.C71_for",
    "Tpl.Props.C71_for_ends"
   ],
   "note": "if and switch as equivalences, for in both directions (C71_for, C71_for_ends)."
  },
  {
   "property": "C72",
   "status": "proved",
   "theorems": [
    "Tpl.Props.C72_slice",
    "Tpl.Props.C72_type_unique",
    "Tpl.Props.C72_map_string",
    "Tpl.Props.C72_map_int",
    "Tpl.Props.C72_map_only"
   ],
   "note": ""
  },
  {
   "property": "C73",
   "status": "proved",
   "theorems": [
    "Tpl.Props.C73_keeps",
    "Tpl.Props.C73_panics",
    "Tpl.Props.C73_names",
    "Tpl.Props.C73_defines",
    "Tpl.Props.C73_module"
   ],
   "note": "Outside of safe mode, whose hook may change the imported table first."
  },
  {
   "property": "C74",
   "status": "partial",
   "theorems": [
    "Tpl.Props.C74_builds_partial",
    "Tpl.Props.C74_violated_repeat1",
    "Tpl.Props.C74_violated_string",
    "Tpl.Props.C74_violated_reference"
   ],
   "note": "For texts without '+', strings and 'true' in which no rule used before its definition is used again afterwards, the generated program builds the tables of the compiled grammar, for every order of the map iterations; the excluded texts are shown to give wrong code by concrete witnesses. Missing: a positive statement about the excluded texts (there is none: the code is wrong)."
  },
  {
   "property": "C75",
   "status": "proved",
   "theorems": [
    "Tpl.Props.C75_document",
    "Tpl.Props.C75_unique"
   ],
   "note": ""
  },
  {
   "property": "C76",
   "status": "proved",
   "theorems": [
    "Tpl.Props.C76_safe",
    "Tpl.Props.C76_same"
   ],
   "note": ""
  },
  {
   "property": "C77",
   "status": "proved",
   "theorems": [
    "Tpl.Props.C77_marks",
    "Tpl.Props.C77_marker"
   ],
   "note": "typ must not contain an underscore (it is the part after the last one)."
  },
  {
   "property": "C78",
   "status": "proved",
   "theorems": [
    "Tpl.Props.C78_scan",
    "Tpl.Props.C78_tokenize",
    "Tpl.Props.C78_unambiguous"
   ],
   "note": "Both directions for every text, mode and keyword table; the lexical grammar is also shown to be unambiguous on clean texts. Unicode letter and digit tables are a parameter."
  },
  {
   "property": "C79",
   "status": "proved",
   "theorems": [
    "Tpl.Props.C79_compiles",
    "Tpl.Props.C79_marks",
    "Tpl.Props.C79_accepts",
    "Tpl.Props.C79_unambiguous"
   ],
   "note": "The programs are given as syntax trees in Spec/QlangSyntax.lean, which say nothing about the grammar; Spec/QlangMarks.lean says which marks a tree consists of. C79_compiles: the text Grammar (byte for byte that of qlang.go) compiles for every library, Unicode table and scan mode; C79_marks: for the result of any such compilation, matching the tokens of any program succeeds with all of them, and the callbacks made are exactly the marks of the tree, in its order, with its tokens and item counts; C79_accepts: with arbitrary callbacks in an arbitrary state a program is never refused; C79_unambiguous: trees with the same tokens have the same marks. Trees whose for or switch head begins with '{', or where a part of a for head is a return without value, are excluded (Tm.Ok), because the grammar reads these differently."
  },
  {
   "property": "C80",
   "status": "proved",
   "theorems": [
    "Tpl.Props.C80_match",
    "Tpl.Props.C80_runs",
    "Tpl.Props.C80_ends",
    "Tpl.Props.C80_forever",
    "Tpl.Props.C80_unique",
    "Tpl.Props.C80_setup"
   ],
   "note": "Spec/QlangSem.lean gives syntax trees a meaning in terms of variables, functions, heap values and panics only; it knows no stack, marks, code values or grammars (except as the place that runtime errors mention). A run is bounded by a number (depth of calls, rounds of a loop); programs whose evaluation does not end get no meaning and nothing is claimed of them. C80_runs: with the compiled qlang grammar, running the text of any program from any state of an engine that is between two programs gives the value of the tree on the stack and the variables, functions and heap of the semantics, or panics with the panic of the semantics. C80_match: the same for tokens. C80_unique: the meaning depends on the tokens only. C80_setup: the parsers of function bodies that the semantics is given exist for every host. Host functions are those that work on values and heap; functions of the host that call back into the interpreter are not covered. The text must tokenize to the tokens of the tree; with the option to insert semicolons the tree has the last inserted semicolon."
  },
  {
   "property": "C81",
   "status": "proved",
   "theorems": [
    "Tpl.Props.C81_safe",
    "Tpl.Props.C81_panics",
    "Tpl.Props.C81_refused",
    "Tpl.Props.C81_error"
   ],
   "note": "Spec/QlangSafe.lean says what running a tree safely means, on top of the semantics of C80. C81_safe: SafeExec of the text of any program whose safe evaluation ends returns nil, the error the panic stands for, or panics, as that meaning says, with the same variables, functions and heap. C81_panics: for every text and state, SafeExec panics only with a value that is neither string nor error (os.Exit is modelled as one of these), or because a deferred expression panics. Programs that do not end and host functions that call back into qlang are not covered, as in C80."
  },
  {
   "property": "C82",
   "status": "partial",
   "theorems": [
    "Tpl.Props.C82_exec_partial",
    "Tpl.Props.C82_safe_partial",
    "Tpl.Props.C82_deferred",
    "Tpl.Props.C82_semicolon",
    "Tpl.Props.C82_violated_deferred",
    "Tpl.Props.C82_violated_semicolon"
   ],
   "note": "C82_exec_partial, C82_safe_partial: after Exec, and after SafeExec of a program that has deferred nothing, Ret gives the value of the program and the engine is between two programs again. The full property is false of the code: C82_deferred (after SafeExec of a program that deferred something Ret gives the value of the deferred expression that ran last; example defer 5; 7) and C82_semicolon (the value of a program ending with a semicolon, also one that InsertSemis added, is nil); both shown on a new engine by C82_violated_deferred and C82_violated_semicolon."
  },
  {
   "property": "C83",
   "status": "proved",
   "theorems": [
    "Tpl.Props.C83_reads",
    "Tpl.Props.C83_session",
    "Tpl.Props.C83_new"
   ],
   "note": "Spec/QlangSession.lean says what a sequence of programs gives: each begins with what the last one has left. C83_session: for every sequence of texts of programs run with Exec (then Ret or not) or SafeExec on an engine that is ready, the host sees those outcomes, and the engine is ready again after each; C83_new says it of a new engine. Ret is called only after a program that ended normally (and after SafeExec only if nothing was deferred, see C82). C83_reads: after any calls with any texts, failed or not, a text gives the same tokens as before. Not covered: what texts that are not programs leave behind, programs that do not end, programs that end the process."
  },
  {
   "property": "C84",
   "status": "proved",
   "theorems": [
    "Tpl.Props.C84_wants",
    "Tpl.Props.C84_method",
    "Tpl.Props.C84_function",
    "Tpl.Props.C84_muted"
   ],
   "note": "for any function, one mark of a match at a time; the function may run the engine again"
  },
  {
   "property": "C85",
   "status": "partial",
   "theorems": [
    "Tpl.Props.C85_go_partial",
    "Tpl.Props.C85_violated"
   ],
   "note": "the code violates the property (C85_violated: elements of a slice of interface{} are refused); C85_go_partial says exactly when the function is called, as reflect sees the elements"
  },
  {
   "property": "C86",
   "status": "partial",
   "theorems": [
    "Tpl.Props.C86_partial",
    "Tpl.Props.C86_violated"
   ],
   "note": "the code violates the property for octal and hexadecimal literals (C86_violated); C86_partial is the full property for decimal ones"
  },
  {
   "property": "C87",
   "status": "proved",
   "theorems": [
    "Tpl.Props.C87_program",
    "Tpl.Props.C87_panics"
   ],
   "note": "for functions that work on a state of their own; for functions that call EvalCode see C84 and C88"
  },
  {
   "property": "C88",
   "status": "proved",
   "theorems": [
    "Tpl.Props.C88_returns",
    "Tpl.Props.C88_unmuted",
    "Tpl.Props.C88_evalCode"
   ],
   "note": ""
  },
  {
   "property": "C89",
   "status": "proved",
   "theorems": [
    "Tpl.Props.C89_marks",
    "Tpl.Props.C89_new",
    "Tpl.Props.C89_ready",
    "Tpl.Props.C89_panics"
   ],
   "note": ""
  },
  {
   "property": "C90",
   "status": "proved",
   "theorems": [
    "Tpl.Props.C90_matched",
    "Tpl.Props.C90_accepted",
    "Tpl.Props.C90_refused"
   ],
   "note": "Every accepted text is the text of a syntax tree; no text of a tree (without two indices in one pair of brackets) is refused."
  },
  {
   "property": "C91",
   "status": "proved",
   "theorems": [
    "Tpl.Props.C91_unique",
    "Tpl.Props.C91_calculator",
    "Tpl.Props.C91_ratcalc",
    "Tpl.Props.C91_cmplxcalc"
   ],
   "note": "Lines up to 64 KB; the arithmetic of float64 and complex128 and their texts are parameters. For ratcalc the literals have to be numbers for SetString."
  },
  {
   "property": "C92",
   "status": "partial",
   "theorems": [
    "Tpl.Props.C92_answered_partial",
    "Tpl.Props.C92_violated"
   ],
   "note": "the code violates the property (C92_violated: lines after one of 64 KB are lost); C92_answered_partial says what happens: all lines before are answered, the program ends with code 0"
  },
  {
   "property": "C93",
   "status": "proved",
   "theorems": [
    "Tpl.Props.C93_read_back",
    "Tpl.Props.C93_injective"
   ],
   "note": "For every list of rationals whose texts are shorter than 64 KB."
  },
  {
   "property": "C94",
   "status": "proved",
   "theorems": [
    "Tpl.Props.C94_get",
    "Tpl.Props.C94_same",
    "Tpl.Props.C94_set",
    "Tpl.Props.C94_set_pairs",
    "Tpl.Props.C94_set_odd",
    "Tpl.Props.C94_sub",
    "Tpl.Props.C94_append",
    "Tpl.Props.C94_append_panics",
    "Tpl.Props.C94_fresh"
   ],
   "note": "Every history of calls. How much a slice grows is a parameter."
  },
  {
   "property": "C95",
   "status": "partial",
   "theorems": [
    "Tpl.Props.C95_stored_partial",
    "Tpl.Props.C95_violated",
    "Tpl.Props.C95_violated_float"
   ],
   "note": "Violated: append takes nil, and ints for floats, set does not. Proved: which values each takes."
  },
  {
   "property": "C96",
   "status": "proved",
   "theorems": [
    "Tpl.Props.C96_get",
    "Tpl.Props.C96_set",
    "Tpl.Props.C96_delete",
    "Tpl.Props.C96_delete_others",
    "Tpl.Props.C96_nan",
    "Tpl.Props.C96_fresh",
    "Tpl.Props.C96_member"
   ],
   "note": "For every == on floats that is symmetric and transitive."
  },
  {
   "property": "C97",
   "status": "proved",
   "theorems": [
    "Tpl.Props.C97_set",
    "Tpl.Props.C97_fresh",
    "Tpl.Props.C97_member"
   ],
   "note": ""
  },
  {
   "property": "C98",
   "status": "partial",
   "theorems": [
    "Tpl.Props.C98_unchanged_partial",
    "Tpl.Props.C98_violated",
    "Tpl.Props.C98_violated_set"
   ],
   "note": "Violated by append and by set with several pairs. Proved for all other calls; for append that only places behind the slice change."
  },
  {
   "property": "C99",
   "status": "proved",
   "theorems": [
    "Tpl.Props.C99_all",
    "Tpl.Props.C99_help",
    "Tpl.Props.C99_stops",
    "Tpl.Props.C99_unique",
    "Tpl.Props.C99_stdout",
    "Tpl.Props.C99_touches",
    "Tpl.Props.C99_files"
   ],
   "note": "json output, html/template and the template directories are parameters; different paths are different files"
  },
  {
   "property": "C100",
   "status": "partial",
   "theorems": [
    "Tpl.Props.C100_unchanged_partial",
    "Tpl.Props.C100_violated"
   ],
   "note": "proved for json output, for all errors other than those of the output format and its template, and for all errors without -ext; otherwise the code violates the property (C100_violated)"
  },
  {
   "property": "C101",
   "status": "partial",
   "theorems": [
    "Tpl.Props.C101_crash_partial",
    "Tpl.Props.C101_violated"
   ],
   "note": "proved: a crash is a panic of extractor.New on a template or of a value function that is neither a string nor an error; the former happens (C101_violated)"
  },
  {
   "property": "C102",
   "status": "proved",
   "theorems": [
    "Tpl.Props.C102_search",
    "Tpl.Props.C102_writes",
    "Tpl.Props.C102_builds"
   ],
   "note": "go/parser and the output template are parameters; the code itself is the subject of C74"
  },
  {
   "property": "C103",
   "status": "partial",
   "theorems": [
    "Tpl.Props.C103_order_partial",
    "Tpl.Props.C103_violated"
   ],
   "note": "proved if the name is declared at most once; with two declarations the code violates the property (C103_violated)"
  },
  {
   "property": "C104",
   "status": "partial",
   "theorems": [
    "Tpl.Props.C104_value_partial",
    "Tpl.Props.C104_violated"
   ],
   "note": "proved for raw strings and strings without backslash; escapes are not replaced (C104_violated)"
  },
  {
   "property": "C105",
   "status": "proved",
   "theorems": [
    "Tpl.Props.C105_fresh"
   ],
   "note": "the file system is the content of the output file"
  },
  {
   "property": "C106",
   "status": "partial",
   "theorems": [
    "Tpl.Props.C106_crash_partial",
    "Tpl.Props.C106_violated",
    "Tpl.Props.C106_violated_body",
    "Tpl.Props.C106_violated_short"
   ],
   "note": "proved when everything of that name has a value of its own, functions have bodies, literals have two quotes and GenStaticCode does not panic; otherwise the code crashes (C106_violated, C106_violated_body, C106_violated_short)"
  },
  {
   "property": "C107",
   "status": "proved",
   "theorems": [
    "Tpl.Props.C107_string",
    "Tpl.Props.C107_unique"
   ],
   "note": "for texts that tokenize without error (C78); strconv.Unquote is modelled from its documentation and source"
  },
  {
   "property": "C108",
   "status": "partial",
   "theorems": [
    "Tpl.Props.C108_char_partial",
    "Tpl.Props.C108_unique",
    "Tpl.Props.C108_violated",
    "Tpl.Props.C108_violated_wide"
   ],
   "note": "proved for ASCII characters and byte escapes, with the exact outcome for the others; the claim fails for them (C108_violated, C108_violated_wide)"
  },
  {
   "property": "C109",
   "status": "partial",
   "theorems": [
    "Tpl.Props.C109_int_partial",
    "Tpl.Props.C109_unique",
    "Tpl.Props.C109_violated",
    "Tpl.Props.C109_violated_hex"
   ],
   "note": "proved for decimal literals, with the exact outcome for the others; the claim fails for octal and hexadecimal ones (C109_violated, C109_violated_hex)"
  },
  {
   "property": "C110",
   "status": "partial",
   "theorems": [
    "Tpl.Props.C110_eval_partial",
    "Tpl.Props.C110_violated_sub",
    "Tpl.Props.C110_violated_params",
    "Tpl.Props.C110_violated_context",
    "Tpl.Props.C110_violated_trace",
    "Tpl.Props.C110_violated_octal",
    "Tpl.Props.C110_violated_hex",
    "Tpl.Props.C110_violated_semis",
    "Tpl.Props.C110_violated_nil"
   ],
   "note": "proved for grammars C74 covers without the mark _tr, clients whose functions have at most one parameter behind the receiver (not *Context) and do not call the engine, default options and decimal numbers; panic values may differ; the claim fails for octal and hexadecimal numbers, InsertSemis, EvalSub/EvalCode, other functions, _tr and the empty grammar (C110_violated_*)"
  },
  {
   "property": "C111",
   "status": "partial",
   "theorems": [
    "Tpl.Props.C111_end_partial",
    "Tpl.Props.C111_violated"
   ],
   "note": "proved for all tokens but semicolons, the illegal token `..`, and raw strings and comments with carriage returns, with what End is for those; the claim fails for them (C111_violated)"
  },
  {
   "property": "C112",
   "status": "partial",
   "theorems": [
    "Tpl.Props.C112_keywords",
    "Tpl.Props.C112_first_partial",
    "Tpl.Props.C112_second_compiles_partial",
    "Tpl.Props.C112_second_matches_partial",
    "Tpl.Props.C112_violated_first",
    "Tpl.Props.C112_violated_second",
    "Tpl.Props.C112_violated_compile"
   ],
   "note": "the code violates the full statement (C112_violated_*); proved: which words become keywords, and that grammars sharing a scanner behave as with scanners of their own on texts and grammar texts that do not use each other's words as identifiers"
  },
  {
   "property": "C113",
   "status": "proved",
   "theorems": [
    "Tpl.Props.C113_unique",
    "Tpl.Props.C113_called",
    "Tpl.Props.C113_refused",
    "Tpl.Props.C113_compile",
    "Tpl.Props.C113_int"
   ],
   "note": "For functions with a receiver that New accepts. float64 is a parameter; the value ParseInt gives is the subject of C50. Types that are defined as one of the predeclared types are not modelled."
  },
  {
   "property": "C114",
   "status": "partial",
   "theorems": [
    "Tpl.Props.C114_laid_out",
    "Tpl.Props.C114_semis_partial",
    "Tpl.Props.C114_violated"
   ],
   "note": "Layouts are read back without InsertSemis (C114_laid_out), and with it for texts that end with a semicolon (C114_semis_partial); C114_violated: with InsertSemis a block comment before a # comment prevents the automatic semicolon at the end."
  },
  {
   "property": "C115",
   "status": "proved",
   "theorems": [
    "Tpl.Props.C115_matches",
    "Tpl.Props.C115_extractor",
    "Tpl.Props.C115_value",
    "Tpl.Props.C115_expression",
    "Tpl.Props.C115_grammar",
    "Tpl.Props.C115_grammar_matches",
    "Tpl.Props.C115_layout",
    "Tpl.Props.C115_grammar_layout"
   ],
   "note": "C115_matches for callbacks that do not look at positions; extractor, calculators and Cl; C115_layout/C115_grammar_layout combine it with C114"
  },
  {
   "property": "C116",
   "status": "partial",
   "theorems": [
    "Tpl.Props.C116_rules_partial",
    "Tpl.Props.C116_text_partial",
    "Tpl.Props.C116_engine_partial",
    "Tpl.Props.C116_extractor_partial",
    "Tpl.Props.C116_violated"
   ],
   "note": "The code violates it: an alternative that is nothing but `!` is accepted and crashes when it is reached (C116_violated). Proved for every text without such an alternative, for matches, texts, interpreters and extractors."
  },
  {
   "property": "C117",
   "status": "partial",
   "theorems": [
    "Tpl.Props.C117_exact",
    "Tpl.Props.C117_quoted_partial",
    "Tpl.Props.C117_violated"
   ],
   "note": "The code violates it: `\"+\"` and `\"1\"` are accepted and match nothing (C117_violated). C117_exact is the exact characterization for all quoted texts, C117_quoted_partial the property for words and operators in the right quotes."
  },
  {
   "property": "C118",
   "status": "partial",
   "theorems": [
    "Tpl.Props.C118_alone",
    "Tpl.Props.C118_own_partial",
    "Tpl.Props.C118_shared_partial",
    "Tpl.Props.C118_violated",
    "Tpl.Props.C118_violated_len"
   ],
   "note": "The code violates it for a shared Matcher (C118_violated) and a shared grammar whose actions read Len (C118_violated_len). Proved for every schedule if each goroutine has its own Matcher (C118_own_partial), and for a shared grammar on tokens if no action reads Len (C118_shared_partial)."
  },
  {
   "property": "C119",
   "status": "partial",
   "theorems": [
    "Tpl.Props.C119_value",
    "Tpl.Props.C119_unique",
    "Tpl.Props.C119_given_partial",
    "Tpl.Props.C119_leaf_partial",
    "Tpl.Props.C119_mark_partial",
    "Tpl.Props.C119_imag_partial",
    "Tpl.Props.C119_violated",
    "Tpl.Props.C119_violated_octal",
    "Tpl.Props.C119_violated_leaf"
   ],
   "note": "The code violates it for `1e`, for octal and hexadecimal numbers from 2^63 on, and for octal and hexadecimal Float leaves (C119_violated, C119_violated_octal, C119_violated_leaf). Proved for all other numbers, for each of the four ways numbers are used."
  },
  {
   "property": "C120",
   "status": "partial",
   "theorems": [
    "Tpl.Props.C120_message",
    "Tpl.Props.C120_unique",
    "Tpl.Props.C120_returned_partial",
    "Tpl.Props.C120_failfast_partial",
    "Tpl.Props.C120_leftover",
    "Tpl.Props.C120_runtime_partial",
    "Tpl.Props.C120_violated",
    "Tpl.Props.C120_violated_runtime"
   ],
   "note": "Violated at the end of the text (line 0). Proved: what every message says, for all errors that are about a token; the excerpt is determined (C120_unique)."
  },
  {
   "property": "C121",
   "status": "partial",
   "theorems": [
    "Tpl.Props.C121_literal_partial",
    "Tpl.Props.C121_computes_partial",
    "Tpl.Props.C121_session_partial",
    "Tpl.Props.C121_read_back",
    "Tpl.Props.C121_violated",
    "Tpl.Props.C121_violated_hex"
   ],
   "note": "Violated by octal and, before Go 1.14, hexadecimal numbers. Proved for all other numbers of any length, and exactly which value every literal gets (C121_literal_partial)."
  },
  {
   "property": "C122",
   "status": "proved",
   "theorems": [
    "Tpl.Props.C122_tokens",
    "Tpl.Props.C122_texts",
    "Tpl.Props.C122_grammar",
    "Tpl.Props.C122_compiles"
   ],
   "note": "A byte order mark in front of the second text is an error in the middle of a text; the hypothesis excludes it."
  },
  {
   "property": "C123",
   "status": "partial",
   "theorems": [
    "Tpl.Props.C123_again_partial",
    "Tpl.Props.C123_keywords_partial",
    "Tpl.Props.C123_runtime_partial",
    "Tpl.Props.C123_violated",
    "Tpl.Props.C123_violated_panic"
   ],
   "note": "Violated (C123_violated, C123_violated_panic). The message is the same again as long as the scanner holds the text of the match. That File.Line of a runtime error panics when the text is shorter is not modelled: FileLine is only used for positions of the same text."
  },
  {
   "property": "C124",
   "status": "proved",
   "theorems": [
    "Tpl.Props.C124_result",
    "Tpl.Props.C124_meaning",
    "Tpl.Props.C124_parts",
    "Tpl.Props.C124_stops",
    "Tpl.Props.C124_whole",
    "Tpl.Props.C124_not_closed"
   ],
   "note": "Exec only: SafeExec runs the deferred expressions at the end of each part. So that functions and errors have the same places, the second part is given behind the first part made blank. C124_not_closed: `1 /**/ #` gets no inserted semicolon at its end, and cannot be followed by `2`."
  },
  {
   "property": "C125",
   "status": "partial",
   "theorems": [
    "Tpl.Props.C125_rules",
    "Tpl.Props.C125_matches",
    "Tpl.Props.C125_text_partial",
    "Tpl.Props.C125_violated"
   ],
   "note": "Violated (C125_violated) for texts with a word as identifier that only the added rules have in quotes. C125_text_partial has all other texts; the rules and what they do with tokens are as before without exception (C125_rules, C125_matches). Marked functions may use rules of the first text (EvalSub)."
  },
  {
   "property": "C126",
   "status": "partial",
   "theorems": [
    "Tpl.Props.C126_traces_partial",
    "Tpl.Props.C126_text_partial",
    "Tpl.Props.C126_compiles_partial",
    "Tpl.Props.C126_violated_true",
    "Tpl.Props.C126_violated_doc",
    "Tpl.Props.C126_violated_bang"
   ],
   "note": "Violated (C126_violated_true, C126_violated_doc, C126_violated_bang) for a rule named true, for references to doc up to the end of its rule, and for a lone ! as a rule. All other texts whose rules have different names: C126_compiles_partial, C126_traces_partial, C126_text_partial; the marked functions do not look at the numbers of token kinds."
  },
  {
   "property": "C127",
   "status": "proved",
   "theorems": [
    "Tpl.Props.C127_compiles",
    "Tpl.Props.C127_rules",
    "Tpl.Props.C127_traces",
    "Tpl.Props.C127_text"
   ],
   "note": "C127_compiles, C127_rules, C127_traces, C127_text."
  },
  {
   "property": "C128",
   "status": "partial",
   "theorems": [
    "Tpl.Props.C128_traces_partial",
    "Tpl.Props.C128_text_partial",
    "Tpl.Props.C128_compiles_partial",
    "Tpl.Props.C128_violated_mark",
    "Tpl.Props.C128_violated_bang",
    "Tpl.Props.C128_violated_true",
    "Tpl.Props.C128_violated_doc"
   ],
   "note": "Violated (C128_violated_mark, C128_violated_bang, C128_violated_true, C128_violated_doc) for a reference with a mark, a lone ! as a rule, a rule named true and a rule that refers to doc. All other references, any number of them: C128_traces_partial, C128_text_partial (both directions), C128_compiles_partial; the same words are quoted in both texts, and the marked functions do not look at the numbers of token kinds."
  },
  {
   "property": "C129",
   "status": "partial",
   "theorems": [
    "Tpl.Props.C129_ends_partial",
    "Tpl.Props.C129_forever"
   ],
   "note": "Violated (C129_forever) by a return in a deferred expression of the program. All programs without such a return: C129_ends_partial."
  },
  {
   "property": "C130",
   "status": "partial",
   "theorems": [
    "Tpl.Props.C130_traces_partial",
    "Tpl.Props.C130_text_partial",
    "Tpl.Props.C130_compiles_partial",
    "Tpl.Props.C130_violated_mark",
    "Tpl.Props.C130_violated_alts",
    "Tpl.Props.C130_violated_bang"
   ],
   "note": "Violated where marks count the items of a group (C130_violated_mark, C130_violated_alts) and for `!` in a group (C130_violated_bang). All other groups: C130_traces_partial, C130_text_partial, C130_compiles_partial."
  },
  {
   "property": "C131",
   "status": "partial",
   "theorems": [
    "Tpl.Props.C131_traces_partial",
    "Tpl.Props.C131_text_partial",
    "Tpl.Props.C131_compiles_partial",
    "Tpl.Props.C131_peek",
    "Tpl.Props.C131_not_or_partial",
    "Tpl.Props.C131_option_partial",
    "Tpl.Props.C131_star_partial",
    "Tpl.Props.C131_factor_partial",
    "Tpl.Props.C131_tail_partial",
    "Tpl.Props.C131_violated_factor",
    "Tpl.Props.C131_violated_mark",
    "Tpl.Props.C131_violated_items",
    "Tpl.Props.C131_violated_bang"
   ],
   "note": "Violated where a mark counts the elements of the operator (C131_violated_mark, C131_violated_items), for a list of nothing but `!` (C131_violated_bang) and for a common beginning with a mark (C131_violated_factor). Everywhere else: C131_traces_partial, C131_text_partial, C131_compiles_partial, and for combinators C131_peek, C131_not_or_partial, C131_option_partial, C131_star_partial, C131_factor_partial, C131_tail_partial (C29 has lists). Not covered: common beginnings that refer to rules, unless the rules are written out first (C128). Strengthens C29 from operators to grammar texts."
  },
  {
   "property": "C132",
   "status": "partial",
   "theorems": [
    "Tpl.Props.C132_unique",
    "Tpl.Props.C132_found_partial",
    "Tpl.Props.C132_stale",
    "Tpl.Props.C132_violated"
   ],
   "note": "Violated for texts that cannot be tokenized (C132_violated; C132_stale says that Result is then always the old one). All other ways to end: C132_found_partial with C132_unique."
  },
  {
   "property": "C133",
   "status": "partial",
   "theorems": [
    "Tpl.Props.C133_order_partial",
    "Tpl.Props.C133_between_partial",
    "Tpl.Props.C133_module",
    "Tpl.Props.C133_violated"
   ],
   "note": "Violated for imports of symbols that panic (C133_violated). Modules: C133_module. Independence of the order: C133_order_partial. What can be left by a panic: C133_between_partial."
  },
  {
   "property": "C134",
   "status": "partial",
   "theorems": [
    "Tpl.Props.C134_same_partial",
    "Tpl.Props.C134_accepts_partial",
    "Tpl.Props.C134_next_partial",
    "Tpl.Props.C134_exactly_partial",
    "Tpl.Props.C134_compiles_partial",
    "Tpl.Props.C134_violated",
    "Tpl.Props.C134_violated_word"
   ],
   "note": "Violated where an old alternative matches a beginning of the text (C134_violated) and for words that only the added alternatives have in quotes (C134_violated_word). As before where an old alternative matches or panics: C134_same_partial, C134_accepts_partial. As the added alternatives alone where none does: C134_next_partial. Accepted exactly if the old alternatives accept, or none of them matches and the added ones accept: C134_exactly_partial. The new text compiles if the other two do: C134_compiles_partial."
  },
  {
   "property": "C135",
   "status": "proved",
   "theorems": [
    "Tpl.Props.C135_paren",
    "Tpl.Props.C135_neg",
    "Tpl.Props.C135_op",
    "Tpl.Props.C135_call",
    "Tpl.Props.C135_replace"
   ],
   "note": "C135_paren, C135_neg, C135_op, C135_call, C135_replace. In number and cmplx the counts of arguments have to survive the conversion to float64 and back (they do up to 2^53), as in C53."
  },
  {
   "property": "C136",
   "status": "proved",
   "theorems": [
    "Tpl.Props.C136_value",
    "Tpl.Props.C136_reuse"
   ],
   "note": "C136_value, C136_reuse. (*big.Rat).SetString is only assumed to read decimal digits, as in C93."
  },
  {
   "property": "C137",
   "status": "partial",
   "theorems": [
    "Tpl.Props.C137_goes_on_partial",
    "Tpl.Props.C137_deferred_partial",
    "Tpl.Props.C137_fails_partial",
    "Tpl.Props.C137_any_call_partial",
    "Tpl.Props.C137_leaves_partial",
    "Tpl.Props.C137_violated"
   ],
   "note": "Violated by a return in a deferred expression, which ends the caller too (C137_violated). Proved for every call at the beginning of a program of a function with as many parameters as arguments, with every body and every continuation, if what is deferred ends by itself (C137_any_call_partial; for function literals without parameters also C137_goes_on_partial, C137_deferred_partial, C137_fails_partial). For calls at any place of a program: a return goes on behind the call only if the function has deferred something (C137_leaves_partial, also for variadic functions). Missing: what the program does behind calls at other places."
  }
 ]
}