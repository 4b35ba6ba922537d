# Formal model of m2osw/csspp — design

The code of /repo/csspp (C++) is modelled, function by function, as total computable
Lean 4 functions; the properties of `properties.jsonl` are theorems about these functions.

## Layout

* `lean/Verif/Model/*.lean` — the model. Every definition cites the file and lines it models, and says where it simplifies.
* `lean/Verif/Spec/*.lean` — small, independent specifications used in theorem statements.
* `lean/Verif/Lemmas/*.lean` — helper lemmas.
* `lean/Verif/Props/*.lean` — the property theorems (`C01_...`) with non-vacuity examples and,
  where the unrestricted claim is false of the code, the refutation by witness.
* `seeded/LOG.jsonl` — mutation log: realistic bugs put in a scratch copy of the model, and
  the theorems that stop proving.
* `AXIOMS.md` — the axioms of each theorem of the manifest.

## Conventions of the model

* `std::string` is `List Nat` (bytes, each < 256); `wide_char_t` (int32) is `Int`, EOF is -1 (in the lexer: its
  unsigned image).
* `int64_t`/`int32_t` are `Int` with an explicit wrap function; signed overflow, which is
  undefined behaviour in C++, is a distinct outcome (a sticky `ub` flag, or `none`/`.ub`/`undef`).
* C++ exceptions are distinct outcomes (`throws`, `Except`, or a sticky flag in the lexer state whose
  effect is that `nextToken` returns `.error`).
* Loops and mutual recursion take a `fuel` argument; running out of fuel is a distinct outcome (`hang`, `fuel`), and the
  termination theorems (C03, C36, C43, C67, and C53/C58–C60 for the variables) prove it unreachable, or reachable for
  ever when the C++ code does not end (C61).
* Error messages are constructors of an enumeration (the text is not modelled, but for @error and the like), with
  their position where the code gives one; error.cpp itself is modelled separately.
* `float`/`double`: IEEE 754 numbers, exact integers with an explicit rounding (Model/Flt.lean); decimal numbers read by
  the lexer are kept as their digits, those of the nodes made by the compiler as IEEE 754 numbers.
* A tree that the code modifies in place through pointers is a value that the functions return, except where identity
  can be observed (node.cpp, the variables, the expressions): there it is a heap.

## What is modelled, and what is not

| file of /repo/csspp | modelled | not modelled |
|---|---|---|
| lexer.cpp, lexer.h, position.cpp | all (Model/Lexer, Utf8) | the value of a decimal number (its digits are kept) |
| parser.cpp | all (Model/Parser) | the depth of the C++ stack |
| node.cpp, node.h | data, accessors, children, flags, variables, clone, to_boolean, convert_to_... (Model/Node, NodeType, ExprOps), to_string (Model/NodeText) | the debug output (`display`), the limit on the number of nodes |
| assembler.cpp | output() and the four modes (Model/Assembler, AsmText) | the text written before an exception; a file that fails |
| color.cpp | table, search, bytes, rgba, to_string (Model/Color); HSL (Model/Functions) | |
| csspp.cpp | precision, decimal_number_to_string (Model/Decimal, ErrorMod) | the version functions |
| error.cpp | counters, modes, RAII objects (Model/ErrorMod) | the text of the messages |
| expression.cpp, expr_*.cpp | all operators, lists, maps, arrays, variables, grammar, compile_list (Model/ExprOps, ExprEval, Dimension, CompileList) | `pow()` is a parameter; the internal functions are a parameter of the evaluation |
| internal_functions.cpp | all 44 functions and the dispatch (Model/Functions) | the C library (acos asin atan cos sin tan log sqrt pow rand), node::to_string and the variable lookup are parameters |
| nth_child.cpp, unicode_range.cpp | all | |
| compiler.cpp | compiler_state_t (100-410, Model/CompilerState; execute_user_function in Model/UserFunc), set_date_time_variables (428-506, Model/Dates), compile (616-1627, Model/Compile), mark_selectors, remove_empty_rules, replace_variables, @mixin, @include, @if, @else, @import (1805-2964, Model/Vars), selectors (2966-3722, Model/Selector), the validation scripts and run_validation (3724-3859 and scripts/validation/*.scss, Model/Validation, Model/Scripts), expand_nested_* (3861-4176, Model/Expand), add_header_and_footer and set_no_logo (512-615, Model/Tool) | |
| tools/csspp.cpp | the order lexer, parser, compile(true), assembler (Model/Pipeline); the command line tool (Model/Tool) | advgetopt, --version and --help, the debug output, what an exception of the assembler leaves in the file |
| scripts/system, scripts/validation | the files themselves (Model/SystemScripts, Model/Scripts) | selectors.scss; the configuration of version.scss by CMake (the numbers are those of debian/changelog) |

Parameters of the models (every theorem holds for all of them): `access(2)` for find_file; the results of the validation
scripts in the models of the selectors and of the declarations (C87 has the scripts themselves); in the passes on trees, the results of an expression, node::to_string() and the
contents of imported files; `pow()`.

## Per-property plan

| id | what is modelled | how proved |
|----|------------------|------------|
| C01, C02, C48 | mbtowc, wctomb on bytes with the code's bit operations | case analysis on the ranges, arithmetic lemmas |
| C03, C04, C05, C07 | the whole lexer as a state machine (unget stack, input bytes, position, error log, exception flag) | measure/invariant lemma per function, composed in next_token, induction over the number of calls |
| C06 | position.cpp + getc | invariant: line counter + pending line breaks is constant |
| C08, C09, C10, C12 | assembler::output_string, escape_id, integer output, unicode_range_t::to_string against the lexer model | induction over the content |
| C11, C13 | unicode_range.cpp with 64 bit packing | arithmetic |
| C14, C15, C16 | nth_child.cpp | bit lemmas; induction over digit strings; grammar Spec/AnB |
| C17, C18 | error.cpp counters and RAII objects as a state machine over operation sequences | induction over histories |
| C19 | decimal_number_to_string on the exact value of the sum | list induction |
| C20, C22 | color.cpp table, binary search, to_string | sortedness by kernel evaluation over the whole table, binary search by induction |
| C21 | color bytes with IEEE single rounding made explicit | kernel evaluation over the 256 bytes lifted to rgba |
| C23, C24 | dimension strings | lists, counting lemmas |
| C25–C31, C51, C52 | expression values and operators; heap of nodes for aliasing | case analysis; induction on the grammar derivation |
| C43 | the evaluator with fuel | measure on the tokens left |
| C32–C35 | node.cpp | finite tables lifted; list lemmas; induction on trees |
| C36–C39, C55, C56 | parser.cpp on token lists | fuel induction with a measure; structural invariants; the inverse (a tree is written as tokens) by induction on trees |
| C40, C41, C57 | assembler.cpp on trees, four modes, and the lexer on what it writes | simultaneous induction on trees comparing modes; one re-reading lemma per kind of token |
| C42, C45, C46 | compiler_state_t: variables, find_file, the name of an import | list induction; `access` is a parameter |
| C44, C47 | the tokens of the lexer and their grammar (Spec/Lexemes, TokenFields) | one lemma per function of the lexer in both directions |
| C49, C50 | parse_selector against a grammar (Spec/Selectors) | both directions by induction on lists and fuel |
| C53, C54, C58–C62 | replace_variables, set_variable, mixins, @if, @import, comments, mark_selectors, remove_empty_rules | fuel induction; "with enough fuel the result is" (`Gives`) and substitution specifications (Spec/Template, Branches, Assign, Marks, Preprocess) |
| C63 | expand_nested_* | structural specification (Spec/Nest) proved equal to the pass by induction on trees; counting of the declarations |
| C64–C70 | compile_* | one combinator lemma per function for termination and completeness (Spec/Compiled); `Gives` for the contexts |
| C71 | lexer::number's double (Model/NumValue), decimal_number_to_string | error bounds of each rounding (Lemmas/FltErr), exhaustive kernel check of the 1111 fractions, linear arithmetic with symbolic 2^1060 |
| C72 | excecute_function, its table | case analysis over the table; `Good`/`Other` per function |
| C73 | floor, ceil, round (exact), fabs, sign | division with remainder of the magnitudes; 2^1074 kept symbolic |
| C74 | max, min | induction over the arguments, for a comparison `Strict` |
| C75 | the five conversions | exact magnitude arithmetic; the text is read by the lexer model, C01/C22's numerals |
| C76 | rgb, rgba, frgb, frgba, red, green, blue | the 256 bytes evaluated by the kernel; for all floats an error bound on the two roundings |
| C77 | sqrt | induction over the units, counting |
| C78 | str_length | UTF-8 specification `Utf8`, induction |
| C79 | unique_id | induction over the history; digits of distinct counters |
| C80 | set_hsl, get_hsl, hsl, hsla, hue, saturation, lightness | bounds through the roundings (`Bd`, `round_in`); 360 angles evaluated by the kernel |
| C81 | random | exact division by a power of 2 |
| C82 | compile_list, replace_with_result on top of the evaluator of C30 (Model/CompileList) | induction over the parts, each evaluated by the theorem behind C30; the nodes already computed are framed |
| C83 | all the passes one after the other (Model/Pipeline); the text of a plain style sheet is described by Spec/Plain | one invariant per pass (tokens, tree, marked tree, compiled tree, written text), each by induction on the rules, composed |
| C84 | internal functions if, not, type_of, unit (Model/Functions) | case analysis on the values against the truth values of C52 and a table of types |
| C85 | the angles of cos, sin, tan, acos, asin, atan, log; the C functions are parameters | error bounds of the IEEE roundings, exact integers |
| C86 | set_date_time_variables on the heap of nodes (Model/Dates); gmtime_r is a parameter | the texts by arithmetic on digits; the variables by the lemmas of C42 |
| C87 | the eight scripts of scripts/validation (Model/Scripts, copies of the files), the lexer, the parser, compile(true), the evaluation of the condition (Model/ExprEval) and run_validation (Model/Validation) | a quick tokenizer proved equal to the lexer on these texts and evaluated by the kernel; symbolic execution of the parser, of the passes and of the expressions, by induction on the list of names |
| C88 | node::to_string on trees (Model/NodeText); the default text of a double in a stream is a parameter | induction on the tree for the exceptions and the flags; the text as a list of spelled tokens, then the reading theorem of C83 |
| C89 | the lexer, node::to_string on the tokens, the concatenation (compiler.cpp:3233-3237), nth_child::parse and the selector | the tokens of each layout by the grammar of C47, the text by cases, then C16 and C14 |
| C90 | execute_user_function (compiler.cpp:217-361): the search, the parameters over a copy of the globals, compile(true) of the body and the result of @return | the parameters by C60's lemmas, the body by the substitution of C60, the rest of compile() on trees without declarations by C61's lemmas |
| C91 | tools/csspp.cpp: the options, the text made of the file names, the variables, the exit status and the output; add_header_and_footer | the text of the @imports through the lexer and the parser by C47's grammar; the status by C17's counters; the scopes by C59 |
| C92 | replace_at_keyword, replace_if, replace_else with blocks that do something | one lemma: a directive goes on as what its walk left, in the state the walk left; then C58; non-termination by strong induction on the number of steps |
| C93 | Model/Tool.lean with the whole pipeline; `Defines` (Spec/ToolRun.lean) says which init scripts are allowed, `Files` which files. Proved by following the run: the preprocessor node by node (C62, C59, C60, C58 lemmas), then C70, C83 lemmas and the assembler | assumption: expressions are those of `Computes` (a string is itself, `not(true)` is false); file reading is a function of the path |
| C94 | the files of scripts/system (Model/SystemScripts.lean, generated from the files, byte for byte) | the kernel runs the lexer and the parser of the model on each file (`decide +kernel` on six closed facts), the rest by induction on the definitions and C93 |
| C95 | compiler.cpp FRAME positions, assembler.cpp FRAME | the double of a percentage under 100 divided by 100 is bounded with the error of one rounding, so under 1; 100 and its decimals by kernel evaluation; then the round trip of C71; the text of the calls is a prefix by append |
| C96 | sums of integers as values in Spec/Plain (`Val.sum`, `Val.value`); the conversion between the trees and the tokens of Model/CompileList knows `+` and `-` | the tokens of a sum are a sentence of the grammar of C30 with the value `total` (induction on the terms), C82 for the list, then C83 |
| C97 | Spec/PlainVars: definitions in front of the style sheets of C83, `Val.var` references, `replace` (the values of the last definitions written instead of the references) | the tokens of a reference are read back (C78, with VARIABLE in the grammar of words); the parser stops a definition at its `;`; the preprocessor turns the definitions into entries of the current scope and removes them (C59), `get` of the last one (induction on the definitions); every reference in a declaration is one step of the loop (induction on the tokens, the declarations and the rules, through the scope opened by every `{`); the tree is then the one of the replaced style sheet and C83 applies; C97_modes for the other output modes as in C83_modes, C97_agree because `replace` reads only the last definitions of the names that are used, C97_again by C83_again on the replaced style sheet |

Properties that no model here expresses: memory safety of shared_ptr cycles, stack depth of
recursive descent, and the behaviour of the file system. They are not in the list.

## Defects of the code found while proving

Each one is part of the statement of the property in brackets (with a `_refuted_` theorem or inside of the main theorem).

* U+FEFF in the text is read as the end of the file (C03); two exceptions of the lexer on odd inputs (C05).
* A string with a backslash or a line feed, an identifier starting with a digit, and the smallest integer are not written
  in a way that is read back (C08, C09, C10).
* A unicode range object accepts a negative start (C11); `B = 0` is lost by nth_child (C15); An+B overflows are undefined
  behaviour (C16).
* Decimal numbers under 10^-4 are written wrongly with a precision of 4 and more (C19).
* `INT64_MIN / -1` is undefined behaviour (C26); a color divided by zero (C26); comparisons of mixed types are not
  transitive (C27); a match of a string with a word containing no characters throws (C28).
* The unary minus modifies the variable it reads (C31).
* clone() does not copy the lowercase string (C34).
* `u + a` is written `u+a` (C57).
* A false @if without @else throws or overwrites the integer of the next node (C58); a value starting with a space throws
  (C59); mixins do not see global variables (C60); recursion never ends (C61); a rule left with only empty rules stays (C62).
* Nested rules with several selectors are concatenated; @-rules in rules lose the selector (C63).
* A declaration that is only a name throws (C65); a preserved comment in front of a declaration removes it, or throws, and a
  message in a nested declaration leaves the next one uncompiled (C69).
* File names are not escaped in the @import made of them; errors are counted modulo 2^32; a variable set in a rule of an
  imported file is not local (C91).
* The blocks of @if and @else are executed before they are chosen (C92).
* to_string() with quotes does not escape a backslash or a line feed (C88).

## Agreement of the model with the tests of /repo

The model has been run on the inputs of the tests of /repo and its results compared with the ones these tests expect (no
code of /repo is run). The functions which the model takes as parameters were closed with the other parts of it: the evaluator
of expressions, the internal and user functions, the files of scripts/, and the C library functions of the machine. The programs
are in /verif/fidelity (they are not part of the proofs; the `.txt` files are Lean programs that import Verif).

| tests | cases compared | agree | the others |
|---|---|---|---|
| catch_parser.cpp, trees and messages | 32 | 32 | |
| catch_compiler.cpp, trees | 106 | 98 | set_no_logo() called by the test (2), a source the extraction cuts (3), AN_PLUS_B and FONT_METRICS displayed another way (3) |
| catch_assembler.cpp, text in the four modes | 96 | 92 | the counter of unique_id(), which the program does not keep (4) |
| catch_internal_functions.cpp and catch_expr_*.cpp, text | 164 | 161 | unique_id() (2), an array given to type_of(), which the program does not pass on (1) |

The comparison has found one mistake of the model: the position of a FRAME was not divided by 100 (see C95).

## Trusted base

Lean's kernel; axioms at most `propext`, `Classical.choice`, `Quot.sound` (see AXIOMS.md for each theorem); and the
reading of the C++ source recorded in the citations of each definition (including: the "C" locale, IEEE 754 arithmetic with
the default rounding, the decimal output of the standard streams).
