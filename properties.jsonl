{"id": "C01", "title": "UTF-8 encode/decode round trip", "statement": "Encoding any legal Unicode scalar value with lexer::wctomb() and decoding the bytes with lexer::mbtowc() gives the same character and reports no error.", "quantifier": "every code point 1..0x10FFFF that is not a surrogate and does not end in FFFE/FFFF", "why_tests_cant": "1.1 million code points in four encodings, and tests only sample the boundaries; the claim also needs the absence of any error message for each.", "anchors": ["csspp/lexer.cpp: lexer::wctomb", "csspp/lexer.cpp: lexer::mbtowc"]}
{"id": "C02", "title": "wctomb() rejects exactly the unencodable values", "statement": "lexer::wctomb(c) produces a non-empty, at most 4 byte, well formed UTF-8 sequence for every legal character and otherwise an empty string together with exactly one error; it never writes more than 5 bytes (NUL included) in the caller's buffer.", "quantifier": "every 32 bit wide_char_t, including negative values, surrogates, non-characters and values over 0x10FFFF", "why_tests_cant": "2^32 possible inputs; a buffer overrun needs a proof that no input reaches it.", "anchors": ["csspp/lexer.cpp: lexer::wctomb"]}
{"id": "C03", "title": "The lexer always terminates and always progresses", "statement": "For every byte stream, each call to lexer::next_token() returns (or throws) after reading finitely many bytes, and each call either consumes input or returns EOF_TOKEN at the end of the stream, so that repeated calls exhaust the stream and yield EOF_TOKEN after at most one call per input byte plus one; once the stream is exhausted every further call returns EOF_TOKEN without any effect. EOF_TOKEN means that the stream is exhausted unless that very call reported an empty identifier or threw (known defect: an encoded surrogate yields such an early EOF_TOKEN).", "quantifier": "every finite sequence of bytes, valid UTF-8 or not, and every number of calls", "why_tests_cant": "an infinite loop on one hostile byte sequence is invisible to any finite test set.", "anchors": ["csspp/lexer.cpp: lexer::next_token", "csspp/lexer.cpp: lexer::getc", "csspp/lexer.cpp: lexer::comment", "csspp/lexer.cpp: lexer::string", "csspp/lexer.cpp: lexer::identifier"]}
{"id": "C04", "title": "The push-back buffer never overflows", "statement": "While lexing any stream, the number of characters pushed back by the lexer never exceeds the 16 entry buffer (in fact a small constant), so the 'ran out of space' exception is unreachable and no write is out of bounds.", "quantifier": "every finite byte sequence and every number of next_token() calls", "why_tests_cant": "push-backs of successive tokens may accumulate; only an invariant over the whole history bounds them.", "anchors": ["csspp/lexer.cpp: lexer::ungetc", "csspp/lexer.h: UNGETSIZ"]}
{"id": "C05", "title": "The lexer only throws on documented conditions", "statement": "lexer::next_token() never throws on a well formed UTF-8 text without the characters U+0000 and U+FFFD, however many calls are made; on any other byte stream the only exceptions are the two of ungetc() (character out of range) and identifier() (invalid start), and both are reachable in spite of their 'should never happen' comment.", "quantifier": "every finite byte sequence", "why_tests_cant": "the reachable exceptions need byte sequences such as F7 BF BF BF after '=' or '-' NUL ' ' that the tests do not contain.", "anchors": ["csspp/lexer.cpp: lexer::ungetc", "csspp/lexer.cpp: lexer::identifier", "csspp/lexer.cpp: lexer::next_token"]}
{"id": "C06", "title": "Line and page numbers count the line breaks consumed", "statement": "The position reported by the lexer only moves forward on every stream; on a well formed UTF-8 text, when the stream is exhausted the total line counter is 1 plus the number of line terminators of the text (LF, CR and CR LF each count once, even if the character was pushed back and re-read), the page counter is 1 plus the number of form feeds and the line counter is 1 plus the number of line terminators of the last page.", "quantifier": "every byte stream, every number of next_token() calls", "why_tests_cant": "interleavings of CR, LF, FF with push-back inside comments, escapes and strings are unbounded.", "anchors": ["csspp/lexer.cpp: lexer::getc", "csspp/position.cpp: position::next_line, position::next_page"]}
{"id": "C07", "title": "Every lexer error is reported, never silently dropped, and errors never disappear", "statement": "The list of errors reported by the lexer only grows; if no error was reported while lexing then no undefined behaviour (signed overflow of a number or of an exponent) occurred.", "quantifier": "every byte stream", "why_tests_cant": "overflow is only reachable with long digit strings followed by arbitrary text.", "anchors": ["csspp/lexer.cpp: lexer::number", "csspp/error.cpp: error::operator <<"]}
{"id": "C08", "title": "Strings survive an output/re-read cycle", "statement": "Writing a string with assembler::output() and lexing the result gives one STRING token with the same content, whatever mix of quotes it contains.", "quantifier": "every string of Unicode characters without NUL, U+FFFD, backslash and line terminators, followed by any well formed text (a backslash or a line feed in the string breaks the cycle: the code does not escape them, shown by witnesses)", "why_tests_cant": "the choice of quote depends on counting quotes of both kinds over an arbitrarily long content.", "anchors": ["csspp/assembler.cpp: assembler::output_string", "csspp/lexer.cpp: lexer::string", "csspp/lexer.cpp: lexer::escape"]}
{"id": "C09", "title": "Identifiers survive an output/re-read cycle", "statement": "Writing an identifier with assembler::output() and lexing the result gives one IDENTIFIER token with the same name, whatever characters (digits, spaces, punctuation, non ASCII) the name contains.", "quantifier": "every non-empty name of Unicode characters other than NUL, U+FFFD and line terminators, followed by any well formed text that does not extend the identifier (not a space after a one digit name: that space is lost, shown by witness; nor a name with a line feed)", "why_tests_cant": "escaping interacts with the following character (hex digits, spaces) so all pairs and positions matter.", "anchors": ["csspp/assembler.cpp: assembler::escape_id", "csspp/lexer.cpp: lexer::identifier", "csspp/lexer.cpp: lexer::escape"]}
{"id": "C10", "title": "Integers survive an output/re-read cycle", "statement": "The text written for a 64 bit integer and its unit (INTEGER, including its dimension) is lexed back as one INTEGER of exactly that value and that unit, without error.", "quantifier": "every integer from -(2^63-1) to 2^63-1 (-2^63 is written but reported as too large when read), every unit made of lower case letters but 'e', followed by any well formed text which does not extend the number", "why_tests_cant": "2^64 values; the overflow test is on the accumulated unsigned value at each digit.", "anchors": ["csspp/assembler.cpp: assembler::output (INTEGER)", "csspp/lexer.cpp: lexer::number"]}
{"id": "C11", "title": "A unicode range object always holds 0 <= start <= end", "statement": "unicode_range_t accepts a (start, end) pair with start >= 0 exactly when start <= 0x10FFFF, end <= 0x1FFFFF and start <= end, get_start()/get_end()/get_range() then return what was given, a rejected value leaves the object unchanged, and no history of setters breaks this. (A negative start is always accepted and get_end() is then -1: the class does not protect itself from it.)", "quantifier": "every pair of wide_char_t, every 64 bit packed value, every sequence of setter calls", "why_tests_cant": "2^64 packed values.", "anchors": ["csspp/unicode_range.cpp: verify_range, start_end_to_range, range_to_start, range_to_end"]}
{"id": "C12", "title": "Unicode ranges survive an output/re-read cycle", "statement": "The text written for a valid unicode range is lexed back as one UNICODE_RANGE that covers exactly the same Unicode characters, without error, when its end is at most U+10FFFF, its start is 0, or it is a '?' mask; every other valid range is reported as an error when re-read. All the ranges lexed without error and all their intersections are of the first kind.", "quantifier": "every valid range (start <= 0x10FFFF, start <= end <= 0x1FFFFF), followed by any well formed text which does not extend it; every lexed range and intersection", "why_tests_cant": "the mask compression compares hexadecimal digits of both ends; 10^12 ranges.", "anchors": ["csspp/unicode_range.cpp: unicode_range_t::to_string", "csspp/lexer.cpp: lexer::unicode_range"]}
{"id": "C13", "title": "Unicode range multiplication is set intersection", "statement": "In an expression, range * range is the range of exactly the characters in both, or null when there are none; null absorbs.", "quantifier": "every pair of valid ranges and every character", "why_tests_cant": "quadratic number of pairs of ranges.", "anchors": ["csspp/expr_multiplicative.cpp: expression::multiply"]}
{"id": "C14", "title": "An+B packing is lossless", "statement": "nth_child(get_nth()) restores A and B.", "quantifier": "every pair of 32 bit signed integers", "why_tests_cant": "2^64 pairs; sign extension and shifts.", "anchors": ["csspp/nth_child.cpp: nth_child::nth_child, nth_child::get_nth"]}
{"id": "C15", "title": "An+B text round trip", "statement": "nth_child::parse() accepts the text nth_child::to_string() produces and restores A and B, unless B is 0 and A is not, in which case parse() always rejects the text (a defect: 'An' is in its documented grammar).", "quantifier": "every pair of 32 bit signed integers A, B", "why_tests_cant": "2^64 pairs.", "anchors": ["csspp/nth_child.cpp: nth_child::parse, nth_child::to_string"]}
{"id": "C16", "title": "An+B parsing accepts exactly the An+B grammar and is insensitive to spaces and case", "statement": "nth_child::parse() returns true exactly on the texts of its grammar (odd, even, [sign] B, [sign] A n sign B, with any spaces between tokens), returns false with a non-empty error message otherwise, and always terminates.", "quantifier": "every string of bytes 1 to 254 (NUL and 0xFF bytes are mishandled, shown by witness) whose numbers do not overflow 64 bits (18 digits at most never do)", "why_tests_cant": "unbounded strings.", "anchors": ["csspp/nth_child.cpp: nth_child::parse"]}
{"id": "C17", "title": "Error and warning counters are exact and RAII protected", "statement": "The error count grows by exactly the number of errors and fatal errors (plus warnings when they count as errors), the warning count by the number of shown warnings; a message is printed exactly when its mode says so; safe_error_t restores both counters after any sequence of messages, nested to any depth; error_happened_t says true exactly when the number of errors since its construction is not a multiple of 2^32.", "quantifier": "every sequence of messages and setter calls, every nesting of safe_error_t", "why_tests_cant": "histories are unbounded; wrap-around needs 2^32 messages.", "anchors": ["csspp/error.cpp: error::operator <<, safe_error_t, error_happened_t"]}
{"id": "C18", "title": "Number formatting precision is bounded and restored", "statement": "set_precision() only ever stores a value between 0 and 10 and throws otherwise leaving the precision unchanged; safe_precision_t restores the precision whatever happens in between, nested to any depth.", "quantifier": "every sequence of set_precision() calls and nested scopes", "why_tests_cant": "histories are unbounded.", "anchors": ["csspp/csspp.cpp: set_precision", "csspp/csspp.h.in: safe_precision_t"]}
{"id": "C19", "title": "Decimal output format", "statement": "decimal_number_to_string() keeps at most 'precision' digits after the decimal point, no trailing zero, no dangling point, never '-0', and with remove_leading_zero never starts with '0.' or '-0.'.", "quantifier": "every double of at least 10^-4 once rounded (so every number at precision 0 to 3, the default being 3), both signs, every precision 0..10. (Under 10^-4 the library uses the scientific notation and the code cuts its exponent: zero is printed as 5 at precision 4, shown by witness.)", "why_tests_cant": "unbounded digit strings.", "anchors": ["csspp/csspp.cpp: decimal_number_to_string"]}
{"id": "C20", "title": "Color names are all found, and only them", "statement": "color::set_color(name, true) succeeds exactly for the 147 extended color keywords of CSS Color Level 3 and \"transparent\", and get_color() then gives the value of the CSS specification.", "quantifier": "every byte string", "why_tests_cant": "a binary search over an unsorted or mis-sorted table fails only on some names; non-names are infinitely many.", "anchors": ["csspp/color.cpp: color::set_color(std::string const &, bool), color_names"]}
{"id": "C21", "title": "Byte color components survive the float conversion", "statement": "color::set_color(rgba) followed by color::get_color() returns rgba; the overload with ints clamps every int to 0..255; for any components that are not NaN get_color() is defined and clamps.", "quantifier": "every 32 bit rgba value; every component value for the clamp", "why_tests_cant": "2^32 values and single precision rounding.", "anchors": ["csspp/color.cpp: color::set_color(uint32_t), color::get_color, color_component_to_byte"]}
{"id": "C22", "title": "Opaque colors survive an output/re-read cycle", "statement": "The text color::to_string() produces for an opaque color is read back (set_color() on what follows the '#', or on the name) as a color with the same get_color(), and is at most 7 characters long; a color with a zero alpha is written \"transparent\".", "quantifier": "all 2^24 opaque colors", "why_tests_cant": "short forms (#RGB, names) are chosen by bit patterns.", "anchors": ["csspp/color.cpp: color::to_string, color::set_color"]}
{"id": "C23", "title": "Dimensions multiply and divide like units", "statement": "For a * b (a / b) the exponent of every unit in the resulting dimension is the sum (difference) of its exponents in the operands, and no unit appears on both sides of the '/' of the result.", "quantifier": "every pair of well formed dimension strings, every unit name", "why_tests_cant": "units lists are unbounded and cancellation depends on order and multiplicity.", "anchors": ["csspp/expr_multiplicative.cpp: expression::multiplicative_dimension, expression::dimensions_to_vectors, expression::rebuild_dimension"]}
{"id": "C24", "title": "Dimension strings are re-read as written", "statement": "The dimension string built for any list of units is parsed back into the same dividend and divisor lists, without error (unless the only unit before the '/' is called \"1\", which is read as no unit); user written dimensions are split the same way with or without a space around each operator.", "quantifier": "every list of unit names without space, '*' or '/'", "why_tests_cant": "unbounded lists.", "anchors": ["csspp/expr_multiplicative.cpp: expression::dimensions_to_vectors, expression::rebuild_dimension"]}
{"id": "C25", "title": "Addition and subtraction never mix units", "statement": "On two numbers, + and - give a result only when both carry the same dimension; the result carries that dimension and is the exact integer for two integers (undefined behaviour if it does not fit 64 bits), the correctly rounded decimal number otherwise. Strings are concatenated by + only, percents and colors combine with their own kind, a color with a number without unit; every other combination reports exactly one error and gives no result.", "quantifier": "every pair of expression values", "why_tests_cant": "the operand type matrix times unbounded strings.", "anchors": ["csspp/expr_additive.cpp: add"]}
{"id": "C26", "title": "Multiplication, division and modulo", "statement": "Integer and decimal / and % by zero report an error and yield no result; every other integer *, /, % yields the mathematical result (truncating division) with the combined dimension, unless the product or quotient does not fit 64 bits, which is undefined behaviour: for quotients exactly INT64_MIN / -1, which a stylesheet can write. Decimal numbers and percents yield the correctly rounded value. A color divided by zero is accepted and its components are NaN.", "quantifier": "every pair of 64 bit integers, of doubles, and every pair of dimensions", "why_tests_cant": "2^128 pairs.", "anchors": ["csspp/expr_multiplicative.cpp: expression::multiply", "csspp/expr_additive.cpp: add", "csspp/expr_unary.cpp: expression::unary"]}
{"id": "C27", "title": "Comparisons are consistent", "statement": "Two booleans, two colors, two percents, two strings, or two numbers with the same dimension are comparable and nothing else is. For comparable values other than colors and without NaN exactly one of a<b, a=b, b<a holds, a<=b is (a<b or a=b), a>b is b<a, a>=b is b<=a, a!=b is not a=b, no error is reported, and the order is the usual one of integers, booleans, strings and doubles. Incomparable values report one error and leave the left operand as the result. Exceptions: on colors <, <=, >, >= each report one error and < is always false, <= is =, > is != and >= is always true; with NaN <, = and <= are false while > and >= are true; and = between integers and decimal numbers is not transitive beyond 2^53.", "quantifier": "every pair of values", "why_tests_cant": "unbounded values.", "anchors": ["csspp/expr_relational.cpp: expression::relational, expression::is_less_than", "csspp/expr_equality.cpp: expression::is_equal, expression::is_comparable"]}
{"id": "C28", "title": "Match operators implement prefix, suffix, substring, word and dashed-word inclusion", "statement": "On two strings, a ^= b is true exactly when a is a prefix of b, a $= b when a suffix, a *= b when a substring, a ~= b (a without space) exactly when a is one of the space separated words of b, a |= b (a without dash) exactly when a is one of the dash separated words of b: the left operand is looked for in the right one. On strings and on numbers it always yields a boolean; on two booleans, two colors or two percents it throws.", "quantifier": "every pair of values", "why_tests_cant": "unbounded strings.", "anchors": ["csspp/expr_equality.cpp: match"]}
{"id": "C29", "title": "Array and map indexing", "statement": "array[i] gives the i-th element for 1 <= i <= n and the n+i+1-th for -n <= i <= -1, and for any other integer (0 included) reports one error and gives nothing; map[i] likewise on values, the index being undefined behaviour beyond 2^62; map[key] and map.key give the value of the first entry with that name, or one error. The same for (a, b, c)[i] compiled from any expressions a, b, c and i.", "quantifier": "every array and map length and every 64 bit index, every index expression", "why_tests_cant": "unbounded lengths and 2^64 indexes; signed overflow of the index computation.", "anchors": ["csspp/expr_list.cpp: expression::post, expression::expression_list"]}
{"id": "C30", "title": "Operator precedence and associativity", "statement": "Compiling an expression gives the value of the documented grammar: conditional < or < and < equality < relational < additive < multiplicative < unary < power, binary operators left associative, parentheses grouping, ?: nesting to the right, whatever the whitespace between the tokens; the errors are those of the operators in evaluation order, without those of the branch of ?: not chosen; existing nodes are unchanged.", "quantifier": "every expression without assignment, list and index, every part of which has a value", "why_tests_cant": "unbounded nesting.", "anchors": ["csspp/expression.cpp", "csspp/expr_conditional.cpp", "csspp/expr_logical_or.cpp", "csspp/expr_logical_and.cpp", "csspp/expr_equality.cpp", "csspp/expr_relational.cpp", "csspp/expr_additive.cpp", "csspp/expr_multiplicative.cpp", "csspp/expr_power.cpp", "csspp/expr_unary.cpp"]}
{"id": "C31", "title": "What evaluating an expression does to the variables it reads", "statement": "Evaluating an expression never changes the type, the unit or the magnitude of a node that existed before: a number may have its sign flipped (by a unary minus) and a string may become a repetition of itself (by *), as in (a := 3, -a, a) which gives (-3, -3, -3); everything else is unchanged, and nothing at all changes if the expression has no minus sign and no multiplication.", "quantifier": "every expression, variable environment and heap of nodes", "why_tests_cant": "aliasing between nodes needs a particular combination of := and operators.", "anchors": ["csspp/expr_unary.cpp: expression::unary", "csspp/expr_multiplicative.cpp: expression::multiply", "csspp/expr_list.cpp: expression::assignment"]}
{"id": "C32", "title": "Typed node accessors are guarded", "statement": "Each typed getter/setter of a node throws exactly when the node type does not support that field, a throwing call changes nothing, and a successful set is what the next get returns without affecting the other fields.", "quantifier": "every node type, every field value, every sequence of accessor calls", "why_tests_cant": "76 types times all accessors times unbounded histories.", "anchors": ["csspp/node.cpp: type_supports_*, node::get_*, node::set_*"]}
{"id": "C33", "title": "Child lists stay well formed", "statement": "A child list built with add_child() is exactly the nodes added, in order, minus every EOF_TOKEN and every whitespace following a whitespace, so it never has an EOF_TOKEN nor two whitespaces in a row; child indexes out of range throw; insert_child(), remove_child() and replace_child() touch exactly one position (and so can put two whitespaces side by side); take_over_children_of() moves all the children, and loses them when given the node itself.", "quantifier": "every sequence of child operations, every list length and index", "why_tests_cant": "unbounded histories (insert_child()/remove_child() may create two adjacent whitespaces: witness).", "anchors": ["csspp/node.cpp: node::add_child, node::insert_child, node::remove_child, node::get_child, node::replace_child, node::take_over_children_of"]}
{"id": "C34", "title": "clone() is a deep copy", "statement": "clone() of any finite tree returns a tree of new nodes with the same type, position, values, string, flags, children and variables at every depth, leaves existing nodes unchanged, and afterwards writing to either side is not visible from the other; the one thing it does not copy is the lowercase string, which is empty in every node of the clone.", "quantifier": "every tree", "why_tests_cant": "unbounded depth and breadth.", "anchors": ["csspp/node.cpp: node::clone, node::copy_variable"]}
{"id": "C35", "title": "Font metrics dimensions are independent", "statement": "set_dim1() changes what get_dim1() returns and not get_dim2(), and conversely.", "quantifier": "every pair of dimensions without '/', every sequence of sets", "why_tests_cant": "both are packed in one string split on the first '/'; unbounded histories.", "anchors": ["csspp/node.cpp: node::set_dim1, node::set_dim2, node::get_dim1, node::get_dim2"]}
{"id": "C36", "title": "The parser terminates, never throws, and consumes its input", "statement": "The entry points of the parser (stylesheet(), rule_list(), rule(), declaration_list(), declaration(), component_value_list(), component_value()) return on every text, without any exception (no bad child index, no bad node type). They only move forward in the tokens and only add messages; stylesheet(), rule_list() and declaration_list() stop at the end of the stream or leave at least one new message.", "quantifier": "every text, through the lexer; and every finite token stream with the node types the lexer makes", "why_tests_cant": "unbounded nesting and mutual recursion of the grammar functions.", "anchors": ["csspp/parser.cpp"]}
{"id": "C37", "title": "The parser never invents, duplicates, reorders or silently drops tokens", "statement": "Reading the tree produced by the parser from left to right gives a subsequence of the tokens it consumed; when it added no message, the tree (with the closing brackets and the ':' of the declarations, which are implied by the node types) has every consumed token except whitespace, ';', '<!--' and '-->', in the same order.", "quantifier": "every finite token stream, every entry point (component_value() called on a '!' or a closing bracket is excluded)", "why_tests_cant": "unbounded inputs.", "anchors": ["csspp/parser.cpp"]}
{"id": "C38", "title": "Unbalanced blocks are always reported", "statement": "If stylesheet(), rule_list() or declaration_list() adds no message then the brackets of the whole stream are properly nested; whatever the entry point, the tokens consumed without message are properly nested.", "quantifier": "every finite token stream", "why_tests_cant": "unbounded nesting.", "anchors": ["csspp/parser.cpp: parser::block, parser::block_list, parser::stylesheet"]}
{"id": "C39", "title": "Argument splitting is exact", "statement": "parser::argify() splits the children exactly at the separators: the arguments are the pieces between the separators without the whitespace around them (the last one keeps its trailing whitespace), a '{' block at the end stays as it is, a '{' block elsewhere is an exception. It fails exactly when a separator is leading or doubled (possibly with whitespace between) or is the very last child; a last separator followed by whitespace gives an empty last argument and no message. An empty or already split list is unchanged; other separators throw.", "quantifier": "every list of nodes without doubled whitespace, and both separators", "why_tests_cant": "unbounded lists.", "anchors": ["csspp/parser.cpp: parser::argify"]}
{"id": "C40", "title": "Output modes differ only in white space", "statement": "In each of the four output modes, the text is the same list of pieces (names, strings, numbers, operators) in the same order, separated only by line feeds (COMPRESSED, TIDY) or by line feeds and spaces (COMPACT, EXPANDED); EXPANDED also writes ';' pieces, each directly before a '}'. So the texts are equal up to white space and these ';'. Without comments COMPRESSED puts nothing at all between the pieces.", "quantifier": "every tree the assembler accepts, every precision", "why_tests_cant": "unbounded trees.", "anchors": ["csspp/assembler.cpp: assembler::output, assembler_impl and derived classes"]}
{"id": "C41", "title": "Brackets are closed in the output, and which trees are accepted", "statement": "For every tree the assembler accepts, the brackets it writes as operators are properly nested; when no string of the tree has a bracket, the brackets of the whole text are properly nested, in every mode. A tree whose nodes all have a type with a text, whose component values hold only arguments and blocks and whose values can be written (names in UTF-8, valid unicode ranges, finite numbers) is accepted; acceptance does not depend on the mode. As many messages are sent as numbers whose unit has a space, a * or a / are written.", "quantifier": "every tree and mode", "why_tests_cant": "unbounded trees.", "anchors": ["csspp/assembler.cpp: assembler::output"]}
{"id": "C42", "title": "Variables follow lexical scoping", "statement": "get_variable() returns the value set in the innermost enclosing block that defines the variable and falls back to the global value; set_variable() without !global changes only the innermost variable-supporting block, with !global only the root; other names are unaffected.", "quantifier": "every stack of blocks, every sequence of sets", "why_tests_cant": "unbounded nesting and histories.", "anchors": ["csspp/compiler.cpp: compiler_state_t::set_variable, compiler_state_t::get_variable"]}
{"id": "C43", "title": "Evaluating an expression always ends", "statement": "expression::compile() returns, throws or reports an error on every list of tokens: no recursion or loop of the grammar functions is unbounded.", "quantifier": "every finite list of tokens, nested or not", "why_tests_cant": "unbounded nesting, mutual recursion of twelve functions and loops driven by the tokens.", "anchors": ["csspp/expression.cpp: expression::compile", "csspp/expr_list.cpp", "csspp/expr_conditional.cpp", "csspp/expr_unary.cpp"]}
{"id": "C44", "title": "The tokens of the lexer are well formed nodes", "statement": "Every node returned by lexer::next_token() has a type of the lexer and only sets the fields (integer, decimal number, string) that its type supports; the names of identifiers, at-keywords, hashes and placeholders are never empty; the integer of a comment is 0 or 1.", "quantifier": "every byte stream and every call", "why_tests_cant": "unbounded inputs; one ill typed node makes node.cpp throw far from the lexer.", "anchors": ["csspp/lexer.cpp: lexer::next_token", "csspp/node.cpp"]}
{"id": "C45", "title": "Files are searched in the order of the paths", "statement": "find_file() returns an absolute name if it is readable, otherwise the first readable name in the directories in the order they were added (the default directory when none was), and the empty string if there is none. @import also tries the name with .scss appended, after all the directories failed without it, only for names of more than 5 bytes that do not already end with .scss; set_validation_script() does so for names of 5 bytes or more and throws std::out_of_range for a shorter name that is not found.", "quantifier": "every name, every list of directories and every file system", "why_tests_cant": "every list of paths and every set of readable files.", "anchors": ["csspp/compiler.cpp: compiler_state_t::find_file, compiler::replace_import, compiler::set_validation_script"]}
{"id": "C46", "title": "What an @import names", "statement": "An @import of a url() is resolved by the preprocessor only for file:// URIs, to the absolute path that follows; an @import of a string is left alone when it is a URI with a scheme other than file (letters followed by ://), resolved to the absolute path for file://, and otherwise is a file name as is.", "quantifier": "every string without NUL", "why_tests_cant": "unbounded strings.", "anchors": ["csspp/compiler.cpp: compiler::replace_import"]}
{"id": "C47", "title": "The lexer reads exactly the token grammar", "statement": "A text (UTF-8, without U+0000 and U+FFFD) is read by repeated calls to lexer::next_token() without an error exactly when it is a sequence of tokens and comments of the grammar written in Spec/Lexemes.lean (names, strings, urls, numbers, ranges, variables, punctuation, longest match); the nodes returned are then exactly those tokens with their values, in order, the only messages are the warnings about == and preserved // comments, and the grammar is unambiguous. The places where that grammar differs from CSS (the character after % is lost, an escaped U+FFFD is lost, url() does not end, six digit escapes keep the space, integers over 2^64 wrap silently) are marked in it.", "quantifier": "every well formed UTF-8 text without U+0000 and U+FFFD, of any length", "why_tests_cant": "tests check a few tokens; only a proof shows that every text is read as specified and that every other text is reported.", "anchors": ["csspp/lexer.cpp: lexer::next_token, lexer::identifier, lexer::number, lexer::string, lexer::escape, lexer::comment, lexer::hash, lexer::unicode_range, lexer::variable"]}
{"id": "C48", "title": "What mbtowc() accepts", "statement": "lexer::mbtowc() gives the first byte when it is ASCII; otherwise it gives the value of the payload bits, without an error, exactly when the bytes are a leading byte C0-F7 followed by the number of follow bytes it announces, and U+FFFD with one error in every other case. Such a sequence is well formed UTF-8 exactly when it is the shortest form of a scalar value (known defect: overlong forms, surrogates and values over U+10FFFF are accepted).", "quantifier": "every sequence of bytes", "why_tests_cant": "every byte string of every length.", "anchors": ["csspp/lexer.cpp: lexer::mbtowc"]}
{"id": "C49", "title": "The selectors accepted are exactly a grammar", "statement": "For whatever the validation scripts answer, a selector (what is between two commas) is accepted exactly when it is in a grammar: terms separated by nothing, one space, or one of > + ~; a term being #id, name, *, a|b, |b, :class, :function(), .class, [a], [a op v], %placeholder, & (only first), :not(one simple term) or ::element (only last); what is written is given by the same grammar: no space around > + ~ or in [], no * in front of [ or ., [a!=b] becomes :not([a=b]) and the parameter of the nth functions becomes An+B. Everything else is refused with a message, except that the compiler throws exactly when a term is missing, is an empty [] or a :not() of those, or when a space ends the selector; the only undefined behaviour is the overflow of an An+B. Known defect: :not([a!=b]) is accepted and becomes :not(:not([a=b])), which the compiler refuses.", "quantifier": "every list of nodes and every answer of the validation scripts", "why_tests_cant": "selectors have any length and nest any tokens; the loop edits the list it walks with a moving position.", "anchors": ["csspp/compiler.cpp: compiler::selector_list", "csspp/compiler.cpp: compiler::selector_term", "csspp/compiler.cpp: compiler::selector_simple_term", "csspp/compiler.cpp: compiler::selector_attribute_check"]}
{"id": "C50", "title": "The selectors of a rule are treated one by one", "statement": "A rule whose commas are well placed is accepted exactly when each of its selectors is, each is rewritten independently of the others and in order, and the block is kept as it is; with a misplaced comma the rule is refused. An #id that occurs n times in one selector is reported n - 1 times, and the #id of the selector are kept in order.", "quantifier": "every rule, any number of selectors and of nodes in each", "why_tests_cant": "any number of commas, of selectors and of repetitions of an #id.", "anchors": ["csspp/compiler.cpp: compiler::parse_selector", "csspp/parser.cpp: parser::argify"]}
{"id": "C51", "title": "Powers of values with units", "statement": "l ** n, for a number l with a unit and a whole n with 1 <= |n| <= 100, has the value pow(l, n) and every unit's exponent multiplied by n, with no error; a zero, too large or fractional n, an exponent with a unit and operands that are not numbers are refused with exactly one error and no value. Without a unit the value is pow(l, n): a percentage for a percentage, an integer (fraction dropped) for two integers, a decimal number otherwise; two integers whose power does not fit in 64 bits convert an out of range double (undefined behaviour).", "quantifier": "every pair of values, every list of units, every exponent; pow() is any function", "why_tests_cant": "all values, any number of units in the dimension and every exponent.", "anchors": ["csspp/expr_power.cpp: expression::power, apply_power"]}
{"id": "C52", "title": "Truth values, and / or", "statement": "The identifiers true, false and null (false), booleans, null (false), numbers and percentages (true unless zero), strings, arrays and maps (true unless empty) and colors (true unless black, whatever the transparency) have a truth value; any other value is reported with one error and taken as false. `and` and `or` evaluate both sides, combine the two truth values, report the errors of both sides in order and always give a boolean.", "quantifier": "every value on both sides", "why_tests_cant": "the domain of values is infinite.", "anchors": ["csspp/node.cpp: node::to_boolean", "csspp/expr_logical_and.cpp: expression::logical_and", "csspp/expr_logical_or.cpp: expression::logical_or"]}
{"id": "C53", "title": "The preprocessor leaves plain CSS alone", "statement": "A style sheet without variable, @mixin, @include, @if, @else, @import, @error/@warning/@message/@info/@debug, empty list and {$name} in a comment goes through the pass that replaces the variables unchanged, in finite time and without a message, whatever the variables that are set.", "quantifier": "every tree without a directive, of any size, and every state of the variables", "why_tests_cant": "trees of any shape and depth.", "anchors": ["csspp/compiler.cpp: compiler::replace_variables, compiler::replace_at_keyword, compiler::replace_variables_in_comment"]}
{"id": "C54", "title": "Nothing of the preprocessor is left", "statement": "When the pass that replaces the variables returns, no variable, @mixin, @include, @if or @else is left anywhere in the tree, whatever the variables, the mixins and the imported files.", "quantifier": "every tree, every set of variables and mixins, every imported file; the expressions are supposed not to make variables", "why_tests_cant": "values, mixins and imported files are inserted in the list that is being walked, at any depth.", "anchors": ["csspp/compiler.cpp: compiler::replace_variables, compiler::replace_variable, compiler::replace_if, compiler::replace_else, compiler::replace_import, compiler::handle_mixin"]}
{"id": "C55", "title": "The shape of the trees of the parser", "statement": "is_variable_set() and is_nested_declaration() decide by the types of the children alone, exactly as described (`$name: ...`, `$name: {...}`, `name: ... {...}` that is not a selector). A style sheet parsed without message is a list of comments, @-rules, and values that end with a block or define a variable; at every depth a value is not empty, has no space at its ends, before a block or a `!` or next to another space, nothing follows a {} block in it, the children of a {} block are lists or values, those of (), [] and functions a value or several, only the last of which may end with a rule, and no ; <!-- --> or closing bracket is left in the tree. Known limit: a top-level value ended by a ; and followed by a rule is always refused.", "quantifier": "every list of tokens, every text", "why_tests_cant": "any text of any length and nesting.", "anchors": ["csspp/parser.cpp: parser::is_variable_set, parser::is_nested_declaration, parser::component_value_list, parser::block_list, parser::stylesheet"]}
{"id": "C56", "title": "Trees can be written and read back", "statement": "For every style sheet tree of the shape of C55 the tokens of the tree (with ; after a value that does not end with a rule, <!-- where a list must be ended) are parsed without message, to the end, into the same tree; in particular what was parsed once without message is parsed again identically from its tokens, and two trees with the same tokens are equal.", "quantifier": "every tree of that shape, of any size", "why_tests_cant": "trees of any shape and depth.", "anchors": ["csspp/parser.cpp: parser::stylesheet, parser::at_rule, parser::qualified_rule, parser::component_value_list, parser::component_value, parser::block, parser::block_list"]}
{"id": "C57", "title": "What is written is read back", "statement": "For a tree of style sheet nodes (rules, @-rules, declarations, functions, lists, brackets, keyframes) whose values can be written (names, strings and urls of valid characters without line breaks, numbers that fit, valid unicode ranges, colors), and in which no two tokens without a blank between them would run together, the text written in COMPRESSED mode is read by the lexer, without a message, as exactly the tokens of the tree in order, with the blanks of the tree; the other modes only add blanks, and EXPANDED mode the optional semicolon of each block. Any double under 2^62 can be written with up to 3 digits. Known limit (which the last condition leaves out): the space around + is needed after u, `u + a` is written `u+a` and read as a unicode range.", "quantifier": "every tree of any size and depth, any mode", "why_tests_cant": "trees of any shape and depth, all numbers, all strings of valid characters.", "anchors": ["csspp/assembler.cpp: assembler::output, assembler_impl", "csspp/lexer.cpp: lexer::next_token"]}
{"id": "C58", "title": "@if and @else", "statement": "A chain @if / @else if / @else is replaced by the children of the first block whose condition is true (of the final @else if none is), and the whole chain is removed when there is none; the nodes around it are not changed. Known defect: an @if alone (no @else) that is false, followed by a node that has no integer (a rule, a variable, ...), throws; when that node has an integer, the integer is overwritten by 1.", "quantifier": "every chain of any length, every condition, every block of plain nodes, wherever the chain is", "why_tests_cant": "chains of any length in lists of any length.", "anchors": ["csspp/compiler.cpp: compiler::replace_if, compiler::replace_else"]}
{"id": "C59", "title": "Variables are set and used", "statement": "`$x: value` is removed and sets the variable in the innermost block, or at the root with !global, and not at all with !default when it has a value already; flags are removed from the value wherever they are, with a warning when something follows them; several nodes make a list, and null the null value. Afterwards the variable has that value and the others keep theirs (a !global one stays hidden where a block has its own). The use of a variable is replaced by its value: a list or a block by its children, parentheses and square brackets are removed, null and a space are nothing. A variable that is not set is removed with an error (unless undefined variables are declared empty), and so is a function used without its arguments. Known defect: a value of several nodes that starts with a space, used at the end of a node after a space, throws.", "quantifier": "every value without variables or directives, every state of the variables, everything around the use", "why_tests_cant": "any nesting of blocks, any history of assignments, any value.", "anchors": ["csspp/compiler.cpp: compiler::set_variable, compiler::replace_variable, compiler_state_t::get_variable, compiler_state_t::set_variable"]}
{"id": "C60", "title": "Functions and mixins", "statement": "`@mixin name {}` and `@mixin f(params) {}` (at the root) and `$f(params): value` are removed and define; each required parameter after an optional one is reported, any other form of @mixin is removed with an error. `$f(args)` and `@include f(args)` first replace the variables of the arguments, split them at the commas, and give the i-th parameter the i-th argument or its default; extra arguments are ignored; a missing one removes the call with exactly one error. Otherwise the call is replaced by the body with its parameters substituted everywhere (a block by its children). `@include name` inserts the children of the block. Calling a variable that is not a function removes the call with one error. The outcome of a use depends on the variable it names and on its arguments only, never on the other variables of the caller, and changes no variable. Known limit: the body does not see the global variables, a use of one is reported as not set.", "quantifier": "every body, parameters, arguments and state of the variables, everything around the call", "why_tests_cant": "templates of any shape and depth, any number of parameters and arguments.", "anchors": ["csspp/compiler.cpp: compiler::replace_variable, compiler::execute_user_function, compiler::prepare_function_arguments, compiler::handle_mixin, compiler::set_variable"]}
{"id": "C61", "title": "What never ends", "statement": "A mixin whose block includes itself and a file that imports itself are expanded for ever: no number of steps is enough, there is no error and no limit (known defect, there is no protection).", "quantifier": "every number of steps, every mixin that includes itself whatever surrounds the @include, every file that imports itself", "why_tests_cant": "a test cannot show that a run never ends.", "anchors": ["csspp/compiler.cpp: compiler::replace_variable, compiler::replace_import, compiler::replace_variables"]}
{"id": "C62", "title": "Blocks, comments, imports and empty rules around the variables", "statement": "The blocks that get their own variables are exactly the {} that end a value, list, @-rule, declaration or block which is itself only in such nodes and is not `$x: {`; nothing else in the tree changes. In a comment each `{$name}` (or `{$name(...)}`) is replaced by the text of the value, with the # before it; a variable that is not set (unless undefined variables are declared empty) or is a function leaves the reference, with a warning, a call of a variable warns; inserted text is not searched again. An @import whose file is found is replaced by the nodes of the file, which are processed in its place; it is removed with an error when the file cannot be read, and stays otherwise; @error, @warning, @message, @info and @debug stay, with their expression computed; @include of neither a name nor a function is removed with an error. Empty rules are removed at every level and nothing else; known limit: a rule in which there were only empty rules stays, as an empty rule.", "quantifier": "every tree, path in it and state of the variables; every comment without { inside of a reference", "why_tests_cant": "trees and comments of any size.", "anchors": ["csspp/compiler.cpp: compiler::mark_selectors, compiler::remove_empty_rules, compiler::replace_variables_in_comment, compiler::replace_import, compiler::replace_at_keyword"]}
{"id": "C63", "title": "Nested rules and declarations are flattened without losing anything", "statement": "After compile() no rule is left inside of a rule and no declaration inside of a declaration. A nested rule comes right after the rule it was in (outer rules first, in source order) and its selector is the outer selector, a space and its own selector, or without the space when its selector starts with '&'. A nested declaration comes right after the one it was in and is called outer-inner ('-csspp-null' adds no prefix). Each declaration that has a value is there after the pass exactly as many times as before, for the same selectors and in the same @-rules; declarations without a value are dropped from rules. A rule in a declaration is an error, an @-rule in a declaration an exception, and the pass always ends. Defects kept by the code: when a nested rule has several selectors they are all appended one after another instead of giving a product ('a { b, c {} }' is 'a b c {}'), and the contents of an @-rule in a rule do not get the selector of the rule.", "quantifier": "all trees (any depth of nesting, any number of selectors, any mix of rules, declarations, @-rules and lists)", "why_tests_cant": "the pass inserts nodes in the list it is walking and walks them again: order, termination and absence of loss depend on every shape of nesting", "anchors": ["csspp/compiler.cpp: compiler::expand_nested_components", "csspp/compiler.cpp: compiler::expand_nested_rules", "csspp/compiler.cpp: compiler::expand_nested_declarations"]}
{"id": "C64", "title": "Messages and @charset leave exactly one trace", "statement": "@error, @warning, @info, @message and @debug are removed from a style sheet or a block, leaving exactly one message, with the level of the keyword, the position of the rule, and the text of the expression (or '@... reached' when there is none); @charset is removed, silently when it has exactly one string that reads utf-8 (any case, any blanks around), with exactly one error otherwise. Nothing else of the sheet or of the block changes.", "quantifier": "all sheets and blocks, all positions in them, all expressions", "why_tests_cant": "lists of any length, before and after; the messages of the rest must come out as if the rule was not there", "anchors": ["csspp/compiler.cpp: compiler::compile_at_keyword", "csspp/compiler.cpp: compiler::compile_component_value"]}
{"id": "C65", "title": "Declarations are recognised and nothing else is", "statement": "A component value `name: values` (an optional space before and after the colon; `*name`, `.name`, `#name` and `!` first are accepted with exactly one warning) is replaced by one declaration with that name, whose values are split at the commas (or at the slashes, for the fields that say so) and computed each; values that end with a block are kept and the block is compiled; the IE filters are kept unchanged with one warning. Every other component value that is not a rule, an @-rule or a comment is kept, with exactly one error. Known defect: a name followed by nothing but a space is an exception.", "quantifier": "all component values (any number of values), all validation scripts and expressions", "why_tests_cant": "values of any number and shape; the exclusive choice between rule, declaration and error holds for every list of tokens", "anchors": ["csspp/compiler.cpp: compiler::compile_declaration", "csspp/compiler.cpp: compiler::compile_declaration_values", "csspp/compiler.cpp: compiler::compile_component_value", "csspp/parser.cpp: parser::is_nested_declaration"]}
{"id": "C66", "title": "@keyframes", "statement": "An @keyframes with a name and a block of frames, each one being from, to or a percentage between 0 and 100, and a block, is replaced by the name and one FRAME per frame in order, at its percentage (from is 0, to is 100), with its declarations compiled. The first frame of another form stops it: exactly one error, about that frame, the rule is not changed and the frames after it are not looked at. Any other form of the rule is exactly one error.", "quantifier": "all @keyframes, any number of frames, any contents of the frames", "why_tests_cant": "any number of frames before and after the wrong one", "anchors": ["csspp/compiler.cpp: compiler::compile_at_keyword"]}
{"id": "C67", "title": "The compile pass always ends", "statement": "compile() on a tree returns or throws after finitely many steps for every tree, whatever the validation scripts and the expressions give, and never removes or reorders the messages of before. (Nodes it inserts are walked again, so this is not obvious from the loops.)", "quantifier": "all trees, all states", "why_tests_cant": "termination for all inputs", "anchors": ["csspp/compiler.cpp: compiler::compile"]}
{"id": "C68", "title": "Nothing is left to compile", "statement": "When the pass returns without an error and without an @return, every component value left in the tree, at every depth (rules, nested declarations, @media, @font-face, @page, @viewport, @keyframes), is a rule whose selectors are compiled or an @-rule: no declaration is left as raw tokens.", "quantifier": "all trees of the shape the parser and the replacement of the variables give (lists in the block of a nested declaration hold declarations only: see C69)", "why_tests_cant": "any nesting; every path of the compiler must reach every place", "anchors": ["csspp/compiler.cpp: compiler::compile", "csspp/compiler.cpp: compiler::compile_component_value", "csspp/compiler.cpp: compiler::compile_qualified_rule", "csspp/compiler.cpp: compiler::compile_declaration_values"]}
{"id": "C69", "title": "What a preserved comment, a message and @return do to what follows", "statement": "Known defects, for every context: a preserved comment at the start of a declaration or of a rule (it is the first token of the component value) replaces it, and the declaration or the rule is dropped without a message, at the top level and in a block; where only component values are expected (a block of several declarations, @media, a nested declaration) it ends in an exception instead. In a nested declaration with several entries, the entry after a message is left as it is, not compiled. After an @return nothing more of the list is compiled.", "quantifier": "all comments, all contents after them, all lists around", "why_tests_cant": "the loss happens whatever the contents and the length of what surrounds", "anchors": ["csspp/compiler.cpp: compiler::compile_component_value", "csspp/compiler.cpp: compiler::compile_declaration_values", "csspp/compiler.cpp: compiler::compile"]}
{"id": "C70", "title": "Rules are compiled one by one", "statement": "What a node of a style sheet is compiled into, and the messages it gives, do not depend on the messages of before; and a style sheet is compiled into what its nodes are compiled into, in their order, each one in the place of the node.", "quantifier": "all style sheets of any length", "why_tests_cant": "independence and order over all lists", "anchors": ["csspp/compiler.cpp: compiler::compile"]}
{"id": "C71", "title": "Numbers keep their digits", "statement": "A number of a style sheet, [-]digits[.digits] followed by a unit or %, with an integral part under 10^12 and at most p digits after the period, p being the precision (0 to 3; the default is 3), is written back with exactly the same digits, in their shortest form: no zero in front, no zero at the end of the fraction, no sign on zero; and with the same unit. In spite of the double it goes through: each digit after the period is divided by a power of ten and added, then a percentage is divided by 100 when it is read and multiplied by 100 when it is written, and half of the last digit is added before it is cut.", "quantifier": "all numbers of up to 12 digits before the period and up to p digits after it, all units, all output modes, p in 0..3", "why_tests_cant": "each of the 10^15 numbers goes through several roundings of IEEE 754; a unit test sees a few of them", "anchors": ["csspp/lexer.cpp: lexer::number", "csspp/csspp.cpp: decimal_number_to_string", "csspp/assembler.cpp: assembler::output"]}
{"id": "C72", "title": "Internal functions: names and parameters", "statement": "Exactly the 44 documented names are internal functions, each one with its own number of parameters (one for most; random 0; unique_id 0 or 1; hsl and if 3; hsla 4; rgb and frgb 1 to 3; rgba and frgba 2 to 4; min and max any number but 0). Called with another number of parameters an internal function gives exactly one error and no value; called with a right number it never runs a user function of the same name, gives a null value only with a message, and does not complain about the number. Any other name is left to the user functions without a message. Only unique_id() changes the counter. function_exists(), variable_exists() and global_variable_exists() tell exactly what is defined, the internal functions included for the first one.", "quantifier": "all names, all lists of arguments of any length and any type, all environments", "why_tests_cant": "any number of arguments of any type", "anchors": ["csspp/internal_functions.cpp: expression::excecute_function", "csspp/internal_functions.cpp: internal_function__function_exists"]}
{"id": "C73", "title": "floor, ceil, round, abs, sign", "statement": "For every finite double x, floor(x) is the greatest integer not above x, ceil(x) the smallest not under x, round(x) the nearest (halves away from zero), abs(x) the absolute value and sign(x) -1, 0 or 1, each with the unit of x and each an exact double; integers are unchanged by the first three, and percentages are refused with one error. The one exception: abs() of the smallest 64 bit integer is undefined.", "quantifier": "all finite doubles, all 64 bit integers, all units", "why_tests_cant": "2^64 doubles", "anchors": ["csspp/internal_functions.cpp: internal_function__floor", "csspp/internal_functions.cpp: internal_function__ceil", "csspp/internal_functions.cpp: internal_function__round", "csspp/internal_functions.cpp: internal_function__abs", "csspp/internal_functions.cpp: internal_function__sign"]}
{"id": "C74", "title": "max and min", "statement": "max() (min()) of numbers gives one of its arguments, unchanged, the first one that no other is above (under); exactly one error per argument which is not a number or has another unit than the first one, in order, and nothing else changes. Known defect: when the first argument is not a number the others are compared with 0, so max() gives nothing if the others are all negative or zero, min() if they are all positive or zero.", "quantifier": "all lists of arguments, any length, no NaN", "why_tests_cant": "any number of arguments, position of the extremum and of the errors", "anchors": ["csspp/internal_functions.cpp: internal_function__max", "csspp/internal_functions.cpp: internal_function__min"]}
{"id": "C75", "title": "decimal_number, integer, percentage, string, identifier", "statement": "integer() of a finite double is the double truncated towards zero with the same unit (undefined when it does not fit 64 bits); decimal_number() of an integer of up to 2^53 is exact and integer() gives it back; percentage() keeps the value; a string, identifier or URL that spells a number is converted exactly as that number written in the style sheet; string() and identifier() keep the characters; an argument that is none of these is exactly one error.", "quantifier": "all doubles, all integers, all spelled numbers and units, all other arguments", "why_tests_cant": "unbounded texts, 2^64 numbers", "anchors": ["csspp/internal_functions.cpp: internal_function__decimal_number", "csspp/internal_functions.cpp: internal_function__integer", "csspp/internal_functions.cpp: internal_function__percentage", "csspp/internal_functions.cpp: internal_function__string", "csspp/internal_functions.cpp: internal_function__identifier"]}
{"id": "C76", "title": "Color components", "statement": "rgb() of three bytes is the color #rrggbb and red(), green(), blue() give the bytes back; rgba() sets the alpha to its argument rounded to a float; rgb() and rgba() of a color change the alpha only; red(), green(), blue() of a float component in [0, 1] is the nearest integer of 255 times the component. Known defects: components are not limited (red(rgb(300,0,0)) is 300), negative ones are rounded upwards (red(rgb(-5,0,0)) is -4), red(rgb(128.5,0,0)) is 128 while the byte written is 129, and arguments following a color are ignored.", "quantifier": "all bytes, all float components between 0 and 1, all arguments after a color", "why_tests_cant": "2^24 byte triples, 2^30 floats, rounding twice through float and double", "anchors": ["csspp/internal_functions.cpp: internal_function__rgb", "csspp/internal_functions.cpp: internal_function__rgba", "csspp/internal_functions.cpp: internal_function__frgb", "csspp/internal_functions.cpp: internal_function__frgba", "csspp/internal_functions.cpp: internal_function__red", "csspp/internal_functions.cpp: internal_function__green", "csspp/internal_functions.cpp: internal_function__blue"]}
{"id": "C77", "title": "sqrt and its units", "statement": "sqrt() of a number of zero or more with units is the square root of the number with each unit half as many times on either side of the slash; a unit there an odd number of times, or a negative number, is exactly one error.", "quantifier": "all lists of units, any length and order", "why_tests_cant": "unbounded lists of units with repetitions in any order", "anchors": ["csspp/internal_functions.cpp: internal_function__sqrt"]}
{"id": "C78", "title": "str_length", "statement": "str_length() is the number of characters of the string, not of bytes, and of a concatenation it is the sum. Known defect: the characters after a null character are not counted.", "quantifier": "all strings", "why_tests_cant": "unbounded strings over all Unicode characters", "anchors": ["csspp/internal_functions.cpp: internal_function__str_length"]}
{"id": "C79", "title": "unique_id", "statement": "unique_id() is its prefix followed by a counter that is incremented at each call; in any history of calls to internal functions, two calls with the same prefix, or with prefixes that do not end with a digit, never give the same identifier. Known defect: the prefixes a1 and a can both give a12.", "quantifier": "all histories of calls", "why_tests_cant": "unbounded histories with any mix of functions and prefixes", "anchors": ["csspp/internal_functions.cpp: internal_function__unique_id"]}
{"id": "C80", "title": "HSL colors", "statement": "hsl() with a saturation of 0% is a gray whose components are the lightness as a float, for every hue; for whole degrees, 100% and 50% it is the nearest color of the wheel and hue(), saturation(), lightness() give the three arguments back (the hue up to 1/20000 degree); of a gray at least 2^-20, or black, hue() is 0deg, saturation() 0% and lightness() the component. Known defects: every angle from -359 to -2^-20 degrees gives a gray whatever the saturation, and the saturation of a nearly black gray is not a number.", "quantifier": "all hues and lightnesses up to 2^64, all 360 whole degrees, all float grays, all negative angles", "why_tests_cant": "floating point angles and lightness, with roundings to float and to double at each step", "anchors": ["csspp/internal_functions.cpp: internal_function__hsl", "csspp/internal_functions.cpp: internal_function__hue", "csspp/internal_functions.cpp: internal_function__lightness", "csspp/internal_functions.cpp: internal_function__saturation", "csspp/color.cpp: color::set_hsl", "csspp/color.cpp: color::get_hsl"]}
{"id": "C81", "title": "random", "statement": "random() is the number of rand() divided by 2^31, exactly: at least 0 and less than 1.", "quantifier": "all numbers rand() can give", "why_tests_cant": "2^31 numbers, and rounding", "anchors": ["csspp/internal_functions.cpp: internal_function__random"]}
{"id": "C82", "title": "The values of a declaration", "statement": "In the value of a declaration each of the expressions separated by blanks is replaced by its value, in the same order; between two values there is one blank if there was at least one, and none at the end. Each `!flag` is taken out and set on the declaration, without a message when it is at the end and with one warning when something follows it. The errors are the ones of the expressions. Known defect: in `a!flag b` the blank after the flag goes with the flag, so `ab` is left.", "quantifier": "all lists of expressions of the grammar, all flags, all numbers of blanks", "why_tests_cant": "lists of any length of expressions of any size", "anchors": ["csspp/expr_unary.cpp: expression::compile_list", "csspp/expression.cpp: expression::replace_with_result"]}
{"id": "C83", "title": "A plain style sheet is minified to its shortest text", "statement": "Take a style sheet made of rules with names, classes, ids and the combinators of CSS, and of declarations whose values are words (not the name of a color or of an operator), integers, strings without double quotes and sums and differences of integers of the same unit (`10px + 3px - 1px`, with no overflow), and lay it out with any spaces and newlines and with or without a last semicolon in each block. Reading, parsing, compiling (without the header and the footer) and writing it in the COMPRESSED mode gives, without any message, the shortest text of the rules that have a declaration, with the value of each sum in its place. So the layout changes nothing, and minifying the output again gives the same text. The other modes write the same text up to blanks (EXPANDED may also write a `;` before a `}`). Known defect: a text with nothing but blanks makes compile(true) throw.", "quantifier": "all style sheets of this kind (any number of rules, selectors, declarations and values), all layouts", "why_tests_cant": "it goes through the lexer, the parser, five passes of the compiler and the assembler, for inputs of any size and any layout", "anchors": ["csspp/lexer.cpp: lexer::next_token", "csspp/parser.cpp: parser::stylesheet", "csspp/compiler.cpp: compiler::compile", "csspp/assembler.cpp: assembler::output", "csspp/expr_unary.cpp: expression::compile_list"]}
{"id": "C84", "title": "if, not, type_of and unit", "statement": "if() gives its second argument when the first one is true and its third one when it is false, whatever the other one is; not() gives the other boolean, so if(not(c), e, t) is if(c, t, e); a condition that is neither is one error and counts as false; a condition of none or several values is one error and no result. type_of() names the type of its argument, and unit() gives the unit of a number and is an error for anything else. integer(), decimal_number(), percentage(), string() and identifier() give, whenever they give a value, a value whose type_of() is the one they are named after.", "quantifier": "all values, all argument lists", "why_tests_cant": "all values of all types, including unbounded lists and strings", "anchors": ["csspp/internal_functions.cpp: internal_function__if", "csspp/internal_functions.cpp: internal_function__not", "csspp/internal_functions.cpp: internal_function__type_of", "csspp/internal_functions.cpp: internal_function__unit"]}
{"id": "C85", "title": "Angles of the trigonometric functions", "statement": "cos(), sin() and tan() take the C function of the angle converted to radians: degrees (or no unit), grads and turns are multiplied by the right ratio of pi with a relative error bounded by the roundings, radians are used as they are, any other unit is one error. acos(), asin() and atan() give radians, which the direct functions take back unchanged. log() takes a positive number without a unit; anything else is one error. pi is correct to 16 digits.", "quantifier": "all finite doubles and integers, all units", "why_tests_cant": "2^64 doubles and all units", "anchors": ["csspp/internal_functions.cpp: internal_function__cos", "csspp/internal_functions.cpp: internal_function__sin", "csspp/internal_functions.cpp: internal_function__tan", "csspp/internal_functions.cpp: internal_function__acos", "csspp/internal_functions.cpp: internal_function__log", "csspp/internal_functions.cpp: internal_function__pi"]}
{"id": "C86", "title": "The date variables", "statement": "set_date_time_variables() defines the eight variables _csspp_usdate, _csspp_month, _csspp_day, _csspp_year, _csspp_time, _csspp_hour, _csspp_minute and _csspp_second as global variables whose text is the date and time given, in two or four digits, and changes no other variable and no node; without a tree it throws. Known defects: for a year of five digits the year loses its last digit and the time is shifted; for six digits and more the behaviour is undefined.", "quantifier": "all dates, all existing variables and trees", "why_tests_cant": "all dates and all trees and variables that exist before the call", "anchors": ["csspp/compiler.cpp: compiler::set_date_time_variables"]}
{"id": "C87", "title": "Validation scripts accept exactly the names of their lists", "statement": "Running one of the eight validation scripts of the library (pseudo-classes, pseudo-elements, pseudo-functions, pseudo-nth-functions, languages, countries, has-font-metrics, slash-separator) on a name gives no message when the name is in the list of the script, and exactly one error, the name followed by the text of the script, for any other name. run_validation() returns true exactly for the names of the list; with check_only the error counters and the stream are as before, and otherwise the only change is the one error.", "quantifier": "all names (any string of bytes), all positions, all states of the error counters, the eight scripts", "why_tests_cant": "the names are any strings; the scripts are read, parsed and compiled by the library itself, so the property is about the lexer, the parser, the compiler and the evaluation of a condition with hundreds of operators", "anchors": ["csspp/compiler.cpp: compiler::run_validation", "csspp/compiler.cpp: compiler::set_validation_script", "csspp/compiler.cpp: compiler::add_validation_variable", "scripts/validation/pseudo-classes.scss", "scripts/validation/languages.scss", "scripts/validation/countries.scss"]}
{"id": "C88", "title": "The text of a node", "statement": "node::to_string() throws only for trees that have no text (a CDO, CDC, closing bracket, EOF or unknown node, a range of characters outside the limits, an argument with a separator that is neither a comma nor a slash) and never gives a text for such a tree. Without flags the text of a string is the bytes of the string up to its first NUL; with g_to_string_flag_show_quotes it is read again by the lexer as the same string if it has no backslash and no line terminator (a backslash is not escaped: the string \\a becomes a line feed). The flags only change the text of trees with a string (quotes) or with a division or modulo (spaces). The text of an operator is read again as this operator, and the text (with quotes) of a tree of names, @-keywords, hashes, strings, numbers, percentages, font metrics, colors, URLs, ranges, booleans, operators, brackets, functions, arguments, declarations, lists, arrays, maps and frames is read again as the same tokens, when no token runs into the next one. The text of a variable, of a placeholder and of a comment that is kept is read again as this variable, placeholder or comment.", "quantifier": "all trees (any depth and number of children), all flags, all strings, all values", "why_tests_cant": "the trees, the strings and the numbers are unbounded; whether the text is read again as the same tokens depends on each pair of neighbours", "anchors": ["csspp/node.cpp: node::to_string", "csspp/lexer.cpp: lexer::next_token", "csspp/unicode_range.cpp: unicode_range_t::to_string"]}
{"id": "C89", "title": "An+B of a selector, from the style sheet to its value", "statement": "For any text of the An+B grammar (with spaces, tabs and newlines between its parts, numbers of at most 18 digits) between the parentheses of :nth-child() and of the similar functions, the lexer reads it without a message, however it splits it into tokens (2n-1 is a number with the unit n-1, + 1 are two tokens, and so on), the concatenation of the texts of these tokens is again an An+B with the same A and B, and the selector gets exactly this A and this B (in 32 bits).", "quantifier": "all texts of the grammar, all layouts, all numbers", "why_tests_cant": "the same A and B can be written in infinitely many ways, and each way is cut differently into tokens (units, signs, identifiers)", "anchors": ["csspp/compiler.cpp: compiler::selector_simple_term", "csspp/nth_child.cpp: nth_child::parse", "csspp/lexer.cpp: lexer::next_token", "csspp/node.cpp: node::to_string"]}
{"id": "C90", "title": "A function of the style sheet called in an expression", "statement": "When an expression calls a function that is not one of the internal ones: if no function of that name was defined with @mixin the call is left as it is, without a message; if a parameter has neither an argument nor a default the call is left as it is, with exactly one error; otherwise the call is replaced by the value of the first @return of the body, where each variable is the parameter of that name (the i-th argument or the default) or else the global variable, and what follows that @return is not looked at; an @return whose expression gives nothing gives null, a body without an @return gives nothing at all. The variables of the block where the call is are not seen by the body.", "quantifier": "all functions, parameters, defaults, arguments, expressions, variables in scope", "why_tests_cant": "the parameters, the globals and the locals can have any names and values, and the body can be any template", "anchors": ["csspp/compiler.cpp: compiler::compiler_state_t::execute_user_function", "csspp/compiler.cpp: compiler::compile_at_keyword", "csspp/internal_functions.cpp: expression::execute_function"]}
{"id": "C91", "title": "The command line tool", "statement": "csspp reads the standard input when there is no file name or the only one is `-`; otherwise the style sheet it compiles is exactly one `@import \"path\"` per name, in order, where a name that does not start with `/` is after the working directory and a `/` (for names without quotes, backslashes and line feeds, which are not escaped). An empty name, or `-` among others, is refused. The tree is compiled between @import \"system/init.scss\" and @import \"system/close.scss\", with $_csspp_args, the date variables and $_csspp_no_logo set as asked. The exit status is 0 exactly when something was written and the number of errors (with --Werror also of warnings) is not a non-zero number modulo 2^32; nothing is written when there are errors before the assembler, when the precision is not in 0 to 10 or when the style is unknown (which is found only after the compilation); what is written is the assembler's text in the asked style, compressed by default, to the file of --output or the standard output. --quiet and --debug change neither; --Werror changes nothing when there is no warning. Defect: in a file given by name a variable set in a rule is not local to that rule, it is in the same text read from the standard input.", "quantifier": "all options, file names, working directories, inputs, environments and messages", "why_tests_cant": "there are infinitely many command lines, inputs and sets of messages", "anchors": ["tools/csspp.cpp: pp::pp", "tools/csspp.cpp: pp::compile", "tools/csspp.cpp: main", "csspp/compiler.cpp: compiler::compile", "csspp/compiler.cpp: compiler::add_header_and_footer", "csspp/compiler.cpp: compiler::set_no_logo", "csspp/compiler.cpp: compiler::mark_selectors"]}
{"id": "C92", "title": "The blocks of @if and @else are executed before they are chosen", "statement": "Whatever the preprocessor does with the block of an @if or an @else (setting variables, defining mixins, reading imported files, issuing messages) it does whether the block is chosen or not; the condition only decides which block's remaining nodes are kept. So (defects): `@if c { $x: a } @else { $x: b }` sets $x to b whatever c is when it is in an imported file (as all the files of the command line are), and leaves $x as it was in the style sheet itself; `$x: v !global` in a block that is not chosen sets the global variable; a file imported in a block that is not chosen is read and its errors are reported; and a mixin that includes itself under an @if never ends, even when the condition is always false.", "quantifier": "all conditions, blocks, variables, values, states, files, positions in the tree and numbers of steps", "why_tests_cant": "a test fixes a condition and a block; non-termination cannot be tested at all", "anchors": ["csspp/compiler.cpp: compiler::replace_at_keyword", "csspp/compiler.cpp: compiler::replace_if", "csspp/compiler.cpp: compiler::replace_else", "csspp/compiler.cpp: compiler::replace_variables", "csspp/compiler.cpp: compiler::mark_selectors"]}
{"id": "C93", "title": "A whole run of csspp: files in, one short style sheet out", "statement": "When the files given to csspp (or its standard input) are plain style sheets (rules made of names, classes, ids, combinators and declarations made of words, integers, strings and sums of integers, laid out in any way), the run in the compressed style ends with status 0, without a message, and writes - to the file of -o or the standard output - exactly: the rules that have a declaration, of all the files, in the order of the command line, each in its shortest form with the value of each sum in its place, on one line; and then, unless --no-logo is given, the comment of system/logo.scss with its references replaced by their values, on its own line. This holds for every init script made of definitions (variables, mixins, functions, imports of such files) that leaves $_csspp_no_logo alone.", "quantifier": "all lists of files, working directories, plain style sheets and their layouts, init scripts made of definitions, logos, dates, options other than the style and the precision, and every precision from 0 to 10", "why_tests_cant": "there are infinitely many style sheets and layouts, and the result depends on every stage (options, lexer, parser, preprocessor, compiler, assembler) at once", "anchors": ["tools/csspp.cpp: pp::compile", "csspp/compiler.cpp: compiler::compile", "csspp/compiler.cpp: compiler::add_header_and_footer", "csspp/compiler.cpp: compiler::replace_import", "csspp/assembler.cpp: assembler::output", "scripts/system/init.scss", "scripts/system/close.scss", "scripts/system/logo.scss"]}
{"id": "C94", "title": "The scripts that come with csspp do what the logo and the documented functions need", "statement": "The files of scripts/system, byte for byte (with the version 1.0.33), are read without a message. init.scss imports definitions only: it defines $_csspp_version as the string 1.0.33 and each of the 20 documented functions (adjust_hue, complement, darken, ... unquote) and touches neither $_csspp_no_logo nor the date variables. So, whatever the style sheets, csspp writes their rules and `/* @preserve -- CSS file parsed by http://csspp.org/ v1.0.33 on <date> */`, or no comment with --no-logo; for every date, every plain style sheet, any number of files.", "quantifier": "all dates, plain style sheets and layouts, lists of files, options other than the style and the precision, and every precision from 0 to 10", "why_tests_cant": "the effect of the scripts has to be known together with every style sheet that comes after them and every date", "anchors": ["scripts/system/init.scss", "scripts/system/version.scss.in", "scripts/system/constants.scss", "scripts/system/functions.scss", "scripts/system/close.scss", "scripts/system/logo.scss", "csspp/compiler.cpp: compiler::add_header_and_footer"]}
{"id": "C95", "title": "The position of a frame of @keyframes comes out as written", "statement": "A frame of a @keyframes that the compiler accepts is written, whatever is in its block and in each of the four output modes, starting with its position and then its block: `from` is written `0%`, `to` and `100%` (`100.0%` too) are written `to`, and any other percentage under 100% that is not negative, with at most as many digits after the period as the precision (3 at most), is written with the digits it was given, without useless zeros, followed by `%`.", "quantifier": "every keyframes position (from, to, and each percentage with up to three decimals), every block of a frame, the four output modes, every precision up to 3", "why_tests_cant": "the position goes through a division by 100 in double precision when it is read, a comparison with 1.0, and a multiplication by 100 when it is written: for all percentages, tests try a few", "anchors": ["csspp/compiler.cpp: compiler::compile_at_rule keyframes frames", "csspp/assembler.cpp: assembler::output FRAME", "csspp/lexer.cpp: number"]}
{"id": "C96", "title": "A sum in a declaration is as good as its value", "statement": "In a style sheet as in C83, write anywhere a sum or a difference of integers of the same unit (any number of terms, spaces and newlines of any number between the terms and the operators) instead of its value: the output is the same text, without a message, and no sum is left in it, as long as no partial sum leaves the 64 bit integers.", "quantifier": "all style sheets of this kind, any number of sums and of terms, all layouts of both style sheets", "why_tests_cant": "the sums go through the lexer (signs glued to numbers), the parser, the expressions of the compiler and the assembler; unbounded numbers of terms, all integers", "anchors": ["csspp/lexer.cpp: lexer::number", "csspp/parser.cpp: parser::component_value", "csspp/compiler.cpp: compiler::compile_declaration", "csspp/expression.cpp: expression::compile_list", "csspp/expr_additive.cpp: expression::additive", "csspp/assembler.cpp: assembler::output INTEGER"]}
{"id": "C97", "title": "A variable is replaced by its last definition", "statement": "Write a style sheet as in C83 that starts with definitions `$name: value;` (names of lowercase letters, digits and `_`; a value is a word, an integer with a unit or none, or a string) and uses `$name` anywhere as a value of a declaration: the output is the shortest text of the style sheet where each reference is replaced by the value of the last definition of its name, the definitions leave nothing, and there is no message. The same style sheet with the values written by hand has the same output, so do two that only differ in definitions that are not used or are replaced later, and minifying the output again changes nothing. The other output modes write the same up to blanks, line feeds and (EXPANDED) a last `;`. Every name that is used must be defined.", "quantifier": "all style sheets of this kind: any number of definitions (also several of one name), of rules, of declarations and of references, all layouts (spaces and newlines of any number where they are allowed, optional semicolons)", "why_tests_cant": "definitions and references go through the lexer, the parser, the scopes of the preprocessor, the compiler and the assembler; the number and the order of the definitions and the places of the references are unbounded", "anchors": ["csspp/lexer.cpp: lexer::next_token (VARIABLE)", "csspp/parser.cpp: parser::qualified_rule, parser::component_value_list, parser::is_variable_set", "csspp/compiler.cpp: compiler::replace_variables, compiler::replace_variable, compiler::set_variable, compiler_state_t::set_variable, compiler_state_t::get_variable"]}
