/-!
csspp/node.h:41-115: the node (and token) types.
-/

namespace Csspp

/-- node.h:41-115 `node_type_t` (`max_type` left out). -/
inductive NT where
  | UNKNOWN
  | ADD | AND | ASSIGNMENT | AT_KEYWORD | BOOLEAN | CDC | CDO | CLOSE_CURLYBRACKET
  | CLOSE_PARENTHESIS | CLOSE_SQUAREBRACKET | COLON | COLOR | COLUMN | COMMA | COMMENT
  | CONDITIONAL | DASH_MATCH | DECIMAL_NUMBER | DIVIDE | DOLLAR | EOF_TOKEN | EQUAL
  | EXCLAMATION | FONT_METRICS | FUNCTION | GREATER_EQUAL | GREATER_THAN | HASH | IDENTIFIER
  | INCLUDE_MATCH | INTEGER | LESS_EQUAL | LESS_THAN | MODULO | MULTIPLY | NOT_EQUAL
  | NULL_TOKEN | OPEN_CURLYBRACKET | OPEN_PARENTHESIS | OPEN_SQUAREBRACKET | PERCENT | PERIOD
  | PLACEHOLDER | POWER | PRECEDED | PREFIX_MATCH | REFERENCE | SCOPE | SEMICOLON | STRING
  | SUBSTRING_MATCH | SUBTRACT | SUFFIX_MATCH | UNICODE_RANGE | URL | VARIABLE
  | VARIABLE_FUNCTION | WHITESPACE
  | AN_PLUS_B | ARG | ARRAY | COMPONENT_VALUE | DECLARATION | LIST | MAP | FRAME
  deriving DecidableEq, Repr

end Csspp
