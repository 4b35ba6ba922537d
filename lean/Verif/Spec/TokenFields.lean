import Verif.Model.Node

/-!
What a token of the lexer may hold.
-/

namespace Csspp.Lex
open Csspp.Node (supportsString supportsInteger supportsDecimal supportsBoolean)

/-- The types of the tokens (the other types are made later, by the parser, the compiler and the
expressions). -/
def isTokenType : NT → Bool
  | .ADD | .AND | .ASSIGNMENT | .AT_KEYWORD | .CDC | .CDO | .CLOSE_CURLYBRACKET | .CLOSE_PARENTHESIS
  | .CLOSE_SQUAREBRACKET | .COLON | .COLUMN | .COMMA | .COMMENT | .CONDITIONAL | .DASH_MATCH
  | .DECIMAL_NUMBER | .DIVIDE | .DOLLAR | .EOF_TOKEN | .EQUAL | .EXCLAMATION | .FUNCTION
  | .GREATER_EQUAL | .GREATER_THAN | .HASH | .IDENTIFIER | .INCLUDE_MATCH | .INTEGER | .LESS_EQUAL
  | .LESS_THAN | .MODULO | .MULTIPLY | .NOT_EQUAL | .OPEN_CURLYBRACKET | .OPEN_PARENTHESIS
  | .OPEN_SQUAREBRACKET | .PERCENT | .PERIOD | .PLACEHOLDER | .POWER | .PRECEDED | .PREFIX_MATCH
  | .REFERENCE | .SCOPE | .SEMICOLON | .STRING | .SUBSTRING_MATCH | .SUBTRACT | .SUFFIX_MATCH
  | .UNICODE_RANGE | .URL | .VARIABLE | .VARIABLE_FUNCTION | .WHITESPACE => true
  | _ => false

/-- The tokens with a name. -/
def isNamed : NT → Bool
  | .IDENTIFIER | .PLACEHOLDER | .AT_KEYWORD | .HASH => true
  | _ => false

/-- The type is one of the lexer, only the values that the type has are set, and a name is not
empty. -/
structure WellTok (t : Tok) : Prop where
  ty : isTokenType t.ty = true
  str : t.str ≠ [] → supportsString t.ty = true
  lower : t.lower ≠ [] → supportsString t.ty = true
  int : t.int ≠ 0 → supportsInteger t.ty = true
  num : t.num ≠ none ↔ (t.ty = .DECIMAL_NUMBER ∨ t.ty = .PERCENT)
  bool : t.bool = true → supportsBoolean t.ty = true
  bang : t.ty = .EXCLAMATION → t.str = []
  name : isNamed t.ty = true → t.str ≠ []
  preserved : t.ty = .COMMENT → t.int = 0 ∨ t.int = 1

end Csspp.Lex
