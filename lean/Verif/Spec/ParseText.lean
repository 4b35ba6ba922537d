import Verif.Model.Parser

/-!
What it means that a tree is read from left to right, for the properties of the parser. Nothing
here depends on how the parser works.
-/

namespace Csspp.Parse
open Csspp.Lex (Tok Pos)
open Csspp.Node (supportsChildren supportsString supportsInteger supportsDecimal supportsBoolean)

/-- What a token stands for: its type and, when the type has them, its text and its values (the
position and the lowercase copy of the text are left out). -/
structure Sym where
  ty : NT
  str : Str := []
  int : Int := 0
  num : Option Lex.Num := none
  bool : Bool := false
  deriving DecidableEq, Repr

/-- A `!` has no text of its own. -/
def sym (t : Tok) : Sym :=
  { ty := t.ty
    str := if supportsString t.ty && t.ty ≠ .EXCLAMATION then t.str else []
    int := if supportsInteger t.ty then t.int else 0
    num := if supportsDecimal t.ty then t.num else none
    bool := if supportsBoolean t.ty then t.bool else false }

/-- The symbols that a node has in front of its children. LIST and COMPONENT_VALUE only group and
EOF_TOKEN is the end of the stream; a
DECLARATION has the text of its identifier, an EXCLAMATION the text of the identifier after `!`. -/
def front (t : Tok) : List Sym :=
  match t.ty with
  | .LIST | .COMPONENT_VALUE | .EOF_TOKEN => []
  | .DECLARATION => [⟨.IDENTIFIER, t.str, 0, none, false⟩]
  | .EXCLAMATION => [⟨.EXCLAMATION, [], 0, none, false⟩, ⟨.IDENTIFIER, t.str, 0, none, false⟩]
  | _ => [sym t]

/-- The symbols that are not in the tree and follow from its structure: the `:` of a declaration
(in front of the children)... -/
def colon (t : Tok) : List Sym :=
  match t.ty with
  | .DECLARATION => [{ ty := .COLON }]
  | _ => []

/-- ... and the bracket that closes a block (after the children). -/
def closing (t : Tok) : List Sym :=
  match t.ty with
  | .OPEN_CURLYBRACKET => [{ ty := .CLOSE_CURLYBRACKET }]
  | .OPEN_SQUAREBRACKET => [{ ty := .CLOSE_SQUAREBRACKET }]
  | .OPEN_PARENTHESIS | .FUNCTION | .VARIABLE_FUNCTION => [{ ty := .CLOSE_PARENTHESIS }]
  | _ => []

mutual
/-- The tokens in a tree, from left to right. -/
def flat : Nd → List Sym
  | .mk t k => front t ++ flatL k
def flatL : List Nd → List Sym
  | [] => []
  | n :: l => flat n ++ flatL l
end

mutual
/-- The same with what follows from the structure. -/
def render : Nd → List Sym
  | .mk t k => front t ++ (colon t ++ (renderL k ++ closing t))
def renderL : List Nd → List Sym
  | [] => []
  | n :: l => render n ++ renderL l
end

/-- The tokens that the parser may leave out without a message: whitespace, `;`, `<!--`, `-->` and
the end of the stream. -/
def kept (x : Sym) : Bool :=
  match x.ty with
  | .WHITESPACE | .SEMICOLON | .CDO | .CDC | .EOF_TOKEN => false
  | _ => true

/-- A list of tokens without them. -/
def keep (l : List Sym) : List Sym := l.filter kept

/-- The opening brackets, with what closes them. -/
def closer : NT → Option NT
  | .OPEN_CURLYBRACKET => some .CLOSE_CURLYBRACKET
  | .OPEN_SQUAREBRACKET => some .CLOSE_SQUAREBRACKET
  | .OPEN_PARENTHESIS | .FUNCTION | .VARIABLE_FUNCTION => some .CLOSE_PARENTHESIS
  | _ => none

/-- The closing brackets. -/
def isCloser : NT → Bool
  | .CLOSE_CURLYBRACKET | .CLOSE_SQUAREBRACKET | .CLOSE_PARENTHESIS => true
  | _ => false

/-- The brackets are properly nested. `stack`: what is needed to close the open brackets, the
innermost first. -/
def balanced (stack : List NT) : List NT → Bool
  | [] => stack.isEmpty
  | t :: l =>
    match closer t with
    | some c => balanced (c :: stack) l
    | none =>
      if isCloser t then
        match stack with
        | [] => false
        | c :: st => c == t && balanced st l
      else balanced stack l

/-- A type that the lexer can give to a token: not one of the types of composed nodes that the
parser makes. -/
def Plain (t : Tok) : Prop := t.ty ≠ .LIST ∧ t.ty ≠ .COMPONENT_VALUE ∧ t.ty ≠ .DECLARATION

end Csspp.Parse
