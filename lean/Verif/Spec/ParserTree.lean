import Verif.Model.Parser

/-!
What the trees made by the parser look like, and the tokens they stand for. Nothing here depends on
how the parser works.
-/

namespace Csspp.Spec
open Csspp.Lex (Tok Pos)
open Csspp.Parse (Nd)

/-! ### Lists of types -/

/-- What follows `name :` or `name WHITESPACE :`; given without the name. -/
def afterColon : List NT → Option (List NT)
  | .WHITESPACE :: .COLON :: r => some r
  | .COLON :: r => some r
  | _ => none

/-- `$name : ...` or `$name(...) : ...`, with at least three parts. -/
def variableSet (ts : List NT) : Bool :=
  match ts with
  | .VARIABLE :: r | .VARIABLE_FUNCTION :: r => (afterColon r).isSome && decide (3 ≤ ts.length)
  | _ => false

/-- `$name : { ... }`: the value of the variable is a block. -/
def variableBlock (ts : List NT) : Bool :=
  match ts with
  | .VARIABLE :: r | .VARIABLE_FUNCTION :: r =>
    match afterColon r with
    | some (.OPEN_CURLYBRACKET :: _) | some (.WHITESPACE :: .OPEN_CURLYBRACKET :: _) => true
    | _ => false
  | _ => false

/-- Written in a selector only. -/
def onlyInSelectors : List NT := [.COLON, .PLACEHOLDER, .PRECEDED, .REFERENCE, .SCOPE]

/-- Written in selectors and in values. -/
def inBoth : List NT :=
  [.ADD, .COMMA, .GREATER_THAN, .HASH, .IDENTIFIER, .MULTIPLY, .OPEN_SQUAREBRACKET,
   .OPEN_CURLYBRACKET, .PERIOD, .WHITESPACE]

/-- The first part that is not `inBoth` is one that only values have. -/
def looksLikeValue (ts : List NT) : Bool :=
  match ts.dropWhile (fun t => inBoth.contains t) with
  | [] => false
  | t :: _ => !onlyInSelectors.contains t

/-- `name : ... { ... }` that is not a selector: the name is followed by `:`, the last part is a
block and what is in between starts with a space or a block, or is not what a selector has (a
function just after the `:` is not looked at). -/
def nestedDeclaration (ts : List NT) : Bool :=
  match ts with
  | .IDENTIFIER :: r =>
    decide (ts.getLast? = some .OPEN_CURLYBRACKET) &&
      (match afterColon r with
       | some (.WHITESPACE :: _) | some (.OPEN_CURLYBRACKET :: _) => true
       | some (.FUNCTION :: r) => looksLikeValue r
       | some r => looksLikeValue r
       | none => false)
  | _ => false

/-- The last part is the block of a rule: not the value of a variable or of a declaration. -/
def endsRule (ts : List NT) : Bool :=
  decide (ts.getLast? = some .OPEN_CURLYBRACKET) && !(variableBlock ts || nestedDeclaration ts)

/-! ### Trees -/

def types (l : List Nd) : List NT := l.map Nd.ty

/-- The types that are never in a tree (besides EOF_TOKEN, which ends the stream). -/
def notInTrees : List NT :=
  [.EOF_TOKEN, .CLOSE_CURLYBRACKET, .CLOSE_PARENTHESIS, .CLOSE_SQUAREBRACKET, .SEMICOLON, .CDO, .CDC]

/-- The parts of a value. -/
def isPart (ty : NT) : Prop :=
  ty ∉ notInTrees ∧ ty ≠ .LIST ∧ ty ≠ .COMPONENT_VALUE ∧ ty ≠ .DECLARATION

/-- What may follow what in a value: nothing follows a `{ }` block, and there is no space in front
of a space, of a block or of a `!`. -/
def mayFollow (a b : NT) : Prop :=
  a ≠ .OPEN_CURLYBRACKET ∧
  (a = .WHITESPACE → b ∉ [NT.WHITESPACE, .OPEN_CURLYBRACKET, .OPEN_PARENTHESIS, .OPEN_SQUAREBRACKET,
    .EXCLAMATION])

/-- The children of a value: at least one part, no space at either end. -/
def Value (l : List Nd) : Prop :=
  l ≠ [] ∧ (∀ n ∈ l, isPart n.ty) ∧
  (types l).head? ≠ some .WHITESPACE ∧ (types l).getLast? ≠ some .WHITESPACE ∧
  ∀ pre a b post, types l = pre ++ a :: b :: post → mayFollow a b

/-- Two values or more; only the last one may end with the block of a rule. -/
def Values (l : List Nd) : Prop :=
  2 ≤ l.length ∧ (∀ n ∈ l, n.ty = .COMPONENT_VALUE) ∧
  ∀ pre n post, l = pre ++ n :: post → post ≠ [] → endsRule (types n.kids) = false

mutual
/-- The trees, as they are made when there is no message. -/
def TreeShape : Nd → Prop
  | .mk t k =>
    match t.ty with
    | .AT_KEYWORD => Value k ∧ TreeShapes k
    | .OPEN_CURLYBRACKET => k ≠ [] ∧ (∀ n ∈ k, n.ty = .LIST ∨ n.ty = .COMPONENT_VALUE) ∧ TreeShapes k
    | .OPEN_SQUAREBRACKET | .OPEN_PARENTHESIS | .FUNCTION | .VARIABLE_FUNCTION =>
      (k = [] ∨ Value k ∨ Values k) ∧ TreeShapes k
    | .LIST => (k = [] ∨ Values k) ∧ TreeShapes k
    | .COMPONENT_VALUE => Value k ∧ TreeShapes k
    | ty => isPart ty ∧ k = []
def TreeShapes : List Nd → Prop
  | [] => True
  | n :: l => TreeShape n ∧ TreeShapes l
end

/-- A child of a style sheet: a comment, an @-rule, or a value that does not start with one of these
and ends with a block or defines a variable. -/
def SheetChild (n : Nd) : Prop :=
  TreeShape n ∧ (n.ty = .COMMENT ∨ n.ty = .AT_KEYWORD ∨
    n.ty = .COMPONENT_VALUE ∧
      (types n.kids).head? ≠ some .COMMENT ∧ (types n.kids).head? ≠ some .AT_KEYWORD ∧
      ((types n.kids).getLast? = some .OPEN_CURLYBRACKET ∨ variableSet (types n.kids) = true))

/-- A style sheet without error. -/
def Sheet (n : Nd) : Prop := n.ty = .LIST ∧ ∀ c ∈ n.kids, SheetChild c

/-! ### The tokens of a tree -/

/-- A token without text. -/
def plainTok (ty : NT) : Tok := { ty := ty, pos := ⟨0, 0, 0⟩ }

/-- The bracket that closes a block. -/
def closingOf : NT → NT
  | .OPEN_CURLYBRACKET => .CLOSE_CURLYBRACKET
  | .OPEN_SQUAREBRACKET => .CLOSE_SQUAREBRACKET
  | _ => .CLOSE_PARENTHESIS

/-- After a value: `;`, unless its last part is the block of a rule. -/
def valueEnd (k : List Nd) : List Tok :=
  if k = [] ∨ endsRule (types k) = true then [] else [plainTok .SEMICOLON]

/-- The last value of a child of a `{ }` block ends with the block of a rule. -/
def groupEndsRule (n : Nd) : Bool :=
  if n.ty = .LIST then
    match n.kids.getLast? with
    | some c => endsRule (types c.kids)
    | none => false
  else endsRule (types n.kids)

/-- A `!` reads the space after it: the second space is a part of the value. -/
def extraSpace (n : Nd) (l : List Nd) : List Tok :=
  if n.ty = .EXCLAMATION ∧ (types l).head? = some .WHITESPACE then [plainTok .WHITESPACE] else []

/-- The children of a `{ }` block are ended by the block of a rule, or by `<!--`. -/
def groupEnd (n : Nd) : List Tok := if groupEndsRule n = true then [] else [plainTok .CDO]

mutual
/-- A tree written as tokens. -/
def unparse : Nd → List Tok
  | .mk t k =>
    match t.ty with
    | .EXCLAMATION => [t, { ty := .IDENTIFIER, pos := ⟨0, 0, 0⟩, str := t.str }]
    | .AT_KEYWORD => t :: (unparseL k ++ [plainTok .SEMICOLON])
    | .OPEN_CURLYBRACKET => t :: (unparseG k ++ [plainTok .CLOSE_CURLYBRACKET])
    | .OPEN_SQUAREBRACKET | .OPEN_PARENTHESIS | .FUNCTION | .VARIABLE_FUNCTION =>
      t :: (unparseL k ++ ((if (types k).head? = some .COMPONENT_VALUE then [] else valueEnd k) ++
        [plainTok (closingOf t.ty)]))
    | .LIST => if k = [] then [plainTok .SEMICOLON] else unparseL k
    | .COMPONENT_VALUE => unparseL k ++ valueEnd k
    | _ => [t]
/-- One after the other. -/
def unparseL : List Nd → List Tok
  | [] => []
  | n :: l => unparse n ++ (extraSpace n l ++ unparseL l)
/-- The children of a `{ }` block. -/
def unparseG : List Nd → List Tok
  | [] => []
  | n :: l => unparse n ++ (groupEnd n ++ unparseG l)
end

/-- A child of a style sheet. A value that is neither a rule nor the definition of a variable needs
`<!--` to end it. -/
def unparseChild (n : Nd) : List Tok :=
  unparse n ++
    (if n.ty = .COMPONENT_VALUE ∧ endsRule (types n.kids) = false ∧ variableSet (types n.kids) = false
     then [plainTok .CDO] else [])

/-- A style sheet. -/
def unparseSheet (n : Nd) : List Tok := n.kids.flatMap unparseChild

mutual
/-- A tree without what a LIST or a COMPONENT_VALUE has besides its children (a position). -/
def strip : Nd → Nd
  | .mk t k => .mk (if t.ty = .LIST ∨ t.ty = .COMPONENT_VALUE then plainTok t.ty else t) (stripL k)
def stripL : List Nd → List Nd
  | [] => []
  | n :: l => strip n :: stripL l
end

end Csspp.Spec
