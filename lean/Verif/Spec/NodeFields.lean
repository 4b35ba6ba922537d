import Verif.Model.Node

/-!
Specification of the typed fields of a node (doc of csspp/node.cpp): ten independent cells, each
available on some node types only.
-/

namespace Csspp.Spec
open Csspp.Node

inductive Field where
  | string | lowercase | integer | boolean | decimal | color | fontSize | lineHeight | dim1 | dim2
  deriving DecidableEq

/-- What a field holds: a `double` and a color are bit patterns. -/
def Field.T : Field → Type
  | .string | .lowercase | .dim1 | .dim2 => Str
  | .integer => Int
  | .boolean => Bool
  | .decimal | .fontSize | .lineHeight => Nat
  | .color => Floats

/-- The node types with that field. -/
def Field.types : Field → List NT
  | .string | .lowercase => [.AT_KEYWORD, .COMMENT, .DECIMAL_NUMBER, .DECLARATION, .EXCLAMATION,
      .FUNCTION, .HASH, .IDENTIFIER, .INTEGER, .PLACEHOLDER, .STRING, .URL, .VARIABLE,
      .VARIABLE_FUNCTION]
  | .integer => [.AN_PLUS_B, .ARG, .AT_KEYWORD, .COMMENT, .INTEGER, .UNICODE_RANGE]
  | .boolean => [.BOOLEAN, .DECIMAL_NUMBER, .INTEGER, .OPEN_CURLYBRACKET, .PERCENT]
  | .decimal => [.DECIMAL_NUMBER, .PERCENT, .FRAME]
  | .color => [.COLOR]
  | .fontSize | .lineHeight | .dim1 | .dim2 => [.FONT_METRICS]

/-- The values of the C++ types; the first dimension of a font has no `/` (it is the separator). -/
def Field.Ok : (f : Field) → f.T → Prop
  | .integer, i => IsI64 i
  | .decimal, d => is64 d
  | .fontSize, d => is64 d
  | .lineHeight, d => is64 d
  | .color, c => c.r < 4294967296 ∧ c.g < 4294967296 ∧ c.b < 4294967296 ∧ c.a < 4294967296
  | .dim1, s => noSlash s
  | _, _ => True
where
  is64 (d : Nat) : Prop := d < 18446744073709551616
  noSlash (s : Str) : Prop := 47 ∉ s

/-- The getter of a field. -/
def getField (n : Node) : (f : Field) → Except Exn f.T
  | .string => n.getString
  | .lowercase => n.getLower
  | .integer => n.getInteger
  | .boolean => n.getBoolean
  | .decimal => n.getDecimal
  | .color => n.getColor
  | .fontSize => n.getFontSize
  | .lineHeight => n.getLineHeight
  | .dim1 => n.getDim1
  | .dim2 => n.getDim2

/-- The setter of a field. -/
def setField (n : Node) : (f : Field) → f.T → Except Exn Node
  | .string, v => n.setString v
  | .lowercase, v => n.setLower v
  | .integer, v => n.setInteger v
  | .boolean, v => n.setBoolean v
  | .decimal, v => n.setDecimal v
  | .color, v => n.setColor v
  | .fontSize, v => n.setFontSize v
  | .lineHeight, v => n.setLineHeight v
  | .dim1, v => n.setDim1 v
  | .dim2, v => n.setDim2 v

/-- A call of a setter. -/
structure SetCall where
  field : Field
  value : field.T

/-- A node after a sequence of calls; a call that throws leaves the node as it is. -/
def afterCalls (n : Node) (calls : List SetCall) : Node :=
  calls.foldl (fun n c => match setField n c.field c.value with | .ok n' => n' | .error _ => n) n

/-- The value a cell holds after a sequence of calls: the last one set, or the first one. -/
def lastValue (f : Field) (first : f.T) : List SetCall → f.T
  | [] => first
  | c :: cs => lastValue f (if h : c.field = f then h ▸ c.value else first) cs

end Csspp.Spec
