import Verif.Model.Vars

/-!
Specification of `$name: value !default !global;` and of the use of `$name`.
-/

namespace Csspp.Spec
open Csspp.Parse (Nd)
open Csspp.Lex (Tok Pos)
open Csspp.Vars (Var St)

/-- `!name` -/
def IsFlag (name : Str) (c : Nd) : Prop := c.ty = .EXCLAMATION ∧ c.tok.str = name
instance (name : Str) (c : Nd) : Decidable (IsFlag name c) := inferInstanceAs (Decidable (_ ∧ _))
def AnyFlag (c : Nd) : Prop := IsFlag b!"global" c ∨ IsFlag b!"default" c
instance (c : Nd) : Decidable (AnyFlag c) := inferInstanceAs (Decidable (_ ∨ _))

/-- A flag which is not at the end. -/
def Late (vs : List Nd) : Prop := ∃ a f b c, vs = a ++ f :: b ∧ AnyFlag f ∧ c ∈ b ∧ ¬ AnyFlag c

/-- The value without the flags: one node, or a list; `null` is the null value. -/
def assigned (pos : Pos) (vs : List Nd) : Nd :=
  match vs.filter (fun c => ¬ AnyFlag c) with
  | [c] => if c.ty = .IDENTIFIER ∧ c.tok.str = b!"null" then .leaf { ty := .NULL_TOKEN, pos := c.tok.pos } else c
  | kids => .mk { ty := .LIST, pos := pos } kids

/-- `$var : vs`, with optional spaces around the colon. -/
def setNode (t var colon : Tok) (w1 w2 : Option Tok) (vs : List Nd) : Nd :=
  .mk { t with ty := .COMPONENT_VALUE } (.leaf { var with ty := .VARIABLE } ::
    (w1.toList.map (fun w => .leaf { w with ty := .WHITESPACE }) ++
      .leaf { colon with ty := .COLON } :: (w2.toList.map (fun w => .leaf { w with ty := .WHITESPACE }) ++ vs)))

/-- What a value becomes where it is used, in a parent of a given type. -/
def spliced (parent : NT) (val : Nd) : List Nd :=
  if val.ty = .LIST ∨ val.ty = .OPEN_CURLYBRACKET then
    match val.kids with
    | [cv] => if cv.ty = .COMPONENT_VALUE ∧ parent = .COMPONENT_VALUE then cv.kids else [cv]
    | vs => vs
  else if val.ty = .OPEN_PARENTHESIS ∨ val.ty = .OPEN_SQUAREBRACKET then val.kids
  else if val.ty = .NULL_TOKEN ∨ val.ty = .WHITESPACE then []
  else [val]

end Csspp.Spec
