import Verif.Spec.Template
import Verif.Model.Vars

/-!
Specification of the call of a function in an expression (C90).
-/

namespace Csspp.Spec
open Csspp.Parse (Nd)

/-- What the body of a function sees: its parameters, then the global variables (the functions left out). -/
def visible (globals : List Vars.Var) (ps : List Param) (as : List Argument) : Valuation := fun x =>
  match parameters ps as x with
  | some v => some v
  | none =>
    match globals.find? (fun v => v.name.tok.str = x) with
    | some v => if v.name.ty = .FUNCTION ∨ v.name.ty = .VARIABLE_FUNCTION then none else some v.value
    | none => none

/-- A tree without declarations: none exists before the rules are compiled. -/
inductive Undeclared : Nd → Prop where
  | mk (t : Lex.Tok) (kids : List Nd) : t.ty ≠ .DECLARATION → (∀ c ∈ kids, Undeclared c) → Undeclared (.mk t kids)

/-- Something an expression is made of: not a statement nor a block. -/
def Operand (n : Nd) : Prop :=
  n.ty ∉ [NT.AT_KEYWORD, .COMPONENT_VALUE, .DECLARATION, .LIST, .OPEN_CURLYBRACKET]

end Csspp.Spec
