import Verif.Model.Parser

/-!
What the preprocessor acts on, and what must be gone after it.
-/

namespace Csspp.Spec
open Csspp.Parse (Nd)

/-- The @-keywords that the preprocessor acts on. -/
def directives : List Str :=
  [b!"mixin", b!"include", b!"if", b!"else", b!"import", b!"error", b!"warning", b!"message", b!"info", b!"debug"]

/-- The @-keywords that never go through. -/
def control : List Str := [b!"mixin", b!"include", b!"if", b!"else"]

/-- A tree with nothing for the preprocessor: no variable, no directive, no empty list and no "{$" in a
comment. -/
inductive Plain : Nd → Prop where
  | mk (t : Lex.Tok) (kids : List Nd) : t.ty ≠ .VARIABLE → t.ty ≠ .VARIABLE_FUNCTION →
    (t.ty = .AT_KEYWORD → t.str ∉ directives) → (t.ty = .LIST → kids ≠ []) →
    (t.ty = .COMMENT → ∀ a b, t.str ≠ a ++ 123 :: 36 :: b) →
    (∀ c ∈ kids, Plain c) → Plain (.mk t kids)

/-- The nodes of the parser that have children. -/
def IsContainer (ty : NT) : Prop :=
  ty ∈ [NT.LIST, .AT_KEYWORD, .ARG, .COMPONENT_VALUE, .DECLARATION, .FUNCTION, .OPEN_CURLYBRACKET,
    .OPEN_PARENTHESIS, .OPEN_SQUAREBRACKET]

/-- A tree without any variable, @mixin, @include, @if and @else. -/
inductive Settled : Nd → Prop where
  | mk (t : Lex.Tok) (kids : List Nd) : t.ty ≠ .VARIABLE → t.ty ≠ .VARIABLE_FUNCTION →
    (t.ty = .AT_KEYWORD → t.str ∉ control) → (IsContainer t.ty → ∀ c ∈ kids, Settled c) → Settled (.mk t kids)

end Csspp.Spec
