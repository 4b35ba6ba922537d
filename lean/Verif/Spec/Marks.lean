import Verif.Model.Parser

/-!
The passes before and after the variables: which blocks accept variables, which rules are empty, and the references of
a comment.
-/

namespace Csspp.Spec
open Csspp.Parse (Nd)

/-- The node at the end of a path (a list of indexes of children). -/
def nodeAt : Nd → List Nat → Option Nd
  | n, [] => some n
  | .mk _ kids, i :: q =>
    match kids[i]? with
    | some c => nodeAt c q
    | none => none

/-- The nodes inside of which rules are searched. -/
def Rules (ty : NT) : Prop := ty ∈ [NT.AT_KEYWORD, .COMPONENT_VALUE, .DECLARATION, .LIST, .OPEN_CURLYBRACKET]

instance (ty : NT) : Decidable (Rules ty) := by unfold Rules; infer_instance

/-- `$x : {` with optional white space on both sides of the colon. -/
def DefinesBlock (tys : List NT) : Prop :=
  ∃ v w1 w2 rest, (v = NT.VARIABLE ∨ v = NT.VARIABLE_FUNCTION) ∧ (w1 = [] ∨ w1 = [NT.WHITESPACE]) ∧ (w2 = [] ∨ w2 = [NT.WHITESPACE]) ∧
    tys = v :: (w1 ++ NT.COLON :: (w2 ++ NT.OPEN_CURLYBRACKET :: rest))

/-- The node at `q` is the block of a rule: it is the {} that ends a node which does not define a variable with a block, and
that node is in rules only. -/
def BlockOfRule (n : Nd) (q : List Nat) : Prop :=
  ∃ p i parent block, q = p ++ [i] ∧ nodeAt n p = some parent ∧ parent.kids[i]? = some block ∧ i + 1 = parent.kids.length ∧
    block.ty = .OPEN_CURLYBRACKET ∧ ¬ DefinesBlock (parent.kids.map Nd.ty) ∧
    ∀ p' m, p' <+: p → nodeAt n p' = some m → Rules m.ty

/-- A rule with an empty block. -/
def EmptyRule (n : Nd) : Prop :=
  n.ty = .COMPONENT_VALUE ∧ ∃ sel t, n.kids = sel ++ [.mk t []] ∧ t.ty = .OPEN_CURLYBRACKET

/-- A piece of a comment: a character, or a reference `{$name}` or `{$name(...}`. -/
inductive Bit where
  | char (c : Nat)
  | ref (name : Str) (args : Option Str)

/-- '{' '$' name '(' args '}' -/
def Bit.text : Bit → Str
  | .char c => [c]
  | .ref name none => 123 :: 36 :: (name ++ [125])
  | .ref name (some a) => 123 :: 36 :: (name ++ 40 :: (a ++ [125]))

def commentText (ps : List Bit) : Str := ps.flatMap Bit.text

/-- The text of a reference has no brace, and a '{' that is only a character does not start a reference. -/
def Bits : List Bit → Prop
  | [] => True
  | .char c :: ps => (c = 123 → ∀ x y, commentText ps ≠ 36 :: (x ++ 125 :: y)) ∧ Bits ps
  | .ref name args :: ps =>
    (40 ∉ name ∧ 123 ∉ name ∧ 125 ∉ name) ∧ (∀ a, args = some a → 123 ∉ a ∧ 125 ∉ a) ∧ Bits ps

/-- A '#' at the end is removed. -/
def withoutHash (s : Str) : Str := if s.getLast? = some 35 then s.dropLast else s

/-- What becomes of the comment, `done` being what is before: a reference with a value is replaced by it, together with
the '#' before it; the others are kept. -/
def filled (value : Str → Option Str) : Str → List Bit → Str
  | done, [] => done
  | done, .char c :: ps => filled value (done ++ [c]) ps
  | done, .ref name args :: ps =>
    match value name with
    | some v => filled value (withoutHash done ++ v) ps
    | none => filled value (done ++ (Bit.ref name args).text) ps

end Csspp.Spec
