import Verif.Spec.Preprocess

/-!
Specification of `@if e {...} @else if e {...} @else {...}`.
-/

namespace Csspp.Spec
open Csspp.Parse (Nd)
open Csspp.Lex (Tok Pos)

/-- A condition and a block; where it is, the nodes of the condition, whether it is true. -/
structure Branch where
  tok : Tok
  cond : List Nd
  holds : Bool
  block : Nd

/-- `@name kids` -/
def atNode (t : Tok) (name : Str) (status : Int) (kids : List Nd) : Nd :=
  .mk { t with ty := .AT_KEYWORD, str := name, int := status } kids

/-- `@if cond {...}` -/
def Branch.ifNode (b : Branch) : Nd := atNode b.tok b!"if" b.tok.int (b.cond ++ [b.block])

/-- `@else if cond {...}`, and the last `@else {...}`. -/
inductive Else where
  | cond (first space : Tok) (b : Branch)
  | last (t : Tok) (block : Nd)

def Else.block : Else → Nd
  | .cond _ _ b => b.block
  | .last _ block => block

/-- Whether the block is chosen when nothing was before. -/
def Else.holds : Else → Bool
  | .cond _ _ b => b.holds
  | .last _ _ => true

def Else.isLast : Else → Bool
  | .cond _ _ _ => false
  | .last _ _ => true

def Else.node : Else → Nd
  | .cond i w b => atNode b.tok b!"else" b.tok.int
      (.leaf { i with ty := .IDENTIFIER, str := b!"if" } :: .leaf { w with ty := .WHITESPACE } :: (b.cond ++ [b.block]))
  | .last t block => atNode t b!"else" t.int [block]

/-- An `@else {...}` is the last one. -/
def Ordered : List Else → Prop
  | [] => True
  | [_] => True
  | e :: l => e.isLast = false ∧ Ordered l

/-- What is left of a chain: the children of the first block whose condition holds. -/
def chosen : List Else → List Nd
  | [] => []
  | e :: l => if e.holds then e.block.kids else chosen l

/-- A block with nothing for the preprocessor in it. -/
structure GoodBlock (block : Nd) : Prop where
  ty : block.ty = .OPEN_CURLYBRACKET
  plain : Plain block
  kids : ∀ c ∈ block.kids, c.ty ≠ .EOF_TOKEN ∧ c.ty ≠ .WHITESPACE

end Csspp.Spec
