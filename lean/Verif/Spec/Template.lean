import Verif.Spec.Preprocess
import Verif.Spec.Assign
import Verif.Spec.Args

/-!
Specification of the functions and mixins: a tree with variables in it, what it is when the variables
are replaced by values, and what the parameters of a function hold.
-/

namespace Csspp.Spec
open Csspp.Parse (Nd)
open Csspp.Lex (Tok Pos)

/-- What the variables hold. -/
abbrev Valuation := Str → Option Nd

/-- A value that can be used anywhere: nothing is left to do in it, it does not start with a space. -/
def GoodValue (v : Nd) : Prop :=
  ∀ p, (∀ c ∈ spliced p v, Plain c) ∧ Parse.Clean (spliced p v) ∧ (spliced p v).head?.map Nd.ty ≠ some .WHITESPACE

/-- `$x : ...` -/
def Sets (kids : List Nd) : Prop :=
  ∃ v w c l, kids = v :: (w ++ c :: l) ∧ v.ty = .VARIABLE ∧ (∀ x ∈ w, x.ty = .WHITESPACE) ∧ c.ty = .COLON

/-- A tree with nothing for the preprocessor but uses of variables, at any depth. -/
inductive Template (vals : Valuation) : Nd → Prop where
  | plain (n : Nd) : Plain n → Template vals n
  | node (t : Tok) (kids : List Nd) : IsContainer t.ty → (t.ty = .AT_KEYWORD → t.str ∉ directives) →
    (t.ty = .LIST → kids ≠ []) → (t.ty = .COMPONENT_VALUE → ¬ Sets kids) →
    (∀ c ∈ kids, c.ty = .VARIABLE → ∃ v, vals c.tok.str = some v ∧ GoodValue v) →
    (∀ c ∈ kids, c.ty ≠ .VARIABLE → Template vals c) → Template vals (.mk t kids)

mutual
/-- The tree with the values of the variables... -/
def subst (vals : Valuation) : Nd → Nd
  | .mk t kids => .mk t (substAll vals t.ty kids)
/-- ... and the children of a node of type `p`. -/
def substAll (vals : Valuation) (p : NT) : List Nd → List Nd
  | [] => []
  | c :: cs =>
    if c.ty = .VARIABLE then ((vals c.tok.str).map (spliced p)).getD [] ++ substAll vals p cs
    else subst vals c :: substAll vals p cs
end

/-- A parameter `$name` or `$name: default`. -/
structure Param where
  pos : Pos
  name : Tok
  default_ : List Nd

/-- An argument. -/
structure Argument where
  pos : Pos
  value : List Nd

/-- One node or a list. -/
def single (pos : Pos) : List Nd → Nd
  | [c] => c
  | l => .mk { ty := .LIST, pos := pos } l

/-- The i-th parameter is the i-th argument, or its default. With the same name twice the last one counts. -/
def parameters : List Param → List Argument → Valuation
  | [], _, _ => none
  | p :: ps, as, x =>
    match parameters ps as.tail x with
    | some v => some v
    | none =>
      if p.name.str = x then
        match as with
        | a :: _ => some (single a.pos a.value)
        | [] => some (single p.pos p.default_)
      else none

/-- A parameter without a value. -/
def Missing (ps : List Param) (as : List Argument) : Prop := ∃ p ∈ ps.drop as.length, p.default_ = []

/-- The nodes. -/
def Param.node (p : Param) : Nd :=
  .mk { ty := .ARG, pos := p.pos, int := Parse.separatorCode .COMMA } (.leaf { p.name with ty := .VARIABLE } :: p.default_)
def Argument.node (a : Argument) : Nd := .mk { ty := .ARG, pos := a.pos, int := Parse.separatorCode .COMMA } a.value

/-- The arguments of a call: separated by commas, none empty, without the spaces around the commas. -/
def Arguments (pos : Pos) (l : List Nd) (as : List Argument) : Prop :=
  (l = [] ∧ as = []) ∨
  (l ≠ [] ∧ Parse.Clean l ∧ (∀ c ∈ l, c.ty ≠ .ARG ∧ c.ty ≠ .OPEN_CURLYBRACKET) ∧ Parse.complaint (Parse.pieces .COMMA l) = none ∧
    as = (Parse.arguments (Parse.pieces .COMMA l)).map (fun a => ⟨pos, a⟩))

/-- A parameter as it is written: `$name` or `$name : default`, with spaces or not around the colon. -/
structure Written where
  name : Tok
  default_ : Option (Option Tok × Tok × Option Tok × List Nd)

/-- Its nodes. -/
def Written.nodes (w : Written) : List Nd :=
  .leaf { w.name with ty := .VARIABLE } ::
    match w.default_ with
    | none => []
    | some (w1, colon, w2, l) => w1.toList.map (fun t => .leaf { t with ty := .WHITESPACE }) ++
        .leaf { colon with ty := .COLON } :: (w2.toList.map (fun t => .leaf { t with ty := .WHITESPACE }) ++ l)

/-- Its parameter. -/
def Written.param (pos : Pos) (w : Written) : Param := ⟨pos, w.name, (w.default_.map (·.2.2.2)).getD []⟩

/-- The default does not start with a space (the space after the colon is not part of it). -/
def Written.Good (w : Written) : Prop := ∀ a b c l, w.default_ = some (a, b, c, l) → l.head?.map Nd.ty ≠ some .WHITESPACE

/-- How many parameters without default come after one with a default. -/
def disorder (ws : List Written) : Nat := ((ws.dropWhile (·.default_.isNone)).filter (·.default_.isNone)).length

/-- What a body gives, in a parent of type `p`: a block gives its children. -/
def body (p : NT) (root : Nd) : List Nd :=
  match root.kids with
  | [b] => if b.ty = .OPEN_CURLYBRACKET then spliced p b else spliced p root
  | _ => spliced p root

end Csspp.Spec
