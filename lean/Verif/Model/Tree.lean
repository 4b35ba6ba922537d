import Verif.Model.Color
import Verif.Model.Node

/-!
The nodes as the compiler and the assembler see them: a tree (csspp/node.h:192-203).

Simplifications: the color and the line height, which node.cpp:403-472 stores in the bits of the
integer and of the decimal number (see `C32` for these accessors), are fields of their own; a
`double` is a value of Model/Flt.lean; `f_variables` is not here.
-/

namespace Csspp.Tree
open Csspp.Flt (Fp)

/-- node.h:192-203. -/
structure Data where
  ty : NT
  pos : Lex.Pos := ⟨1, 1, 1⟩
  bool : Bool := false
  int : Int := 0
  dec : Fp := .fin false 0
  height : Fp := .fin false 0
  color : Color.Color := ⟨.fin false 0, .fin false 0, .fin false 0, .fin false 0⟩
  str : Str := []
  lower : Str := []
  flags : List Str := []
  deriving DecidableEq, Repr

/-- A node and its children. -/
inductive Tree where
  | mk (data : Data) (kids : List Tree)

def Tree.data : Tree → Data
  | .mk d _ => d
def Tree.kids : Tree → List Tree
  | .mk _ k => k
def Tree.ty (t : Tree) : NT := t.data.ty

/-- A node without children. -/
def Tree.leaf (d : Data) : Tree := .mk d []

end Csspp.Tree
