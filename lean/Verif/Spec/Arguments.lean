import Verif.Model.ExprOps

/-!
Specification: the arguments of max() and min().
-/

namespace Csspp.Spec
open Csspp.Flt Csspp.Expr

/-- The number of an argument: a number or a percentage, alone. -/
def argNumber {α : Type} : List (Val α) → Option Fp
  | [.int i _] => some (ofInt f64 i)
  | [.dec x _] => some x
  | [.pct x] => some x
  | _ => none

/-- The unit of an argument. -/
def argUnit {α : Type} : List (Val α) → Str
  | [.int _ u] => u
  | [.dec _ u] => u
  | [.pct _] => b!"%"
  | _ => []

end Csspp.Spec
