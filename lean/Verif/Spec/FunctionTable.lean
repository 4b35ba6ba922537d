import Verif.Model.Flt

/-!
Specification: the internal functions, the number of their parameters, and the numbers.
-/

namespace Csspp.Spec
open Csspp.Flt

/-- The functions with exactly one parameter. -/
def oneParameter : List Str := [
  b!"abs", b!"acos", b!"alpha", b!"asin", b!"atan", b!"blue", b!"ceil", b!"cos", b!"decimal_number", b!"floor",
  b!"function_exists", b!"global_variable_exists", b!"green", b!"hue", b!"identifier", b!"inspect", b!"integer",
  b!"lightness", b!"log", b!"not", b!"percentage", b!"red", b!"round", b!"saturation", b!"sign", b!"sin", b!"sqrt",
  b!"str_length", b!"string", b!"tan", b!"type_of", b!"unit", b!"variable_exists"]

/-- `Takes name n`: the internal function can be called with n parameters (2147483647 is the largest `int`). -/
def Takes (name : Str) (n : Nat) : Prop :=
  (name ∈ oneParameter ∧ n = 1) ∨
  (name = b!"random" ∧ n = 0) ∨
  (name = b!"unique_id" ∧ n ≤ 1) ∨
  ((name = b!"hsl" ∨ name = b!"if") ∧ n = 3) ∨
  (name = b!"hsla" ∧ n = 4) ∨
  ((name = b!"rgb" ∨ name = b!"frgb") ∧ 1 ≤ n ∧ n ≤ 3) ∨
  ((name = b!"rgba" ∨ name = b!"frgba") ∧ 2 ≤ n ∧ n ≤ 4) ∨
  ((name = b!"min" ∨ name = b!"max") ∧ 1 ≤ n ∧ n ≤ 2147483647)

/-- The names of the internal functions. -/
def internalNames : List Str :=
  oneParameter ++ [b!"random", b!"unique_id", b!"hsl", b!"if", b!"hsla", b!"rgb", b!"frgb", b!"rgba", b!"frgba",
    b!"min", b!"max"]

/-- A number, not an infinity and not a NaN. -/
def Finite : Fp → Prop
  | .fin _ _ => True
  | _ => False

/-- A finite double is `quanta d / 2^1074` (2^-1074 is the smallest double). -/
def quanta : Fp → Int
  | .fin false m => m
  | .fin true m => -(m : Int)
  | _ => 0

/-- The number of quanta in 1. -/
def unity : Int := 2 ^ 1074

/-- A double: 53 bits of precision. -/
def IsDouble : Fp → Prop
  | .fin _ m => ∃ a k, m = a * 2 ^ k ∧ a < 2 ^ 53
  | _ => True

/-- A float: 24 bits of precision. -/
def IsFloat : Fp → Prop
  | .fin _ m => ∃ a k, m = a * 2 ^ k ∧ a < 2 ^ 24
  | _ => True

end Csspp.Spec
