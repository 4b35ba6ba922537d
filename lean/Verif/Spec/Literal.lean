import Verif.Model.Basic

/-!
The shortest way to write a decimal number, given its digits: no zero at the start of the integral part, no zero at the end
of the fraction, no sign on zero.
-/

namespace Csspp.Spec

/-- Without the zeroes at the start. -/
def noLead : Str → Str
  | [] => []
  | c :: s => if c = 48 then noLead s else c :: s

/-- Without the zeroes at the end. -/
def noTrail (s : Str) : Str := (noLead s.reverse).reverse

/-- `[-]int.frac` in its shortest form; `short` removes the zero of `0.5`. -/
def literal (neg : Bool) (int frac : Str) (short : Bool) : Str :=
  if noLead int = [] ∧ noTrail frac = [] then b!"0"
  else
    (if neg then b!"-" else []) ++
    (if noLead int = [] then (if short then [] else b!"0") else noLead int) ++
    (if noTrail frac = [] then [] else b!"." ++ noTrail frac)

end Csspp.Spec
