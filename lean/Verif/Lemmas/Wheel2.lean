import Verif.Lemmas.Wheel

/-!
C80: the angles from 90 to 179, each evaluated by the kernel.
-/

namespace Csspp.Func
open Csspp.Flt Csspp.Expr Csspp.Spec

theorem good_3 : ∀ d : Fin 30, good (90 + d.val) = true := by decide +kernel
theorem good_4 : ∀ d : Fin 30, good (120 + d.val) = true := by decide +kernel
theorem good_5 : ∀ d : Fin 30, good (150 + d.val) = true := by decide +kernel

end Csspp.Func
