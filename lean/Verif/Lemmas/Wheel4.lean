import Verif.Lemmas.Wheel

/-!
C80: the angles from 270 to 359, each evaluated by the kernel.
-/

namespace Csspp.Func
open Csspp.Flt Csspp.Expr Csspp.Spec

theorem good_9 : ∀ d : Fin 30, good (270 + d.val) = true := by decide +kernel
theorem good_10 : ∀ d : Fin 30, good (300 + d.val) = true := by decide +kernel
theorem good_11 : ∀ d : Fin 30, good (330 + d.val) = true := by decide +kernel

end Csspp.Func
