import Verif.Lemmas.Wheel

/-!
C80: the angles from 0 to 89, each evaluated by the kernel.
-/

namespace Csspp.Func
open Csspp.Flt Csspp.Expr Csspp.Spec

theorem good_0 : ∀ d : Fin 30, good (0 + d.val) = true := by decide +kernel
theorem good_1 : ∀ d : Fin 30, good (30 + d.val) = true := by decide +kernel
theorem good_2 : ∀ d : Fin 30, good (60 + d.val) = true := by decide +kernel

end Csspp.Func
