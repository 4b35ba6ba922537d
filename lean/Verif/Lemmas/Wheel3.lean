import Verif.Lemmas.Wheel

/-!
C80: the angles from 180 to 269, each evaluated by the kernel.
-/

namespace Csspp.Func
open Csspp.Flt Csspp.Expr Csspp.Spec

theorem good_6 : ∀ d : Fin 30, good (180 + d.val) = true := by decide +kernel
theorem good_7 : ∀ d : Fin 30, good (210 + d.val) = true := by decide +kernel
theorem good_8 : ∀ d : Fin 30, good (240 + d.val) = true := by decide +kernel

end Csspp.Func
