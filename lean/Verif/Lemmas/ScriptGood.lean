import Verif.Lemmas.ScriptTree

/-!
The texts of the validation scripts.
-/

namespace Csspp.Valid
open Csspp.Spec

theorem pseudoClasses_good : good 9000 Scripts.pseudoClasses Spec.pseudoClasses = true := by decide +kernel
theorem pseudoElements_good : good 9000 Scripts.pseudoElements Spec.pseudoElements = true := by decide +kernel
theorem pseudoFunctions_good : good 9000 Scripts.pseudoFunctions Spec.pseudoFunctions = true := by decide +kernel
theorem pseudoNthFunctions_good : good 9000 Scripts.pseudoNthFunctions Spec.pseudoNthFunctions = true := by decide +kernel
theorem hasFontMetrics_good : good 9000 Scripts.hasFontMetrics Spec.hasFontMetrics = true := by decide +kernel
theorem slashSeparator_good : good 9000 Scripts.slashSeparator Spec.slashSeparator = true := by decide +kernel
theorem languages_good : good 9000 Scripts.languages Spec.languages = true := by decide +kernel
theorem countries_good : good 9000 Scripts.countries Spec.countries = true := by decide +kernel

/-- The text of each of the scripts. -/
theorem checks_good {src : Str} {l : Allowed} (h : Checks src l) : good 9000 src l = true := by
  cases h
  · exact pseudoClasses_good
  · exact pseudoElements_good
  · exact pseudoFunctions_good
  · exact pseudoNthFunctions_good
  · exact hasFontMetrics_good
  · exact slashSeparator_good
  · exact languages_good
  · exact countries_good

end Csspp.Valid
