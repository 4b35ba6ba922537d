import Verif.Spec.AnB

/-! An An+B in a style sheet: tabs and newlines are blanks too. -/

namespace Csspp.Spec

/-- A tab or a newline as a space. -/
def spaced (c : Nat) : Nat := if c = 9 ∨ c = 10 then 32 else c

/-- The text stands for `a·n + b`, with tabs and newlines as well as spaces. -/
def WrittenAnB (s : Str) (a b : Int) : Prop := AnB (s.map spaced) a b

end Csspp.Spec
