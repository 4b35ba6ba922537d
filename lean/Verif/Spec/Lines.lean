import Verif.Model.Basic

/-!
Specification: lines and pages of a text. LF, CR and CR LF end a line, FF ends a page (CSS 2.1).
-/

namespace Csspp.Spec

/-- The number of line ends; CR LF counts once. -/
def lineBreaks : Str → Nat
  | [] => 0
  | 13 :: 10 :: t => 1 + lineBreaks t
  | 13 :: t => 1 + lineBreaks t
  | 10 :: t => 1 + lineBreaks t
  | _ :: t => lineBreaks t

/-- The number of form feeds. -/
def formFeeds (t : Str) : Nat := t.count 12

/-- The last page: the text after the last form feed. -/
def lastPage : Str → Str
  | [] => []
  | c :: t => if 12 ∈ t then lastPage t else if c = 12 then t else c :: t

example : lineBreaks [97, 13, 10, 98, 10, 13, 12, 10] = 4 := by decide
example : lastPage [97, 13, 12, 98, 12, 10, 99] = [10, 99] := by decide

end Csspp.Spec
