import Verif.Model.Basic

/-! Small vocabulary used to state properties about texts. -/

namespace Csspp.Spec

/-- A possibly empty run of spaces. -/
def Spaces (s : Str) : Prop := ∀ c ∈ s, c = 32

/-- A non empty run of decimal digits. -/
def Digits (s : Str) : Prop := s ≠ [] ∧ ∀ c ∈ s, 48 ≤ c ∧ c ≤ 57

/-- The number written by a run of decimal digits. -/
def decVal (s : Str) : Nat := s.foldl (fun v c => 10 * v + (c - 48)) 0

/-- ASCII lower case. -/
def lowerByte (c : Nat) : Nat := if 65 ≤ c ∧ c ≤ 90 then c + 32 else c

/-- ASCII lower case of a text. -/
def lower (s : Str) : Str := s.map lowerByte

end Csspp.Spec
