import Verif.Model.Basic

/-! Where files are searched and what an @import names. -/

namespace Csspp.Spec.Files

/-- A file name in a directory; the directory "" is the current one. -/
def inDir (dir name : Str) : Str := if dir = [] then name else dir ++ 47 :: name

/-- An absolute path. -/
def Absolute (s : Str) : Prop := s.head? = some 47

/-- The names tried for a script, in order: the name itself when it is absolute, otherwise the name
in each of the directories. -/
def candidates (dirs : List Str) (name : Str) : List Str :=
  if name = [] then [] else if name.head? = some 47 then [name] else dirs.map (inDir · name)

/-- The first readable name, "" when there is none. -/
def first (readable : Str → Bool) (names : List Str) : Str := (names.find? readable).getD []

def letter (c : Nat) : Prop := 97 ≤ c ∧ c ≤ 122 ∨ 65 ≤ c ∧ c ≤ 90

/-- `s` is `scheme://rest` with letters for the scheme. -/
def Uri (s scheme rest : Str) : Prop :=
  (∀ c ∈ scheme, letter c) ∧ s = scheme ++ 58 :: 47 :: 47 :: rest

/-- "file" -/
def file : Str := [102, 105, 108, 101]

/-- The path of a `file://` URI: what follows, made absolute. -/
def path (rest : Str) : Str := if rest.head? = some 47 then rest else 47 :: rest

end Csspp.Spec.Files
