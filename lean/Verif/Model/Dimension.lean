import Verif.Model.Basic

/-!
Model of the dimensions of csspp/expr_multiplicative.cpp:83-285. A dimension is the string of a
number: units separated by " * ", with at most one " / ".
-/

namespace Csspp.Dim

/-- The three errors of dimensions_to_vectors() (lines 143-146, 174-178 and 190-196). -/
inductive DimErr where
  | missing | secondSlash | separator
  deriving DecidableEq, Repr

/-- One of the characters of `find_first_of(" */", pos)`. -/
def isSep (c : Nat) : Bool := c == 32 || c == 42 || c == 47

/-- expr_multiplicative.cpp:121-129: the name up to the next separator, and the rest. -/
def cutName : Str → Str × Str
  | [] => ([], [])
  | c :: s =>
    if isSep c then ([], c :: s)
    else
      match cutName s with
      | (a, b) => (c :: a, b)

/-- Skip one space (lines 156-162 and 198-204). -/
def skipSpace : Str → Str
  | 32 :: s => s
  | s => s

/-- expr_multiplicative.cpp:118-205: the loop, on what is left to read of the string.
`num` and `den` are the two vectors filled so far. Every turn reads at least one character, so
the length of the text is enough fuel. -/
def dimLoop : Nat → Str → Bool → List Str → List Str → List Str × List Str × Option DimErr
  | 0, _, _, num, den => (num, den, none)
  | fuel + 1, s, slash, num, den =>
    match cutName s with
    | ([], _) => (num, den, some .missing)
    | (name, s) =>
      let num := if slash then num else num ++ [name]
      let den := if slash then den ++ [name] else den
      if s = [] then (num, den, none)
      else
        match skipSpace s with
        | [] => (num, den, none)
        | 47 :: s =>
          if slash then (num, den, some .secondSlash)
          else dimLoop fuel (skipSpace s) true num den
        | 42 :: s => dimLoop fuel (skipSpace s) slash num den
        | _ => (num, den, some .separator)

/-- expr_multiplicative.cpp:95-116: "1/" or "1 /" in front, followed by at least a character, and the
space after it when it is not the last character. -/
def dimStart : Str → Bool × Str
  | 49 :: 47 :: 32 :: c :: s => (true, c :: s)
  | 49 :: 47 :: c :: s => (true, c :: s)
  | 49 :: 32 :: 47 :: 32 :: c :: s => (true, c :: s)
  | 49 :: 32 :: 47 :: c :: s => (true, c :: s)
  | s => (false, s)

/-- expr_multiplicative.cpp:83-206 `dimensions_to_vectors()`: adds to `num` and `den`. -/
def toVectors (dim : Str) (num den : List Str) : List Str × List Str × Option DimErr :=
  if dim = [] then (num, den, none)
  else
    match dimStart dim with
    | (slash, s) => dimLoop (s.length + 1) s slash num den

/-- expr_multiplicative.cpp:227-238: from the last unit of the dividend to the first one, remove
the unit from both sides (its first occurrence in the divisor). -/
def simplify : Nat → List Str → List Str → List Str × List Str
  | 0, num, den => (num, den)
  | idx + 1, num, den =>
    match num[idx]? with
    | none => simplify idx num den
    | some d =>
      if d ∈ den then simplify idx (num.eraseIdx idx) (den.erase d) else simplify idx num den

/-- expr_multiplicative.cpp:259-281: the units with the separators. -/
def joinStar : List Str → Str
  | [] => []
  | [d] => d
  | d :: ds => d ++ b!" * " ++ joinStar ds

/-- expr_multiplicative.cpp:247-284 `rebuild_dimension()`. -/
def rebuild (num den : List Str) : Str :=
  if num = [] ∧ den = [] then []
  else
    (if num = [] then b!"1" else joinStar num) ++
      (if den = [] then [] else b!" / " ++ joinStar den)

/-- expr_multiplicative.cpp:208-245 `multiplicative_dimension()`, with the errors reported. -/
def combine (ldim : Str) (multiply : Bool) (rdim : Str) : Str × List DimErr :=
  match toVectors ldim [] [] with
  | (num, den, e1) =>
    match (if multiply then toVectors rdim num den
      else
        match toVectors rdim den num with
        | (den, num, e) => (num, den, e)) with
    | (num, den, e2) =>
      match simplify num.length num den with
      | (num, den) => (rebuild num den, e1.toList ++ e2.toList)

end Csspp.Dim
