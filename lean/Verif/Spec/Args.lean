import Verif.Model.Parser

/-!
What it means to split a list of children at separators, for the properties of argify().
-/

namespace Csspp.Parse

/-- The pieces of a list between the separators: always at least one. -/
def pieces (sep : NT) : List Nd → List (List Nd)
  | [] => [[]]
  | c :: cs =>
    if c.ty = sep then [] :: pieces sep cs
    else
      match pieces sep cs with
      | [] => [[c]]
      | p :: ps => (c :: p) :: ps

def isWs (c : Nd) : Bool := c.ty == .WHITESPACE

/-- Without the WHITESPACE at the start. -/
def lead (l : List Nd) : List Nd := l.dropWhile isWs
/-- Without the WHITESPACE at the start and at the end. -/
def trim (l : List Nd) : List Nd := ((lead l).reverse.dropWhile isWs).reverse

/-- The arguments: every piece without its whitespace at both ends, but the last one only at the
start. -/
def arguments : List (List Nd) → List (List Nd)
  | [] => []
  | [p] => [lead p]
  | p :: ps => trim p :: arguments ps

/-- A piece with nothing but WHITESPACE. -/
def blank (l : List Nd) : Bool := l.all isWs

/-- The message, for the pieces: an empty piece that is followed by a separator (it is the first one
or not), or a separator with nothing at all after it. -/
def complaint : List (List Nd) → Option ArgErr
  | [] => none
  | [_] => none
  | p :: ps =>
    if blank p then some .leading
    else if ps.dropLast.any blank then some .doubled
    else if (ps.getLastD []).isEmpty then some .trailing
    else none

/-- The number of the separator in the enumeration node_type_t. -/
def separatorCode (sep : NT) : Int := (sep.ctorIdx : Nat)

/-- The children before the first `{`... -/
def body (l : List Nd) : List Nd := l.takeWhile (fun c => c.ty != .OPEN_CURLYBRACKET)
/-- ... and from there. -/
def block? (l : List Nd) : List Nd := l.dropWhile (fun c => c.ty != .OPEN_CURLYBRACKET)

/-- No EOF_TOKEN and no WHITESPACE after a WHITESPACE: what add_child() maintains (C33). -/
def Clean : List Nd → Prop
  | [] => True
  | [c] => c.ty ≠ .EOF_TOKEN
  | c :: d :: l => c.ty ≠ .EOF_TOKEN ∧ (c.ty = .WHITESPACE → d.ty ≠ .WHITESPACE) ∧ Clean (d :: l)

end Csspp.Parse
