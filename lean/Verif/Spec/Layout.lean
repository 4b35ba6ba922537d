import Verif.Model.Assembler

/-!
What it means for a text to be a list of pieces with only blanks between them, for the properties
of the output modes.
-/

namespace Csspp.Asm

/-- Spaces and line feeds. -/
def Blank (g : Str) : Prop := ∀ c ∈ g, c = 32 ∨ c = 10
/-- Line feeds. -/
def Lines (g : Str) : Prop := ∀ c ∈ g, c = 10

/-- `Spread gap ps t`: the text `t` is all the pieces `ps`, in this order, with a `gap` before,
between and after them. -/
inductive Spread (gap : Str → Prop) : List Str → Str → Prop
  | last {g : Str} : gap g → Spread gap [] g
  | piece {g p t : Str} {ps : List Str} : gap g → Spread gap ps t → Spread gap (p :: ps) (g ++ (p ++ t))

/-- The text of a call; `opt` is whether the optional operators count. -/
def Call.piece (opt : Bool) : Call → Option Str
  | .raw s => some s
  | .token s => some s
  | .op s f => if f = .optionalOperator ∧ opt = false then none else some s
  | _ => none

/-- The texts of a list of calls, with or without the optional operators. -/
def pieces (opt : Bool) (calls : List Call) : List Str := calls.filterMap (Call.piece opt)

/-- What a mode puts between the pieces. -/
def Mode.gap : Mode → Str → Prop
  | .compressed | .tidy => Lines
  | .compact | .expanded => Blank

/-- Does the mode write the optional operators? -/
def Mode.opt : Mode → Bool
  | .expanded => true
  | _ => false

/-- `Semi a b`: the pieces `b` are the pieces `a` with some `;` put in front of a `}`. -/
inductive Semi : List Str → List Str → Prop
  | nil : Semi [] []
  | same {a b : List Str} (s : Str) : Semi a b → Semi (s :: a) (s :: b)
  | semi {a b : List Str} : Semi a b → Semi (b!"}" :: a) (b!";" :: b!"}" :: b)

/-- The text without its spaces and line feeds. -/
def squeeze (t : Str) : Str := t.filter (fun c => c != 32 && c != 10)

/-- The same on characters. -/
inductive SemiText : Str → Str → Prop
  | nil : SemiText [] []
  | same {a b : Str} (c : Nat) : SemiText a b → SemiText (c :: a) (c :: b)
  | semi {a b : Str} : SemiText a b → SemiText (125 :: a) (59 :: 125 :: b)

/-! ### Brackets -/

def isBracket (c : Nat) : Bool := c == 123 || c == 125 || c == 40 || c == 41 || c == 91 || c == 93

/-- No bracket in the text. -/
def Free (s : Str) : Prop := ∀ c ∈ s, isBracket c = false


/-- The brackets of a text are nested, from a stack of brackets to be closed. -/
def nested : List Nat → Str → Bool
  | st, [] => st.isEmpty
  | st, c :: t =>
    if c = 123 then nested (125 :: st) t
    else if c = 40 then nested (41 :: st) t
    else if c = 91 then nested (93 :: st) t
    else if c = 125 ∨ c = 41 ∨ c = 93 then
      match st with
      | [] => false
      | d :: st => if c = d then nested st t else false
    else nested st t

/-- The operators of a list of calls, as one text. -/
def operators : List Call → Str
  | [] => []
  | .op s _ :: l => s ++ operators l
  | _ :: l => operators l

/-! ### What holds of all the nodes of a tree -/

mutual
/-- `D` holds of the data of the node and of all the nodes below. -/
def All (D : Tree.Data → Prop) : Tree.Tree → Prop
  | .mk d kids => D d ∧ AllKids D kids
def AllKids (D : Tree.Data → Prop) : List Tree.Tree → Prop
  | [] => True
  | c :: cs => All D c ∧ AllKids D cs
end

end Csspp.Asm
