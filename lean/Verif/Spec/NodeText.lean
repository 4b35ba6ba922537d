import Verif.Model.Tree
import Verif.Spec.Written

/-!
What node::to_string() has to give: the trees that have no text (`Unwritable`) and the tokens of a tree that is made of
names, integers, strings, operators, brackets and functions (`pieces`).
-/

namespace Csspp.Spec
open Csspp.Tree Csspp.Flt

/-- The tokens that never have a text. -/
def noText : List NT :=
  [.UNKNOWN, .CDC, .CDO, .CLOSE_CURLYBRACKET, .CLOSE_PARENTHESIS, .CLOSE_SQUAREBRACKET, .EOF_TOKEN]

/-- The nodes whose children are written. -/
def withKids : List NT :=
  [.VARIABLE_FUNCTION, .FUNCTION, .OPEN_CURLYBRACKET, .OPEN_PARENTHESIS, .OPEN_SQUAREBRACKET, .COMPONENT_VALUE, .ARG,
    .DECLARATION, .LIST, .ARRAY, .MAP, .FRAME]

/-- The 64 bits of a range of characters that has a text: the first character in the low half, the last one in the high
half. The library checks that the first one is a character and that the last one is at most 0x1FFFFF; two halves that are the
same negative number are accepted too. -/
def IsRange (i : Int) : Prop :=
  (i % 4294967296 ≤ i / 4294967296 % 4294967296 ∧ i % 4294967296 < 0x110000 ∧ i / 4294967296 % 4294967296 < 0x200000) ∨
    (i % 4294967296 = i / 4294967296 % 4294967296 ∧ i % 4294967296 ≥ 0x80000000)

/-- What separates an ARG from the one before: nothing was set (0), a comma (14) or a slash (19). -/
def IsSeparator (i : Int) : Prop := i = 0 ∨ i = 14 ∨ i = 19

/-- The trees that have no text. -/
inductive Unwritable : Tree → Prop
  | type {d : Data} {kids : List Tree} : d.ty ∈ noText → Unwritable (.mk d kids)
  | range {d : Data} {kids : List Tree} : d.ty = .UNICODE_RANGE → ¬ IsRange d.int → Unwritable (.mk d kids)
  | separator {d a : Data} {ak l1 l2 : List Tree} : d.ty = .COMPONENT_VALUE → a.ty = .ARG → (∃ b ∈ l1, b.ty = .ARG) →
      ¬ IsSeparator a.int → Unwritable (.mk d (l1 ++ .mk a ak :: l2))
  | child {d : Data} {kids : List Tree} {c : Tree} : d.ty ∈ withKids → c ∈ kids → Unwritable c → Unwritable (.mk d kids)

/-! ### Reading the text again -/

/-- The closing bracket. -/
def closing : NT → NT
  | .OPEN_CURLYBRACKET => .CLOSE_CURLYBRACKET
  | .OPEN_SQUAREBRACKET => .CLOSE_SQUAREBRACKET
  | _ => .CLOSE_PARENTHESIS

/-- The text of a double, which keeps its 0 in front of the period, is a number; t is this text. -/
def IsNumber (t : Option Str) : Prop := ∃ a, t = some a ∧ ∃ n : Numeral, n.Ok ∧ a = n.text

/-- The token of a text that is a number. -/
def numberToken (t : Option Str) (unit : Str) : List Piece :=
  match t with
  | some a => [.word ((numeral a).word unit)]
  | none => []

/-- The number has no `+` in front. -/
def NoPlus (d : Data) : Prop := d.bool = true → d.int < 0

/-- The node can be written as tokens which are read as the same ones. `w` writes a double and `p` is the number of digits
after the period of those that are not written with `w`. -/
def OneToken (w : Fp → Str) (p : Nat) (d : Data) : Prop :=
  match d.ty with
  | .IDENTIFIER | .AT_KEYWORD => IsPlainName d.str
  | .HASH => ∃ cs, Utf8 cs d.str ∧ cs ≠ [] ∧ ∀ c ∈ cs, NameChar c ∧ Fair c
  | .STRING => ∃ cs, Utf8 cs d.str ∧ ∀ c ∈ cs, Fair c ∧ c ≠ 10 ∧ c ≠ 12 ∧ c ≠ 13 ∧ c ≠ 92
  | .URL => ∃ cs, Utf8 cs d.str ∧ cs ≠ [] ∧ (∀ c ∈ cs, Fair c ∧ c ≠ 10 ∧ c ≠ 12 ∧ c ≠ 13) ∧ ∀ c ∈ cs, ¬ UrlSpecial c ∧ ¬ Blank c
  | .INTEGER => -9223372036854775808 < d.int ∧ d.int < 9223372036854775808 ∧ Unit d.str ∧ NoPlus d
  | .DECIMAL_NUMBER => IsNumber (some (w d.dec)) ∧ Unit d.str ∧ NoPlus d
  | .PERCENT => IsNumber (Color.decText p (times d.dec 100) false) ∧ NoPlus d
  | .FONT_METRICS => IsNumber (Color.decText p (times d.dec (percentOr1 (unit1 d))) false) ∧
      IsNumber (Color.decText p (times d.height (percentOr1 (unit2 d))) false) ∧
      (unit1 d = b!"%" ∨ Unit (unit1 d)) ∧ (unit2 d = b!"%" ∨ Unit (unit2 d))
  | .COLOR => ∃ col, Color.getColor d.color = some col ∧
      (col / 16777216 % 256 = 255 ∨ col / 16777216 % 256 = 0 ∨ HasNumeral 2 (convert f32 f64 d.color.alpha))
  | .UNICODE_RANGE => ∃ a b : Nat, a ≤ b ∧ b ≤ 0x10FFFF ∧ ¬ (a = 0 ∧ b = 0x10FFFF) ∧ d.int = 4294967296 * b + a
  | .WHITESPACE | .COMMA | .SEMICOLON | .EXCLAMATION | .BOOLEAN | .NULL_TOKEN => True
  | ty => isOperator ty = true

/-- The tokens of such a node: one, but three for `12px/1.5em` and more for `rgba(...)`; none for null. -/
def oneToken (w : Fp → Str) (p : Nat) (d : Data) : List Piece :=
  match d.ty with
  | .IDENTIFIER | .HASH | .STRING | .URL | .AT_KEYWORD => [.word { ty := d.ty, str := d.str }]
  | .INTEGER => [integer d.int d.str]
  | .DECIMAL_NUMBER => numberToken (some (w d.dec)) d.str
  | .PERCENT => numberToken (Color.decText p (times d.dec 100) false) b!"%"
  | .FONT_METRICS => numberToken (Color.decText p (times d.dec (percentOr1 (unit1 d))) false) (unit1 d) ++ mark .DIVIDE ::
      numberToken (Color.decText p (times d.height (percentOr1 (unit2 d))) false) (unit2 d)
  | .COLOR => colorItems d.color
  | .UNICODE_RANGE => [.word { ty := .UNICODE_RANGE, int := d.int }]
  | .BOOLEAN => [name (if d.bool then b!"true" else b!"false")]
  | .NULL_TOKEN => []
  | .WHITESPACE => [.blank]
  | ty => [mark ty]

/-- The position of a FRAME: `from`, `to` or a percentage. -/
def frameToken (p : Nat) (x : Fp) : List Piece :=
  if le x (ofInt f64 0) then [name b!"from"]
  else if le (ofInt f64 1) x then [name b!"to"]
  else numberToken (Color.decText p (times x 100) false) b!"%"

/-- What the node itself has to be, when its children are written. -/
def Sure (p : Nat) (d : Data) : Prop :=
  match d.ty with
  | .FUNCTION => (∃ cs, Utf8 cs d.str ∧ PlainName cs ∧ ∀ c ∈ cs, lowerByte c = c) ∧ d.str ≠ b!"url"
  | .DECLARATION => d.str = [] ∨ IsPlainName d.str
  | .FRAME => le d.dec (ofInt f64 0) = true ∨ le (ofInt f64 1) d.dec = true ∨
      IsNumber (Color.decText p (times d.dec 100) false)
  | ty => ty ∈ [.OPEN_CURLYBRACKET, .OPEN_PARENTHESIS, .OPEN_SQUAREBRACKET, .ARG, .COMPONENT_VALUE, .LIST, .ARRAY, .MAP]

/-- An ARG which is not the first one of a COMPONENT_VALUE has a separator. -/
def Separated : List Tree → Prop
  | [] => True
  | .mk d _ :: l => (d.ty = .ARG → ∀ x ∈ l, x.ty = .ARG → IsSeparator x.data.int) ∧ Separated l

mutual
/-- A tree of such tokens, of brackets, of functions (whose children are the arguments), of lists... -/
def Tokenized (w : Fp → Str) (p : Nat) : Tree → Prop
  | .mk d kids =>
    if d.ty ∈ withKids then Sure p d ∧ (d.ty = .COMPONENT_VALUE → Separated kids) ∧ TokenizedAll w p kids
    else OneToken w p d
def TokenizedAll (w : Fp → Str) (p : Nat) : List Tree → Prop
  | [] => True
  | c :: cs => Tokenized w p c ∧ TokenizedAll w p cs
end

/-- `a SEP b SEP c` -/
def joinedBy (sep : List Piece) : List (NT × Int × List Piece) → List Piece
  | [] => []
  | [k] => k.2.2
  | k :: l => k.2.2 ++ (sep ++ joinedBy sep l)

/-- `a: b, c: d` -/
def keyed : List (NT × Int × List Piece) → List Piece
  | [] => []
  | [k] => k.2.2 ++ [mark .COLON, .blank]
  | [k, v] => k.2.2 ++ (mark .COLON :: .blank :: v.2.2)
  | k :: v :: l => k.2.2 ++ (mark .COLON :: .blank :: (v.2.2 ++ (mark .COMMA :: .blank :: keyed l)))

/-- A separator after the children of this type, but not after the last child. -/
def endedBy (ty : NT) (sep : Piece) : List (NT × Int × List Piece) → List Piece
  | [] => []
  | [k] => k.2.2
  | k :: l => k.2.2 ++ ((if k.1 = ty then [sep] else []) ++ endedBy ty sep l)

/-- The children of a COMPONENT_VALUE: an ARG which is not the first one comes after a comma or a slash. -/
def argTokens : List (NT × Int × List Piece) → List Piece
  | [] => []
  | k :: l => if k.1 = .ARG then
      k.2.2 ++ l.flatMap (fun k => (if k.1 = .ARG then [mark (if k.2.1 = 19 then .DIVIDE else .COMMA)] else []) ++ k.2.2)
    else k.2.2 ++ argTokens l

/-- The tokens of a node, from the types, the integers and the tokens of its children. -/
def enclosed (p : Nat) (d : Data) (kids : List (NT × Int × List Piece)) : List Piece :=
  let all := kids.flatMap (fun k => k.2.2)
  match d.ty with
  | .FUNCTION => .word { ty := .FUNCTION, str := d.str } :: (joinedBy [mark .COMMA] kids ++ [mark .CLOSE_PARENTHESIS])
  | .COMPONENT_VALUE => argTokens kids
  | .DECLARATION => (if d.str = [] then [] else [name d.str, mark .COLON, .blank]) ++ endedBy .ARG (mark .COMMA) kids
  | .LIST => endedBy .DECLARATION (mark .SEMICOLON) kids
  | .ARRAY => mark .OPEN_PARENTHESIS :: (joinedBy [mark .COMMA, .blank] kids ++ [mark .CLOSE_PARENTHESIS])
  | .MAP => mark .OPEN_PARENTHESIS :: (keyed kids ++ [mark .CLOSE_PARENTHESIS])
  | .FRAME => frameToken p d.dec ++ (mark .OPEN_CURLYBRACKET :: (all ++ [mark .CLOSE_CURLYBRACKET]))
  | .ARG => all
  | ty => mark ty :: (all ++ [mark (closing ty)])

mutual
/-- The tokens of the tree. -/
def pieces (w : Fp → Str) (p : Nat) : Tree → List Piece
  | .mk d kids => if d.ty ∈ withKids then enclosed p d (piecesAll w p kids) else oneToken w p d
def piecesAll (w : Fp → Str) (p : Nat) : List Tree → List (NT × Int × List Piece)
  | [] => []
  | c :: cs => (c.ty, c.data.int, pieces w p c) :: piecesAll w p cs
end

end Csspp.Spec
