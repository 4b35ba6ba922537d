import Verif.Spec.Layout
import Verif.Spec.Lexemes

/-!
Specification of what the text of a tree must be made of, for the property that the text written by
the assembler is read back as the tokens of the tree: the tokens of a tree (`items`), the values that
can be written at all (`Printable`), and the tokens which can't be next to each other (`Glued`).
-/

namespace Csspp.Spec
open Csspp.Tree Csspp.Flt

/-- What a token holds: its type, its text, its integer, its number and whether it has a sign (`made`: the numbers of a node of
the compiler, which a token does not have). -/
structure Word where
  ty : NT
  str : Str := []
  int : Int := 0
  num : Option Lex.Num := none
  sign : Bool := false
  made : Option Lex.Made := none
  deriving DecidableEq, Repr

/-- The same of a token of the lexer. -/
def Word.of (t : Lex.Tok) : Word := ⟨t.ty, t.str, t.int, t.num, t.bool, t.made⟩

/-- The text of a tree is made of tokens and of blanks. The last `;` of a block is optional: it
is written in EXPANDED mode only. -/
inductive Piece where
  | word (w : Word)
  | blank
  | semi
  deriving DecidableEq, Repr

/-- A token without a value. -/
def mark (ty : NT) : Piece := .word { ty := ty }
def name (s : Str) : Piece := .word { ty := .IDENTIFIER, str := s }

/-! ### Numbers -/

/-- A number as it is written: `[-]i[.f]`. -/
structure Numeral where
  neg : Bool
  int : Str
  frac : Str
  deriving DecidableEq, Repr

def Numeral.text (n : Numeral) : Str :=
  (if n.neg then [45] else []) ++ (n.int ++ (if n.frac = [] then [] else 46 :: n.frac))

/-- Can be read: digits, at most 20 of them after the period, under 2^63. -/
structure Numeral.Ok (n : Numeral) : Prop where
  int : ∀ c ∈ n.int, 48 ≤ c ∧ c ≤ 57
  frac : ∀ c ∈ n.frac, 48 ≤ c ∧ c ≤ 57
  some : n.int = [] → n.frac ≠ []
  short : n.frac.length ≤ 20
  small : decVal n.int < 9223372036854775808

/-- The parts of the text of a number. -/
def numeral (t : Str) : Numeral :=
  let u := if t.head? = some 45 then t.tail else t
  ⟨t.head? = some 45, u.takeWhile (fun c => c != 46), (u.dropWhile (fun c => c != 46)).tail⟩

/-- The token of a number followed by a unit or by `%`: a percentage, a decimal number when it has a period, or an
integer. -/
def Numeral.word (n : Numeral) (unit : Str) : Word :=
  if unit = b!"%" then { ty := .PERCENT, num := some ⟨n.neg, decVal n.int, n.frac, 0⟩, sign := n.neg }
  else if n.frac ≠ [] then
    { ty := .DECIMAL_NUMBER, str := unit, num := some ⟨n.neg, decVal n.int, n.frac, 0⟩, sign := n.neg }
  else { ty := .INTEGER, str := unit, int := if n.neg then -(decVal n.int : Int) else decVal n.int, sign := n.neg }

/-- The token of a double, with p digits. -/
def number (p : Nat) (x : Fp) (unit : Str) : List Piece :=
  match Color.decText p x true with
  | some t => [.word ((numeral t).word unit)]
  | none => []

def integer (i : Int) (unit : Str) : Piece := .word { ty := .INTEGER, int := i, str := unit, sign := i < 0 }

/-- 100 times a double, 1 times a double. -/
def times (x : Fp) (n : Int) : Fp := mul f64 x (ofInt f64 n)

/-! ### Nodes without children -/

/-- The operators. -/
def isOperator (ty : NT) : Bool :=
  match ty with
  | .ADD | .COLON | .DASH_MATCH | .DIVIDE | .EQUAL | .GREATER_THAN | .INCLUDE_MATCH | .MULTIPLY | .PERIOD
  | .PRECEDED | .PREFIX_MATCH | .SCOPE | .SUBSTRING_MATCH | .SUBTRACT | .SUFFIX_MATCH => true
  | _ => false

/-- A color: a name or `#` and digits when it is opaque, `transparent`, or `rgba(r, g, b, a)`. -/
def colorItems (c : Color.Color) : List Piece :=
  match Color.getColor c with
  | none => []
  | some col =>
    if col / 16777216 % 256 = 255 ∨ col / 16777216 % 256 = 0 then
      match Color.toString c with
      | some (35 :: h) => [.word { ty := .HASH, str := h }]
      | some t => [name t]
      | none => []
    else
      [.word { ty := .FUNCTION, str := b!"rgba" }, integer (col % 256 : Nat) [], mark .COMMA,
        integer (col / 256 % 256 : Nat) [], mark .COMMA, integer (col / 65536 % 256 : Nat) [], mark .COMMA] ++
      number 2 (convert f32 f64 c.alpha) [] ++ [mark .CLOSE_PARENTHESIS]

/-- The two units of a FONT_METRICS, which are written `14px/120%` in its string as `px/%`. -/
def unit1 (d : Data) : Str := (Node.cutSlash d.str).1
def unit2 (d : Data) : Str := (Node.cutSlash d.str).2.getD []
def percentOr1 (unit : Str) : Int := if unit = b!"%" then 100 else 1

def leafItems (p : Nat) (d : Data) : Option (List Piece) :=
  if isOperator d.ty then some [mark d.ty]
  else
    match d.ty with
    | .IDENTIFIER | .HASH | .STRING | .URL => some [.word { ty := d.ty, str := d.str }]
    | .UNICODE_RANGE => some [.word { ty := .UNICODE_RANGE, int := d.int }]
    | .INTEGER => some [integer d.int d.str]
    | .DECIMAL_NUMBER => some (number p d.dec d.str)
    | .PERCENT => some (number p (times d.dec 100) b!"%")
    | .FONT_METRICS =>
      some (number p (times d.dec (percentOr1 (unit1 d))) (unit1 d) ++ mark .DIVIDE ::
        number p (times d.height (percentOr1 (unit2 d))) (unit2 d))
    | .COLOR => some (colorItems d.color)
    | .WHITESPACE => some [.blank]
    | _ => none

/-! ### Nodes with children -/

/-- A child: its type, its items, the items of its own children one after the other, its items
without the blank in front (for a parenthesis), and whether its last child is a PLACEHOLDER. -/
structure Kid where
  ty : NT
  items : List Piece
  inner : List Piece
  bare : List Piece
  hidden : Bool

/-- One after the other. -/
def concat (l : List Kid) : List Piece := l.flatMap (·.items)

/-- One after the other, with a separator after those of a given type, but not after the last one. -/
def separated (ty : NT) (sep : Piece) : List Kid → List Piece
  | [] => []
  | [k] => k.items
  | k :: l => k.items ++ (if k.ty = ty then [sep] else []) ++ separated ty sep l

/-- `{ ... }`; the declarations are separated by semicolons. -/
def block (kids : List Kid) : List Piece :=
  mark .OPEN_CURLYBRACKET :: (separated .DECLARATION (mark .SEMICOLON) kids ++ [.semi, mark .CLOSE_CURLYBRACKET])

/-- `a, b, c`. -/
def commas : List Kid → List Piece
  | [] => []
  | k :: l => k.items ++ l.flatMap (fun k => mark .COMMA :: k.items)

/-- `( ... )`: a parenthesis which comes first is not preceded by a blank. -/
def parenthesis : List Kid → List Piece
  | [] => [mark .OPEN_PARENTHESIS, mark .CLOSE_PARENTHESIS]
  | k :: l => mark .OPEN_PARENTHESIS :: (k.bare ++ concat l ++ [mark .CLOSE_PARENTHESIS])

/-- The selectors (but those that end with a placeholder) separated by commas, and the block. Without
any selector there is no block either. -/
def rule (kids : List Kid) : List Piece :=
  match (kids.filter (fun k => k.ty != .ARG || !k.hidden)).dropWhile (fun k => k.ty == .OPEN_CURLYBRACKET) with
  | [] => []
  | k :: l => k.items ++ l.flatMap (fun k => (if k.ty = .ARG then [mark .COMMA] else []) ++ k.items)

/-- What follows the name of an @-rule: the arguments, with a comma between two of them, and the blocks. -/
def atBody : List Kid → List Piece
  | [] => []
  | k :: l =>
    (if k.ty = .OPEN_CURLYBRACKET then
      mark .OPEN_CURLYBRACKET :: (k.inner ++ [mark .CLOSE_CURLYBRACKET])
    else if k.ty = .ARG ∧ (l.head?.map (·.ty)) = some .ARG then k.items ++ [mark .COMMA]
    else k.items) ++ atBody l

/-- An @-rule; it ends with a semicolon or a block. -/
def atRule (keyword : Str) (kids : List Kid) : List Piece :=
  .word { ty := .AT_KEYWORD, str := keyword } :: .blank ::
    (if kids ≠ [] ∧ keyword ∈ [b!"-o-keyframes", b!"-webkit-keyframes", b!"keyframes"] then
      concat (kids.take 1) ++ mark .OPEN_CURLYBRACKET :: (concat (kids.drop 1) ++ [mark .CLOSE_CURLYBRACKET])
    else atBody kids ++ (if kids.getLast?.map (·.ty) = some .OPEN_CURLYBRACKET then [] else [mark .SEMICOLON]))

/-- `to` at 1 and over, otherwise a percentage; `0%` under 0. -/
def position (p : Nat) (x : Fp) : List Piece :=
  if le (ofInt f64 1) x then [name b!"to"]
  else number p (times (if lt x (ofInt f64 0) then ofInt f64 0 else x) 100) b!"%"

def nodeItems (p : Nat) (d : Data) (kids : List Kid) : List Piece :=
  match leafItems p d with
  | some l => l
  | none =>
    match d.ty with
    | .ARG => concat kids
    | .AT_KEYWORD => atRule d.str kids
    | .DECLARATION => name d.str :: mark .COLON :: (separated .ARG (mark .COMMA) kids ++
        (if b!"important" ∈ d.flags then [mark .EXCLAMATION, name b!"important"] else []))
    | .FUNCTION => .word { ty := .FUNCTION, str := d.str } ::
        ((if kids.head?.map (·.ty) = some .ARG then commas kids else concat kids) ++ [mark .CLOSE_PARENTHESIS])
    | .LIST => separated .DECLARATION (mark .SEMICOLON) kids
    | .OPEN_CURLYBRACKET => block kids
    | .OPEN_PARENTHESIS => .blank :: parenthesis kids
    | .OPEN_SQUAREBRACKET => mark .OPEN_SQUAREBRACKET :: (concat kids ++ [mark .CLOSE_SQUAREBRACKET])
    | .COMPONENT_VALUE => rule kids
    | .FRAME => position p d.dec ++ block kids
    | _ => []

mutual
/-- A tree as a child. -/
def kidOf (p : Nat) : Tree → Kid
  | .mk d kids =>
    { ty := d.ty
      items := nodeItems p d (kidsOf p kids)
      inner := concat (kidsOf p kids)
      bare := if d.ty = .OPEN_PARENTHESIS then parenthesis (kidsOf p kids) else nodeItems p d (kidsOf p kids)
      hidden := kids.getLast?.map Tree.ty == some .PLACEHOLDER }
def kidsOf (p : Nat) : List Tree → List Kid
  | [] => []
  | t :: l => kidOf p t :: kidsOf p l
end

/-- The tokens of a tree. -/
def items (p : Nat) (t : Tree) : List Piece := (kidOf p t).items

/-! ### From items to tokens -/

/-- The items that a mode writes, `opt` being whether it writes the optional semicolons. -/
def settle (opt : Bool) : List Piece → List Piece
  | [] => []
  | .semi :: l => if opt then mark .SEMICOLON :: settle opt l else settle opt l
  | i :: l => i :: settle opt l

/-- The tokens: blanks in a row are one token. -/
def merged : List Piece → List Word
  | [] => []
  | .word w :: l => w :: merged l
  | .semi :: l => merged l
  | .blank :: l => if l.head? = some .blank then merged l else { ty := .WHITESPACE } :: merged l

/-- The tokens without the blanks. -/
def solid : List Piece → List Word
  | [] => []
  | .word w :: l => w :: solid l
  | _ :: l => solid l

/-- The token is (or may start like) a name or a number. -/
def Word.wordy (w : Word) : Bool :=
  match w.ty with
  | .IDENTIFIER | .FUNCTION | .URL | .UNICODE_RANGE | .INTEGER | .DECIMAL_NUMBER | .PERCENT => true
  | _ => false
def Word.numeric (w : Word) : Bool :=
  match w.ty with
  | .INTEGER | .DECIMAL_NUMBER | .PERCENT => true
  | _ => false

/-- The text of these two tokens, without anything between them, is not read as these two tokens
(see also the table of CSS Syntax, "Serialization"). -/
def Glued (a b : Word) : Bool :=
  match a.ty with
  | .IDENTIFIER => b.wordy || b.ty == .SUBTRACT || b.ty == .OPEN_PARENTHESIS ||
      (b.ty == .ADD && (a.str == b!"u" || a.str == b!"U"))
  | .AT_KEYWORD | .HASH | .UNICODE_RANGE => b.wordy || b.ty == .SUBTRACT
  | .VARIABLE => b.wordy || b.ty == .SUBTRACT || b.ty == .OPEN_PARENTHESIS
  | .INTEGER | .DECIMAL_NUMBER => b.wordy || b.ty == .SUBTRACT || b.ty == .PERIOD
  | .ADD | .PERIOD => b.numeric
  | .SUBTRACT => b.wordy || b.ty == .SUBTRACT
  | .EQUAL | .COLON | .EXCLAMATION | .GREATER_THAN | .PRECEDED => b.ty == .EQUAL
  | .MULTIPLY => b.ty == .EQUAL || b.ty == .MULTIPLY || b.ty == .SUBSTRING_MATCH
  | .SCOPE => b.ty == .EQUAL || b.ty == .SCOPE || b.ty == .DASH_MATCH
  | .DIVIDE => b.ty == .DIVIDE || b.ty == .MULTIPLY || b.ty == .SUBSTRING_MATCH
  | _ => false

/-- No token is glued to the next one. -/
def apart : List Piece → Bool
  | .word a :: .word b :: l => !Glued a b && apart (.word b :: l)
  | _ :: l => apart l
  | [] => true

/-! ### What can be written -/

/-- A character that can be anywhere: not NUL, not a noncharacter, not U+FFFD. -/
def Fair (c : Nat) : Prop := Valid c ∧ c ≠ 0xFFFD
/-- A name that can be written without an escape. -/
def PlainName (cs : List Nat) : Prop :=
  (∀ c ∈ cs, NameChar c ∧ Fair c) ∧
    (NextIs NameStart cs ∨ ∃ t, cs = 45 :: t ∧ NextIs NameStart t)
def IsPlainName (s : Str) : Prop := ∃ cs, Utf8 cs s ∧ PlainName cs
/-- A unit: lowercase letters; not `e` alone. -/
def Unit (s : Str) : Prop := (∀ c ∈ s, 97 ≤ c ∧ c ≤ 122) ∧ s ≠ [101]
/-- The double is written as a number. -/
def HasNumeral (p : Nat) (x : Fp) : Prop :=
  ∃ t, Color.decText p x true = some t ∧ ∃ n : Numeral, n.Ok ∧ t = n.text
/-- The characters which a URL can't have without quotes. -/
def UrlSpecial (c : Nat) : Prop := c = 41 ∨ UrlForbidden c

/-- The value of the node can be written and read. -/
def Sound (p : Nat) (d : Data) : Prop :=
  match d.ty with
  | .IDENTIFIER => ∃ cs, Utf8 cs d.str ∧ cs ≠ [] ∧ (∀ c ∈ cs, Fair c ∧ c ≠ 10 ∧ c ≠ 12 ∧ c ≠ 13) ∧
      ∀ c, cs = [c] → ¬ Dec c
  | .HASH => ∃ cs, Utf8 cs d.str ∧ cs ≠ [] ∧ ∀ c ∈ cs, NameChar c ∧ Fair c
  | .STRING => ∃ cs, Utf8 cs d.str ∧ ∀ c ∈ cs, Fair c ∧ c ≠ 10 ∧ c ≠ 12 ∧ c ≠ 13 ∧ c ≠ 92
  | .URL => ∃ cs, Utf8 cs d.str ∧ (∀ c ∈ cs, Fair c ∧ c ≠ 10 ∧ c ≠ 12 ∧ c ≠ 13) ∧
      ((∃ c ∈ cs, UrlSpecial c) ∧ (∀ c ∈ cs, c ≠ 92) ∨ cs ≠ [] ∧ ∀ c ∈ cs, ¬ UrlSpecial c ∧ ¬ Blank c)
  | .UNICODE_RANGE => ∃ a b : Nat, a ≤ b ∧ b ≤ 0x10FFFF ∧ ¬ (a = 0 ∧ b = 0x10FFFF) ∧
      d.int = ((4294967296 * b + a : Nat) : Int)
  | .INTEGER => -9223372036854775808 < d.int ∧ d.int < 9223372036854775808 ∧ Unit d.str
  | .DECIMAL_NUMBER => HasNumeral p d.dec ∧ Unit d.str
  | .PERCENT => HasNumeral p (times d.dec 100)
  | .FONT_METRICS => HasNumeral p (times d.dec (percentOr1 (unit1 d))) ∧
      HasNumeral p (times d.height (percentOr1 (unit2 d))) ∧
      (unit1 d = b!"%" ∨ Unit (unit1 d)) ∧ (unit2 d = b!"%" ∨ Unit (unit2 d))
  | .COLOR => ∃ col, Color.getColor d.color = some col ∧
      (col / 16777216 % 256 = 255 ∨ col / 16777216 % 256 = 0 ∨ HasNumeral 2 (convert f32 f64 d.color.alpha))
  | .FRAME => le (ofInt f64 1) d.dec = true ∨
      HasNumeral p (times (if lt d.dec (ofInt f64 0) then ofInt f64 0 else d.dec) 100)
  | .AT_KEYWORD | .DECLARATION => IsPlainName d.str
  | .FUNCTION => (∃ cs, Utf8 cs d.str ∧ PlainName cs ∧ ∀ c ∈ cs, lowerByte c = c) ∧ d.str ≠ b!"url"
  | .WHITESPACE | .ARG | .LIST | .OPEN_CURLYBRACKET | .OPEN_PARENTHESIS | .OPEN_SQUAREBRACKET
  | .COMPONENT_VALUE => True
  | _ => isOperator d.ty = true

mutual
/-- Everything that is written can be. A COMPONENT_VALUE has ARG nodes and blocks; the ARG nodes that end
with a placeholder are not written. -/
def Printable (p : Nat) : Tree → Prop
  | .mk d kids => Sound p d ∧ (if d.ty = .COMPONENT_VALUE then PrintableArgs p kids else PrintableKids p kids)
def PrintableKids (p : Nat) : List Tree → Prop
  | [] => True
  | c :: l => Printable p c ∧ PrintableKids p l
def PrintableArgs (p : Nat) : List Tree → Prop
  | [] => True
  | .mk d kids :: l =>
    (d.ty = .ARG ∧ kids.getLast?.map Tree.ty = some .PLACEHOLDER ∨
      (d.ty = .ARG ∨ d.ty = .OPEN_CURLYBRACKET) ∧ Printable p (.mk d kids)) ∧ PrintableArgs p l
end

end Csspp.Spec
