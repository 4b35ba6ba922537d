import Verif.Spec.Written
import Verif.Model.ExprEval

/-!
Plain style sheets: rules made of names, classes and ids with combinators, and of declarations made of words, integers
and strings. For the property that such a style sheet, however it is laid out, is written back as its shortest text.

`items` says which words the text of a style sheet is made of and where blanks can be (`opt`), must be (`must`), and
where a semicolon can be (`semi`). `Lays items text` : the text is one of those. `shortest items` is the shortest one.
-/

namespace Csspp.Spec.Plain
open Csspp.Spec (Word Fair NameChar NameStart Unit IsPlainName)

/-- A value: a word, an integer with a unit (or none), a string, and a sum: an integer and the ones added to it
(`false`) or subtracted from it (`true`), all of the same unit. -/
inductive Val where
  | word (s : Str)
  | int (i : Int) (unit : Str)
  | str (s : Str)
  | sum (i : Int) (more : List (Bool × Int)) (unit : Str)
  /-- `$name`: only in the style sheets with variables of Spec/PlainVars -/
  | var (name : Str)

/-- `name: a b c, d e` -/
structure Decl where
  name : Str
  values : List (List Val)

/-- `name`, `.name`, `#name` -/
inductive Simple where
  | tag (s : Str)
  | cls (s : Str)
  | id (s : Str)

/-- A blank, `>`, `+` and `~`. -/
inductive Comb where
  | desc | child | next | sibling

/-- `a.b > c#d e`: the first compound and the other ones. -/
structure Sel where
  first : List Simple
  more : List (Comb × List Simple)

structure Rule where
  sels : List Sel
  decls : List Decl

abbrev Sheet := List Rule

/-! ### The text -/

inductive Item where
  | word (w : Word)
  /-- blanks may be here -/
  | opt
  /-- blanks must be here -/
  | must
  /-- blanks may be here, and a semicolon -/
  | semi

/-- A name. -/
def ident (s : Str) : Item := .word { ty := .IDENTIFIER, str := s }
/-- A punctuation. -/
def mark (ty : NT) : Item := .word { ty := ty }

/-- With `sep` between. -/
def join {α : Type} (f : α → List Item) (sep : List Item) : List α → List Item
  | [] => []
  | [x] => f x
  | x :: y :: l => f x ++ sep ++ join f sep (y :: l)

/-- An integer. -/
def intWord (i : Int) (u : Str) : Word := { ty := .INTEGER, int := i, str := u, sign := i < 0 }

/-- The integers of a sum after the first one: `+ 3px - 1px`. -/
def moreItems (u : Str) : List (Bool × Int) → List Item
  | [] => []
  | (minus, j) :: l => .must :: mark (if minus then .SUBTRACT else .ADD) :: .must :: .word (intWord j u) :: moreItems u l

/-- What is written in the style sheet. -/
def Val.items : Val → List Item
  | .word s => [.word { ty := .IDENTIFIER, str := s }]
  | .int i u => [.word (intWord i u)]
  | .str s => [.word { ty := .STRING, str := s }]
  | .sum i more u => .word (intWord i u) :: moreItems u more
  | .var n => [.word { ty := .VARIABLE, str := n }]

def valueItems (l : List (List Val)) : List Item := join (join Val.items [.must]) [.opt, mark .COMMA, .opt] l

def Decl.items (d : Decl) : List Item := ident d.name :: .opt :: mark .COLON :: .opt :: valueItems d.values

def Simple.items : Simple → List Item
  | .tag s => [ident s]
  | .cls s => [mark .PERIOD, ident s]
  | .id s => [.word { ty := .HASH, str := s }]

def Comb.items : Comb → List Item
  | .desc => [.must]
  | .child => [.opt, mark .GREATER_THAN, .opt]
  | .next => [.opt, mark .ADD, .opt]
  | .sibling => [.opt, mark .PRECEDED, .opt]

def Sel.items (s : Sel) : List Item :=
  s.first.flatMap Simple.items ++ s.more.flatMap (fun p => p.1.items ++ p.2.flatMap Simple.items)

/-- The inside of `{ }`. -/
def body (l : List Decl) : List Item :=
  (if l.isEmpty then [] else [.opt]) ++ join Decl.items [.opt, mark .SEMICOLON, .opt] l ++ [.semi]

def Rule.items (r : Rule) : List Item :=
  join Sel.items [.opt, mark .COMMA, .opt] r.sels ++ [.opt, mark .OPEN_CURLYBRACKET] ++
    (body r.decls ++ [mark .CLOSE_CURLYBRACKET])

/-- The whole text. -/
def items (s : Sheet) : List Item := .opt :: s.flatMap (fun r => r.items ++ [.opt])

/-- How a word is written. -/
def Text (w : Word) : Str :=
  match w.ty with
  | .IDENTIFIER => w.str
  | .HASH => 35 :: w.str
  | .VARIABLE => 36 :: w.str
  | .INTEGER => intDigits w.int ++ w.str
  | .STRING => 34 :: (w.str ++ [34])
  | .PERIOD => b!"."
  | .COMMA => b!","
  | .COLON => b!":"
  | .SEMICOLON => b!";"
  | .GREATER_THAN => b!">"
  | .ADD => b!"+"
  | .SUBTRACT => b!"-"
  | .PRECEDED => b!"~"
  | .OPEN_CURLYBRACKET => b!"{"
  | .CLOSE_CURLYBRACKET => b!"}"
  | _ => []

/-- Spaces and newlines. -/
def Blanks (g : Str) : Prop := ∀ c ∈ g, c = 32 ∨ c = 10

/-- The texts of a list of items. -/
inductive Lays : List Item → Str → Prop where
  | nil : Lays [] []
  | word {w : Word} {l : List Item} {t : Str} : Lays l t → Lays (.word w :: l) (Text w ++ t)
  | opt {g : Str} {l : List Item} {t : Str} : Blanks g → Lays l t → Lays (.opt :: l) (g ++ t)
  | must {g : Str} {l : List Item} {t : Str} : Blanks g → g ≠ [] → Lays l t → Lays (.must :: l) (g ++ t)
  | noSemi {g : Str} {l : List Item} {t : Str} : Blanks g → Lays l t → Lays (.semi :: l) (g ++ t)
  | semi {g g' : Str} {l : List Item} {t : Str} : Blanks g → Blanks g' → Lays l t →
      Lays (.semi :: l) (g ++ 59 :: (g' ++ t))

/-- The shortest text. -/
def shortest : List Item → Str
  | [] => []
  | .word w :: l => Text w ++ shortest l
  | .must :: l => 32 :: shortest l
  | .opt :: l => shortest l
  | .semi :: l => shortest l

/-! ### The sheets -/

/-- A name that is written without an escape. -/
def Name (s : Str) : Prop :=
  ∃ cs, Utf8 cs s ∧ (∀ c ∈ cs, NameChar c ∧ Fair c) ∧ NextIs NameStart cs ∧ s ≠ b!"u" ∧ s ≠ b!"U"

/-- The words that mean something to an expression: operators, colors, true, false and null. -/
def Special (s : Str) : Prop :=
  s ∈ [b!"mul", b!"div", b!"mod", b!"pow", b!"and", b!"or", b!"not-equal", b!"progid", b!"null", b!"true", b!"false"] ∨
    (Color.setName s true).isSome

/-- The sums from left to right, with the first integer. -/
def partials (i : Int) : List (Bool × Int) → List Int
  | [] => [i]
  | (minus, j) :: l => i :: partials (if minus then i - j else i + j) l

/-- The sum. -/
def total (i : Int) : List (Bool × Int) → Int
  | [] => i
  | (minus, j) :: l => total (if minus then i - j else i + j) l

/-- The integers of csspp, but for the smallest one. -/
def InRange (i : Int) : Prop := -9223372036854775808 < i ∧ i < 9223372036854775808

def Val.Ok : Val → Prop
  | .sum i more u => (∀ p ∈ more, InRange p.2) ∧ (∀ x ∈ partials i more, InRange x) ∧ Unit u
  | .word s => Name s ∧ ¬ Special s
  | .int i u => -9223372036854775808 < i ∧ i < 9223372036854775808 ∧ Unit u
  | .var _ => False
  | .str s => ∃ cs, Utf8 cs s ∧ ∀ c ∈ cs, Fair c ∧ c ≠ 10 ∧ c ≠ 12 ∧ c ≠ 13 ∧ c ≠ 92 ∧ c ≠ 34

def Decl.Ok (d : Decl) : Prop := IsPlainName d.name ∧ d.values ≠ [] ∧ ∀ g ∈ d.values, g ≠ [] ∧ ∀ v ∈ g, v.Ok

def Simple.Ok : Simple → Prop
  | .tag s => Name s
  | .cls s => Name s
  | .id s => Name s

/-- At least one, and a name is only the first. -/
def Compound (l : List Simple) : Prop := l ≠ [] ∧ (∀ s ∈ l, s.Ok) ∧ ∀ s ∈ l.tail, ∀ n, s ≠ .tag n

/-- The ids of a compound. -/
def ids (l : List Simple) : List Str := l.filterMap fun s => match s with | .id n => some n | _ => none

/-- No id twice: that is reported. -/
def Sel.Ok (s : Sel) : Prop :=
  Compound s.first ∧ (∀ p ∈ s.more, Compound p.2) ∧ (ids (s.first ++ s.more.flatMap (·.2))).Nodup

def Rule.Ok (r : Rule) : Prop := r.sels ≠ [] ∧ (∀ s ∈ r.sels, s.Ok) ∧ ∀ d ∈ r.decls, d.Ok

def Sheet.Ok (s : Sheet) : Prop := ∀ r ∈ s, r.Ok

/-! ### The sheets with references to variables -/

/-- The name of a variable: lowercase letters, digits and `_`. -/
def VarName (s : Str) : Prop := s ≠ [] ∧ ∀ c ∈ s, 97 ≤ c ∧ c ≤ 122 ∨ 48 ≤ c ∧ c ≤ 57 ∨ c = 95

/-- A value, or a reference. -/
def Val.Src (v : Val) : Prop := v.Ok ∨ ∃ n, v = .var n ∧ VarName n

def Decl.Src (d : Decl) : Prop := IsPlainName d.name ∧ d.values ≠ [] ∧ ∀ g ∈ d.values, g ≠ [] ∧ ∀ v ∈ g, v.Src

def Rule.Src (r : Rule) : Prop := r.sels ≠ [] ∧ (∀ s ∈ r.sels, s.Ok) ∧ ∀ d ∈ r.decls, d.Src

def Sheet.Src (s : Sheet) : Prop := ∀ r ∈ s, r.Src

/-! ### What the values are -/

/-- A sum is replaced by its value. -/
def Val.value : Val → Val
  | .sum i more u => .int (total i more) u
  | v => v

def Decl.computed (d : Decl) : Decl := { d with values := d.values.map (·.map Val.value) }
def Rule.computed (r : Rule) : Rule := { r with decls := r.decls.map Decl.computed }
/-- The style sheet with the values of the sums. -/
def Sheet.computed (s : Sheet) : Sheet := s.map Rule.computed

/-- The rules that do something. -/
def Sheet.active (s : Sheet) : Sheet := s.filter (fun r => !r.decls.isEmpty)

end Csspp.Spec.Plain
