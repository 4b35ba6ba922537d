import Verif.Model.Lexer
import Verif.Spec.Text
import Verif.Spec.Utf8

/-!
Specification of the tokens of a style sheet: which characters spell a token, independently of the
way the lexer works. Every definition works on the list of characters of the text, after the line
terminators were unified; `X text value rest` says that the text starts with something that
denotes `value` and that `rest` is what follows.

The places where csspp does not follow CSS are marked "csspp:".
-/

namespace Csspp.Spec

/-- Space, tab or newline. -/
def Blank (c : Nat) : Prop := c = 32 ∨ c = 9 ∨ c = 10
/-- `0` to `9`. -/
def Dec (c : Nat) : Prop := 48 ≤ c ∧ c ≤ 57
/-- `0` to `9`, `A` to `F`, `a` to `f`. -/
def Hex (c : Nat) : Prop := Dec c ∨ (65 ≤ c ∧ c ≤ 70) ∨ (97 ≤ c ∧ c ≤ 102)
def Letter (c : Nat) : Prop := (65 ≤ c ∧ c ≤ 90) ∨ (97 ≤ c ∧ c ≤ 122)
/-- The characters of a variable name: letters, digits, `-` and `_`. -/
def VarChar (c : Nat) : Prop := Dec c ∨ Letter c ∨ c = 45 ∨ c = 95
/-- The characters of a name: the same and everything over 0x7F. -/
def NameChar (c : Nat) : Prop := VarChar c ∨ 0x80 ≤ c
/-- The first character of a name: not a digit, not a dash. -/
def NameStart (c : Nat) : Prop := Letter c ∨ c = 95 ∨ 0x80 ≤ c

/-- A character that may be part of a value: a scalar value that is neither NUL nor a noncharacter. -/
def Valid (c : Nat) : Prop := Scalar c ∧ ¬ Nonchar c ∧ c ≠ 0

/-- The first character of the text, if any, satisfies p. -/
def NextIs (p : Nat → Prop) (text : List Nat) : Prop := ∃ c t, text = c :: t ∧ p c

/-- The value of a hexadecimal digit. -/
def hexDigitValue (c : Nat) : Nat :=
  if c ≤ 57 then c - 48 else if c ≤ 70 then c - 65 + 10 else c - 97 + 10

/-- The value of a list of hexadecimal digits. -/
def hexValue (ds : List Nat) : Nat := ds.foldl (fun v d => 16 * v + hexDigitValue d) 0

/-- What follows a backslash: one to six hexadecimal digits, followed by one optional blank when
there are less than six digits, stand for the character with that number; any other character but a
newline stands for itself. (csspp: no blank is skipped after six digits.) -/
inductive Escape : List Nat → Nat → List Nat → Prop
  | plain {c : Nat} (rest : List Nat) (h10 : c ≠ 10) (hx : ¬ Hex c) : Escape (c :: rest) c rest
  | six {ds : List Nat} (rest : List Nat) (hx : ∀ d ∈ ds, Hex d) (hn : ds.length = 6)
      (hv : 0 < hexValue ds ∧ hexValue ds ≤ 0x10FFFF) : Escape (ds ++ rest) (hexValue ds) rest
  | short {ds : List Nat} (rest : List Nat) (hx : ∀ d ∈ ds, Hex d) (hn : 1 ≤ ds.length ∧ ds.length < 6)
      (hv : 0 < hexValue ds ∧ hexValue ds ≤ 0x10FFFF) (he : ¬ NextIs (fun c => Hex c ∨ Blank c) rest) :
      Escape (ds ++ rest) (hexValue ds) rest
  | spaced {ds : List Nat} {sp : Nat} (rest : List Nat) (hx : ∀ d ∈ ds, Hex d)
      (hn : 1 ≤ ds.length ∧ ds.length < 6)
      (hv : 0 < hexValue ds ∧ hexValue ds ≤ 0x10FFFF) (hs : Blank sp) :
      Escape (ds ++ sp :: rest) (hexValue ds) rest

/-- A longest run of name characters and escapes; the characters it denotes and whether it was cut
short. (csspp: an escape that stands for U+FFFD cuts the run and is lost.) -/
inductive NameTail : List Nat → List Nat → Bool → List Nat → Prop
  | stop (rest : List Nat) (h : ¬ NextIs (fun c => NameChar c ∨ c = 92) rest) :
      NameTail rest [] false rest
  | char {c : Nat} {cs vs rest : List Nat} {cut : Bool} (h : NameChar c) (hv : Valid c) :
      NameTail cs vs cut rest → NameTail (c :: cs) (c :: vs) cut rest
  | escape {c : Nat} {es cs vs rest : List Nat} {cut : Bool} (h : Escape es c cs) (hc : c ≠ 0xFFFD)
      (hv : Valid c) : NameTail cs vs cut rest → NameTail (92 :: es) (c :: vs) cut rest
  | lost {es rest : List Nat} (h : Escape es 0xFFFD rest) : NameTail (92 :: es) [] true rest

/-- A name without its leading dash: it starts with a letter, `_`, a character over 0x7F or an
escape. (csspp: a first escape that stands for U+FFFD is lost, what follows may then be any
name character.) -/
inductive NameBody : List Nat → List Nat → Bool → List Nat → Prop
  | char {c : Nat} {cs vs rest : List Nat} {cut : Bool} (h : NameStart c) (hv : Valid c) :
      NameTail cs vs cut rest → NameBody (c :: cs) (c :: vs) cut rest
  | escape {c : Nat} {es cs vs rest : List Nat} {cut : Bool} (h : Escape es c cs) (hc : c ≠ 0xFFFD)
      (hv : Valid c) : NameTail cs vs cut rest → NameBody (92 :: es) (c :: vs) cut rest
  | lost {es cs vs rest : List Nat} {cut : Bool} (h : Escape es 0xFFFD cs) :
      NameTail cs vs cut rest → NameBody (92 :: es) vs cut rest

/-- A name: an optional dash and the rest. -/
inductive Name : List Nat → List Nat → Bool → List Nat → Prop
  | dash {cs vs rest : List Nat} {cut : Bool} : NameBody cs vs cut rest →
      Name (45 :: cs) (45 :: vs) cut rest
  | plain {cs vs rest : List Nat} {cut : Bool} : NameBody cs vs cut rest → vs ≠ [] → Name cs vs cut rest

/-- The characters of a string, up to the closing quote. (csspp: an escaped newline stands for a
newline, an escape that stands for U+FFFD is lost.) -/
inductive Quoted (q : Nat) : List Nat → List Nat → List Nat → Prop
  | close (rest : List Nat) : Quoted q (q :: rest) [] rest
  | char {c : Nat} {cs vs rest : List Nat} (hq : c ≠ q) (h10 : c ≠ 10) (hb : c ≠ 92) (hv : Valid c) :
      Quoted q cs vs rest → Quoted q (c :: cs) (c :: vs) rest
  | newline {cs vs rest : List Nat} : Quoted q cs vs rest → Quoted q (92 :: 10 :: cs) (10 :: vs) rest
  | escape {c : Nat} {es cs vs rest : List Nat} (h : Escape es c cs) (hc : c ≠ 0xFFFD) (hv : Valid c) :
      Quoted q cs vs rest → Quoted q (92 :: es) (c :: vs) rest
  | lost {es cs vs rest : List Nat} (h : Escape es 0xFFFD cs) :
      Quoted q cs vs rest → Quoted q (92 :: es) vs rest

/-- The characters that an unquoted URL can't have (after the first character). -/
def UrlForbidden (c : Nat) : Prop :=
  c = 34 ∨ c = 39 ∨ c = 40 ∨ c = 8 ∨ c = 0x0B ∨ (0x0E ≤ c ∧ c ≤ 0x1F) ∨ c = 0x7F

/-- What is between `url(` and `)`: a string or characters without blanks, with optional blanks on
both sides. (csspp: the first character is not checked, so `url()` does not end there.) -/
inductive UrlBody : List Nat → List Nat → List Nat → Prop
  | quoted {b1 b2 cs vs rest : List Nat} {q : Nat} (h1 : ∀ c ∈ b1, Blank c) (hq : q = 34 ∨ q = 39)
      (h : Quoted q cs vs (b2 ++ 41 :: rest)) (h2 : ∀ c ∈ b2, Blank c) :
      UrlBody (b1 ++ q :: cs) vs rest
  | plain {b1 b2 us rest : List Nat} {c : Nat} (h1 : ∀ c ∈ b1, Blank c)
      (hc : ¬ Blank c ∧ c ≠ 34 ∧ c ≠ 39) (hu : ∀ u ∈ us, ¬ Blank u ∧ u ≠ 41 ∧ ¬ UrlForbidden u)
      (hv : ∀ u ∈ c :: us, Valid u) (h2 : ∀ c ∈ b2, Blank c) :
      UrlBody (b1 ++ c :: (us ++ (b2 ++ 41 :: rest))) (c :: us) rest

/-- What a token holds; `text` and `low` are the characters of its string and of its lowercase
copy, `warn` the warning reported with it. -/
structure Lexeme where
  ty : NT
  text : List Nat := []
  low : List Nat := []
  int : Int := 0
  num : Option Lex.Num := none
  sign : Bool := false
  warn : Option Lex.Rpt := none

/-- The token t has the values of the lexeme l. -/
structure Holds (t : Lex.Tok) (l : Lexeme) : Prop where
  ty : t.ty = l.ty
  text : Utf8 l.text t.str
  low : Utf8 l.low t.lower
  int : t.int = l.int
  num : t.num = l.num
  sign : t.bool = l.sign
  made : t.made = none

/-- The punctuation. -/
def punctuation : List (List Nat × NT) :=
  [(b!",", .COMMA), (b!";", .SEMICOLON), (b!"?", .CONDITIONAL),
   (b!"(", .OPEN_PARENTHESIS), (b!")", .CLOSE_PARENTHESIS),
   (b!"[", .OPEN_SQUAREBRACKET), (b!"]", .CLOSE_SQUAREBRACKET),
   (b!"{", .OPEN_CURLYBRACKET), (b!"}", .CLOSE_CURLYBRACKET),
   (b!"=", .EQUAL), (b!"==", .EQUAL), (b!":", .COLON), (b!":=", .ASSIGNMENT),
   (b!"!", .EXCLAMATION), (b!"!=", .NOT_EQUAL), (b!">", .GREATER_THAN), (b!">=", .GREATER_EQUAL),
   (b!"<", .LESS_THAN), (b!"<=", .LESS_EQUAL), (b!"<!--", .CDO),
   (b!"&", .REFERENCE), (b!"&&", .AND), (b!"^=", .PREFIX_MATCH),
   (b!"~", .PRECEDED), (b!"~=", .INCLUDE_MATCH),
   (b!"*", .MULTIPLY), (b!"*=", .SUBSTRING_MATCH), (b!"**", .POWER),
   (b!"|", .SCOPE), (b!"||", .COLUMN), (b!"|=", .DASH_MATCH),
   (b!"+", .ADD), (b!"-", .SUBTRACT), (b!"-->", .CDC), (b!".", .PERIOD),
   (b!"$", .DOLLAR), (b!"$=", .SUFFIX_MATCH), (b!"/", .DIVIDE)]

/-- The text starts with a number: an optional sign, an optional period and a digit. -/
def StartsNumber (text : List Nat) : Prop :=
  NextIs Dec text ∨
  (∃ t, text = 46 :: t ∧ NextIs Dec t) ∨
  ∃ c t, text = c :: t ∧ (c = 43 ∨ c = 45) ∧ (NextIs Dec t ∨ ∃ u, t = 46 :: u ∧ NextIs Dec u)

/-- The text starts with a name: an optional dash and then a letter, `_`, a character over 0x7F or a
backslash. -/
def StartsName (text : List Nat) : Prop :=
  NextIs (fun c => NameStart c ∨ c = 92) text ∨
  ∃ t, text = 45 :: t ∧ NextIs (fun c => NameStart c ∨ c = 92) t

/-- The text starts with a unicode range. -/
def StartsRange (text : List Nat) : Prop :=
  ∃ u t, text = u :: 43 :: t ∧ (u = 85 ∨ u = 117) ∧ NextIs (fun c => Hex c ∨ c = 63) t

/-- The text starts with a comment. -/
def StartsComment (text : List Nat) : Prop := ∃ t, text = 47 :: 42 :: t ∨ text = 47 :: 47 :: t

/-- The text starts with a variable. -/
def StartsVariable (text : List Nat) : Prop := ∃ t, text = 36 :: t ∧ NextIs VarChar t

/-- `/* ... */`: what is between them is the shortest text possible. -/
def CComment (text body rest : List Nat) : Prop :=
  text = 47 :: 42 :: (body ++ 42 :: 47 :: rest) ∧
  (∀ a b, body ++ [42] ≠ a ++ (42 :: 47 :: b)) ∧ ∀ c ∈ body, Valid c

/-- The lines of a `//` comment. A newline followed by `//` continues it, one space or tab after
that `//` is skipped. -/
inductive Lines : List Nat → List Nat → List Nat → Prop
  | eof : Lines [] [] []
  | stop {rest : List Nat} (h : ∀ t, rest ≠ 47 :: 47 :: t) : Lines (10 :: rest) [] (10 :: rest)
  | char {c : Nat} {cs vs rest : List Nat} (h : c ≠ 10) (hv : Valid c) :
      Lines cs vs rest → Lines (c :: cs) (c :: vs) rest
  | joinBlank {c : Nat} {cs vs rest : List Nat} (h : c = 32 ∨ c = 9) :
      Lines cs vs rest → Lines (10 :: 47 :: 47 :: c :: cs) (10 :: vs) rest
  | join {cs vs rest : List Nat} (h : ¬ NextIs (fun c => c = 32 ∨ c = 9) cs) :
      Lines cs vs rest → Lines (10 :: 47 :: 47 :: cs) (10 :: vs) rest

/-- `// ...`; the blanks in front of the text are not part of it. -/
def LineComment (text body rest : List Nat) : Prop :=
  ∃ b t, text = 47 :: 47 :: (b ++ t) ∧ (∀ c ∈ b, c = 32 ∨ c = 9) ∧
    ¬ NextIs (fun c => c = 32 ∨ c = 9) t ∧ Lines t body rest

/-- The bytes of the text have `@preserve` somewhere. -/
def Preserved (body : List Nat) : Prop := ∃ bs, Utf8 body bs ∧ b!"@preserve" <:+: bs

/-- A text without the blanks at its end. -/
def Trimmed (body text : List Nat) : Prop :=
  ∃ b, body = text ++ b ∧ (∀ c ∈ b, Blank c) ∧ ∀ c t, text = t ++ [c] → ¬ Blank c

/-- A text without the blanks at its start. -/
def TrimmedLeft (body text : List Nat) : Prop :=
  ∃ b, body = b ++ text ∧ (∀ c ∈ b, Blank c) ∧ ¬ NextIs Blank text

/-- An optional sign: whether it is there, whether it is a minus. -/
inductive Sign : List Nat → Bool → Bool → List Nat → Prop
  | plus (rest : List Nat) : Sign (43 :: rest) true false rest
  | minus (rest : List Nat) : Sign (45 :: rest) true true rest
  | no {rest : List Nat} (h : ¬ NextIs (fun c => c = 43 ∨ c = 45) rest) : Sign rest false false rest

/-- A longest run of digits. -/
def DigitRun (text ds rest : List Nat) : Prop :=
  text = ds ++ rest ∧ (∀ d ∈ ds, Dec d) ∧ ¬ NextIs Dec rest

/-- The value of an integral part, as csspp computes it: modulo 2^64, without an error as long as
the result of each step is under 2^63. -/
def wrapped (ds : List Nat) : Nat := decVal ds % 18446744073709551616

/-- The integral part is accepted. (csspp: a number over 2^63 may be accepted, with another value.) -/
def IntOk (ds : List Nat) : Prop :=
  ∀ k, k ≤ ds.length → 2 ≤ k → wrapped (ds.take k) < 9223372036854775808

/-- An optional fraction: a period and 1 to 20 digits. -/
inductive Fraction : List Nat → List Nat → Bool → List Nat → Prop
  | digits {cs ds rest : List Nat} (h : DigitRun cs ds rest) (hn : 1 ≤ ds.length ∧ ds.length ≤ 20) :
      Fraction (46 :: cs) ds true rest
  | no {rest : List Nat} (h : ∀ t, rest ≠ 46 :: t) : Fraction rest [] false rest

/-- An exponent: `e`, an optional sign and digits. -/
def IsExponent (text : List Nat) : Prop :=
  ∃ e t, text = e :: t ∧ (e = 101 ∨ e = 69) ∧
    (NextIs Dec t ∨ ∃ c u, t = c :: u ∧ (c = 43 ∨ c = 45) ∧ NextIs Dec u)

/-- An optional exponent, at most 1023. -/
inductive Exponent : List Nat → Int → List Nat → Prop
  | digits {e : Nat} {cs t ds rest : List Nat} {hs neg : Bool} (he : e = 101 ∨ e = 69)
      (hsg : Sign cs hs neg t) (h : DigitRun t ds rest) (hn : ds ≠ []) (hv : decVal ds ≤ 1023) :
      Exponent (e :: cs) (if neg then -(decVal ds : Int) else decVal ds) rest
  | no {rest : List Nat} (h : ¬ IsExponent rest) : Exponent rest 0 rest

/-- An optional dimension or percent sign. A dash alone is not a dimension. -/
inductive Dimension : List Nat → List Nat → Bool → List Nat → Prop
  | percent (rest : List Nat) : Dimension (37 :: rest) [] true rest
  | name {text vs rest : List Nat} {cut : Bool} (hs : NextIs (fun c => NameChar c ∨ c = 92) text)
      (h : NameTail text vs cut rest) (hd : vs ≠ [45]) : Dimension text (vs.map lowerByte) false rest
  | dash {text rest : List Nat} {cut : Bool} (h : NameTail text [45] cut rest) : Dimension text [] false (45 :: rest)
  | no {rest : List Nat} (h : ¬ NextIs (fun c => NameChar c ∨ c = 92 ∨ c = 37) rest) :
      Dimension rest [] false rest

/-- The lexeme of a number: a percentage, a decimal number or an integer. -/
def numberLexeme (hs neg : Bool) (ds fr : List Nat) (isDec : Bool) (e : Int) (dim : List Nat) (pc : Bool) :
    Lexeme :=
  if pc then { ty := .PERCENT, num := some ⟨neg, wrapped ds, fr, e⟩, sign := hs }
  else if isDec ∨ e ≠ 0 then
    { ty := .DECIMAL_NUMBER, num := some ⟨neg, wrapped ds, fr, e⟩, text := dim, sign := hs }
  else { ty := .INTEGER, int := if neg then -(wrapped ds : Int) else wrapped ds, text := dim, sign := hs }

/-- A unicode range without its `U+`: its bounds. (csspp: without a digit after the dash the second
bound is 0; a mask may go up to 0x1FFFFF.) -/
inductive Range : List Nat → Nat → Nat → List Nat → Prop
  | mask {ds rest : List Nat} {q : Nat} (hx : ∀ d ∈ ds, Hex d) (hq : 1 ≤ q) (hn : ds.length + q ≤ 6)
      (he : ds.length + q = 6 ∨ ¬ NextIs (fun c => c = 63) rest)
      (hv : hexValue ds * 16 ^ q ≤ 0x10FFFF) :
      Range (ds ++ (List.replicate q 63 ++ rest)) (hexValue ds * 16 ^ q)
        (min (hexValue ds * 16 ^ q + (16 ^ q - 1)) 0x1FFFFF) rest
  | pair {ds es rest : List Nat} (hx : ∀ d ∈ ds, Hex d) (hn : 1 ≤ ds.length ∧ ds.length ≤ 6)
      (hy : ∀ d ∈ es, Hex d) (hm : es.length ≤ 6) (he : es.length = 6 ∨ ¬ NextIs Hex rest)
      (hv : hexValue ds ≤ hexValue es ∧ hexValue es ≤ 0x10FFFF) :
      Range (ds ++ 45 :: (es ++ rest)) (hexValue ds) (hexValue es) rest
  | one {ds rest : List Nat} (hx : ∀ d ∈ ds, Hex d) (hn : 1 ≤ ds.length ∧ ds.length ≤ 6)
      (he : ds.length = 6 ∨ ¬ NextIs (fun c => Hex c ∨ c = 63) rest) (h45 : ∀ t, rest ≠ 45 :: t)
      (hv : hexValue ds ≤ 0x10FFFF) :
      Range (ds ++ rest) (hexValue ds) (hexValue ds) rest

/-- `Reads text l rest`: the text starts with the token l. -/
inductive Reads : List Nat → Lexeme → List Nat → Prop
  | eof : Reads [] { ty := .EOF_TOKEN } []
  /-- Punctuation: the longest one, when nothing else starts there. -/
  | punctuation {p rest : List Nat} {ty : NT} (h : (p, ty) ∈ punctuation)
      (hl : ∀ p' ty', (p', ty') ∈ Spec.punctuation → p' <+: p ++ rest → p'.length ≤ p.length)
      (h1 : ¬ StartsNumber (p ++ rest)) (h2 : ¬ StartsName (p ++ rest))
      (h3 : ¬ StartsComment (p ++ rest)) (h4 : ¬ StartsVariable (p ++ rest)) :
      Reads (p ++ rest) { ty := ty, warn := if p = b!"==" then some .doubleEqual else none } rest
  /-- csspp: the character after a `%` that does not start a placeholder is lost. -/
  | modulo {cs : List Nat} (h : ¬ NextIs NameStart cs) : Reads (37 :: cs) { ty := .MODULO } cs.tail
  | spaces {sp rest : List Nat} (h : ∀ c ∈ sp, Blank c) (hn : sp ≠ []) (he : ¬ NextIs Blank rest) :
      Reads (sp ++ rest) { ty := .WHITESPACE } rest
  | string {q : Nat} {cs vs rest : List Nat} (hq : q = 34 ∨ q = 39) (h : Quoted q cs vs rest) :
      Reads (q :: cs) { ty := .STRING, text := vs } rest
  | identifier {cs vs rest : List Nat} {cut : Bool} (hr : ¬ StartsRange cs) (h : Name cs vs cut rest)
      (he : cut = true ∨ ∀ t, rest ≠ 40 :: t) :
      Reads cs { ty := .IDENTIFIER, text := vs, low := vs.map lowerByte } rest
  | function {cs vs rest : List Nat} (hr : ¬ StartsRange cs) (h : Name cs vs false (40 :: rest))
      (hu : vs.map lowerByte ≠ b!"url") :
      Reads cs { ty := .FUNCTION, text := vs.map lowerByte } rest
  | url {cs vs us rest1 rest : List Nat} (hr : ¬ StartsRange cs) (h : Name cs vs false (40 :: rest1))
      (hu : vs.map lowerByte = b!"url") (hb : UrlBody rest1 us rest) :
      Reads cs { ty := .URL, text := us } rest
  | atKeyword {cs vs rest : List Nat} {cut : Bool} (h : Name cs vs cut rest) :
      Reads (64 :: cs) { ty := .AT_KEYWORD, text := vs, low := vs.map lowerByte } rest
  /-- csspp: a placeholder followed by a parenthesis is a function. -/
  | placeholder {cs vs rest : List Nat} {cut : Bool} (hs : NextIs NameStart cs)
      (h : Name cs vs cut rest) (he : cut = true ∨ ∀ t, rest ≠ 40 :: t) :
      Reads (37 :: cs) { ty := .PLACEHOLDER, text := vs, low := vs.map lowerByte } rest
  | placeholderFunction {cs vs rest : List Nat} (hs : NextIs NameStart cs) (h : Name cs vs false (40 :: rest))
      (hu : vs.map lowerByte ≠ b!"url") :
      Reads (37 :: cs) { ty := .FUNCTION, text := vs.map lowerByte } rest
  | placeholderUrl {cs vs us rest1 rest : List Nat} (hs : NextIs NameStart cs)
      (h : Name cs vs false (40 :: rest1)) (hu : vs.map lowerByte = b!"url") (hb : UrlBody rest1 us rest) :
      Reads (37 :: cs) { ty := .URL, text := us } rest
  | hash {cs vs rest : List Nat} {cut : Bool} (h : NameTail cs vs cut rest) (hn : vs ≠ []) :
      Reads (35 :: cs) { ty := .HASH, text := vs } rest
  | variableName {vs rest : List Nat} (h : ∀ c ∈ vs, VarChar c) (hn : vs ≠ [])
      (he : ¬ NextIs VarChar rest) (hp : ∀ t, rest ≠ 40 :: t) :
      Reads (36 :: (vs ++ rest))
        { ty := .VARIABLE, text := vs.map (fun c => if c = 45 then 95 else lowerByte c) } rest
  | variableFunction {vs rest : List Nat} (h : ∀ c ∈ vs, VarChar c) (hn : vs ≠ []) :
      Reads (36 :: (vs ++ 40 :: rest))
        { ty := .VARIABLE_FUNCTION, text := vs.map (fun c => if c = 45 then 95 else lowerByte c) } rest
  | number {cs cs1 cs2 cs3 cs4 ds fr dim rest : List Nat} {hs neg isDec pc : Bool} {e : Int}
      (h : StartsNumber cs) (h1 : Sign cs hs neg cs1) (h2 : DigitRun cs1 ds cs2) (hi : IntOk ds)
      (h3 : Fraction cs2 fr isDec cs3) (h4 : Exponent cs3 e cs4) (h5 : Dimension cs4 dim pc rest) :
      Reads cs (numberLexeme hs neg ds fr isDec e dim pc) rest
  | range {u a b : Nat} {cs rest : List Nat} (hu : u = 85 ∨ u = 117) (h : Range cs a b rest) :
      Reads (u :: 43 :: cs) { ty := .UNICODE_RANGE, int := ((4294967296 * b + a : Nat) : Int) } rest
  | comment {cs body left text rest : List Nat} (h : CComment cs body rest) (hl : TrimmedLeft body left)
      (hp : Preserved left) (ht : Trimmed left text) :
      Reads cs { ty := .COMMENT, text := text, int := 1 } rest
  | lineComment {cs body text rest : List Nat} (h : LineComment cs body rest)
      (hp : Preserved body) (ht : Trimmed body text) :
      Reads cs { ty := .COMMENT, text := text, warn := some .cppComment } rest

/-- A comment that is left out. -/
inductive Dropped : List Nat → List Nat → Prop
  | comment {cs body left rest : List Nat} (h : CComment cs body rest) (hl : TrimmedLeft body left)
      (hp : ¬ Preserved left) : Dropped cs rest
  | lineComment {cs body rest : List Nat} (h : LineComment cs body rest) (hp : ¬ Preserved body) :
      Dropped cs rest

/-- Any number of them. -/
inductive Skips : List Nat → List Nat → Prop
  | refl (cs : List Nat) : Skips cs cs
  | step {a b c : List Nat} : Dropped a b → Skips b c → Skips a c

/-- The tokens of a whole text. -/
inductive Tokens : List Nat → List Lexeme → Prop
  | eof : Tokens [] []
  | skip {a b : List Nat} {ls : List Lexeme} : Dropped a b → Tokens b ls → Tokens a ls
  | token {a b : List Nat} {l : Lexeme} {ls : List Lexeme} :
      Reads a l b → l.ty ≠ .EOF_TOKEN → Tokens b ls → Tokens a (l :: ls)

/-- The tokens ts have the values of the lexemes ls. -/
inductive HoldAll : List Lex.Tok → List Lexeme → Prop
  | nil : HoldAll [] []
  | cons {t : Lex.Tok} {l : Lexeme} {ts : List Lex.Tok} {ls : List Lexeme} :
      Holds t l → HoldAll ts ls → HoldAll (t :: ts) (l :: ls)

end Csspp.Spec
