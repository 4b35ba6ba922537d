import Verif.Model.Utf8
import Verif.Model.NodeType
import Verif.Model.Flt

/-!
Model of csspp/lexer.cpp and the predicates of csspp/lexer.h.

* A `wide_char_t` is a `Nat`; EOF (-1) is its unsigned 32 bit image `eof`. The only characters
  over 0x7FFFFFFF are `eof`, so the signed comparison `c >= 0x80` is `0x80 ≤ c ∧ c ≠ eof`.
* The input stream is the list of the bytes not read yet (0..255). Reading past the end gives EOF,
  for ever (the failbit stays set, so does the unget() at lexer.cpp:688 after a final CR).
* An exception is a sticky flag: once it is set the outcome of the call is that exception. The
  effects of the code run after the flag was set have no meaning and no theorem uses them.
* Loops take a fuel computed from the number of characters left (`LS.fuel`), running out of fuel
  raises the flag `hang`; Props/Lexer.lean proves that it is never raised.
* `std::tolower` is the "C" locale one: it only changes A-Z.
* A decimal number is kept as the digits read (`Num`); its value, computed at lexer.cpp:1160-1166
  with doubles, is not modelled.
-/

namespace Csspp.Lex
open Csspp.Utf8

/-- EOF (-1) as an unsigned 32 bit value. -/
abbrev eof : Nat := 4294967295

/-- position.h:33-54. -/
structure Pos where
  page : Nat
  line : Nat
  total : Nat
  deriving DecidableEq, Repr

/-- position.cpp:30-34. -/
def Pos.nextLine (p : Pos) : Pos := ⟨p.page, p.line + 1, p.total + 1⟩
/-- position.cpp:36-40. -/
def Pos.nextPage (p : Pos) : Pos := ⟨p.page + 1, 1, p.total⟩

/-- The messages of lexer.cpp, in order of appearance. -/
inductive Rpt where
  | doubleEqual                 -- 78, a warning
  | cppComment                  -- 379, a warning
  | invalidChar (c : Nat)       -- 483
  | mb (e : MbErr)              -- 500-542
  | wc (e : WcErr)              -- 576-606
  | tooManyFollow               -- 650
  | unexpectedByte              -- 673
  | escNewline | escInvalid | escEof | escTooLarge | escZero   -- 769-808
  | emptyIdentifier             -- 862, 897
  | urlForbidden | urlSpaces    -- 937, 962
  | intTooLarge | fracTooLarge | noFraction | expTooLarge       -- 1022-1112
  | loneHash                    -- 1203
  | stringEof | stringNewline | stringInvalid                  -- 1222-1250
  | unclosedComment             -- 1288
  | rangeTooLarge | rangeOrder  -- 1421-1466
  deriving DecidableEq, Repr

/-- Everything but the two warnings is an error. -/
def Rpt.isError : Rpt → Bool
  | .doubleEqual => false
  | .cppComment => false
  | _ => true

/-- lexer.cpp:731, 738, 756, 867, 1107; `hang` is the model's own. -/
inductive Exn where
  | ungetRange | ungetFull | badHex | badStart | badExponent | hang
  deriving DecidableEq, Repr

/-- The lexer object (lexer.h:128-132), the messages reported (most recent first), the exception
raised and whether a signed overflow (undefined behaviour) happened. `un` is f_ungetc, last pushed
first. -/
structure LS where
  inp : Str
  un : List Nat
  pos : Pos
  start : Pos
  err : List Rpt
  exn : Option Exn
  ub : Bool
  deriving DecidableEq, Repr

/-- The characters left: in the push-back buffer and (at most) in the stream. -/
def LS.rem (s : LS) : Nat := s.un.length + s.inp.length
/-- Enough iterations for any loop that reads at least one character each time. -/
def LS.fuel (s : LS) : Nat := s.rem + 1

def LS.report (s : LS) (r : Rpt) : LS := { s with err := r :: s.err }
def LS.throw (s : LS) (e : Exn) : LS := { s with exn := some (s.exn.getD e) }
def LS.undef (s : LS) : LS := { s with ub := true }

/-- A report that may not happen. -/
def LS.reportIf (s : LS) (b : Bool) (r : Rpt) : LS := match b with | true => s.report r | false => s

/-! ### lexer.h:42-117 -/

def isSpace (c : Nat) : Bool := c == 32 || c == 9 || c == 10
def isNonPrintable (c : Nat) : Bool :=
  c == 0 || c == 8 || c == 0x0B || (0x0E ≤ c && c ≤ 0x1F) || c == 0x7F || c == 0xFFFD
def isDigit (c : Nat) : Bool := 48 ≤ c && c ≤ 57
def isAlpha (c : Nat) : Bool := (65 ≤ c && c ≤ 90) || (97 ≤ c && c ≤ 122)
def isVariable (c : Nat) : Bool := isDigit c || isAlpha c || c == 45 || c == 95
def isIdentifier (c : Nat) : Bool := isVariable c || (0x80 ≤ c && c != eof)
def isStartIdentifier (c : Nat) : Bool :=
  isAlpha c || (0x80 ≤ c && c != eof && c != 0xFFFD) || c == 95
def isHex (c : Nat) : Bool := isDigit c || (65 ≤ c && c ≤ 70) || (97 ≤ c && c ≤ 102)
def isHashCharacter (c : Nat) : Bool := isVariable c || (0x80 ≤ c && c != eof && c != 0xFFFD)

/-- `std::tolower`, "C" locale. -/
def toLower (c : Nat) : Nat := if 65 ≤ c ∧ c ≤ 90 then c + 32 else c

/-- lexer.cpp:742-757 on a hexadecimal digit. -/
def hexVal (c : Nat) : Nat :=
  if c ≤ 57 then c - 48 else if c ≤ 70 then c - 55 else c - 87

/-! ### Reading characters -/

def isFollow (b : Nat) : Bool := 0x80 ≤ b && b ≤ 0xBF

/-- lexer.cpp:682-705: a character just read from the stream. -/
def endOfLine (c : Nat) (s : LS) : Nat × LS :=
  if c = 13 then
    match s.inp with
    | 10 :: rest => (10, { s with pos := s.pos.nextLine, inp := rest })
    | _ => (10, { s with pos := s.pos.nextLine })
  else if c = 10 then (10, { s with pos := s.pos.nextLine })
  else if c = 12 then (10, { s with pos := s.pos.nextPage })
  else if c = 0 then (0xFFFD, s)
  else (c, s)

/-- A report when decoding failed. -/
def LS.reportMb (s : LS) : Option MbErr → LS
  | none => s
  | some e => s.report (.mb e)

/-- lexer.cpp:630-679: the byte b was read from the stream; the follow bytes are read with it. -/
def getHigh (b : Nat) (s : LS) : Nat × LS :=
  let fs := s.inp.takeWhile isFollow
  let s1 := { s with inp := s.inp.dropWhile isFollow }
  if 0xC0 ≤ b ∧ b < 0xFF then
    if fs.length ≥ 7 then (0xFFFD, s1.report .tooManyFollow)
    else
      let r := mbtowc (b :: fs)
      endOfLine r.1 (s1.reportMb r.2)
  else (0xFFFD, s1.report .unexpectedByte)

/-- lexer.cpp:613-714. -/
def getc (s : LS) : Nat × LS :=
  match s.un with
  | c :: un => (if c = 0 then 0xFFFD else c, { s with un := un })
  | [] =>
    match s.inp with
    | [] => (eof, s)
    | b :: rest =>
      let s1 := { s with inp := rest }
      if b ≥ 0x80 then getHigh b s1 else endOfLine b s1

/-- lexer.cpp:716-740. -/
def ungetc (c : Nat) (s : LS) : LS :=
  if c = eof ∨ c = 0xFFFD then s
  else if c > 0x10FFFF then s.throw .ungetRange
  else if s.un.length ≥ 16 then s.throw .ungetFull
  else { s with un := c :: s.un }

/-- A report when encoding failed. -/
def LS.reportWc (s : LS) : Option WcErr → LS
  | none => s
  | some e => s.report (.wc e)

/-- `str += wctomb(c)` (lexer.cpp:549-611). -/
def put (c : Nat) (str : Str) (s : LS) : Str × LS :=
  (str ++ (wctomb c).1, s.reportWc (wctomb c).2)

/-! ### lexer.cpp:759-817 escape() -/

/-- lexer.cpp:785-804: `k` more hexadecimal digits at most; `none` when the value is too large. -/
def escLoop : Nat → Nat → LS → Option Nat × LS
  | 0, wc, s => (some wc, s)
  | k + 1, wc, s =>
    match getc s with
    | (c, s1) =>
      if isHex c then
        let wc := 16 * wc + hexVal c
        if wc ≥ 0x110000 then (none, s1.report .escTooLarge) else escLoop k wc s1
      else (some wc, if isSpace c then s1 else ungetc c s1)

/-- lexer.cpp:805-809. -/
def escEnd : Option Nat × LS → Nat × LS
  | (none, s) => (0xFFFD, s)
  | (some wc, s) => if wc = 0 then (0xFFFD, s.report .escZero) else (wc, s)

/-- lexer.cpp:759-817. -/
def escape (s : LS) : Nat × LS :=
  match getc s with
  | (c, s) =>
    if c = 10 then (0xFFFD, s.report .escNewline)
    else if c = 0xFFFD then (0xFFFD, s.report .escInvalid)
    else if c = eof then (0xFFFD, s.report .escEof)
    else if isHex c then escEnd (escLoop 5 (hexVal c) s)
    else (c, s)

/-! ### Tokens -/

/-- The digits of a decimal number or percentage: the integral part (wrapped to 64 bits), the
digits of the fraction and the exponent. -/
structure Num where
  neg : Bool
  int : Int
  frac : List Nat
  exp : Int
  deriving DecidableEq, Repr

/-- node.cpp:395-487: the floating point numbers of a node made by the compiler: its decimal number or its font size, its line
height, and its color. The color and the line height are kept by the C++ in the bits of `f_integer` and `f_decimal_number`;
here they are fields of their own. -/
structure Made where
  dec : Flt.Fp := .fin false 0
  height : Flt.Fp := .fin false 0
  red : Flt.Fp := .fin false 0
  green : Flt.Fp := .fin false 0
  blue : Flt.Fp := .fin false 0
  alpha : Flt.Fp := .fin false 0
  deriving DecidableEq, Repr

/-- The fields of a new node set by the lexer. The decimal number of a node of the lexer is kept as the digits it was written
with (`num`); a node made by the compiler has its numbers in `made`, which the lexer never sets. -/
structure Tok where
  ty : NT
  pos : Pos
  str : Str := []
  lower : Str := []
  int : Int := 0
  num : Option Num := none
  bool : Bool := false
  made : Option Made := none
  deriving DecidableEq, Repr

/-- A token without value: `node(type, f_start_position)`. -/
def LS.tok (s : LS) (ty : NT) : Tok := { ty := ty, pos := s.start }

/-! ### lexer.cpp:1212-1262 string() -/

/-- lexer.cpp:1237-1259, after the backslash: the character to add, `eof` or 0xFFFD for none. -/
def strEscape (s : LS) : Nat × LS :=
  match getc s with
  | (n, s) =>
    if n = 10 then (10, s)
    else if n = eof then (eof, s)
    else if n = 0xFFFD then (eof, s.report .stringInvalid)
    else escape (ungetc n s)

/-- lexer.cpp:1261-1265: add the character unless it is EOF or invalid. -/
def strPut (c : Nat) (str : Str) (s : LS) : Str × LS :=
  if c = eof ∨ c = 0xFFFD then (str, s) else put c str s

/-- lexer.cpp:1212-1267. -/
def lexString (quote : Nat) : Nat → Str → LS → Str × LS
  | 0, str, s => (str, s.throw .hang)
  | f + 1, str, s =>
    match getc s with
    | (c, s) =>
      if c = eof then (str, s.report .stringEof)
      else if c = 10 then (str, (ungetc c s).report .stringNewline)
      else if c = quote then (str, s)
      else if c = 92 then
        match strEscape s with
        | (c, s) =>
          match strPut c str s with
          | (str, s) => lexString quote f str s
      else
        match strPut c str s with
        | (str, s) => lexString quote f str s

/-! ### lexer.cpp:819-981 identifier() -/

/-- lexer.cpp:871-890: the characters after the first one; also gives the character that ended
the identifier. -/
def idLoop : Nat → Str → Str → LS → Str × Str × Nat × LS
  | 0, id, lo, s => (id, lo, eof, s.throw .hang)
  | f + 1, id, lo, s =>
    match getc s with
    | (c, s) =>
      if c = 92 then
        match escape s with
        | (c, s) =>
          if c = 0xFFFD then (id, lo, c, s)
          else
            match put c id s with
            | (id, s) =>
              match put (toLower c) lo s with
              | (lo, s) => idLoop f id lo s
      else if isIdentifier c then
        match put c id s with
        | (id, s) =>
          match put (toLower c) lo s with
          | (lo, s) => idLoop f id lo s
      else (id, lo, c, s)

/-- lexer.cpp:913-918: skip the spaces after `url(`; gives the first other character. -/
def skipSpaces : Nat → LS → Nat × LS
  | 0, s => (eof, s.throw .hang)
  | f + 1, s =>
    match getc s with
    | (c, s) => if isSpace c then skipSpaces f s else (c, s)

/-- lexer.cpp:930-949: the rest of an unquoted URL; gives the character that ended it. -/
def urlLoop : Nat → Str → LS → Str × Nat × LS
  | 0, url, s => (url, 41, s.throw .hang)
  | f + 1, url, s =>
    match getc s with
    | (c, s) =>
      if c = 41 ∨ isSpace c then (url, c, s)
      else if c = eof ∨ c = 34 ∨ c = 39 ∨ c = 40 ∨ isNonPrintable c then
        (url, 41, s.report .urlForbidden)
      else
        match put c url s with
        | (url, s) => urlLoop f url s

/-- lexer.cpp:952-972: skip the spaces up to the `)`. -/
def urlClose : Nat → LS → LS
  | 0, s => s.throw .hang
  | f + 1, s =>
    match getc s with
    | (c, s) =>
      if c = 41 then s
      else if isSpace c then urlClose f s
      else s.report .urlSpaces

/-- lexer.cpp:919-950. -/
def urlText (c : Nat) (s : LS) : Str × Nat × LS :=
  if c = 34 ∨ c = 39 then
    match lexString c s.fuel [] s with
    | (str, s) => (str, c, s)
  else
    match put c [] s with
    | (url, s) => urlLoop s.fuel url s

/-- lexer.cpp:907-978. -/
def lexUrl (s : LS) : Tok × LS :=
  match skipSpaces s.fuel s with
  | (c, s) =>
    match urlText c s with
    | (url, c, s) =>
      let s := if c = 41 then s else urlClose s.fuel s
      ({ s.tok .URL with str := url }, s)

/-- lexer.cpp:841-868: the first character; `none` when the identifier is empty (already
reported). -/
def idFirst (ty : NT) (id : Str) (c : Nat) (s : LS) : Option (Str × Str) × LS :=
  if c = 92 then
    match escape s with
    | (c, s) =>
      if c = 0xFFFD then (some (id, id), s)
      else
        match put c id s with
        | (i, s) =>
          match put (toLower c) id s with
          | (lo, s) => (some (i, lo), s)
  else if isStartIdentifier c then
    match put c id s with
    | (i, s) =>
      match put (toLower c) id s with
      | (lo, s) => (some (i, lo), s)
  else if ty = .AT_KEYWORD then (none, (ungetc c s).report .emptyIdentifier)
  else (none, s.throw .badStart)

/-- lexer.cpp:892-981: after the characters. -/
def idEnd (ty : NT) : Str × Str × Nat × LS → Tok × LS
  | (id, lo, c, s) =>
    if id = [] then (s.tok .EOF_TOKEN, (ungetc c s).report .emptyIdentifier)
    else if c = 40 ∧ ty ≠ .AT_KEYWORD then
      if lo = b!"url" then lexUrl s
      else ({ s.tok .FUNCTION with str := lo }, s)
    else ({ s.tok ty with str := id, lower := lo }, ungetc c s)

/-- lexer.cpp:835-890. -/
def idDash (ty : NT) (c : Nat) (s : LS) : Option (Str × Str) × LS :=
  if c = 45 then
    match getc s with
    | (c, s) => idFirst ty [45] c s
  else idFirst ty [] c s

/-- lexer.cpp:870-981. -/
def idRest (ty : NT) : Option (Str × Str) × LS → Tok × LS
  | (none, s) => (s.tok .EOF_TOKEN, s)
  | (some (id, lo), s) => idEnd ty (idLoop s.fuel id lo s)

/-- lexer.cpp:819-981. -/
def identifier (c : Nat) (s : LS) : Tok × LS :=
  if c = 37 then
    match getc s with
    | (c, s) => idRest .PLACEHOLDER (idDash .PLACEHOLDER c s)
  else if c = 64 then
    match getc s with
    | (c, s) => idRest .AT_KEYWORD (idDash .AT_KEYWORD c s)
  else idRest .IDENTIFIER (idDash .IDENTIFIER c s)

/-! ### lexer.cpp:983-1182 number() -/

/-- lexer.cpp:1014: `static_cast<uint64_t>(integer) * 10 + c - '0'`. -/
@[irreducible] def nextInt (integer : Int) (c : Nat) : Nat :=
  (10 * toU64 integer + (c - 48)) % 18446744073709551616

/-- lexer.cpp:1015: `ni >= 0x8000000000000000LL`. -/
@[irreducible] def intTooLarge (ni : Nat) : Bool := 9223372036854775808 ≤ ni

/-- lexer.cpp:1007-1022: the digits after the first one; gives the next character too. -/
def intLoop : Nat → Int → LS → Int × Nat × LS
  | 0, i, s => (i, eof, s.throw .hang)
  | f + 1, i, s =>
    match getc s with
    | (c, s) =>
      if isDigit c then
        intLoop f (wrap64 (nextInt i c)) (s.reportIf (intTooLarge (nextInt i c)) .intTooLarge)
      else (i, c, s)

/-- lexer.cpp:1003-1023. -/
def intPart (c : Nat) (s : LS) : Int × Nat × LS :=
  if isDigit c then intLoop s.fuel ((c - 48 : Nat) : Int) s else (0, c, s)

/-- lexer.cpp:1031-1045: the digits of the fraction (in reverse order). The error at line 1042
happens for the 21st digit: 10^21 is exact as a double. -/
def fracLoop : Nat → List Nat → LS → List Nat × Nat × LS
  | 0, ds, s => (ds, eof, s.throw .hang)
  | f + 1, ds, s =>
    match getc s with
    | (c, s) =>
      if isDigit c then fracLoop f (c :: ds) (s.reportIf (ds.length + 1 == 21) .fracTooLarge)
      else (ds, c, s)

/-- lexer.cpp:1025-1059: the digits of the fraction, whether the number is a decimal one. -/
def fracPart (c : Nat) (s : LS) : List Nat × Bool × Nat × LS :=
  if c = 46 then
    match fracLoop s.fuel [] s with
    | (ds, c, s) => (ds.reverse, true, c, s.reportIf ds.isEmpty .noFraction)
  else ([], false, c, s)

/-- lexer.cpp:1110, `exponent * 10 + c - '0'`. -/
@[irreducible] def nextExp (e : Int) (c : Nat) : Int := 10 * e + ((c : Int) - 48)

/-- Whether a signed computation overflows. -/
@[irreducible] def overflows (x : Int) : Bool := !decide (IsI64 x)

def LS.undefIf (s : LS) : Bool → LS
  | true => s.undef
  | false => s

/-- lexer.cpp:1108-1115: the digits of the exponent, the first one being c. -/
def expLoop : Nat → Int → Nat → LS → Int × Nat × LS
  | 0, e, _, s => (e, eof, s.throw .hang)
  | f + 1, e, c, s =>
    if isDigit c then
      let e1 := wrap64 (nextExp e c)
      let s1 := s.undefIf (overflows (nextExp e c))
      match getc (s1.reportIf (decide (1024 ≤ e1)) .expTooLarge) with
      | (c, s) => expLoop f e1 c s
    else (e, c, s)

/-- lexer.cpp:1103-1116: the exponent digits then the sign. -/
def expDigits (neg : Bool) (c : Nat) (s : LS) : Int × Nat × LS :=
  let s1 := if isDigit c then s else s.throw .badExponent
  match expLoop (s1.fuel + 1) 0 c s1 with
  | (e, c, s) =>
    match neg with
    | true => (wrap64 (-e), c, s.undefIf (overflows (-e)))
    | false => (e, c, s)

/-- lexer.cpp:1090-1117, c is the next character. -/
def expSign (c : Nat) (s : LS) : Int × Nat × LS :=
  if c = 45 then
    match getc s with
    | (c, s) => expDigits true c s
  else if c = 43 then
    match getc s with
    | (c, s) => expDigits false c s
  else expDigits false c s

/-- lexer.cpp:1067-1083: is it an exponent? The characters read are pushed back. -/
def isExponent (s : LS) : Bool × LS :=
  match getc s with
  | (c, s) =>
    if c = 45 ∨ c = 43 then
      match getc s with
      | (d, s) => (isDigit d, ungetc c (ungetc d s))
    else (isDigit c, ungetc c s)

/-- lexer.cpp:1061-1117. -/
def expPart (c : Nat) (s : LS) : Int × Nat × LS :=
  if c = 101 ∨ c = 69 then
    match isExponent s with
    | (true, s) =>
      match getc s with
      | (c, s) => expSign c s
    | (false, s) => (0, c, s)
  else (0, c, s)

/-- lexer.cpp:1128-1149: the dimension; its last character was pushed back. Gives 0xFFFD or 0. -/
def dimLoop : Nat → Str → Nat → LS → Str × Nat × LS
  | 0, dim, _, s => (dim, 0, s.throw .hang)
  | f + 1, dim, c, s =>
    if c = 92 then
      match escape s with
      | (c, s) =>
        if c = 0xFFFD then (dim, c, s)
        else
          match put (toLower c) dim s with
          | (dim, s) =>
            match getc s with
            | (c, s) => dimLoop f dim c s
    else if isIdentifier c then
      match put (toLower c) dim s with
      | (dim, s) =>
        match getc s with
        | (c, s) => dimLoop f dim c s
    else (dim, 0, ungetc c s)

/-- lexer.cpp:1150-1155: a lone dash is not a dimension. -/
def dimDash : Str × Nat × LS → Str × Nat × LS
  | (dim, c, s) => if dim = [45] then ([], c, ungetc 45 s) else (dim, c, s)

/-- lexer.cpp:1119-1170: the dimension, whether this is a percentage. -/
def dimPart (c : Nat) (s : LS) : Str × Bool × LS :=
  if isIdentifier c ∨ c = 92 then
    match dimDash (dimLoop (s.fuel + 1) [] c s) with
    | (dim, _, s) => (dim, false, s)
  else if c = 37 then ([], true, s)
  else ([], false, ungetc c s)

/-- lexer.cpp:1176-1211: build the node. -/
def numNode (hasSign neg : Bool) (i : Int) (frac : List Nat) (isDec : Bool) (e : Int) (dim : Str)
    (pc : Bool) (s : LS) : Tok × LS :=
  if e ≠ 0 ∨ isDec ∨ pc then
    match pc with
    | true => ({ s.tok .PERCENT with num := some ⟨neg, i, frac, e⟩, bool := hasSign }, s)
    | false =>
      ({ s.tok .DECIMAL_NUMBER with num := some ⟨neg, i, frac, e⟩, str := dim, bool := hasSign }, s)
  else
    match neg with
    | true =>
      ({ s.tok .INTEGER with int := wrap64 (-i), str := dim, bool := hasSign },
        s.undefIf (overflows (-i)))
    | false => ({ s.tok .INTEGER with int := i, str := dim, bool := hasSign }, s)

/-- lexer.cpp:998-1211, c is the first character after the sign. -/
def numBody (hasSign neg : Bool) (c : Nat) (s : LS) : Tok × LS :=
  match intPart c s with
  | (i, c, s) =>
    match fracPart c s with
    | (frac, isDec, c, s) =>
      match expPart c s with
      | (e, c, s) =>
        match dimPart c s with
        | (dim, pc, s) => numNode hasSign neg i frac isDec e dim pc s

/-- lexer.cpp:983-1211. -/
def number (c : Nat) (s : LS) : Tok × LS :=
  if c = 45 ∨ c = 43 then
    match getc s with
    | (d, s) => numBody true (c == 45) d s
  else numBody false false c s

/-! ### lexer.cpp:1184-1210 hash(), 1268-1380 comment(), 1382-1484, 1486-1533 -/

/-- lexer.cpp:1187-1205. -/
def hashLoop : Nat → Str → LS → Str × LS
  | 0, str, s => (str, s.throw .hang)
  | f + 1, str, s =>
    match getc s with
    | (c, s) =>
      if c = 92 then
        match escape s with
        | (c, s) =>
          if c = 0xFFFD then (str, s)
          else
            match put c str s with
            | (str, s) => hashLoop f str s
      else if isHashCharacter c then
        match put c str s with
        | (str, s) => hashLoop f str s
      else (str, ungetc c s)

/-- lexer.cpp:1207-1218. -/
def hashEnd : Str × LS → Option Tok × LS
  | (str, s) =>
    if str = [] then (none, s.report .loneHash) else (some { s.tok .HASH with str := str }, s)

/-- lexer.cpp:1184-1218. -/
def hash (s : LS) : Option Tok × LS := hashEnd (hashLoop s.fuel [] s)

/-- lexer.cpp:1275-1283 and 1312-1320: skip the leading spaces (not the newlines for `//`). -/
def skipLead (p : Nat → Bool) : Nat → LS → LS
  | 0, s => s.throw .hang
  | f + 1, s =>
    match getc s with
    | (c, s) => if p c then skipLead p f s else ungetc c s

/-- lexer.cpp:1285-1308. -/
def cLoop : Nat → Str → LS → Str × LS
  | 0, str, s => (str, s.throw .hang)
  | f + 1, str, s =>
    match getc s with
    | (c, s) =>
      if c = eof then (str, s.report .unclosedComment)
      else if c = 42 then
        match getc s with
        | (d, s) =>
          if d = 47 then (str, s)
          else
            match put 42 str (ungetc d s) with
            | (str, s) => cLoop f str s
      else
        match put c str s with
        | (str, s) => cLoop f str s

/-- lexer.cpp:1344-1353: remove the first space of a comment line. -/
def skipOne (s : LS) : LS :=
  match getc s with
  | (c, s) => if c = 32 ∨ c = 9 then s else ungetc c s

/-- lexer.cpp:1325-1368. -/
def lineLoop : Nat → Str → LS → Str × LS
  | 0, str, s => (str, s.throw .hang)
  | f + 1, str, s =>
    match getc s with
    | (c, s) =>
      if c = eof then (str, s)
      else if c = 10 then
        match getc s with
        | (c, s) =>
          if c = 47 then
            match getc s with
            | (c, s) =>
              if c = 47 then lineLoop f (str ++ [10]) (skipOne s)
              else (str, ungetc 10 (ungetc 47 (ungetc c s)))
          else (str, ungetc 10 (ungetc c s))
      else
        match put c str s with
        | (str, s) => lineLoop f str s

/-- `std::string::find() != npos`. -/
def contains (pat : Str) : Str → Bool
  | [] => pat.isEmpty
  | c :: s => pat.isPrefixOf (c :: s) || contains pat s

/-- lexer.cpp:1376-1379 (`str.back()` is a signed char: never a space over 0x7F). -/
def trimRight (s : Str) : Str := (s.reverse.dropWhile isSpace).reverse

/-- lexer.cpp:1370-1390. -/
def commentEnd (c : Bool) : Str × LS → Option Tok × LS
  | (str, s) =>
    if contains b!"@preserve" str then
      (some { s.tok .COMMENT with str := trimRight str, int := if c then 1 else 0 }, s)
    else (none, s)

/-- lexer.cpp:1268-1390, `/*`. -/
def cComment (s : LS) : Option Tok × LS :=
  let s := skipLead isSpace s.fuel s
  commentEnd true (cLoop s.fuel [] s)

/-- lexer.cpp:1268-1390, `//`. -/
def lineComment (s : LS) : Option Tok × LS :=
  let s := skipLead (fun c => c == 32 || c == 9) s.fuel s
  commentEnd false (lineLoop s.fuel [] s)

/-- lexer.cpp:1402-1420: at most `k` more digits or `?`; d is the next character. Gives start, end,
has_mask and the character that ended the loop. -/
def rangeLoop : Nat → Nat → Nat → Bool → Nat → LS → Nat × Nat × Bool × Nat × LS
  | 0, st, en, m, d, s => (st, en, m, d, s)
  | k + 1, st, en, m, d, s =>
    if d = 63 then
      match getc s with
      | (d', s) => rangeLoop k (16 * st) (16 * (if m then en else st) + 15) true d' s
    else if isHex d ∧ m = false then
      match getc s with
      | (d', s) => rangeLoop k (16 * st + hexVal d) en m d' s
    else (st, en, m, d, s)

/-- lexer.cpp:1449-1453. -/
def rangeEnd : Nat → Nat → Nat → LS → Nat × Nat × LS
  | 0, en, d, s => (en, d, s)
  | k + 1, en, d, s =>
    if isHex d then
      match getc s with
      | (d', s) => rangeEnd k (16 * en + hexVal d) d' s
    else (en, d, s)

/-- lexer.cpp:1471-1484: 4294967296 * end + start is the packed range (unicode_range.cpp:93-96). -/
def rangeTok (st en d : Nat) (s : LS) : Tok × LS :=
  if st > en then (s.tok .UNICODE_RANGE, s.report .rangeOrder)
  else
    let s := ungetc d s
    ({ s.tok .UNICODE_RANGE with int := ((4294967296 * en + st : Nat) : Int) }, s)

/-- lexer.cpp:1462-1484. -/
def rangePlain (st en d : Nat) (s : LS) : Tok × LS :=
  if st ≥ 0x110000 ∨ en ≥ 0x110000 then (s.tok .UNICODE_RANGE, s.report .rangeTooLarge)
  else rangeTok st en d s

/-- lexer.cpp:1422-1484. -/
def rangeRest : Nat × Nat × Bool × Nat × LS → Tok × LS
  | (st, en, true, d, s) =>
    let en := if en > 0x1FFFFF then 0x1FFFFF else en
    if st ≥ 0x110000 then rangeTok 0 en d (s.report .rangeTooLarge) else rangeTok st en d s
  | (st, en, false, d, s) =>
    if d = 45 then
      match getc s with
      | (d, s) =>
        match rangeEnd 6 en d s with
        | (en, d, s) => rangePlain st en d s
    else rangePlain st st d s

/-- lexer.cpp:1392-1484. -/
def unicodeRange (d : Nat) (s : LS) : Tok × LS := rangeRest (rangeLoop 6 0 0 false d s)

/-- lexer.cpp:1490-1508. -/
def varLoop : Nat → Str → Nat → LS → Str × Nat × LS
  | 0, var, _, s => (var, eof, s.throw .hang)
  | f + 1, var, c, s =>
    match put (toLower (if c = 45 then 95 else c)) var s with
    | (var, s) =>
      match getc s with
      | (c, s) => if isVariable c then varLoop f var c s else (var, c, s)

/-- lexer.cpp:1510-1531. -/
def varEnd : Str × Nat × LS → Tok × LS
  | (var, c, s) =>
    if c = 40 then ({ s.tok .VARIABLE_FUNCTION with str := var }, s)
    else ({ s.tok .VARIABLE with str := var }, ungetc c s)

/-- lexer.cpp:1486-1533. -/
def variable' (c : Nat) (s : LS) : Tok × LS := varEnd (varLoop (s.fuel + 1) [] c s)

/-! ### lexer.cpp:59-485 next_token() -/

/-- lexer.cpp:87-142: the tokens of one character. -/
def simple (c : Nat) : Option NT :=
  if c = 44 then some .COMMA else if c = 59 then some .SEMICOLON
  else if c = 63 then some .CONDITIONAL
  else if c = 40 then some .OPEN_PARENTHESIS else if c = 41 then some .CLOSE_PARENTHESIS
  else if c = 91 then some .OPEN_SQUAREBRACKET else if c = 93 then some .CLOSE_SQUAREBRACKET
  else if c = 123 then some .OPEN_CURLYBRACKET else if c = 125 then some .CLOSE_CURLYBRACKET
  else none

/-- lexer.cpp:90-360, the operators that depend on one more character: `op c n` is the token of c
followed by n, `none` when n is not part of it. (Also `==`, `^=`, `~=`, `$=`.) -/
def op2 (c n : Nat) : Option NT :=
  if c = 61 ∧ n = 61 then some .EQUAL
  else if c = 58 ∧ n = 61 then some .ASSIGNMENT
  else if c = 33 ∧ n = 61 then some .NOT_EQUAL
  else if c = 62 ∧ n = 61 then some .GREATER_EQUAL
  else if c = 38 ∧ n = 38 then some .AND
  else if c = 94 ∧ n = 61 then some .PREFIX_MATCH
  else if c = 126 ∧ n = 61 then some .INCLUDE_MATCH
  else if c = 42 ∧ n = 61 then some .SUBSTRING_MATCH
  else if c = 42 ∧ n = 42 then some .POWER
  else if c = 124 ∧ n = 124 then some .COLUMN
  else if c = 124 ∧ n = 61 then some .DASH_MATCH
  else none

/-- The token of the same characters alone. `^` is not one: `some none`. -/
def op1 (c : Nat) : Option (Option NT) :=
  if c = 61 then some (some .EQUAL) else if c = 58 then some (some .COLON)
  else if c = 33 then some (some .EXCLAMATION) else if c = 62 then some (some .GREATER_THAN)
  else if c = 38 then some (some .REFERENCE) else if c = 94 then some none
  else if c = 126 then some (some .PRECEDED) else if c = 42 then some (some .MULTIPLY)
  else if c = 124 then some (some .SCOPE)
  else none

/-- lexer.cpp:483: the end of the loop body. -/
def invalid (c : Nat) (s : LS) : Option Tok × LS := (none, s.report (.invalidChar c))

/-- A token found. -/
def found (r : Tok × LS) : Option Tok × LS := (some r.1, r.2)

/-- lexer.cpp:70-360, the common code of the operators of `op1`. -/
def lexOp (c : Nat) (alone : Option NT) (s : LS) : Option Tok × LS :=
  match getc s with
  | (n, s) =>
    match op2 c n with
    | some ty => (some (s.tok ty), s.reportIf (c == 61) .doubleEqual)
    | none =>
      match alone with
      | some ty => (some (s.tok ty), ungetc n s)
      | none => invalid c (ungetc n s)

/-- lexer.cpp:144-155. -/
def lexPeriod (s : LS) : Option Tok × LS :=
  match getc s with
  | (n, s) =>
    if isDigit n then found (number 46 (ungetc n s)) else (some (s.tok .PERIOD), ungetc n s)

/-- lexer.cpp:170-194. -/
def lexLess (s : LS) : Option Tok × LS :=
  match getc s with
  | (n, s) =>
    if n = 33 then
      match getc s with
      | (p, s) =>
        if p = 45 then
          match getc s with
          | (l, s) =>
            if l = 45 then (some (s.tok .CDO), s)
            else (some (s.tok .LESS_THAN), ungetc n (ungetc p (ungetc l s)))
        else (some (s.tok .LESS_THAN), ungetc n (ungetc p s))
    else if n = 61 then (some (s.tok .LESS_EQUAL), s)
    else (some (s.tok .LESS_THAN), ungetc n s)

/-- lexer.cpp:219-222 and 247-264: `+` or `-` followed by n, not a number. -/
def lexSign (c n : Nat) (s : LS) : Option Tok × LS :=
  if c = 43 then (some (s.tok .ADD), ungetc n s)
  else if n = 45 then
    match getc s with
    | (p, s) =>
      if p = 62 then (some (s.tok .CDC), s)
      else (some (s.tok .SUBTRACT), ungetc n (ungetc p s))
  else if (isIdentifier n ∨ n = 92) ∧ ¬ isDigit n then found (identifier c (ungetc n s))
  else (some (s.tok .SUBTRACT), ungetc n s)

/-- lexer.cpp:196-264: `+` and `-`. -/
def lexPlusMinus (c : Nat) (s : LS) : Option Tok × LS :=
  match getc s with
  | (n, s) =>
    if isDigit n then found (number c (ungetc n s))
    else if n = 46 then
      match getc s with
      | (p, s) =>
        if isDigit p then found (number c (ungetc n (ungetc p s)))
        else lexSign c n (ungetc p s)
    else lexSign c n s

/-- lexer.cpp:279-292. -/
def lexDollar (s : LS) : Option Tok × LS :=
  match getc s with
  | (n, s) =>
    if n = 61 then (some (s.tok .SUFFIX_MATCH), s)
    else if isVariable n then found (variable' n s)
    else (some (s.tok .DOLLAR), ungetc n s)

/-- lexer.cpp:371-386: a preserved C++ comment is warned about. -/
def warnCpp : Option Tok × LS → Option Tok × LS
  | (none, s) => (none, s)
  | (some t, s) => (some t, s.report .cppComment)

/-- lexer.cpp:353-392. -/
def lexSlash (s : LS) : Option Tok × LS :=
  match getc s with
  | (n, s) =>
    if n = 42 then cComment s
    else if n = 47 then warnCpp (lineComment s)
    else (some (s.tok .DIVIDE), ungetc n s)

/-- lexer.cpp:394-416. -/
def lexSpaces (s : LS) : Option Tok × LS :=
  let s := skipLead isSpace s.fuel s
  (some (s.tok .WHITESPACE), s)

/-- lexer.cpp:450-464: an empty identifier is dropped. -/
def lexId (c : Nat) (s : LS) : Option Tok × LS :=
  match identifier c s with
  | (t, s) => if t.ty = .EOF_TOKEN then (none, s) else (some t, s)

/-- lexer.cpp:439-464. -/
def lexPercent (s : LS) : Option Tok × LS :=
  match getc s with
  | (n, s) => if isStartIdentifier n then lexId 37 (ungetc n s) else (some (s.tok .MODULO), s)

/-- lexer.cpp:466-485. -/
def lexU (c : Nat) (s : LS) : Option Tok × LS :=
  match getc s with
  | (n, s) =>
    if n = 43 then
      match getc s with
      | (d, s) =>
        if isHex d ∨ d = 63 then found (unicodeRange d s)
        else found (identifier c (ungetc n (ungetc d s)))
    else found (identifier c (ungetc n s))

/-- lexer.cpp:330-338. -/
def lexQuote (c : Nat) (s : LS) : Option Tok × LS :=
  match lexString c s.fuel [] s with
  | (str, s) => (some { s.tok .STRING with str := str }, s)

/-- lexer.cpp:69-481, the characters that start a larger token. -/
def lexOther (c : Nat) (s : LS) : Option Tok × LS :=
  if c = 46 then lexPeriod s
  else if c = 60 then lexLess s
  else if c = 43 ∨ c = 45 then lexPlusMinus c s
  else if c = 36 then lexDollar s
  else if c = 34 ∨ c = 39 then lexQuote c s
  else if c = 47 then lexSlash s
  else if isSpace c ∨ c = 12 then lexSpaces s
  else if isDigit c then found (number c s)
  else if c = 35 then hash s
  else if c = 37 then lexPercent s
  else if c = 92 ∨ c = 64 then lexId c s
  else if c = 117 ∨ c = 85 then lexU c s
  else if isStartIdentifier c then found (identifier c s)
  else invalid c s

/-- lexer.cpp:69-483: one iteration, c being the character read. -/
def lexChar (c : Nat) (s : LS) : Option Tok × LS :=
  if c = eof then (some (s.tok .EOF_TOKEN), s)
  else
    match simple c with
    | some ty => (some (s.tok ty), s)
    | none =>
      match op1 c with
      | some alone => lexOp c alone s
      | none => lexOther c s

/-- lexer.cpp:63-484: one iteration. -/
def lexStep (s : LS) : Option Tok × LS :=
  match getc { s with start := s.pos } with
  | (c, s) => lexChar c s

/-- lexer.cpp:59-485: the loop. -/
def lexLoop : Nat → LS → Tok × LS
  | 0, s => (s.tok .EOF_TOKEN, s.throw .hang)
  | f + 1, s =>
    match lexStep s with
    | (some t, s) => (t, s)
    | (none, s) => lexLoop f s

/-- lexer.cpp:59-485 `next_token`. -/
def nextToken (s : LS) : Tok × LS := lexLoop s.fuel s

/-- lexer.cpp:52-57: a new lexer. -/
def init (inp : Str) : LS :=
  { inp := inp, un := [], pos := ⟨1, 1, 1⟩, start := ⟨1, 1, 1⟩, err := [], exn := none, ub := false }

/-- The tokens of a stream, up to EOF_TOKEN (parser.cpp calls next_token() until then). -/
def lexAll : Nat → LS → List Tok × LS
  | 0, s => ([], s.throw .hang)
  | f + 1, s =>
    match nextToken s with
    | (t, s) =>
      if t.ty = .EOF_TOKEN then ([], s)
      else
        match lexAll f s with
        | (ts, s) => (t :: ts, s)

end Csspp.Lex
