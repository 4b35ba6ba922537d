import Verif.Model.Lexer

/-!
Model of the functions of csspp/assembler.cpp that write names, strings, URLs and comments.
A `std::string` read with `c_str()` up to the NUL is the list of the bytes before the first 0.
-/

namespace Csspp.Asm
open Csspp.Utf8 Csspp.Lex

/-- `c_str()` loops end at the first NUL. -/
def cstr (s : Str) : Str := s.takeWhile (fun c => c != 0)

/-- assembler.cpp:974-984 and 991-1001: the characters, the quote q being escaped. -/
def quoted (q : Nat) (s : Str) : Str := s.flatMap (fun c => if c = q then [92, c] else [c])

/-- assembler.cpp:952-1004 `output_string`: `"` unless there are more of them than `'`. -/
def outputString (str : Str) : Str :=
  let s := cstr str
  if s.count 39 ≥ s.count 34 then 34 :: (quoted 34 s ++ [34]) else 39 :: (quoted 39 s ++ [39])

/-- assembler.cpp:276-289: the length of a character, from its first byte. -/
def charLen (c : Nat) : Nat := if c ≥ 0xF0 then 4 else if c ≥ 0xE0 then 3 else if c ≥ 0xC0 then 2 else 1

/-- assembler.cpp:320-322: is the next byte a hexadecimal digit? -/
def nextHex : Str → Bool
  | [] => false
  | c :: _ => isHex c

/-- assembler.cpp:302-331: one character `mb`, followed by `next`. -/
def escapeChar (first : Bool) (mb next : Str) : Str :=
  let wc := (mbtowc mb).1
  if (first && isStartIdentifier wc) || (!first && isIdentifier wc) then mb
  else if isDigit wc then 92 :: 51 :: wc :: (if nextHex next then [32] else [])
  else 92 :: mb

/-- assembler.cpp:272-333: `none` is the exception thrown when the last character is cut. The
first argument is a number of characters large enough. -/
def escapeLoop : Nat → Bool → Str → Option Str
  | 0, _, _ => some []
  | _ + 1, _, [] => some []
  | f + 1, first, c :: t =>
    if (c :: t).length < charLen c then none
    else
      match escapeLoop f false ((c :: t).drop (charLen c)) with
      | none => none
      | some r => some (escapeChar first ((c :: t).take (charLen c)) ((c :: t).drop (charLen c)) ++ r)

/-- assembler.cpp:263-336 `escape_id`. -/
def escapeId (id : Str) : Option Str := escapeLoop id.length true (cstr id)

/-- assembler.cpp:1019-1032: can the URL be written without quotes? (`is_non_printable` is given a
signed char: the bytes over 0x7F are not concerned.) -/
def urlDirect (str : Str) : Bool :=
  (cstr str).all (fun c => !(c == 40 || c == 41 || c == 39 || c == 34 || (c < 0x80 && isNonPrintable c)))

/-- assembler.cpp:1006-1045 `output_url` between the parentheses. -/
def urlArg (str : Str) : Str := if urlDirect str then str else outputString str

/-- assembler.cpp:894-950 `output_comment`, a comment with get_integer() != 0. -/
def outputCComment (str : Str) : Str := b!"/* " ++ str ++ b!" */" ++ [10]

end Csspp.Asm
