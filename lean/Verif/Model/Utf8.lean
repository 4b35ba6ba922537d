import Verif.Model.Basic

/-!
Model of lexer.cpp:487-613: `mbtowc` and `wctomb`.

A NUL terminated buffer is the list of the bytes before the NUL. Shifts and masks are written with
`*`, `/` and `%` (the bit fields are disjoint). A `wide_char_t` is its unsigned 32 bit image
(`static_cast<wide_uchar_t>`, lexer.cpp:559).
-/

namespace Csspp.Utf8

/-- The errors reported by lexer.cpp:500, 520, 530, 535, 542. -/
inductive MbErr where
  | badByte | badIntro | tooShort | badSeq | tooLong
  deriving DecidableEq, Repr

/-- The errors reported by lexer.cpp:576, 581, 595, 606. -/
inductive WcErr where
  | surrogate | fffe | endsFffe | tooLarge
  deriving DecidableEq, Repr

/-- lexer.cpp:525-546: `cnt` more bytes are expected. -/
def mbLoop : Nat → Nat → Str → Nat × Option MbErr
  | 0, wc, [] => (wc, none)
  | 0, _, _ :: _ => (0xFFFD, some .tooLong)
  | _ + 1, _, [] => (0xFFFD, some .tooShort)
  | cnt + 1, wc, c :: s =>
    if c < 0x80 ∨ c > 0xBF then (0xFFFD, some .badSeq)
    else mbLoop cnt (64 * wc + c % 64) s

/-- lexer.cpp:487-547: decode one character; the error reported, if any. -/
def mbtowc : Str → Nat × Option MbErr
  | [] => (0, none)
  | c :: s =>
    if c < 0x80 then (c, none)
    else if c ≥ 0xF0 then
      if c ≥ 0xF8 then (0xFFFD, some .badByte) else mbLoop 3 (c % 8) s
    else if c ≥ 0xE0 then mbLoop 2 (c % 16) s
    else if c ≥ 0xC0 then mbLoop 1 (c % 32) s
    else (0xFFFD, some .badIntro)

/-- lexer.cpp:549-613: encode one character; the bytes written before the NUL and the error
reported, if any. (The character 0 is written as an empty text: line 562.) -/
def wctomb (wc : Nat) : Str × Option WcErr :=
  if wc < 0x80 then (if wc = 0 then [] else [wc], none)
  else if wc < 0x800 then ([0xC0 + wc / 64, 0x80 + wc % 64], none)
  else if wc < 0x10000 then
    if wc ≥ 0xD800 ∧ wc ≤ 0xDFFF then ([], some .surrogate)
    else if wc = 0xFFFE ∨ wc = 0xFFFF then ([], some .fffe)
    else ([0xE0 + wc / 4096, 0x80 + wc / 64 % 64, 0x80 + wc % 64], none)
  else if wc < 0x110000 then
    if wc % 0x10000 = 0xFFFE ∨ wc % 0x10000 = 0xFFFF then ([], some .endsFffe)
    else ([0xF0 + wc / 262144, 0x80 + wc / 4096 % 64, 0x80 + wc / 64 % 64, 0x80 + wc % 64], none)
  else ([], some .tooLarge)

/-- lexer.cpp:549-556: the caller's buffer, `max` bytes, overwritten from the start by the bytes and
the final NUL; `none` for the exception thrown when it is too small. Every write is at the indexes
0 .. length, in order. -/
def wctombBuf (wc : Nat) (buf : Str) : Option (Str × Option WcErr) :=
  if buf.length < 5 then none
  else
    let r := wctomb wc
    some (r.1 ++ 0 :: buf.drop (r.1.length + 1), r.2)

end Csspp.Utf8
