import Verif.Model.Digits

/-!
Model of csspp/nth_child.cpp (whole file) and nth_child.h.
-/

namespace Csspp.Nth

/-- The error messages of nth_child.cpp:265-351. -/
inductive Err where
  | evenFollowed | oddFollowed | expectedNumber | expectedN | expectedSign | expectedB | trailing
  deriving DecidableEq, Repr

/-- nth_child.h:46-49: f_error (empty string = `none`), f_a, f_b. -/
structure Nth where
  error : Option Err := none
  a : Int := 1
  b : Int := 0
  deriving DecidableEq, Repr

/-- Two's complement low 32 bits of a value, as an unsigned number: `x & 0xFFFFFFFF`
(nth_child.cpp:103; `&` of a sign extended int64_t). -/
def low32 (x : Int) : Nat := (x % 4294967296).toNat

/-- nth_child.cpp:63-67, constructor from the packed form. `an_plus_b >> 32` is the arithmetic
shift (floor division by 2^32). -/
def Nth.ofPacked (p : Int) : Nth := { a := wrap32 p, b := wrap32 (p / 4294967296) }

/-- nth_child.cpp:69-73. -/
def Nth.ofAB (a b : Int) : Nth := { a := a, b := b }

/-- nth_child.cpp:81-84. -/
def Nth.setA (n : Nth) (a : Int) : Nth := { n with a := a }
/-- nth_child.cpp:86-89. -/
def Nth.setB (n : Nth) (b : Int) : Nth := { n with b := b }

/-- nth_child.cpp:101-104 `get_nth`: the left shift of the 32 low bits of B by 32, as an
int64_t. -/
def Nth.getNth (n : Nth) : Int := wrap64 ((low32 n.a ||| (low32 n.b <<< 32) : Nat) : Int)

/-- nth_child.cpp:243-246: the reader state. `unget = 0` means no character was pushed back. -/
structure In where
  unget : Int
  rest : Str
  deriving DecidableEq, Repr

/-- nth_child.cpp:147: `wide_char_t const c(f_in[f_pos])`: `char` is signed on the platforms
csspp supports, so byte 0xFF gives -1, which is EOF. -/
def charToWide (b : Nat) : Int := if b < 128 then (b : Int) else (b : Int) - 256

/-- nth_child.cpp:133-152 `getc`, when nothing was pushed back. -/
def getcRest : Str → Int × Str
  | [] => (-1, [])
  | c :: cs => (charToWide c, cs)

/-- nth_child.cpp:133-152 `getc`. -/
def In.getc (i : In) : Int × In :=
  if i.unget ≠ 0 then (i.unget, { i with unget := 0 })
  else ((getcRest i.rest).1, { i with rest := (getcRest i.rest).2 })

/-- nth_child.cpp:154-157 `ungetc`. -/
def In.ungetc (i : In) (c : Int) : In := { i with unget := c }

/-- nth_child.cpp:116-126. -/
inductive Tok where
  | eof | odd | even | integer | plus | minus | n | unknown
  deriving DecidableEq, Repr

/-- What `token()` gives: the token, the integer value, whether signed overflow (undefined
behaviour) happened while computing it, and the reader after the call. -/
structure TokRes where
  tok : Tok
  value : Int := 0
  ub : Bool := false
  inp : In
  deriving DecidableEq, Repr

/-- nth_child.cpp:163-169: read the next non space character, once the pushed back character (if
any) is gone. -/
def skipSpaces : Str → Int × Str
  | [] => (-1, [])
  | c :: cs => if charToWide c = 32 then skipSpaces cs else (charToWide c, cs)

/-- The largest int64_t. -/
def maxI64 : Int := 9223372036854775807

/-- nth_child.cpp:188 `value = value * 10 + c - '0'`, does a partial result overflow? -/
def stepOverflows (v c : Int) : Bool := decide (v * 10 > maxI64) || decide (v * 10 + c > maxI64)

/-- nth_child.cpp:186-195: the digit loop. `c` is the digit just read. On overflow (undefined
behaviour) the computed value is meaningless; `ub` records it and the model carries on with the
mathematical value. -/
def digits (v c : Int) (ub : Bool) : Str → TokRes
  | [] =>
    { tok := .integer, value := v * 10 + c - 48, ub := ub || stepOverflows v c,
      inp := ⟨-1, []⟩ }
  | d :: ds =>
    if charToWide d < 48 ∨ charToWide d > 57 then
      { tok := .integer, value := v * 10 + c - 48, ub := ub || stepOverflows v c,
        inp := ⟨charToWide d, ds⟩ }
    else digits (v * 10 + c - 48) (charToWide d) (ub || stepOverflows v c) ds

/-- nth_child.cpp:202-217: after an 'e'. The pushed back character is always gone here. -/
def evenTail (r : Str) : TokRes :=
  let (c1, r1) := getcRest r
  if c1 = 118 ∨ c1 = 86 then
    let (c2, r2) := getcRest r1
    if c2 = 101 ∨ c2 = 69 then
      let (c3, r3) := getcRest r2
      if c3 = 110 ∨ c3 = 78 then { tok := .even, inp := ⟨0, r3⟩ }
      else { tok := .unknown, inp := ⟨0, r3⟩ }
    else { tok := .unknown, inp := ⟨0, r2⟩ }
  else { tok := .unknown, inp := ⟨0, r1⟩ }

/-- nth_child.cpp:219-230: after an 'o'. -/
def oddTail (r : Str) : TokRes :=
  let (c1, r1) := getcRest r
  if c1 = 100 ∨ c1 = 68 then
    let (c2, r2) := getcRest r1
    if c2 = 100 ∨ c2 = 68 then { tok := .odd, inp := ⟨0, r2⟩ }
    else { tok := .unknown, inp := ⟨0, r2⟩ }
  else { tok := .unknown, inp := ⟨0, r1⟩ }

/-- nth_child.cpp:171-240: the switch on the first non space character. -/
def tokenOf (c : Int) (r : Str) : TokRes :=
  if c = -1 then { tok := .eof, inp := ⟨0, r⟩ }
  else if 48 ≤ c ∧ c ≤ 57 then digits 0 c false r
  else if c = 110 ∨ c = 78 then { tok := .n, inp := ⟨0, r⟩ }
  else if c = 101 ∨ c = 69 then evenTail r
  else if c = 111 ∨ c = 79 then oddTail r
  else if c = 43 then { tok := .plus, inp := ⟨0, r⟩ }
  else if c = 45 then { tok := .minus, inp := ⟨0, r⟩ }
  else { tok := .unknown, inp := ⟨0, r⟩ }

/-- nth_child.cpp:159-241 `token`. -/
def In.token (i : In) : TokRes :=
  let (c, i1) := i.getc
  if c = 32 then
    let (c2, r2) := skipSpaces i1.rest
    tokenOf c2 r2
  else tokenOf c i1.rest

/-- The outcome of a call to `parse`: what it returns, the object after the call, and whether
undefined behaviour (overflow of an int64_t) happened. -/
structure ParseRes where
  ok : Bool
  nth : Nth
  ub : Bool
  deriving DecidableEq, Repr

/-- nth_child.cpp:335-352: after 'An' and the sign. `first` is first_int * first_sign. -/
def parseB2 (n : Nth) (first secondSign : Int) (ub : Bool) (i : In) : ParseRes :=
  let t2 := i.token
  if t2.tok ≠ .integer then ⟨false, { n with error := some .expectedB }, ub⟩
  else
    let n' := { n with a := wrap32 first, b := wrap32 (t2.value * secondSign) }
    let t3 := t2.inp.token
    if t3.tok = .eof then ⟨true, n', ub || t2.ub⟩
    else ⟨false, { n' with error := some .trailing }, ub || t2.ub || t3.ub⟩

/-- nth_child.cpp:318-333: after 'An', the mandatory sign. -/
def parseB (n : Nth) (first : Int) (ub : Bool) (i : In) : ParseRes :=
  let t := i.token
  if t.tok = .plus then parseB2 n first 1 ub t.inp
  else if t.tok = .minus then parseB2 n first (-1) ub t.inp
  else ⟨false, { n with error := some .expectedSign }, ub || t.ub⟩

/-- nth_child.cpp:294-317: the integer, then end of string or 'n'. -/
def parseA (n : Nth) (sign : Int) (t : TokRes) : ParseRes :=
  if t.tok ≠ .integer then ⟨false, { n with error := some .expectedNumber }, t.ub⟩
  else
    let t2 := t.inp.token
    if t2.tok = .eof then ⟨true, { n with a := 0, b := wrap32 (t.value * sign) }, t.ub⟩
    else if t2.tok ≠ .n then ⟨false, { n with error := some .expectedN }, t.ub || t2.ub⟩
    else parseB n (t.value * sign) t.ub t2.inp

/-- nth_child.cpp:111-353 `parse`. -/
def Nth.parse (n0 : Nth) (s : Str) : ParseRes :=
  let n := { n0 with error := none }
  let t := (In.mk 0 s).token
  if t.tok = .even then
    let n' := { n with a := 2, b := 0 }
    let t2 := t.inp.token
    if t2.tok = .eof then ⟨true, n', false⟩
    else ⟨false, { n' with error := some .evenFollowed }, t2.ub⟩
  else if t.tok = .odd then
    let n' := { n with a := 2, b := 1 }
    let t2 := t.inp.token
    if t2.tok = .eof then ⟨true, n', false⟩
    else ⟨false, { n' with error := some .oddFollowed }, t2.ub⟩
  else if t.tok = .plus then parseA n 1 t.inp.token
  else if t.tok = .minus then parseA n (-1) t.inp.token
  else parseA n 1 t

/-- nth_child.cpp:355-383 `to_string`. -/
def Nth.toStr (n : Nth) : Str :=
  if n.a = 2 ∧ n.b = 0 then b!"2n"
  else if n.a = 2 ∧ n.b = 1 then b!"odd"
  else if n.a = 0 then intDigits n.b
  else if n.b = 0 then intDigits n.a ++ b!"n"
  else intDigits n.a ++ b!"n" ++ (if n.b ≥ 0 then b!"+" else []) ++ intDigits n.b

end Csspp.Nth
