import Verif.Model.Basic

/-!
Model of csspp/unicode_range.cpp (whole file).

`f_range` (uint64_t) is a `Nat` below 2^64; `start` and `end` (wide_char_t, int32_t) are `Int`s.
-/

namespace Csspp.URange

/-- unicode_range.cpp:31-34 `range_to_start`: low 32 bits, converted to int32_t. -/
@[irreducible] def rangeToStart (range : Nat) : Int := wrap32 ((range &&& 0xFFFFFFFF : Nat) : Int)

/-- unicode_range.cpp:36-39 `range_to_end`: high 32 bits, converted to int32_t. -/
@[irreducible] def rangeToEnd (range : Nat) : Int := wrap32 (((range >>> 32) &&& 0xFFFFFFFF : Nat) : Int)

/-- unicode_range.cpp:41-44 `start_end_to_range`: both casts to uint64_t sign extend. -/
@[irreducible] def startEndToRange (start end_ : Int) : Nat :=
  ((toU64 end_ <<< 32) % 18446744073709551616) ||| toU64 start

/-- The exceptions thrown by unicode_range.cpp:46-73 (all `csspp_exception_overflow`) and
line 148 (`csspp_exception_logic`). -/
inductive Exn where
  | startTooLarge | endTooLarge | notOrdered | badLength
  deriving DecidableEq, Repr

/-- unicode_range.cpp:46-73 `verify_range`: `none` when the function returns normally. -/
@[irreducible] def verifyRange (range : Nat) : Option Exn :=
  let start := rangeToStart range
  let end_ := rangeToEnd range
  if start ≥ 0x110000 then some .startTooLarge
  else if end_ ≥ 0x200000 then some .endTooLarge
  else if start > end_ then some .notOrdered
  else none

/-- unicode_range.h:27-44: the object only holds f_range. -/
structure UR where
  range : Nat
  deriving DecidableEq, Repr

/-- A constructor whose body ends with `verify_range()`: the object, or the exception. -/
def orThrow (e : Option Exn) (u : UR) : Except Exn UR :=
  match e with
  | some e => .error e
  | none => .ok u

/-- A setter that calls `verify_range()` before the assignment: the state after the call and the
exception thrown, if any. -/
def assignUnless (e : Option Exn) (old new : UR) : UR × Option Exn :=
  match e with
  | some e => (old, some e)
  | none => (new, none)

/-- unicode_range.cpp:77-81, constructor from a range value. -/
def UR.ofRange (range : Nat) : Except Exn UR := orThrow (verifyRange range) ⟨range⟩

/-- unicode_range.cpp:83-87, constructor from (start, end). -/
def UR.ofStartEnd (start end_ : Int) : Except Exn UR :=
  orThrow (verifyRange (startEndToRange start end_)) ⟨startEndToRange start end_⟩

/-- unicode_range.cpp:89-93 `set_range(range)`: the state after the call and the exception
thrown, if any. -/
def UR.setRange (u : UR) (range : Nat) : UR × Option Exn :=
  assignUnless (verifyRange range) u ⟨range⟩

/-- unicode_range.cpp:95-100 `set_range(start, end)`. -/
def UR.setStartEnd (u : UR) (start end_ : Int) : UR × Option Exn :=
  assignUnless (verifyRange (startEndToRange start end_)) u ⟨startEndToRange start end_⟩

/-- unicode_range.cpp:102-105. -/
def UR.getRange (u : UR) : Nat := u.range
/-- unicode_range.cpp:107-110. -/
def UR.getStart (u : UR) : Int := rangeToStart u.range
/-- unicode_range.cpp:112-115. -/
def UR.getEnd (u : UR) : Int := rangeToEnd u.range

/-- The character of a hexadecimal digit, lower case (std::hex, unicode_range.cpp:129). -/
def hexDigit (d : Nat) : Nat := if d < 10 then 48 + d else 87 + d

/-- `ss << std::hex << n` for n ≥ 0 (unicode_range.cpp:129, 173), written with an accumulator. -/
def toHexAux : Nat → Nat → Str → Str
  | 0, _, acc => acc
  | fuel + 1, n, acc =>
    if n < 16 then hexDigit n :: acc
    else toHexAux fuel (n / 16) (hexDigit (n % 16) :: acc)

/-- `ss << std::hex << n` for a 32 bit value: at most 8 digits are needed. -/
def toHex (n : Nat) : Str := toHexAux 8 n []

/-- `std::hex` prints a negative int32_t as the unsigned 32 bit value. -/
def hexOfInt (x : Int) : Str := toHex (x % 4294967296).toNat

/-- `std::setw(w) << std::setfill('0')` (unicode_range.cpp:141, 144). -/
def padLeft (w : Nat) (s : Str) : Str := List.replicate (w - s.length) 48 ++ s

/-- unicode_range.cpp:150-157: the value of `p` at the end of the loop. The arguments are the
two strings cut to their first p characters, reversed. -/
def maskLen : List Nat → List Nat → Nat
  | a :: as, b :: bs => if a ≠ 48 ∨ b ≠ 102 then as.length + 1 else maskLen as bs
  | _, _ => 0

/-- unicode_range.cpp:164-167: erase the leading zeroes. (`front()` of an empty string would be
undefined; the string always ends with a `?` when p < 6, see `toString_ub_free`.) -/
def dropZeroes : Str → Str
  | [] => []
  | c :: cs => if c = 48 then dropZeroes cs else c :: cs

/-- unicode_range.cpp:117-176 `to_string`. `.error badLength` is the logic exception of
line 148. -/
def UR.toStr (u : UR) : Except Exn Str :=
  let start := rangeToStart u.range
  let end_ := rangeToEnd u.range
  if start = 0 ∧ end_ ≥ 0x10FFFF then .ok b!"??????"
  else
    let ss := hexOfInt start
    if start = end_ then .ok ss
    else
      let startStr := padLeft 6 (hexOfInt start)
      let endStr := padLeft 6 (hexOfInt end_)
      if startStr.length ≠ 6 ∨ endStr.length ≠ 6 then .error .badLength
      else
        let p := maskLen startStr.reverse endStr.reverse
        let result := startStr.take p
        if result = endStr.take p then
          .ok (dropZeroes (result ++ List.replicate (6 - p) 63))
        else
          .ok (ss ++ b!"-" ++ hexOfInt end_)

/-- expr_multiplicative.cpp:409-431: `unicode_range * unicode_range`, on the two 64 bit range
values. `.ok none` is the NULL_TOKEN result, `.error` an exception of the constructors. `start`
and `end` are converted to uint64_t before being compared (lines 414-417). -/
def mulRanges (lhs rhs : Nat) : Except Exn (Option Nat) := do
  let lrange ← UR.ofRange lhs
  let rrange ← UR.ofRange rhs
  let start := toU64 (max lrange.getStart rrange.getStart)
  let end_ := toU64 (min lrange.getEnd rrange.getEnd)
  if start ≤ end_ then
    let range ← UR.ofStartEnd (wrap32 start) (wrap32 end_)
    pure (some range.getRange)
  else pure none

end Csspp.URange
