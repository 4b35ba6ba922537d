import Verif.Model.CompilerState
import Verif.Model.Digits

/-!
Model of compiler::set_date_time_variables() (compiler.cpp:428-506).

gmtime_r() is a parameter: the fields it gives (`Tm`). strftime() is the one of the GNU C library for the format
"%m/%d/%Y%T": two digits for everything but the year, which has no padding.
-/

namespace Csspp.Comp
open Csspp.Node

/-- `struct tm`; `year` is tm_year + 1900 and `mon` is tm_mon + 1. -/
structure Tm where
  year : Int
  mon : Nat
  mday : Nat
  hour : Nat
  min : Nat
  sec : Nat

/-- Two digits. -/
def twoDigits (n : Nat) : Str := [48 + n / 10, 48 + n % 10]

/-- compiler.cpp:442: the text of "%m/%d/%Y%T". -/
def dateText (t : Tm) : Str :=
  twoDigits t.mon ++ 47 :: (twoDigits t.mday ++ 47 :: (intDigits t.year ++
    (twoDigits t.hour ++ 58 :: (twoDigits t.min ++ 58 :: twoDigits t.sec))))

/-- compiler.cpp:441-442: `char buf[20]` after strftime(); `none` when the text does not fit: the buffer is then
indeterminate. -/
def dateBuf (t : Tm) : Option Str := if (dateText t).length < 20 then some (dateText t ++ [0]) else none

/-- `std::string(buf + at, n)`; `none` for the bytes that were not written. -/
def slice (buf : Str) (at' n : Nat) : Option Str :=
  if at' + n ≤ buf.length then some ((buf.drop at').take n) else none

/-- How it ends. -/
inductive DateRes where
  | ok (h : Heap)
  /-- csspp_exception_logic -/
  | throws
  /-- indeterminate bytes are read -/
  | undef

/-- compiler.cpp:447-451: two new nodes and set_variable(); `pos` is the position of the root. -/
def addVariable (h : Heap) (s : State) (pos : Lex.Pos) (name text : Str) : Except Exn Heap :=
  setVariable (h ++ [{ ty := .VARIABLE, pos := pos, str := name }, { ty := .STRING, pos := pos, str := text }]) s
    h.length (h.length + 1) true

/-- compiler.cpp:447-505: the variables, the first byte of their value and its length. -/
def dateSlices : List (Str × Nat × Nat) := [
  (b!"_csspp_usdate", 0, 10),
  (b!"_csspp_month", 0, 2),
  (b!"_csspp_day", 3, 2),
  (b!"_csspp_year", 6, 4),
  (b!"_csspp_time", 10, 8),
  (b!"_csspp_hour", 10, 2),
  (b!"_csspp_minute", 13, 2),
  (b!"_csspp_second", 16, 2)]

/-- compiler.cpp:444-505, the variables one after the other. -/
def addSlices (s : State) (pos : Lex.Pos) (buf : Str) : List (Str × Nat × Nat) → Heap → DateRes
  | [], h => .ok h
  | (name, at', n) :: l, h =>
    match slice buf at' n with
    | none => .undef
    | some text =>
      match addVariable h s pos name text with
      | .error _ => .throws
      | .ok h => addSlices s pos buf l h

/-- compiler.cpp:428-506 `set_date_time_variables`; a root that is not in the heap is a null pointer. -/
def setDateTime (h : Heap) (s : State) (t : Tm) : DateRes :=
  match h[s.root]? with
  | none => .throws
  | some root =>
    match dateBuf t with
    | none => .undef
    | some buf => addSlices s root.pos buf dateSlices h

end Csspp.Comp
