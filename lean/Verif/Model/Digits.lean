import Verif.Model.Basic

/-!
Model of `std::to_string` / `operator <<` for integers, used by nth_child.cpp:374-382,
assembler.cpp and color.cpp. The C++ library function is trusted to write the usual decimal
digits.
-/

namespace Csspp

/-- Decimal digits of a natural number (`std::to_string`), most significant first. -/
def natDigitsAux : Nat → Nat → Str → Str
  | 0, _, acc => acc
  | fuel + 1, n, acc =>
    if n < 10 then (48 + n) :: acc else natDigitsAux fuel (n / 10) ((48 + n % 10) :: acc)

/-- Decimal digits of a natural number; n + 1 steps are always enough. -/
def natDigits (n : Nat) : Str := natDigitsAux (n + 1) n []

/-- `std::to_string` of a signed integer (nth_child.cpp:374, 379, 382). -/
def intDigits (x : Int) : Str := if x < 0 then 45 :: natDigits x.natAbs else natDigits x.natAbs

end Csspp
