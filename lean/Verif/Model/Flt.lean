import Verif.Model.Basic

/-!
IEEE 754 binary floating point with round to nearest, ties to even: the `float` (color_component_t,
csspp/color.h:27) and `double` (decimal_number_t, csspp/csspp.h.in:59) of the C++ code.

The numbers are kept as exact integers: a finite value is `mag / 2^scale`, where `2^-scale` is the
smallest subnormal number of the format. This file is not a model of code found in /repo: it is a
model of the arithmetic of the C++ implementation (trusted to be IEEE 754, default rounding,
no excess precision).
-/

namespace Csspp.Flt

/-- A binary format: bits of precision, exponent of the smallest number, overflow threshold. -/
structure Fmt where
  prec : Nat
  scale : Nat
  limit : Nat

/-- `float`: 24 bits, smallest 2^-149, overflow at 2^128. -/
def f32 : Fmt := ⟨24, 149, 128⟩
/-- `double`: 53 bits, smallest 2^-1074, overflow at 2^1024. -/
def f64 : Fmt := ⟨53, 1074, 1024⟩

/-- A floating point value. -/
inductive Fp where
  | nan
  | inf (neg : Bool)
  | fin (neg : Bool) (mag : Nat)
  deriving DecidableEq, Repr

/-- p / d rounded to an integer, ties to even. -/
def halfEven (p d : Nat) : Nat :=
  if 2 * (p % d) < d then p / d
  else if d < 2 * (p % d) then p / d + 1
  else if p / d % 2 = 0 then p / d
  else p / d + 1

/-- p / q rounded to `prec` bits (or to an integer, when it is smaller than 2^prec). -/
def roundMag (prec p q : Nat) : Nat :=
  halfEven p (q * 2 ^ ((p / q).log2 + 1 - prec)) * 2 ^ ((p / q).log2 + 1 - prec)

/-- The value of the format closest to ± (p / q) units. -/
def round (f : Fmt) (neg : Bool) (p q : Nat) : Fp :=
  if roundMag f.prec p q < 2 ^ (f.scale + f.limit) then .fin neg (roundMag f.prec p q) else .inf neg

/-- The signed number of units of a finite value. -/
def signed (neg : Bool) (m : Nat) : Int := if neg then -(m : Int) else m

/-- Conversion from an integer. -/
def ofInt (f : Fmt) (i : Int) : Fp := round f (decide (i < 0)) (i.natAbs * 2 ^ f.scale) 1

/-- Multiplication. -/
def mul (f : Fmt) : Fp → Fp → Fp
  | .fin a x, .fin b y => round f (a != b) (x * y) (2 ^ f.scale)
  | .nan, _ | _, .nan => .nan
  | .inf a, .inf b => .inf (a != b)
  | .inf a, .fin b y => if y = 0 then .nan else .inf (a != b)
  | .fin a x, .inf b => if x = 0 then .nan else .inf (a != b)

/-- Division. -/
def div (f : Fmt) : Fp → Fp → Fp
  | .fin a x, .fin b y =>
    if y = 0 then (if x = 0 then .nan else .inf (a != b))
    else round f (a != b) (x * 2 ^ f.scale) y
  | .nan, _ | _, .nan => .nan
  | .inf _, .inf _ => .nan
  | .inf a, .fin b _ => .inf (a != b)
  | .fin a _, .inf b => .fin (a != b) 0

/-- Addition. -/
def add (f : Fmt) : Fp → Fp → Fp
  | .fin a x, .fin b y =>
    if signed a x + signed b y = 0 then .fin (if x = 0 ∧ y = 0 then (a && b) else false) 0
    else round f (decide (signed a x + signed b y < 0)) (signed a x + signed b y).natAbs 1
  | .nan, _ | _, .nan => .nan
  | .inf a, .inf b => if a = b then .inf a else .nan
  | .inf a, .fin _ _ => .inf a
  | .fin _ _, .inf b => .inf b

/-- Change of sign. -/
def neg : Fp → Fp
  | .nan => .nan
  | .inf a => .inf (!a)
  | .fin a x => .fin (!a) x

/-- Subtraction. -/
def sub (f : Fmt) (x y : Fp) : Fp := add f x (neg y)

/-- `x <= y`; false as soon as there is a NaN. -/
def le : Fp → Fp → Bool
  | .nan, _ | _, .nan => false
  | .inf a, .inf b => a || !b
  | .inf a, .fin _ _ => a
  | .fin _ _, .inf b => !b
  | .fin a x, .fin b y => decide (signed a x ≤ signed b y)

/-- `x < y`; false as soon as there is a NaN. -/
def lt : Fp → Fp → Bool
  | .nan, _ | _, .nan => false
  | .inf a, .inf b => a && !b
  | .inf a, .fin _ _ => a
  | .fin _ _, .inf b => !b
  | .fin a x, .fin b y => decide (signed a x < signed b y)

/-- `x == y`. -/
def eq (x y : Fp) : Bool := le x y && le y x

/-- Conversion from a format to another one (a change of unit, then a rounding). -/
def convert (src dst : Fmt) : Fp → Fp
  | .fin a x => round dst a (x * 2 ^ dst.scale) (2 ^ src.scale)
  | v => v

/-- `static_cast<intN_t>`: truncation; `none` (undefined behaviour) when there is no integer or the
integer is not in the given interval. -/
def toInt (f : Fmt) (lo hi : Int) : Fp → Option Int
  | .fin a x =>
    if lo ≤ signed a (x / 2 ^ f.scale) ∧ signed a (x / 2 ^ f.scale) ≤ hi then
      some (signed a (x / 2 ^ f.scale))
    else none
  | _ => none

end Csspp.Flt
