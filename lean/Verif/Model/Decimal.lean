import Verif.Model.Digits

/-!
Model of csspp/csspp.cpp:86-160 `decimal_number_to_string`.

Simplifications: `toStrSum` takes the exact value of the double computed at lines 101 and 105 (any
double is ±n/10^e), so it covers whatever rounding the addition did; `toStr` starts from the number
itself and takes that addition as exact. Infinities and NaN are not modelled. Every
double has a finite decimal expansion, and the precision asked for at line 96 (1077 digits) is
enough to write it completely, so `operator <<` writes the exact value in the `%g` style: fixed
notation when the decimal exponent is at least -4, scientific notation below.
-/

namespace Csspp.Dec

/-- Remove the '0' characters at the end of a text (csspp.cpp:121-124; also what `%g` does with
the digits after the decimal point). -/
def stripZeros (s : Str) : Str := (s.reverse.dropWhile (· == 48)).reverse

/-- A decimal point followed by digits, nothing when there are no digits. -/
def dot (f : Str) : Str := if f = [] then [] else 46 :: f

/-- The digits of N, with enough leading zeroes for one digit before the last e. -/
def padDigits (n e : Nat) : Str :=
  List.replicate (e + 1 - (natDigits n).length) 48 ++ natDigits n

/-- Fixed notation of N / 10^e. -/
def fixedText (n e : Nat) : Str :=
  let d := padDigits n e
  d.take (d.length - e) ++ dot (stripZeros (d.drop (d.length - e)))

/-- Scientific notation of N / 10^e, N > 0 (the exponent has at least two digits). -/
def sciText (n e : Nat) : Str :=
  let d := natDigits n
  let x : Int := (d.length : Int) - 1 - e
  let ex := natDigits x.natAbs
  d.take 1 ++ dot (stripZeros (d.drop 1)) ++ [101, if x < 0 then 45 else 43] ++
    (if ex.length < 2 then 48 :: ex else ex)

/-- csspp.cpp:91-108: the text written by the stream for ±N / 10^e, N > 0. -/
def streamText (neg : Bool) (n e : Nat) : Str :=
  (if neg then [45] else []) ++
    (if (natDigits n).length + 3 < e then sciText n e else fixedText n e)

/-- `out.find('.')`. -/
def findDot (s : Str) : Option Nat :=
  if 46 ∈ s then some (s.takeWhile (· != 46)).length else none

/-- csspp.cpp:125-128. -/
def dropDot (s : Str) : Str := if s.getLast? = some 46 then s.dropLast else s

/-- csspp.cpp:110-129: keep `precision` digits after the decimal point. -/
def truncText (p : Nat) (out : Str) : Str :=
  match findDot out with
  | none => out
  | some e =>
    let out := if out.length > e + p + 1 then out.take (e + p + 1) else out
    if 46 ∈ out then dropDot (stripZeros out) else out

/-- csspp.cpp:131-149. -/
def dropLeadingZero (out : Str) : Str :=
  if out.length ≥ 3 ∧ out[0]? = some 48 ∧ out[1]? = some 46 then out.drop 1
  else if out.length ≥ 4 ∧ out[0]? = some 45 ∧ out[1]? = some 48 ∧ out[2]? = some 46 then
    45 :: out.drop 2
  else out

/-- csspp.cpp:108-160: everything after the rounding, where ±n / 10^e (n > 0) is the exact value of
the double `d ± 0.5 / pow(10, precision)`. -/
def toStrSum (p : Nat) (neg : Bool) (n e : Nat) (removeLeadingZero : Bool) : Str :=
  let out := streamText neg n e
  let out := truncText p out
  let out := if removeLeadingZero then dropLeadingZero out else out
  if out = b!"-0" then b!"0" else out

/-- csspp.cpp:86-160 for d = ±M / 10^q, when the addition of 0.5 / 10^p is exact: the sum is
(M * 10^(p+1) + 5 * 10^q) / 10^(p+1+q). (A negative zero is not modelled: `neg` is only meant for
M > 0.) -/
def toStr (p : Nat) (neg : Bool) (m q : Nat) (removeLeadingZero : Bool) : Str :=
  toStrSum p neg (m * 10 ^ (p + 1) + 5 * 10 ^ q) (p + 1 + q) removeLeadingZero

end Csspp.Dec
