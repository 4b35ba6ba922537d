/-!
Basic conventions shared by the model (see DESIGN.md).

* `std::string` is a list of bytes (`Nat`); `wide_char_t` in the lexer is a `Nat`, EOF (-1) being
  its unsigned 32 bit image 0xFFFFFFFF (see Model/Lexer.lean).
* Big literals are written on the left of `+` and `*`: the kernel unrolls `n + literal`.
* fixed width signed integers are `Int`s, reduced by `wrap32` / `wrap64` where the C++ code
  converts (csspp/csspp.h.in:55-59: wide_char_t = int32_t, integer_t = int64_t).
-/

namespace Csspp

/-- A `std::string`: a list of bytes. -/
abbrev Str := List Nat

/-- A byte string literal: `b!"abc"` is the list of the (ASCII) codes of the characters. -/
syntax:max "b!" str : term
macro_rules
  | `(b! $s:str) => do
    let cs := s.getString.toList.map (fun c => Lean.Syntax.mkNumLit (toString c.toNat))
    let arr := cs.toArray
    `(([$arr,*] : List Nat))

/-- Conversion to `int32_t` (two's complement; csspp.h.in:55, nth_child.h:26). -/
@[irreducible] def wrap32 (x : Int) : Int := (2147483648 + x) % 4294967296 - 2147483648

/-- Conversion to `int64_t` (two's complement; csspp.h.in:58). -/
@[irreducible] def wrap64 (x : Int) : Int := (9223372036854775808 + x) % 18446744073709551616 - 9223372036854775808

/-- A value representable as `int32_t`. -/
def IsI32 (x : Int) : Prop := -2147483648 ≤ x ∧ x ≤ 2147483647

/-- A value representable as `int64_t`. -/
def IsI64 (x : Int) : Prop := -9223372036854775808 ≤ x ∧ x ≤ 9223372036854775807

instance (x : Int) : Decidable (IsI32 x) := by unfold IsI32; infer_instance
instance (x : Int) : Decidable (IsI64 x) := by unfold IsI64; infer_instance

theorem wrap32_of_isI32 {x : Int} (h : IsI32 x) : wrap32 x = x := by
  unfold IsI32 at h; unfold wrap32; omega

theorem wrap64_of_isI64 {x : Int} (h : IsI64 x) : wrap64 x = x := by
  unfold IsI64 at h; unfold wrap64; omega

theorem isI32_wrap32 (x : Int) : IsI32 (wrap32 x) := by
  unfold IsI32 wrap32; omega

theorem isI64_wrap64 (x : Int) : IsI64 (wrap64 x) := by
  unfold IsI64 wrap64; omega

/-- The unsigned 64 bit representation of a signed value (a `static_cast<uint64_t>`). -/
@[irreducible] def toU64 (x : Int) : Nat := (x % 18446744073709551616).toNat

/-- Decidable equality of outcomes, for the concrete checks. -/
instance {ε α : Type} [DecidableEq ε] [DecidableEq α] : DecidableEq (Except ε α)
  | .ok a, .ok b => if h : a = b then isTrue (by rw [h]) else isFalse (fun e => h (by cases e; rfl))
  | .error a, .error b =>
    if h : a = b then isTrue (by rw [h]) else isFalse (fun e => h (by cases e; rfl))
  | .ok _, .error _ => isFalse (fun e => by cases e)
  | .error _, .ok _ => isFalse (fun e => by cases e)

end Csspp
