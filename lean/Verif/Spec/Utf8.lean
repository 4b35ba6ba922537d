import Verif.Model.Basic

/-!
Specification: well formed UTF-8 (The Unicode Standard, table 3-7), independently of the code.
-/

namespace Csspp.Spec

/-- A Unicode scalar value: not a surrogate, at most U+10FFFF. -/
def Scalar (c : Nat) : Prop := c < 0xD800 ∨ (0xE000 ≤ c ∧ c ≤ 0x10FFFF)

/-- A Unicode noncharacter of the form U+xxFFFE or U+xxFFFF. -/
def Nonchar (c : Nat) : Prop := c % 0x10000 = 0xFFFE ∨ c % 0x10000 = 0xFFFF

/-- A follow byte. -/
def Follow (b : Nat) : Prop := 0x80 ≤ b ∧ b ≤ 0xBF

/-- `CharBytes c bs`: `bs` is the UTF-8 form of the scalar value c (table 3-7, so the shortest
form only). -/
inductive CharBytes : Nat → Str → Prop
  | one (c : Nat) (h : c < 0x80) : CharBytes c [c]
  | two (a b : Nat) (ha : 0xC2 ≤ a ∧ a ≤ 0xDF) (hb : Follow b) :
      CharBytes (64 * (a - 0xC0) + (b - 0x80)) [a, b]
  | three (a b c : Nat) (ha : 0xE0 ≤ a ∧ a ≤ 0xEF) (hb : Follow b) (hc : Follow c)
      (h1 : a = 0xE0 → 0xA0 ≤ b) (h2 : a = 0xED → b ≤ 0x9F) :
      CharBytes (4096 * (a - 0xE0) + 64 * (b - 0x80) + (c - 0x80)) [a, b, c]
  | four (a b c d : Nat) (ha : 0xF0 ≤ a ∧ a ≤ 0xF4) (hb : Follow b) (hc : Follow c) (hd : Follow d)
      (h1 : a = 0xF0 → 0x90 ≤ b) (h2 : a = 0xF4 → b ≤ 0x8F) :
      CharBytes (262144 * (a - 0xF0) + 4096 * (b - 0x80) + 64 * (c - 0x80) + (d - 0x80)) [a, b, c, d]

/-- The form of a UTF-8 sequence without the limits of table 3-7: a first byte that tells how many
bytes follow and these bytes. Overlong forms, surrogates and values over U+10FFFF have it too. -/
inductive Shape : Nat → Str → Prop
  | two (a b : Nat) (ha : 0xC0 ≤ a ∧ a ≤ 0xDF) (hb : Follow b) :
      Shape (64 * (a - 0xC0) + (b - 0x80)) [a, b]
  | three (a b c : Nat) (ha : 0xE0 ≤ a ∧ a ≤ 0xEF) (hb : Follow b) (hc : Follow c) :
      Shape (4096 * (a - 0xE0) + 64 * (b - 0x80) + (c - 0x80)) [a, b, c]
  | four (a b c d : Nat) (ha : 0xF0 ≤ a ∧ a ≤ 0xF7) (hb : Follow b) (hc : Follow c) (hd : Follow d) :
      Shape (262144 * (a - 0xF0) + 4096 * (b - 0x80) + 64 * (c - 0x80) + (d - 0x80)) [a, b, c, d]

/-- `Utf8 cs bs`: `bs` is the UTF-8 text of the characters `cs`. -/
inductive Utf8 : List Nat → Str → Prop
  | nil : Utf8 [] []
  | cons {c : Nat} {b : Str} {cs : List Nat} {bs : Str} : CharBytes c b → Utf8 cs bs → Utf8 (c :: cs) (b ++ bs)

end Csspp.Spec
