import Verif.Model.UnicodeRange

namespace Csspp.URange

theorem and_ffffffff (n : Nat) : n &&& 0xFFFFFFFF = n % 4294967296 := by
  exact Nat.and_two_pow_sub_one_eq_mod n 32

theorem rangeToStart_eq (r : Nat) : rangeToStart r = wrap32 ((r % 4294967296 : Nat) : Int) := by
  unfold rangeToStart; rw [and_ffffffff]

theorem rangeToEnd_eq (r : Nat) :
    rangeToEnd r = wrap32 ((r / 4294967296 % 4294967296 : Nat) : Int) := by
  unfold rangeToEnd; rw [and_ffffffff, Nat.shiftRight_eq_div_pow]

theorem toU64_lt (x : Int) : toU64 x < 18446744073709551616 := by unfold toU64; omega

theorem startEnd_nonneg {s e : Int} (hs : IsI32 s) (h0 : 0 ≤ s) :
    startEndToRange s e = (toU64 e % 4294967296) * 4294967296 + s.toNat := by
  have h1 : toU64 s = s.toNat := by unfold toU64; unfold IsI32 at hs; omega
  unfold startEndToRange
  rw [h1, Nat.shiftLeft_eq]
  have h2 : toU64 e * 2 ^ 32 % 18446744073709551616 = 2 ^ 32 * (toU64 e % 4294967296) := by
    omega
  rw [h2, ← Nat.two_pow_add_eq_or_of_lt (by unfold IsI32 at hs; omega)]
  omega

theorem start_startEnd_nonneg {s e : Int} (hs : IsI32 s) (h0 : 0 ≤ s) :
    rangeToStart (startEndToRange s e) = s := by
  rw [rangeToStart_eq, startEnd_nonneg hs h0]
  unfold wrap32; unfold IsI32 at hs; omega

theorem end_startEnd_nonneg {s e : Int} (hs : IsI32 s) (he : IsI32 e) (h0 : 0 ≤ s) :
    rangeToEnd (startEndToRange s e) = e := by
  rw [rangeToEnd_eq, startEnd_nonneg hs h0]
  unfold wrap32 toU64; unfold IsI32 at hs he; omega

/-- Sign extension of a negative start sets all the bits of the end. -/
theorem startEnd_neg {s e : Int} (hs : IsI32 s) (h0 : s < 0) :
    startEndToRange s e = toU64 s := by
  have h1 : toU64 s = 2 ^ 32 * 4294967295 + (s + 4294967296).toNat := by
    unfold toU64; unfold IsI32 at hs; omega
  have hlow : (s + 4294967296).toNat < 2 ^ 32 := by unfold IsI32 at hs; omega
  unfold startEndToRange
  rw [h1, Nat.two_pow_add_eq_or_of_lt hlow, Nat.shiftLeft_eq]
  have h2 : toU64 e * 2 ^ 32 % 18446744073709551616 = (toU64 e % 4294967296) <<< 32 := by
    rw [Nat.shiftLeft_eq]; omega
  have h3 : 2 ^ 32 * 4294967295 = 4294967295 <<< 32 := by decide
  rw [h2, h3, ← Nat.or_assoc, ← Nat.shiftLeft_or_distrib]
  congr 2
  apply Nat.eq_of_testBit_eq
  intro i
  have hm : (4294967295 : Nat) = 2 ^ 32 - 1 := by decide
  rw [Nat.testBit_or, hm, Nat.testBit_two_pow_sub_one]
  by_cases hi : i < 32
  · simp [hi]
  · have : (toU64 e % 4294967296).testBit i = false := by
      apply Nat.testBit_lt_two_pow
      calc toU64 e % 4294967296 < 2 ^ 32 := by omega
        _ ≤ 2 ^ i := Nat.pow_le_pow_right (by omega) (by omega)
    simp [hi, this]

theorem start_startEnd_neg {s e : Int} (hs : IsI32 s) (h0 : s < 0) :
    rangeToStart (startEndToRange s e) = s := by
  rw [rangeToStart_eq, startEnd_neg hs h0]
  unfold wrap32 toU64; unfold IsI32 at hs; omega

theorem end_startEnd_neg {s e : Int} (hs : IsI32 s) (h0 : s < 0) :
    rangeToEnd (startEndToRange s e) = -1 := by
  rw [rangeToEnd_eq, startEnd_neg hs h0]
  unfold wrap32 toU64; unfold IsI32 at hs; omega


theorem verifyRange_none_iff (r : Nat) :
    verifyRange r = none ↔
      rangeToStart r < 0x110000 ∧ rangeToEnd r < 0x200000 ∧ rangeToStart r ≤ rangeToEnd r := by
  unfold verifyRange
  dsimp only
  split
  · constructor
    · intro h; cases h
    · intro h; omega
  · split
    · constructor
      · intro h; cases h
      · intro h; omega
    · split
      · constructor
        · intro h; cases h
        · intro h; omega
      · constructor
        · intro _; omega
        · intro _; rfl

end Csspp.URange
