import Verif.Lemmas.Flt

/-!
The error of a rounding, and the numbers that are not rounded.
-/

namespace Csspp.Flt

theorem halfEven_error {p d : Nat} (hd : 0 < d) :
    2 * (halfEven p d * d) ≤ 2 * p + d ∧ 2 * p ≤ 2 * (halfEven p d * d) + d := by
  have hp := Nat.div_add_mod p d
  have hm := Nat.mod_lt p hd
  rw [Nat.mul_comm] at hp
  have hs : (p / d + 1) * d = p / d * d + d := Nat.succ_mul _ _
  unfold halfEven
  generalize hx : p / d * d = x at hp hs
  generalize p % d = r at *
  split
  · omega
  · split
    · omega
    · split <;> omega

/-- The error of a rounding is at most half of the last bit. -/
theorem roundMag_error {prec p q : Nat} (B : Nat) (hprec : 0 < prec) (hq : 0 < q) (h : p / q < 2 ^ B) (hB : prec ≤ B) :
    2 * (roundMag prec p q * q) ≤ 2 * p + q * 2 ^ (B - prec) ∧ 2 * p ≤ 2 * (roundMag prec p q * q) + q * 2 ^ (B - prec) := by
  have hl : (p / q).log2 + 1 - prec ≤ B - prec := by
    by_cases h0 : p / q = 0
    · rw [h0, Nat.log2_zero]; omega
    · have := (Nat.log2_lt h0).2 h
      omega
  have hpow : 2 ^ ((p / q).log2 + 1 - prec) ≤ 2 ^ (B - prec) := Nat.pow_le_pow_right (by omega) hl
  have hk : 0 < 2 ^ ((p / q).log2 + 1 - prec) := Nat.pow_pos (by omega)
  unfold roundMag
  generalize 2 ^ ((p / q).log2 + 1 - prec) = k at *
  have he := halfEven_error (p := p) (d := q * k) (Nat.mul_pos hq hk)
  have hqk : q * k ≤ q * 2 ^ (B - prec) := Nat.mul_le_mul_left _ hpow
  rw [show halfEven p (q * k) * k * q = halfEven p (q * k) * (q * k) by rw [Nat.mul_assoc, Nat.mul_comm k q]]
  generalize halfEven p (q * k) * (q * k) = y at *
  generalize q * 2 ^ (B - prec) = z at *
  omega

/-- A multiple of the last bit is not rounded. -/
theorem roundMag_exact {prec p q m : Nat} (hprec : 0 < prec) (hq : 0 < q) (k : Nat) (hp : p = m * 2 ^ k * q) (h : p / q < 2 ^ (k + prec)) :
    roundMag prec p q = m * 2 ^ k := by
  have hdiv : p / q = m * 2 ^ k := by rw [hp, Nat.mul_div_cancel _ hq]
  have hl : (p / q).log2 + 1 - prec ≤ k := by
    by_cases h0 : p / q = 0
    · rw [h0, Nat.log2_zero]; omega
    · have := (Nat.log2_lt h0).2 h
      omega
  obtain ⟨j, hj⟩ : ∃ j, k = j + ((p / q).log2 + 1 - prec) := ⟨k - ((p / q).log2 + 1 - prec), by omega⟩
  unfold roundMag
  generalize hs : (p / q).log2 + 1 - prec = s at *
  rw [hj, hp, hj, Nat.pow_add]
  rw [show m * (2 ^ j * 2 ^ s) * q = m * 2 ^ j * (q * 2 ^ s) by
    rw [← Nat.mul_assoc, Nat.mul_assoc _ _ q, Nat.mul_comm (2 ^ s) q]]
  rw [halfEven_exact _ (Nat.mul_pos hq (Nat.pow_pos (by omega))), Nat.mul_assoc]

/-- m has at most `prec` bits. -/
def Short (prec m : Nat) : Prop := ∃ a k, m = a * 2 ^ k ∧ a < 2 ^ prec

theorem roundMag_short {prec m q : Nat} (hprec : 0 < prec) (hq : 0 < q) (h : Short prec m) : roundMag prec (m * q) q = m := by
  obtain ⟨a, k, rfl, ha⟩ := h
  refine roundMag_exact hprec hq k rfl ?_
  rw [Nat.mul_div_cancel _ hq, Nat.add_comm, Nat.pow_add]
  exact Nat.mul_lt_mul_of_pos_right ha (Nat.pow_pos (by omega))

theorem short_roundMag {prec p q : Nat} (hprec : 0 < prec) (hq : 0 < q) : Short prec (roundMag prec p q) := by
  have hle := roundMag_le_pow (p := p) hq hprec
  by_cases he : roundMag prec p q = 2 ^ ((p / q).log2 + 1)
  · exact ⟨1, (p / q).log2 + 1, by rw [he, Nat.one_mul], Nat.one_lt_two_pow (by omega)⟩
  · have hlt : roundMag prec p q < 2 ^ ((p / q).log2 + 1) := by omega
    refine ⟨_, _, rfl, ?_⟩
    unfold roundMag at hlt
    refine Nat.lt_of_mul_lt_mul_right (Nat.lt_of_lt_of_le hlt ?_)
    rw [← Nat.pow_add]
    exact Nat.pow_le_pow_right (by omega) (by omega)

theorem Short.mul_pow {prec m : Nat} (h : m < 2 ^ prec) (k : Nat) : Short prec (m * 2 ^ k) := ⟨m, k, rfl, h⟩

end Csspp.Flt
