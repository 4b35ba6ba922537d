import Verif.Model.Flt

/-! Rounding is monotone. -/

namespace Csspp.Flt

theorem halfEven_bounds (p d : Nat) : p / d ≤ halfEven p d ∧ halfEven p d ≤ p / d + 1 := by
  unfold halfEven
  split
  · omega
  · split
    · omega
    · split <;> omega

theorem halfEven_mono {p d p' d' : Nat} (hd : 0 < d) (hd' : 0 < d') (h : p * d' ≤ p' * d) :
    halfEven p d ≤ halfEven p' d' := by
  have hk : p / d ≤ p' / d' := by
    rw [Nat.le_div_iff_mul_le hd']
    apply Nat.le_of_mul_le_mul_right _ hd
    have := Nat.div_mul_le_self p d
    calc p / d * d' * d = p / d * d * d' := by rw [Nat.mul_right_comm]
      _ ≤ p * d' := Nat.mul_le_mul_right _ this
      _ ≤ p' * d := h
  have b1 := halfEven_bounds p d
  have b2 := halfEven_bounds p' d'
  by_cases hlt : p / d < p' / d'
  · omega
  · have he : p / d = p' / d' := by omega
    have e1 := Nat.div_add_mod p d
    have e2 := Nat.div_add_mod p' d'
    -- r * d' ≤ r' * d
    have hr : (p % d) * d' ≤ (p' % d') * d := by
      have a1 : p * d' = p / d * (d * d') + p % d * d' := by
        conv => lhs; rw [← e1]
        rw [Nat.add_mul, Nat.mul_comm d (p / d), Nat.mul_assoc]
      have a2 : p' * d = p / d * (d * d') + p' % d' * d := by
        conv => lhs; rw [← e2]
        rw [Nat.add_mul, ← he, Nat.mul_comm d' (p / d), Nat.mul_assoc, Nat.mul_comm d' d]
      omega
    have hcase : ∀ r r' : Nat, r * d' ≤ r' * d → d ≤ 2 * r → d' ≤ 2 * r' := by
      intro r r' h1 h2
      apply Nat.le_of_mul_le_mul_right _ hd
      have : d * d' ≤ 2 * r * d' := Nat.mul_le_mul_right _ h2
      have e3 : 2 * r * d' = 2 * (r * d') := Nat.mul_assoc _ _ _
      have e4 : 2 * r' * d = 2 * (r' * d) := Nat.mul_assoc _ _ _
      have e5 : d' * d = d * d' := Nat.mul_comm _ _
      omega
    have hcase2 : ∀ r r' : Nat, r * d' ≤ r' * d → d < 2 * r → d' < 2 * r' := by
      intro r r' h1 h2
      apply Nat.lt_of_mul_lt_mul_right (a := d)
      have : d * d' < 2 * r * d' := Nat.mul_lt_mul_of_pos_right h2 hd'
      have e3 : 2 * r * d' = 2 * (r * d') := Nat.mul_assoc _ _ _
      have e4 : 2 * r' * d = 2 * (r' * d) := Nat.mul_assoc _ _ _
      have e5 : d' * d = d * d' := Nat.mul_comm _ _
      omega
    unfold halfEven
    rw [← he]
    have c1 := hcase _ _ hr
    have c2 := hcase2 _ _ hr
    clear hr hcase hcase2 e1 e2 b1 b2 h hlt hk he
    generalize p / d = k at *
    generalize p % d = r at *
    generalize p' % d' = r' at *
    by_cases g1 : 2 * r < d <;> by_cases g2 : d < 2 * r <;> by_cases g3 : 2 * r' < d' <;>
      by_cases g4 : d' < 2 * r' <;> by_cases g5 : k % 2 = 0 <;>
      simp only [g1, g2, g3, g4, g5, if_true, if_false] <;> omega

theorem halfEven_exact (m : Nat) {d : Nat} (hd : 0 < d) : halfEven (m * d) d = m := by
  unfold halfEven
  rw [Nat.mul_mod_left, Nat.mul_div_cancel _ hd, if_pos (by omega)]

theorem halfEven_le {p d m : Nat} (hd : 0 < d) (h : p ≤ m * d) : halfEven p d ≤ m := by
  have := halfEven_mono (p := p) (d := d) (p' := m * d) (d' := d) hd hd (Nat.mul_le_mul_right _ h)
  rwa [halfEven_exact m hd] at this

theorem le_halfEven {p d m : Nat} (hd : 0 < d) (h : m * d ≤ p) : m ≤ halfEven p d := by
  have := halfEven_mono (p := m * d) (d := d) (p' := p) (d' := d) hd hd (Nat.mul_le_mul_right _ h)
  rwa [halfEven_exact m hd] at this

theorem lt_pow_log (n : Nat) : n < 2 ^ (n.log2 + 1) := Nat.lt_log2_self

theorem pow_log_le {n : Nat} (h : n ≠ 0) : 2 ^ n.log2 ≤ n := Nat.log2_self_le h

/-- Values below a power of two stay at most that power of two. -/
theorem roundMag_le_pow {prec p q : Nat} (hq : 0 < q) (hp : 0 < prec) :
    roundMag prec p q ≤ 2 ^ ((p / q).log2 + 1) := by
  unfold roundMag
  generalize hL : (p / q).log2 + 1 = L
  have hlt : p / q < 2 ^ L := by rw [← hL]; exact lt_pow_log _
  have hpq : p < 2 ^ L * q := by rwa [Nat.div_lt_iff_lt_mul hq] at hlt
  by_cases hs : prec ≤ L
  · have e : 2 ^ prec * 2 ^ (L - prec) = 2 ^ L := by rw [← Nat.pow_add]; congr 1; omega
    have h1 : halfEven p (q * 2 ^ (L - prec)) ≤ 2 ^ prec := by
      apply halfEven_le (Nat.mul_pos hq (Nat.two_pow_pos _))
      have : 2 ^ prec * (q * 2 ^ (L - prec)) = 2 ^ L * q := by
        rw [← e, Nat.mul_comm q, ← Nat.mul_assoc]
      omega
    calc _ ≤ 2 ^ prec * 2 ^ (L - prec) := Nat.mul_le_mul_right _ h1
      _ = 2 ^ L := e
  · rw [show L - prec = 0 by omega, Nat.pow_zero, Nat.mul_one, Nat.mul_one]
    exact halfEven_le hq (by omega)

/-- Values at least a power of two stay at least that power of two. -/
theorem pow_le_roundMag {prec p q : Nat} (hq : 0 < q) (hp : 0 < prec) (h : p / q ≠ 0) :
    2 ^ (p / q).log2 ≤ roundMag prec p q := by
  unfold roundMag
  have hle : 2 ^ (p / q).log2 ≤ p / q := pow_log_le h
  generalize (p / q).log2 = L at *
  have hpq : 2 ^ L * q ≤ p := by rwa [Nat.le_div_iff_mul_le hq] at hle
  have e : 2 ^ (L - (L + 1 - prec)) * 2 ^ (L + 1 - prec) = 2 ^ L := by
    rw [← Nat.pow_add]; congr 1; omega
  have h1 : 2 ^ (L - (L + 1 - prec)) ≤ halfEven p (q * 2 ^ (L + 1 - prec)) := by
    apply le_halfEven (Nat.mul_pos hq (Nat.two_pow_pos _))
    have : 2 ^ (L - (L + 1 - prec)) * (q * 2 ^ (L + 1 - prec)) = 2 ^ L * q := by
      rw [← e, Nat.mul_comm q, ← Nat.mul_assoc]
    omega
  calc 2 ^ L = _ := e.symm
    _ ≤ _ := Nat.mul_le_mul_right _ h1

theorem roundMag_mono {prec p q p' q' : Nat} (hp : 0 < prec) (hq : 0 < q) (hq' : 0 < q')
    (h : p * q' ≤ p' * q) : roundMag prec p q ≤ roundMag prec p' q' := by
  have hk : p / q ≤ p' / q' := by
    rw [Nat.le_div_iff_mul_le hq']
    apply Nat.le_of_mul_le_mul_right _ hq
    have := Nat.div_mul_le_self p q
    calc p / q * q' * q = p / q * q * q' := by rw [Nat.mul_right_comm]
      _ ≤ p * q' := Nat.mul_le_mul_right _ this
      _ ≤ p' * q := h
  by_cases hl : (p / q).log2 = (p' / q').log2
  · unfold roundMag
    rw [← hl]
    apply Nat.mul_le_mul_right
    generalize 2 ^ ((p / q).log2 + 1 - prec) = u, Nat.two_pow_pos ((p / q).log2 + 1 - prec) = hu
    apply halfEven_mono (Nat.mul_pos hq hu) (Nat.mul_pos hq' hu)
    rw [← Nat.mul_assoc, ← Nat.mul_assoc]
    exact Nat.mul_le_mul_right _ h
  · have hlt : (p / q).log2 < (p' / q').log2 := by
      have : (p / q).log2 ≤ (p' / q').log2 := by
        by_cases h0 : p / q = 0
        · rw [h0]; simp
        · rw [Nat.le_log2 (fun e => h0 (Nat.le_zero.mp (e ▸ hk)))]
          exact Nat.le_trans (pow_log_le h0) hk
      omega
    have hne : p' / q' ≠ 0 := by
      intro e; rw [e] at hlt; simp at hlt
    calc roundMag prec p q ≤ 2 ^ ((p / q).log2 + 1) := roundMag_le_pow hq hp
      _ ≤ 2 ^ (p' / q').log2 := Nat.pow_le_pow_right (by omega) hlt
      _ ≤ _ := pow_le_roundMag hq' hp hne

end Csspp.Flt
