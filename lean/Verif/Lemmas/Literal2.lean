import Verif.Lemmas.Literal

/-!
For C71: what the lexer makes of a number, and what is written for it.
-/

namespace Csspp.Written
open Csspp.Spec Csspp.Flt Csspp.Lex

theorem scale_eq : 2 ^ f64.scale = U := by unfold U; decide +kernel
theorem limit_big : 1099511627776 * U < 2 ^ (f64.scale + f64.limit) := by unfold U; decide +kernel
theorem pow_1114 : 2 ^ 1114 = 1099511627776 * U := by unfold U; decide +kernel
theorem pow_1061 : 2 ^ (1114 - 53) = 2 * X := by unfold X; decide +kernel
theorem pow_1108 : 2 ^ 1108 = 17179869184 * U := by unfold U; decide +kernel
theorem pow_1055 : 32 * 2 ^ (1108 - 53) = X := by unfold X; decide +kernel
theorem w_eq : W = 4611686018427387904 * U := by unfold W U; decide +kernel
theorem one_fin (neg : Bool) : ofInt f64 (if neg then -1 else 1) = .fin neg U := by cases neg <;> (unfold U; decide +kernel)
theorem one_fin' : ofInt f64 1 = .fin false U := by unfold U; decide +kernel
theorem hundred_mag : ofInt f64 100 = .fin false (mag (ofInt f64 100)) ∧ mag (ofInt f64 100) = 100 * U := by
  unfold U; decide +kernel
theorem hundred_fin : ofInt f64 100 = .fin false (100 * U) := hundred_mag.1.trans (congrArg _ hundred_mag.2)

theorem round_fin {p q : Nat} (neg : Bool) (h : roundMag 53 p q ≤ 1099511627776 * U) :
    Flt.round f64 neg p q = .fin neg (roundMag 53 p q) := by
  unfold Flt.round
  rw [prec_eq, if_pos (Nat.lt_of_le_of_lt h limit_big)]

/-- A sum of less than 2^40 is rounded by at most X. -/
theorem near {p q : Nat} (hq : 0 < q) (h : p < 1099511627776 * U * q) :
    2 * (roundMag 53 p q * q) ≤ 2 * p + q * (2 * X) ∧ 2 * p ≤ 2 * (roundMag 53 p q * q) + q * (2 * X) := by
  have := roundMag_error (prec := 53) (p := p) (q := q) 1114 (by omega) hq
    (by rw [Nat.div_lt_iff_lt_mul hq, pow_1114]; exact h) (by omega)
  rw [pow_1061] at this
  exact this

theorem near1 {p : Nat} (h : p < 1099511627776 * U) : roundMag 53 p 1 ≤ p + X ∧ p ≤ roundMag 53 p 1 + X := by
  have := near (p := p) (q := 1) Nat.one_pos (by rw [Nat.mul_one]; exact h)
  omega

theorem int_fin {n : Nat} (h : n < 1000000000000) : ofInt f64 (n : Int) = .fin false (n * U) := by
  have e : roundMag 53 (n * U) 1 = n * U := by
    have := roundMag_short (prec := 53) (m := n * U) (q := 1) (by omega) (by omega)
      (by unfold U; exact ⟨n, 1074, rfl, by omega⟩)
    rwa [Nat.mul_one] at this
  unfold ofInt
  rw [decide_eq_false (by omega), show ((n : Int)).natAbs = n by omega, scale_eq, round_fin, e]
  rw [e]
  exact Nat.mul_le_mul_right _ (by omega)

/-- Multiplied by 1. -/
theorem mul_one' {neg : Bool} {m : Nat} (hs : Short 53 m) (h : m ≤ 1099511627776 * U) :
    mul f64 (.fin neg m) (ofInt f64 1) = .fin neg m := by
  have e := roundMag_short (prec := 53) (q := U) (by omega) u_pos hs
  rw [one_fin']
  unfold mul
  dsimp only
  rw [scale_eq, round_fin, e]
  · cases neg <;> rfl
  · rw [e]; exact h

theorem sign_mul {neg : Bool} {m : Nat} (hs : Short 53 m) (h : m ≤ 1099511627776 * U) :
    mul f64 (ofInt f64 (if neg then -1 else 1)) (.fin false m) = .fin neg m := by
  have e := roundMag_short (prec := 53) (q := U) (by omega) u_pos hs
  rw [Nat.mul_comm] at e
  rw [one_fin]
  unfold mul
  dsimp only
  rw [scale_eq, round_fin, e]
  · cases neg <;> rfl
  · rw [e]; exact h

theorem part_bound {D P x u : Nat} {k : Nat} (hk : k ≤ 3) (hu : u = 16384 * x) (_hx : 0 < x) (hD : D < 10 ^ k)
    (h : 1000 * (10 ^ k * P) ≤ 1000 * (D * u) + x) : P ≤ u := by
  have hD' : D * u + u ≤ 10 ^ k * u := by
    rw [← Nat.succ_mul]
    exact Nat.mul_le_mul_right _ hD
  generalize D * u = Du at *
  have hk' : k = 0 ∨ k = 1 ∨ k = 2 ∨ k = 3 := by omega
  rcases hk' with rfl | rfl | rfl | rfl <;> (simp at *; omega)

/-- The double of a number. -/
theorem value_eq {pow10 : Int → Fp} (h1 : pow10 0 = ofInt f64 1) {neg : Bool} {ds fr : Str} (hds : decVal ds < 1000000000000)
    (hfr : Dec.AllDigits fr) (hl : fr.length ≤ 3) :
    ∃ R, Num.value pow10 ⟨neg, decVal ds, fr, 0⟩ = .fin neg R ∧ Short 53 R ∧
      R ≤ decVal ds * U + mag (part fr) + X ∧ decVal ds * U + mag (part fr) ≤ R + X ∧ mag (part fr) ≤ U := by
  have hp := part_ok hfr hl
  unfold partOk at hp
  obtain ⟨hp1, hp2, _⟩ := of_decide_eq_true hp
  have hb := part_bound hl u_eq x_pos (Dec.decVal_lt fr hfr) hp2
  have hxu := u_eq
  have hN : decVal ds * U + U ≤ 1000000000000 * U := by
    rw [← Nat.succ_mul]
    exact Nat.mul_le_mul_right _ hds
  have hu := u_pos
  have hn := near1 (p := decVal ds * U + mag (part fr)) (by generalize decVal ds * U = N at *; omega)
  have hR : roundMag 53 (decVal ds * U + mag (part fr)) 1 ≤ 1099511627776 * U := by
    generalize decVal ds * U = N at *
    omega
  refine ⟨roundMag 53 (decVal ds * U + mag (part fr)) 1, ?_, short_roundMag (by omega) (by omega), hn.1, hn.2, hb⟩
  have hv : Num.value pow10 ⟨neg, decVal ds, fr, 0⟩ =
      mul f64 (mul f64 (ofInt f64 (if neg then -1 else 1)) (add f64 (ofInt f64 (decVal ds : Int)) (part fr))) (pow10 0) := by
    unfold Num.value part; rfl
  have hs := short_roundMag (prec := 53) (p := decVal ds * U + mag (part fr)) (q := 1) (by omega) (by omega)
  have hadd : (if decVal ds * U + mag (part fr) = 0 then Fp.fin false 0 else Flt.round f64 false (decVal ds * U + mag (part fr)) 1) =
      .fin false (roundMag 53 (decVal ds * U + mag (part fr)) 1) := by
    by_cases h0 : decVal ds * U + mag (part fr) = 0
    · rw [if_pos h0, h0]
      exact congrArg _ (by decide +kernel)
    · rw [if_neg h0, round_fin _ hR]
  have hsum : add f64 (ofInt f64 (decVal ds : Int)) (part fr) = .fin false (roundMag 53 (decVal ds * U + mag (part fr)) 1) := by
    rw [int_fin hds, ← hadd, ← add_pos, ← hp1]
  rw [hv, h1, hsum, sign_mul hs hR, mul_one' hs hR]

/-- The sum that is written: the sign and the absolute value. -/
theorem sum_exact {p : Nat} (hp : p ≤ 3) (neg : Bool) (m : Nat) (h : m < 1099511627775 * U) :
    (if le (ofInt f64 0) (.fin neg m) then add f64 (.fin neg m) (half p) else sub f64 (.fin neg m) (half p)) =
      .fin (neg && decide (m ≠ 0)) (roundMag 53 (m + mag (half p)) 1) := by
  obtain ⟨h1, h2, h3, h4⟩ := half_facts p (Nat.lt_succ_of_le hp)
  generalize mag (half p) = H at h1 h2 h3 h4 ⊢
  rw [h1, zero_fin]
  have hu := u_pos
  have hn := near1 (p := m + H) (by omega)
  have hx := u_eq
  have hfit : ∀ s, Flt.round f64 s (m + H) 1 = .fin s (roundMag 53 (m + H) 1) := fun s => round_fits (by
    have := roundMag_mono (prec := 53) (p := m + H) (q := 1) (p' := V) (q' := 1) (by decide) Nat.one_pos Nat.one_pos
      (by rw [Nat.mul_one, Nat.mul_one]; have := sum_le; have := w_eq; omega)
    rwa [large_exact] at this) s
  have hne : m + H ≠ 0 := by omega
  by_cases hc : le (.fin false 0) (.fin neg m) = true
  · rw [if_pos hc]
    cases neg with
    | false => rw [add_pos, if_neg hne, hfit, Bool.false_and]
    | true =>
      have hm : m = 0 := by
        rcases (le_fin true m).1 hc with h | h
        · cases h
        · exact h
      subst hm
      rw [add_zero' _ (by omega)]
      rw [Nat.zero_add] at hfit ⊢
      rw [hfit, decide_eq_false (by omega), Bool.and_false]
  · rw [if_neg hc]
    have hn : neg = true ∧ m ≠ 0 := by
      cases neg with
      | false => exact absurd ((le_fin false m).2 (Or.inl rfl)) hc
      | true => exact ⟨rfl, fun h => hc ((le_fin true m).2 (Or.inr h))⟩
    obtain ⟨rfl, hm⟩ := hn
    have e := hfit true
    rw [← add_neg _ _ hne] at e
    rw [decide_eq_true hm, Bool.and_true, ← e]
    unfold sub neg
    dsimp only
    rw [Bool.not_false]

/-- A double close to a number with at most p digits after its period is written as this number. -/
theorem decText_close {p : Nat} (hp : p ≤ 3) {neg : Bool} {ds fr : Str} {m : Nat} (rl : Bool) (hds : Dec.AllDigits ds)
    (hn : decVal ds < 1000000000000) (hfr : Dec.AllDigits fr) (hl : fr.length ≤ p)
    (hm1 : m ≤ decVal ds * U + mag (part fr) + 4 * X) (hm2 : decVal ds * U + mag (part fr) ≤ m + 4 * X) :
    Color.decText p (.fin neg m) rl = some (literal neg ds fr rl) := by
  have hpt := part_ok hfr (Nat.le_trans hl hp)
  unfold partOk at hpt
  obtain ⟨_, hp2, hp3⟩ := of_decide_eq_true hpt
  have hb := part_bound (Nat.le_trans hl hp) u_eq x_pos (Dec.decVal_lt fr hfr) hp2
  have hN : decVal ds * U + U ≤ 1000000000000 * U := by
    rw [← Nat.succ_mul]
    exact Nat.mul_le_mul_right _ hn
  have hu := u_pos
  have hxu := u_eq
  have hmU : m < 1099511627775 * U := by
    generalize decVal ds * U = N at *
    omega
  have hsum := sum_exact hp neg m hmU
  obtain ⟨_, q2, q3, q4⟩ := half_facts p (Nat.lt_succ_of_le hp)
  obtain ⟨c1, c2⟩ := half_close p (Nat.lt_succ_of_le hp)
  have hnr := near1 (p := m + mag (half p)) (by omega)
  have hcut := cut_close (r := roundMag 53 (m + mag (half p)) 1) hp hl u_eq x_pos rfl hp2 hp3 c1 c2 hm1 hm2 hnr.1 hnr.2
  have hr : U ≤ 10000 * roundMag 53 (m + mag (half p)) 1 := by
    have := roundMag_mono (prec := 53) (p := mag (half p)) (q := 1) (p' := m + mag (half p)) (q' := 1) (by decide) Nat.one_pos
      Nat.one_pos (by rw [Nat.mul_one, Nat.mul_one]; exact Nat.le_add_left _ _)
    rw [q4] at this
    omega
  have hcz : m = 0 → roundMag 53 (m + mag (half p)) 1 * 10 ^ p / U = 0 := by
    intro h0
    rw [h0, Nat.zero_add, q4]
    refine Nat.div_eq_of_lt ?_
    rw [Nat.mul_comm]
    omega
  have hfix : Dec.Fixed (roundMag 53 (m + mag (half p)) 1 * F) 1074 := by
    unfold Dec.Fixed
    rw [ten_eq, Nat.mul_right_comm]
    exact Nat.mul_le_mul_right _ (by omega)
  have hdec : Color.decText p (.fin neg m) rl =
      some (Dec.toStrSum p (neg && decide (m ≠ 0)) (roundMag 53 (m + mag (half p)) 1 * F) 1074 rl) := by
    unfold half at hsum
    unfold Color.decText
    dsimp only
    rw [hsum, ← f_eq]
    rfl
  rw [hdec]
  generalize roundMag 53 (m + mag (half p)) 1 = r at *
  obtain ⟨sg, i, f, ht, hi, hf, hfl, hlast, a1, a2, a3, a4, hv, hsg⟩ := Dec.C19_format p (neg && decide (m ≠ 0)) (r * F) 1074 rl hfix
  have hcutF : Dec.cut p (r * F) 1074 = decVal ds * 10 ^ p + decVal fr * 10 ^ (p - fr.length) := by
    unfold Dec.cut
    rw [ten_eq, Nat.mul_right_comm, Nat.mul_div_mul_right _ _ f_pos, hcut]
  rw [ht]
  refine congrArg some (text_literal hl hds hfr hi hf hfl hlast a1 a2 a3 (fun c t => a4 c t) (hv.trans hcutF) ?_)
  rw [hsg, hv]
  by_cases h0 : m = 0
  · have : Dec.cut p (r * F) 1074 = 0 := by rw [hcutF, ← hcut, hcz h0]
    rw [this, if_neg (by simp), if_neg (by simp)]
  · rw [decide_eq_true h0, Bool.and_true]

/-- A percentage: divided by 100 by the lexer, multiplied by 100 by the assembler. -/
theorem percent_close {neg : Bool} {R N : Nat} (h1 : R ≤ N + X) (h2 : N ≤ R + X) (hN : N ≤ 1000000000000 * U) :
    ∃ m, mul f64 (div f64 (.fin neg R) (ofInt f64 100)) (ofInt f64 100) = .fin neg m ∧ m ≤ N + 4 * X ∧ N ≤ m + 4 * X := by
  have hu := u_pos
  have hxu := u_eq
  have hx := x_pos
  have hq : 0 < 100 * U := by omega
  -- the division
  have hlt : R * U / (100 * U) < 17179869184 * U := by
    rw [Nat.mul_div_mul_right _ _ hu]
    omega
  have e3 := roundMag_error (prec := 53) (p := R * U) (q := 100 * U) 1108 (by omega) hq (by rw [pow_1108]; exact hlt) (by omega)
  have h55 := pow_1055
  generalize hy : 2 ^ (1108 - 53) = y at e3 h55
  generalize hR3 : roundMag 53 (R * U) (100 * U) = R3 at e3
  have f3 : 2 * (100 * R3) ≤ 2 * R + 100 * y ∧ 2 * R ≤ 2 * (100 * R3) + 100 * y := by
    refine ⟨Nat.le_of_mul_le_mul_right (c := U) ?_ hu, Nat.le_of_mul_le_mul_right (c := U) ?_ hu⟩
    · have := e3.1
      rw [show 2 * (R3 * (100 * U)) = 2 * (100 * R3) * U by ac_rfl] at this
      rw [show 2 * (R * U) + 100 * U * y = (2 * R + 100 * y) * U by
        rw [Nat.add_mul]; ac_rfl] at this
      exact this
    · have := e3.2
      rw [show 2 * (R3 * (100 * U)) = 2 * (100 * R3) * U by ac_rfl] at this
      rw [show 2 * (100 * R3) * U + 100 * U * y = (2 * (100 * R3) + 100 * y) * U by
        rw [Nat.add_mul]; ac_rfl, show 2 * (R * U) = 2 * R * U by rw [Nat.mul_assoc]] at this
      exact this
  have g3 : R3 ≤ 1099511627776 * U := by omega
  have hdiv : div f64 (.fin neg R) (ofInt f64 100) = .fin neg R3 := by
    rw [hundred_fin]
    unfold div
    dsimp only
    rw [if_neg (by omega), scale_eq, round_fin, hR3]
    · cases neg <;> rfl
    · rw [hR3]; exact g3
  -- the multiplication
  have e4 := near (p := R3 * (100 * U)) (q := U) hu (by
    rw [show R3 * (100 * U) = 100 * R3 * U by ac_rfl]
    exact Nat.mul_lt_mul_of_pos_right (by omega) hu)
  generalize hR4 : roundMag 53 (R3 * (100 * U)) U = R4 at e4
  have f4 : R4 ≤ 100 * R3 + X ∧ 100 * R3 ≤ R4 + X := by
    have a := e4.1
    have b := e4.2
    rw [show 2 * (R4 * U) = 2 * R4 * U by rw [Nat.mul_assoc],
      show 2 * (R3 * (100 * U)) = 2 * (100 * R3) * U by ac_rfl,
      Nat.mul_comm U, ← Nat.add_mul] at a b
    have a := Nat.le_of_mul_le_mul_right a hu
    have b := Nat.le_of_mul_le_mul_right b hu
    omega
  refine ⟨R4, ?_, by omega, by omega⟩
  rw [hdiv, hundred_fin]
  unfold mul
  dsimp only
  rw [scale_eq, round_fin, hR4]
  · cases neg <;> rfl
  · rw [hR4]; omega

end Csspp.Written
