import Verif.Spec.Written
import Verif.Props.Decimal
import Verif.Lemmas.Flt

/-!
For C57: the doubles that are written as numbers.
-/

namespace Csspp.Written
open Csspp.Spec Csspp.Flt

/-- `0.5 / pow(10, p)`. -/
def half (p : Nat) : Fp := div f64 (div f64 (ofInt f64 1) (ofInt f64 2)) (ofInt f64 (10 ^ p : Nat))
def mag : Fp → Nat
  | .fin _ m => m
  | _ => 0

/-- 2^1074, the units in 1; 3 * 2^61, in units; 2^62, in units. -/
@[irreducible] def U : Nat := 2 ^ 1074
@[irreducible] def V : Nat := 3 * 2 ^ 1135
@[irreducible] def W : Nat := 2 ^ 62 * 2 ^ 1074
@[irreducible] def F : Nat := 5 ^ 1074

theorem half_facts : ∀ p < 4, half p = .fin false (mag (half p)) ∧ U ≤ 10000 * mag (half p) ∧
    mag (half p) ≤ U ∧ roundMag 53 (mag (half p)) 1 = mag (half p) := by unfold U; decide +kernel

theorem zero_fin : ofInt f64 0 = .fin false 0 := by decide +kernel
theorem large_exact : roundMag 53 V 1 = V := by unfold V; decide +kernel
theorem large_fits : V < 2 ^ (f64.scale + f64.limit) := by unfold V; decide +kernel
theorem sum_le : W + U ≤ V := by unfold V U W; decide +kernel
theorem u_pos : 0 < U := by unfold U; decide +kernel
theorem f_pos : 0 < F := by unfold F; decide +kernel
theorem v_small : V < 9223372036854775808 * U := by unfold V U; decide +kernel
theorem ten_eq : 10 ^ 1074 = U * F := by unfold U F; decide +kernel
theorem prec_eq : f64.prec = 53 := rfl

theorem round_fits {m : Nat} (h : roundMag 53 m 1 ≤ V) (s : Bool) : round f64 s m 1 = .fin s (roundMag 53 m 1) := by
  unfold round
  rw [prec_eq, if_pos (Nat.lt_of_le_of_lt h large_fits)]

theorem add_pos (m H : Nat) : add f64 (.fin false m) (.fin false H) =
    if m + H = 0 then .fin false 0 else round f64 false (m + H) 1 := by
  have h1 : signed false m = (m : Int) := rfl
  have h2 : signed false H = (H : Int) := rfl
  unfold add
  dsimp only
  rw [h1, h2]
  by_cases h : m + H = 0
  · rw [if_pos h, if_pos (by omega)]; simp
  · rw [if_neg h, if_neg (by omega), decide_eq_false (by omega), show ((m : Int) + H).natAbs = m + H by omega]

theorem add_neg (m H : Nat) (h : m + H ≠ 0) : add f64 (.fin true m) (.fin true H) = round f64 true (m + H) 1 := by
  have h1 : signed true m = -(m : Int) := rfl
  have h2 : signed true H = -(H : Int) := rfl
  unfold add
  dsimp only
  rw [h1, h2, if_neg (by omega), decide_eq_true (by omega), show (-(m : Int) + -(H : Int)).natAbs = m + H by omega]

theorem add_zero' (H : Nat) (h : H ≠ 0) : add f64 (.fin true 0) (.fin false H) = round f64 false H 1 := by
  have h1 : signed true 0 = 0 := rfl
  have h2 : signed false H = (H : Int) := rfl
  unfold add
  dsimp only
  rw [h1, h2, if_neg (by omega), decide_eq_false (by omega), show ((0 : Int) + H).natAbs = H by omega]

theorem bounds {H m u v w : Nat} (h2 : u ≤ 10000 * H) (h3 : H ≤ u) (hu : 0 < u) (hw : m < w) (hs : w + u ≤ v) :
    m + H ≤ v ∧ 0 < H ∧ 0 < v := by omega

theorem le_fin (neg : Bool) (m : Nat) : le (.fin false 0) (.fin neg m) = true ↔ neg = false ∨ m = 0 := by
  unfold le signed
  cases neg <;> simp

theorem sum_facts {p : Nat} (hp : p ≤ 3) (neg : Bool) (m : Nat) (h : m < W) :
    ∃ s r, (if le (ofInt f64 0) (.fin neg m) then add f64 (.fin neg m) (half p) else sub f64 (.fin neg m) (half p)) = .fin s r ∧
      U ≤ 10000 * r ∧ r ≤ V := by
  obtain ⟨h1, h2, h3, h4⟩ := half_facts p (Nat.lt_succ_of_le hp)
  rw [h1, zero_fin]
  clear h1
  generalize mag (half p) = H at h2 h3 h4
  obtain ⟨hle, hH, hV⟩ := bounds h2 h3 u_pos h sum_le
  have r1 : H ≤ roundMag 53 (m + H) 1 := by
    have := roundMag_mono (prec := 53) (p := H) (q := 1) (p' := m + H) (q' := 1) (by decide) Nat.one_pos Nat.one_pos (by rw [Nat.mul_one, Nat.mul_one]; exact Nat.le_add_left _ _)
    rw [h4] at this
    exact this
  have r2 : roundMag 53 (m + H) 1 ≤ V := by
    have := roundMag_mono (prec := 53) (p := m + H) (q := 1) (p' := V) (q' := 1) (by decide) Nat.one_pos Nat.one_pos (by rw [Nat.mul_one, Nat.mul_one]; exact hle)
    rw [large_exact] at this
    exact this
  have hrd := round_fits r2
  have r3 : U ≤ 10000 * roundMag 53 (m + H) 1 := Nat.le_trans h2 (Nat.mul_le_mul_left _ r1)
  have hne : m + H ≠ 0 := Nat.ne_of_gt (Nat.lt_of_lt_of_le hH (Nat.le_add_left _ _))
  by_cases hc : le (.fin false 0) (.fin neg m) = true
  · rw [if_pos hc]
    refine ⟨false, roundMag 53 (m + H) 1, ?_, r3, r2⟩
    rw [← hrd false]
    cases neg with
    | false => rw [add_pos, if_neg hne]
    | true =>
      have hm : m = 0 := by
        rcases (le_fin true m).1 hc with h | h
        · cases h
        · exact h
      subst hm
      rw [Nat.zero_add, add_zero' _ (Nat.ne_of_gt hH)]
  · rw [if_neg hc]
    have hn : neg = true := by
      cases neg with
      | false => exact absurd ((le_fin false m).2 (Or.inl rfl)) hc
      | true => rfl
    subst hn
    refine ⟨true, roundMag 53 (m + H) 1, ?_, r3, r2⟩
    rw [← hrd true, ← add_neg _ _ hne]
    rfl

theorem number_text {p : Nat} (s : Bool) {r : Nat} (h2 : U ≤ 10000 * r) (h3 : r ≤ V) (hp : p ≤ 3) :
    ∃ n : Numeral, n.Ok ∧ Dec.toStrSum p s (r * F) 1074 true = n.text := by
  have hfix : Dec.Fixed (r * F) 1074 := by
    unfold Dec.Fixed
    rw [ten_eq, Nat.mul_right_comm]
    exact Nat.mul_le_mul_right _ (by omega)
  obtain ⟨sg, i, f, ht, hi, hf, hl, _, _, hif, _, _, hv, hsg⟩ := Dec.C19_format p s (r * F) 1074 true hfix
  refine ⟨⟨decide (sg = [45]), i, f⟩, ⟨hi, hf, hif, Nat.le_trans hl (by omega), ?_⟩, ?_⟩
  · have hpos : 0 < 10 ^ p := Nat.pow_pos (by omega)
    have : decVal i * 10 ^ p ≤ Dec.cut p (r * F) 1074 := by rw [← hv]; unfold Dec.scaled; exact Nat.le_add_right _ _
    unfold Dec.cut at this
    rw [ten_eq, Nat.mul_right_comm, Nat.mul_div_mul_right _ _ f_pos] at this
    have h4 : decVal i * 10 ^ p * U ≤ r * 10 ^ p := by
      rw [Nat.le_div_iff_mul_le u_pos] at this
      exact this
    rw [Nat.mul_right_comm] at h4
    have h5 := Nat.le_of_mul_le_mul_right h4 hpos
    have e6 := v_small
    exact Nat.lt_of_mul_lt_mul_right (Nat.lt_of_le_of_lt (Nat.le_trans h5 h3) e6)
  · rw [ht]
    unfold Dec.text Numeral.text
    dsimp only
    rw [hsg, List.append_assoc]
    congr 1
    split <;> simp

theorem f_eq : 5 ^ 1074 = F := by unfold F; rfl

theorem number_written {p : Nat} (hp : p ≤ 3) (neg : Bool) (m : Nat) (h : m < W) :
    HasNumeral p (.fin neg m) := by
  obtain ⟨s, r, h1, h2, h3⟩ := sum_facts hp neg m h
  obtain ⟨n, hn, ht⟩ := number_text s h2 h3 hp
  refine ⟨n.text, ?_, n, hn, rfl⟩
  rw [← ht, ← f_eq]
  unfold half at h1
  unfold Color.decText
  dsimp only
  rw [h1]

end Csspp.Written
