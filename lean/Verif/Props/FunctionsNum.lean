import Verif.Model.Functions
import Verif.Spec.FunctionTable

/-!
C73: abs(), ceil(), floor(), round() and sign() are exact and keep the unit.
-/

namespace Csspp.Func
open Csspp.Flt Csspp.Expr Csspp.Spec

variable {α : Type}

/-- 2^1074 -/
@[irreducible] def S : Nat := 2 ^ f64.scale

theorem s_pos : 0 < S := by unfold S; exact Nat.two_pow_pos _
theorem unity_eq : unity = (S : Int) := by unfold unity S; decide +kernel

theorem floor_pos (m : Nat) : floor f64 (.fin false m) = .fin false (m / S * S) := by unfold S; rfl
theorem floor_neg (m : Nat) : floor f64 (.fin true m) = .fin true ((m + (S - 1)) / S * S) := by unfold S; rfl
theorem ceil_pos (m : Nat) : ceil f64 (.fin false m) = .fin false ((m + (S - 1)) / S * S) := by unfold S; rfl
theorem ceil_neg (m : Nat) : ceil f64 (.fin true m) = .fin true (m / S * S) := by unfold S; rfl
theorem round_fin (b : Bool) (m : Nat) : round' f64 (.fin b m) = .fin b ((2 * m + S) / (2 * S) * S) := by unfold S; rfl

theorem down_bounds (m : Nat) : m / S * S ≤ m ∧ m < m / S * S + S := by
  have h1 := Nat.div_add_mod m S
  have h2 := Nat.mod_lt m s_pos
  rw [Nat.mul_comm] at h1
  omega

theorem up_bounds (m : Nat) : m ≤ (m + (S - 1)) / S * S ∧ (m + (S - 1)) / S * S < m + S := by
  have := down_bounds (m + (S - 1))
  have := s_pos
  omega

theorem near_bounds (m : Nat) :
    2 * ((2 * m + S) / (2 * S) * S) ≤ 2 * m + S ∧ 2 * m < 2 * ((2 * m + S) / (2 * S) * S) + S := by
  have hp : 0 < 2 * S := Nat.mul_pos (by decide) s_pos
  have h1 := Nat.div_add_mod (2 * m + S) (2 * S)
  have h2 := Nat.mod_lt (2 * m + S) hp
  have h3 : 2 * S * ((2 * m + S) / (2 * S)) = 2 * ((2 * m + S) / (2 * S) * S) := by ac_rfl
  rw [h3] at h1
  omega

/-- A whole number close to a double is a double. -/
theorem whole_double {m q : Nat} (h : ∃ a k, m = a * 2 ^ k ∧ a < 2 ^ 53) (h1 : q * S < m + S)
    (h2 : S ∣ m → q * S = m) : ∃ a k, q * S = a * 2 ^ k ∧ a < 2 ^ 53 := by
  obtain ⟨a, k, rfl, ha⟩ := h
  by_cases hk : 1074 ≤ k
  · rw [h2 ?_]
    · exact ⟨a, k, rfl, ha⟩
    · have hS : S = 2 ^ 1074 := by unfold S; rfl
      rw [hS]
      exact Nat.dvd_mul_left_of_dvd (Nat.pow_dvd_pow 2 hk) a
  · have hS : S = 2 ^ (1074 - k) * 2 ^ k := by
      rw [← Nat.pow_add, show 1074 - k + k = 1074 by omega]
      unfold S
      rfl
    refine ⟨q, 1074, ?_, ?_⟩
    · unfold S
      rfl
    · have h3 : q * 2 ^ (1074 - k) < a + 2 ^ (1074 - k) := by
        have : q * 2 ^ (1074 - k) * 2 ^ k < (a + 2 ^ (1074 - k)) * 2 ^ k := by
          rw [Nat.add_mul, ← hS, Nat.mul_assoc, ← hS]
          exact h1
        exact Nat.lt_of_mul_lt_mul_right this
      obtain ⟨j, hj⟩ : ∃ j, 1074 - k = j + 1 := ⟨1073 - k, by omega⟩
      rw [hj, Nat.pow_succ] at h3
      have hp : 1 ≤ 2 ^ j := Nat.one_le_two_pow
      generalize hg : 2 ^ j = p at h3 hp
      cases Nat.lt_or_ge q (2 ^ 53) with
      | inl h => exact h
      | inr h =>
        exfalso
        obtain ⟨c, rfl⟩ : ∃ c, q = 2 + c := ⟨q - 2, by omega⟩
        rw [Nat.add_mul] at h3
        have h4 : c * 1 ≤ c * p := Nat.mul_le_mul_left _ hp
        have h5 : c * (p * 2) = 2 * (c * p) := by ac_rfl
        omega

theorem down_dvd {m : Nat} (h : S ∣ m) : m / S * S = m := Nat.div_mul_cancel h

theorem up_dvd {m : Nat} (h : S ∣ m) : (m + (S - 1)) / S * S = m := by
  obtain ⟨c, rfl⟩ := h
  have := s_pos
  rw [Nat.mul_add_div s_pos, Nat.div_eq_of_lt (by omega : S - 1 < S), Nat.add_zero, Nat.mul_comm]

theorem near_dvd {m : Nat} (h : S ∣ m) : (2 * m + S) / (2 * S) * S = m := by
  obtain ⟨c, rfl⟩ := h
  have := s_pos
  have h3 : 2 * (S * c) = 2 * S * c := by ac_rfl
  rw [h3, Nat.mul_add_div (by omega), Nat.div_eq_of_lt (by omega : S < 2 * S), Nat.add_zero, Nat.mul_comm]

/-- C73: floor() gives the largest whole number which is not larger, exactly, with the same unit. -/
theorem C73_floor (env : Env α) (n : Int) (x : Fp) (unit : Str) (hx : Finite x) :
    ∃ y, call env n b!"floor" [[.dec x unit]] = (.ok (.node (.dec y unit)) [], n) ∧ Finite y ∧
      (∃ k : Int, quanta y = k * unity ∧ k * unity ≤ quanta x ∧ quanta x < (k + 1) * unity) ∧
      (IsDouble x → IsDouble y) := by
  refine ⟨floor f64 x, rfl, ?_⟩
  rw [unity_eq]
  have := s_pos
  cases x with
  | nan => exact absurd hx id
  | inf b => exact absurd hx id
  | fin b m =>
    cases b with
    | false =>
      rw [floor_pos]
      have hb := down_bounds m
      refine ⟨trivial, ⟨(m / S : Nat), ?_, ?_, ?_⟩, fun h => whole_double h ?_ down_dvd⟩
      · show ((m / S * S : Nat) : Int) = _
        exact Int.natCast_mul _ _
      · rw [← Int.natCast_mul]
        show _ ≤ (m : Int)
        omega
      · rw [Int.add_mul, ← Int.natCast_mul, Int.one_mul]
        show (m : Int) < _
        omega
      · omega
    | true =>
      rw [floor_neg]
      have hb := up_bounds m
      refine ⟨trivial, ⟨-(((m + (S - 1)) / S : Nat) : Int), ?_, ?_, ?_⟩, fun h => whole_double h ?_ up_dvd⟩
      · show -(((m + (S - 1)) / S * S : Nat) : Int) = _
        rw [Int.natCast_mul, Int.neg_mul]
      · rw [Int.neg_mul, ← Int.natCast_mul]
        show _ ≤ -(m : Int)
        omega
      · rw [Int.add_mul, Int.neg_mul, ← Int.natCast_mul, Int.one_mul]
        show -(m : Int) < _
        omega
      · omega

/-- C73: ceil() gives the smallest whole number which is not smaller, exactly, with the same unit. -/
theorem C73_ceil (env : Env α) (n : Int) (x : Fp) (unit : Str) (hx : Finite x) :
    ∃ y, call env n b!"ceil" [[.dec x unit]] = (.ok (.node (.dec y unit)) [], n) ∧ Finite y ∧
      (∃ k : Int, quanta y = k * unity ∧ (k - 1) * unity < quanta x ∧ quanta x ≤ k * unity) ∧
      (IsDouble x → IsDouble y) := by
  refine ⟨ceil f64 x, rfl, ?_⟩
  rw [unity_eq]
  have := s_pos
  cases x with
  | nan => exact absurd hx id
  | inf b => exact absurd hx id
  | fin b m =>
    cases b with
    | true =>
      rw [ceil_neg]
      have hb := down_bounds m
      refine ⟨trivial, ⟨-((m / S : Nat) : Int), ?_, ?_, ?_⟩, fun h => whole_double h ?_ down_dvd⟩
      · show -((m / S * S : Nat) : Int) = _
        rw [Int.natCast_mul, Int.neg_mul]
      · rw [Int.sub_mul, Int.neg_mul, ← Int.natCast_mul, Int.one_mul]
        show _ < -(m : Int)
        omega
      · rw [Int.neg_mul, ← Int.natCast_mul]
        show -(m : Int) ≤ _
        omega
      · omega
    | false =>
      rw [ceil_pos]
      have hb := up_bounds m
      refine ⟨trivial, ⟨(((m + (S - 1)) / S : Nat) : Int), ?_, ?_, ?_⟩, fun h => whole_double h ?_ up_dvd⟩
      · show (((m + (S - 1)) / S * S : Nat) : Int) = _
        exact Int.natCast_mul _ _
      · rw [Int.sub_mul, ← Int.natCast_mul, Int.one_mul]
        show _ < (m : Int)
        omega
      · rw [← Int.natCast_mul]
        show (m : Int) ≤ _
        omega
      · omega

/-- C73: round() gives the closest whole number, the one away from zero when there are two, with the same unit. -/
theorem C73_round (env : Env α) (n : Int) (x : Fp) (unit : Str) (hx : Finite x) :
    ∃ y, call env n b!"round" [[.dec x unit]] = (.ok (.node (.dec y unit)) [], n) ∧ Finite y ∧
      (∃ k : Int, quanta y = k * unity ∧ 2 * (quanta y - quanta x).natAbs ≤ unity ∧
        (2 * (quanta y - quanta x).natAbs = unity → (quanta x).natAbs < (quanta y).natAbs)) ∧
      (IsDouble x → IsDouble y) := by
  refine ⟨round' f64 x, rfl, ?_⟩
  rw [unity_eq]
  have := s_pos
  cases x with
  | nan => exact absurd hx id
  | inf b => exact absurd hx id
  | fin b m =>
    rw [round_fin]
    have hb := near_bounds m
    cases b with
    | true =>
      refine ⟨trivial, ⟨-(((2 * m + S) / (2 * S) : Nat) : Int), ?_, ?_, ?_⟩, fun h => whole_double h ?_ near_dvd⟩
      · show -(((2 * m + S) / (2 * S) * S : Nat) : Int) = _
        rw [Int.natCast_mul, Int.neg_mul]
      · show 2 * ((-(((2 * m + S) / (2 * S) * S : Nat) : Int) - -(m : Int)).natAbs : Int) ≤ S
        omega
      · show 2 * ((-(((2 * m + S) / (2 * S) * S : Nat) : Int) - -(m : Int)).natAbs : Int) = S →
          (-(m : Int)).natAbs < (-(((2 * m + S) / (2 * S) * S : Nat) : Int)).natAbs
        omega
      · omega
    | false =>
      refine ⟨trivial, ⟨(((2 * m + S) / (2 * S) : Nat) : Int), ?_, ?_, ?_⟩, fun h => whole_double h ?_ near_dvd⟩
      · show (((2 * m + S) / (2 * S) * S : Nat) : Int) = _
        exact Int.natCast_mul _ _
      · show 2 * (((((2 * m + S) / (2 * S) * S : Nat) : Int) - (m : Int)).natAbs : Int) ≤ S
        omega
      · show 2 * (((((2 * m + S) / (2 * S) * S : Nat) : Int) - (m : Int)).natAbs : Int) = S →
          ((m : Int)).natAbs < ((((2 * m + S) / (2 * S) * S : Nat) : Int)).natAbs
        omega
      · omega

/-- C73: the integers are whole already; percentages are refused. -/
theorem C73_integers (env : Env α) (n : Int) (f : Str) (hf : f = b!"floor" ∨ f = b!"ceil" ∨ f = b!"round") (i : Int)
    (unit : Str) (p : Fp) :
    call env n f [[.int i unit]] = (.ok (.node (.int i unit)) [], n) ∧
    call env n f [[.pct p]] = (.ok .null [.expects f], n) := by
  rcases hf with rfl | rfl | rfl
  · exact ⟨rfl, rfl⟩
  · exact ⟨rfl, rfl⟩
  · exact ⟨rfl, rfl⟩

/-- C73: abs() is the absolute value, with the same unit; the only exception is the smallest integer_t, whose absolute value
does not exist (undefined behaviour). -/
theorem C73_abs (env : Env α) (n : Int) (unit : Str) :
    (∀ i : Int, -9223372036854775808 < i → i ≤ 9223372036854775807 →
      call env n b!"abs" [[.int i unit]] = (.ok (.node (.int i.natAbs unit)) [], n)) ∧
    call env n b!"abs" [[.int (-9223372036854775808) unit]] = (.undef, n) ∧
    (∀ x, Finite x → ∃ y, call env n b!"abs" [[.dec x unit]] = (.ok (.node (.dec y unit)) [], n) ∧ Finite y ∧
      quanta y = (quanta x).natAbs) := by
  refine ⟨?_, rfl, ?_⟩
  · intro i h1 h2
    show (if IsI64 (i.natAbs : Int) then val (.int i.natAbs unit) else .undef, n) = _
    rw [if_pos (by unfold IsI64; omega)]
    rfl
  · intro x hx
    refine ⟨fabs x, rfl, ?_⟩
    cases x with
    | nan => exact absurd hx id
    | inf b => exact absurd hx id
    | fin b m =>
      refine ⟨trivial, ?_⟩
      cases b with
      | true => exact (Int.natAbs_neg (m : Int)).symm ▸ rfl
      | false => rfl

end Csspp.Func
