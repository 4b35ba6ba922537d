import Verif.Model.Digits
import Verif.Spec.Text

namespace Csspp
open Csspp.Spec

theorem decVal_foldl (v : Nat) (s : Str) :
    s.foldl (fun v c => 10 * v + (c - 48)) v = v * 10 ^ s.length + decVal s := by
  unfold decVal
  induction s generalizing v with
  | nil => simp
  | cons c cs ih =>
    rw [List.foldl_cons, List.foldl_cons, ih, ih (10 * 0 + (c - 48)), List.length_cons,
      Nat.pow_succ, Nat.add_mul, Nat.add_mul]
    have e1 : 10 * v * 10 ^ cs.length = v * (10 ^ cs.length * 10) := by
      rw [Nat.mul_comm 10 v, Nat.mul_assoc, Nat.mul_comm 10]
    omega

theorem decVal_cons (c : Nat) (cs : Str) :
    decVal (c :: cs) = (c - 48) * 10 ^ cs.length + decVal cs := by
  rw [decVal, List.foldl_cons, decVal_foldl]; simp

theorem decVal_append (a b : Str) : decVal (a ++ b) = decVal a * 10 ^ b.length + decVal b := by
  rw [decVal, List.foldl_append, decVal_foldl]; rfl

theorem natDigitsAux_append (f n : Nat) (acc : Str) :
    natDigitsAux f n acc = natDigitsAux f n [] ++ acc := by
  induction f generalizing n acc with
  | zero => simp [natDigitsAux]
  | succ f ih =>
    unfold natDigitsAux
    split
    · rfl
    · rw [ih, ih (n / 10) [48 + n % 10], List.append_assoc]; rfl

theorem natDigitsAux_spec (f n : Nat) (h : n < f) :
    Digits (natDigitsAux f n []) ∧ decVal (natDigitsAux f n []) = n := by
  induction f generalizing n with
  | zero => omega
  | succ f ih =>
    unfold natDigitsAux
    by_cases hn : n < 10
    · rw [if_pos hn]
      refine ⟨⟨by simp, ?_⟩, ?_⟩
      · intro c hc
        simp at hc; omega
      · rw [decVal_cons]; simp [decVal]
    · rw [if_neg hn, natDigitsAux_append]
      have := ih (n / 10) (by omega)
      refine ⟨⟨by simp, ?_⟩, ?_⟩
      · intro c hc
        rcases List.mem_append.mp hc with hc | hc
        · exact this.1.2 c hc
        · simp at hc; omega
      · rw [decVal_append, this.2, decVal_cons]
        simp [decVal]; omega

theorem natDigits_digits (n : Nat) : Digits (natDigits n) := (natDigitsAux_spec _ n (by omega)).1
theorem decVal_natDigits (n : Nat) : decVal (natDigits n) = n :=
  (natDigitsAux_spec _ n (by omega)).2

theorem natDigitsAux_length (f n k : Nat) (hk : 1 ≤ k) (h : n < 10 ^ k) :
    (natDigitsAux f n []).length ≤ k := by
  induction f generalizing n k with
  | zero => simp [natDigitsAux]
  | succ f ih =>
    unfold natDigitsAux
    by_cases hn : n < 10
    · rw [if_pos hn]; simpa using hk
    · rw [if_neg hn, natDigitsAux_append]
      obtain ⟨j, rfl⟩ : ∃ j, k = j + 1 := ⟨k - 1, by omega⟩
      have hj : 1 ≤ j := by
        rcases Nat.eq_zero_or_pos j with rfl | h'
        · simp at h; omega
        · exact h'
      have := ih (n / 10) j hj (by rw [Nat.pow_succ] at h; omega)
      simp; omega

theorem natDigits_length {n k : Nat} (hk : 1 ≤ k) (h : n < 10 ^ k) : (natDigits n).length ≤ k :=
  natDigitsAux_length _ n k hk h

/-- No leading zero, except for the number zero itself. -/
theorem natDigitsAux_head (f n : Nat) (h : n < f) (h0 : 0 < n) :
    ∃ c t, natDigitsAux f n [] = c :: t ∧ c ≠ 48 := by
  induction f generalizing n with
  | zero => omega
  | succ f ih =>
    unfold natDigitsAux
    by_cases hn : n < 10
    · rw [if_pos hn]; exact ⟨48 + n, [], rfl, by omega⟩
    · rw [if_neg hn, natDigitsAux_append]
      obtain ⟨c, t, e, hc⟩ := ih (n / 10) (by omega) (by omega)
      rw [e]
      exact ⟨c, t ++ [48 + n % 10], rfl, hc⟩

end Csspp
