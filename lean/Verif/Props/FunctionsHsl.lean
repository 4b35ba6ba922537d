import Verif.Props.FunctionsPart
import Verif.Lemmas.FltBound

/-!
C80: the HSL colors.
-/

namespace Csspp.Func
open Csspp.Flt Csspp.Expr Csspp.Spec

variable {α : Type}

theorem p64 : 0 < f64.prec := by decide
theorem p32 : 0 < f32.prec := by decide

theorem pow_S : 2 ^ f64.scale = S := by unfold S; rfl

theorem lit_nil : lit 0 = .fin false 0 := by
  have h := ofInt_exact 0 (by decide)
  have g : (0 : Int).natAbs * S = 0 := Nat.zero_mul S
  rw [g] at h
  exact h

theorem bd_lit (i : Int) (K : Nat) (h : i.natAbs ≤ 2 ^ K) (hK : K ≤ 53) : Bd f64 K (lit i) := by
  have h2 : i.natAbs ≤ 9007199254740992 := Nat.le_trans h (Nat.pow_le_pow_right (by decide) hK)
  refine ⟨_, _, ofInt_exact i h2, ?_⟩
  rw [Nat.pow_add]
  unfold S
  exact Nat.mul_le_mul_right _ h

theorem bd_fabs {K : Nat} {x : Fp} (h : Bd f64 K x) : Bd f64 K (fabs x) := by
  obtain ⟨b, m, rfl, h⟩ := h
  exact ⟨false, m, rfl, h⟩

/-- 2 * pi. -/
def twoPi : Fp := mul f64 pi (lit 2)

theorem twoPi_eq : ∃ m, twoPi = .fin false m ∧ 2 ^ f64.scale ≤ m ∧ m ≤ 2 ^ (3 + f64.scale) := by
  have h1 : twoPi = .fin false (Written.mag twoPi) := by decide +kernel
  exact ⟨_, h1, by decide +kernel, by decide +kernel⟩

theorem bd_fmod {K J : Nat} {x y : Fp} (hx : Bd f64 K x) {b : Bool} {m : Nat} (hy : y = .fin b m) (h0 : 0 < m)
    (hm : m ≤ 2 ^ (J + f64.scale)) : Bd f64 J (fmod x y) := by
  obtain ⟨a, n, rfl, _⟩ := hx
  subst hy
  refine ⟨a, n % m, ?_, Nat.le_trans (Nat.le_of_lt (Nat.mod_lt _ h0)) hm⟩
  show (if m = 0 then _ else _) = _
  rw [if_neg (by omega)]

theorem bd_sextant {h : Fp} {K : Nat} (hK : K < 128) (hb : Bd f32 K h) : Bd f64 6 (sextant h) := by
  obtain ⟨m, hm, h1, h2⟩ := twoPi_eq
  have hp : 0 < m := Nat.lt_of_lt_of_le (Nat.two_pow_pos _) h1
  have hc : Bd f64 K (convert f32 f64 h) := hb.convert p64 (show K < 1024 by omega)
  have hf : Bd f64 3 (fmod (convert f32 f64 h) twoPi) := bd_fmod hc hm hp h2
  have hmul : Bd f64 (3 + 3) (mul f64 (lit 6) (fmod (convert f32 f64 h) twoPi)) :=
    Bd.mul p64 (show 3 + 3 < 1024 by decide) (bd_lit 6 3 (by decide) (by decide)) hf
  have := Bd.div p64 (show 6 < 1024 by decide) hmul (b := false) h1
  rw [← hm] at this
  exact this

theorem bd_chroma_factor {l : Fp} {K : Nat} (hK : 1 ≤ K) (hK2 : K < 100) (hl : Bd f32 K l) :
    Bd f64 (K + 3) (sub f64 (lit 1) (fabs (sub f64 (mul f64 (lit 2) (convert f32 f64 l)) (lit 1)))) := by
  have h1 : Bd f64 K (convert f32 f64 l) := hl.convert p64 (show K < 1024 by omega)
  have h2 := Bd.mul (J := 1) p64 (show 1 + K < 1024 by omega) (bd_lit 2 1 (by decide) (by decide)) h1
  have h3 : Bd f64 (1 + K + 1) (sub f64 (mul f64 (lit 2) (convert f32 f64 l)) (lit 1)) :=
    Bd.sub p64 (show 1 + K + 1 < 1024 by omega) h2 ((bd_lit 1 0 (by decide) (by decide)).mono (by omega))
  have h4 := Bd.sub p64 (show 1 + K + 1 + 1 < 1024 by omega) ((bd_lit 1 0 (by decide) (by decide)).mono (Nat.zero_le _)) (bd_fabs h3)
  exact h4.mono (by omega)

theorem bd_second_factor {h1 : Fp} (hb : Bd f64 6 h1) :
    Bd f64 3 (sub f64 (lit 1) (fabs (sub f64 (fmod h1 (lit 2)) (lit 1)))) := by
  have e2 : lit 2 = .fin false (2 * S) := ofInt_exact 2 (by decide)
  have gen : ∀ z : Nat, 2 * z ≤ 2 ^ 1 * z := fun z => Nat.le_refl _
  have hm : Bd f64 1 (fmod h1 (lit 2)) := bd_fmod hb e2 (Nat.mul_pos (by decide) s_pos) (by
    rw [Nat.pow_add, pow_S]
    exact gen S)
  have h3 := Bd.sub p64 (show 1 + 1 < 1024 by decide) hm ((bd_lit 1 0 (by decide) (by decide)).mono (by decide))
  exact Bd.sub p64 (show 1 + 1 + 1 < 1024 by decide) ((bd_lit 1 0 (by decide) (by decide)).mono (by decide)) (bd_fabs h3)

theorem hslRgb_zero {c x h : Fp} (hc : Zero c) (hx : Zero x) :
    Zero (hslRgb c x h).1 ∧ Zero (hslRgb c x h).2.1 ∧ Zero (hslRgb c x h).2.2 := by
  have h0 : Zero (lit 0) := ⟨false, lit_nil⟩
  unfold hslRgb
  generalize lit 0 = z0 at *
  generalize lit 1 = z1
  generalize lit 2 = z2
  generalize lit 3 = z3
  generalize lit 4 = z4
  generalize lit 5 = z5
  generalize lit 6 = z6
  repeat' split
  all_goals (refine ⟨?_, ?_, ?_⟩ <;> assumption)

/-- A double as a float and back. -/
theorem float_back {l : Fp} {K : Nat} (hK : K < 128) (hl : Bd f32 K l) (hs : IsFloat l) :
    ∃ b m, l = .fin b m ∧ convert f32 f64 l = .fin b (m * T) ∧ Short 53 (m * T) ∧ convert f64 f32 (.fin b (m * T)) = .fin b m := by
  obtain ⟨b, m, rfl, hm⟩ := hl
  obtain ⟨a, k, rfl, ha⟩ := hs
  have hS : 2 ^ f64.scale = S := by unfold S; rfl
  have hsh : Short 53 (a * 2 ^ k * T) := by
    rw [Nat.mul_assoc]
    exact short_t (Nat.lt_trans ha (by decide))
  refine ⟨b, _, rfl, ?_, hsh, ?_⟩
  · show round f64 b (a * 2 ^ k * 2 ^ f64.scale) (2 ^ 149) = _
    have hR := roundMag_bd (prec := f64.prec) p64 (K + f64.scale) (p := a * 2 ^ k * 2 ^ f64.scale) (q := 2 ^ 149)
      (Nat.two_pow_pos _) (by
        refine Nat.le_trans (Nat.mul_le_mul_right _ hm) ?_
        rw [← Nat.pow_add, ← Nat.pow_add]
        exact Nat.pow_le_pow_right (by decide) (by show K + 149 + 1074 ≤ K + 1074 + 149; omega))
    have e : a * 2 ^ k * 2 ^ f64.scale = a * 2 ^ k * T * 2 ^ 149 := by
      rw [hS, s_eq, Nat.mul_comm (2 ^ 149) T, ← Nat.mul_assoc]
    have h2 : roundMag f64.prec (a * 2 ^ k * T * 2 ^ 149) (2 ^ 149) = a * 2 ^ k * T :=
      roundMag_short (by decide) (Nat.two_pow_pos _) hsh
    rw [e, h2] at hR
    unfold round
    rw [e, h2, if_pos]
    exact Nat.lt_of_le_of_lt hR (Nat.pow_lt_pow_right (by decide) (by show K + 1074 < 1074 + 1024; omega))
  · show round f32 b (a * 2 ^ k * T * 2 ^ 149) (2 ^ f64.scale) = _
    rw [hS, s_eq, Nat.mul_assoc, Nat.mul_comm T]
    unfold round
    have h2 : roundMag f32.prec (a * 2 ^ k * (2 ^ 149 * T)) (2 ^ 149 * T) = a * 2 ^ k :=
      roundMag_short (by decide) (Nat.mul_pos (Nat.two_pow_pos _) t_pos) (Short.mul_pow ha k)
    rw [h2, if_pos]
    exact Nat.lt_of_le_of_lt hm (Nat.pow_lt_pow_right (by decide) (by show K + 149 < 149 + 128; omega))

/-- Adding a zero. -/
theorem add_zero_left {z : Fp} (hz : Zero z) {b : Bool} {m : Nat} (hs : Short 53 m) (hm : m < 2 ^ (f64.scale + f64.limit)) :
    ∃ b', add f64 z (.fin b m) = .fin b' m ∧ (m ≠ 0 → b' = b) := by
  obtain ⟨a, rfl⟩ := hz
  have h0 : signed a 0 = 0 := by cases a <;> rfl
  show ∃ b', (if signed a 0 + signed b m = 0 then _ else _) = _ ∧ _
  rw [h0, Int.zero_add]
  by_cases h : signed b m = 0
  · have hm0 : m = 0 := by
      unfold signed at h
      split at h <;> omega
    subst hm0
    rw [if_pos h]
    exact ⟨_, rfl, fun h => absurd rfl h⟩
  · rw [if_neg h]
    refine ⟨b, ?_, fun _ => rfl⟩
    have h1 : (signed b m).natAbs = m := by
      unfold signed
      split <;> omega
    have h2 : decide (signed b m < 0) = b := by
      cases b with
      | false => exact decide_eq_false (by show ¬ (m : Int) < 0; omega)
      | true =>
        have : m ≠ 0 := by rintro rfl; exact h rfl
        exact decide_eq_true (by show -(m : Int) < 0; omega)
    rw [h1, h2]
    unfold round
    have h3 : roundMag f64.prec m 1 = m := by
      have := roundMag_short (prec := f64.prec) (q := 1) (by decide) (by decide) hs
      rwa [Nat.mul_one] at this
    rw [h3, if_pos hm]

theorem sub_zero {z : Fp} (hz : Zero z) {b : Bool} {m : Nat} (hs : Short 53 m) (hm : m < 2 ^ (f64.scale + f64.limit)) :
    ∃ b', sub f64 (.fin b m) z = .fin b' m ∧ (m ≠ 0 → b' = b) := by
  obtain ⟨a, rfl⟩ := hz
  have comm : ∀ (a b : Bool) (m : Nat), add f64 (.fin b m) (.fin a 0) = add f64 (.fin a 0) (.fin b m) := by
    intro a b m
    have g : ∀ x y : Nat, (if x = 0 ∧ y = 0 then (b && a) else false) = (if y = 0 ∧ x = 0 then (a && b) else false) := by
      intro x y
      cases x <;> cases y <;> simp [Bool.and_comm]
    unfold add
    dsimp only
    rw [Int.add_comm (signed b m), g]
  unfold sub neg
  dsimp only
  rw [comm]
  exact add_zero_left ⟨_, rfl⟩ hs hm

end Csspp.Func
