import Verif.Props.Functions
import Verif.Lemmas.FltErr
import Verif.Lemmas.FltBound

/-!
C85: the angles of cos(), sin() and tan(); acos(), asin(), atan() and log().
-/

namespace Csspp.Func
open Csspp.Flt Csspp.Expr Csspp.Spec

variable {α : Type}

/-! ### The error of the conversion -/

/-- The magnitude of M_PI. -/
@[irreducible] def piMag : Nat := 7074237752028440 * 2 ^ 1023
/-- 1 -/
@[irreducible] def one64 : Nat := 2 ^ 1074

theorem pi_value : pi = .fin false piMag := by unfold piMag; rfl
theorem one64_eq : one64 = 2 ^ 1074 := by unfold one64; rfl
theorem one64_pos : 0 < one64 := by unfold one64; decide +kernel
theorem piMag_le : piMag ≤ 4 * one64 := by unfold piMag one64; decide +kernel
theorem lit_eq (n : Nat) (h : n < 2 ^ 53) : lit n = .fin false (n * one64) := by
  unfold lit ofInt round
  rw [one64_eq]
  have hs : Short f64.prec (n * 2 ^ f64.scale) := ⟨n, f64.scale, rfl, h⟩
  have h1 := roundMag_short (prec := f64.prec) (q := 1) (by decide) (by decide) hs
  rw [Nat.mul_one] at h1
  rw [show ((n : Int).natAbs) = n by omega, h1, if_pos]
  · congr 1
  · rw [Nat.pow_add, Nat.mul_comm]
    refine Nat.mul_lt_mul_of_pos_left (Nat.lt_trans h ?_) (Nat.two_pow_pos _)
    exact Nat.pow_lt_pow_right (by decide) (by decide)

/-- A rounding of a number of at most 2^K. -/
theorem round_near {K p q : Nat} (hK : K < 1024) (neg : Bool) (hq : 0 < q) (h : p ≤ 2 ^ K * one64 * q) :
    ∃ u, round f64 neg p q = .fin neg u ∧ Short 53 u ∧ u ≤ 2 ^ K * one64 ∧
      2 ^ 53 * (u * q) ≤ 2 ^ 53 * p + 2 ^ K * one64 * q ∧ 2 ^ 53 * p ≤ 2 ^ 53 * (u * q) + 2 ^ K * one64 * q := by
  rw [one64_eq, ← Nat.pow_add] at h ⊢
  obtain ⟨u, h1, h2⟩ := round_bd (f := f64) (by decide) hK neg hq h
  have hu : u = roundMag 53 p q := by
    unfold round at h1
    split at h1
    · injection h1 with _ h1
      exact h1.symm
    · cases h1
  refine ⟨u, h1, hu ▸ short_roundMag (by decide) hq, h2, ?_⟩
  have hlt : p / q < 2 ^ (K + 1074 + 1) := by
    rw [Nat.div_lt_iff_lt_mul hq]
    refine Nat.lt_of_le_of_lt h (Nat.mul_lt_mul_of_pos_right ?_ hq)
    exact Nat.pow_lt_pow_right (by decide) (by omega)
  have he := roundMag_error (prec := 53) (K + 1074 + 1) (by decide) hq hlt (by omega)
  rw [← hu] at he
  rw [show K + 1074 + 1 - 53 = K + 1022 by omega] at he
  rw [show K + 1074 = (K + 1022) + 52 by omega, Nat.pow_add 2 (K + 1022) 52]
  generalize 2 ^ (K + 1022) = c at he ⊢
  generalize u * q = y at he ⊢
  rw [show c * 2 ^ 52 * q = 2 ^ 52 * (q * c) by rw [Nat.mul_comm c, Nat.mul_assoc, Nat.mul_comm c q]]
  generalize q * c = z at he ⊢
  omega

/-- The product by M_PI. -/
theorem mul_pi {neg : Bool} {m K : Nat} (hK : K ≤ 900) (hm : m ≤ 2 ^ K * one64) :
    ∃ u, mul f64 (.fin neg m) pi = .fin neg u ∧ Short 53 u ∧ u ≤ 4 * (2 ^ K * one64) ∧
      2 ^ 53 * (u * one64) ≤ 2 ^ 53 * (m * piMag) + 4 * (2 ^ K * one64 * one64) ∧
      2 ^ 53 * (m * piMag) ≤ 2 ^ 53 * (u * one64) + 4 * (2 ^ K * one64 * one64) := by
  have h4 : 2 ^ (K + 2) = 4 * 2 ^ K := by rw [Nat.pow_add, Nat.mul_comm]
  have hp : m * piMag ≤ 2 ^ (K + 2) * one64 * one64 := by
    refine Nat.le_trans (Nat.mul_le_mul hm piMag_le) (Nat.le_of_eq ?_)
    rw [h4]
    simp only [Nat.mul_left_comm, Nat.mul_comm, Nat.mul_assoc]
  obtain ⟨u, h1, h2, h3, h5, h6⟩ := round_near (K := K + 2) (by omega) neg one64_pos hp
  refine ⟨u, ?_, h2, ?_, ?_, ?_⟩
  · rw [pi_value]
    show round f64 (neg != false) (m * piMag) (2 ^ 1074) = _
    rw [← one64_eq, ← h1]
    cases neg <;> rfl
  · rwa [h4, Nat.mul_assoc] at h3
  · rwa [h4, Nat.mul_assoc, Nat.mul_assoc, ← Nat.mul_assoc (2 ^ K)] at h5
  · rwa [h4, Nat.mul_assoc, Nat.mul_assoc, ← Nat.mul_assoc (2 ^ K)] at h6

/-- Times M_PI, divided by a number. -/
theorem by_near {neg : Bool} {m K : Nat} (hK : K ≤ 900) (hm : m ≤ 2 ^ K * one64) (d : Nat) (hd : 4 ≤ d) (hd' : d ≤ 250) :
    ∃ v, div f64 (mul f64 (.fin neg m) pi) (lit d) = .fin neg v ∧
      2 ^ 45 * (d * v * one64) ≤ 2 ^ 45 * (m * piMag) + 2 ^ K * one64 * one64 ∧
      2 ^ 45 * (m * piMag) ≤ 2 ^ 45 * (d * v * one64) + 2 ^ K * one64 * one64 := by
  obtain ⟨u, h1, h2, h3, h4, h5⟩ := mul_pi (neg := neg) hK hm
  have hq : 0 < d * one64 := Nat.mul_pos (by omega) one64_pos
  have hp : u * one64 ≤ 2 ^ K * one64 * (d * one64) := by
    refine Nat.le_trans (Nat.mul_le_mul_right _ h3) ?_
    rw [show 2 ^ K * one64 * (d * one64) = d * (2 ^ K * one64) * one64 by
      rw [← Nat.mul_assoc, Nat.mul_comm (2 ^ K * one64) d]]
    exact Nat.mul_le_mul_right _ (Nat.mul_le_mul_right _ hd)
  obtain ⟨v, g1, g2, g3, g4, g5⟩ := round_near (K := K) (by omega) neg hq hp
  refine ⟨v, ?_, ?_⟩
  · rw [h1, lit_eq d (Nat.lt_of_le_of_lt hd' (by decide +kernel))]
    show (if d * one64 = 0 then _ else round f64 (neg != false) (u * 2 ^ 1074) (d * one64)) = _
    rw [if_neg (by omega), ← one64_eq, ← g1]
    cases neg <;> rfl
  · rw [show v * (d * one64) = d * v * one64 by rw [← Nat.mul_assoc, Nat.mul_comm v d]] at g4 g5
    rw [show 2 ^ K * one64 * (d * one64) = d * (2 ^ K * one64 * one64) by
      simp only [Nat.mul_left_comm, Nat.mul_comm, Nat.mul_assoc]] at g4 g5
    have hz : d * (2 ^ K * one64 * one64) ≤ 250 * (2 ^ K * one64 * one64) := Nat.mul_le_mul_right _ hd'
    generalize d * (2 ^ K * one64 * one64) = z at *
    generalize 2 ^ K * one64 * one64 = w at *
    generalize d * v * one64 = a at *
    generalize u * one64 = b at *
    generalize m * piMag = c at *
    omega

/-- Times M_PI and 2. -/
theorem turn_near {neg : Bool} {m K : Nat} (hK : K ≤ 900) (hm : m ≤ 2 ^ K * one64) :
    ∃ v, mul f64 (mul f64 (.fin neg m) pi) (lit 2) = .fin neg v ∧
      2 ^ 45 * (v * one64) ≤ 2 ^ 45 * (2 * (m * piMag)) + 2 ^ K * one64 * one64 ∧
      2 ^ 45 * (2 * (m * piMag)) ≤ 2 ^ 45 * (v * one64) + 2 ^ K * one64 * one64 := by
  obtain ⟨u, h1, h2, h3, h4, h5⟩ := mul_pi (neg := neg) hK hm
  have hs : Short 53 (2 * u) := by
    obtain ⟨a, k, rfl, ha⟩ := h2
    exact ⟨a, k + 1, by rw [Nat.pow_succ, Nat.mul_comm, Nat.mul_assoc], ha⟩
  refine ⟨2 * u, ?_, ?_⟩
  · have := lit_eq 2 (by decide +kernel)
    rw [h1, show lit 2 = _ from this]
    show round f64 (neg != false) (u * (2 * one64)) (2 ^ 1074) = _
    rw [← one64_eq, show u * (2 * one64) = 2 * u * one64 by rw [← Nat.mul_assoc, Nat.mul_comm u 2]]
    unfold round
    rw [show f64.prec = 53 from rfl, roundMag_short (by decide) one64_pos hs, if_pos]
    · cases neg <;> rfl
    · have hk : 2 ^ K ≤ 2 ^ 900 := Nat.pow_le_pow_right (by decide) hK
      refine Nat.lt_of_le_of_lt (Nat.mul_le_mul_left 2 h3) ?_
      refine Nat.lt_of_le_of_lt (Nat.mul_le_mul_left 2 (Nat.mul_le_mul_left 4 (Nat.mul_le_mul_right _ hk))) ?_
      rw [one64_eq]
      decide +kernel
  · rw [Nat.mul_assoc 2 u one64]
    generalize 2 ^ K * one64 * one64 = w at *
    generalize u * one64 = b at *
    generalize m * piMag = c at *
    omega

/-! ### The statement -/

/-- `a / b` turns of π: the angle of 1 deg is π / 180. -/
inductive AngleUnit : Str → Int → Int → Prop where
  | none : AngleUnit [] 1 180
  | deg : AngleUnit b!"deg" 1 180
  | grad : AngleUnit b!"grad" 1 200
  | turn : AngleUnit b!"turn" 2 1

/-- r is x * π * a / b; b * r is at most 2^(K - 45) away from x * π * a. -/
def Radians (K : Nat) (x : Fp) (a b : Int) (r : Fp) : Prop :=
  Finite r ∧ 2 ^ 45 * (b * quanta r * unity - a * (quanta x * quanta pi)) ≤ 2 ^ K * unity * unity ∧
    2 ^ 45 * (a * (quanta x * quanta pi) - b * quanta r * unity) ≤ 2 ^ K * unity * unity

/-- The function of the C library behind a function. -/
inductive Trig (env : Env α) : Str → (Fp → Fp) → Prop where
  | cos : Trig env b!"cos" env.cos
  | sin : Trig env b!"sin" env.sin
  | tan : Trig env b!"tan" env.tan

theorem call_trig {env : Env α} {f : Str} {g : Fp → Fp} (h : Trig env f g) (n : Int) (a : List (Val α)) :
    call env n f [a] = (fTrig f g [a], n) := by
  cases h <;> rfl

theorem unity_value : unity = (one64 : Int) := by
  rw [one64_eq]
  unfold unity
  rw [Int.natCast_pow]
  rfl

/-- The two inequalities, with signs. -/
theorem radians_of {K m v a b : Nat} {neg : Bool}
    (h1 : 2 ^ 45 * (b * v * one64) ≤ 2 ^ 45 * (a * (m * piMag)) + 2 ^ K * one64 * one64)
    (h2 : 2 ^ 45 * (a * (m * piMag)) ≤ 2 ^ 45 * (b * v * one64) + 2 ^ K * one64 * one64) :
    Radians K (.fin neg m) a b (.fin neg v) := by
  refine ⟨trivial, ?_⟩
  rw [pi_value, unity_value, show quanta (.fin false piMag) = (piMag : Int) from rfl]
  have e1 : ((b * v * one64 : Nat) : Int) = (b : Int) * v * one64 := by rw [Int.natCast_mul, Int.natCast_mul]
  have e2 : ((a * (m * piMag) : Nat) : Int) = (a : Int) * (m * piMag) := by rw [Int.natCast_mul, Int.natCast_mul]
  have e3 : ((2 ^ K * one64 * one64 : Nat) : Int) = 2 ^ K * one64 * one64 := by
    rw [Int.natCast_mul, Int.natCast_mul, Int.natCast_pow]
    rfl
  rw [← e3]
  generalize 2 ^ K * one64 * one64 = w at h1 h2 ⊢
  cases neg
  · rw [show quanta (.fin false v) = (v : Int) from rfl, show quanta (.fin false m) = (m : Int) from rfl, ← e1, ← e2]
    generalize b * v * one64 = x at h1 h2 ⊢
    generalize a * (m * piMag) = y at h1 h2 ⊢
    omega
  · rw [show quanta (.fin true v) = -(v : Int) from rfl, show quanta (.fin true m) = -(m : Int) from rfl,
      show (b : Int) * -(v : Int) * one64 = -((b : Int) * v * one64) by rw [Int.mul_neg, Int.neg_mul],
      show (a : Int) * (-(m : Int) * piMag) = -((a : Int) * (m * piMag)) by rw [Int.neg_mul, Int.mul_neg], ← e1, ← e2]
    generalize b * v * one64 = x at h1 h2 ⊢
    generalize a * (m * piMag) = y at h1 h2 ⊢
    omega

/-- C85: cos(), sin() and tan() of an angle of `x` degrees, grads, or turns (degrees when there is no unit) is the function
of the C library at that angle in radians, with an error of at most 2^-45 of the power of two above x. The result has no unit. -/
theorem C85_angles (env : Env α) (n : Int) (f : Str) (g : Fp → Fp) (hf : Trig env f g) (u : Str) (a b : Int)
    (hu : AngleUnit u a b) (K : Nat) (hK : K ≤ 900) (x : Fp) (hx : Finite x) (hm : (quanta x).natAbs ≤ 2 ^ K * unity.natAbs) :
    ∃ r, Radians K x a b r ∧ call env n f [[.dec x u]] = (.ok (.node (.dec (g r) [])) [], n) ∧
      ∀ i : Int, x = toDouble i → call env n f [[.int i u]] = (.ok (.node (.dec (g r) [])) [], n) := by
  obtain ⟨neg, m, rfl⟩ : ∃ neg m, x = .fin neg m := by
    cases x with
    | nan => exact absurd hx id
    | inf _ => exact absurd hx id
    | fin neg m => exact ⟨neg, m, rfl⟩
  replace hm : m ≤ 2 ^ K * one64 := by
    rw [unity_value, Int.natAbs_natCast] at hm
    cases neg
    · rw [show quanta (.fin false m) = (m : Int) from rfl] at hm
      omega
    · rw [show quanta (.fin true m) = -(m : Int) from rfl] at hm
      omega
  have hr : ∃ r, Radians K (.fin neg m) a b r ∧ toRadians (.fin neg m) u = (r, []) := by
    cases hu with
    | none =>
      obtain ⟨v, h1, h2, h3⟩ := by_near (neg := neg) hK hm 180 (by decide) (by decide)
      refine ⟨.fin neg v, radians_of (a := 1) (b := 180) (by rwa [Nat.one_mul]) (by rwa [Nat.one_mul]), ?_⟩
      rw [← h1]
      rfl
    | deg =>
      obtain ⟨v, h1, h2, h3⟩ := by_near (neg := neg) hK hm 180 (by decide) (by decide)
      refine ⟨.fin neg v, radians_of (a := 1) (b := 180) (by rwa [Nat.one_mul]) (by rwa [Nat.one_mul]), ?_⟩
      rw [← h1]
      rfl
    | grad =>
      obtain ⟨v, h1, h2, h3⟩ := by_near (neg := neg) hK hm 200 (by decide) (by decide)
      refine ⟨.fin neg v, radians_of (a := 1) (b := 200) (by rwa [Nat.one_mul]) (by rwa [Nat.one_mul]), ?_⟩
      rw [← h1]
      rfl
    | turn =>
      obtain ⟨v, h1, h2, h3⟩ := turn_near (neg := neg) hK hm
      refine ⟨.fin neg v, radians_of (a := 2) (b := 1) (by rwa [Nat.one_mul]) (by rwa [Nat.one_mul]), ?_⟩
      rw [← h1]
      rfl
  obtain ⟨r, h1, h2⟩ := hr
  refine ⟨r, h1, ?_, fun i hi => ?_⟩
  · rw [call_trig hf]
    show (match toRadians (.fin neg m) u with
      | (r, es) => (Res.ok (.node (.dec (g r) [])) es : Res α), n) = _
    rw [h2]
  · rw [call_trig hf]
    show (match toRadians (toDouble i) u with
      | (r, es) => (Res.ok (.node (.dec (g r) [])) es : Res α), n) = _
    rw [← hi, h2]

/-- C85: M_PI has sixteen exact digits. -/
theorem C85_pi : 3141592653589793 * unity < 1000000000000000 * quanta pi ∧
    1000000000000000 * quanta pi < 3141592653589794 * unity := by
  unfold pi quanta unity
  decide +kernel

/-- C85: radians are used as they are; any other unit is reported, and the number is used as radians. -/
theorem C85_radians (env : Env α) (n : Int) (f : Str) (g : Fp → Fp) (hf : Trig env f g) (x : Fp) (u : Str) :
    call env n f [[.dec x b!"rad"]] = (.ok (.node (.dec (g x) [])) [], n) ∧
    (u ≠ b!"rad" → (∀ a b, ¬ AngleUnit u a b) → call env n f [[.dec x u]] = (.ok (.node (.dec (g x) [])) [.angle], n)) := by
  constructor
  · rw [call_trig hf]
    rfl
  · intro h1 h2
    have h3 : ¬ (u = b!"deg" ∨ u = []) := by
      rintro (rfl | rfl)
      · exact h2 _ _ .deg
      · exact h2 _ _ .none
    have h4 : u ≠ b!"grad" := by rintro rfl; exact h2 _ _ .grad
    have h5 : u ≠ b!"turn" := by rintro rfl; exact h2 _ _ .turn
    rw [call_trig hf]
    show (match toRadians x u with
      | (r, es) => (Res.ok (.node (.dec (g r) [])) es : Res α), n) = _
    unfold toRadians
    rw [if_neg h1, if_neg h3, if_neg h4, if_neg h5]

/-- The inverse functions. -/
inductive Arc (env : Env α) : Str → (Fp → Fp) → Prop where
  | acos : Arc env b!"acos" env.acos
  | asin : Arc env b!"asin" env.asin
  | atan : Arc env b!"atan" env.atan

/-- C85: the inverse functions give radians, so that they can be given to cos(), sin() and tan() as they are. The unit of
their argument is ignored, without a message. -/
theorem C85_inverse (env : Env α) (n : Int) (f h : Str) (g k : Fp → Fp) (hf : Arc env f g) (hh : Trig env h k) (x : Fp) (u : Str) :
    call env n f [[.dec x u]] = (.ok (.node (.dec (g x) b!"rad")) [], n) ∧
      call env n h [[.dec (g x) b!"rad"]] = (.ok (.node (.dec (k (g x)) [])) [], n) := by
  refine ⟨?_, (C85_radians env n h k hh (g x) []).1⟩
  cases hf <;> rfl

/-- C85: log() takes a positive number without a unit. -/
theorem C85_log (env : Env α) (n : Int) (x : Fp) (u : Str) :
    (u ≠ [] → call env n b!"log" [[.dec x u]] = (.ok .null [.logUnit], n)) ∧
    (Finite x → quanta x ≤ 0 → call env n b!"log" [[.dec x []]] = (.ok .null [.logPositive], n)) ∧
    (Finite x → 0 < quanta x → call env n b!"log" [[.dec x []]] = (.ok (.node (.dec (env.log x) [])) [], n)) := by
  have h0 : lit 0 = .fin false 0 := by
    have := lit_eq 0 (by decide +kernel)
    rwa [Nat.zero_mul] at this
  have hl : ∀ s m, le (.fin s m) (lit 0) = decide (quanta (.fin s m) ≤ 0) := by
    intro s m
    rw [h0]
    show decide (signed s m ≤ signed false 0) = _
    cases s <;> rfl
  have key : ∀ (x : Fp) (u : Str), call env n b!"log" [[.dec x u]] = (if u ≠ [] then fail .logUnit
      else if le x (lit 0) then fail .logPositive else val (.dec (env.log x) []), n) := fun _ _ => rfl
  refine ⟨fun h => ?_, fun hx h => ?_, fun hx h => ?_⟩
  · rw [key, if_pos h]
    rfl
  · cases x with
    | nan => exact absurd hx id
    | inf _ => exact absurd hx id
    | fin s m =>
      rw [key, if_neg (by simp), hl, if_pos (decide_eq_true h)]
      rfl
  · cases x with
    | nan => exact absurd hx id
    | inf _ => exact absurd hx id
    | fin s m =>
      rw [key, if_neg (by simp), hl, if_neg (by rw [decide_eq_true_iff]; omega)]
      rfl

/-! ### Examples -/

/-- 0.25turn -/
example (env : Env Nat) : ∃ r, Radians 1 (.fin false (2 ^ 1072)) 2 1 r ∧
    call env 0 b!"sin" [[.dec (.fin false (2 ^ 1072)) b!"turn"]] = (.ok (.node (.dec (env.sin r) [])) [], 0) := by
  obtain ⟨r, h1, h2, _⟩ := C85_angles env 0 _ _ .sin _ _ _ .turn 1 (by decide) (.fin false (2 ^ 1072)) trivial (by
    unfold quanta unity
    decide +kernel)
  exact ⟨r, h1, h2⟩
example (env : Env Nat) (x : Fp) : call env 0 b!"cos" [[.dec x b!"px"]] = (.ok (.node (.dec (env.cos x) [])) [.angle], 0) :=
  (C85_radians env 0 _ _ .cos x b!"px").2 (by decide) (by rintro a b ⟨⟩)

end Csspp.Func
