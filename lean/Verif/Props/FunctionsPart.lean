import Verif.Props.FunctionsColor

/-!
C76: the component of any color, exactly.
-/

namespace Csspp.Func
open Csspp.Flt Csspp.Expr Csspp.Spec

variable {α : Type}

/-- 2^925: a float is that many times larger in units of a double. -/
@[irreducible] def T : Nat := 2 ^ 925

theorem s_eq : S = 2 ^ 149 * T := by unfold S T; rw [← Nat.pow_add]; rfl
theorem t_pos : 0 < T := by unfold T; exact Nat.two_pow_pos _

theorem round_short {M q : Nat} (neg : Bool) (hs : Short 53 M) (hq : 0 < q) (hl : M ≤ 256 * S) :
    round f64 neg (M * q) q = .fin neg M := by
  unfold round
  have e : roundMag f64.prec (M * q) q = M := roundMag_short (by decide) hq hs
  rw [e, if_pos]
  have h1 : 256 * S < 2 ^ (f64.scale + f64.limit) := by
    rw [Nat.pow_add, Nat.mul_comm]
    unfold S
    refine Nat.mul_lt_mul_of_pos_left ?_ (Nat.two_pow_pos _)
    have h8 : (2 : Nat) ^ 8 < 2 ^ f64.limit := Nat.pow_lt_pow_right (by decide) (by decide)
    exact h8
  exact Nat.lt_of_le_of_lt hl h1

theorem half_eq : half = .fin false (2 ^ 148 * T) := by
  have h1 : half = .fin false (Written.mag half) := by decide +kernel
  have h2 : Written.mag half = 2 ^ 148 * 2 ^ 925 := by decide +kernel
  rw [h1, h2]
  unfold T
  rfl

theorem short_t {a k : Nat} (h : a < 2 ^ 53) : Short 53 (a * (2 ^ k * T)) := by
  unfold T
  rw [← Nat.pow_add]
  exact Short.mul_pow h _

theorem component_double {a k : Nat} (ha : a < 2 ^ 24) (hm : a * 2 ^ k ≤ 2 ^ 149) :
    mul f64 (convert f32 f64 (.fin false (a * 2 ^ k))) (lit 255) = .fin false (255 * (a * 2 ^ k) * T) := by
  have hS : 2 ^ f64.scale = S := by unfold S; rfl
  have hT := t_pos
  have e1 : convert f32 f64 (.fin false (a * 2 ^ k)) = .fin false (a * 2 ^ k * T) := by
    show round f64 false (a * 2 ^ k * 2 ^ f64.scale) (2 ^ 149) = _
    rw [hS, s_eq, Nat.mul_comm (2 ^ 149) T, ← Nat.mul_assoc]
    refine round_short _ ?_ (Nat.two_pow_pos _) ?_
    · rw [Nat.mul_assoc]
      exact short_t (Nat.lt_trans ha (by decide))
    · rw [s_eq, ← Nat.mul_assoc]
      refine Nat.mul_le_mul_right _ (Nat.le_trans hm (by decide))
  have h255 : lit 255 = .fin false (255 * S) := ofInt_exact 255 (by decide)
  rw [e1, h255]
  show round f64 false (a * 2 ^ k * T * (255 * S)) (2 ^ f64.scale) = _
  have hc : ∀ x t e s : Nat, x * t * (e * s) = e * x * t * s := by intros; ac_rfl
  rw [hS, hc]
  refine round_short _ ?_ s_pos ?_
  · have hc : ∀ e a p t : Nat, e * (a * p) * t = e * a * (p * t) := by intros; ac_rfl
    rw [hc]
    exact short_t (Nat.lt_trans (Nat.mul_lt_mul_of_pos_left ha (by decide)) (by decide))
  · rw [s_eq, ← Nat.mul_assoc 256]
    have h3 : 255 * (a * 2 ^ k) ≤ 255 * 2 ^ 149 := Nat.mul_le_mul_left 255 hm
    have h4 : 255 * (a * 2 ^ k) ≤ 256 * 2 ^ 149 := Nat.le_trans h3 (by decide)
    exact Nat.mul_le_mul_right _ h4

theorem component_exact {m : Nat} (hs : Short 24 m) (hm : m ≤ 2 ^ 149) :
    uncomp (.fin false m) = some (((510 * m + 2 ^ 149) / 2 ^ 150 : Nat) : Int) := by
  obtain ⟨a, k, rfl, ha⟩ := hs
  have hT := t_pos
  unfold uncomp
  rw [component_double ha hm, half_eq]
  generalize hx : a * 2 ^ k = x at *
  have hadd : add f64 (.fin false (255 * x * T)) (.fin false (2 ^ 148 * T)) =
      round f64 false ((255 * x + 2 ^ 148) * T) 1 := by
    show (if signed false (255 * x * T) + signed false (2 ^ 148 * T) = 0 then _ else
      round f64 (decide (signed false (255 * x * T) + signed false (2 ^ 148 * T) < 0))
        (signed false (255 * x * T) + signed false (2 ^ 148 * T)).natAbs 1) = _
    have : signed false (255 * x * T) + signed false (2 ^ 148 * T) = (((255 * x + 2 ^ 148) * T : Nat) : Int) := by
      show ((255 * x * T : Nat) : Int) + ((2 ^ 148 * T : Nat) : Int) = _
      rw [← Int.natCast_add, ← Nat.add_mul]
    rw [this]
    have hp : 0 < (255 * x + 2 ^ 148) * T := Nat.mul_pos (Nat.lt_of_lt_of_le (Nat.two_pow_pos 148) (Nat.le_add_left _ _)) hT
    rw [if_neg (by omega), decide_eq_false (by omega), Int.natAbs_natCast]
  rw [hadd]
  have key : ∀ R : Nat, R / S = (510 * x + 2 ^ 149) / 2 ^ 150 →
      toInt f64 (-9223372036854775808) 9223372036854775807 (.fin false R) = some (((510 * x + 2 ^ 149) / 2 ^ 150 : Nat) : Int) := by
    intro R hR
    rw [toInt_fin, hR]
    have hq : (510 * x + 2 ^ 149) / 2 ^ 150 ≤ 255 := by
      refine Nat.le_of_lt_succ ((Nat.div_lt_iff_lt_mul (by decide)).2 ?_)
      omega
    generalize (510 * x + 2 ^ 149) / 2 ^ 150 = q at *
    have : signed false q = (q : Int) := rfl
    rw [this, if_pos (by omega)]
  have hpow : (2 : Nat) ^ 150 = 2 * 2 ^ 149 := by decide
  have hsum : 510 * x + 2 ^ 149 = 2 * (255 * x + 2 ^ 148) := by omega
  by_cases hk : 104 ≤ k
  · obtain ⟨j, rfl⟩ : ∃ j, k = j + 104 := ⟨k - 104, by omega⟩
    have hx2 : x = a * 2 ^ j * 2 ^ 104 := by rw [← hx, Nat.pow_add, Nat.mul_assoc]
    have hy : a * 2 ^ j ≤ 2 ^ 45 := by
      have : a * 2 ^ j * 2 ^ 104 ≤ 2 ^ 45 * 2 ^ 104 := by rw [← hx2]; exact hm
      exact Nat.le_of_mul_le_mul_right this (by decide)
    generalize a * 2 ^ j = y at *
    have e : (255 * x + 2 ^ 148) * T = (255 * y + 2 ^ 44) * (2 ^ 104 * T) := by
      have h3 : 255 * x + 2 ^ 148 = (255 * y + 2 ^ 44) * 2 ^ 104 := by omega
      have hc : ∀ p q t : Nat, p * q * t = p * (q * t) := fun _ _ _ => Nat.mul_assoc _ _ _
      rw [h3, hc]
    have hsh : Short 53 ((255 * x + 2 ^ 148) * T) := by
      rw [e]
      exact short_t (by omega)
    have := round_short false hsh Nat.one_pos (by
      rw [s_eq, ← Nat.mul_assoc]
      exact Nat.mul_le_mul_right _ (by omega))
    rw [Nat.mul_one] at this
    rw [this]
    refine key _ ?_
    rw [s_eq, Nat.mul_div_mul_right _ _ hT, hpow, hsum, Nat.mul_div_mul_left _ _ (by decide)]
  · have hsmall : x < 2 ^ 128 := by
      rw [← hx]
      have h1 : 2 ^ k ≤ 2 ^ 103 := Nat.pow_le_pow_right (by decide) (by omega)
      have h2 : a * 2 ^ k ≤ a * 2 ^ 103 := Nat.mul_le_mul_left _ h1
      omega
    have hR : roundMag 53 ((255 * x + 2 ^ 148) * T) 1 ≤ 3 * (2 ^ 147 * T) := by
      have h1 : roundMag 53 ((255 * x + 2 ^ 148) * T) 1 ≤ roundMag 53 (3 * (2 ^ 147 * T) * 1) 1 := by
        refine roundMag_mono (by decide) (by decide) (by decide) ?_
        rw [Nat.mul_one, Nat.mul_one, Nat.mul_one, ← Nat.mul_assoc]
        exact Nat.mul_le_mul_right _ (by omega)
      rw [roundMag_short (by decide) (by decide) (short_t (by decide))] at h1
      exact h1
    have hlt : roundMag 53 ((255 * x + 2 ^ 148) * T) 1 < S := by
      rw [s_eq]
      refine Nat.lt_of_le_of_lt hR ?_
      rw [← Nat.mul_assoc]
      exact Nat.mul_lt_mul_of_pos_right (by decide) hT
    have e : round f64 false ((255 * x + 2 ^ 148) * T) 1 = .fin false (roundMag 53 ((255 * x + 2 ^ 148) * T) 1) := by
      unfold round
      rw [if_pos]
      · rfl
      · refine Nat.lt_of_lt_of_le hlt ?_
        rw [Nat.pow_add]
        unfold S
        exact Nat.le_mul_of_pos_right _ (Nat.two_pow_pos _)
    rw [e]
    refine key _ ?_
    rw [Nat.div_eq_of_lt hlt, Nat.div_eq_of_lt (by omega)]

/-- C76: red(), green() and blue() of any color whose component is a float between 0 and 1 is the nearest integer to 255 times
the component (the largest one when it is halfway), exactly. -/
theorem C76_component (env : Env α) (n : Int) (c : Color.Color) (f : Str) (x : Fp)
    (hf : (f = b!"red" ∧ x = c.red) ∨ (f = b!"green" ∧ x = c.green) ∨ (f = b!"blue" ∧ x = c.blue))
    (m : Nat) (hx : x = .fin false m) (hs : IsFloat x) (hm : m ≤ 2 ^ 149) :
    ∃ k : Nat, call env n f [[.color c]] = (.ok (.node (.int k [])) [], n) ∧ k ≤ 255 ∧
      2 * k * 2 ^ 149 ≤ 510 * m + 2 ^ 149 ∧ 510 * m < 2 * k * 2 ^ 149 + 2 ^ 149 := by
  subst hx
  have h := component_exact (m := m) hs hm
  refine ⟨(510 * m + 2 ^ 149) / 2 ^ 150, ?_, ?_⟩
  · rcases hf with ⟨rfl, hf⟩ | ⟨rfl, hf⟩ | ⟨rfl, hf⟩
    · exact call_red env n c (hf ▸ h)
    · exact call_green env n c (hf ▸ h)
    · exact call_blue env n c (hf ▸ h)
  · omega

theorem rgb_red (env : Env α) (n r g b : Int) {i : Int} (h : uncomp (comp r) = some i) :
    ∃ c, call env n b!"rgb" [[.int r []], [.int g []], [.int b []]] = (.ok (.node (.color c)) [], n) ∧
      call env n b!"red" [[.color c]] = (.ok (.node (.int i [])) [], n) ∧ c.red = comp r := by
  have e : comp r = convert f64 f32 (by255 (toDouble r)) := by unfold comp toDouble; rfl
  rw [e] at h ⊢
  generalize hx : by255 (toDouble r) = x at h
  refine ⟨ofDoubles x (by255 (toDouble g)) (by255 (toDouble b)) (lit 1), ?_, call_red env n _ h, rfl⟩
  rw [← hx]
  exact call_rgb env n r g b [] [] []

theorem rgb_red_dec (env : Env α) (n : Int) (x : Fp) (g b : Int) {i : Int} (h : uncomp (convert f64 f32 (by255 x)) = some i) :
    ∃ c, call env n b!"rgb" [[.dec x []], [.int g []], [.int b []]] = (.ok (.node (.color c)) [], n) ∧
      call env n b!"red" [[.color c]] = (.ok (.node (.int i [])) [], n) ∧ c.red = convert f64 f32 (by255 x) :=
  ⟨ofDoubles (by255 x) (by255 (toDouble g)) (by255 (toDouble b)) (lit 1), rfl, call_red env n _ h, rfl⟩

/-- C76: known defects. The components are not limited: red(rgb(300, 0, 0)) is 300, although the color is written #ff0000; a
negative one is rounded to the wrong side: red(rgb(-5, 0, 0)) is -4; and red() does not always give the byte which is written:
red(rgb(128.5, 0, 0)) is 128, although the color is written #810000. -/
theorem C76_defects (env : Env α) (n : Int) :
    (∃ c, call env n b!"rgb" [[.int 300 []], [.int 0 []], [.int 0 []]] = (.ok (.node (.color c)) [], n) ∧
      call env n b!"red" [[.color c]] = (.ok (.node (.int 300 [])) [], n) ∧ Color.toByte c.red = some 255) ∧
    (∃ c, call env n b!"rgb" [[.int (-5) []], [.int 0 []], [.int 0 []]] = (.ok (.node (.color c)) [], n) ∧
      call env n b!"red" [[.color c]] = (.ok (.node (.int (-4) [])) [], n)) ∧
    (∃ x c, 2 * quanta x = 257 * unity ∧
      call env n b!"rgb" [[.dec x []], [.int 0 []], [.int 0 []]] = (.ok (.node (.color c)) [], n) ∧
      call env n b!"red" [[.color c]] = (.ok (.node (.int 128 [])) [], n) ∧ Color.toByte c.red = some 129) := by
  obtain ⟨c1, h1, h2, h3⟩ := rgb_red (α := α) env n 300 0 0 (i := 300) (by decide +kernel)
  obtain ⟨c2, h4, h5, _⟩ := rgb_red (α := α) env n (-5) 0 0 (i := -4) (by decide +kernel)
  obtain ⟨c3, h6, h7, h8⟩ := rgb_red_dec (α := α) env n (div f64 (ofInt f64 257) (ofInt f64 2)) 0 0 (i := 128) (by decide +kernel)
  refine ⟨⟨c1, h1, h2, ?_⟩, ⟨c2, h4, h5⟩, ⟨_, c3, ?_, h6, h7, ?_⟩⟩
  · rw [h3]
    decide +kernel
  · decide +kernel
  · rw [h8]
    decide +kernel

example : IsFloat (Color.component 200) ∧ ∃ m, Color.component 200 = .fin false m ∧ m ≤ 2 ^ 149 := by
  have h : Color.component 200 = .fin false (Written.mag (Color.component 200)) := by decide +kernel
  refine ⟨?_, _, h, by decide +kernel⟩
  rw [h]
  exact ⟨Written.mag (Color.component 200) / 2 ^ 125, 125, by decide +kernel, by decide +kernel⟩

end Csspp.Func
