import Verif.Props.FunctionsHue

/-!
C80: the hue, the saturation and the lightness of a gray.
-/

namespace Csspp.Func
open Csspp.Flt Csspp.Expr Csspp.Spec

variable {α : Type}

/-- hue() of a color. -/
def hueOf (c : Color.Color) : Fp := div f64 (mul f64 (convert f32 f64 (getHsl c).1) (lit 180)) pi

/-! ### The grays -/

theorem max2_self (x : Fp) : max2 x x = x := by
  unfold max2
  split <;> rfl
theorem min2_self (x : Fp) : min2 x x = x := by
  unfold min2
  split <;> rfl

theorem sub_self (M : Nat) : sub f64 (.fin false M) (.fin false M) = .fin false 0 := by
  unfold sub neg add
  dsimp only
  have h : signed false M + signed (!false) M = 0 := by
    show (M : Int) + -(M : Int) = 0
    omega
  rw [if_pos h]
  have g : (if M = 0 ∧ M = 0 then (false && !false) else false) = false := by split <;> rfl
  rw [g]

theorem add_pos {M N : Nat} (h : 0 < M) : add f64 (.fin false M) (.fin false N) = round f64 false (M + N) 1 := by
  unfold add
  dsimp only
  have e : signed false M + signed false N = ((M + N : Nat) : Int) := rfl
  rw [e, if_neg (by omega), Int.natAbs_natCast]
  have g : decide (((M + N : Nat) : Int) < 0) = false := decide_eq_false (by omega)
  rw [g]

theorem double_half {M : Nat} (hs : Short 53 M) (h0 : 0 < M) (hl : M ≤ S) :
    div f64 (add f64 (.fin false M) (.fin false M)) (lit 2) = .fin false M := by
  have e2 : lit 2 = .fin false (2 * S) := ofInt_exact 2 (by decide)
  have hs2 : Short 53 (M + M) := by
    obtain ⟨a, k, rfl, ha⟩ := hs
    exact ⟨a, k + 1, by rw [Nat.pow_succ, ← Nat.mul_assoc, Nat.mul_two], ha⟩
  have h1 := round_short false hs2 Nat.one_pos (by omega)
  rw [Nat.mul_one] at h1
  rw [add_pos h0, h1, e2, div_fin (Nat.mul_pos (by decide) s_pos), pow_S]
  have g : (M + M) * S = M * (2 * S) := by
    have : ∀ a b : Nat, (a + a) * b = a * (2 * b) := by intro a b; rw [← Nat.two_mul, Nat.mul_comm 2 a, Nat.mul_assoc]
    exact this M S
  rw [g]
  exact round_short false hs (Nat.mul_pos (by decide) s_pos) (by omega)

/-- The hue of a gray. -/
theorem gray_hue : div f64 (mul f64 (convert f32 f64 (convert f64 f32
    (mul f64 (mul f64 (div f64 (fmod (convert f32 f64 (ofInt f32 0)) (lit 6)) (lit 6)) pi) (lit 2)))) (lit 180)) pi = lit 0 := by
  decide +kernel

/-- 1 - |2 l - 1|. -/
def dent (l : Fp) : Fp := sub f64 (lit 1) (fabs (sub f64 (mul f64 l (lit 2)) (lit 1)))

theorem signed_sub (M N : Nat) : sub f64 (.fin false M) (.fin false N) =
    if M = N then .fin false 0 else round f64 (decide (M < N)) (if M < N then N - M else M - N) 1 := by
  unfold sub neg add
  dsimp only
  have e : signed false M + signed (!false) N = (M : Int) - (N : Int) := by
    show (M : Int) + -(N : Int) = _
    omega
  rw [e]
  by_cases h : M = N
  · subst h
    have g : (if M = 0 ∧ M = 0 then (false && !false) else false) = false := by split <;> rfl
    rw [if_pos (by omega), if_pos rfl, g]
  · rw [if_neg (by omega), if_neg h]
    by_cases h2 : M < N
    · have a : ((M : Int) - N).natAbs = N - M := by omega
      rw [if_pos h2, a, decide_eq_true h2, decide_eq_true (by omega : (M : Int) - N < 0)]
    · have a : ((M : Int) - N).natAbs = M - N := by omega
      rw [if_neg h2, a, decide_eq_false h2, decide_eq_false (by omega : ¬ (M : Int) - N < 0)]

/-- 1 - |2 l - 1| is more than 0 for 2^-20 <= l < 1. -/
theorem dent_pos {a k : Nat} (ha : a < 2 ^ 24) (h1 : 2 ^ 129 ≤ a * 2 ^ k) (h2 : a * 2 ^ k < 2 ^ 149) :
    ∃ z, 0 < z ∧ dent (.fin false (a * 2 ^ k * T)) = .fin false z := by
  have hT := t_pos
  have e1 : lit 1 = .fin false S := lit_one
  have e2 : lit 2 = .fin false (2 * S) := ofInt_exact 2 (by decide)
  -- a whole number of 2^105
  have hk : 105 ≤ k := by
    refine Nat.lt_of_not_le fun h => ?_
    have : a * 2 ^ k < 2 ^ 24 * 2 ^ 104 := Nat.lt_of_lt_of_le (Nat.mul_lt_mul_of_pos_right ha (Nat.two_pow_pos k))
      (Nat.mul_le_mul_left _ (Nat.pow_le_pow_right (by decide) (by omega)))
    omega
  obtain ⟨j, rfl⟩ : ∃ j, k = j + 105 := ⟨k - 105, by omega⟩
  have e : a * 2 ^ (j + 105) = a * 2 ^ j * 2 ^ 105 := by rw [Nat.pow_add, Nat.mul_assoc]
  rw [e] at h1 h2 ⊢
  generalize a * 2 ^ j = x at *
  have hx1 : 0 < x := by omega
  have hx2 : x < 2 ^ 44 := by omega
  have hS : S = 2 ^ 44 * (2 ^ 105 * T) := by
    rw [s_eq, ← Nat.mul_assoc, ← Nat.pow_add]
  have sh : ∀ y : Nat, y < 2 ^ 53 → Short 53 (y * (2 ^ 105 * T)) := fun y hy => short_t hy
  have hq : 0 < 2 ^ 105 * T := Nat.mul_pos (Nat.two_pow_pos _) hT
  unfold dent
  rw [e1, e2]
  -- twice the lightness
  have s1 : mul f64 (.fin false (x * 2 ^ 105 * T)) (.fin false (2 * S)) = .fin false (2 * x * (2 ^ 105 * T)) := by
    show round f64 false (x * 2 ^ 105 * T * (2 * S)) (2 ^ f64.scale) = _
    have hc : ∀ x p t s : Nat, x * p * t * (2 * s) = 2 * x * (p * t) * s := by intros; ac_rfl
    rw [pow_S, hc]
    refine round_short false (sh _ (by omega)) s_pos ?_
    rw [hS, ← Nat.mul_assoc 256]
    exact Nat.mul_le_mul_right _ (by omega)
  rw [s1]
  rw [hS]
  generalize hQ : 2 ^ 105 * T = Q at *
  have rs : ∀ y : Nat, y ≤ 2 ^ 44 → ∀ b, round f64 b (y * Q) 1 = .fin b (y * Q) := by
    intro y hy b
    have := round_short b (sh y (by omega)) Nat.one_pos (by
      rw [hS, ← Nat.mul_assoc 256]
      exact Nat.mul_le_mul_right _ (by omega))
    rwa [Nat.mul_one] at this
  have cmp : ∀ y z : Nat, y * Q < z * Q ↔ y < z := fun y z => Nat.mul_lt_mul_right hq
  have ceq : ∀ y z : Nat, y * Q = z * Q ↔ y = z := fun y z => Nat.mul_left_inj (Nat.ne_of_gt hq)
  -- the distance to 1
  obtain ⟨b, y, hy, s2⟩ : ∃ b y, y < 2 ^ 44 ∧ sub f64 (.fin false (2 * x * Q)) (.fin false (2 ^ 44 * Q)) = .fin b (y * Q) := by
    rw [signed_sub]
    by_cases h : 2 * x = 2 ^ 44
    · exact ⟨false, 0, by decide, by rw [if_pos (by rw [h]), Nat.zero_mul]⟩
    · rw [if_neg (by rw [ceq]; exact h)]
      by_cases hlt : 2 * x < 2 ^ 44
      · refine ⟨decide (2 * x * Q < 2 ^ 44 * Q), 2 ^ 44 - 2 * x, by omega, ?_⟩
        rw [if_pos ((cmp _ _).2 hlt), ← Nat.mul_sub_right_distrib, rs _ (by omega)]
      · refine ⟨decide (2 * x * Q < 2 ^ 44 * Q), 2 * x - 2 ^ 44, by omega, ?_⟩
        rw [if_neg (fun h => hlt ((cmp _ _).1 h)), ← Nat.mul_sub_right_distrib, rs _ (by omega)]
  rw [s2]
  refine ⟨(2 ^ 44 - y) * Q, Nat.mul_pos (by omega) hq, ?_⟩
  show sub f64 (.fin false (2 ^ 44 * Q)) (.fin false (y * Q)) = _
  rw [signed_sub, if_neg (by rw [ceq]; omega), if_neg (by rw [cmp]; omega), ← Nat.mul_sub_right_distrib, rs _ (by omega)]
  have : decide (2 ^ 44 * Q < y * Q) = false := decide_eq_false (by rw [cmp]; omega)
  rw [this]

theorem eq_fin {m n : Nat} : eq (.fin false m) (.fin false n) = decide (m = n) := by
  unfold eq le
  have h : ∀ k : Nat, signed false k = (k : Int) := fun _ => rfl
  simp only [h]
  by_cases e : m = n
  · subst e
    simp
  · rw [decide_eq_false e]
    by_cases g : m ≤ n
    · rw [decide_eq_false (by omega : ¬ (n : Int) ≤ m), Bool.and_false]
    · rw [decide_eq_false (by omega : ¬ (m : Int) ≤ n), Bool.false_and]

theorem fin_inj {a b : Bool} {m n : Nat} (h : Fp.fin a m = .fin b n) : a = b ∧ m = n := by
  injection h with h1 h2
  exact ⟨h1, h2⟩

theorem getHsl_same (x al X Z : Fp) (hX : convert f32 f64 x = X) (hsub : sub f64 X X = Z) (hz : eq Z (lit 0) = true)
    (hl : convert f64 f32 (div f64 (add f64 X X) (lit 2)) = x)
    (hsat : (if eq X (lit 0) || eq X (lit 1) then ofInt f32 0 else convert f64 f32 (div f64 Z (dent X))) = ofInt f32 0)
    (hlt : lt (ofInt f32 0) (ofInt f32 0) = false) :
    getHsl ⟨x, x, x, al⟩ =
      (convert f64 f32 (mul f64 (mul f64 (div f64 (fmod (convert f32 f64 (ofInt f32 0)) (lit 6)) (lit 6)) pi) (lit 2)),
        ofInt f32 0, x) := by
  unfold dent at hsat
  unfold getHsl
  dsimp only
  generalize lit 0 = l0 at *
  generalize lit 1 = l1 at *
  generalize lit 2 = l2 at *
  generalize lit 4 = l4 at *
  generalize lit 6 = l6 at *
  generalize ofInt f32 0 = o at *
  generalize pi = p at *
  generalize sub f32 x x = q at *
  simp only [max2_self, min2_self, hX, hsub, hl, hz, if_true, hlt, Bool.false_eq_true, if_false]
  rw [hsat]

/-- The three numbers of a gray. -/
theorem gray_hsl {m : Nat} (hs : Short 24 m) (hm : m = 0 ∨ 2 ^ 129 ≤ m) (hl : m ≤ 2 ^ 149) (al : Fp) :
    getHsl ⟨.fin false m, .fin false m, .fin false m, al⟩ =
      (convert f64 f32 (mul f64 (mul f64 (div f64 (fmod (convert f32 f64 (ofInt f32 0)) (lit 6)) (lit 6)) pi) (lit 2)),
        ofInt f32 0, .fin false m) := by
  have hT := t_pos
  have o32 : ofInt f32 0 = .fin false 0 := by decide +kernel
  have hS : S = 2 ^ 149 * T := s_eq
  have hbd : Bd f32 0 (.fin false m) := ⟨false, m, rfl, by rw [Nat.zero_add]; exact hl⟩
  obtain ⟨b, m', e0, e1, hsh, e2⟩ := float_back (K := 0) (by decide) hbd hs
  obtain ⟨hb, hm'⟩ := fin_inj e0
  rw [← hb, ← hm'] at e1 e2
  rw [← hm'] at hsh
  clear e0 hb hm'
  have hMS : m * T ≤ S := by rw [hS]; exact Nat.mul_le_mul_right T hl
  have hlight : convert f64 f32 (div f64 (add f64 (.fin false (m * T)) (.fin false (m * T))) (lit 2)) = .fin false m := by
    by_cases h0 : m = 0
    · subst h0
      rw [Nat.zero_mul]
      decide +kernel
    · rw [double_half hsh (Nat.mul_pos (by omega) hT) hMS]
      exact e2
  have hsat : (if eq (.fin false (m * T)) (lit 0) || eq (.fin false (m * T)) (lit 1) then ofInt f32 0
      else convert f64 f32 (div f64 (.fin false 0) (dent (.fin false (m * T))))) = ofInt f32 0 := by
    rw [lit_zero, lit_one, eq_fin, eq_fin]
    by_cases h0 : m = 0
    · rw [h0, Nat.zero_mul, decide_eq_true rfl, Bool.true_or, if_pos rfl]
    · by_cases h1 : m = 2 ^ 149
      · rw [h1, hS, decide_eq_true (p := 2 ^ 149 * T = 2 ^ 149 * T) rfl, Bool.or_true, if_pos rfl]
      · have n0 : ¬ m * T = 0 := Nat.mul_ne_zero h0 (Nat.ne_of_gt hT)
        have n1 : ¬ m * T = S := by
          rw [hS]
          intro h
          exact h1 (Nat.eq_of_mul_eq_mul_right hT h)
        rw [decide_eq_false n0, decide_eq_false n1, Bool.or_false, if_neg Bool.false_ne_true]
        obtain ⟨a, k, rfl, ha⟩ := hs
        obtain ⟨z, hz, ez⟩ := dent_pos (a := a) (k := k) ha (by omega) (by omega)
        rw [ez, div_fin hz, Nat.zero_mul, round_zero, o32]
        have := round_zero f32 false (2 ^ f64.scale)
        show round f32 false (0 * 2 ^ f32.scale) (2 ^ f64.scale) = _
        rw [Nat.zero_mul, this]
  have hlt : lt (ofInt f32 0) (ofInt f32 0) = false := by decide +kernel
  have hz : eq (.fin false 0) (lit 0) = true := by
    rw [lit_zero, eq_fin]
    exact decide_eq_true (Eq.refl 0)
  exact getHsl_same _ al _ _ e1 (sub_self (m * T)) hz hlight hsat hlt

/-- C80: a gray (the three components the same float, at least 2^-20 and at most 1, or 0): the hue is 0deg, the
saturation 0% and the lightness is the component, exactly. -/
theorem C80_gray_back (env : Env α) (n : Int) (c : Color.Color) (m : Nat) (hr : c.red = .fin false m) (hg : c.green = .fin false m)
    (hb : c.blue = .fin false m) (hs : IsFloat c.red) (hm : m = 0 ∨ (2 ^ 129 ≤ m ∧ m ≤ 2 ^ 149)) :
    call env n b!"hue" [[.color c]] = (.ok (.node (.dec (lit 0) b!"deg")) [], n) ∧
      call env n b!"saturation" [[.color c]] = (.ok (.node (.pct (lit 0))) [], n) ∧
      call env n b!"lightness" [[.color c]] = (.ok (.node (.pct (convert f32 f64 c.red))) [], n) := by
  have hS : ∀ c : Color.Color, call env n b!"saturation" [[.color c]] = (.ok (.node (.pct (convert f32 f64 (getHsl c).2.1))) [], n) :=
    fun _ => rfl
  have hL : ∀ c : Color.Color, call env n b!"lightness" [[.color c]] = (.ok (.node (.pct (convert f32 f64 (getHsl c).2.2))) [], n) :=
    fun _ => rfl
  have hH : ∀ c : Color.Color, call env n b!"hue" [[.color c]] = (.ok (.node (.dec (hueOf c) b!"deg")) [], n) :=
    fun _ => rfl
  obtain ⟨red, green, blue, al⟩ := c
  dsimp only at hr hg hb hs ⊢
  subst hr hg hb
  have key := gray_hsl hs (by omega) (by rcases hm with h | h; · rw [h]; decide
                                         · exact h.2) al
  rw [hH, hS, hL]
  unfold hueOf
  rw [key]
  dsimp only
  rw [gray_hue]
  have e : convert f32 f64 (ofInt f32 0) = lit 0 := by decide +kernel
  rw [e]
  exact ⟨rfl, rfl, rfl⟩

/-- C80 (a defect): the saturation of a gray that is nearly black is not a number. -/
theorem C80_gray_nan (env : Env α) (n : Int) :
    call env n b!"saturation" [[.color ⟨.fin false (2 ^ 80), .fin false (2 ^ 80), .fin false (2 ^ 80), ofInt f32 1⟩]] =
      (.ok (.node (.pct .nan)) [], n) := by
  have hS : ∀ c : Color.Color, call env n b!"saturation" [[.color c]] = (.ok (.node (.pct (convert f32 f64 (getHsl c).2.1))) [], n) :=
    fun _ => rfl
  have e : convert f32 f64 (getHsl ⟨.fin false (2 ^ 80), .fin false (2 ^ 80), .fin false (2 ^ 80), ofInt f32 1⟩).2.1 = .nan := by
    decide +kernel
  rw [hS, e]

end Csspp.Func
