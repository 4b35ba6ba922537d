import Verif.Props.FunctionsHsl

/-!
C80: the HSL colors, the claims.
-/

namespace Csspp.Func
open Csspp.Flt Csspp.Expr Csspp.Spec

variable {α : Type}

/-- A number at most 2^64, with its sign dropped. -/
def Moderate (x : Fp) : Prop := Finite x ∧ (quanta x).natAbs ≤ 2 ^ 64 * unity.natAbs

theorem moderate_bd {x : Fp} (h : Moderate x) : Bd f64 64 x := by
  obtain ⟨h1, h2⟩ := h
  have hu : unity.natAbs = 2 ^ f64.scale := by
    show ((2 : Int) ^ 1074).natAbs = 2 ^ 1074
    rw [Int.natAbs_pow]
    rfl
  rw [hu] at h2
  cases x with
  | fin b m =>
    refine ⟨b, m, rfl, ?_⟩
    rw [Nat.pow_add]
    cases b with
    | false => exact h2
    | true =>
      have e : (quanta (.fin true m)).natAbs = m := by
        show (-(m : Int)).natAbs = m
        omega
      rw [e] at h2
      exact h2
  | inf b => exact h1.elim
  | nan => exact h1.elim

theorem bd_pi : Bd f64 2 pi := by
  have h1 : pi = .fin false (Written.mag pi) := by decide +kernel
  exact ⟨_, _, h1, by decide +kernel⟩

theorem bd_radians {x : Fp} (h : Bd f64 64 x) : Bd f64 66 (div f64 (mul f64 x pi) (lit 180)) := by
  have h1 : Bd f64 (64 + 2) (mul f64 x pi) := Bd.mul p64 (show 64 + 2 < 1024 by decide) h bd_pi
  have e : lit 180 = .fin false (180 * S) := ofInt_exact 180 (by decide)
  rw [e]
  refine Bd.div p64 (show 64 + 2 < 1024 by decide) h1 ?_
  rw [pow_S]
  exact Nat.le_mul_of_pos_left S (by decide)

theorem float_of (x : Fp) : IsFloat (convert f64 f32 x) := by
  cases x with
  | fin b m =>
    show IsFloat (round f32 b _ _)
    unfold round
    split
    · exact short_roundMag (prec := f32.prec) (by decide) (Nat.two_pow_pos _)
    · trivial
  | inf b => trivial
  | nan => trivial

theorem fin_eq {a b : Bool} {m : Nat} (h : m ≠ 0 → a = b) : eq (.fin a m) (.fin b m) = true := by
  have h2 : signed a m = signed b m := by
    by_cases h0 : m = 0
    · subst h0
      cases a <;> cases b <;> rfl
    · rw [h h0]
  unfold eq le
  simp [h2]

theorem convert_sign {f g : Fmt} {b : Bool} {m k : Nat} (b' : Bool) (h : convert f g (.fin b m) = .fin b k) :
    convert f g (.fin b' m) = .fin b' k := by
  revert h
  unfold convert round
  dsimp only
  split
  · intro h
    injection h with _ h
    rw [h]
  · intro h
    cases h

/-- With no saturation the three components are the lightness. -/
theorem setHsl_gray {h s l a : Fp} {K : Nat} (hK : K < 128) (hh : Bd f32 K h) (hs : Zero s) (hl : Bd f32 64 l) (hf : IsFloat l) :
    eq (setHsl h s l a).red l = true ∧ eq (setHsl h s l a).green l = true ∧ eq (setHsl h s l a).blue l = true ∧
      (setHsl h s l a).alpha = a := by
  have hc : Zero (chroma s l) := Zero.mul_right (bd_chroma_factor (by decide) (by decide) hl) hs.convert
  have hx : Zero (second (chroma s l) (sextant h)) := Zero.mul_left (bd_second_factor (bd_sextant hK hh)) hc
  have hhalf : Bd f64 0 half := by
    refine ⟨_, _, half_eq, ?_⟩
    rw [Nat.zero_add, pow_S, s_eq]
    exact Nat.mul_le_mul_right _ (by decide)
  have hm : Zero (mul f64 half (chroma s l)) := Zero.mul_right hhalf hc
  obtain ⟨b, m, rfl, e1, hsh, e2⟩ := float_back (show 64 < 128 by decide) hl hf
  have hlim : m * T < 2 ^ (f64.scale + f64.limit) := by
    obtain ⟨b', m', h1, h2⟩ := hl.convert (g := f64) p64 (show 64 < 1024 by decide)
    rw [e1] at h1
    injection h1 with _ h1
    rw [h1]
    exact Nat.lt_of_le_of_lt h2 (Nat.pow_lt_pow_right (by decide) (by decide))
  obtain ⟨b1, e3, hb1⟩ := sub_zero (b := b) hm hsh hlim
  have comp : ∀ z : Fp, Flt.Zero z → eq (convert f64 f32 (add f64 z (.fin b1 (m * T)))) (.fin b m) = true := by
    intro z hz
    obtain ⟨b2, e4, hb2⟩ := add_zero_left (b := b1) hz hsh hlim
    rw [e4]
    have e5 : convert f64 f32 (.fin b2 (m * T)) = .fin b2 m := convert_sign b2 e2
    rw [e5]
    refine fin_eq fun h0 => ?_
    have h1 : m * T ≠ 0 := Nat.mul_ne_zero h0 (Nat.ne_of_gt t_pos)
    rw [hb2 h1, hb1 h1]
  obtain ⟨hr, hg, hb⟩ := hslRgb_zero (h := sextant h) hc hx
  unfold setHsl
  revert hr hg hb
  cases hslRgb (chroma s (.fin b m)) (second (chroma s (.fin b m)) (sextant h)) (sextant h) with
  | mk r gb =>
    cases gb with
    | mk g bl =>
      intro hr hg hb
      dsimp only
      rw [e1, e3]
      exact ⟨comp r hr, comp g hg, comp bl hb, rfl⟩

theorem call_hsl (env : Env α) (n : Int) (x s l : Fp) :
    call env n b!"hsl" [[.dec x b!"deg"], [.pct s], [.pct l]] =
      (.ok (.node (.color (setHsl (convert f64 f32 (div f64 (mul f64 x pi) (lit 180))) (convert f64 f32 s) (convert f64 f32 l)
        (convert f64 f32 (lit 1))))) [], n) := rfl

/-- C80: hsl() with a saturation of 0% is a gray: red, green and blue are the lightness (as a float), for every hue. -/
theorem C80_gray (env : Env α) (n : Int) (hue light : Fp) (sign : Bool) (hh : Moderate hue) (hl : Moderate light) :
    ∃ c, call env n b!"hsl" [[.dec hue b!"deg"], [.pct (.fin sign 0)], [.pct light]] = (.ok (.node (.color c)) [], n) ∧
      eq c.red (convert f64 f32 light) = true ∧ eq c.green (convert f64 f32 light) = true ∧
      eq c.blue (convert f64 f32 light) = true ∧ c.alpha = Color.component 255 := by
  have h4 : convert f64 f32 (lit 1) = Color.component 255 := by decide +kernel
  refine ⟨_, call_hsl env n hue _ light, ?_⟩
  rw [h4]
  exact setHsl_gray (K := 66) (by decide) ((bd_radians (moderate_bd hh)).convert p32 (by decide))
    (Zero.convert ⟨sign, rfl⟩) ((moderate_bd hl).convert p32 (by decide)) (float_of _)

/-! ### Negative angles -/

theorem hslRgb_negative {c x : Fp} {m : Nat} (hm : 0 < m) : hslRgb c x (.fin true m) = (lit 0, lit 0, lit 0) := by
  have key : ∀ k : Int, 0 ≤ k → k.natAbs ≤ 9007199254740992 → le (lit k) (.fin true m) = false := by
    intro k hk hk2
    rw [show lit k = .fin (decide (k < 0)) (k.natAbs * S) from ofInt_exact k hk2, decide_eq_false (by omega)]
    show decide (signed false _ ≤ signed true m) = false
    have h1 : signed true m = -(m : Int) := rfl
    have h2 : signed false (k.natAbs * S) = ((k.natAbs * S : Nat) : Int) := rfl
    rw [h1, h2]
    exact decide_eq_false (by omega)
  unfold hslRgb
  rw [key 0 (by decide) (by decide), key 1 (by decide) (by decide), key 2 (by decide) (by decide), key 3 (by decide) (by decide),
    key 4 (by decide) (by decide), key 5 (by decide) (by decide)]
  simp only [Bool.false_and, Bool.false_eq_true, if_false]

theorem round_in {f : Fmt} (hp : 0 < f.prec) (neg : Bool) {p q lo hi : Nat} (hq : 0 < q) (h1 : Short f.prec lo) (h2 : Short f.prec hi)
    (hl : hi < 2 ^ (f.scale + f.limit)) (h3 : lo * q ≤ p) (h4 : p ≤ hi * q) :
    ∃ R, round f neg p q = .fin neg R ∧ lo ≤ R ∧ R ≤ hi := by
  have e1 : lo ≤ roundMag f.prec p q := by
    have := roundMag_mono hp hq hq (Nat.mul_le_mul_right q h3)
    rwa [roundMag_short hp hq h1] at this
  have e2 : roundMag f.prec p q ≤ hi := by
    have := roundMag_mono hp hq hq (Nat.mul_le_mul_right q h4)
    rwa [roundMag_short hp hq h2] at this
  refine ⟨roundMag f.prec p q, ?_, e1, e2⟩
  unfold round
  rw [if_pos (Nat.lt_of_le_of_lt e2 hl)]

theorem div_fin {f : Fmt} {a b : Bool} {m n : Nat} (h : 0 < n) :
    div f (.fin a m) (.fin b n) = round f (a != b) (m * 2 ^ f.scale) n := by
  unfold div
  dsimp only
  rw [if_neg (by omega)]

theorem s_pow : S = 2 ^ 1074 := by unfold S; rfl

theorem unity_pow : unity = ((2 ^ 1074 : Nat) : Int) := by
  have h : ∀ k : Nat, (2 : Int) ^ k = ((2 ^ k : Nat) : Int) := by
    intro k
    rw [Int.natCast_pow]
    rfl
  exact h 1074

theorem short_pow {p : Nat} (k : Nat) (h : 0 < p) : Short p (2 ^ k) := ⟨1, k, by rw [Nat.one_mul], Nat.one_lt_two_pow (by omega)⟩

theorem short_times {p a : Nat} (k : Nat) (h : a < 2 ^ p) : Short p (a * 2 ^ k) := ⟨a, k, rfl, h⟩

theorem pi_eq : ∃ m, pi = .fin false m ∧ 2 ^ 1074 ≤ m ∧ 359 * m ≤ 1128 * 2 ^ 1074 := by
  have h1 : pi = .fin false (Written.mag pi) := by decide +kernel
  exact ⟨_, h1, by decide +kernel, by decide +kernel⟩

theorem twoPi_above : ∃ m, twoPi = .fin false m ∧ 1605 * 2 ^ 1066 < m ∧ m ≤ 2 ^ 1077 := by
  have h1 : twoPi = .fin false (Written.mag twoPi) := by decide +kernel
  exact ⟨_, h1, by decide +kernel, by decide +kernel⟩

theorem pow_split (a b : Nat) : 2 ^ (a + b) = 2 ^ a * 2 ^ b := Nat.pow_add 2 a b

theorem sextant_negative {m : Nat} (h1 : 2 ^ 1054 ≤ m) (h2 : m ≤ 359 * 2 ^ 1074) :
    ∃ k, 0 < k ∧ sextant (convert f64 f32 (div f64 (mul f64 (.fin true m) pi) (lit 180))) = .fin true k := by
  obtain ⟨pm, ep, p1, p2⟩ := pi_eq
  obtain ⟨tm, et, t1, t2⟩ := twoPi_above
  have e180 : lit 180 = .fin false (180 * 2 ^ 1074) := by
    have e : lit 180 = .fin false (180 * S) := ofInt_exact 180 (by decide)
    rw [s_pow] at e
    exact e
  have e6 : lit 6 = .fin false (6 * 2 ^ 1074) := by
    have e : lit 6 = .fin false (6 * S) := ofInt_exact 6 (by decide)
    rw [s_pow] at e
    exact e
  have below : ∀ a k : Nat, a < 2 ^ 11 → k ≤ 1074 → a * 2 ^ k < 2 ^ (f64.scale + f64.limit) := by
    intro a k ha hk
    refine Nat.lt_of_lt_of_le (Nat.mul_lt_mul_of_pos_right ha (Nat.two_pow_pos k)) ?_
    rw [← Nat.pow_add]
    exact Nat.pow_le_pow_right (by decide) (by show 11 + k ≤ 1074 + 1024; omega)
  -- the product with pi
  obtain ⟨m1, r1, l1, u1⟩ := round_in (f := f64) p64 true (p := m * pm) (q := 2 ^ 1074) (lo := 2 ^ 1054) (hi := 1128 * 2 ^ 1074)
    (Nat.two_pow_pos _) (short_pow _ p64) (short_times _ (by decide)) (below _ _ (by decide) (by decide)) (Nat.mul_le_mul h1 p1) (by
      refine Nat.le_trans (Nat.mul_le_mul_right pm h2) ?_
      have g : ∀ a b c s : Nat, a * c ≤ b * s → a * s * c ≤ b * s * s := by
        intro a b c s h
        have : a * s * c = a * c * s := by ac_rfl
        rw [this]
        exact Nat.mul_le_mul_right s h
      exact g _ _ _ _ p2)
  have s1 : mul f64 (.fin true m) pi = .fin true m1 := by
    rw [ep]
    exact r1
  -- the quotient by 180
  obtain ⟨m2, r2, l2, u2⟩ := round_in (f := f64) p64 true (p := m1 * 2 ^ 1074) (q := 180 * 2 ^ 1074) (lo := 2 ^ 1046) (hi := 1605 * 2 ^ 1066)
    (Nat.mul_pos (by decide) (Nat.two_pow_pos _)) (short_pow _ p64) (short_times _ (by decide)) (below _ _ (by decide) (by decide)) (by
      rw [← Nat.mul_assoc]
      refine Nat.mul_le_mul_right _ (Nat.le_trans ?_ l1)
      rw [show 1054 = 1046 + 8 from rfl, pow_split]
      exact Nat.mul_le_mul_left _ (by decide)) (by
      rw [← Nat.mul_assoc]
      refine Nat.mul_le_mul_right _ (Nat.le_trans u1 ?_)
      rw [show 1074 = 8 + 1066 from rfl, pow_split, ← Nat.mul_assoc]
      have g : ∀ s : Nat, 1128 * 2 ^ 8 * s ≤ 1605 * s * 180 := by intro s; omega
      exact g _)
  have s2 : div f64 (.fin true m1) (lit 180) = .fin true m2 := by
    rw [e180]
    rw [div_fin (Nat.mul_pos (by decide) (Nat.two_pow_pos _))]
    exact r2
  -- the float
  obtain ⟨m3, r3, l3, u3⟩ := round_in (f := f32) p32 true (p := m2 * 2 ^ 149) (q := 2 ^ 1074) (lo := 2 ^ 121) (hi := 1605 * 2 ^ 141)
    (Nat.two_pow_pos _) (short_pow _ p32) (short_times _ (by decide)) (by decide) (by
      refine Nat.le_trans (Nat.le_of_eq ?_) (Nat.mul_le_mul_right _ l2)
      rw [← pow_split, ← pow_split]) (by
      refine Nat.le_trans (Nat.mul_le_mul_right _ u2) (Nat.le_of_eq ?_)
      rw [Nat.mul_assoc, Nat.mul_assoc, ← pow_split, ← pow_split])
  have s3 : convert f64 f32 (.fin true m2) = .fin true m3 := r3
  -- the double again
  obtain ⟨m4, r4, l4, u4⟩ := round_in (f := f64) p64 true (p := m3 * 2 ^ 1074) (q := 2 ^ 149) (lo := 2 ^ 1046) (hi := 1605 * 2 ^ 1066)
    (Nat.two_pow_pos _) (short_pow _ p64) (short_times _ (by decide)) (below _ _ (by decide) (by decide)) (by
      refine Nat.le_trans (Nat.le_of_eq ?_) (Nat.mul_le_mul_right _ l3)
      rw [← pow_split, ← pow_split]) (by
      refine Nat.le_trans (Nat.mul_le_mul_right _ u3) (Nat.le_of_eq ?_)
      rw [Nat.mul_assoc, Nat.mul_assoc, ← pow_split, ← pow_split])
  have s4 : convert f32 f64 (.fin true m3) = .fin true m4 := r4
  -- the remainder
  have s5 : fmod (.fin true m4) twoPi = .fin true m4 := by
    rw [et]
    show (if tm = 0 then _ else Fp.fin true (m4 % tm)) = _
    have : m4 < tm := Nat.lt_of_le_of_lt u4 t1
    rw [if_neg (by omega), Nat.mod_eq_of_lt this]
  -- the product with 6
  obtain ⟨m6, r6, l6, u6⟩ := round_in (f := f64) p64 true (p := 6 * 2 ^ 1074 * m4) (q := 2 ^ 1074) (lo := 2 ^ 1046) (hi := 64 * 2 ^ 1074)
    (Nat.two_pow_pos _) (short_pow _ p64) (short_times _ (by decide)) (below _ _ (by decide) (by decide)) (by
      rw [Nat.mul_comm, Nat.mul_assoc 6]
      have g : ∀ a b s : Nat, a ≤ b → s * a ≤ 6 * (s * b) := by
        intro a b s h
        exact Nat.le_trans (Nat.mul_le_mul_left s h) (Nat.le_mul_of_pos_left _ (by decide))
      exact g _ _ _ l4) (by
      rw [Nat.mul_assoc 6, Nat.mul_comm (2 ^ 1074) m4, ← Nat.mul_assoc]
      refine Nat.mul_le_mul_right _ (Nat.le_trans (Nat.mul_le_mul_left 6 u4) ?_)
      rw [show 1074 = 8 + 1066 from rfl, pow_split, ← Nat.mul_assoc, ← Nat.mul_assoc]
      exact Nat.mul_le_mul_right _ (by decide))
  have s6 : mul f64 (lit 6) (.fin true m4) = .fin true m6 := by
    rw [e6]
    exact r6
  -- the quotient by 2 pi
  have tpos : 0 < tm := Nat.lt_of_le_of_lt (Nat.zero_le _) t1
  obtain ⟨m7, r7, l7, u7⟩ := round_in (f := f64) p64 true (p := m6 * 2 ^ 1074) (q := tm) (lo := 2 ^ 1043) (hi := 64 * 2 ^ 1074)
    tpos (short_pow _ p64) (short_times _ (by decide)) (below _ _ (by decide) (by decide)) (by
      refine Nat.le_trans (Nat.mul_le_mul_left _ t2) ?_
      refine Nat.le_trans (Nat.le_of_eq ?_) (Nat.mul_le_mul_right _ l6)
      rw [← pow_split, ← pow_split]) (by
      refine Nat.mul_le_mul u6 (Nat.le_trans ?_ (Nat.le_of_lt t1))
      rw [show 1074 = 8 + 1066 from rfl, pow_split]
      exact Nat.mul_le_mul_right _ (by decide))
  have s7 : div f64 (.fin true m6) twoPi = .fin true m7 := by
    rw [et]
    rw [div_fin tpos]
    exact r7
  refine ⟨m7, Nat.lt_of_lt_of_le (Nat.two_pow_pos _) l7, ?_⟩
  rw [s1, s2, s3]
  show div f64 (mul f64 (lit 6) (fmod (convert f32 f64 (.fin true m3)) twoPi)) twoPi = _
  rw [s4, s5, s6, s7]

theorem setHsl_negative {h s l a : Fp} {k : Nat} (hk : 0 < k) (e : sextant h = .fin true k) :
    (setHsl h s l a).red = (setHsl h s l a).green ∧ (setHsl h s l a).green = (setHsl h s l a).blue := by
  unfold setHsl
  rw [e, hslRgb_negative hk]
  dsimp only
  exact ⟨rfl, rfl⟩

/-- C80 (a defect): a negative angle is not an angle of the wheel: hsl() with any number of degrees from -359 to
-2^-20 is a gray, whatever the saturation and the lightness. -/
theorem C80_negative (env : Env α) (n : Int) (x : Fp) (hx : Finite x) (h1 : -(359 * unity) ≤ quanta x) (h2 : 2 ^ 20 * quanta x ≤ -unity)
    (s l : Fp) :
    ∃ c, call env n b!"hsl" [[.dec x b!"deg"], [.pct s], [.pct l]] = (.ok (.node (.color c)) [], n) ∧
      c.red = c.green ∧ c.green = c.blue := by
  refine ⟨_, call_hsl env n x s l, ?_⟩
  have hu := unity_pow
  have hs : (2 : Nat) ^ 1074 = 2 ^ 20 * 2 ^ 1054 := by rw [← pow_split]
  have hpos := Nat.two_pow_pos 1054
  obtain ⟨m, rfl, g1, g2⟩ : ∃ m, x = .fin true m ∧ 2 ^ 1054 ≤ m ∧ m ≤ 359 * 2 ^ 1074 := by
    rw [hu] at h1 h2
    rw [hs] at h1 h2 ⊢
    generalize (2 : Nat) ^ 1054 = k at *
    cases x with
    | fin b m =>
      cases b with
      | false =>
        have : quanta (.fin false m) = (m : Int) := rfl
        rw [this] at h2
        omega
      | true =>
        have : quanta (.fin true m) = -(m : Int) := rfl
        rw [this] at h1 h2
        exact ⟨m, rfl, by omega, by omega⟩
    | inf b => exact hx.elim
    | nan => exact hx.elim
  obtain ⟨k, hk, e⟩ := sextant_negative g1 g2
  generalize convert f64 f32 (div f64 (mul f64 (.fin true m) pi) (lit 180)) = h at *
  exact setHsl_negative hk e

end Csspp.Func
