import Verif.Lemmas.Flt
import Verif.Lemmas.FltErr

/-!
Bounds: the operations on numbers that are not too large give numbers.
-/

namespace Csspp.Flt

/-- A finite number, at most 2^K. -/
def Bd (f : Fmt) (K : Nat) (x : Fp) : Prop := ∃ b m, x = .fin b m ∧ m ≤ 2 ^ (K + f.scale)

theorem Bd.mono {f : Fmt} {K L : Nat} {x : Fp} (h : Bd f K x) (hKL : K ≤ L) : Bd f L x := by
  obtain ⟨b, m, rfl, h⟩ := h
  exact ⟨b, m, rfl, Nat.le_trans h (Nat.pow_le_pow_right (by decide) (by omega))⟩

theorem roundMag_bd {prec p q : Nat} (hp : 0 < prec) (K : Nat) (hq : 0 < q) (h : p ≤ 2 ^ K * q) :
    roundMag prec p q ≤ 2 ^ K := by
  have h1 : roundMag prec p q ≤ roundMag prec (2 ^ K * 1) 1 := by
    refine roundMag_mono hp hq (by decide) ?_
    rw [Nat.mul_one, Nat.mul_one]
    exact h
  have h2 : Short prec (2 ^ K) := ⟨1, K, by rw [Nat.one_mul], Nat.one_lt_two_pow (by omega)⟩
  rw [roundMag_short hp (by decide) h2] at h1
  exact h1

theorem round_bd {f : Fmt} (hp : 0 < f.prec) {K : Nat} (hK : K < f.limit) (neg : Bool) {p q : Nat} (hq : 0 < q)
    (h : p ≤ 2 ^ (K + f.scale) * q) :
    ∃ R, round f neg p q = .fin neg R ∧ R ≤ 2 ^ (K + f.scale) := by
  have h1 := roundMag_bd hp (K + f.scale) hq h
  refine ⟨roundMag f.prec p q, ?_, h1⟩
  unfold round
  rw [if_pos]
  exact Nat.lt_of_le_of_lt h1 (Nat.pow_lt_pow_right (by decide) (by omega))

theorem Bd.mul {f : Fmt} (hp : 0 < f.prec) {J K : Nat} (hK : J + K < f.limit) {x y : Fp} (hx : Bd f J x) (hy : Bd f K y) :
    Bd f (J + K) (mul f x y) := by
  obtain ⟨a, m, rfl, hm⟩ := hx
  obtain ⟨b, n, rfl, hn⟩ := hy
  obtain ⟨R, h1, h2⟩ := round_bd hp hK (a != b) (p := m * n) (q := 2 ^ f.scale) (Nat.two_pow_pos _) (by
    refine Nat.le_trans (Nat.mul_le_mul hm hn) ?_
    rw [← Nat.pow_add, ← Nat.pow_add]
    exact Nat.pow_le_pow_right (by decide) (by omega))
  exact ⟨_, R, h1, h2⟩

theorem signed_bd {a : Bool} {m c : Nat} (h : m ≤ c) : (signed a m).natAbs ≤ c := by
  unfold signed
  split <;> omega

theorem Bd.add {f : Fmt} (hp : 0 < f.prec) {K : Nat} (hK : K + 1 < f.limit) {x y : Fp} (hx : Bd f K x) (hy : Bd f K y) :
    Bd f (K + 1) (add f x y) := by
  obtain ⟨a, m, rfl, hm⟩ := hx
  obtain ⟨b, n, rfl, hn⟩ := hy
  unfold Flt.add
  dsimp only
  split
  · exact ⟨_, 0, rfl, Nat.zero_le _⟩
  · have h1 := signed_bd (a := a) hm
    have h2 := signed_bd (a := b) hn
    obtain ⟨R, h1, h2⟩ := round_bd hp hK (decide (signed a m + signed b n < 0)) (p := (signed a m + signed b n).natAbs) (q := 1)
      (by decide) (by
        rw [Nat.mul_one, show K + 1 + f.scale = (K + f.scale) + 1 by omega, Nat.pow_succ]
        omega)
    exact ⟨_, R, h1, h2⟩

theorem Bd.neg {f : Fmt} {K : Nat} {x : Fp} (hx : Bd f K x) : Bd f K (neg x) := by
  obtain ⟨a, m, rfl, hm⟩ := hx
  exact ⟨_, m, rfl, hm⟩

theorem Bd.sub {f : Fmt} (hp : 0 < f.prec) {K : Nat} (hK : K + 1 < f.limit) {x y : Fp} (hx : Bd f K x) (hy : Bd f K y) :
    Bd f (K + 1) (sub f x y) := Bd.add hp hK hx hy.neg

theorem Bd.convert {f g : Fmt} (hp : 0 < g.prec) {K : Nat} (hK : K < g.limit) {x : Fp} (hx : Bd f K x) :
    Bd g K (convert f g x) := by
  obtain ⟨a, m, rfl, hm⟩ := hx
  obtain ⟨R, h1, h2⟩ := round_bd hp hK a (p := m * 2 ^ g.scale) (q := 2 ^ f.scale) (Nat.two_pow_pos _) (by
    refine Nat.le_trans (Nat.mul_le_mul_right _ hm) ?_
    rw [← Nat.pow_add, ← Nat.pow_add]
    exact Nat.pow_le_pow_right (by decide) (by omega))
  exact ⟨_, R, h1, h2⟩

/-- Division by a number of at least 1. -/
theorem Bd.div {f : Fmt} (hp : 0 < f.prec) {K : Nat} (hK : K < f.limit) {x : Fp} (hx : Bd f K x) {b : Bool} {n : Nat}
    (hn : 2 ^ f.scale ≤ n) : Bd f K (div f x (.fin b n)) := by
  obtain ⟨a, m, rfl, hm⟩ := hx
  have h0 : 0 < n := Nat.lt_of_lt_of_le (Nat.two_pow_pos _) hn
  obtain ⟨R, h1, h2⟩ := round_bd hp hK (a != b) (p := m * 2 ^ f.scale) (q := n) h0 (Nat.mul_le_mul hm hn)
  refine ⟨a != b, R, ?_, h2⟩
  unfold Flt.div
  dsimp only
  rw [if_neg (by omega), h1]

/-- A zero. -/
def Zero (x : Fp) : Prop := ∃ b, x = .fin b 0

theorem roundMag_zero (prec q : Nat) : roundMag prec 0 q = 0 := by
  unfold roundMag halfEven
  simp

theorem round_zero (f : Fmt) (neg : Bool) (q : Nat) : round f neg 0 q = .fin neg 0 := by
  unfold round
  rw [roundMag_zero, if_pos (Nat.two_pow_pos _)]

theorem Zero.convert {f g : Fmt} {x : Fp} (h : Zero x) : Zero (convert f g x) := by
  obtain ⟨b, rfl⟩ := h
  refine ⟨b, ?_⟩
  unfold Flt.convert
  dsimp only
  rw [Nat.zero_mul, round_zero]

theorem Zero.mul_right {f : Fmt} {x y : Fp} {K : Nat} (hx : Bd f K x) (h : Zero y) : Zero (mul f x y) := by
  obtain ⟨a, m, rfl, _⟩ := hx
  obtain ⟨b, rfl⟩ := h
  exact ⟨a != b, by unfold Flt.mul; dsimp only; rw [Nat.mul_zero, round_zero]⟩

theorem Zero.mul_left {f : Fmt} {x y : Fp} {K : Nat} (hx : Bd f K x) (h : Zero y) : Zero (mul f y x) := by
  obtain ⟨a, m, rfl, _⟩ := hx
  obtain ⟨b, rfl⟩ := h
  exact ⟨b != a, by unfold Flt.mul; dsimp only; rw [Nat.zero_mul, round_zero]⟩

end Csspp.Flt
