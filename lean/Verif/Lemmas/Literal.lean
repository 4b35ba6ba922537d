import Verif.Model.NumValue
import Verif.Spec.Literal
import Verif.Lemmas.FltErr
import Verif.Lemmas.WrittenNum

/-!
For C71: the double of a number with at most three digits after the period is close enough to it.
-/

namespace Csspp.Written
open Csspp.Spec Csspp.Flt Csspp.Lex

/-! ### Digits -/

theorem noTrail_eq (s : Str) : noTrail s = Dec.stripZeros s := by
  have h : ∀ l : Str, noLead l = l.dropWhile (· == 48) := by
    intro l
    induction l with
    | nil => rfl
    | cons c l ih =>
      unfold noLead
      by_cases hc : c = 48
      · rw [if_pos hc, ih, hc]; rfl
      · rw [if_neg hc, List.dropWhile_cons_of_neg (by simpa using hc)]
  unfold noTrail Dec.stripZeros
  rw [h]

theorem digits_inj : ∀ {a b : Str}, Dec.AllDigits a → Dec.AllDigits b → a.length = b.length → decVal a = decVal b → a = b
  | [], [], _, _, _, _ => rfl
  | [], _ :: _, _, _, h, _ => by simp at h
  | _ :: _, [], _, _, h, _ => by simp at h
  | c :: a, d :: b, ha, hb, hl, hv => by
    have hl' : a.length = b.length := by simpa using hl
    have ha' : Dec.AllDigits a := fun x hx => ha x (List.mem_cons_of_mem _ hx)
    have hb' : Dec.AllDigits b := fun x hx => hb x (List.mem_cons_of_mem _ hx)
    rw [decVal_cons, decVal_cons, hl'] at hv
    have h1 := Dec.decVal_lt a ha'
    have h2 := Dec.decVal_lt b hb'
    rw [hl'] at h1
    have hc := ha c (by simp)
    have hd := hb d (by simp)
    have hcd : c - 48 = d - 48 := by
      have hpos : 0 < 10 ^ b.length := Nat.pow_pos (by omega)
      have e1 := congrArg (· / 10 ^ b.length) hv
      rw [Nat.mul_comm, Nat.mul_add_div hpos, Nat.div_eq_of_lt h1, Nat.mul_comm (d - 48), Nat.mul_add_div hpos, Nat.div_eq_of_lt h2] at e1
      omega
    rw [hcd] at hv
    rw [digits_inj ha' hb' hl' (by omega), show c = d by omega]

theorem decVal_noLead : ∀ s : Str, decVal (noLead s) = decVal s
  | [] => rfl
  | c :: s => by
    unfold noLead
    by_cases h : c = 48
    · rw [if_pos h, decVal_noLead s, decVal_cons, h]; simp
    · rw [if_neg h]

theorem AllDigits.noLead : ∀ {s : Str}, Dec.AllDigits s → Dec.AllDigits (noLead s)
  | [], h => h
  | c :: s, h => by
    unfold Spec.noLead
    by_cases hc : c = 48
    · rw [if_pos hc]; exact AllDigits.noLead fun x hx => h x (List.mem_cons_of_mem _ hx)
    · rw [if_neg hc]; exact h

theorem noLead_head : ∀ (s : Str) {c : Nat} {t : Str}, noLead s = c :: t → c ≠ 48
  | [], c, t, h => by cases h
  | d :: s, c, t, h => by
    unfold noLead at h
    by_cases hd : d = 48
    · rw [if_pos hd] at h; exact noLead_head s h
    · rw [if_neg hd] at h; cases h; exact hd

/-- The length of a number without leading zero. -/
theorem head_pow {c : Nat} {t : Str} (h : Dec.AllDigits (c :: t)) (hc : c ≠ 48) : 10 ^ t.length ≤ decVal (c :: t) := by
  rw [decVal_cons]
  have := h c (by simp)
  have : 1 * 10 ^ t.length ≤ (c - 48) * 10 ^ t.length := Nat.mul_le_mul_right _ (by omega)
  omega

theorem lead_inj {a b : Str} (ha : Dec.AllDigits a) (hb : Dec.AllDigits b) (ha' : ∀ c t, a = c :: t → c ≠ 48)
    (hb' : ∀ c t, b = c :: t → c ≠ 48) (h : decVal a = decVal b) : a = b := by
  cases a with
  | nil =>
    cases b with
    | nil => rfl
    | cons d b =>
      have := head_pow hb (hb' d b rfl)
      have := Nat.pow_pos (n := b.length) (show 0 < 10 by omega)
      have : decVal [] = 0 := rfl
      omega
  | cons c a =>
    cases b with
    | nil =>
      have := head_pow ha (ha' c a rfl)
      have := Nat.pow_pos (n := a.length) (show 0 < 10 by omega)
      have : decVal [] = 0 := rfl
      omega
    | cons d b =>
      have h1 := head_pow ha (ha' c a rfl)
      have h2 := head_pow hb (hb' d b rfl)
      have h3 := Dec.decVal_lt _ ha
      have h4 := Dec.decVal_lt _ hb
      refine digits_inj ha hb ?_ h
      rw [h] at h1 h3
      have h5 := Nat.lt_of_le_of_lt h1 h4
      have h6 := Nat.lt_of_le_of_lt h2 h3
      rw [Nat.pow_lt_pow_iff_right (by omega)] at h5 h6
      simp only [List.length_cons] at h5 h6 ⊢
      omega

theorem noLead_nil {s : Str} (h : Dec.AllDigits s) : noLead s = [] ↔ decVal s = 0 := by
  rw [← decVal_noLead]
  constructor
  · intro e; rw [e]; rfl
  · intro e
    cases hs : noLead s with
    | nil => rfl
    | cons c t =>
      have hd := AllDigits.noLead h
      rw [hs] at hd e
      have := head_pow hd (noLead_head s hs)
      have := Nat.pow_pos (n := t.length) (show 0 < 10 by omega)
      omega

theorem decVal_zeros (s : Str) (k : Nat) : decVal (s ++ List.replicate k 48) = decVal s * 10 ^ k := by
  rw [decVal_append, Dec.decVal_replicate_zero, List.length_replicate, Nat.add_zero]

theorem zeros_digits {s : Str} (h : Dec.AllDigits s) (k : Nat) : Dec.AllDigits (s ++ List.replicate k 48) :=
  h.append fun c hc => by rw [List.mem_replicate] at hc; omega

/-- A fraction without zeroes at the end is known by its value. -/
theorem frac_inj {p : Nat} {f g : Str} (hf : Dec.AllDigits f) (hg : Dec.AllDigits g) (h1 : f.length ≤ p) (h2 : g.length ≤ p)
    (hl : f.getLast? ≠ some 48) (h : decVal f * 10 ^ (p - f.length) = decVal g * 10 ^ (p - g.length)) : f = noTrail g := by
  have e : f ++ List.replicate (p - f.length) 48 = g ++ List.replicate (p - g.length) 48 := by
    refine digits_inj (zeros_digits hf _) (zeros_digits hg _) ?_ ?_
    · simp only [List.length_append, List.length_replicate]; omega
    · rw [decVal_zeros, decVal_zeros, h]
  have := congrArg Dec.stripZeros e
  rw [Dec.strip_append_replicate, Dec.strip_append_replicate, Dec.strip_of_last hl] at this
  rw [this, noTrail_eq]

/-- The text of a number is the shortest one with its value. -/
theorem text_literal {p : Nat} {s rl : Bool} {ds fr sg i f : Str} (hp : fr.length ≤ p) (hds : Dec.AllDigits ds)
    (hfr : Dec.AllDigits fr) (hi : Dec.AllDigits i) (hf : Dec.AllDigits f) (hl : f.length ≤ p)
    (hlast : f.getLast? ≠ some 48) (h1 : rl = false → i ≠ []) (h2 : i = [] → f ≠ []) (h3 : rl = true → f ≠ [] → i ≠ [48])
    (h4 : ∀ c t, i = c :: t → t ≠ [] → c ≠ 48)
    (hv : Dec.scaled p i f = decVal ds * 10 ^ p + decVal fr * 10 ^ (p - fr.length))
    (hsg : sg = if s = true ∧ Dec.scaled p i f ≠ 0 then [45] else []) :
    Dec.text sg i f = literal s ds fr rl := by
  have hb : ∀ x : Str, Dec.AllDigits x → x.length ≤ p → decVal x * 10 ^ (p - x.length) < 10 ^ p := by
    intro x hx hxl
    have := Nat.mul_lt_mul_of_pos_right (Dec.decVal_lt x hx) (Nat.pow_pos (n := p - x.length) (show 0 < 10 by omega))
    rwa [← Nat.pow_add, show x.length + (p - x.length) = p by omega] at this
  have b1 := hb f hf hl
  have b2 := hb fr hfr hp
  have hpos : 0 < 10 ^ p := Nat.pow_pos (by omega)
  have hv' := hv
  unfold Dec.scaled at hv'
  have ei : decVal i = decVal ds := by
    have e1 := congrArg (· / 10 ^ p) hv'
    rw [Nat.mul_comm, Nat.mul_add_div hpos, Nat.div_eq_of_lt b1, Nat.mul_comm (decVal ds), Nat.mul_add_div hpos, Nat.div_eq_of_lt b2] at e1
    simpa using e1
  rw [ei] at hv'
  have ef := frac_inj hf hfr hl hp hlast (by omega)
  have hi' : i = [] ∨ i = [48] ∨ i = noLead ds := by
    cases i with
    | nil => exact .inl rfl
    | cons c t =>
      by_cases hc : c = 48
      · have ht : t = [] := by
          cases t with
          | nil => rfl
          | cons d t => exact absurd hc (h4 c _ rfl (by simp))
        exact .inr (.inl (by rw [hc, ht]))
      · refine .inr (.inr (lead_inj hi (AllDigits.noLead hds) (fun c' t' e => by cases e; exact hc) (fun c' t' e => noLead_head ds e) ?_))
        rw [ei, decVal_noLead]
  have hzero : Dec.scaled p i f = 0 ↔ (noLead ds = [] ∧ noTrail fr = []) := by
    unfold Dec.scaled
    rw [ei, noLead_nil hds, ← ef]
    constructor
    · intro h
      have h5 : decVal ds * 10 ^ p = 0 := by omega
      have h6 : decVal f * 10 ^ (p - f.length) = 0 := by omega
      refine ⟨?_, ?_⟩
      · rcases Nat.mul_eq_zero.1 h5 with h | h
        · exact h
        · omega
      · have h7 : decVal f = 0 := by
          rcases Nat.mul_eq_zero.1 h6 with h | h
          · exact h
          · have := Nat.pow_pos (n := p - f.length) (show 0 < 10 by omega); omega
        have h8 := frac_inj (p := p) (g := []) hf (by intro c hc; cases hc) hl (by simp) hlast (by rw [h7]; simp [decVal])
        rw [h8]; rfl
    · rintro ⟨h, h'⟩
      rw [h, h']; simp [decVal]
  have hnil : noLead ds = [] ↔ decVal i = 0 := by rw [noLead_nil hds, ei]
  unfold literal Dec.text
  rw [hsg, ← ef]
  by_cases hz : noLead ds = [] ∧ f = []
  · rw [if_pos hz, if_pos hz.2, if_neg (fun h => h.2 (hzero.2 (by rw [← ef]; exact hz)))]
    rcases hi' with h | h | h
    · exact absurd hz.2 (h2 h)
    · rw [h]; rfl
    · exact absurd hz.2 (h2 (by rw [h, hz.1]))
  · rw [if_neg hz]
    have hnz : Dec.scaled p i f ≠ 0 := by rw [Ne, hzero, ← ef]; exact hz
    have e1 : (if s = true ∧ Dec.scaled p i f ≠ 0 then ([45] : Str) else []) = if s then b!"-" else [] := by
      cases s
      · rw [if_neg (by simp)]; rfl
      · rw [if_pos ⟨rfl, hnz⟩]; rfl
    rw [e1]
    congr 1
    congr 1
    by_cases hn : noLead ds = []
    · have hfn : f ≠ [] := fun h => hz ⟨hn, h⟩
      rw [if_pos hn]
      cases rl with
      | true =>
        rw [if_pos rfl]
        rcases hi' with h | h | h
        · exact h
        · exact absurd h (h3 rfl hfn)
        · rw [h, hn]
      | false =>
        rw [if_neg (by simp)]
        rcases hi' with h | h | h
        · exact absurd h (h1 rfl)
        · exact h
        · exact absurd (h.trans hn) (h1 rfl)
    · rw [if_neg hn]
      rcases hi' with h | h | h
      · rw [h] at hnil; exact absurd (hnil.2 rfl) hn
      · rw [h] at hnil; exact absurd (hnil.2 rfl) hn
      · exact h

/-! ### The double of a number -/

/-- 2^-14, in units. -/
@[irreducible] def X : Nat := 2 ^ 1060

theorem x_pos : 0 < X := by unfold X; decide +kernel
theorem u_eq : U = 16384 * X := by unfold U X; decide +kernel

/-- The double of a fraction. -/
@[irreducible] def part (fr : Str) : Fp := fracValue fr (ofInt f64 0) (ofInt f64 1)

def partOk (fr : Str) : Bool :=
  decide (part fr = .fin false (mag (part fr)) ∧ 1000 * (10 ^ fr.length * mag (part fr)) ≤ 1000 * (decVal fr * U) + X ∧
    1000 * (decVal fr * U) ≤ 1000 * (10 ^ fr.length * mag (part fr)) + X)

theorem parts0 : partOk [] = true := by unfold partOk part U X; decide +kernel
theorem parts1 : ∀ a < 10, partOk [48 + a] = true := by unfold partOk part U X; decide +kernel
theorem parts2 : ∀ a < 10, ∀ b < 10, partOk [48 + a, 48 + b] = true := by unfold partOk part U X; decide +kernel
theorem parts3 : ∀ a < 10, ∀ b < 10, ∀ c < 10, partOk [48 + a, 48 + b, 48 + c] = true := by unfold partOk part U X; decide +kernel

theorem part_ok {fr : Str} (h : Dec.AllDigits fr) (hl : fr.length ≤ 3) : partOk fr = true := by
  have hc : ∀ c, 48 ≤ c ∧ c ≤ 57 → ∃ a < 10, c = 48 + a := fun c hc => ⟨c - 48, by omega, by omega⟩
  match fr, h, hl with
  | [], _, _ => exact parts0
  | [c], h, _ =>
    obtain ⟨a, ha, rfl⟩ := hc c (h c (by simp))
    exact parts1 a ha
  | [c, d], h, _ =>
    obtain ⟨a, ha, rfl⟩ := hc c (h c (by simp))
    obtain ⟨b, hb, rfl⟩ := hc d (h d (by simp))
    exact parts2 a ha b hb
  | [c, d, e], h, _ =>
    obtain ⟨a, ha, rfl⟩ := hc c (h c (by simp))
    obtain ⟨b, hb, rfl⟩ := hc d (h d (by simp))
    obtain ⟨x, hx, rfl⟩ := hc e (h e (by simp))
    exact parts3 a ha b hb x hx
  | _ :: _ :: _ :: _ :: _, _, hl => simp at hl

theorem half_close : ∀ p < 4, 2 * (10 ^ p * mag (half p)) ≤ U + X ∧ U ≤ 2 * (10 ^ p * mag (half p)) + X := by
  unfold U X; decide +kernel

/-- A double close to a number with at most p digits after the period is cut to that number once 0.5 / 10^p is added. -/
theorem cut_close {p n m r P H D k N x u : Nat} (hp : p ≤ 3) (hk : k ≤ p) (hu : u = 16384 * x) (hx : 0 < x)
    (hN : N = n * u)
    (hP1 : 1000 * (10 ^ k * P) ≤ 1000 * (D * u) + x) (hP2 : 1000 * (D * u) ≤ 1000 * (10 ^ k * P) + x)
    (hH1 : 2 * (10 ^ p * H) ≤ u + x) (hH2 : u ≤ 2 * (10 ^ p * H) + x)
    (hm1 : m ≤ N + P + 4 * x) (hm2 : N + P ≤ m + 4 * x) (hr1 : r ≤ m + H + x) (hr2 : m + H ≤ r + x) :
    r * 10 ^ p / u = n * 10 ^ p + D * 10 ^ (p - k) := by
  have hupos : 0 < u := by omega
  have e : (n * 10 ^ p + D * 10 ^ (p - k)) * u = 10 ^ p * N + 10 ^ (p - k) * (D * u) := by
    rw [Nat.add_mul, hN, Nat.mul_right_comm, Nat.mul_right_comm D, Nat.mul_comm (10 ^ p), Nat.mul_comm (10 ^ (p - k))]
  have key : 10 ^ p * N + 10 ^ (p - k) * (D * u) ≤ r * 10 ^ p ∧ r * 10 ^ p < 10 ^ p * N + 10 ^ (p - k) * (D * u) + u := by
    generalize D * u = Du at *
    have hp' : p = 0 ∨ p = 1 ∨ p = 2 ∨ p = 3 := by omega
    have hk' : k = 0 ∨ k = 1 ∨ k = 2 ∨ k = 3 := by omega
    rcases hp' with rfl | rfl | rfl | rfl <;> rcases hk' with rfl | rfl | rfl | rfl <;> first | omega | (simp at *; omega)
  refine Nat.div_eq_of_lt_le (by rw [e]; exact key.1) ?_
  rw [Nat.succ_mul, e]
  exact key.2

end Csspp.Written
