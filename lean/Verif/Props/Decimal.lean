import Verif.Model.Decimal
import Verif.Lemmas.Digits

/-!
C19: decimal output format.

Specification: a decimal text is an optional minus sign, digits, and optionally a point followed
by digits.
-/

namespace Csspp.Dec
open Csspp.Spec

/-- Only decimal digits. -/
def AllDigits (s : Str) : Prop := ∀ c ∈ s, 48 ≤ c ∧ c ≤ 57

/-- `sg` then `i`, then a point and `f` when `f` is not empty. -/
def text (sg i f : Str) : Str := sg ++ i ++ (if f = [] then [] else 46 :: f)

/-- The value of the text in units of 10^-p, sign excluded (f has at most p digits). -/
def scaled (p : Nat) (i f : Str) : Nat := decVal i * 10 ^ p + decVal f * 10 ^ (p - f.length)

/-! ### Helpers -/

theorem AllDigits.append {a b : Str} (ha : AllDigits a) (hb : AllDigits b) : AllDigits (a ++ b) := by
  intro c hc
  rcases List.mem_append.mp hc with h | h
  · exact ha c h
  · exact hb c h

theorem AllDigits.left {a b : Str} (h : AllDigits (a ++ b)) : AllDigits a :=
  fun c hc => h c (List.mem_append_left _ hc)
theorem AllDigits.right {a b : Str} (h : AllDigits (a ++ b)) : AllDigits b :=
  fun c hc => h c (List.mem_append_right _ hc)

theorem decVal_replicate_zero (k : Nat) : decVal (List.replicate k 48) = 0 := by
  induction k with
  | zero => rfl
  | succ k ih => rw [List.replicate_succ, decVal_cons, ih]; simp

/-- A text is its stripped form followed by zeroes. -/
theorem strip_split (s : Str) : ∃ k, s = stripZeros s ++ List.replicate k 48 := by
  unfold stripZeros
  have h := List.takeWhile_append_dropWhile (p := (· == 48)) (l := s.reverse)
  refine ⟨(s.reverse.takeWhile (· == 48)).length, ?_⟩
  have h2 : s = (s.reverse.dropWhile (· == 48)).reverse ++ (s.reverse.takeWhile (· == 48)).reverse := by
    rw [← List.reverse_append, h, List.reverse_reverse]
  have h3 : s.reverse.takeWhile (· == 48) =
      List.replicate (s.reverse.takeWhile (· == 48)).length 48 := by
    rw [List.eq_replicate_iff]
    refine ⟨rfl, ?_⟩
    intro b hb
    have := List.all_eq_true.mp (List.all_takeWhile (p := (· == 48)) (l := s.reverse)) b hb
    simpa using this
  conv => lhs; rw [h2]
  conv => lhs; rw [h3, List.reverse_replicate]

theorem strip_last (s : Str) : (stripZeros s).getLast? ≠ some 48 := by
  unfold stripZeros
  rw [List.getLast?_reverse]
  cases h : s.reverse.dropWhile (· == 48) with
  | nil => simp
  | cons a l =>
    have := List.head?_dropWhile_not (p := (· == 48)) (l := s.reverse)
    rw [h] at this
    simpa using this

theorem strip_append_replicate (s : Str) (k : Nat) :
    stripZeros (s ++ List.replicate k 48) = stripZeros s := by
  unfold stripZeros
  rw [List.reverse_append, List.reverse_replicate]
  congr 1
  induction k with
  | zero => rfl
  | succ k ih => rw [List.replicate_succ, List.cons_append, List.dropWhile_cons]; simp [ih]

theorem strip_of_last {s : Str} (h : s.getLast? ≠ some 48) : stripZeros s = s := by
  obtain ⟨k, hk⟩ := strip_split s
  cases k with
  | zero => simpa using hk.symm
  | succ k =>
    exfalso; apply h
    rw [hk, List.replicate_succ', ← List.append_assoc, List.getLast?_append]
    simp

theorem strip_take_strip (s : Str) (p : Nat) :
    stripZeros ((stripZeros s).take p) = stripZeros (s.take p) := by
  obtain ⟨k, hk⟩ := strip_split s
  generalize stripZeros s = t at hk
  subst hk
  rw [List.take_append, List.take_replicate, strip_append_replicate]

theorem AllDigits.last {a : Str} (h : AllDigits a) : a.getLast? ≠ some 46 := by
  intro hl
  have := h 46 (List.mem_of_getLast? hl)
  omega

theorem AllDigits.strip {a : Str} (h : AllDigits a) : AllDigits (stripZeros a) := by
  obtain ⟨k, hk⟩ := strip_split a
  rw [hk] at h
  exact h.left

/-- Lines 121-128 on digits, a point and digits. -/
theorem strip_point (a f : Str) (hf : AllDigits f) :
    dropDot (stripZeros (a ++ 46 :: f)) = a ++ dot (stripZeros f) := by
  have hd := hf.strip
  have hl := strip_last f
  obtain ⟨k, hk⟩ := strip_split f
  generalize stripZeros f = g at *
  subst hk
  have e : a ++ 46 :: (g ++ List.replicate k 48) = (a ++ 46 :: g) ++ List.replicate k 48 := by simp
  rw [e, strip_append_replicate]
  have h3 : (a ++ 46 :: g).getLast? = if g = [] then some 46 else g.getLast? := by
    rw [List.getLast?_append]
    cases g with
    | nil => rfl
    | cons x xs =>
      rw [List.getLast?_cons_cons]
      cases hx : (x :: xs).getLast? with
      | none => simp at hx
      | some y => simp
  have h2 : (a ++ 46 :: g).getLast? ≠ some 48 := by
    rw [h3]; split
    · simp
    · exact hl
  rw [strip_of_last h2]
  unfold dropDot dot
  by_cases hg : g = []
  · subst hg
    rw [if_pos (by rw [h3]; rfl), if_pos rfl]
    simp
  · rw [if_neg (by rw [h3, if_neg hg]; exact hd.last), if_neg hg]

theorem takeWhile_no_dot (a f : Str) (h : 46 ∉ a) :
    (a ++ 46 :: f).takeWhile (· != 46) = a := by
  induction a with
  | nil => rfl
  | cons x xs ih =>
    rw [List.cons_append, List.takeWhile_cons]
    have hx : x ≠ 46 := fun h' => h (by simp [h'])
    simp [hx]
    exact ih (fun h' => h (by simp [h']))

/-- Lines 110-129 on a text with a point. -/
theorem truncText_point (p : Nat) (a f : Str) (ha : 46 ∉ a) (hf : AllDigits f) :
    truncText p (a ++ 46 :: f) = a ++ dot (stripZeros (f.take p)) := by
  unfold truncText findDot
  rw [if_pos (by simp), takeWhile_no_dot a f ha]
  dsimp only
  have hlen : (a ++ 46 :: f).length = a.length + f.length + 1 := by simp; omega
  have hft : AllDigits (f.take p) := fun c hc => hf c (List.mem_of_mem_take hc)
  by_cases hl : (a ++ 46 :: f).length > a.length + p + 1
  · simp only [if_pos hl]
    have e : (a ++ 46 :: f).take (a.length + p + 1) = a ++ 46 :: f.take p := by
      rw [List.take_append, List.take_of_length_le (by omega)]
      rw [show a.length + p + 1 - a.length = p + 1 by omega, List.take_succ_cons]
    rw [e]
    simp only [List.mem_append, List.mem_cons, true_or, or_true, if_true]
    exact strip_point a _ hft
  · simp only [if_neg hl]
    have e : f.take p = f := List.take_of_length_le (by omega)
    simp only [List.mem_append, List.mem_cons, true_or, or_true, if_true]
    rw [e]
    exact strip_point a f hf

theorem truncText_nopoint (p : Nat) (a : Str) (ha : 46 ∉ a) : truncText p a = a := by
  unfold truncText findDot
  rw [if_neg ha]

/-- Lines 110-129 on the fixed notation. -/
theorem truncText_dot (p : Nat) (a f : Str) (ha : 46 ∉ a) (hf : AllDigits f) :
    truncText p (a ++ dot (stripZeros f)) = a ++ dot (stripZeros (f.take p)) := by
  rw [← strip_take_strip]
  have hd := hf.strip
  generalize stripZeros f = g at *
  unfold dot
  by_cases hg : g = []
  · subst hg
    simp only [if_true, List.append_nil, List.take_nil]
    rw [truncText_nopoint p a ha]
    simp [stripZeros]
  · rw [if_neg hg, truncText_point p a g ha hd]
    rfl

theorem not_dot_of_digits {a : Str} (h : AllDigits a) : 46 ∉ a := fun hm => by
  have := h 46 hm; omega

/-- The digits kept are the quotient by a power of ten. -/
theorem decVal_lt (s : Str) (h : AllDigits s) : decVal s < 10 ^ s.length := by
  induction s with
  | nil => simp [decVal]
  | cons c cs ih =>
    rw [decVal_cons, List.length_cons, Nat.pow_succ]
    have h1 := ih (fun x hx => h x (List.mem_cons_of_mem _ hx))
    have hc := h c List.mem_cons_self
    have : (c - 48) * 10 ^ cs.length ≤ 9 * 10 ^ cs.length := Nat.mul_le_mul_right _ (by omega)
    omega

theorem decVal_take (s : Str) (h : AllDigits s) (k : Nat) (hk : k ≤ s.length) :
    decVal (s.take (s.length - k)) = decVal s / 10 ^ k := by
  have e := List.take_append_drop (s.length - k) s
  have hd : AllDigits (s.drop (s.length - k)) := by rw [← e] at h; exact h.right
  have hl := decVal_lt _ hd
  have hlen : (s.drop (s.length - k)).length = k := by rw [List.length_drop]; omega
  conv => rhs; rw [← e]
  rw [decVal_append, hlen]
  rw [hlen] at hl
  rw [Nat.mul_comm, Nat.mul_add_div (Nat.pow_pos (by omega)), Nat.div_eq_of_lt hl]
  rfl

theorem decVal_strip (f : Str) (p : Nat) (hp : f.length ≤ p) :
    decVal (stripZeros f) * 10 ^ (p - (stripZeros f).length) = decVal f * 10 ^ (p - f.length) := by
  obtain ⟨k, hk⟩ := strip_split f
  generalize stripZeros f = g at *
  subst hk
  rw [decVal_append, decVal_replicate_zero, List.length_append, List.length_replicate] at *
  rw [Nat.add_zero, Nat.mul_assoc, ← Nat.pow_add]
  congr 2
  omega

theorem natDigits_length_le {n k : Nat} (h : 10 ^ k ≤ n) : k < (natDigits n).length := by
  have h1 := decVal_lt (natDigits n) (natDigits_digits n).2
  rw [decVal_natDigits] at h1
  exact (Nat.pow_lt_pow_iff_right (by omega : 1 < 10)).mp (Nat.lt_of_le_of_lt h h1)

theorem padDigits_digits (n e : Nat) : AllDigits (padDigits n e) := by
  unfold padDigits
  apply AllDigits.append
  · intro c hc; rw [List.mem_replicate] at hc; omega
  · exact (natDigits_digits n).2

theorem decVal_padDigits (n e : Nat) : decVal (padDigits n e) = n := by
  unfold padDigits
  rw [decVal_append, decVal_replicate_zero, decVal_natDigits]; simp

theorem padDigits_length (n e : Nat) : e + 1 ≤ (padDigits n e).length := by
  unfold padDigits; simp; omega

/-- The number of digits before the point is one, or the first one is not a zero. -/
theorem padDigits_lead (n e : Nat) (i : Str) (c : Nat)
    (h : (padDigits n e).take ((padDigits n e).length - e) = c :: i) (hi : i ≠ []) : c ≠ 48 := by
  unfold padDigits at h
  by_cases hl : (natDigits n).length ≤ e
  · exfalso
    have : ((c :: i).length) = 1 := by
      rw [← h, List.length_take]; simp; omega
    simp at this
    exact hi this
  · rw [show e + 1 - (natDigits n).length = 0 by omega] at h
    simp only [List.replicate_zero, List.nil_append] at h
    have hn : 0 < n := by
      rcases Nat.eq_zero_or_pos n with rfl | h'
      · exfalso
        have e1 : natDigits 0 = [48] := by decide
        rw [e1] at h hl
        simp at hl
        subst hl
        simp at h
        exact hi h.2
      · exact h'
    obtain ⟨c', t, e1, h1⟩ := natDigitsAux_head (n + 1) n (by omega) hn
    unfold natDigits at h
    rw [e1] at h
    cases hk : ((c' :: t).length - e) with
    | zero => rw [hk] at h; simp at h
    | succ k => rw [hk] at h; simp at h; rw [← h.1]; exact h1

/-- Lines 131-149 do exactly what their comments say. -/
theorem dropLeadingZero_text (sg i f : Str) (hsg : sg = [] ∨ sg = [45]) (hi : AllDigits i)
    (hne : i ≠ []) (hf : AllDigits f) :
    dropLeadingZero (text sg i f) = text sg (if i = [48] ∧ f ≠ [] then [] else i) f := by
  obtain ⟨c, t, rfl⟩ : ∃ c t, i = c :: t := by
    cases i with
    | nil => exact absurd rfl hne
    | cons c t => exact ⟨c, t, rfl⟩
  have hc := hi c List.mem_cons_self
  have ht : ∀ x ∈ t, 48 ≤ x ∧ x ≤ 57 := fun x hx => hi x (List.mem_cons_of_mem _ hx)
  unfold dropLeadingZero text
  rcases hsg with rfl | rfl <;> rcases t with _ | ⟨d, t⟩ <;> rcases f with _ | ⟨x, f⟩
  · simp
  · by_cases h : c = 48
    · subst h; simp
    · have h' : c ≠ 45 := by omega
      simp [h, h']
  · have hd := ht d (by simp)
    have h1 : d ≠ 46 := by omega
    have h2 : c ≠ 45 := by omega
    simp [h1, h2]
  · have hd := ht d (by simp)
    have h1 : d ≠ 46 := by omega
    have h2 : c ≠ 45 := by omega
    simp [h1, h2]
  · have h1 : c ≠ 46 := by omega
    simp
  · by_cases h : c = 48
    · subst h; simp
    · simp [h]
  · have hd := ht d (by simp)
    have h1 : d ≠ 46 := by omega
    have h2 : c ≠ 46 := by omega
    simp [h1]
  · have hd := ht d (by simp)
    have h1 : d ≠ 46 := by omega
    simp [h1]

/-! ### The property -/

/-- ±n / 10^e is written in fixed notation: it is at least 10^-4. -/
def Fixed (n e : Nat) : Prop := 10 ^ e ≤ n * 10000

theorem fixed_len {n e : Nat} (h : Fixed n e) : ¬ ((natDigits n).length + 3 < e) := by
  intro hlt
  unfold Fixed at h
  obtain ⟨k, hk⟩ : ∃ k, e = k + 4 := ⟨e - 4, by omega⟩
  rw [hk, Nat.pow_add] at h
  have := natDigits_length_le (n := n) (k := k) (by omega)
  omega

/-- The value printed for n / 10^e, in units of 10^-p: the digits after the p-th are cut. -/
def cut (p n e : Nat) : Nat := n * 10 ^ p / 10 ^ e

theorem take_drop_take (d : Str) (a k : Nat) : d.take a ++ (d.drop a).take k = d.take (a + k) :=
  List.take_add.symm

theorem fixed_parts (n e : Nat) : ∃ i f, fixedText n e = i ++ dot (stripZeros f) ∧
    AllDigits i ∧ AllDigits f ∧ i ≠ [] ∧ f.length = e ∧ (∀ t c, i = c :: t → t ≠ [] → c ≠ 48) ∧
    decVal (i ++ f) = n := by
  have hD := padDigits_digits n e
  have hV := decVal_padDigits n e
  have hL := padDigits_length n e
  have hlead := padDigits_lead n e
  have hsplit := List.take_append_drop ((padDigits n e).length - e) (padDigits n e)
  refine ⟨(padDigits n e).take ((padDigits n e).length - e),
    (padDigits n e).drop ((padDigits n e).length - e), rfl, ?_, ?_, ?_, ?_,
    fun t c h1 h2 => hlead t c h1 h2, ?_⟩
  · rw [← hsplit] at hD; exact hD.left
  · rw [← hsplit] at hD; exact hD.right
  · intro h0
    have := congrArg List.length h0
    rw [List.length_take] at this
    simp at this; omega
  · rw [List.length_drop]; omega
  · rw [hsplit, hV]

theorem keep_value (p n e : Nat) (i f : Str) (hf : AllDigits f)
    (hl : f.length = e) (hv : decVal (i ++ f) = n) :
    decVal i * 10 ^ p + decVal (f.take p) * 10 ^ (p - (f.take p).length) = cut p n e := by
  unfold cut
  rw [List.length_take, hl, ← hv, decVal_append, hl]
  by_cases h : p ≤ e
  · rw [Nat.min_eq_left h, Nat.sub_self, Nat.pow_zero, Nat.mul_one]
    have e1 := decVal_take f hf (e - p) (by omega)
    rw [hl, show e - (e - p) = p by omega] at e1
    rw [e1]
    have e2 : 10 ^ e = 10 ^ (e - p) * 10 ^ p := by rw [← Nat.pow_add]; congr 1; omega
    have hp : 0 < 10 ^ p := Nat.pow_pos (by omega)
    have hq : 0 < 10 ^ (e - p) := Nat.pow_pos (by omega)
    rw [e2, Nat.mul_div_mul_right _ _ hp]
    rw [← Nat.mul_assoc, Nat.mul_right_comm, Nat.mul_comm (decVal i * 10 ^ p) (10 ^ (e - p)),
      Nat.mul_add_div hq]
  · have h : e ≤ p := by omega
    rw [Nat.min_eq_right h, List.take_of_length_le (by omega)]
    have e2 : 10 ^ p = 10 ^ (p - e) * 10 ^ e := by rw [← Nat.pow_add]; congr 1; omega
    have hq : 0 < 10 ^ e := Nat.pow_pos (by omega)
    have e3 : ∀ x y a b : Nat, (x * b + y) * (a * b) = (x * (a * b) + y * a) * b := by
      intro x y a b
      rw [← Nat.mul_assoc, Nat.add_mul, Nat.mul_right_comm x b a, Nat.mul_assoc x a b]
    rw [e2, e3, Nat.mul_div_cancel _ hq]

/-- C19: whatever double the rounding of lines 99-106 gave, as long as it is at least 10^-4, the
text is `[-]i[.f]` with at most `precision` digits after the point, no trailing zero, no dangling
point, no superfluous leading zero, never `-0`, no `0.` at the start when the leading zero has to
go; and its value is the double cut after `precision` digits. -/
theorem C19_format (p : Nat) (neg : Bool) (n e : Nat) (rl : Bool) (h : Fixed n e) :
    ∃ sg i f, toStrSum p neg n e rl = text sg i f ∧
      AllDigits i ∧ AllDigits f ∧
      f.length ≤ p ∧ f.getLast? ≠ some 48 ∧
      (rl = false → i ≠ []) ∧ (i = [] → f ≠ []) ∧
      (rl = true → f ≠ [] → i ≠ [48]) ∧
      (∀ c t, i = c :: t → t ≠ [] → c ≠ 48) ∧
      scaled p i f = cut p n e ∧
      sg = (if neg = true ∧ cut p n e ≠ 0 then [45] else []) := by
  have hfix := fixed_len h
  unfold toStrSum streamText
  simp only [if_neg hfix]
  obtain ⟨i, f, htext, hdi, hdf, hine, hfl, hlead, hv⟩ := fixed_parts n e
  have hkeep := keep_value p n e i f hdf hfl hv
  rw [htext]
  clear htext hv hfix
  have hft : AllDigits (f.take p) := fun c hc => hdf c (List.mem_of_mem_take hc)
  have hftl : (f.take p).length ≤ p := by rw [List.length_take]; omega
  -- the sign
  have hs : ∃ s0 : Str, (if neg then [45] else []) = s0 ∧ (s0 = [] ∨ s0 = [45]) ∧
      (s0 = [45] ↔ neg = true) := by
    cases neg
    · exact ⟨[], rfl, .inl rfl, by simp⟩
    · exact ⟨[45], rfl, .inr rfl, by simp⟩
  obtain ⟨s0, es0, hs0, hs1⟩ := hs
  simp only [es0]
  have hnodot : 46 ∉ s0 ++ i := by
    intro hm
    rcases List.mem_append.mp hm with hm | hm
    · rcases hs0 with rfl | rfl <;> simp at hm
    · exact not_dot_of_digits hdi hm
  rw [← List.append_assoc, truncText_dot p _ f hnodot hdf]
  have etext : s0 ++ i ++ dot (stripZeros (f.take p)) = text s0 i (stripZeros (f.take p)) := rfl
  rw [etext]
  have hg := hft.strip
  have hgl := strip_last (f.take p)
  have hglen : (stripZeros (f.take p)).length ≤ p := by
    obtain ⟨k, hk⟩ := strip_split (f.take p)
    have := congrArg List.length hk
    rw [List.length_append] at this
    omega
  have hsc : scaled p i (stripZeros (f.take p)) = cut p n e := by
    unfold scaled
    rw [decVal_strip _ p hftl, hkeep]
  generalize stripZeros (f.take p) = g at *
  -- the value is zero exactly when the text is 0
  have hzero : cut p n e = 0 ↔ i = [48] ∧ g = [] := by
    rw [← hsc]
    unfold scaled
    constructor
    · intro h0
      have hp : 0 < 10 ^ p := Nat.pow_pos (by omega)
      have h1 : decVal i = 0 := by
        rcases Nat.eq_zero_or_pos (decVal i) with h' | h'
        · exact h'
        · have := Nat.mul_pos h' hp; omega
      have h2 : decVal g = 0 := by
        rcases Nat.eq_zero_or_pos (decVal g) with h' | h'
        · exact h'
        · have := Nat.mul_pos h' (Nat.pow_pos (by omega) : 0 < 10 ^ (p - g.length)); omega
      constructor
      · cases i with
        | nil => exact absurd rfl hine
        | cons c t =>
          have hc := hdi c List.mem_cons_self
          rw [decVal_cons] at h1
          have hpp : 0 < 10 ^ t.length := Nat.pow_pos (by omega)
          have hc0 : c = 48 := by
            rcases Nat.eq_zero_or_pos (c - 48) with h' | h'
            · omega
            · have := Nat.mul_pos h' hpp; omega
          by_cases ht : t = []
          · rw [hc0, ht]
          · exact absurd hc0 (hlead t c rfl ht)
      · -- a stripped text of value zero is empty
        cases hgg : g.getLast? with
        | none => exact List.getLast?_eq_none_iff.mp hgg
        | some y =>
          exfalso
          obtain ⟨g', rfl⟩ := List.getLast?_eq_some_iff.mp hgg
          rw [decVal_append] at h2
          have hy := hg y (by simp)
          have : y ≠ 48 := fun e => hgl (by rw [hgg, e])
          simp [decVal] at h2
          omega
    · rintro ⟨rfl, rfl⟩
      simp [decVal]
  -- removing the leading zero
  have hdl := dropLeadingZero_text s0 i g hs0 hdi hine hg
  -- `-0` happens exactly for the value zero
  have hm0 : ∀ j : Str, (j = i ∨ (j = [] ∧ i = [48] ∧ g ≠ [])) →
      (text s0 j g = [45, 48] ↔ neg = true ∧ cut p n e = 0) := by
    intro j hj
    rw [hzero]
    constructor
    · intro ht
      unfold text at ht
      rcases hs0 with rfl | rfl
      · exfalso
        simp only [List.nil_append] at ht
        rcases hj with rfl | ⟨rfl, _, hgne⟩
        · cases j with
          | nil => exact hine rfl
          | cons c t =>
            have := hdi c List.mem_cons_self
            simp at ht; omega
        · rw [if_neg hgne] at ht; simp at ht
      · refine ⟨hs1.mp rfl, ?_⟩
        by_cases hgn : g = []
        · subst hgn
          rcases hj with rfl | ⟨_, _, h'⟩
          · simpa using ht
          · exact absurd rfl h'
        · exfalso
          rw [if_neg hgn] at ht
          have : 46 ∈ [45, 48] := by rw [← ht]; simp
          simp at this
    · rintro ⟨hneg, rfl, rfl⟩
      rw [hs1.mpr hneg]
      rcases hj with rfl | ⟨_, _, h'⟩
      · rfl
      · exact absurd rfl h'
  have hfin : ∀ j : Str, (j = i ∨ (j = [] ∧ i = [48] ∧ g ≠ [])) →
      (if text s0 j g = [45, 48] then ([48] : Str) else text s0 j g) =
        text (if neg = true ∧ cut p n e ≠ 0 then [45] else []) j g := by
    intro j hj
    by_cases hz : neg = true ∧ cut p n e = 0
    · rw [if_pos ((hm0 j hj).mpr hz), if_neg (by simp [hz.2])]
      have := hzero.mp hz.2
      rcases hj with rfl | ⟨_, _, h'⟩
      · rw [this.1, this.2]; rfl
      · exact absurd this.2 h'
    · rw [if_neg (fun h' => hz ((hm0 j hj).mp h'))]
      congr 1
      by_cases hneg : neg = true
      · rw [if_pos ⟨hneg, fun h0 => hz ⟨hneg, h0⟩⟩, hs1.mpr hneg]
      · rw [if_neg (fun h' => hneg h'.1)]
        rcases hs0 with h' | h'
        · exact h'
        · exact absurd (hs1.mp h') hneg
  cases rl with
  | false =>
    simp only [Bool.false_eq_true, if_false]
    refine ⟨_, i, g, hfin i (.inl rfl), hdi, hg, hglen, hgl, fun _ => hine,
      fun h' => absurd h' hine, fun h' => (by cases h'), fun c t e => hlead t c e, hsc, rfl⟩
  | true =>
    simp only [if_true]
    rw [hdl]
    by_cases hrm : i = [48] ∧ g ≠ []
    · rw [if_pos hrm]
      refine ⟨_, [], g, hfin [] (.inr ⟨rfl, hrm.1, hrm.2⟩), (fun _ h' => by cases h'), hg, hglen, hgl,
        (fun h' => by cases h'), fun _ => hrm.2, (fun _ _ h' => by cases h'),
        (fun c t h' => by cases h'), ?_, rfl⟩
      rw [← hsc, hrm.1]
      simp [scaled, decVal]
    · rw [if_neg hrm]
      refine ⟨_, i, g, hfin i (.inl rfl), hdi, hg, hglen, hgl, fun _ => hine,
        fun h' => absurd h' hine, fun _ h1 h2 => hrm ⟨h2, h1⟩, fun c t e => hlead t c e, hsc, rfl⟩

/-- The nearest integer to (m / 10^q) * 10^p, halves rounded up: the value of a number in units of
10^-p. -/
def nearest (p m q : Nat) : Nat := (2 * m * 10 ^ p + 10 ^ q) / (2 * 10 ^ q)

/-- C19 at the default precision and below: every number, rounded to the nearest multiple of
10^-precision (when the double addition is exact). -/
theorem C19_format_precision_le_3 (p : Nat) (hp : p ≤ 3) (neg : Bool) (m q : Nat) (rl : Bool) :
    ∃ sg i f, toStr p neg m q rl = text sg i f ∧ AllDigits i ∧ AllDigits f ∧
      f.length ≤ p ∧ f.getLast? ≠ some 48 ∧
      (rl = false → i ≠ []) ∧ (i = [] → f ≠ []) ∧
      (rl = true → f ≠ [] → i ≠ [48]) ∧
      (∀ c t, i = c :: t → t ≠ [] → c ≠ 48) ∧
      scaled p i f = nearest p m q ∧
      sg = (if neg = true ∧ nearest p m q ≠ 0 then [45] else []) := by
  have hval : cut p (m * 10 ^ (p + 1) + 5 * 10 ^ q) (p + 1 + q) = nearest p m q := by
    unfold nearest cut
    have e1 : (m * 10 ^ (p + 1) + 5 * 10 ^ q) * 10 ^ p = (2 * m * 10 ^ p + 10 ^ q) * (5 * 10 ^ p) := by
      rw [Nat.pow_succ, ← Nat.mul_assoc, Nat.add_mul _ _ (5 * 10 ^ p), Nat.add_mul]
      have h1 : m * (10 ^ p * 10) * 10 ^ p = 2 * m * 10 ^ p * (5 * 10 ^ p) := by
        generalize 10 ^ p = a
        rw [← Nat.mul_assoc (2 * m * a) 5 a, ← Nat.mul_assoc m]
        congr 1
        rw [Nat.mul_assoc 2 m a]
        generalize m * a = z
        omega
      have h2 : 5 * 10 ^ q * 10 ^ p = 10 ^ q * (5 * 10 ^ p) := by
        rw [Nat.mul_comm 5, Nat.mul_assoc]
      rw [← h1, ← h2, Nat.mul_assoc m]
    have e2 : 10 ^ (p + 1 + q) = 2 * 10 ^ q * (5 * 10 ^ p) := by
      rw [Nat.pow_add, Nat.pow_succ]
      generalize 10 ^ p = a
      generalize 10 ^ q = b
      rw [Nat.mul_comm a 10, Nat.mul_assoc 10, Nat.mul_comm a b, Nat.mul_comm 5 a,
        ← Nat.mul_assoc (2 * b), Nat.mul_assoc 2 b a]
      omega
    rw [e1, e2, Nat.mul_div_mul_right _ _ (Nat.mul_pos (by omega) (Nat.pow_pos (by omega)))]
  have hfix : Fixed (m * 10 ^ (p + 1) + 5 * 10 ^ q) (p + 1 + q) := by
    unfold Fixed
    have h1 : 10 ^ (p + 1 + q) = 10 ^ (p + 1) * 10 ^ q := Nat.pow_add ..
    have h2 : 10 ^ (p + 1) ≤ 10 ^ 4 := Nat.pow_le_pow_right (by omega) (by omega)
    have h3 : 10 ^ (p + 1) * 10 ^ q ≤ 10 ^ 4 * 10 ^ q := Nat.mul_le_mul_right _ h2
    rw [h1]
    generalize 10 ^ (p + 1) * 10 ^ q = a at *
    omega
  have := C19_format p neg _ _ rl hfix
  rw [hval] at this
  exact this

/-- C19, the full claim is false of the code: 0x1A36E2EB1C432D * 2^-67 is the double nearest to
0.00005, that is what lines 99-106 compute for zero at precision 4. It is written in scientific
notation, whose exponent is then cut off: zero is printed as `5`. -/
theorem C19_refuted_precision_4 :
    toStrSum 4 false (0x1A36E2EB1C432D * 5 ^ 67) 67 false = b!"5" := by decide +kernel

/-- The same at precision 10 for the double nearest to 0.00000000005. -/
theorem C19_refuted_precision_10 :
    toStrSum 10 false (0x1B7CDFD9D7BDBB * 5 ^ 87) 87 false = b!"5" := by decide +kernel

example : toStr 3 true 33333 5 true = b!"-.333" := by decide +kernel
example : toStr 3 true 4 4 false = b!"0" := by decide +kernel
example : toStr 3 false 1999999 5 false = b!"20" := by decide +kernel
example : Fixed 33333 5 := by unfold Fixed; decide

end Csspp.Dec
