import Verif.Props.RoundTripNum
import Verif.Props.UnicodeRange
import Verif.Lemmas.LexOrigin

/-!
C12: the unicode ranges written by the assembler are read back by the lexer.
-/

namespace Csspp.URange

/-- A block of characters a `?` mask stands for: `16^k` characters from a multiple of `16^k`. -/
def MaskBlock (start end_ : Int) : Prop :=
  ∃ k, k ≤ 5 ∧ (∃ m : Int, start = 16 ^ k * m) ∧ end_ = start + 16 ^ k - 1

/-! ### six hexadecimal digits -/

/-- The six hexadecimal digits of n, least significant first. -/
def dig (n i : Nat) : Nat := n / 16 ^ i % 16

theorem hexDigit_inj {a b : Nat} (ha : a < 16) (hb : b < 16) : hexDigit a = hexDigit b ↔ a = b := by
  unfold hexDigit
  split <;> split <;> omega

theorem toHexAux_step {f n : Nat} {acc : Str} (h : ¬ n < 16) :
    toHexAux (f + 1) n acc = toHexAux f (n / 16) (hexDigit (n % 16) :: acc) := by
  rw [toHexAux, if_neg h]

theorem toHexAux_last {f n : Nat} {acc : Str} (h : n < 16) :
    toHexAux (f + 1) n acc = hexDigit n :: acc := by
  rw [toHexAux, if_pos h]

/-- `toHex` gives a suffix of the six digits that keeps all the non zero ones, at least one. -/
theorem toHex_digits {n : Nat} (hn : n < 16777216) :
    ∃ z, z ≤ 5 ∧ List.replicate z 48 ++ toHex n =
      [hexDigit (n / 1048576 % 16), hexDigit (n / 65536 % 16), hexDigit (n / 4096 % 16),
        hexDigit (n / 256 % 16), hexDigit (n / 16 % 16), hexDigit (n % 16)] := by
  have h0 : hexDigit 0 = 48 := rfl
  unfold toHex
  by_cases h1 : n < 16
  · refine ⟨5, by omega, ?_⟩
    rw [toHexAux_last h1]
    have e1 : n / 1048576 % 16 = 0 := by omega
    have e2 : n / 65536 % 16 = 0 := by omega
    have e3 : n / 4096 % 16 = 0 := by omega
    have e4 : n / 256 % 16 = 0 := by omega
    have e5 : n / 16 % 16 = 0 := by omega
    have e6 : n % 16 = n := by omega
    rw [e1, e2, e3, e4, e5, e6]; rfl
  rw [toHexAux_step h1]
  by_cases h2 : n / 16 < 16
  · refine ⟨4, by omega, ?_⟩
    rw [toHexAux_last h2]
    have e1 : n / 1048576 % 16 = 0 := by omega
    have e2 : n / 65536 % 16 = 0 := by omega
    have e3 : n / 4096 % 16 = 0 := by omega
    have e4 : n / 256 % 16 = 0 := by omega
    have e5 : n / 16 % 16 = n / 16 := by omega
    rw [e1, e2, e3, e4, e5]; rfl
  rw [toHexAux_step h2]
  by_cases h3 : n / 16 / 16 < 16
  · refine ⟨3, by omega, ?_⟩
    rw [toHexAux_last h3]
    have e1 : n / 1048576 % 16 = 0 := by omega
    have e2 : n / 65536 % 16 = 0 := by omega
    have e3 : n / 4096 % 16 = 0 := by omega
    have e4 : n / 256 % 16 = n / 16 / 16 := by omega
    rw [e1, e2, e3, e4]; rfl
  rw [toHexAux_step h3]
  by_cases h4 : n / 16 / 16 / 16 < 16
  · refine ⟨2, by omega, ?_⟩
    rw [toHexAux_last h4]
    have e1 : n / 1048576 % 16 = 0 := by omega
    have e2 : n / 65536 % 16 = 0 := by omega
    have e3 : n / 4096 % 16 = n / 16 / 16 / 16 := by omega
    have e4 : n / 256 % 16 = n / 16 / 16 % 16 := by omega
    rw [e1, e2, e3, e4]; rfl
  rw [toHexAux_step h4]
  by_cases h5 : n / 16 / 16 / 16 / 16 < 16
  · refine ⟨1, by omega, ?_⟩
    rw [toHexAux_last h5]
    have e1 : n / 1048576 % 16 = 0 := by omega
    have e2 : n / 65536 % 16 = n / 16 / 16 / 16 / 16 := by omega
    have e3 : n / 4096 % 16 = n / 16 / 16 / 16 % 16 := by omega
    have e4 : n / 256 % 16 = n / 16 / 16 % 16 := by omega
    rw [e1, e2, e3, e4]; rfl
  rw [toHexAux_step h5]
  have h6 : n / 16 / 16 / 16 / 16 / 16 < 16 := by omega
  refine ⟨0, by omega, ?_⟩
  rw [toHexAux_last h6]
  have e1 : n / 1048576 % 16 = n / 16 / 16 / 16 / 16 / 16 := by omega
  have e2 : n / 65536 % 16 = n / 16 / 16 / 16 / 16 % 16 := by omega
  have e3 : n / 4096 % 16 = n / 16 / 16 / 16 % 16 := by omega
  have e4 : n / 256 % 16 = n / 16 / 16 % 16 := by omega
  rw [e1, e2, e3, e4]; rfl

/-- The six digits of n. -/
def six (n : Nat) : Str :=
  [hexDigit (n / 1048576 % 16), hexDigit (n / 65536 % 16), hexDigit (n / 4096 % 16),
    hexDigit (n / 256 % 16), hexDigit (n / 16 % 16), hexDigit (n % 16)]

theorem pad_six {n : Nat} (hn : n < 16777216) : padLeft 6 (toHex n) = six n := by
  obtain ⟨z, hz, h⟩ := toHex_digits hn
  have hl := congrArg List.length h
  simp at hl
  unfold padLeft six
  rw [← h, show 6 - (toHex n).length = z by omega]

/-- The value of a list of digits. -/
def hexOf (v : Nat) (ds : Str) : Nat := ds.foldl (fun v d => 16 * v + Lex.hexVal d) v

theorem hexVal_digit {d : Nat} (h : d < 16) : Lex.hexVal (hexDigit d) = d := by
  unfold hexDigit Lex.hexVal
  split <;> split <;> (try split) <;> omega

theorem isHex_digit {d : Nat} (h : d < 16) : Lex.isHex (hexDigit d) = true := by
  unfold hexDigit Lex.isHex Lex.isDigit
  simp
  split <;> omega

theorem hexOf_zeroes (z : Nat) (ds : Str) : hexOf 0 (List.replicate z 48 ++ ds) = hexOf 0 ds := by
  induction z with
  | zero => rfl
  | succ z ih =>
    rw [List.replicate_succ, List.cons_append]
    exact ih

theorem six_hex (n : Nat) : ∀ c ∈ six n, Lex.isHex c = true := by
  intro c hc
  unfold six at hc
  simp only [List.mem_cons, List.not_mem_nil, or_false] at hc
  rcases hc with rfl | rfl | rfl | rfl | rfl | rfl <;> exact isHex_digit (Nat.mod_lt _ (by omega))

theorem hexOf_six {n : Nat} (hn : n < 16777216) : hexOf 0 (six n) = n := by
  unfold hexOf six
  simp only [List.foldl]
  repeat rw [hexVal_digit (Nat.mod_lt _ (by omega))]
  omega

theorem toHex_spec {n : Nat} (hn : n < 16777216) :
    hexOf 0 (toHex n) = n ∧ (∀ c ∈ toHex n, Lex.isHex c = true) ∧ toHex n ≠ [] ∧
      (toHex n).length ≤ 6 := by
  obtain ⟨z, hz, h⟩ := toHex_digits hn
  have h' : List.replicate z 48 ++ toHex n = six n := h
  have hl := congrArg List.length h
  simp at hl
  refine ⟨?_, ?_, ?_, by omega⟩
  · rw [← hexOf_zeroes z, h', hexOf_six hn]
  · intro c hc
    exact six_hex n c (by rw [← h']; simp [hc])
  · intro h; rw [h] at hl; simp at hl; omega

/-- What to_string() writes for a mask of `k` question marks. -/
theorem drop_zeroes (ds q : Str) (hq : ∀ c ∈ q.head?, c ≠ 48) (hn : q ≠ []) :
    ∃ z ds', ds = List.replicate z 48 ++ ds' ∧ dropZeroes (ds ++ q) = ds' ++ q := by
  induction ds with
  | nil =>
    refine ⟨0, [], rfl, ?_⟩
    cases q with
    | nil => exact absurd rfl hn
    | cons a q =>
      show dropZeroes (a :: q) = a :: q
      rw [dropZeroes, if_neg (hq a rfl)]
  | cons d ds ih =>
    by_cases hd : d = 48
    · obtain ⟨z, ds', h1, h2⟩ := ih
      refine ⟨z + 1, ds', ?_, ?_⟩
      · rw [hd, h1]; rfl
      · rw [List.cons_append, dropZeroes, if_pos hd, h2]
    · refine ⟨0, d :: ds, rfl, ?_⟩
      rw [List.cons_append, dropZeroes, if_neg hd]

theorem maskLen_cons {a b : Nat} (ha : a < 16) (hb : b < 16) (as bs : List Nat) :
    maskLen (hexDigit a :: as) (hexDigit b :: bs) =
      if a = 0 ∧ b = 15 then maskLen as bs else as.length + 1 := by
  have h1 : hexDigit a ≠ 48 ↔ a ≠ 0 := by unfold hexDigit; split <;> omega
  have h2 : hexDigit b ≠ 102 ↔ b ≠ 15 := by unfold hexDigit; split <;> omega
  rw [maskLen]
  by_cases h : a = 0 ∧ b = 15
  · rw [if_pos h, if_neg (by rw [h1, h2]; omega)]
  · rw [if_neg h, if_pos (by rw [h1, h2]; omega)]

theorem maskLen_six (n m : Nat) :
    maskLen (six n).reverse (six m).reverse =
      if n % 16 = 0 ∧ m % 16 = 15 then
        if n / 16 % 16 = 0 ∧ m / 16 % 16 = 15 then
          if n / 256 % 16 = 0 ∧ m / 256 % 16 = 15 then
            if n / 4096 % 16 = 0 ∧ m / 4096 % 16 = 15 then
              if n / 65536 % 16 = 0 ∧ m / 65536 % 16 = 15 then
                if n / 1048576 % 16 = 0 ∧ m / 1048576 % 16 = 15 then 0 else 1
              else 2
            else 3
          else 4
        else 5
      else 6 := by
  have e1 : ∀ n, (six n).reverse = [hexDigit (n % 16), hexDigit (n / 16 % 16),
    hexDigit (n / 256 % 16), hexDigit (n / 4096 % 16), hexDigit (n / 65536 % 16),
    hexDigit (n / 1048576 % 16)] := fun _ => rfl
  rw [e1, e1]
  repeat rw [maskLen_cons (Nat.mod_lt _ (by omega)) (Nat.mod_lt _ (by omega))]
  rfl

theorem six_take {n m k : Nat} (hn : n < 16777216) (hm : m < 16777216) (hk : k ≤ 6) :
    (six n).take (6 - k) = (six m).take (6 - k) ↔ n / 16 ^ k = m / 16 ^ k := by
  have hd : ∀ a b : Nat, hexDigit (a % 16) = hexDigit (b % 16) ↔ a % 16 = b % 16 := fun a b =>
    hexDigit_inj (Nat.mod_lt _ (by omega)) (Nat.mod_lt _ (by omega))
  rcases (by omega : k = 0 ∨ k = 1 ∨ k = 2 ∨ k = 3 ∨ k = 4 ∨ k = 5 ∨ k = 6) with
    rfl | rfl | rfl | rfl | rfl | rfl | rfl <;>
  · simp [six, hd]
    omega

theorem six_take_val {n k : Nat} (hn : n < 16777216) (hk : k ≤ 6) :
    hexOf 0 ((six n).take (6 - k)) = n / 16 ^ k := by
  rcases (by omega : k = 0 ∨ k = 1 ∨ k = 2 ∨ k = 3 ∨ k = 4 ∨ k = 5 ∨ k = 6) with
    rfl | rfl | rfl | rfl | rfl | rfl | rfl <;>
  · simp [six, hexOf]
    try repeat rw [hexVal_digit (Nat.mod_lt _ (by omega))]
    omega

/-- The texts of to_string(), by case. -/
inductive Written (n m : Nat) : Str → Prop
  | all : n = 0 → 0x10FFFF ≤ m → Written n m b!"??????"
  | one : n = m → Written n m (toHex n)
  | mask (k a : Nat) (ds : Str) : 1 ≤ k → k ≤ 5 → n = 16 ^ k * a → m = n + 16 ^ k - 1 →
      hexOf 0 ds = a → ds.length + k ≤ 6 → (∀ c ∈ ds, Lex.isHex c = true) →
      Written n m (ds ++ List.replicate k 63)
  | pair : n < m → ¬ MaskBlock n m → ¬ (n = 0 ∧ 0x10FFFF ≤ m) →
      Written n m (toHex n ++ b!"-" ++ toHex m)

theorem hexOfInt_nat {n : Nat} (h : n < 16777216) : hexOfInt (n : Int) = toHex n := by
  unfold hexOfInt
  rw [show ((n : Int) % 4294967296).toNat = n by omega]

theorem toStr_written {n m : Nat} (hnm : n ≤ m) (hm : m < 0x200000) {u : UR}
    (hs : u.getStart = n) (he : u.getEnd = m) : ∃ text, u.toStr = .ok text ∧ Written n m text := by
  unfold UR.getStart at hs
  unfold UR.getEnd at he
  unfold UR.toStr
  dsimp only
  rw [hs, he]
  by_cases h1 : (n : Int) = 0 ∧ (m : Int) ≥ 0x10FFFF
  · rw [if_pos h1]
    exact ⟨_, rfl, .all (by omega) (by omega)⟩
  rw [if_neg h1, hexOfInt_nat (by omega), hexOfInt_nat (by omega)]
  by_cases h2 : (n : Int) = (m : Int)
  · rw [if_pos h2]
    exact ⟨_, rfl, .one (by omega)⟩
  rw [if_neg h2, pad_six (by omega), pad_six (by omega), if_neg (by simp [six])]
  -- the number of digits replaced by question marks
  have key : ∃ k, k ≤ 5 ∧ maskLen (six n).reverse (six m).reverse = 6 - k ∧
      n % 16 ^ k = 0 ∧ m % 16 ^ k = 16 ^ k - 1 ∧
      ¬ (n % 16 ^ (k + 1) = 0 ∧ m % 16 ^ (k + 1) = 16 ^ (k + 1) - 1) := by
    rw [maskLen_six]
    by_cases c0 : n % 16 = 0 ∧ m % 16 = 15
    · rw [if_pos c0]
      by_cases c1 : n / 16 % 16 = 0 ∧ m / 16 % 16 = 15
      · rw [if_pos c1]
        by_cases c2 : n / 256 % 16 = 0 ∧ m / 256 % 16 = 15
        · rw [if_pos c2]
          by_cases c3 : n / 4096 % 16 = 0 ∧ m / 4096 % 16 = 15
          · rw [if_pos c3]
            by_cases c4 : n / 65536 % 16 = 0 ∧ m / 65536 % 16 = 15
            · rw [if_pos c4, if_neg (by omega)]
              exact ⟨5, by omega, rfl, by omega, by omega, by omega⟩
            · rw [if_neg c4]
              exact ⟨4, by omega, rfl, by omega, by omega, by omega⟩
          · rw [if_neg c3]
            exact ⟨3, by omega, rfl, by omega, by omega, by omega⟩
        · rw [if_neg c2]
          exact ⟨2, by omega, rfl, by omega, by omega, by omega⟩
      · rw [if_neg c1]
        exact ⟨1, by omega, rfl, by omega, by omega, by omega⟩
    · rw [if_neg c0]
      exact ⟨0, by omega, rfl, by omega, by omega, by omega⟩
  obtain ⟨k, hk, hp, hn0, hm0, hmax⟩ := key
  rw [hp]
  have hpow : 0 < 16 ^ k := Nat.pow_pos (by omega)
  have hdn := Nat.div_add_mod n (16 ^ k)
  have hdm := Nat.div_add_mod m (16 ^ k)
  by_cases heq : (six n).take (6 - k) = (six m).take (6 - k)
  · rw [if_pos heq]
    have hq := (six_take (by omega) (by omega) (by omega)).mp heq
    rw [← hq, hm0] at hdm
    rw [hn0] at hdn
    have hk1 : 1 ≤ k := by
      rcases Nat.eq_zero_or_pos k with rfl | h
      · simp at hdn hdm; omega
      · exact h
    rw [show 6 - (6 - k) = k by omega]
    obtain ⟨z, ds, e1, e2⟩ := drop_zeroes ((six n).take (6 - k)) (List.replicate k 63) (by
      intro c hc
      cases k with
      | zero => cases hc
      | succ k => cases hc; omega) (by cases k with
        | zero => omega
        | succ k => simp [List.replicate_succ])
    refine ⟨_, rfl, ?_⟩
    rw [e2]
    have hl := congrArg List.length e1
    rw [List.length_append, List.length_replicate, List.length_take] at hl
    have : (six n).length = 6 := rfl
    refine .mask k (n / 16 ^ k) ds hk1 hk (by omega) (by omega) ?_ (by omega) ?_
    · rw [← hexOf_zeroes z, ← e1, six_take_val (by omega) (by omega)]
    · intro c hc
      apply six_hex n c
      apply List.mem_of_mem_take (i := 6 - k)
      rw [e1]
      simp [hc]
  · rw [if_neg heq]
    refine ⟨_, rfl, .pair (by omega) ?_ (by omega)⟩
    rintro ⟨j, hj, ⟨a, ha⟩, hb⟩
    apply heq
    rw [six_take (by omega) (by omega) (by omega)]
    rcases (by omega : j = 0 ∨ j = 1 ∨ j = 2 ∨ j = 3 ∨ j = 4 ∨ j = 5) with
      rfl | rfl | rfl | rfl | rfl | rfl <;>
    rcases (by omega : k = 0 ∨ k = 1 ∨ k = 2 ∨ k = 3 ∨ k = 4 ∨ k = 5) with
      rfl | rfl | rfl | rfl | rfl | rfl <;>
    simp only [Nat.reducePow, Nat.reduceAdd, Int.reducePow] at * <;> omega

end Csspp.URange

namespace Csspp.Asm

/-- assembler.cpp:614-619: a unicode range; `.error` when the constructor or to_string() throws. -/
def outputRange (i : Int) : Except URange.Exn Str :=
  match URange.UR.ofRange (toU64 i) with
  | .error e => .error e
  | .ok u =>
    match u.toStr with
    | .error e => .error e
    | .ok t => .ok (b!"U+" ++ t)

end Csspp.Asm

namespace Csspp.Lex
open Csspp.Utf8 Csspp.Spec Csspp.Asm Csspp.URange

theorem Rd.next {s0 s : LS} {cs : List Nat} (h : Rd s0 0 cs s) :
    ∃ s', Lex.getc s = (cs.headD eof, s') ∧ Rd s0 0 cs.tail s' := by
  cases cs with
  | nil => exact ⟨s, h.getc_nil, h⟩
  | cons c t => exact h.getc

theorem hexOf_cons (v d : Nat) (ds : Str) : hexOf v (d :: ds) = hexOf (16 * v + hexVal d) ds := rfl

theorem rangeLoop_hex {s0 : LS} (tl : List Nat) : ∀ (ds : Str) (k st : Nat) (s : LS),
    ds.length ≤ k → (∀ c ∈ ds, isHex c = true) → Rd s0 0 (ds ++ tl).tail s →
    ∃ s', rangeLoop k st 0 false ((ds ++ tl).headD eof) s =
        rangeLoop (k - ds.length) (hexOf st ds) 0 false (tl.headD eof) s' ∧ Rd s0 0 tl.tail s' := by
  intro ds
  induction ds with
  | nil => intro k st s _ _ h; exact ⟨s, rfl, h⟩
  | cons d ds ih =>
    intro k st s hk hh h
    obtain ⟨k, rfl⟩ : ∃ j, k = j + 1 := ⟨k - 1, by simp at hk; omega⟩
    obtain ⟨s1, h1, r1⟩ := Rd.next (show Rd s0 0 (ds ++ tl) s from h)
    obtain ⟨s2, h2, r2⟩ := ih k (16 * st + hexVal d) s1 (by simpa using hk)
      (fun c hc => hh c (by simp [hc])) r1
    refine ⟨s2, ?_, r2⟩
    have hd := hh d (by simp)
    have hne : d ≠ 63 := by rintro rfl; revert hd; decide
    show rangeLoop (k + 1) st 0 false d s = _
    rw [rangeLoop, if_neg hne, if_pos ⟨hd, rfl⟩, h1]
    dsimp only
    rw [h2]
    simp only [List.length_cons, Nat.add_sub_add_right, hexOf_cons]

theorem rangeLoop_marks {s0 : LS} (tl : List Nat) : ∀ (q k st en : Nat) (s : LS), q ≤ k →
    Rd s0 0 (List.replicate q 63 ++ tl).tail s →
    ∃ s', rangeLoop k st en true ((List.replicate q 63 ++ tl).headD eof) s =
        rangeLoop (k - q) (16 ^ q * st) (16 ^ q * en + 16 ^ q - 1) true (tl.headD eof) s' ∧
      Rd s0 0 tl.tail s' := by
  intro q
  induction q with
  | zero =>
    intro k st en s _ h
    refine ⟨s, ?_, h⟩
    simp
  | succ q ih =>
    intro k st en s hk h
    obtain ⟨k, rfl⟩ : ∃ j, k = j + 1 := ⟨k - 1, by omega⟩
    obtain ⟨s1, h1, r1⟩ := Rd.next (show Rd s0 0 (List.replicate q 63 ++ tl) s from h)
    obtain ⟨s2, h2, r2⟩ := ih k (16 * st) (16 * en + 15) s1 (by omega) r1
    refine ⟨s2, ?_, r2⟩
    show rangeLoop (k + 1) st en true 63 s = _
    rw [rangeLoop, if_pos rfl, h1]
    dsimp only
    rw [if_pos rfl, h2]
    have e1 : 16 ^ q * (16 * st) = 16 ^ (q + 1) * st := by rw [Nat.pow_succ, Nat.mul_assoc]
    have e2 : 16 ^ q * (16 * en + 15) + 16 ^ q - 1 = 16 ^ (q + 1) * en + 16 ^ (q + 1) - 1 := by
      rw [Nat.mul_add, ← Nat.mul_assoc, ← Nat.pow_succ, Nat.pow_succ 16 q]
      omega
    rw [e1, e2, Nat.add_sub_add_right]

theorem rangeLoop_end {k st en d : Nat} {m : Bool} {s : LS} (h : k = 0 ∨ (isHex d = false ∧ d ≠ 63)) :
    rangeLoop k st en m d s = (st, en, m, d, s) := by
  cases k with
  | zero => rfl
  | succ k =>
    rcases h with h | h
    · omega
    · rw [rangeLoop, if_neg h.2, if_neg (by rw [h.1]; simp)]

theorem rangeEnd_text {s0 : LS} (tl : List Nat) : ∀ (ds : Str) (k st : Nat) (s : LS),
    ds.length ≤ k → (∀ c ∈ ds, isHex c = true) → Rd s0 0 (ds ++ tl).tail s →
    (isHex (tl.headD eof) = false) →
    ∃ s', rangeEnd k st ((ds ++ tl).headD eof) s = (hexOf st ds, tl.headD eof, s') ∧
      Rd s0 0 tl.tail s' := by
  intro ds
  induction ds with
  | nil =>
    intro k st s _ _ h he
    refine ⟨s, ?_, h⟩
    cases k with
    | zero => rfl
    | succ k =>
      show rangeEnd (k + 1) st (tl.headD eof) s = _
      rw [rangeEnd, he, if_neg (by simp)]
      rfl
  | cons d ds ih =>
    intro k st s hk hh h he
    obtain ⟨k, rfl⟩ : ∃ j, k = j + 1 := ⟨k - 1, by simp at hk; omega⟩
    obtain ⟨s1, h1, r1⟩ := Rd.next (show Rd s0 0 (ds ++ tl) s from h)
    obtain ⟨s2, h2, r2⟩ := ih k (16 * st + hexVal d) s1 (by simpa using hk)
      (fun c hc => hh c (by simp [hc])) r1 he
    refine ⟨s2, ?_, r2⟩
    show rangeEnd (k + 1) st d s = _
    rw [rangeEnd, if_pos (hh d (by simp)), h1]
    dsimp only
    rw [h2]
    rfl

/-- `rest` does not extend a unicode range written before it. -/
def EndsRange (rest : List Nat) : Prop :=
  ∀ r, rest.head? = some r → isHex r = false ∧ r ≠ 63 ∧ r ≠ 45

/-- The range read back. -/
def rereadEnd (n m : Nat) : Nat := if n = 0 ∧ 0x10FFFF ≤ m then 0x1FFFFF else m

theorem ungetc_head {s0 s : LS} {cs : List Nat} (hcs : ∀ c ∈ cs, Readable c ∧ c ≤ 0x10FFFF)
    (h : Rd s0 0 cs.tail s) (hnil : cs = [] → s.un = []) : Rd s0 1 cs (ungetc (cs.headD eof) s) := by
  cases cs with
  | nil =>
    show Rd s0 1 [] (ungetc eof s)
    rw [ungetc_eof]
    exact h.mono (by omega)
  | cons c t => exact h.unget (by omega) (hcs c (by simp)).1 (hcs c (by simp)).2

theorem unicodeRange_text {s0 s : LS} {n m : Nat} {text : Str} {rest : List Nat}
    (hn : n ≤ 0x10FFFF) (hnm : n ≤ m) (hm : m < 0x200000) (hw : Written n m text)
    (hend : ∀ r, rest.head? = some r → isHex r = false ∧ r ≠ 63 ∧ r ≠ 45)
    (hcs : ∀ c ∈ rest, Readable c ∧ c ≤ 0x10FFFF)
    (h : Rd s0 0 (text ++ rest).tail s) :
    (m ≤ 0x10FFFF ∨ n = 0 ∨ MaskBlock n m →
      ∃ s', unicodeRange ((text ++ rest).headD eof) s =
        ({ s'.tok .UNICODE_RANGE with
            int := ((4294967296 * rereadEnd n m + n : Nat) : Int) }, s') ∧ Rd s0 1 rest s') ∧
    (¬ (m ≤ 0x10FFFF ∨ n = 0 ∨ MaskBlock n m) →
      Rpt.rangeTooLarge ∈ (unicodeRange ((text ++ rest).headD eof) s).2.err) := by
  have hhd : isHex (rest.headD eof) = false ∧ rest.headD eof ≠ 63 ∧ rest.headD eof ≠ 45 := by
    cases rest with
    | nil => exact ⟨by decide, by decide, by decide⟩
    | cons r t => exact hend r rfl
  -- the last step
  have fin : ∀ (st en : Nat) (s' : LS), st ≤ en → Rd s0 0 rest.tail s' →
      rangeTok st en (rest.headD eof) s' =
        ({ (ungetc (rest.headD eof) s').tok .UNICODE_RANGE with
            int := ((4294967296 * en + st : Nat) : Int) }, ungetc (rest.headD eof) s') ∧
      Rd s0 1 rest (ungetc (rest.headD eof) s') := by
    intro st en s' hle hR
    refine ⟨?_, ungetc_head hcs hR (fun hnil => ?_)⟩
    · unfold rangeTok
      rw [if_neg (by omega)]
    · have := hR.len
      exact List.length_eq_zero_iff.mp (by omega)
  cases hw with
  | all h1 h2 =>
    subst h1
    refine ⟨fun _ => ?_, fun h => absurd (.inr (.inl rfl)) h⟩
    have h' : Rd s0 0 (List.replicate 5 63 ++ rest) s := h
    obtain ⟨s1, g1, r1⟩ := Rd.next h'
    obtain ⟨s2, g2, r2⟩ := rangeLoop_marks rest 5 5 (16 * 0) (16 * 0 + 15) s1 (by omega) r1
    have hl : rangeLoop 6 0 0 false 63 s = (0, 16777215, true, rest.headD eof, s2) := by
      rw [rangeLoop, if_pos rfl, g1]
      dsimp only
      rw [if_neg (by simp), g2]
      rfl
    refine ⟨_, ?_, (fin 0 0x1FFFFF s2 (by omega) r2).2⟩
    show unicodeRange 63 s = _
    unfold unicodeRange
    rw [hl]
    unfold rangeRest
    dsimp only
    rw [if_pos (show 16777215 > 0x1FFFFF by decide), if_neg (show ¬ 0 ≥ 0x110000 by decide),
      (fin 0 0x1FFFFF s2 (by omega) r2).1]
    unfold rereadEnd
    rw [if_pos ⟨rfl, h2⟩]
  | one h1 =>
    subst h1
    refine ⟨fun _ => ?_, fun h => absurd (.inl hn) h⟩
    have ht := toHex_spec (n := n) (by omega)
    obtain ⟨s1, g1, r1⟩ := rangeLoop_hex rest (toHex n) 6 0 s ht.2.2.2 ht.2.1 h
    rw [ht.1, rangeLoop_end (.inr ⟨hhd.1, hhd.2.1⟩)] at g1
    refine ⟨_, ?_, (fin n n s1 (by omega) r1).2⟩
    unfold unicodeRange
    rw [g1]
    unfold rangeRest
    dsimp only
    unfold rangePlain
    rw [if_neg hhd.2.2, if_neg (by omega), (fin n n s1 (by omega) r1).1]
    unfold rereadEnd
    rw [if_neg (by omega)]
  | mask k a ds h1 h2 h3 h4 h5 h6 h7 =>
    have hblk : MaskBlock n m := by
      refine ⟨k, h2, ⟨a, ?_⟩, ?_⟩
      · rw [h3, Int.natCast_mul, Int.natCast_pow]
        rfl
      · have : 0 < 16 ^ k := Nat.pow_pos (by omega)
        have e : ((16 ^ k : Nat) : Int) = (16 : Int) ^ k := by rw [Int.natCast_pow]; rfl
        rw [← e]
        omega
    refine ⟨fun _ => ?_, fun h => absurd (.inr (.inr hblk)) h⟩
    rw [List.append_assoc] at h ⊢
    obtain ⟨s1, g1, r1⟩ := rangeLoop_hex (List.replicate k 63 ++ rest) ds 6 0 s (by omega) h7 h
    obtain ⟨k, rfl⟩ : ∃ j, k = j + 1 := ⟨k - 1, by omega⟩
    obtain ⟨s2, g2, r2⟩ := Rd.next (show Rd s0 0 (List.replicate k 63 ++ rest) s1 from r1)
    obtain ⟨s3, g3, r3⟩ := rangeLoop_marks rest k (6 - ds.length - 1) (16 * a) (16 * a + 15) s2
      (by omega) r2
    have hl : rangeLoop 6 0 0 false ((ds ++ (List.replicate (k + 1) 63 ++ rest)).headD eof) s =
        (n, m, true, rest.headD eof, s3) := by
      rw [g1, h5]
      show rangeLoop (6 - ds.length) a 0 false 63 s1 = _
      rw [show 6 - ds.length = (6 - ds.length - 1) + 1 by omega, rangeLoop, if_pos rfl, g2]
      dsimp only
      rw [if_neg (by simp), g3, rangeLoop_end (.inr ⟨hhd.1, hhd.2.1⟩)]
      have e1 : 16 ^ k * (16 * a) = n := by rw [h3, Nat.pow_succ, Nat.mul_assoc]
      have e2 : 16 ^ k * (16 * a + 15) + 16 ^ k - 1 = m := by
        rw [Nat.mul_add, e1, h4, Nat.pow_succ]
        omega
      rw [e1, e2]
    refine ⟨_, ?_, (fin n m s3 hnm r3).2⟩
    unfold unicodeRange
    rw [hl]
    unfold rangeRest
    dsimp only
    rw [if_neg (by omega), if_neg (by omega), (fin n m s3 hnm r3).1]
    have : ¬ (n = 0 ∧ 0x10FFFF ≤ m) := by
      rintro ⟨rfl, hm'⟩
      have hk : k ≤ 4 := by omega
      rcases (by omega : k = 0 ∨ k = 1 ∨ k = 2 ∨ k = 3 ∨ k = 4) with rfl | rfl | rfl | rfl | rfl <;>
        simp only [Nat.reducePow, Nat.reduceAdd] at h4 <;> omega
    unfold rereadEnd
    rw [if_neg this]
  | pair h1 h2 h3 =>
    have htn := toHex_spec (n := n) (by omega)
    have htm := toHex_spec (n := m) (by omega)
    rw [List.append_assoc, List.append_assoc] at h ⊢
    obtain ⟨s1, g1, r1⟩ := rangeLoop_hex (b!"-" ++ (toHex m ++ rest)) (toHex n) 6 0 s htn.2.2.2 htn.2.1 h
    rw [htn.1] at g1
    have g1' : rangeLoop 6 0 0 false ((toHex n ++ (b!"-" ++ (toHex m ++ rest))).headD eof) s =
        (n, 0, false, 45, s1) := by
      rw [g1]
      exact rangeLoop_end (.inr ⟨show isHex 45 = false by decide, show 45 ≠ 63 by decide⟩)
    obtain ⟨s2, g2, r2⟩ := Rd.next (show Rd s0 0 (toHex m ++ rest) s1 from r1)
    obtain ⟨s3, g3, r3⟩ := rangeEnd_text rest (toHex m) 6 0 s2 htm.2.2.2 htm.2.1 r2 hhd.1
    rw [htm.1] at g3
    have hu : unicodeRange ((toHex n ++ (b!"-" ++ (toHex m ++ rest))).headD eof) s =
        rangePlain n m (rest.headD eof) s3 := by
      unfold unicodeRange
      rw [g1']
      unfold rangeRest
      dsimp only
      rw [if_pos rfl, g2]
      dsimp only
      rw [g3]
    rw [hu]
    unfold rangePlain
    constructor
    · rintro (hc | hc | hc)
      · rw [if_neg (by omega)]
        refine ⟨_, ?_, (fin n m s3 hnm r3).2⟩
        rw [(fin n m s3 hnm r3).1]
        unfold rereadEnd
        rw [if_neg h3]
      · rw [if_neg (by omega)]
        refine ⟨_, ?_, (fin n m s3 hnm r3).2⟩
        rw [(fin n m s3 hnm r3).1]
        unfold rereadEnd
        rw [if_neg h3]
      · exact absurd hc h2
    · intro hc
      rw [if_pos (.inr (by omega))]
      exact List.mem_cons_self

/-- The value of a packed range. -/
theorem ofRange_packed {n m : Nat} (hn : n ≤ 0x10FFFF) (hnm : n ≤ m) (hm : m < 0x200000) :
    UR.ofRange (4294967296 * m + n) = .ok ⟨4294967296 * m + n⟩ ∧
    (UR.mk (4294967296 * m + n)).getStart = n ∧ (UR.mk (4294967296 * m + n)).getEnd = m := by
  have h1 : rangeToStart (4294967296 * m + n) = n := by
    rw [rangeToStart_eq]; unfold wrap32; omega
  have h2 : rangeToEnd (4294967296 * m + n) = m := by
    rw [rangeToEnd_eq]; unfold wrap32; omega
  refine ⟨?_, h1, h2⟩
  unfold UR.ofRange
  rw [(verifyRange_none_iff _).mpr (by rw [h1, h2]; omega)]
  rfl

theorem lexStep_U {s s1 s2 s3 : LS} {d : Nat} (h1 : getc { s with start := s.pos } = (85, s1))
    (h2 : getc s1 = (43, s2)) (h3 : getc s2 = (d, s3)) (hd : isHex d = true ∨ d = 63) :
    lexStep s = found (unicodeRange d s3) := by
  unfold lexStep
  rw [h1]
  have : lexChar 85 s1 = lexU 85 s1 := rfl
  dsimp only
  rw [this]
  unfold lexU
  rw [h2]
  dsimp only
  rw [if_pos rfl, h3]
  dsimp only
  rw [if_pos hd]

theorem written_chars {n m : Nat} {text : Str} (hn : n < 16777216) (hm : m < 16777216)
    (h : Written n m text) :
    (∀ c ∈ text, isHex c = true ∨ c = 63 ∨ c = 45) ∧
      ∃ d t, text = d :: t ∧ (isHex d = true ∨ d = 63) := by
  have hx := toHex_spec hn
  have hy := toHex_spec hm
  have hd : ∃ d t, toHex n = d :: t ∧ isHex d = true := by
    cases ht : toHex n with
    | nil => exact absurd ht hx.2.2.1
    | cons d t => exact ⟨d, t, rfl, hx.2.1 d (by rw [ht]; simp)⟩
  obtain ⟨d, t, e, hd⟩ := hd
  cases h with
  | all _ _ => exact ⟨by decide, 63, _, rfl, .inr rfl⟩
  | one _ => exact ⟨fun c hc => .inl (hx.2.1 c hc), d, t, e, .inl hd⟩
  | mask k a ds h1 h2 h3 h4 h5 h6 h7 =>
    refine ⟨fun c hc => ?_, ?_⟩
    · rcases List.mem_append.1 hc with h | h
      · exact .inl (h7 c h)
      · exact .inr (.inl (List.eq_of_mem_replicate h))
    · cases ds with
      | cons a ds => exact ⟨a, _, rfl, .inl (h7 a (by simp))⟩
      | nil =>
        obtain ⟨k, rfl⟩ : ∃ j, k = j + 1 := ⟨k - 1, by omega⟩
        exact ⟨63, List.replicate k 63, rfl, .inr rfl⟩
  | pair _ _ _ =>
    refine ⟨fun c hc => ?_, d, t ++ b!"-" ++ toHex m, by rw [e]; rfl, .inl hd⟩
    rcases List.mem_append.1 hc with h | h
    · rcases List.mem_append.1 h with h | h
      · exact .inl (hx.2.1 c h)
      · simp at h; exact .inr (.inr h)
    · exact .inl (hy.2.1 c h)

/-- C12: every valid range is written; the text, followed by anything that does not extend it, is
read back as one UNICODE_RANGE token that covers the same Unicode characters (exactly the same
range unless it covers all of them), without any message, when its end is at most U+10FFFF, or its
start is zero, or it can be written as a mask. Otherwise reading it back reports an error. -/
theorem C12_range (start end_ : Int) (hv : ValidPair start end_)
    (u : UR) (hu : UR.ofStartEnd start end_ = .ok u)
    (crest : List Nat) (rest : Str) (hr : Utf8 crest rest) (hrest : ∀ c ∈ crest, Readable c)
    (hend : EndsRange crest) :
    ∃ text, outputRange u.getRange = .ok text ∧
      ∀ s : LS, s.un = [] → s.inp = text ++ rest →
        (end_ ≤ 0x10FFFF ∨ start = 0 ∨ MaskBlock start end_ →
          ∃ t s' v, nextToken s = (t, s') ∧ t.ty = .UNICODE_RANGE ∧ t.pos = s.pos ∧
            UR.ofRange (toU64 t.int) = .ok v ∧
            (∀ c : Int, c ≤ 0x10FFFF →
              (v.getStart ≤ c ∧ c ≤ v.getEnd ↔ start ≤ c ∧ c ≤ end_)) ∧
            (¬ (start = 0 ∧ 0x10FFFF ≤ end_) → v.getStart = start ∧ v.getEnd = end_) ∧
            s'.err = s.err ∧ s'.exn = s.exn ∧ s'.ub = s.ub ∧ LeftToRead s' crest) ∧
        (¬ (end_ ≤ 0x10FFFF ∨ start = 0 ∨ MaskBlock start end_) →
          Rpt.rangeTooLarge ∈ (nextToken s).2.err) := by
  obtain ⟨hv1, hv2, hv3, hv4⟩ := hv
  obtain ⟨n, rfl⟩ : ∃ n : Nat, start = n := ⟨start.toNat, by omega⟩
  obtain ⟨m, rfl⟩ : ∃ m : Nat, end_ = m := ⟨end_.toNat, by omega⟩
  have hI : IsI32 (n : Int) ∧ IsI32 (m : Int) := by unfold IsI32; omega
  have hg := (C11_ctor_exact n m hI.1 hI.2 hv1).2 u hu
  obtain ⟨text, ht1, ht2⟩ := toStr_written (n := n) (m := m) (by omega) (by omega) hg.1 hg.2
  have hur : u.range = 4294967296 * m + n := by
    unfold UR.ofStartEnd at hu
    have : u = ⟨startEndToRange n m⟩ := by
      revert hu
      cases verifyRange (startEndToRange n m) with
      | none => intro h; cases h; rfl
      | some e => intro h; cases h
    rw [this]
    show startEndToRange n m = _
    rw [startEnd_nonneg hI.1 hv1]
    unfold toU64
    omega
  have hout : outputRange u.getRange = .ok (b!"U+" ++ text) := by
    unfold outputRange
    have : toU64 u.getRange = 4294967296 * m + n := by
      show toU64 (u.range : Int) = _
      rw [hur]; unfold toU64; omega
    rw [this, (ofRange_packed (by omega) (by omega) (by omega)).1, ← hur]
    dsimp only
    rw [ht1]
  refine ⟨_, hout, ?_⟩
  intro s hun hi
  obtain ⟨hch, d, tl, hdt, hd⟩ := written_chars (by omega) (by omega) ht2
  have hasc : ∀ c ∈ b!"U+" ++ text, c < 0x80 ∧ Readable c ∧ c ≠ 13 ∧ c ≠ 12 := by
    intro c hc
    unfold Readable
    rcases List.mem_append.1 hc with h | h
    · simp at h; omega
    · rcases hch c h with h | h | h
      · unfold isHex isDigit at h; simp at h; omega
      · omega
      · omega
  have hU := utf8_append (utf8_ascii (fun x hx => (hasc x hx).1)) hr
  have R := Rd.of_text hun hi hU (by
    intro c hc
    rcases List.mem_append.1 hc with h | h
    · exact (hasc c h).2.1
    · exact hrest c h)
  rw [newlines_plain (fun c hc => (hasc c hc).2.2)] at R
  have R := R.start'
  rw [List.append_assoc] at R
  obtain ⟨s1, h1, r1⟩ := Rd.getc (show Rd _ 0 (85 :: 43 :: (text ++ newlines crest)) _ from R)
  obtain ⟨s2, h2, r2⟩ := r1.getc
  obtain ⟨s3, h3, r3⟩ := Rd.next r2
  have hhead : (text ++ newlines crest).headD eof = d := by rw [hdt]; rfl
  have hstep := lexStep_U h1 h2 (by rw [h3, hhead]) hd
  have hend' : ∀ r, (newlines crest).head? = some r → isHex r = false ∧ r ≠ 63 ∧ r ≠ 45 := by
    intro r hr'
    obtain ⟨q, hq, h3⟩ := newlines_head hr'
    have h4 := hend q hq
    rcases h3 with rfl | ⟨rfl, _⟩
    · exact h4
    · decide
  have hmem : ∀ c ∈ newlines crest, Readable c ∧ c ≤ 0x10FFFF := fun c hc =>
    r2.mem c (List.mem_append.2 (.inr hc))
  have main := unicodeRange_text (by omega) (by omega) (by omega) ht2 hend' hmem r3
  rw [hhead] at main
  constructor
  · intro hc
    obtain ⟨s4, h4, r4⟩ := main.1 (by
      rcases hc with h | h | h
      · exact .inl (by omega)
      · exact .inr (.inl (by omega))
      · exact .inr (.inr h))
    have hre : n ≤ rereadEnd n m ∧ rereadEnd n m < 0x200000 := by
      unfold rereadEnd; split <;> omega
    have hp := ofRange_packed (n := n) (m := rereadEnd n m) (by omega) hre.1 hre.2
    rw [h4] at hstep
    have hto : toU64 (((4294967296 * rereadEnd n m + n : Nat) : Int)) =
        4294967296 * rereadEnd n m + n := by
      unfold toU64; omega
    refine ⟨_, s4, ⟨4294967296 * rereadEnd n m + n⟩, nextToken_step hstep, rfl, r4.start, ?_, ?_, ?_,
      r4.err, r4.exn, r4.ub, r4.left⟩
    · show UR.ofRange (toU64 (((4294967296 * rereadEnd n m + n : Nat) : Int))) = _
      rw [hto, hp.1]
    · intro c hc
      rw [hp.2.1, hp.2.2]
      unfold rereadEnd
      split <;> omega
    · intro hne
      refine ⟨hp.2.1, ?_⟩
      rw [hp.2.2]
      unfold rereadEnd
      rw [if_neg (by omega)]
  · intro hc
    have := main.2 (by
      rintro (h | h | h)
      · exact hc (.inl (by omega))
      · exact hc (.inr (.inl (by omega)))
      · exact hc (.inr (.inr h)))
    rw [nextToken_step hstep]
    exact this

/-! ### the ranges a source can produce -/

/-- The state of the loop of unicode_range() after `used` characters. -/
def LoopInv (used st en : Nat) (m : Bool) : Prop :=
  (m = false ∧ en = 0 ∧ st < 16 ^ used) ∨
  (m = true ∧ ∃ q a, 1 ≤ q ∧ q ≤ used ∧ a < 16 ^ (used - q) ∧ st = 16 ^ q * a ∧
    en = 16 ^ q * a + 16 ^ q - 1)

theorem rangeLoop_inv : ∀ (j used st en : Nat) (m : Bool) (d : Nat) (s : LS), LoopInv used st en m →
    ∃ used', used' ≤ used + j ∧ LoopInv used' (rangeLoop j st en m d s).1
      (rangeLoop j st en m d s).2.1 (rangeLoop j st en m d s).2.2.1 := by
  intro j
  induction j with
  | zero => intro used st en m d s h; exact ⟨used, by omega, h⟩
  | succ j ih =>
    intro used st en m d s h
    rw [rangeLoop]
    by_cases hd : d = 63
    · rw [if_pos hd]
      rcases getc s with ⟨d', s'⟩
      dsimp only
      obtain ⟨u, h1, h2⟩ := ih (used + 1) (16 * st) (16 * (if m then en else st) + 15) true d' s' (by
        right
        refine ⟨rfl, ?_⟩
        rcases h with ⟨hm, h1, h2⟩ | ⟨hm, q, a, h1, h2, h3, h4, h5⟩
        · rw [hm]
          refine ⟨1, st, by omega, by omega, ?_, by omega, ?_⟩
          · rw [show used + 1 - 1 = used by omega]; exact h2
          · rw [if_neg (by simp)]; omega
        · rw [hm, if_pos rfl]
          refine ⟨q + 1, a, by omega, by omega, ?_, ?_, ?_⟩
          · rw [show used + 1 - (q + 1) = used - q by omega]; exact h3
          · rw [h4, Nat.pow_succ, Nat.mul_comm (16 ^ q) 16, Nat.mul_assoc]
          · have : 0 < 16 ^ q := Nat.pow_pos (by omega)
            rw [h5, Nat.pow_succ, Nat.mul_comm (16 ^ q) 16, Nat.mul_assoc]
            omega)
      exact ⟨u, by omega, h2⟩
    · rw [if_neg hd]
      by_cases hh : isHex d = true ∧ m = false
      · rw [if_pos hh]
        rcases getc s with ⟨d', s'⟩
        dsimp only
        obtain ⟨u, h1, h2⟩ := ih (used + 1) (16 * st + hexVal d) en m d' s' (by
          left
          rcases h with ⟨hm, h1, h2⟩ | ⟨hm, _⟩
          · refine ⟨hm, h1, ?_⟩
            have : hexVal d < 16 := by
              have := hh.1
              unfold isHex isDigit at this
              simp at this
              unfold hexVal
              split
              · omega
              · split <;> omega
            rw [Nat.pow_succ]
            omega
          · rw [hh.2] at hm; cases hm)
        exact ⟨u, by omega, h2⟩
      · rw [if_neg hh]
        exact ⟨used, by omega, h⟩

/-- The ranges a source can produce: within U+0 to U+10FFFF, or one of the two masks `??????` and
`1?????`. -/
def SourceRange (n m : Nat) : Prop :=
  n ≤ m ∧ (m ≤ 0x10FFFF ∨ (m = 0x1FFFFF ∧ (n = 0 ∨ n = 0x100000)))

theorem rangeTok_source {st en d : Nat} {s : LS} (h : st ≤ en → SourceRange st en) :
    ∃ n m, SourceRange n m ∧ (rangeTok st en d s).1.int = ((4294967296 * m + n : Nat) : Int) := by
  unfold rangeTok
  split
  · exact ⟨0, 0, ⟨by omega, by omega⟩, rfl⟩
  · exact ⟨st, en, h (by omega), rfl⟩

theorem unicodeRange_source (d : Nat) (s : LS)
    (herr : Rpt.rangeTooLarge ∉ (unicodeRange d s).2.err) :
    ∃ n m, SourceRange n m ∧ (unicodeRange d s).1.int = ((4294967296 * m + n : Nat) : Int) := by
  obtain ⟨u, hu, hinv⟩ := rangeLoop_inv 6 0 0 0 false d s (.inl ⟨rfl, rfl, by omega⟩)
  unfold unicodeRange at herr ⊢
  rcases hr : rangeLoop 6 0 0 false d s with ⟨st, en, m, d1, s1⟩
  rw [hr] at hinv herr
  dsimp only at hinv
  rcases hinv with ⟨rfl, h1, h2⟩ | ⟨rfl, q, a, h1, h2, h3, h4, h5⟩
  · have plain : ∀ (a b d : Nat) (s : LS), Rpt.rangeTooLarge ∉ (rangePlain a b d s).2.err →
        ∃ n m, SourceRange n m ∧ (rangePlain a b d s).1.int = ((4294967296 * m + n : Nat) : Int) := by
      intro a b d s hh
      unfold rangePlain at hh ⊢
      split
      · exact ⟨0, 0, ⟨by omega, by omega⟩, rfl⟩
      · exact rangeTok_source (fun h => ⟨h, by omega⟩)
    unfold rangeRest at herr ⊢
    dsimp only at herr ⊢
    split
    · rename_i hd
      rw [if_pos hd] at herr
      exact plain _ _ _ _ herr
    · rename_i hd
      rw [if_neg hd] at herr
      exact plain _ _ _ _ herr
  · unfold rangeRest at herr ⊢
    dsimp only at herr ⊢
    by_cases hlarge : st ≥ 0x110000
    · exfalso
      rw [if_pos hlarge] at herr
      apply herr
      unfold rangeTok
      rw [if_neg (Nat.not_lt_zero _)]
      dsimp only
      rw [ungetc_err]
      exact List.mem_cons_self
    · rw [if_neg hlarge]
      refine rangeTok_source (fun hle => ⟨hle, ?_⟩)
      have hq : q ≤ 6 := by omega
      have ha : a < 16 ^ (6 - q) :=
        Nat.lt_of_lt_of_le h3 (Nat.pow_le_pow_right (by omega) (by omega))
      rcases (by omega : q = 1 ∨ q = 2 ∨ q = 3 ∨ q = 4 ∨ q = 5 ∨ q = 6) with
        rfl | rfl | rfl | rfl | rfl | rfl <;>
      simp only [Nat.reducePow, Nat.reduceSub] at h4 h5 ha <;>
      split <;> omega

/-- C12: a unicode range read from a source without a "too large" error is one of the ranges that
survive an output/re-read cycle. -/
theorem C12_lexed (s : LS) (hty : (nextToken s).1.ty = .UNICODE_RANGE)
    (herr : Rpt.rangeTooLarge ∉ (nextToken s).2.err) :
    ∃ n m, SourceRange n m ∧ (nextToken s).1.int = ((4294967296 * m + n : Nat) : Int) := by
  obtain ⟨d, s0, h⟩ := (nextToken_orig s).2 hty
  rw [h] at herr ⊢
  exact unicodeRange_source d s0 herr

/-- C12: and so is the intersection (operator `*`) of two such ranges. -/
theorem C12_intersection {n m n' m' : Nat} (h : SourceRange n m) (h' : SourceRange n' m') (r : Nat)
    (hr : mulRanges (4294967296 * m + n) (4294967296 * m' + n') = .ok (some r)) :
    ∃ a b, SourceRange a b ∧ r = 4294967296 * b + a := by
  obtain ⟨h1, h2⟩ := h
  obtain ⟨h1', h2'⟩ := h'
  have p := ofRange_packed (n := n) (m := m) (by omega) h1 (by omega)
  have p' := ofRange_packed (n := n') (m := m') (by omega) h1' (by omega)
  unfold mulRanges at hr
  rw [p.1, p'.1] at hr
  simp only [bind, Except.bind, pure, Except.pure] at hr
  rw [p.2.1, p.2.2, p'.2.1, p'.2.2] at hr
  have e1 : max (n : Int) (n' : Int) = ((max n n' : Nat) : Int) := by omega
  have e2 : min (m : Int) (m' : Int) = ((min m m' : Nat) : Int) := by omega
  rw [e1, e2] at hr
  have t : ∀ x : Nat, x < 0x200000 → toU64 (x : Int) = x := by
    intro x hx; unfold toU64; omega
  rw [t _ (by omega), t _ (by omega)] at hr
  by_cases hle : max n n' ≤ min m m'
  · rw [if_pos hle] at hr
    rw [wrap32_of_isI32 (by unfold IsI32; omega), wrap32_of_isI32 (by unfold IsI32; omega)] at hr
    have hse : startEndToRange ((max n n' : Nat) : Int) ((min m m' : Nat) : Int) =
        4294967296 * min m m' + max n n' := by
      rw [startEnd_nonneg (by unfold IsI32; omega) (by omega)]
      unfold toU64
      omega
    have q := ofRange_packed (n := max n n') (m := min m m') (by omega) hle (by omega)
    have hof : UR.ofStartEnd ((max n n' : Nat) : Int) ((min m m' : Nat) : Int) =
        .ok ⟨4294967296 * min m m' + max n n'⟩ := by
      unfold UR.ofStartEnd
      rw [hse]
      exact q.1
    rw [hof] at hr
    cases hr
    exact ⟨max n n', min m m', ⟨hle, by omega⟩, rfl⟩
  · rw [if_neg hle] at hr
    cases hr

/-- Every source range meets the condition of `C12_range`. -/
theorem C12_source_ok {n m : Nat} (h : SourceRange n m) :
    ValidPair n m ∧ ((m : Int) ≤ 0x10FFFF ∨ (n : Int) = 0 ∨ MaskBlock n m) := by
  obtain ⟨h1, h2⟩ := h
  refine ⟨⟨by omega, by omega, by omega, by omega⟩, ?_⟩
  rcases h2 with h | ⟨h, h' | h'⟩
  · exact .inl (by omega)
  · exact .inr (.inl (by omega))
  · refine .inr (.inr ⟨5, by omega, ⟨1, by omega⟩, by omega⟩)

/-! ### concrete cases -/

example : ValidPair 0x400 0x4FF := by unfold ValidPair; omega
example : UR.ofStartEnd 0x400 0x4FF = .ok ⟨0x4FF00000400⟩ ∧
    outputRange 0x4FF00000400 = .ok b!"U+4??" ∧
    (nextToken (init b!"U+4??,")).1.int = 0x4FF00000400 := by
  decide +kernel
example : EndsRange b!"," := by
  intro r hr; cases hr; decide

/-- A valid range that does not survive: its end is over U+10FFFF and it is not a mask. -/
example : outputRange (4294967296 * 0x110000 + 0x100001) = .ok b!"U+100001-110000" ∧
    Rpt.rangeTooLarge ∈ (nextToken (init b!"U+100001-110000")).2.err := by
  decide +kernel

end Csspp.Lex
