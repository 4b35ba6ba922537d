import Verif.Model.Utf8
import Verif.Spec.Utf8

/-!
C01, C02: the UTF-8 conversions of the lexer.
-/

namespace Csspp.Utf8
open Csspp.Spec

/-- The characters the code accepts to write: the scalar values but the noncharacters U+xxFFFE
and U+xxFFFF. -/
def Encodable (c : Nat) : Prop := Scalar c ∧ ¬ Nonchar c

theorem wctomb_ok {c : Nat} (h : Encodable c) (h0 : c ≠ 0) :
    (wctomb c).2 = none ∧ CharBytes c (wctomb c).1 := by
  obtain ⟨hs, hn⟩ := h
  unfold Scalar at hs
  unfold Nonchar at hn
  unfold wctomb
  by_cases h1 : c < 0x80
  · rw [if_pos h1, if_neg h0]; exact ⟨rfl, .one c h1⟩
  rw [if_neg h1]
  by_cases h2 : c < 0x800
  · rw [if_pos h2]
    refine ⟨rfl, ?_⟩
    have e : c = 64 * (0xC0 + c / 64 - 0xC0) + (0x80 + c % 64 - 0x80) := by omega
    conv => arg 1; rw [e]
    exact .two _ _ (by omega) (by unfold Follow; omega)
  rw [if_neg h2]
  by_cases h3 : c < 0x10000
  · rw [if_pos h3, if_neg (by omega), if_neg (by omega)]
    refine ⟨rfl, ?_⟩
    have e : c = 4096 * (0xE0 + c / 4096 - 0xE0) + 64 * (0x80 + c / 64 % 64 - 0x80) +
        (0x80 + c % 64 - 0x80) := by omega
    conv => arg 1; rw [e]
    exact .three _ _ _ (by omega) (by unfold Follow; omega) (by unfold Follow; omega)
      (by omega) (by omega)
  rw [if_neg h3, if_pos (by omega), if_neg hn]
  refine ⟨rfl, ?_⟩
  have e : c = 262144 * (0xF0 + c / 262144 - 0xF0) + 4096 * (0x80 + c / 4096 % 64 - 0x80) +
      64 * (0x80 + c / 64 % 64 - 0x80) + (0x80 + c % 64 - 0x80) := by omega
  conv => arg 1; rw [e]
  exact .four _ _ _ _ (by omega) (by unfold Follow; omega) (by unfold Follow; omega)
    (by unfold Follow; omega) (by omega) (by omega)

/-- `mbtowc` decodes every well formed sequence. -/
theorem C01_decode (c : Nat) (bs : Str) (h : CharBytes c bs) : mbtowc bs = (c, none) := by
  cases h with
  | one _ h => simp [mbtowc, h]
  | two a b ha hb =>
    unfold Follow at hb
    dsimp only [mbtowc]
    rw [if_neg (by omega), if_neg (by omega), if_neg (by omega), if_pos (by omega)]
    try dsimp only [mbLoop]
    rw [if_neg (by omega)]
    exact Prod.ext (by dsimp only; omega) rfl
  | three a b c ha hb hc h1 h2 =>
    unfold Follow at hb hc
    dsimp only [mbtowc]
    rw [if_neg (by omega), if_neg (by omega), if_pos (by omega)]
    try dsimp only [mbLoop]
    rw [if_neg (by omega)]
    try dsimp only [mbLoop]
    rw [if_neg (by omega)]
    exact Prod.ext (by dsimp only; omega) rfl
  | four a b c d ha hb hc hd h1 h2 =>
    unfold Follow at hb hc hd
    dsimp only [mbtowc]
    rw [if_neg (by omega), if_pos (by omega), if_neg (by omega)]
    try dsimp only [mbLoop]
    rw [if_neg (by omega)]
    try dsimp only [mbLoop]
    rw [if_neg (by omega)]
    try dsimp only [mbLoop]
    rw [if_neg (by omega)]
    exact Prod.ext (by dsimp only; omega) rfl

/-- C01: every scalar value but the noncharacters is encoded without error to bytes that decode to
it without error. (The character 0 is written as the empty text, which reads as 0.) -/
theorem C01_roundtrip (c : Nat) (h : Encodable c) :
    (wctomb c).2 = none ∧ mbtowc (wctomb c).1 = (c, none) := by
  by_cases h0 : c = 0
  · subst h0; exact ⟨rfl, rfl⟩
  · obtain ⟨h1, h2⟩ := wctomb_ok h h0
    exact ⟨h1, C01_decode _ _ h2⟩

/-- C02: `wctomb` succeeds exactly on the encodable characters (c is any 32 bit value), giving a
well formed UTF-8 sequence of 1 to 4 bytes; otherwise it gives the empty text and one error. -/
theorem C02_exact (c : Nat) :
    (Encodable c → (wctomb c).2 = none ∧ (c ≠ 0 → CharBytes c (wctomb c).1) ∧
      (c = 0 → (wctomb c).1 = [])) ∧
    (¬ Encodable c → (∃ e, (wctomb c).2 = some e) ∧ (wctomb c).1 = []) ∧
    (wctomb c).1.length ≤ 4 := by
  refine ⟨fun h => ⟨(C01_roundtrip c h).1, fun h0 => (wctomb_ok h h0).2, ?_⟩, ?_, ?_⟩
  · rintro rfl; rfl
  · intro h
    unfold Encodable Scalar Nonchar at h
    unfold wctomb
    rw [if_neg (by omega), if_neg (by omega)]
    by_cases h1 : c < 0x10000
    · rw [if_pos h1]
      by_cases h2 : c ≥ 0xD800 ∧ c ≤ 0xDFFF
      · rw [if_pos h2]; exact ⟨⟨_, rfl⟩, rfl⟩
      · rw [if_neg h2, if_pos (by omega)]; exact ⟨⟨_, rfl⟩, rfl⟩
    · rw [if_neg h1]
      by_cases h2 : c < 0x110000
      · rw [if_pos h2, if_pos (by omega)]; exact ⟨⟨_, rfl⟩, rfl⟩
      · rw [if_neg h2]; exact ⟨⟨_, rfl⟩, rfl⟩
  · unfold wctomb
    repeat' split
    all_goals simp

/-- C02: a buffer of less than 5 bytes is refused; a larger one keeps its size, holds the text and a
NUL at its start and nothing past its fifth byte is touched. -/
theorem C02_buffer (c : Nat) (buf : Str) :
    (buf.length < 5 → wctombBuf c buf = none) ∧
    (5 ≤ buf.length → ∃ out e, wctombBuf c buf = some (out, e) ∧ e = (wctomb c).2 ∧
      out.length = buf.length ∧ out.drop 5 = buf.drop 5 ∧ ((wctomb c).1 ++ [0]) <+: out) := by
  have hl := (C02_exact c).2.2
  unfold wctombBuf
  refine ⟨fun h => by rw [if_pos h], fun h => ?_⟩
  rw [if_neg (by omega)]
  refine ⟨_, _, rfl, rfl, ?_, ?_, ?_⟩
  · simp; omega
  · generalize (wctomb c).1 = t at *
    have e : t ++ 0 :: buf.drop (t.length + 1) = (t ++ [0]) ++ buf.drop (t.length + 1) := by simp
    rw [e, List.drop_append, List.drop_of_length_le (by simp; omega), List.drop_drop]
    simp only [List.nil_append, List.length_append, List.length_singleton]
    congr 1
    omega
  · exact ⟨buf.drop ((wctomb c).1.length + 1), by simp⟩

example : Encodable 0x1F600 := by unfold Encodable Scalar Nonchar; omega
example : wctomb 0x1F600 = ([0xF0, 0x9F, 0x98, 0x80], none) := by decide
example : ¬ Encodable 0xD800 := by unfold Encodable Scalar Nonchar; omega
example : ¬ Encodable 0xFFFFFFFF := by unfold Encodable Scalar Nonchar; omega
/-- What decoding accepts beyond well formed UTF-8: overlong forms, surrogates, values over
U+10FFFF. -/
example : mbtowc [0xC0, 0x8A] = (10, none) := by decide
example : mbtowc [0xF7, 0xBF, 0xBF, 0xBF] = (0x1FFFFF, none) := by decide

/-! ### C48: what is decoded -/

theorem shape_ok {c : Nat} {bs : Str} (h : Shape c bs) : mbtowc bs = (c, none) := by
  cases h with
  | two a b ha hb =>
    unfold Follow at hb
    dsimp only [mbtowc]
    rw [if_neg (by omega), if_neg (by omega), if_neg (by omega), if_pos (by omega)]
    try dsimp only [mbLoop]
    rw [if_neg (by omega)]
    exact Prod.ext (by dsimp only; omega) rfl
  | three a b c ha hb hc =>
    unfold Follow at hb hc
    dsimp only [mbtowc]
    rw [if_neg (by omega), if_neg (by omega), if_pos (by omega)]
    try dsimp only [mbLoop]
    rw [if_neg (by omega)]
    try dsimp only [mbLoop]
    rw [if_neg (by omega)]
    exact Prod.ext (by dsimp only; omega) rfl
  | four a b c d ha hb hc hd =>
    unfold Follow at hb hc hd
    dsimp only [mbtowc]
    rw [if_neg (by omega), if_pos (by omega), if_neg (by omega)]
    try dsimp only [mbLoop]
    rw [if_neg (by omega)]
    try dsimp only [mbLoop]
    rw [if_neg (by omega)]
    try dsimp only [mbLoop]
    rw [if_neg (by omega)]
    exact Prod.ext (by dsimp only; omega) rfl

theorem mbLoop_err : ∀ (n wc : Nat) (s : Str), (∃ e, mbLoop n wc s = (0xFFFD, some e)) ∨
    (s.length = n ∧ ∀ b ∈ s, Follow b) := by
  intro n
  induction n with
  | zero =>
    intro wc s
    cases s with
    | nil => exact .inr ⟨rfl, by simp⟩
    | cons => exact .inl ⟨_, rfl⟩
  | succ n ih =>
    intro wc s
    cases s with
    | nil => exact .inl ⟨_, rfl⟩
    | cons c s =>
      unfold mbLoop
      by_cases h : c < 0x80 ∨ c > 0xBF
      · rw [if_pos h]; exact .inl ⟨_, rfl⟩
      · rw [if_neg h]
        rcases ih (64 * wc + c % 64) s with h1 | ⟨h1, h2⟩
        · exact .inl h1
        · right
          refine ⟨by simp [h1], fun b hb => ?_⟩
          rcases List.mem_cons.1 hb with rfl | hb
          · unfold Follow; omega
          · exact h2 b hb

/-- C48: a first byte under 0x80 is the character; any other bytes give a character, without an
error, exactly when they have the form of a UTF-8 sequence, and U+FFFD with one error otherwise. -/
theorem C48_decode (bs : Str) :
    (∀ c t, bs = c :: t → c < 0x80 → mbtowc bs = (c, none)) ∧
    (∀ c, Shape c bs → mbtowc bs = (c, none)) ∧
    (bs ≠ [] → (∀ c t, bs = c :: t → 0x80 ≤ c) → (¬ ∃ c, Shape c bs) → ∃ e, mbtowc bs = (0xFFFD, some e)) := by
  refine ⟨?_, fun c h => shape_ok h, ?_⟩
  · rintro c t rfl h
    simp [mbtowc, h]
  · intro hne h80 hno
    cases bs with
    | nil => exact absurd rfl hne
    | cons a s =>
      have ha := h80 a s rfl
      dsimp only [mbtowc]
      rw [if_neg (by omega)]
      by_cases h1 : a ≥ 0xF0
      · rw [if_pos h1]
        by_cases h2 : a ≥ 0xF8
        · rw [if_pos h2]; exact ⟨_, rfl⟩
        · rw [if_neg h2]
          rcases mbLoop_err 3 (a % 8) s with h | ⟨hl, hf⟩
          · exact h
          · match s, hl with
            | [b, c, d], _ =>
              exact absurd ⟨_, .four a b c d (by omega) (hf b (by simp)) (hf c (by simp)) (hf d (by simp))⟩ hno
      · rw [if_neg h1]
        by_cases h2 : a ≥ 0xE0
        · rw [if_pos h2]
          rcases mbLoop_err 2 (a % 16) s with h | ⟨hl, hf⟩
          · exact h
          · match s, hl with
            | [b, c], _ => exact absurd ⟨_, .three a b c (by omega) (hf b (by simp)) (hf c (by simp))⟩ hno
        · rw [if_neg h2]
          by_cases h3 : a ≥ 0xC0
          · rw [if_pos h3]
            rcases mbLoop_err 1 (a % 32) s with h | ⟨hl, hf⟩
            · exact h
            · match s, hl with
              | [b], _ => exact absurd ⟨_, .two a b (by omega) (hf b (by simp))⟩ hno
          · rw [if_neg h3]; exact ⟨_, rfl⟩

/-- C48: such a sequence is well formed UTF-8 exactly when it is the shortest one for a scalar
value: nothing else distinguishes what is accepted from UTF-8. -/
theorem C48_wellformed (c : Nat) (bs : Str) (h : Shape c bs) :
    CharBytes c bs ↔ Scalar c ∧ (bs.length = 2 → 0x80 ≤ c) ∧ (bs.length = 3 → 0x800 ≤ c) ∧
      (bs.length = 4 → 0x10000 ≤ c) := by
  constructor
  · intro hc
    have key : ∀ {d : Nat} {xs : Str}, CharBytes d xs → Scalar d ∧ (xs.length = 2 → 0x80 ≤ d) ∧
        (xs.length = 3 → 0x800 ≤ d) ∧ (xs.length = 4 → 0x10000 ≤ d) := by
      intro d xs hd
      cases hd with
      | one h => exact ⟨by unfold Scalar; omega, by simp, by simp, by simp⟩
      | two a b ha hb => exact ⟨by unfold Scalar Follow at *; omega, fun _ => by unfold Follow at *; omega, by simp, by simp⟩
      | three a b c ha hb hc h1 h2 =>
        exact ⟨by unfold Scalar Follow at *; omega, by simp, fun _ => by unfold Follow at *; omega, by simp⟩
      | four a b c d ha hb hc hd h1 h2 =>
        exact ⟨by unfold Scalar Follow at *; omega, by simp, by simp, fun _ => by unfold Follow at *; omega⟩
    exact key hc
  · cases h with
    | two a b ha hb =>
      rintro ⟨_, h2, _, _⟩
      have := h2 rfl
      unfold Follow at hb
      exact .two a b (by omega) hb
    | three a b c ha hb hc =>
      rintro ⟨hs, _, h3, _⟩
      have := h3 rfl
      unfold Scalar at hs
      unfold Follow at hb hc
      exact .three a b c ha hb hc (by omega) (by omega)
    | four a b c d ha hb hc hd =>
      rintro ⟨hs, _, _, h4⟩
      have := h4 rfl
      unfold Scalar at hs
      unfold Follow at hb hc hd
      exact .four a b c d (by omega) hb hc hd (by omega) (by omega)

/-- C48: an overlong `/`, a surrogate and a value over U+10FFFF are decoded without an error. -/
theorem C48_not_rejected : mbtowc [0xC0, 0xAF] = (47, none) ∧ mbtowc [0xED, 0xA0, 0x80] = (0xD800, none) ∧
    mbtowc [0xF7, 0xBF, 0xBF, 0xBF] = (0x1FFFFF, none) := by decide

example : (∃ e, mbtowc [0xE2, 0x82] = (0xFFFD, some e)) ∧ Shape 0x20AC [0xE2, 0x82, 0xAC] :=
  ⟨⟨.tooShort, rfl⟩, .three 0xE2 0x82 0xAC (by omega) (by unfold Follow; omega) (by unfold Follow; omega)⟩

end Csspp.Utf8
