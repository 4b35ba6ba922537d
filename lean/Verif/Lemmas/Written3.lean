import Verif.Lemmas.Written2

/-!
For C57: numbers and unicode ranges.
-/

namespace Csspp.Written
open Csspp.Spec Csspp.Lex

/-! ### Numbers -/

theorem decVal_prefix (a b : Str) : decVal a ≤ decVal (a ++ b) := by
  have key : ∀ (b : Str) (v : Nat), v ≤ b.foldl (fun v c => 10 * v + (c - 48)) v := by
    intro b
    induction b with
    | nil => intro v; exact Nat.le_refl _
    | cons c b ih => intro v; exact Nat.le_trans (show v ≤ 10 * v + (c - 48) by omega) (ih _)
  unfold decVal
  rw [List.foldl_append]
  exact key b _

theorem int_ok {ds : Str} (h : decVal ds < 9223372036854775808) : IntOk ds ∧ wrapped ds = decVal ds := by
  have hw : ∀ x, x < 9223372036854775808 → x % 18446744073709551616 = x := fun x hx => Nat.mod_eq_of_lt (by omega)
  refine ⟨?_, hw _ h⟩
  intro k _ _
  unfold wrapped
  have := decVal_prefix (ds.take k) (ds.drop k)
  rw [List.take_append_drop] at this
  rw [hw _ (by omega)]
  omega

/-- What follows a number with this unit. -/
def AfterNumber (unit rest : List Nat) : Prop :=
  unit = b!"%" ∨ ¬ NextIs (fun c => NameChar c ∨ c = 92 ∨ c = 46 ∨ c = 37) rest

theorem unit_name {unit : Str} (h : Unit unit) : ∀ c ∈ unit, NameChar c ∧ Fair c := by
  intro c hc
  have := h.1 c hc
  unfold NameChar VarChar Dec Letter Fair Valid Scalar Nonchar
  omega

theorem unit_lower {unit : Str} (h : Unit unit) : unit.map lowerByte = unit := by
  conv => rhs; rw [← List.map_id unit]
  refine List.map_congr_left (fun c hc => ?_)
  have := h.1 c hc
  unfold lowerByte
  rw [if_neg (by omega)]; rfl

/-- The first character of the unit and of what follows. -/
theorem unit_next {unit rest : List Nat} (hu : unit = b!"%" ∨ Unit unit) (hr : AfterNumber unit rest) {P : Nat → Prop}
    (hP : ∀ c, P c → Dec c ∨ c = 46) : ¬ NextIs P (unit ++ rest) := by
  rintro ⟨c, t, e, hc⟩
  have hc := hP c hc
  cases unit with
  | nil =>
    rcases hr with hr | hr
    · cases hr
    · refine hr ⟨c, t, e, ?_⟩
      unfold NameChar VarChar Dec Letter
      unfold Dec at hc; omega
  | cons d u =>
    injection e with e1 _
    subst e1
    rcases hu with hu | hu
    · cases hu; unfold Dec at hc; omega
    · have := hu.1 d (by simp)
      unfold Dec at hc; omega

theorem unit_exponent {unit rest : List Nat} (hu : unit = b!"%" ∨ Unit unit) (hr : AfterNumber unit rest) :
    ¬ IsExponent (unit ++ rest) := by
  rintro ⟨e, t, h, he, hd⟩
  rcases hu with rfl | hu
  · injection h with h1 _; omega
  · cases unit with
    | nil =>
      rcases hr with hr | hr
      · cases hr
      · refine hr ⟨e, t, h, .inl ?_⟩
        unfold NameChar VarChar Dec Letter; omega
    | cons d u =>
      injection h with h1 h2
      subst h1
      cases u with
      | nil =>
        have := hu.1 d (by simp)
        exact hu.2 (by rw [show d = 101 by omega])
      | cons d' u =>
        have := hu.1 d' (by simp)
        rcases hd with ⟨c, v, e, hc⟩ | ⟨c, v, e, hc, _⟩
        · rw [← h2] at e; injection e with e _; unfold Dec at hc; omega
        · rw [← h2] at e; injection e with e _; omega

theorem unit_dimension {unit rest : List Nat} (hu : unit = b!"%" ∨ Unit unit) (hr : AfterNumber unit rest) :
    Dimension (unit ++ rest) (if unit = b!"%" then [] else unit) (unit = b!"%") rest := by
  by_cases hp : unit = b!"%"
  · subst hp
    exact .percent rest
  · rw [if_neg hp]
    have hd : decide (unit = b!"%") = false := by simp [hp]
    rw [hd]
    rcases hu with hu | hu
    · exact absurd hu hp
    · rcases hr with hr | hr
      · exact absurd hr hp
      · cases unit with
        | nil =>
          refine .no ?_
          rintro ⟨c, t, e, hc⟩
          refine hr ⟨c, t, e, ?_⟩
          rcases hc with h | h | h
          · exact .inl h
          · exact .inr (.inl h)
          · exact .inr (.inr (.inr h))
        | cons c u =>
          have := Dimension.name (text := c :: u ++ rest) (vs := c :: u) (rest := rest) (cut := false)
            ⟨c, u ++ rest, rfl, .inl (unit_name hu c (by simp)).1⟩
            (nameTail_plain (unit_name hu) (by
              rintro ⟨c, t, e, hc⟩
              refine hr ⟨c, t, e, ?_⟩
              rcases hc with h | h
              · exact .inl h
              · exact .inr (.inl h)))
            (by intro h; have := hu.1 c (by simp); injection h with h _; omega)
          rw [unit_lower hu] at this
          exact this

theorem numeral_lexeme {n : Numeral} (h : n.Ok) {unit : Str} (hu : unit = b!"%" ∨ Unit unit) :
    Of (numberLexeme n.neg n.neg n.int n.frac (n.frac ≠ []) 0 (if unit = b!"%" then [] else unit) (unit = b!"%"))
      (n.word unit) := by
  unfold numberLexeme Numeral.word
  rw [(int_ok h.small).2]
  by_cases hp : unit = b!"%"
  · subst hp
    exact ⟨rfl, .nil, rfl, rfl, rfl, rfl, rfl⟩
  · have hu : Unit unit := hu.resolve_left hp
    have ha : Utf8 unit unit := utf8_ascii (fun c hc => by have := hu.1 c hc; omega)
    rw [if_neg (by simpa using hp), if_neg hp, if_neg hp]
    by_cases hf : n.frac = []
    · rw [if_neg (show ¬ (decide (n.frac ≠ []) = true ∨ (0 : Int) ≠ 0) by simpa using hf),
        if_neg (show ¬ n.frac ≠ [] by simpa using hf)]
      exact ⟨rfl, ha, rfl, rfl, rfl, rfl, rfl⟩
    · rw [if_pos (show decide (n.frac ≠ []) = true ∨ (0 : Int) ≠ 0 by simpa using hf),
        if_pos (show n.frac ≠ [] from hf)]
      exact ⟨rfl, ha, rfl, rfl, rfl, rfl, rfl⟩

theorem numeral_spells {n : Numeral} (h : n.Ok) {unit : Str} (hu : unit = b!"%" ∨ Unit unit) :
    Spells (n.text ++ unit) (n.word unit) := by
  have hof := numeral_lexeme h hu
  have hty : (n.word unit).ty = .PERCENT ∧ unit = b!"%" ∨ (n.word unit).ty = .DECIMAL_NUMBER ∨ (n.word unit).ty = .INTEGER := by
    unfold Numeral.word
    split
    · exact .inl ⟨rfl, by assumption⟩
    · split
      · exact .inr (.inl rfl)
      · exact .inr (.inr rfl)
  -- the text after the sign
  have hfirst : ∃ c t, n.int ++ (if n.frac = [] then [] else 46 :: n.frac) = c :: t ∧ (Dec c ∨ c = 46) ∧
      (c = 46 → NextIs Dec t) := by
    cases hi : n.int with
    | nil =>
      have := h.some hi
      rw [if_neg this]
      refine ⟨46, n.frac, rfl, .inr rfl, fun _ => ?_⟩
      cases hf : n.frac with
      | nil => exact absurd hf this
      | cons c t => exact ⟨c, t, rfl, h.frac c (by rw [hf]; simp)⟩
    | cons c t =>
      have := h.int c (by rw [hi]; simp)
      exact ⟨c, _, rfl, .inl this, by omega⟩
  obtain ⟨c, t, e, hc, h46⟩ := hfirst
  refine ⟨⟨_, hof, ?_, ?_, ?_⟩, ?_, ?_⟩
  · rw [hof.ty]; rcases hty with h | h | h
    · rw [h.1]; simp
    · rw [h]; simp
    · rw [h]; simp
  · rw [hof.ty]; rcases hty with h | h | h
    · rw [h.1]; simp
    · rw [h]; simp
    · rw [h]; simp
  · intro rest hf
    have hr : AfterNumber unit rest := by
      rcases hty with h | h | h
      · exact .inl h.2
      all_goals
        right
        have := hf.bad
        unfold Bad at this
        rw [h] at this
        exact this
    have e2 : n.text ++ unit ++ rest = (if n.neg then [45] else []) ++ (c :: t ++ (unit ++ rest)) := by
      unfold Numeral.text
      rw [e]; simp [List.append_assoc]
    rw [e2]
    refine .number (cs1 := c :: t ++ (unit ++ rest)) (cs2 := (if n.frac = [] then [] else 46 :: n.frac) ++ (unit ++ rest))
      (cs3 := unit ++ rest) (cs4 := unit ++ rest) ?_ ?_ ?_ (int_ok h.small).1 ?_ (.no (unit_exponent hu hr)) (unit_dimension hu hr)
    · have hs : NextIs Dec (c :: t ++ (unit ++ rest)) ∨
          ∃ u, c :: t ++ (unit ++ rest) = 46 :: u ∧ NextIs Dec u := by
        by_cases h' : c = 46
        · subst h'
          obtain ⟨d, v, rfl, hd⟩ := h46 rfl
          exact .inr ⟨_, rfl, d, v ++ (unit ++ rest), rfl, hd⟩
        · exact .inl ⟨c, _, rfl, hc.resolve_right h'⟩
      cases hn : n.neg with
      | true => exact .inr (.inr ⟨45, _, rfl, .inr rfl, hs⟩)
      | false =>
        rcases hs with hs | ⟨u, hs, hd⟩
        · exact .inl hs
        · exact .inr (.inl ⟨u, hs, hd⟩)
    · cases hn : n.neg with
      | true => exact .minus _
      | false =>
        refine .no ?_
        have : ∀ l : List Nat, (if false = true then ([45] : List Nat) else []) ++ l = l := fun _ => rfl
        rw [List.cons_append, this, nextIs_cons]
        unfold Dec at hc; omega
    · refine ⟨by rw [← e, List.append_assoc], h.int, ?_⟩
      by_cases hf : n.frac = []
      · rw [if_pos hf]; exact unit_next hu hr (fun c h => .inl h)
      · rw [if_neg hf]
        rw [List.cons_append, nextIs_cons]; unfold Dec; omega
    · by_cases hf : n.frac = []
      · rw [if_pos hf, hf]
        refine .no ?_
        intro v hv
        exact unit_next (P := fun c => c = 46) hu hr (fun c h => .inr h) ⟨46, v, hv, rfl⟩
      · rw [if_neg hf]
        have : decide (n.frac ≠ []) = true := by simpa using hf
        rw [this]
        refine .digits ⟨rfl, h.frac, unit_next hu hr (fun c h => .inl h)⟩ ⟨?_, h.short⟩
        cases hx : n.frac with
        | nil => exact absurd hx hf
        | cons => simp
  · have hs : NextIs (fun c => Dec c ∨ c = 45 ∨ c = 46) (n.text ++ unit) := by
      unfold Numeral.text
      rw [e]
      cases n.neg with
      | true => exact ⟨45, _, rfl, .inr (.inl rfl)⟩
      | false =>
        refine ⟨c, _, rfl, ?_⟩
        rcases hc with h | h
        · exact .inl h
        · exact .inr (.inr h)
    unfold Starts
    rcases hty with h | h | h
    · rw [h.1]; exact hs
    · rw [h]; exact hs
    · rw [h]; exact hs
  · have hd : ∀ l : Str, (∀ c ∈ l, 48 ≤ c ∧ c ≤ 57) → Clean l := by
      intro l hl c hc; have := hl c hc; omega
    unfold Numeral.text
    refine Clean.append (Clean.append ?_ (Clean.append (hd _ h.int) ?_)) ?_
    · split <;> intro c hc <;> simp at hc; omega
    · split
      · intro c hc; cases hc
      · intro c hc
        rcases List.mem_cons.1 hc with rfl | hc
        · omega
        · exact hd _ h.frac c hc
    · intro c hc
      rcases hu with rfl | hu
      · simp at hc; omega
      · have := hu.1 c hc; omega

theorem takeWhile_digits {a b : Str} (h : ∀ c ∈ a, c ≠ 46) (hb : ∀ c t, b = c :: t → c = 46) :
    (a ++ b).takeWhile (fun c => c != 46) = a ∧ (a ++ b).dropWhile (fun c => c != 46) = b := by
  induction a with
  | nil =>
    cases b with
    | nil => exact ⟨rfl, rfl⟩
    | cons c t => simp [hb c t rfl]
  | cons c a ih =>
    have hc : c ≠ 46 := h c (by simp)
    have ih := ih (fun x hx => h x (by simp [hx]))
    simp [hc, ih.1, ih.2]

/-- The text of a number is its numeral's. -/
theorem numeral_text {n : Numeral} (h : n.Ok) : numeral n.text = n := by
  have hfirst : (n.int ++ (if n.frac = [] then [] else 46 :: n.frac)).head? ≠ some 45 := by
    cases hi : n.int with
    | nil =>
      rw [if_neg (h.some hi)]
      simp
    | cons c t =>
      have := h.int c (by rw [hi]; simp)
      simp; omega
  have ht := takeWhile_digits (a := n.int) (b := if n.frac = [] then [] else 46 :: n.frac)
    (fun c hc => by have := h.int c hc; omega) (by
      intro c t e
      split at e
      · cases e
      · injection e with e _; exact e.symm)
  have htail : (if n.frac = [] then ([] : Str) else 46 :: n.frac).tail = n.frac := by
    split
    · simp [*]
    · rfl
  unfold numeral Numeral.text
  cases hn : n.neg with
  | true =>
    simp only [if_true, List.cons_append, List.nil_append, List.head?_cons, List.tail_cons]
    rw [ht.1, ht.2, htail]
    simp [← hn]
  | false =>
    simp only [Bool.false_eq_true, if_false, List.nil_append]
    rw [if_neg hfirst, ht.1, ht.2, htail]
    have : decide ((n.int ++ (if n.frac = [] then [] else 46 :: n.frac)).head? = some 45) = false := by
      simpa using hfirst
    rw [this, ← hn]

theorem number_spells {n : Numeral} (h : n.Ok) {unit : Str} (hu : unit = b!"%" ∨ Unit unit) {t : Str} (ht : t = n.text) :
    Spells (t ++ unit) ((numeral t).word unit) := by
  subst ht
  rw [numeral_text h]
  exact numeral_spells h hu

theorem natDigits_ok (n : Nat) (h : n < 9223372036854775808) (neg : Bool) : Numeral.Ok ⟨neg, natDigits n, []⟩ := by
  have hd := natDigits_digits n
  refine ⟨hd.2, (by intro c hc; cases hc), fun he => absurd he hd.1, by simp, ?_⟩
  rw [decVal_natDigits]; exact h

theorem integer_spells {i : Int} (hi : -9223372036854775808 < i ∧ i < 9223372036854775808) {unit : Str} (hu : Unit unit) :
    Spells (intDigits i ++ unit) { ty := .INTEGER, int := i, str := unit, sign := i < 0 } := by
  have hne : unit ≠ b!"%" := by
    rintro rfl
    have := hu.1 37 (by simp)
    omega
  have h := numeral_spells (natDigits_ok i.natAbs (by omega) (decide (i < 0))) (.inr hu)
  unfold Numeral.word at h
  rw [if_neg hne, if_neg (by simp)] at h
  dsimp only at h
  rw [decVal_natDigits] at h
  have e1 : (Numeral.text ⟨decide (i < 0), natDigits i.natAbs, []⟩) = intDigits i := by
    unfold Numeral.text intDigits
    by_cases h : i < 0
    · simp [h]
    · simp [h]
  have e2 : (if decide (i < 0) = true then -(i.natAbs : Int) else i.natAbs) = i := by
    by_cases h : i < 0
    · rw [if_pos (by simpa using h)]; omega
    · rw [if_neg (by simpa using h)]; omega
  rw [e1, e2] at h
  exact h

/-! ### Ranges -/

theorem hexVal_eq {d : Nat} (h : isHex d = true) : Lex.hexVal d = hexDigitValue d := by
  unfold isHex isDigit at h
  simp at h
  unfold Lex.hexVal hexDigitValue
  repeat' split
  all_goals omega

theorem isHex_hex {d : Nat} (h : isHex d = true) : Hex d := by
  unfold isHex isDigit at h
  simp at h
  unfold Hex Dec; omega

theorem hexOf_value {ds : Str} (h : ∀ d ∈ ds, isHex d = true) : URange.hexOf 0 ds = hexValue ds := by
  have key : ∀ (ds : Str) (v : Nat), (∀ d ∈ ds, isHex d = true) →
      URange.hexOf v ds = ds.foldl (fun v d => 16 * v + hexDigitValue d) v := by
    intro ds
    induction ds with
    | nil => intro v _; rfl
    | cons d ds ih =>
      intro v h
      rw [List.foldl_cons, ← ih _ (fun x hx => h x (by simp [hx])), ← hexVal_eq (h d (by simp))]
      rfl
  exact key ds 0 h

theorem range_spells {n m : Nat} (hnm : n ≤ m) (hm : m ≤ 0x10FFFF) (h0 : ¬ (n = 0 ∧ m = 0x10FFFF)) {text : Str}
    (h : URange.Written n m text) :
    Spells (b!"U+" ++ text) { ty := .UNICODE_RANGE, int := ((4294967296 * m + n : Nat) : Int) } := by
  have hch := written_chars (by omega) (by omega) h
  have hx := URange.toHex_spec (n := n) (by omega)
  have hy := URange.toHex_spec (n := m) (by omega)
  refine ⟨⟨{ ty := .UNICODE_RANGE, int := ((4294967296 * m + n : Nat) : Int) }, ⟨rfl, .nil, rfl, rfl, rfl, rfl, rfl⟩,
    by simp, by simp, ?_⟩, ⟨85, _, rfl, .inl (by unfold NameStart Letter; omega)⟩, ?_⟩
  · intro rest hf
    have hb : ¬ NextIs (fun c => Hex c ∨ c = 63 ∨ c = 45) rest := hf.bad
    have hr : ∀ P : Nat → Prop, (∀ c, P c → Hex c ∨ c = 63 ∨ c = 45) → ¬ NextIs P rest := by
      rintro P hP ⟨c, t, rfl, hc⟩
      exact hb ⟨c, t, rfl, hP c hc⟩
    show Reads (85 :: 43 :: (text ++ rest)) _ rest
    refine .range (.inl rfl) ?_
    cases h with
    | all h1 h2 => omega
    | one h =>
      subst h
      have := Range.one (ds := URange.toHex n) (rest := rest) (fun d hd => isHex_hex (hx.2.1 d hd))
        ⟨List.length_pos_iff.2 hx.2.2.1, hx.2.2.2⟩
        (.inr (hr _ (fun c h => by rcases h with h | h; exact .inl h; exact .inr (.inl h))))
        (by rintro t rfl; exact hb ⟨45, t, rfl, .inr (.inr rfl)⟩)
        (by rw [← hexOf_value hx.2.1, hx.1]; exact hm)
      rw [← hexOf_value hx.2.1, hx.1] at this
      exact this
    | mask k a ds h1 h2 h3 h4 h5 h6 h7 =>
      rw [hexOf_value h7] at h5
      have e : hexValue ds * 16 ^ k = n := by rw [h5, h3, Nat.mul_comm]
      have hp : 0 < 16 ^ k := Nat.pow_pos (by omega)
      have := Range.mask (ds := ds) (q := k) (rest := rest) (fun d hd => isHex_hex (h7 d hd)) h1 h6
        (.inr (hr _ (fun c h => .inr (.inl h)))) (by rw [e]; omega)
      rw [e, show min (n + (16 ^ k - 1)) 0x1FFFFF = m by omega] at this
      rw [List.append_assoc]
      exact this
    | pair h1 h2 h3 =>
      have := Range.pair (ds := URange.toHex n) (es := URange.toHex m) (rest := rest)
        (fun d hd => isHex_hex (hx.2.1 d hd)) ⟨List.length_pos_iff.2 hx.2.2.1, hx.2.2.2⟩
        (fun d hd => isHex_hex (hy.2.1 d hd)) hy.2.2.2 (.inr (hr _ (fun c h => .inl h)))
        (by rw [← hexOf_value hx.2.1, hx.1, ← hexOf_value hy.2.1, hy.1]; omega)
      rw [← hexOf_value hx.2.1, hx.1, ← hexOf_value hy.2.1, hy.1] at this
      simpa using this
  · refine Clean.append (by unfold Clean; decide) ?_
    intro c hc
    rcases hch.1 c hc with h | h | h
    · unfold isHex isDigit at h; simp at h; omega
    · omega
    · omega

theorem range_ascii {n m : Nat} (hm : m ≤ 0x10FFFF) (hnm : n ≤ m) {text : Str} (h : URange.Written n m text) :
    Utf8 text text := by
  refine utf8_ascii (fun c hc => ?_)
  rcases (written_chars (by omega) (by omega) h).1 c hc with h | h | h
  · unfold isHex isDigit at h; simp at h; omega
  · omega
  · omega

end Csspp.Written
