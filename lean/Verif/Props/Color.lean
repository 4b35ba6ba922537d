import Verif.Model.Color
import Verif.Lemmas.Flt
import Verif.Spec.ColorNames

/-!
C20 (color names), C21 (bytes and floats), C22 (opaque colors re-read).
-/

set_option exponentiation.threshold 2000

namespace Csspp.Color
open Csspp.Flt Csspp.Spec

/-! ### C20: the binary search -/

theorem strLt_irrefl (s : Str) : strLt s s = false := by
  induction s with
  | nil => rfl
  | cons a s ih => rw [strLt]; simp [ih]

theorem strLt_asymm : ∀ {s t : Str}, strLt s t = true → strLt t s = false
  | [], [], _ => rfl
  | [], _ :: _, _ => rfl
  | _ :: _, [], h => by cases h
  | a :: s, b :: t, h => by
    rw [strLt] at h ⊢
    by_cases h1 : a < b
    · rw [if_neg (by omega), if_pos h1]
    · rw [if_neg h1] at h
      by_cases h2 : b < a
      · rw [if_pos h2] at h; cases h
      · rw [if_neg h2] at h
        rw [if_neg h2, if_neg h1]
        exact strLt_asymm h

theorem strLt_total : ∀ {s t : Str}, s ≠ t → strLt s t = false → strLt t s = true
  | [], [], h, _ => absurd rfl h
  | [], _ :: _, _, h => by cases h
  | _ :: _, [], _, _ => rfl
  | a :: s, b :: t, h, g => by
    rw [strLt] at g ⊢
    by_cases h1 : a < b
    · rw [if_pos h1] at g; cases g
    · rw [if_neg h1] at g
      by_cases h2 : b < a
      · rw [if_pos h2]
      · rw [if_neg h2] at g
        rw [if_neg h2, if_neg h1]
        have : a = b := by omega
        subst this
        exact strLt_total (fun e => h (by rw [e])) g

/-- The names are in strictly increasing order. -/
def Sorted (t : List Entry) : Prop :=
  ∀ (i j : Nat) (a b : Entry), i < j → t[i]? = some a → t[j]? = some b → strLt a.name b.name = true

/-- The binary search finds every name of a sorted table, and only these. -/
theorem search_spec {t : List Entry} (hs : Sorted t) (name : Str) (fuel : Nat) :
    ∀ i j, j ≤ t.length → j - i < fuel →
    (∀ e, search t name fuel i j = some e → e ∈ t ∧ e.name = name) ∧
    (search t name fuel i j = none → ∀ (k : Nat) (e : Entry), i ≤ k → k < j → t[k]? = some e → e.name ≠ name) := by
  induction fuel with
  | zero => intro i j _ h; omega
  | succ fuel ih =>
    intro i j hj hf
    rw [search]
    by_cases hij : i < j
    · rw [if_pos hij]
      have hp : (j - i) / 2 + i < t.length := by omega
      have e1 : t[(j - i) / 2 + i]? = some t[(j - i) / 2 + i] := List.getElem?_eq_getElem hp
      generalize hm : (j - i) / 2 + i = m at *
      generalize t[m] = e at e1
      rw [e1]
      dsimp only
      by_cases hn : e.name = name
      · rw [if_pos hn]
        exact ⟨fun e' h => by cases h; exact ⟨List.mem_of_getElem? e1, hn⟩, fun h => by cases h⟩
      · rw [if_neg hn]
        cases hlt : strLt e.name name with
        | true =>
          rw [if_pos rfl]
          obtain ⟨a1, a2⟩ := ih (m + 1) j hj (by omega)
          refine ⟨a1, fun h k e' hk1 hk2 he' => ?_⟩
          by_cases hkm : m + 1 ≤ k
          · exact a2 h k e' hkm hk2 he'
          · intro hne
            by_cases hk : k = m
            · subst hk; rw [e1] at he'; cases he'; exact hn hne
            · have := hs k m e' e (by omega) he' e1
              rw [hne] at this
              rw [strLt_asymm this] at hlt
              cases hlt
        | false =>
          rw [if_neg (by simp)]
          obtain ⟨a1, a2⟩ := ih i m (by omega) (by omega)
          refine ⟨a1, fun h k e' hk1 hk2 he' => ?_⟩
          by_cases hkm : k < m
          · exact a2 h k e' hk1 hkm he'
          · intro hne
            by_cases hk : k = m
            · subst hk; rw [e1] at he'; cases he'; exact hn hne
            · have h3 := hs m k e e' (by omega) e1 he'
              rw [hne] at h3
              rw [h3] at hlt
              cases hlt
    · rw [if_neg hij]
      exact ⟨fun e h => (by cases h), fun _ k e h1 h2 => by omega⟩

theorem strLt_trans : ∀ {s t u : Str}, strLt s t = true → strLt t u = true → strLt s u = true
  | [], _ :: _, _ :: _, _, _ => rfl
  | [], [], _, h, _ => by cases h
  | _ :: _, [], _, h, _ => by cases h
  | _, _ :: _, [], _, h => by cases h
  | a :: s, b :: t, c :: u, h, g => by
    rw [strLt] at h g ⊢
    by_cases h1 : a < b
    · by_cases g1 : b < c
      · rw [if_pos (by omega)]
      · rw [if_neg g1] at g
        by_cases g2 : c < b
        · rw [if_pos g2] at g; cases g
        · rw [if_pos (by omega)]
    · rw [if_neg h1] at h
      by_cases h2 : b < a
      · rw [if_pos h2] at h; cases h
      · rw [if_neg h2] at h
        by_cases g1 : b < c
        · rw [if_pos (by omega)]
        · rw [if_neg g1] at g
          by_cases g2 : c < b
          · rw [if_pos g2] at g; cases g
          · rw [if_neg g2] at g
            rw [if_neg (by omega), if_neg (by omega)]
            exact strLt_trans h g

/-- Each name is smaller than the next one. -/
def increasing : List Entry → Bool
  | a :: b :: t => strLt a.name b.name && increasing (b :: t)
  | _ => true

theorem increasing_sorted {t : List Entry} (h : increasing t = true) : Sorted t := by
  have key : ∀ (t : List Entry) (a : Entry), increasing (a :: t) = true →
      ∀ b ∈ t, strLt a.name b.name = true := by
    intro t
    induction t with
    | nil => intro a _ b hb; cases hb
    | cons c t ih =>
      intro a h b hb
      rw [increasing, Bool.and_eq_true] at h
      rcases List.mem_cons.1 hb with rfl | hb
      · exact h.1
      · exact strLt_trans h.1 (ih c h.2 b hb)
  have tail : ∀ (t : List Entry) (a : Entry), increasing (a :: t) = true → increasing t = true := by
    intro t a h
    cases t with
    | nil => rfl
    | cons c t => rw [increasing, Bool.and_eq_true] at h; exact h.2
  induction t with
  | nil => intro i j a b _ ha; simp at ha
  | cons x t ih =>
    intro i j a b hij ha hb
    cases j with
    | zero => omega
    | succ j =>
      rw [List.getElem?_cons_succ] at hb
      cases i with
      | zero =>
        rw [List.getElem?_cons_zero] at ha
        cases ha
        exact key t _ h b (List.mem_of_getElem? hb)
      | succ i =>
        rw [List.getElem?_cons_succ] at ha
        exact ih (tail t x h) i j a b (by omega) ha hb

theorem table_sorted : Sorted table := increasing_sorted (by decide +kernel)

/-- More fuel than the size of the interval changes nothing. -/
theorem search_fuel (name : Str) : ∀ (fuel i j : Nat), j - i ≤ fuel →
    search table name fuel i j = search table name (fuel + 1) i j := by
  intro fuel
  induction fuel with
  | zero =>
    intro i j h
    rw [search, search, if_neg (by omega)]
  | succ fuel ih =>
    intro i j h
    conv => lhs; rw [search]
    conv => rhs; rw [search]
    by_cases hij : i < j
    · rw [if_pos hij, if_pos hij]
      rw [ih _ _ (by omega), ih _ _ (by omega)]
    · rw [if_neg hij, if_neg hij]

theorem search_iff (name : Str) (e : Entry)
    (h : search table name table.length 0 table.length = some e) : e ∈ table ∧ e.name = name := by
  rw [search_fuel name _ _ _ (by omega)] at h
  exact (search_spec table_sorted name _ 0 table.length (Nat.le_refl _) (by omega)).1 e h

theorem search_none (name : Str)
    (h : search table name table.length 0 table.length = none) : ∀ e ∈ table, e.name ≠ name := by
  rw [search_fuel name _ _ _ (by omega)] at h
  intro e he
  obtain ⟨k, hk⟩ := List.getElem?_of_mem he
  exact (search_spec table_sorted name _ 0 table.length (Nat.le_refl _) (by omega)).2 h k e
    (by omega) (List.getElem?_eq_some_iff.mp hk).1 hk

/-- The value of a name of the CSS specification as the 32 bits of get_color() (red in the low
byte, opaque), and the extra name "transparent". -/
def cssBits (name : Str) : Option Nat :=
  if name = b!"transparent" then some (pack 0 0 0 0)
  else (cssColors.lookup name).map (fun v => pack (v / 65536 % 256) (v / 256 % 256) (v % 256) 255)

/-- One byte survives the conversions. -/
def trips (b : Nat) : Bool := toByte (component b) == some (b : Int)

/-- All the 256 bytes, by evaluation. -/
theorem byte_trip_aux : ∀ h, h < 16 → ∀ l, l < 16 → trips (16 * h + l) = true := by
  decide +kernel

theorem byte_trip (b : Nat) (h : b < 256) : toByte (component b) = some (b : Int) := by
  have := byte_trip_aux (b / 16) (by omega) (b % 16) (by omega)
  rw [show 16 * (b / 16) + b % 16 = b by omega] at this
  simpa [trips] using this

theorem getColor_of {c : Color} {r g b a : Nat} (hr : toByte c.red = some (r : Int))
    (hg : toByte c.green = some (g : Int)) (hb : toByte c.blue = some (b : Int))
    (ha : toByte c.alpha = some (a : Int)) : getColor c = some (pack r g b a) := by
  unfold getColor
  rw [hr, hg, hb, ha]
  simp only [Int.toNat_natCast]

theorem getColor_ofInts {r g b a : Nat} (hr : r < 256) (hg : g < 256) (hb : b < 256) (ha : a < 256) :
    getColor (ofInts r g b a) = some (pack r g b a) :=
  getColor_of (byte_trip r hr) (byte_trip g hg) (byte_trip b hb) (byte_trip a ha)

theorem table_bytes : ∀ e ∈ table, e.red < 256 ∧ e.green < 256 ∧ e.blue < 256 ∧ e.alpha < 256 := by
  decide +kernel

/-- Apart from "transparent", the table is the list of the specification. -/
theorem table_css : table.filter (fun e => e.name != b!"transparent") =
    cssColors.map (fun c => ⟨c.2 / 65536 % 256, c.2 / 256 % 256, c.2 % 256, 255, c.1⟩) := by
  decide +kernel

theorem table_transparent :
    table.filter (fun e => e.name == b!"transparent") = [⟨0, 0, 0, 0, b!"transparent"⟩] := by
  decide +kernel

theorem lookup_mem {α : Type} {n : Str} {v : α} {l : List (Str × α)} (h : l.lookup n = some v) :
    (n, v) ∈ l := by
  induction l with
  | nil => cases h
  | cons x t ih =>
    obtain ⟨k, w⟩ := x
    rw [List.lookup_cons] at h
    by_cases hk : n = k
    · subst hk
      simp at h
      simp [h]
    · have : (n == k) = false := by simp [hk]
      rw [this] at h
      exact List.mem_cons_of_mem _ (ih h)

theorem mem_of_css {n : Str} {v : Nat} (h : (n, v) ∈ cssColors) :
    (⟨v / 65536 % 256, v / 256 % 256, v % 256, 255, n⟩ : Entry) ∈ table := by
  have : (⟨v / 65536 % 256, v / 256 % 256, v % 256, 255, n⟩ : Entry) ∈
      table.filter (fun e => e.name != b!"transparent") := by
    rw [table_css]
    exact List.mem_map_of_mem (f := fun c : Str × Nat =>
      (⟨c.2 / 65536 % 256, c.2 / 256 % 256, c.2 % 256, 255, c.1⟩ : Entry)) h
  exact (List.mem_filter.1 this).1

theorem transparent_mem : (⟨0, 0, 0, 0, b!"transparent"⟩ : Entry) ∈ table := by
  have : (⟨0, 0, 0, 0, b!"transparent"⟩ : Entry) ∈
      table.filter (fun e => e.name == b!"transparent") := by
    rw [table_transparent]; simp
  exact (List.mem_filter.1 this).1

/-- Two entries with the same name are the same entry. -/
theorem table_unique {a b : Entry} (ha : a ∈ table) (hb : b ∈ table) (h : a.name = b.name) : a = b := by
  obtain ⟨i, hi⟩ := List.getElem?_of_mem ha
  obtain ⟨j, hj⟩ := List.getElem?_of_mem hb
  by_cases h1 : i < j
  · have := table_sorted i j a b h1 hi hj
    rw [h, strLt_irrefl] at this; cases this
  · by_cases h2 : j < i
    · have := table_sorted j i b a h2 hj hi
      rw [h, strLt_irrefl] at this; cases this
    · have : i = j := by omega
      subst this
      rw [hi] at hj
      cases hj
      rfl

/-- C20: set_color(name, true) succeeds exactly on the CSS color keywords and "transparent", and
get_color() then gives the value listed in the CSS specification. -/
theorem C20_names (name : Str) :
    (setName name true).map getColor = (cssBits name).map some := by
  unfold setName
  cases h : search table name table.length 0 table.length with
  | some e =>
    obtain ⟨h1, h2⟩ := search_iff name e h
    obtain ⟨a1, a2, a3, a4⟩ := table_bytes e h1
    dsimp only
    rw [Option.map_some, getColor_ofInts a1 a2 a3 a4]
    unfold cssBits
    by_cases ht : name = b!"transparent"
    · rw [if_pos ht]
      have := table_unique h1 transparent_mem (h2.trans ht)
      subst this
      rfl
    · rw [if_neg ht]
      have hm : e ∈ table.filter (fun e => e.name != b!"transparent") := by
        rw [List.mem_filter]
        exact ⟨h1, by rw [h2]; simpa using ht⟩
      rw [table_css, List.mem_map] at hm
      obtain ⟨⟨n, v⟩, hc, he⟩ := hm
      have hn : n = name := by rw [← h2, ← he]
      subst hn
      cases hl : cssColors.lookup n with
      | none =>
        exfalso
        have : ∀ (l : List (Str × Nat)), l.lookup n = none → (n, v) ∉ l := by
          intro l
          induction l with
          | nil => simp
          | cons x t ih =>
            obtain ⟨k, w⟩ := x
            intro hl hm
            rw [List.lookup_cons] at hl
            by_cases hk : n = k
            · subst hk; simp at hl
            · have hb : (n == k) = false := by simp [hk]
              rw [hb] at hl
              rcases List.mem_cons.1 hm with e | hm
              · cases e; exact hk rfl
              · exact ih hl hm
        exact this _ hl hc
      | some w =>
        have := table_unique h1 (mem_of_css (lookup_mem hl)) h2
        subst this
        rfl
  | none =>
    have hn := search_none name h
    dsimp only
    rw [if_pos rfl]
    have h1 : name ≠ b!"transparent" := fun e => hn _ transparent_mem e.symm
    unfold cssBits
    rw [if_neg h1]
    cases hl : cssColors.lookup name with
    | none => rfl
    | some v => exact absurd rfl (hn _ (mem_of_css (lookup_mem hl)))

/-! ### C21 -/

/-- C21: every 32 bit color survives set_color() / get_color(). -/
theorem C21_bytes (rgba : Nat) (h : rgba < 4294967296) : getColor (ofRgba rgba) = some rgba := by
  unfold ofRgba
  rw [getColor_ofInts (by omega) (by omega) (by omega) (by omega)]
  congr 1
  unfold pack
  omega

/-- The number a float stands for, in units of 2^-149; `none` for a NaN. -/
def value : Fp → Option Int
  | .fin neg m => some (signed neg m)
  | _ => none

theorem ofInt_one : ofInt f32 1 = .fin false (2 ^ 149) := by decide +kernel
theorem ofInt_zero : ofInt f32 0 = .fin false 0 := by decide +kernel
theorem ofInt_255 : ofInt f32 255 = .fin false (255 * 2 ^ 149) := by decide +kernel
theorem half_eq : div f32 (ofInt f32 1) (ofInt f32 2) = .fin false (2 ^ 148) := by decide +kernel

/-- The float operations of color_component_to_byte() in the open interval (0, 1). -/
theorem toByte_mid {m : Nat} (h0 : 0 < m) (h1 : m < 2 ^ 149) :
    toByte (.fin false m) =
      some ((roundMag 24 (roundMag 24 (m * (255 * 2 ^ 149)) (2 ^ 149) + 2 ^ 148) 1 / 2 ^ 149 : Nat) : Int) ∧
    roundMag 24 (roundMag 24 (m * (255 * 2 ^ 149)) (2 ^ 149) + 2 ^ 148) 1 ≤ 511 * 2 ^ 148 := by
  have m1 : roundMag 24 (m * (255 * 2 ^ 149)) (2 ^ 149) ≤ 255 * 2 ^ 149 := by
    have := roundMag_mono (prec := 24) (p := m * (255 * 2 ^ 149)) (q := 2 ^ 149)
      (p' := 255 * 2 ^ 149) (q' := 1) (by omega) (Nat.two_pow_pos _) (by omega)
      (by
        rw [Nat.mul_one, Nat.mul_comm (255 * 2 ^ 149) (2 ^ 149)]
        exact Nat.mul_le_mul_right _ (Nat.le_of_lt h1))
    have e : roundMag 24 (255 * 2 ^ 149) 1 = 255 * 2 ^ 149 := by decide +kernel
    omega
  have m2 : roundMag 24 (roundMag 24 (m * (255 * 2 ^ 149)) (2 ^ 149) + 2 ^ 148) 1 ≤ 511 * 2 ^ 148 := by
    have := roundMag_mono (prec := 24)
      (p := roundMag 24 (m * (255 * 2 ^ 149)) (2 ^ 149) + 2 ^ 148) (q := 1)
      (p' := 511 * 2 ^ 148) (q' := 1) (by omega) (by omega) (by omega)
      (by
        rw [Nat.mul_one, Nat.mul_one]
        have : 255 * 2 ^ 149 + 2 ^ 148 = 511 * 2 ^ 148 := by decide +kernel
        omega)
    have e : roundMag 24 (511 * 2 ^ 148) 1 = 511 * 2 ^ 148 := by decide +kernel
    omega
  refine ⟨?_, m2⟩
  have g1 : le (ofInt f32 1) (.fin false m) = false := by
    rw [ofInt_one]
    simp only [le, signed, decide_eq_false_iff_not, Bool.false_eq_true, if_false]
    omega
  have g2 : le (.fin false m) (ofInt f32 0) = false := by
    rw [ofInt_zero]
    simp only [le, signed, decide_eq_false_iff_not, Bool.false_eq_true, if_false]
    omega
  have big : 511 * 2 ^ 148 < 2 ^ (149 + 128) := by decide +kernel
  have e1 : mul f32 (.fin false m) (ofInt f32 255) =
      .fin false (roundMag 24 (m * (255 * 2 ^ 149)) (2 ^ 149)) := by
    rw [ofInt_255]
    show round f32 false _ _ = _
    unfold round
    rw [if_pos]
    · rfl
    · show roundMag 24 _ _ < 2 ^ (149 + 128)
      have : 255 * 2 ^ 149 < 2 ^ (149 + 128) := by decide +kernel
      exact Nat.lt_of_le_of_lt m1 this
  generalize hR : roundMag 24 (m * (255 * 2 ^ 149)) (2 ^ 149) = R at *
  have e2 : add f32 (.fin false R) (.fin false (2 ^ 148)) = .fin false (roundMag 24 (R + 2 ^ 148) 1) := by
    have hpos : 0 < 2 ^ 148 := Nat.two_pow_pos _
    generalize 2 ^ 148 = H at *
    have es : signed false R + signed false H = ((R + H : Nat) : Int) := by simp [signed]
    show (if signed false R + signed false H = 0 then _ else
      round f32 (decide (signed false R + signed false H < 0)) (signed false R + signed false H).natAbs 1) = _
    rw [es, if_neg (by omega), Int.natAbs_natCast]
    have : decide (((R + H : Nat) : Int) < 0) = false := by
      rw [decide_eq_false_iff_not]; omega
    rw [this]
    unfold round
    rw [if_pos]
    · rfl
    · exact Nat.lt_of_le_of_lt m2 big
  unfold toByte
  rw [g1, g2, half_eq, e1, e2]
  simp only [Bool.false_eq_true, if_false]
  show (if 0 ≤ signed false (roundMag 24 (R + 2 ^ 148) 1 / 2 ^ 149) ∧
      signed false (roundMag 24 (R + 2 ^ 148) 1 / 2 ^ 149) ≤ 255 then
      some (signed false (roundMag 24 (R + 2 ^ 148) 1 / 2 ^ 149)) else none) = _
  have hq : roundMag 24 (R + 2 ^ 148) 1 / 2 ^ 149 ≤ 255 := by
    have : 511 * 2 ^ 148 / 2 ^ 149 = 255 := by decide +kernel
    rw [← this]
    exact Nat.div_le_div_right m2
  simp only [signed, Bool.false_eq_true, if_false]
  rw [if_pos ⟨by omega, by omega⟩]

/-- C21 (clamp): for every float that is not a NaN, the conversion to a byte is defined and gives 0
to 255; it is 255 from 1.0 on, 0 from 0.0 down. -/
theorem C21_clamp (c : Fp) (h : c ≠ .nan) :
    ∃ b : Int, toByte c = some b ∧ 0 ≤ b ∧ b ≤ 255 ∧
      (le (ofInt f32 1) c = true → b = 255) ∧ (le c (ofInt f32 0) = true → b = 0) := by
  by_cases h1 : le (ofInt f32 1) c = true
  · refine ⟨255, by unfold toByte; rw [if_pos h1], by omega, by omega, fun _ => rfl, fun h2 => ?_⟩
    exfalso
    rw [ofInt_one] at h1
    rw [ofInt_zero] at h2
    cases c with
    | nan => exact h rfl
    | inf a => cases a <;> simp_all [le]
    | fin a m => simp only [le, signed, decide_eq_true_eq, Bool.false_eq_true, if_false] at h1 h2; omega
  · by_cases h2 : le c (ofInt f32 0) = true
    · exact ⟨0, by unfold toByte; rw [if_neg h1, if_pos h2], by omega, by omega,
        fun h => absurd h h1, fun _ => rfl⟩
    · cases c with
      | nan => exact absurd rfl h
      | inf a =>
        rw [ofInt_one] at h1
        rw [ofInt_zero] at h2
        cases a <;> simp [le] at h1 h2
      | fin a m =>
        rw [ofInt_one] at h1
        rw [ofInt_zero] at h2
        cases a with
        | true => simp [le, signed] at h2
        | false =>
          simp only [le, signed, decide_eq_true_eq, Bool.false_eq_true, if_false] at h1 h2
          have := toByte_mid (m := m) (by omega) (by omega)
          refine ⟨_, this.1, by omega, ?_, ?_, ?_⟩
          · have : roundMag 24 (roundMag 24 (m * (255 * 2 ^ 149)) (2 ^ 149) + 2 ^ 148) 1 / 2 ^ 149 ≤ 255 := by
              have e : 511 * 2 ^ 148 / 2 ^ 149 = 255 := by decide +kernel
              rw [← e]
              exact Nat.div_le_div_right this.2
            omega
          · intro h; rw [ofInt_one] at h; simp [le, signed] at h; omega
          · intro h; rw [ofInt_zero] at h; simp [le, signed] at h; omega

theorem le_fin_round {f : Fmt} {u p q : Nat} (h : u ≤ roundMag f.prec p q) :
    le (.fin false u) (round f false p q) = true := by
  unfold round
  split
  · simp only [le, signed, Bool.false_eq_true, if_false, decide_eq_true_eq]
    omega
  · rfl

theorem div_fin {f : Fmt} {R D : Nat} (h : D ≠ 0) :
    div f (.fin false R) (.fin false D) = round f false (R * 2 ^ f.scale) D := by
  unfold div
  dsimp only
  rw [if_neg h]
  rfl

theorem round_neg (f : Fmt) (p q : Nat) :
    (∃ m, round f true p q = .fin true m) ∨ round f true p q = .inf true := by
  unfold round
  split
  · exact .inl ⟨_, rfl⟩
  · exact .inr rfl

theorem component_neg {i : Int} (h : i < 0) :
    (∃ m, component i = .fin true m) ∨ component i = .inf true := by
  unfold component
  have e : ofInt f32 i = round f32 true (i.natAbs * 2 ^ f32.scale) 1 := by
    unfold ofInt
    rw [show decide (i < 0) = true by simpa using h]
  rw [e, ofInt_255]
  rcases round_neg f32 (i.natAbs * 2 ^ f32.scale) 1 with ⟨m, hm⟩ | hm
  · rw [hm]
    generalize hD : 255 * 2 ^ 149 = D
    have hD0 : D ≠ 0 := by rw [← hD]; decide +kernel
    unfold div
    dsimp only
    rw [if_neg hD0]
    exact round_neg f32 _ _
  · rw [hm]
    exact .inr rfl

theorem component_big {n : Nat} (h : 255 ≤ n) : le (ofInt f32 1) (component n) = true := by
  rw [ofInt_one]
  unfold component
  have e : ofInt f32 n = round f32 false (n * 2 ^ f32.scale) 1 := by
    unfold ofInt
    rw [show decide ((n : Int) < 0) = false by simp]
    rfl
  have e255 : roundMag f32.prec (255 * 2 ^ f32.scale) 1 = 255 * 2 ^ 149 := by decide +kernel
  have e1 : roundMag f32.prec (2 ^ 149) 1 = 2 ^ 149 := by decide +kernel
  have escale : 2 ^ f32.scale = 2 ^ 149 := by decide +kernel
  have hD0 : 255 * 2 ^ 149 ≠ 0 := by decide +kernel
  have m1 : 255 * 2 ^ 149 ≤ roundMag f32.prec (n * 2 ^ f32.scale) 1 := by
    rw [← e255]
    exact roundMag_mono (by decide) (by omega) (by omega)
      (Nat.mul_le_mul_right _ (Nat.mul_le_mul_right _ h))
  rw [e, ofInt_255]
  unfold round
  split
  · generalize roundMag f32.prec (n * 2 ^ f32.scale) 1 = R at m1
    rw [div_fin hD0]
    apply le_fin_round
    rw [escale]
    have hu : 0 < 2 ^ 149 := Nat.two_pow_pos _
    have := roundMag_mono (prec := f32.prec) (p := 2 ^ 149) (q := 1) (p' := R * 2 ^ 149)
      (q' := 255 * 2 ^ 149) (by decide) (by omega) (by omega)
      (by
        rw [Nat.mul_one, Nat.mul_comm R]
        exact Nat.mul_le_mul_left _ m1)
    rwa [e1] at this
  · rfl

theorem toByte_one {c : Fp} (h : le (ofInt f32 1) c = true) : toByte c = some 255 := by
  unfold toByte
  rw [if_pos h]

theorem toByte_zero {c : Fp} (h1 : le (ofInt f32 1) c = false) (h : le c (ofInt f32 0) = true) :
    toByte c = some 0 := by
  unfold toByte
  rw [if_neg (by simp [h1]), if_pos h]

theorem le_neg (u m : Nat) (hu : 0 < u) : le (.fin false u) (.fin true m) = false ∧
    le (.fin true m) (.fin false 0) = true := by
  simp only [le, signed, decide_eq_true_eq, decide_eq_false_iff_not, Bool.false_eq_true, if_false, if_true]
  omega

/-- C21 (integers): the overload taking ints accepts any int; get_color() then gives the byte, or
the closest of 0 and 255. -/
theorem C21_ints (i : Int) :
    toByte (component i) = some (if i < 0 then 0 else if 255 < i then 255 else i) := by
  by_cases h0 : i < 0
  · rw [if_pos h0]
    rcases component_neg h0 with ⟨m, hc⟩ | hc
    · rw [hc]
      have := le_neg (2 ^ 149) m (Nat.two_pow_pos _)
      exact toByte_zero (by rw [ofInt_one]; exact this.1) (by rw [ofInt_zero]; exact this.2)
    · rw [hc]
      exact toByte_zero (by rw [ofInt_one]; rfl) (by rw [ofInt_zero]; rfl)
  · rw [if_neg h0]
    obtain ⟨n, rfl⟩ := Int.eq_ofNat_of_zero_le (show 0 ≤ i by omega)
    by_cases h1 : 255 < (n : Int)
    · rw [if_pos h1]
      exact toByte_one (component_big (by omega))
    · rw [if_neg h1]
      exact byte_trip n (by omega)

/-! ### C22 -/

theorem trip_255 : toByte (component 255) = some ((255 : Nat) : Int) := by decide +kernel

/-- How an expression reads a color: expr_unary.cpp:247 for a hash ('#' and a name), 295 for an
identifier. -/
def readColor : Str → Option Color
  | 35 :: h => setName h false
  | n => setName n true

theorem table_not_hex : ∀ e ∈ table, e.name.all Lex.isHex = true → e.name.length ≠ 3 ∧ e.name.length ≠ 6 := by
  decide +kernel

theorem search_hex {name : Str} (h : name.all Lex.isHex = true) (hl : name.length = 3 ∨ name.length = 6) :
    search table name table.length 0 table.length = none := by
  cases hs : search table name table.length 0 table.length with
  | none => rfl
  | some e =>
    obtain ⟨h1, h2⟩ := search_iff name e hs
    have := table_not_hex e h1 (by rw [h2]; exact h)
    rw [h2] at this
    omega

theorem hexDigit_isHex : ∀ d, d < 16 → Lex.isHex (hexDigit d) = true ∧ Lex.hexVal (hexDigit d) = d := by
  decide

theorem read_name {n : Str} {v : Nat} (h : n.head? ≠ some 35) (hv : cssBits n = some v) :
    ∃ c, readColor n = some c ∧ getColor c = some v := by
  have e : readColor n = setName n true := by
    unfold readColor
    split
    · simp at h
    · rfl
  have := C20_names n
  rw [hv] at this
  rw [e]
  cases hs : setName n true with
  | none => rw [hs] at this; cases this
  | some c =>
    rw [hs] at this
    simp at this
    exact ⟨c, rfl, this⟩

theorem read_hex3 {r g b : Nat} (hr : r < 16) (hg : g < 16) (hb : b < 16) :
    readColor [35, hexDigit r, hexDigit g, hexDigit b] =
      some (ofInts (r * 17 : Nat) (g * 17 : Nat) (b * 17 : Nat) 255) := by
  obtain ⟨r1, r2⟩ := hexDigit_isHex r hr
  obtain ⟨g1, g2⟩ := hexDigit_isHex g hg
  obtain ⟨b1, b2⟩ := hexDigit_isHex b hb
  show setName [hexDigit r, hexDigit g, hexDigit b] false = _
  unfold setName
  rw [search_hex (by simp [r1, g1, b1]) (.inl rfl)]
  dsimp only
  rw [if_neg (by simp), r1, g1, b1, r2, g2, b2]
  rfl

theorem read_hex6 {r g b : Nat} (hr : r < 256) (hg : g < 256) (hb : b < 256) :
    readColor (35 :: (hex2 r ++ hex2 g ++ hex2 b)) = some (ofInts r g b 255) := by
  obtain ⟨r1, r2⟩ := hexDigit_isHex (r / 16) (by omega)
  obtain ⟨g1, g2⟩ := hexDigit_isHex (g / 16) (by omega)
  obtain ⟨b1, b2⟩ := hexDigit_isHex (b / 16) (by omega)
  obtain ⟨r3, r4⟩ := hexDigit_isHex (r % 16) (by omega)
  obtain ⟨g3, g4⟩ := hexDigit_isHex (g % 16) (by omega)
  obtain ⟨b3, b4⟩ := hexDigit_isHex (b % 16) (by omega)
  show setName [hexDigit (r / 16), hexDigit (r % 16), hexDigit (g / 16), hexDigit (g % 16),
    hexDigit (b / 16), hexDigit (b % 16)] false = _
  unfold setName
  rw [search_hex (by simp [r1, g1, b1, r3, g3, b3]) (.inr rfl)]
  dsimp only
  rw [if_neg (by simp), r1, g1, b1, r3, g3, b3, r2, g2, b2, r4, g4, b4,
    show r / 16 * 16 + r % 16 = r by omega, show g / 16 * 16 + g % 16 = g by omega,
    show b / 16 * 16 + b % 16 = b by omega]
  rfl

/-- C22: whatever the three bytes, the text of the opaque color is read back as the same color and
takes at most 7 characters. -/
theorem C22_opaque (r g b : Nat) (hr : r < 256) (hg : g < 256) (hb : b < 256) :
    (∃ c, readColor (opaqueText r g b) = some c ∧ getColor c = some (pack r g b 255)) ∧
    (opaqueText r g b).length ≤ 7 := by
  have key : ∀ (n : Str) (x y z : Nat), n.head? ≠ some 35 → cssBits n = some (pack x y z 255) →
      n.length ≤ 7 → (r, g, b) = (x, y, z) →
      (∃ c, readColor n = some c ∧ getColor c = some (pack r g b 255)) ∧ n.length ≤ 7 := by
    intro n x y z h1 h2 h3 h4
    cases h4
    exact ⟨read_name h1 h2, h3⟩
  unfold opaqueText
  by_cases h : (r, g, b) = (192, 192, 192)
  · rw [if_pos h]; exact key _ _ _ _ (by decide) (by decide +kernel) (by decide) h
  rw [if_neg h]
  clear h
  by_cases h : (r, g, b) = (128, 128, 128)
  · rw [if_pos h]; exact key _ _ _ _ (by decide) (by decide +kernel) (by decide) h
  rw [if_neg h]
  clear h
  by_cases h : (r, g, b) = (128, 0, 0)
  · rw [if_pos h]; exact key _ _ _ _ (by decide) (by decide +kernel) (by decide) h
  rw [if_neg h]
  clear h
  by_cases h : (r, g, b) = (255, 0, 0)
  · rw [if_pos h]; exact key _ _ _ _ (by decide) (by decide +kernel) (by decide) h
  rw [if_neg h]
  clear h
  by_cases h : (r, g, b) = (128, 0, 128)
  · rw [if_pos h]; exact key _ _ _ _ (by decide) (by decide +kernel) (by decide) h
  rw [if_neg h]
  clear h
  by_cases h : (r, g, b) = (0, 128, 0)
  · rw [if_pos h]; exact key _ _ _ _ (by decide) (by decide +kernel) (by decide) h
  rw [if_neg h]
  clear h
  by_cases h : (r, g, b) = (0, 255, 0)
  · rw [if_pos h]; exact key _ _ _ _ (by decide) (by decide +kernel) (by decide) h
  rw [if_neg h]
  clear h
  by_cases h : (r, g, b) = (128, 128, 0)
  · rw [if_pos h]; exact key _ _ _ _ (by decide) (by decide +kernel) (by decide) h
  rw [if_neg h]
  clear h
  by_cases h : (r, g, b) = (0, 0, 128)
  · rw [if_pos h]; exact key _ _ _ _ (by decide) (by decide +kernel) (by decide) h
  rw [if_neg h]
  clear h
  by_cases h : (r, g, b) = (0, 0, 255)
  · rw [if_pos h]; exact key _ _ _ _ (by decide) (by decide +kernel) (by decide) h
  rw [if_neg h]
  clear h
  by_cases h : (r, g, b) = (0, 128, 128)
  · rw [if_pos h]; exact key _ _ _ _ (by decide) (by decide +kernel) (by decide) h
  rw [if_neg h]
  clear h
  by_cases h : (r, g, b) = (0, 255, 255)
  · rw [if_pos h]; exact key _ _ _ _ (by decide) (by decide +kernel) (by decide) h
  rw [if_neg h]
  clear h
  by_cases h : r / 16 = r % 16 ∧ g / 16 = g % 16 ∧ b / 16 = b % 16
  · rw [if_pos h]
    refine ⟨⟨_, read_hex3 (by omega) (by omega) (by omega), ?_⟩, by simp⟩
    rw [show r % 16 * 17 = r by omega, show g % 16 * 17 = g by omega, show b % 16 * 17 = b by omega]
    exact getColor_of (byte_trip r hr) (byte_trip g hg) (byte_trip b hb) trip_255
  · rw [if_neg h]
    exact ⟨⟨_, read_hex6 hr hg hb, getColor_of (byte_trip r hr) (byte_trip g hg) (byte_trip b hb) trip_255⟩, by simp [hex2]⟩

/-- C22: for every color whose components are numbers (not NaN) and that is opaque, to_string() gives
a text of at most 7 characters which reads back as a color with the same get_color(); when the
alpha is zero the text is "transparent" (the other components are lost). -/
theorem C22_reread (c : Color) (col : Nat) (hc : getColor c = some col) :
    (col / 16777216 % 256 = 255 → ∃ t c', toString c = some t ∧ t.length ≤ 7 ∧
      readColor t = some c' ∧ getColor c' = some (col % 4294967296)) ∧
    (col / 16777216 % 256 = 0 → toString c = some b!"transparent") := by
  unfold toString
  rw [hc]
  dsimp only
  refine ⟨fun h => ?_, fun h => ?_⟩
  · rw [if_pos h]
    obtain ⟨⟨c', h1, h2⟩, h3⟩ := C22_opaque (col % 256) (col / 256 % 256) (col / 65536 % 256)
      (by omega) (by omega) (by omega)
    refine ⟨_, c', rfl, h3, h1, ?_⟩
    rw [h2]
    congr 1
    unfold pack
    omega
  · rw [if_neg (by omega), if_pos h]

/-- get_color() is defined for every color without NaN, and gives a 32 bit value. -/
theorem C21_defined (c : Color) (h1 : c.red ≠ .nan) (h2 : c.green ≠ .nan) (h3 : c.blue ≠ .nan)
    (h4 : c.alpha ≠ .nan) : ∃ col, getColor c = some col ∧ col < 4294967296 := by
  obtain ⟨r, r1, r2, r3, _⟩ := C21_clamp c.red h1
  obtain ⟨g, g1, g2, g3, _⟩ := C21_clamp c.green h2
  obtain ⟨b, b1, b2, b3, _⟩ := C21_clamp c.blue h3
  obtain ⟨a, a1, a2, a3, _⟩ := C21_clamp c.alpha h4
  unfold getColor
  rw [r1, g1, b1, a1]
  refine ⟨_, rfl, ?_⟩
  unfold pack
  omega

/-! ### concrete cases -/

example : (setName b!"tomato" true).map getColor = some (some 0xff4763ff) := by decide +kernel
example : setName b!"tomatoe" true = none := by decide +kernel
example : toString (ofInts 18 52 86 255) = some b!"#123456" := by decide +kernel
example : toString (ofInts 17 34 51 255) = some b!"#123" := by decide +kernel
example : toString (ofInts 300 (-5) 51 128) = some b!"rgba(255,0,51,.5)" := by decide +kernel

end Csspp.Color
