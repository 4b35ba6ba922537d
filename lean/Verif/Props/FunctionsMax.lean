import Verif.Props.FunctionsNum
import Verif.Spec.Arguments
import Verif.Lemmas.Flt

/-!
C73 (sign) and C74: max() and min().
-/

namespace Csspp.Func
open Csspp.Flt Csspp.Expr Csspp.Spec

variable {α : Type}

theorem lit_zero : lit 0 = .fin false 0 := by unfold lit; decide +kernel
theorem lit_one : lit 1 = .fin false S := by unfold lit S; decide +kernel
theorem lit_neg_one : lit (-1) = .fin true S := by unfold lit S; decide +kernel

/-- The sign of an integer is the sign of the double it becomes. -/
theorem double_sign (i : Int) :
    (lt (toDouble i) (lit 0) = decide (i < 0)) ∧ (lt (lit 0) (toDouble i) = decide (0 < i)) := by
  rw [lit_zero]
  unfold toDouble ofInt round
  have hm : i ≠ 0 → roundMag f64.prec (i.natAbs * 2 ^ f64.scale) 1 ≠ 0 := by
    intro hi h0
    have h1 : i.natAbs * 2 ^ f64.scale / 1 ≠ 0 := by
      rw [Nat.div_one]
      exact Nat.mul_ne_zero (by omega) (Nat.ne_of_gt (Nat.two_pow_pos _))
    have := pow_le_roundMag (prec := f64.prec) Nat.one_pos (by decide) h1
    have h2 := Nat.two_pow_pos (i.natAbs * 2 ^ f64.scale / 1).log2
    omega
  have hz : i = 0 → roundMag f64.prec (i.natAbs * 2 ^ f64.scale) 1 = 0 := by
    rintro rfl
    rw [show Int.natAbs 0 = 0 from rfl, Nat.zero_mul]
    rfl
  generalize roundMag f64.prec (i.natAbs * 2 ^ f64.scale) 1 = m at hm hz
  by_cases hi : i < 0
  · have hm := hm (by omega)
    rw [decide_eq_true hi, decide_eq_false (by omega : ¬ 0 < i)]
    split
    · unfold lt signed
      simp
      omega
    · exact ⟨rfl, rfl⟩
  · rw [decide_eq_false hi]
    split
    · unfold lt signed
      refine ⟨by simp, ?_⟩
      by_cases h0 : i = 0
      · rw [hz h0, h0]
        rfl
      · have hm := hm h0
        simp
        omega
    · rename_i h
      by_cases h0 : i = 0
      · rw [hz h0] at h
        exact absurd (Nat.two_pow_pos _) h
      · refine ⟨rfl, ?_⟩
        rw [decide_eq_true (by omega : 0 < i)]
        rfl

theorem sign_fin (b : Bool) (m : Nat) :
    (if lt (.fin b m) (lit 0) then lit (-1) else if lt (lit 0) (.fin b m) then lit 1 else lit 0) =
      if signed b m < 0 then .fin true S else if 0 < signed b m then .fin false S else .fin false 0 := by
  rw [lit_zero, lit_one, lit_neg_one]
  unfold lt
  show (if decide (signed b m < 0) = true then _ else if decide (0 < signed b m) = true then _ else _) = _
  simp only [decide_eq_true_eq]

theorem sign_quanta (x : Fp) (hx : Finite x) :
    quanta (if lt x (lit 0) then lit (-1) else if lt (lit 0) x then lit 1 else lit 0) = (quanta x).sign * unity := by
  rw [unity_eq]
  cases x with
  | nan => exact absurd hx id
  | inf b => exact absurd hx id
  | fin b m =>
    rw [sign_fin]
    have hq : quanta (.fin b m) = signed b m := by cases b <;> rfl
    rw [hq]
    by_cases h1 : signed b m < 0
    · rw [if_pos h1, Int.sign_eq_neg_one_of_neg h1]
      show -(S : Int) = _
      omega
    · rw [if_neg h1]
      by_cases h2 : 0 < signed b m
      · rw [if_pos h2, Int.sign_eq_one_of_pos h2]
        show (S : Int) = _
        omega
      · rw [if_neg h2, show signed b m = 0 by omega]
        exact (Int.zero_mul _).symm

/-- C73: sign() is 1, 0 or -1, with the unit and the type of its parameter. -/
theorem C73_sign (env : Env α) (n : Int) (unit : Str) :
    (∀ i : Int, call env n b!"sign" [[.int i unit]] = (.ok (.node (.int i.sign unit)) [], n)) ∧
    (∀ x, Finite x → ∃ y, call env n b!"sign" [[.dec x unit]] = (.ok (.node (.dec y unit)) [], n) ∧
      quanta y = (quanta x).sign * unity) ∧
    (∀ x, Finite x → ∃ y, call env n b!"sign" [[.pct x]] = (.ok (.node (.pct y)) [], n) ∧
      quanta y = (quanta x).sign * unity) := by
  refine ⟨?_, ?_, ?_⟩
  · intro i
    show (val (.int (if lt (toDouble i) (lit 0) then -1 else if lt (lit 0) (toDouble i) then 1 else 0) unit), n) = _
    obtain ⟨h1, h2⟩ := double_sign i
    rw [h1, h2]
    have : (if decide (i < 0) = true then (-1 : Int) else if decide (0 < i) = true then 1 else 0) = i.sign := by
      simp only [decide_eq_true_eq]
      split
      · rename_i h
        exact (Int.sign_eq_neg_one_of_neg h).symm
      split
      · rename_i h
        exact (Int.sign_eq_one_of_pos h).symm
      · rw [show i = 0 by omega]
        rfl
    rw [this]
    rfl
  · intro x hx
    exact ⟨_, rfl, sign_quanta x hx⟩
  · intro x hx
    exact ⟨_, rfl, sign_quanta x hx⟩

/-! ### C74 -/

theorem getNumberPct_arg (a : List (Val α)) :
    match getNumberPct [a] 0 with
    | some (v, r) => a = [v] ∧ argNumber a = some r ∧ unitPct v = argUnit a
    | none => argNumber a = none := by
  match a with
  | [] => rfl
  | [.int _ _] => exact ⟨rfl, rfl, rfl⟩
  | [.dec _ _] => exact ⟨rfl, rfl, rfl⟩
  | [.pct _] => exact ⟨rfl, rfl, rfl⟩
  | [.str _] => rfl
  | [.color _] => rfl
  | [.bool _] => rfl
  | [.null] => rfl
  | [.range _] => rfl
  | [.ident _] => rfl
  | [.array _] => rfl
  | [.map _] => rfl
  | [.font _ _ _ _] => rfl
  | [.other _ _] => rfl
  | _ :: _ :: _ =>
    show argNumber _ = none
    unfold argNumber
    split <;> first | rfl | (rename_i h; cases h)

/-- The messages of max() and min() about an argument after the first one. -/
def complaint (name unit : Str) (a : List (Val α)) : List Msg :=
  match argNumber a with
  | none => [.expects name]
  | some _ => if argUnit a = unit then [] else [.sameUnit name]

/-- A strict order on the doubles, NaN apart. -/
structure Strict (better : Fp → Fp → Bool) : Prop where
  asymm : ∀ {a b}, better a b = true → better b a = false
  trans : ∀ {a b c}, better a b = true → better b c = true → better a c = true
  split : ∀ {a b c}, b ≠ .nan → better a c = true → better b c = false → better a b = true

theorem lt_asymm' {a b : Fp} (h : lt a b = true) : lt b a = false := by
  cases a <;> cases b <;> simp_all [lt] <;> omega

theorem lt_trans' {a b c : Fp} (h : lt a b = true) (h' : lt b c = true) : lt a c = true := by
  cases a <;> cases b <;> cases c <;> simp_all [lt] <;> omega

theorem lt_split1 {a b c : Fp} (hb : b ≠ .nan) (h : lt a c = true) (h' : lt b c = false) : lt a b = true := by
  cases a <;> cases b <;> cases c <;> simp_all [lt] <;> try omega

theorem lt_split2 {a b c : Fp} (hb : b ≠ .nan) (h : lt c a = true) (h' : lt c b = false) : lt b a = true := by
  cases a <;> cases b <;> cases c <;> simp_all [lt] <;> omega

theorem le_of_not_lt {a b : Fp} (ha : a ≠ .nan) (hb : b ≠ .nan) (h : lt a b = false) : le b a = true := by
  cases a <;> cases b <;> simp_all [lt, le] <;> first | omega | (rename_i x y; cases x <;> cases y <;> simp_all)

theorem strict_min : Strict (fun r m => lt r m) := ⟨lt_asymm', lt_trans', lt_split1⟩
theorem strict_max : Strict (fun r m => lt m r) := ⟨lt_asymm', fun h h' => lt_trans' h' h, lt_split2⟩

/-- The numbers of the arguments are not NaN. -/
def NoNan (args : Args α) : Prop := ∀ a ∈ args, ∀ y, argNumber a = some y → y ≠ .nan

theorem extremum_rest {better : Fp → Fp → Bool} (hs : Strict better) (name : Str) :
    ∀ (rest : Args α) (v : Option (Val α)) (m : Fp) (dim : Str), NoNan rest →
    (extremum name better rest false v m dim).2 = rest.flatMap (complaint name dim) ∧
    (((∀ a ∈ rest, ∀ y, argNumber a = some y → better y m = false) ∧ (extremum name better rest false v m dim).1 = v) ∨
     ∃ (k : Nat) (w : Val α) (x : Fp), rest[k]? = some [w] ∧ argNumber [w] = some x ∧ better x m = true ∧
       (extremum name better rest false v m dim).1 = some w ∧
       (∀ a ∈ rest, ∀ y, argNumber a = some y → better y x = false) ∧
       ∀ j < k, ∀ a, rest[j]? = some a → ∀ y, argNumber a = some y → better x y = true)
  | [], v, m, dim, _ => by
    refine ⟨rfl, .inl ⟨fun _ h => (nomatch h), rfl⟩⟩
  | a :: rest, v, m, dim, hn => by
    have hn' : NoNan rest := fun b hb => hn b (List.mem_cons_of_mem _ hb)
    have ha := getNumberPct_arg a
    unfold extremum
    split at ha
    · rename_i w r e
      obtain ⟨rfl, hr, hu⟩ := ha
      rw [e]
      dsimp only
      have hrn : r ≠ .nan := hn _ (List.mem_cons_self ..) _ hr
      have hes : (if false = true ∨ dim = unitPct w then [] else [Msg.sameUnit name]) = complaint name dim [w] := by
        unfold complaint
        rw [hr, hu]
        dsimp only
        by_cases h : argUnit [w] = dim
        · rw [if_pos h, if_pos (.inr h.symm)]
        · rw [if_neg h, if_neg (by simp [Ne.symm h])]
      rw [hes, if_neg (by simp : ¬ false = true)]
      by_cases hb : better r m = true
      · rw [if_pos (.inr hb)]
        obtain ⟨i1, i2⟩ := extremum_rest hs name rest (some w) r dim hn'
        refine ⟨?_, .inr ?_⟩
        · show complaint name dim [w] ++ (extremum name better rest false (some w) r dim).2 = _
          rw [i1]
          rfl
        · rcases i2 with ⟨i2, i3⟩ | ⟨k, z, x, h1, h2, h3, h4, h5, h6⟩
          · refine ⟨0, w, r, rfl, hr, hb, i3, ?_, fun j hj => absurd hj (Nat.not_lt_zero j)⟩
            intro b hb' y hy
            cases hb' with
            | head =>
              rw [hr] at hy
              injection hy with hy
              subst hy
              cases h : better r r with
              | false => rfl
              | true => exact h.symm.trans (hs.asymm h)
            | tail _ hb' => exact i2 b hb' y hy
          · refine ⟨k + 1, z, x, h1, h2, hs.trans h3 hb, h4, ?_, ?_⟩
            · intro b hb' y hy
              cases hb' with
              | head =>
                rw [hr] at hy
                injection hy with hy
                subst hy
                exact hs.asymm h3
              | tail _ hb' => exact h5 b hb' y hy
            · intro j hj b hb' y hy
              cases j with
              | zero =>
                injection hb' with hb'
                subst hb'
                rw [hr] at hy
                injection hy with hy
                subst hy
                exact h3
              | succ j => exact h6 j (by omega) b hb' y hy
      · rw [if_neg (by simp [hb])]
        have hb := Bool.eq_false_iff.mpr hb
        obtain ⟨i1, i2⟩ := extremum_rest hs name rest v m dim hn'
        refine ⟨?_, ?_⟩
        · show complaint name dim [w] ++ (extremum name better rest false v m dim).2 = _
          rw [i1]
          rfl
        · rcases i2 with ⟨i2, i3⟩ | ⟨k, z, x, h1, h2, h3, h4, h5, h6⟩
          · refine .inl ⟨?_, i3⟩
            intro b hb' y hy
            cases hb' with
            | head =>
              rw [hr] at hy
              injection hy with hy
              subst hy
              exact hb
            | tail _ hb' => exact i2 b hb' y hy
          · have hxr : better x r = true := hs.split hrn h3 hb
            refine .inr ⟨k + 1, z, x, h1, h2, h3, h4, ?_, ?_⟩
            · intro b hb' y hy
              cases hb' with
              | head =>
                rw [hr] at hy
                injection hy with hy
                subst hy
                exact hs.asymm hxr
              | tail _ hb' => exact h5 b hb' y hy
            · intro j hj b hb' y hy
              cases j with
              | zero =>
                injection hb' with hb'
                subst hb'
                rw [hr] at hy
                injection hy with hy
                subst hy
                exact hxr
              | succ j => exact h6 j (by omega) b hb' y hy
    · rename_i e
      rw [e]
      dsimp only
      obtain ⟨i1, i2⟩ := extremum_rest hs name rest v m dim hn'
      refine ⟨?_, ?_⟩
      · show Msg.expects name :: (extremum name better rest false v m dim).2 = _
        rw [i1, List.flatMap_cons]
        unfold complaint
        rw [ha]
        rfl
      · rcases i2 with ⟨i2, i3⟩ | ⟨k, z, x, h1, h2, h3, h4, h5, h6⟩
        · refine .inl ⟨?_, i3⟩
          intro b hb' y hy
          cases hb' with
          | head => rw [ha] at hy; cases hy
          | tail _ hb' => exact i2 b hb' y hy
        · refine .inr ⟨k + 1, z, x, h1, h2, h3, h4, ?_, ?_⟩
          · intro b hb' y hy
            cases hb' with
            | head => rw [ha] at hy; cases hy
            | tail _ hb' => exact h5 b hb' y hy
          · intro j hj b hb' y hy
            cases j with
            | zero =>
              injection hb' with hb'
              subst hb'
              rw [ha] at hy
              cases hy
            | succ j => exact h6 j (by omega) b hb' y hy

/-- The whole loop, when the first argument is a number. -/
theorem extremum_number {better : Fp → Fp → Bool} (hs : Strict better) (name : Str) (v0 : Val α) (x0 : Fp)
    (h0 : argNumber [v0] = some x0) (rest : Args α) (hn : NoNan ([v0] :: rest)) :
    ∃ (k : Nat) (v : Val α) (x : Fp), ([v0] :: rest)[k]? = some [v] ∧ argNumber [v] = some x ∧
      fExtremum name better ([v0] :: rest) = .ok (.node v) (rest.flatMap (complaint name (argUnit [v0]))) ∧
      (∀ a ∈ [v0] :: rest, ∀ y, argNumber a = some y → better y x = false) ∧
      ∀ j < k, ∀ a, ([v0] :: rest)[j]? = some a → ∀ y, argNumber a = some y → better x y = true := by
  have hn' : NoNan rest := fun b hb => hn b (List.mem_cons_of_mem _ hb)
  have ha := getNumberPct_arg [v0]
  split at ha
  · rename_i w r e
    obtain ⟨ew, hr, hu⟩ := ha
    injection ew with ew _
    subst ew
    rw [h0] at hr
    injection hr with hr
    subst hr
    obtain ⟨i1, i2⟩ := extremum_rest hs name rest (some v0) x0 (argUnit [v0]) hn'
    have he : extremum name better ([v0] :: rest) true none (lit 0) [] =
        extremum name better rest false (some v0) x0 (argUnit [v0]) := by
      conv => lhs; unfold extremum
      rw [e]
      dsimp only
      rw [if_pos (Or.inl rfl), if_pos (Or.inl rfl), if_pos rfl, hu]
      rfl
    unfold fExtremum
    rw [he]
    rcases i2 with ⟨i2, i3⟩ | ⟨k, z, x, h1, h2, h3, h4, h5, h6⟩
    · refine ⟨0, v0, x0, rfl, h0, ?_, ?_, fun j hj => absurd hj (Nat.not_lt_zero j)⟩
      · generalize hg : extremum name better rest false (some v0) x0 (argUnit [v0]) = p at *
        obtain ⟨p1, p2⟩ := p
        dsimp only at i1 i3
        subst i1 i3
        rfl
      · intro b hb' y hy
        cases hb' with
        | head =>
          rw [h0] at hy
          injection hy with hy
          subst hy
          cases h : better x0 x0 with
          | false => rfl
          | true => exact h.symm.trans (hs.asymm h)
        | tail _ hb' => exact i2 b hb' y hy
    · refine ⟨k + 1, z, x, h1, h2, ?_, ?_, ?_⟩
      · generalize hg : extremum name better rest false (some v0) x0 (argUnit [v0]) = p at *
        obtain ⟨p1, p2⟩ := p
        dsimp only at i1 h4
        subst i1 h4
        rfl
      · intro b hb' y hy
        cases hb' with
        | head =>
          rw [h0] at hy
          injection hy with hy
          subst hy
          exact hs.asymm h3
        | tail _ hb' => exact h5 b hb' y hy
      · intro j hj b hb' y hy
        cases j with
        | zero =>
          injection hb' with hb'
          subst hb'
          rw [h0] at hy
          injection hy with hy
          subst hy
          exact h3
        | succ j => exact h6 j (by omega) b hb' y hy
  · rw [h0] at ha
    cases ha

/-- The whole loop, when the first argument is not a number. -/
theorem extremum_other_first {better : Fp → Fp → Bool} (hs : Strict better) (name : Str) (a0 : List (Val α))
    (h0 : argNumber a0 = none) (rest : Args α) (hn : NoNan rest) :
    ((∀ a ∈ rest, ∀ y, argNumber a = some y → better y (lit 0) = false) ∧
      fExtremum name better (a0 :: rest) = .ok .null (.expects name :: rest.flatMap (complaint name []))) ∨
    ∃ (v : Val α) (x : Fp), [v] ∈ rest ∧ argNumber [v] = some x ∧ better x (lit 0) = true ∧
      fExtremum name better (a0 :: rest) = .ok (.node v) (.expects name :: rest.flatMap (complaint name [])) ∧
      ∀ a ∈ rest, ∀ y, argNumber a = some y → better y x = false := by
  have ha := getNumberPct_arg a0
  split at ha
  · rw [h0] at ha
    cases ha.2.1
  · rename_i e
    obtain ⟨i1, i2⟩ := extremum_rest hs name rest none (lit 0) [] hn
    have he : extremum name better (a0 :: rest) true none (lit 0) [] =
        ((extremum name better rest false none (lit 0) []).1,
          Msg.expects name :: (extremum name better rest false none (lit 0) []).2) := by
      conv => lhs; unfold extremum
      rw [e]
    unfold fExtremum
    rw [he]
    generalize hg : extremum name better rest false none (lit 0) [] = p at *
    obtain ⟨p1, p2⟩ := p
    dsimp only at i1 i2 ⊢
    rcases i2 with ⟨i2, i3⟩ | ⟨k, z, x, h1, h2, h3, h4, h5, h6⟩
    · subst i1 i3
      exact .inl ⟨i2, rfl⟩
    · subst i1 h4
      exact .inr ⟨z, x, List.mem_of_getElem? h1, h2, h3, rfl, h5⟩

/-- C74: max() of arguments whose first one is a number (or a percentage): the first of the largest numbers, as it was written.
One message for each argument which is not a number, one for each number with another unit than the first one; the numbers
with another unit are compared all the same. -/
theorem C74_max (env : Env α) (n : Int) (v0 : Val α) (x0 : Fp) (h0 : argNumber [v0] = some x0) (rest : Args α)
    (hl : rest.length < 2147483647) (hn : NoNan ([v0] :: rest)) :
    ∃ (k : Nat) (v : Val α) (x : Fp), ([v0] :: rest)[k]? = some [v] ∧ argNumber [v] = some x ∧
      call env n b!"max" ([v0] :: rest) =
        (.ok (.node v) (rest.flatMap (complaint b!"max" (argUnit [v0]))), n) ∧
      (∀ a ∈ [v0] :: rest, ∀ y, argNumber a = some y → le y x = true) ∧
      ∀ j < k, ∀ a, ([v0] :: rest)[j]? = some a → ∀ y, argNumber a = some y → lt y x = true := by
  obtain ⟨k, v, x, h1, h2, h3, h4, h5⟩ := extremum_number strict_max b!"max" v0 x0 h0 rest hn
  refine ⟨k, v, x, h1, h2, ?_, ?_, h5⟩
  · show (if 1 ≤ ([v0] :: rest).length ∧ ([v0] :: rest).length ≤ 2147483647 then
      (fExtremum b!"max" (fun r m => lt m r) ([v0] :: rest), n) else _) = _
    rw [if_pos ⟨by simp, Nat.succ_le_of_lt hl⟩, h3]
  · intro a ha y hy
    exact le_of_not_lt (hn [v] (List.mem_of_getElem? h1) x h2) (hn a ha y hy) (h4 a ha y hy)

/-- C74: the same of min(), with the smallest. -/
theorem C74_min (env : Env α) (n : Int) (v0 : Val α) (x0 : Fp) (h0 : argNumber [v0] = some x0) (rest : Args α)
    (hl : rest.length < 2147483647) (hn : NoNan ([v0] :: rest)) :
    ∃ (k : Nat) (v : Val α) (x : Fp), ([v0] :: rest)[k]? = some [v] ∧ argNumber [v] = some x ∧
      call env n b!"min" ([v0] :: rest) =
        (.ok (.node v) (rest.flatMap (complaint b!"min" (argUnit [v0]))), n) ∧
      (∀ a ∈ [v0] :: rest, ∀ y, argNumber a = some y → le x y = true) ∧
      ∀ j < k, ∀ a, ([v0] :: rest)[j]? = some a → ∀ y, argNumber a = some y → lt x y = true := by
  obtain ⟨k, v, x, h1, h2, h3, h4, h5⟩ := extremum_number strict_min b!"min" v0 x0 h0 rest hn
  refine ⟨k, v, x, h1, h2, ?_, ?_, h5⟩
  · show (if 1 ≤ ([v0] :: rest).length ∧ ([v0] :: rest).length ≤ 2147483647 then
      (fExtremum b!"min" (fun r m => lt r m) ([v0] :: rest), n) else _) = _
    rw [if_pos ⟨by simp, Nat.succ_le_of_lt hl⟩, h3]
  · intro a ha y hy
    exact le_of_not_lt (hn a ha y hy) (hn [v] (List.mem_of_getElem? h1) x h2) (h4 a ha y hy)

/-- C74 (defect): when the first argument is not a number the others are compared with zero: max() gives nothing when all the
numbers are negative or zero, and otherwise a largest one. Every number with a unit is reported. -/
theorem C74_max_first (env : Env α) (n : Int) (a0 : List (Val α)) (h0 : argNumber a0 = none) (rest : Args α)
    (hl : rest.length < 2147483647) (hn : NoNan rest) :
    ((∀ a ∈ rest, ∀ y, argNumber a = some y → le y (.fin false 0) = true) ∧
      call env n b!"max" (a0 :: rest) =
        (.ok .null (.expects b!"max" :: rest.flatMap (complaint b!"max" [])), n)) ∨
    ∃ (v : Val α) (x : Fp), [v] ∈ rest ∧ argNumber [v] = some x ∧ lt (.fin false 0) x = true ∧
      call env n b!"max" (a0 :: rest) =
        (.ok (.node v) (.expects b!"max" :: rest.flatMap (complaint b!"max" [])), n) ∧
      ∀ a ∈ rest, ∀ y, argNumber a = some y → le y x = true := by
  have hc : call env n b!"max" (a0 :: rest) = (fExtremum b!"max" (fun r m => lt m r) (a0 :: rest), n) := by
    show (if 1 ≤ (a0 :: rest).length ∧ (a0 :: rest).length ≤ 2147483647 then
      (fExtremum b!"max" (fun r m => lt m r) (a0 :: rest), n) else _) = _
    rw [if_pos ⟨by simp, Nat.succ_le_of_lt hl⟩]
  rw [hc]
  rcases extremum_other_first strict_max b!"max" a0 h0 rest hn with ⟨h1, h2⟩ | ⟨v, x, h1, h2, h3, h4, h5⟩
  · refine .inl ⟨fun a ha y hy => ?_, by rw [h2]⟩
    have := h1 a ha y hy
    rw [lit_zero] at this
    exact le_of_not_lt (by simp) (hn a ha y hy) this
  · rw [lit_zero] at h3
    exact .inr ⟨v, x, h1, h2, h3, by rw [h4], fun a ha y hy =>
      le_of_not_lt (hn [v] h1 x h2) (hn a ha y hy) (h5 a ha y hy)⟩

/-- C74 (defect): the same of min(). -/
theorem C74_min_first (env : Env α) (n : Int) (a0 : List (Val α)) (h0 : argNumber a0 = none) (rest : Args α)
    (hl : rest.length < 2147483647) (hn : NoNan rest) :
    ((∀ a ∈ rest, ∀ y, argNumber a = some y → le (.fin false 0) y = true) ∧
      call env n b!"min" (a0 :: rest) =
        (.ok .null (.expects b!"min" :: rest.flatMap (complaint b!"min" [])), n)) ∨
    ∃ (v : Val α) (x : Fp), [v] ∈ rest ∧ argNumber [v] = some x ∧ lt x (.fin false 0) = true ∧
      call env n b!"min" (a0 :: rest) =
        (.ok (.node v) (.expects b!"min" :: rest.flatMap (complaint b!"min" [])), n) ∧
      ∀ a ∈ rest, ∀ y, argNumber a = some y → le x y = true := by
  have hc : call env n b!"min" (a0 :: rest) = (fExtremum b!"min" (fun r m => lt r m) (a0 :: rest), n) := by
    show (if 1 ≤ (a0 :: rest).length ∧ (a0 :: rest).length ≤ 2147483647 then
      (fExtremum b!"min" (fun r m => lt r m) (a0 :: rest), n) else _) = _
    rw [if_pos ⟨by simp, Nat.succ_le_of_lt hl⟩]
  rw [hc]
  rcases extremum_other_first strict_min b!"min" a0 h0 rest hn with ⟨h1, h2⟩ | ⟨v, x, h1, h2, h3, h4, h5⟩
  · refine .inl ⟨fun a ha y hy => ?_, by rw [h2]⟩
    have := h1 a ha y hy
    rw [lit_zero] at this
    exact le_of_not_lt (hn a ha y hy) (by simp) this
  · rw [lit_zero] at h3
    exact .inr ⟨v, x, h1, h2, h3, by rw [h4], fun a ha y hy =>
      le_of_not_lt (hn a ha y hy) (hn [v] h1 x h2) (h5 a ha y hy)⟩

/-- An instance of the hypotheses: max(3px, 7px, "a", 7em). -/
example : ∃ x0, argNumber [(.int 3 b!"px" : Val Nat)] = some x0 ∧
    NoNan ([[.int 3 b!"px"], [.int 7 b!"px"], [.str b!"a"], [.int 7 b!"em"]] : Args Nat) := by
  refine ⟨_, rfl, ?_⟩
  have h : ∀ i : Int, ofInt f64 i ≠ .nan := by
    intro i
    unfold ofInt round
    split <;> simp
  intro a ha y hy
  simp only [List.mem_cons, List.not_mem_nil, or_false] at ha
  rcases ha with rfl | rfl | rfl | rfl
  · injection hy with hy; subst hy; exact h 3
  · injection hy with hy; subst hy; exact h 7
  · cases hy
  · injection hy with hy; subst hy; exact h 7

end Csspp.Func
