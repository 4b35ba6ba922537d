import Verif.Model.ExprOps

/-!
C25 (addition and subtraction) and C26 (the integer operators, and the divisions by zero).
-/

namespace Csspp.Expr
open Csspp.Flt
variable {α : Type}

/-- A number with a dimension: its value as a double and its dimension. -/
def number : Val α → Option (Fp × Str)
  | .int i d => some (ofInt f64 i, d)
  | .dec x d => some (x, d)
  | _ => none

/-- The value is an INTEGER. -/
def isInt : Val α → Bool
  | .int _ _ => true
  | _ => false

/-- C25: two numbers are added or subtracted only when they have the same dimension, which is the
dimension of the result; else there is no result and exactly one error. Two integers give the exact
integer (undefined behaviour when it does not fit 64 bits); if one of them is a decimal number, the
result is the correctly rounded decimal number. -/
theorem C25_numbers (subtract : Bool) (l r : Val α) (x y : Fp) (ldim rdim : Str)
    (hl : number l = some (x, ldim)) (hr : number r = some (y, rdim)) :
    (ldim ≠ rdim → ∃ e, addOp subtract l r = .ret none [e]) ∧
    (ldim = rdim →
      (isInt l && isInt r) = false →
        addOp subtract l r = .ret (some (.dec (if subtract then sub f64 x y else add f64 x y) ldim)) []) ∧
    (ldim = rdim → ∀ a b : Int, l = .int a ldim → r = .int b rdim →
      addOp subtract l r =
        if IsI64 (if subtract then a - b else a + b) then
          .ret (some (.int (if subtract then a - b else a + b) ldim)) []
        else .undef) := by
  cases l <;> cases r <;> simp only [number, Option.some.injEq, Prod.mk.injEq, reduceCtorEq] at hl hr
  all_goals
    obtain ⟨rfl, rfl⟩ := hl
    obtain ⟨rfl, rfl⟩ := hr
    refine ⟨fun h => ?_, fun h hi => ?_, fun h a b ha hb => ?_⟩
  · exact ⟨.addDims, by simp only [addOp, if_pos h]⟩
  · simp [isInt] at hi
  · cases ha
    cases hb
    simp only [addOp, ofI64, h, ne_eq, not_true_eq_false, if_false]
  · exact ⟨.addDims, by simp only [addOp, addDec, if_pos h]⟩
  · simp only [addOp, addDec, h, ne_eq, not_true_eq_false, if_false, toDouble]
  · cases hb
  · exact ⟨.addDims, by simp only [addOp, addDec, if_pos h]⟩
  · simp only [addOp, addDec, h, ne_eq, not_true_eq_false, if_false, toDouble]
  · cases ha
  · exact ⟨.addDims, by simp only [addOp, addDec, if_pos h]⟩
  · simp only [addOp, addDec, h, ne_eq, not_true_eq_false, if_false]
  · cases ha

/-- The operands that + and - accept (`docs`: string + string, numbers of the same dimension,
percentages, colors, and a color with a unitless number). -/
inductive Addable : Bool → Val α → Val α → Prop where
  | strings (a b) : Addable false (.str a) (.str b)
  | numbers (s l r x y d) : number l = some (x, d) → number r = some (y, d) → Addable s l r
  | percents (s a b) : Addable s (.pct a) (.pct b)
  | colors (s a b) : Addable s (.color a) (.color b)
  | offsetRight (s c r y) : number r = some (y, []) → Addable s (.color c) r
  | offsetLeft (s l x c) : number l = some (x, []) → Addable s l (.color c)

/-- C25: whatever the operands, + and - give a value and no error, or no value and exactly one
error, or (two integers only) overflow; they give a value exactly for the operands above. -/
theorem C25_total (subtract : Bool) (l r : Val α) :
    (Addable subtract l r ∧
      ((∃ v, addOp subtract l r = .ret (some v) []) ∨
        (addOp subtract l r = .undef ∧ ∃ a b d, l = .int a d ∧ r = .int b d ∧
          ¬ IsI64 (if subtract then a - b else a + b)))) ∨
    (¬ Addable subtract l r ∧ ∃ e, addOp subtract l r = .ret none [e]) := by
  by_cases ha : Addable subtract l r
  · refine .inl ⟨ha, ?_⟩
    cases ha with
    | strings a b => exact .inl ⟨_, rfl⟩
    | numbers _ _ _ x y d hl hr =>
      obtain ⟨_, h1, h2⟩ := C25_numbers subtract l r x y d d hl hr
      cases hi : isInt l && isInt r with
      | false => exact .inl ⟨_, h1 rfl hi⟩
      | true =>
        have hint : ∀ v : Val α, isInt v = true → ∃ a d, v = .int a d := by
          intro v hv
          cases v <;> first | exact ⟨_, _, rfl⟩ | cases hv
        rw [Bool.and_eq_true] at hi
        obtain ⟨a, d1, rfl⟩ := hint l hi.1
        obtain ⟨b, d2, rfl⟩ := hint r hi.2
        simp only [number, Option.some.injEq, Prod.mk.injEq] at hl hr
        obtain ⟨_, rfl⟩ := hl
        obtain ⟨_, rfl⟩ := hr
        have := h2 rfl a b rfl rfl
        by_cases hb : IsI64 (if subtract then a - b else a + b)
        · rw [if_pos hb] at this
          exact .inl ⟨_, this⟩
        · rw [if_neg hb] at this
          exact .inr ⟨this, a, b, _, rfl, rfl, hb⟩
    | percents _ a b => exact .inl ⟨_, rfl⟩
    | colors _ a b => exact .inl ⟨_, rfl⟩
    | offsetRight _ c _ y hr =>
      cases r <;> simp only [number, Option.some.injEq, Prod.mk.injEq, reduceCtorEq] at hr
      all_goals
        obtain ⟨_, rfl⟩ := hr
        exact .inl ⟨_, by simp only [addOp, addOffset]; rfl⟩
    | offsetLeft _ _ x c hl =>
      cases l <;> simp only [number, Option.some.injEq, Prod.mk.injEq, reduceCtorEq] at hl
      all_goals
        obtain ⟨_, rfl⟩ := hl
        exact .inl ⟨_, by simp only [addOp, addOffset]; rfl⟩
  · refine .inr ⟨ha, ?_⟩
    cases l <;> cases r
    all_goals first
      | exact ⟨.addTypes, rfl⟩
      | exact absurd (Addable.percents _ _ _) ha
      | exact absurd (Addable.colors _ _ _) ha
      | (cases subtract
         · exact absurd (Addable.strings _ _) ha
         · exact ⟨.addTypes, rfl⟩)
      | (have hd : ∀ d, d ≠ [] → ∀ (c : Color.Color) o s w,
            (addOffset c o d s w : Out (Val α)) = .ret none [.offsetUnit] := by
           intro d hd c o s w
           rw [addOffset, if_neg hd]
         refine ⟨.offsetUnit, hd _ (fun h => ?_) _ _ _ _⟩
         subst h
         first
          | exact ha (.offsetLeft _ _ _ _ rfl)
          | exact ha (.offsetRight _ _ _ _ rfl))
      | (refine (C25_numbers subtract _ _ _ _ _ _ rfl rfl).1 (fun h => ?_)
         subst h
         exact ha (.numbers _ _ _ _ _ _ rfl rfl))

/-! Concrete cases: 3px + 4px, 3px + 4em, 3px - 1.5px (decimal), 3px + "a". -/
example : (match addOp (α := Nat) false (.int 3 b!"px") (.int 4 b!"px") with
    | .ret (some (.int 7 d)) [] => d == b!"px" | _ => false) = true := by decide +kernel
example : (match addOp (α := Nat) false (.int 3 b!"px") (.int 4 b!"em") with
    | .ret none [.addDims] => true | _ => false) = true := by decide +kernel
example : (match addOp (α := Nat) true (.int 3 b!"px") (.dec (div f64 (ofInt f64 3) (ofInt f64 2)) b!"px") with
    | .ret (some (.dec x d)) [] => x == div f64 (ofInt f64 3) (ofInt f64 2) && d == b!"px"
    | _ => false) = true := by decide +kernel
example : (match addOp (α := Nat) false (.int 9223372036854775807 []) (.int 1 []) with
    | .undef => true | _ => false) = true := by decide +kernel

/-! ### C26 -/

/-- The mathematical result of an operator on integers: the quotient is rounded towards zero and
the remainder has the sign of the dividend. `none` when it is not defined. -/
def exact : MulOp → Int → Int → Option Int
  | .mul, a, b => some (a * b)
  | .div, a, b => if b = 0 then none else some (Int.sign a * Int.sign b * (a.natAbs / b.natAbs : Nat))
  | .mod, a, b => if b = 0 then none else some (Int.sign a * (a.natAbs % b.natAbs : Nat))

/-- The dimension of the result (C23 says what `combine` computes). -/
def resultDim : MulOp → Str → Str → Str
  | .mul, l, r => (Dim.combine l true r).1
  | .div, l, r => (Dim.combine l false r).1
  | .mod, l, _ => l

/-- IEEE 754 multiplication, division and remainder on doubles. -/
def fpResult : MulOp → Fp → Fp → Fp
  | .mul, x, y => Flt.mul f64 x y
  | .div, x, y => Flt.div f64 x y
  | .mod, x, y => fmod x y

/-- The errors found in the dimensions. -/
def resultErrs : MulOp → Str → Str → List Err
  | .mul, l, r => (Dim.combine l true r).2.map .dim
  | .div, l, r => (Dim.combine l false r).2.map .dim
  | .mod, _, _ => []

theorem tdiv_spec (a b : Int) : a.tdiv b = Int.sign a * Int.sign b * (a.natAbs / b.natAbs : Nat) := by
  cases a <;> cases b
  all_goals simp only [Int.tdiv, Int.natAbs]
  all_goals (rename_i m n)
  · cases m <;> cases n <;> simp [Int.sign]
  · cases m <;> simp [Int.sign]
  · cases n <;> simp [Int.sign]
  · simp [Int.sign]

theorem tmod_spec (a b : Int) : a.tmod b = Int.sign a * (a.natAbs % b.natAbs : Nat) := by
  cases a <;> cases b
  all_goals simp only [Int.tmod, Int.natAbs]
  all_goals (rename_i m n)
  · cases m <;> simp [Int.sign]
  · cases m <;> simp [Int.sign]
  · simp [Int.sign]
  · simp [Int.sign]

/-- C26: * / and % on two integers. A division by zero reports an error and has no value. Otherwise
the value is the mathematical result, unless the product, or the quotient (for / and %), does not fit
64 bits: then the behaviour is undefined. No value is ever given with an incompatible dimension (%). -/
theorem C26_integers (op : MulOp) (a b : Int) (ldim rdim : Str) :
    (b = 0 → op ≠ .mul → ∃ es e, (mulOp (α := α) false op (.int a ldim) (.int b rdim)) = .ret none (es ++ [e])) ∧
    (op = .mod → ldim ≠ rdim → ∃ e, (mulOp (α := α) false op (.int a ldim) (.int b rdim)) = .ret none [e]) ∧
    (∀ v q, exact op a b = some v → exact (if op = .mod then .div else op) a b = some q →
      (op = .mod → ldim = rdim) →
      if IsI64 q then
        (mulOp (α := α) false op (.int a ldim) (.int b rdim)) = .ret (some (.int v (resultDim op ldim rdim))) (resultErrs op ldim rdim)
      else (mulOp (α := α) false op (.int a ldim) (.int b rdim)) = .undef) := by
  have e0 : (mulOp (α := α) false op (.int a ldim) (.int b rdim)) = mulInt op a ldim b rdim := by
    simp [mulOp, orFont]
  rw [e0]
  unfold mulInt
  refine ⟨fun hb ho => ?_, fun ho hd => ?_, fun v q hv hq hd => ?_⟩
  · cases op with
    | mul => exact absurd rfl ho
    | div =>
      simp only [mulDim, hb, if_true]
      exact ⟨_, _, rfl⟩
    | mod =>
      simp only [mulDim, hb, if_true]
      by_cases h : ldim ≠ rdim
      · rw [if_pos h]
        exact ⟨[], _, rfl⟩
      · rw [if_neg h]
        exact ⟨_, _, rfl⟩
  · subst ho
    simp only [mulDim, if_pos hd]
    exact ⟨_, rfl⟩
  · cases op with
    | mul =>
      simp only [exact, reduceCtorEq, if_false, Option.some.injEq] at hv hq
      subst hv
      subst hq
      simp only [mulDim, ofI64]
      by_cases h : IsI64 (a * b)
      · rw [if_pos h, if_pos h]
        rfl
      · rw [if_neg h, if_neg h]
    | div =>
      simp only [exact, reduceCtorEq, if_false] at hv hq
      by_cases hb : b = 0
      · rw [if_pos hb] at hv
        cases hv
      · rw [if_neg hb, ← tdiv_spec, Option.some.injEq] at hv hq
        subst hv
        subst hq
        simp only [mulDim, ofI64, if_neg hb]
        by_cases h : IsI64 (a.tdiv b)
        · rw [if_pos h, if_pos h]
          rfl
        · rw [if_neg h, if_neg h]
    | mod =>
      simp only [exact, if_true] at hv hq
      by_cases hb : b = 0
      · rw [if_pos hb] at hv
        cases hv
      · rw [if_neg hb, Option.some.injEq] at hv hq
        rw [← tmod_spec] at hv
        rw [← tdiv_spec] at hq
        subst hv
        subst hq
        have hd := hd rfl
        subst hd
        simp only [mulDim, ne_eq, not_true_eq_false, ofI64, if_neg hb, if_false]
        by_cases h : IsI64 (a.tdiv b)
        · rw [if_pos h, if_pos h]
          rfl
        · rw [if_neg h, if_neg h]

/-- C26: for 64 bit operands the quotient is always representable, but for INT64_MIN / -1 (and
INT64_MIN % -1), which a stylesheet can write: (-9223372036854775807 - 1) / -1. -/
theorem C26_quotient (a b q : Int) (ha : IsI64 a) (hq : exact .div a b = some q) :
    IsI64 q ↔ ¬ (a = -9223372036854775808 ∧ b = -1) := by
  unfold exact at hq
  dsimp only at hq
  by_cases hb : b = 0
  · rw [if_pos hb] at hq
    cases hq
  · rw [if_neg hb, Option.some.injEq] at hq
    subst hq
    have hle : a.natAbs / b.natAbs ≤ a.natAbs := Nat.div_le_self _ _
    have hle2 : 2 ≤ b.natAbs → a.natAbs / b.natAbs ≤ a.natAbs / 2 :=
      fun h => Nat.div_le_div_left h (by decide)
    have hone : b.natAbs = 1 → a.natAbs / b.natAbs = a.natAbs := fun h => by rw [h, Nat.div_one]
    unfold IsI64 at *
    generalize a.natAbs / b.natAbs = k at *
    rcases Int.lt_trichotomy a 0 with h1 | h1 | h1 <;> rcases Int.lt_trichotomy b 0 with h2 | h2 | h2
    all_goals try exact absurd h2 hb
    all_goals
      first
      | rw [Int.sign_eq_neg_one_of_neg h1]
      | rw [Int.sign_eq_one_of_pos h1]
      | (subst h1; rw [Int.sign_zero])
    all_goals
      first
      | rw [Int.sign_eq_neg_one_of_neg h2]
      | rw [Int.sign_eq_one_of_pos h2]
    all_goals
      first
      | omega
      | (by_cases hk : b.natAbs = 1
         · have := hone hk
           omega
         · have := hle2 (by omega)
           omega)

/-- C26: INT64_MIN / -1 is undefined. -/
theorem C26_refuted_min (ldim : Str) :
    (mulOp (α := α) false .div (.int (-9223372036854775808) ldim) (.int (-1) [])) = .undef := by
  have h := (C26_integers (α := α) .div (-9223372036854775808) (-1) ldim []).2.2
    9223372036854775808 9223372036854775808 (by decide +kernel) (by decide +kernel) (fun h => by cases h)
  rw [if_neg (by decide)] at h
  exact h

/-- C26: decimal numbers (one of the operands at least; a percentage is its fraction, without
dimension): the correctly rounded product and quotient, the exact remainder. -/
theorem C26_decimals (op : MulOp) (l r : Val α) (x y : Fp) (ldim rdim : Str)
    (hl : number l = some (x, ldim) ∨ (l = .pct x ∧ ldim = []))
    (hr : number r = some (y, rdim) ∨ (r = .pct y ∧ rdim = []))
    (hk : (isInt l && isInt r) = false) (hp : ¬ (l = .pct x ∧ r = .pct y))
    (hz : op ≠ .mul → isZero y = false) (hd : op = .mod → ldim = rdim) :
    mulOp false op l r =
      .ret (some (.dec (fpResult op x y)
        (resultDim op ldim rdim))) (resultErrs op ldim rdim) := by
  have hf : ∀ a d1 b d2 (e : Out (Val α)), orFont op false a d1 b d2 e = e := by
    intro a d1 b d2 e
    simp [orFont]
  have key : (mulDec op x ldim y rdim : Out (Val α)) =
      .ret (some (.dec (fpResult op x y)
        (resultDim op ldim rdim))) (resultErrs op ldim rdim) := by
    unfold mulDec
    cases op with
    | mul => rfl
    | div =>
      have := hz (by decide)
      simp only [mulDim, mulFp, this]
      rfl
    | mod =>
      have h1 := hz (by decide)
      have h2 := hd rfl
      subst h2
      simp only [mulDim, mulFp, h1, ne_eq, not_true_eq_false, if_false]
      rfl
  rw [← key]
  cases l <;> simp only [number, Option.some.injEq, Prod.mk.injEq, reduceCtorEq, false_and, or_false, false_or, Val.pct.injEq] at hl
  all_goals
    cases r <;> simp only [number, Option.some.injEq, Prod.mk.injEq, reduceCtorEq, false_and, or_false, false_or, Val.pct.injEq] at hr
  all_goals
    obtain ⟨rfl, rfl⟩ := hl
    obtain ⟨rfl, rfl⟩ := hr
    first
      | (simp only [mulOp, hf, toDouble]; done)
      | exact absurd ⟨rfl, rfl⟩ hp
      | cases hk

/-- C26: two percentages give a percentage. -/
theorem C26_percents (op : MulOp) (x y : Fp) (hz : op ≠ .mul → isZero y = false) :
    mulOp (α := α) false op (.pct x) (.pct y) =
      .ret (some (.pct (fpResult op x y))) [] := by
  cases op with
  | mul => rfl
  | div =>
    have := hz (by decide)
    simp [mulOp, orFont, mulPct, mulFp, this, fpResult]
  | mod =>
    have := hz (by decide)
    simp [mulOp, orFont, mulPct, mulFp, this, fpResult]

/-- C26: on decimal numbers and percentages too, / and % by zero (0.0 or -0.0) report an error and
have no value. -/
theorem C26_decimal_zero (op : MulOp) (hop : op ≠ .mul) (l r : Val α) (neg : Bool)
    (hl : ∃ x d, l = .int x d ∨ (∃ x, l = .dec x d) ∨ ∃ x, l = .pct x)
    (hr : (∃ d, r = .dec (.fin neg 0) d) ∨ r = .pct (.fin neg 0)) :
    ∃ es e, mulOp false op l r = .ret none (es ++ [e]) := by
  have hz : isZero (.fin neg 0) = true := by cases neg <;> rfl
  have hd : ∀ a d1 d2, ∃ es e, (mulDec op a d1 (.fin neg 0) d2 : Out (Val α)) = .ret none (es ++ [e]) := by
    intro a d1 d2
    unfold mulDec
    cases op with
    | mul => exact absurd rfl hop
    | div =>
      simp only [mulDim, mulFp, hz, if_true]
      exact ⟨_, _, rfl⟩
    | mod =>
      simp only [mulDim, mulFp, hz, if_true]
      by_cases h : d1 ≠ d2
      · rw [if_pos h]
        exact ⟨[], _, rfl⟩
      · rw [if_neg h]
        exact ⟨_, _, rfl⟩
  have hp : ∀ a, ∃ es e, (mulPct op a (.fin neg 0) : Out (Val α)) = .ret none (es ++ [e]) := by
    intro a
    unfold mulPct
    cases op with
    | mul => exact absurd rfl hop
    | div =>
      simp only [mulFp, hz, if_true]
      exact ⟨[], _, rfl⟩
    | mod =>
      simp only [mulFp, hz, if_true]
      exact ⟨[], _, rfl⟩
  have hf : ∀ a d1 b d2 (e : Out (Val α)), orFont op false a d1 b d2 e = e := by
    intro a d1 b d2 e
    simp [orFont]
  obtain ⟨i, d, rfl | ⟨x, rfl⟩ | ⟨x, rfl⟩⟩ := hl <;> obtain ⟨d2, rfl⟩ | rfl := hr
  all_goals
    simp only [mulOp, hf]
    first | exact hd _ _ _ | exact hp _

/-- C26: the same check is missing for a color: `black / 0` (or `black / 0.0`, `black / 0%`) is
accepted, the components are NaN and converting the color to its 32 bit form is then undefined. -/
theorem C26_refuted_color_zero :
    ∃ c, mulOp (α := α) false .div (.color (Color.ofInts 0 0 0 255)) (.int 0 []) = .ret (some (.color c)) [] ∧
      c.red = .nan ∧ Color.getColor c = none := by
  refine ⟨_, rfl, ?_, ?_⟩
  · decide +kernel
  · decide +kernel

/-! Concrete cases: 7px / 2 (rounded to 3px), -7 % 2 = -1, 7 / 0. -/
example : (match mulOp (α := Nat) false .div (.int 7 b!"px") (.int 2 []) with
    | .ret (some (.int 3 d)) [] => d == b!"px" | _ => false) = true := by decide +kernel
example : exact .mod (-7) 2 = some (-1) := by decide
example : (match mulOp (α := Nat) false .div (.int 7 b!"px") (.int 0 []) with
    | .ret none [.divZero] => true | _ => false) = true := by decide +kernel

end Csspp.Expr
