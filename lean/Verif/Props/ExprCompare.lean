import Verif.Model.ExprOps

/-!
C27 (comparisons) and C28 (the match operators).
-/

namespace Csspp.Expr
open Csspp.Flt
variable {α : Type}

attribute [local irreducible] Color.getColor toDouble

/-- There is a NaN in the value. -/
def hasNaN : Val α → Bool
  | .dec .nan _ => true
  | .pct .nan => true
  | _ => false

/-- The value is a color. -/
def isColor : Val α → Bool
  | .color _ => true
  | _ => false

theorem fp_tri (x y : Fp) (hx : x ≠ .nan) (hy : y ≠ .nan) :
    (lt x y = true ∧ eq x y = false ∧ lt y x = false) ∨
    (lt x y = false ∧ eq x y = true ∧ lt y x = false) ∨
    (lt x y = false ∧ eq x y = false ∧ lt y x = true) := by
  cases x with
  | nan => exact absurd rfl hx
  | inf a =>
    cases y with
    | nan => exact absurd rfl hy
    | inf b => cases a <;> cases b <;> decide
    | fin b y => cases a <;> simp [lt, eq, le]
  | fin a x =>
    cases y with
    | nan => exact absurd rfl hy
    | inf b => cases b <;> simp [lt, eq, le]
    | fin b y =>
      simp only [lt, eq, le, Bool.and_eq_true, Bool.and_eq_false_iff, decide_eq_true_eq,
        decide_eq_false_iff_not]
      omega

theorem fp_eq_comm (x y : Fp) : eq x y = eq y x := by
  unfold eq
  exact Bool.and_comm _ _

theorem strLt_tri (a b : Str) :
    (Color.strLt a b = true ∧ (a == b) = false ∧ Color.strLt b a = false) ∨
    (Color.strLt a b = false ∧ (a == b) = true ∧ Color.strLt b a = false) ∨
    (Color.strLt a b = false ∧ (a == b) = false ∧ Color.strLt b a = true) := by
  induction a generalizing b with
  | nil => cases b <;> simp [Color.strLt]
  | cons x a ih =>
    cases b with
    | nil => simp [Color.strLt]
    | cons y b =>
      unfold Color.strLt
      rcases Nat.lt_trichotomy x y with h | h | h
      · left
        simp [h, Nat.not_lt_of_gt h, Nat.ne_of_lt h]
      · subst h
        simpa using ih b
      · right; right
        simp [h, Nat.not_lt_of_gt h, Nat.ne_of_gt h]

theorem toDouble_ne_nan (i : Int) : toDouble i ≠ .nan := by
  unfold toDouble ofInt Flt.round
  split <;> exact fun h => by cases h

/-- The three basic outcomes of a comparison. -/
def Outcome (l r : Val α) (a b c : Bool) : Prop :=
  isLess l r = .ret a [] ∧ isEqual l r = .ret b [] ∧ isLess r l = .ret c [] ∧ isEqual r l = .ret b []

theorem outcome (l r : Val α) (h : comparable l r = true) (hc : isColor l = false)
    (hl : hasNaN l = false) (hr : hasNaN r = false) :
    Outcome l r true false false ∨ Outcome l r false true false ∨ Outcome l r false false true := by
  have fp : ∀ (x y : Fp) (l r : Val α), x ≠ .nan → y ≠ .nan →
      isLess l r = .ret (lt x y) [] → isEqual l r = .ret (eq x y) [] →
      isLess r l = .ret (lt y x) [] → isEqual r l = .ret (eq y x) [] →
      Outcome l r true false false ∨ Outcome l r false true false ∨ Outcome l r false false true := by
    intro x y l r hx hy h1 h2 h3 h4
    rw [fp_eq_comm] at h4
    unfold Outcome
    rw [h1, h2, h3, h4]
    rcases fp_tri x y hx hy with ⟨a, b, c⟩ | ⟨a, b, c⟩ | ⟨a, b, c⟩
    all_goals rw [a, b, c]
    · exact .inl ⟨rfl, rfl, rfl, rfl⟩
    · exact .inr (.inl ⟨rfl, rfl, rfl, rfl⟩)
    · exact .inr (.inr ⟨rfl, rfl, rfl, rfl⟩)
  have nn : ∀ (x : Fp) d, hasNaN (.dec x d : Val α) = false → x ≠ .nan := by
    intro x d hx e
    subst e
    cases hx
  have np : ∀ (x : Fp), hasNaN (.pct x : Val α) = false → x ≠ .nan := by
    intro x hx e
    subst e
    cases hx
  cases l <;> cases r <;> simp only [comparable, isColor, reduceCtorEq] at h hc
  · rename_i a b
    simp only [Outcome, isLess, isEqual]
    rcases strLt_tri a b with ⟨x, y, z⟩ | ⟨x, y, z⟩ | ⟨x, y, z⟩
    all_goals rw [x, y, z, show (b == a) = (a == b) from BEq.comm, y]
    · exact .inl ⟨rfl, rfl, rfl, rfl⟩
    · exact .inr (.inl ⟨rfl, rfl, rfl, rfl⟩)
    · exact .inr (.inr ⟨rfl, rfl, rfl, rfl⟩)
  · rename_i a _ b _
    unfold Outcome isLess isEqual
    rcases Int.lt_trichotomy a b with x | x | x
    · refine .inl ?_
      have e1 : ¬ b < a := by omega
      have e2 : a ≠ b := by omega
      have e3 : b ≠ a := by omega
      simp [x, e1, e2, e3]
    · subst x
      refine .inr (.inl ?_)
      simp
    · refine .inr (.inr ?_)
      have e1 : ¬ a < b := by omega
      have e2 : a ≠ b := by omega
      have e3 : b ≠ a := by omega
      simp [x, e1, e2, e3]
  · exact fp _ _ _ _ (toDouble_ne_nan _) (nn _ _ hr) rfl rfl rfl rfl
  · exact fp _ _ _ _ (nn _ _ hl) (toDouble_ne_nan _) rfl rfl rfl rfl
  · exact fp _ _ _ _ (nn _ _ hl) (nn _ _ hr) rfl rfl rfl rfl
  · exact fp _ _ _ _ (np _ hl) (np _ hr) rfl rfl rfl rfl
  · rename_i a b
    cases a <;> cases b <;> simp [Outcome, isLess, isEqual]

/-- What an operator of equality() or relational() yields when it yields a boolean and no error. -/
def Yields (op : CmpOp) (l r : Val α) (b : Bool) : Prop := cmpOp op l r = .ret (some (.bool b)) []

theorem comparable_comm (l r : Val α) : comparable l r = comparable r l := by
  cases l <;> cases r <;> simp only [comparable]
  all_goals exact BEq.comm

/-- C27: for two comparable values other than colors, without NaN: every comparison yields a boolean
without error, exactly one of l < r, l = r and r < l is true, and the other operators are what these
three make them. -/
theorem C27_order (l r : Val α) (h : comparable l r = true) (hc : isColor l = false)
    (hl : hasNaN l = false) (hr : hasNaN r = false) :
    ∃ less equal greater : Bool,
      Yields .lt l r less ∧ Yields .eq l r equal ∧ Yields .lt r l greater ∧
      ((less, equal, greater) = (true, false, false) ∨ (less, equal, greater) = (false, true, false) ∨
        (less, equal, greater) = (false, false, true)) ∧
      Yields .eq r l equal ∧ Yields .ne l r (!equal) ∧
      Yields .le l r (less || equal) ∧ Yields .gt l r greater ∧ Yields .ge l r (greater || equal) := by
  have h' : comparable r l = true := by rw [comparable_comm]; exact h
  have key : ∀ a b c : Bool, Outcome l r a b c →
      ((a, b, c) = (true, false, false) ∨ (a, b, c) = (false, true, false) ∨ (a, b, c) = (false, false, true)) →
      Yields .lt l r a ∧ Yields .eq l r b ∧ Yields .lt r l c ∧
      ((a, b, c) = (true, false, false) ∨ (a, b, c) = (false, true, false) ∨ (a, b, c) = (false, false, true)) ∧
      Yields .eq r l b ∧ Yields .ne l r (!b) ∧
      Yields .le l r (a || b) ∧ Yields .gt l r c ∧ Yields .ge l r (c || b) := by
    intro a b c ⟨h1, h2, h3, h4⟩ ht
    unfold Yields cmpOp
    simp only [h, h', if_true, compareVal, h1, h2, h3, h4, Cmp.not, Cmp.or]
    refine ⟨trivial, trivial, trivial, ht, trivial, trivial, ?_, ?_, ?_⟩
    all_goals rcases ht with ht | ht | ht <;> cases ht <;> rfl
  rcases outcome l r h hc hl hr with ho | ho | ho
  · exact ⟨_, _, _, key _ _ _ ho (.inl rfl)⟩
  · exact ⟨_, _, _, key _ _ _ ho (.inr (.inl rfl))⟩
  · exact ⟨_, _, _, key _ _ _ ho (.inr (.inr rfl))⟩

/-- C27: what the order is. Integers are ordered as integers, booleans with false first, strings byte
by byte (the dictionary order), numbers otherwise as floating point numbers. -/
theorem C27_meaning :
    (∀ (a b : Int) (d : Str), Yields (α := α) .lt (.int a d) (.int b d) (decide (a < b))) ∧
    (∀ a b : Bool, Yields (α := α) .lt (.bool a) (.bool b) (decide (a = false ∧ b = true))) ∧
    (∀ a b : Str, Yields (α := α) .lt (.str a) (.str b) true ↔ a < b) ∧
    (∀ (s t : Bool) (a b : Nat) (d : Str),
      Yields (α := α) .lt (.dec (.fin s a) d) (.dec (.fin t b) d) (decide (signed s a < signed t b))) ∧
    (∀ (a b : Int) (d : Str), Yields (α := α) .eq (.int a d) (.int b d) (decide (a = b))) ∧
    (∀ a b : Str, Yields (α := α) .eq (.str a) (.str b) (decide (a = b))) := by
  refine ⟨?_, ?_, ?_, ?_, ?_, ?_⟩
  · intro a b d
    simp [Yields, cmpOp, comparable, compareVal, isLess]
  · intro a b
    cases a <;> cases b <;> rfl
  · intro a b
    have e : Yields (α := α) .lt (.str a) (.str b) true ↔ Color.strLt a b = true := by
      simp [Yields, cmpOp, comparable, compareVal, isLess]
    rw [e]
    induction a generalizing b with
    | nil => cases b <;> simp [Color.strLt]
    | cons x a ih =>
      cases b with
      | nil => simp [Color.strLt]
      | cons y b =>
        have ih : Color.strLt a b = true ↔ a < b := ih b (by simp [Yields, cmpOp, comparable, compareVal, isLess])
        rw [List.cons_lt_cons_iff, Color.strLt, ← ih]
        by_cases h1 : x < y
        · simp [h1]
        · by_cases h2 : y < x
          · have : x ≠ y := by omega
            simp [h1, h2, this]
          · have : x = y := by omega
            simp [this]
  · intro s t a b d
    simp [Yields, cmpOp, comparable, compareVal, isLess, lt]
  · intro a b d
    simp only [Yields, cmpOp, comparable, compareVal, isEqual, beq_self_eq_true, if_true]
    rfl
  · intro a b
    have : (a == b) = decide (a = b) := by
      rw [Bool.eq_iff_iff]; simp
    simp only [Yields, cmpOp, comparable, compareVal, isEqual, if_true, this]

/-- C27: values that cannot be compared report one error and the result is the left operand as it
was (it is not a boolean, unless the left operand already was one). -/
theorem C27_incomparable (op : CmpOp) (l r : Val α) (h : comparable l r = false) :
    cmpOp op l r = .ret (some l) [.compare] := by
  unfold cmpOp
  simp [h]

/-- The values that can be compared: two booleans, two colors, two percentages, two strings or two
numbers (integer or decimal) with the same dimension. -/
theorem C27_comparable_exact (l r : Val α) :
    comparable l r = true ↔
      (∃ a b, l = .bool a ∧ r = .bool b) ∨ (∃ a b, l = .color a ∧ r = .color b) ∨
      (∃ a b, l = .pct a ∧ r = .pct b) ∨ (∃ a b, l = .str a ∧ r = .str b) ∨
      (∃ d, (∃ a, l = .int a d ∨ ∃ x, l = .dec x d) ∧ (∃ a, r = .int a d ∨ ∃ x, r = .dec x d)) := by
  constructor
  · intro h
    cases l <;> cases r <;> simp only [comparable, reduceCtorEq, beq_iff_eq] at h
    · exact .inr (.inr (.inr (.inl ⟨_, _, rfl, rfl⟩)))
    · subst h
      exact .inr (.inr (.inr (.inr ⟨_, ⟨_, .inl rfl⟩, ⟨_, .inl rfl⟩⟩)))
    · subst h
      exact .inr (.inr (.inr (.inr ⟨_, ⟨_, .inl rfl⟩, ⟨0, .inr ⟨_, rfl⟩⟩⟩)))
    · subst h
      exact .inr (.inr (.inr (.inr ⟨_, ⟨0, .inr ⟨_, rfl⟩⟩, ⟨_, .inl rfl⟩⟩)))
    · subst h
      exact .inr (.inr (.inr (.inr ⟨_, ⟨0, .inr ⟨_, rfl⟩⟩, ⟨0, .inr ⟨_, rfl⟩⟩⟩)))
    · exact .inr (.inr (.inl ⟨_, _, rfl, rfl⟩))
    · exact .inr (.inl ⟨_, _, rfl, rfl⟩)
    · exact .inl ⟨_, _, rfl, rfl⟩
  · rintro (⟨a, b, rfl, rfl⟩ | ⟨a, b, rfl, rfl⟩ | ⟨a, b, rfl, rfl⟩ | ⟨a, b, rfl, rfl⟩ |
      ⟨d, ⟨a, rfl | ⟨x, rfl⟩⟩, ⟨b, rfl | ⟨y, rfl⟩⟩⟩)
    all_goals simp only [comparable, beq_self_eq_true]

/-- C27, colors: = and != compare the 32 bit forms; < and <= report an error, and > and >= give
"different" and true together with that error. -/
theorem C27_colors (a b : Color.Color) (x y : Nat) (ha : Color.getColor a = some x)
    (hb : Color.getColor b = some y) :
    Yields (α := α) .eq (.color a) (.color b) (x == y) ∧
    Yields (α := α) .ne (.color a) (.color b) (!(x == y)) ∧
    cmpOp (α := α) .lt (.color a) (.color b) = .ret (some (.bool false)) [.less] ∧
    cmpOp (α := α) .le (.color a) (.color b) = .ret (some (.bool (x == y))) [.less] ∧
    cmpOp (α := α) .gt (.color a) (.color b) = .ret (some (.bool (!(x == y)))) [.less] ∧
    cmpOp (α := α) .ge (.color a) (.color b) = .ret (some (.bool true)) [.less] := by
  simp [Yields, cmpOp, comparable, compareVal, isEqual, colorEq, isLess, ha, hb, Cmp.not, Cmp.or, Cmp.and]

/-- C27, NaN: nothing is equal to NaN or less than NaN, and both > and >= hold between NaN and
anything, in both directions. -/
theorem C27_refuted_nan (x : Fp) (d : Str) (l r : Val α)
    (h : (l = .dec .nan d ∧ r = .dec x d) ∨ (l = .dec x d ∧ r = .dec .nan d)) :
    Yields .lt l r false ∧ Yields .eq l r false ∧ Yields .le l r false ∧
    Yields .gt l r true ∧ Yields .ge l r true := by
  rcases h with ⟨rfl, rfl⟩ | ⟨rfl, rfl⟩ <;> cases x <;>
    simp [Yields, cmpOp, comparable, compareVal, isEqual, isLess, lt, eq, le, Cmp.not, Cmp.or, Cmp.and]

/-- C27: "equal" is not transitive between integers and decimal numbers, because an integer is
converted to a double: 9007199254740993 = 9007199254740992.0 and 9007199254740992.0 =
9007199254740992 but the two integers are different. -/
theorem C27_refuted_transitive :
    Yields (α := α) .eq (.int 9007199254740993 []) (.dec (toDouble 9007199254740992) []) true ∧
    Yields (α := α) .eq (.dec (toDouble 9007199254740992) []) (.int 9007199254740992 []) true ∧
    Yields (α := α) .eq (.int 9007199254740993 []) (.int 9007199254740992 []) false := by
  have e1 : eq (toDouble 9007199254740993) (toDouble 9007199254740992) = true := by decide +kernel
  have e2 : eq (toDouble 9007199254740992) (toDouble 9007199254740992) = true := by decide +kernel
  refine ⟨?_, ?_, ?_⟩
  · simp only [Yields, cmpOp, comparable, compareVal, isEqual, e1, beq_self_eq_true, if_true]
  · simp only [Yields, cmpOp, comparable, compareVal, isEqual, e2, beq_self_eq_true, if_true]
  · simp only [Yields, cmpOp, comparable, compareVal, isEqual, beq_self_eq_true, if_true]
    rfl

/-! A concrete case of the hypotheses: 3px < 3.5px. -/
example : comparable (α := Nat) (.int 3 b!"px") (.dec (div f64 (ofInt f64 7) (ofInt f64 2)) b!"px") = true ∧
    isColor (.int 3 b!"px" : Val Nat) = false ∧ hasNaN (.int 3 b!"px" : Val Nat) = false := by decide
example : (match cmpOp (α := Nat) .lt (.int 3 b!"px") (.dec (div f64 (ofInt f64 7) (ofInt f64 2)) b!"px") with
    | .ret (some (.bool true)) [] => true | _ => false) = true := by decide +kernel

/-! ### C28 -/

/-- The pieces of a string between the separators. -/
def splitOn (sep : Nat) : Str → List Str
  | [] => [[]]
  | c :: s =>
    if c = sep then [] :: splitOn sep s
    else
      match splitOn sep s with
      | [] => [[c]]
      | w :: ws => (c :: w) :: ws

theorem splitOn_ne (sep : Nat) (s : Str) : splitOn sep s ≠ [] := by
  cases s with
  | nil => exact fun h => by cases h
  | cons c s =>
    unfold splitOn
    split
    · exact fun h => by cases h
    · split <;> exact fun h => by cases h

theorem splitOn_append (sep : Nat) (a b : Str) :
    splitOn sep (a ++ sep :: b) = splitOn sep a ++ splitOn sep b := by
  induction a with
  | nil => simp [splitOn]
  | cons c a ih =>
    rw [List.cons_append, splitOn, splitOn]
    by_cases h : c = sep
    · rw [if_pos h, if_pos h, ih]
      rfl
    · rw [if_neg h, if_neg h, ih]
      cases hs : splitOn sep a with
      | nil => exact absurd hs (splitOn_ne _ _)
      | cons w ws => rfl

theorem splitOn_none (sep : Nat) (s : Str) (h : sep ∉ s) : splitOn sep s = [s] := by
  induction s with
  | nil => rfl
  | cons c s ih =>
    rw [splitOn, if_neg (fun e => h (by simp [e])), ih (fun hm => h (by simp [hm]))]

/-- The pieces, each of them after a separator. -/
theorem splitOn_pad (sep : Nat) (s : Str) :
    sep :: s = (splitOn sep s).flatMap (fun w => sep :: w) := by
  induction s with
  | nil => rfl
  | cons c s ih =>
    rw [splitOn]
    by_cases h : c = sep
    · rw [if_pos h, List.flatMap_cons, ← ih, h]
      rfl
    · rw [if_neg h]
      cases hs : splitOn sep s with
      | nil => exact absurd hs (splitOn_ne _ _)
      | cons w ws =>
        rw [hs, List.flatMap_cons, List.cons_append] at ih
        rw [List.flatMap_cons]
        have := (List.cons.inj ih).2
        rw [this]
        rfl

theorem isIn_iff (s l : Str) : isIn s l = true ↔ s <:+: l := by
  induction l with
  | nil => simp [isIn]
  | cons c l ih =>
    rw [isIn, Bool.or_eq_true, ih, List.isPrefixOf_iff_prefix, List.infix_cons_iff]

theorem padded (sep : Nat) (s l : Str) :
    isIn (sep :: (s ++ [sep])) (sep :: (l ++ [sep])) = true ↔ splitOn sep s <:+: splitOn sep l := by
  rw [isIn_iff]
  constructor
  · rintro ⟨x, y, h⟩
    have hy : y = [] ∨ ∃ y', y = y' ++ [sep] := by
      rcases List.eq_nil_or_concat y with rfl | ⟨y', e, rfl⟩
      · exact .inl rfl
      · right
        refine ⟨y', ?_⟩
        have h2 : (x ++ sep :: (s ++ [sep]) ++ y') ++ [e] = (sep :: l) ++ [sep] := by
          simpa using h
        have := (List.append_inj' h2 rfl).2
        simp only [List.cons.injEq, and_true] at this
        simp [this]
    rcases hy with rfl | ⟨y', rfl⟩
    · rcases x with _ | ⟨c, x⟩
      · simp at h
        rw [h]
        exact List.infix_rfl
      · simp only [List.cons_append, List.append_assoc, List.cons.injEq, List.append_nil] at h
        have h2 := h.2
        rw [← List.cons_append, ← List.append_assoc] at h2
        have h3 := (List.append_inj' h2 rfl).1
        rw [← h3, splitOn_append]
        exact (List.suffix_append _ _).isInfix
    · rcases x with _ | ⟨c, x⟩
      · simp only [List.nil_append, List.cons_append, List.append_assoc, List.cons.injEq, true_and] at h
        have h3 : s ++ sep :: y' = l := by
          have : (s ++ sep :: y') ++ [sep] = l ++ [sep] := by simpa using h
          exact (List.append_inj' this rfl).1
        rw [← h3, splitOn_append]
        exact (List.prefix_append _ _).isInfix
      · simp only [List.cons_append, List.append_assoc, List.cons.injEq] at h
        have h3 : x ++ sep :: (s ++ sep :: y') = l := by
          have : (x ++ sep :: (s ++ sep :: y')) ++ [sep] = l ++ [sep] := by simpa using h.2
          exact (List.append_inj' this rfl).1
        rw [← h3, splitOn_append, splitOn_append]
        exact ⟨_, _, by rw [List.append_assoc]⟩
  · rintro ⟨a, b, h⟩
    have e1 := splitOn_pad sep s
    have e2 := splitOn_pad sep l
    have hb : ∃ t, b.flatMap (fun w => sep :: w) ++ [sep] = sep :: t := by
      cases b with
      | nil => exact ⟨[], rfl⟩
      | cons w ws => exact ⟨_, by rw [List.flatMap_cons, List.cons_append, List.cons_append]⟩
    obtain ⟨t, ht⟩ := hb
    refine ⟨a.flatMap (fun w => sep :: w), t, ?_⟩
    rw [← List.cons_append, ← List.cons_append, e1, e2, ← h, List.flatMap_append, List.flatMap_append]
    simp only [List.append_assoc, List.cons_append, List.nil_append]
    rw [ht]

/-- C28: the match operators on two strings: `a ^= b` tests that a is a prefix of b, `$=` a suffix,
`*=` a substring, `~=` and `|=` that the words of a (separated by spaces, by dashes) are consecutive
words of b. (Contrary to CSS attribute selectors, the searched text is the left operand.) -/
theorem C28_strings (a b : Str) :
    (Yields (α := α) (.mat .prefix) (.str a) (.str b) true ↔ a <+: b) ∧
    (Yields (α := α) (.mat .suffix) (.str a) (.str b) true ↔ a <:+ b) ∧
    (Yields (α := α) (.mat .substring) (.str a) (.str b) true ↔ a <:+: b) ∧
    (Yields (α := α) (.mat .include) (.str a) (.str b) true ↔ splitOn 32 a <:+: splitOn 32 b) ∧
    (Yields (α := α) (.mat .dash) (.str a) (.str b) true ↔ splitOn 45 a <:+: splitOn 45 b) := by
  have e : ∀ m, Yields (α := α) (.mat m) (.str a) (.str b) true ↔ matchStr m a b = true := by
    intro m
    simp [Yields, cmpOp, comparable, compareVal, matchVal]
  rw [e, e, e, e, e]
  refine ⟨?_, ?_, isIn_iff a b, padded 32 a b, padded 45 a b⟩
  · unfold matchStr
    dsimp only
    by_cases h : b.length < a.length
    · rw [if_pos h]
      constructor
      · intro h; cases h
      · intro hp
        have := hp.length_le
        omega
    · rw [if_neg h, beq_iff_eq, List.prefix_iff_eq_take]
  · unfold matchStr
    dsimp only
    by_cases h : b.length < a.length
    · rw [if_pos h]
      constructor
      · intro h; cases h
      · intro hp
        have := hp.length_le
        omega
    · rw [if_neg h, beq_iff_eq, List.suffix_iff_eq_drop]

theorem singleton_infix (a : Str) (l : List Str) : [a] <:+: l ↔ a ∈ l := by
  constructor
  · rintro ⟨x, y, rfl⟩
    simp
  · intro h
    obtain ⟨x, y, rfl⟩ := List.append_of_mem h
    exact ⟨x, y, by simp⟩

/-- C28: a single word (no space, no dash) is looked for among the words. -/
theorem C28_word (a b : Str) :
    (32 ∉ a → (Yields (α := α) (.mat .include) (.str a) (.str b) true ↔ a ∈ splitOn 32 b)) ∧
    (45 ∉ a → (Yields (α := α) (.mat .dash) (.str a) (.str b) true ↔ a ∈ splitOn 45 b)) := by
  have hs := C28_strings (α := α) a b
  refine ⟨fun h => ?_, fun h => ?_⟩
  · rw [hs.2.2.2.1, splitOn_none _ _ h]
    exact singleton_infix a _
  · rw [hs.2.2.2.2, splitOn_none _ _ h]
    exact singleton_infix a _

/-- C28: a match operator on two strings always yields a boolean and no error. -/
theorem C28_defined (m : MatchOp) (a b : Str) :
    ∃ r, Yields (α := α) (.mat m) (.str a) (.str b) r :=
  ⟨matchStr m a b, by simp [Yields, cmpOp, comparable, compareVal, matchVal]⟩

/-- C28: on other comparable values the operators report an error, and for two booleans, two colors
or two percentages they then throw an exception (get_string() on a node without a string): a
stylesheet with `true ~= true` is not compiled at all. -/
theorem C28_refuted_throws (m : MatchOp) :
    (∀ a b : Bool, cmpOp (α := α) (.mat m) (.bool a) (.bool b) = .throws) ∧
    (∀ a b, cmpOp (α := α) (.mat m) (.color a) (.color b) = .throws) ∧
    (∀ a b, cmpOp (α := α) (.mat m) (.pct a) (.pct b) = .throws) ∧
    (∀ (a b : Int) d, cmpOp (α := α) (.mat m) (.int a d) (.int b d) = .ret (some (.bool true)) [.matchTypes]) := by
  refine ⟨fun _ _ => rfl, fun _ _ => rfl, fun _ _ => rfl, fun a b d => ?_⟩
  simp [cmpOp, comparable, compareVal, matchVal, getStr]

/-! Concrete cases. -/
example : splitOn 32 b!"one two  three" = [b!"one", b!"two", [], b!"three"] := by decide
example : (match cmpOp (α := Nat) (.mat .include) (.str b!"two") (.str b!"one two three") with
    | .ret (some (.bool true)) [] => true | _ => false) = true := by decide +kernel
example : (match cmpOp (α := Nat) (.mat .dash) (.str b!"tw") (.str b!"one-two-three") with
    | .ret (some (.bool false)) [] => true | _ => false) = true := by decide +kernel

end Csspp.Expr
