import Verif.Model.Dimension

/-!
C23 (dimensions multiply and divide like units) and C24 (dimension strings are re-read as written).
-/

namespace Csspp.Spec

/-- The name of a unit: not empty, no space, '*' or '/'. -/
def IsUnit (u : Str) : Prop := u ≠ [] ∧ ∀ c ∈ u, c ≠ 32 ∧ c ≠ 42 ∧ c ≠ 47

/-- A separator and the unit after it: an optional space, '/' or '*', an optional space, the name. -/
structure Item where
  before : Bool
  slash : Bool
  after : Bool
  name : Str

/-- The text of a separator and a unit. -/
def Item.text (i : Item) : Str :=
  (if i.before then [32] else []) ++ [if i.slash then 47 else 42] ++ (if i.after then [32] else []) ++
    i.name

/-- A dimension as a user may write it: a first unit, then separators and units. -/
def dimText (first : Str) (items : List Item) : Str := first ++ (items.map Item.text).flatten

/-- The units before the '/' and the units after it. -/
def units (slash : Bool) (first : Str) : List Item → List Str × List Str
  | [] => if slash then ([], [first]) else ([first], [])
  | i :: items =>
    match units (slash || i.slash) i.name items with
    | (num, den) => if slash then (num, first :: den) else (first :: num, den)

/-- The exponent of a unit. -/
def exponent (u : Str) (num den : List Str) : Int := (num.count u : Int) - den.count u

end Csspp.Spec

namespace Csspp.Dim
open Csspp.Spec

theorem cutName_unit {u s : Str} (hu : ∀ c ∈ u, c ≠ 32 ∧ c ≠ 42 ∧ c ≠ 47)
    (hs : s = [] ∨ ∃ c t, s = c :: t ∧ isSep c = true) : cutName (u ++ s) = (u, s) := by
  induction u with
  | nil =>
    rcases hs with rfl | ⟨c, t, rfl, h⟩
    · rfl
    · rw [List.nil_append, cutName, if_pos h]
  | cons a u ih =>
    have h := hu a (by simp)
    have ha : isSep a = false := by
      unfold isSep
      simp [h.1, h.2.1, h.2.2]
    rw [List.cons_append, cutName, if_neg (by simp [ha]), ih (fun c hc => hu c (by simp [hc]))]

theorem unit_head {u s : Str} (h : IsUnit u) : ∃ c t, u ++ s = c :: t ∧ c ≠ 32 ∧ c ≠ 42 ∧ c ≠ 47 := by
  obtain ⟨h1, h2⟩ := h
  cases u with
  | nil => exact absurd rfl h1
  | cons c t => exact ⟨c, t ++ s, rfl, h2 c (by simp)⟩

theorem skipSpace_unit {u s : Str} (h : IsUnit u) : skipSpace (u ++ s) = u ++ s := by
  obtain ⟨c, t, e, hc⟩ := unit_head (s := s) h
  rw [e]
  unfold skipSpace
  split
  · rename_i e2
    cases e2
    exact absurd rfl hc.1
  · rfl

/-- The slashes are at most one, counting the one already seen. -/
def OneSlash (slash : Bool) (items : List Item) : Prop :=
  (if slash then 1 else 0) + (items.filter (·.slash)).length ≤ 1

theorem dimLoop_items (items : List Item) : ∀ (fuel : Nat) (first : Str) (slash : Bool)
    (num den : List Str), items.length < fuel → IsUnit first → (∀ i ∈ items, IsUnit i.name) →
    OneSlash slash items →
    dimLoop fuel (dimText first items) slash num den =
      (num ++ (units slash first items).1, den ++ (units slash first items).2, none) := by
  induction items with
  | nil =>
    intro fuel first slash num den hf hu _ _
    obtain ⟨fuel, rfl⟩ : ∃ k, fuel = k + 1 := ⟨fuel - 1, by simp at hf; omega⟩
    obtain ⟨c, t, e, hc⟩ := unit_head (s := []) hu
    have hcut : cutName (dimText first []) = (first, []) := by
      show cutName (first ++ []) = _
      exact cutName_unit hu.2 (.inl rfl)
    rw [dimLoop, hcut]
    rw [List.append_nil] at e
    subst e
    cases slash <;> simp [units]
  | cons i items ih =>
    intro fuel first slash num den hf hu hi h1
    obtain ⟨fuel, rfl⟩ : ∃ k, fuel = k + 1 := ⟨fuel - 1, by simp at hf; omega⟩
    obtain ⟨c, t, e, hc⟩ := unit_head (s := []) hu
    have hiu : IsUnit i.name := hi i (by simp)
    have htext : dimText first (i :: items) =
        first ++ ((if i.before then [32] else []) ++ (if i.slash then 47 else 42) ::
          ((if i.after then [32] else []) ++ dimText i.name items)) := by
      unfold dimText Item.text
      simp
    have hskip : skipSpace ((if i.after then [32] else []) ++ dimText i.name items) =
        dimText i.name items := by
      cases i.after with
      | true => rfl
      | false =>
        show skipSpace (i.name ++ _) = _
        exact skipSpace_unit hiu
    have hskip2 : skipSpace ((if i.before then [32] else []) ++ (if i.slash then 47 else 42) ::
          ((if i.after then [32] else []) ++ dimText i.name items)) =
        (if i.slash then 47 else 42) :: ((if i.after then [32] else []) ++ dimText i.name items) := by
      cases i.before with
      | true => rfl
      | false => cases i.slash <;> rfl
    have hcut : cutName (dimText first (i :: items)) = (first,
        (if i.before then [32] else []) ++ (if i.slash then 47 else 42) ::
          ((if i.after then [32] else []) ++ dimText i.name items)) := by
      rw [htext]
      apply cutName_unit hu.2
      right
      cases i.before with
      | true => exact ⟨32, _, rfl, rfl⟩
      | false => cases i.slash <;> exact ⟨_, _, rfl, rfl⟩
    rw [dimLoop, hcut]
    rw [List.append_nil] at e
    subst e
    dsimp only
    rw [if_neg (by simp), hskip2]
    have hlen : items.length < fuel := by simp at hf; omega
    have hi' : ∀ j ∈ items, IsUnit j.name := fun j hj => hi j (by simp [hj])
    cases hs : i.slash with
    | true =>
      have hsl : slash = false := by
        cases slash with
        | false => rfl
        | true =>
          unfold OneSlash at h1
          rw [List.filter_cons_of_pos hs, List.length_cons, if_pos rfl] at h1
          omega
      subst hsl
      have h2 : OneSlash true items := by
        unfold OneSlash at h1 ⊢
        rw [List.filter_cons_of_pos hs, List.length_cons, if_neg (by simp)] at h1
        rw [if_pos rfl]
        clear hf hlen
        generalize (List.filter (fun x => x.slash) items).length = k at *
        have h3 : 0 + (k + 1) ≤ 1 := h1
        omega
      simp only [if_true, Bool.false_eq_true, if_false, hskip]
      rw [ih fuel i.name true _ _ hlen hiu hi' h2]
      rw [units, hs, Bool.or_true]
      dsimp only
      rw [if_neg (by simp), List.append_assoc, List.singleton_append]
    | false =>
      have h2 : OneSlash slash items := by
        unfold OneSlash at h1 ⊢
        simpa [hs] using h1
      simp only [Bool.false_eq_true, if_false, hskip]
      rw [ih fuel i.name slash _ _ hlen hiu hi' h2]
      rw [units, hs, Bool.or_false]
      cases slash with
      | true => simp
      | false => simp

theorem items_length (items : List Item) :
    items.length ≤ ((items.map Item.text).flatten).length := by
  induction items with
  | nil => simp
  | cons i items ih =>
    simp only [List.map_cons, List.flatten_cons, List.length_append, List.length_cons]
    have : 1 ≤ i.text.length := by
      unfold Item.text
      simp only [List.length_append, List.length_cons, List.length_nil]
      omega
    omega

theorem dimStart_other {s : Str} (h : ∀ t, s ≠ 49 :: 47 :: t) (h2 : ∀ t, s ≠ 49 :: 32 :: 47 :: t) :
    dimStart s = (false, s) := by
  unfold dimStart
  split
  · exact absurd rfl (h _)
  · exact absurd rfl (h _)
  · exact absurd rfl (h2 _)
  · exact absurd rfl (h2 _)
  · rfl

/-- What follows the first unit starts with a separator, so a text in "1/" or "1 /" has "1" as its
first unit. -/
theorem text_start {first : Str} {items : List Item} (hu : IsUnit first)
    (h : ¬ (first = b!"1" ∧ ∃ i rest, items = i :: rest ∧ i.slash = true)) :
    dimStart (dimText first items) = (false, dimText first items) := by
  have key : ∀ (a : Nat) (t : Str), a = 47 ∨ (a = 32 ∧ ∃ u, t = 47 :: u) →
      dimText first items ≠ 49 :: a :: t := by
    intro a t ha e
    obtain ⟨hne, hall⟩ := hu
    cases first with
    | nil => exact hne rfl
    | cons x xs =>
      unfold dimText at e
      rw [List.cons_append] at e
      injection e with e1 e2
      subst e1
      cases xs with
      | cons y ys =>
        rw [List.cons_append] at e2
        injection e2 with e3 _
        subst e3
        have := hall y (by simp)
        omega
      | nil =>
        apply h
        refine ⟨rfl, ?_⟩
        cases items with
        | nil => cases e2
        | cons i items =>
          refine ⟨i, items, rfl, ?_⟩
          unfold Item.text at e2
          simp only [List.nil_append, List.map_cons, List.flatten_cons] at e2
          cases hb : i.before with
          | false =>
            cases hs : i.slash with
            | true => rfl
            | false =>
              rw [hb, hs] at e2
              simp at e2
              omega
          | true =>
            cases hs : i.slash with
            | true => rfl
            | false =>
              rw [hb, hs] at e2
              simp at e2
              rcases ha with ha | ⟨_, u, hu⟩
              · omega
              · rw [hu] at e2
                simp at e2
  apply dimStart_other
  · exact fun t => key 47 t (.inl rfl)
  · exact fun t => key 32 (47 :: t) (.inr ⟨rfl, t, rfl⟩)

/-- C24 (as users write them): units separated by '*' and at most one '/', with or without a space on
each side of each operator, are split without error into the units before and after the '/'; except
for a unit called "1" in front of the '/'. -/
theorem C24_spacing (first : Str) (items : List Item) (num den : List Str) (hu : IsUnit first)
    (hi : ∀ i ∈ items, IsUnit i.name) (h1 : (items.filter (·.slash)).length ≤ 1)
    (h : ¬ (first = b!"1" ∧ ∃ i rest, items = i :: rest ∧ i.slash = true)) :
    toVectors (dimText first items) num den =
      (num ++ (units false first items).1, den ++ (units false first items).2, none) := by
  unfold toVectors
  have hne : dimText first items ≠ [] := by
    obtain ⟨c, t, e, _⟩ := unit_head (s := (items.map Item.text).flatten) hu
    unfold dimText
    rw [e]; simp
  rw [if_neg hne, text_start hu h]
  dsimp only
  apply dimLoop_items items _ first false num den _ hu hi (by simpa [OneSlash] using h1)
  have := items_length items
  unfold dimText
  rw [List.length_append]
  omega

/-- C24 (only a divisor): the same with "1/", "1 /", "1/ " or "1 / " in front and no other '/'. -/
theorem C24_one_over (first : Str) (items : List Item) (before after : Bool) (num den : List Str)
    (hu : IsUnit first) (hi : ∀ i ∈ items, IsUnit i.name) (h1 : ∀ i ∈ items, i.slash = false) :
    toVectors ([49] ++ (if before then [32] else []) ++ [47] ++ (if after then [32] else []) ++
        dimText first items) num den =
      (num, den ++ first :: items.map (·.name), none) := by
  unfold toVectors
  obtain ⟨c, t, e, hc⟩ := unit_head (s := (items.map Item.text).flatten) hu
  have hst : dimStart ([49] ++ (if before then [32] else []) ++ [47] ++
      (if after then [32] else []) ++ dimText first items) = (true, dimText first items) := by
    unfold dimText
    rw [e]
    cases before <;> cases after
    · show dimStart (49 :: 47 :: c :: t) = _
      unfold dimStart
      split
      · rename_i e2; cases e2; exact absurd rfl hc.1
      · rename_i e2; cases e2; rfl
      · rename_i e2; cases e2
      · rename_i e2; cases e2
      · rename_i e2 e3 e4 e5; first | exact absurd rfl (e2 c t) | exact absurd rfl (e3 c t) | exact absurd rfl (e4 c t) | exact absurd rfl (e5 c t)
    · rfl
    · show dimStart (49 :: 32 :: 47 :: c :: t) = _
      unfold dimStart
      split
      · rename_i e2; cases e2
      · rename_i e2; cases e2
      · rename_i e2; cases e2; exact absurd rfl hc.1
      · rename_i e2; cases e2; rfl
      · rename_i e2 e3 e4 e5; first | exact absurd rfl (e2 c t) | exact absurd rfl (e3 c t) | exact absurd rfl (e4 c t) | exact absurd rfl (e5 c t)
    · rfl
  rw [if_neg (by simp), hst]
  dsimp only
  have hfil : items.filter (·.slash) = [] := by
    rw [List.filter_eq_nil_iff]
    intro i hm
    simp [h1 i hm]
  have hun : ∀ (items : List Item) (f : Str), units true f items = ([], f :: items.map (·.name)) := by
    intro items
    induction items with
    | nil => intro f; rfl
    | cons i items ih =>
      intro f
      rw [units, Bool.true_or, ih]
      simp
  rw [dimLoop_items items _ first true num den _ hu hi (by simp [OneSlash, hfil]), hun]
  · simp
  · have := items_length items
    unfold dimText
    rw [List.length_append]
    omega

/-- The items written by rebuild_dimension(). -/
def star (d : Str) : Item := ⟨true, false, true, d⟩

theorem joinStar_text (d : Str) (ds : List Str) : joinStar (d :: ds) = dimText d (ds.map star) := by
  induction ds generalizing d with
  | nil => simp [joinStar, dimText]
  | cons e ds ih =>
    rw [joinStar, ih]
    · unfold dimText star Item.text
      simp
    · simp

theorem units_star_true (f : Str) (ds : List Str) : units true f (ds.map star) = ([], f :: ds) := by
  induction ds generalizing f with
  | nil => rfl
  | cons e ds ih =>
    rw [List.map_cons, units, Bool.true_or]
    show (match units true e (ds.map star) with
      | (num, den) => if true then (num, f :: den) else (f :: num, den)) = _
    rw [ih]
    rfl

theorem units_star_false (f : Str) (ds : List Str) : units false f (ds.map star) = (f :: ds, []) := by
  induction ds generalizing f with
  | nil => rfl
  | cons e ds ih =>
    rw [List.map_cons, units]
    show (match units false e (ds.map star) with
      | (num, den) => if false then (num, f :: den) else (f :: num, den)) = _
    rw [ih]
    rfl

theorem units_star_slash (f d : Str) (ds es : List Str) :
    units false f (ds.map star ++ ⟨true, true, true, d⟩ :: es.map star) = (f :: ds, d :: es) := by
  induction ds generalizing f with
  | nil =>
    rw [List.map_nil, List.nil_append, units]
    show (match units true d (es.map star) with
      | (num, den) => if false then (num, f :: den) else (f :: num, den)) = _
    rw [units_star_true]
    rfl
  | cons e ds ih =>
    rw [List.map_cons, List.cons_append, units]
    show (match units false e (ds.map star ++ ⟨true, true, true, d⟩ :: es.map star) with
      | (num, den) => if false then (num, f :: den) else (f :: num, den)) = _
    rw [ih]
    rfl

/-- C24: the dimension built for any lists of units is read back as the same lists, without error
(unless the only unit before the '/' is called "1"). -/
theorem C24_reread (num den : List Str) (hn : ∀ u ∈ num, IsUnit u) (hd : ∀ u ∈ den, IsUnit u)
    (h : ¬ (num = [b!"1"] ∧ den ≠ [])) (num0 den0 : List Str) :
    toVectors (rebuild num den) num0 den0 = (num0 ++ num, den0 ++ den, none) := by
  unfold rebuild
  cases num with
  | nil =>
    cases den with
    | nil => simp [toVectors]
    | cons d ds =>
      rw [if_neg (by simp), if_pos rfl, if_neg (by simp), joinStar_text]
      have := C24_one_over d (ds.map star) true true num0 den0 (hd d (by simp))
        (by
          intro i hi
          obtain ⟨x, hx, rfl⟩ := List.mem_map.1 hi
          exact hd x (by simp [hx]))
        (by
          intro i hi
          obtain ⟨x, hx, rfl⟩ := List.mem_map.1 hi
          rfl)
      rw [show (ds.map star).map (·.name) = ds by simp [star, Function.comp_def]] at this
      simpa using this
  | cons n ns =>
    cases den with
    | nil =>
      rw [if_neg (by simp), if_neg (by simp), if_pos rfl, List.append_nil, joinStar_text]
      rw [C24_spacing n (ns.map star) num0 den0 (hn n (by simp))
        (by
          intro i hi
          obtain ⟨x, hx, rfl⟩ := List.mem_map.1 hi
          exact hn x (by simp [hx]))
        (by
          have : (ns.map star).filter (·.slash) = [] := by
            rw [List.filter_eq_nil_iff]
            intro i hi
            obtain ⟨x, hx, rfl⟩ := List.mem_map.1 hi
            simp [star]
          simp [this])
        (by
          rintro ⟨_, i, rest, e, hs⟩
          cases ns with
          | nil => cases e
          | cons m ms => simp at e; rw [← e.1] at hs; cases hs)]
      rw [units_star_false, List.append_nil]
    | cons d ds =>
      rw [if_neg (by simp), if_neg (by simp), if_neg (by simp), joinStar_text, joinStar_text]
      have htext : dimText n (ns.map star) ++ (b!" / " ++ dimText d (ds.map star)) =
          dimText n (ns.map star ++ ⟨true, true, true, d⟩ :: ds.map star) := by
        unfold dimText
        rw [List.map_append, List.flatten_append, List.map_cons, List.flatten_cons]
        simp [Item.text]
      rw [htext, C24_spacing n _ num0 den0 (hn n (by simp))]
      · rw [units_star_slash]
      · intro i hi
        rcases List.mem_append.1 hi with hi | hi
        · obtain ⟨x, hx, rfl⟩ := List.mem_map.1 hi
          exact hn x (by simp [hx])
        · rcases List.mem_cons.1 hi with rfl | hi
          · exact hd d (by simp)
          · obtain ⟨x, hx, rfl⟩ := List.mem_map.1 hi
            exact hd x (by simp [hx])
      · have hz : ∀ xs : List Str, (xs.map star).filter (·.slash) = [] := by
          intro xs
          rw [List.filter_eq_nil_iff]
          intro i hi
          obtain ⟨x, hx, rfl⟩ := List.mem_map.1 hi
          simp [star]
        rw [List.filter_append, hz, List.filter_cons_of_pos rfl, hz]
        simp
      · rintro ⟨h1, i, rest, e, hs⟩
        cases ns with
        | nil => exact h ⟨by rw [h1], by simp⟩
        | cons m ms => simp at e; rw [← e.1] at hs; cases hs

/-! ### C23 -/

theorem count_eraseIdx {l : List Str} {k : Nat} {d : Str} (h : l[k]? = some d) (u : Str) :
    l.count u = (l.eraseIdx k).count u + if d = u then 1 else 0 := by
  induction l generalizing k with
  | nil => simp at h
  | cons x t ih =>
    cases k with
    | zero =>
      simp at h
      subst h
      rw [List.eraseIdx_cons_zero, List.count_cons]
      by_cases e : x = u <;> simp [e]
    | succ k =>
      rw [List.getElem?_cons_succ] at h
      rw [List.eraseIdx_cons_succ, List.count_cons, List.count_cons, ih h]
      omega

theorem simplify_spec (k : Nat) : ∀ (num den : List Str), k ≤ num.length →
    (∀ (j : Nat) (u : Str), k ≤ j → num[j]? = some u → u ∉ den) →
    (∀ u, exponent u (simplify k num den).1 (simplify k num den).2 = exponent u num den) ∧
    (∀ u, ¬ (u ∈ (simplify k num den).1 ∧ u ∈ (simplify k num den).2)) ∧
    (simplify k num den).1.Sublist num ∧ (simplify k num den).2.Sublist den := by
  induction k with
  | zero =>
    intro num den _ h
    rw [simplify]
    refine ⟨fun _ => rfl, ?_, List.Sublist.refl _, List.Sublist.refl _⟩
    rintro u ⟨h1, h2⟩
    obtain ⟨j, hj⟩ := List.getElem?_of_mem h1
    exact h j u (by omega) hj h2
  | succ k ih =>
    intro num den hk h
    rw [simplify]
    have e1 : num[k]? = some num[k] := List.getElem?_eq_getElem (by omega)
    generalize hd : num[k] = d at e1
    rw [e1]
    dsimp only
    by_cases hm : d ∈ den
    · rw [if_pos hm]
      obtain ⟨a1, a2, a3, a4⟩ := ih (num.eraseIdx k) (den.erase d)
        (by rw [List.length_eraseIdx_of_lt (by omega)]; omega)
        (by
          intro j u hj hu hmem
          rw [List.getElem?_eraseIdx_of_ge hj] at hu
          exact h (j + 1) u (by omega) hu (List.mem_of_mem_erase hmem))
      refine ⟨fun u => ?_, a2, a3.trans (List.eraseIdx_sublist _ _), a4.trans List.erase_sublist⟩
      rw [a1 u]
      unfold exponent
      have c1 := count_eraseIdx e1 u
      have c2 : den.count u = (den.erase d).count u + if d = u then 1 else 0 := by
        rw [List.count_erase]
        have hpos : d = u → 1 ≤ den.count u := fun e => by
          have : 0 < den.count u := List.count_pos_iff.2 (by rw [← e]; exact hm)
          omega
        by_cases e : d = u
        · have := hpos e
          simp [e]
          omega
        · simp [e]
      omega
    · rw [if_neg hm]
      apply ih num den (by omega)
      intro j u hj hu
      by_cases e : j = k
      · subst e
        rw [e1] at hu
        cases hu
        exact hm
      · exact h j u (by omega) hu

/-- C23: the dimension of a product (quotient) of two numbers of any dimensions: every unit gets the
sum (difference) of its exponents, no unit is left on both sides of the '/', the units keep their
order, and no error is reported. -/
theorem C23_units (a b c d : List Str) (mult : Bool)
    (ha : ∀ u ∈ a, IsUnit u) (hb : ∀ u ∈ b, IsUnit u) (hc : ∀ u ∈ c, IsUnit u) (hd : ∀ u ∈ d, IsUnit u)
    (h1 : ¬ (a = [b!"1"] ∧ b ≠ [])) (h2 : ¬ (c = [b!"1"] ∧ d ≠ [])) :
    ∃ e f, combine (rebuild a b) mult (rebuild c d) = (rebuild e f, []) ∧
      (∀ u, exponent u e f = exponent u a b + (if mult then exponent u c d else -exponent u c d)) ∧
      (∀ u, ¬ (u ∈ e ∧ u ∈ f)) ∧
      e.Sublist (a ++ if mult then c else d) ∧ f.Sublist (b ++ if mult then d else c) := by
  unfold combine
  rw [C24_reread a b ha hb h1]
  dsimp only
  rw [List.nil_append, List.nil_append]
  cases mult with
  | true =>
    rw [if_pos rfl, C24_reread c d hc hd h2]
    dsimp only
    obtain ⟨s1, s2, s3, s4⟩ := simplify_spec (a ++ c).length (a ++ c) (b ++ d) (Nat.le_refl _)
      (by
        intro j u hj hu
        rw [List.getElem?_eq_none (by omega)] at hu
        cases hu)
    refine ⟨_, _, rfl, fun u => ?_, s2, s3, s4⟩
    rw [s1 u]
    unfold exponent
    rw [List.count_append, List.count_append, if_pos rfl]
    omega
  | false =>
    rw [if_neg (by simp), C24_reread c d hc hd h2]
    dsimp only
    obtain ⟨s1, s2, s3, s4⟩ := simplify_spec (a ++ d).length (a ++ d) (b ++ c) (Nat.le_refl _)
      (by
        intro j u hj hu
        rw [List.getElem?_eq_none (by omega)] at hu
        cases hu)
    refine ⟨_, _, rfl, fun u => ?_, s2, s3, s4⟩
    rw [s1 u]
    unfold exponent
    rw [List.count_append, List.count_append, if_neg (by simp)]
    omega

/-! ### concrete cases -/

example : combine b!"px * em" false b!"px * cm / vw" = (b!"em * vw / cm", []) := by decide
example : combine b!"px" false b!"px" = ([], []) := by decide
example : combine [] false b!"s" = (b!"1 / s", []) := by decide
example : combine b!"px*em/ s" true b!"s" = (b!"px * em", []) := by decide
example : IsUnit b!"px" := ⟨by decide, by decide⟩
example : combine b!"px / em / s" true b!"s" = (b!"px * s / em", [.secondSlash]) := by decide

/-- Why the unit "1" has to be excluded (it can be written with an escape, `3\31`). -/
theorem C24_refuted_unit_one :
    rebuild [b!"1"] [b!"s"] = b!"1 / s" ∧ toVectors b!"1 / s" [] [] = ([], [b!"s"], none) := by decide

end Csspp.Dim
