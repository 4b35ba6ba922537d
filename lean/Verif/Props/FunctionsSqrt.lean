import Verif.Props.FunctionsMax
import Verif.Props.Dimension

/-!
C77: the unit of a square root.
-/

namespace Csspp.Func
open Csspp.Flt Csspp.Expr Csspp.Spec

variable {α : Type}

theorem count_last {l : List Str} {d : Str} (h : l.getLast? = some d) (u : Str) :
    l.count u = l.dropLast.count u + if d = u then 1 else 0 := by
  have hne : l ≠ [] := by intro h2; subst h2; simp at h
  have e : l.getLast hne = d := by
    have := List.getLast?_eq_some_getLast hne
    rw [h] at this
    injection this with this
    exact this.symm
  have := List.dropLast_concat_getLast hne
  rw [e] at this
  conv => lhs; rw [← this]
  rw [List.count_append, List.count_singleton]
  congr 1
  simp

theorem pairs_spec : ∀ (fuel : Nat) (l acc : List Str), l.length ≤ fuel →
    (∃ s, pairs fuel l acc = some (acc ++ s) ∧ ∀ u, l.count u = 2 * s.count u) ∨
    (pairs fuel l acc = none ∧ ∃ u, l.count u % 2 = 1) := by
  intro fuel
  induction fuel with
  | zero =>
    intro l acc h
    have : l = [] := List.length_eq_zero_iff.1 (by omega)
    subst this
    exact .inl ⟨[], by rw [List.append_nil]; rfl, fun _ => rfl⟩
  | succ fuel ih =>
    intro l acc h
    unfold pairs
    cases hl : l.getLast? with
    | none =>
      have : l = [] := List.getLast?_eq_none_iff.1 hl
      subst this
      exact .inl ⟨[], by rw [List.append_nil], fun _ => rfl⟩
    | some d =>
      dsimp only
      have hc := count_last hl
      have hlen : l.dropLast.length = l.length - 1 := List.length_dropLast
      by_cases hd : d ∈ l.dropLast
      · rw [if_pos hd]
        have hpos := List.count_pos_iff.2 hd
        have hce : ∀ u, l.count u = (l.dropLast.erase d).count u + if d = u then 2 else 0 := by
          intro u
          rw [hc u, List.count_erase]
          by_cases hu : d = u
          · subst hu
            simp
            omega
          · simp [hu]
        have hl2 : (l.dropLast.erase d).length ≤ fuel := by
          rw [List.length_erase_of_mem hd]
          omega
        rcases ih (l.dropLast.erase d) (acc ++ [d]) hl2 with ⟨s, h1, h2⟩ | ⟨h1, u, h2⟩
        · refine .inl ⟨d :: s, by rw [h1, List.append_assoc]; rfl, ?_⟩
          intro u
          rw [hce u, h2 u, List.count_cons]
          by_cases hu : d = u
          · subst hu
            simp
            omega
          · simp [hu]
        · refine .inr ⟨h1, u, ?_⟩
          rw [hce u]
          split <;> omega
      · rw [if_neg hd]
        refine .inr ⟨rfl, d, ?_⟩
        rw [hc d, List.count_eq_zero.2 hd, if_pos rfl]

theorem even_length {l s : List Str} (h : ∀ u, l.count u = 2 * s.count u) : l.length = 2 * s.length := by
  have : l.Perm (s ++ s) := by
    rw [List.perm_iff_count]
    intro u
    rw [h u, List.count_append]
    omega
  rw [this.length_eq, List.length_append]
  omega

theorem rebuild_ne_nil {e f : List Str} (he : ∀ u ∈ e, IsUnit u) (h : e ≠ [] ∨ f ≠ []) : Dim.rebuild e f ≠ [] := by
  unfold Dim.rebuild
  rw [if_neg (by intro h2; rcases h with h | h; exact h h2.1; exact h h2.2)]
  intro h2
  have h3 := (List.append_eq_nil_iff.1 h2).1
  cases e with
  | nil => simp at h3
  | cons x t =>
    rw [if_neg (by simp)] at h3
    have hx := (he x (by simp)).1
    cases t with
    | nil => exact hx h3
    | cons y t =>
      unfold Dim.joinStar at h3
      have := (List.append_eq_nil_iff.1 (List.append_eq_nil_iff.1 h3).1).1
      exact hx this

/-- C77: the square root of a number of zero or more with units is the square root of the number, with each unit half as many
times, above and under the slash; when a unit is there an odd number of times it is exactly one error. -/
theorem C77_units (env : Env α) (n : Int) (x : Fp) (hx : lt x (.fin false 0) = false) (a b : List Str)
    (ha : ∀ u ∈ a, IsUnit u) (hb : ∀ u ∈ b, IsUnit u) (h1 : ¬ (a = [b!"1"] ∧ b ≠ [])) (h0 : a ≠ [] ∨ b ≠ [])
    (v : Val α) (hv : v = .dec x (Dim.rebuild a b) ∨ ∃ i, v = .int i (Dim.rebuild a b) ∧ x = ofInt f64 i) :
    (∃ e f, (∀ u, a.count u = 2 * e.count u) ∧ (∀ u, b.count u = 2 * f.count u) ∧
      call env n b!"sqrt" [[v]] = (.ok (.node (.dec (env.sqrt x) (Dim.rebuild e f))) [], n)) ∨
    ((∃ u, a.count u % 2 = 1 ∨ b.count u % 2 = 1) ∧ call env n b!"sqrt" [[v]] = (.ok .null [.sqrtUnit], n)) := by
  have hne : Dim.rebuild a b ≠ [] := rebuild_ne_nil ha h0
  have hv0 : ∃ w : Val α, getNumber [[v]] 0 = some (w, x) ∧ unitOf w = Dim.rebuild a b := by
    rcases hv with rfl | ⟨i, rfl, hi⟩
    · exact ⟨_, rfl, rfl⟩
    · have : getNumber [[(.int i (Dim.rebuild a b) : Val α)]] 0 = some (.int i (Dim.rebuild a b), toDouble i) := rfl
      have e : toDouble i = x := by rw [hi]; unfold toDouble; rfl
      rw [e] at this
      exact ⟨_, this, rfl⟩
  obtain ⟨w, hg, hw⟩ := hv0
  have hcall : call env n b!"sqrt" [[v]] =
      ((match sqrtUnit (Dim.rebuild a b) with
        | (u, es) => if u = [] then .ok .null (es ++ [.sqrtUnit]) else .ok (.node (.dec (env.sqrt x) u)) es), n) := by
    show (fSqrt env [[v]], n) = _
    unfold fSqrt
    rw [hg]
    dsimp only
    rw [lit_zero, hx, hw, if_neg (by simp), if_neg hne]
  have hvec : Dim.toVectors (Dim.rebuild a b) [] [] = (a, b, none) := by
    have := Dim.C24_reread a b ha hb h1 [] []
    exact this
  rw [hcall]
  have hsu : sqrtUnit (Dim.rebuild a b) = (if a.length % 2 = 0 ∧ b.length % 2 = 0 then
      match pairs a.length a [], pairs b.length b [] with
      | some n, some d => Dim.rebuild n d
      | _, _ => []
     else [], []) := by
    unfold sqrtUnit
    rw [hvec]
    rfl
  rw [hsu]
  dsimp only
  rcases pairs_spec a.length a [] (Nat.le_refl _) with ⟨e, he1, he2⟩ | ⟨he1, u, he2⟩
  · rcases pairs_spec b.length b [] (Nat.le_refl _) with ⟨f, hf1, hf2⟩ | ⟨hf1, u, hf2⟩
    · left
      refine ⟨e, f, he2, hf2, ?_⟩
      have l1 := even_length he2
      have l2 := even_length hf2
      have hb2 : a.length % 2 = 0 ∧ b.length % 2 = 0 := ⟨by omega, by omega⟩
      simp only [if_pos hb2, he1, hf1]
      have hu : ∀ u ∈ e, IsUnit u := by
        intro u hu
        refine ha u (List.count_pos_iff.1 ?_)
        have := List.count_pos_iff.2 hu
        rw [he2 u]
        omega
      have hne2 : e ≠ [] ∨ f ≠ [] := by
        rcases h0 with h0 | h0
        · left
          intro h
          subst h
          exact h0 (List.length_eq_zero_iff.1 l1)
        · right
          intro h
          subst h
          exact h0 (List.length_eq_zero_iff.1 l2)
      have := rebuild_ne_nil hu hne2
      simp only [List.nil_append]
      rw [if_neg this]
    · right
      refine ⟨⟨u, .inr hf2⟩, ?_⟩
      simp only [he1, hf1]
      split <;> rfl
  · right
    refine ⟨⟨u, .inl he2⟩, ?_⟩
    simp only [he1]
    split <;> rfl

/-- C77: without a unit; and a negative number is exactly one error. -/
theorem C77_plain (env : Env α) (n : Int) (x : Fp) (u : Str) :
    (lt x (.fin false 0) = false → call env n b!"sqrt" [[.dec x []]] = (.ok (.node (.dec (env.sqrt x) [])) [], n)) ∧
    (lt x (.fin false 0) = true → call env n b!"sqrt" [[.dec x u]] = (.ok .null [.sqrtNegative], n)) := by
  constructor
  · intro h
    show (if lt x (lit 0) then fail .sqrtNegative else val (.dec (env.sqrt x) []), n) = _
    rw [lit_zero, h]
    rfl
  · intro h
    show (if lt x (lit 0) then fail .sqrtNegative else _, n) = _
    rw [lit_zero, h]
    rfl

example : Dim.rebuild [b!"px", b!"s", b!"s", b!"px"] [b!"em", b!"em"] = b!"px * s * s * px / em * em" ∧
    pairs 4 [b!"px", b!"s", b!"s", b!"px"] [] = some [b!"px", b!"s"] := by decide

end Csspp.Func
