import Verif.Props.Pipeline

/-!
C96: sums in the values of declarations, from the text of the style sheet to what is written.
-/

namespace Csspp.Spec.Plain
open Csspp.Pipeline (run)

/-- C96: a style sheet with sums and the style sheet with the values in their place, both laid out in any way, give the
same text, without a message. -/
theorem C96_folding (env : Expr.Env) (E : Pipeline.Env) (hE : E.comp.arg = Pipeline.exprArg env) (S : Sheet) (hS : S.Ok)
    (hne : S ≠ []) (hs : ∀ r ∈ S, ∀ d ∈ r.decls, E.comp.slash d.name = false) (a b : Str) (ha : Lays (items S) a)
    (hb : Lays (items S.computed) b) : ∃ k t, ∀ f ≥ k, run E f .compressed a = .ok t [] ∧ run E f .compressed b = .ok t [] := by
  obtain ⟨k, h1⟩ := C83_minified env E hE S hS hne hs a ha
  obtain ⟨k', h2⟩ := C83_minified env E hE S.computed (computed_ok hS) (by simpa [Sheet.computed] using hne)
    (fun r hr d hd => by
      obtain ⟨r', hr', rfl⟩ := List.mem_map.1 hr
      obtain ⟨d', hd', rfl⟩ := List.mem_map.1 hd
      exact hs r' hr' d' hd') b hb
  rw [computed_active, computed_computed] at h2
  exact ⟨k + k', _, fun f hf => ⟨h1 f (by omega), h2 f (by omega)⟩⟩

/-- C96: nothing of a sum is left: what is written is the text of a style sheet without a sum. -/
theorem C96_no_sum (env : Expr.Env) (E : Pipeline.Env) (hE : E.comp.arg = Pipeline.exprArg env) (S : Sheet) (hS : S.Ok)
    (hne : S ≠ []) (hs : ∀ r ∈ S, ∀ d ∈ r.decls, E.comp.slash d.name = false) (src : Str) (h : Lays (items S) src) :
    ∃ k t T, (∀ f ≥ k, run E f .compressed src = .ok t []) ∧ Lays (items T) t ∧ T.Ok ∧
      ∀ r ∈ T, ∀ d ∈ r.decls, ∀ g ∈ d.values, ∀ v ∈ g, ∀ i more u, v ≠ .sum i more u := by
  obtain ⟨k, h1⟩ := C83_minified env E hE S hS hne hs src h
  refine ⟨k, _, S.active.computed, h1, lays_shortest _, computed_ok (active_ok hS), ?_⟩
  intro r hr d hd g hg v hv i more u
  obtain ⟨r', _, rfl⟩ := List.mem_map.1 hr
  obtain ⟨d', _, rfl⟩ := List.mem_map.1 hd
  obtain ⟨g', _, rfl⟩ := List.mem_map.1 hg
  obtain ⟨v', _, rfl⟩ := List.mem_map.1 hv
  cases v' <;> simp [Val.value]

/-- The hypotheses are met: the style sheet of C83 has the sum `-2px + 5px - 1px`, and `2px` in its place gives the same. -/
example (env : Expr.Env) (E : Pipeline.Env) (hE : E.comp.arg = Pipeline.exprArg env) (hs : ∀ s, E.comp.slash s = false) :
    ∃ k t, ∀ f ≥ k, run E f .compressed b!" a.b > c , #d { margin : 0 auto ; x : \"y\" , -2px + 5px - 1px } e { } " = .ok t [] ∧
      run E f .compressed b!"a.b>c,#d{margin:0 auto;x:\"y\",2px}e{}" = .ok t [] := by
  have e1 : fill [32] (items sample) = b!" a.b > c , #d { margin : 0 auto ; x : \"y\" , -2px + 5px - 1px } e { } " := by decide
  have e2 : shortest (items sample.computed) = b!"a.b>c,#d{margin:0 auto;x:\"y\",2px}e{}" := by decide
  have h := C96_folding env E hE sample sample_ok (by simp [sample]) (fun _ _ _ _ => hs _) _ _
    (lays_fill (g := [32]) (by intro c hc; simp at hc; exact .inl hc) (by simp) (items sample)) (lays_shortest (items sample.computed))
  rw [e1, e2] at h
  exact h

end Csspp.Spec.Plain
