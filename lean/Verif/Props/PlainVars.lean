import Verif.Lemmas.PlainDef
import Verif.Props.Pipeline

/-!
C97: a plain style sheet with variables.
-/

namespace Csspp.Spec.Plain
open Csspp.Spec (Word)
open Csspp.Lex (Tok Pos)
open Csspp.Parse
open Csspp.Pipeline (run)

theorem values_ok {ds : List Def} (hd : ∀ d ∈ ds, d.Ok) {n : Str} (h : ∃ d ∈ ds, d.name = n) : (values ds n).Ok := by
  obtain ⟨v, e, d, h1, _, h2⟩ := lookup_defined h
  unfold values
  rw [e]
  show v.Ok
  rw [← h2]
  exact (hd d h1).2.1

theorem replace_ok {ds : List Def} (hd : ∀ d ∈ ds, d.Ok) {S : Sheet} (hS : S.Src) (hdef : Defined ds S) : (S.replace (values ds)).Ok := by
  intro r0 hr0
  obtain ⟨r, hr, rfl⟩ := List.mem_map.1 hr0
  refine ⟨(hS r hr).1, (hS r hr).2.1, fun d0 hd0 => ?_⟩
  obtain ⟨d, hd', rfl⟩ := List.mem_map.1 hd0
  obtain ⟨a, b, c⟩ := (hS r hr).2.2 d hd'
  refine ⟨a, by show d.values.map _ ≠ []; simpa using b, fun g0 hg0 => ?_⟩
  obtain ⟨g, hg, rfl⟩ := List.mem_map.1 hg0
  refine ⟨by simpa using (c g hg).1, fun v0 hv0 => ?_⟩
  obtain ⟨v, hv, rfl⟩ := List.mem_map.1 hv0
  rcases (c g hg).2 v hv with h | ⟨n, rfl, _⟩
  · rw [val_same h]; exact h
  · exact values_ok hd (hdef r hr d hd' g hg n hv)

/-- The tree that is written, in the same way for all the modes. -/
theorem defs_run {E : Pipeline.Env} (hE : Keeps E.comp) {ds : List Def} (hd : ∀ d ∈ ds, d.Ok)
    {S : Sheet} (hS : S.Src) (hdef : Defined ds S) (hne : S ≠ [])
    (hs : ∀ r ∈ S, ∀ d ∈ r.decls, E.comp.slash d.name = false) {src : Str} (h : Lays (withVars ds S) src) :
    ∃ p ns k, Each CRule (S.replace (values ds)).active ns ∧
      ∀ f ≥ k, ∀ m, run E f m src = Pipeline.write E m (.mk { ty := .LIST, pos := p } ns) [] := by
  have hR := replace_ok hd hS hdef
  have hsR : ∀ r ∈ S.replace (values ds), ∀ d ∈ r.decls, E.comp.slash d.name = false := by
    intro r hr d hd
    obtain ⟨r', hr', rfl⟩ := List.mem_map.1 hr
    obtain ⟨d', hd', rfl⟩ := List.mem_map.1 hd
    exact hs r' hr' d' hd'
  obtain ⟨h1, e1, e2, e3⟩ := vars_tokens hd hS h (f := src.length + 1) (by omega)
  unfold run
  generalize Lex.lexAll (src.length + 1) (Lex.init src) = r at h1 e1 e2 e3 ⊢
  obtain ⟨ts, s⟩ := r
  dsimp only at h1 e1 e2 e3 ⊢
  obtain ⟨p, m1, n1, h0, h2, e4⟩ := vars_tree hd hS h1 (fin := s.pos) (f := 5 * ts.length + 11) (by omega)
  obtain ⟨n2, s', h3, e0, k1, e5⟩ := sheet_refs E.vars hd hS hdef hne h0 h2 p {}
  obtain ⟨n3, h4, e6⟩ := sheet_comp hE hR hsR h3 p
  obtain ⟨n4, h5, e7⟩ := sheet_kept h4 p
  obtain ⟨k3, e8⟩ := sheet_still (active_ok hR) h5 p
  obtain ⟨k2, e6⟩ := e6 {} rfl
  refine ⟨p, n4, k1 + k2 + k3, h5, fun f hf m => ?_⟩
  rw [e2]
  dsimp only
  rw [e3, e4, e1]
  dsimp only
  unfold Pipeline.variables
  rw [show Vars.replaceRoot E.vars f (Vars.mark false (.mk { ty := .LIST, pos := p } (m1 ++ n1))) {} = _ from e5 f (by omega)]
  dsimp only
  rw [e0]
  unfold Pipeline.compile
  rw [show Compile.comp E.comp f (.mk { ty := .LIST, pos := p } n2) {} = _ from e6 f (by omega)]
  dsimp only
  rw [e7]
  dsimp only
  unfold Pipeline.expand
  rw [e8 f (by omega)]
  rfl

/-- C97: the text of a plain style sheet with variables, defined first, is written as its shortest text where every reference is
replaced by the value of the last definition of its name. -/
theorem C97_text (env : Expr.Env) (E : Pipeline.Env) (hE : E.comp.arg = Pipeline.exprArg env) (ds : List Def) (hd : ∀ d ∈ ds, d.Ok)
    (S : Sheet) (hS : S.Src) (hdef : Defined ds S) (hne : S ≠ [])
    (hs : ∀ r ∈ S, ∀ d ∈ r.decls, E.comp.slash d.name = false) (src : Str) (h : Lays (withVars ds S) src) :
    ∃ k, ∀ f ≥ k, run E f .compressed src = .ok (shortest (items (S.replace (values ds)).active.computed)) [] := by
  obtain ⟨p, ns, k, h1, h2⟩ := defs_run (C83_values env _ hE) hd hS hdef hne hs h
  obtain ⟨calls, o1, o2, o3⟩ := sheet_out (p := E.precision) (pow := E.pow10) (active_ok (replace_ok hd hS hdef)) h1 p
  refine ⟨k, fun f hf => ?_⟩
  rw [h2 f hf]
  unfold Pipeline.write
  rw [o1]
  dsimp only
  rw [filter_report o2]
  unfold Asm.Mode.text
  rw [o3]
  rfl

/-- C97: the other modes write the same text up to the blanks and the line feeds; EXPANDED may also write a `;` in front
of a `}`. -/
theorem C97_modes (env : Expr.Env) (E : Pipeline.Env) (hE : E.comp.arg = Pipeline.exprArg env) (ds : List Def) (hd : ∀ d ∈ ds, d.Ok)
    (S : Sheet) (hS : S.Src) (hdef : Defined ds S) (hne : S ≠ [])
    (hs : ∀ r ∈ S, ∀ d ∈ r.decls, E.comp.slash d.name = false) (src : Str) (h : Lays (withVars ds S) src) (m : Asm.Mode) :
    ∃ k t, (∀ f ≥ k, run E f m src = .ok t []) ∧
      (m ≠ .expanded → Asm.squeeze t = Asm.squeeze (shortest (items (S.replace (values ds)).active.computed))) ∧
      (m = .expanded → Asm.SemiText (Asm.squeeze (shortest (items (S.replace (values ds)).active.computed))) (Asm.squeeze t)) := by
  obtain ⟨p, ns, k, h1, h2⟩ := defs_run (C83_values env _ hE) hd hS hdef hne hs h
  obtain ⟨calls, e1, e2, e3⟩ := sheet_out (p := E.precision) (pow := E.pow10) (active_ok (replace_ok hd hS hdef)) h1 p
  have hw : ∀ m, Asm.Mode.write m E.precision (Pipeline.toTree E.pow10 (.mk { ty := .LIST, pos := p } ns)) = .ok (m.text calls) := by
    intro m
    unfold Asm.Mode.write
    rw [e1]
  have hc : Asm.Mode.text .compressed calls = shortest (items (S.replace (values ds)).active.computed) := by
    unfold Asm.Mode.text
    rw [e3]
    rfl
  refine ⟨k, m.text calls, fun f hf => ?_, fun hm => ?_, fun hm => ?_⟩
  · rw [h2 f hf]
    unfold Pipeline.write
    rw [e1]
    dsimp only
    rw [filter_report e2]
    rfl
  · rw [← hc]
    exact Asm.C40_same m .compressed hm (by simp) _ _ (hw m) (hw .compressed)
  · rw [← hc]
    subst hm
    exact Asm.C40_expanded .compressed (by simp) _ _ (hw .compressed) (hw .expanded)

/-- C97: writing the values instead of the references changes nothing. -/
theorem C97_replaced (env : Expr.Env) (E : Pipeline.Env) (hE : E.comp.arg = Pipeline.exprArg env) (ds : List Def) (hd : ∀ d ∈ ds, d.Ok)
    (S : Sheet) (hS : S.Src) (hdef : Defined ds S) (hne : S ≠ [])
    (hs : ∀ r ∈ S, ∀ d ∈ r.decls, E.comp.slash d.name = false) (a b : Str) (ha : Lays (withVars ds S) a)
    (hb : Lays (items (S.replace (values ds))) b) :
    ∃ k t, ∀ f ≥ k, run E f .compressed a = .ok t [] ∧ run E f .compressed b = .ok t [] := by
  obtain ⟨k, h1⟩ := C97_text env E hE ds hd S hS hdef hne hs a ha
  obtain ⟨k', h2⟩ := C83_minified env E hE _ (replace_ok hd hS hdef) (by simpa [Sheet.replace] using hne) (fun r hr d hd => by
    obtain ⟨r', hr', rfl⟩ := List.mem_map.1 hr
    obtain ⟨d', hd', rfl⟩ := List.mem_map.1 hd
    exact hs r' hr' d' hd') b hb
  exact ⟨k + k', _, fun f hf => ⟨h1 f (by omega), h2 f (by omega)⟩⟩

theorem replace_agree {σ τ : Str → Val} {S : Sheet}
    (h : ∀ r ∈ S, ∀ d ∈ r.decls, ∀ g ∈ d.values, ∀ n, .var n ∈ g → σ n = τ n) : S.replace σ = S.replace τ := by
  refine List.map_congr_left fun r hr => ?_
  unfold Rule.replace
  congr 1
  refine List.map_congr_left fun d hd => ?_
  unfold Decl.replace
  congr 1
  refine List.map_congr_left fun g hg => ?_
  refine List.map_congr_left fun v hv => ?_
  cases v with
  | var n => exact h r hr d hd g hg n hv
  | _ => rfl

/-- C97: only the last definitions of the names that are used count: two lists of definitions that agree on them (in another
order, with some that are not used, or with some that are replaced later) give the same text. -/
theorem C97_agree (env : Expr.Env) (E : Pipeline.Env) (hE : E.comp.arg = Pipeline.exprArg env) (ds es : List Def)
    (hd : ∀ d ∈ ds, d.Ok) (he : ∀ d ∈ es, d.Ok) (S : Sheet) (hS : S.Src) (hdef : Defined ds S) (hdef' : Defined es S) (hne : S ≠ [])
    (hs : ∀ r ∈ S, ∀ d ∈ r.decls, E.comp.slash d.name = false)
    (h : ∀ r ∈ S, ∀ d ∈ r.decls, ∀ g ∈ d.values, ∀ n, .var n ∈ g → lookup ds n = lookup es n) (a b : Str)
    (ha : Lays (withVars ds S) a) (hb : Lays (withVars es S) b) :
    ∃ k t, ∀ f ≥ k, run E f .compressed a = .ok t [] ∧ run E f .compressed b = .ok t [] := by
  obtain ⟨k, h1⟩ := C97_text env E hE ds hd S hS hdef hne hs a ha
  obtain ⟨k', h2⟩ := C97_text env E hE es he S hS hdef' hne hs b hb
  have e : S.replace (values ds) = S.replace (values es) := replace_agree fun r hr d hd g hg n hn => by
    unfold values
    rw [h r hr d hd g hg n hn]
  rw [← e] at h2
  exact ⟨k + k', _, fun f hf => ⟨h1 f (by omega), h2 f (by omega)⟩⟩

/-- C97: the text written is one of a plain style sheet (so nothing in it is a definition, a reference or a sum), and minifying it
again changes nothing. -/
theorem C97_again (env : Expr.Env) (E : Pipeline.Env) (hE : E.comp.arg = Pipeline.exprArg env) (ds : List Def) (hd : ∀ d ∈ ds, d.Ok)
    (S : Sheet) (hS : S.Src) (hdef : Defined ds S) (hne : (S.replace (values ds)).active ≠ [])
    (hs : ∀ r ∈ S, ∀ d ∈ r.decls, E.comp.slash d.name = false) (src : Str) (h : Lays (withVars ds S) src) :
    ∃ k t T, (∀ f ≥ k, run E f .compressed src = .ok t [] ∧ run E f .compressed t = .ok t []) ∧ Lays (items T) t ∧ T.Ok ∧
      ∀ r ∈ T, ∀ d ∈ r.decls, ∀ g ∈ d.values, ∀ v ∈ g, (∀ n, v ≠ .var n) ∧ ∀ i more u, v ≠ .sum i more u := by
  have hne' : S ≠ [] := fun e => hne (by rw [e]; rfl)
  have hR := replace_ok hd hS hdef
  have hC := computed_ok (active_ok hR)
  obtain ⟨k, h1⟩ := C97_text env E hE ds hd S hS hdef hne' hs src h
  obtain ⟨k', t', h2⟩ := C83_again env E hE (S.replace (values ds)) hR hne (fun r hr d hd => by
    obtain ⟨r', hr', rfl⟩ := List.mem_map.1 hr
    obtain ⟨d', hd', rfl⟩ := List.mem_map.1 hd
    exact hs r' hr' d' hd') (shortest (items (S.replace (values ds)))) (lays_shortest _)
  obtain ⟨k2, h3⟩ := C83_minified env E hE (S.replace (values ds)) hR (by simpa [Sheet.replace] using hne') (fun r hr d hd => by
    obtain ⟨r', hr', rfl⟩ := List.mem_map.1 hr
    obtain ⟨d', hd', rfl⟩ := List.mem_map.1 hd
    exact hs r' hr' d' hd') (shortest (items (S.replace (values ds)))) (lays_shortest _)
  have e : t' = shortest (items (S.replace (values ds)).active.computed) := by
    have a := (h2 (k' + k2) (by omega)).1
    rw [h3 (k' + k2) (by omega)] at a
    injection a with a
    exact a.symm
  subst e
  refine ⟨k + k', _, _, fun f hf => ⟨h1 f (by omega), (h2 f (by omega)).2⟩, lays_shortest _, hC, fun r hr d hd' g hg v hv => ⟨?_, ?_⟩⟩
  · intro n e
    subst e
    exact ((((hC r hr).2.2 d hd').2.2 g hg).2 _ hv).elim
  · intro i more u
    obtain ⟨r', _, rfl⟩ := List.mem_map.1 hr
    obtain ⟨d', _, rfl⟩ := List.mem_map.1 hd'
    obtain ⟨g', _, rfl⟩ := List.mem_map.1 hg
    obtain ⟨v', _, rfl⟩ := List.mem_map.1 hv
    cases v' <;> simp [Val.value]

/-! ### An example -/

def sampleDefs : List Def := [⟨b!"a", .word b!"auto"⟩, ⟨b!"w", .int 10 b!"px"⟩, ⟨b!"a", .word b!"none"⟩]
def sampleVars : Sheet :=
  [ { sels := [ { first := [.tag b!"p"], more := [] } ]
      decls := [ { name := b!"display", values := [[.var b!"a"]] },
                 { name := b!"margin", values := [[.var b!"w", .int 2 [], .var b!"w"], [.var b!"a"]] } ] } ]

theorem sampleDefs_ok : ∀ d ∈ sampleDefs, d.Ok := by
  have h1 : ¬ Special b!"auto" := by unfold Special; decide +kernel
  have h2 : ¬ Special b!"none" := by unfold Special; decide +kernel
  intro d hd
  simp only [sampleDefs, List.mem_cons, List.not_mem_nil, or_false] at hd
  rcases hd with rfl | rfl | rfl
  · exact ⟨⟨by simp, by decide⟩, ⟨letters_name (by decide) (by decide) (by decide), h1⟩, by simp⟩
  · exact ⟨⟨by simp, by decide⟩, ⟨by decide, by decide, by decide, by decide⟩, by simp⟩
  · exact ⟨⟨by simp, by decide⟩, ⟨letters_name (by decide) (by decide) (by decide), h2⟩, by simp⟩

theorem sampleVars_src : sampleVars.Src := by
  have np := letters_name (s := b!"p") (by decide) (by decide) (by decide)
  have va : VarName b!"a" := ⟨by simp, by decide⟩
  have vw : VarName b!"w" := ⟨by simp, by decide⟩
  intro r hr
  rw [List.mem_singleton.1 hr]
  refine ⟨by simp, ?_, ?_⟩
  · intro s hs
    rw [List.mem_singleton.1 hs]
    exact ⟨⟨by simp, by intro s hs; rw [List.mem_singleton.1 hs]; exact np, by simp⟩, by simp, by decide⟩
  · intro d hd
    simp only [List.mem_cons, List.not_mem_nil, or_false] at hd
    rcases hd with rfl | rfl
    · refine ⟨letters_plain (by decide) (by decide) (by decide), by simp, fun g hg => ?_⟩
      rw [List.mem_singleton.1 hg]
      refine ⟨by simp, fun v hv => ?_⟩
      rw [List.mem_singleton.1 hv]
      exact .inr ⟨_, rfl, va⟩
    · refine ⟨letters_plain (by decide) (by decide) (by decide), by simp, fun g hg => ?_⟩
      simp only [List.mem_cons, List.not_mem_nil, or_false] at hg
      rcases hg with rfl | rfl
      · refine ⟨by simp, fun v hv => ?_⟩
        simp only [List.mem_cons, List.not_mem_nil, or_false] at hv
        rcases hv with rfl | rfl | rfl
        · exact .inr ⟨_, rfl, vw⟩
        · exact .inl ⟨by decide, by decide, by decide, by decide⟩
        · exact .inr ⟨_, rfl, vw⟩
      · refine ⟨by simp, fun v hv => ?_⟩
        rw [List.mem_singleton.1 hv]
        exact .inr ⟨_, rfl, va⟩

theorem sample_defined : Defined sampleDefs sampleVars := by
  intro r hr d hd g hg n hn
  have hr := List.mem_singleton.1 hr
  subst hr
  have : n = b!"a" ∨ n = b!"w" := by
    simp only [List.mem_cons, List.not_mem_nil, or_false] at hd
    rcases hd with rfl | rfl
    · rw [List.mem_singleton.1 hg] at hn
      simp at hn
      exact .inl hn
    · simp only [List.mem_cons, List.not_mem_nil, or_false] at hg
      rcases hg with rfl | rfl
      · simp at hn
        exact .inr hn
      · simp at hn
        exact .inl hn
  rcases this with rfl | rfl
  · exact ⟨_, List.mem_cons_self, rfl⟩
  · exact ⟨⟨b!"w", .int 10 b!"px"⟩, by simp [sampleDefs], rfl⟩

/-- The hypotheses of C97_text, and what is written: the last definition of a name is the one that counts. -/
example (env : Expr.Env) (E : Pipeline.Env) (hE : E.comp.arg = Pipeline.exprArg env) (hs : ∀ s, E.comp.slash s = false) :
    ∃ k, ∀ f ≥ k, run E f .compressed
      b!" $a : auto ; $w : 10px ; $a : none ; p { display : $a ; margin : $w 2 $w , $a } " =
      .ok b!"p{display:none;margin:10px 2 10px,none}" [] := by
  have h := C97_text env E hE sampleDefs sampleDefs_ok sampleVars sampleVars_src sample_defined (by simp [sampleVars]) (fun _ _ _ _ => hs _) _
    (lays_fill (g := [32]) (by intro c hc; simp at hc; exact .inl hc) (by simp) (withVars sampleDefs sampleVars))
  have e1 : fill [32] (withVars sampleDefs sampleVars) =
      b!" $a : auto ; $w : 10px ; $a : none ; p { display : $a ; margin : $w 2 $w , $a } " := by decide
  have e2 : shortest (items (sampleVars.replace (values sampleDefs)).active.computed) =
      b!"p{display:none;margin:10px 2 10px,none}" := by decide
  rw [e1, e2] at h
  exact h

theorem sample_uses : ∀ r ∈ sampleVars, ∀ d ∈ r.decls, ∀ g ∈ d.values, ∀ n, .var n ∈ g → n = b!"a" ∨ n = b!"w" := by
  intro r hr d hd g hg n hn
  have hr := List.mem_singleton.1 hr
  subst hr
  simp only [List.mem_cons, List.not_mem_nil, or_false] at hd
  rcases hd with rfl | rfl
  · rw [List.mem_singleton.1 hg] at hn
    simp at hn
    exact .inl hn
  · simp only [List.mem_cons, List.not_mem_nil, or_false] at hg
    rcases hg with rfl | rfl
    · simp at hn
      exact .inr hn
    · simp at hn
      exact .inl hn

/-- The hypotheses of C97_agree: the first `$a` is not written and the other ones are in another order. -/
example (env : Expr.Env) (E : Pipeline.Env) (hE : E.comp.arg = Pipeline.exprArg env) (hs : ∀ s, E.comp.slash s = false) (a b : Str)
    (ha : Lays (withVars sampleDefs sampleVars) a)
    (hb : Lays (withVars [⟨b!"a", .word b!"none"⟩, ⟨b!"w", .int 10 b!"px"⟩] sampleVars) b) :
    ∃ k t, ∀ f ≥ k, run E f .compressed a = .ok t [] ∧ run E f .compressed b = .ok t [] := by
  have hm : ∀ d ∈ ([⟨b!"a", .word b!"none"⟩, ⟨b!"w", .int 10 b!"px"⟩] : List Def), d ∈ sampleDefs := by
    intro d hd
    simp only [List.mem_cons, List.not_mem_nil, or_false] at hd
    rcases hd with rfl | rfl <;> simp [sampleDefs]
  refine C97_agree env E hE sampleDefs _ sampleDefs_ok (fun d hd => sampleDefs_ok d (hm d hd)) sampleVars sampleVars_src sample_defined
    (fun r hr d hd g hg n hn => ?_) (by simp [sampleVars]) (fun _ _ _ _ => hs _) (fun r hr d hd g hg n hn => ?_) a b ha hb
  · rcases sample_uses r hr d hd g hg n hn with rfl | rfl
    · exact ⟨_, List.mem_cons_self, rfl⟩
    · exact ⟨⟨b!"w", .int 10 b!"px"⟩, by simp, rfl⟩
  · rcases sample_uses r hr d hd g hg n hn with rfl | rfl <;> rfl

/-- The hypotheses of C97_again. -/
example (env : Expr.Env) (E : Pipeline.Env) (hE : E.comp.arg = Pipeline.exprArg env) (hs : ∀ s, E.comp.slash s = false) :
    ∃ k t T, (∀ f ≥ k, run E f .compressed
      b!" $a : auto ; $w : 10px ; $a : none ; p { display : $a ; margin : $w 2 $w , $a } " = .ok t [] ∧
        run E f .compressed t = .ok t []) ∧ Lays (items T) t ∧ T.Ok ∧
      ∀ r ∈ T, ∀ d ∈ r.decls, ∀ g ∈ d.values, ∀ v ∈ g, (∀ n, v ≠ .var n) ∧ ∀ i more u, v ≠ .sum i more u := by
  have h := C97_again env E hE sampleDefs sampleDefs_ok sampleVars sampleVars_src sample_defined
    (by simp [sampleVars, Sheet.replace, Sheet.active, Rule.replace]) (fun _ _ _ _ => hs _) _
    (lays_fill (g := [32]) (by intro c hc; simp at hc; exact .inl hc) (by simp) (withVars sampleDefs sampleVars))
  have e1 : fill [32] (withVars sampleDefs sampleVars) =
      b!" $a : auto ; $w : 10px ; $a : none ; p { display : $a ; margin : $w 2 $w , $a } " := by decide
  rw [e1] at h
  exact h

end Csspp.Spec.Plain
