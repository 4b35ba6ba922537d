import Verif.Lemmas.PlainOut
import Verif.Lemmas.PlainExpr
import Verif.Props.Assembler

/-!
C83: a plain style sheet from its text to what is written: lexer, parser, compiler and assembler one after the other.
-/

namespace Csspp.Spec.Plain
open Csspp.Spec (Word)
open Csspp.Lex (Tok Pos)
open Csspp.Parse
open Csspp.Pipeline (run)

/-! ### The proof -/

theorem lays_shortest : ∀ l : List Item, Lays l (shortest l)
  | [] => .nil
  | .word _ :: l => .word (lays_shortest l)
  | .must :: l => .must (g := [32]) (by intro c hc; simp at hc; exact .inl hc) (by simp) (lays_shortest l)
  | .opt :: l => .opt (g := []) (by intro c hc; cases hc) (lays_shortest l)
  | .semi :: l => .noSemi (g := []) (by intro c hc; cases hc) (lays_shortest l)

theorem active_ok {S : Sheet} (h : S.Ok) : S.active.Ok := fun r hr => h r (List.mem_filter.1 hr).1

theorem active_active (S : Sheet) : Sheet.active (Sheet.active S) = Sheet.active S := by
  unfold Sheet.active
  rw [List.filter_filter]
  simp

theorem total_partial : ∀ (more : List (Bool × Int)) (i : Int), total i more ∈ partials i more
  | [], _ => by simp [total, partials]
  | (_, _) :: l, _ => by rw [total, partials]; exact List.mem_cons_of_mem _ (total_partial l _)

theorem value_ok {v : Val} (h : v.Ok) : v.value.Ok := by
  cases v with
  | var => exact h.elim
  | word s => exact h
  | int i u => exact h
  | str s => exact h
  | sum i more u =>
    have := h.2.1 _ (total_partial more i)
    exact ⟨this.1, this.2, h.2.2⟩

theorem computed_ok {S : Sheet} (h : S.Ok) : S.computed.Ok := by
  intro r0 hr0
  obtain ⟨r, hr, rfl⟩ := List.mem_map.1 hr0
  refine ⟨(h r hr).1, (h r hr).2.1, fun d0 hd0 => ?_⟩
  obtain ⟨d, hd, rfl⟩ := List.mem_map.1 hd0
  obtain ⟨h1, h2, h3⟩ := (h r hr).2.2 d hd
  refine ⟨h1, by simpa [Decl.computed] using h2, fun g0 hg0 => ?_⟩
  obtain ⟨g, hg, rfl⟩ := List.mem_map.1 hg0
  refine ⟨by simpa using (h3 g hg).1, fun v0 hv0 => ?_⟩
  obtain ⟨v, hv, rfl⟩ := List.mem_map.1 hv0
  exact value_ok ((h3 g hg).2 v hv)

theorem value_value (v : Val) : v.value.value = v.value := by cases v <;> rfl

theorem computed_computed (S : Sheet) : S.computed.computed = S.computed := by
  have e : ∀ d : Decl, d.computed.computed = d.computed := by
    intro d
    unfold Decl.computed
    dsimp only
    rw [List.map_map]
    congr 1
    refine List.map_congr_left fun g _ => ?_
    show (g.map Val.value).map Val.value = _
    rw [List.map_map]
    exact List.map_congr_left fun v _ => value_value v
  unfold Sheet.computed
  rw [List.map_map]
  refine List.map_congr_left fun r _ => ?_
  show Rule.computed (Rule.computed r) = _
  unfold Rule.computed
  dsimp only
  rw [List.map_map]
  congr 1
  exact List.map_congr_left fun d _ => e d

theorem computed_active (S : Sheet) : S.computed.active = S.active.computed := by
  unfold Sheet.active Sheet.computed
  rw [List.filter_map]
  congr 1
  refine List.filter_congr fun r _ => ?_
  show (!(r.decls.map Decl.computed).isEmpty) = _
  rw [List.isEmpty_map]

theorem filter_report {l : List Asm.Call} (h : Asm.Call.report ∉ l) : l.filter (· = .report) = [] := by
  rw [List.filter_eq_nil_iff]
  intro c hc e
  rw [decide_eq_true_iff] at e
  exact h (e ▸ hc)

/-- The tree that is written. -/
theorem run_tree {E : Pipeline.Env} (hE : Keeps E.comp) {S : Sheet} (hS : S.Ok) (hne : S ≠ [])
    (hs : ∀ r ∈ S, ∀ d ∈ r.decls, E.comp.slash d.name = false) {src : Str} (h : Lays (items S) src) :
    ∃ p ns k, Each CRule S.active ns ∧ ∀ f ≥ k, ∀ m, run E f m src = Pipeline.write E m (.mk { ty := .LIST, pos := p } ns) [] := by
  obtain ⟨h1, e1, e2, e3⟩ := sheet_tokens hS.src h (f := src.length + 1) (by omega)
  unfold run
  generalize Lex.lexAll (src.length + 1) (Lex.init src) = r at h1 e1 e2 e3 ⊢
  obtain ⟨ts, s⟩ := r
  dsimp only at h1 e1 e2 e3 ⊢
  obtain ⟨p, n1, h2, e4⟩ := sheet_tree hS.src h1 (fin := s.pos) (f := 5 * ts.length + 11) (by omega)
  obtain ⟨n2, h3, e5⟩ := sheet_vars E.vars hS hne h2 p
  obtain ⟨k1, e5⟩ := e5 {}
  obtain ⟨n3, h4, e6⟩ := sheet_comp hE hS hs h3 p
  obtain ⟨n4, h5, e7⟩ := sheet_kept h4 p
  obtain ⟨k3, e8⟩ := sheet_still (active_ok hS) h5 p
  obtain ⟨k2, e6⟩ := e6 {} rfl
  refine ⟨p, n4, k1 + k2 + k3, h5, fun f hf m => ?_⟩
  rw [e2]
  dsimp only
  rw [e3, e4, e1]
  dsimp only
  unfold Pipeline.variables
  rw [show Vars.replaceRoot E.vars f (Vars.mark false (.mk { ty := .LIST, pos := p } n1)) {} = _ from e5 f (by omega)]
  dsimp only
  unfold Pipeline.compile
  rw [show Compile.comp E.comp f (.mk { ty := .LIST, pos := p } n2) {} = _ from e6 f (by omega)]
  dsimp only
  rw [e7]
  dsimp only
  unfold Pipeline.expand
  rw [e8 f (by omega)]
  rfl

/-! ### C83 -/

/-- C83: a plain style sheet, however it is laid out, gives its shortest text in the COMPRESSED mode, without a message.
The rules without a declaration are left out, and the sums are replaced by their values. `hE` says that compile_list() gives
words, integers and strings back and the value of sums; it holds of the one that is modelled (C83_values). `hs`: no field with arguments separated by slashes. -/
theorem C83_text (E : Pipeline.Env) (hE : Keeps E.comp) (S : Sheet) (hS : S.Ok) (hne : S ≠ [])
    (hs : ∀ r ∈ S, ∀ d ∈ r.decls, E.comp.slash d.name = false) (src : Str) (h : Lays (items S) src) :
    ∃ k, ∀ f ≥ k, run E f .compressed src = .ok (shortest (items S.active.computed)) [] := by
  obtain ⟨p, ns, k, h1, h2⟩ := run_tree hE hS hne hs h
  refine ⟨k, fun f hf => ?_⟩
  rw [h2 f hf]
  obtain ⟨calls, e1, e2, e3⟩ := sheet_out (p := E.precision) (pow := E.pow10) (active_ok hS) h1 p
  unfold Pipeline.write
  rw [e1]
  dsimp only
  rw [filter_report e2]
  unfold Asm.Mode.text
  rw [e3]
  rfl

/-- C83: compile_list(), as it is modelled for C82, gives words, integers and strings back and the value of sums, without a message. -/
theorem C83_values (env : Expr.Env) (E : Compile.Env) (hE : E.arg = Pipeline.exprArg env) : Keeps E := keeps_expr env E hE

/-- C83: with the expressions. -/
theorem C83_minified (env : Expr.Env) (E : Pipeline.Env) (hE : E.comp.arg = Pipeline.exprArg env) (S : Sheet) (hS : S.Ok)
    (hne : S ≠ []) (hs : ∀ r ∈ S, ∀ d ∈ r.decls, E.comp.slash d.name = false) (src : Str) (h : Lays (items S) src) :
    ∃ k, ∀ f ≥ k, run E f .compressed src = .ok (shortest (items S.active.computed)) [] :=
  C83_text E (C83_values env _ hE) S hS hne hs src h

/-- C83: the blanks and the optional semicolons change nothing. -/
theorem C83_layout (env : Expr.Env) (E : Pipeline.Env) (hE : E.comp.arg = Pipeline.exprArg env) (S : Sheet) (hS : S.Ok)
    (hne : S ≠ []) (hs : ∀ r ∈ S, ∀ d ∈ r.decls, E.comp.slash d.name = false) (a b : Str) (ha : Lays (items S) a)
    (hb : Lays (items S) b) : ∃ k t, ∀ f ≥ k, run E f .compressed a = .ok t [] ∧ run E f .compressed b = .ok t [] := by
  obtain ⟨k, h1⟩ := C83_minified env E hE S hS hne hs a ha
  obtain ⟨k', h2⟩ := C83_minified env E hE S hS hne hs b hb
  exact ⟨k + k', _, fun f hf => ⟨h1 f (by omega), h2 f (by omega)⟩⟩

/-- C83: what was written is its own output: minifying it again changes nothing. -/
theorem C83_again (env : Expr.Env) (E : Pipeline.Env) (hE : E.comp.arg = Pipeline.exprArg env) (S : Sheet) (hS : S.Ok)
    (hne : S.active ≠ []) (hs : ∀ r ∈ S, ∀ d ∈ r.decls, E.comp.slash d.name = false) (src : Str) (h : Lays (items S) src) :
    ∃ k t, ∀ f ≥ k, run E f .compressed src = .ok t [] ∧ run E f .compressed t = .ok t [] := by
  obtain ⟨k, h1⟩ := C83_minified env E hE S hS (fun e => hne (by rw [e]; rfl)) hs src h
  obtain ⟨k', h2⟩ := C83_minified env E hE S.active.computed (computed_ok (active_ok hS))
    (by simpa [Sheet.computed] using hne) (fun r hr d hd => by
      obtain ⟨r', hr', rfl⟩ := List.mem_map.1 hr
      obtain ⟨d', hd', rfl⟩ := List.mem_map.1 hd
      exact hs r' (List.mem_filter.1 hr').1 d' hd') _
    (lays_shortest (items S.active.computed))
  rw [computed_active, active_active, computed_computed] at h2
  exact ⟨k + k', _, fun f hf => ⟨h1 f (by omega), h2 f (by omega)⟩⟩

/-- C83: the other modes write the same text up to the blanks and the line feeds; EXPANDED may also write a `;` in front
of a `}`. -/
theorem C83_modes (env : Expr.Env) (E : Pipeline.Env) (hE : E.comp.arg = Pipeline.exprArg env) (S : Sheet) (hS : S.Ok)
    (hne : S ≠ []) (hs : ∀ r ∈ S, ∀ d ∈ r.decls, E.comp.slash d.name = false) (src : Str) (h : Lays (items S) src) (m : Asm.Mode) :
    ∃ k t, (∀ f ≥ k, run E f m src = .ok t []) ∧
      (m ≠ .expanded → Asm.squeeze t = Asm.squeeze (shortest (items S.active.computed))) ∧
      (m = .expanded → Asm.SemiText (Asm.squeeze (shortest (items S.active.computed))) (Asm.squeeze t)) := by
  obtain ⟨p, ns, k, h1, h2⟩ := run_tree (C83_values env _ hE) hS hne hs h
  obtain ⟨calls, e1, e2, e3⟩ := sheet_out (p := E.precision) (pow := E.pow10) (active_ok hS) h1 p
  have hw : ∀ m, Asm.Mode.write m E.precision (Pipeline.toTree E.pow10 (.mk { ty := .LIST, pos := p } ns)) = .ok (m.text calls) := by
    intro m
    unfold Asm.Mode.write
    rw [e1]
  have hc : Asm.Mode.text .compressed calls = shortest (items S.active.computed) := by
    unfold Asm.Mode.text
    rw [e3]
    rfl
  refine ⟨k, m.text calls, fun f hf => ?_, fun hm => ?_, fun hm => ?_⟩
  · rw [h2 f hf]
    unfold Pipeline.write
    rw [e1]
    dsimp only
    rw [filter_report e2]
    rfl
  · rw [← hc]
    exact Asm.C40_same m .compressed hm (by simp) _ _ (hw m) (hw .compressed)
  · rw [← hc]
    subst hm
    exact Asm.C40_expanded .compressed (by simp) _ _ (hw .compressed) (hw .expanded)

/-- C83: known defect: a style sheet with nothing in it makes compile(true) throw a csspp_exception_logic. -/
theorem C83_empty (E : Pipeline.Env) (m : Asm.Mode) (src : Str) (h : Blanks src) : ∃ k, ∀ f ≥ k, run E f m src = .throws := by
  have hl : Lays (items []) src := by
    have : Lays (items []) (src ++ []) := .opt h .nil
    rwa [List.append_nil] at this
  have hS : Sheet.Ok [] := by intro r hr; cases hr
  obtain ⟨h1, e1, e2, e3⟩ := sheet_tokens hS.src hl (f := src.length + 1) (by omega)
  refine ⟨3, fun f hf => ?_⟩
  unfold run
  generalize Lex.lexAll (src.length + 1) (Lex.init src) = r at h1 e1 e2 e3 ⊢
  obtain ⟨ts, s⟩ := r
  dsimp only at h1 e1 e2 e3 ⊢
  obtain ⟨p, n1, h2, e4⟩ := sheet_tree hS.src h1 (fin := s.pos) (f := 5 * ts.length + 11) (by omega)
  cases h2
  rw [e2]
  dsimp only
  rw [e3, e4]
  dsimp only
  unfold Pipeline.variables
  obtain ⟨g, rfl⟩ : ∃ g, f = g + 3 := ⟨f - 3, by omega⟩
  have : Vars.replaceRoot E.vars (g + 3) (Vars.mark false (.mk { ty := .LIST, pos := p } [])) {} = .throws := by
    unfold Vars.replaceRoot
    rw [show Vars.mark false (.mk { ty := .LIST, pos := p } []) = .mk { ty := .LIST, pos := p } [] by
      rw [Vars.mark]; simp [Vars.marks, Vars.markAll]]
    rfl
  rw [this]
  rfl

/-! ### Example -/

/-- The same blanks everywhere. -/
def fill (g : Str) : List Item → Str
  | [] => []
  | .word w :: l => Text w ++ fill g l
  | .must :: l => g ++ fill g l
  | .opt :: l => g ++ fill g l
  | .semi :: l => g ++ fill g l

theorem lays_fill {g : Str} (h : Blanks g) (hg : g ≠ []) : ∀ l : List Item, Lays l (fill g l)
  | [] => .nil
  | .word _ :: l => .word (lays_fill h hg l)
  | .must :: l => .must h hg (lays_fill h hg l)
  | .opt :: l => .opt h (lays_fill h hg l)
  | .semi :: l => .noSemi h (lays_fill h hg l)

/-- `a.b > c, #d { margin: 0 auto; x: "y", -2px + 5px - 1px } e { }` -/
def sample : Sheet :=
  [ { sels := [ { first := [.tag b!"a", .cls b!"b"], more := [(.child, [.tag b!"c"])] }, { first := [.id b!"d"], more := [] } ]
      decls := [ { name := b!"margin", values := [[.int 0 [], .word b!"auto"]] },
                 { name := b!"x", values := [[.str b!"y"], [.sum (-2) [(false, 5), (true, 1)] b!"px"]] } ] },
    { sels := [ { first := [.tag b!"e"], more := [] } ], decls := [] } ]

theorem letters_name {s : Str} (h : ∀ c ∈ s, 97 ≤ c ∧ c ≤ 122) (h0 : s ≠ []) (h1 : s ≠ b!"u") : Name s := by
  have hn : ∀ c, 97 ≤ c ∧ c ≤ 122 → NameChar c ∧ Fair c := by
    intro c hc
    constructor
    · exact .inl (by unfold VarChar Letter; omega)
    · unfold Fair Valid Scalar Nonchar; omega
  refine ⟨s, Lex.utf8_ascii (fun c hc => by have := h c hc; omega), fun c hc => hn c (h c hc), ?_, h1, ?_⟩
  · obtain ⟨c, t, rfl⟩ := List.exists_cons_of_ne_nil h0
    exact ⟨c, t, rfl, .inl (by have := h c (by simp); unfold Letter; omega)⟩
  · rintro rfl
    have := h 85 (by simp)
    omega

theorem letters_plain {s : Str} (h : ∀ c ∈ s, 97 ≤ c ∧ c ≤ 122) (h0 : s ≠ []) (h1 : s ≠ b!"u") : IsPlainName s := by
  obtain ⟨cs, hu, h2, h3, _⟩ := letters_name h h0 h1
  exact ⟨cs, hu, h2, .inl h3⟩

theorem sample_ok : sample.Ok := by
  have hc : ∀ {l : List Simple}, l ≠ [] → (∀ s ∈ l, s.Ok) → (∀ s ∈ l.tail, ∀ n, s ≠ .tag n) → Compound l := fun a b c => ⟨a, b, c⟩
  have na := letters_name (s := b!"a") (by decide) (by decide) (by decide)
  have nb := letters_name (s := b!"b") (by decide) (by decide) (by decide)
  have nc := letters_name (s := b!"c") (by decide) (by decide) (by decide)
  have nd := letters_name (s := b!"d") (by decide) (by decide) (by decide)
  have ne := letters_name (s := b!"e") (by decide) (by decide) (by decide)
  have hspecial : ¬ Special b!"auto" := by unfold Special; decide +kernel
  intro r hr
  simp only [sample, List.mem_cons, List.not_mem_nil, or_false] at hr
  rcases hr with rfl | rfl
  · refine ⟨by simp, ?_, ?_⟩
    · intro s hs
      simp only [List.mem_cons, List.not_mem_nil, or_false] at hs
      rcases hs with rfl | rfl
      · refine ⟨⟨by simp, ?_, by simp⟩, ?_, by decide⟩
        · intro s hs
          simp only [List.mem_cons, List.not_mem_nil, or_false] at hs
          rcases hs with rfl | rfl
          · exact na
          · exact nb
        · intro p hp
          rw [List.mem_singleton.1 hp]
          exact ⟨by simp, by intro s hs; rw [List.mem_singleton.1 hs]; exact nc, by simp⟩
      · exact ⟨⟨by simp, by intro s hs; rw [List.mem_singleton.1 hs]; exact nd, by simp⟩, by simp, by decide⟩
    · intro d hd
      simp only [List.mem_cons, List.not_mem_nil, or_false] at hd
      rcases hd with rfl | rfl
      · refine ⟨letters_plain (by decide) (by decide) (by decide), by simp, ?_⟩
        intro g hg
        rw [List.mem_singleton.1 hg]
        refine ⟨by simp, ?_⟩
        intro v hv
        simp only [List.mem_cons, List.not_mem_nil, or_false] at hv
        rcases hv with rfl | rfl
        · exact ⟨by decide, by decide, by decide, by decide⟩
        · exact ⟨letters_name (by decide) (by decide) (by decide), hspecial⟩
      · refine ⟨letters_plain (by decide) (by decide) (by decide), by simp, ?_⟩
        intro g hg
        simp only [List.mem_cons, List.not_mem_nil, or_false] at hg
        rcases hg with rfl | rfl
        · refine ⟨by simp, fun v hv => ?_⟩
          rw [List.mem_singleton.1 hv]
          refine ⟨b!"y", Lex.utf8_ascii (by decide), ?_⟩
          intro c hc
          rw [List.mem_singleton.1 hc]
          unfold Fair Valid Scalar Nonchar
          omega
        · refine ⟨by simp, fun v hv => ?_⟩
          rw [List.mem_singleton.1 hv]
          refine ⟨?_, ?_, by decide, by decide⟩ <;> unfold InRange <;> decide
  · refine ⟨by simp, ?_, by simp⟩
    intro s hs
    rw [List.mem_singleton.1 hs]
    exact ⟨⟨by simp, by intro s hs; rw [List.mem_singleton.1 hs]; exact ne, by simp⟩, by simp, by decide⟩

/-- The hypotheses of C83_minified, and what is written. -/
example (env : Expr.Env) (E : Pipeline.Env) (hE : E.comp.arg = Pipeline.exprArg env) (hs : ∀ s, E.comp.slash s = false) :
    ∃ k, ∀ f ≥ k, run E f .compressed b!" a.b > c , #d { margin : 0 auto ; x : \"y\" , -2px + 5px - 1px } e { } " =
      .ok b!"a.b>c,#d{margin:0 auto;x:\"y\",2px}" [] := by
  have h := C83_minified env E hE sample sample_ok (by simp [sample]) (fun _ _ _ _ => hs _) _
    (lays_fill (g := [32]) (by intro c hc; simp at hc; exact .inl hc) (by simp) (items sample))
  have e1 : fill [32] (items sample) = b!" a.b > c , #d { margin : 0 auto ; x : \"y\" , -2px + 5px - 1px } e { } " := by decide
  have e2 : shortest (items sample.active.computed) = b!"a.b>c,#d{margin:0 auto;x:\"y\",2px}" := by decide
  rw [e1, e2] at h
  exact h

end Csspp.Spec.Plain
