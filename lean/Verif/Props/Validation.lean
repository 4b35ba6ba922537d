import Verif.Lemmas.ValidPass
import Verif.Lemmas.ScriptGood

/-!
C87: the validation scripts accept the names of their lists and refuse every other name with one error.
-/

namespace Csspp.Valid
open Csspp.Parse (Nd)
open Csspp.Lex (Tok Pos)
open Csspp.Spec
open Csspp.Pipeline (Msg)

/-! ### mark_selectors() -/

theorem mark_leaf {n : Nd} (h : Small n.ty ∨ n.ty = .VARIABLE) : Vars.mark false n = n := by
  obtain ⟨t, k⟩ := n
  have h : Small t.ty ∨ t.ty = .VARIABLE := h
  rw [Vars.mark]
  have : Vars.marks t.ty = false := by
    rcases h with (h | h | h | h | h) | h <;> rw [h] <;> rfl
  simp [this]

theorem markAll_leaves : ∀ (l rest : List Nd) (b : Bool), rest ≠ [] → (∀ c ∈ l, Small c.ty ∨ c.ty = .VARIABLE) →
    Vars.markAll b (l ++ rest) = l ++ Vars.markAll b rest
  | [], _, _, _, _ => rfl
  | c :: l, rest, b, hr, h => by
    rw [List.cons_append, Vars.markAll, markAll_leaves l rest b hr (fun c hc => h c (List.mem_cons_of_mem _ hc))]
    have : (l ++ rest).isEmpty = false := by cases l <;> cases rest <;> simp at hr ⊢
    rw [this, Bool.and_false, mark_leaf (h c List.mem_cons_self)]
    rfl

theorem markAll_leaves' : ∀ (l : List Nd), (∀ c ∈ l, Small c.ty ∨ c.ty = .VARIABLE) → Vars.markAll false l = l
  | [], _ => rfl
  | c :: l, h => by
    rw [Vars.markAll, markAll_leaves' l (fun c hc => h c (List.mem_cons_of_mem _ hc)), Bool.false_and,
      mark_leaf (h c List.mem_cons_self)]

variable {a : Str} {x : Str} {xs : List Str} {text : Str} {lt it bt ct et : Tok} {ck ek : List Nd}

theorem last_text (h : Check a x xs text lt it bt ct et ck ek) : Vars.marksLast ek = false := by
  have : ek.getLast?.map key = some (.STRING, text) := by
    rw [← List.getLast?_map, h.htext]
    rfl
  unfold Vars.marksLast
  rw [Bool.and_eq_false_iff]
  right
  rw [decide_eq_false_iff_not]
  intro e
  cases hl : ek.getLast? with
  | none => rw [hl] at e; cases e
  | some n =>
    rw [hl] at this e
    simp only [Option.map_some, Option.some.injEq] at this e
    unfold key at this
    injection this with h1 _
    rw [h1] at e
    cases e

theorem cond_not_set (h : Check a x xs text lt it bt ct et ck ek) (rest : List Nd) : Vars.isSetBlock (ck ++ rest) = false := by
  have hk := h.hcond
  have : ∃ l, condKeys a x xs = (.VARIABLE, a) :: space :: (.NOT_EQUAL, []) :: l := by cases xs <;> exact ⟨_, rfl⟩
  obtain ⟨l, hl⟩ := this
  rw [hl] at hk
  obtain ⟨c0, l0, rfl, h0, hk⟩ := List.map_eq_cons_iff.1 hk
  obtain ⟨c1, l1, rfl, h1, hk⟩ := List.map_eq_cons_iff.1 hk
  obtain ⟨c2, l2, rfl, h2, hk⟩ := List.map_eq_cons_iff.1 hk
  unfold key at h0 h1 h2
  unfold space at h1
  injection h0 with h0 _
  injection h1 with h1 _
  injection h2 with h2 _
  unfold Vars.isSetBlock
  have : Vars.isSet (c0 :: c1 :: c2 :: l2 ++ rest) = false := by
    show Vars.isSet (c0 :: c1 :: c2 :: (l2 ++ rest)) = false
    unfold Vars.isSet
    dsimp only
    rw [if_pos (.inl h0), if_pos h1, h2]
    rfl
  rw [this, Bool.false_and]

/-- mark_selectors() on a script: the block accepts variables. -/
theorem mark_script (h : Check a x xs text lt it bt ct et ck ek) :
    Vars.mark false (tree lt it bt ct et ck ek) = tree lt it { bt with bool := true } ct et ck ek := by
  have hl : ∀ c ∈ ck, Small c.ty ∨ c.ty = .VARIABLE := fun c hc => by
    rcases (simple_of h.hcond (cond_small a x xs) h.cleaf c hc).2 with h | h
    · exact .inr h.1
    · exact .inl h
  have he : ∀ c ∈ ek, Small c.ty ∨ c.ty = .VARIABLE := fun c hc => by
    rcases (simple_of h.htext (text_small a text) h.eleaf c hc).2 with h | h
    · exact .inr h.1
    · exact .inl h
  have m1 : Vars.mark false (.mk et ek) = .mk et ek := by
    rw [Vars.mark]
    simp only [h.hat', Vars.marks, last_text h, markAll_leaves' ek he]
    simp
  have m2 : Vars.mark false (.mk ct [.mk et ek]) = .mk ct [.mk et ek] := by
    rw [Vars.mark]
    have : Vars.marksLast [.mk et ek] = false := by
      unfold Vars.marksLast
      simp [Nd.ty, Nd.tok, h.hat']
    simp only [h.hvalue, Vars.marks, this, Vars.markAll, Bool.false_and, m1]
    simp
  have m3 : Vars.mark true (.mk bt [.mk ct [.mk et ek]]) = .mk { bt with bool := true } [.mk ct [.mk et ek]] := by
    rw [Vars.mark]
    have : Vars.marksLast [.mk ct [.mk et ek]] = false := by
      unfold Vars.marksLast
      simp [Nd.ty, Nd.tok, h.hvalue]
    simp only [h.hblock, Vars.marks, this, Vars.markAll, Bool.false_and, m2]
    simp
  have m4 : Vars.mark false (.mk it (ck ++ [.mk bt [.mk ct [.mk et ek]]])) =
      .mk it (ck ++ [.mk { bt with bool := true } [.mk ct [.mk et ek]]]) := by
    rw [Vars.mark]
    have : Vars.marksLast (ck ++ [.mk bt [.mk ct [.mk et ek]]]) = true := by
      unfold Vars.marksLast
      rw [cond_not_set h, List.getLast?_append]
      simp [Nd.ty, Nd.tok, h.hblock]
    have e := markAll_leaves ck [.mk bt [.mk ct [.mk et ek]]] true (by simp) hl
    rw [this, e]
    have hm : Vars.marks it.ty = true := by rw [h.hat]; rfl
    simp only [hm, Vars.markAll, List.isEmpty_nil, Bool.and_true, m3]
    simp [h.hat, Vars.marks]
  unfold tree
  rw [Vars.mark]
  have : Vars.marksLast [.mk it (ck ++ [.mk bt [.mk ct [.mk et ek]]])] = false := by
    unfold Vars.marksLast
    simp [Nd.ty, Nd.tok, h.hat]
  rw [this]
  have hm : Vars.marks lt.ty = true := by rw [h.hlist]; rfl
  simp only [hm, Vars.markAll, Bool.false_and, m4]
  simp [h.hlist, Vars.marks]

/-! ### compile(true) -/

/-- What the rest of compile() does with an empty list. -/
theorem rest_empty (lt : Tok) (ht : lt.ty = .LIST) : Vars.removeEmptyRules (.mk lt []) = some (.mk lt []) ∧
    ∀ f, Expand.comps (f + 2) (.mk lt []) = .ok (.mk lt [], []) [] := by
  constructor
  · unfold Vars.removeEmptyRules
    rw [if_neg (by simp [Vars.isEmptyRule, Nd.ty, Nd.tok, ht]), Vars.removeEmptyIn, ht]
    rfl
  · intro f
    rw [Expand.comps, ht]
    simp [Expand.compsLoop, Expand.R.bind]

theorem run_script {E : Pipeline.Env} {env : Expr.Env} (hE : E.vars.expr = evaluate env) (hT : E.vars.truth = truth)
    (hS : ∀ pos s, E.comp.toString (named pos s) = s.takeWhile (· ≠ 0)) (h : Check a x xs text lt it bt ct et ck ek) (name : Str) (pos : Pos) :
    ∃ f0, ∀ f ≥ f0, compile E f (tree lt it bt ct et ck ek) (addVariable a (named pos name) []) =
      .ok (.mk lt []) (if name ∈ x :: xs then [] else [.compiler (.user .error ((name ++ text).takeWhile (· ≠ 0))) et.pos]) := by
  have hs : Has { root := addVariable a (named pos name) [] } a pos name :=
    ⟨⟨.leaf { ty := .VARIABLE, pos := pos, str := a }, named pos name⟩, by
      show Vars.findVar a [_] = _
      unfold Vars.findVar
      rw [if_pos]
      · rfl
      · rfl, rfl, rfl⟩
  obtain ⟨f0, h0⟩ := gives_script hE hT h hs
  obtain ⟨r1, r2⟩ := rest_empty lt h.hlist
  refine ⟨f0 + 6, fun f hf => ?_⟩
  obtain ⟨g, rfl⟩ : ∃ g, f = g + 6 := ⟨f - 6, by omega⟩
  unfold compile
  have hv : Vars.replaceRoot E.vars (g + 6) (tree lt it { bt with bool := true } ct et ck ek) { root := addVariable a (named pos name) [] } =
      .ok (.mk lt (if name ∈ x :: xs then [] else [.mk ct [.mk et [said name text]]])) { root := addVariable a (named pos name) [] } := by
    unfold Vars.replaceRoot
    rw [Vars.bind_apply]
    have := h0 (g + 6) (by omega)
    dsimp only at this
    rw [this]
    rfl
  rw [mark_script h, hv]
  dsimp only
  by_cases hn : name ∈ x :: xs
  · rw [if_pos hn, if_pos hn]
    have hc : Compile.comp E.comp (g + 6) (.mk lt []) {} = .ok (.keep (.mk lt [])) {} := by
      rw [Compile.comp, if_pos (.inl h.hlist), Compile.bind_apply, Compile.compLoop]
      rfl
    rw [hc]
    dsimp only
    rw [r1]
    dsimp only
    rw [r2]
    rfl
  · rw [if_neg hn, if_neg hn]
    have hsay : Compile.Says E.comp (.mk et [said name text]) [(.user .error ((name ++ text).takeWhile (· ≠ 0)), et.pos)] := by
      have := Compile.Says.message (E := E.comp) (kids := [said name text]) h.hat' (l := .error) (d := b!"@error reached")
        (by rw [h.herror]; unfold Compile.messages; simp)
      unfold Compile.textOf at this
      dsimp only at this
      rw [if_neg (by simp [said, named, Nd.leaf, Nd.ty, Nd.tok]), said, hS] at this
      exact this
    have hc : Compile.comp E.comp (g + 6) (.mk lt [.mk ct [.mk et [said name text]]]) {} =
        .ok (.keep (.mk lt [])) ((({} : Compile.St)).add [(.user .error ((name ++ text).takeWhile (· ≠ 0)), et.pos)]) := by
      rw [Compile.comp, if_pos (.inl h.hlist), Compile.bind_apply, Compile.compLoop]
      dsimp only
      rw [if_neg (by simp), Compile.bind_apply,
        Compile.comp, if_neg (by rw [h.hvalue]; simp), if_neg (by rw [h.hvalue]; simp), if_pos h.hvalue,
        Compile.compValue_says hsay h.hvalue]
      dsimp only
      rw [List.nil_append, Compile.compLoop]
      rfl
    rw [hc]
    dsimp only
    rw [r1]
    dsimp only
    rw [r2]
    rfl

/-- C87: a script gives nothing for a name of its list, and one error, the name followed by the text of the script, for any other
name (up to the first character 0: node.cpp:1079, `hS`, is how the text of a STRING is made). -/
theorem C87_script {E : Pipeline.Env} {env : Expr.Env} (hE : E.vars.expr = evaluate env) (hT : E.vars.truth = truth)
    (hS : ∀ pos s, E.comp.toString (.leaf { ty := .STRING, pos := pos, str := s }) = s.takeWhile (· ≠ 0)) {src : Str} {l : Allowed} (h : Checks src l) (name : Str) (pos : Pos) :
    ∃ t p f0, ∀ f ≥ f0, validate E f src l.var name pos =
      .ok t (if name ∈ l.names then [] else [.compiler (.user .error ((name ++ l.refused).takeWhile (· ≠ 0))) p]) := by
  obtain ⟨x, xs, lt, it, bt, ct, et, ck, ek, h1, h2, h3⟩ := good_script (checks_good h)
  obtain ⟨f0, h0⟩ := run_script hE hT hS h2 name pos
  refine ⟨Nd.mk lt [], et.pos, f0, fun f hf => ?_⟩
  unfold validate
  rw [h3, h1]
  exact h0 f hf

/-- The environments exist. -/
example (env : Expr.Env) (E : Pipeline.Env) : ∃ E' : Pipeline.Env, E'.vars.expr = evaluate env ∧ E'.vars.truth = truth ∧
    ∀ pos s, E'.comp.toString (.leaf { ty := .STRING, pos := pos, str := s }) = s.takeWhile (· ≠ 0) :=
  ⟨{ E with vars := { E.vars with expr := evaluate env, truth := truth },
            comp := { E.comp with toString := fun n => n.tok.str.takeWhile (· ≠ 0) } }, rfl, rfl, fun _ _ => rfl⟩

/-- One name that is accepted and one that is not. -/
example : b!"first-child" ∈ pseudoClasses.names ∧ b!"first" ∉ pseudoClasses.names := by decide +kernel

/-- C87: run_validation() returns whether the name is in the list. With check_only the counters, the stream and what was written
to another stream stay the same; without it the only change is one more error for a name that is refused. -/
theorem C87_run {E : Pipeline.Env} {env : Expr.Env} (hE : E.vars.expr = evaluate env) (hT : E.vars.truth = truth)
    (hS : ∀ pos s, E.comp.toString (.leaf { ty := .STRING, pos := pos, str := s }) = s.takeWhile (· ≠ 0)) {src : Str} {l : Allowed} (h : Checks src l) (name : Str) (pos : Pos) :
    ∃ t msgs f0, (∀ f ≥ f0, validate E f src l.var name pos = .ok t msgs) ∧
      ∀ (k : Nat) (s : Err.St), s.errorCount < 4294967296 →
        runValidation true k msgs s = (decide (name ∈ l.names),
          if name ∈ l.names then s else { s with printed := s.printed ++ [(some k, .error)] }) ∧
        runValidation false k msgs s = (decide (name ∈ l.names),
          if name ∈ l.names then s
          else { s with errorCount := (s.errorCount + 1) % 4294967296, printed := s.printed ++ [(s.stream, .error)] }) := by
  obtain ⟨t, p, f0, h0⟩ := C87_script hE hT hS h name pos
  refine ⟨t, _, f0, h0, fun k s hs => ?_⟩
  have hne : ¬ s.errorCount = (s.errorCount + 1) % 4294967296 := by omega
  by_cases hn : name ∈ l.names
  · simp [runValidation, hn, Err.run, Err.run1, Err.Happened.ofSt, Err.Happened.error]
  · simp [runValidation, hn, Err.run, Err.run1, Err.Happened.ofSt, Err.Happened.error, mode, Compile.Err.level, Err.St.emit, Err.St.print,
      Err.inc32, hne, Nat.add_comm]

/-- C87: add_validation_variable() sets the variable and leaves the other ones as they are. -/
theorem C87_variables (name other : Str) (value : Nd) : ∀ vars : List Vars.Var,
    (Vars.findVar other (addVariable name value vars)).map (·.value) =
      if other = name then some value else (Vars.findVar other vars).map (·.value)
  | [] => by
    unfold addVariable Vars.putVar Vars.findVar Vars.Var.key
    simp only [Nd.leaf, Nd.tok, Vars.findVar, eq_comm (a := other)]
    split <;> simp [*]
  | v :: vs => by
    have ih := C87_variables name other value vs
    unfold addVariable at ih ⊢
    unfold Vars.putVar
    have hk : Vars.Var.key ⟨.leaf { ty := .VARIABLE, pos := value.tok.pos, str := name }, value⟩ = name := rfl
    rw [hk]
    by_cases h1 : v.key = name
    · rw [if_pos h1, Vars.findVar, hk, Vars.findVar, h1]
      by_cases h2 : other = name
      · rw [if_pos h2, if_pos h2.symm]; rfl
      · rw [if_neg h2, if_neg (fun h => h2 h.symm), if_neg (fun h => h2 h.symm)]
    · rw [if_neg h1, Vars.findVar, Vars.findVar]
      by_cases h2 : v.key = other
      · rw [if_pos h2, if_pos h2, if_neg (fun h => h1 (h2.trans h))]
      · rw [if_neg h2, if_neg h2]; exact ih

end Csspp.Valid
