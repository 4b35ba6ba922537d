import Verif.Model.UserFunc
import Verif.Spec.UserFunc
import Verif.Props.Call
import Verif.Props.Expand
import Verif.Lemmas.CompileGives
import Verif.Props.CompileMessage
import Verif.Props.Vars

/-!
C90: a function of the style sheet called in an expression.
-/

namespace Csspp.UserFn
open Csspp.Parse (Nd)
open Csspp.Lex (Tok Pos)
open Csspp.Spec
open Csspp.Pipeline (Msg)

/-! ### Trees without declarations -/

theorem Undeclared.kids {t : Tok} {kids : List Nd} (h : Undeclared (.mk t kids)) : ∀ c ∈ kids, Undeclared c := by
  cases h; assumption

theorem Undeclared.ty {t : Tok} {kids : List Nd} (h : Undeclared (.mk t kids)) : t.ty ≠ .DECLARATION := by
  cases h; assumption

theorem undeclared_without (bad : NT) {n : Nd} (h : Undeclared n) : Nest.without bad n = true := by
  induction h with
  | mk t kids h1 h2 ih =>
    have hall : ∀ l : List Nd, (∀ c ∈ l, Nest.without bad c = true) → Nest.withoutAll bad l = true := by
      intro l
      induction l with
      | nil => intro _; rfl
      | cons c l ihl =>
        intro hl
        rw [Nest.withoutAll, hl c (by simp), ihl (fun c hc => hl c (by simp [hc]))]
        rfl
    have := hall kids ih
    unfold Nest.without
    split
    · exact absurd ‹_› h1
    all_goals first | exact this | rfl

theorem undeclared_mark {n : Nd} (h : Undeclared n) (b : Bool) : Undeclared (Vars.mark b n) := by
  induction h generalizing b with
  | mk t kids h1 h2 ih =>
    have hk : ∀ b, ∀ c ∈ Vars.markAll b kids, Undeclared c := by
      intro b c hc
      obtain ⟨d, hd, b', rfl⟩ := Vars.mem_markAll hc
      exact ih d hd b'
    unfold Vars.mark
    dsimp only
    have ht : ∀ t' : Tok, t'.ty = t.ty → Undeclared (if Vars.marks t'.ty then .mk t' (Vars.markAll (Vars.marksLast kids) kids) else .mk t' kids) := by
      intro t' e
      split
      · exact .mk _ _ (by rw [e]; exact h1) (hk _)
      · exact .mk _ _ (by rw [e]; exact h1) h2
    cases b <;> exact ht _ rfl

theorem undeclared_spliced {v : Nd} (h : Undeclared v) (p : NT) : ∀ c ∈ spliced p v, Undeclared c := by
  cases h with
  | mk t kids h1 h2 =>
    have hv : Undeclared (.mk t kids) := .mk t kids h1 h2
    intro c hc
    unfold spliced at hc
    split at hc
    · change c ∈ (match kids with | [cv] => _ | vs => _) at hc
      split at hc
      · rename_i cv _
        have hcv := h2 cv (by simp)
        split at hc
        · cases cv; exact Undeclared.kids hcv c hc
        · rw [List.mem_singleton.1 hc]; exact hcv
      · exact h2 c hc
    · split at hc
      · exact h2 c hc
      · split at hc
        · cases hc
        · rw [List.mem_singleton.1 hc]; exact hv

theorem undeclared_subst {vals : Valuation} (hv : ∀ x v, vals x = some v → Undeclared v) {n : Nd} (h : Undeclared n) :
    Undeclared (subst vals n) := by
  induction h with
  | mk t kids h1 h2 ih =>
    rw [subst]
    refine .mk _ _ h1 ?_
    have hall : ∀ l : List Nd, (∀ c ∈ l, Undeclared (subst vals c)) → ∀ c ∈ substAll vals t.ty l, Undeclared c := by
      intro l
      induction l with
      | nil => intro _ c hc; cases hc
      | cons d l ihl =>
        intro hl c hc
        rw [substAll] at hc
        split at hc
        · rcases List.mem_append.1 hc with hc | hc
          · cases hx : vals d.tok.str with
            | none => rw [hx] at hc; cases hc
            | some v => rw [hx] at hc; exact undeclared_spliced (hv _ _ hx) _ c hc
          · exact ihl (fun c hc => hl c (by simp [hc])) c hc
        · rcases List.mem_cons.1 hc with rfl | hc
          · exact hl d (by simp)
          · exact ihl (fun c hc => hl c (by simp [hc])) c hc
    exact hall kids ih

theorem undeclared_remove {n : Nd} (h : Undeclared n) : Undeclared (Vars.removeEmptyIn n) := by
  induction h with
  | mk t kids h1 h2 ih =>
    have hall : ∀ l : List Nd, (∀ c ∈ l, Undeclared (Vars.removeEmptyIn c)) → ∀ c ∈ Vars.removeEmptyAll l, Undeclared c := by
      intro l
      induction l with
      | nil => intro _ c hc; cases hc
      | cons d l ihl =>
        intro hl c hc
        rw [Vars.removeEmptyAll] at hc
        split at hc
        · exact ihl (fun c hc => hl c (by simp [hc])) c hc
        · rcases List.mem_cons.1 hc with rfl | hc
          · exact hl d (by simp)
          · exact ihl (fun c hc => hl c (by simp [hc])) c hc
    rw [Vars.removeEmptyIn]
    split
    · exact .mk _ _ h1 (hall kids ih)
    · exact .mk _ _ h1 h2

/-- The last two passes have nothing to say about a list without declarations. -/
theorem rest_runs {t : Tok} {kids : List Nd} (ht : t.ty = .LIST) (h : ∀ c ∈ kids, Undeclared c) :
    ∃ n', Vars.removeEmptyRules (.mk t kids) = some n' ∧ ∃ f0 r, ∀ f ≥ f0, Expand.comps f n' = .ok r [] := by
  have hu : Undeclared (.mk t kids) := .mk _ _ (by rw [ht]; simp) h
  refine ⟨_, by
    unfold Vars.removeEmptyRules
    rw [if_neg]
    unfold Vars.isEmptyRule
    simp [Nd.ty, Nd.tok, ht], ?_⟩
  have hr := undeclared_remove hu
  obtain ⟨x, sibs, ⟨f, r, h1, h2⟩, _⟩ := (Expand.ok (Vars.removeEmptyIn (.mk t kids))).comp
  rw [undeclared_without _ hr, undeclared_without _ hr, if_pos rfl] at h2
  obtain ⟨e, h2, h3⟩ := h2
  have h3 : e = [] := by simpa using h3
  subst h3
  exact ⟨f, _, fun g hg => (h1 g hg).trans h2⟩

/-! ### What is visible -/

theorem findVar_find (x : Str) : ∀ l : List Vars.Var, Vars.findVar x l = l.find? (fun v => v.name.tok.str = x)
  | [] => rfl
  | v :: vs => by
    rw [Vars.findVar, List.find?_cons, findVar_find x vs]
    by_cases h : v.name.tok.str = x
    · rw [if_pos (show v.key = x from h)]; simp [h]
    · rw [if_neg (show ¬ v.key = x from h)]; simp [h]

theorem visible_agrees {globals vars : List Vars.Var} {ps : List Param} {as : List Argument}
    (h : ∀ x, (match parameters ps as x with
        | some v => ∃ t : Tok, Vars.findVar x vars = some ⟨.leaf { t with ty := .VARIABLE }, v⟩
        | none => Vars.findVar x vars = Vars.findVar x globals)) :
    Vars.Agrees (visible globals ps as) { root := vars } := by
  intro x v hx
  have h := h x
  unfold visible at hx
  cases hp : parameters ps as x with
  | some w =>
    rw [hp] at h hx
    obtain ⟨t, e⟩ := h
    injection hx with hx
    subst hx
    exact ⟨_, e, rfl, by show NT.VARIABLE ≠ _; decide, by show NT.VARIABLE ≠ _; decide⟩
  | none =>
    rw [hp] at h hx
    dsimp only at h hx
    rw [findVar_find x globals] at h
    cases hg : globals.find? (fun v => v.name.tok.str = x) with
    | none => rw [hg] at hx; cases hx
    | some w =>
      rw [hg] at hx h
      dsimp only at hx
      split at hx
      · cases hx
      · rename_i hn
        injection hx with hx
        exact ⟨w, h, hx, fun e => hn (.inl e), fun e => hn (.inr e)⟩

/-! ### Marks -/

theorem mark_operand {n : Nd} (h : Operand n) : Vars.mark false n = n := by
  cases n with
  | mk t kids =>
    have hm : Vars.marks t.ty = false := by
      unfold Operand at h
      change t.ty ∉ _ at h
      generalize t.ty = ty at h
      cases ty <;> first | rfl | (exfalso; revert h; decide)
    rw [Vars.mark]
    simp [hm]

theorem markAll_operands : ∀ l : List Nd, (∀ c ∈ l, Operand c) → Vars.markAll false l = l
  | [], _ => rfl
  | c :: cs, h => by
    rw [Vars.markAll, Bool.false_and, mark_operand (h c (by simp)), markAll_operands cs (fun c hc => h c (by simp [hc]))]

theorem marksLast_ne {l : List Nd} (h : ∀ c ∈ l, c.ty ≠ .OPEN_CURLYBRACKET) : Vars.marksLast l = false := by
  unfold Vars.marksLast
  cases hl : l.getLast? with
  | none => simp
  | some c => simp [h c (List.mem_of_getLast? hl)]

theorem mark_return {ct rt : Tok} (hct : ct.ty = .COMPONENT_VALUE) (hrt : rt.ty = .AT_KEYWORD) {kids : List Nd}
    (h : ∀ c ∈ kids, Operand c) : Vars.mark false (.mk ct [.mk rt kids]) = .mk ct [.mk rt kids] := by
  have h1 : Vars.mark false (.mk rt kids) = .mk rt kids := by
    rw [Vars.mark, marksLast_ne (fun c hc e => h c hc (by rw [e]; simp)), markAll_operands kids h]
    simp
  rw [Vars.mark, marksLast_ne (by simp [Nd.ty, Nd.tok, hrt]), Vars.markAll, Vars.markAll, Bool.false_and, h1]
  simp

/-! ### The compilation of the body -/

theorem comp_return {E : Compile.Env} {ct rt : Tok} (hct : ct.ty = .COMPONENT_VALUE) (hrt : rt.ty = .AT_KEYWORD) (hs : rt.str = b!"return")
    {c : Nd} {cs : List Nd} (hc : c.ty ≠ .OPEN_CURLYBRACKET) {r : Compile.RetRes} (hr : E.ret (c :: cs) = some r) (g : Nat) :
    Compile.comp E (g + 3) (.mk ct [.mk rt (c :: cs)]) {} = .ok (.keep (.mk ct [.mk rt r.kids]))
      { ret := some (r.result.getD (.leaf { ty := .NULL_TOKEN, pos := rt.pos })), errs := (r.errs.map fun e => (.expr e.1, e.2)).reverse } := by
  have h1 : Compile.atKeyword E (g + 1) (.mk rt (c :: cs)) {} = .ok (some (.mk rt r.kids))
      { ret := some (r.result.getD (.leaf { ty := .NULL_TOKEN, pos := rt.pos })), errs := (r.errs.map fun e => (.expr e.1, e.2)).reverse } := by
    rw [Compile.atKeyword, hs]
    have e1 : Compile.messageOf b!"return" = none := by decide
    rw [e1]
    dsimp only
    rw [if_neg (by decide), if_neg (by decide), if_neg (by decide), if_pos rfl, Compile.bind_apply]
    have e2 : Compile.doReturn E rt (c :: cs) {} = .ok (.mk rt r.kids)
      { ret := some (r.result.getD (.leaf { ty := .NULL_TOKEN, pos := rt.pos })), errs := (r.errs.map fun e => (.expr e.1, e.2)).reverse } := by
      unfold Compile.doReturn Compile.exprOf
      dsimp only
      rw [if_neg hc, hr]
      dsimp only
      rw [Compile.bind_apply, Compile.reports_apply]
      simp [Compile.bind_apply, Compile.pure_apply, Compile.St.add]
    rw [e2]
    rfl
  rw [Compile.comp, if_neg (by rw [hct]; simp), if_neg (by rw [hct]; simp), if_pos hct]
  rw [Compile.compValue, if_neg (by rw [hct]; simp), if_neg (by rw [hct]; decide)]
  have hty : (Nd.mk rt (c :: cs)).ty = .AT_KEYWORD := hrt
  rw [if_neg (by rw [hty]; simp), if_neg (by rw [hty]; simp), if_neg (by simp [hty]), if_neg (by simp [hty]), if_pos hty, Compile.bind_apply, h1]
  rfl

theorem comp_body {E : Compile.Env} {lt ct rt : Tok} (hlt : lt.ty = .LIST) (hct : ct.ty = .COMPONENT_VALUE) (hrt : rt.ty = .AT_KEYWORD) (hs : rt.str = b!"return")
    {c : Nd} {cs : List Nd} (hc : c.ty ≠ .OPEN_CURLYBRACKET) {r : Compile.RetRes} (hr : E.ret (c :: cs) = some r) (rest : List Nd) (g : Nat) :
    Compile.comp E (g + 5) (.mk lt (.mk ct [.mk rt (c :: cs)] :: rest)) {} = .ok (.keep (.mk lt (.mk ct [.mk rt r.kids] :: rest)))
      { ret := some (r.result.getD (.leaf { ty := .NULL_TOKEN, pos := rt.pos })), errs := (r.errs.map fun e => (.expr e.1, e.2)).reverse } := by
  rw [Compile.comp, if_pos (.inl hlt), Compile.bind_apply, Compile.compLoop]
  dsimp only
  rw [if_neg (by simp), Compile.bind_apply, comp_return hct hrt hs hc hr]
  dsimp only
  rw [Compile.bind_apply]
  cases rest with
  | nil => rfl
  | cons d ds => rfl

/-! ### The call -/

/-- C90: a function that is not defined is left as it is, without a message: it may be a function of CSS. -/
theorem C90_undefined (E : Pipeline.Env) (f : Nat) (s : Vars.St) (func : Nd) (h : s.get func.tok.str = none) :
    execute E f s func = .call [] := by
  unfold execute; rw [h]

/-- C90: so is a name that is not the one of a function, and a `$f()` function. -/
theorem C90_not_function (E : Pipeline.Env) (f : Nat) (s : Vars.St) (func : Nd) {v : Vars.Var} (h : s.get func.tok.str = some v)
    (hv : v.name.ty ≠ .FUNCTION) : execute E f s func = .call [] := by
  unfold execute; rw [h]; dsimp only; rw [if_pos hv]

/-- C90: a parameter without a value: the call is left, with exactly one error, at the body of the function. -/
theorem C90_missing (E : Pipeline.Env) (f : Nat) (s : Vars.St) (t : Tok) {as : List Argument} {v : Vars.Var} (h : s.get t.str = some v)
    (hv : v.name.ty = .FUNCTION) {ps : List Param} (hps : v.name.kids = ps.map Param.node) (hb : v.value.ty = .OPEN_CURLYBRACKET)
    (hm : Missing ps as) :
    execute E f s (.mk t (as.map Argument.node)) = .call [.variables .missing v.value.tok.pos] := by
  unfold execute
  rw [show (Nd.mk t (as.map Argument.node)).tok.str = t.str from rfl, h]
  dsimp only
  rw [if_neg (by simp [hv]), if_neg (by simp [hb]), hps, show (Nd.mk t (as.map Argument.node)).kids = as.map Argument.node from rfl,
    Vars.bindArgs_missing _ _ _ _ _ hm]
  rfl

/-- C90: a call gives the value of the first @return of the body, in which each variable has the value of the parameter or,
when it is not a parameter, of the global variable; what comes after the @return is not looked at. The value is NULL when
the expression gives nothing. The messages are those of the expression. -/
theorem C90_value (E : Pipeline.Env) (s : Vars.St) (t : Tok) {as : List Argument} {v : Vars.Var} (h : s.get t.str = some v)
    (hv : v.name.ty = .FUNCTION) {ps : List Param} (hps : v.name.kids = ps.map Param.node) (hm : ¬ Missing ps as)
    {bt ct rt : Tok} {kids rest : List Nd} (hbody : v.value = .mk bt (.mk ct [.mk rt kids] :: rest))
    (hbt : bt.ty = .OPEN_CURLYBRACKET) (hct : ct.ty = .COMPONENT_VALUE) (hrt : rt.ty = .AT_KEYWORD) (hs : rt.str = b!"return")
    (hkids : ∀ c ∈ kids, Operand c ∧
      (c.ty = .VARIABLE → ∃ v, visible s.root ps as c.tok.str = some v ∧ GoodValue v) ∧
      (c.ty ≠ .VARIABLE → Template (visible s.root ps as) c))
    (hrest : ∀ c ∈ rest, c.ty = .COMPONENT_VALUE ∧ Template (visible s.root ps as) c ∧ Undeclared c)
    (hvals : ∀ x v, visible s.root ps as x = some v → Undeclared v)
    {c : Nd} {cs : List Nd} (hsub : substAll (visible s.root ps as) .AT_KEYWORD kids = c :: cs) (hc : c.ty ≠ .OPEN_CURLYBRACKET)
    {r : Compile.RetRes} (hr : E.comp.ret (c :: cs) = some r) (hrk : ∀ c ∈ r.kids, Undeclared c) :
    ∃ f0, ∀ f ≥ f0, execute E f s (.mk t (as.map Argument.node)) =
      .value (some (r.result.getD (.leaf { ty := .NULL_TOKEN, pos := rt.pos })))
        (r.errs.map fun e => .compiler (.expr e.1) e.2) := by
  obtain ⟨vars, hb1, hb2⟩ := Vars.findVar_bindArgs v.value.tok.pos {} ps as s.root hm
  have ha := visible_agrees hb2
  have hpos : v.value.tok.pos = bt.pos := by rw [hbody]; rfl
  have hkk : v.value.kids = .mk ct [.mk rt kids] :: rest := by rw [hbody]; rfl
  have htpl : Template (visible s.root ps as) (.mk { ty := .LIST, pos := bt.pos } (.mk ct [.mk rt kids] :: rest)) := by
    refine .node _ _ (by unfold IsContainer; simp) (by simp) (by simp) (by simp) ?_ ?_
    · intro d hd e
      rcases List.mem_cons.1 hd with rfl | hd
      · have e : ct.ty = .VARIABLE := e
        rw [hct] at e; cases e
      · rw [(hrest d hd).1] at e; cases e
    · intro d hd _
      rcases List.mem_cons.1 hd with rfl | hd
      · refine .node _ _ (by unfold IsContainer; rw [hct]; simp) (by rw [hct]; simp) (by simp) ?_ ?_ ?_
        · rintro _ ⟨a, w, b, l, e, e2, _⟩
          injection e with e _
          rw [← e] at e2
          have e2 : rt.ty = .VARIABLE := e2
          rw [hrt] at e2; cases e2
        · intro d hd e
          rw [List.mem_singleton.1 hd] at e
          have e : rt.ty = .VARIABLE := e
          rw [hrt] at e; cases e
        · intro d hd _
          rw [List.mem_singleton.1 hd]
          refine .node _ _ (by unfold IsContainer; rw [hrt]; simp) (by intro _; rw [hs]; decide) (by rw [hrt]; simp) (by rw [hrt]; simp) ?_ ?_
          · exact fun d hd => (hkids d hd).2.1
          · exact fun d hd => (hkids d hd).2.2
      · exact (hrest d hd).2.1
  have hmark : Vars.mark false (.mk { ty := .LIST, pos := bt.pos } (.mk ct [.mk rt kids] :: rest)) =
      .mk { ty := .LIST, pos := bt.pos } (.mk ct [.mk rt kids] :: Vars.markAll false rest) := by
    rw [Vars.mark, marksLast_ne, Vars.markAll, Bool.false_and, mark_return hct hrt (fun c hc => (hkids c hc).1)]
    · simp [Vars.marks]
    · intro d hd e
      rcases List.mem_cons.1 hd with rfl | hd
      · have e : ct.ty = .OPEN_CURLYBRACKET := e
        rw [hct] at e; cases e
      · rw [(hrest d hd).1] at e; cases e
  have hsubst : subst (visible s.root ps as) (.mk { ty := .LIST, pos := bt.pos } (.mk ct [.mk rt kids] :: Vars.markAll false rest)) =
      .mk { ty := .LIST, pos := bt.pos } (.mk ct [.mk rt (c :: cs)] :: substAll (visible s.root ps as) .LIST (Vars.markAll false rest)) := by
    rw [subst, substAll, if_neg (by simp [Nd.ty, Nd.tok, hct]), subst, substAll, if_neg (by simp [Nd.ty, Nd.tok, hrt]), substAll, subst, hrt, hsub]
  have hgives := Vars.C60_subst E.vars _ _ (Vars.mark_template htpl false) _ ha
  rw [hmark, hsubst] at hgives
  obtain ⟨f1, h1⟩ := hgives
  have hund : ∀ d ∈ (Nd.mk ct [.mk rt r.kids] :: substAll (visible s.root ps as) .LIST (Vars.markAll false rest)), Undeclared d := by
    intro d hd
    rcases List.mem_cons.1 hd with rfl | hd
    · refine .mk _ _ (by rw [hct]; simp) (fun d hd => ?_)
      rw [List.mem_singleton.1 hd]
      exact .mk _ _ (by rw [hrt]; simp) hrk
    · have : Undeclared (subst (visible s.root ps as) (.mk { ty := .LIST, pos := bt.pos } (Vars.markAll false rest))) := by
        refine undeclared_subst hvals (.mk _ _ (by simp) (fun d hd => ?_))
        obtain ⟨d', hd', b', rfl⟩ := Vars.mem_markAll hd
        exact undeclared_mark (hrest d' hd').2.2 b'
      rw [subst] at this
      exact Undeclared.kids this d hd
  obtain ⟨n', hn, f2, rr, h2⟩ := rest_runs (t := { ty := .LIST, pos := bt.pos }) rfl hund
  refine ⟨f1 + f2 + 5, fun f hf => ?_⟩
  unfold execute
  rw [show (Nd.mk t (as.map Argument.node)).tok.str = t.str from rfl, h]
  dsimp only
  rw [if_neg (by simp [hv]), if_neg (by rw [hbody]; simp [Nd.ty, Nd.tok, hbt]), hps, show (Nd.mk t (as.map Argument.node)).kids = as.map Argument.node from rfl,
    hb1]
  dsimp only
  rw [hpos, hkk]
  unfold result
  rw [hmark]
  have h1 := h1 f (by omega)
  dsimp only at h1
  unfold Vars.replaceRoot
  rw [Vars.bind_apply, h1]
  dsimp only [Vars.orThrow]
  rw [Vars.pure_apply]
  dsimp only
  obtain ⟨g, rfl⟩ : ∃ g, f = g + 5 := ⟨f - 5, by omega⟩
  rw [comp_body rfl hct hrt hs hc hr]
  dsimp only
  rw [hn]
  dsimp only
  rw [h2 _ (by omega)]
  dsimp only
  simp

/-- C90: what the call gives depends on the function and on the global variables only, not on the other variables that are
visible where the call is. -/
theorem C90_locals (E : Pipeline.Env) (f : Nat) (s s' : Vars.St) (func : Nd) (h : s.get func.tok.str = s'.get func.tok.str)
    (hr : s.root = s'.root) : execute E f s func = execute E f s' func := by
  unfold execute; rw [h, hr]

/-- C90: a body with nothing but a comment, thus without an @return, gives a null pointer. -/
theorem C90_no_return (E : Pipeline.Env) (s : Vars.St) (t : Tok) {as : List Argument} {v : Vars.Var} (h : s.get t.str = some v)
    (hv : v.name.ty = .FUNCTION) {ps : List Param} (hps : v.name.kids = ps.map Param.node) (hm : ¬ Missing ps as)
    {bt cmt : Tok} (hbody : v.value = .mk bt [.mk cmt []])
    (hbt : bt.ty = .OPEN_CURLYBRACKET) (hcm : cmt.ty = .COMMENT) (hp : ∀ a b, cmt.str ≠ a ++ 123 :: 36 :: b) :
    ∃ f0, ∀ f ≥ f0, execute E f s (.mk t (as.map Argument.node)) = .value none [] := by
  obtain ⟨vars, hb1, hb2⟩ := Vars.findVar_bindArgs v.value.tok.pos {} ps as s.root hm
  have hpos : v.value.tok.pos = bt.pos := by rw [hbody]; rfl
  have hkk : v.value.kids = [.mk cmt []] := by rw [hbody]; rfl
  have hplain : Plain (.mk { ty := .LIST, pos := bt.pos } [.mk cmt []]) := by
    refine .mk _ _ (by simp) (by simp) (by simp) (by simp) (by simp) (fun c hc => ?_)
    rw [List.mem_singleton.1 hc]
    exact .mk _ _ (by simp [hcm]) (by simp [hcm]) (by simp [hcm]) (by simp [hcm]) (fun _ => hp) (by simp)
  have hmark : Vars.mark false (.mk { ty := .LIST, pos := bt.pos } [.mk cmt []]) = .mk { ty := .LIST, pos := bt.pos } [.mk cmt []] := by
    rw [Vars.mark, marksLast_ne (by simp [Nd.ty, Nd.tok, hcm]), markAll_operands]
    · simp
    · intro c hc
      rw [List.mem_singleton.1 hc]
      unfold Operand
      simp [Nd.ty, Nd.tok, hcm]
  obtain ⟨f1, h1⟩ := Vars.C53_plain E.vars _ hplain { root := vars }
  have hund : ∀ d ∈ [Nd.mk cmt []], Undeclared d := by
    intro d hd
    rw [List.mem_singleton.1 hd]
    exact .mk _ _ (by simp [hcm]) (by simp)
  obtain ⟨n', hn, f2, rr, h2⟩ := rest_runs (t := { ty := .LIST, pos := bt.pos }) rfl hund
  refine ⟨f1 + f2 + 5, fun f hf => ?_⟩
  unfold execute
  rw [show (Nd.mk t (as.map Argument.node)).tok.str = t.str from rfl, h]
  dsimp only
  rw [if_neg (by simp [hv]), if_neg (by rw [hbody]; simp [Nd.ty, Nd.tok, hbt]), hps, show (Nd.mk t (as.map Argument.node)).kids = as.map Argument.node from rfl,
    hb1]
  dsimp only
  rw [hpos, hkk]
  unfold result
  rw [hmark]
  have h1 := h1 f (by omega)
  dsimp only at h1
  unfold Vars.replaceRoot
  rw [Vars.bind_apply, h1]
  dsimp only [Vars.orThrow]
  rw [Vars.pure_apply]
  dsimp only
  obtain ⟨g, rfl⟩ : ∃ g, f = g + 5 := ⟨f - 5, by omega⟩
  have hcomp : Compile.comp E.comp (g + 5) (.mk { ty := .LIST, pos := bt.pos } [.mk cmt []]) {} =
      .ok (.keep (.mk { ty := .LIST, pos := bt.pos } [.mk cmt []])) {} := by
    rw [Compile.comp, if_pos (.inl rfl), Compile.bind_apply, Compile.compLoop]
    dsimp only
    rw [if_neg (by simp), Compile.bind_apply, Compile.comp, if_neg (by simp [hcm]), if_pos (.inr hcm)]
    rfl
  rw [hcomp]
  dsimp only
  rw [hn]
  dsimp only
  rw [h2 _ (by omega)]
  rfl

/-! ### Concrete cases -/

def exPos : Pos := ⟨1, 1, 1⟩
def exLeaf (ty : NT) (str : Str) : Nd := .leaf { ty := ty, pos := exPos, str := str }

/-- `@mixin f($a, $b: z) { @return $a $b $g; @return $b; }` with the global variable `$g: w` -/
def exPs : List Param := [⟨exPos, { ty := .VARIABLE, pos := exPos, str := b!"a" }, []⟩,
  ⟨exPos, { ty := .VARIABLE, pos := exPos, str := b!"b" }, [exLeaf .IDENTIFIER b!"z"]⟩]
def exReturn (kids : List Nd) : Nd :=
  .mk { ty := .COMPONENT_VALUE, pos := exPos } [.mk { ty := .AT_KEYWORD, pos := exPos, str := b!"return" } kids]
def exFunc : Vars.Var := ⟨.mk { ty := .FUNCTION, pos := exPos, str := b!"f" } (exPs.map Param.node),
  .mk { ty := .OPEN_CURLYBRACKET, pos := exPos }
    [exReturn [exLeaf .VARIABLE b!"a", exLeaf .WHITESPACE [], exLeaf .VARIABLE b!"b", exLeaf .WHITESPACE [], exLeaf .VARIABLE b!"g"],
     exReturn [exLeaf .VARIABLE b!"b"]]⟩
def exSt : Vars.St := { scopes := [[⟨exLeaf .VARIABLE b!"g", exLeaf .IDENTIFIER b!"local"⟩]], root := [⟨exLeaf .VARIABLE b!"g", exLeaf .IDENTIFIER b!"w"⟩, exFunc] }
/-- `f(x)` -/
def exAs : List Argument := [⟨exPos, [exLeaf .IDENTIFIER b!"x"]⟩]

/-- The hypotheses of C90_value. -/
example : exSt.get b!"f" = some exFunc ∧ ¬ Missing exPs exAs ∧
    (∀ y v, (y, v) ∈ [(b!"a", b!"x"), (b!"b", b!"z"), (b!"g", b!"w")] → visible exSt.root exPs exAs y = some (exLeaf .IDENTIFIER v)) ∧
    visible exSt.root exPs exAs b!"f" = none ∧ (∀ str, GoodValue (exLeaf .IDENTIFIER str)) ∧
    (substAll (visible exSt.root exPs exAs) .AT_KEYWORD
      [exLeaf .VARIABLE b!"a", exLeaf .WHITESPACE [], exLeaf .VARIABLE b!"b", exLeaf .WHITESPACE [], exLeaf .VARIABLE b!"g"]).map (·.tok.str) =
      [b!"x", [], b!"z", [], b!"w"] := by
  refine ⟨rfl, ?_, ?_, rfl, ?_, by decide +kernel⟩
  · rintro ⟨q, hq, e⟩
    have : q = exPs[1] := by simpa [exPs, exAs] using hq
    subst this
    cases e
  · intro y v h
    simp only [List.mem_cons, List.not_mem_nil, or_false, Prod.mk.injEq] at h
    rcases h with ⟨rfl, rfl⟩ | ⟨rfl, rfl⟩ | ⟨rfl, rfl⟩ <;> rfl
  · intro str p
    have : spliced p (exLeaf .IDENTIFIER str) = [exLeaf .IDENTIFIER str] := rfl
    rw [this]
    refine ⟨?_, by show NT.IDENTIFIER ≠ _; decide, by show some NT.IDENTIFIER ≠ _; decide⟩
    intro c hc
    rw [List.mem_singleton.1 hc]
    exact .mk _ _ (by simp) (by simp) (by simp) (by simp) (by simp) (by simp)

/-- The same through the model: the @return gives its last word. -/
def exEnv : Pipeline.Env where
  vars := Vars.exEnv
  comp := { Compile.exEnv with ret := fun k => some ⟨k, k.getLast?, []⟩ }
  pow10 := fun _ => .nan
  precision := 3

example : (match execute exEnv 30 exSt (.mk { ty := .FUNCTION, pos := exPos, str := b!"f" } (exAs.map Argument.node)) with
    | .value (some v) [] => some v.tok.str
    | _ => none) = some b!"w" := by decide +kernel

end Csspp.UserFn
