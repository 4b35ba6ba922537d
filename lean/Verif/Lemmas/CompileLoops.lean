import Verif.Lemmas.CompileAt

/-! Every function of Model/Compile.lean ends, and what is compiled without an error is finished: component values and
the loops. -/

namespace Csspp.Compile
open Csspp.Parse (Nd push argify ArgRes mkArg argLoop)
open Csspp.Lex (Tok Pos)
open Csspp.Spec.Compiled

theorem not_all_cv {c : Nd} {cs : List Nd} (h : c.ty ≠ .COMPONENT_VALUE) :
    (c :: cs).all (fun c => decide (c.ty = .COMPONENT_VALUE)) = false := by
  rw [List.all_cons]; simp [h]

theorem compValue_succ (E : Env) (f : Nat) (t : Tok) (kids : List Nd) : compValue E (f + 1) (.mk t kids) =
    if t.ty = .DECLARATION then pure (.keep (.mk t kids))
    else if Node.supportsChildren t.ty = false then throws
    else
      match kids with
      | [] => pure (.keep (.mk t []))
      | c :: cs =>
        if c.ty = .COMMENT then pure (.into [c])
        else if c.ty = .ARG then throws
        else if (c :: cs).all (fun c => decide (c.ty = .COMPONENT_VALUE)) then pure (.into (c :: cs))
        else if (c :: cs).any (fun c => decide (c.ty = .COMPONENT_VALUE)) then throws
        else if c.ty = .AT_KEYWORD then do
          let r ← atKeyword E f c
          match r with
          | some c => pure (.keep (.mk t (c :: cs)))
          | none => if cs.isEmpty then pure (.into []) else pure (.keep (.mk t cs))
        else if Vars.isSetBlock (c :: cs) then throws
        else if isNested (c :: cs) then declaration E f t (c :: cs)
        else if (c :: cs).getLast?.map Nd.ty = some .OPEN_CURLYBRACKET then do
          let n ← rule E f t (c :: cs)
          pure (.keep n)
        else if Vars.isSet (c :: cs) then throws
        else declaration E f t (c :: cs) := by
  cases kids with
  | nil => rw [compValue]
  | cons c cs =>
    rw [compValue]
    rfl

/-- compile_component_value(). -/
theorem compValue_runs {E : Env} {N : Nat} (hL : ∀ M, M < N → Loops E M) (n : Nd) (s : St) (hN : sz n ≤ N) :
    Runs (fun f => compValue E f n) s (cvA n) (cvB n) := by
  obtain ⟨t, kids⟩ := n
  refine Runs.succ (m := fun f => _) ?_ (fun f => by rw [compValue_succ])
  by_cases h1 : t.ty = .DECLARATION
  · simp only [if_pos h1]
    refine Runs.pure trivial (fun hr _ => ?_)
    rw [ready_eq] at hr
    have h1' : (Nd.mk t kids).ty = .DECLARATION := h1
    simpa [inside, h1'] using hr
  · simp only [if_neg h1]
    by_cases h2 : Node.supportsChildren t.ty = false
    · simp only [if_pos h2]; exact Runs.throws
    · simp only [if_neg h2]
      have hsz := sz_mk (kids := kids) h1
      cases kids with
      | nil =>
        dsimp only
        refine Runs.pure trivial (fun hr hat => ?_)
        show finished (.mk t []) = true
        have hat : t.ty ≠ .AT_KEYWORD := hat
        unfold finished
        split
        · rfl
        · rw [if_neg (fun x => hat x.1)]
          split
          · rfl
          · exact finishedAll_nil
      | cons c cs =>
        dsimp only
        by_cases h3 : c.ty = .COMMENT
        · simp only [if_pos h3]
          refine Runs.pure ⟨?_, ?_⟩ ?_
          · rw [hsz, szAll_cons, szAll_cons, szAll_nil]; omega
          · intro _ hs
            unfold single at hs
            simp [Nd.kids, h3] at hs
          · intro _ _ x hx
            rw [List.mem_singleton] at hx
            subst hx
            exact .inr ⟨.inr h3, finished_token (by rw [h3]; rfl)⟩
        · simp only [if_neg h3]
          by_cases h4 : c.ty = .ARG
          · simp only [if_pos h4]; exact Runs.throws
          · simp only [if_neg h4]
            by_cases h5 : (c :: cs).all (fun c => decide (c.ty = .COMPONENT_VALUE)) = true
            · simp only [if_pos h5]
              refine Runs.pure ⟨by rw [hsz]; omega, ?_⟩ ?_
              · intro _ hs
                unfold single at hs
                have hc : c.ty = .COMPONENT_VALUE := by
                  rw [List.all_cons, Bool.and_eq_true, decide_eq_true_eq] at h5; exact h5.1
                simp [Nd.kids, hc] at hs
              · intro hr hat x hx
                have hat : t.ty ≠ .AT_KEYWORD := hat
                have hx5 : x.ty = .COMPONENT_VALUE := by
                  have := List.all_eq_true.mp h5 x hx
                  simpa using this
                refine .inl ⟨hx5, ?_⟩
                rw [ready_eq] at hr
                by_cases hl : t.ty = .LIST
                · have : inside .media (.mk t (c :: cs)) = .kids .value := by
                    unfold inside; dsimp only; rw [if_pos (show (Nd.mk t (c :: cs)).ty = .LIST from hl)]
                  rw [this] at hr
                  dsimp only at hr
                  rw [readyAll_even even_value] at hr
                  exact hr x hx
                · by_cases hcv : t.ty = .COMPONENT_VALUE
                  · rw [ready_cv (show (Nd.mk t (c :: cs)).ty = .COMPONENT_VALUE from hcv) (by simp)] at hr
                    have : insideCv (Nd.mk t (c :: cs)).kids = .kids .value := by
                      unfold insideCv
                      exact if_pos h5
                    rw [this] at hr
                    dsimp only at hr
                    rw [readyAll_even even_value] at hr
                    exact hr x hx
                  · unfold inside at hr
                    dsimp only at hr
                    rw [if_neg (show (Nd.mk t (c :: cs)).ty ≠ .LIST from hl),
                      if_neg (show (Nd.mk t (c :: cs)).ty ≠ .COMPONENT_VALUE from hcv),
                      if_neg (show (Nd.mk t (c :: cs)).ty ≠ .AT_KEYWORD from hat)] at hr
                    dsimp only at hr
                    rw [Bool.and_eq_true, decide_eq_true_eq] at hr
                    rcases hr.1 with h | h
                    · exact absurd h h1
                    · have h : t.ty = .COMMENT := h
                      rw [h] at h2; exact absurd rfl h2
            · simp only [if_neg h5]
              by_cases h6 : (c :: cs).any (fun c => decide (c.ty = .COMPONENT_VALUE)) = true
              · simp only [if_pos h6]; exact Runs.throws
              · simp only [if_neg h6]
                have hcne : c.ty ≠ .COMPONENT_VALUE := by
                  intro h; exact h6 (by rw [List.any_cons]; simp [h])
                -- what is known of the children when the node is ready
                have hkids : ready .media (.mk t (c :: cs)) = true → t.ty ≠ .AT_KEYWORD →
                    t.ty = .COMPONENT_VALUE ∧ (match insideCv (c :: cs) with
                      | .known b => b
                      | .kids q => readyAll q (c :: cs)) = true := by
                  intro hr hat
                  rw [ready_eq] at hr
                  by_cases hl : t.ty = .LIST
                  · have : inside .media (.mk t (c :: cs)) = .kids .value := by
                      unfold inside; dsimp only; rw [if_pos (show (Nd.mk t (c :: cs)).ty = .LIST from hl)]
                    rw [this] at hr
                    dsimp only at hr
                    rw [readyAll_even even_value] at hr
                    have := hr c (by show c ∈ c :: cs; simp)
                    rw [ready_eq] at this
                    unfold inside at this
                    dsimp only at this
                    rw [if_neg hcne] at this
                    cases this
                  · by_cases hcv : t.ty = .COMPONENT_VALUE
                    · rw [ready_cv (show (Nd.mk t (c :: cs)).ty = .COMPONENT_VALUE from hcv) (by simp)] at hr
                      exact ⟨hcv, hr⟩
                    · unfold inside at hr
                      dsimp only at hr
                      rw [if_neg (show (Nd.mk t (c :: cs)).ty ≠ .LIST from hl),
                        if_neg (show (Nd.mk t (c :: cs)).ty ≠ .COMPONENT_VALUE from hcv),
                        if_neg (show (Nd.mk t (c :: cs)).ty ≠ .AT_KEYWORD from hat)] at hr
                      dsimp only at hr
                      rw [Bool.and_eq_true, decide_eq_true_eq] at hr
                      rcases hr.1 with h | h
                      · exact absurd h h1
                      · have h : t.ty = .COMMENT := h
                        rw [h] at h2; exact absurd rfl h2
                by_cases h7 : c.ty = .AT_KEYWORD
                · simp only [if_pos h7]
                  obtain ⟨ct, ck⟩ := c
                  have hct : ct.ty = .AT_KEYWORD := h7
                  refine Runs.bind (m := fun f => atKeyword E f (.mk ct ck)) (k := fun _ r => match r with
                    | some c => pure (Act.keep (.mk t (c :: cs)))
                    | none => if cs.isEmpty then pure (Act.into []) else pure (Act.keep (.mk t cs)))
                    (atKeyword_runs hL ct ck s (by
                      rw [hsz, szAll_cons, sz_mk (by rw [hct]; simp)] at hN; omega) hct) (fun v s' hv => ?_)
                  have hone : ready .media (.mk t (Nd.mk ct ck :: cs)) = true → t.ty ≠ .AT_KEYWORD →
                      t.ty = .COMPONENT_VALUE ∧ cs = [] ∧ ready .at (.mk ct ck) = true := by
                    intro hr hat
                    obtain ⟨hcv, hk⟩ := hkids hr hat
                    unfold insideCv at hk
                    rw [if_neg h5, if_pos (by rw [List.head?_cons, Option.map_some, h7])] at hk
                    split at hk
                    · rename_i b e
                      split at e
                      · cases e
                      · cases e; cases hk
                    · rename_i q e
                      split at e
                      · rename_i hlen
                        cases e
                        have : cs = [] := by
                          cases cs with
                          | nil => rfl
                          | cons _ _ => simp at hlen
                        subst this
                        rw [readyAll_cons, Bool.and_eq_true] at hk
                        exact ⟨hcv, rfl, hk.1⟩
                      · cases e
                  cases v with
                  | some c' =>
                    dsimp only
                    refine Runs.pure trivial (fun hb hr hat => ?_)
                    obtain ⟨hcv, rfl, hc⟩ := hone hr hat
                    show finished (.mk t [c']) = true
                    have htok := hv c' rfl
                    have hty : c'.ty = .AT_KEYWORD := by unfold Nd.ty; rw [htok]; exact hct
                    rw [finished_cv hcv, finishedAll_cons, finishedAll_nil, hb hc c' rfl]
                    simp [compiledCv, hty]
                  | none =>
                    dsimp only
                    by_cases he : cs.isEmpty = true
                    · simp only [if_pos he]
                      refine Runs.pure ⟨by rw [hsz, szAll_nil]; omega, ?_⟩ ?_
                      · intro _ hs
                        unfold single at hs
                        simp [Nd.kids, h7] at hs
                      · intro _ _ _ x hx
                        cases hx
                    · simp only [if_neg he]
                      refine Runs.pure trivial (fun hb hr hat => ?_)
                      obtain ⟨_, rfl, _⟩ := hone hr hat
                      exact absurd rfl he
                · simp only [if_neg h7]
                  have hbody : ready .media (.mk t (c :: cs)) = true → t.ty ≠ .AT_KEYWORD →
                      t.ty = .COMPONENT_VALUE ∧ readyAll (.body (if named (c :: cs) then .inDecl else .inRule)) (c :: cs) = true := by
                    intro hr hat
                    obtain ⟨hcv, hk⟩ := hkids hr hat
                    unfold insideCv at hk
                    rw [if_neg h5, if_neg (by rw [List.head?_cons, Option.map_some]; simpa using h7)] at hk
                    exact ⟨hcv, hk⟩
                  have hdecl : ∀ (_ : isNested (c :: cs) = true ∨ (c :: cs).getLast?.map Nd.ty ≠ some .OPEN_CURLYBRACKET),
                      Runs (fun f => declaration E f t (c :: cs)) s (cvA (.mk t (c :: cs))) (cvB (.mk t (c :: cs))) := by
                    intro hwhich
                    refine (declaration_runs hL t (c :: cs) s (by rw [hsz] at hN; omega)).mono (fun a ha => ?_) (fun a _ hb hr hat => ?_)
                    · cases a with
                      | keep _ => trivial
                      | into l =>
                        obtain ⟨d, rfl, hd⟩ := ha l rfl
                        refine ⟨?_, fun _ _ => ⟨d, rfl, hd⟩⟩
                        rw [szAll_cons, szAll_nil, hsz, szAll_cons]
                        have h : sz d = 1 := by
                          cases d; unfold sz; exact if_pos hd
                        have := sz_pos c
                        omega
                    · obtain ⟨hcv, hk⟩ := hbody hr hat
                      have hB : Body .inDecl (c :: cs) := by
                        rcases hwhich with hw | hw
                        · rw [if_pos (isNested_named hw)] at hk
                          exact body_of_ready hk
                        · have := (body_of_ready hk).tokens hw
                          exact ⟨c :: cs, this, .inl rfl⟩
                      obtain ⟨d, rfl, hd⟩ := hb hB
                      intro x hx
                      rw [List.mem_singleton] at hx
                      subst hx
                      rename_i ha
                      obtain ⟨d', e, hdt⟩ := ha [x] rfl
                      cases e
                      exact .inr ⟨.inl hdt, hd⟩
                  by_cases h8 : Vars.isSetBlock (c :: cs) = true
                  · simp only [if_pos h8]; exact Runs.throws
                  · simp only [if_neg h8]
                    by_cases h9 : isNested (c :: cs) = true
                    · simp only [if_pos h9]
                      exact hdecl (.inl h9)
                    · simp only [if_neg h9]
                      by_cases h10 : (c :: cs).getLast?.map Nd.ty = some .OPEN_CURLYBRACKET
                      · simp only [if_pos h10]
                        refine Runs.map (A' := cvA (.mk t (c :: cs))) (k := fun n => Act.keep n)
                          (rule_runs hL t (c :: cs) s (by rw [hsz] at hN; omega) h10
                            (by rw [List.head?_cons, Option.map_some]; simpa using h4)) (fun _ _ => trivial) ?_
                        intro v _ hv hr hat
                        obtain ⟨hcv, hk⟩ := hbody hr hat
                        refine hv hcv ?_
                        have := body_of_ready hk
                        split at this
                        · exact this.mono (fun k hk => readyAll_inDecl hk)
                        · exact this
                      · simp only [if_neg h10]
                        by_cases h11 : Vars.isSet (c :: cs) = true
                        · simp only [if_pos h11]; exact Runs.throws
                        · simp only [if_neg h11]
                          exact hdecl (.inr h10)

end Csspp.Compile
