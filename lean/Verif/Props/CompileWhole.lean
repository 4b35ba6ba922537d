import Verif.Lemmas.CompileEnd
import Verif.Props.CompileFrames

/-!
C67: the pass ends, and messages are only added.
C68: without an error nothing is left to compile.
C69: what the pass loses, refuses or leaves (known defects).
-/

namespace Csspp.Compile
open Csspp.Parse (Nd)
open Csspp.Lex (Tok Pos)
open Csspp.Spec.Compiled (ready readyAll finished finishedAll)

/-- C67: the pass ends on every tree, in every state, with one result; the messages that were there stay, before the new
ones. -/
theorem C67_ends (E : Env) (n : Nd) (s : St) :
    ∃ r, r ≠ .fuel ∧ Gives (fun f => comp E f n) s r ∧
      ∀ a s', r = .ok a s' → ∃ l, s'.errs = l ++ s.errs := by
  obtain ⟨r, h1, h2, h3⟩ := comp_runs (E := E) (fun M _ => loops_all E M) n s (Nat.le_refl _)
  exact ⟨r, h1, h2, fun a s' e => (h3 a s' e).1.1⟩

/-- C67: so does the pass on the children of a style sheet. -/
theorem C67_list_ends (E : Env) (l : List Nd) (s : St) :
    ∃ r, r ≠ .fuel ∧ Gives (fun f => compLoop E f l) s r ∧
      ∀ a s', r = .ok a s' → ∃ m, s'.errs = m ++ s.errs := by
  obtain ⟨r, h1, h2, h3⟩ := (loops_all E _).compLoop l s (Nat.le_refl _)
  exact ⟨r, h1, h2, fun a s' e => (h3 a s' e).1.1⟩

/-- C68: when the pass returns and there was no error and no @return, nothing is left to compile: every component
value is a rule with its selectors or an @-rule, at every depth. -/
theorem C68_finished {E : Env} {t : Tok} (ht : t.ty = .LIST) {kids : List Nd} (hr : ready .top (.mk t kids) = true) {s s' : St}
    {a : Act} (h : Gives (fun f => comp E f (.mk t kids)) s (.ok a s')) (he : ∀ e ∈ s'.errs, e.1.level ≠ .error)
    (hn : s'.ret = none) : ∃ kids', a = .keep (.mk t kids') ∧ finished (.mk t kids') = true := by
  obtain ⟨r, h1, h2, h3⟩ := comp_runs (E := E) (fun M _ => loops_all E M) (.mk t kids) s (Nat.le_refl _)
  have e := h2.unique h
  obtain ⟨_, _, h4⟩ := h3 a s' e
  have hb := h4 ⟨he, hn⟩ hr
  obtain ⟨f, hf⟩ := h
  have this : comp E (f + 1) (.mk t kids) s = _ := hf (f + 1) (by omega)
  rw [comp, if_pos (.inl ht), bind_apply] at this
  cases hx : compLoop E f kids s with
  | ok k s1 =>
    rw [hx] at this
    cases this
    exact ⟨k, rfl, hb⟩
  | throws => rw [hx] at this; cases this
  | undef => rw [hx] at this; cases this
  | fuel => rw [hx] at this; cases this

/-! ### C69 -/

/-- C69: known defect: a comment that is kept, in front of a declaration or of a rule in a block, replaces it: what
follows the comment is dropped, without a message. -/
theorem C69_comment_drops {E : Env} {t : Tok} (ht : t.ty = .COMPONENT_VALUE) {c : Nd} (hc : c.ty = .COMMENT) (lost : List Nd)
    {rest out : List Nd} {s s' : St} {loop : Nat → List Nd → M (List Nd)} (hl : loop = ruleLoop E ∨ loop = faceLoop E)
    (hr : Gives (fun f => loop f rest) s (.ok out s')) :
    Gives (fun f => loop f (.mk t (c :: lost) :: rest)) s (.ok (c :: out) s') := by
  obtain ⟨f, hf⟩ := hr
  refine ⟨f + 4, fun g hg => ?_⟩
  obtain ⟨g, rfl⟩ : ∃ k, g = k + 3 := ⟨g - 3, by omega⟩
  have hf : loop (g + 1) rest s = _ := hf (g + 1) (by omega)
  have hv : compValue E (g + 2) (.mk t (c :: lost)) s = .ok (.into [c]) s := by
    rw [compValue_succ, if_neg (by rw [ht]; simp), if_neg (by rw [ht]; simp [Node.supportsChildren])]
    dsimp only
    rw [if_pos hc]
    rfl
  have hty : (Nd.mk t (c :: lost)).ty = .COMPONENT_VALUE := ht
  show loop (g + 2 + 1) (.mk t (c :: lost) :: rest) s = _
  rcases hl with rfl | rfl
  · rw [ruleLoop, hty]
    show (compValue E (g + 2) (Nd.mk t (c :: lost)) >>= _) s = _
    rw [bind_apply, hv]
    show ruleLoop E (g + 1 + 1) (c :: rest) s = _
    rw [ruleLoop, hc]
    show (ruleLoop E (g + 1) rest >>= _) s = _
    rw [bind_apply, hf]
    rfl
  · rw [faceLoop, hty]
    show (compValue E (g + 2) (Nd.mk t (c :: lost)) >>= _) s = _
    rw [bind_apply, hv]
    show faceLoop E (g + 1 + 1) (c :: rest) s = _
    rw [faceLoop, hc]
    show (faceLoop E (g + 1) rest >>= _) s = _
    rw [bind_apply, hf]
    rfl

/-- C69: in the style sheet itself, too. -/
theorem C69_comment_drops_in_sheet {E : Env} {t : Tok} (ht : t.ty = .COMPONENT_VALUE) {c : Nd} (hc : c.ty = .COMMENT)
    (lost : List Nd) {rest out : List Nd} {s s' : St} (hs : s.ret = none)
    (hr : Gives (fun f => compLoop E f rest) s (.ok out s')) :
    Gives (fun f => compLoop E f (.mk t (c :: lost) :: rest)) s (.ok (c :: out) s') := by
  obtain ⟨f, hf⟩ := hr
  refine ⟨f + 4, fun g hg => ?_⟩
  obtain ⟨g, rfl⟩ : ∃ k, g = k + 4 := ⟨g - 4, by omega⟩
  have hf : compLoop E (g + 2) rest s = _ := hf (g + 2) (by omega)
  have hv : comp E (g + 3) (.mk t (c :: lost)) s = .ok (.into [c]) s := by
    rw [comp, if_neg (by rw [ht]; simp), if_neg (by rw [ht]; simp), if_pos ht]
    rw [compValue_succ, if_neg (by rw [ht]; simp), if_neg (by rw [ht]; simp [Node.supportsChildren])]
    dsimp only
    rw [if_pos hc]
    rfl
  have hv' : comp E (g + 2) c s = .ok (.keep c) s := by
    obtain ⟨ct, ck⟩ := c
    have hc : ct.ty = .COMMENT := hc
    rw [comp, if_neg (by rw [hc]; simp), if_pos (.inr hc)]
    rfl
  show compLoop E (g + 3 + 1) (.mk t (c :: lost) :: rest) s = _
  rw [compLoop]
  refine (if_neg (by rw [hs]; simp)).trans ?_
  show (comp E (g + 3) _ >>= _) s = _
  rw [bind_apply, hv]
  show compLoop E (g + 2 + 1) (c :: rest) s = _
  rw [compLoop]
  refine (if_neg (by rw [hs]; simp)).trans ?_
  show (comp E (g + 2) _ >>= _) s = _
  rw [bind_apply, hv']
  show (compLoop E (g + 2) rest >>= _) s = _
  rw [bind_apply, hf]
  rfl

/-- C69: known defect: the same comment in a block of several declarations, in @media or in a nested declaration is an
exception. -/
theorem C69_comment_throws {E : Env} {t : Tok} (ht : t.ty = .COMPONENT_VALUE) {c : Nd} (hc : c.ty = .COMMENT)
    (lost rest : List Nd) (s : St) {loop : Nat → List Nd → M (List Nd)}
    (hl : loop = items E ∨ loop = mediaLoop E ∨ loop = declBlock E) :
    Gives (fun f => loop f (.mk t (c :: lost) :: rest)) s .throws := by
  refine ⟨3, fun g hg => ?_⟩
  obtain ⟨g, rfl⟩ : ∃ k, g = k + 3 := ⟨g - 3, by omega⟩
  have hv : compValue E (g + 2) (.mk t (c :: lost)) s = .ok (.into [c]) s := by
    rw [compValue_succ, if_neg (by rw [ht]; simp), if_neg (by rw [ht]; simp [Node.supportsChildren])]
    dsimp only
    rw [if_pos hc]
    rfl
  have hv' : compValue E (g + 1) c s = .throws := by
    obtain ⟨ct, ck⟩ := c
    have hc : ct.ty = .COMMENT := hc
    rw [compValue_succ, if_neg (by rw [hc]; simp), if_pos (by rw [hc]; rfl)]
    rfl
  have hty : (Nd.mk t (c :: lost)).ty = .COMPONENT_VALUE := ht
  show loop (g + 2 + 1) (.mk t (c :: lost) :: rest) s = _
  rcases hl with rfl | rfl | rfl
  · rw [items]
    show (compValue E (g + 2) _ >>= _) s = _
    rw [bind_apply, hv]
    show items E (g + 1 + 1) (c :: rest) s = _
    rw [items]
    show (compValue E (g + 1) _ >>= _) s = _
    rw [bind_apply, hv']
  · rw [mediaLoop, hty]
    show (compValue E (g + 2) _ >>= _) s = _
    rw [bind_apply, hv]
    show mediaLoop E (g + 1 + 1) (c :: rest) s = _
    rw [mediaLoop, hc]
    show (compValue E (g + 1) _ >>= _) s = _
    rw [bind_apply, hv']
  · rw [declBlock, hty]
    show (compValue E (g + 2) _ >>= _) s = _
    rw [bind_apply, hv]
    show declBlock E (g + 1 + 1) (c :: rest) s = _
    rw [declBlock, hc]
    rfl

/-- C69: known defect: in a list in the block of a declaration, what follows a message (@warning...) is left as it is, it
is not compiled. -/
theorem C69_message_skips {E : Env} {n : Nd} {l : List (Err × Pos)} (h : Says E n l) {t : Tok}
    (ht : t.ty = .COMPONENT_VALUE) {x : Nd} {rest out : List Nd} {s s' : St}
    (hr : Gives (fun f => declValues E f rest) (s.add l) (.ok out s')) :
    Gives (fun f => declValues E f (.mk t [n] :: x :: rest)) s (.ok (x :: out) s') := by
  obtain ⟨f, hf⟩ := hr
  refine ⟨f + 4, fun g hg => ?_⟩
  obtain ⟨g, rfl⟩ : ∃ k, g = k + 3 := ⟨g - 3, by omega⟩
  have hf : declValues E (g + 2) rest (s.add l) = _ := hf (g + 2) (by omega)
  have hty : (Nd.mk t [n]).ty = .COMPONENT_VALUE := ht
  show declValues E (g + 2 + 1) (.mk t [n] :: x :: rest) s = _
  rw [declValues, hty]
  show (compValue E (g + 2) _ >>= _) s = _
  rw [bind_apply, compValue_says h ht s g]
  show (declValues E (g + 2) rest >>= _) (s.add l) = _
  rw [bind_apply, hf]
  rfl

/-- C69: after an @return the rest of a list is left as it is. -/
theorem C69_return_stops {E : Env} {l : List Nd} {s : St} (h : s.ret ≠ none) :
    Gives (fun f => compLoop E f l) s (.ok l s) := by
  refine ⟨1, fun g hg => ?_⟩
  obtain ⟨g, rfl⟩ : ∃ k, g = k + 1 := ⟨g - 1, by omega⟩
  show compLoop E (g + 1) l s = _
  cases l with
  | nil => rw [compLoop]; rfl
  | cons c cs =>
    rw [compLoop]
    refine if_pos ?_
    cases hr : s.ret with
    | none => exact absurd hr h
    | some x => rfl

/-! ### Examples -/

/-- `a { color: red, blue }` before and after. -/
def exBefore : Nd := exNode .LIST [] [exNode .COMPONENT_VALUE []
  [exNode .IDENTIFIER b!"a" [], exNode .OPEN_CURLYBRACKET [] [exNode .COMPONENT_VALUE [] exColor]]]

example : ready .top exBefore = true := by decide +kernel

def exResult : Option (Nd × Nat) :=
  match comp exEnv 50 exBefore {} with
  | .ok (.keep n) s => some (n, s.errs.length)
  | _ => none

example : exResult.map (fun r => (finished r.1, r.2)) = some (true, 0) := by decide +kernel

/-- `a { b { color: red, blue } @media x { c { color: red, blue } } }` -/
def exDeep : Nd := exNode .LIST [] [exNode .COMPONENT_VALUE []
  [exNode .IDENTIFIER b!"a" [], exNode .OPEN_CURLYBRACKET [] [exNode .LIST [] [
    exNode .COMPONENT_VALUE [] [exNode .IDENTIFIER b!"b" [], exNode .OPEN_CURLYBRACKET [] [exNode .COMPONENT_VALUE [] exColor]],
    exNode .COMPONENT_VALUE [] [exNode .AT_KEYWORD b!"media" [exNode .IDENTIFIER b!"x" [],
      exNode .OPEN_CURLYBRACKET [] [exNode .COMPONENT_VALUE [] [exNode .IDENTIFIER b!"c" [],
        exNode .OPEN_CURLYBRACKET [] [exNode .COMPONENT_VALUE [] exColor]]]]]]]]]

example : ready .top exDeep = true := by decide +kernel
example : (match comp exEnv 50 exDeep {} with
  | .ok (.keep n) s => some (finished n, s.errs.length)
  | _ => none) = some (true, 0) := by decide +kernel

end Csspp.Compile
