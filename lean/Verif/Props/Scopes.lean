import Verif.Props.SetVar
import Verif.Props.Marks

/-!
C59: the blocks and the variables that are set in them. C62: the comments of a list of rules.
-/

namespace Csspp.Vars
open Csspp.Parse (Nd)
open Csspp.Lex (Tok Pos)
open Csspp.Spec

/-- A child that is walked and stays. -/
theorem to_walked {E : Env} {p : NT} (d : List Nd) {c c' : Nd} (l : List Nd) {s s' : St} (hc : recurses c.ty = true)
    (h : Gives (fun f => replaceVars E f c) s (.ok (some c') s')) :
    To E p (d ++ c :: l) d.length s (d ++ c' :: l) (d.length + 1) s' := by
  intro r hr hg
  have e1 : (d ++ c :: l)[d.length]? = some c := by simp
  have e2 : (d ++ c :: l).set d.length c' = d ++ c' :: l := by simp
  have v1 : c.ty ≠ .VARIABLE := by intro e; rw [e] at hc; cases hc
  have v2 : c.ty ≠ .VARIABLE_FUNCTION := by intro e; rw [e] at hc; cases hc
  refine gives_succ (gives_bind (f := fun f x => match x with
      | some x => loop E f p ((d ++ c :: l).set d.length x) (d.length + 1)
      | none => loop E f p ((d ++ c :: l).eraseIdx d.length) d.length) h (by dsimp only; rw [e2]; exact hg)) (fun g => ?_)
  conv => lhs; rw [loop, e1]
  dsimp only
  rw [if_neg v1, if_neg v2, if_pos hc]
  rfl

/-- A child that is walked and goes away. -/
theorem to_gone {E : Env} {p : NT} (d : List Nd) {c : Nd} (l : List Nd) {s s' : St} (hc : recurses c.ty = true)
    (h : Gives (fun f => replaceVars E f c) s (.ok none s')) :
    To E p (d ++ c :: l) d.length s (d ++ l) d.length s' := by
  intro r hr hg
  have e1 : (d ++ c :: l)[d.length]? = some c := by simp
  have e2 : (d ++ c :: l).eraseIdx d.length = d ++ l := to_variable.erase_mid
  have v1 : c.ty ≠ .VARIABLE := by intro e; rw [e] at hc; cases hc
  have v2 : c.ty ≠ .VARIABLE_FUNCTION := by intro e; rw [e] at hc; cases hc
  refine gives_succ (gives_bind (f := fun f x => match x with
      | some x => loop E f p ((d ++ c :: l).set d.length x) (d.length + 1)
      | none => loop E f p ((d ++ c :: l).eraseIdx d.length) d.length) h (by dsimp only; rw [e2]; exact hg)) (fun g => ?_)
  conv => lhs; rw [loop, e1]
  dsimp only
  rw [if_neg v1, if_neg v2, if_pos hc]
  rfl

/-- C62: the references to variables of a comment are replaced wherever the comment is among the children of a node. -/
theorem C62_comment_child (E : Env) (p : NT) (t : Tok) (ht : t.ty = .COMMENT) (kids : List Nd) (ps : List Bit) (hp : Bits ps)
    (hs : t.str = commentText ps) (d l : List Nd) (s : St) :
    To E p (d ++ .mk t kids :: l) d.length s (d ++ .mk { t with str := filled (usable E s) [] ps } kids :: l) (d.length + 1)
        { s with errs := ((ps.flatMap (warning E s)).map (·, t.pos)).reverse ++ s.errs } :=
  to_walked d l (by rw [show (Nd.mk t kids).ty = _ from ht]; rfl) (C62_comment E t ht kids ps hp hs s)

/-- What happens in a '{' block. -/
theorem gives_block {E : Env} {t : Tok} (ht : t.ty = .OPEN_CURLYBRACKET) {kids kids' : List Nd} {s s' : St}
    (h : Gives (fun f => loop E f .OPEN_CURLYBRACKET kids 0) (if t.bool then { s with scopes := [] :: s.scopes } else s)
      (.ok kids' s')) :
    Gives (fun f => replaceVars E f (.mk t kids)) s
      (.ok (some (.mk t kids')) (if t.bool then { s' with scopes := s'.scopes.tail } else s')) := by
  obtain ⟨f, hf⟩ := h
  refine ⟨f + 1, fun g hg => ?_⟩
  obtain ⟨g, rfl⟩ : ∃ k, g = k + 1 := ⟨g - 1, by omega⟩
  have hf := hf g (by omega)
  dsimp only at hf ⊢
  have ht' : (Nd.mk t kids).ty = .OPEN_CURLYBRACKET := ht
  have hset : isVarSet (.mk t kids) = false := by unfold isVarSet; rw [ht']; rfl
  have hsc : isScope (.mk t kids) = t.bool := by unfold isScope; rw [ht']; rfl
  have hi : firstIdx (.mk t kids) = 0 := by unfold firstIdx; rw [hset]; rfl
  rw [replaceVars, if_neg (by rw [ht']; decide), if_neg (by rw [ht']; decide), if_neg (by rw [ht']; simp), hsc, hset, hi, ht',
    bind_apply]
  show ((loop E g _ kids 0 >>= fun k => leave t.bool >>= fun _ => pure (some (Nd.mk t k)) : M _)) _ = _
  rw [bind_apply, hf]
  rfl

/-- What the setting of a variable does in a block. -/
theorem gives_set_block (E : Env) (t : Tok) (ht : t.ty = .OPEN_CURLYBRACKET) (ct var colon : Tok)
    (w1 w2 : Option Tok) (vs : List Nd) (s : St) (hp : ∀ c ∈ vs, Plain c) (hw : vs.head?.map Nd.ty ≠ some .WHITESPACE)
    (h3 : w1.isSome ∨ w2.isSome ∨ vs ≠ []) (hd : ¬ ∃ c ∈ vs, IsFlag b!"default" c) (hg : ¬ ∃ c ∈ vs, IsFlag b!"global" c)
    (hl : ¬ Late vs) :
    Gives (fun f => loop E f .OPEN_CURLYBRACKET [setNode ct var colon w1 w2 vs] 0) s
      (.ok [] (s.put ⟨.leaf { var with ty := .VARIABLE }, assigned ct.pos vs⟩ false)) := by
  obtain ⟨s1, ⟨e1, e2, -, e4⟩, -, h⟩ := C59_set E ct var colon w1 w2 vs s hp hw h3
  have hs : s1 = s := by
    obtain ⟨a, b, c⟩ := s1
    obtain ⟨a', b', c'⟩ := s
    have e4' : c = c' := e4 hl
    have e1' : a = a' := e1
    have e2' : b = b' := e2
    rw [e1', e2', e4']
  subst hs
  have h := h (fun e => hd e.1) false ⟨(fun e => by cases e), fun e => absurd e hg⟩
  have := to_gone (E := E) (p := .OPEN_CURLYBRACKET) [] (c := setNode ct var colon w1 w2 vs) [] (by rfl) h
  exact this _ (by simp) (loop_end E _ [] _)

/-- C59: a variable set in a block that accepts variables (the block of a rule or of a function, see C62) goes away
with the block. -/
theorem C59_block (E : Env) (t : Tok) (ht : t.ty = .OPEN_CURLYBRACKET) (hb : t.bool = true) (ct var colon : Tok)
    (w1 w2 : Option Tok) (vs : List Nd) (s : St) (hp : ∀ c ∈ vs, Plain c) (hw : vs.head?.map Nd.ty ≠ some .WHITESPACE)
    (h3 : w1.isSome ∨ w2.isSome ∨ vs ≠ []) (hd : ¬ ∃ c ∈ vs, IsFlag b!"default" c) (hg : ¬ ∃ c ∈ vs, IsFlag b!"global" c)
    (hl : ¬ Late vs) :
    Gives (fun f => replaceVars E f (.mk t [setNode ct var colon w1 w2 vs])) s (.ok (some (.mk t [])) s) := by
  have := gives_block (E := E) (s := s) ht (kids := [setNode ct var colon w1 w2 vs]) (by
    rw [hb, if_pos rfl]
    exact gives_set_block E t ht ct var colon w1 w2 vs _ hp hw h3 hd hg hl)
  rw [hb, if_pos rfl] at this
  exact this

/-- C59: a variable set in a block that does not accept variables (the block of an @-rule, of a declaration) is set for
the block around it. -/
theorem C59_other_block (E : Env) (t : Tok) (ht : t.ty = .OPEN_CURLYBRACKET) (hb : t.bool = false) (ct var colon : Tok)
    (w1 w2 : Option Tok) (vs : List Nd) (s : St) (hp : ∀ c ∈ vs, Plain c) (hw : vs.head?.map Nd.ty ≠ some .WHITESPACE)
    (h3 : w1.isSome ∨ w2.isSome ∨ vs ≠ []) (hd : ¬ ∃ c ∈ vs, IsFlag b!"default" c) (hg : ¬ ∃ c ∈ vs, IsFlag b!"global" c)
    (hl : ¬ Late vs) :
    Gives (fun f => replaceVars E f (.mk t [setNode ct var colon w1 w2 vs])) s
      (.ok (some (.mk t [])) (s.put ⟨.leaf { var with ty := .VARIABLE }, assigned ct.pos vs⟩ false)) := by
  have := gives_block (E := E) (s := s) ht (kids := [setNode ct var colon w1 w2 vs]) (by
    rw [hb, if_neg (by simp)]
    exact gives_set_block E t ht ct var colon w1 w2 vs _ hp hw h3 hd hg hl)
  rw [hb, if_neg (by simp)] at this
  exact this

/-- `{ $x: blue }` when `$x` is red. -/
def exBlockTok (b : Bool) : Tok := { ty := .OPEN_CURLYBRACKET, pos := exPos, bool := b }
def exBlue : List Nd := [exLeaf .IDENTIFIER b!"blue"]
def exSetBlue : Nd := setNode { ty := .COMPONENT_VALUE, pos := exPos } { ty := .VARIABLE, pos := exPos, str := b!"x" }
  { ty := .COLON, pos := exPos } none none exBlue

example : (exBlockTok true).ty = .OPEN_CURLYBRACKET ∧ (exBlockTok true).bool = true ∧ (exBlockTok false).bool = false ∧
    (∀ c ∈ exBlue, Plain c) ∧ exBlue.head?.map Nd.ty ≠ some .WHITESPACE ∧
    (¬ ∃ c ∈ exBlue, IsFlag b!"default" c) ∧ (¬ ∃ c ∈ exBlue, IsFlag b!"global" c) ∧ ¬ Late exBlue := by
  refine ⟨rfl, rfl, rfl, ?_, by decide, by decide, by decide, ?_⟩
  · intro c hc
    obtain rfl : c = exLeaf .IDENTIFIER b!"blue" := by simpa [exBlue] using hc
    exact .mk _ _ (by simp) (by simp) (by simp) (by simp) (by simp) (by simp)
  · rw [← (flags_eq exBlue).2.2.2]; decide
example : (match replaceVars exEnv 9 (.mk (exBlockTok true) [exSetBlue]) exSt with
    | .ok _ s => (s.get b!"x").map (·.value.tok.str) | _ => none) = some b!"red" := by decide +kernel
example : (match replaceVars exEnv 9 (.mk (exBlockTok false) [exSetBlue]) exSt with
    | .ok _ s => (s.get b!"x").map (·.value.tok.str) | _ => none) = some b!"blue" := by decide +kernel

end Csspp.Vars
