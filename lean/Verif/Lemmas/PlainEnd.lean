import Verif.Lemmas.PlainOut

/-! For C93: a comment after a plain style sheet. -/

namespace Csspp.Spec.Plain
open Csspp.Spec (Word)
open Csspp.Lex (Tok Pos)
open Csspp.Parse
open Csspp.Compile
open Csspp.Flt

/-- In the COMPRESSED mode, a comment that follows these calls is on a new line. -/
def Last (o : Asm.Out) : Prop := ∀ calls, o = .ok calls → ∀ w, (calls.foldl Asm.Mode.compressed.call w).started = true

theorem Last.right {a b : Asm.Out} (h : Last b) : Last (Asm.andThen a b) := by
  intro calls e w
  unfold Asm.andThen at e
  cases a with
  | error x => cases e
  | ok x =>
    cases b with
    | error y => cases e
    | ok y =>
      injection e with e
      subst e
      rw [List.foldl_append]
      exact h y rfl _

theorem Last.left {a : Asm.Out} (h : Last a) : Last (Asm.andThen a (.ok [])) := by
  intro calls e w
  unfold Asm.andThen at e
  cases a with
  | error x => cases e
  | ok x =>
    injection e with e
    rw [List.append_nil] at e
    subst e
    exact h x rfl _

theorem Last.close : Last Asm.closeCalls := by
  refine Last.right ?_
  intro calls e w
  injection e with e
  subst e
  rfl

theorem last_cv {p : Nat} {b : Tree.Tree} (hb : b.data.ty = .OPEN_CURLYBRACKET) (h : Last (Asm.output p b)) :
    ∀ l : List Tree.Tree, Last (Asm.outCV p false (l ++ [b]))
  | [] => by
    cases b with
    | mk d k =>
      rw [List.nil_append, Asm.outCV, if_pos (show d.ty = _ from hb), if_neg (by simp), Asm.outCV]
      exact h.left
  | .mk d k :: l => by
    rw [List.cons_append, Asm.outCV]
    split
    · exact (last_cv hb h l).right
    · split
      · intro c e; cases e
      · split
        · exact last_cv hb h l
        · exact (last_cv hb h l).right.right

section
variable {p : Nat} {pow : Int → Fp}

theorem trees_append (a b : List Nd) : Pipeline.toTrees pow (a ++ b) = Pipeline.toTrees pow a ++ Pipeline.toTrees pow b := by
  induction a with
  | nil => rfl
  | cons x a ih => rw [List.cons_append, Pipeline.toTrees, Pipeline.toTrees, ih]; rfl

theorem rule_last {r : Rule} (hr : r.Ok) {n : Nd} (h : CRule r n) : Last (Asm.output p (Pipeline.toTree pow n)) := by
  obtain ⟨q, args, o, b, rfl, ha, ho, hb⟩ := h
  have hblock : Last (Asm.output p (Pipeline.toTree pow (.mk o b))) := by
    rw [Pipeline.toTree, Asm.output.eq_def]
    dsimp only
    rw [show Asm.leafCalls p (o.data pow) = none by unfold Asm.leafCalls; rw [show (o.data pow).ty = _ from ho]]
    dsimp only
    rw [show (o.data pow).ty = _ from ho]
    exact Last.close.right.right
  rw [Pipeline.toTree, Asm.output.eq_def]
  show Last (Asm.outCV p true _)
  rw [trees_append, Pipeline.toTrees, Pipeline.toTrees]
  have hne : r.sels ≠ [] := hr.1
  have hok : ∀ s ∈ r.sels, s.Ok := hr.2.1
  generalize r.sels = sels at ha hne hok
  cases ha with
  | nil => exact absurd rfl hne
  | cons h1 h2 =>
    rename_i s a sels args
    obtain ⟨_, d, k, e, j2, j3⟩ := arg_out (sel_writes (p := p) (pow := pow) (hok s (by simp))) h1
    rw [Pipeline.toTrees, e, List.cons_append, Asm.outCV]
    rw [if_neg (by rw [j2]; simp), if_neg (by rw [j2]; simp), j3, if_neg (by simp)]
    exact (last_cv (by rw [Pipeline.toTree]; exact ho) hblock _).right.right

/-- The comment of C: on a new line when something was written before. -/
theorem sheet_comment_out {S : Sheet} (hS : S.Ok) {ns : List Nd} (h : Each CRule S ns) (q : Pos) {t : Tok} (ht : t.ty = .COMMENT)
    (hi : t.int ≠ 0) :
    ∃ calls, Asm.output p (Pipeline.toTree pow (.mk { ty := .LIST, pos := q } (ns ++ [.leaf t]))) = .ok calls ∧
      Asm.Call.report ∉ calls ∧ Asm.Mode.compressed.text calls =
        shortest (items S.computed) ++ ((if S = [] then [] else [10]) ++ (b!"/* " ++ t.str ++ b!" */\n")) := by
  have hc : Asm.output p (Pipeline.toTree pow (.leaf t)) = .ok [.newlineIfNotEmpty, .raw (b!"/* " ++ t.str ++ b!" */\n")] := by
    unfold Nd.leaf
    rw [Pipeline.toTree, Asm.output.eq_def]
    dsimp only
    have : Asm.leafCalls p (t.data pow) = some (Asm.comment (t.data pow)) := by
      unfold Asm.leafCalls; rw [show (t.data pow).ty = _ from ht]
    rw [this]
    dsimp only
    unfold Asm.comment
    rw [if_neg (show ¬ (t.data pow).int = 0 from hi)]
    unfold Asm.outputCComment
    show Except.ok [_, Asm.Call.raw (b!"/* " ++ t.str ++ b!" */" ++ [10])] = _
    rw [List.append_assoc (b!"/* " ++ t.str)]
    rfl
  rw [Pipeline.toTree, Asm.output.eq_def]
  show ∃ calls, Asm.outAfter p .DECLARATION _ _ = _ ∧ _
  generalize hsep : Asm.Call.op b!";" .spaceAfterOrNewline = sep
  have key : ∃ calls, Asm.outAfter p .DECLARATION sep (Pipeline.toTrees pow (ns ++ [.leaf t])) =
        .ok (calls ++ [.newlineIfNotEmpty, .raw (b!"/* " ++ t.str ++ b!" */\n")]) ∧ Asm.Call.report ∉ calls ∧
      (∀ w, (calls.foldl Asm.Mode.compressed.call w).out = w.out ++ shortest (items S.computed)) ∧
      (S = [] → calls = []) ∧ (S ≠ [] → ∀ w, (calls.foldl Asm.Mode.compressed.call w).started = true) := by
    induction h with
    | nil =>
      refine ⟨[], ?_, by simp, fun w => (List.append_nil _).symm, fun _ => rfl, fun h => absurd rfl h⟩
      rw [List.nil_append, Pipeline.toTrees, Pipeline.toTrees, Asm.outAfter, if_neg (by simp), Asm.outAfter, hc]
      rfl
    | cons h1 h2 ih =>
      rename_i r n S ns
      obtain ⟨⟨c1, i1, i2, i3⟩, i4⟩ := rule_out (p := p) (pow := pow) (hS _ (by simp)) h1
      have hl := rule_last (p := p) (pow := pow) (hS _ (by simp)) h1
      obtain ⟨c2, k1, k2, k3, k4, k5⟩ := ih (fun r hr => hS r (by simp [hr]))
      refine ⟨c1 ++ c2, ?_, ?_, fun w => ?_, fun h => (by cases h), fun _ w => ?_⟩
      · rw [List.cons_append, Pipeline.toTrees, Asm.outAfter, if_neg (by rw [i4]; simp), i1, k1]
        show Except.ok (c1 ++ ([] ++ (c2 ++ _))) = _
        rw [List.nil_append, List.append_assoc c1]
      · simp [i2, k2]
      · rw [List.foldl_append, k3, i3]
        show _ = _ ++ shortest (((r :: S).map Rule.computed).flatMap (fun r => r.items ++ [.opt]))
        rw [List.map_cons, List.flatMap_cons, shortest_append, shortest_append, show shortest [Item.opt] = [] from rfl, List.append_nil, List.append_assoc]
        rfl
      · rw [List.foldl_append]
        by_cases hs : S = []
        · rw [k4 hs]
          exact hl c1 i1 w
        · exact k5 hs _
  obtain ⟨calls, e1, e2, e3, e4, e5⟩ := key
  refine ⟨_, e1, by simp [e2], ?_⟩
  unfold Asm.Mode.text
  rw [List.foldl_append]
  have e3 := e3 ⟨[], false⟩
  rw [List.nil_append] at e3
  by_cases hs : S = []
  · have e4 := e4 hs
    subst e4
    rw [if_pos hs, ← e3]
    rfl
  · have e5 := e5 hs ⟨[], false⟩
    rw [if_neg hs]
    generalize calls.foldl Asm.Mode.compressed.call ⟨[], false⟩ = w at e3 e5 ⊢
    obtain ⟨o, st⟩ := w
    dsimp only at e3 e5
    subst e5; subst e3
    exact List.append_assoc _ _ _

theorem comps_comment {S : Sheet} (hS : S.Ok) {ns : List Nd} (h : Each CRule S ns) (q : Pos) {t : Tok} (ht : t.ty = .COMMENT) :
    ∃ k, ∀ g ≥ k, Expand.comps g (.mk { ty := .LIST, pos := q } (ns ++ [.leaf t])) =
      .ok (.mk { ty := .LIST, pos := q } (ns ++ [.leaf t]), []) [] := by
  have key : ∃ k, ∀ g ≥ k, Expand.compsLoop g (ns ++ [.leaf t]) = .ok (ns ++ [.leaf t]) [] := by
    induction h with
    | nil =>
      refine ⟨2, fun g hg => ?_⟩
      obtain ⟨g, rfl⟩ : ∃ k, g = k + 2 := ⟨g - 2, by omega⟩
      unfold Nd.leaf
      rw [List.nil_append, Expand.compsLoop, Expand.comps, if_neg (by rw [ht]; simp), if_neg (by rw [ht]; simp), if_neg (by rw [ht]; simp)]
      rfl
    | cons h1 h2 ih =>
      obtain ⟨k, hk⟩ := ih (fun r hr => hS r (by simp [hr]))
      obtain ⟨k', hk'⟩ := rule_still (hS _ (by simp)) h1
      refine ⟨k + k' + 1, fun g hg => ?_⟩
      obtain ⟨g, rfl⟩ : ∃ k, g = k + 1 := ⟨g - 1, by omega⟩
      rw [List.cons_append, Expand.compsLoop, hk' g (by omega)]
      show (Expand.R.bind (.ok (_, []) []) _) = _
      unfold Expand.R.bind
      dsimp only
      rw [List.nil_append, hk g (by omega)]
      rfl
  obtain ⟨k, hk⟩ := key
  refine ⟨k + 1, fun g hg => ?_⟩
  obtain ⟨g, rfl⟩ : ∃ k, g = k + 1 := ⟨g - 1, by omega⟩
  rw [Expand.comps, if_neg (by simp), if_neg (by simp), if_pos (.inl rfl), hk g (by omega)]
  rfl

theorem kept_comment {S : Sheet} {ns : List Nd} (h : Each CRule S ns) (q : Pos) {t : Tok} (ht : t.ty = .COMMENT) :
    ∃ ns', Each CRule S.active ns' ∧ Vars.removeEmptyRules (.mk { ty := .LIST, pos := q } (ns ++ [.leaf t])) =
      some (.mk { ty := .LIST, pos := q } (ns' ++ [.leaf t])) := by
  refine ⟨_, rules_kept h, ?_⟩
  have e : ∀ l : List Nd, Vars.removeEmptyAll (l ++ [.leaf t]) = Vars.removeEmptyAll l ++ [.leaf t] := by
    intro l
    induction l with
    | nil =>
      unfold Nd.leaf
      rw [List.nil_append, Vars.removeEmptyAll, Vars.removeEmptyAll,
        if_neg (by simp [Vars.isEmptyRule, Nd.ty, Nd.tok, ht]), Vars.removeEmptyIn, if_neg (by rw [ht]; simp [Vars.marks])]
      rfl
    | cons c l ih =>
      rw [List.cons_append, Vars.removeEmptyAll, Vars.removeEmptyAll, ih]
      split <;> rfl
  unfold Vars.removeEmptyRules
  rw [if_neg (by simp [Vars.isEmptyRule, Nd.ty, Nd.tok]), Vars.removeEmptyIn, if_pos (by simp [Vars.marks]), e]

end

end Csspp.Spec.Plain
