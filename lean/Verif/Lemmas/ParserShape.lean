import Verif.Lemmas.ParserTree

/-!
The shape of the trees that the parser makes when there is no message.
-/

namespace Csspp.Parse
open Csspp.Lex (Tok Pos)
open Csspp.Node (supportsChildren supportsString)
open Csspp.Spec (types variableSet variableBlock nestedDeclaration looksLikeValue afterColon inBoth
  onlyInSelectors endsRule isPart mayFollow Value TreeShape TreeShapes notInTrees SheetChild Sheet)

/-! ### Messages are never taken back -/

/-- The number of messages does not decrease, and there are no new tokens. -/
def Mono {α : Type} (m : M α) : Prop := ∀ s v s', m s = .ok v s' →
  s.errs.length ≤ s'.errs.length ∧ ∀ t ∈ s'.toks, t ∈ s.toks

theorem Mono.pure {α : Type} (v : α) : Mono (Pure.pure v : M α) := by
  intro s w s' h
  injection h with _ h
  rw [h]; exact ⟨Nat.le_refl _, fun _ h => h⟩

theorem Mono.bind {α β : Type} {m : M α} {g : α → M β} (hm : Mono m) (hg : ∀ v, Mono (g v)) :
    Mono (m >>= g) := by
  intro s v s' h
  have h : (match m s with | .ok v s => g v s | .throws => .throws | .fuel => .fuel) = R.ok v s' := h
  cases hms : m s with
  | ok w s1 =>
    rw [hms] at h
    have h1 := hm s w s1 hms
    have h2 := hg w s1 v s' h
    exact ⟨Nat.le_trans h1.1 h2.1, fun t ht => h1.2 t (h2.2 t ht)⟩
  | throws => rw [hms] at h; cases h
  | fuel => rw [hms] at h; cases h

theorem Mono.throws {α : Type} : Mono (Parse.throws : M α) := by intro s v s' h; cases h
theorem Mono.outOfFuel {α : Type} : Mono (Parse.outOfFuel : M α) := by intro s v s' h; cases h
theorem Mono.last : Mono Parse.last := by
  intro s v s' h; injection h with _ h; rw [h]; exact ⟨Nat.le_refl _, fun _ h => h⟩
theorem Mono.next : Mono Parse.next := by
  intro s v s' h; injection h with _ h; rw [← h]; exact ⟨Nat.le_refl _, fun _ h => List.mem_of_mem_tail h⟩
theorem Mono.report (e : Err) (p : Pos) : Mono (Parse.report e p) := by
  intro s v s' h; injection h with _ h; rw [← h]; exact ⟨Nat.le_succ _, fun _ h => h⟩
theorem Mono.guard {α : Type} {n : Nd} {m : M α} (h : Mono m) : Mono (guard' n m) := by
  unfold guard'; split
  · exact h
  · exact .throws

macro "mono" : tactic => `(tactic| repeat' (first
  | assumption
  | exact Mono.pure _
  | exact Mono.throws
  | exact Mono.outOfFuel
  | exact Mono.last
  | exact Mono.next
  | exact Mono.report _ _
  | with_reducible refine Mono.guard ?_
  | with_reducible refine Mono.bind ?_ (fun _ => ?_)
  | split))

theorem isEmpty_mono (n : Nd) : Mono (isEmpty n) := by unfold isEmpty; mono
theorem size_mono (n : Nd) : Mono (size n) := by unfold size; mono
theorem getChild_mono (n : Nd) (i : Nat) : Mono (getChild n i) := by unfold getChild; mono
theorem getLast_mono (n : Nd) : Mono (getLast n) := by unfold getLast; mono
theorem addChild_mono (n c : Nd) : Mono (addChild n c) := by unfold addChild; mono
theorem removeAt_mono (n : Nd) (i : Nat) : Mono (removeAt n i) := by unfold removeAt; mono
theorem takeOver_mono (n c : Nd) : Mono (takeOver n c) := by unfold takeOver; mono
theorem setString_mono (n : Nd) (v : Str) : Mono (setString n v) := by unfold setString; mono
theorem getString_mono (t : Tok) : Mono (getString t) := by unfold getString; mono
theorem dropFirsts_mono (n : Nd) : Mono (dropFirsts n) := by unfold dropFirsts; mono
theorem dropLasts_mono (n : Nd) : Mono (dropLasts n) := by unfold dropLasts; mono
theorem dropFirst_mono (n : Nd) : Mono (dropFirst n) := by
  unfold dropFirst
  refine Mono.bind (isEmpty_mono n) (fun _ => ?_)
  split
  · exact .pure _
  · refine Mono.bind (getChild_mono _ _) (fun _ => ?_)
    split
    · exact removeAt_mono _ _
    · exact .pure _
theorem dropLast_mono (n : Nd) : Mono (dropLast n) := by
  unfold dropLast
  refine Mono.bind (isEmpty_mono n) (fun _ => ?_)
  split
  · exact .pure _
  · refine Mono.bind (getLast_mono _) (fun _ => ?_)
    split
    · exact removeAt_mono _ _
    · exact .pure _
theorem isAt_mono (n : Nd) (p : Nat) (ty : NT) : Mono (isAt n p ty) := by
  unfold isAt
  refine Mono.bind (size_mono n) (fun _ => ?_)
  split
  · exact Mono.bind (getChild_mono _ _) (fun _ => .pure _)
  · exact .pure _
theorem skipAt_mono (n : Nd) (p : Nat) : Mono (skipAt n p) := by
  unfold skipAt
  refine Mono.bind (isAt_mono n _ _) (fun _ => ?_)
  split <;> exact .pure _
theorem isVariableSet_mono (n : Nd) (b : Bool) : Mono (isVariableSet n b) := by
  unfold isVariableSet
  refine Mono.bind (size_mono n) (fun _ => ?_)
  split
  · exact .pure _
  refine Mono.bind (getChild_mono _ _) (fun _ => ?_)
  split
  · exact .pure _
  refine Mono.bind (getChild_mono _ _) (fun _ => ?_)
  dsimp only
  refine Mono.bind (getChild_mono _ _) (fun _ => ?_)
  split
  · exact .pure _
  split
  · exact .pure _
  exact Mono.bind (skipAt_mono _ _) (fun _ => isAt_mono _ _ _)
theorem Mono.ite {α : Type} {c : Prop} [Decidable c] {a b : M α} (ha : Mono a) (hb : Mono b) :
    Mono (if c then a else b) := by split <;> assumption
theorem isNestedDeclaration_mono (n : Nd) : Mono (isNestedDeclaration n) := by
  unfold isNestedDeclaration
  refine Mono.bind (size_mono n) (fun _ => ?_)
  refine Mono.ite (.pure _) ?_
  refine Mono.bind (getChild_mono _ _) (fun _ => ?_)
  refine Mono.ite (.pure _) ?_
  refine Mono.bind (getLast_mono _) (fun _ => ?_)
  refine Mono.ite (.pure _) ?_
  refine Mono.bind (getChild_mono _ _) (fun _ => ?_)
  dsimp only
  refine Mono.bind (getChild_mono _ _) (fun _ => ?_)
  refine Mono.ite (.pure _) ?_
  refine Mono.ite (.pure _) ?_
  refine Mono.bind (getChild_mono _ _) (fun _ => ?_)
  refine Mono.ite (.pure _) ?_
  exact Mono.ite (.pure _) (.pure _)
theorem skipSpace_mono : Mono skipSpace := by unfold skipSpace; mono
theorem skipSpaces_mono (f : Nat) : Mono (skipSpaces f) := by
  induction f with
  | zero => exact .outOfFuel
  | succ f ih => unfold skipSpaces; mono
theorem addUnless_mono (e : Bool) (r l : Nd) : Mono (addUnless e r l) := by
  unfold addUnless; split
  · exact .pure _
  · exact addChild_mono _ _
theorem listEnd_mono (r l : Nd) : Mono (listEnd r l) := by
  unfold listEnd
  refine Mono.bind (dropFirst_mono _) (fun _ => Mono.bind (dropLast_mono _) (fun _ =>
    Mono.bind (isEmpty_mono _) (fun _ => Mono.bind (addUnless_mono _ _ _) (fun _ =>
      Mono.bind (size_mono _) (fun _ => ?_)))))
  split
  · exact getLast_mono _
  · exact .pure _
theorem exclamation_mono (l : Nd) : Mono (exclamation l) := by
  unfold exclamation
  refine Mono.bind .last (fun _ => Mono.bind .next (fun _ => Mono.bind skipSpace_mono (fun _ =>
    Mono.bind .last (fun _ => ?_))))
  split
  · exact Mono.bind (dropLast_mono _) (fun _ => Mono.bind (getString_mono _) (fun _ =>
      Mono.bind (setString_mono _ _) (fun _ => Mono.bind (addChild_mono _ _) (fun _ =>
        Mono.bind .next (fun _ => Mono.bind skipSpace_mono (fun _ => .pure _))))))
  · exact Mono.bind (.report _ _) (fun _ => .pure _)
theorem endsVariable_mono (fl : Flags) (l : Nd) : Mono (endsVariable fl l) := by
  unfold endsVariable; split
  · exact isVariableSet_mono _ _
  · exact .pure _
theorem beforeBlock_mono (ty : NT) (l : Nd) : Mono (beforeBlock ty l) := by
  unfold beforeBlock; split
  · exact dropLast_mono _
  · exact .pure _
theorem isBlockValue_mono (l : Nd) : Mono (isBlockValue l) := by
  unfold isBlockValue
  refine Mono.bind (isVariableSet_mono _ _) (fun _ => ?_)
  split
  · exact .pure _
  · exact isNestedDeclaration_mono _
theorem wantSemicolon_mono (l : Nd) : Mono (wantSemicolon l) := by
  unfold wantSemicolon
  refine Mono.bind .last (fun _ => ?_)
  split
  · exact .pure _
  · exact Mono.bind (getChild_mono _ _) (fun _ => .report _ _)
theorem atRuleEnd_mono (t : Tok) (l : Nd) : Mono (atRuleEnd t l) := by unfold atRuleEnd; mono
theorem closeBlock_mono (t : Tok) (c : NT) : Mono (closeBlock t c) := by unfold closeBlock; mono
theorem betweenLists_mono (t : Tok) : Mono (betweenLists t) := by unfold betweenLists; mono
theorem closeList_mono (t : Tok) : Mono (closeList t) := by unfold closeList; mono

structure Monos (f : Nat) : Prop where
  loop : ∀ fl r l, Mono (cvLoop f fl r l)
  list : ∀ fl, Mono (componentValueList f fl)
  atr : Mono (atRule f)
  value : Mono (componentValue f)
  block : ∀ c, Mono (block f c)
  bloop : ∀ b, Mono (blockLoop f b)
  blist : Mono (blockList f)

theorem monos (f : Nat) : Monos f := by
  induction f with
  | zero =>
    refine ⟨fun _ _ _ => ?_, fun _ => ?_, ?_, ?_, fun _ => ?_, fun _ => ?_, ?_⟩
    · unfold cvLoop; exact .outOfFuel
    · unfold componentValueList; exact .outOfFuel
    · unfold atRule; exact .outOfFuel
    · unfold componentValue; exact .outOfFuel
    · unfold Parse.block; exact .outOfFuel
    · unfold blockLoop; exact .outOfFuel
    · unfold blockList; exact .outOfFuel
  | succ f ih =>
    refine ⟨fun fl r l => ?_, fun fl => ?_, ?_, ?_, fun c => ?_, fun b => ?_, ?_⟩
    · unfold cvLoop
      refine Mono.bind .last (fun _ => ?_)
      split
      · exact listEnd_mono _ _
      split
      · exact Mono.bind ih.atr (fun _ => Mono.bind (addChild_mono _ _) (fun _ => ih.loop _ _ _))
      split
      · refine Mono.bind .next (fun _ => Mono.bind (dropFirsts_mono _) (fun _ =>
          Mono.bind (dropLasts_mono _) (fun _ => Mono.bind (endsVariable_mono _ _) (fun _ => ?_))))
        split
        · exact listEnd_mono _ _
        · refine Mono.bind (isEmpty_mono _) (fun _ => ?_)
          split
          · exact ih.loop _ _ _
          · exact Mono.bind (addChild_mono _ _) (fun _ => ih.loop _ _ _)
      split
      · exact Mono.bind (exclamation_mono _) (fun _ => ih.loop _ _ _)
      · refine Mono.bind (beforeBlock_mono _ _) (fun _ => Mono.bind ih.value (fun _ =>
          Mono.bind (addChild_mono _ _) (fun _ => ?_)))
        split
        · refine Mono.bind (dropFirsts_mono _) (fun _ => Mono.bind (isBlockValue_mono _) (fun _ => ?_))
          split
          · exact listEnd_mono _ _
          · exact Mono.bind (skipSpaces_mono _) (fun _ => Mono.bind (wantSemicolon_mono _) (fun _ =>
              ih.loop _ _ _))
        · exact ih.loop _ _ _
    · unfold componentValueList
      exact Mono.bind .last (fun _ => ih.loop _ _ _)
    · unfold atRule
      refine Mono.bind .last (fun _ => Mono.bind .next (fun _ => Mono.bind (ih.list _) (fun _ =>
        Mono.bind (isEmpty_mono _) (fun _ => ?_))))
      split
      · exact Mono.bind (.report _ _) (fun _ => .pure _)
      · exact Mono.bind (getLast_mono _) (fun _ => Mono.bind (atRuleEnd_mono _ _) (fun _ =>
          takeOver_mono _ _))
    · unfold componentValue
      refine Mono.bind .last (fun _ => ?_)
      split
      · exact ih.blist
      split
      · exact ih.block _
      split
      · exact ih.block _
      · exact Mono.bind .next (fun _ => .pure _)
    · unfold Parse.block
      exact Mono.bind .last (fun _ => Mono.bind .next (fun _ => Mono.bind (ih.list _) (fun _ =>
        Mono.bind (takeOver_mono _ _) (fun _ => Mono.bind skipSpace_mono (fun _ =>
          Mono.bind (closeBlock_mono _ _) (fun _ => .pure _))))))
    · unfold blockLoop
      refine Mono.bind (ih.list _) (fun _ => Mono.bind (addChild_mono _ _) (fun _ =>
        Mono.bind (betweenLists_mono _) (fun _ => Mono.bind .last (fun _ => ?_))))
      split
      · exact .pure _
      · exact ih.bloop _
    · unfold blockList
      exact Mono.bind .last (fun _ => Mono.bind .next (fun _ => Mono.bind (ih.bloop _) (fun _ =>
        Mono.bind (closeList_mono _) (fun _ => .pure _))))

theorem qualifiedRule_mono (f : Nat) : Mono (qualifiedRule f) := by
  unfold qualifiedRule
  refine Mono.bind .last (fun _ => ?_)
  split
  · exact .pure _
  split
  · exact Mono.bind .next (fun _ => Mono.bind (.report _ _) (fun _ => .pure _))
  · refine Mono.bind ((monos f).list _) (fun _ => Mono.bind (isEmpty_mono _) (fun _ => ?_))
    split
    · exact Mono.bind (.report _ _) (fun _ => .pure _)
    · refine Mono.bind (getLast_mono _) (fun _ => Mono.bind (isVariableSet_mono _ _) (fun _ => ?_))
      split
      · exact Mono.bind (.report _ _) (fun _ => .pure _)
      · exact .pure _

theorem stylesheetLoop_mono (f : Nat) : ∀ r, Mono (stylesheetLoop f r) := by
  induction f with
  | zero => intro r; unfold stylesheetLoop; exact .outOfFuel
  | succ f ih =>
    intro r
    unfold stylesheetLoop
    refine Mono.bind .last (fun _ => ?_)
    split
    · exact .pure _
    split
    · exact Mono.bind .next (fun _ => ih _)
    split
    · exact Mono.bind (.report _ _) (fun _ => .pure _)
    split
    · exact Mono.bind (addChild_mono _ _) (fun _ => Mono.bind .next (fun _ => ih _))
    split
    · exact Mono.bind (monos f).atr (fun _ => Mono.bind (addChild_mono _ _) (fun _ => ih _))
    · exact Mono.bind (qualifiedRule_mono f) (fun _ => Mono.bind (addChild_mono _ _) (fun _ => ih _))

/-! ### Runs without message -/

/-- When the call returns without a new message, `P`. -/
def Tri {α : Type} (m : M α) (s : St) (P : α → St → Prop) : Prop :=
  ∀ v s', m s = .ok v s' → s'.errs.length = s.errs.length → P v s'

theorem Tri.pure {α : Type} {v : α} {s : St} {P : α → St → Prop} (h : P v s) :
    Tri (Pure.pure v : M α) s P := by
  intro w s' hw _
  injection hw with h1 h2
  subst h1 h2
  exact h

theorem Tri.bind {α β : Type} {m : M α} {g : α → M β} {s : St} {P : α → St → Prop}
    {Q : β → St → Prop} (h : Tri m s P) (hm : Mono m) (hgm : ∀ v, Mono (g v))
    (hg : ∀ v s', P v s' → (∀ t ∈ s'.toks, t ∈ s.toks) → Tri (g v) s' Q) : Tri (m >>= g) s Q := by
  intro v s' hv he
  have hv : (match m s with | .ok v s => g v s | .throws => .throws | .fuel => .fuel) = R.ok v s' := hv
  cases hms : m s with
  | ok w s1 =>
    rw [hms] at hv
    have h1 := hm s w s1 hms
    have h2 := hgm w s1 v s' hv
    exact hg w s1 (h w s1 hms (by omega)) h1.2 v s' hv (by omega)
  | throws => rw [hms] at hv; cases hv
  | fuel => rw [hms] at hv; cases hv

theorem Tri.mono {α : Type} {m : M α} {s : St} {P Q : α → St → Prop} (h : Tri m s P)
    (hp : ∀ v s', P v s' → Q v s') : Tri m s Q := fun v s' hv he => hp v s' (h v s' hv he)

theorem Tri.last {β : Type} {g : Tok → M β} {s : St} {Q : β → St → Prop} (h : Tri (g s.last) s Q) :
    Tri (Parse.last >>= g) s Q := h

theorem Tri.next {β : Type} {g : Unit → M β} {s : St} {Q : β → St → Prop} (h : Tri (g ()) s.adv Q) :
    Tri (Parse.next >>= g) s Q := h

/-- A message ends the runs without message. -/
theorem Tri.report {β : Type} {g : Unit → M β} {s : St} {Q : β → St → Prop} {e : Err} {p : Pos}
    (hg : Mono (g ())) : Tri (Parse.report e p >>= g) s Q := by
  intro v s' hv he
  have hv : g () (s.err e p) = .ok v s' := hv
  have := hg _ _ _ hv
  have h2 : (s.err e p).errs.length = s.errs.length + 1 := rfl
  omega

theorem Tri.val {α β : Type} {m : M α} {v : α} {g : α → M β} {s : St} {Q : β → St → Prop}
    (hm : m = Pure.pure v) (h : Tri (g v) s Q) : Tri (m >>= g) s Q := by
  subst hm; exact h


/-! ### The accessors, exactly -/

/-- Without a first WHITESPACE. -/
def dropHead : List Nd → List Nd
  | [] => []
  | c :: l => if c.ty = .WHITESPACE then l else c :: l

/-- Without a last WHITESPACE. -/
def dropEnd (l : List Nd) : List Nd :=
  if (types l).getLast? = some .WHITESPACE then l.dropLast else l

/-- Without the first WHITESPACEs. -/
def dropHeads (l : List Nd) : List Nd := l.dropWhile (fun c => c.ty = .WHITESPACE)

/-- Without the last WHITESPACEs. -/
def dropEnds (l : List Nd) : List Nd := (l.reverse.dropWhile (fun c => c.ty = .WHITESPACE)).reverse

theorem dropFirst_eq {n : Nd} (h : supportsChildren n.ty = true) :
    dropFirst n = (pure (.mk n.tok (dropHead n.kids)) : M Nd) := by
  unfold dropFirst
  obtain ⟨t, k⟩ := n
  rw [isEmpty_ok h, pureBind]
  cases k with
  | nil => rfl
  | cons c k =>
    rw [if_neg (by simp [mk_kids]), getChild_ok (i := 0) (c := c) h rfl, pureBind]
    show (if c.ty = .WHITESPACE then _ else _) = (pure (.mk t (if c.ty = .WHITESPACE then _ else _)) : M Nd)
    by_cases hc : c.ty = .WHITESPACE
    · rw [if_pos hc, if_pos hc, removeAt_ok h (by simp [mk_kids])]; rfl
    · rw [if_neg hc, if_neg hc]

theorem types_last (l : List Nd) : (types l).getLast? = l.getLast?.map Nd.ty := List.getLast?_map

theorem dropLast_eq {n : Nd} (h : supportsChildren n.ty = true) :
    dropLast n = (pure (.mk n.tok (dropEnd n.kids)) : M Nd) := by
  unfold dropLast
  obtain ⟨t, k⟩ := n
  rw [isEmpty_ok h, pureBind]
  rcases snoc_cases k with rfl | ⟨k, c, rfl⟩
  · rfl
  · rw [if_neg (by simp [mk_kids]), getLast_ok (c := c) h (by simp [mk_kids]), pureBind]
    unfold dropEnd
    rw [types_last]
    simp only [mk_kids, List.getLast?_append, List.getLast?_singleton, Option.some_or, Option.map_some,
      Option.some.injEq]
    by_cases hc : c.ty = .WHITESPACE
    · rw [if_pos hc, if_pos hc, removeAt_ok h (by simp [mk_kids])]
      have : (k ++ [c]).eraseIdx ((k ++ [c]).length - 1) = k := by
        rw [List.eraseIdx_append_of_length_le (by simp)]; simp
      rw [mk_kids, this]
      simp [mk_tok]
    · rw [if_neg hc, if_neg hc]; rfl

theorem dropFirsts_eq {n : Nd} (h : supportsChildren n.ty = true) :
    dropFirsts n = (pure (.mk n.tok (dropHeads n.kids)) : M Nd) := guard_ok h
theorem dropLasts_eq {n : Nd} (h : supportsChildren n.ty = true) :
    dropLasts n = (pure (.mk n.tok (dropEnds n.kids)) : M Nd) := guard_ok h

theorem beforeBlock_eq {ty : NT} {n : Nd} (h : supportsChildren n.ty = true) :
    beforeBlock ty n = (pure (.mk n.tok (if ty = .OPEN_CURLYBRACKET ∨ ty = .OPEN_SQUAREBRACKET ∨
      ty = .OPEN_PARENTHESIS then dropEnd n.kids else n.kids)) : M Nd) := by
  unfold beforeBlock
  split
  · exact dropLast_eq h
  · cases n; rfl

theorem isBlockValue_eq {n : Nd} (h : supportsChildren n.ty = true) :
    isBlockValue n = (pure (variableBlock (types n.kids) || nestedDeclaration (types n.kids)) : M Bool) := by
  unfold isBlockValue
  rw [isVariableSet_eq true h, pureBind, if_pos rfl]
  cases variableBlock (types n.kids) with
  | true => rfl
  | false => rw [if_neg (by simp)]; exact isNestedDeclaration_eq h

theorem endsVariable_eq {fl : Flags} {n : Nd} (h : supportsChildren n.ty = true) :
    endsVariable fl n = (pure (fl.onVariable && variableSet (types n.kids)) : M Bool) := by
  unfold endsVariable
  cases fl.onVariable with
  | false => rfl
  | true => exact isVariableSet_eq false h

/-- A LIST, or its only child. -/
def finish (t : Tok) : List Nd → Nd
  | [x] => x
  | l => .mk t l

/-- The value at the end of a list, unless it is empty. -/
def lastValue (t : Tok) (l : List Nd) : List Nd :=
  match dropEnd (dropHead l) with
  | [] => []
  | c :: k => [.mk t (c :: k)]

theorem listEnd_eq {result list : Nd} (hr : result.ty = .LIST) (hl : list.ty = .COMPONENT_VALUE) :
    listEnd result list = (pure (finish result.tok (result.kids ++ lastValue list.tok list.kids)) : M Nd) := by
  have hcl : supportsChildren list.ty = true := by rw [hl]; rfl
  have hcr : supportsChildren result.ty = true := by rw [hr]; rfl
  unfold listEnd
  rw [dropFirst_eq hcl, pureBind, dropLast_eq (n := .mk list.tok (dropHead list.kids)) hcl, pureBind,
    mk_tok, mk_kids, isEmpty_ok (n := .mk list.tok (dropEnd (dropHead list.kids))) hcl, pureBind]
  simp only [mk_kids, mk_tok]
  have key : ∀ k : List Nd, (do let sz ← size (Nd.mk result.tok k)
                                if sz = 1 then getLast (Nd.mk result.tok k) else return (Nd.mk result.tok k) : M Nd) =
      pure (finish result.tok k) := by
    intro k
    rw [size_ok (n := .mk result.tok k) hcr, pureBind]
    simp only [mk_kids]
    match k with
    | [] => rfl
    | [x] => exact getLast_ok (c := x) hcr rfl
    | x :: y :: k => rfl
  unfold addUnless lastValue
  cases hd : dropEnd (dropHead list.kids) with
  | nil =>
    simp only [List.isEmpty_nil, if_true, pureBind, List.append_nil]
    have := key result.kids
    cases result
    exact this
  | cons c k =>
    simp only [List.isEmpty_cons]
    rw [if_neg (by simp), addChild_ok hcr, pureBind, push_group (c := .mk list.tok (c :: k)) (.inr hl)]
    exact key _


/-! ### What may follow what -/

/-- What may follow what, in a list of types. -/
def Adj (ts : List NT) : Prop := ∀ pre a b post, ts = pre ++ a :: b :: post → mayFollow a b

theorem Adj.nil : Adj [] := by intro pre a b post h; simp at h

theorem Adj.infix {ts us : List NT} (h : Adj ts) (hi : us <:+: ts) : Adj us := by
  obtain ⟨x, y, rfl⟩ := hi
  intro pre a b post hu
  exact h (x ++ pre) a b (post ++ y) (by rw [hu]; simp)

theorem Adj.snoc {ts : List NT} {b : NT} (h : Adj ts)
    (hb : ∀ a, ts.getLast? = some a → mayFollow a b) : Adj (ts ++ [b]) := by
  intro pre x y post hu
  rcases snoc_cases post with rfl | ⟨post, z, rfl⟩
  · have : ts ++ [b] = (pre ++ [x]) ++ [y] := by rw [hu]; simp
    obtain ⟨h1, h2⟩ := List.append_inj' this rfl
    injection h2 with h2
    subst h2
    exact hb x (by rw [h1]; simp)
  · have : ts ++ [b] = (pre ++ x :: y :: post) ++ [z] := by rw [hu]; simp
    obtain ⟨h1, h2⟩ := List.append_inj' this rfl
    exact h pre x y post h1

/-- A `{ }` block is the last part. -/
theorem Adj.block_last {ts : List NT} (h : Adj ts) (hm : NT.OPEN_CURLYBRACKET ∈ ts) :
    ts.getLast? = some .OPEN_CURLYBRACKET := by
  obtain ⟨pre, post, rfl⟩ := List.append_of_mem hm
  cases post with
  | nil => simp
  | cons b post => exact absurd rfl (h pre _ b post rfl).1

theorem types_infix {a b : List Nd} (h : a <:+: b) : types a <:+: types b := by
  obtain ⟨x, y, rfl⟩ := h
  exact ⟨types x, types y, by simp [types]⟩

theorem dropHead_cons (c : Nd) (l : List Nd) :
    dropHead (c :: l) = if c.ty = .WHITESPACE then l else c :: l := rfl

theorem dropHead_suffix (l : List Nd) : dropHead l <:+ l := by
  cases l with
  | nil => exact List.suffix_refl _
  | cons c l =>
    rw [dropHead_cons]
    split
    · exact ⟨[c], rfl⟩
    · exact List.suffix_refl _

theorem dropEnd_prefix (l : List Nd) : dropEnd l <+: l := by
  unfold dropEnd
  split
  · exact List.dropLast_prefix l
  · exact List.prefix_refl _

theorem dropHeads_suffix (l : List Nd) : dropHeads l <:+ l := List.dropWhile_suffix _

theorem dropEnds_prefix (l : List Nd) : dropEnds l <+: l := by
  have := List.dropWhile_suffix (l := l.reverse) (fun c : Nd => decide (c.ty = .WHITESPACE))
  have h := List.reverse_prefix.2 this
  rwa [List.reverse_reverse] at h

theorem adj_dropHead {l : List Nd} (h : Adj (types l)) : (types (dropHead l)).head? ≠ some .WHITESPACE := by
  cases l with
  | nil => simp [dropHead, types]
  | cons c l =>
    rw [dropHead_cons]
    split
    · rename_i hc
      cases l with
      | nil => simp [types]
      | cons d l =>
        intro hd
        have hd : d.ty = .WHITESPACE := by injection hd
        have := (h [] c.ty d.ty (types l) rfl).2 hc
        rw [hd] at this
        exact this (by simp)
    · rename_i hc
      intro hd
      injection hd with hd
      exact hc hd

theorem adj_dropEnd {l : List Nd} (h : Adj (types l)) : (types (dropEnd l)).getLast? ≠ some .WHITESPACE := by
  unfold dropEnd
  split
  · rename_i hc
    rcases snoc_cases l with rfl | ⟨k, c, rfl⟩
    · simp [types]
    · rw [List.dropLast_concat]
      have hc' : c.ty = .WHITESPACE := by
        rw [types_append] at hc
        simpa [types] using hc
      rcases snoc_cases k with rfl | ⟨k, d, rfl⟩
      · simp [types]
      · intro hd
        have hd : d.ty = .WHITESPACE := by
          rw [types_append] at hd
          simpa [types] using hd
        have := (h (types k) d.ty c.ty [] (by simp [types])).2 hd
        rw [hc'] at this
        exact this (by simp)
  · rename_i hc; exact hc

theorem dropHeads_head (l : List Nd) : (types (dropHeads l)).head? ≠ some .WHITESPACE := by
  induction l with
  | nil => simp [dropHeads, types]
  | cons c l ih =>
    unfold dropHeads
    rw [List.dropWhile_cons]
    split
    · exact ih
    · rename_i hc
      intro hd
      injection hd with hd
      exact hc (by simpa using hd)

theorem dropEnds_last (l : List Nd) : (types (dropEnds l)).getLast? ≠ some .WHITESPACE := by
  have h := dropHeads_head l.reverse
  unfold dropEnds types
  rw [List.map_reverse, List.getLast?_reverse]
  exact h

theorem dropHeads_id {l : List Nd} (h : (types l).head? ≠ some .WHITESPACE) : dropHeads l = l := by
  cases l with
  | nil => rfl
  | cons c l =>
    unfold dropHeads
    rw [List.dropWhile_cons, if_neg]
    intro hc
    exact h (by simpa [types] using hc)

theorem dropHead_id {l : List Nd} (h : (types l).head? ≠ some .WHITESPACE) : dropHead l = l := by
  cases l with
  | nil => rfl
  | cons c l =>
    rw [dropHead_cons, if_neg]
    intro hc
    exact h (by simpa [types] using hc)

theorem dropEnd_id {l : List Nd} (h : (types l).getLast? ≠ some .WHITESPACE) : dropEnd l = l := by
  unfold dropEnd
  rw [if_neg h]

theorem dropEnds_id {l : List Nd} (h : (types l).getLast? ≠ some .WHITESPACE) : dropEnds l = l := by
  rcases snoc_cases l with rfl | ⟨k, c, rfl⟩
  · rfl
  · unfold dropEnds
    rw [List.reverse_append, List.reverse_cons, List.reverse_nil, List.nil_append, List.singleton_append,
      List.dropWhile_cons, if_neg]
    · simp
    · intro hc
      apply h
      rw [types_append]
      simpa [types] using hc

theorem head_of_prefix {α : Type} {a b : List α} (h : a <+: b) (hn : a ≠ []) : a.head? = b.head? := by
  obtain ⟨c, rfl⟩ := h
  cases a with
  | nil => exact absurd rfl hn
  | cons x a => rfl

theorem last_of_suffix {α : Type} {a b : List α} (h : a <:+ b) (hn : a ≠ []) : a.getLast? = b.getLast? := by
  obtain ⟨c, rfl⟩ := h
  rw [List.getLast?_append]
  obtain ⟨x, hx⟩ : ∃ x, a.getLast? = some x := ⟨a.getLast hn, List.getLast?_eq_some_getLast hn⟩
  rw [hx]; rfl

theorem types_ne {l : List Nd} : types l ≠ [] ↔ l ≠ [] := by
  unfold types
  rw [Ne, List.map_eq_nil_iff]

/-! ### The invariant of the loop -/

/-- The parts read so far. -/
structure Parts (l : List Nd) : Prop where
  part : ∀ n ∈ l, isPart n.ty
  shape : ∀ n ∈ l, TreeShape n
  adj : Adj (types l)

theorem Parts.infix {a b : List Nd} (h : Parts b) (hi : a <:+: b) : Parts a :=
  ⟨fun n hn => h.part n (hi.subset hn), fun n hn => h.shape n (hi.subset hn), h.adj.infix (types_infix hi)⟩

theorem Parts.nil : Parts [] :=
  ⟨fun _ h => (by cases h), fun _ h => (by cases h), Adj.nil⟩

theorem Parts.snoc {l : List Nd} {c : Nd} (h : Parts l) (hp : isPart c.ty) (hs : TreeShape c)
    (hf : ∀ a, (types l).getLast? = some a → mayFollow a c.ty) : Parts (l ++ [c]) := by
  refine ⟨?_, ?_, ?_⟩
  · intro n hn
    rcases List.mem_append.1 hn with hn | hn
    · exact h.part n hn
    · rw [List.mem_singleton.1 hn]; exact hp
  · intro n hn
    rcases List.mem_append.1 hn with hn | hn
    · exact h.shape n hn
    · rw [List.mem_singleton.1 hn]; exact hs
  · rw [types_append]
    exact h.adj.snoc hf

theorem shapeL_iff {l : List Nd} : TreeShapes l ↔ ∀ n ∈ l, TreeShape n := by
  induction l with
  | nil => unfold TreeShapes; simp
  | cons c l ih => unfold TreeShapes; rw [ih]; simp

theorem shape_value {t : Tok} {k : List Nd} (ht : t.ty = .COMPONENT_VALUE) (h : Parts k) (hn : k ≠ [])
    (h1 : (types k).head? ≠ some .WHITESPACE) (h2 : (types k).getLast? ≠ some .WHITESPACE) :
    Value k ∧ TreeShape (.mk t k) := by
  have hv : Value k := ⟨hn, h.part, h1, h2, h.adj⟩
  refine ⟨hv, ?_⟩
  unfold TreeShape
  rw [ht]
  exact ⟨hv, shapeL_iff.2 h.shape⟩

/-- The values read so far. -/
structure Done (l : List Nd) : Prop where
  ty : ∀ n ∈ l, n.ty = .COMPONENT_VALUE
  shape : ∀ n ∈ l, TreeShape n
  noRule : ∀ n ∈ l, endsRule (types n.kids) = false

/-- The value being read. -/
structure Cur (l : List Nd) (s : St) : Prop where
  parts : Parts l
  block : (types l).getLast? = some .OPEN_CURLYBRACKET →
    (types l).head? ≠ some .WHITESPACE ∧ endsRule (types l) = false ∧ s.last.ty = .SEMICOLON

theorem Cur.open {l : List Nd} {s : St} (h : Parts l) (hn : (types l).getLast? ≠ some .OPEN_CURLYBRACKET) :
    Cur l s := ⟨h, fun h' => absurd h' hn⟩

/-- What component_value_list() returns. -/
structure ListShape (fl : Flags) (v : Nd) : Prop where
  shape : TreeShape v
  ty : v.ty = .LIST ∨ v.ty = .COMPONENT_VALUE
  one : fl.onSemicolon = true → v.ty = .LIST → v.kids = []

theorem finish_shape {fl : Flags} {t : Tok} {done cur : List Nd} {tc : Tok} (ht : t.ty = .LIST)
    (htc : tc.ty = .COMPONENT_VALUE) (hd : Done done) (hc : Parts cur)
    (h1 : fl.onSemicolon = true → done = []) : ListShape fl (finish t (done ++ lastValue tc cur)) := by
  have hlv : lastValue tc cur = [] ∨ ∃ k, lastValue tc cur = [.mk tc k] ∧ TreeShape (.mk tc k) := by
    unfold lastValue
    have hi : dropEnd (dropHead cur) <:+: cur :=
      (dropEnd_prefix _).isInfix.trans (dropHead_suffix _).isInfix
    have hh := adj_dropHead hc.adj
    have hl := adj_dropEnd (hc.infix (dropHead_suffix cur).isInfix).adj
    have hp := hc.infix hi
    have hpre := dropEnd_prefix (dropHead cur)
    cases hk : dropEnd (dropHead cur) with
    | nil => exact .inl rfl
    | cons c k =>
      rw [hk] at hl hp hpre
      refine .inr ⟨c :: k, rfl, (shape_value htc hp (by simp) ?_ hl).2⟩
      have : types (c :: k) <+: types (dropHead cur) := by
        obtain ⟨y, hy⟩ := hpre
        exact ⟨types y, by rw [← types_append, hy]⟩
      rw [head_of_prefix this (by simp [types])]
      exact hh
  have hall : ∀ n ∈ done ++ lastValue tc cur, n.ty = .COMPONENT_VALUE ∧ TreeShape n := by
    intro n hn
    rcases List.mem_append.1 hn with hn | hn
    · exact ⟨hd.ty n hn, hd.shape n hn⟩
    · rcases hlv with h | ⟨k, h, hs⟩
      · rw [h] at hn; cases hn
      · rw [h] at hn
        rw [List.mem_singleton.1 hn]
        exact ⟨htc, hs⟩
  have hnl : ∀ pre n post, done ++ lastValue tc cur = pre ++ n :: post → post ≠ [] →
      endsRule (types n.kids) = false := by
    intro pre n post he hp
    have hmem : n ∈ done := by
      rcases hlv with h | ⟨k, h, _⟩
      · rw [h, List.append_nil] at he; rw [he]; simp
      · rw [h] at he
        rcases snoc_cases post with rfl | ⟨post, z, rfl⟩
        · exact absurd rfl hp
        · have : done ++ [Nd.mk tc k] = (pre ++ n :: post) ++ [z] := by rw [he]; simp
          obtain ⟨h1, _⟩ := List.append_inj' this rfl
          rw [h1]; simp
    exact hd.noRule n hmem
  have hlen1 : fl.onSemicolon = true → (done ++ lastValue tc cur).length ≤ 1 := by
    intro ho
    rw [h1 ho]
    rcases hlv with h | ⟨k, h, _⟩ <;> rw [h] <;> simp
  generalize done ++ lastValue tc cur = l at hall hnl hlen1
  match l, hall, hnl, hlen1 with
  | [], _, _, _ =>
    refine ⟨?_, .inl ht, fun _ _ => rfl⟩
    show TreeShape (.mk t [])
    unfold TreeShape
    rw [ht]
    exact ⟨.inl rfl, by unfold TreeShapes; trivial⟩
  | [x], hall, _, _ =>
    have := hall x (by simp)
    refine ⟨this.2, .inr this.1, fun _ h => ?_⟩
    rw [show (finish t [x]).ty = x.ty from rfl, this.1] at h; cases h
  | x :: y :: l, hall, hnl, hlen1 =>
    refine ⟨?_, .inl ht, fun ho _ => absurd (hlen1 ho) (by simp)⟩
    show TreeShape (.mk t (x :: y :: l))
    unfold TreeShape
    rw [ht]
    exact ⟨.inr ⟨by simp, fun n hn => (hall n hn).1, hnl⟩, shapeL_iff.2 (fun n hn => (hall n hn).2)⟩

end Csspp.Parse
