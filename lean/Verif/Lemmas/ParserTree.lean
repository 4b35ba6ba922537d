import Verif.Spec.ParserTree
import Verif.Lemmas.ParserRun

/-!
The two functions of the parser that recognize a list of component values, and the triples used for
the runs without message.
-/

namespace Csspp.Parse
open Csspp.Lex (Tok Pos)
open Csspp.Node (supportsChildren supportsString)
open Csspp.Spec (types variableSet variableBlock nestedDeclaration looksLikeValue afterColon inBoth
  onlyInSelectors)

/-! ### is_variable_set() and is_nested_declaration() -/

theorem types_cons (n : Nd) (l : List Nd) : types (n :: l) = n.ty :: types l := rfl
theorem types_nil : types [] = [] := rfl
theorem types_append (a b : List Nd) : types (a ++ b) = types a ++ types b := List.map_append

theorem pureBind {α β : Type} (v : α) (g : α → M β) : ((pure v : M α) >>= g) = g v := rfl

theorem isAt_eq {n : Nd} {pos : Nat} {ty : NT} (h : supportsChildren n.ty = true) :
    isAt n pos ty = (pure (decide ((types n.kids)[pos]? = some ty)) : M Bool) := by
  unfold isAt
  rw [size_ok h, pureBind]
  by_cases hp : pos < n.kids.length
  · rw [if_pos hp]
    obtain ⟨c, hc⟩ := get_of_lt hp
    rw [getChild_ok h hc, pureBind]
    unfold types
    rw [List.getElem?_map, hc]
    simp
  · rw [if_neg hp]
    unfold types
    rw [List.getElem?_map, List.getElem?_eq_none (by omega)]
    simp

theorem isVariableSet_eq {n : Nd} (b : Bool) (h : supportsChildren n.ty = true) :
    isVariableSet n b = (pure (if b then variableBlock (types n.kids) else variableSet (types n.kids)) :
      M Bool) := by
  unfold isVariableSet
  rw [size_ok h, pureBind]
  obtain ⟨t, k⟩ := n
  simp only [mk_kids]
  by_cases hs : k.length < 3
  · rw [if_pos hs]
    match k with
    | [] => cases b <;> rfl
    | [a] =>
      cases b <;> simp only [types_cons, types_nil, variableSet, variableBlock] <;>
        (cases a.ty <;> rfl)
    | [a, c] =>
      cases b <;> simp only [types_cons, types_nil, variableSet, variableBlock] <;>
        (cases a.ty <;> first | rfl | (cases c.ty <;> rfl))
    | a :: c :: d :: k => simp at hs; omega
  · rw [if_neg hs]
    match k, hs with
    | [], hs => simp at hs
    | [a], hs => simp at hs
    | [a, c], hs => simp at hs
    | a :: c :: d :: k, _ =>
      rw [getChild_ok (i := 0) (c := a) h rfl, pureBind]
      by_cases h0 : a.ty ≠ .VARIABLE ∧ a.ty ≠ .VARIABLE_FUNCTION
      · rw [if_pos h0]
        revert h0
        simp only [types_cons, variableSet, variableBlock]
        cases a.ty <;> cases b <;> simp
      · rw [if_neg h0]
        rw [getChild_ok (i := 1) (c := c) h rfl, pureBind]
        have hv : variableSet (types (a :: c :: d :: k)) =
              ((afterColon (types (c :: d :: k))).isSome) ∧
            variableBlock (types (a :: c :: d :: k)) =
              (match afterColon (types (c :: d :: k)) with
                | some (.OPEN_CURLYBRACKET :: _) | some (.WHITESPACE :: .OPEN_CURLYBRACKET :: _) => true
                | _ => false) := by
          have h1 : a.ty = .VARIABLE ∨ a.ty = .VARIABLE_FUNCTION := by
            revert h0; cases a.ty <;> simp
          constructor
          · rcases h1 with h1 | h1 <;> simp [types_cons, variableSet, h1]
          · rcases h1 with h1 | h1 <;> simp only [types_cons, variableBlock, h1] <;> rfl
        rw [hv.1, hv.2]
        by_cases h1 : c.ty = .WHITESPACE
        · rw [if_pos h1, getChild_ok (i := 2) (c := d) h rfl, pureBind]
          by_cases h2 : d.ty = .COLON
          · rw [if_neg (by simp [h2])]
            have ha : afterColon (types (c :: d :: k)) = some (types k) := by
              simp [types_cons, h1, h2, afterColon]
            rw [ha]
            cases b with
            | false => rfl
            | true =>
              rw [if_neg (by simp)]
              unfold skipAt
              rw [isAt_eq h, pureBind]
              have hg : ∀ i : Nat, (types (Nd.mk t (a :: c :: d :: k)).kids)[i + 3]? = (types k)[i]? := fun i => rfl
              rw [hg 0]
              match hk : types k with
              | [] => simp only [List.getElem?_nil]; rw [if_neg (by simp), pureBind, isAt_eq h, hg 0, hk]; rfl
              | x :: xs =>
                rw [List.getElem?_cons_zero]
                by_cases hx : x = .WHITESPACE
                · subst hx
                  rw [if_pos (by simp), pureBind, isAt_eq h, hg 1, hk]
                  match xs with
                  | [] => rfl
                  | y :: ys =>
                    by_cases hy : y = .OPEN_CURLYBRACKET
                    · subst hy; rfl
                    · have : decide ((NT.WHITESPACE :: y :: ys)[1]? = some NT.OPEN_CURLYBRACKET) = false := by
                        simp [hy]
                      rw [this, if_pos rfl]
                      split
                      · rename_i he; injection he with he; cases he
                      · rename_i he; injection he with he; injection he with _ he; injection he with he; exact absurd he hy
                      · rfl
                · rw [if_neg (by simp [hx]), pureBind, isAt_eq h, hg 0, hk]
                  by_cases hy : x = .OPEN_CURLYBRACKET
                  · subst hy; rfl
                  · have : decide ((x :: xs)[0]? = some NT.OPEN_CURLYBRACKET) = false := by simp [hy]
                    rw [this, if_pos rfl]
                    split
                    · rename_i he; injection he with he; injection he with he; exact absurd he hy
                    · rename_i he; injection he with he; injection he with he; exact absurd he hx
                    · rfl
          · rw [if_pos h2]
            have ha : afterColon (types (c :: d :: k)) = none := by
              simp only [types_cons, h1]
              unfold afterColon
              split
              · rename_i he; injection he with _ he; injection he with he; exact absurd he h2
              · rename_i he; injection he with he; cases he
              · rfl
            rw [ha]
            cases b <;> rfl
        · rw [if_neg h1, getChild_ok (i := 1) (c := c) h rfl, pureBind]
          by_cases h2 : c.ty = .COLON
          · rw [if_neg (by simp [h2])]
            have ha : afterColon (types (c :: d :: k)) = some (types (d :: k)) := by
              simp [types_cons, h2, afterColon]
            rw [ha]
            cases b with
            | false => rfl
            | true =>
              rw [if_neg (by simp)]
              unfold skipAt
              rw [isAt_eq h, pureBind]
              have hg : ∀ i : Nat, (types (Nd.mk t (a :: c :: d :: k)).kids)[i + 2]? = (types (d :: k))[i]? := fun i => rfl
              rw [hg 0, types_cons]
              rw [List.getElem?_cons_zero]
              by_cases hx : d.ty = .WHITESPACE
              · rw [if_pos (by simp [hx]), pureBind, isAt_eq h, hg 1, types_cons, hx]
                match types k with
                | [] => rfl
                | y :: ys =>
                  by_cases hy : y = .OPEN_CURLYBRACKET
                  · subst hy; rfl
                  · have : decide ((NT.WHITESPACE :: y :: ys)[1]? = some NT.OPEN_CURLYBRACKET) = false := by
                      simp [hy]
                    rw [this, if_pos rfl]
                    split
                    · rename_i he; injection he with he; cases he
                    · rename_i he; injection he with he; injection he with _ he; injection he with he; exact absurd he hy
                    · rfl
              · rw [if_neg (by simp [hx]), pureBind, isAt_eq h, hg 0, types_cons]
                by_cases hy : d.ty = .OPEN_CURLYBRACKET
                · rw [hy]; rfl
                · have : decide ((d.ty :: types k)[0]? = some NT.OPEN_CURLYBRACKET) = false := by simp [hy]
                  rw [this, if_pos rfl]
                  split
                  · rename_i he; injection he with he; injection he with he; exact absurd he hy
                  · rename_i he; injection he with he; injection he with he; exact absurd he hx
                  · rfl
          · rw [if_pos h2]
            have ha : afterColon (types (c :: d :: k)) = none := by
              simp only [types_cons]
              unfold afterColon
              split
              · rename_i he; injection he with he; exact absurd he h1
              · rename_i he; injection he with he; exact absurd he h2
              · rfl
            rw [ha]
            cases b <;> rfl

theorem selectorPart_none {ty : NT} : selectorPart ty = none ↔ inBoth.contains ty = true := by
  cases ty <;> decide

theorem selectorPart_some {ty : NT} {b : Bool} (h : selectorPart ty = some b) :
    inBoth.contains ty = false ∧ b = !onlyInSelectors.contains ty := by
  revert h; cases ty <;> cases b <;> decide

theorem selectorLoop_eq (l : List Nd) : selectorLoop l = looksLikeValue (types l) := by
  induction l with
  | nil => rfl
  | cons c l ih =>
    unfold selectorLoop looksLikeValue
    rw [types_cons, List.dropWhile_cons]
    cases hs : selectorPart c.ty with
    | none =>
      rw [if_pos (selectorPart_none.1 hs)]
      exact ih
    | some b =>
      have := selectorPart_some hs
      rw [if_neg (by rw [this.1]; simp)]
      exact this.2

theorem isNestedDeclaration_eq {n : Nd} (h : supportsChildren n.ty = true) :
    isNestedDeclaration n = (pure (nestedDeclaration (types n.kids)) : M Bool) := by
  unfold isNestedDeclaration
  rw [size_ok h, pureBind]
  obtain ⟨t, k⟩ := n
  by_cases hs : (Nd.mk t k).kids.length < 3
  · rw [if_pos hs]
    rw [mk_kids] at hs ⊢
    match k with
    | [] => rfl
    | [a] =>
      simp only [types_cons, types_nil]
      cases a.ty <;> rfl
    | [a, c] =>
      simp only [types_cons, types_nil]
      cases a.ty <;> first | rfl | (cases c.ty <;> rfl)
    | a :: c :: d :: k => simp at hs; omega
  · rw [if_neg hs]
    rw [mk_kids] at hs
    match k, hs with
    | [], hs => simp at hs
    | [a], hs => simp at hs
    | [a, c], hs => simp at hs
    | a :: c :: d :: k, _ =>
      rw [show types (Nd.mk t (a :: c :: d :: k)).kids = types (a :: c :: d :: k) from rfl]
      rw [getChild_ok (i := 0) (c := a) h rfl, pureBind]
      by_cases h0 : a.ty ≠ .IDENTIFIER
      · rw [if_pos h0]
        revert h0
        simp only [types_cons, nestedDeclaration]
        cases a.ty <;> simp
      rw [if_neg h0]
      have h0 : a.ty = .IDENTIFIER := Classical.byContradiction h0
      obtain ⟨l, hl⟩ := getLast_of_ne (l := a :: c :: d :: k) (by simp)
      rw [getLast_ok h hl, pureBind]
      have hlt : (types (a :: c :: d :: k)).getLast? = some l.ty := by
        unfold types; rw [List.getLast?_map, hl]; rfl
      by_cases h1 : l.ty ≠ .OPEN_CURLYBRACKET
      · rw [if_pos h1]
        have : nestedDeclaration (types (a :: c :: d :: k)) = false := by
          simp only [types_cons, h0, nestedDeclaration]
          rw [types_cons, types_cons, types_cons, h0] at hlt
          rw [hlt]
          simp [h1]
        rw [this]
      rw [if_neg h1]
      have h1 : l.ty = .OPEN_CURLYBRACKET := Classical.byContradiction h1
      rw [h1] at hlt
      have hv : nestedDeclaration (types (a :: c :: d :: k)) =
          (match afterColon (types (c :: d :: k)) with
            | some (.WHITESPACE :: _) | some (.OPEN_CURLYBRACKET :: _) => true
            | some (.FUNCTION :: r) => looksLikeValue r
            | some r => looksLikeValue r
            | none => false) := by
        have hlt' := hlt
        rw [types_cons, h0] at hlt'
        rw [types_cons a, h0]
        unfold nestedDeclaration
        simp only [hlt', decide_true, Bool.true_and]
        rfl
      rw [hv]
      rw [getChild_ok (i := 1) (c := c) h rfl, pureBind]
      -- the same for both positions of the colon
      have key : ∀ (p : Nat) (r : List Nd), (a :: c :: d :: k).drop (p + 1) = r →
          (do
            if p + 1 ≥ (a :: c :: d :: k).length then return false
            let x ← getChild (Nd.mk t (a :: c :: d :: k)) (p + 1)
            if x.ty = .WHITESPACE ∨ x.ty = .OPEN_CURLYBRACKET then return true
            let pos := if x.ty = .FUNCTION then p + 1 + 1 else p + 1
            if pos ≥ (a :: c :: d :: k).length then return false
            return selectorLoop ((a :: c :: d :: k).drop pos) : M Bool) =
          (pure (match some (types r) with
            | some (.WHITESPACE :: _) | some (.OPEN_CURLYBRACKET :: _) => true
            | some (.FUNCTION :: r) => looksLikeValue r
            | some r => looksLikeValue r
            | none => false) : M Bool) := by
        intro p r hr
        cases r with
        | nil =>
          have : (a :: c :: d :: k).length ≤ p + 1 := List.drop_eq_nil_iff.1 hr
          rw [if_pos (show p + 1 ≥ _ from this)]
          rfl
        | cons x r =>
          have hlen : p + 1 < (a :: c :: d :: k).length := by
            have := congrArg List.length hr
            rw [List.length_drop] at this
            simp only [List.length_cons] at this ⊢
            omega
          have hx : (a :: c :: d :: k)[p + 1]? = some x := by
            have := congrArg (fun l => l[0]?) hr
            simpa using this
          have hr2 : (a :: c :: d :: k).drop (p + 1 + 1) = r := by
            have := congrArg List.tail hr
            rwa [List.tail_drop, List.tail_cons] at this
          rw [if_neg (by omega), getChild_ok h hx, pureBind, types_cons]
          dsimp only
          by_cases hw : x.ty = .WHITESPACE ∨ x.ty = .OPEN_CURLYBRACKET
          · rw [if_pos hw]
            rcases hw with hw | hw <;> rw [hw]
          · rw [if_neg hw]
            by_cases hf : x.ty = .FUNCTION
            · rw [if_pos hf, hf]
              by_cases hl2 : p + 1 + 1 ≥ (a :: c :: d :: k).length
              · rw [if_pos hl2]
                rw [List.drop_eq_nil_of_le hl2] at hr2
                rw [← hr2]
                rfl
              · rw [if_neg hl2, hr2, selectorLoop_eq]
            · rw [if_neg hf, if_neg (by omega), hr, selectorLoop_eq, types_cons]
              split
              · rename_i he; injection he with he; injection he with he; exact absurd (.inl he) hw
              · rename_i he; injection he with he; injection he with he; exact absurd (.inr he) hw
              · rename_i he; injection he with he; injection he with he; exact absurd he hf
              · rename_i he; injection he with he; rw [he]
              · rename_i he; cases he
      by_cases hw : c.ty = .WHITESPACE
      · rw [if_pos hw]
        dsimp only
        rw [getChild_ok (i := 2) (c := d) h rfl, pureBind]
        by_cases h2 : d.ty = .COLON
        · rw [if_neg (by simp [h2])]
          have ha : afterColon (types (c :: d :: k)) = some (types k) := by
            simp [types_cons, hw, h2, afterColon]
          rw [ha]
          exact key 2 k rfl
        · rw [if_pos h2]
          have ha : afterColon (types (c :: d :: k)) = none := by
            simp only [types_cons, hw]
            unfold afterColon
            split
            · rename_i he; injection he with _ he; injection he with he; exact absurd he h2
            · rename_i he; injection he with he; cases he
            · rfl
          rw [ha]
      · rw [if_neg hw]
        dsimp only
        rw [getChild_ok (i := 1) (c := c) h rfl, pureBind]
        by_cases h2 : c.ty = .COLON
        · rw [if_neg (by simp [h2])]
          have ha : afterColon (types (c :: d :: k)) = some (types (d :: k)) := by
            simp [types_cons, h2, afterColon]
          rw [ha]
          exact key 1 (d :: k) rfl
        · rw [if_pos h2]
          have ha : afterColon (types (c :: d :: k)) = none := by
            simp only [types_cons]
            unfold afterColon
            split
            · rename_i he; injection he with he; exact absurd he hw
            · rename_i he; injection he with he; exact absurd he h2
            · rfl
          rw [ha]

end Csspp.Parse
