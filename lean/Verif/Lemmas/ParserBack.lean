import Verif.Lemmas.ParserShape2

/-!
Reading back the tokens of a tree.
-/

namespace Csspp.Parse
open Csspp.Lex (Tok Pos)
open Csspp.Node (supportsChildren supportsString)
open Csspp.Spec (types variableSet variableBlock nestedDeclaration endsRule isPart mayFollow Value TreeShape
  TreeShapes notInTrees SheetChild Sheet unparse unparseL unparseG extraSpace groupEnd groupEndsRule valueEnd
  plainTok closingOf strip stripL unparseChild unparseSheet)

theorem bind_run {α β : Type} {m : M α} {g : α → M β} {s s1 : St} {v : α} (h : m s = .ok v s1) :
    (m >>= g) s = g v s1 := by
  show (match m s with | .ok v s => g v s | .throws => .throws | .fuel => .fuel) = _
  rw [h]

theorem last_run {β : Type} {g : Tok → M β} (t : Tok) (l : List Tok) (fin : Pos) (errs : List (Err × Pos)) :
    (last >>= g) ⟨t :: l, fin, errs⟩ = g t ⟨t :: l, fin, errs⟩ := rfl

theorem next_run {β : Type} {g : Unit → M β} (t : Tok) (l : List Tok) (fin : Pos) (errs : List (Err × Pos)) :
    (next >>= g) ⟨t :: l, fin, errs⟩ = g () ⟨l, fin, errs⟩ := rfl

theorem val_run {α β : Type} {m : M α} {v : α} {g : α → M β} (s : St) (hm : m = Pure.pure v) :
    (m >>= g) s = g v s := by subst hm; rfl

/-! ### strip -/

theorem strip_mk (t : Tok) (k : List Nd) :
    strip (.mk t k) = .mk (if t.ty = .LIST ∨ t.ty = .COMPONENT_VALUE then plainTok t.ty else t) (stripL k) := by
  rw [strip]
theorem stripL_nil : stripL [] = [] := by unfold stripL; rfl
theorem stripL_cons (n : Nd) (l : List Nd) : stripL (n :: l) = strip n :: stripL l := by rw [stripL]
theorem stripL_append (a b : List Nd) : stripL (a ++ b) = stripL a ++ stripL b := by
  induction a with
  | nil => rw [stripL_nil]; rfl
  | cons n a ih => rw [List.cons_append, stripL_cons, ih, stripL_cons]; rfl

theorem strip_ty (n : Nd) : (strip n).ty = n.ty := by
  obtain ⟨t, k⟩ := n
  rw [strip_mk, mk_ty, mk_ty]
  split <;> rfl

theorem ty_of_strip {a b : Nd} (h : strip a = strip b) : a.ty = b.ty := by
  rw [← strip_ty a, h, strip_ty]

theorem types_strip (l : List Nd) : types (stripL l) = types l := by
  induction l with
  | nil => rw [stripL_nil]
  | cons n l ih => rw [stripL_cons, types_cons, types_cons, strip_ty, ih]

theorem types_of_strip {a b : List Nd} (h : stripL a = stripL b) : types a = types b := by
  rw [← types_strip a, h, types_strip]

theorem kids_of_strip {a b : Nd} (h : strip a = strip b) : stripL a.kids = stripL b.kids := by
  obtain ⟨t, k⟩ := a
  obtain ⟨u, l⟩ := b
  rw [strip_mk, strip_mk] at h
  injection h with _ h

theorem stripL_nil_iff {a : List Nd} : stripL a = [] ↔ a = [] := by
  cases a with
  | nil => rw [stripL_nil]
  | cons n l => rw [stripL_cons]; simp

theorem stripL_length {a b : List Nd} (h : stripL a = stripL b) : a.length = b.length := by
  have := types_of_strip h
  have := congrArg List.length this
  simpa [types] using this

/-- The same node with other children. -/
theorem strip_same {t : Tok} {k l : List Nd} (h : stripL k = stripL l) : strip (.mk t k) = strip (.mk t l) := by
  rw [strip_mk, strip_mk, h]

/-- A group with another position. -/
theorem strip_group {t u : Tok} {k l : List Nd} (hty : t.ty = u.ty)
    (hg : t.ty = .LIST ∨ t.ty = .COMPONENT_VALUE) (h : stripL k = stripL l) :
    strip (.mk t k) = strip (.mk u l) := by
  rw [strip_mk, strip_mk, h, if_pos hg, if_pos (by rw [← hty]; exact hg), hty]

/-! ### unparse -/

theorem unparseL_nil : unparseL [] = [] := by unfold unparseL; rfl
theorem unparseL_cons (n : Nd) (l : List Nd) :
    unparseL (n :: l) = unparse n ++ (extraSpace n l ++ unparseL l) := by rw [unparseL]
theorem unparseG_nil : unparseG [] = [] := by unfold unparseG; rfl
theorem unparseG_cons (n : Nd) (l : List Nd) :
    unparseG (n :: l) = unparse n ++ (groupEnd n ++ unparseG l) := by rw [unparseG]

theorem unparse_part {n : Nd} (h : isPart n.ty) : ∃ r, unparse n = n.tok :: r := by
  obtain ⟨t, k⟩ := n
  have h : isPart t.ty := h
  rw [unparse]
  revert h
  unfold isPart
  show _ → ∃ r, _ = t :: r
  cases t.ty <;> simp [notInTrees]

theorem unparse_at {n : Nd} (h : n.ty = .AT_KEYWORD) :
    unparse n = n.tok :: (unparseL n.kids ++ [plainTok .SEMICOLON]) := by
  obtain ⟨t, k⟩ := n
  have h : t.ty = .AT_KEYWORD := h
  rw [unparse, h]; rfl

theorem unparse_curly {n : Nd} (h : n.ty = .OPEN_CURLYBRACKET) :
    unparse n = n.tok :: (unparseG n.kids ++ [plainTok .CLOSE_CURLYBRACKET]) := by
  obtain ⟨t, k⟩ := n
  have h : t.ty = .OPEN_CURLYBRACKET := h
  rw [unparse, h]; rfl

theorem unparse_block {n : Nd} (h : n.ty = .OPEN_SQUAREBRACKET ∨ n.ty = .OPEN_PARENTHESIS ∨
    n.ty = .FUNCTION ∨ n.ty = .VARIABLE_FUNCTION) :
    unparse n = n.tok :: (unparseL n.kids ++ ((if (types n.kids).head? = some .COMPONENT_VALUE then []
      else valueEnd n.kids) ++ [plainTok (closingOf n.ty)])) := by
  obtain ⟨t, k⟩ := n
  have h : t.ty = .OPEN_SQUAREBRACKET ∨ t.ty = .OPEN_PARENTHESIS ∨
    t.ty = .FUNCTION ∨ t.ty = .VARIABLE_FUNCTION := h
  rw [unparse]
  rcases h with h | h | h | h <;> simp only [h, Nd.tok, Nd.kids, Nd.ty] <;> rfl

theorem unparse_bang {n : Nd} (h : n.ty = .EXCLAMATION) :
    unparse n = [n.tok, { ty := .IDENTIFIER, pos := ⟨0, 0, 0⟩, str := n.tok.str }] := by
  obtain ⟨t, k⟩ := n
  have h : t.ty = .EXCLAMATION := h
  rw [unparse, h]; rfl

theorem unparse_value {n : Nd} (h : n.ty = .COMPONENT_VALUE) :
    unparse n = unparseL n.kids ++ valueEnd n.kids := by
  obtain ⟨t, k⟩ := n
  have h : t.ty = .COMPONENT_VALUE := h
  rw [unparse, h]; rfl

theorem unparse_list {n : Nd} (h : n.ty = .LIST) :
    unparse n = if n.kids = [] then [plainTok .SEMICOLON] else unparseL n.kids := by
  obtain ⟨t, k⟩ := n
  have h : t.ty = .LIST := h
  rw [unparse, h]; rfl

/-- The parts without children of their own. -/
theorem unparse_leaf {n : Nd} (hs : TreeShape n) (hp : isPart n.ty) (h1 : n.ty ≠ .AT_KEYWORD)
    (h2 : n.ty ≠ .EXCLAMATION) (h3 : n.ty ≠ .OPEN_CURLYBRACKET) (h4 : n.ty ≠ .OPEN_SQUAREBRACKET)
    (h5 : n.ty ≠ .OPEN_PARENTHESIS) (h6 : n.ty ≠ .FUNCTION) (h7 : n.ty ≠ .VARIABLE_FUNCTION) :
    unparse n = [n.tok] ∧ n.kids = [] := by
  obtain ⟨t, k⟩ := n
  unfold TreeShape at hs
  rw [unparse]
  simp only [Nd.ty, Nd.tok, Nd.kids] at *
  revert hs hp h1 h2 h3 h4 h5 h6 h7
  unfold isPart
  cases t.ty <;> simp

/-- What is in front of the children of a group does not depend on the shape. -/
theorem shape_part_kids {n : Nd} (hs : TreeShape n) (h : n.ty = .EXCLAMATION) : n.kids = [] := by
  obtain ⟨t, k⟩ := n
  have h : t.ty = .EXCLAMATION := h
  unfold TreeShape at hs
  rw [h] at hs
  exact hs.2

/-! ### Reading the parts of a value -/

/-- One part. -/
structure Core (f : Nat) : Prop where
  value : ∀ (n : Nd) (rest : List Tok) (fin : Pos) (errs : List (Err × Pos)), TreeShape n → isPart n.ty →
    n.ty ≠ .AT_KEYWORD → n.ty ≠ .EXCLAMATION → 5 * (unparse n ++ rest).length + 1 ≤ f →
    ∃ n', componentValue f ⟨unparse n ++ rest, fin, errs⟩ = .ok n' ⟨rest, fin, errs⟩ ∧ strip n' = strip n
  atr : ∀ (n : Nd) (rest : List Tok) (fin : Pos) (errs : List (Err × Pos)), TreeShape n → n.ty = .AT_KEYWORD →
    5 * (unparse n ++ rest).length ≤ f →
    ∃ n', atRule f ⟨unparse n ++ rest, fin, errs⟩ = .ok n' ⟨rest, fin, errs⟩ ∧ strip n' = strip n

theorem part_not_stop {fl : Flags} {ty : NT} (h : isPart ty) : stops fl ty = false ∧ ty ≠ .SEMICOLON ∧
    ty ≠ .EOF_TOKEN := by
  revert h
  unfold isPart
  cases ty <;> simp [notInTrees, stops]

theorem skipSpace_run {t : Tok} {l : List Tok} {fin : Pos} {errs : List (Err × Pos)} (h : t.ty ≠ .WHITESPACE) :
    skipSpace ⟨t :: l, fin, errs⟩ = .ok () ⟨t :: l, fin, errs⟩ := by
  unfold skipSpace
  rw [last_run, if_neg h]; rfl

theorem skipSpace_run' {t : Tok} {l : List Tok} {fin : Pos} {errs : List (Err × Pos)} (h : t.ty = .WHITESPACE) :
    skipSpace ⟨t :: l, fin, errs⟩ = .ok () ⟨l, fin, errs⟩ := by
  unfold skipSpace
  rw [last_run, if_pos h]; rfl

theorem skipSpace_nil {fin : Pos} {errs : List (Err × Pos)} :
    skipSpace ⟨[], fin, errs⟩ = .ok () ⟨[], fin, errs⟩ := rfl

theorem push_adj {l : List Nd} {n n' : Nd} {ks : List Nd} (ht : n'.ty = n.ty) (hp : isPart n.ty)
    (ha : Adj (types (l ++ n :: ks))) : push l n' = l ++ [n'] := by
  unfold push
  rw [if_pos]
  refine ⟨?_, ?_⟩
  · rw [ht]; exact (part_not_stop (fl := ⟨false, false⟩) hp).2.2
  · by_cases hw : n.ty = .WHITESPACE
    · right
      rcases snoc_cases l with rfl | ⟨l, x, rfl⟩
      · left; rfl
      · right
        have := ha (types l) x.ty n.ty (types ks) (by simp [types])
        intro hx
        have hx : x.ty = .WHITESPACE := by simpa using hx
        rw [hw] at this
        exact (this.2 hx) (by simp)
    · left; rw [ht]; exact hw

theorem dropEnd_adj {l : List Nd} {n : Nd} {ks : List Nd}
    (ht : n.ty ∈ [NT.WHITESPACE, .OPEN_CURLYBRACKET, .OPEN_PARENTHESIS, .OPEN_SQUAREBRACKET, .EXCLAMATION])
    (ha : Adj (types (l ++ n :: ks))) : dropEnd l = l := by
  refine dropEnd_id (fun h => ?_)
  rcases snoc_cases l with rfl | ⟨l, x, rfl⟩
  · simp [types] at h
  · have := ha (types l) x.ty n.ty (types ks) (by simp [types])
    rw [types_append] at h
    have hx : x.ty = .WHITESPACE := by simpa [types] using h
    exact (this.2 hx) ht

theorem parts_run {f : Nat} (hcore : ∀ g, g < f → Core g) : ∀ (ks : List Nd) (g : Nat) (fl : Flags)
    (result list : Nd) (rest : List Tok) (fin : Pos) (errs : List (Err × Pos)), g ≤ f → ks ≠ [] →
    list.ty = .COMPONENT_VALUE → (∀ n ∈ ks, isPart n.ty ∧ TreeShape n) →
    Adj (types (list.kids ++ ks)) → (types (list.kids ++ ks)).head? ≠ some .WHITESPACE →
    5 * (unparseL ks ++ rest).length + 2 ≤ g →
    (endsRule (types (list.kids ++ ks)) = false → ∃ t r, rest = t :: r ∧ t.ty = .SEMICOLON) →
    ∃ k', stripL k' = stripL ks ∧
      (endsRule (types (list.kids ++ ks)) = true →
        cvLoop g fl result list ⟨unparseL ks ++ rest, fin, errs⟩ =
          listEnd result (.mk list.tok (list.kids ++ k')) ⟨rest, fin, errs⟩) ∧
      (endsRule (types (list.kids ++ ks)) = false →
        ∃ g', g' ≤ g ∧ 5 * rest.length + 2 ≤ g' ∧
        cvLoop g fl result list ⟨unparseL ks ++ rest, fin, errs⟩ =
          cvLoop g' fl result (.mk list.tok (list.kids ++ k')) ⟨rest, fin, errs⟩) := by
  intro ks
  induction ks with
  | nil => intro _ _ _ _ _ _ _ _ h; exact absurd rfl h
  | cons n ks ih =>
    intro g fl result list rest fin errs hg _ hl hsh hadj hhead hfuel hrest
    have hcl : supportsChildren list.ty = true := by rw [hl]; rfl
    obtain ⟨hpart, hshape⟩ := hsh n (by simp)
    obtain ⟨hst, hns, hne⟩ := part_not_stop (fl := fl) hpart
    obtain ⟨g, rfl⟩ : ∃ g', g = g' + 1 := ⟨g - 1, by omega⟩
    -- going on after a part that is not a block
    have cont : ∀ (n' : Nd) (sp : List Tok), strip n' = strip n → n.ty ≠ .OPEN_CURLYBRACKET →
        sp.length + 1 ≤ (unparseL (n :: ks)).length - (unparseL ks).length →
        cvLoop (g + 1) fl result list ⟨unparseL (n :: ks) ++ rest, fin, errs⟩ =
          cvLoop g fl result (.mk list.tok (list.kids ++ [n'])) ⟨unparseL ks ++ rest, fin, errs⟩ →
        ∃ k', stripL k' = stripL (n :: ks) ∧
          (endsRule (types (list.kids ++ n :: ks)) = true →
            cvLoop (g + 1) fl result list ⟨unparseL (n :: ks) ++ rest, fin, errs⟩ =
              listEnd result (.mk list.tok (list.kids ++ k')) ⟨rest, fin, errs⟩) ∧
          (endsRule (types (list.kids ++ n :: ks)) = false →
            ∃ g', g' ≤ g + 1 ∧ 5 * rest.length + 2 ≤ g' ∧
            cvLoop (g + 1) fl result list ⟨unparseL (n :: ks) ++ rest, fin, errs⟩ =
              cvLoop g' fl result (.mk list.tok (list.kids ++ k')) ⟨rest, fin, errs⟩) := by
      intro n' sp hn' hnb hlen heq
      have hty := ty_of_strip hn'
      have htt : types ((list.kids ++ [n']) ++ ks) = types (list.kids ++ n :: ks) := by
        simp [types, hty]
      have hlen2 : (unparseL ks ++ rest).length + 1 ≤ (unparseL (n :: ks) ++ rest).length := by
        simp only [List.length_append] at hlen ⊢
        omega
      cases ks with
      | nil =>
        refine ⟨[n'], by rw [stripL_cons, stripL_cons, hn'], ?_, ?_⟩
        · intro he
          exfalso
          unfold endsRule at he
          rw [types_last] at he
          simp [hnb] at he
        · intro _
          refine ⟨g, by omega, ?_, ?_⟩
          · rw [unparseL_nil, List.nil_append] at hlen2
            omega
          · rw [heq, unparseL_nil]; rfl
      | cons m ks =>
        obtain ⟨k', h1, h2, h3⟩ := ih g fl result (.mk list.tok (list.kids ++ [n'])) rest fin errs
          (by omega) (by simp) hl (fun x hx => hsh x (List.mem_cons_of_mem _ hx))
          (by rw [mk_kids, htt]; exact hadj) (by rw [mk_kids, htt]; exact hhead) (by omega)
          (by rw [mk_kids, htt]; exact hrest)
        rw [mk_kids, htt] at h2 h3
        refine ⟨n' :: k', by rw [stripL_cons, hn', h1, ← stripL_cons], ?_, ?_⟩
        · intro he
          rw [heq, h2 he, mk_tok]
          simp
        · intro he
          obtain ⟨g', hg1, hg2, hg3⟩ := h3 he
          refine ⟨g', by omega, hg2, ?_⟩
          rw [heq, hg3, mk_tok]
          simp
    obtain ⟨r0, hr0⟩ := unparse_part hpart
    by_cases hat : n.ty = .AT_KEYWORD
    · -- AT_KEYWORD
      have hx : extraSpace n ks = [] := by unfold extraSpace; rw [if_neg (by rw [hat]; simp)]
      have hlen : (unparseL (n :: ks)).length = (unparse n).length + (unparseL ks).length := by
        rw [unparseL_cons, hx]; simp
      have hlr : (unparse n).length = r0.length + 1 := by rw [hr0]; simp
      obtain ⟨n', h1, h2⟩ := (hcore g (by omega)).atr n (unparseL ks ++ rest) fin errs hshape hat (by
        simp only [List.length_append] at hfuel ⊢; omega)
      refine cont n' [] h2 (by rw [hat]; simp) (by rw [hlen]; simp; omega) ?_
      have htok : unparseL (n :: ks) ++ rest = n.tok :: (r0 ++ (unparseL ks ++ rest)) := by
        rw [unparseL_cons, hx, hr0]; simp
      rw [htok]
      conv => lhs; unfold cvLoop
      rw [last_run, if_neg (by rw [show n.tok.ty = n.ty from rfl, hst]; simp), if_pos (show n.tok.ty = _ from hat)]
      rw [show n.tok :: (r0 ++ (unparseL ks ++ rest)) = unparse n ++ (unparseL ks ++ rest) by rw [hr0]; rfl]
      rw [bind_run h1, val_run _ (addChild_ok hcl), push_adj (ty_of_strip h2) hpart hadj]
    by_cases hbang : n.ty = .EXCLAMATION
    · -- EXCLAMATION
      have hk := shape_part_kids hshape hbang
      have hun := unparse_bang hbang
      refine cont n (extraSpace n ks) rfl (by rw [hbang]; simp) (by
        rw [unparseL_cons, hun]; simp only [List.length_append, List.length_cons, List.length_nil]; omega) ?_
      rw [unparseL_cons, hun]
      show cvLoop (g + 1) fl result list ⟨n.tok :: ⟨.IDENTIFIER, ⟨0, 0, 0⟩, n.tok.str, [], 0, none, false, none⟩ ::
        (extraSpace n ks ++ unparseL ks ++ rest), fin, errs⟩ = _
      conv => lhs; unfold cvLoop
      rw [last_run, if_neg (by rw [show n.tok.ty = n.ty from rfl, hst]; simp), if_neg (show ¬ n.tok.ty = _ from hat), if_neg (show ¬ n.tok.ty = _ from hns),
        if_pos (show n.tok.ty = _ from hbang)]
      have hex : exclamation list ⟨n.tok :: ⟨.IDENTIFIER, ⟨0, 0, 0⟩, n.tok.str, [], 0, none, false, none⟩ ::
        (extraSpace n ks ++ unparseL ks ++ rest), fin, errs⟩ =
          .ok (.mk list.tok (list.kids ++ [n])) ⟨unparseL ks ++ rest, fin, errs⟩ := by
        unfold exclamation
        rw [last_run, next_run, bind_run (skipSpace_run (by simp)), last_run, if_pos rfl,
          val_run _ (dropLast_eq hcl), val_run (m := getString _) (v := n.tok.str) _ rfl,
          val_run (m := setString (.leaf n.tok) n.tok.str) (v := n) _ ?_]
        · rw [dropEnd_adj (n := n) (ks := ks) (by rw [hbang]; simp) hadj]
          rw [val_run _ (addChild_ok (n := .mk list.tok list.kids) hcl), mk_kids, mk_tok,
            push_adj rfl hpart hadj, next_run]
          -- the space after the identifier
          have : skipSpace ⟨extraSpace n ks ++ unparseL ks ++ rest, fin, errs⟩ =
              .ok () ⟨unparseL ks ++ rest, fin, errs⟩ := by
            unfold extraSpace
            cases ks with
            | nil =>
              rw [if_neg (by simp [types]), unparseL_nil]
              obtain ⟨t, r, hr, ht⟩ := hrest (by
                unfold endsRule
                rw [types_last]
                simp [hbang])
              subst hr
              exact skipSpace_run (by rw [ht]; simp)
            | cons m ks =>
              by_cases hm : m.ty = .WHITESPACE
              · rw [if_pos ⟨hbang, by simp [types, hm]⟩]
                exact skipSpace_run' rfl
              · rw [if_neg (by simp [types, hm])]
                obtain ⟨r1, hr1⟩ := unparse_part (hsh m (by simp)).1
                rw [List.nil_append, unparseL_cons, hr1]
                exact skipSpace_run hm
          rw [bind_run this]
          rfl
        · unfold setString
          rw [show (Nd.leaf n.tok).ty = .EXCLAMATION from hbang]
          obtain ⟨t, k⟩ := n
          have hk : k = [] := hk
          subst hk
          rfl
      rw [bind_run hex]
    -- the other parts
    have hx : extraSpace n ks = [] := by unfold extraSpace; rw [if_neg (fun h => hbang h.1)]
    have hlen : (unparseL (n :: ks)).length = (unparse n).length + (unparseL ks).length := by
      rw [unparseL_cons, hx]; simp
    have hlr : (unparse n).length = r0.length + 1 := by rw [hr0]; simp
    obtain ⟨n', h1, h2⟩ := (hcore g (by omega)).value n (unparseL ks ++ rest) fin errs hshape hpart hat hbang (by
      simp only [List.length_append] at hfuel ⊢; omega)
    have htok : unparseL (n :: ks) ++ rest = n.tok :: (r0 ++ (unparseL ks ++ rest)) := by
      rw [unparseL_cons, hx, hr0]; simp
    have hbb : (if n.tok.ty = .OPEN_CURLYBRACKET ∨ n.tok.ty = .OPEN_SQUAREBRACKET ∨
        n.tok.ty = .OPEN_PARENTHESIS then dropEnd list.kids else list.kids) = list.kids := by
      split
      · rename_i h
        refine dropEnd_adj (n := n) (ks := ks) ?_ hadj
        rcases h with h | h | h <;> rw [show n.ty = _ from h] <;> simp
      · rfl
    have hstep : cvLoop (g + 1) fl result list ⟨unparseL (n :: ks) ++ rest, fin, errs⟩ =
        (if n.tok.ty = .OPEN_CURLYBRACKET then do
          let list ← dropFirsts (.mk list.tok (list.kids ++ [n']))
          let d ← isBlockValue list
          if d = false then listEnd result list
          else do
            skipSpaces g
            wantSemicolon list
            cvLoop g fl result list
        else cvLoop g fl result (.mk list.tok (list.kids ++ [n'])) : M Nd) ⟨unparseL ks ++ rest, fin, errs⟩ := by
      rw [htok]
      conv => lhs; unfold cvLoop
      rw [last_run, if_neg (by rw [show n.tok.ty = n.ty from rfl, hst]; simp), if_neg (show ¬ n.tok.ty = _ from hat), if_neg (show ¬ n.tok.ty = _ from hns),
        if_neg (show ¬ n.tok.ty = _ from hbang), val_run _ (beforeBlock_eq hcl), hbb]
      rw [show n.tok :: (r0 ++ (unparseL ks ++ rest)) = unparse n ++ (unparseL ks ++ rest) by rw [hr0]; rfl]
      rw [bind_run h1, val_run _ (addChild_ok (n := .mk list.tok list.kids) hcl), mk_kids, mk_tok,
        push_adj (ty_of_strip h2) hpart hadj]
    by_cases hcurly : n.ty = .OPEN_CURLYBRACKET
    · -- a block ends the value
      have hks : ks = [] := by
        cases ks with
        | nil => rfl
        | cons m ks =>
          exact absurd hcurly (hadj (types list.kids) n.ty m.ty (types ks) (by simp [types])).1
      subst hks
      have htt : types (list.kids ++ [n']) = types (list.kids ++ [n]) := by
        simp [types, ty_of_strip h2]
      rw [if_pos (show n.tok.ty = _ from hcurly), val_run _ (dropFirsts_eq (n := .mk list.tok (list.kids ++ [n'])) hcl),
        mk_kids, mk_tok, dropHeads_id (by rw [htt]; exact hhead),
        val_run _ (isBlockValue_eq (n := .mk list.tok (list.kids ++ [n'])) hcl), mk_kids, htt, unparseL_nil,
        List.nil_append] at hstep
      have her : endsRule (types (list.kids ++ [n])) =
          !(variableBlock (types (list.kids ++ [n])) || nestedDeclaration (types (list.kids ++ [n]))) := by
        unfold endsRule
        rw [show (types (list.kids ++ [n])).getLast? = some .OPEN_CURLYBRACKET by
          rw [types_last]; simp [hcurly]]
        simp
      refine ⟨[n'], by rw [stripL_cons, stripL_cons, h2], ?_, ?_⟩
      · intro he
        rw [her] at he
        rw [hstep, if_pos (by revert he; cases (variableBlock (types (list.kids ++ [n])) || nestedDeclaration (types (list.kids ++ [n]))) <;> simp)]
      · intro he
        obtain ⟨t, r, hrt, ht⟩ := hrest he
        rw [her] at he
        rw [if_neg (by revert he; cases (variableBlock (types (list.kids ++ [n])) || nestedDeclaration (types (list.kids ++ [n]))) <;> simp)] at hstep
        have hlr2 : (unparseL [n] ++ rest).length ≥ rest.length + 1 := by
          rw [htok, unparseL_nil]; simp
        refine ⟨g, by omega, by omega, ?_⟩
        rw [hstep]
        obtain ⟨g, rfl⟩ : ∃ g', g = g' + 1 := ⟨g - 1, by omega⟩
        subst hrt
        have hsk : skipSpaces (g + 1) ⟨t :: r, fin, errs⟩ = .ok () ⟨t :: r, fin, errs⟩ := by
          unfold skipSpaces
          rw [last_run, if_neg (by rw [ht]; simp)]; rfl
        rw [bind_run hsk]
        have hws : wantSemicolon (.mk list.tok (list.kids ++ [n'])) ⟨t :: r, fin, errs⟩ =
            .ok () ⟨t :: r, fin, errs⟩ := by
          unfold wantSemicolon
          rw [last_run, if_pos ht]; rfl
        rw [bind_run hws]
    · refine cont n' [] h2 hcurly (by rw [hlen]; simp; omega) ?_
      rw [hstep, if_neg (show ¬ n.tok.ty = _ from hcurly)]

/-! ### Values -/

theorem lastValue_run {t : Tok} {k : List Nd} (hn : k ≠ []) (h1 : (types k).head? ≠ some .WHITESPACE)
    (h2 : (types k).getLast? ≠ some .WHITESPACE) : lastValue t k = [.mk t k] := by
  unfold lastValue
  rw [dropHead_id h1, dropEnd_id h2]
  cases k with
  | nil => exact absurd rfl hn
  | cons c k => rfl

/-- A value: when the loop stops after it, or goes on. -/
theorem value_run {f : Nat} (hcore : ∀ g, g < f → Core g) (ks : List Nd) (g : Nat) (fl : Flags)
    (result : Nd) (t : Tok) (rest : List Tok) (fin : Pos) (errs : List (Err × Pos)) (hg : g ≤ f)
    (hr : result.ty = .LIST) (ht : t.ty = .COMPONENT_VALUE) (hv : Value ks) (hs : TreeShapes ks)
    (hfl : fl.onSemicolon = false)
    (hfuel : 5 * (unparseL ks ++ (valueEnd ks ++ rest)).length + 2 ≤ g) :
    ∃ k', stripL k' = stripL ks ∧
      ((endsRule (types ks) = true ∨ fl.onVariable = true ∧ variableSet (types ks) = true) →
        cvLoop g fl result (.mk t []) ⟨unparseL ks ++ (valueEnd ks ++ rest), fin, errs⟩ =
          .ok (finish result.tok (result.kids ++ [.mk t k'])) ⟨rest, fin, errs⟩) ∧
      (endsRule (types ks) = false → (fl.onVariable = false ∨ variableSet (types ks) = false) →
        ∃ g' t', g' ≤ g ∧ 5 * rest.length + 2 ≤ g' ∧ t'.ty = .COMPONENT_VALUE ∧
        cvLoop g fl result (.mk t []) ⟨unparseL ks ++ (valueEnd ks ++ rest), fin, errs⟩ =
          cvLoop g' fl (.mk result.tok (result.kids ++ [.mk t k'])) (.mk t' []) ⟨rest, fin, errs⟩) := by
  have hcr : supportsChildren result.ty = true := by rw [hr]; rfl
  have hct : ∀ k, supportsChildren (Nd.mk t k).ty = true := by
    intro k; show supportsChildren t.ty = true; rw [ht]; rfl
  have hve : endsRule (types ks) = false → valueEnd ks = [plainTok .SEMICOLON] := by
    intro h
    unfold valueEnd
    rw [if_neg (by rw [h]; simp [hv.1])]
  have hve2 : endsRule (types ks) = true → valueEnd ks = [] := by
    intro h
    unfold valueEnd
    rw [if_pos (.inr h)]
  obtain ⟨k', h1, h2, h3⟩ := parts_run hcore ks g fl result (.mk t []) (valueEnd ks ++ rest) fin errs hg hv.1 ht
    (fun n hn => ⟨hv.2.1 n hn, shapeL_iff.1 hs n hn⟩) hv.2.2.2.2 hv.2.2.1 hfuel
    (fun h => ⟨_, _, by rw [hve h]; rfl, rfl⟩)
  rw [mk_kids, mk_tok, List.nil_append] at h2 h3
  have htt := types_of_strip h1
  have hne : k' ≠ [] := by intro h; rw [h] at htt; exact hv.1 (List.map_eq_nil_iff.1 htt.symm)
  have hlv : lastValue t k' = [.mk t k'] := lastValue_run hne (by rw [htt]; exact hv.2.2.1)
    (by rw [htt]; exact hv.2.2.2.1)
  have hend : ∀ s, listEnd result (.mk t k') s =
      .ok (finish result.tok (result.kids ++ [.mk t k'])) s := by
    intro s
    rw [listEnd_eq (list := .mk t k') hr ht, mk_tok, mk_kids, hlv]; rfl
  refine ⟨k', h1, ?_, ?_⟩
  · intro h
    cases he : endsRule (types ks) with
    | true =>
      rw [h2 he, hve2 he, List.nil_append]
      exact hend _
    | false =>
      rw [he] at h
      obtain ⟨ho, hvs⟩ := h.resolve_left (by simp)
      obtain ⟨g', hg1, hg2, hg3⟩ := h3 he
      rw [hg3, hve he]
      obtain ⟨g', rfl⟩ : ∃ g'', g' = g'' + 1 := ⟨g' - 1, by omega⟩
      show cvLoop (g' + 1) fl result (.mk t k') ⟨plainTok .SEMICOLON :: rest, fin, errs⟩ = _
      unfold cvLoop
      rw [last_run, if_neg (show ¬ stops fl (plainTok .SEMICOLON).ty = true by simp [stops, hfl, plainTok]),
        if_neg (show ¬ (plainTok .SEMICOLON).ty = .AT_KEYWORD by simp [plainTok]),
        if_pos (show (plainTok .SEMICOLON).ty = .SEMICOLON from rfl), next_run,
        val_run _ (dropFirsts_eq (hct _)), mk_kids, mk_tok, dropHeads_id (by rw [htt]; exact hv.2.2.1),
        val_run _ (dropLasts_eq (hct _)), mk_kids, mk_tok, dropEnds_id (by rw [htt]; exact hv.2.2.2.1),
        val_run (v := true) _ (by rw [endsVariable_eq (hct _), mk_kids, htt, ho, hvs]; rfl), if_pos rfl]
      exact hend _
  · intro he hnv
    obtain ⟨g', hg1, hg2, hg3⟩ := h3 he
    rw [hve he, List.singleton_append, List.length_cons] at hg2
    obtain ⟨g', rfl⟩ : ∃ g'', g' = g'' + 1 := ⟨g' - 1, by omega⟩
    refine ⟨g', { ty := .COMPONENT_VALUE, pos := (plainTok .SEMICOLON).pos }, by omega, by omega, rfl, ?_⟩
    rw [hg3, hve he]
    show cvLoop (g' + 1) fl result (.mk t k') ⟨plainTok .SEMICOLON :: rest, fin, errs⟩ = _
    conv => lhs; unfold cvLoop
    rw [last_run, if_neg (show ¬ stops fl (plainTok .SEMICOLON).ty = true by simp [stops, hfl, plainTok]),
        if_neg (show ¬ (plainTok .SEMICOLON).ty = .AT_KEYWORD by simp [plainTok]),
        if_pos (show (plainTok .SEMICOLON).ty = .SEMICOLON from rfl), next_run,
        val_run _ (dropFirsts_eq (hct _)), mk_kids, mk_tok, dropHeads_id (by rw [htt]; exact hv.2.2.1),
        val_run _ (dropLasts_eq (hct _)), mk_kids, mk_tok, dropEnds_id (by rw [htt]; exact hv.2.2.2.1),
        val_run (v := false) _ (by
          rw [endsVariable_eq (hct _), mk_kids, htt]
          rcases hnv with h | h <;> rw [h] <;> simp), if_neg (by simp),
        val_run (v := false) _ (by
          rw [isEmpty_ok (hct _), mk_kids]
          cases k' with
          | nil => exact absurd rfl hne
          | cons c k => rfl), if_neg (by simp), val_run _ (addChild_ok hcr),
        push_group (c := .mk t k') (.inr ht)]
    rfl

/-- What ends a list: a bracket that closes a block, `<!--`, `-->` or the end of the tokens. -/
def Stops (fl : Flags) (rest : List Tok) : Prop := ∀ t r, rest = t :: r → stops fl t.ty = true

theorem stops_run {fl : Flags} {rest : List Tok} (h : Stops fl rest) (g : Nat) (result list : Nd) (fin : Pos)
    (errs : List (Err × Pos)) :
    cvLoop (g + 1) fl result list ⟨rest, fin, errs⟩ = listEnd result list ⟨rest, fin, errs⟩ := by
  unfold cvLoop
  cases rest with
  | nil =>
    show (if stops fl .EOF_TOKEN = true then _ else _ : M Nd) _ = _
    rw [if_pos (show stops fl .EOF_TOKEN = true from rfl)]
  | cons t r => rw [last_run, if_pos (h t r rfl)]

/-- The values of a list, in a place where `;` does not end it. -/
theorem values_run {f : Nat} (hcore : ∀ g, g < f → Core g) : ∀ (l : List Nd) (g : Nat) (result : Nd) (t : Tok)
    (rest : List Tok) (fin : Pos) (errs : List (Err × Pos)), g ≤ f →
    result.ty = .LIST → t.ty = .COMPONENT_VALUE → (∀ n ∈ l, n.ty = .COMPONENT_VALUE ∧ TreeShape n) →
    (∀ pre n post, l = pre ++ n :: post → post ≠ [] → endsRule (types n.kids) = false) →
    ((∀ n, l.getLast? = some n → endsRule (types n.kids) = false) → Stops ⟨false, false⟩ rest) →
    5 * (unparseL l ++ rest).length + 2 ≤ g →
    ∃ l', stripL l' = stripL l ∧
      cvLoop g ⟨false, false⟩ result (.mk t []) ⟨unparseL l ++ rest, fin, errs⟩ =
        .ok (finish result.tok (result.kids ++ l')) ⟨rest, fin, errs⟩ := by
  intro l
  induction l with
  | nil =>
    intro g result t rest fin errs hg hr ht _ _ hst hfuel
    obtain ⟨g, rfl⟩ : ∃ g', g = g' + 1 := ⟨g - 1, by omega⟩
    refine ⟨[], rfl, ?_⟩
    rw [unparseL_nil, List.nil_append, stops_run (hst (by intro n h; cases h)), listEnd_eq (list := .mk t []) hr ht]
    rfl
  | cons n l ih =>
    intro g result t rest fin errs hg hr ht hall hrule hst hfuel
    obtain ⟨hnt, hns⟩ := hall n (by simp)
    have hvs : Value n.kids ∧ TreeShapes n.kids := by
      obtain ⟨u, k⟩ := n
      unfold TreeShape at hns
      rw [show u.ty = .COMPONENT_VALUE from hnt] at hns
      exact hns
    have htoks : unparseL (n :: l) ++ rest = unparseL n.kids ++ (valueEnd n.kids ++ (unparseL l ++ rest)) := by
      rw [unparseL_cons, unparse_value hnt]
      unfold extraSpace
      rw [if_neg (by rw [hnt]; simp)]
      simp
    have hst1 : ∀ k', stripL k' = stripL n.kids → strip (.mk t k') = strip n := by
      intro k' hk
      obtain ⟨u, k⟩ := n
      exact strip_group (ht.trans hnt.symm) (.inr ht) hk
    rw [htoks] at hfuel ⊢
    obtain ⟨k', h1, h2, h3⟩ := value_run hcore n.kids g ⟨false, false⟩ result t (unparseL l ++ rest) fin errs hg
      hr ht hvs.1 hvs.2 rfl hfuel
    cases he : endsRule (types n.kids) with
    | true =>
      have hl : l = [] := Classical.byContradiction (fun h => by
        have := hrule [] n l rfl h
        rw [he] at this; cases this)
      subst hl
      refine ⟨[.mk t k'], by rw [stripL_cons, stripL_cons, hst1 k' h1], ?_⟩
      rw [h2 (.inl he), unparseL_nil]; rfl
    | false =>
      obtain ⟨g', t', hg1, hg2, ht', hg3⟩ := h3 he (.inl rfl)
      obtain ⟨l', h4, h5⟩ := ih g' (.mk result.tok (result.kids ++ [.mk t k'])) t' rest fin errs (by omega) hr ht'
        (fun m hm => hall m (List.mem_cons_of_mem _ hm))
        (fun pre m post hl hp => hrule (n :: pre) m post (by rw [hl]; rfl) hp)
        (fun h => hst (fun m hm => by
          cases l with
          | nil => injection hm with hm; subst hm; exact he
          | cons a l => exact h m hm)) hg2
      refine ⟨.mk t k' :: l', by rw [stripL_cons, hst1 k' h1, h4, ← stripL_cons], ?_⟩
      rw [hg3, h5, mk_tok, mk_kids]
      simp

/-- The children of a block or of a function, as a list of values. -/
theorem list_run {f : Nat} (hcore : ∀ g, g < f → Core g) (k : List Nd) (g : Nat) (rest : List Tok) (fin : Pos)
    (errs : List (Err × Pos)) (hg : g ≤ f + 1) (hk : k = [] ∨ Value k ∨ Spec.Values k) (hs : TreeShapes k)
    (hst : Stops ⟨false, false⟩ rest)
    (hfuel : 5 * (unparseL k ++ ((if (types k).head? = some .COMPONENT_VALUE then [] else valueEnd k) ++
      rest)).length + 3 ≤ g) :
    ∃ v, componentValueList g ⟨false, false⟩ ⟨unparseL k ++ ((if (types k).head? = some .COMPONENT_VALUE then []
      else valueEnd k) ++ rest), fin, errs⟩ = .ok v ⟨rest, fin, errs⟩ ∧
      stripL v.kids = stripL k ∧ (v.ty = .LIST ∨ v.ty = .COMPONENT_VALUE) := by
  obtain ⟨g, rfl⟩ : ∃ g', g = g' + 1 := ⟨g - 1, by omega⟩
  -- as a list of values
  obtain ⟨l, hl1, hl2, hl3, hl4⟩ : ∃ l : List Nd, unparseL l = unparseL k ++
      (if (types k).head? = some .COMPONENT_VALUE then [] else valueEnd k) ∧
      (∀ n ∈ l, n.ty = .COMPONENT_VALUE ∧ TreeShape n) ∧
      (∀ pre n post, l = pre ++ n :: post → post ≠ [] → endsRule (types n.kids) = false) ∧
      (∀ l' t, t.ty = .LIST → stripL l' = stripL l → stripL (finish t l').kids = stripL k ∧
        ((finish t l').ty = .LIST ∨ (finish t l').ty = .COMPONENT_VALUE)) := by
    rcases hk with h | h | h
    · subst h
      refine ⟨[], ?_, fun n hn => (by cases hn), fun pre n post h => ?_, ?_⟩
      · rw [if_neg (by simp [types]), unparseL_nil]
        unfold valueEnd
        rw [if_pos (.inl rfl)]; rfl
      · simp at h
      · intro l' t ht hl'
        rw [stripL_nil, stripL_nil_iff] at hl'
        subst hl'
        exact ⟨rfl, .inl ht⟩
    · refine ⟨[.mk (plainTok .COMPONENT_VALUE) k], ?_, ?_, ?_, ?_⟩
      · rw [unparseL_cons, unparseL_nil, unparse_value rfl]
        unfold extraSpace
        rw [if_neg (show ¬ ((Nd.mk (plainTok .COMPONENT_VALUE) k).ty = .EXCLAMATION ∧ _) from
          (by intro h; cases h.1)), if_neg]
        · simp [Nd.kids]
        · intro h'
          cases k with
          | nil => cases h'
          | cons c k =>
            injection h' with h'
            have := (h.2.1 c (by simp)).2.2.1
            exact this h'
      · intro n hn
        rw [List.mem_singleton.1 hn]
        refine ⟨rfl, ?_⟩
        unfold TreeShape
        exact ⟨h, hs⟩
      · intro pre n post hl hp
        cases pre with
        | nil =>
          injection hl with _ hl
          exact absurd hl.symm hp
        | cons a pre => simp at hl
      · intro l' t ht hl'
        have hlen := stripL_length hl'
        match l', hlen with
        | [x], _ =>
          rw [stripL_cons, stripL_cons] at hl'
          injection hl' with hx _
          have hxt := ty_of_strip hx
          have := kids_of_strip hx
          exact ⟨this, .inr hxt⟩
    · refine ⟨k, ?_, fun n hn => ⟨h.2.1 n hn, shapeL_iff.1 hs n hn⟩, h.2.2, ?_⟩
      · rw [if_pos, List.append_nil]
        cases k with
        | nil => exact absurd h.1 (by simp)
        | cons c k => rw [types_cons, h.2.1 c (by simp)]; rfl
      · intro l' t ht hl'
        have hlen := stripL_length hl'
        have h2 := h.1
        match l' with
        | [] => simp at hlen; omega
        | [x] => simp at hlen; omega
        | x :: y :: l' => exact ⟨hl', .inl ht⟩
  rw [← List.append_assoc, ← hl1] at hfuel ⊢
  unfold componentValueList
  have hlast : ∀ (s : St) (m : Tok → M Nd), (last >>= m) s = m s.last s := fun _ _ => rfl
  rw [hlast]
  obtain ⟨l', h1, h2⟩ := values_run hcore l g
    (newNode .LIST (St.last ⟨unparseL l ++ rest, fin, errs⟩))
    { ty := .COMPONENT_VALUE, pos := (St.last ⟨unparseL l ++ rest, fin, errs⟩).pos } rest fin errs
    (by omega) rfl rfl hl2 hl3 (fun _ => hst) (by omega)
  refine ⟨_, h2, ?_⟩
  rw [show (newNode .LIST (St.last ⟨unparseL l ++ rest, fin, errs⟩)).kids = [] from rfl, List.nil_append]
  exact hl4 l' _ rfl h1

/-! ### Blocks -/

theorem shape_cv {n : Nd} (h : n.ty = .COMPONENT_VALUE) (hs : TreeShape n) : Value n.kids ∧ TreeShapes n.kids := by
  obtain ⟨u, k⟩ := n
  unfold TreeShape at hs
  rw [show u.ty = .COMPONENT_VALUE from h] at hs
  exact hs

theorem shape_list {n : Nd} (h : n.ty = .LIST) (hs : TreeShape n) :
    (n.kids = [] ∨ Spec.Values n.kids) ∧ TreeShapes n.kids := by
  obtain ⟨u, k⟩ := n
  unfold TreeShape at hs
  rw [show u.ty = .LIST from h] at hs
  exact hs

theorem last_eq {β : Type} (s : St) (m : Tok → M β) : (last >>= m) s = m s.last s := rfl

theorem group_run {f : Nat} (hcore : ∀ g, g < f → Core g) (n : Nd) (g : Nat) (rest : List Tok) (fin : Pos)
    (errs : List (Err × Pos)) (hg : g ≤ f + 1) (hn : n.ty = .LIST ∨ n.ty = .COMPONENT_VALUE) (hs : TreeShape n)
    (hfuel : 5 * (unparse n ++ (groupEnd n ++ rest)).length + 3 ≤ g) :
    ∃ n', componentValueList g ⟨false, false⟩ ⟨unparse n ++ (groupEnd n ++ rest), fin, errs⟩ =
      .ok n' ⟨groupEnd n ++ rest, fin, errs⟩ ∧ strip n' = strip n := by
  obtain ⟨g, rfl⟩ : ∃ g', g = g' + 1 := ⟨g - 1, by omega⟩
  have hcdo : groupEndsRule n = false → Stops ⟨false, false⟩ (groupEnd n ++ rest) := by
    intro h t r htr
    unfold groupEnd at htr
    rw [h, if_neg (by simp)] at htr
    injection htr with h1 _
    rw [← h1]; rfl
  unfold componentValueList
  rw [last_eq]
  rcases hn with hn | hn
  · -- LIST
    obtain ⟨hk, hsk⟩ := shape_list hn hs
    have hun := unparse_list hn
    rcases hk with hk | hk
    · rw [hk, if_pos rfl] at hun
      have hge : groupEndsRule n = false := by
        unfold groupEndsRule; rw [if_pos hn, hk]; rfl
      rw [hun] at hfuel ⊢
      obtain ⟨g, rfl⟩ : ∃ g', g = g' + 1 := ⟨g - 1, by omega⟩
      obtain ⟨g, rfl⟩ : ∃ g', g = g' + 1 := ⟨g - 1, by
        simp only [List.length_append, List.length_cons, List.length_nil] at hfuel; omega⟩
      show ∃ n', cvLoop (g + 1 + 1) ⟨false, false⟩ (newNode .LIST (plainTok .SEMICOLON))
        (newNode .COMPONENT_VALUE (plainTok .SEMICOLON))
        ⟨plainTok .SEMICOLON :: (groupEnd n ++ rest), fin, errs⟩ = _ ∧ _
      have hcl : supportsChildren (newNode .COMPONENT_VALUE (plainTok .SEMICOLON)).ty = true := rfl
      have hcl2 : supportsChildren (Nd.mk (newNode .COMPONENT_VALUE (plainTok .SEMICOLON)).tok []).ty = true := rfl
      refine ⟨newNode .LIST (plainTok .SEMICOLON), ?_, ?_⟩
      · conv => lhs; unfold cvLoop
        rw [last_run, if_neg (show ¬ stops ⟨false, false⟩ (plainTok .SEMICOLON).ty = true by simp [stops, plainTok]),
          if_neg (show ¬ (plainTok .SEMICOLON).ty = .AT_KEYWORD by simp [plainTok]),
          if_pos (show (plainTok .SEMICOLON).ty = .SEMICOLON from rfl), next_run,
          val_run (v := Nd.mk (newNode .COMPONENT_VALUE (plainTok .SEMICOLON)).tok []) _ (dropFirsts_eq hcl),
          val_run (v := Nd.mk (newNode .COMPONENT_VALUE (plainTok .SEMICOLON)).tok []) _ (dropLasts_eq (n := Nd.mk (newNode .COMPONENT_VALUE (plainTok .SEMICOLON)).tok []) hcl2),
          val_run (v := false) _ (endsVariable_eq (n := Nd.mk (newNode .COMPONENT_VALUE (plainTok .SEMICOLON)).tok []) hcl2), if_neg (by simp),
          val_run (v := true) _ (isEmpty_ok (n := Nd.mk (newNode .COMPONENT_VALUE (plainTok .SEMICOLON)).tok []) hcl2), if_pos rfl, stops_run (hcdo hge),
          listEnd_eq rfl rfl]
        rfl
      · obtain ⟨t, k⟩ := n
        have hk : k = [] := hk
        subst hk
        exact strip_group hn.symm (.inl rfl) rfl
    · have hne : n.kids ≠ [] := by intro h; rw [h] at hk; exact absurd hk.1 (by simp)
      rw [if_neg hne] at hun
      rw [hun] at hfuel ⊢
      obtain ⟨l', h1, h2⟩ := values_run hcore n.kids g
        (newNode .LIST (St.last ⟨unparseL n.kids ++ (groupEnd n ++ rest), fin, errs⟩))
        { ty := .COMPONENT_VALUE, pos := (St.last ⟨unparseL n.kids ++ (groupEnd n ++ rest), fin, errs⟩).pos }
        (groupEnd n ++ rest) fin errs (by omega) rfl rfl
        (fun m hm => ⟨hk.2.1 m hm, shapeL_iff.1 hsk m hm⟩) hk.2.2 (fun h => hcdo (by
          unfold groupEndsRule
          rw [if_pos hn]
          cases hl : n.kids.getLast? with
          | none => rfl
          | some c => exact h c hl)) (by omega)
      refine ⟨_, h2, ?_⟩
      rw [show (newNode .LIST (St.last ⟨unparseL n.kids ++ (groupEnd n ++ rest), fin, errs⟩)).kids = [] from rfl,
        List.nil_append]
      have hlen := stripL_length h1
      have hk2 := hk.1
      match l' with
      | [] => simp at hlen; omega
      | [x] => simp at hlen; omega
      | x :: y :: l' =>
        obtain ⟨t, k⟩ := n
        exact strip_group hn.symm (.inl rfl) h1
  · have hun : unparse n = unparseL [n] := by
      rw [unparseL_cons, unparseL_nil]
      unfold extraSpace
      rw [if_neg (by rw [hn]; simp)]
      simp
    rw [hun] at hfuel ⊢
    obtain ⟨l', h1, h2⟩ := values_run hcore [n] g
        (newNode .LIST (St.last ⟨unparseL [n] ++ (groupEnd n ++ rest), fin, errs⟩))
        { ty := .COMPONENT_VALUE, pos := (St.last ⟨unparseL [n] ++ (groupEnd n ++ rest), fin, errs⟩).pos }
        (groupEnd n ++ rest) fin errs (by omega) rfl rfl
        (fun m hm => by rw [List.mem_singleton.1 hm]; exact ⟨hn, hs⟩)
        (fun pre m post hl hp => by
          cases pre with
          | nil =>
            injection hl with _ hl
            exact absurd hl.symm hp
          | cons a pre => simp at hl) (fun h => hcdo (by
          unfold groupEndsRule
          rw [if_neg (by rw [hn]; simp)]
          exact h n rfl)) (by omega)
    refine ⟨_, h2, ?_⟩
    rw [show (newNode .LIST (St.last ⟨unparseL [n] ++ (groupEnd n ++ rest), fin, errs⟩)).kids = [] from rfl,
        List.nil_append]
    have hlen := stripL_length h1
    match l', hlen with
    | [x], _ =>
      rw [stripL_cons, stripL_cons] at h1
      injection h1

/-- The first token of a child of a `{ }` block. -/
theorem group_head {n : Nd} (hn : n.ty = .LIST ∨ n.ty = .COMPONENT_VALUE) (hs : TreeShape n) :
    ∃ t r, unparse n = t :: r ∧ t.ty ≠ .WHITESPACE ∧ (isPart t.ty ∨ t.ty = .SEMICOLON) := by
  have hv : ∀ n : Nd, n.ty = .COMPONENT_VALUE → TreeShape n →
      ∃ t r, unparse n = t :: r ∧ t.ty ≠ .WHITESPACE ∧ (isPart t.ty ∨ t.ty = .SEMICOLON) := by
    intro n hn hs
    obtain ⟨hv, _⟩ := shape_cv hn hs
    rw [unparse_value hn]
    cases hk : n.kids with
    | nil => exact absurd hk hv.1
    | cons c k =>
      have hp := hv.2.1 c (by rw [hk]; simp)
      obtain ⟨r, hr⟩ := unparse_part hp
      refine ⟨c.tok, _, by rw [unparseL_cons, hr]; rfl, ?_, .inl hp⟩
      have := hv.2.2.1
      rw [hk] at this
      intro h
      exact this (by rw [types_cons]; simp; exact h)
  rcases hn with hn | hn
  · obtain ⟨hk, hsk⟩ := shape_list hn hs
    rw [unparse_list hn]
    rcases hk with hk | hk
    · rw [if_pos hk]
      exact ⟨_, _, rfl, by simp [plainTok], .inr rfl⟩
    · cases hl : n.kids with
      | nil => rw [hl] at hk; exact absurd hk.1 (by simp)
      | cons c l =>
        rw [if_neg (by simp), unparseL_cons]
        obtain ⟨t, r, h1, h2⟩ := hv c (hk.2.1 c (by rw [hl]; simp)) (shapeL_iff.1 hsk c (by rw [hl]; simp))
        exact ⟨t, _, by rw [h1]; rfl, h2⟩
  · exact hv n hn hs

theorem blockLoop_run {f : Nat} (hcore : ∀ g, g < f → Core g) : ∀ (k : List Nd) (g : Nat) (b : Nd)
    (c : Tok) (rest : List Tok) (fin : Pos) (errs : List (Err × Pos)), g ≤ f + 2 → k ≠ [] →
    c.ty = .CLOSE_CURLYBRACKET → supportsChildren b.ty = true →
    (∀ n ∈ k, (n.ty = .LIST ∨ n.ty = .COMPONENT_VALUE) ∧ TreeShape n) →
    5 * (unparseG k ++ c :: rest).length + 4 ≤ g →
    ∃ k', blockLoop g b ⟨unparseG k ++ c :: rest, fin, errs⟩ = .ok (.mk b.tok (b.kids ++ k')) ⟨c :: rest, fin, errs⟩ ∧
      stripL k' = stripL k := by
  intro k
  induction k with
  | nil => intro _ _ _ _ _ _ _ h; exact absurd rfl h
  | cons n k ih =>
    intro g b c rest fin errs hg _ hc hb hall hfuel
    obtain ⟨g, rfl⟩ : ∃ g', g = g' + 1 := ⟨g - 1, by omega⟩
    obtain ⟨hn, hs⟩ := hall n (by simp)
    have htoks : unparseG (n :: k) ++ c :: rest = unparse n ++ (groupEnd n ++ (unparseG k ++ c :: rest)) := by
      rw [unparseG_cons]; simp
    rw [htoks] at hfuel ⊢
    obtain ⟨n', h1, h2⟩ := group_run hcore n g (unparseG k ++ c :: rest) fin errs (by omega) hn hs (by omega)
    obtain ⟨t0, r0, hr0, _⟩ := group_head hn hs
    have hgn : n'.ty = .LIST ∨ n'.ty = .COMPONENT_VALUE := by rw [ty_of_strip h2]; exact hn
    unfold blockLoop
    rw [bind_run h1, val_run _ (addChild_ok hb), push_group hgn]
    -- the first token of what follows
    obtain ⟨t, r, htr, htk⟩ : ∃ t r, unparseG k ++ c :: rest = t :: r ∧
        (k = [] ∧ t = c ∨ k ≠ [] ∧ t.ty ≠ .WHITESPACE ∧ (isPart t.ty ∨ t.ty = .SEMICOLON)) := by
      cases k with
      | nil => exact ⟨c, rest, by rw [unparseG_nil]; rfl, .inl ⟨rfl, rfl⟩⟩
      | cons m k =>
        obtain ⟨hm, hsm⟩ := hall m (by simp)
        obtain ⟨t, r, h3, h4⟩ := group_head hm hsm
        exact ⟨t, _, by rw [unparseG_cons, h3]; rfl, .inr ⟨by simp, h4⟩⟩
    have hbet : betweenLists b.tok ⟨groupEnd n ++ (unparseG k ++ c :: rest), fin, errs⟩ =
        .ok () ⟨unparseG k ++ c :: rest, fin, errs⟩ := by
      unfold groupEnd
      cases hge : groupEndsRule n with
      | false =>
        rw [if_neg (by simp)]
        rfl
      | true =>
        rw [if_pos rfl, List.nil_append, htr]
        unfold betweenLists
        have : t.ty ∉ [NT.WHITESPACE, .CDO, .CDC, .CLOSE_PARENTHESIS, .CLOSE_SQUAREBRACKET] := by
          rcases htk with ⟨_, h⟩ | ⟨_, h3, h4⟩
          · rw [h, hc]; simp
          · rcases h4 with h4 | h4
            · revert h3 h4
              unfold isPart
              cases t.ty <;> simp [notInTrees]
            · rw [h4]; simp
        simp only [List.mem_cons, List.not_mem_nil, or_false, not_or] at this
        rw [last_run, if_neg (by simp [this]), if_neg (by simp [this])]
        rfl
    rw [mk_tok, bind_run hbet, htr, last_run]
    cases k with
    | nil =>
      rcases htk with ⟨_, h⟩ | ⟨h, _⟩
      · subst h
        rw [if_pos (.inl hc)]
        rw [unparseG_nil, List.nil_append] at htr
        rw [← htr]
        exact ⟨[n'], rfl, by rw [stripL_cons, stripL_cons, h2]⟩
      · exact absurd rfl h
    | cons m k =>
      rcases htk with ⟨h, _⟩ | ⟨_, h3, h4⟩
      · cases h
      · rw [if_neg, ← htr]
        · have hl : (unparseG (m :: k) ++ c :: rest).length + 1 ≤
              (unparse n ++ (groupEnd n ++ (unparseG (m :: k) ++ c :: rest))).length := by
            rw [hr0]
            simp only [List.length_append, List.length_cons]
            omega
          obtain ⟨k', h5, h6⟩ := ih g (.mk b.tok (b.kids ++ [n'])) c rest fin errs (by omega) (by simp) hc hb
            (fun x hx => hall x (List.mem_cons_of_mem _ hx)) (by omega)
          refine ⟨n' :: k', ?_, by rw [stripL_cons, h2, h6, ← stripL_cons]⟩
          rw [h5, mk_tok, mk_kids]
          simp
        · rcases h4 with h4 | h4
          · revert h4
            unfold isPart
            cases t.ty <;> simp [notInTrees]
          · rw [h4]; simp

theorem shape_curly {n : Nd} (h : n.ty = .OPEN_CURLYBRACKET) (hs : TreeShape n) :
    n.kids ≠ [] ∧ ∀ m ∈ n.kids, (m.ty = .LIST ∨ m.ty = .COMPONENT_VALUE) ∧ TreeShape m := by
  obtain ⟨u, k⟩ := n
  unfold TreeShape at hs
  rw [show u.ty = .OPEN_CURLYBRACKET from h] at hs
  exact ⟨hs.1, fun m hm => ⟨hs.2.1 m hm, shapeL_iff.1 hs.2.2 m hm⟩⟩

theorem shape_block {n : Nd} (h : n.ty = .OPEN_SQUAREBRACKET ∨ n.ty = .OPEN_PARENTHESIS ∨ n.ty = .FUNCTION ∨
    n.ty = .VARIABLE_FUNCTION) (hs : TreeShape n) :
    (n.kids = [] ∨ Value n.kids ∨ Spec.Values n.kids) ∧ TreeShapes n.kids := by
  obtain ⟨u, k⟩ := n
  unfold TreeShape at hs
  have h : u.ty = .OPEN_SQUAREBRACKET ∨ u.ty = .OPEN_PARENTHESIS ∨ u.ty = .FUNCTION ∨
    u.ty = .VARIABLE_FUNCTION := h
  rcases h with h | h | h | h <;> rw [h] at hs <;> exact hs

theorem shape_atk {n : Nd} (h : n.ty = .AT_KEYWORD) (hs : TreeShape n) : Value n.kids ∧ TreeShapes n.kids := by
  obtain ⟨u, k⟩ := n
  unfold TreeShape at hs
  rw [show u.ty = .AT_KEYWORD from h] at hs
  exact hs

theorem blockList_run {f : Nat} (hcore : ∀ g, g < f → Core g) (n : Nd) (g : Nat) (rest : List Tok) (fin : Pos)
    (errs : List (Err × Pos)) (hg : g ≤ f + 3) (hn : n.ty = .OPEN_CURLYBRACKET) (hs : TreeShape n)
    (hfuel : 5 * (unparse n ++ rest).length ≤ g) :
    ∃ n', blockList g ⟨unparse n ++ rest, fin, errs⟩ = .ok n' ⟨rest, fin, errs⟩ ∧ strip n' = strip n := by
  obtain ⟨hk, hall⟩ := shape_curly hn hs
  have htoks : unparse n ++ rest = n.tok :: (unparseG n.kids ++ plainTok .CLOSE_CURLYBRACKET :: rest) := by
    rw [unparse_curly hn]; simp
  rw [htoks, List.length_cons] at hfuel
  rw [htoks]
  obtain ⟨g, rfl⟩ : ∃ g', g = g' + 1 := ⟨g - 1, by omega⟩
  obtain ⟨k', h1, h2⟩ := blockLoop_run hcore n.kids g (.leaf n.tok) (plainTok .CLOSE_CURLYBRACKET) rest fin errs
    (by omega) hk rfl (by show supportsChildren n.ty = true; rw [hn]; rfl) hall (by omega)
  unfold blockList
  rw [last_run, next_run, bind_run h1]
  refine ⟨.mk n.tok k', rfl, ?_⟩
  obtain ⟨t, k⟩ := n
  exact strip_same h2

theorem block_run {f : Nat} (hcore : ∀ g, g < f → Core g) (n : Nd) (g : Nat) (rest : List Tok) (fin : Pos)
    (errs : List (Err × Pos)) (hg : g ≤ f + 2) (hn : n.ty = .OPEN_SQUAREBRACKET ∨ n.ty = .OPEN_PARENTHESIS ∨
      n.ty = .FUNCTION ∨ n.ty = .VARIABLE_FUNCTION) (hs : TreeShape n)
    (hfuel : 5 * (unparse n ++ rest).length ≤ g) :
    ∃ n', block g (closingOf n.ty) ⟨unparse n ++ rest, fin, errs⟩ = .ok n' ⟨rest, fin, errs⟩ ∧ strip n' = strip n := by
  obtain ⟨hk, hsk⟩ := shape_block hn hs
  have hcl : closingOf n.ty = .CLOSE_PARENTHESIS ∨ closingOf n.ty = .CLOSE_SQUAREBRACKET := by
    rcases hn with h | h | h | h <;> rw [h] <;> simp [closingOf]
  have hcn : supportsChildren (Nd.leaf n.tok).ty = true := by
    show supportsChildren n.ty = true
    rcases hn with h | h | h | h <;> rw [h] <;> rfl
  have htoks : unparse n ++ rest = n.tok :: (unparseL n.kids ++ ((if (types n.kids).head? = some .COMPONENT_VALUE
      then [] else valueEnd n.kids) ++ plainTok (closingOf n.ty) :: rest)) := by
    rw [unparse_block hn]; simp
  rw [htoks, List.length_cons] at hfuel
  rw [htoks]
  obtain ⟨g, rfl⟩ : ∃ g', g = g' + 1 := ⟨g - 1, by omega⟩
  obtain ⟨v, h1, h2, h3⟩ := list_run hcore n.kids g (plainTok (closingOf n.ty) :: rest) fin errs (by omega) hk hsk
    (by
      intro t r htr
      injection htr with ht _
      rw [← ht]
      show stops _ (closingOf n.ty) = true
      rcases hcl with h | h <;> rw [h] <;> rfl) (by omega)
  have hcv : supportsChildren v.ty = true := by rcases h3 with h | h <;> rw [h] <;> rfl
  unfold block
  rw [last_run, next_run, bind_run h1, val_run _ (takeOver_ok hcn hcv), bind_run (skipSpace_run (by
    show closingOf n.ty ≠ _; rcases hcl with h | h <;> rw [h] <;> simp))]
  have hclose : closeBlock n.tok (closingOf n.ty) ⟨plainTok (closingOf n.ty) :: rest, fin, errs⟩ =
      .ok () ⟨rest, fin, errs⟩ := by
    unfold closeBlock
    rw [last_run, if_pos (show (plainTok (closingOf n.ty)).ty = closingOf n.ty from rfl)]; rfl
  rw [bind_run hclose]
  refine ⟨.mk n.tok v.kids, rfl, ?_⟩
  obtain ⟨t, k⟩ := n
  exact strip_same h2

theorem atRule_run {f : Nat} (hcore : ∀ g, g < f → Core g) (n : Nd) (g : Nat) (rest : List Tok) (fin : Pos)
    (errs : List (Err × Pos)) (hg : g ≤ f + 2) (hn : n.ty = .AT_KEYWORD) (hs : TreeShape n)
    (hfuel : 5 * (unparse n ++ rest).length ≤ g) :
    ∃ n', atRule g ⟨unparse n ++ rest, fin, errs⟩ = .ok n' ⟨rest, fin, errs⟩ ∧ strip n' = strip n := by
  obtain ⟨hv, hsk⟩ := shape_atk hn hs
  have hcn : supportsChildren (Nd.leaf n.tok).ty = true := by
    show supportsChildren n.ty = true; rw [hn]; rfl
  have htoks : unparse n ++ rest = n.tok :: (unparseL n.kids ++ plainTok .SEMICOLON :: rest) := by
    rw [unparse_at hn]; simp
  rw [htoks, List.length_cons] at hfuel
  rw [htoks]
  obtain ⟨g, rfl⟩ : ∃ g', g = g' + 1 := ⟨g - 1, by omega⟩
  obtain ⟨g, rfl⟩ : ∃ g', g = g' + 1 := ⟨g - 1, by omega⟩
  have hl : ∃ t k', t.ty = .COMPONENT_VALUE ∧ stripL k' = stripL n.kids ∧
      componentValueList (g + 1) ⟨true, false⟩ ⟨unparseL n.kids ++ plainTok .SEMICOLON :: rest, fin, errs⟩ =
        .ok (.mk t k') ⟨plainTok .SEMICOLON :: rest, fin, errs⟩ := by
    obtain ⟨s0, hs0⟩ : ∃ s0 : St, s0 = ⟨unparseL n.kids ++ plainTok .SEMICOLON :: rest, fin, errs⟩ := ⟨_, rfl⟩
    obtain ⟨k', h1, h2, h3⟩ := parts_run hcore n.kids g ⟨true, false⟩ (newNode .LIST s0.last)
      (newNode .COMPONENT_VALUE s0.last) (plainTok .SEMICOLON :: rest) fin errs (by omega) hv.1 rfl
      (fun m hm => ⟨hv.2.1 m hm, shapeL_iff.1 hsk m hm⟩) hv.2.2.2.2 hv.2.2.1 (by omega)
      (fun _ => ⟨_, _, rfl, rfl⟩)
    rw [show (newNode .COMPONENT_VALUE s0.last).kids = [] from rfl, List.nil_append] at h2 h3
    have htt := types_of_strip h1
    have hne : k' ≠ [] := by intro h; rw [h] at htt; exact hv.1 (List.map_eq_nil_iff.1 htt.symm)
    refine ⟨(newNode .COMPONENT_VALUE s0.last).tok, k', rfl, h1, ?_⟩
    have hend : ∀ s, listEnd (newNode .LIST s0.last) (.mk (newNode .COMPONENT_VALUE s0.last).tok k') s =
        .ok (.mk (newNode .COMPONENT_VALUE s0.last).tok k') s := by
      intro s
      rw [listEnd_eq rfl rfl, mk_tok, mk_kids, lastValue_run hne (by rw [htt]; exact hv.2.2.1)
        (by rw [htt]; exact hv.2.2.2.1)]
      rfl
    unfold componentValueList
    rw [last_eq, ← hs0]
    rw [← hs0] at h2 h3
    cases he : endsRule (types n.kids) with
    | true => rw [h2 he]; exact hend _
    | false =>
      obtain ⟨g', hg1, hg2, hg3⟩ := h3 he
      obtain ⟨g', rfl⟩ : ∃ g'', g' = g'' + 1 := ⟨g' - 1, by omega⟩
      rw [hg3, stops_run]
      · exact hend _
      · intro t r htr
        injection htr with ht _
        rw [← ht]; rfl
  obtain ⟨t, k', ht, h1, h2⟩ := hl
  have htt := types_of_strip h1
  have hne : k' ≠ [] := by intro h; rw [h] at htt; exact hv.1 (List.map_eq_nil_iff.1 htt.symm)
  have hct : supportsChildren (Nd.mk t k').ty = true := by show supportsChildren t.ty = true; rw [ht]; rfl
  obtain ⟨l, hl⟩ := getLast_of_ne hne
  unfold atRule
  rw [last_run, next_run, bind_run h2, val_run (v := false) _ (by
    rw [isEmpty_ok hct, mk_kids]
    cases k' with
    | nil => exact absurd rfl hne
    | cons c k => rfl), if_neg (by simp), val_run _ (getLast_ok (c := l) hct hl)]
  have hend : atRuleEnd n.tok l ⟨plainTok .SEMICOLON :: rest, fin, errs⟩ = .ok () ⟨rest, fin, errs⟩ := by
    unfold atRuleEnd
    rw [last_run, if_pos (show (plainTok .SEMICOLON).ty = .SEMICOLON from rfl)]; rfl
  rw [bind_run hend, takeOver_ok hcn hct]
  refine ⟨.mk n.tok k', rfl, ?_⟩
  obtain ⟨t, k⟩ := n
  exact strip_same h1

theorem componentValue_run {f : Nat} (hcore : ∀ g, g < f → Core g) (n : Nd) (g : Nat) (rest : List Tok) (fin : Pos)
    (errs : List (Err × Pos)) (hg : g ≤ f + 2) (hs : TreeShape n) (hp : isPart n.ty)
    (h1 : n.ty ≠ .AT_KEYWORD) (h2 : n.ty ≠ .EXCLAMATION)
    (hfuel : 5 * (unparse n ++ rest).length + 1 ≤ g) :
    ∃ n', componentValue g ⟨unparse n ++ rest, fin, errs⟩ = .ok n' ⟨rest, fin, errs⟩ ∧ strip n' = strip n := by
  obtain ⟨g, rfl⟩ : ∃ g', g = g' + 1 := ⟨g - 1, by omega⟩
  obtain ⟨r, hr⟩ := unparse_part hp
  have hlast : (St.last ⟨unparse n ++ rest, fin, errs⟩) = n.tok := by rw [hr]; rfl
  unfold componentValue
  rw [last_eq, hlast]
  by_cases h3 : n.ty = .OPEN_CURLYBRACKET
  · rw [if_pos (show n.tok.ty = _ from h3)]
    exact blockList_run hcore n g rest fin errs (by omega) h3 hs (by omega)
  rw [if_neg (show ¬ n.tok.ty = _ from h3)]
  by_cases h4 : n.ty = .OPEN_SQUAREBRACKET
  · rw [if_pos (show n.tok.ty = _ from h4)]
    have := block_run hcore n g rest fin errs (by omega) (.inl h4) hs (by omega)
    rw [h4] at this
    exact this
  rw [if_neg (show ¬ n.tok.ty = _ from h4)]
  by_cases h5 : n.ty = .OPEN_PARENTHESIS ∨ n.ty = .FUNCTION ∨ n.ty = .VARIABLE_FUNCTION
  · rw [if_pos (show n.tok.ty = _ ∨ n.tok.ty = _ ∨ n.tok.ty = _ from h5)]
    have := block_run hcore n g rest fin errs (by omega) (.inr h5) hs (by omega)
    rw [show closingOf n.ty = .CLOSE_PARENTHESIS by rcases h5 with h | h | h <;> rw [h] <;> rfl] at this
    exact this
  rw [if_neg (show ¬ (n.tok.ty = _ ∨ n.tok.ty = _ ∨ n.tok.ty = _) from h5)]
  simp only [not_or] at h5
  obtain ⟨hu, hk⟩ := unparse_leaf hs hp h1 h2 h3 h4 h5.1 h5.2.1 h5.2.2
  rw [hu]
  refine ⟨.leaf n.tok, rfl, ?_⟩
  obtain ⟨t, k⟩ := n
  have hk : k = [] := hk
  subst hk
  rfl

theorem core (f : Nat) : Core f := by
  induction f using Nat.strongRecOn with
  | ind f ih =>
    exact ⟨fun n rest fin errs hs hp h1 h2 hf =>
        componentValue_run ih n f rest fin errs (by omega) hs hp h1 h2 hf,
      fun n rest fin errs hs hn hf => atRule_run ih n f rest fin errs (by omega) hn hs hf⟩

/-! ### The style sheet -/

theorem qualifiedRule_run (n : Nd) (g : Nat) (rest : List Tok) (fin : Pos) (errs : List (Err × Pos))
    (hs : SheetChild n) (hn : n.ty = .COMPONENT_VALUE)
    (hfuel : 5 * (unparseChild n ++ rest).length + 3 ≤ g) :
    ∃ n' sp, qualifiedRule g ⟨unparseChild n ++ rest, fin, errs⟩ = .ok n' ⟨sp ++ rest, fin, errs⟩ ∧
      strip n' = strip n ∧ (sp = [] ∨ sp = [plainTok .CDO]) := by
  obtain ⟨hsh, hc⟩ := hs
  obtain ⟨hv, hsk⟩ := shape_cv hn hsh
  have hlast : (types n.kids).getLast? = some .OPEN_CURLYBRACKET ∨ variableSet (types n.kids) = true := by
    rcases hc with h | h | h
    · rw [hn] at h; cases h
    · rw [hn] at h; cases h
    · exact h.2.2.2
  obtain ⟨g, rfl⟩ : ∃ g', g = g' + 1 := ⟨g - 1, by omega⟩
  obtain ⟨sp, hsp⟩ : ∃ sp, sp = (if n.ty = .COMPONENT_VALUE ∧ endsRule (types n.kids) = false ∧
    variableSet (types n.kids) = false then [plainTok .CDO] else []) := ⟨_, rfl⟩
  have htoks : unparseChild n ++ rest = unparseL n.kids ++ (valueEnd n.kids ++ (sp ++ rest)) := by
    unfold unparseChild
    rw [← hsp, unparse_value hn]
    simp
  rw [htoks] at hfuel ⊢
  obtain ⟨s0, hs0⟩ : ∃ s0 : St, s0 = ⟨unparseL n.kids ++ (valueEnd n.kids ++ (sp ++ rest)), fin, errs⟩ := ⟨_, rfl⟩
  have hfirst : isPart s0.last.ty := by
    rw [hs0]
    cases hk : n.kids with
    | nil => exact absurd hk hv.1
    | cons c k =>
      have hp := hv.2.1 c (by rw [hk]; simp)
      obtain ⟨r, hr⟩ := unparse_part hp
      rw [unparseL_cons, hr]
      exact hp
  obtain ⟨_, hn1, hn2⟩ := part_not_stop (fl := ⟨false, true⟩) hfirst
  have hl : ∃ t k', t.ty = .COMPONENT_VALUE ∧ stripL k' = stripL n.kids ∧
      componentValueList (g + 1) ⟨false, true⟩ s0 = .ok (.mk t k') ⟨sp ++ rest, fin, errs⟩ := by
    obtain ⟨k', h1, h2, h3⟩ := value_run (fun g _ => core g) n.kids g ⟨false, true⟩ (newNode .LIST s0.last)
      (newNode .COMPONENT_VALUE s0.last).tok (sp ++ rest) fin errs (Nat.le_refl g) rfl rfl hv hsk rfl (by omega)
    refine ⟨(newNode .COMPONENT_VALUE s0.last).tok, k', rfl, h1, ?_⟩
    unfold componentValueList
    rw [last_eq]
    by_cases hcase : endsRule (types n.kids) = true ∨ variableSet (types n.kids) = true
    · have := h2 (hcase.imp id (fun h => ⟨rfl, h⟩))
      rw [← hs0] at this
      exact this
    · have hcase := not_or.1 hcase
      have he : endsRule (types n.kids) = false := by simpa using hcase.1
      have hvs : variableSet (types n.kids) = false := by simpa using hcase.2
      obtain ⟨g', t', hg1, hg2, ht', hg3⟩ := h3 he (.inr hvs)
      rw [← hs0] at hg3
      obtain ⟨g', rfl⟩ : ∃ g'', g' = g'' + 1 := ⟨g' - 1, by omega⟩
      refine Eq.trans hg3 ?_
      rw [stops_run]
      · rw [listEnd_eq (list := .mk t' []) rfl ht']
        rfl
      · intro t r htr
        rw [hsp, if_pos ⟨hn, he, hvs⟩] at htr
        injection htr with ht _
        rw [← ht]; rfl
  rw [← hs0]
  obtain ⟨t, k', ht, h1, h2⟩ := hl
  have htt := types_of_strip h1
  have hne : k' ≠ [] := by intro h; rw [h] at htt; exact hv.1 (List.map_eq_nil_iff.1 htt.symm)
  have hct : supportsChildren (Nd.mk t k').ty = true := by show supportsChildren t.ty = true; rw [ht]; rfl
  obtain ⟨l, hl⟩ := getLast_of_ne hne
  unfold qualifiedRule
  rw [last_eq, if_neg hn2, if_neg hn1, bind_run h2, val_run (v := false) _ (by
    rw [isEmpty_ok hct, mk_kids]
    cases k' with
    | nil => exact absurd rfl hne
    | cons c k => rfl), if_neg (by simp), val_run _ (getLast_ok (c := l) hct hl),
    val_run (v := variableSet (types k')) _ (isVariableSet_eq false hct), if_neg]
  · refine ⟨.mk t k', sp, rfl, ?_, ?_⟩
    · obtain ⟨u, k⟩ := n
      exact strip_group (ht.trans hn.symm) (.inr ht) h1
    · rw [hsp]
      split
      · exact .inr rfl
      · exact .inl rfl
  · rw [htt]
    rintro ⟨h3, h4⟩
    rcases hlast with h | h
    · rw [← htt, types_last, hl] at h
      injection h with h
      exact h4 h
    · rw [h3] at h; cases h

theorem stylesheet_run : ∀ (l : List Nd) (g : Nat) (result : Nd) (fin : Pos) (errs : List (Err × Pos)),
    result.ty = .LIST → (∀ c ∈ l, SheetChild c) → 5 * (l.flatMap unparseChild).length + 5 ≤ g →
    ∃ l', stylesheetLoop g result ⟨l.flatMap unparseChild, fin, errs⟩ =
      .ok (.mk result.tok (result.kids ++ l')) ⟨[], fin, errs⟩ ∧ stripL l' = stripL l := by
  intro l
  induction l with
  | nil =>
    intro g result fin errs hr _ hg
    obtain ⟨g, rfl⟩ : ∃ g', g = g' + 1 := ⟨g - 1, by omega⟩
    refine ⟨[], ?_, rfl⟩
    unfold stylesheetLoop
    show (if NT.EOF_TOKEN = .EOF_TOKEN then _ else _ : M Nd) _ = _
    rw [if_pos rfl]
    obtain ⟨t, k⟩ := result
    simp [mk_tok, mk_kids]
    rfl
  | cons n l ih =>
    intro g result fin errs hr hall hg
    have hcr : supportsChildren result.ty = true := by rw [hr]; rfl
    obtain ⟨g, rfl⟩ : ∃ g', g = g' + 1 := ⟨g - 1, by omega⟩
    have hs := hall n (by simp)
    rw [List.flatMap_cons] at hg ⊢
    -- the rest of the children
    have cont : ∀ (g' : Nat) (n' : Nd), strip n' = strip n → n'.ty ≠ .EOF_TOKEN → n'.ty ≠ .WHITESPACE →
        5 * (l.flatMap unparseChild).length + 5 ≤ g' →
        ∃ l', (addChild result n' >>= fun r => stylesheetLoop g' r) ⟨l.flatMap unparseChild, fin, errs⟩ =
          .ok (.mk result.tok (result.kids ++ l')) ⟨[], fin, errs⟩ ∧ stripL l' = stripL (n :: l) := by
      intro g' n' hn' he hw hg'
      obtain ⟨l', h1, h2⟩ := ih g' (.mk result.tok (result.kids ++ [n'])) fin errs hr
        (fun c hc => hall c (List.mem_cons_of_mem _ hc)) hg'
      refine ⟨n' :: l', ?_, by rw [stripL_cons, hn', h2, ← stripL_cons]⟩
      rw [val_run _ (addChild_ok hcr), push_ne hw he, h1, mk_tok, mk_kids]
      simp
    rcases hs.2 with hc | hc | hc
    · -- a comment
      have hu : unparseChild n = [n.tok] ∧ n.kids = [] := by
        have := unparse_leaf hs.1 (by rw [hc]; simp [isPart, notInTrees]) (by rw [hc]; simp) (by rw [hc]; simp)
          (by rw [hc]; simp) (by rw [hc]; simp) (by rw [hc]; simp) (by rw [hc]; simp) (by rw [hc]; simp)
        refine ⟨?_, this.2⟩
        unfold unparseChild
        rw [this.1, if_neg (by rw [hc]; simp)]
        rfl
      rw [hu.1, List.singleton_append, List.length_cons] at hg
      rw [hu.1, List.singleton_append]
      have ht : n.tok.ty = .COMMENT := hc
      unfold stylesheetLoop
      rw [last_run, if_neg (by rw [ht]; simp), if_neg (by rw [ht]; simp), if_neg (by rw [ht]; simp [isClose]),
        if_pos ht]
      have := cont g (.leaf n.tok) (by
        obtain ⟨t, k⟩ := n
        rw [show k = [] from hu.2]; rfl) (show n.tok.ty ≠ _ by rw [ht]; simp) (show n.tok.ty ≠ _ by rw [ht]; simp)
        (by omega)
      rw [val_run _ (addChild_ok hcr)] at this ⊢
      rw [next_run]
      exact this
    · -- an @-rule
      have hu : unparseChild n = unparse n := by
        unfold unparseChild
        rw [if_neg (by rw [hc]; simp), List.append_nil]
      rw [hu] at hg ⊢
      have ht : n.tok.ty = .AT_KEYWORD := hc
      have hun := unparse_at hc
      have hl : (unparse n ++ l.flatMap unparseChild).length ≥ (l.flatMap unparseChild).length + 1 := by
        rw [hun]; simp only [List.length_append, List.length_cons]; omega
      have hlast : (St.last ⟨unparse n ++ l.flatMap unparseChild, fin, errs⟩) = n.tok := by rw [hun]; rfl
      obtain ⟨n', h1, h2⟩ := (core g).atr n (l.flatMap unparseChild) fin errs hs.1 hc (by omega)
      unfold stylesheetLoop
      rw [last_eq, hlast, if_neg (by rw [ht]; simp), if_neg (by rw [ht]; simp),
        if_neg (by rw [ht]; simp [isClose]), if_neg (by rw [ht]; simp), if_pos ht, bind_run h1]
      exact cont g n' h2 (by rw [ty_of_strip h2, hc]; simp) (by rw [ty_of_strip h2, hc]; simp) (by omega)
    · -- a rule or the definition of a variable
      obtain ⟨hv, _⟩ := shape_cv hc.1 hs.1
      have hfirst : ∃ t r, unparseChild n = t :: r ∧ isPart t.ty ∧ t.ty ≠ .WHITESPACE ∧ t.ty ≠ .COMMENT ∧
          t.ty ≠ .AT_KEYWORD := by
        unfold unparseChild
        rw [unparse_value hc.1]
        cases hk : n.kids with
        | nil => exact absurd hk hv.1
        | cons c k =>
          have hp := hv.2.1 c (by rw [hk]; simp)
          obtain ⟨r, hr⟩ := unparse_part hp
          have h1 := hv.2.2.1
          have h2 := hc.2.1
          have h3 := hc.2.2.1
          rw [hk, types_cons, List.head?_cons] at h1 h2 h3
          refine ⟨c.tok, _, by rw [unparseL_cons, hr]; rfl, hp, ?_, ?_, ?_⟩
          · intro h; exact h1 (by rw [show c.ty = _ from h])
          · intro h; exact h2 (by rw [show c.ty = _ from h])
          · intro h; exact h3 (by rw [show c.ty = _ from h])
      obtain ⟨t, r, htr, hp, hw, hcm, hka⟩ := hfirst
      have hl : (unparseChild n ++ l.flatMap unparseChild).length ≥ (l.flatMap unparseChild).length + 1 := by
        rw [htr]; simp only [List.length_append, List.length_cons]; omega
      obtain ⟨n', sp, h1, h2, hsp⟩ := qualifiedRule_run n g (l.flatMap unparseChild) fin errs hs hc.1 (by omega)
      have hlast : (St.last ⟨unparseChild n ++ l.flatMap unparseChild, fin, errs⟩) = t := by rw [htr]; rfl
      have hne : t.ty ≠ .EOF_TOKEN ∧ ¬ (t.ty = .CDO ∨ t.ty = .CDC ∨ t.ty = .WHITESPACE) ∧ isClose t.ty = false := by
        revert hp hw
        unfold isPart
        cases t.ty <;> simp [notInTrees, isClose]
      unfold stylesheetLoop
      rw [last_eq, hlast, if_neg hne.1, if_neg hne.2.1, if_neg (by rw [hne.2.2]; simp), if_neg hcm, if_neg hka,
        bind_run h1]
      have hty := ty_of_strip h2
      rcases hsp with hsp | hsp
      · subst hsp
        exact cont g n' h2 (by rw [hty, hc.1]; simp) (by rw [hty, hc.1]; simp) (by omega)
      · subst hsp
        obtain ⟨g, rfl⟩ : ∃ g', g = g' + 1 := ⟨g - 1, by omega⟩
        obtain ⟨l', h3, h4⟩ := cont g n' h2 (by rw [hty, hc.1]; simp) (by rw [hty, hc.1]; simp) (by omega)
        refine ⟨l', ?_, h4⟩
        rw [val_run _ (addChild_ok hcr)] at h3 ⊢
        rw [← h3]
        conv => lhs; unfold stylesheetLoop
        rfl

end Csspp.Parse
