import Verif.Lemmas.ParserTr

/-!
Every function of the parser returns, and relates the tokens read to the tree (`Tr`).
-/

namespace Csspp.Parse
open Csspp.Lex (Tok Pos)
open Csspp.Node (supportsChildren supportsString supportsInteger supportsDecimal supportsBoolean)

/-! ### The accessors -/

theorem guard_ok {α : Type} {n : Nd} {m : M α} (h : supportsChildren n.ty = true) : guard' n m = m := by
  unfold guard'; rw [if_pos h]

theorem isEmpty_ok {n : Nd} (h : supportsChildren n.ty = true) :
    isEmpty n = (pure n.kids.isEmpty : M Bool) := guard_ok h
theorem size_ok {n : Nd} (h : supportsChildren n.ty = true) :
    size n = (pure n.kids.length : M Nat) := guard_ok h
theorem addChild_ok {n c : Nd} (h : supportsChildren n.ty = true) :
    addChild n c = (pure (.mk n.tok (push n.kids c)) : M Nd) := guard_ok h
theorem getChild_ok {n : Nd} {i : Nat} {c : Nd} (h : supportsChildren n.ty = true)
    (hc : n.kids[i]? = some c) : getChild n i = (pure c : M Nd) := by
  unfold getChild; rw [guard_ok h, hc]
theorem getLast_ok {n : Nd} {c : Nd} (h : supportsChildren n.ty = true)
    (hc : n.kids.getLast? = some c) : getLast n = (pure c : M Nd) := by
  unfold getLast; rw [guard_ok h, hc]
theorem removeAt_ok {n : Nd} {i : Nat} (h : supportsChildren n.ty = true) (hi : i < n.kids.length) :
    removeAt n i = (pure (.mk n.tok (n.kids.eraseIdx i)) : M Nd) := by
  unfold removeAt; rw [guard_ok h, if_pos hi]
theorem takeOver_ok {n c : Nd} (h : supportsChildren n.ty = true) (hc : supportsChildren c.ty = true) :
    takeOver n c = (pure (.mk n.tok c.kids) : M Nd) := by
  unfold takeOver; rw [guard_ok h, guard_ok hc]

theorem getLast_of_ne {l : List Nd} (h : l ≠ []) : ∃ c, l.getLast? = some c :=
  ⟨l.getLast h, List.getLast?_eq_some_getLast h⟩

theorem get_of_lt {l : List Nd} {i : Nat} (h : i < l.length) : ∃ c, l[i]? = some c :=
  ⟨l[i], List.getElem?_eq_getElem h⟩

/-- An accessor that returns a value without a change of the state. -/
def Val {α : Type} (m : M α) (P : α → Prop) : Prop := ∃ v, m = (pure v : M α) ∧ P v

theorem Val.pure {α : Type} {v : α} {P : α → Prop} (h : P v) : Val (Pure.pure v : M α) P := ⟨v, rfl, h⟩

theorem Val.bind {α β : Type} {m : M α} {g : α → M β} {P : α → Prop} {Q : β → Prop} (h : Val m P)
    (hg : ∀ v, P v → Val (g v) Q) : Val (m >>= g) Q := by
  obtain ⟨v, rfl, hv⟩ := h
  obtain ⟨w, hw, hq⟩ := hg v hv
  exact ⟨w, hw, hq⟩

theorem Ok.value {α β : Type} {m : M α} {g : α → M β} {s : St} {P : α → Prop} {Q : β → St → Prop}
    (hm : Val m P) (h : ∀ v, P v → Ok (g v) s Q) : Ok (m >>= g) s Q := by
  obtain ⟨v, hv, hp⟩ := hm
  exact Ok.val hv (h v hp)

/-- A smaller list of children in the same node. -/
structure Trim (n m : Nd) : Prop where
  tok : m.tok = n.tok
  sub : Sub n.kids m.kids
  list : m.kids.Sublist n.kids

theorem Trim.refl (n : Nd) : Trim n n := ⟨rfl, .refl _, List.Sublist.refl _⟩
theorem Trim.trans {a b c : Nd} (h : Trim a b) (h' : Trim b c) : Trim a c :=
  ⟨h'.tok.trans h.tok, h.sub.trans h'.sub, h'.list.trans h.list⟩

theorem dropFirst_val {n : Nd} (h : supportsChildren n.ty = true) (hb : BareL n.kids) :
    Val (dropFirst n) (Trim n) := by
  unfold dropFirst
  refine Val.bind ⟨_, isEmpty_ok h, rfl⟩ ?_
  rintro _ rfl
  obtain ⟨t, k⟩ := n
  cases k with
  | nil => exact Val.pure (.refl _)
  | cons c k =>
    refine Val.bind ⟨_, getChild_ok (i := 0) (c := c) h rfl, rfl⟩ ?_
    rintro _ rfl
    split
    · rename_i hc
      refine ⟨_, removeAt_ok h (by simp [Nd.kids]), rfl, ?_, ?_⟩
      · refine ⟨by simp [Nd.kids], ?_⟩
        simp [Nd.kids, whitespace_text hc (hb _ List.mem_cons_self (.inl hc))]
      · simp [Nd.kids]
    · exact Val.pure (.refl _)

theorem dropLast_val {n : Nd} (h : supportsChildren n.ty = true) (hb : BareL n.kids) :
    Val (dropLast n) (Trim n) := by
  unfold dropLast
  refine Val.bind ⟨_, isEmpty_ok h, rfl⟩ ?_
  rintro _ rfl
  obtain ⟨t, k⟩ := n
  rcases snoc_cases k with rfl | ⟨k, c, rfl⟩
  · exact Val.pure (.refl _)
  · rw [show (Nd.mk t (k ++ [c])).kids.isEmpty = false by simp [Nd.kids]]
    refine Val.bind ⟨_, getLast_ok (c := c) h (by simp [Nd.kids]), rfl⟩ ?_
    rintro _ rfl
    split
    · rename_i hc
      refine ⟨_, removeAt_ok h (by simp [Nd.kids]), rfl, ?_, ?_⟩
      · have : (k ++ [c]).eraseIdx ((k ++ [c]).length - 1) = k := by
          rw [List.eraseIdx_append_of_length_le (by simp)]; simp
        show Sub (k ++ [c]) ((k ++ [c]).eraseIdx ((k ++ [c]).length - 1))
        rw [this]
        exact Sub.init (hb c (by simp [Nd.kids])) hc
      · exact List.eraseIdx_sublist _ _
    · exact Val.pure (.refl _)

theorem dropFirsts_val {n : Nd} (h : supportsChildren n.ty = true) (hb : BareL n.kids) :
    Val (dropFirsts n) (Trim n) :=
  ⟨_, guard_ok h, rfl, Sub.dropLeft hb, List.dropWhile_sublist _⟩

theorem dropLasts_val {n : Nd} (h : supportsChildren n.ty = true) (hb : BareL n.kids) :
    Val (dropLasts n) (Trim n) := by
  refine ⟨_, guard_ok h, rfl, Sub.dropRight hb, ?_⟩
  have := (List.dropWhile_sublist (l := n.kids.reverse) (fun c : Nd => decide (c.ty = .WHITESPACE))).reverse
  rw [List.reverse_reverse] at this
  exact this

theorem isAt_val {n : Nd} {pos : Nat} {ty : NT} (h : supportsChildren n.ty = true) :
    Val (isAt n pos ty) (fun _ => True) := by
  unfold isAt
  refine Val.bind ⟨_, size_ok h, rfl⟩ ?_
  rintro _ rfl
  split
  · rename_i hp
    obtain ⟨c, hc⟩ := get_of_lt hp
    exact Val.bind ⟨_, getChild_ok h hc, rfl⟩ (fun _ _ => Val.pure trivial)
  · exact Val.pure trivial

theorem isVariableSet_val {n : Nd} {b : Bool} (h : supportsChildren n.ty = true) :
    Val (isVariableSet n b) (fun _ => True) := by
  unfold isVariableSet
  refine Val.bind ⟨_, size_ok h, rfl⟩ ?_
  rintro _ rfl
  split
  · exact Val.pure trivial
  · rename_i hs
    obtain ⟨c0, h0⟩ := get_of_lt (l := n.kids) (i := 0) (by omega)
    obtain ⟨c1, h1⟩ := get_of_lt (l := n.kids) (i := 1) (by omega)
    refine Val.bind ⟨_, getChild_ok h h0, rfl⟩ ?_
    rintro _ rfl
    split
    · exact Val.pure trivial
    · refine Val.bind ⟨_, getChild_ok h h1, rfl⟩ ?_
      rintro _ rfl
      obtain ⟨c2, h2⟩ := get_of_lt (l := n.kids) (i := if c1.ty = .WHITESPACE then 2 else 1)
        (by split <;> omega)
      refine Val.bind ⟨_, getChild_ok h h2, rfl⟩ ?_
      rintro _ rfl
      split
      · exact Val.pure trivial
      · split
        · exact Val.pure trivial
        · refine Val.bind (P := fun _ => True) ?_ (fun _ _ => isAt_val h)
          unfold skipAt
          exact Val.bind (isAt_val h) (fun _ _ => by split <;> exact Val.pure trivial)

theorem isNestedDeclaration_val {n : Nd} (h : supportsChildren n.ty = true) :
    Val (isNestedDeclaration n) (fun _ => True) := by
  unfold isNestedDeclaration
  refine Val.bind ⟨_, size_ok h, rfl⟩ ?_
  rintro _ rfl
  split
  · exact Val.pure trivial
  · rename_i hs
    obtain ⟨c0, h0⟩ := get_of_lt (l := n.kids) (i := 0) (by omega)
    obtain ⟨c1, h1⟩ := get_of_lt (l := n.kids) (i := 1) (by omega)
    obtain ⟨l, hl⟩ := getLast_of_ne (l := n.kids) (by intro hh; rw [hh] at hs; simp at hs)
    refine Val.bind ⟨_, getChild_ok h h0, rfl⟩ ?_
    rintro _ rfl
    split
    · exact Val.pure trivial
    refine Val.bind ⟨_, getLast_ok h hl, rfl⟩ ?_
    rintro _ rfl
    split
    · exact Val.pure trivial
    refine Val.bind ⟨_, getChild_ok h h1, rfl⟩ ?_
    rintro _ rfl
    obtain ⟨c2, h2⟩ := get_of_lt (l := n.kids) (i := if c1.ty = .WHITESPACE then 2 else 1)
      (by split <;> omega)
    generalize (if c1.ty = NT.WHITESPACE then 2 else 1 : Nat) = p at h2 ⊢
    refine Val.bind ⟨_, getChild_ok h h2, rfl⟩ ?_
    rintro _ rfl
    split
    · exact Val.pure trivial
    dsimp only
    split
    · exact Val.pure trivial
    rename_i hp
    obtain ⟨c3, h3⟩ := get_of_lt (l := n.kids) (Nat.lt_of_not_le hp)
    refine Val.bind ⟨_, getChild_ok h h3, rfl⟩ ?_
    rintro _ rfl
    split
    · exact Val.pure trivial
    · generalize (if c3.ty = NT.FUNCTION then p + 1 + 1 else p + 1 : Nat) = q
      split <;> exact Val.pure trivial

theorem isBlockValue_val {n : Nd} (h : supportsChildren n.ty = true) :
    Val (isBlockValue n) (fun _ => True) := by
  unfold isBlockValue
  refine Val.bind (isVariableSet_val h) (fun v _ => ?_)
  split
  · exact Val.pure trivial
  · exact isNestedDeclaration_val h

theorem endsVariable_val {fl : Flags} {n : Nd} (h : supportsChildren n.ty = true) :
    Val (endsVariable fl n) (fun _ => True) := by
  unfold endsVariable
  split
  · exact isVariableSet_val h
  · exact Val.pure trivial

theorem beforeBlock_val {ty : NT} {n : Nd} (h : supportsChildren n.ty = true) (hb : BareL n.kids) :
    Val (beforeBlock ty n) (Trim n) := by
  unfold beforeBlock
  split
  · exact dropLast_val h hb
  · exact Val.pure (.refl _)

/-! ### Skipping spaces -/

theorem sym_ty (t : Tok) : (sym t).ty = t.ty := rfl

theorem not_kept {t : Tok} (h : t.ty = .WHITESPACE ∨ t.ty = .SEMICOLON ∨ t.ty = .CDO ∨ t.ty = .CDC ∨
    t.ty = .EOF_TOKEN) : kept (sym t) = false := by
  unfold kept
  rw [sym_ty]
  rcases h with h | h | h | h | h <;> rw [h]

theorem skipSpace_ok (s : St) (a : List Nd) :
    Ok skipSpace s (fun _ s' => Tr s a a s' ∧ (s' = s ∨ s'.toks.length < s.toks.length)) := by
  unfold skipSpace
  refine Ok.last ?_
  split
  · rename_i h
    exact ⟨_, _, rfl, Tr.skip (not_kept (.inl h)),
      .inr (by have := adv_len (s := s) (by rw [h]; simp); show s.adv.toks.length < _; omega)⟩
  · exact Ok.pure ⟨.refl _ _, .inl rfl⟩

theorem skipSpaces_ok (a : List Nd) : ∀ (f : Nat) (s : St), s.toks.length < f →
    Ok (skipSpaces f) s (fun _ s' => Tr s a a s') := by
  intro f
  induction f with
  | zero => intro s h; omega
  | succ f ih =>
    intro s hf
    unfold skipSpaces
    refine Ok.last ?_
    split
    · rename_i h
      refine Ok.next ?_
      have := adv_len (s := s) (by rw [h]; simp)
      exact (ih s.adv (by omega)).mono (fun _ _ h' => (Tr.skip (not_kept (.inl h))).trans h')
    · exact Ok.pure (.refl _ _)

/-! ### The end of a list -/

theorem mk_ty (t : Tok) (k : List Nd) : (Nd.mk t k).ty = t.ty := rfl
theorem mk_kids (t : Tok) (k : List Nd) : (Nd.mk t k).kids = k := rfl
theorem mk_tok (t : Tok) (k : List Nd) : (Nd.mk t k).tok = t := rfl

/-- The children of the LIST made by component_value_list(). -/
def Values (l : List Nd) : Prop := ∀ n ∈ l, n.ty = .COMPONENT_VALUE

theorem Trim.ty {n m : Nd} (h : Trim n m) : m.ty = n.ty := by unfold Nd.ty; rw [h.tok]

theorem push_group {l : List Nd} {c : Nd} (h : Group c) : push l c = l ++ [c] := by
  unfold push
  rw [if_pos]
  unfold Group at h
  rcases h with h | h <;> rw [h] <;> exact ⟨by simp, .inl (by simp)⟩

theorem push_ne {l : List Nd} {c : Nd} (h1 : c.ty ≠ .WHITESPACE) (h2 : c.ty ≠ .EOF_TOKEN) :
    push l c = l ++ [c] := by
  unfold push
  rw [if_pos ⟨h2, .inl h1⟩]

theorem listEnd_val {result list : Nd} (hr : result.ty = .LIST) (hl : list.ty = .COMPONENT_VALUE)
    (hv : Values result.kids) (hb : BareL list.kids) :
    Val (listEnd result list) (fun v => Sub (result.kids ++ list.kids) v.kids ∧ Group v) := by
  have hcl : supportsChildren list.ty = true := by rw [hl]; rfl
  have hcr : supportsChildren result.ty = true := by rw [hr]; rfl
  unfold listEnd
  refine Val.bind (dropFirst_val hcl hb) (fun l1 t1 => ?_)
  refine Val.bind (dropLast_val (n := l1) (by rw [t1.ty]; exact hcl) (hb.sub t1.list)) (fun l2 t2 => ?_)
  have ht := t1.trans t2
  have h2 : l2.ty = .COMPONENT_VALUE := by rw [ht.ty]; exact hl
  refine Val.bind ⟨_, isEmpty_ok (n := l2) (by rw [h2]; rfl), rfl⟩ ?_
  rintro _ rfl
  have : Val (addUnless l2.kids.isEmpty result l2) (fun r => r.ty = .LIST ∧ Values r.kids ∧
      Sub (result.kids ++ list.kids) r.kids) := by
    unfold addUnless
    have hs : Sub (result.kids ++ list.kids) (result.kids ++ l2.kids) := Sub.append (.refl _) ht.sub
    split
    · rename_i he
      rw [List.isEmpty_iff.1 he, List.append_nil] at hs
      exact Val.pure ⟨hr, hv, hs⟩
    · refine ⟨_, addChild_ok hcr, hr, ?_, ?_⟩
      · rw [mk_kids, push_group (.inr h2)]
        intro n hn
        rcases List.mem_append.1 hn with hn | hn
        · exact hv n hn
        · rw [List.mem_singleton.1 hn]; exact h2
      · rw [mk_kids, push_group (.inr h2)]
        exact hs.trans (Sub.append (.refl _) (Sub.group (.inr h2)))
  refine Val.bind this (fun r hr => ?_)
  obtain ⟨hr1, hr2, hr3⟩ := hr
  refine Val.bind ⟨_, size_ok (n := r) (by rw [hr1]; rfl), rfl⟩ ?_
  rintro _ rfl
  split
  · rename_i h1
    obtain ⟨x, hx⟩ := List.length_eq_one_iff.1 h1
    refine ⟨x, getLast_ok (by rw [hr1]; rfl) (by rw [hx]; rfl), ?_, ?_⟩
    · rw [hx] at hr3
      exact hr3.trans (Sub.ungroup (.inr (hr2 x (by rw [hx]; exact List.mem_singleton.2 rfl))))
    · exact .inr (hr2 x (by rw [hx]; exact List.mem_singleton.2 rfl))
  · exact Val.pure ⟨hr3, .inl hr1⟩

/-! ### The other parts -/

theorem wantSemicolon_ok {list : Nd} (h : supportsChildren list.ty = true) (hn : list.kids ≠ [])
    (s : St) (a : List Nd) : Ok (wantSemicolon list) s (fun _ s' => Tr s a a s') := by
  unfold wantSemicolon
  refine Ok.last ?_
  split
  · exact Ok.pure (.refl _ _)
  · obtain ⟨c, hc⟩ := get_of_lt (l := list.kids) (i := 0) (List.length_pos_iff.2 hn)
    exact Ok.val (getChild_ok h hc) ⟨_, _, rfl, Tr.error _ _⟩

theorem atRuleEnd_ok (at' : Tok) (l : Nd) (s : St) (a : List Nd) :
    Ok (atRuleEnd at' l) s (fun _ s' => Tr s a a s') := by
  unfold atRuleEnd
  refine Ok.last ?_
  split
  · rename_i h
    exact ⟨_, _, rfl, Tr.skip (not_kept (.inr (.inl h)))⟩
  · split
    · exact ⟨_, _, rfl, Tr.error _ _⟩
    · exact Ok.pure (.refl _ _)

theorem betweenLists_ok (b : Tok) (s : St) (a : List Nd) :
    Ok (betweenLists b) s (fun _ s' => Tr s a a s' ∧
      (stops ⟨false, false⟩ s.last.ty = true → s.last.ty ≠ .CLOSE_CURLYBRACKET →
        s.last.ty ≠ .EOF_TOKEN → s'.toks.length < s.toks.length) ∧
      (s.last.ty = .CLOSE_CURLYBRACKET ∨ s.last.ty = .EOF_TOKEN → s' = s)) := by
  unfold betweenLists
  refine Ok.last ?_
  split
  · rename_i h
    refine ⟨_, _, rfl, Tr.skip (not_kept (by rcases h with h | h | h <;> simp [h])), ?_, ?_⟩
    · intro _ _ he
      have := adv_len he
      show s.adv.toks.length < _
      omega
    · intro h'
      rcases h with h | h | h <;> rw [h] at h' <;> simp at h'
  · split
    · rename_i h
      refine Ok.report ⟨_, _, rfl, ?_, ?_, ?_⟩
      · exact Tr.drop .blockEnd b.pos
      · intro _ _ he
        have := adv_len he
        show s.adv.toks.length < _
        omega
      · intro h'
        rcases h with h | h <;> rw [h] at h' <;> simp at h'
    · rename_i h1 h2
      refine Ok.pure ⟨.refl _ _, ?_, fun _ => rfl⟩
      intro hs h3 h4
      exfalso
      revert hs h1 h2 h3 h4
      generalize s.last.ty = ty
      cases ty <;> simp [stops]

theorem closeBlock_ok {s s' : St} {k : List Nd} (hp : AllPlain s) (he : s.last.ty ≠ .EOF_TOKEN)
    (hx : s.last.ty ≠ .EXCLAMATION) (ht : Tr s.adv [] k s') {c : NT}
    (hc : closing s.last = [{ ty := c }]) (hcl : isClose c = true) :
    Ok (closeBlock s.last c) s' (fun _ s'' => Tr s [] [.mk s.last k] s'' ∧
      s''.toks.length ≤ s'.toks.length) := by
  unfold closeBlock
  refine Ok.last ?_
  split
  · rename_i h
    refine ⟨_, _, rfl, Tr.block hp he hx ht ?_ ?_, adv_le s'⟩
    · rw [hc]
      unfold sym
      rw [h]
      revert hcl
      cases c <;> simp [isClose, supportsString, supportsInteger, supportsDecimal, supportsBoolean]
    · rw [h]; intro h'; rw [h'] at hcl; cases hcl
  · refine ⟨_, _, rfl, Tr.prefixErr hp he hx (ht.trans (Tr.error _ _)) ?_, Nat.le_refl _⟩
    obtain ⟨_, e, _, h2, _⟩ := ht
    show s.errs.length < (_ :: s'.errs).length
    rw [h2]
    show s.errs.length < (_ :: (e ++ s.errs)).length
    simp; omega

theorem closeList_ok {s s' : St} {k : List Nd} (hp : AllPlain s) (he : s.last.ty = .OPEN_CURLYBRACKET)
    (ht : Tr s.adv [] k s') :
    Ok (closeList s.last) s' (fun _ s'' => Tr s [] [.mk s.last k] s'' ∧
      s''.toks.length ≤ s'.toks.length) := by
  have he1 : s.last.ty ≠ .EOF_TOKEN := by rw [he]; simp
  have hx : s.last.ty ≠ .EXCLAMATION := by rw [he]; simp
  unfold closeList
  refine Ok.last ?_
  split
  · refine Ok.report ⟨_, _, rfl, Tr.prefixErr hp he1 hx (ht.trans (Tr.drop .blockEnd s.last.pos)) ?_, adv_le s'⟩
    obtain ⟨_, e, _, h2, _⟩ := ht
    show s.errs.length < (_ :: s'.errs).length
    rw [h2]
    show s.errs.length < (_ :: (e ++ s.errs)).length
    simp; omega
  · rename_i h
    have h : s'.last.ty = .CLOSE_CURLYBRACKET := Classical.byContradiction h
    refine ⟨_, _, rfl, Tr.block hp he1 hx ht ?_ (by rw [h]; simp), adv_le s'⟩
    unfold closing sym
    rw [he, h]
    rfl

theorem exclamation_ok {s : St} {list : Nd} (he : s.last.ty = .EXCLAMATION)
    (hl : supportsChildren list.ty = true) (hb : BareL list.kids) :
    Ok (exclamation list) s (fun v s' => Tr s list.kids v.kids s' ∧ v.ty = list.ty ∧ BareL v.kids ∧
      s'.toks.length < s.toks.length) := by
  have h1 := adv_len (s := s) (by rw [he]; simp)
  unfold exclamation
  refine Ok.last (Ok.next ?_)
  refine Ok.bind (skipSpace_ok s.adv []) (fun _ s1 hs1 => ?_)
  obtain ⟨hs1, hs2⟩ := hs1
  have hlen := hs1.len
  refine Ok.last ?_
  split
  · rename_i hi
    refine Ok.value (dropLast_val hl hb) (fun l ht => ?_)
    have hl' : supportsChildren l.ty = true := by rw [ht.ty]; exact hl
    refine Ok.val (m := getString s1.last) (v := s1.last.str) (by unfold getString; rw [hi]; rfl) ?_
    refine Ok.val (m := setString (.leaf s.last) s1.last.str)
      (v := .mk { s.last with str := s1.last.str } []) ?_ ?_
    · unfold setString
      rw [show (Nd.leaf s.last).ty = .EXCLAMATION from he]
      rfl
    refine Ok.val (addChild_ok hl') (Ok.next ?_)
    refine Ok.bind (skipSpace_ok s1.adv (push l.kids (.mk { s.last with str := s1.last.str } [])))
      (fun _ s2 hs2 => ?_)
    have hlen2 := adv_len (s := s1) (by rw [hi]; simp)
    have hlen3 := hs2.1.len
    refine Ok.pure ⟨?_, ht.ty, ?_, by omega⟩
    · refine Tr.trans ?_ hs2.1
      rw [push_ne (by rw [mk_ty]; show s.last.ty ≠ _; rw [he]; simp)
        (by rw [mk_ty]; show s.last.ty ≠ _; rw [he]; simp)]
      refine Tr.subl ht.sub ?_
      have := Tr.frame l.kids (s := s) (s' := s1.adv) (a := [])
        (v := [.mk { s.last with str := s1.last.str } []]) ?_
      · rwa [List.append_nil] at this
      · obtain ⟨c, e, k1, k2, k3, k4, k5⟩ := hs1
        have hfr : front { s.last with str := s1.last.str } =
            [sym s.last, sym s1.last] := by
          unfold front sym
          rw [hi]
          show (match s.last.ty with | .LIST | .COMPONENT_VALUE | .EOF_TOKEN => _ | .DECLARATION => _ | .EXCLAMATION => _ | _ => _) = _
          rw [he]
          rfl
        have hcn : colon { s.last with str := s1.last.str } = [] := by
          unfold colon
          show (match s.last.ty with | .DECLARATION => _ | _ => _) = _
          rw [he]
        have hcg : closing { s.last with str := s1.last.str } = [] := by
          unfold closing
          show (match s.last.ty with
            | .OPEN_CURLYBRACKET => _ | .OPEN_SQUAREBRACKET => _
            | .OPEN_PARENTHESIS | .FUNCTION | .VARIABLE_FUNCTION => _ | _ => _) = _
          rw [he]
        refine ⟨s.last :: c ++ [s1.last], e, ?_, k2, k3, ?_, fun hh => ?_⟩
        · rw [toks_of_last (s := s) (by rw [he]; simp), k1, toks_of_last (s := s1) (by rw [hi]; simp)]
          simp
        · simp only [flatL_cons, flat_mk, hfr, flatL_nil, List.append_nil, List.nil_append,
            List.map_append, List.map_cons, List.map_nil, List.cons_append]
          exact (List.sublist_append_right (c.map sym) [sym s1.last]).cons_cons _
        · have hk := (k5 hh).1
          refine ⟨?_, ?_⟩
          rotate_left
          · rw [List.map_append, List.map_cons, List.map_cons, he, hi]
            have h1 : Nested [NT.EXCLAMATION] := .one rfl rfl
            have h2 : Nested [NT.IDENTIFIER] := .one rfl rfl
            exact (h1.append (k5 hh).2).append h2
          simp only [renderL_nil, keep_nil, List.nil_append] at hk
          simp only [renderL_cons, renderL_nil, render_mk, hfr, hcn, hcg, List.append_nil,
            List.nil_append, List.map_append, List.map_cons, List.map_nil, List.cons_append, keep_nil]
          rw [← List.singleton_append (l := [sym s1.last]), ← List.singleton_append (l := c.map sym ++ _),
            keep_append, keep_append, keep_append, ← hk]
          rfl
    · rw [mk_kids]
      refine BareL.push (hb.sub ht.list) ?_
      intro _
      rfl
  · refine Ok.report (Ok.pure ⟨?_, rfl, hb, ?_⟩)
    · have : Tr s list.kids list.kids (s.adv.err .exclamation s1.last.pos) := Tr.drop _ _
      obtain ⟨c, e, k1, k2, k3, k4, k5⟩ := hs1
      refine ⟨s.last :: c, (.exclamation, s1.last.pos) :: e, ?_, ?_, k3, ?_, fun h => nomatch h⟩
      · rw [toks_of_last (s := s) (by rw [he]; simp), k1]; rfl
      · show _ :: s1.errs = _
        rw [k2]; rfl
      · exact List.sublist_append_left _ _
    · show s1.toks.length < _
      omega

end Csspp.Parse
