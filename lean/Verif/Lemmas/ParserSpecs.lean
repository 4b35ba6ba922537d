import Verif.Lemmas.ParserRun

/-!
The mutually recursive functions of the parser: by induction on the fuel.
-/

namespace Csspp.Parse
open Csspp.Lex (Tok Pos)
open Csspp.Node (supportsChildren supportsString supportsInteger supportsDecimal supportsBoolean)

/-- What component_value_list() ensures, starting with the children `a`. -/
structure ListPost (fl : Flags) (s : St) (a : List Nd) (v : Nd) (s' : St) : Prop where
  tr : Tr s a v.kids s'
  group : Group v
  more : stops fl s.last.ty = false → s'.toks.length < s.toks.length
  same : stops fl s.last.ty = true → s' = s

/-- What the functions that return one node ensure. -/
structure NodePost (s : St) (v : Nd) (s' : St) : Prop where
  tr : Tr s [] [v] s'
  tok : v.tok = s.last
  more : s'.toks.length < s.toks.length
  leaf : supportsChildren v.ty = false → v.kids = []

structure Specs (f : Nat) : Prop where
  loop : ∀ fl result list s, AllPlain s → 5 * s.toks.length + 2 ≤ f → result.ty = .LIST →
    list.ty = .COMPONENT_VALUE → Values result.kids → BareL list.kids →
    Ok (cvLoop f fl result list) s (ListPost fl s (result.kids ++ list.kids))
  list : ∀ fl s, AllPlain s → 5 * s.toks.length + 3 ≤ f →
    Ok (componentValueList f fl) s (ListPost fl s [])
  atr : ∀ s, AllPlain s → 5 * s.toks.length ≤ f → s.last.ty = .AT_KEYWORD →
    Ok (atRule f) s (NodePost s)
  value : ∀ s, AllPlain s → 5 * s.toks.length + 1 ≤ f → s.last.ty ≠ .EOF_TOKEN →
    s.last.ty ≠ .EXCLAMATION → isClose s.last.ty = false → Ok (componentValue f) s (NodePost s)
  block : ∀ c s, AllPlain s → 5 * s.toks.length ≤ f → closing s.last = [{ ty := c }] →
    isClose c = true → s.last.ty ≠ .EOF_TOKEN → s.last.ty ≠ .EXCLAMATION →
    supportsChildren s.last.ty = true → Ok (block f c) s (NodePost s)
  bloop : ∀ b s, AllPlain s → 5 * s.toks.length + 4 ≤ f → supportsChildren b.ty = true →
    Ok (blockLoop f b) s (fun v s' => Tr s b.kids v.kids s' ∧ v.tok = b.tok)
  blist : ∀ s, AllPlain s → 5 * s.toks.length ≤ f → s.last.ty = .OPEN_CURLYBRACKET →
    Ok (blockList f) s (NodePost s)

theorem len_pos {s : St} (h : s.last.ty ≠ .EOF_TOKEN) : 0 < s.toks.length := by
  have := adv_len h; omega

theorem adv_plain {s : St} (h : AllPlain s) : AllPlain s.adv :=
  fun t ht => h t (List.mem_of_mem_tail ht)

theorem bare_of_leaf {v : Nd} (h : supportsChildren v.ty = false → v.kids = []) : Bare v := by
  rintro (h' | h') <;> exact h (by rw [h']; rfl)

theorem dropWhile_nil {l : List Nd} (h : l.dropWhile (fun c => c.ty = .WHITESPACE) = []) :
    ∀ c ∈ l, c.ty = .WHITESPACE := by
  induction l with
  | nil => intro c hc; cases hc
  | cons a l ih =>
    rw [List.dropWhile_cons] at h
    split at h
    · rename_i ha
      intro c hc
      rcases List.mem_cons.1 hc with rfl | hc
      · exact of_decide_eq_true ha
      · exact ih h c hc
    · cases h

theorem dropFirsts_ne {n m : Nd} {c : Nd} (h : supportsChildren n.ty = true)
    (hv : dropFirsts n = (pure m : M Nd)) (hc : c ∈ n.kids) (hw : c.ty ≠ .WHITESPACE) : m.kids ≠ [] := by
  have h1 : dropFirsts n = (pure (.mk n.tok (n.kids.dropWhile (fun c => c.ty = .WHITESPACE))) : M Nd) :=
    guard_ok h
  rw [h1] at hv
  have h2 := congrFun hv ⟨[], ⟨0, 0, 0⟩, []⟩
  have h3 : m = .mk n.tok (n.kids.dropWhile (fun c => c.ty = .WHITESPACE)) := by
    injection h2 with h2 _; exact h2.symm
  rw [h3, mk_kids]
  intro he
  exact hw (dropWhile_nil he c hc)

/-- After a step that consumes tokens, the rest of the loop. -/
theorem loop_more {f : Nat} (ih : Specs f) {fl : Flags} {result list result' list' : Nd} {s s' : St}
    (hp : AllPlain s') (hf : 5 * s.toks.length + 2 ≤ f + 1) (hl : s'.toks.length < s.toks.length)
    (hr : result'.ty = .LIST) (hc : list'.ty = .COMPONENT_VALUE) (hv : Values result'.kids)
    (hb : BareL list'.kids) (hs : stops fl s.last.ty = false)
    (ht : Tr s (result.kids ++ list.kids) (result'.kids ++ list'.kids) s') :
    Ok (cvLoop f fl result' list') s' (ListPost fl s (result.kids ++ list.kids)) :=
  (ih.loop fl result' list' s' hp (by omega) hr hc hv hb).mono (fun v s'' h =>
    ⟨ht.trans h.tr, h.group, fun _ => by have := h.tr.len; omega, fun h' => by rw [hs] at h'; cases h'⟩)

/-- The end of the list after a step that consumes tokens. -/
theorem loop_end {fl : Flags} {result list result' list' : Nd} {s s' : St}
    (hl : s'.toks.length < s.toks.length)
    (hr : result'.ty = .LIST) (hc : list'.ty = .COMPONENT_VALUE) (hv : Values result'.kids)
    (hb : BareL list'.kids) (hs : stops fl s.last.ty = false)
    (ht : Tr s (result.kids ++ list.kids) (result'.kids ++ list'.kids) s') :
    Ok (listEnd result' list') s' (ListPost fl s (result.kids ++ list.kids)) := by
  obtain ⟨v, h1, h2, h3⟩ := listEnd_val hr hc hv hb
  rw [h1]
  exact Ok.pure ⟨ht.sub h2, h3, fun _ => hl, fun h' => by rw [hs] at h'; cases h'⟩

theorem specs_loop {f : Nat} (ih : Specs f) (fl : Flags) (result list : Nd) (s : St) (hp : AllPlain s)
    (hf : 5 * s.toks.length + 2 ≤ f + 1) (hr : result.ty = .LIST) (hl : list.ty = .COMPONENT_VALUE)
    (hv : Values result.kids) (hb : BareL list.kids) :
    Ok (cvLoop (f + 1) fl result list) s (ListPost fl s (result.kids ++ list.kids)) := by
  have hcl : supportsChildren list.ty = true := by rw [hl]; rfl
  have hcr : supportsChildren result.ty = true := by rw [hr]; rfl
  unfold cvLoop
  refine Ok.last ?_
  split
  · rename_i hs
    obtain ⟨v, h1, h2, h3⟩ := listEnd_val hr hl hv hb
    rw [h1]
    exact Ok.pure ⟨Tr.ofSub h2, h3, fun h => (by rw [hs] at h; cases h), fun _ => rfl⟩
  rename_i hs
  have hs : stops fl s.last.ty = false := by simpa using hs
  have hne : s.last.ty ≠ .EOF_TOKEN := by intro h; rw [h] at hs; cases hs
  have hcx : isClose s.last.ty = false := by
    revert hs; generalize s.last.ty = ty; cases ty <;> simp [stops, isClose]
  have hlen := adv_len hne
  split
  · -- AT_KEYWORD
    rename_i hk
    refine Ok.bind (ih.atr s hp (by omega) hk) (fun c s1 h1 => ?_)
    have hct : c.ty = .AT_KEYWORD := by unfold Nd.ty; rw [h1.tok]; exact hk
    refine Ok.val (addChild_ok hcl) ?_
    have hbc : Bare c := bare_of_leaf h1.leaf
    refine loop_more ih (h1.tr.plain hp) hf h1.more hr hl hv (hb.push hbc) hs ?_
    refine Tr.sub ?_ (Sub.append (.refl _) (Sub.push hbc))
    have := h1.tr.frame (result.kids ++ list.kids)
    rw [List.append_nil] at this
    rwa [← List.append_assoc]
  split
  · -- SEMICOLON
    rename_i hk
    refine Ok.next ?_
    refine Ok.value (dropFirsts_val hcl hb) (fun l1 t1 => ?_)
    refine Ok.value (dropLasts_val (by rw [t1.ty]; exact hcl) (hb.sub t1.list)) (fun l2 t2 => ?_)
    have ht := t1.trans t2
    have h2 : l2.ty = .COMPONENT_VALUE := by rw [ht.ty]; exact hl
    have hb2 := hb.sub ht.list
    have htr : Tr s (result.kids ++ list.kids) (result.kids ++ l2.kids) s.adv :=
      Tr.trans (Tr.ofSub (Sub.append (.refl _) ht.sub)) (Tr.skip (not_kept (.inr (.inl hk))))
    refine Ok.value (endsVariable_val (by rw [h2]; rfl)) (fun v _ => ?_)
    split
    · exact loop_end (by omega) hr h2 hv hb2 hs htr
    · refine Ok.val (isEmpty_ok (by rw [h2]; rfl)) ?_
      split
      · exact loop_more ih (adv_plain hp) hf (by omega) hr h2 hv hb2 hs htr
      · refine Ok.val (addChild_ok hcr) ?_
        refine loop_more ih (adv_plain hp) hf (by omega) hr rfl ?_ ?_ hs ?_
        · rw [mk_kids, push_group (.inr h2)]
          intro n hn
          rcases List.mem_append.1 hn with hn | hn
          · exact hv n hn
          · rw [List.mem_singleton.1 hn]; exact h2
        · intro n hn; cases hn
        · refine htr.sub ?_
          rw [mk_kids, push_group (.inr h2)]
          show Sub _ (_ ++ [])
          rw [List.append_nil]
          exact Sub.append (.refl _) (Sub.group (.inr h2))
  split
  · -- EXCLAMATION
    rename_i hk
    refine Ok.bind (exclamation_ok hk hcl hb) (fun l1 s1 h1 => ?_)
    obtain ⟨h1, h2, h3, h4⟩ := h1
    exact loop_more ih (h1.plain hp) hf h4 hr (by rw [h2]; exact hl) hv h3 hs (h1.frame _)
  rename_i hx
  refine Ok.value (beforeBlock_val hcl hb) (fun l1 t1 => ?_)
  have h1 : l1.ty = .COMPONENT_VALUE := by rw [t1.ty]; exact hl
  have hc1 : supportsChildren l1.ty = true := by rw [h1]; rfl
  refine Ok.bind (ih.value s hp (by omega) hne hx hcx) (fun c s1 hn => ?_)
  have hbc : Bare c := bare_of_leaf hn.leaf
  refine Ok.val (addChild_ok hc1) ?_
  have hb2 : BareL (push l1.kids c) := (hb.sub t1.list).push hbc
  have htr : Tr s (result.kids ++ list.kids) (result.kids ++ push l1.kids c) s1 := by
    refine Tr.subl (Sub.append (.refl _) t1.sub) ?_
    refine Tr.sub ?_ (Sub.append (.refl _) (Sub.push hbc))
    have := hn.tr.frame (result.kids ++ l1.kids)
    rw [List.append_nil] at this
    rwa [← List.append_assoc]
  split
  · rename_i hk
    have hct : c.ty = .OPEN_CURLYBRACKET := by unfold Nd.ty; rw [hn.tok]; exact hk
    obtain ⟨l2, e2, t2⟩ := dropFirsts_val (n := .mk l1.tok (push l1.kids c)) hc1 hb2
    have hne2 : l2.kids ≠ [] := dropFirsts_ne (c := c) (n := .mk l1.tok (push l1.kids c)) hc1 e2
      (by rw [mk_kids, push_ne (by rw [hct]; simp) (by rw [hct]; simp)]; simp) (by rw [hct]; simp)
    refine Ok.val e2 ?_
    have h2 : l2.ty = .COMPONENT_VALUE := by rw [t2.ty]; exact h1
    have hc2 : supportsChildren l2.ty = true := by rw [h2]; rfl
    have hb3 : BareL l2.kids := hb2.sub t2.list
    have htr2 : Tr s (result.kids ++ list.kids) (result.kids ++ l2.kids) s1 :=
      htr.sub (Sub.append (.refl _) t2.sub)
    refine Ok.value (isBlockValue_val hc2) (fun d _ => ?_)
    split
    · exact loop_end hn.more hr h2 hv hb3 hs htr2
    · refine Ok.bind (skipSpaces_ok (result.kids ++ l2.kids) f s1 (by have := hn.more; omega))
        (fun _ s2 h3 => ?_)
      refine Ok.bind (wantSemicolon_ok hc2 hne2 s2 (result.kids ++ l2.kids)) (fun _ s3 h4 => ?_)
      have h5 := htr2.trans (h3.trans h4)
      exact loop_more ih (h5.plain hp) hf (by have := h3.len; have := h4.len; have := hn.more; omega)
        hr h2 hv hb3 hs h5
  · exact loop_more ih (hn.tr.plain hp) hf hn.more hr h1 hv hb2 hs htr

theorem specs_list {f : Nat} (ih : Specs f) (fl : Flags) (s : St) (hp : AllPlain s)
    (hf : 5 * s.toks.length + 3 ≤ f + 1) : Ok (componentValueList (f + 1) fl) s (ListPost fl s []) := by
  unfold componentValueList
  refine Ok.last ?_
  exact ih.loop fl _ _ s hp (by omega) rfl rfl (fun n hn => nomatch hn) (fun n hn => nomatch hn)

theorem specs_at {f : Nat} (ih : Specs f) (s : St) (hp : AllPlain s)
    (hf : 5 * s.toks.length ≤ f + 1) (hk : s.last.ty = .AT_KEYWORD) :
    Ok (atRule (f + 1)) s (NodePost s) := by
  have hne : s.last.ty ≠ .EOF_TOKEN := by rw [hk]; simp
  have hlen := adv_len hne
  have hsim : Simple s.last.ty := by rw [hk]; simp [Simple, isClose]
  have hcs : supportsChildren s.last.ty = true := by rw [hk]; rfl
  unfold atRule
  refine Ok.last (Ok.next ?_)
  refine Ok.bind (ih.list ⟨true, false⟩ s.adv (adv_plain hp) (by omega)) (fun n s1 h1 => ?_)
  have hl1 := h1.tr.len
  refine Ok.val (isEmpty_ok h1.group.children) ?_
  split
  · rename_i he
    refine Ok.report (Ok.pure ⟨?_, rfl, ?_, fun _ => rfl⟩)
    · refine Tr.prefixErr hp hne hsim.1 (Tr.trans h1.tr ?_) ?_
      · rw [List.isEmpty_iff.1 he]; exact .error _ _
      · obtain ⟨_, e, _, h2, _⟩ := h1.tr
        show s.errs.length < (_ :: s1.errs).length
        rw [h2]
        show s.errs.length < (_ :: (e ++ s.errs)).length
        simp; omega
    · show s1.toks.length < _
      omega
  · rename_i he
    obtain ⟨l, hl⟩ := getLast_of_ne (l := n.kids) (by intro h; rw [h] at he; simp at he)
    refine Ok.val (getLast_ok h1.group.children hl) ?_
    refine Ok.bind (atRuleEnd_ok s.last l s1 n.kids) (fun _ s2 h2 => ?_)
    rw [takeOver_ok (n := .leaf s.last) hcs h1.group.children]
    refine Ok.pure ⟨Tr.prefix hp hne hsim (h1.tr.trans h2), rfl, ?_, ?_⟩
    · have := h2.len; omega
    · intro h; rw [show (Nd.mk (Nd.leaf s.last).tok n.kids).ty = s.last.ty from rfl, hcs] at h; cases h

theorem specs_block {f : Nat} (ih : Specs f) (c : NT) (s : St) (hp : AllPlain s)
    (hf : 5 * s.toks.length ≤ f + 1) (hc : closing s.last = [{ ty := c }]) (hcl : isClose c = true)
    (hne : s.last.ty ≠ .EOF_TOKEN) (hx : s.last.ty ≠ .EXCLAMATION)
    (hcs : supportsChildren s.last.ty = true) : Ok (block (f + 1) c) s (NodePost s) := by
  have hlen := adv_len hne
  unfold block
  refine Ok.last (Ok.next ?_)
  refine Ok.bind (ih.list ⟨false, false⟩ s.adv (adv_plain hp) (by omega)) (fun n s1 h1 => ?_)
  have hl1 := h1.tr.len
  refine Ok.val (takeOver_ok (n := .leaf s.last) hcs h1.group.children) ?_
  refine Ok.bind (skipSpace_ok s1 n.kids) (fun _ s2 h2 => ?_)
  refine Ok.bind (P := fun _ s' => Tr s [] [.mk s.last n.kids] s' ∧ s'.toks.length < s.toks.length)
    ?_ (fun _ s3 h3 => ?_)
  · have hl2 := h2.1.len
    exact (closeBlock_ok hp hne hx (h1.tr.trans h2.1) hc hcl).mono
      (fun _ _ h => ⟨h.1, by have := h.2; omega⟩)
  · refine Ok.pure ⟨h3.1, rfl, h3.2, ?_⟩
    intro h; rw [show (Nd.mk (Nd.leaf s.last).tok n.kids).ty = s.last.ty from rfl, hcs] at h; cases h

theorem specs_value {f : Nat} (ih : Specs f) (s : St) (hp : AllPlain s)
    (hf : 5 * s.toks.length + 1 ≤ f + 1) (hne : s.last.ty ≠ .EOF_TOKEN) (hx : s.last.ty ≠ .EXCLAMATION)
    (hcl : isClose s.last.ty = false) :
    Ok (componentValue (f + 1)) s (NodePost s) := by
  have hlen := adv_len hne
  unfold componentValue
  refine Ok.last ?_
  split
  · rename_i h; exact ih.blist s hp (by omega) h
  rename_i h1
  split
  · rename_i h
    exact ih.block _ s hp (by omega) (by unfold closing; rw [h]) rfl hne hx (by rw [h]; rfl)
  rename_i h2
  split
  · rename_i h
    refine ih.block _ s hp (by omega) ?_ rfl hne hx ?_
    · unfold closing; rcases h with h | h | h <;> rw [h]
    · rcases h with h | h | h <;> rw [h] <;> rfl
  rename_i h3
  refine Ok.next (Ok.pure ⟨Tr.take hp hne ?_, rfl, by omega, fun _ => rfl⟩)
  exact ⟨hx, h1, h2, fun h => h3 (.inl h), fun h => h3 (.inr (.inl h)), fun h => h3 (.inr (.inr h)), hcl⟩

theorem specs_bloop {f : Nat} (ih : Specs f) (b : Nd) (s : St) (hp : AllPlain s)
    (hf : 5 * s.toks.length + 4 ≤ f + 1) (hb : supportsChildren b.ty = true) :
    Ok (blockLoop (f + 1) b) s (fun v s' => Tr s b.kids v.kids s' ∧ v.tok = b.tok) := by
  unfold blockLoop
  refine Ok.bind (ih.list ⟨false, false⟩ s hp (by omega)) (fun n s1 h1 => ?_)
  refine Ok.val (addChild_ok hb) ?_
  have htr : Tr s b.kids (push b.kids n) s1 := by
    rw [push_group h1.group]
    have := (h1.tr.frame b.kids).sub (Sub.append (.refl _) (Sub.group h1.group))
    rwa [List.append_nil] at this
  have hl1 := htr.len
  refine Ok.bind (betweenLists_ok b.tok s1 (push b.kids n)) (fun _ s2 h2 => ?_)
  obtain ⟨h2, h3, h4⟩ := h2
  have hl2 := h2.len
  refine Ok.last ?_
  split
  · exact Ok.pure ⟨htr.trans h2, rfl⟩
  · rename_i hn
    refine (ih.bloop (.mk b.tok (push b.kids n)) s2 ((htr.trans h2).plain hp) ?_ hb).mono
      (fun v s3 h => ⟨(htr.trans h2).trans h.1, h.2⟩)
    have : s2.toks.length < s.toks.length := by
      cases hst : stops ⟨false, false⟩ s.last.ty with
      | false => have := h1.more hst; omega
      | true =>
        have hs1 := h1.same hst
        subst hs1
        by_cases hc : s1.last.ty = .CLOSE_CURLYBRACKET ∨ s1.last.ty = .EOF_TOKEN
        · rw [h4 hc] at hn; exact absurd hc hn
        · exact h3 hst (fun h => hc (.inl h)) (fun h => hc (.inr h))
    omega

theorem specs_blist {f : Nat} (ih : Specs f) (s : St) (hp : AllPlain s)
    (hf : 5 * s.toks.length ≤ f + 1) (hk : s.last.ty = .OPEN_CURLYBRACKET) :
    Ok (blockList (f + 1)) s (NodePost s) := by
  have hlen := adv_len (s := s) (by rw [hk]; simp)
  have hcs : supportsChildren s.last.ty = true := by rw [hk]; rfl
  unfold blockList
  refine Ok.last (Ok.next ?_)
  refine Ok.bind (ih.bloop (.leaf s.last) s.adv (adv_plain hp) (by omega) hcs) (fun v s1 h1 => ?_)
  have hl1 := h1.1.len
  refine Ok.bind (closeList_ok hp hk h1.1) (fun _ s2 h2 => ?_)
  obtain ⟨t, k⟩ := v
  have ht : t = s.last := h1.2
  subst ht
  refine Ok.pure ⟨h2.1, rfl, by have := h2.2; omega, ?_⟩
  intro h; rw [mk_ty, hcs] at h; cases h

theorem specs (f : Nat) : Specs f := by
  induction f with
  | zero =>
    refine ⟨?_, ?_, ?_, ?_, ?_, ?_, ?_⟩
    · intro _ _ _ _ _ h; omega
    · intro _ _ _ h; omega
    · intro s _ h hk; have := len_pos (s := s) (by rw [hk]; simp); omega
    · intro _ _ h; omega
    · intro _ s _ h _ _ hk; have := len_pos hk; omega
    · intro _ _ _ h; omega
    · intro s _ h hk; have := len_pos (s := s) (by rw [hk]; simp); omega
  | succ f ih =>
    exact ⟨specs_loop ih, specs_list ih, specs_at ih, specs_value ih, specs_block ih, specs_bloop ih,
      specs_blist ih⟩

end Csspp.Parse
