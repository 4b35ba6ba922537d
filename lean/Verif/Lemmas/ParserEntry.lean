import Verif.Lemmas.ParserSpecs

/-!
The public functions of the parser.
-/

namespace Csspp.Parse
open Csspp.Lex (Tok Pos)
open Csspp.Node (supportsChildren supportsString supportsInteger supportsDecimal supportsBoolean)

/-- A node that can be added to a LIST. -/
structure RulePost (s : St) (v : Nd) (s' : St) : Prop where
  tr : Tr s [] [v] s'
  bare : Bare v

theorem eof_flat {n : Nd} (h : n.ty = .EOF_TOKEN) (hk : n.kids = []) : flat n = [] := by
  obtain ⟨t, k⟩ := n
  have hk : k = [] := hk
  have h : t.ty = .EOF_TOKEN := h
  rw [flat_mk, hk]
  unfold front
  rw [h]
  rfl

theorem Sub.eof {n : Nd} (h : n.ty = .EOF_TOKEN) (hk : n.kids = []) : Sub [] [n] :=
  ⟨by simp [eof_flat h hk], by simp [eof_text h hk]⟩

theorem qualifiedRule_ok {f : Nat} {s : St} (hp : AllPlain s) (hf : 5 * s.toks.length + 3 ≤ f) :
    Ok (qualifiedRule f) s (fun v s' => RulePost s v s' ∧
      (s.last.ty = .EOF_TOKEN → v.ty = .EOF_TOKEN ∧ s' = s) ∧
      (s.last.ty ≠ .EOF_TOKEN → v.ty = .EOF_TOKEN → s'.errs ≠ s.errs) ∧
      (stops ⟨false, true⟩ s.last.ty = false → s'.toks.length < s.toks.length)) := by
  unfold qualifiedRule
  refine Ok.last ?_
  split
  · rename_i h
    exact Ok.pure ⟨⟨Tr.ofSub (.eof h rfl), fun _ => rfl⟩, fun _ => ⟨h, rfl⟩, fun h' => absurd h h',
      fun h' => by rw [h] at h'; cases h'⟩
  rename_i hne
  have hlen := adv_len hne
  split
  · rename_i h
    refine Ok.next (Ok.report (Ok.pure ⟨⟨?_, fun _ => rfl⟩, fun h' => absurd h' hne, fun _ _ => ?_, fun _ => ?_⟩))
    · exact (Tr.skip (not_kept (.inr (.inl h)))).trans ((Tr.error _ _).sub (.eof rfl rfl))
    · intro h; exact absurd (congrArg List.length h) (by simp [St.err, St.adv])
    · show s.adv.toks.length < _; omega
  · refine Ok.bind ((specs f).list ⟨false, true⟩ s hp hf) (fun n s1 h1 => ?_)
    have htr : Tr s [] [n] s1 := h1.tr.sub (Sub.group h1.group)
    have hbare : Bare n := by
      rintro (h | h) <;> rcases h1.group with h' | h' <;> rw [h] at h' <;> cases h'
    have hnt : n.ty ≠ .EOF_TOKEN := by
      intro h; rcases h1.group with h' | h' <;> rw [h] at h' <;> cases h'
    refine Ok.val (isEmpty_ok h1.group.children) ?_
    split
    · exact Ok.report (Ok.pure ⟨⟨htr.trans (Tr.error _ _), hbare⟩, fun h => absurd h hne,
        fun _ h => absurd h hnt, fun h => h1.more h⟩)
    · rename_i he
      obtain ⟨l, hl⟩ := getLast_of_ne (l := n.kids) (by intro h; rw [h] at he; simp at he)
      refine Ok.val (getLast_ok h1.group.children hl) ?_
      refine Ok.value (isVariableSet_val h1.group.children) (fun v _ => ?_)
      split
      · exact Ok.report (Ok.pure ⟨⟨htr.trans (Tr.error _ _), hbare⟩, fun h => absurd h hne,
          fun _ h => absurd h hnt, fun h => h1.more h⟩)
      · exact Ok.pure ⟨⟨htr, hbare⟩, fun h => absurd h hne, fun _ h => absurd h hnt, fun h => h1.more h⟩

theorem list_add {s s1 : St} {result c : Nd} (h : Tr s [] [c] s1) (hb : Bare c) :
    Tr s result.kids (push result.kids c) s1 := by
  refine Tr.sub ?_ (Sub.push hb)
  have := h.frame result.kids
  rwa [List.append_nil] at this

/-- The loop ended at the end of the stream, or with a message. -/
def Ended (s s' : St) : Prop := s'.errs = s.errs → s'.last.ty = .EOF_TOKEN

theorem Ended.mono {s s1 s' : St} {a v : List Nd} (ht : Tr s a v s1) {b w : List Nd}
    (ht' : Tr s1 b w s') (h : Ended s1 s') : Ended s s' := by
  intro he
  obtain ⟨_, e, _, h2, _⟩ := ht
  obtain ⟨_, e', _, h2', _⟩ := ht'
  apply h
  rw [h2', h2] at he
  have hl := congrArg List.length he
  simp only [List.length_append] at hl
  have : e' = [] := List.length_eq_zero_iff.1 (by omega)
  rw [h2', this]; rfl

theorem stylesheetLoop_ok : ∀ (f : Nat) (s : St) (result : Nd), AllPlain s →
    5 * s.toks.length + 5 ≤ f → result.ty = .LIST →
    Ok (stylesheetLoop f result) s (fun v s' => Tr s result.kids v.kids s' ∧ v.ty = .LIST ∧
      Ended s s') := by
  intro f
  induction f with
  | zero => intro s _ _ h; omega
  | succ f ih =>
    intro s result hp hf hr
    have hcr : supportsChildren result.ty = true := by rw [hr]; rfl
    -- the rest of the loop, after a step
    have rest : ∀ (s1 : St) (r1 : Nd), r1.ty = .LIST → Tr s result.kids r1.kids s1 →
        s1.toks.length < s.toks.length →
        Ok (stylesheetLoop f r1) s1 (fun v s' => Tr s result.kids v.kids s' ∧ v.ty = .LIST ∧
          Ended s s') := fun s1 r1 h1 h2 h3 =>
      (ih s1 r1 (h2.plain hp) (by omega) h1).mono (fun v s' h =>
        ⟨h2.trans h.1, h.2.1, h.2.2.mono h2 h.1⟩)
    unfold stylesheetLoop
    refine Ok.last ?_
    split
    · rename_i h; exact Ok.pure ⟨.refl _ _, hr, fun _ => h⟩
    rename_i hne
    have hlen := adv_len hne
    split
    · rename_i h
      exact Ok.next (rest _ _ hr (Tr.skip (not_kept (by rcases h with h | h | h <;> simp [h]))) (by omega))
    rename_i hskip
    split
    · exact Ok.report (Ok.pure ⟨Tr.error _ _, hr, fun h => absurd (congrArg List.length h) (by simp [St.err])⟩)
    rename_i hclose
    split
    · rename_i h
      refine Ok.val (addChild_ok hcr) (Ok.next (rest _ _ hr ?_ (by omega)))
      exact list_add (Tr.take hp hne (by rw [h]; simp [Simple, isClose])) (fun _ => rfl)
    split
    · rename_i h
      refine Ok.bind ((specs f).atr s hp (by omega) h) (fun c s1 h1 => ?_)
      exact Ok.val (addChild_ok hcr) (rest _ _ hr (list_add h1.tr (bare_of_leaf h1.leaf)) h1.more)
    rename_i hc hat
    refine Ok.bind (qualifiedRule_ok (f := f) hp (by omega)) (fun c s1 h1 => ?_)
    obtain ⟨h1, _, _, h2⟩ := h1
    refine Ok.val (addChild_ok hcr) (rest _ _ hr (list_add h1.tr h1.bare) (h2 ?_))
    revert hskip hclose hne
    generalize s.last.ty = ty
    cases ty <;> simp [stops, isClose]

theorem rule_ok {f : Nat} {s : St} (hp : AllPlain s) (hf : 5 * s.toks.length + 3 ≤ f) :
    Ok (rule f) s (fun v s' => RulePost s v s' ∧
      (v.ty = .EOF_TOKEN → Ended s s') ∧
      (v.ty ≠ .EOF_TOKEN → s'.toks.length < s.toks.length)) := by
  unfold rule
  refine Ok.last ?_
  split
  · exact Ok.report (Ok.pure ⟨⟨(Tr.error _ _).sub (.eof rfl rfl), fun _ => rfl⟩,
      fun _ h => absurd (congrArg List.length h) (by simp [St.err]), fun h => absurd rfl h⟩)
  rename_i hcd
  split
  · exact Ok.report (Ok.pure ⟨⟨(Tr.error _ _).sub (.eof rfl rfl), fun _ => rfl⟩,
      fun _ h => absurd (congrArg List.length h) (by simp [St.err]), fun h => absurd rfl h⟩)
  rename_i hcl
  refine Ok.bind (skipSpace_ok s []) (fun _ s1 h1 => ?_)
  obtain ⟨h1, h2⟩ := h1
  have hl := h1.len
  refine Ok.last ?_
  split
  · rename_i h
    refine ((specs f).atr s1 (h1.plain hp) (by omega) h).mono (fun v s2 h3 => ?_)
    refine ⟨⟨h1.trans h3.tr, bare_of_leaf h3.leaf⟩, fun h' => ?_, fun _ => by have := h3.more; omega⟩
    unfold Nd.ty at h'; rw [h3.tok, h] at h'; cases h'
  · rename_i hat
    refine (qualifiedRule_ok (h1.plain hp) (by omega)).mono (fun v s2 h3 => ?_)
    obtain ⟨h3, h4, h5, h6⟩ := h3
    refine ⟨⟨h1.trans h3.tr, h3.bare⟩, fun h' => ?_, fun h' => ?_⟩
    · by_cases he : s1.last.ty = .EOF_TOKEN
      · intro _; rw [(h4 he).2]; exact he
      · have := h5 he h'
        exact Ended.mono h1 h3.tr (fun h => absurd h this)
    · have hl3 := h3.tr.len
      rcases h2 with rfl | h2
      · by_cases he : s1.last.ty = .EOF_TOKEN
        · exact absurd (h4 he).1 h'
        · refine h6 ?_
          revert hcd hcl he
          generalize s1.last.ty = ty
          cases ty <;> simp [stops, isClose]
      · omega

theorem ruleLoop_ok : ∀ (f : Nat) (s : St) (result : Nd), AllPlain s →
    5 * s.toks.length + 5 ≤ f → result.ty = .LIST →
    Ok (ruleLoop f result) s (fun v s' => Tr s result.kids v.kids s' ∧ v.ty = .LIST ∧
      Ended s s') := by
  intro f
  induction f with
  | zero => intro s _ _ h; omega
  | succ f ih =>
    intro s result hp hf hr
    have hcr : supportsChildren result.ty = true := by rw [hr]; rfl
    unfold ruleLoop
    refine Ok.last ?_
    split
    · rename_i h; exact Ok.pure ⟨.refl _ _, hr, fun _ => h⟩
    refine Ok.bind (rule_ok (f := f) hp (by omega)) (fun c s1 h1 => ?_)
    obtain ⟨h1, h2, h3⟩ := h1
    refine Ok.val (addChild_ok hcr) ?_
    have htr := list_add (result := result) h1.tr h1.bare
    split
    · rename_i h; exact Ok.pure ⟨htr, hr, h2 h⟩
    · rename_i h
      have := h3 h
      exact (ih s1 (.mk result.tok (push result.kids c)) (htr.plain hp) (by omega) hr).mono (fun v s' h =>
        ⟨htr.trans h.1, h.2.1, h.2.2.mono htr h.1⟩)

theorem decl_text {t : Tok} {s : Str} (h : t.ty = .DECLARATION) (hs : t.str = s) (k : List Nd) :
    flat (.mk t k) = ⟨.IDENTIFIER, s, 0, none, false⟩ :: flatL k ∧
    render (.mk t k) = ⟨.IDENTIFIER, s, 0, none, false⟩ :: { ty := .COLON } :: renderL k := by
  rw [flat_mk, render_mk]
  unfold front colon closing
  rw [h, ← hs]
  simp

theorem declaration_ok {f : Nat} {s : St} (hp : AllPlain s) (hf : 5 * s.toks.length + 3 ≤ f)
    (hi : s.last.ty = .IDENTIFIER) :
    Ok (declaration f) s (fun v s' => Tr s [] [v] s' ∧ v.ty = .DECLARATION ∧
      s'.toks.length < s.toks.length) := by
  have hne : s.last.ty ≠ .EOF_TOKEN := by rw [hi]; simp
  have hlen := adv_len hne
  unfold declaration
  refine Ok.last ?_
  refine Ok.val (m := getString s.last) (v := s.last.str) (by unfold getString; rw [hi]; rfl) ?_
  refine Ok.val (m := setString (newNode .DECLARATION s.last) s.last.str)
    (v := .mk { ty := .DECLARATION, pos := s.last.pos, str := s.last.str } []) rfl (Ok.next ?_)
  refine Ok.bind (skipSpace_ok s.adv []) (fun _ s1 h1 => ?_)
  have hl1 := h1.1.len
  obtain ⟨c1, e1, p1, p2, p3, p4, p5⟩ := h1.1
  have hsym : sym s.last = ⟨.IDENTIFIER, s.last.str, 0, none, false⟩ := by unfold sym; rw [hi]; rfl
  -- the state after the colon
  refine Ok.bind (P := fun _ s2 => ∃ c e, s1.toks = c ++ s2.toks ∧ s2.errs = e ++ s1.errs ∧ s2.fin = s1.fin ∧
      (e = [] → c.map sym = [{ ty := .COLON }])) ?_ (fun _ s2 h2 => ?_)
  · unfold wantColon
    refine Ok.last ?_
    split
    · rename_i hc
      refine ⟨_, _, rfl, [s1.last], [], toks_of_last (by rw [hc]; simp), rfl, rfl, fun _ => ?_⟩
      simp only [List.map_cons, List.map_nil]
      unfold sym; rw [hc]; rfl
    · exact ⟨_, _, rfl, [], [_], rfl, rfl, rfl, fun h => nomatch h⟩
  obtain ⟨c2, e2, q1, q2, q3, q5⟩ := h2
  have hp2 : AllPlain s2 := by
    intro t ht
    refine hp t ?_
    rw [toks_of_last hne, p1, q1]
    simp [ht]
  have hl2 : s2.toks.length ≤ s1.toks.length := by rw [q1]; simp
  refine Ok.bind ((specs f).list ⟨true, false⟩ s2 hp2 (by omega)) (fun n s3 h3 => ?_)
  have hl3 := h3.tr.len
  rw [addChild_ok (by rfl)]
  refine Ok.pure ⟨?_, rfl, by omega⟩
  rw [mk_kids, mk_tok, push_group h3.group, List.nil_append]
  obtain ⟨c3, e3, r1, r2, r3, r4, r5⟩ := h3.tr.sub (Sub.group h3.group)
  have hd := decl_text (t := { ty := .DECLARATION, pos := s.last.pos, str := s.last.str }) rfl rfl [n]
  refine ⟨s.last :: c1 ++ c2 ++ c3, e3 ++ e2 ++ e1, ?_, ?_, ?_, ?_, fun he => ?_⟩
  · rw [toks_of_last hne, p1, q1, r1]; simp
  · rw [r2, q2, p2]; simp [St.adv]
  · rw [r3, q3, p3]; rfl
  · simp only [flatL_nil, List.nil_append] at r4
    rw [flatL_cons, hd.1, ← hsym]
    simp only [flatL_nil, List.append_nil, List.nil_append, List.map_append, List.map_cons, List.cons_append]
    exact (r4.trans (List.sublist_append_right _ _)).cons_cons _
  · rw [List.append_eq_nil_iff, List.append_eq_nil_iff] at he
    have k1 := p5 he.2
    have k2 := q5 he.1.2
    have k3 := r5 he.1.1
    refine ⟨?_, ?_⟩
    · have k1 := k1.1
      have k3 := k3.1
      simp only [renderL_nil, keep_nil, List.nil_append] at k1 k3
      rw [renderL_cons, hd.2, ← hsym]
      simp only [renderL_nil, keep_nil, List.append_nil, List.nil_append, List.map_append, List.map_cons,
        k2, List.cons_append]
      have e1 : ∀ l : List Sym, keep (sym s.last :: l) = sym s.last :: keep l := by
        intro l; unfold keep; rw [List.filter_cons, if_pos]; unfold kept; rw [hsym]
      rw [e1, e1, keep_append, keep_append, ← k1]
      rw [← List.singleton_append (l := renderL [n]), keep_append, k3]
      rfl
    · rw [List.map_append, List.map_append, List.map_cons, hi]
      have h1 : Nested [NT.IDENTIFIER] := .one rfl rfl
      have h2 : Nested (c2.map Tok.ty) := by
        have : c2.map Tok.ty = [NT.COLON] := by
          have := congrArg (List.map Sym.ty) k2
          rw [List.map_map] at this
          exact this
        rw [this]; exact .one rfl rfl
      exact ((h1.append k1.2).append h2).append k3.2

theorem declarationLoop_ok : ∀ (f : Nat) (s : St) (result : Nd), AllPlain s →
    5 * s.toks.length + 5 ≤ f → result.ty = .LIST →
    Ok (declarationLoop f result) s (fun v s' => Tr s result.kids v.kids s' ∧ v.ty = .LIST) := by
  intro f
  induction f with
  | zero => intro s _ _ h; omega
  | succ f ih =>
    intro s result hp hf hr
    have hcr : supportsChildren result.ty = true := by rw [hr]; rfl
    unfold declarationLoop
    refine Ok.bind (skipSpace_ok s result.kids) (fun _ s1 h1 => ?_)
    obtain ⟨h1, h2⟩ := h1
    have hl := h1.len
    have hp1 := h1.plain hp
    refine Ok.last ?_
    split
    · rename_i hi
      refine Ok.bind (declaration_ok hp1 (f := f) (by omega) hi) (fun c s2 h3 => ?_)
      obtain ⟨h3, h4, h5⟩ := h3
      have hbare : Bare c := by rintro (h | h) <;> rw [h] at h4 <;> cases h4
      have htr := list_add (result := result) h3 hbare
      refine Ok.val (addChild_ok hcr) (Ok.last ?_)
      split
      · rename_i hs
        have htr2 := (h1.trans htr).trans (Tr.skip (not_kept (.inr (.inl hs))))
        refine Ok.next ((ih s2.adv (.mk result.tok (push result.kids c)) (htr2.plain hp) ?_ hr).mono (fun v s' h => ⟨htr2.trans h.1, h.2⟩))
        have := adv_le s2
        omega
      · refine Ok.bind (skipSpace_ok s2 (push result.kids c)) (fun _ s3 h6 => ?_)
        exact Ok.pure ⟨(h1.trans htr).trans h6.1, hr⟩
    split
    · rename_i hk
      refine Ok.bind ((specs f).atr s1 hp1 (by omega) hk) (fun c s2 h3 => ?_)
      refine Ok.val (addChild_ok hcr) ?_
      have htr := h1.trans (list_add (result := result) h3.tr (bare_of_leaf h3.leaf))
      have := h3.more
      exact (ih s2 (.mk result.tok (push result.kids c)) (htr.plain hp) (by omega) hr).mono (fun v s' h => ⟨htr.trans h.1, h.2⟩)
    · exact Ok.pure ⟨h1, hr⟩

theorem declarationList_ok {f : Nat} {s : St} (hp : AllPlain s) (hf : 5 * s.toks.length + 5 ≤ f) :
    Ok (declarationList f) s (fun v s' => Tr s [] [v] s' ∧ Ended s s') := by
  unfold declarationList
  refine Ok.last ?_
  refine Ok.bind (declarationLoop_ok f s (newNode .LIST s.last) hp hf rfl) (fun v s1 h1 => ?_)
  have htr : Tr s [] [v] s1 := h1.1.sub (Sub.group (.inl h1.2))
  refine Ok.last ?_
  split
  · exact Ok.report (Ok.pure ⟨htr.trans (Tr.error _ _), by
      intro h
      obtain ⟨_, e, _, h2, _⟩ := htr
      have := congrArg List.length h
      rw [show (s1.err Err.notAtEnd s1.last.pos).errs = (Err.notAtEnd, s1.last.pos) :: s1.errs from rfl, h2] at this
      simp at this
      omega⟩)
  · rename_i h
    exact Ok.pure ⟨htr, fun _ => Classical.byContradiction h⟩

end Csspp.Parse
