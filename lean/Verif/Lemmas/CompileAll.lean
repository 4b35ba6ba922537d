import Verif.Lemmas.CompilePlace

/-! Every function of Model/Compile.lean ends, and what is compiled without an error is finished. -/

namespace Csspp.Compile
open Csspp.Parse (Nd push argify ArgRes mkArg argLoop)
open Csspp.Lex (Tok Pos)
open Csspp.Spec.Compiled

/-! ### The selectors -/

theorem selectors_shape (env : Sel.Env) (b : Nd) (hb : b.ty = .OPEN_CURLYBRACKET) :
    ∀ (args : List Nd) {k : List Nd} {ids : List Str}, (∀ c ∈ args, c.ty = .ARG) →
      Sel.selectors env (args ++ [b]) = .ok (k, ids) →
      ∃ args', k = args' ++ [b] ∧ args'.length = args.length ∧ ∀ c ∈ args', c.ty = .ARG
  | [], k, ids, _, h => by
    rw [List.nil_append] at h
    unfold Sel.selectors at h
    rw [if_pos hb] at h
    cases h
    exact ⟨[], rfl, rfl, by simp⟩
  | a :: args, k, ids, ha, h => by
    have hat : a.ty = .ARG := ha a (by simp)
    rw [List.cons_append] at h
    unfold Sel.selectors at h
    rw [if_neg (by rw [hat]; simp), if_neg (by rw [hat]; simp)] at h
    split at h
    · cases h
    · cases h
    · cases h
    · split at h
      · cases h
      · cases h
      · cases h
      · rename_i rest ids' e
        cases h
        obtain ⟨args', h1, h2, h3⟩ := selectors_shape env b hb args (fun c hc => ha c (by simp [hc])) e
        subst h1
        refine ⟨_ :: args', rfl, by simp [h2], ?_⟩
        intro c hc
        rcases List.mem_cons.mp hc with rfl | hc
        · exact hat
        · exact h3 c hc

theorem parseSelector_shape {env : Sel.Env} {t : Tok} {pre : List Nd} {b : Nd} {k : List Nd} {ids : List Str}
    (hb : b.ty = .OPEN_CURLYBRACKET) (h1 : (pre ++ [b]).head?.map Nd.ty ≠ some .ARG)
    (h : Sel.parseSelector env (.mk t (pre ++ [b])) = .ok (k, ids)) :
    ∃ sel, k = sel ++ [b] ∧ sel ≠ [] ∧ ∀ c ∈ sel, c.ty = .ARG := by
  unfold Sel.parseSelector at h
  split at h
  · cases h
  · cases h
  · rename_i kids e
    obtain ⟨args, h0, ha, h3⟩ := argify_shape (n := .mk t (pre ++ [b])) (by show pre ++ [b] ≠ []; simp) h1 e
    rcases h3 with ⟨_, h4⟩ | ⟨pre', b', rfl, h4, hb'⟩
    · exact absurd hb (h4 b (by show b ∈ pre ++ [b]; simp))
    · have h4 : pre ++ [b] = pre' ++ [b'] := h4
      have := (List.append_inj' h4 rfl).2
      cases this
      obtain ⟨sel, e1, e2, e3⟩ := selectors_shape env b hb args ha h
      refine ⟨sel, e1, ?_, e3⟩
      rintro rfl
      cases args with
      | nil => exact h0 rfl
      | cons _ _ => simp at e2

theorem endBlock_append {pre : List Nd} {b : Nd} (hb : b.ty = .OPEN_CURLYBRACKET) :
    endBlock (pre ++ [b]) = some (pre, b) := by
  unfold endBlock
  rw [List.getLast?_append, List.getLast?_singleton]
  simp [hb]

theorem endBlock_some {l pre : List Nd} {b : Nd} (h : endBlock l = some (pre, b)) :
    l = pre ++ [b] ∧ b.ty = .OPEN_CURLYBRACKET := by
  unfold endBlock at h
  split at h
  · rename_i b' e
    split at h
    · rename_i hb
      cases h
      have hl : l ≠ [] := by rintro rfl; cases e
      rw [List.getLast?_eq_some_getLast hl] at e
      injection e with e
      subst e
      exact ⟨(List.dropLast_concat_getLast hl).symm, hb⟩
    · cases h
  · cases h

theorem endBlock_none {l : List Nd} (h : endBlock l = none) : l.getLast?.map Nd.ty ≠ some .OPEN_CURLYBRACKET := by
  unfold endBlock at h
  split at h
  · rename_i b e
    split at h
    · cases h
    · rename_i hb
      rw [e]; simpa using hb
  · rename_i e
    rw [e]; simp

theorem last_of_map {l : List Nd} (h : l.getLast?.map Nd.ty = some .OPEN_CURLYBRACKET) :
    ∃ pre b, l = pre ++ [b] ∧ b.ty = .OPEN_CURLYBRACKET := by
  cases e : endBlock l with
  | none => exact absurd h (endBlock_none e)
  | some p => exact ⟨p.1, p.2, endBlock_some e⟩

/-! ### What is to be proved of each function -/

def cvA (n : Nd) : Act → Prop
  | .keep _ => True
  | .into l => szAll l < sz n ∧ (n.ty = .COMPONENT_VALUE → single n = true → ∃ d, l = [d] ∧ d.ty = .DECLARATION)

def cvB (n : Nd) (a : Act) : Prop :=
  ready .media n = true → n.ty ≠ .AT_KEYWORD →
    match a with
    | .keep n' => finished n' = true
    | .into l => ∀ x ∈ l, Good x

def compA (n : Nd) : Act → Prop
  | .keep _ => True
  | .into l => szAll l < sz n

def compB (n : Nd) (a : Act) : Prop :=
  ready .top n = true →
    match a with
    | .keep n' => finished n' = true
    | .into l => ∀ x ∈ l, Good x

def loopB (p : Place) (l out : List Nd) : Prop := readyAll p l = true → finishedAll out = true

/-- The loops on children of at most this size. -/
structure Loops (E : Env) (N : Nat) : Prop where
  ruleLoop : ∀ l s, szAll l ≤ N → Runs (fun f => ruleLoop E f l) s (fun _ => True) (loopB .inRule l)
  items : ∀ l s, szAll l ≤ N → Runs (fun f => items E f l) s (fun _ => True) (loopB .item l)
  declValues : ∀ l s, vszAll l ≤ N → Runs (fun f => declValues E f l) s (fun _ => True)
    (fun out => loopB .declItem l out ∧ (Body .inDecl l → finishedAll out = true))
  declBlock : ∀ l s, szAll l ≤ N → Runs (fun f => declBlock E f l) s (fun _ => True) (loopB .inDecl l)
  mediaLoop : ∀ l s, szAll l ≤ N → Runs (fun f => mediaLoop E f l) s (fun _ => True) (loopB .media l)
  faceLoop : ∀ l s, szAll l ≤ N → Runs (fun f => faceLoop E f l) s (fun _ => True) (loopB .faceItem l)
  frames : ∀ pos l s, szAll l ≤ N → Runs (fun f => frames E f pos l) s (fun _ => True)
    (fun out => ∃ fs, out = some fs ∧ loopB .keyframe l fs)
  compLoop : ∀ l s, szAll l ≤ N → Runs (fun f => compLoop E f l) s (fun _ => True) (loopB .top l)

/-! ### Declarations -/

theorem evalArgs_runs (E : Env) (metrics : Bool) : ∀ (l : List Nd) (s : St),
    Runs (fun _ => evalArgs E metrics l) s
      (fun out => vszAll out ≤ vszAll l ∧ ∀ blk, Body blk l → Body blk out) (fun _ => True)
  | [], s => by
    unfold evalArgs
    exact Runs.pure ⟨Nat.le_refl _, fun _ h => h⟩ trivial
  | c :: cs, s => by
    unfold evalArgs
    by_cases h1 : cs.isEmpty = true ∧ c.ty = .OPEN_CURLYBRACKET
    · simp only [if_pos h1]
      obtain ⟨h1, h2⟩ := h1
      rw [List.isEmpty_iff] at h1
      subst h1
      exact Runs.pure ⟨Nat.le_refl _, fun _ h => h⟩ trivial
    · simp only [if_neg h1]
      by_cases h2 : c.ty ≠ .ARG
      · simp only [if_pos h2]; exact Runs.throws
      · simp only [if_neg h2]
        have h2 : c.ty = .ARG := by simpa using h2
        cases E.arg metrics c.kids with
        | none => exact Runs.throws
        | some p =>
          obtain ⟨kids, errs⟩ := p
          dsimp only
          refine Runs.bind (k := fun _ _ => evalArgs E metrics cs >>= fun cs => pure (.mk c.tok kids :: cs))
            (Runs.reports _ s) (fun _ s' _ => ?_)
          refine Runs.map (k := fun cs => Nd.mk c.tok kids :: cs) (evalArgs_runs E metrics cs s') (fun v hv => ?_)
            (fun _ _ _ => fun _ => trivial)
          obtain ⟨hv1, hv2⟩ := hv
          have ht : (Nd.mk c.tok kids).ty = .ARG := h2
          refine ⟨?_, fun blk hb => ?_⟩
          · rw [vszAll, vszAll, vsz_one (n := .mk c.tok kids) (by rw [ht]; rfl), vsz_one (n := c) (by rw [h2]; rfl)]
            omega
          · obtain ⟨pre, hp, hl⟩ := hv2 blk (Body.suffix (x := [c]) hb)
            refine ⟨.mk c.tok kids :: pre, ?_, ?_⟩
            · intro x hx
              rcases List.mem_cons.mp hx with rfl | hx
              · rw [ht]; rfl
              · exact hp x hx
            · rcases hl with hl | ⟨b, hl, hb⟩
              · exact .inl (by rw [hl])
              · exact .inr ⟨b, by rw [hl]; rfl, hb⟩

theorem declArgs_runs (E : Env) (n : Nd) (s : St) :
    Runs (fun _ => declArgs E n) s (fun out => vszAll out.kids ≤ vszAll n.kids + 1 ∧ out.tok = n.tok)
      (fun out => ∀ blk, Body blk n.kids → Body blk out.kids) := by
  unfold declArgs
  cases e : argify n (if E.slash n.tok.str then .DIVIDE else .COMMA) with
  | throws => exact Runs.throws
  | done kids err =>
    dsimp only
    refine Runs.bind (k := fun _ _ => evalArgs E (E.metrics n.tok.str) kids >>= fun kids => pure (Nd.mk n.tok kids))
      (Runs.reports _ s) (fun _ s' _ => ?_)
    refine Runs.map (k := fun kids => Nd.mk n.tok kids) (evalArgs_runs E _ kids s') (fun v hv => ?_) (fun v hv _ he blk hb => ?_)
    · have := vszAll_argify e
      exact ⟨by show vszAll v ≤ _; omega, rfl⟩
    · cases err with
      | none => exact hv.2 blk (hb.argify e)
      | some x => exact absurd rfl (he (.args, n.tok.pos) (by simp))

theorem declExpr_runs (E : Env) (n : Nd) (s : St) :
    Runs (fun _ => declExpr E n) s (fun out => vszAll out.kids ≤ vszAll n.kids + 1 ∧ out.tok = n.tok)
      (fun out => ∀ blk, Body blk n.kids → Body blk out.kids) := by
  unfold declExpr
  split
  · exact Runs.pure ⟨by omega, rfl⟩ (fun _ h => h)
  · rename_i c cs e
    by_cases h1 : isExpr (c :: cs) = true
    · simp only [if_pos h1]
      by_cases h2 : ieFilter n.tok.str c = true
      · simp only [if_pos h2]
        exact Runs.report_pure ⟨by omega, rfl⟩ (fun _ _ h => h)
      · simp only [if_neg h2]
        exact declArgs_runs E n s
    · simp only [if_neg h1]
      exact Runs.pure ⟨by omega, rfl⟩ (fun _ h => h)

theorem isNested_named {kids : List Nd} (h : isNested kids = true) : named kids = true := by
  unfold isNested at h
  split at h
  · rename_i c0 c1 c2 cs
    unfold named
    dsimp only
    split at h
    · cases h
    · rename_i h0
      split at h
      · cases h
      · split at h
        · rename_i h1
          split at h
          · rename_i h2
            simp only [decide_eq_true_eq]
            exact ⟨by simpa using h0, .inr ⟨h1, h2⟩⟩
          · cases h
        · split at h
          · rename_i h2
            simp only [decide_eq_true_eq]
            exact ⟨by simpa using h0, .inl h2⟩
          · cases h
  · cases h

/-- compile_declaration(). -/
theorem declaration_runs {E : Env} {N : Nat} (hL : ∀ M, M < N → Loops E M) (t : Tok) (kids : List Nd) (s : St)
    (hN : 1 + szAll kids ≤ N) :
    Runs (fun f => declaration E f t kids) s
      (fun a => ∀ l, a = .into l → ∃ d, l = [d] ∧ d.ty = .DECLARATION)
      (fun a => Body .inDecl kids → ∃ d, a = .into [d] ∧ finished d = true) := by
  refine Runs.succ (m := fun f => _) ?_ (fun f => by rw [declaration])
  cases e : declHead t.pos kids with
  | throws => exact Runs.throws
  | bad kids' warn err pos =>
    dsimp only
    refine Runs.reports_pure (by intro l h; cases h) (fun h => ?_)
    have hlev : err.level = .error := by
      have hv : ∀ {warn id l}, headValues t.pos warn id l = .bad kids' warn err pos → err.level = .error := by
        intro warn id l h
        unfold headValues at h
        split at h
        · cases h; rfl
        · split at h
          · split at h
            · cases h; rfl
            · cases h
          · cases h
      have hv' : ∀ {warn w id l}, headValues t.pos w id l = .bad kids' warn err pos → err.level = .error := by
        intro warn w id l h
        unfold headValues at h
        split at h
        · cases h; rfl
        · split at h
          · split at h
            · cases h; rfl
            · cases h
          · cases h
      have hc : ∀ {w id d l}, headColon t.pos w id d l = .bad kids' warn err pos → err.level = .error := by
        intro w id d l h
        unfold headColon at h
        split at h
        · exact hv' h
        · cases h; rfl
      have hs : ∀ {w id l}, headSpace t.pos w id l = .bad kids' warn err pos → err.level = .error := by
        intro w id l h
        unfold headSpace at h
        split at h
        · cases h
        · split at h
          · split at h
            · cases h
            · exact hc h
          · exact hc h
      unfold declHead at e
      split at e
      · cases e; rfl
      · cases e; rfl
      · split at e
        · exact hs e
        · split at e
          · exact hs e
          · split at e
            · exact hs e
            · cases e; rfl
    exact absurd hlev (h (err, pos) (by simp))
  | good warn name values =>
    dsimp only
    by_cases ht : t.ty = .COMPONENT_VALUE
    · simp only [if_pos ht]
      refine Runs.bind (m := fun _ => reports warn.toList)
        (k := fun f _ => declExpr E (declNode t.pos name values) >>= fun n => declValues E f n.kids >>= fun k => pure (Act.into [.mk n.tok k]))
        (Runs.reports _ s) (fun _ s' _ => ?_)
      refine Runs.bind (m := fun _ => declExpr E (declNode t.pos name values))
        (k := fun f n => declValues E f n.kids >>= fun k => pure (Act.into [.mk n.tok k]))
        (declExpr_runs E _ s') (fun n s' hn => ?_)
      have hsz := szAll_values e
      have h1 := vszAll_foldl values []
      have h2 := vszAll_le values
      have h3 : vszAll n.kids ≤ vszAll (values.foldl push []) + 1 := hn.1
      simp only [vszAll] at h1
      refine Runs.map (k := fun k => Act.into [.mk n.tok k]) ((hL (szAll kids) (by omega)).declValues n.kids s' (by omega))
        (fun v _ l hl => ?_) (fun v _ hv hb _ hk => ?_)
      · cases hl
        exact ⟨_, rfl, by show n.tok.ty = _; rw [hn.2]; rfl⟩
      · refine ⟨_, rfl, ?_⟩
        rw [finished_plain (by rw [hn.2]; exact .inr (.inr (.inr rfl)))]
        refine hv.2 (hb .inDecl ?_)
        obtain ⟨a, b, pre, rfl⟩ := declHead_good e
        exact (Body.suffix (x := a :: b :: pre) hk).foldl
    · simp only [if_neg ht]
      exact Runs.throws

/-! ### Rules -/

theorem rule_runs {E : Env} {N : Nat} (hL : ∀ M, M < N → Loops E M) (t : Tok) (kids : List Nd) (s : St)
    (hN : 1 + szAll kids ≤ N) (hlast : kids.getLast?.map Nd.ty = some .OPEN_CURLYBRACKET)
    (hhead : kids.head?.map Nd.ty ≠ some .ARG) :
    Runs (fun f => rule E f t kids) s (fun _ => True)
      (fun n => t.ty = .COMPONENT_VALUE → Body .inRule kids → finished n = true) := by
  refine Runs.succ (m := fun f => _) ?_ (fun f => by rw [rule])
  by_cases h1 : kids.length ≤ 1
  · simp only [if_pos h1]
    exact Runs.report_pure trivial (fun h => absurd rfl h)
  · simp only [if_neg h1]
    obtain ⟨pre, b, rfl, hb⟩ := last_of_map hlast
    cases e : Sel.parseSelector E.sel (.mk t (pre ++ [b])) with
    | throws => exact Runs.throws
    | undef => exact Runs.undef
    | refused e => exact Runs.report_pure trivial (fun h => absurd rfl h)
    | ok p =>
      obtain ⟨k, ids⟩ := p
      obtain ⟨sel, rfl, hs, ha⟩ := parseSelector_shape hb hhead e
      dsimp only
      rw [endBlock_append hb]
      dsimp only
      refine Runs.bind (m := fun _ => reports (ids.map fun i => (.twice i, t.pos)))
        (k := fun f _ => ruleLoop E f b.kids >>= fun bk => pure (Nd.mk t (sel ++ [.mk b.tok bk])))
        (Runs.reports _ s) (fun _ s' _ => ?_)
      have hsz : szAll b.kids < 1 + szAll (pre ++ [b]) := by
        rw [szAll_append, szAll_cons, szAll_nil]
        have := szAll_kids_le (n := b) (by rw [hb]; simp)
        omega
      refine Runs.map (A' := fun _ => True) (k := fun bk => Nd.mk t (sel ++ [.mk b.tok bk])) ((hL (szAll b.kids) (by omega)).ruleLoop b.kids s' (Nat.le_refl _))
        (fun _ _ => trivial) ?_
      intro v _ hv _ ht hbody
      have hready : readyAll .inRule b.kids = true := by
        obtain ⟨pre', hp, hl⟩ := hbody
        rcases hl with hl | ⟨b', hl, hb', hr⟩
        · have := hp b (by rw [← hl]; simp)
          rw [hb] at this; cases this
        · have := (List.append_inj' hl rfl).2
          cases this
          exact hr
      have hfin := hv hready
      rw [finished_cv ht, Bool.and_eq_true]
      constructor
      · cases sel with
        | nil => exact absurd rfl hs
        | cons a sel => simp [compiledCv, ha a (by simp)]
      · rw [finishedAll_iff]
        intro c hc
        rcases List.mem_append.mp hc with hc | hc
        · exact finished_token (by rw [ha c hc]; rfl)
        · rw [List.mem_singleton] at hc
          rw [hc, finished_plain (t := b.tok) (.inr (.inr (.inl hb)))]
          exact hfin

end Csspp.Compile
