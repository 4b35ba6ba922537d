import Verif.Lemmas.CompileLoops

/-! Every function of Model/Compile.lean ends, and what is compiled without an error is finished: the loops. -/

namespace Csspp.Compile
open Csspp.Parse (Nd push argify ArgRes mkArg argLoop)
open Csspp.Lex (Tok Pos)
open Csspp.Spec.Compiled

/-- compile(n). -/
theorem comp_runs {E : Env} {N : Nat} (hL : ∀ M, M < N → Loops E M) (n : Nd) (s : St) (hN : sz n ≤ N) :
    Runs (fun f => comp E f n) s (compA n) (compB n) := by
  obtain ⟨t, kids⟩ := n
  refine Runs.succ (m := fun f => _) ?_ (fun f => by rw [comp])
  by_cases h1 : t.ty = .LIST ∨ t.ty = .FRAME
  · simp only [if_pos h1]
    have hsz := sz_mk (t := t) (kids := kids) (by rcases h1 with h | h <;> rw [h] <;> simp)
    refine Runs.map (A' := compA (.mk t kids)) (k := fun k => Act.keep (.mk t k))
      ((hL (szAll kids) (by omega)).compLoop kids s (Nat.le_refl _)) (fun _ _ => trivial) ?_
    intro v _ hv hr
    show finished (.mk t v) = true
    rw [finished_plain (by rcases h1 with h | h; exact .inl h; exact .inr (.inl h))]
    refine hv ?_
    rw [ready_eq] at hr
    have : inside .top (.mk t kids) = .kids .top := by
      unfold inside; dsimp only; exact if_pos h1
    rw [this] at hr
    exact hr
  · simp only [if_neg h1]
    by_cases h2 : t.ty = .DECLARATION ∨ t.ty = .COMMENT
    · simp only [if_pos h2]
      refine Runs.pure trivial (fun hr => ?_)
      show finished (.mk t kids) = true
      rw [ready_eq] at hr
      unfold inside at hr
      dsimp only at hr
      rw [if_neg (show ¬ ((Nd.mk t kids).ty = .LIST ∨ (Nd.mk t kids).ty = .FRAME) from h1),
        if_neg (show ¬ ((Nd.mk t kids).ty = .COMPONENT_VALUE) from by
          show ¬ t.ty = _; rcases h2 with h | h <;> rw [h] <;> simp),
        if_neg (show ¬ ((Nd.mk t kids).ty = .AT_KEYWORD) from by
          show ¬ t.ty = _; rcases h2 with h | h <;> rw [h] <;> simp)] at hr
      exact hr
    · simp only [if_neg h2]
      by_cases h3 : t.ty = .COMPONENT_VALUE
      · simp only [if_pos h3]
        have h3' : (Nd.mk t kids).ty = .COMPONENT_VALUE := h3
        refine (compValue_runs hL (.mk t kids) s hN).mono (fun a ha => ?_) (fun a _ hb hr => ?_)
        · cases a with
          | keep _ => trivial
          | into l => exact ha.1
        · refine hb ?_ (by rw [h3']; simp)
          rw [ready_eq] at hr ⊢
          rw [ready_cv h3' (by simp)] at hr ⊢
          exact hr
      · simp only [if_neg h3]
        by_cases h4 : t.ty = .AT_KEYWORD
        · simp only [if_pos h4]
          have hsz := sz_mk (t := t) (kids := kids) (by rw [h4]; simp)
          refine Runs.bind (m := fun f => atKeyword E f (.mk t kids)) (k := fun _ r => match r with
            | some n => pure (Act.keep n)
            | none => pure (Act.into [])) (atKeyword_runs hL t kids s (by omega) h4) (fun v s' hv => ?_)
          have h4' : (Nd.mk t kids).ty = .AT_KEYWORD := h4
          cases v with
          | none =>
            refine Runs.pure ?_ (fun _ _ x hx => by cases hx)
            show szAll [] < _
            rw [szAll_nil]; omega
          | some c =>
            refine Runs.pure trivial (fun hb hr => hb ?_ c rfl)
            rw [ready_eq] at hr ⊢
            unfold inside at hr ⊢
            simp only [h4'] at hr ⊢
            simpa using hr
        · simp only [if_neg h4]; exact Runs.throws

/-- One step of a loop that calls compile_component_value(). -/
theorem walk_runs {E : Env} {N : Nat} (hL : ∀ M, M < N → Loops E M) {p : Place} (hp : Walked p)
    {L : Nat → List Nd → M (List Nd)} {c : Nd} {cs : List Nd} {s : St} (hN : sz c + szAll cs ≤ N)
    (hc : ready p c = true → ready .media c = true ∧ c.ty ≠ .AT_KEYWORD)
    (h : ∀ l s, szAll l < sz c + szAll cs → Runs (fun f => L f l) s (fun _ => True) (loopB p l)) :
    Runs (fun f => do
      let a ← compValue E f c
      match a with
      | .keep n => do
        let ns ← L f cs
        pure (n :: ns)
      | .into l => L f (l ++ cs)) s (fun _ => True) (loopB p (c :: cs)) := by
  have hpos := sz_pos c
  refine Runs.bind (k := fun f a => match a with
      | .keep n => do
        let ns ← L f cs
        pure (n :: ns)
      | .into l => L f (l ++ cs)) (compValue_runs hL c s (by omega)) (fun a s' ha => ?_)
  have hsplit : readyAll p (c :: cs) = true → ready p c = true ∧ readyAll p cs = true := by
    intro hr
    rw [readyAll_cons, hp.even.1, hp.even.2, Bool.and_eq_true] at hr
    exact hr
  cases a with
  | keep n =>
    dsimp only
    refine Runs.map (A' := fun _ => True) (k := fun ns => n :: ns) (h cs s' (by omega)) (fun _ _ => trivial) ?_
    intro v _ hv hb hr
    obtain ⟨hr1, hr2⟩ := hsplit hr
    obtain ⟨hm, hat⟩ := hc hr1
    rw [finishedAll_cons, hv hr2]
    have := hb hm hat
    dsimp only at this
    rw [this]; rfl
  | into l =>
    dsimp only
    refine (h (l ++ cs) s' (by rw [szAll_append]; have := ha.1; omega)).mono (fun _ h => h) ?_
    intro v _ hv hb hr
    obtain ⟨hr1, hr2⟩ := hsplit hr
    obtain ⟨hm, hat⟩ := hc hr1
    exact hv (good_append hp (hb hm hat) hr2)

/-- One step of a loop that leaves the node. -/
theorem skip_runs {p : Place} (hp : Even p) {L : Nat → List Nd → M (List Nd)} {c : Nd} {cs : List Nd} {s : St}
    (hc : ready p c = true → finished c = true)
    (h : ∀ s, Runs (fun f => L f cs) s (fun _ => True) (loopB p cs)) :
    Runs (fun f => do
      let ns ← L f cs
      pure (c :: ns)) s (fun _ => True) (loopB p (c :: cs)) := by
  refine Runs.map (A' := fun _ => True) (k := fun ns => c :: ns) (h s) (fun _ _ => trivial) ?_
  intro v _ hv hr
  rw [readyAll_cons, hp.1, hp.2, Bool.and_eq_true] at hr
  rw [finishedAll_cons, hv hr.2, hc hr.1]; rfl

/-- One step of a loop that compiles the children of a node. -/
theorem kids_runs {p q : Place} (hp : Even p) {L L' : Nat → List Nd → M (List Nd)} {c : Nd} {cs : List Nd} {s : St}
    (hty : c.ty = .LIST ∨ c.ty = .FRAME ∨ c.ty = .OPEN_CURLYBRACKET ∨ c.ty = .DECLARATION)
    (hc : ready p c = true → readyAll q c.kids = true)
    (h' : ∀ s, Runs (fun f => L' f c.kids) s (fun _ => True) (loopB q c.kids))
    (h : ∀ s, Runs (fun f => L f cs) s (fun _ => True) (loopB p cs)) :
    Runs (fun f => do
      let k ← L' f c.kids
      let ns ← L f cs
      pure (.mk c.tok k :: ns)) s (fun _ => True) (loopB p (c :: cs)) := by
  refine Runs.bind (k := fun f k => L f cs >>= fun ns => pure (Nd.mk c.tok k :: ns)) (h' s) (fun k s' _ => ?_)
  refine Runs.map (A' := fun _ => True) (k := fun ns => Nd.mk c.tok k :: ns) (h s') (fun _ _ => trivial) ?_
  intro v _ hv hk hr
  rw [readyAll_cons, hp.1, hp.2, Bool.and_eq_true] at hr
  rw [finishedAll_cons, hv hr.2, finished_plain (t := c.tok) hty, hk (hc hr.1)]; rfl

theorem ready_media_cv {p : Place} {c : Nd} (h : c.ty = .COMPONENT_VALUE)
    (hp : p = .top ∨ p = .value ∨ p = .item ∨ p = .inRule ∨ p = .inDecl ∨ p = .media ∨ p = .face ∨ p = .faceItem ∨ p = .frame)
    (hr : ready p c = true) : ready .media c = true ∧ c.ty ≠ .AT_KEYWORD := by
  refine ⟨?_, by rw [h]; simp⟩
  rw [ready_eq] at hr ⊢
  rw [ready_cv h hp] at hr
  rw [ready_cv h (by simp)]
  exact hr

theorem nil_runs {s : St} {B : List Nd → Prop} (h : B []) :
    Runs (fun _ => (pure [] : M (List Nd))) s (fun _ => True) B := Runs.pure trivial h

section
variable {E : Env} {N : Nat} (hL : ∀ M, M < N → Loops E M)
include hL

theorem loop_cs {l : List Nd} {c : Nd} {cs : List Nd} (hN : szAll (c :: cs) ≤ N) (h : szAll l < sz c + szAll cs) :
    szAll l < N := by rw [szAll_cons] at hN; omega

theorem ruleLoop_runs (l : List Nd) (s : St) (hN : szAll l ≤ N) :
    Runs (fun f => ruleLoop E f l) s (fun _ => True) (loopB .inRule l) := by
  cases l with
  | nil => exact Runs.succ (nil_runs (fun _ => finishedAll_nil)) (fun f => by rw [ruleLoop])
  | cons c cs =>
    refine Runs.succ (m := fun f => _) ?_ (fun f => by rw [ruleLoop])
    have hN' := hN
    rw [szAll_cons] at hN'
    have hpos := sz_pos c
    have ih : ∀ l s, szAll l < sz c + szAll cs → Runs (fun f => ruleLoop E f l) s (fun _ => True) (loopB .inRule l) :=
      fun l s h => (hL (szAll l) (by omega)).ruleLoop l s (Nat.le_refl _)
    by_cases h1 : c.ty = .LIST
    · simp only [if_pos h1]
      have := szAll_kids_le (n := c) (by rw [h1]; simp)
      refine kids_runs even_inRule (q := .item) (.inl h1) (fun hr => ?_)
        (fun s => (hL (szAll c.kids) (by omega)).items c.kids s (Nat.le_refl _)) (fun s => ih cs s (by omega))
      rw [ready_eq] at hr
      simpa [inside, h1] using hr
    · simp only [if_neg h1]
      by_cases h2 : c.ty = .COMPONENT_VALUE
      · simp only [if_pos h2]
        exact walk_runs hL (.inr (.inr (.inl rfl))) hN' (fun hr => ready_media_cv h2 (by simp) hr) ih
      · simp only [if_neg h2]
        refine skip_runs even_inRule (fun hr => ?_) (fun s => ih cs s (by omega))
        rw [ready_eq] at hr
        simpa [inside, h1, h2] using hr

theorem items_runs (l : List Nd) (s : St) (hN : szAll l ≤ N) :
    Runs (fun f => items E f l) s (fun _ => True) (loopB .item l) := by
  cases l with
  | nil => exact Runs.succ (nil_runs (fun _ => finishedAll_nil)) (fun f => by rw [items])
  | cons c cs =>
    refine Runs.succ (m := fun f => _) ?_ (fun f => by rw [items])
    have hN' := hN
    rw [szAll_cons] at hN'
    have ih : ∀ l s, szAll l < sz c + szAll cs → Runs (fun f => items E f l) s (fun _ => True) (loopB .item l) :=
      fun l s h => (hL (szAll l) (by omega)).items l s (Nat.le_refl _)
    refine walk_runs hL (.inr (.inl rfl)) hN' (fun hr => ?_) ih
    by_cases h2 : c.ty = .COMPONENT_VALUE
    · exact ready_media_cv h2 (by simp) hr
    · rw [ready_eq] at hr ⊢
      simp only [inside, if_neg h2, Bool.and_eq_true, decide_eq_true_eq] at hr
      rcases hr.1 with h | h <;> simp [inside, h, hr.2]

theorem declBlock_runs (l : List Nd) (s : St) (hN : szAll l ≤ N) :
    Runs (fun f => declBlock E f l) s (fun _ => True) (loopB .inDecl l) := by
  cases l with
  | nil => exact Runs.succ (nil_runs (fun _ => finishedAll_nil)) (fun f => by rw [declBlock])
  | cons c cs =>
    refine Runs.succ (m := fun f => _) ?_ (fun f => by rw [declBlock])
    have hN' := hN
    rw [szAll_cons] at hN'
    have hpos := sz_pos c
    have ih : ∀ l s, szAll l < sz c + szAll cs → Runs (fun f => declBlock E f l) s (fun _ => True) (loopB .inDecl l) :=
      fun l s h => (hL (szAll l) (by omega)).declBlock l s (Nat.le_refl _)
    by_cases h1 : c.ty = .LIST
    · simp only [if_pos h1]
      have := szAll_kids_le (n := c) (by rw [h1]; simp)
      refine kids_runs even_inDecl (q := .declItem) (.inl h1) (fun hr => ?_)
        (fun s => ((hL (szAll c.kids) (by omega)).declValues c.kids s (vszAll_le _)).mono (fun _ h => h) (fun _ _ h => h.1))
        (fun s => ih cs s (by omega))
      rw [ready_eq] at hr
      simpa [inside, h1] using hr
    · simp only [if_neg h1]
      by_cases h2 : c.ty = .COMPONENT_VALUE
      · simp only [if_pos h2]
        exact walk_runs hL (.inr (.inr (.inr (.inl rfl)))) hN' (fun hr => ready_media_cv h2 (by simp) hr) ih
      · simp only [if_neg h2]
        by_cases h3 : c.ty = .DECLARATION
        · simp only [if_pos h3]
          refine skip_runs even_inDecl (fun hr => ?_) (fun s => ih cs s (by omega))
          rw [ready_eq] at hr
          simpa [inside, h1, h2] using hr
        · simp only [if_neg h3]; exact Runs.throws

theorem mediaLoop_runs (l : List Nd) (s : St) (hN : szAll l ≤ N) :
    Runs (fun f => mediaLoop E f l) s (fun _ => True) (loopB .media l) := by
  cases l with
  | nil => exact Runs.succ (nil_runs (fun _ => finishedAll_nil)) (fun f => by rw [mediaLoop])
  | cons c cs =>
    refine Runs.succ (m := fun f => _) ?_ (fun f => by rw [mediaLoop])
    have hN' := hN
    rw [szAll_cons] at hN'
    have hpos := sz_pos c
    have ih : ∀ l s, szAll l < sz c + szAll cs → Runs (fun f => mediaLoop E f l) s (fun _ => True) (loopB .media l) :=
      fun l s h => (hL (szAll l) (by omega)).mediaLoop l s (Nat.le_refl _)
    by_cases h1 : c.ty = .AT_KEYWORD
    · simp only [if_pos h1]
      obtain ⟨t, kids⟩ := c
      have h1' : t.ty = .AT_KEYWORD := h1
      have hsz := sz_mk (t := t) (kids := kids) (by rw [h1']; simp)
      refine Runs.bind (m := fun f => atKeyword E f (.mk t kids)) (k := fun f r => match r with
        | some n => do
          let ns ← mediaLoop E f cs
          pure (n :: ns)
        | none => mediaLoop E f cs) (atKeyword_runs hL t kids s (by omega) h1') (fun v s' hv => ?_)
      have hsplit : readyAll .media (.mk t kids :: cs) = true → ready .at (.mk t kids) = true ∧ readyAll .media cs = true := by
        intro hr
        rw [readyAll_cons, Bool.and_eq_true] at hr
        refine ⟨?_, hr.2⟩
        have hr1 : ready .media (.mk t kids) = true := hr.1
        rw [ready_eq] at hr1 ⊢
        simpa [inside, h1] using hr1
      cases v with
      | some n =>
        dsimp only
        refine Runs.map (A' := fun _ => True) (k := fun ns => n :: ns) (ih cs s' (by omega)) (fun _ _ => trivial) ?_
        intro v _ hv' hb hr
        obtain ⟨hr1, hr2⟩ := hsplit hr
        rw [finishedAll_cons, hv' hr2, hb hr1 n rfl]; rfl
      | none =>
        dsimp only
        exact (ih cs s' (by omega)).mono (fun _ h => h) (fun v _ hv _ hr => hv (hsplit hr).2)
    · simp only [if_neg h1]
      exact walk_runs hL (.inr (.inr (.inr (.inr (.inl rfl))))) hN' (fun hr => ⟨hr, h1⟩) ih

theorem faceLoop_runs (l : List Nd) (s : St) (hN : szAll l ≤ N) :
    Runs (fun f => faceLoop E f l) s (fun _ => True) (loopB .faceItem l) := by
  cases l with
  | nil => exact Runs.succ (nil_runs (fun _ => finishedAll_nil)) (fun f => by rw [faceLoop])
  | cons c cs =>
    refine Runs.succ (m := fun f => _) ?_ (fun f => by rw [faceLoop])
    have hN' := hN
    rw [szAll_cons] at hN'
    have hpos := sz_pos c
    have ih : ∀ l s, szAll l < sz c + szAll cs → Runs (fun f => faceLoop E f l) s (fun _ => True) (loopB .faceItem l) :=
      fun l s h => (hL (szAll l) (by omega)).faceLoop l s (Nat.le_refl _)
    by_cases h2 : c.ty = .COMPONENT_VALUE
    · simp only [if_pos h2]
      exact walk_runs hL (.inr (.inr (.inr (.inr (.inr rfl))))) hN' (fun hr => ready_media_cv h2 (by simp) hr) ih
    · simp only [if_neg h2]
      refine skip_runs even_faceItem (fun hr => ?_) (fun s => ih cs s (by omega))
      rw [ready_eq] at hr
      simpa [inside, h2] using hr

theorem compLoop_runs (l : List Nd) (s : St) (hN : szAll l ≤ N) :
    Runs (fun f => compLoop E f l) s (fun _ => True) (loopB .top l) := by
  cases l with
  | nil => exact Runs.succ (nil_runs (fun _ => finishedAll_nil)) (fun f => by rw [compLoop])
  | cons c cs =>
    by_cases hret : s.ret.isSome = true
    · refine ⟨.ok (c :: cs) s, by simp, ⟨1, fun g hg => ?_⟩, fun v s' e => ?_⟩
      · obtain ⟨g, rfl⟩ : ∃ k, g = k + 1 := ⟨g - 1, by omega⟩
        show compLoop E (g + 1) (c :: cs) s = _
        rw [compLoop]
        exact if_pos hret
      · cases e
        refine ⟨.refl _, trivial, fun hc => ?_⟩
        rw [hc.2] at hret
        cases hret
    refine Runs.succ (m := fun f => do
        let a ← comp E f c
        match a with
        | .keep n => do
          let ns ← compLoop E f cs
          pure (n :: ns)
        | .into l => compLoop E f (l ++ cs)) ?_ (fun f => by rw [compLoop]; exact if_neg hret)
    have hN' := hN
    rw [szAll_cons] at hN'
    have hpos := sz_pos c
    have ih : ∀ l s, szAll l < sz c + szAll cs → Runs (fun f => compLoop E f l) s (fun _ => True) (loopB .top l) :=
      fun l s h => (hL (szAll l) (by omega)).compLoop l s (Nat.le_refl _)
    refine Runs.bind (k := fun f a => match a with
        | .keep n => do
          let ns ← compLoop E f cs
          pure (n :: ns)
        | .into l => compLoop E f (l ++ cs)) (comp_runs hL c s (by omega)) (fun a s' ha => ?_)
    cases a with
    | keep n =>
      dsimp only
      refine Runs.map (A' := fun _ => True) (k := fun ns => n :: ns) (ih cs s' (by omega)) (fun _ _ => trivial) ?_
      intro v _ hv hb hr
      rw [readyAll_cons, Bool.and_eq_true] at hr
      rw [finishedAll_cons, hv hr.2]
      have := hb hr.1
      dsimp only at this
      rw [this]; rfl
    | into l =>
      dsimp only
      have ha : szAll l < sz c := ha
      refine (ih (l ++ cs) s' (by rw [szAll_append]; omega)).mono (fun _ h => h) ?_
      intro v _ hv hb hr
      rw [readyAll_cons, Bool.and_eq_true] at hr
      exact hv (good_append (.inl rfl) (hb hr.1) hr.2)

omit hL in
theorem framePos_error {c : Nd} {e : Err} (h : framePos E c = .error e) : e.level = .error := by
  unfold framePos at h
  split at h
  · split at h
    · cases h
    · split at h
      · cases h
      · cases h; rfl
  · split at h
    · split at h
      · cases h
      · cases h; rfl
    · cases h; rfl

theorem frames_runs (pos : Pos) (l : List Nd) (s : St) (hN : szAll l ≤ N) :
    Runs (fun f => frames E f pos l) s (fun _ => True) (fun out => ∃ fs, out = some fs ∧ loopB .keyframe l fs) := by
  cases l with
  | nil => exact Runs.succ (Runs.pure (v := some []) trivial ⟨[], rfl, fun _ => finishedAll_nil⟩) (fun f => by rw [frames])
  | cons c cs =>
    have hN' := hN
    rw [szAll_cons] at hN'
    have hpos := sz_pos c
    cases e : frameOf E c with
    | error x =>
      refine Runs.succ (m := fun _ => do report x pos; pure none) ?_ (fun f => by rw [frames, e])
      refine Runs.report_pure trivial (fun hx => absurd ?_ hx)
      unfold frameOf at e
      split at e
      · cases e; rfl
      · split at e
        · split at e
          · cases e; rfl
          · split at e
            · split at e
              · cases e; rfl
              · split at e
                · rename_i h; cases e; exact framePos_error (E := E) h
                · cases e
            · cases e; rfl
        · cases e; rfl
    | ok n =>
      obtain ⟨ft, fk⟩ := n
      refine Runs.succ (m := fun f => do
          let k ← compLoop E f fk
          let r ← frames E f pos cs
          match r with
          | none => pure none
          | some fs => pure (some (.mk ft k :: fs))) ?_ (fun f => by rw [frames, e]; rfl)
      have hfr : ft.ty = .FRAME ∧ szAll fk < sz c ∧ (ready .keyframe c = true → readyAll .top fk = true) := by
        unfold frameOf at e
        split at e
        · cases e
        · rename_i hcv
          have hcv : c.ty = .COMPONENT_VALUE := by simpa using hcv
          split at e
          · rename_i p b hk
            split at e
            · cases e
            · rename_i hb
              have hb : b.ty = .OPEN_CURLYBRACKET := by simpa using hb
              split at e
              · rename_i x hx
                split at e
                · cases e
                · rename_i hxt
                  split at e
                  · cases e
                  · cases e
                    have h1 := sz_kids (n := c) (by rw [hcv]; simp)
                    have h2 := sz_kids (n := b) (by rw [hb]; simp)
                    rw [hk, szAll_cons, szAll_cons, szAll_nil] at h1
                    rw [hx, szAll_cons, szAll_nil] at h2
                    have hr : ready .keyframe c = true → ready .frame x = true := by
                      intro hr
                      rw [ready_eq] at hr
                      unfold inside at hr
                      simp only [if_pos hcv] at hr
                      rw [hk] at hr
                      have := (Body.block (pre := [p]) hb (body_of_ready hr)).2
                      rw [hx, readyAll_cons, Bool.and_eq_true] at this
                      exact this.1
                    refine ⟨rfl, ?_, ?_⟩
                    · split
                      · rw [szAll_cons, szAll_nil]; omega
                      · rename_i hx2
                        have hxl : x.ty = .LIST := by
                          by_cases h : x.ty = .LIST
                          · exact h
                          · exact absurd ⟨hx2, h⟩ hxt
                        have := szAll_kids_le (n := x) (by rw [hxl]; simp)
                        omega
                    · intro hc
                      have hr := hr hc
                      rw [ready_eq] at hr
                      split
                      · rename_i hx2
                        rw [ready_cv hx2 (by simp)] at hr
                        rw [readyAll_cons, readyAll_nil, Bool.and_true]
                        show ready .top x = true
                        rw [ready_eq, ready_cv hx2 (by simp)]
                        exact hr
                      · rename_i hx2
                        have hxl : x.ty = .LIST := by
                          by_cases h : x.ty = .LIST
                          · exact h
                          · exact absurd ⟨hx2, h⟩ hxt
                        unfold inside at hr
                        simp only [if_pos hxl] at hr
                        exact hr
              · cases e
          · cases e
      obtain ⟨hft, hsz, hrf⟩ := hfr
      refine Runs.bind (m := fun f => compLoop E f fk) (k := fun f k => frames E f pos cs >>= fun r => match r with
          | none => pure none
          | some fs => pure (some (Nd.mk ft k :: fs)))
          ((hL (szAll fk) (by omega)).compLoop fk s (Nat.le_refl _)) (fun k s' _ => ?_)
      refine Runs.bind (m := fun f => frames E f pos cs) (k := fun f r => match r with
          | none => pure none
          | some fs => pure (some (Nd.mk ft k :: fs)))
          ((hL (szAll cs) (by omega)).frames pos cs s' (Nat.le_refl _)) (fun r s' _ => ?_)
      cases r with
      | none =>
        refine Runs.pure trivial (fun hf => ?_)
        obtain ⟨fs, h, _⟩ := hf
        cases h
      | some fs =>
        refine Runs.pure trivial (fun hf hk => ?_)
        obtain ⟨fs', h, hf⟩ := hf
        cases h
        refine ⟨_, rfl, fun hr => ?_⟩
        rw [readyAll_cons, Bool.and_eq_true] at hr
        rw [finishedAll_cons, hf hr.2, finished_plain (.inr (.inl hft)), hk (hrf hr.1)]; rfl

theorem declValues_runs (l : List Nd) (s : St) (hN : vszAll l ≤ N) :
    Runs (fun f => declValues E f l) s (fun _ => True)
      (fun out => loopB .declItem l out ∧ (Body .inDecl l → finishedAll out = true)) := by
  cases l with
  | nil => exact Runs.succ (nil_runs ⟨fun _ => finishedAll_nil, fun _ => finishedAll_nil⟩) (fun f => by rw [declValues])
  | cons c cs =>
    refine Runs.succ (m := fun f => _) ?_ (fun f => by rw [declValues])
    have hN' := hN
    rw [vszAll] at hN'
    have hpos := vsz_pos c
    have ih : ∀ l s, vszAll l < vsz c + vszAll cs → Runs (fun f => declValues E f l) s (fun _ => True)
        (fun out => loopB .declItem l out ∧ (Body .inDecl l → finishedAll out = true)) :=
      fun l s h => (hL (vszAll l) (by omega)).declValues l s (Nat.le_refl _)
    have hsplit : readyAll .declItem (c :: cs) = true → ready .declItem c = true ∧ readyAll .declItem cs = true := by
      intro hr
      rw [readyAll_cons, Bool.and_eq_true] at hr
      exact hr
    -- a block is the last of the values
    have hbody : Body .inDecl (c :: cs) → (holds c.ty = false ∨ c.ty = .OPEN_CURLYBRACKET ∧ readyAll .inDecl c.kids = true) ∧
        Body .inDecl cs := by
      intro hb
      refine ⟨?_, Body.suffix (x := [c]) hb⟩
      obtain ⟨pre, hp, hl⟩ := hb
      rcases hl with hl | ⟨b, hl, hb⟩
      · exact .inl (hp c (by rw [← hl]; simp))
      · cases pre with
        | nil =>
          cases hl
          exact .inr hb
        | cons x pre =>
          cases hl
          exact .inl (hp _ (by simp))
    by_cases h1 : c.ty = .LIST
    · simp only [if_pos h1]
      have hv : vsz c = sz c := vsz_of (by rw [h1]; rfl)
      have := szAll_kids_le (n := c) (by rw [h1]; simp)
      have := vszAll_le c.kids
      refine Runs.bind (m := fun f => declValues E f c.kids)
        (k := fun f k => declValues E f cs >>= fun ns => pure (Nd.mk c.tok k :: ns)) (ih c.kids s (by omega)) (fun k s' _ => ?_)
      refine Runs.map (A' := fun _ => True) (k := fun ns => Nd.mk c.tok k :: ns) (ih cs s' (by omega)) (fun _ _ => trivial) ?_
      intro v _ _ _
      refine ⟨fun hr => ?_, fun hb => ?_⟩
      · have := (hsplit hr).1
        rw [ready_eq] at this
        simp [inside, h1] at this
      · rcases (hbody hb).1 with h | h
        · rw [h1] at h; cases h
        · rw [h1] at h; cases h.1
    · simp only [if_neg h1]
      by_cases h2 : c.ty = .OPEN_CURLYBRACKET
      · simp only [if_pos h2]
        have hv : vsz c = sz c := vsz_of (by rw [h2]; rfl)
        have := szAll_kids_le (n := c) (by rw [h2]; simp)
        refine Runs.bind (m := fun f => declBlock E f c.kids)
          (k := fun f k => declValues E f cs >>= fun ns => pure (Nd.mk c.tok k :: ns))
          ((hL (szAll c.kids) (by omega)).declBlock c.kids s (Nat.le_refl _)) (fun k s' _ => ?_)
        refine Runs.map (A' := fun _ => True) (k := fun ns => Nd.mk c.tok k :: ns) (ih cs s' (by omega)) (fun _ _ => trivial) ?_
        intro v _ hv hk
        refine ⟨fun hr => ?_, fun hb => ?_⟩
        · have := (hsplit hr).1
          rw [ready_eq] at this
          simp [inside, h2] at this
        · obtain ⟨hc, hcs⟩ := hbody hb
          rcases hc with h | h
          · rw [h2] at h; cases h
          · rw [finishedAll_cons, hv.2 hcs, finished_plain (t := c.tok) (.inr (.inr (.inl h2))), hk h.2]; rfl
      · simp only [if_neg h2]
        by_cases h3 : c.ty = .COMPONENT_VALUE
        · simp only [if_pos h3]
          have hv : vsz c = sz c := vsz_of (by rw [h3]; rfl)
          refine Runs.bind (k := fun f a => match a with
            | .keep n => do
              let ns ← declValues E f cs
              pure (n :: ns)
            | .into l =>
              match l ++ cs with
              | [] => pure []
              | x :: xs => do
                let ns ← declValues E f xs
                pure (x :: ns)) (compValue_runs hL c s (by omega)) (fun a s' ha => ?_)
          have hnb : ¬ Body .inDecl (c :: cs) := by
            intro hb
            rcases (hbody hb).1 with h | h
            · rw [h3] at h; cases h
            · rw [h3] at h; cases h.1
          have hready : readyAll .declItem (c :: cs) = true → ready .media c = true ∧ c.ty ≠ .AT_KEYWORD ∧ single c = true := by
            intro hr
            have := (hsplit hr).1
            rw [ready_eq] at this
            unfold inside at this
            simp only [if_pos h3] at this
            by_cases hs : single c = true
            · rw [if_pos hs] at this
              refine ⟨?_, by rw [h3]; simp, hs⟩
              rw [ready_eq, ready_cv h3 (by simp)]
              exact this
            · rw [if_neg hs] at this
              cases this
          cases a with
          | keep n =>
            dsimp only
            refine Runs.map (A' := fun _ => True) (k := fun ns => n :: ns) (ih cs s' (by omega)) (fun _ _ => trivial) ?_
            intro v _ hv hb
            refine ⟨fun hr => ?_, fun hb => absurd hb hnb⟩
            obtain ⟨hm, hat, _⟩ := hready hr
            rw [finishedAll_cons, hv.1 (hsplit hr).2]
            have := hb hm hat
            dsimp only at this
            rw [this]; rfl
          | into l =>
            dsimp only
            obtain ⟨ha1, ha2⟩ := ha
            cases e : l ++ cs with
            | nil =>
              dsimp only
              refine Runs.pure trivial (fun _ => ⟨fun hr => finishedAll_nil, fun hb => absurd hb hnb⟩)
            | cons x xs =>
              dsimp only
              have hlen : vszAll (x :: xs) < vsz c + vszAll cs := by
                rw [← e, vszAll_append]
                have := vszAll_le l
                omega
              rw [vszAll] at hlen
              refine Runs.map (A' := fun _ => True) (k := fun ns => x :: ns) (ih xs s' (by omega)) (fun _ _ => trivial) ?_
              intro v _ hv hb
              refine ⟨fun hr => ?_, fun hb => absurd hb hnb⟩
              obtain ⟨hm, hat, hs⟩ := hready hr
              obtain ⟨d, rfl, hd⟩ := ha2 h3 hs
              cases e
              rw [finishedAll_cons, hv.1 (hsplit hr).2]
              have := hb hm hat x (by simp)
              rcases this with ⟨h, _⟩ | ⟨_, h⟩
              · rw [hd] at h; cases h
              · rw [h]; rfl
        · simp only [if_neg h3]
          refine Runs.map (A' := fun _ => True) (k := fun ns => c :: ns) (ih cs s (by omega)) (fun _ _ => trivial) ?_
          intro v _ hv
          refine ⟨fun hr => ?_, fun hb => ?_⟩
          · obtain ⟨hr1, hr2⟩ := hsplit hr
            rw [finishedAll_cons, hv.1 hr2]
            rw [ready_eq] at hr1
            simp only [inside, if_neg h3, Bool.and_eq_true] at hr1
            rw [hr1.2]; rfl
          · obtain ⟨hc, hcs⟩ := hbody hb
            rcases hc with h | h
            · rw [finishedAll_cons, hv.2 hcs, finished_token h]; rfl
            · exact absurd h.1 h2

theorem loops_at : Loops E N :=
  ⟨ruleLoop_runs hL, items_runs hL, declValues_runs hL, declBlock_runs hL, mediaLoop_runs hL, faceLoop_runs hL,
    frames_runs hL, compLoop_runs hL⟩

end

theorem loops_all (E : Env) (N : Nat) : Loops E N := by
  induction N using Nat.strongRecOn with
  | _ N ih => exact loops_at ih

end Csspp.Compile
