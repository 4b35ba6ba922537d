import Verif.Lemmas.CompileAll

/-! Every function of Model/Compile.lean ends, and what is compiled without an error is finished: @-rules, component
values and the loops. -/

namespace Csspp.Compile
open Csspp.Parse (Nd push argify ArgRes mkArg argLoop)
open Csspp.Lex (Tok Pos)
open Csspp.Spec.Compiled

theorem isMediaLike_iff (s : Str) : isMediaLike s = true ↔ s ∈ mediaNames := by
  unfold isMediaLike mediaNames; simp
theorem isFaceLike_iff (s : Str) : isFaceLike s = true ↔ s ∈ faceNames := by
  unfold isFaceLike faceNames; simp
theorem isFrames_iff (s : Str) : isFrames s = true ↔ s ∈ frameNames := by
  unfold isFrames frameNames; simp

/-- No block: only tokens. -/
theorem Body.tokens {blk : Place} {l : List Nd} (h : Body blk l)
    (hl : l.getLast?.map Nd.ty ≠ some .OPEN_CURLYBRACKET) : ∀ c ∈ l, holds c.ty = false := by
  obtain ⟨pre, hp, h⟩ := h
  rcases h with rfl | ⟨b, rfl, hb, _⟩
  · exact hp
  · exact absurd (by rw [List.getLast?_append, List.getLast?_singleton]; simp [hb]) hl

theorem Body.block {blk : Place} {pre : List Nd} {b : Nd} (hb : b.ty = .OPEN_CURLYBRACKET) (h : Body blk (pre ++ [b])) :
    (∀ c ∈ pre, holds c.ty = false) ∧ readyAll blk b.kids = true := by
  obtain ⟨pre', hp, hl⟩ := h
  rcases hl with hl | ⟨b', hl, _, hr⟩
  · have := hp b (by rw [← hl]; simp)
    rw [hb] at this; cases this
  · obtain ⟨h1, h2⟩ := List.append_inj' hl rfl
    cases h2
    subst h1
    exact ⟨hp, hr⟩

theorem finished_block {pre : List Nd} {t : Tok} {kids : List Nd} (hp : ∀ c ∈ pre, holds c.ty = false)
    (ht : t.ty = .OPEN_CURLYBRACKET) (hk : finishedAll kids = true) : finishedAll (pre ++ [.mk t kids]) = true := by
  rw [finishedAll_iff]
  intro c hc
  rcases List.mem_append.mp hc with hc | hc
  · exact finished_token (hp c hc)
  · rw [List.mem_singleton] at hc
    rw [hc, finished_plain (.inr (.inr (.inl ht)))]
    exact hk

theorem finished_tokens {l : List Nd} (h : ∀ c ∈ l, holds c.ty = false) : finishedAll l = true := by
  rw [finishedAll_iff]; exact fun c hc => finished_token (h c hc)

theorem mediaArgs_runs (n : Nd) (s : St) (hn : n.ty = .AT_KEYWORD) :
    Runs (fun _ => mediaArgs n) s (fun _ => True) (fun k => ∀ blk, Body blk n.kids → Body blk k) := by
  unfold mediaArgs
  by_cases h : n.kids.length > 1
  · simp only [if_pos h]
    cases e : argify n .COMMA with
    | throws => exact Runs.throws
    | done kids err =>
      dsimp only
      refine Runs.reports_pure trivial (fun he blk hb => ?_)
      cases err with
      | none => exact hb.argify e
      | some x => exact absurd rfl (he (.args, n.tok.pos) (by simp))
  · simp only [if_neg h]
    exact Runs.pure trivial (fun _ h => h)

theorem doReturn_runs (E : Env) (t : Tok) (kids : List Nd) (s : St) :
    Runs (fun _ => doReturn E t kids) s (fun n => n.tok = t) (fun _ => True) := by
  unfold doReturn
  cases exprOf kids with
  | none => exact Runs.report_pure rfl (fun _ => trivial)
  | some x =>
    dsimp only
    cases E.ret kids with
    | none => exact Runs.throws
    | some r =>
      dsimp only
      refine Runs.bind (m := fun _ => reports (r.errs.map fun e => (.expr e.1, e.2)))
        (k := fun _ _ => (fun s => .ok () { s with ret := some (r.result.getD (.leaf { ty := .NULL_TOKEN, pos := t.pos })) } : M Unit)
          >>= fun _ => pure (Nd.mk t r.kids)) (Runs.reports _ s) (fun _ s' _ => ?_)
      exact ⟨.ok (.mk t r.kids) { s' with ret := some (r.result.getD (.leaf { ty := .NULL_TOKEN, pos := t.pos })) }, by simp,
        ⟨0, fun _ _ => rfl⟩, fun v s2 e => by cases e; exact ⟨⟨⟨[], rfl⟩, fun _ => by simp⟩, rfl, fun _ _ => trivial⟩⟩

/-- compile_at_keyword(). -/
theorem atKeyword_runs {E : Env} {N : Nat} (hL : ∀ M, M < N → Loops E M) (t : Tok) (kids : List Nd) (s : St)
    (hN : 1 + szAll kids ≤ N) (ht : t.ty = .AT_KEYWORD) :
    Runs (fun f => atKeyword E f (.mk t kids)) s (fun out => ∀ c, out = some c → c.tok = t)
      (fun out => ready .at (.mk t kids) = true → ∀ c, out = some c → finished c = true) := by
  refine Runs.succ (m := fun f => _) ?_ (fun f => by rw [atKeyword])
  have htn : (Nd.mk t kids).ty = .AT_KEYWORD := ht
  have hready : ∀ q, insideAt t.str = .kids (.body q) → ready .at (.mk t kids) = true → Body q kids := by
    intro q hq h
    rw [ready_eq] at h
    have : inside .at (.mk t kids) = .kids (.body q) := by
      unfold inside; dsimp only; rw [if_pos htn]; exact hq
    rw [this] at h
    exact body_of_ready h
  cases hm : messageOf t.str with
  | some p =>
    obtain ⟨l, d⟩ := p
    dsimp only
    exact Runs.report_pure (by intro c h; cases h) (fun _ _ c h => by cases h)
  | none =>
    dsimp only
    by_cases h1 : t.str = b!"charset"
    · simp only [if_pos h1]
      exact Runs.reports_pure (by intro c h; cases h) (fun _ _ c h => by cases h)
    · simp only [if_neg h1]
      by_cases h2 : isMediaLike t.str = true
      · simp only [if_pos h2]
        have hin : insideAt t.str = .kids (.body .media) := by
          unfold insideAt; rw [if_pos ((isMediaLike_iff _).mp h2)]
        cases e : endBlock kids with
        | none =>
          dsimp only
          refine Runs.pure (by intro c h; cases h; rfl) (fun hr c h => ?_)
          cases h
          exact finished_at ht (finished_tokens ((hready _ hin hr).tokens (endBlock_none e)))
        | some p =>
          obtain ⟨before, b⟩ := p
          obtain ⟨rfl, hb⟩ := endBlock_some e
          dsimp only
          refine Runs.bind (m := fun _ => mediaArgs (.mk t (before ++ [b]))) (k := fun f k => mediaLoop E f b.kids >>= fun bk =>
            pure (some (Nd.mk t ((if k.getLast?.map Nd.ty = some .OPEN_CURLYBRACKET then k.dropLast ++ [.mk b.tok bk] else k)))))
            (mediaArgs_runs (.mk t (before ++ [b])) s htn) (fun k s' _ => ?_)
          have hsz : szAll b.kids < 1 + szAll (before ++ [b]) := by
            rw [szAll_append, szAll_cons, szAll_nil]
            have := szAll_kids_le (n := b) (by rw [hb]; simp)
            omega
          refine Runs.map (A' := fun out => ∀ c, out = some c → c.tok = t) (k := fun bk =>
            some (Nd.mk t ((if k.getLast?.map Nd.ty = some .OPEN_CURLYBRACKET then k.dropLast ++ [.mk b.tok bk] else k))))
            ((hL (szAll b.kids) (by omega)).mediaLoop b.kids s' (Nat.le_refl _))
            (fun v _ c h => by cases h; rfl) ?_
          intro v _ hv hk hr c h
          cases h
          have hbody := hready _ hin hr
          have hfin := hv (hbody.block hb).2
          have hk := hk _ hbody
          refine finished_at ht ?_
          split
          · rename_i hl
            obtain ⟨pre, b', rfl, hb'⟩ := last_of_map hl
            rw [List.dropLast_concat]
            exact finished_block (hk.block hb').1 hb hfin
          · rename_i hl
            exact finished_tokens (hk.tokens hl)
      · simp only [if_neg h2]
        have hn2 : t.str ∉ mediaNames := fun h => h2 ((isMediaLike_iff _).mpr h)
        by_cases h3 : isFaceLike t.str = true
        · simp only [if_pos h3]
          have hin : insideAt t.str = .kids (.body .face) := by
            unfold insideAt; rw [if_neg hn2, if_pos ((isFaceLike_iff _).mp h3)]
          cases e : endBlock kids with
          | none =>
            dsimp only
            refine Runs.pure (by intro c h; cases h; rfl) (fun hr c h => ?_)
            cases h
            exact finished_at ht (finished_tokens ((hready _ hin hr).tokens (endBlock_none e)))
          | some p =>
            obtain ⟨before, b⟩ := p
            obtain ⟨rfl, hb⟩ := endBlock_some e
            dsimp only
            cases hk : b.kids with
            | nil =>
              dsimp only
              refine Runs.pure (by intro c h; cases h; rfl) (fun hr c h => ?_)
              cases h
              have hbody := (hready _ hin hr).block hb
              cases b with
              | mk bt bk =>
                have : bk = [] := hk
                subst this
                exact finished_at ht (finished_block hbody.1 hb finishedAll_nil)
            | cons x xs =>
              dsimp only
              have hsz : szAll b.kids < 1 + szAll (before ++ [b]) := by
                rw [szAll_append, szAll_cons, szAll_nil]
                have := szAll_kids_le (n := b) (by rw [hb]; simp)
                omega
              rw [hk] at hsz
              by_cases hx : x.ty = .LIST
              · simp only [if_pos hx]
                have hsz' : szAll x.kids < szAll (x :: xs) := by
                  rw [szAll_cons]
                  have := szAll_kids_le (n := x) (by rw [hx]; simp)
                  omega
                refine Runs.map (A' := fun out => ∀ c, out = some c → c.tok = t) (k := fun k =>
                  some (Nd.mk t (before ++ [.mk b.tok (.mk x.tok k :: xs)])))
                  ((hL (szAll x.kids) (by omega)).faceLoop x.kids s (Nat.le_refl _))
                  (fun v _ c h => by cases h; rfl) ?_
                intro v _ hv hr c h
                cases h
                have hbody := (hready _ hin hr).block hb
                have hr2 := hbody.2
                rw [hk, readyAll_cons, Bool.and_eq_true] at hr2
                obtain ⟨hr2, hr3⟩ := hr2
                have hr2 : ready .face x = true := hr2
                rw [ready_eq] at hr2
                unfold inside at hr2
                simp only [if_pos hx] at hr2
                have hnp : nextPlace .face x.ty = .done := by unfold nextPlace; simp [hx]
                rw [hnp, readyAll_even even_done] at hr3
                refine finished_at ht (finished_block hbody.1 hb ?_)
                rw [finishedAll_cons, Bool.and_eq_true]
                refine ⟨?_, ?_⟩
                · rw [finished_plain (t := x.tok) (.inl hx)]
                  exact hv hr2
                · rw [finishedAll_iff]
                  intro c hc
                  have := hr3 c hc
                  rw [ready_eq] at this
                  exact this
              · simp only [if_neg hx]
                refine Runs.map (A' := fun out => ∀ c, out = some c → c.tok = t) (k := fun k =>
                  some (Nd.mk t (before ++ [.mk b.tok k])))
                  ((hL (szAll (x :: xs)) (by omega)).faceLoop (x :: xs) s (Nat.le_refl _))
                  (fun v _ c h => by cases h; rfl) ?_
                intro v _ hv hr c h
                cases h
                have hbody := (hready _ hin hr).block hb
                have hr2 := hbody.2
                rw [hk, readyAll_cons, Bool.and_eq_true] at hr2
                obtain ⟨hr2, hr3⟩ := hr2
                have hr2 : ready .face x = true := hr2
                have hnp : nextPlace .face x.ty = .faceItem := by unfold nextPlace; simp [hx]
                rw [hnp] at hr3
                refine finished_at ht (finished_block hbody.1 hb (hv ?_))
                rw [readyAll_cons, Bool.and_eq_true]
                refine ⟨?_, hr3⟩
                show ready .faceItem x = true
                rw [ready_eq] at hr2 ⊢
                unfold inside at hr2 ⊢
                simp only [if_neg hx] at hr2 ⊢
                exact hr2
        · simp only [if_neg h3]
          have hn3 : t.str ∉ faceNames := fun h => h3 ((isFaceLike_iff _).mpr h)
          by_cases h4 : t.str = b!"return"
          · simp only [if_pos h4]
            refine Runs.map (A' := fun out => ∀ c, out = some c → c.tok = t) (k := fun n => some n) (doReturn_runs E t kids s)
              (fun v hv c h => by cases h; exact hv) ?_
            intro v hv _ _ c h
            cases h
            cases v with
            | mk vt vk =>
              have : vt = t := hv
              subst this
              exact finished_at_other ht (by rw [h4]; decide)
          · simp only [if_neg h4]
            by_cases h5 : isFrames t.str = true
            · simp only [if_pos h5]
              have hin : insideAt t.str = .kids (.body .keyframe) := by
                unfold insideAt; rw [if_neg hn2, if_neg hn3, if_pos ((isFrames_iff _).mp h5)]
              cases e : framesOf kids with
              | error x =>
                dsimp only
                refine Runs.report_pure (by intro c h; cases h; rfl) (fun hx => ?_)
                unfold framesOf at e
                split at e
                · split at e
                  · cases e; exact absurd rfl hx
                  · split at e
                    · cases e; exact absurd rfl hx
                    · cases e
                · cases e; exact absurd rfl hx
              | ok p =>
                obtain ⟨id, l⟩ := p
                dsimp only
                unfold framesOf at e
                split at e
                · rename_i id' block
                  split at e
                  · cases e
                  · rename_i hid
                    split at e
                    · cases e
                    · rename_i hb
                      cases e
                      have hb : block.ty = .OPEN_CURLYBRACKET := by simpa using hb
                      have hid : id.ty = .IDENTIFIER := by simpa using hid
                      have hsz : szAll block.kids < szAll [id, block] := by
                        rw [szAll_cons, szAll_cons, szAll_nil]
                        have := szAll_kids_le (n := block) (by rw [hb]; simp)
                        omega
                      refine Runs.bind (m := fun f => frames E f t.pos block.kids) (k := fun _ r => match r with
                        | none => pure (some (Nd.mk t [id, block]))
                        | some fs => pure (some (Nd.mk t (id :: fs))))
                        ((hL (szAll block.kids) (by omega)).frames t.pos block.kids s (Nat.le_refl _)) (fun v s' _ => ?_)
                      cases v with
                      | none =>
                        refine Runs.pure (by intro c h; cases h; rfl) (fun hv => ?_)
                        obtain ⟨fs, h, _⟩ := hv
                        cases h
                      | some fs =>
                        refine Runs.pure (by intro c h; cases h; rfl) (fun hv hr c h => ?_)
                        cases h
                        obtain ⟨fs', h, hv⟩ := hv
                        cases h
                        have hbody := Body.block (pre := [id]) hb (hready _ hin hr)
                        refine finished_at ht ?_
                        rw [finishedAll_cons, finished_token (n := id) (by rw [hid]; rfl)]
                        exact hv hbody.2
                · cases e
            · simp only [if_neg h5]
              refine Runs.pure (by intro c h; cases h; rfl) (fun _ c h => ?_)
              cases h
              have hn5 : t.str ∉ frameNames := fun h => h5 ((isFrames_iff _).mpr h)
              refine finished_at_other ht ?_
              rw [List.mem_append, List.mem_append]
              rintro ((h | h) | h)
              · exact hn2 h
              · exact hn3 h
              · exact hn5 h

end Csspp.Compile
