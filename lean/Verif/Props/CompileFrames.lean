import Verif.Props.CompileDecl

/-!
C66: @keyframes. The frames are compiled in their order, each one with its position; anything else is refused with
exactly one error.
-/

namespace Csspp.Compile
open Csspp.Parse (Nd)
open Csspp.Lex (Tok Pos Num Made)

/-- The position of a frame: `from` is 0%, `to` is 100%, or it is a percentage from 0% to 100%. -/
inductive FrameAt (E : Env) : Nd → Option Num × Option Made → Prop
  | start {p : Nd} (h : p.ty = .IDENTIFIER) (hs : p.tok.str = b!"from") : FrameAt E p (some ⟨false, 0, [], 0⟩, none)
  | finish {p : Nd} (h : p.ty = .IDENTIFIER) (hs : p.tok.str = b!"to") : FrameAt E p (some ⟨false, 100, [], 0⟩, none)
  | percent {p : Nd} (h : p.ty = .PERCENT) (hs : E.inUnit p.tok = true) : FrameAt E p (p.tok.num, p.tok.made)

/-- One frame, `position { declarations }`: its position, and what is in its block. -/
inductive IsFrame (E : Env) : Nd → Tok → List Nd → Prop
  | one {t : Tok} {p b x : Nd} {num : Option Num × Option Made} (ht : t.ty = .COMPONENT_VALUE) (hp : FrameAt E p num)
      (hb : b.ty = .OPEN_CURLYBRACKET) (hk : b.kids = [x]) (hx : x.ty = .COMPONENT_VALUE) :
      IsFrame E (.mk t [p, b]) { ty := .FRAME, pos := p.tok.pos, num := num.1, made := num.2 } [x]
  | several {t : Tok} {p b x : Nd} {num : Option Num × Option Made} (ht : t.ty = .COMPONENT_VALUE) (hp : FrameAt E p num)
      (hb : b.ty = .OPEN_CURLYBRACKET) (hk : b.kids = [x]) (hx : x.ty = .LIST) :
      IsFrame E (.mk t [p, b]) { ty := .FRAME, pos := p.tok.pos, num := num.1, made := num.2 } x.kids

/-- The frames in their order, each with its contents compiled. -/
inductive Frames (E : Env) : List Nd → List Nd → St → St → Prop
  | nil {s : St} : Frames E [] [] s s
  | cons {c : Nd} {cs out : List Nd} {ft : Tok} {fk k : List Nd} {s s1 s2 : St} (hf : IsFrame E c ft fk)
      (hk : Gives (fun f => compLoop E f fk) s (.ok k s1)) (hr : Frames E cs out s1 s2) :
      Frames E (c :: cs) (.mk ft k :: out) s s2

theorem framePos_iff {E : Env} {p : Nd} {num : Option Num × Option Made} : framePos E p = .ok num ↔ FrameAt E p num := by
  unfold framePos
  constructor
  · intro h
    split at h
    · rename_i h1
      split at h
      · rename_i h2; cases h; exact .start h1 h2
      · split at h
        · rename_i h2; cases h; exact .finish h1 h2
        · cases h
    · split at h
      · rename_i h1
        split at h
        · rename_i h2; cases h; exact .percent h1 h2
        · cases h
      · cases h
  · intro h
    cases h with
    | start h hs => rw [if_pos h, if_pos hs]
    | finish h hs => rw [if_pos h, if_neg (by rw [hs]; decide), if_pos hs]
    | percent h hs => rw [if_neg (by rw [h]; simp), if_pos h, if_pos hs]

theorem frameOf_iff {E : Env} {c : Nd} {ft : Tok} {fk : List Nd} : frameOf E c = .ok (.mk ft fk) ↔ IsFrame E c ft fk := by
  constructor
  · intro h
    unfold frameOf at h
    split at h
    · cases h
    · rename_i hcv
      have hcv : c.ty = .COMPONENT_VALUE := by simpa using hcv
      split at h
      · rename_i p b hk
        split at h
        · cases h
        · rename_i hb
          have hb : b.ty = .OPEN_CURLYBRACKET := by simpa using hb
          split at h
          · rename_i x hx
            split at h
            · cases h
            · rename_i hxt
              split at h
              · cases h
              · rename_i num hp
                have hp := framePos_iff.mp hp
                obtain ⟨t, kids⟩ := c
                have hk : kids = [p, b] := hk
                subst hk
                cases h
                by_cases hc : x.ty = .COMPONENT_VALUE
                · rw [if_pos hc]; exact .one hcv hp hb hx hc
                · rw [if_neg hc]
                  refine .several hcv hp hb hx ?_
                  simp only [ne_eq, not_and, Classical.not_not] at hxt
                  exact hxt hc
          · cases h
      · cases h
  · intro h
    cases h with
    | one ht hp hb hk hx =>
      unfold frameOf
      rw [if_neg (show ¬ (Nd.mk _ _).ty ≠ _ from fun y => y ht)]
      rw [show ∀ t l, (Nd.mk t l).kids = l from fun _ _ => rfl]
      dsimp only
      rw [if_neg (fun y => y hb), hk]
      dsimp only
      rw [if_neg (by rw [hx]; simp), framePos_iff.mpr hp]
      dsimp only
      rw [if_pos hx]
    | several ht hp hb hk hx =>
      unfold frameOf
      rw [if_neg (show ¬ (Nd.mk _ _).ty ≠ _ from fun y => y ht)]
      rw [show ∀ t l, (Nd.mk t l).kids = l from fun _ _ => rfl]
      dsimp only
      rw [if_neg (fun y => y hb), hk]
      dsimp only
      rw [if_neg (by rw [hx]; simp), framePos_iff.mpr hp]
      dsimp only
      rw [if_neg (by rw [hx]; simp)]

theorem frameOf_error {E : Env} {c : Nd} {e : Err} (h : frameOf E c = .error e) : e.level = .error := by
  unfold frameOf at h
  split at h
  · cases h; rfl
  · split at h
    · split at h
      · cases h; rfl
      · split at h
        · split at h
          · cases h; rfl
          · split at h
            · rename_i hp
              cases h
              unfold framePos at hp
              split at hp
              · split at hp
                · cases hp
                · split at hp
                  · cases hp
                  · cases hp; rfl
              · split at hp
                · split at hp
                  · cases hp
                  · cases hp; rfl
                · cases hp; rfl
            · cases h
        · cases h; rfl
    · cases h; rfl

theorem frames_step {E : Env} {pos : Pos} {c : Nd} {cs : List Nd} {ft : Tok} {fk k : List Nd} {s s1 : St}
    {r : R (Option (List Nd))} (hf : IsFrame E c ft fk) (hk : Gives (fun f => compLoop E f fk) s (.ok k s1))
    (hr : Gives (fun f => do
      let r ← frames E f pos cs
      match r with
      | none => pure none
      | some fs => pure (some (Nd.mk ft k :: fs))) s1 r) : Gives (fun f => frames E f pos (c :: cs)) s r := by
  refine Gives.succ (m := fun f => do
      let k ← compLoop E f fk
      let r ← frames E f pos cs
      match r with
      | none => pure none
      | some fs => pure (some (Nd.mk ft k :: fs))) ?_ (fun f => by
        rw [frames, frameOf_iff.mpr hf]; rfl)
  exact Gives.bind (k := fun f k => do
      let r ← frames E f pos cs
      match r with
      | none => pure none
      | some fs => pure (some (Nd.mk ft k :: fs))) hk hr

theorem frames_all {E : Env} {pos : Pos} {l out : List Nd} {s s' : St} (h : Frames E l out s s') :
    Gives (fun f => frames E f pos l) s (.ok (some out) s') := by
  induction h with
  | nil => exact Gives.succ (m := fun _ => pure (some [])) Gives.const (fun f => by rw [frames])
  | cons hf hk hr ih =>
    rename_i ft fk k s s1 s2
    refine frames_step hf hk ?_
    exact Gives.bind (k := fun _ (r : Option (List Nd)) => (match r with
      | none => pure none
      | some fs => pure (some (Nd.mk ft k :: fs)) : M (Option (List Nd)))) ih ⟨0, fun _ _ => rfl⟩

theorem frames_bad {E : Env} {pos : Pos} {l out rest : List Nd} {bad : Nd} {s s' : St} (h : Frames E l out s s')
    (hb : ∀ ft fk, ¬ IsFrame E bad ft fk) :
    ∃ e, e.level = .error ∧ Gives (fun f => frames E f pos (l ++ bad :: rest)) s (.ok none (s'.add [(e, pos)])) := by
  cases hx : frameOf E bad with
  | ok n =>
    obtain ⟨ft, fk⟩ := n
    exact absurd (frameOf_iff.mp hx) (hb ft fk)
  | error e =>
    refine ⟨e, frameOf_error hx, ?_⟩
    induction h with
    | nil =>
      refine Gives.succ (m := fun _ => do report e pos; pure none) ⟨0, fun _ _ => rfl⟩ (fun f => ?_)
      show frames E (f + 1) pos (bad :: rest) _ = _
      rw [frames, hx]
    | cons hf hk hr ih =>
      rename_i ft fk k s s1 s2
      refine frames_step hf hk ?_
      exact Gives.bind (k := fun _ (r : Option (List Nd)) => (match r with
        | none => pure none
        | some fs => pure (some (Nd.mk ft k :: fs)) : M (Option (List Nd)))) ih ⟨0, fun _ _ => rfl⟩

/-- The names of @keyframes. -/
def framesNames : List Str := [b!"keyframes", b!"-o-keyframes", b!"-webkit-keyframes"]

theorem atKeyword_frames {E : Env} {t : Tok} (hn : t.str ∈ framesNames) (kids : List Nd) (f : Nat) :
    atKeyword E (f + 1) (.mk t kids) =
      (match framesOf kids with
        | .error e => do
          report e t.pos
          pure (some (.mk t kids))
        | .ok (id, l) => do
          let r ← frames E f t.pos l
          match r with
          | none => pure (some (.mk t kids))
          | some fs => pure (some (.mk t (id :: fs)))) := by
  have h1 : messageOf t.str = none := by
    simp only [framesNames, List.mem_cons, List.not_mem_nil, or_false] at hn
    rcases hn with h | h | h <;> rw [h] <;> decide
  have h2 : t.str ≠ b!"charset" ∧ isMediaLike t.str = false ∧ isFaceLike t.str = false ∧ t.str ≠ b!"return" ∧ isFrames t.str = true := by
    simp only [framesNames, List.mem_cons, List.not_mem_nil, or_false] at hn
    rcases hn with h | h | h <;> rw [h] <;> decide
  obtain ⟨a, b, c, d, e⟩ := h2
  rw [atKeyword, h1]
  dsimp only
  rw [if_neg a, if_neg (by rw [b]; simp), if_neg (by rw [c]; simp), if_neg d, if_pos e]
  rfl

theorem comp_at {E : Env} {t : Tok} (ht : t.ty = .AT_KEYWORD) {kids : List Nd} {s : St} {n : Nd} {s' : St}
    (h : Gives (fun f => atKeyword E f (.mk t kids)) s (.ok (some n) s')) :
    Gives (fun f => comp E f (.mk t kids)) s (.ok (.keep n) s') := by
  refine Gives.succ (m := fun f => do
      let r ← atKeyword E f (.mk t kids)
      match r with
      | some n => pure (.keep n)
      | none => pure (Act.into [])) ?_ (fun f => ?_)
  · exact Gives.bind (k := fun _ r => match r with
      | some n => pure (.keep n)
      | none => pure (Act.into [])) h Gives.const
  · rw [comp, ht]
    rfl

/-- C66: `@keyframes name { position { ... } ... }`: the block is replaced by the frames, in their order, each with its
position and its contents compiled. -/
theorem C66_keyframes {E : Env} {t : Tok} (ht : t.ty = .AT_KEYWORD) (hn : t.str ∈ framesNames) {id b : Nd}
    (hi : id.ty = .IDENTIFIER) (hb : b.ty = .OPEN_CURLYBRACKET) {out : List Nd} {s s' : St}
    (h : Frames E b.kids out s s') :
    Gives (fun f => comp E f (.mk t [id, b])) s (.ok (.keep (.mk t (id :: out))) s') := by
  refine comp_at ht (Gives.succ (m := fun f => do
      let r ← frames E f t.pos b.kids
      match r with
      | none => pure (some (.mk t [id, b]))
      | some fs => pure (some (Nd.mk t (id :: fs)))) ?_ (fun f => ?_))
  · exact Gives.bind (k := fun _ r => match r with
      | none => pure (some (.mk t [id, b]))
      | some fs => pure (some (Nd.mk t (id :: fs)))) (frames_all h) Gives.const
  · rw [atKeyword_frames hn]
    unfold framesOf
    dsimp only
    rw [if_neg (fun y => y hi), if_neg (fun y => y hb)]

/-- C66: a frame that is not `position { declarations }` with a position of the right form is one error, at the
@keyframes; the frames after it are not looked at. -/
theorem C66_bad_frame {E : Env} {t : Tok} (ht : t.ty = .AT_KEYWORD) (hn : t.str ∈ framesNames) {id b bad : Nd}
    (hi : id.ty = .IDENTIFIER) (hb : b.ty = .OPEN_CURLYBRACKET) {good out rest : List Nd} {s s' : St}
    (hk : b.kids = good ++ bad :: rest) (h : Frames E good out s s') (hbad : ∀ ft fk, ¬ IsFrame E bad ft fk) :
    ∃ e, e.level = .error ∧
      Gives (fun f => comp E f (.mk t [id, b])) s (.ok (.keep (.mk t [id, b])) (s'.add [(e, t.pos)])) := by
  obtain ⟨e, he, hg⟩ := frames_bad (pos := t.pos) (rest := rest) h hbad
  refine ⟨e, he, comp_at ht (Gives.succ (m := fun f => do
      let r ← frames E f t.pos b.kids
      match r with
      | none => pure (some (.mk t [id, b]))
      | some fs => pure (some (Nd.mk t (id :: fs)))) ?_ (fun f => ?_))⟩
  · refine Gives.bind (v := none) (s' := s'.add [(e, t.pos)]) (k := fun _ r => match r with
      | none => pure (some (.mk t [id, b]))
      | some fs => pure (some (Nd.mk t (id :: fs)))) ?_ Gives.const
    rw [hk]
    exact hg
  · rw [atKeyword_frames hn]
    unfold framesOf
    dsimp only
    rw [if_neg (fun y => y hi), if_neg (fun y => y hb)]

/-- C66: an @keyframes that is not `@keyframes name { ... }` is one error, and nothing else changes. -/
theorem C66_bad_form {E : Env} {t : Tok} (ht : t.ty = .AT_KEYWORD) (hn : t.str ∈ framesNames) {kids : List Nd}
    (hk : ∀ id b, kids = [id, b] → ¬ (id.ty = .IDENTIFIER ∧ b.ty = .OPEN_CURLYBRACKET)) (s : St) :
    ∃ e, e.level = .error ∧
      Gives (fun f => comp E f (.mk t kids)) s (.ok (.keep (.mk t kids)) (s.add [(e, t.pos)])) := by
  have hx : ∃ e, e.level = .error ∧ framesOf kids = .error e := by
    unfold framesOf
    split
    · rename_i id b
      by_cases hi : id.ty = .IDENTIFIER
      · rw [if_neg (fun y => y hi), if_pos (fun y => hk id b rfl ⟨hi, y⟩)]
        exact ⟨_, rfl, rfl⟩
      · rw [if_pos hi]
        exact ⟨_, rfl, rfl⟩
    · exact ⟨_, rfl, rfl⟩
  obtain ⟨e, he, hx⟩ := hx
  refine ⟨e, he, comp_at ht (Gives.succ (m := fun _ => do
          report e t.pos
          pure (some (Nd.mk t kids))) ⟨0, fun _ _ => rfl⟩ (fun f => ?_))⟩
  rw [atKeyword_frames hn, hx]

/-! ### Examples -/

/-- `50% { color: red }` -/
def exFrame : Nd :=
  exNode .COMPONENT_VALUE [] [exNode .PERCENT [] [], exNode .OPEN_CURLYBRACKET [] [exNode .COMPONENT_VALUE [] exColor]]

example : IsFrame exEnv exFrame { ty := .FRAME, pos := exPos } [exNode .COMPONENT_VALUE [] exColor] :=
  .one rfl (.percent rfl rfl) rfl rfl rfl
example : ∀ ft fk, ¬ IsFrame exEnv (exNode .COMMENT [] []) ft fk := by
  intro ft fk h; cases h

end Csspp.Compile
