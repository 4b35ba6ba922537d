import Verif.Props.CompileWhole

/-!
C70: the nodes of a style sheet are compiled one after the other: the messages of before do not matter, and what becomes
of a node does not depend on the others.
-/

namespace Csspp.Compile
open Csspp.Parse (Nd)
open Csspp.Lex (Tok Pos)

/-- A result with more messages from before. -/
def R.before {α : Type} (l : List (Err × Pos)) : R α → R α
  | .ok v s => .ok v { s with errs := s.errs ++ l }
  | .throws => .throws
  | .undef => .undef
  | .fuel => .fuel

/-- The messages of before do not matter. -/
def Local {α : Type} (m : M α) : Prop := ∀ s l, m { s with errs := s.errs ++ l } = (m s).before l

theorem Local.pure {α : Type} (v : α) : Local (pure v : M α) := fun _ _ => rfl
theorem Local.throws {α : Type} : Local (throws : M α) := fun _ _ => rfl
theorem Local.undef {α : Type} : Local (undef : M α) := fun _ _ => rfl
theorem Local.fuel {α : Type} : Local (outOfFuel : M α) := fun _ _ => rfl
theorem Local.report (e : Err) (p : Pos) : Local (report e p) := fun _ _ => rfl

theorem Local.bind {α β : Type} {m : M α} {k : α → M β} (h : Local m) (hk : ∀ v, Local (k v)) : Local (m >>= k) := by
  intro s l
  rw [bind_apply, bind_apply, h s l]
  cases m s with
  | ok v s' => exact hk v s' l
  | throws => rfl
  | undef => rfl
  | fuel => rfl

theorem Local.reports (l : List (Err × Pos)) : Local (reports l) := by
  induction l with
  | nil => exact .pure _
  | cons e l ih => exact .bind (.report _ _) (fun _ => ih)

theorem Local.evalArgs (E : Env) (m : Bool) (l : List Nd) : Local (evalArgs E m l) := by
  induction l with
  | nil => exact .pure _
  | cons c cs ih =>
    unfold Compile.evalArgs
    split
    · exact .pure _
    · split
      · exact .throws
      · split
        · exact .throws
        · exact .bind (.reports _) (fun _ => .bind ih (fun _ => .pure _))

theorem Local.declArgs (E : Env) (n : Nd) : Local (declArgs E n) := by
  unfold Compile.declArgs
  split
  · exact .throws
  · exact .bind (.reports _) (fun _ => .bind (.evalArgs _ _ _) (fun _ => .pure _))

theorem Local.declExpr (E : Env) (n : Nd) : Local (declExpr E n) := by
  unfold Compile.declExpr
  split
  · exact .pure _
  · split
    · split
      · exact .bind (.report _ _) (fun _ => .pure _)
      · exact .declArgs _ _
    · exact .pure _

theorem Local.mediaArgs (n : Nd) : Local (mediaArgs n) := by
  unfold Compile.mediaArgs
  split
  · split
    · exact .throws
    · exact .bind (.reports _) (fun _ => .pure _)
  · exact .pure _

theorem Local.doReturn (E : Env) (t : Tok) (kids : List Nd) : Local (doReturn E t kids) := by
  unfold Compile.doReturn
  split
  · exact .bind (.report _ _) (fun _ => .pure _)
  · split
    · exact .throws
    · exact .bind (.reports _) (fun _ => .bind (fun _ _ => rfl) (fun _ => .pure _))

/-- All the functions, with this fuel. -/
structure Locals (E : Env) (f : Nat) : Prop where
  compValue : ∀ n, Local (compValue E f n)
  rule : ∀ t k, Local (rule E f t k)
  ruleLoop : ∀ l, Local (ruleLoop E f l)
  items : ∀ l, Local (items E f l)
  declaration : ∀ t k, Local (declaration E f t k)
  declValues : ∀ l, Local (declValues E f l)
  declBlock : ∀ l, Local (declBlock E f l)
  atKeyword : ∀ n, Local (atKeyword E f n)
  mediaLoop : ∀ l, Local (mediaLoop E f l)
  faceLoop : ∀ l, Local (faceLoop E f l)
  frames : ∀ p l, Local (frames E f p l)
  comp : ∀ n, Local (comp E f n)
  compLoop : ∀ l, Local (compLoop E f l)

theorem Local.ite {α : Type} {c : Prop} [Decidable c] {a b : M α} (ha : Local a) (hb : Local b) :
    Local (if c then a else b) := by
  by_cases h : c
  · rw [if_pos h]; exact ha
  · rw [if_neg h]; exact hb

theorem local_compValue {E : Env} {f : Nat} (ih : Locals E f) : ∀ n, Local (Compile.compValue E (f + 1) n) := by
  obtain ⟨h1, h2, h3, h4, h5, h6, h7, h8, h9, h10, h11, h12, h13⟩ := ih
  rintro ⟨t, kids⟩
  rw [compValue_succ]
  refine .ite (.pure _) (.ite .throws ?_)
  cases kids with
  | nil => exact .pure _
  | cons c cs =>
    refine .ite (.pure _) (.ite .throws (.ite (.pure _) (.ite .throws (.ite (.bind (h8 _) (fun r => ?_)) (.ite .throws
      (.ite (h5 _ _) (.ite (.bind (h2 _ _) (fun _ => .pure _)) (.ite .throws (h5 _ _)))))))))
    cases r with
    | some c => exact .pure _
    | none => exact .ite (.pure _) (.pure _)

theorem local_rule {E : Env} {f : Nat} (ih : Locals E f) : ∀ t k, Local (Compile.rule E (f + 1) t k) := by
  obtain ⟨h1, h2, h3, h4, h5, h6, h7, h8, h9, h10, h11, h12, h13⟩ := ih
  intro t kids
  rw [rule]
  split
  · exact .bind (.report _ _) (fun _ => .pure _)
  split
  · exact .throws
  · exact .undef
  · exact .bind (.report _ _) (fun _ => .pure _)
  · refine .bind (.reports _) (fun _ => ?_)
    split
    · exact .throws
    · exact .bind (h3 _) (fun _ => .pure _)

theorem local_ruleLoop {E : Env} {f : Nat} (ih : Locals E f) : ∀ n, Local (Compile.ruleLoop E (f + 1) n) := by
  obtain ⟨h1, h2, h3, h4, h5, h6, h7, h8, h9, h10, h11, h12, h13⟩ := ih
  intro l
  cases l with
  | nil => rw [ruleLoop]; exact .pure _
  | cons c cs =>
    rw [ruleLoop]
    split
    · exact .bind (h4 _) (fun _ => .bind (h3 _) (fun _ => .pure _))
    split
    · refine .bind (h1 _) (fun a => ?_)
      cases a with
      | keep n => exact .bind (h3 _) (fun _ => .pure _)
      | into l => exact h3 _
    · exact .bind (h3 _) (fun _ => .pure _)

theorem local_items {E : Env} {f : Nat} (ih : Locals E f) : ∀ n, Local (Compile.items E (f + 1) n) := by
  obtain ⟨h1, h2, h3, h4, h5, h6, h7, h8, h9, h10, h11, h12, h13⟩ := ih
  intro l
  cases l with
  | nil => rw [items]; exact .pure _
  | cons c cs =>
    rw [items]
    refine .bind (h1 _) (fun a => ?_)
    cases a with
    | keep n => exact .bind (h4 _) (fun _ => .pure _)
    | into l => exact h4 _

theorem local_declaration {E : Env} {f : Nat} (ih : Locals E f) : ∀ t k, Local (Compile.declaration E (f + 1) t k) := by
  obtain ⟨h1, h2, h3, h4, h5, h6, h7, h8, h9, h10, h11, h12, h13⟩ := ih
  intro t kids
  rw [declaration]
  split
  · exact .throws
  · exact .bind (.reports _) (fun _ => .pure _)
  · split
    · exact .bind (.reports _) (fun _ => .bind (.declExpr _ _) (fun _ => .bind (h6 _) (fun _ => .pure _)))
    · exact .throws

theorem local_declValues {E : Env} {f : Nat} (ih : Locals E f) : ∀ n, Local (Compile.declValues E (f + 1) n) := by
  obtain ⟨h1, h2, h3, h4, h5, h6, h7, h8, h9, h10, h11, h12, h13⟩ := ih
  intro l
  cases l with
  | nil => rw [declValues]; exact .pure _
  | cons c cs =>
    rw [declValues]
    split
    · exact .bind (h6 _) (fun _ => .bind (h6 _) (fun _ => .pure _))
    split
    · exact .bind (h7 _) (fun _ => .bind (h6 _) (fun _ => .pure _))
    split
    · refine .bind (h1 _) (fun a => ?_)
      cases a with
      | keep n => exact .bind (h6 _) (fun _ => .pure _)
      | into l =>
        dsimp only
        split
        · exact .pure _
        · exact .bind (h6 _) (fun _ => .pure _)
    · exact .bind (h6 _) (fun _ => .pure _)

theorem local_declBlock {E : Env} {f : Nat} (ih : Locals E f) : ∀ n, Local (Compile.declBlock E (f + 1) n) := by
  obtain ⟨h1, h2, h3, h4, h5, h6, h7, h8, h9, h10, h11, h12, h13⟩ := ih
  intro l
  cases l with
  | nil => rw [declBlock]; exact .pure _
  | cons c cs =>
    rw [declBlock]
    split
    · exact .bind (h6 _) (fun _ => .bind (h7 _) (fun _ => .pure _))
    split
    · refine .bind (h1 _) (fun a => ?_)
      cases a with
      | keep n => exact .bind (h7 _) (fun _ => .pure _)
      | into l => exact h7 _
    split
    · exact .bind (h7 _) (fun _ => .pure _)
    · exact .throws

theorem local_atKeyword {E : Env} {f : Nat} (ih : Locals E f) : ∀ n, Local (Compile.atKeyword E (f + 1) n) := by
  obtain ⟨h1, h2, h3, h4, h5, h6, h7, h8, h9, h10, h11, h12, h13⟩ := ih
  rintro ⟨t, kids⟩
  rw [atKeyword]
  split
  · exact .bind (.report _ _) (fun _ => .pure _)
  split
  · exact .bind (.reports _) (fun _ => .pure _)
  split
  · split
    · exact .pure _
    · exact .bind (.mediaArgs _) (fun _ => .bind (h9 _) (fun _ => .pure _))
  split
  · split
    · exact .pure _
    · split
      · exact .pure _
      · split
        · exact .bind (h10 _) (fun _ => .pure _)
        · exact .bind (h10 _) (fun _ => .pure _)
  split
  · exact .bind (.doReturn _ _ _) (fun _ => .pure _)
  split
  · split
    · exact .bind (.report _ _) (fun _ => .pure _)
    · refine .bind (h11 _ _) (fun r => ?_)
      cases r <;> exact .pure _
  · exact .pure _

theorem local_mediaLoop {E : Env} {f : Nat} (ih : Locals E f) : ∀ n, Local (Compile.mediaLoop E (f + 1) n) := by
  obtain ⟨h1, h2, h3, h4, h5, h6, h7, h8, h9, h10, h11, h12, h13⟩ := ih
  intro l
  cases l with
  | nil => rw [mediaLoop]; exact .pure _
  | cons c cs =>
    rw [mediaLoop]
    split
    · refine .bind (h8 _) (fun r => ?_)
      cases r with
      | some n => exact .bind (h9 _) (fun _ => .pure _)
      | none => exact h9 _
    · refine .bind (h1 _) (fun a => ?_)
      cases a with
      | keep n => exact .bind (h9 _) (fun _ => .pure _)
      | into l => exact h9 _

theorem local_faceLoop {E : Env} {f : Nat} (ih : Locals E f) : ∀ n, Local (Compile.faceLoop E (f + 1) n) := by
  obtain ⟨h1, h2, h3, h4, h5, h6, h7, h8, h9, h10, h11, h12, h13⟩ := ih
  intro l
  cases l with
  | nil => rw [faceLoop]; exact .pure _
  | cons c cs =>
    rw [faceLoop]
    split
    · refine .bind (h1 _) (fun a => ?_)
      cases a with
      | keep n => exact .bind (h10 _) (fun _ => .pure _)
      | into l => exact h10 _
    · exact .bind (h10 _) (fun _ => .pure _)

theorem local_frames {E : Env} {f : Nat} (ih : Locals E f) : ∀ p l, Local (Compile.frames E (f + 1) p l) := by
  obtain ⟨h1, h2, h3, h4, h5, h6, h7, h8, h9, h10, h11, h12, h13⟩ := ih
  intro p l
  cases l with
  | nil => rw [frames]; exact .pure _
  | cons c cs =>
    rw [frames]
    split
    · exact .bind (.report _ _) (fun _ => .pure _)
    · refine .bind (h13 _) (fun _ => .bind (h11 _ _) (fun r => ?_))
      cases r <;> exact .pure _

theorem local_comp {E : Env} {f : Nat} (ih : Locals E f) : ∀ n, Local (Compile.comp E (f + 1) n) := by
  obtain ⟨h1, h2, h3, h4, h5, h6, h7, h8, h9, h10, h11, h12, h13⟩ := ih
  rintro ⟨t, kids⟩
  rw [comp]
  split
  · exact .bind (h13 _) (fun _ => .pure _)
  split
  · exact .pure _
  split
  · exact h1 _
  split
  · refine .bind (h8 _) (fun r => ?_)
    cases r <;> exact .pure _
  · exact .throws

theorem local_compLoop {E : Env} {f : Nat} (ih : Locals E f) : ∀ n, Local (Compile.compLoop E (f + 1) n) := by
  obtain ⟨h1, h2, h3, h4, h5, h6, h7, h8, h9, h10, h11, h12, h13⟩ := ih
  intro l
  cases l with
  | nil => rw [compLoop]; exact .pure _
  | cons c cs =>
    rw [compLoop]
    intro s l
    by_cases h : s.ret.isSome = true
    · refine (if_pos h).trans ?_
      show _ = R.before l (if s.ret.isSome = true then _ else _)
      rw [if_pos h]
      rfl
    · refine (if_neg h).trans ?_
      show _ = R.before l (if s.ret.isSome = true then _ else _)
      rw [if_neg h]
      refine Local.bind (h12 _) (fun a => ?_) s l
      cases a with
      | keep n => exact .bind (h13 _) (fun _ => .pure _)
      | into l => exact h13 _

theorem locals (E : Env) (f : Nat) : Locals E f := by
  induction f with
  | zero =>
    constructor
    · intro n; rw [compValue]; exact .fuel
    · intro t k; rw [rule]; exact .fuel
    · intro n; rw [ruleLoop]; exact .fuel
    · intro n; rw [items]; exact .fuel
    · intro t k; rw [declaration]; exact .fuel
    · intro n; rw [declValues]; exact .fuel
    · intro n; rw [declBlock]; exact .fuel
    · intro n; rw [atKeyword]; exact .fuel
    · intro n; rw [mediaLoop]; exact .fuel
    · intro n; rw [faceLoop]; exact .fuel
    · intro p n; rw [frames]; exact .fuel
    · intro n; rw [comp]; exact .fuel
    · intro n; rw [compLoop]; exact .fuel
  | succ f ih =>
    exact ⟨local_compValue ih, local_rule ih, local_ruleLoop ih, local_items ih, local_declaration ih, local_declValues ih, local_declBlock ih, local_atKeyword ih, local_mediaLoop ih, local_faceLoop ih, local_frames ih, local_comp ih, local_compLoop ih⟩

/-- C70: compiling a node depends on the node (and on whether there was an @return) only: with other messages before,
the result is the same and the same messages are added. -/
theorem C70_independent {E : Env} {n : Nd} {s s' : St} {a : Act} (h : Gives (fun f => comp E f n) s (.ok a s')) :
    ∃ new, s'.errs = new ++ s.errs ∧
      ∀ errs, Gives (fun f => comp E f n) { s with errs := errs } (.ok a { s' with errs := new ++ errs }) := by
  obtain ⟨f, hf⟩ := h
  have key : ∀ g, f ≤ g → ∀ errs, comp E g n { s with errs := errs } =
      (comp E g n { s with errs := [] }).before errs := fun g _ errs => (locals E g).comp n { s with errs := [] } errs
  have h0 : ∃ s0, comp E f n { s with errs := [] } = .ok a s0 ∧ s' = { s0 with errs := s0.errs ++ s.errs } := by
    have h1 : comp E f n s = _ := hf f (Nat.le_refl _)
    have h2 := key f (Nat.le_refl _) s.errs
    rw [show ({ s with errs := s.errs } : St) = s from rfl, h1] at h2
    cases hx : comp E f n { s with errs := [] } with
    | ok v s0 => rw [hx] at h2; cases h2; exact ⟨s0, rfl, rfl⟩
    | throws => rw [hx] at h2; cases h2
    | undef => rw [hx] at h2; cases h2
    | fuel => rw [hx] at h2; cases h2
  obtain ⟨s0, h0, e⟩ := h0
  refine ⟨s0.errs, by rw [e], fun errs => ⟨f, fun g hg => ?_⟩⟩
  show comp E g n { s with errs := errs } = _
  have h1 : comp E g n s = _ := hf g hg
  have h2 := key g hg s.errs
  rw [show ({ s with errs := s.errs } : St) = s from rfl, h1] at h2
  rw [key g hg errs]
  cases hx : comp E g n { s with errs := [] } with
  | ok v s1 =>
    rw [hx] at h2
    cases h2
    have : s1.errs = s0.errs := by
      have := congrArg St.errs e
      exact List.append_cancel_right this
    show R.ok _ _ = _
    rw [this]
  | throws => rw [hx] at h2; cases h2
  | undef => rw [hx] at h2; cases h2
  | fuel => rw [hx] at h2; cases h2

/-- The nodes of a list, one after the other: what becomes of each of them. -/
inductive OneByOne (E : Env) : List Nd → List Nd → St → St → Prop
  | nil {s : St} : OneByOne E [] [] s s
  | keep {c n : Nd} {cs out : List Nd} {s s1 s2 : St} (h : Gives (fun f => comp E f c) s (.ok (.keep n) s1))
      (hr : OneByOne E cs out s1 s2) : OneByOne E (c :: cs) (n :: out) s s2
  | into {c : Nd} {l cs out out' : List Nd} {s s1 s2 s3 : St} (h : Gives (fun f => comp E f c) s (.ok (.into l) s1))
      (hl : OneByOne E l out s1 s2) (hr : OneByOne E cs out' s2 s3) : OneByOne E (c :: cs) (out ++ out') s s3

/-- C70: the list that a style sheet becomes is what its nodes become, in their order, each node replaced in its place
(by itself, by nothing, or by other nodes which are compiled in their turn). -/
theorem C70_in_order {E : Env} {l out : List Nd} {s s' : St} (h : OneByOne E l out s s') (hr : s'.ret = none) :
    Gives (fun f => compLoop E f l) s (.ok out s') := by
  have ret : ∀ {l out s s'}, OneByOne E l out s s' → s'.ret = none → s.ret = none := by
    intro l out s s' h
    induction h with
    | nil => exact fun h => h
    | keep h hr ih =>
      rename_i c n cs out s s1 s2
      intro hx
      obtain ⟨r, _, h2, h3⟩ := comp_runs (E := E) (fun M _ => loops_all E M) _ _ (Nat.le_refl _)
      obtain ⟨⟨_, hg⟩, _⟩ := h3 _ _ (h2.unique h)
      by_cases e : s.ret = none
      · exact e
      · exact absurd (ih hx) (hg e)
    | into h hl hr ih1 ih2 =>
      rename_i c l cs out1 out2 s s1 s2 s3
      intro hx
      obtain ⟨r, _, h2, h3⟩ := comp_runs (E := E) (fun M _ => loops_all E M) _ _ (Nat.le_refl _)
      obtain ⟨⟨_, hg⟩, _⟩ := h3 _ _ (h2.unique h)
      by_cases e : s.ret = none
      · exact e
      · exact absurd (ih1 (ih2 hx)) (hg e)
  have step : ∀ {c : Nd} {a : Act} {cs : List Nd} {s s1 : St} {r : R (List Nd)}, s.ret = none →
      Gives (fun f => comp E f c) s (.ok a s1) → Gives (fun f => match a with
        | .keep n => do
          let ns ← compLoop E f cs
          pure (n :: ns)
        | .into l => compLoop E f (l ++ cs)) s1 r → Gives (fun f => compLoop E f (c :: cs)) s r := by
    intro c a cs s s1 r hs h hr
    refine Gives.succ (m := fun f => do
        let a ← comp E f c
        match a with
        | .keep n => do
          let ns ← compLoop E f cs
          pure (n :: ns)
        | .into l => compLoop E f (l ++ cs)) (Gives.bind (k := fun f a => match a with
        | .keep n => do
          let ns ← compLoop E f cs
          pure (n :: ns)
        | .into l => compLoop E f (l ++ cs)) h hr) (fun f => ?_)
    rw [compLoop]
    exact if_neg (by rw [hs]; simp)
  -- with anything after
  have key : ∀ {l out s s'}, OneByOne E l out s s' → s'.ret = none → ∀ (rest out' : List Nd) (s'' : St),
      Gives (fun f => compLoop E f rest) s' (.ok out' s'') → Gives (fun f => compLoop E f (l ++ rest)) s (.ok (out ++ out') s'') := by
    intro l out s s' h
    induction h with
    | nil => intro _ rest out' s'' h; exact h
    | keep h hr ih =>
      rename_i c n cs out s s1 s2
      intro hx rest out' s'' hrest
      refine step (ret (.keep h hr) hx) h ?_
      exact Gives.map (k := fun ns => n :: ns) (ih hx rest out' s'' hrest)
    | into h hl hr ih1 ih2 =>
      rename_i c l cs out1 out2 s s1 s2 s3
      intro hx rest out' s'' hrest
      refine step (ret (.into h hl hr) hx) h ?_
      dsimp only
      have := ih1 (ret hr hx) (cs ++ rest) (out2 ++ out') s'' (ih2 hx rest out' s'' hrest)
      rw [List.append_assoc]
      exact this
  have := key h hr [] [] s' (Gives.succ (m := fun _ => pure []) Gives.const (fun f => by rw [compLoop]))
  simpa using this

/-! ### Examples -/

/-- A comment and a message. -/
example (s : St) : OneByOne exEnv
    [exNode .COMMENT b!"x" [], exNode .AT_KEYWORD b!"debug" []] [exNode .COMMENT b!"x" []] s
    (s.add [(.user .debug b!"@debug reached", exPos)]) := by
  refine .keep (n := exNode .COMMENT b!"x" []) (s1 := s) ⟨1, fun g hg => ?_⟩
    (.into (l := []) (out := []) (out' := []) (s1 := s.add [(.user .debug b!"@debug reached", exPos)]) ⟨2, fun g hg => ?_⟩ .nil .nil)
  · obtain ⟨g, rfl⟩ : ∃ k, g = k + 1 := ⟨g - 1, by omega⟩
    rfl
  · obtain ⟨g, rfl⟩ : ∃ k, g = k + 2 := ⟨g - 2, by omega⟩
    rfl

end Csspp.Compile
