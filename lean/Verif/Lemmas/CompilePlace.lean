import Verif.Lemmas.CompileSize

/-! Places of the nodes, for Model/Compile.lean. -/

namespace Csspp.Compile
open Csspp.Parse (Nd push argify ArgRes mkArg argLoop)
open Csspp.Lex (Tok Pos)
open Csspp.Spec.Compiled

theorem finishedAll_nil : finishedAll [] = true := by unfold finishedAll; rfl
theorem finishedAll_cons (c : Nd) (l : List Nd) : finishedAll (c :: l) = (finished c && finishedAll l) := by
  conv => lhs; unfold finishedAll
theorem finishedAll_iff (l : List Nd) : finishedAll l = true ↔ ∀ c ∈ l, finished c = true := by
  induction l with
  | nil => simp [finishedAll_nil]
  | cons c l ih => rw [finishedAll_cons, Bool.and_eq_true, ih]; simp

theorem finished_token {n : Nd} (h : holds n.ty = false) : finished n = true := by
  cases n with
  | mk t kids =>
    have h' : holds t.ty = false := h
    unfold finished; rw [if_pos h']

theorem finished_plain {t : Tok} {kids : List Nd} (h : t.ty = .LIST ∨ t.ty = .FRAME ∨ t.ty = .OPEN_CURLYBRACKET ∨
    t.ty = .DECLARATION) : finished (.mk t kids) = finishedAll kids := by
  unfold finished
  have h1 : holds t.ty = true := by rcases h with h | h | h | h <;> rw [h] <;> rfl
  have h2 : t.ty ≠ .AT_KEYWORD := by rcases h with h | h | h | h <;> rw [h] <;> simp
  have h3 : t.ty ≠ .COMPONENT_VALUE := by rcases h with h | h | h | h <;> rw [h] <;> simp
  rw [if_neg (by rw [h1]; simp), if_neg (fun x => h2 x.1), if_neg h3]

theorem finished_cv {t : Tok} {kids : List Nd} (h : t.ty = .COMPONENT_VALUE) :
    finished (.mk t kids) = (compiledCv kids && finishedAll kids) := by
  unfold finished
  rw [if_neg (by rw [h]; simp [holds]), if_neg (by rw [h]; simp), if_pos h]

theorem finished_at {t : Tok} {kids : List Nd} (h : t.ty = .AT_KEYWORD) (hk : finishedAll kids = true) :
    finished (.mk t kids) = true := by
  unfold finished
  rw [if_neg (by rw [h]; simp [holds])]
  split
  · rfl
  · rw [if_neg (by rw [h]; simp)]; exact hk

theorem finished_at_other {t : Tok} {kids : List Nd} (h : t.ty = .AT_KEYWORD)
    (hk : t.str ∉ mediaNames ++ faceNames ++ frameNames) : finished (.mk t kids) = true := by
  unfold finished
  rw [if_neg (by rw [h]; simp [holds]), if_pos ⟨h, hk⟩]

theorem ready_eq (p : Place) (n : Nd) : ready p n = match inside p n with
    | .known b => b
    | .kids q => readyAll q n.kids := by
  cases n with
  | mk t kids => conv => lhs; unfold ready
                 rfl

theorem readyAll_nil (p : Place) : readyAll p [] = true := by unfold readyAll; rfl
theorem readyAll_cons (p : Place) (c : Nd) (l : List Nd) :
    readyAll p (c :: l) = (ready (firstPlace p l.isEmpty) c && readyAll (nextPlace p c.ty) l) := by
  conv => lhs; unfold readyAll

/-- A place where the children are all at the same place. -/
def Even (p : Place) : Prop := (∀ b, firstPlace p b = p) ∧ ∀ t, nextPlace p t = p

theorem readyAll_even {p : Place} (h : Even p) (l : List Nd) : readyAll p l = true ↔ ∀ c ∈ l, ready p c = true := by
  induction l with
  | nil => simp [readyAll_nil]
  | cons c l ih => rw [readyAll_cons, h.1, h.2, Bool.and_eq_true, ih]; simp

theorem even_top : Even .top := ⟨fun _ => rfl, fun _ => rfl⟩
theorem even_value : Even .value := ⟨fun _ => rfl, fun _ => rfl⟩
theorem even_item : Even .item := ⟨fun _ => rfl, fun _ => rfl⟩
theorem even_inRule : Even .inRule := ⟨fun _ => rfl, fun _ => rfl⟩
theorem even_inDecl : Even .inDecl := ⟨fun _ => rfl, fun _ => rfl⟩
theorem even_declItem : Even .declItem := ⟨fun _ => rfl, fun _ => rfl⟩
theorem even_media : Even .media := ⟨fun _ => rfl, fun _ => rfl⟩
theorem even_faceItem : Even .faceItem := ⟨fun _ => rfl, fun _ => rfl⟩
theorem even_keyframe : Even .keyframe := ⟨fun _ => rfl, fun _ => rfl⟩
theorem even_frame : Even .frame := ⟨fun _ => rfl, fun _ => rfl⟩
theorem even_at : Even .at := ⟨fun _ => rfl, fun _ => rfl⟩
theorem even_done : Even .done := ⟨fun _ => rfl, fun _ => rfl⟩

/-- Tokens, and possibly a '{' block. -/
def Body (blk : Place) (l : List Nd) : Prop :=
  ∃ pre, (∀ c ∈ pre, holds c.ty = false) ∧
    (l = pre ∨ ∃ b, l = pre ++ [b] ∧ b.ty = .OPEN_CURLYBRACKET ∧ readyAll blk b.kids = true)

theorem body_of_ready {blk : Place} {l : List Nd} (h : readyAll (.body blk) l = true) : Body blk l := by
  induction l with
  | nil => exact ⟨[], by simp, .inl rfl⟩
  | cons c l ih =>
    rw [readyAll_cons, Bool.and_eq_true] at h
    obtain ⟨h1, h2⟩ := h
    cases l with
    | nil =>
      have h1 : ready (.last blk) c = true := h1
      rw [ready_eq] at h1
      unfold inside at h1
      dsimp only at h1
      by_cases hc : c.ty = .OPEN_CURLYBRACKET
      · rw [if_pos hc] at h1
        exact ⟨[], by simp, .inr ⟨c, rfl, hc, h1⟩⟩
      · rw [if_neg hc] at h1
        exact ⟨[c], by simpa using h1, .inl rfl⟩
    | cons d l =>
      have h1 : ready .token c = true := h1
      have hc : holds c.ty = false := by
        rw [ready_eq] at h1
        simpa [inside] using h1
      obtain ⟨pre, hp, hl⟩ := ih h2
      refine ⟨c :: pre, ?_, ?_⟩
      · intro x hx
        rcases List.mem_cons.mp hx with rfl | hx
        · exact hc
        · exact hp x hx
      · rcases hl with hl | ⟨b, hl, hb⟩
        · exact .inl (by rw [hl])
        · exact .inr ⟨b, by rw [hl]; rfl, hb⟩

theorem Body.suffix {blk : Place} {x l : List Nd} (h : Body blk (x ++ l)) : Body blk l := by
  obtain ⟨pre, hp, hl⟩ := h
  rcases hl with hl | ⟨b, hl, hb⟩
  · exact ⟨l, fun c hc => hp c (by rw [← hl]; simp [hc]), .inl rfl⟩
  · rcases List.eq_nil_or_concat l with rfl | ⟨l', b', rfl⟩
    · exact ⟨[], by simp, .inl rfl⟩
    · rw [List.concat_eq_append, ← List.append_assoc] at hl
      have := List.append_inj' hl rfl
      obtain ⟨h1, h2⟩ := this
      cases h2
      exact ⟨l', fun c hc => hp c (by rw [← h1]; simp [hc]), .inr ⟨b, by simp, hb⟩⟩

theorem mem_push {l : List Nd} {c x : Nd} (h : x ∈ push l c) : x ∈ l ∨ x = c := by
  rcases push_cases l c with e | e <;> rw [e] at h
  · simpa using h
  · exact .inl h

theorem mem_foldl_push {l acc : List Nd} {x : Nd} (h : x ∈ l.foldl push acc) : x ∈ acc ∨ x ∈ l := by
  induction l generalizing acc with
  | nil => exact .inl h
  | cons c l ih =>
    rcases ih h with h | h
    · rcases mem_push h with h | h
      · exact .inl h
      · exact .inr (by simp [h])
    · exact .inr (by simp [h])

theorem Body.foldl {blk : Place} {l : List Nd} (h : Body blk l) : Body blk (l.foldl push []) := by
  obtain ⟨pre, hp, hl⟩ := h
  have hq : ∀ c ∈ pre.foldl push [], holds c.ty = false := by
    intro c hc
    rcases mem_foldl_push hc with h | h
    · simp at h
    · exact hp c h
  rcases hl with rfl | ⟨b, rfl, hb⟩
  · exact ⟨_, hq, .inl rfl⟩
  · refine ⟨_, hq, .inr ⟨b, ?_, hb⟩⟩
    rw [List.foldl_append]
    simp only [List.foldl_cons, List.foldl_nil]
    unfold push
    rw [if_pos (by rw [hb.1]; simp)]

/-! ### argify() -/

/-- What argify() makes: arguments, and the block that is at the end. -/
theorem argLoop_shape (sep : NT) (pos : Pos) (cs : List Nd) :
    ∀ (done arg : List Nd) {kids : List Nd}, (∀ c ∈ done, c.ty = .ARG) → argLoop sep pos done arg cs = .done kids none →
      ∃ args, args ≠ [] ∧ (∀ c ∈ args, c.ty = .ARG) ∧
        (kids = args ∧ (∀ c ∈ cs, c.ty ≠ .OPEN_CURLYBRACKET) ∨
          ∃ pre b, kids = args ++ [b] ∧ cs = pre ++ [b] ∧ b.ty = .OPEN_CURLYBRACKET) := by
  have harg : ∀ arg, (mkArg sep pos arg).ty = .ARG := fun _ => rfl
  have hdone : ∀ (done arg : List Nd), (∀ c ∈ done, c.ty = .ARG) → ∀ c ∈ done ++ [mkArg sep pos arg], c.ty = .ARG := by
    intro done arg h c hc
    rcases List.mem_append.mp hc with hc | hc
    · exact h c hc
    · rw [List.mem_singleton] at hc; rw [hc]; exact harg _
  induction cs with
  | nil =>
    intro done arg kids hd h
    unfold argLoop at h
    cases h
    exact ⟨_, by simp, hdone done arg hd, .inl ⟨rfl, by simp⟩⟩
  | cons c cs ih =>
    intro done arg kids hd h
    have lift : ∀ {done' arg' : List Nd}, (∀ c ∈ done', c.ty = .ARG) → c.ty ≠ .OPEN_CURLYBRACKET →
        argLoop sep pos done' arg' cs = .done kids none → ∃ args, args ≠ [] ∧ (∀ c ∈ args, c.ty = .ARG) ∧
        (kids = args ∧ (∀ x ∈ c :: cs, x.ty ≠ .OPEN_CURLYBRACKET) ∨
          ∃ pre b, kids = args ++ [b] ∧ c :: cs = pre ++ [b] ∧ b.ty = .OPEN_CURLYBRACKET) := by
      intro done' arg' hd' hc h
      obtain ⟨args, h1, h2, h3⟩ := ih _ _ hd' h
      refine ⟨args, h1, h2, ?_⟩
      rcases h3 with ⟨h3, h4⟩ | ⟨pre, b, h3, h4, h5⟩
      · exact .inl ⟨h3, fun x hx => by rcases List.mem_cons.mp hx with rfl | hx; exact hc; exact h4 x hx⟩
      · exact .inr ⟨c :: pre, b, h3, by rw [h4]; rfl, h5⟩
    unfold argLoop at h
    split at h
    · rename_i hc
      split at h
      · cases h
      · rename_i he
        cases h
        refine ⟨done ++ [mkArg sep pos arg], by simp, hdone done arg hd, .inr ⟨[], c, rfl, ?_, hc⟩⟩
        cases cs with
        | nil => rfl
        | cons _ _ => simp at he
    · rename_i hc
      split at h
      · dsimp only at h
        split at h
        · cases h
        · split at h
          · cases h
          · exact lift (hdone _ _ hd) hc h
      · split at h
        · exact lift hd hc h
        · exact lift hd hc h

theorem argify_shape {n : Nd} {sep : NT} {kids : List Nd} (h0 : n.kids ≠ []) (h1 : n.kids.head?.map Nd.ty ≠ some .ARG)
    (h : argify n sep = .done kids none) :
    ∃ args, args ≠ [] ∧ (∀ c ∈ args, c.ty = .ARG) ∧
      (kids = args ∧ (∀ c ∈ n.kids, c.ty ≠ .OPEN_CURLYBRACKET) ∨
        ∃ pre b, kids = args ++ [b] ∧ n.kids = pre ++ [b] ∧ b.ty = .OPEN_CURLYBRACKET) := by
  unfold argify at h
  split at h
  · cases h
  · split at h
    · cases h
    · split at h
      · rename_i e; exact absurd e h0
      · rename_i c cs e
        rw [e] at h1 ⊢
        split at h
        · rename_i hc; exact absurd (by rw [List.head?_cons, Option.map_some, hc]) h1
        · exact argLoop_shape _ _ _ _ _ (by simp) h

/-- argify() keeps the block. -/
theorem Body.argify {blk : Place} {n : Nd} {sep : NT} {kids : List Nd} (hb : Body blk n.kids)
    (h : Parse.argify n sep = .done kids none) : Body blk kids := by
  by_cases h0 : n.kids = []
  · unfold Parse.argify at h
    split at h
    · cases h
    · split at h
      · cases h
      · rw [h0] at h
        cases h
        exact ⟨[], by simp, .inl rfl⟩
  · by_cases h1 : n.kids.head?.map Nd.ty = some .ARG
    · have : kids = n.kids := by
        unfold Parse.argify at h
        split at h
        · cases h
        · split at h
          · cases h
          · split at h
            · rename_i e; exact absurd e h0
            · rename_i c cs e
              rw [e, List.head?_cons, Option.map_some] at h1
              rw [if_pos (by injection h1)] at h
              cases h
              rw [e]
      rw [this]; exact hb
    · obtain ⟨args, _, ha, h3⟩ := argify_shape h0 h1 h
      have ht : ∀ c ∈ args, holds c.ty = false := fun c hc => by rw [ha c hc]; rfl
      rcases h3 with ⟨rfl, _⟩ | ⟨pre, b, rfl, e, hbt⟩
      · exact ⟨_, ht, .inl rfl⟩
      · refine ⟨args, ht, .inr ⟨b, rfl, hbt, ?_⟩⟩
        obtain ⟨pre', hp, hl⟩ := hb
        rcases hl with hl | ⟨b', hl, _, hr⟩
        · have := hp b (by rw [← hl, e]; simp)
          rw [hbt] at this; cases this
        · rw [hl] at e
          have := (List.append_inj' e rfl).2
          cases this
          exact hr

/-- Two places for the same block. -/
theorem Body.mono {p q : Place} {l : List Nd} (h : Body p l) (hpq : ∀ k, readyAll p k = true → readyAll q k = true) :
    Body q l := by
  obtain ⟨pre, hp, hl⟩ := h
  rcases hl with hl | ⟨b, hl, hb, hr⟩
  · exact ⟨pre, hp, .inl hl⟩
  · exact ⟨pre, hp, .inr ⟨b, hl, hb, hpq _ hr⟩⟩

/-! ### The places of component values -/

theorem ready_cv {p : Place} {n : Nd} (hn : n.ty = .COMPONENT_VALUE)
    (hp : p = .top ∨ p = .value ∨ p = .item ∨ p = .inRule ∨ p = .inDecl ∨ p = .media ∨ p = .face ∨ p = .faceItem ∨ p = .frame) :
    inside p n = insideCv n.kids := by
  rcases hp with rfl | rfl | rfl | rfl | rfl | rfl | rfl | rfl | rfl <;> simp [inside, hn]

/-- What compile_component_value() puts in place of a node. -/
def Good (x : Nd) : Prop :=
  x.ty = .COMPONENT_VALUE ∧ ready .value x = true ∨ (x.ty = .DECLARATION ∨ x.ty = .COMMENT) ∧ finished x = true

/-- The places that are walked. -/
def Walked (p : Place) : Prop := p = .top ∨ p = .item ∨ p = .inRule ∨ p = .inDecl ∨ p = .media ∨ p = .faceItem

theorem Walked.even {p : Place} (h : Walked p) : Even p := by
  rcases h with rfl | rfl | rfl | rfl | rfl | rfl
  · exact even_top
  · exact even_item
  · exact even_inRule
  · exact even_inDecl
  · exact even_media
  · exact even_faceItem

theorem Good.ready {p : Place} {x : Nd} (h : Good x) (hp : Walked p) : ready p x = true := by
  rcases h with ⟨h1, h2⟩ | ⟨h1, h2⟩
  · rw [ready_eq, ready_cv h1 (.inr (.inl rfl))] at h2
    rw [ready_eq, ready_cv h1 (by rcases hp with rfl | rfl | rfl | rfl | rfl | rfl <;> simp)]
    exact h2
  · rw [ready_eq]
    rcases h1 with h1 | h1 <;> rcases hp with rfl | rfl | rfl | rfl | rfl | rfl <;> simp [inside, h1, h2]

theorem good_append {p : Place} (hp : Walked p) {l cs : List Nd} (hl : ∀ x ∈ l, Good x) (hc : readyAll p cs = true) :
    readyAll p (l ++ cs) = true := by
  rw [readyAll_even hp.even] at hc ⊢
  intro c h
  rcases List.mem_append.mp h with h | h
  · exact (hl c h).ready hp
  · exact hc c h

/-- What may be in a LIST in the '{' of a declaration may be in a LIST in a rule. -/
theorem ready_declItem {n : Nd} (h : ready .declItem n = true) : ready .item n = true := by
  rw [ready_eq] at h ⊢
  by_cases h1 : n.ty = .COMPONENT_VALUE
  · simp only [inside, if_pos h1] at h ⊢
    by_cases h2 : single n = true
    · rw [if_pos h2] at h; exact h
    · rw [if_neg h2] at h; cases h
  · simp only [inside, if_neg h1, Bool.and_eq_true, decide_eq_true_eq] at h ⊢
    exact ⟨.inl h.1, h.2⟩

theorem ready_inDecl {n : Nd} (h : ready .inDecl n = true) : ready .inRule n = true := by
  rw [ready_eq] at h ⊢
  by_cases h1 : n.ty = .LIST
  · simp only [inside, if_pos h1] at h ⊢
    rw [readyAll_even even_declItem] at h
    rw [readyAll_even even_item]
    exact fun c hc => ready_declItem (h c hc)
  · simp only [inside, if_neg h1] at h ⊢
    exact h

theorem readyAll_inDecl {l : List Nd} (h : readyAll .inDecl l = true) : readyAll .inRule l = true := by
  rw [readyAll_even even_inDecl] at h
  rw [readyAll_even even_inRule]
  exact fun c hc => ready_inDecl (h c hc)

end Csspp.Compile
