import Verif.Model.ExprEval

/-!
C31: what evaluating an expression does to the nodes that existed before (the values of the variables
and the items of the arrays): the unary minus and `string * integer` modify their operand in place.
-/

namespace Csspp.Expr
open Csspp.Flt

/-! ### Specification -/

/-- What may have happened to a node. -/
def Kept : Val Ref → Val Ref → Prop
  | .int i d, v => ∃ j, v = .int j d ∧ j.natAbs = i.natAbs
  | .dec x d, v => v = .dec x d ∨ v = .dec (neg x) d
  | .pct x, v => v = .pct x ∨ v = .pct (neg x)
  | .str s, v => ∃ n, v = .str (List.replicate n s).flatten
  | a, v => v = a

mutual
/-- No token, at any depth, is a minus sign or a multiplication. -/
def Tok.quiet : Tok → Bool
  | .sym .SUBTRACT => false
  | .sym .MULTIPLY => false
  | .ident s => s != b!"mul"
  | .paren l => quietAll l
  | .square l => quietAll l
  | _ => true
def quietAll : List Tok → Bool
  | [] => true
  | t :: ts => t.quiet && quietAll ts
end

/-! ### The proof -/

theorem neg_neg' (x : Fp) : neg (neg x) = x := by cases x <;> simp [neg]

theorem repeatStr_eq (s : Str) (n : Nat) : repeatStr s n = (List.replicate n s).flatten := by
  induction n with
  | zero => rfl
  | succ n ih => simp [repeatStr, ih, List.replicate_succ]

theorem Kept.refl (v : Val Ref) : Kept v v := by
  cases v <;> simp [Kept]
  exact ⟨1, by simp⟩

theorem Kept.trans {a b c : Val Ref} (h1 : Kept a b) (h2 : Kept b c) : Kept a c := by
  cases a with
  | int i d =>
    obtain ⟨j, rfl, hj⟩ := h1
    obtain ⟨k, rfl, hk⟩ := h2
    exact ⟨k, rfl, by omega⟩
  | dec x d =>
    rcases h1 with rfl | rfl
    · exact h2
    · rcases h2 with rfl | rfl
      · exact Or.inr rfl
      · left; rw [neg_neg']
  | pct x =>
    rcases h1 with rfl | rfl
    · exact h2
    · rcases h2 with rfl | rfl
      · exact Or.inr rfl
      · left; rw [neg_neg']
  | str s =>
    obtain ⟨n, rfl⟩ := h1
    obtain ⟨m, rfl⟩ := h2
    refine ⟨m * n, ?_⟩
    have : (List.replicate m (List.replicate n s).flatten).flatten = (List.replicate (m * n) s).flatten := by
      induction m with
      | zero => simp
      | succ m ih =>
        rw [List.replicate_succ, List.flatten_cons, ih, ← List.flatten_append, List.replicate_append_replicate,
          Nat.add_mul, Nat.one_mul, Nat.add_comm]
    rw [this]
  | _ => cases h1; exact h2

section
variable (P : Tok → Prop) (Rel : Val Ref → Val Ref → Prop)

/-- What the tokens and the relation have to satisfy. -/
structure Hyp : Prop where
  refl : ∀ v, Rel v v
  trans : ∀ a b c, Rel a b → Rel b c → Rel a c
  eof : P (.sym .EOF_TOKEN)
  paren : ∀ l, P (.paren l) → ∀ t ∈ l, P t
  square : ∀ l, P (.square l) → ∀ t ∈ l, P t
  minus : P (.sym .SUBTRACT) → ∀ v w es, negOp v = .ret (some w) es → Rel v w
  times : ∀ t, P t → mulOf t = some (.mul .mul) → ∀ s n, Rel (.str s) (.str (repeatStr s n))

/-- The tokens to read. -/
def StOk (s : St) : Prop := P s.cur ∧ ∀ t ∈ s.rest, P t

/-- The nodes. -/
def FrameR (h h' : List (Val Ref)) : Prop :=
  ∀ (i : Ref) v, h[i]? = some v → ∃ w, h'[i]? = some w ∧ Rel v w

/-- What an evaluation keeps. -/
def KeepsAt {β : Type} (s : St) (m : M β) : Prop :=
  ∀ r s', m s = .ok r s' → StOk P s' ∧ FrameR Rel s.heap s'.heap

def Keeps {β : Type} (m : M β) : Prop := ∀ s, StOk P s → KeepsAt P Rel s m

variable {P Rel} (H : Hyp P Rel)
include H

theorem FrameR.refl (h : List (Val Ref)) : FrameR Rel h h := fun _ v hv => ⟨v, hv, H.refl v⟩

theorem FrameR.trans {a b c : List (Val Ref)} (h1 : FrameR Rel a b) (h2 : FrameR Rel b c) :
    FrameR Rel a c := by
  intro i v hv
  obtain ⟨w, hw, r1⟩ := h1 i v hv
  obtain ⟨x, hx, r2⟩ := h2 i w hw
  exact ⟨x, hx, H.trans _ _ _ r1 r2⟩

theorem keeps_bind {β γ : Type} {s : St} {m : M β} {f : β → M γ} (h1 : KeepsAt P Rel s m)
    (h2 : ∀ v s', m s = .ok v s' → StOk P s' → KeepsAt P Rel s' (f v)) :
    KeepsAt P Rel s (m >>= f) := by
  intro r s' h
  have e : (m >>= f) s = (match m s with
    | .ok v s' => f v s'
    | .undef => .undef
    | .throws => .throws
    | .fuel => .fuel) := rfl
  rw [e] at h
  cases hm : m s with
  | ok v s1 =>
    rw [hm] at h
    obtain ⟨o1, f1⟩ := h1 v s1 hm
    obtain ⟨o2, f2⟩ := h2 v s1 hm o1 r s' h
    exact ⟨o2, FrameR.trans H f1 f2⟩
  | undef => rw [hm] at h; cases h
  | throws => rw [hm] at h; cases h
  | fuel => rw [hm] at h; cases h

theorem keeps_bind' {β γ : Type} {m : M β} {f : β → M γ} (h1 : Keeps P Rel m)
    (h2 : ∀ v, Keeps P Rel (f v)) : Keeps P Rel (m >>= f) :=
  fun s hs => keeps_bind H (h1 s hs) (fun v s' _ o => h2 v s' o)

theorem keeps_pure {β : Type} (v : β) : Keeps P Rel (pure v : M β) := by
  intro s hs r s' h
  cases h
  exact ⟨hs, FrameR.refl H _⟩

theorem keeps_fuel {β : Type} : Keeps P Rel (outOfFuel : M β) := by
  intro s hs r s' h
  cases h

theorem keeps_get : Keeps P Rel get' := by
  intro s hs r s' h
  cases h
  exact ⟨hs, FrameR.refl H _⟩

theorem keeps_err (es : List Err) : Keeps P Rel (err es) := by
  intro s hs r s' h
  cases h
  exact ⟨hs, FrameR.refl H _⟩

theorem keeps_load (r : Ref) : Keeps P Rel (load r) := by
  intro s hs v s' h
  cases h
  exact ⟨hs, FrameR.refl H _⟩

theorem keeps_alloc (v : Val Ref) : Keeps P Rel (alloc v) := by
  intro s hs r s' h
  cases h
  refine ⟨hs, ?_⟩
  intro i w hw
  have : i < s.heap.length := (List.getElem?_eq_some_iff.mp hw).1
  exact ⟨w, by rw [List.getElem?_append_left this]; exact hw, H.refl w⟩

theorem keeps_next : Keeps P Rel next := by
  intro s hs r s' h
  unfold next at h
  have hd : ∀ l : List Tok, (∀ t ∈ l, P t) → ∀ t ∈ dropWs l, P t := by
    intro l
    induction l with
    | nil => intro h t ht; cases ht
    | cons a l ih =>
      intro h t ht
      unfold dropWs at ht
      split at ht
      · exact ih (fun t ht => h t (by simp [ht])) t ht
      · exact h t ht
  cases hr : s.rest with
  | nil =>
    rw [hr] at h
    cases h
    exact ⟨⟨H.eof, fun _ h => by cases h⟩, FrameR.refl H _⟩
  | cons t ts =>
    rw [hr] at h
    cases h
    have h2 := hs.2
    rw [hr] at h2
    exact ⟨⟨h2 t (by simp), hd ts (fun u hu => h2 u (by simp [hu]))⟩, FrameR.refl H _⟩

theorem keeps_finish_new (o : Out (Val Ref)) : Keeps P Rel (finish none o) := by
  cases o with
  | undef => intro s _ r s' h; cases h
  | throws => intro s _ r s' h; cases h
  | ret v es =>
    cases v with
    | none => exact keeps_bind' H (keeps_err H es) (fun _ => keeps_pure H _)
    | some v =>
      exact keeps_bind' H (keeps_err H es)
        (fun _ => keeps_bind' H (keeps_alloc H v) (fun _ => keeps_pure H _))

/-- Changing a node in place. -/
theorem keeps_finish (r : Ref) (o : Out (Val Ref)) (s : St) (hs : StOk P s)
    (h : ∀ a v es, s.heap[r]? = some a → o = .ret (some v) es → Rel a v) :
    KeepsAt P Rel s (finish (some r) o) := by
  cases o with
  | undef => intro r s' h; cases h
  | throws => intro r s' h; cases h
  | ret v es =>
    cases v with
    | none => exact keeps_bind H (keeps_err H es s hs) (fun _ _ _ o => keeps_pure H _ _ o)
    | some v =>
      intro q s' hq
      cases hq
      refine ⟨hs, ?_⟩
      intro i a ha
      by_cases hi : i = r
      · subst hi
        have : i < s.heap.length := (List.getElem?_eq_some_iff.mp ha).1
        exact ⟨v, by simp [this], h a v es ha rfl⟩
      · exact ⟨a, by rw [List.getElem?_set_ne (fun e => hi e.symm)]; exact ha, H.refl a⟩

theorem keeps_silent {m : M (Option Ref)} (h : Keeps P Rel m) : Keeps P Rel (silent m) := by
  intro s hs
  apply keeps_bind H (keeps_get H s hs)
  intro b s1 _ h1
  apply keeps_bind H (h s1 h1)
  intro v s2 _ h2 r s' e
  cases e
  exact ⟨h2, FrameR.refl H _⟩

theorem keeps_boolean (r : Ref) : Keeps P Rel (boolean r) := by
  apply keeps_bind' H (keeps_load H r)
  intro v
  cases boolVal v with
  | undef => intro s _ r s' h; cases h
  | throws => intro s _ r s' h; cases h
  | ret b es => exact keeps_bind' H (keeps_err H es) (fun _ => keeps_pure H _)

theorem keeps_apply (env : Env) (op : BinOp) (l r : Ref) (s : St) (hs : StOk P s)
    (hop : op = .mul .mul → ∃ t, P t ∧ mulOf t = some (.mul .mul)) :
    KeepsAt P Rel s (apply env op l r) := by
  apply keeps_bind H (keeps_load H l s hs)
  intro a s1 e1 h1
  apply keeps_bind H (keeps_load H r s1 h1)
  intro b s2 e2 h2
  have es1 : s1 = s := by cases e1; rfl
  subst es1
  have es2 : s2 = s1 := by cases e2; rfl
  subst es2
  cases op with
  | add x => exact keeps_finish_new H _ _ hs
  | logic x => exact keeps_finish_new H _ _ hs
  | cmp op =>
    dsimp only
    split
    · exact keeps_finish_new H _ _ hs
    · exact keeps_bind' H (keeps_err H _) (fun _ => keeps_pure H _) _ hs
  | mul op =>
    dsimp only
    have ha : ∀ x, s2.heap[l]? = some x → x = a := by
      intro x hx
      have : load l s2 = .ok x s2 := by simp [load, hx]
      rw [this] at e1
      cases e1
      rfl
    have hb : ∀ x, s2.heap[r]? = some x → x = b := by
      intro x hx
      have : load r s2 = .ok x s2 := by simp [load, hx]
      rw [this] at e2
      cases e2
      rfl
    have hstr : ∀ st n v es, mulStr op st n = .ret (some v) es → Rel (.str st) v := by
      intro st n v es h
      unfold mulStr at h
      split at h
      · cases h
      · rename_i ho
        have ho : op = .mul := by simpa using ho
        subst ho
        split at h
        · cases h
        · cases h
          obtain ⟨t, hp, ht⟩ := hop rfl
          exact H.times t hp ht _ _
    have hnull : ∀ {c : Prop} [Decidable c] v es, (if c then Out.ret (some (Val.null : Val Ref)) []
        else .ret none [Err.rangeOp]) = .ret (some v) es → Rel .null v := by
      intro c _ v es h
      split at h
      · cases h; exact H.refl _
      · cases h
    cases hm : mulNode a b with
    | none => exact keeps_finish_new H _ _ hs
    | some right =>
      cases right
      · apply keeps_finish H _ _ _ hs
        intro x v es hx ho
        have := ha x hx
        subst this
        unfold mulNode at hm
        split at hm <;> first | cases hm | skip
        · exact hstr _ _ _ _ ho
        · exact hnull _ _ ho
        · exact hnull _ _ ho
      · apply keeps_finish H _ _ _ hs
        intro x v es hx ho
        have := hb x hx
        subst this
        unfold mulNode at hm
        split at hm <;> first | cases hm | skip
        · exact hstr _ _ _ _ ho
        · exact hnull _ _ ho

theorem keeps_loop (env : Env) (op : Tok → Option BinOp) (sub : M (Option Ref))
    (hop : ∀ t, op t = some (.mul .mul) → mulOf t = some (.mul .mul)) (hsub : Keeps P Rel sub) :
    ∀ n r, Keeps P Rel (binLoop op sub (apply env) n r) := by
  intro n
  induction n with
  | zero => intro r; exact keeps_fuel H
  | succ n ih =>
    intro r s hs
    rw [binLoop]
    apply keeps_bind H (keeps_get H s hs)
    intro c s1 e1 h1
    cases e1
    cases ho : op s.cur with
    | none => exact keeps_pure H _ _ hs
    | some o =>
      dsimp only
      apply keeps_bind H (keeps_next H s hs)
      intro _ s2 _ h2
      apply keeps_bind H (hsub s2 h2)
      intro v s3 _ h3
      cases v with
      | none => exact keeps_pure H _ _ h3
      | some rhs =>
        dsimp only
        apply keeps_bind H (keeps_apply H env o r rhs s3 h3 (fun e => ⟨s.cur, hs.1, hop _ (by rw [ho, e])⟩))
        intro v s4 _ h4
        cases v with
        | none => exact keeps_pure H _ _ h4
        | some q => exact ih q s4 h4

theorem keeps_level (env : Env) (op : Tok → Option BinOp) (sub : M (Option Ref))
    (hop : ∀ t, op t = some (.mul .mul) → mulOf t = some (.mul .mul)) (hsub : Keeps P Rel sub) :
    Keeps P Rel (binLevel op (apply env) sub) := by
  apply keeps_bind' H hsub
  intro v
  cases v with
  | none => exact keeps_pure H _
  | some r => exact keeps_bind' H (keeps_get H) (fun c => keeps_loop H env op sub hop hsub _ r)

theorem keeps_logicalOr (env : Env) (pw : M (Option Ref)) (h : Keeps P Rel pw) :
    Keeps P Rel (logicalOr env pw) := by
  have no : ∀ (op : Tok → Option BinOp), (∀ t, op t ≠ some (.mul .mul)) →
      ∀ t, op t = some (.mul .mul) → mulOf t = some (.mul .mul) := fun op h t e => absurd e (h t)
  refine keeps_level H env _ _ (no _ ?_) (keeps_level H env _ _ (no _ ?_) (keeps_level H env _ _ (no _ ?_)
    (keeps_level H env _ _ (no _ ?_) (keeps_level H env _ _ (no _ ?_) (keeps_level H env _ _ (fun _ h => h) h)))))
  · intro t e
    unfold orOf at e
    split at e <;> first | cases e | (split at e <;> cases e)
  · intro t e
    unfold andOf at e
    split at e <;> first | cases e | (split at e <;> cases e)
  · intro t e
    unfold equOf at e
    split at e <;> first | cases e | (split at e <;> cases e)
  · intro t e
    unfold relOf at e
    split at e <;> cases e
  · intro t e
    unfold addOf at e
    split at e <;> cases e

theorem keeps_condLoop (cond : M (Option Ref)) (h : Keeps P Rel cond) :
    ∀ n r, Keeps P Rel (condLoop cond n r) := by
  intro n
  induction n with
  | zero => intro r; exact keeps_fuel H
  | succ n ih =>
    intro r
    rw [condLoop]
    apply keeps_bind' H (keeps_get H)
    intro c
    split
    · apply keeps_bind' H (keeps_boolean H r)
      intro b
      apply keeps_bind' H (keeps_next H)
      intro _
      split
      · apply keeps_bind' H h
        intro v
        cases v with
        | none => exact keeps_pure H _
        | some q =>
          dsimp only
          apply keeps_bind' H (keeps_get H)
          intro c
          split
          · exact keeps_bind' H (keeps_next H) (fun _ => keeps_bind' H (keeps_silent H h) (fun _ => ih q))
          · exact keeps_bind' H (keeps_err H _) (fun _ => keeps_pure H _)
      · apply keeps_bind' H (keeps_silent H h)
        intro _
        apply keeps_bind' H (keeps_get H)
        intro c
        split
        · apply keeps_bind' H (keeps_next H)
          intro _
          apply keeps_bind' H h
          intro v
          cases v with
          | none => exact keeps_pure H _
          | some q => exact ih q
        · exact keeps_bind' H (keeps_err H _) (fun _ => keeps_pure H _)
    · exact keeps_pure H _

theorem keeps_condF (cond lor : M (Option Ref)) (h : Keeps P Rel cond) (hl : Keeps P Rel lor) :
    Keeps P Rel (condF cond lor) := by
  apply keeps_bind' H hl
  intro v
  cases v with
  | none => exact keeps_pure H _
  | some r => exact keeps_bind' H (keeps_get H) (fun _ => keeps_condLoop H cond h _ r)

theorem keeps_assignment (cond : M (Option Ref)) (h : Keeps P Rel cond) :
    Keeps P Rel (assignment cond) := by
  apply keeps_bind' H h
  intro v
  cases v with
  | none => exact keeps_pure H _
  | some r =>
    dsimp only
    apply keeps_bind' H (keeps_load H r)
    intro v
    split
    · apply keeps_bind' H (keeps_get H)
      intro c
      split
      · apply keeps_bind' H (keeps_next H)
        intro _
        apply keeps_bind' H h
        intro w
        apply keeps_bind' H
        · intro s hs q s' e
          cases e
          exact ⟨hs, FrameR.refl H _⟩
        · intro _; exact keeps_pure H _
      · exact keeps_pure H _
    · exact keeps_pure H _

theorem keeps_mapLoop (cond : M (Option Ref)) (h : Keeps P Rel cond) :
    ∀ n items, Keeps P Rel (mapLoop cond n items) := by
  intro n
  induction n with
  | zero => intro items; exact keeps_fuel H
  | succ n ih =>
    intro items
    rw [mapLoop]
    apply keeps_bind' H (keeps_get H)
    intro c
    split
    · exact keeps_pure H _
    · apply keeps_bind' H (keeps_next H)
      intro _
      apply keeps_bind' H (keeps_next H)
      intro _
      apply keeps_bind' H (keeps_get H)
      intro c
      split
      · exact keeps_bind' H (keeps_next H) (fun _ => keeps_bind' H (keeps_alloc H _) (fun _ => ih _))
      · apply keeps_bind' H (keeps_get H)
        intro c
        split
        · exact keeps_bind' H (keeps_alloc H _) (fun _ => ih _)
        · apply keeps_bind' H (keeps_assignment H cond h)
          intro result
          apply keeps_bind' H
          · apply keeps_bind' H (keeps_get H)
            intro c
            split
            · exact keeps_bind' H (keeps_next H) (fun _ => keeps_pure H _)
            · exact keeps_pure H _
          · intro more
            apply keeps_bind' H
            · split
              · exact keeps_pure H _
              · exact keeps_alloc H _
            · intro v
              split
              · exact ih _
              · exact keeps_pure H _

theorem keeps_arrayLoop (cond : M (Option Ref)) (h : Keeps P Rel cond) :
    ∀ n items, Keeps P Rel (arrayLoop cond n items) := by
  intro n
  induction n with
  | zero => intro items; exact keeps_fuel H
  | succ n ih =>
    intro items
    rw [arrayLoop]
    apply keeps_bind' H (keeps_get H)
    intro c
    split
    · apply keeps_bind' H (keeps_next H)
      intro _
      apply keeps_bind' H (keeps_assignment H cond h)
      intro v
      cases v with
      | none => exact keeps_pure H _
      | some r => exact ih _
    · exact keeps_pure H _

theorem keeps_exprList (cond : M (Option Ref)) (h : Keeps P Rel cond) : Keeps P Rel (exprList cond) := by
  apply keeps_bind' H (keeps_get H)
  intro c
  split
  · exact keeps_bind' H (keeps_mapLoop H cond h _ _)
      (fun _ => keeps_bind' H (keeps_alloc H _) (fun _ => keeps_pure H _))
  · apply keeps_bind' H (keeps_assignment H cond h)
    intro v
    cases v with
    | none => exact keeps_pure H _
    | some r =>
      dsimp only
      apply keeps_bind' H (keeps_get H)
      intro c
      split
      · exact keeps_bind' H (keeps_get H) (fun _ => keeps_bind' H (keeps_arrayLoop H cond h _ _)
          (fun _ => keeps_bind' H (keeps_alloc H _) (fun _ => keeps_pure H _)))
      · exact keeps_pure H _

theorem keeps_group (cond : M (Option Ref)) (h : Keeps P Rel cond) (l : List Tok) (hl : ∀ t ∈ l, P t) :
    Keeps P Rel (group cond l) := by
  intro s hs
  apply keeps_bind H (keeps_get H s hs)
  intro o s1 e1 h1
  cases e1
  apply keeps_bind H
  · intro r s' e
    cases e
    exact ⟨⟨H.eof, hl⟩, FrameR.refl H _⟩
  · intro _ s2 _ h2
    apply keeps_bind H (keeps_next H s2 h2)
    intro _ s3 _ h3
    apply keeps_bind H (keeps_exprList H cond h s3 h3)
    intro r s4 _ h4
    apply keeps_bind H
    · intro q s' e
      cases e
      exact ⟨hs, FrameR.refl H _⟩
    · intro _ s5 _ h5
      exact keeps_pure H _ _ h5

theorem keeps_finishRef (o : Out Ref) : Keeps P Rel (finishRef o) := by
  cases o with
  | undef => intro s _ r s' h; cases h
  | throws => intro s _ r s' h; cases h
  | ret v es => exact keeps_bind' H (keeps_err H es) (fun _ => keeps_pure H _)

theorem keeps_postLoop (cond : M (Option Ref)) (h : Keeps P Rel cond) :
    ∀ n r, Keeps P Rel (postLoop (fun ts => group cond ts) n r) := by
  intro n
  induction n with
  | zero => intro r; exact keeps_fuel H
  | succ n ih =>
    intro r s hs
    rw [postLoop]
    apply keeps_bind H (keeps_get H s hs)
    intro c s1 e1 h1
    cases e1
    split
    · rename_i toks hc
      apply keeps_bind H (keeps_group H cond h toks (H.square toks (by rw [← hc]; exact hs.1)) s hs)
      intro v s2 _ h2
      cases v with
      | none => exact keeps_pure H _ _ h2
      | some i =>
        refine keeps_bind' H (keeps_next H) (fun _ => keeps_bind' H (keeps_load H i) (fun iv =>
          keeps_bind' H (keeps_load H r) (fun v => keeps_bind' H (keeps_finishRef H _) (fun q => ?_)))) s2 h2
        cases q with
        | none => exact keeps_pure H _
        | some q => exact ih q
    · refine keeps_bind' H (keeps_next H) (fun _ => keeps_bind' H (keeps_get H) (fun c => ?_)) s hs
      split
      · refine keeps_bind' H (keeps_next H) (fun _ => 
          keeps_bind' H (keeps_load H r) (fun v => keeps_bind' H (keeps_finishRef H _) (fun q => ?_)))
        cases q with
        | none => exact keeps_pure H _
        | some q => exact ih q
      · exact keeps_bind' H (keeps_err H _) (fun _ => keeps_pure H _)
    · exact keeps_pure H _ _ hs

theorem keeps_unaryF (env : Env) (pw cond : M (Option Ref)) (hp : Keeps P Rel pw) (h : Keeps P Rel cond) :
    Keeps P Rel (unaryF env pw (fun ts => group cond ts)) := by
  intro s hs
  apply keeps_bind H (keeps_get H s hs)
  intro c s1 e1 h1
  cases e1
  split
  · exact keeps_bind' H (keeps_next H) (fun _ => keeps_bind' H (keeps_alloc H _) (fun _ => keeps_pure H _)) s hs
  · refine keeps_bind' H (keeps_next H) (fun _ => ?_) s hs
    exact keeps_finish_new H _
  · rename_i toks hc
    exact keeps_bind' H (keeps_next H) (fun _ => keeps_group H cond h toks
      (H.paren toks (by rw [← hc]; exact hs.1))) s hs
  · exact keeps_bind' H (keeps_next H) (fun _ => hp) s hs
  · rename_i hc
    apply keeps_bind H (keeps_next H s hs)
    intro _ s2 _ h2
    apply keeps_bind H (hp s2 h2)
    intro v s3 _ h3
    cases v with
    | none => exact keeps_pure H _ _ h3
    | some r =>
      dsimp only
      apply keeps_bind H (keeps_load H r s3 h3)
      intro v s4 e4 h4
      have es : s4 = s3 := by cases e4; rfl
      subst es
      apply keeps_finish H r _ s4 h4
      intro a w es ha ho
      have : load r s4 = .ok a s4 := by simp [load, ha]
      rw [this] at e4
      cases e4
      exact H.minus (by rw [← hc]; exact hs.1) _ _ _ ho
  · refine keeps_bind' H (keeps_next H) (fun _ => ?_) s hs
    split
    · exact keeps_bind' H (keeps_err H _) (fun _ => keeps_pure H _)
    · exact keeps_bind' H (keeps_alloc H _) (fun _ => keeps_pure H _)
  · refine keeps_bind' H (keeps_next H) (fun _ => ?_) s hs
    split
    · exact keeps_bind' H (keeps_alloc H _) (fun _ => keeps_pure H _)
    · split
      · exact keeps_pure H _
      · exact keeps_bind' H (keeps_alloc H _) (fun _ => keeps_pure H _)
  · exact keeps_bind' H (keeps_err H _) (fun _ => keeps_pure H _) s hs

theorem keeps_all (env : Env) : ∀ n, Keeps P Rel (power env n) ∧ Keeps P Rel (conditional env n) := by
  intro n
  induction n with
  | zero => rw [power, conditional]; exact ⟨keeps_fuel H, keeps_fuel H⟩
  | succ n ih =>
    rw [power, conditional]
    constructor
    · have hpost : Keeps P Rel (postF (fun ts => group (conditional env n) ts)
          (unaryF env (power env n) (fun ts => group (conditional env n) ts))) := by
        apply keeps_bind' H (keeps_unaryF H env _ _ ih.1 ih.2)
        intro v
        cases v with
        | none => exact keeps_pure H _
        | some r => exact keeps_bind' H (keeps_get H) (fun _ => keeps_postLoop H _ ih.2 _ r)
      apply keeps_bind' H hpost
      intro v
      cases v with
      | none => exact keeps_pure H _
      | some r =>
        dsimp only
        apply keeps_bind' H (keeps_get H)
        intro c
        split
        · apply keeps_bind' H (keeps_next H)
          intro _
          apply keeps_bind' H hpost
          intro v
          cases v with
          | none => exact keeps_pure H _
          | some q => exact keeps_bind' H (keeps_load H _) (fun _ => keeps_bind' H (keeps_load H _)
              (fun _ => keeps_finish_new H _))
        · exact keeps_pure H _
    · exact keeps_condF H _ _ ih.2 (keeps_logicalOr H env _ ih.1)

/-- Any expression, with any variables. -/
theorem keeps_compile (env : Env) (heap : List (Val Ref)) (toks : List Tok) (ht : ∀ t ∈ toks, P t)
    (r : Option Ref) (s : St) (h : compile env heap toks = .ok r s) : FrameR Rel heap s.heap := by
  have := keeps_bind' H (keeps_next H) (fun _ => (keeps_all H env (3 * sizeAll toks + 4)).2)
    { heap := heap, errs := [], cur := .sym .EOF_TOKEN, rest := toks, vars := [] } ⟨H.eof, ht⟩ r s h
  exact this.2
end

theorem hyp_kept : Hyp (fun _ => True) Kept := by
  refine ⟨Kept.refl, fun _ _ _ => Kept.trans, trivial, fun _ _ _ _ => trivial, fun _ _ _ _ => trivial, ?_, ?_⟩
  · intro _ v w es h
    cases v with
    | int i d =>
      simp only [negOp, ofI64] at h
      split at h
      · cases h; exact ⟨-i, rfl, by omega⟩
      · cases h
    | dec x d => simp only [negOp] at h; cases h; exact Or.inr rfl
    | pct x => simp only [negOp] at h; cases h; exact Or.inr rfl
    | _ => simp only [negOp] at h; cases h
  · intro t _ _ st n
    exact ⟨n, by rw [repeatStr_eq]⟩

/-- C31: whatever the expression, an existing node keeps its type and its unit; a number changes at
most its sign, a string becomes at most a repetition of itself, and nothing else changes. -/
theorem C31_kept (env : Env) (heap : List (Val Ref)) (toks : List Tok) (r : Option Ref) (s : St)
    (h : compile env heap toks = .ok r s) (i : Ref) (v : Val Ref) (hv : heap[i]? = some v) :
    ∃ w, s.heap[i]? = some w ∧ Kept v w :=
  keeps_compile hyp_kept env heap toks (fun _ _ => trivial) r s h i v hv

/-- C31: the same for the variables of an expression, between two items of a list: conditional() on
any state. -/
theorem C31_variables (env : Env) (n : Nat) (s s' : St) (r : Option Ref)
    (h : conditional env n s = .ok r s') (name : Str) (q : Ref) (v : Val Ref)
    (_hvar : s.vars.lookup name = some (some q)) (hv : s.heap[q]? = some v) :
    ∃ w, s'.heap[q]? = some w ∧ Kept v w :=
  ((keeps_all hyp_kept env n).2 s ⟨trivial, fun _ _ => trivial⟩ r s' h).2 q v hv

theorem quietAll_mem : ∀ (l : List Tok), quietAll l = true → ∀ t ∈ l, t.quiet = true := by
  intro l
  induction l with
  | nil => intro _ t h; cases h
  | cons a l ih =>
    intro h t ht
    simp only [quietAll, Bool.and_eq_true] at h
    rcases List.mem_cons.mp ht with rfl | ht
    · exact h.1
    · exact ih h.2 t ht

theorem hyp_quiet : Hyp (fun t => t.quiet = true) (fun a b => a = b) := by
  refine ⟨fun _ => rfl, fun _ _ _ h1 h2 => h1.trans h2, rfl, ?_, ?_, ?_, ?_⟩
  · intro l hl
    simp only [Tok.quiet] at hl
    exact quietAll_mem l hl
  · intro l hl
    simp only [Tok.quiet] at hl
    exact quietAll_mem l hl
  · intro h; cases h
  · intro t ht hm
    exfalso
    unfold mulOf at hm
    split at hm
    · rename_i st
      simp only [Tok.quiet] at ht
      split at hm
      · rename_i e
        rw [e] at ht
        revert ht
        decide
      · split at hm
        · cases hm
        · split at hm <;> cases hm
    · cases ht
    · cases hm
    · cases hm
    · cases hm

/-- C31: without any minus sign and any multiplication, no existing node changes. -/
theorem C31_unchanged (env : Env) (heap : List (Val Ref)) (toks : List Tok) (hq : quietAll toks = true)
    (r : Option Ref) (s : St) (h : compile env heap toks = .ok r s) (i : Ref) (hi : i < heap.length) :
    s.heap[i]? = heap[i]? := by
  obtain ⟨w, hw, e⟩ := keeps_compile hyp_quiet env heap toks (quietAll_mem toks hq) r s h i _
    (List.getElem?_eq_getElem hi)
  rw [hw, ← e, List.getElem?_eq_getElem hi]

/-- C31: the same for the variables of an expression. -/
theorem C31_variables_unchanged (env : Env) (n : Nat) (s s' : St) (r : Option Ref)
    (hq : quietAll (s.cur :: s.rest) = true) (h : conditional env n s = .ok r s') (name : Str) (q : Ref)
    (v : Val Ref) (_hvar : s.vars.lookup name = some (some q)) (hv : s.heap[q]? = some v) :
    s'.heap[q]? = some v := by
  have hm := quietAll_mem _ hq
  obtain ⟨w, hw, e⟩ := ((keeps_all hyp_quiet env n).2 s
    ⟨hm _ (by simp), fun t ht => hm t (by simp [ht])⟩ r s' h).2 q v hv
  rw [hw, e]

/-- An environment without functions. -/
def noEnv : Env where
  pow := fun x _ => x
  call := fun _ _ => (none, [])

/-- The value of an integer. -/
def intOf (s : St) (q : Ref) : Int :=
  match s.heap[q]? with
  | some (.int i _) => i
  | _ => 0

/-- The value of an array of integers. -/
def intsOf : R (Option Ref) → Option (List Int)
  | .ok (some r) s =>
    match s.heap[r]? with
    | some (.array l) => some (l.map (intOf s))
    | _ => none
  | _ => none

/-- C31, refuted in full: `(a := 3, -a, a)` is not (3, -3, 3): the minus sign changed the variable. -/
theorem C31_refuted_minus :
    intsOf (compile noEnv [] [.paren [.ident b!"a", .sym .ASSIGNMENT, .lit (.int 3 []), .sym .COMMA,
      .sym .SUBTRACT, .ident b!"a", .sym .COMMA, .ident b!"a"]]) = some [-3, -3, -3] := by
  decide +kernel

/-- The hypotheses of C31_unchanged: `(a := 3, a + 1, a)` gives (3, 4, 3). -/
example : quietAll [.paren [.ident b!"a", .sym .ASSIGNMENT, .lit (.int 3 []), .sym .COMMA,
    .ident b!"a", .sym .ADD, .lit (.int 1 []), .sym .COMMA, .ident b!"a"]] = true := by decide
example : intsOf (compile noEnv [] [.paren [.ident b!"a", .sym .ASSIGNMENT, .lit (.int 3 []), .sym .COMMA,
    .ident b!"a", .sym .ADD, .lit (.int 1 []), .sym .COMMA, .ident b!"a"]]) = some [3, 4, 3] := by
  decide +kernel

end Csspp.Expr
