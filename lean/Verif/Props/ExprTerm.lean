import Verif.Model.ExprEval

/-!
C43: the evaluation of an expression ends: the bounds on the recursion and on the loops of the model
are never reached, whatever the tokens.
-/

namespace Csspp.Expr
open Csspp.Flt

/-- The token is the end of the list. -/
def Tok.isEnd : Tok → Bool
  | .sym .EOF_TOKEN => true
  | _ => false

/-- The tokens to read, at any depth. -/
def sz (s : St) : Nat := (if s.cur.isEnd then 0 else s.cur.size) + sizeAll s.rest

/-- The tokens to read, at this depth. -/
def cnt (s : St) : Nat := (if s.cur.isEnd then 0 else 1) + s.rest.length

def Le (s' s : St) : Prop := sz s' ≤ sz s ∧ cnt s' ≤ cnt s
def Lt (s' s : St) : Prop := sz s' < sz s ∧ cnt s' < cnt s

/-- The evaluation ends, and does not go back. -/
def Term {β : Type} (s : St) (m : M β) : Prop := m s ≠ .fuel ∧ ∀ r s', m s = .ok r s' → Le s' s

theorem Le.refl (s : St) : Le s s := ⟨Nat.le_refl _, Nat.le_refl _⟩
theorem Le.trans {a b c : St} (h1 : Le a b) (h2 : Le b c) : Le a c :=
  ⟨Nat.le_trans h1.1 h2.1, Nat.le_trans h1.2 h2.2⟩
theorem Lt.le {a b : St} (h : Lt a b) : Le a b := ⟨Nat.le_of_lt h.1, Nat.le_of_lt h.2⟩
theorem Le.trans_lt {a b c : St} (h1 : Le a b) (h2 : Lt b c) : Lt a c :=
  ⟨Nat.lt_of_le_of_lt h1.1 h2.1, Nat.lt_of_le_of_lt h1.2 h2.2⟩

theorem size_one_le (t : Tok) : 1 ≤ t.size := by
  cases t <;> simp only [Tok.size] <;> omega

theorem sizeAll_dropWs (l : List Tok) : sizeAll (dropWs l) ≤ sizeAll l ∧ (dropWs l).length ≤ l.length := by
  induction l with
  | nil => exact ⟨Nat.le_refl _, Nat.le_refl _⟩
  | cons t l ih =>
    unfold dropWs
    split
    · simp only [sizeAll, List.length_cons]; omega
    · exact ⟨Nat.le_refl _, Nat.le_refl _⟩

theorem next_ok (s : St) : ∃ s', next s = .ok () s' ∧ Le s' s ∧ (s.cur.isEnd = false → Lt s' s) := by
  unfold next
  cases hr : s.rest with
  | nil =>
    refine ⟨_, rfl, ?_, ?_⟩
    · simp [Le, sz, cnt, hr, Tok.isEnd]
    · intro h
      have := size_one_le s.cur
      simp [Lt, sz, cnt, hr, Tok.isEnd]
      simp [Tok.isEnd] at h
      simp [h]
      omega
  | cons t ts =>
    have hd := sizeAll_dropWs ts
    have ht := size_one_le t
    refine ⟨_, rfl, ?_, ?_⟩
    · simp only [Le, sz, cnt, hr, sizeAll, List.length_cons]
      split <;> omega
    · intro h
      have hs := size_one_le s.cur
      have e1 : sz s = s.cur.size + sizeAll (t :: ts) := by unfold sz; rw [h, hr]; rfl
      have e2 : cnt s = 1 + (t :: ts).length := by unfold cnt; rw [h, hr]; rfl
      simp only [sizeAll, List.length_cons] at e1 e2
      unfold Lt
      rw [e1, e2]
      simp only [sz, cnt]
      split <;> omega

theorem bind_eq {β γ : Type} (m : M β) (f : β → M γ) (s : St) : (m >>= f) s = (match m s with
    | .ok v s' => f v s'
    | .undef => .undef
    | .throws => .throws
    | .fuel => .fuel) := rfl

theorem bind_inv {β γ : Type} {m : M β} {f : β → M γ} {s s' : St} {r : γ}
    (h : (m >>= f) s = .ok r s') : ∃ v s1, m s = .ok v s1 ∧ f v s1 = .ok r s' := by
  rw [bind_eq] at h
  split at h
  · rename_i v s1 e; exact ⟨v, s1, e, h⟩
  all_goals cases h

theorem bind_fuel {β γ : Type} {m : M β} {f : β → M γ} {s : St}
    (h : (m >>= f) s = .fuel) : m s = .fuel ∨ ∃ v s1, m s = .ok v s1 ∧ f v s1 = .fuel := by
  rw [bind_eq] at h
  split at h
  · rename_i v s1 e; right; exact ⟨v, s1, e, h⟩
  · cases h
  · cases h
  · left; assumption

theorem sz_cur {s : St} (h : s.cur.isEnd = false) : sz s = s.cur.size + sizeAll s.rest := by
  unfold sz; rw [h]; rfl

/-- The tokens of the outer expression come back. -/
theorem group_inv {cond : M (Option Ref)} {l : List Tok} {s s' : St} {r : Option Ref}
    (h : group cond l s = .ok r s') : s'.cur = s.cur ∧ s'.rest = s.rest := by
  unfold group at h
  obtain ⟨_, s1, h1, h⟩ := bind_inv h
  cases h1
  obtain ⟨_, s2, _, h⟩ := bind_inv h
  obtain ⟨_, s3, _, h⟩ := bind_inv h
  obtain ⟨_, s4, _, h⟩ := bind_inv h
  obtain ⟨_, s5, h5, h⟩ := bind_inv h
  cases h5
  cases h
  exact ⟨rfl, rfl⟩

theorem boolean_inv {r : Ref} {s s' : St} {b : Bool} (h : boolean r s = .ok b s') :
    s'.cur = s.cur := by
  unfold boolean at h
  obtain ⟨v, s1, h1, h⟩ := bind_inv h
  cases h1
  cases hb : boolVal (s.heap[r]?.getD .null) with
  | undef => rw [hb] at h; cases h
  | throws => rw [hb] at h; cases h
  | ret x es =>
    rw [hb] at h
    obtain ⟨_, s2, h2, h⟩ := bind_inv h
    cases h2
    cases h
    rfl

theorem term_bind {β γ : Type} {s : St} {m : M β} {f : β → M γ} (h1 : Term s m)
    (h2 : ∀ v s', m s = .ok v s' → Le s' s → Term s' (f v)) : Term s (m >>= f) := by
  have e : (m >>= f) s = (match m s with
    | .ok v s' => f v s'
    | .undef => .undef
    | .throws => .throws
    | .fuel => .fuel) := rfl
  unfold Term
  rw [e]
  cases hm : m s with
  | ok v s1 =>
    have l1 := h1.2 v s1 hm
    obtain ⟨a, b⟩ := h2 v s1 hm l1
    exact ⟨a, fun r s' h => (b r s' h).trans l1⟩
  | undef => exact ⟨by simp, fun _ _ h => by cases h⟩
  | throws => exact ⟨by simp, fun _ _ h => by cases h⟩
  | fuel => exact absurd hm h1.1

/-- Reading a token that is not the end. -/
theorem term_next {γ : Type} {s : St} {f : Unit → M γ} (hc : s.cur.isEnd = false)
    (h : ∀ s', Lt s' s → Term s' (f ())) : Term s (next >>= f) := by
  obtain ⟨s', e, _, l⟩ := next_ok s
  apply term_bind
  · refine ⟨by rw [e]; simp, fun r q h => ?_⟩
    rw [e] at h
    cases h
    exact (l hc).le
  · intro v q hq _
    rw [e] at hq
    cases hq
    exact h _ (l hc)

theorem term_next' {γ : Type} {s : St} {f : Unit → M γ} (h : ∀ s', Le s' s → Term s' (f ())) :
    Term s (next >>= f) := by
  obtain ⟨s', e, l, _⟩ := next_ok s
  apply term_bind
  · refine ⟨by rw [e]; simp, fun r q h => ?_⟩
    rw [e] at h
    cases h
    exact l
  · intro v q hq _
    rw [e] at hq
    cases hq
    exact h _ l

theorem term_pure {β : Type} (s : St) (v : β) : Term s (pure v : M β) :=
  ⟨by simp [pure], fun r s' h => by cases h; exact Le.refl s⟩

theorem term_get {γ : Type} {s : St} {f : St → M γ} (h : Term s (f s)) : Term s (get' >>= f) := by
  apply term_bind
  · exact ⟨by simp [get'], fun r s' h => by cases h; exact Le.refl s⟩
  · intro v s' e _
    cases e
    exact h

theorem term_err (s : St) (es : List Err) : Term s (err es) :=
  ⟨by simp [err], fun r s' h => by cases h; exact Le.refl s⟩
theorem term_load (s : St) (r : Ref) : Term s (load r) :=
  ⟨by simp [load], fun r s' h => by cases h; exact Le.refl s⟩
theorem term_alloc (s : St) (v : Val Ref) : Term s (alloc v) :=
  ⟨by simp [alloc], fun r s' h => by cases h; exact Le.refl s⟩
theorem term_store (s : St) (r : Ref) (v : Val Ref) : Term s (store r v) :=
  ⟨by simp [store], fun r s' h => by cases h; exact Le.refl s⟩

theorem term_errNone (s : St) (es : List Err) :
    Term s (do err es; pure none : M (Option Ref)) :=
  term_bind (term_err s es) (fun _ s' _ _ => term_pure s' _)

theorem term_finish (s : St) (place : Option Ref) (o : Out (Val Ref)) : Term s (finish place o) := by
  cases o with
  | undef => exact ⟨fun h => (by cases h), fun _ _ h => (by cases h)⟩
  | throws => exact ⟨fun h => (by cases h), fun _ _ h => (by cases h)⟩
  | ret v es =>
    cases v with
    | none => exact term_errNone s es
    | some v =>
      apply term_bind (term_err s es)
      intro _ s1 _ _
      cases place with
      | none => exact term_bind (term_alloc s1 v) (fun _ s2 _ _ => term_pure s2 _)
      | some r => exact term_bind (term_store s1 r v) (fun _ s2 _ _ => term_pure s2 _)

theorem term_finishRef (s : St) (o : Out Ref) : Term s (finishRef o) := by
  cases o with
  | undef => exact ⟨fun h => (by cases h), fun _ _ h => (by cases h)⟩
  | throws => exact ⟨fun h => (by cases h), fun _ _ h => (by cases h)⟩
  | ret v es => exact term_bind (term_err s es) (fun _ s1 _ _ => term_pure s1 _)

theorem term_boolean (s : St) (r : Ref) : Term s (boolean r) := by
  apply term_bind (term_load s r)
  intro v s1 _ _
  cases boolVal v with
  | undef => exact ⟨fun h => (by cases h), fun _ _ h => (by cases h)⟩
  | throws => exact ⟨fun h => (by cases h), fun _ _ h => (by cases h)⟩
  | ret b es => exact term_bind (term_err s1 es) (fun _ s2 _ _ => term_pure s2 _)

theorem term_silent (s : St) (m : M (Option Ref)) (h : Term s m) : Term s (silent m) := by
  apply term_get
  apply term_bind h
  intro v s1 _ _
  exact ⟨by simp, fun r s' e => by cases e; exact Le.refl s1⟩

theorem term_apply (env : Env) (op : BinOp) (l r : Ref) (s : St) : Term s (apply env op l r) := by
  apply term_bind (term_load s l)
  intro a s1 _ _
  apply term_bind (term_load s1 r)
  intro b s2 _ _
  cases op with
  | mul op => exact term_finish _ _ _
  | add x => exact term_finish _ _ _
  | logic x => exact term_finish _ _ _
  | cmp op =>
    dsimp only
    split
    · exact term_finish _ _ _
    · exact term_bind (term_err _ _) (fun _ s1 _ _ => term_pure s1 _)

/-- `m` ends when there are at most `n` tokens. -/
def TermN {β : Type} (n : Nat) (m : M β) : Prop := ∀ s, sz s ≤ n → Term s m

theorem term_loop (env : Env) (op : Tok → Option BinOp) (sub : M (Option Ref)) (N : Nat)
    (hop : op (.sym .EOF_TOKEN) = none) (hsub : TermN N sub) :
    ∀ n r s, sz s ≤ N → cnt s + 1 ≤ n → Term s (binLoop op sub (apply env) n r) := by
  intro n
  induction n with
  | zero => intro r s _ h; omega
  | succ n ih =>
    intro r s hs hn
    rw [binLoop]
    apply term_get
    cases ho : op s.cur with
    | none => exact term_pure s _
    | some o =>
      dsimp only
      have hc : s.cur.isEnd = false := by
        cases hb : s.cur.isEnd with
        | false => rfl
        | true =>
          unfold Tok.isEnd at hb
          split at hb
          · rename_i e; rw [e, hop] at ho; cases ho
          · cases hb
      apply term_next hc
      intro s1 l1
      apply term_bind (hsub s1 (by have := l1.1; omega))
      intro v s2 _ l2
      cases v with
      | none => exact term_pure s2 _
      | some q =>
        dsimp only
        apply term_bind (term_apply env o r q s2)
        intro v s3 _ l3
        cases v with
        | none => exact term_pure s3 _
        | some q =>
          have := (l3.trans l2).trans_lt l1
          exact ih q s3 (by have := this.1; omega) (by have := this.2; omega)

theorem cnt_le (s : St) : cnt s + 1 ≤ s.rest.length + 2 := by
  unfold cnt; split <;> omega

theorem term_level (env : Env) (op : Tok → Option BinOp) (sub : M (Option Ref)) (N : Nat)
    (hop : op (.sym .EOF_TOKEN) = none) (hsub : TermN N sub) :
    TermN N (binLevel op (apply env) sub) := by
  intro s hs
  apply term_bind (hsub s hs)
  intro v s1 _ l1
  cases v with
  | none => exact term_pure s1 _
  | some r =>
    dsimp only
    apply term_get
    exact term_loop env op sub N hop hsub _ r s1 (by have := l1.1; omega) (cnt_le s1)

theorem term_logicalOr (env : Env) (pw : M (Option Ref)) (N : Nat) (h : TermN N pw) :
    TermN N (logicalOr env pw) :=
  term_level env _ _ N rfl (term_level env _ _ N rfl (term_level env _ _ N rfl
    (term_level env _ _ N rfl (term_level env _ _ N rfl (term_level env _ _ N rfl h)))))

theorem notEnd_of_isSym {t : Tok} {ty : NT} (h : t.isSym ty = true) (hty : ty ≠ .EOF_TOKEN) :
    t.isEnd = false := by
  unfold Tok.isSym at h
  split at h
  · rename_i u
    have : u = ty := by simpa using h
    subst this
    unfold Tok.isEnd
    split
    · rename_i e; cases e; exact absurd rfl hty
    · rfl
  · cases h

theorem term_condLoop (cond : M (Option Ref)) (N : Nat) (h : TermN N cond) :
    ∀ n r s, sz s ≤ N + 1 → cnt s + 1 ≤ n → Term s (condLoop cond n r) := by
  intro n
  induction n with
  | zero => intro r s _ h; omega
  | succ n ih =>
    intro r s hs hn
    rw [condLoop]
    apply term_get
    split
    · rename_i hc
      apply term_bind (term_boolean s r)
      intro b s1 e1 l1
      have hcur : s1.cur = s.cur := boolean_inv e1
      apply term_next (by rw [hcur]; exact notEnd_of_isSym hc (by simp))
      intro s2 l2
      have l2 : Lt s2 s := ⟨by have := l1.1; have := l2.1; omega, by have := l1.2; have := l2.2; omega⟩
      split
      · apply term_bind (h s2 (by have := l2.1; omega))
        intro v s3 _ l3
        cases v with
        | none => exact term_pure s3 _
        | some q =>
          dsimp only
          apply term_get
          split
          · apply term_next'
            intro s4 l4
            have l4 : Lt s4 s := (l4.trans l3).trans_lt l2
            apply term_bind (term_silent s4 cond (h s4 (by have := l4.1; omega)))
            intro _ s5 _ l5
            have l5 := l5.trans_lt l4
            exact ih q s5 (by have := l5.1; omega) (by have := l5.2; omega)
          · exact term_errNone _ _
      · apply term_bind (term_silent s2 cond (h s2 (by have := l2.1; omega)))
        intro _ s3 _ l3
        apply term_get
        split
        · apply term_next'
          intro s4 l4
          have l4 : Lt s4 s := (l4.trans l3).trans_lt l2
          apply term_bind (h s4 (by have := l4.1; omega))
          intro v s5 _ l5
          have l5 := l5.trans_lt l4
          cases v with
          | none => exact term_pure s5 _
          | some q => exact ih q s5 (by have := l5.1; omega) (by have := l5.2; omega)
        · exact term_errNone _ _
    · exact term_pure s _

theorem term_assignment (cond : M (Option Ref)) (N : Nat) (h : TermN N cond) :
    TermN N (assignment cond) := by
  intro s hs
  apply term_bind (h s hs)
  intro v s1 _ l1
  cases v with
  | none => exact term_pure s1 _
  | some r =>
    dsimp only
    apply term_bind (term_load s1 r)
    intro v s2 e2 l2
    split
    · apply term_get
      split
      · apply term_next'
        intro s3 l3
        have l3 := (l3.trans l2).trans l1
        apply term_bind (h s3 (by have := l3.1; omega))
        intro w s4 _ l4
        apply term_bind
        · exact ⟨by simp, fun r s' e => by cases e; exact Le.refl s4⟩
        · intro _ s5 _ _
          exact term_pure s5 _
      · exact term_pure s2 _
    · exact term_pure s2 _

theorem term_mapLoop (cond : M (Option Ref)) (N : Nat) (h : TermN N cond) :
    ∀ n items s, sz s ≤ N → cnt s + 1 ≤ n → Term s (mapLoop cond n items) := by
  intro n
  induction n with
  | zero => intro r s _ h; omega
  | succ n ih =>
    intro items s hs hn
    rw [mapLoop]
    apply term_get
    split
    · exact term_pure s _
    · rename_i name hlab
      have hc : s.cur.isEnd = false := by
        unfold isLabel at hlab
        split at hlab
        · rename_i e _; rw [e]; rfl
        · cases hlab
      apply term_next hc
      intro s1 l1
      apply term_next'
      intro s2 l2
      have l2 := l2.trans_lt l1
      apply term_get
      split
      · apply term_next'
        intro s3 l3
        have l3 := l3.trans_lt l2
        apply term_bind (term_alloc s3 _)
        intro _ s4 _ l4
        have l4 := l4.trans_lt l3
        exact ih _ s4 (by have := l4.1; omega) (by have := l4.2; omega)
      · apply term_get
        split
        · apply term_bind (term_alloc s2 _)
          intro _ s4 _ l4
          have l4 := l4.trans_lt l2
          exact ih _ s4 (by have := l4.1; omega) (by have := l4.2; omega)
        · apply term_bind (term_assignment cond N h s2 (by have := l2.1; omega))
          intro result s3 _ l3
          have l3 := l3.trans_lt l2
          apply term_bind
          · apply term_get
            split
            · exact term_next' (fun s4 _ => term_pure s4 _)
            · exact term_pure s3 _
          · intro more s4 _ l4
            have l4 := l4.trans_lt l3
            apply term_bind
            · split
              · exact term_pure s4 _
              · exact term_alloc s4 _
            · intro v s5 _ l5
              have l5 := l5.trans_lt l4
              split
              · exact ih _ s5 (by have := l5.1; omega) (by have := l5.2; omega)
              · exact term_pure s5 _

theorem term_arrayLoop (cond : M (Option Ref)) (N : Nat) (h : TermN N cond) :
    ∀ n items s, sz s ≤ N → cnt s + 1 ≤ n → Term s (arrayLoop cond n items) := by
  intro n
  induction n with
  | zero => intro r s _ h; omega
  | succ n ih =>
    intro items s hs hn
    rw [arrayLoop]
    apply term_get
    split
    · rename_i hc
      apply term_next (notEnd_of_isSym hc (by simp))
      intro s1 l1
      apply term_bind (term_assignment cond N h s1 (by have := l1.1; omega))
      intro v s2 _ l2
      have l2 := l2.trans_lt l1
      cases v with
      | none => exact term_pure s2 _
      | some r => exact ih _ s2 (by have := l2.1; omega) (by have := l2.2; omega)
    · exact term_pure s _

theorem term_exprList (cond : M (Option Ref)) (N : Nat) (h : TermN N cond) : TermN N (exprList cond) := by
  intro s hs
  apply term_get
  split
  · apply term_bind (term_mapLoop cond N h _ _ s hs (cnt_le s))
    intro _ s1 _ _
    exact term_bind (term_alloc s1 _) (fun _ s2 _ _ => term_pure s2 _)
  · apply term_bind (term_assignment cond N h s hs)
    intro v s1 _ l1
    cases v with
    | none => exact term_pure s1 _
    | some r =>
      dsimp only
      apply term_get
      split
      · apply term_get
        apply term_bind (term_arrayLoop cond N h _ _ s1 (by have := l1.1; omega) (cnt_le s1))
        intro _ s2 _ _
        exact term_bind (term_alloc s2 _) (fun _ s3 _ _ => term_pure s3 _)
      · exact term_pure s1 _

theorem term_group (cond : M (Option Ref)) (N : Nat) (h : TermN N cond) (l : List Tok)
    (hl : sizeAll l ≤ N) (s : St) : Term s (group cond l) := by
  have ht : Term { s with cur := .sym .EOF_TOKEN, rest := l, vars := [] } (next >>= fun _ => exprList cond) := by
    apply term_next'
    intro s1 l1
    apply term_exprList cond N h s1
    have := l1.1
    have e : sz { s with cur := .sym .EOF_TOKEN, rest := l, vars := [] } = sizeAll l := by
      simp [sz, Tok.isEnd]
    omega
  constructor
  · intro h
    unfold group at h
    rcases bind_fuel h with h | ⟨_, s1, h1, h⟩
    · cases h
    cases h1
    rcases bind_fuel h with h | ⟨_, s2, h2, h⟩
    · cases h
    cases h2
    have h' : ((next >>= fun _ => exprList cond) >>= fun r => (do
        (fun s' => .ok () { s' with cur := s.cur, rest := s.rest, vars := s.vars } : M Unit)
        pure r : M (Option Ref))) { s with cur := .sym .EOF_TOKEN, rest := l, vars := [] } = .fuel := by
      rw [← h, bind_eq, bind_eq, bind_eq]
      obtain ⟨s3, e3, _⟩ := next_ok { s with cur := .sym .EOF_TOKEN, rest := l, vars := [] }
      rw [e3]
      rfl
    rcases bind_fuel h' with h | ⟨_, s3, h3, h⟩
    · exact ht.1 h
    · rcases bind_fuel h with h | ⟨_, s4, h4, h⟩
      · cases h
      · cases h
  · intro r s' h
    obtain ⟨h1, h2⟩ := group_inv h
    unfold Le sz cnt
    rw [h1, h2]
    exact ⟨Nat.le_refl _, Nat.le_refl _⟩

theorem term_postLoop (cond : M (Option Ref)) (N : Nat) (h : TermN N cond) :
    ∀ n r s, sz s ≤ N + 1 → cnt s + 1 ≤ n → Term s (postLoop (fun ts => group cond ts) n r) := by
  intro n
  induction n with
  | zero => intro r s _ h; omega
  | succ n ih =>
    intro r s hs hn
    rw [postLoop]
    apply term_get
    split
    · rename_i toks hc
      have hsz : sizeAll toks ≤ N := by
        rw [sz_cur (by rw [hc]; rfl), hc] at hs
        simp only [Tok.size] at hs
        omega
      have hg : ∀ v s2, group cond toks s = .ok v s2 → s2.cur = s.cur := fun v s2 e => (group_inv e).1
      apply term_bind (term_group cond N h toks hsz s)
      intro v s2 e2 l2
      cases v with
      | none => exact term_pure s2 _
      | some i =>
        dsimp only
        apply term_next (by rw [hg _ _ e2, hc]; rfl)
        intro s3 l3
        have l3 : Lt s3 s := ⟨by have := l2.1; have := l3.1; omega, by have := l2.2; have := l3.2; omega⟩
        apply term_bind (term_load s3 i)
        intro iv s4 _ l4
        apply term_bind (term_load s4 r)
        intro v s5 _ l5
        apply term_bind (term_finishRef s5 _)
        intro q s6 _ l6
        have l6 : Lt s6 s := ((l6.trans l5).trans l4).trans_lt l3
        cases q with
        | none => exact term_pure s6 _
        | some q => exact ih q s6 (by have := l6.1; omega) (by have := l6.2; omega)
    · rename_i hc
      apply term_next (by rw [hc]; rfl)
      intro s1 l1
      apply term_get
      split
      · apply term_next'
        intro s2 l2
        apply term_bind (term_load s2 r)
        intro v s3 _ l3
        apply term_bind (term_finishRef s3 _)
        intro q s4 _ l4
        have l4 : Lt s4 s := ((l4.trans l3).trans l2).trans_lt l1
        cases q with
        | none => exact term_pure s4 _
        | some q => exact ih q s4 (by have := l4.1; omega) (by have := l4.2; omega)
      · exact term_errNone _ _
    · exact term_pure s _

theorem term_unaryF (env : Env) (pw cond : M (Option Ref)) (N : Nat) (hp : TermN N pw)
    (h : TermN N cond) : TermN (N + 1) (unaryF env pw (fun ts => group cond ts)) := by
  intro s hs
  apply term_get
  split
  · exact term_next' (fun s1 _ => term_bind (term_alloc s1 _) (fun _ s2 _ _ => term_pure s2 _))
  · apply term_next'
    intro s1 _
    exact term_finish s1 _ _
  · rename_i toks hc
    apply term_next'
    intro s1 l1
    apply term_group cond N h toks
    rw [sz_cur (by rw [hc]; rfl), hc] at hs
    simp only [Tok.size] at hs
    omega
  · rename_i hc
    apply term_next (by rw [hc]; rfl)
    intro s1 l1
    exact hp s1 (by have := l1.1; omega)
  · rename_i hc
    apply term_next (by rw [hc]; rfl)
    intro s1 l1
    apply term_bind (hp s1 (by have := l1.1; omega))
    intro v s2 _ _
    cases v with
    | none => exact term_pure s2 _
    | some r => exact term_bind (term_load s2 r) (fun _ s3 _ _ => term_finish s3 _ _)
  · apply term_next'
    intro s1 _
    split
    · exact term_errNone _ _
    · exact term_bind (term_alloc s1 _) (fun _ s2 _ _ => term_pure s2 _)
  · apply term_next'
    intro s1 _
    split
    · exact term_bind (term_alloc s1 _) (fun _ s2 _ _ => term_pure s2 _)
    · split
      · exact term_pure s1 _
      · exact term_bind (term_alloc s1 _) (fun _ s2 _ _ => term_pure s2 _)
  · exact term_errNone _ _

theorem term_all (env : Env) : ∀ n, (∀ N, 2 * N + 1 ≤ n → TermN N (power env n)) ∧
    (∀ N, 2 * N + 2 ≤ n → TermN N (conditional env n)) := by
  intro n
  induction n with
  | zero => exact ⟨fun N h => by omega, fun N h => by omega⟩
  | succ n ih =>
    constructor
    · intro N hN
      rw [power]
      have hpost : TermN N (postF (fun ts => group (conditional env n) ts)
          (unaryF env (power env n) (fun ts => group (conditional env n) ts))) := by
        intro s hs
        cases N with
        | zero =>
          -- no token: an error
          have hend : s.cur = .sym .EOF_TOKEN := by
            unfold sz at hs
            have := size_one_le s.cur
            cases hb : s.cur.isEnd with
            | true =>
              unfold Tok.isEnd at hb
              split at hb
              · assumption
              · cases hb
            | false => rw [hb, if_neg (by simp)] at hs; omega
          apply term_bind (m := unaryF env (power env n) (fun ts => group (conditional env n) ts))
          · apply term_get
            rw [hend]
            exact term_errNone _ _
          · intro v s1 e1 _
            cases v with
            | none => exact term_pure _ _
            | some r =>
              exfalso
              unfold unaryF at e1
              obtain ⟨_, s2, h2, e1⟩ := bind_inv e1
              cases h2
              rw [hend] at e1
              cases e1
        | succ N =>
          apply term_bind (term_unaryF env _ _ N (ih.1 N (by omega)) (ih.2 N (by omega)) s hs)
          intro v s1 _ l1
          cases v with
          | none => exact term_pure s1 _
          | some r =>
            dsimp only
            apply term_get
            exact term_postLoop _ N (ih.2 N (by omega)) _ r s1 (by have := l1.1; omega) (cnt_le s1)
      intro s hs
      apply term_bind (hpost s hs)
      intro v s1 _ l1
      cases v with
      | none => exact term_pure s1 _
      | some r =>
        dsimp only
        apply term_get
        split
        · apply term_next'
          intro s2 l2
          apply term_bind (hpost s2 (by have := (l2.trans l1).1; omega))
          intro v s3 _ _
          cases v with
          | none => exact term_pure s3 _
          | some q => exact term_bind (term_load s3 _) (fun _ s4 _ _ => term_bind (term_load s4 _)
              (fun _ s5 _ _ => term_finish s5 _ _))
        · exact term_pure s1 _
    · intro N hN
      rw [conditional]
      intro s hs
      apply term_bind (term_logicalOr env _ N (ih.1 N (by omega)) s hs)
      intro v s1 _ l1
      cases v with
      | none => exact term_pure s1 _
      | some r =>
        dsimp only
        apply term_get
        cases N with
        | zero =>
          -- nothing left
          have hend : s1.cur = .sym .EOF_TOKEN := by
            have hs1 : sz s1 ≤ 0 := by have := l1.1; omega
            unfold sz at hs1
            have := size_one_le s1.cur
            cases hb : s1.cur.isEnd with
            | true =>
              unfold Tok.isEnd at hb
              split at hb
              · assumption
              · cases hb
            | false => rw [hb, if_neg (by simp)] at hs1; omega
          rw [condLoop]
          apply term_get
          rw [hend]
          exact term_pure _ _
        | succ N =>
          exact term_condLoop _ N (ih.2 N (by omega)) _ r s1 (by have := l1.1; omega) (cnt_le s1)

/-- C43: compile() ends on every list of tokens. -/
theorem C43_terminates (env : Env) (heap : List (Val Ref)) (toks : List Tok) :
    compile env heap toks ≠ .fuel := by
  have : Term { heap := heap, errs := [], cur := .sym .EOF_TOKEN, rest := toks, vars := [] }
      (next >>= fun _ => conditional env (3 * sizeAll toks + 4)) := by
    apply term_next'
    intro s1 l1
    refine (term_all env _).2 (sizeAll toks) (by omega) s1 ?_
    have e : sz { heap := heap, errs := [], cur := .sym .EOF_TOKEN, rest := toks, vars := [] } = sizeAll toks := by
      simp [sz, Tok.isEnd]
    have := l1.1
    omega
  exact this.1

end Csspp.Expr
