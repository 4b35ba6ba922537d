import Verif.Model.Expand
import Verif.Spec.Nest

/-!
C63: the expansion of the nested rules and of the nested declarations.
-/

namespace Csspp.Expand
open Csspp.Parse (Nd push)
open Csspp.Lex (Tok Pos)
open Csspp.Spec.Nest

/-- What a call gives once it has enough fuel: an exception when `free` is false, else the value `v`, with a message
exactly when `clean` is false. -/
def Meets {α : Type} (m : Nat → R α) (free clean : Bool) (v : α) : Prop :=
  ∃ f r, (∀ g, f ≤ g → m g = r) ∧ (if free then ∃ e, r = .ok v e ∧ e.isEmpty = clean else r = .throws)

theorem Meets.pure {α : Type} (v : α) : Meets (fun _ => .ok v []) true true v :=
  ⟨0, _, fun _ _ => rfl, by simp⟩

theorem Meets.const {α : Type} {r : R α} {free clean : Bool} {v : α}
    (h : if free then ∃ e, r = .ok v e ∧ e.isEmpty = clean else r = .throws) : Meets (fun _ => r) free clean v :=
  ⟨0, r, fun _ _ => rfl, h⟩

theorem Meets.value {α : Type} {r : R α} {free clean : Bool} {v : α} (h : Meets (fun _ => r) free clean v) :
    if free then ∃ e, r = .ok v e ∧ e.isEmpty = clean else r = .throws := by
  obtain ⟨f, r', h1, h2⟩ := h
  have h1 : r = r' := h1 f (Nat.le_refl _)
  rw [h1]
  exact h2

theorem Meets.bind {α β : Type} {m : Nat → R α} {k : Nat → α → R β} {a b c d : Bool} {v : α} {w : β}
    (h1 : Meets m a b v) (h2 : a = true → Meets (fun f => k f v) c d w) :
    Meets (fun f => (m f).bind (k f)) (a && c) (b && d) w := by
  obtain ⟨f1, r1, e1, p1⟩ := h1
  cases a with
  | false =>
    refine ⟨f1, .throws, fun g hg => ?_, by simp⟩
    have : r1 = .throws := by simpa using p1
    show (m g).bind (k g) = _
    rw [e1 g hg, this]; rfl
  | true =>
    obtain ⟨f2, r2, e2, p2⟩ := h2 rfl
    replace e2 : ∀ g, f2 ≤ g → k g v = r2 := e2
    have ⟨x, hx, hb⟩ : ∃ e, r1 = .ok v e ∧ e.isEmpty = b := by simpa using p1
    subst hx
    cases c with
    | false =>
      refine ⟨max f1 f2, .throws, fun g hg => ?_, by simp⟩
      have : r2 = .throws := by simpa using p2
      show (m g).bind (k g) = _
      rw [e1 g (by omega)]
      show (match k g v with | .ok b e' => R.ok b (x ++ e') | .throws => .throws | .fuel => .fuel) = _
      rw [e2 g (by omega), this]
    | true =>
      have ⟨y, hy, hd⟩ : ∃ e, r2 = .ok w e ∧ e.isEmpty = d := by simpa using p2
      subst hy
      refine ⟨max f1 f2, .ok w (x ++ y), fun g hg => ?_, ?_⟩
      · show (m g).bind (k g) = _
        rw [e1 g (by omega)]
        show (match k g v with | .ok b e' => R.ok b (x ++ e') | .throws => .throws | .fuel => .fuel) = _
        rw [e2 g (by omega)]
      · simp only [Bool.and_self, if_true]
        refine ⟨_, rfl, ?_⟩
        rw [← hb, ← hd]
        cases x <;> simp

theorem Meets.map {α β : Type} {m : Nat → R α} {k : α → β} {a b : Bool} {v : α} (h1 : Meets m a b v) :
    Meets (fun f => (m f).bind (fun x => .ok (k x) [])) a b (k v) := by
  have := Meets.bind (k := fun _ x => .ok (k x) []) h1 (fun _ => Meets.pure (k v))
  simpa using this

theorem Meets.succ {α : Type} {m m' : Nat → R α} {a b : Bool} {v : α} (h : Meets m a b v)
    (e : ∀ f, m' (f + 1) = m f) : Meets m' a b v := by
  obtain ⟨f, r, e1, p⟩ := h
  refine ⟨f + 1, r, fun g hg => ?_, p⟩
  obtain ⟨g', rfl⟩ : ∃ g', g = g' + 1 := ⟨g - 1, by omega⟩
  rw [e]; exact e1 g' (by omega)

theorem Meets.congr {α : Type} {m : Nat → R α} {a b a' b' : Bool} {v v' : α} (h : Meets m a b v)
    (ha : a = a') (hb : a = true → b = b') (hv : v = v') : Meets m a' b' v' := by
  subst ha hv
  cases a with
  | false =>
    obtain ⟨f, r, e1, p⟩ := h
    exact ⟨f, r, e1, by simpa using p⟩
  | true => rw [← hb rfl]; exact h

/-! ### Declarations -/

theorem subName_eq (a b : Str) : subName a b = full a b := by
  unfold subName full; split <;> simp

theorem toList_block (t : Tok) (k : List Nd) :
    Option.toList (if k.isEmpty then none else some (Nd.mk t k)) = if k = [] then [] else [Nd.mk t k] := by
  cases k <;> simp


section Kinds
variable {t : Tok} {kids : List Nd}

theorem kept_decl (h : t.ty = .DECLARATION) : kept (.mk t kids) = [] := by unfold kept; rw [h]
theorem kept_block (h : t.ty = .LIST ∨ t.ty = .OPEN_CURLYBRACKET) :
    kept (.mk t kids) = if keptAll kids = [] then [] else [.mk t (keptAll kids)] := by
  unfold kept; rcases h with h | h <;> rw [h]
theorem kept_other (h1 : t.ty ≠ .DECLARATION) (h2 : ¬ (t.ty = .LIST ∨ t.ty = .OPEN_CURLYBRACKET)) :
    kept (.mk t kids) = [.mk t kids] := by
  unfold kept; split <;> simp_all

theorem pulled_decl {o : Str} (h : t.ty = .DECLARATION) : pulled o (.mk t kids) =
    .mk { t with str := full o t.str } (keptAll kids) :: pulledAll (full o t.str) kids := by
  unfold pulled; split <;> simp_all
theorem pulled_block {o : Str} (h : t.ty = .LIST ∨ t.ty = .OPEN_CURLYBRACKET) :
    pulled o (.mk t kids) = pulledAll o kids := by
  unfold pulled; rcases h with h | h <;> rw [h]
theorem pulled_other {o : Str} (h1 : t.ty ≠ .DECLARATION) (h2 : ¬ (t.ty = .LIST ∨ t.ty = .OPEN_CURLYBRACKET)) :
    pulled o (.mk t kids) = [] := by
  unfold pulled; split <;> simp_all

theorem noneIn_in {bad : NT} (h : t.ty = .DECLARATION ∨ t.ty = .LIST ∨ t.ty = .OPEN_CURLYBRACKET) (hb : t.ty ≠ bad) :
    noneIn bad (.mk t kids) = noneInAll bad kids := by
  unfold noneIn; rw [if_neg hb]; rcases h with h | h | h <;> rw [h]
theorem noneIn_bad {bad : NT} (hb : t.ty = bad) : noneIn bad (.mk t kids) = false := by
  unfold noneIn; rw [if_pos hb]
theorem noneIn_other {bad : NT} (h : ¬ (t.ty = .DECLARATION ∨ t.ty = .LIST ∨ t.ty = .OPEN_CURLYBRACKET))
    (hb : t.ty ≠ bad) : noneIn bad (.mk t kids) = true := by
  unfold noneIn; rw [if_neg hb]; split <;> simp_all
end Kinds

mutual
theorem nested_meets (name : Str) : (n : Nd) → ∃ o, o.toList = kept n ∧
    Meets (fun _ => nested name n) (noneIn .AT_KEYWORD n) (noneIn .COMPONENT_VALUE n) (o, pulled name n)
  | .mk t kids => by
    unfold nested
    by_cases h1 : t.ty = .DECLARATION
    · rw [kept_decl h1, pulled_decl h1, noneIn_in (.inl h1) (by simp [h1]), noneIn_in (.inl h1) (by simp [h1]),
        if_pos h1, subName_eq]
      refine ⟨none, rfl, ?_⟩
      exact Meets.map (m := fun _ => nestedAll (full name t.str) kids)
        (k := fun r => (none, Nd.mk { t with str := full name t.str } r.1 :: r.2))
        (v := (keptAll kids, pulledAll (full name t.str) kids)) (nestedAll_meets _ kids)
    · rw [if_neg h1]
      by_cases h2 : t.ty = .AT_KEYWORD
      · rw [kept_other h1 (by simp [h2]), pulled_other h1 (by simp [h2]), noneIn_bad h2, if_pos h2]
        exact ⟨some (.mk t kids), rfl, Meets.const (by simp)⟩
      · rw [if_neg h2]
        by_cases h3 : t.ty = .LIST ∨ t.ty = .OPEN_CURLYBRACKET
        · rw [kept_block h3, pulled_block h3, noneIn_in (.inr h3) h2,
            noneIn_in (.inr h3) (by rcases h3 with h | h <;> simp [h]), if_pos h3]
          refine ⟨_, toList_block t (keptAll kids), ?_⟩
          exact Meets.map (m := fun _ => nestedAll name kids)
            (k := fun r : List Nd × List Nd => (if r.1.isEmpty then none else some (Nd.mk t r.1), r.2))
            (nestedAll_meets _ kids)
        · rw [if_neg h3, kept_other h1 h3, pulled_other h1 h3, noneIn_other (by simp_all) h2]
          refine ⟨some (.mk t kids), rfl, ?_⟩
          by_cases h4 : t.ty = .COMPONENT_VALUE
          · rw [if_pos h4, noneIn_bad h4]
            exact Meets.const (by simp)
          · rw [if_neg h4, noneIn_other (by simp_all) h4]
            exact Meets.const (by simp)
theorem nestedAll_meets (name : Str) : (l : List Nd) →
    Meets (fun _ => nestedAll name l) (noneInAll .AT_KEYWORD l) (noneInAll .COMPONENT_VALUE l)
      (keptAll l, pulledAll name l)
  | [] => by
    unfold nestedAll keptAll pulledAll noneInAll
    exact Meets.pure _
  | n :: ns => by
    unfold nestedAll keptAll pulledAll noneInAll
    obtain ⟨o, ho, h⟩ := nested_meets name n
    rw [← ho]
    exact Meets.bind (m := fun _ => nested name n) h (fun _ =>
      Meets.map (m := fun _ => nestedAll name ns)
        (k := fun rs : List Nd × List Nd => (o.toList ++ rs.1, pulled name n ++ rs.2)) (nestedAll_meets name ns))
end

theorem declAll_meets (name : Str) (l : List Nd) :
    Meets (fun _ => declAll name l) (noneInAll .AT_KEYWORD l) (noneInAll .COMPONENT_VALUE l)
      (keptAll l, declarations name l) := by
  induction l with
  | nil => unfold declAll keptAll declarations noneInAll; exact Meets.pure _
  | cons n ns ih =>
    unfold declAll keptAll declarations noneInAll
    obtain ⟨o, ho, h⟩ := nested_meets name n
    rw [← ho]
    exact Meets.bind (m := fun _ => nested name n) h (fun _ =>
      Meets.map (m := fun _ => declAll name ns)
        (k := fun rs : List Nd × List Nd => (o.toList ++ rs.1, rs.2 ++ pulled name n)) ih)

/-! Taking the nested declarations out of what is left changes nothing. -/

mutual
theorem kept_kept : (n : Nd) → ∀ x ∈ kept n, kept x = [x] ∧ (∀ o, pulled o x = []) ∧
    (∀ bad, bad ≠ .DECLARATION → noneIn bad n = true → noneIn bad x = true)
  | .mk t kids => by
    intro x hx
    by_cases h1 : t.ty = .DECLARATION
    · rw [kept_decl h1] at hx; cases hx
    · by_cases h3 : t.ty = .LIST ∨ t.ty = .OPEN_CURLYBRACKET
      · rw [kept_block h3] at hx
        split at hx
        · cases hx
        · rename_i hne
          obtain rfl : x = .mk t (keptAll kids) := by simpa using hx
          have ih := keptAll_keptAll kids
          refine ⟨?_, fun o => ?_, fun bad _ hb => ?_⟩
          · rw [kept_block h3, ih.1, if_neg hne]
          · rw [pulled_block h3, ih.2.1]
          · by_cases hbad : t.ty = bad
            · rw [noneIn_bad hbad] at hb; cases hb
            · rw [noneIn_in (.inr h3) hbad] at hb ⊢
              exact ih.2.2 bad (by assumption) hb
      · rw [kept_other h1 h3] at hx
        obtain rfl : x = .mk t kids := by simpa using hx
        exact ⟨kept_other h1 h3, fun o => pulled_other h1 h3, fun _ _ h => h⟩
theorem keptAll_keptAll : (l : List Nd) → keptAll (keptAll l) = keptAll l ∧ (∀ o, pulledAll o (keptAll l) = []) ∧
    (∀ bad, bad ≠ .DECLARATION → noneInAll bad l = true → noneInAll bad (keptAll l) = true)
  | [] => by simp [keptAll, pulledAll]
  | n :: ns => by
    have ih := kept_kept n
    have ihs := keptAll_keptAll ns
    have : keptAll (n :: ns) = kept n ++ keptAll ns := by rw [keptAll]
    rw [this]
    generalize kept n = ks at ih
    induction ks with
    | nil =>
      refine ⟨ihs.1, ihs.2.1, fun bad hb h => ihs.2.2 bad hb ?_⟩
      rw [noneInAll, Bool.and_eq_true] at h; exact h.2
    | cons k ks ihk =>
      have hk := ih k (by simp)
      have ihk := ihk (fun x hx => ih x (by simp [hx]))
      refine ⟨?_, fun o => ?_, fun bad hb h => ?_⟩
      · show keptAll (k :: (ks ++ keptAll ns)) = _
        rw [keptAll, hk.1, ihk.1]; rfl
      · show pulledAll o (k :: (ks ++ keptAll ns)) = _
        rw [pulledAll, hk.2.1, ihk.2.1]; rfl
      · show noneInAll bad (k :: (ks ++ keptAll ns)) = _
        have h' := h
        rw [noneInAll, Bool.and_eq_true] at h'
        rw [noneInAll, hk.2.2 bad hb h'.1, ihk.2.2 bad hb h]; rfl
end

theorem declarations_nil {o : Str} {l : List Nd} (h : pulledAll o l = []) : declarations o l = [] := by
  induction l with
  | nil => rfl
  | cons n ns ih =>
    rw [pulledAll, List.append_eq_nil_iff] at h
    rw [declarations, ih h.2, h.1]; rfl

/-- A declaration that has nothing nested in it; without a rule when `cl`. -/
def Done (cl : Bool) (s : Nd) : Prop :=
  s.tok.ty = .DECLARATION ∧ keptAll s.kids = s.kids ∧ (∀ o, declarations o s.kids = []) ∧
    noneInAll .AT_KEYWORD s.kids = true ∧ (cl = true → noneInAll .COMPONENT_VALUE s.kids = true)

theorem done_kept {t : Tok} {kids : List Nd} (ht : t.ty = .DECLARATION) (h : noneInAll .AT_KEYWORD kids = true)
    {cl : Bool} (hc : cl = true → noneInAll .COMPONENT_VALUE kids = true) : Done cl (.mk t (keptAll kids)) := by
  have := keptAll_keptAll kids
  exact ⟨ht, this.1, fun o => declarations_nil (this.2.1 o), this.2.2 _ (by decide) h,
    fun c => this.2.2 _ (by decide) (hc c)⟩

mutual
theorem pulled_done (cl : Bool) (o : Str) : (n : Nd) → noneIn .AT_KEYWORD n = true →
    (cl = true → noneIn .COMPONENT_VALUE n = true) → ∀ s ∈ pulled o n, Done cl s
  | .mk t kids => by
    intro h hc s hs
    by_cases h1 : t.ty = .DECLARATION
    · rw [noneIn_in (.inl h1) (by simp [h1])] at h hc
      rw [pulled_decl h1] at hs
      rcases List.mem_cons.1 hs with rfl | hs
      · exact done_kept h1 h hc
      · exact pulledAll_done cl _ kids h hc s hs
    · by_cases h3 : t.ty = .LIST ∨ t.ty = .OPEN_CURLYBRACKET
      · rw [noneIn_in (.inr h3) (by rcases h3 with h | h <;> simp [h])] at h hc
        rw [pulled_block h3] at hs
        exact pulledAll_done cl _ kids h hc s hs
      · rw [pulled_other h1 h3] at hs; cases hs
theorem pulledAll_done (cl : Bool) (o : Str) : (l : List Nd) → noneInAll .AT_KEYWORD l = true →
    (cl = true → noneInAll .COMPONENT_VALUE l = true) → ∀ s ∈ pulledAll o l, Done cl s
  | [] => by intro _ _ s hs; simp [pulledAll] at hs
  | n :: ns => by
    intro h hc s hs
    rw [noneInAll, Bool.and_eq_true] at h hc
    rw [pulledAll, List.mem_append] at hs
    rcases hs with hs | hs
    · exact pulled_done cl o n h.1 (fun c => (hc c).1) s hs
    · exact pulledAll_done cl o ns h.2 (fun c => (hc c).2) s hs
end

theorem declarations_done (cl : Bool) (o : Str) (l : List Nd) (h : noneInAll .AT_KEYWORD l = true)
    (hc : cl = true → noneInAll .COMPONENT_VALUE l = true) : ∀ s ∈ declarations o l, Done cl s := by
  induction l with
  | nil => intro s hs; simp [declarations] at hs
  | cons n ns ih =>
    intro s hs
    rw [noneInAll, Bool.and_eq_true] at h hc
    rw [declarations, List.mem_append] at hs
    rcases hs with hs | hs
    · exact ih h.2 (fun c => (hc c).2) s hs
    · exact pulled_done cl o n h.1 (fun c => (hc c).1) s hs

/-! ### Selectors -/

theorem args_eq (l : List Nd) : args l = selectors l := by
  unfold args
  induction l with
  | nil => rfl
  | cons c cs ih =>
    rw [List.takeWhile_cons, selectors]
    by_cases h : c.tok.ty = .ARG
    · have : c.ty = .ARG := h
      simp [h, this, ← ih]
    · have : ¬ c.ty = .ARG := h
      simp [h, this]

theorem push_eq (l : List Nd) (i : Nd) : push l i = item l i := by
  unfold push item
  have e : i.ty = i.tok.ty := rfl
  rw [e]
  by_cases h1 : i.tok.ty = .EOF_TOKEN
  · simp [h1]
  · by_cases h2 : i.tok.ty = .WHITESPACE
    · rcases List.eq_nil_or_concat l with rfl | ⟨l', x, rfl⟩
      · simp [h2]
      · have e2 : x.ty = x.tok.ty := rfl
        by_cases h3 : x.tok.ty = .WHITESPACE <;> simp [h2, h3, e2]
    · simp only [h1, h2, ne_eq, not_false_eq_true, true_and, true_or, if_true]

theorem joinItems_false (pos : Pos) (clone items : List Nd) : joinItems pos false clone items =
    (items.filter (fun i => i.tok.ty ≠ .REFERENCE)).foldl item clone := by
  induction items generalizing clone with
  | nil => rfl
  | cons i is ih =>
    unfold joinItems
    by_cases h : i.ty = .REFERENCE
    · have h' : i.tok.ty = .REFERENCE := h
      rw [if_pos h, ih]; simp [h']
    · have h' : ¬ i.tok.ty = .REFERENCE := h
      rw [if_neg h, ih, push_eq]; simp [h']

theorem joinItems_true (pos : Pos) (clone items : List Nd) :
    joinItems pos true clone items = under pos clone items := by
  cases items with
  | nil => rfl
  | cons i is =>
    unfold joinItems under
    by_cases h : i.ty = .REFERENCE
    · have h' : i.tok.ty = .REFERENCE := h
      rw [if_pos h, joinItems_false]; simp [h']
    · have h' : ¬ i.tok.ty = .REFERENCE := h
      rw [if_neg h, joinItems_false, push_eq, push_eq]; simp [h', Nd.leaf]

theorem join_eq (a : Nd) (l : List Nd) : join a l = below l a := by
  unfold join below
  congr 1
  congr 1
  funext clone x
  exact joinItems_true _ _ _

/-- The selectors of a nested rule. -/
theorem selectors_arg {sel : List Nd} (h : ∀ a ∈ sel, a.tok.ty = .ARG) (l rest : List Nd) :
    selectors (sel.map (below l) ++ afterArgs rest) = sel.map (below l) := by
  induction sel with
  | nil =>
    show selectors (afterArgs rest) = []
    unfold afterArgs
    induction rest with
    | nil => rfl
    | cons c cs ih =>
      rw [List.dropWhile_cons]
      split
      · exact ih
      · rename_i hc
        have hc' : ¬ c.tok.ty = .ARG := by
          have : ¬ c.ty = .ARG := by simpa using hc
          exact this
        rw [selectors, if_neg hc']
  | cons a as ih =>
    show selectors (below l a :: (as.map (below l) ++ afterArgs rest)) = _
    rw [selectors, if_pos (by exact h a (by simp)), ih (fun x hx => h x (by simp [hx]))]
    rfl

theorem selectors_all (l : List Nd) : ∀ a ∈ selectors l, a.tok.ty = .ARG := by
  induction l with
  | nil => intro a ha; cases ha
  | cons c cs ih =>
    intro a ha
    rw [selectors] at ha
    split at ha
    · rcases List.mem_cons.1 ha with rfl | ha
      · assumption
      · exact ih a ha
    · cases ha

/-! ### Rules -/

section Kinds
variable {t : Tok} {kids : List Nd}

theorem inRule_rule (h : t.ty = .COMPONENT_VALUE) : inRule (.mk t kids) = [] := by unfold inRule; rw [h]
theorem inRule_decl (h : t.ty = .DECLARATION) :
    inRule (.mk t kids) = (flatDecl t kids).filter (fun d => !d.kids.isEmpty) := by unfold inRule; rw [h]
theorem inRule_at (h : t.ty = .AT_KEYWORD) : inRule (.mk t kids) = [.mk t (expandedAll kids)] := by
  unfold inRule; rw [h]
theorem inRule_block (h : t.ty = .LIST ∨ t.ty = .OPEN_CURLYBRACKET) :
    inRule (.mk t kids) = [.mk t (inRuleAll kids)] := by
  unfold inRule; rcases h with h | h <;> rw [h]
theorem lifted_rule {sel : List Nd} (h : t.ty = .COMPONENT_VALUE) : lifted sel (.mk t kids) =
    .mk t (sel.map (below (selectors kids)) ++ afterSelectors kids) ::
        liftedAll (sel.map (below (selectors kids))) kids := by unfold lifted; rw [h]
theorem lifted_block {sel : List Nd} (h : t.ty = .LIST ∨ t.ty = .OPEN_CURLYBRACKET) :
    lifted sel (.mk t kids) = liftedAll sel kids := by
  unfold lifted; rcases h with h | h <;> rw [h]
theorem lifted_other {sel : List Nd} (h : t.ty ≠ .COMPONENT_VALUE)
    (h2 : ¬ (t.ty = .LIST ∨ t.ty = .OPEN_CURLYBRACKET)) : lifted sel (.mk t kids) = [] := by
  unfold lifted; split <;> simp_all
theorem expanded_rule (h : t.ty = .COMPONENT_VALUE) : expanded (.mk t kids) =
    .mk t (inRuleAll kids) :: liftedAll (selectors kids) kids := by unfold expanded; rw [h]
theorem expanded_decl (h : t.ty = .DECLARATION) : expanded (.mk t kids) = flatDecl t kids := by
  unfold expanded; rw [h]
theorem expanded_block (h : t.ty = .LIST ∨ t.ty = .AT_KEYWORD ∨ t.ty = .OPEN_CURLYBRACKET) :
    expanded (.mk t kids) = [.mk t (expandedAll kids)] := by
  unfold expanded; rcases h with h | h | h <;> rw [h]
theorem without_decl {bad : NT} (h : t.ty = .DECLARATION) : without bad (.mk t kids) = noneInAll bad kids := by
  unfold without; rw [h]
theorem without_block {bad : NT}
    (h : t.ty = .COMPONENT_VALUE ∨ t.ty = .AT_KEYWORD ∨ t.ty = .LIST ∨ t.ty = .OPEN_CURLYBRACKET) :
    without bad (.mk t kids) = withoutAll bad kids := by
  unfold without; rcases h with h | h | h | h <;> rw [h]

/-- The nodes that the pass does not look into. -/
def Plain (t : Tok) : Prop := t.ty ≠ .COMPONENT_VALUE ∧ t.ty ≠ .DECLARATION ∧ t.ty ≠ .AT_KEYWORD ∧
  ¬ (t.ty = .LIST ∨ t.ty = .OPEN_CURLYBRACKET)

theorem inRule_plain (h : Plain t) : inRule (.mk t kids) = [.mk t kids] := by
  obtain ⟨h1, h2, h3, h4⟩ := h; unfold inRule; split <;> simp_all
theorem expanded_plain (h : Plain t) : expanded (.mk t kids) = [.mk t kids] := by
  obtain ⟨h1, h2, h3, h4⟩ := h; unfold expanded; split <;> simp_all
theorem without_plain {bad : NT} (h : Plain t) : without bad (.mk t kids) = true := by
  obtain ⟨h1, h2, h3, h4⟩ := h; unfold without; split <;> simp_all
end Kinds

/-- All the ARG of a rule are ARG. -/
def Args (sel : List Nd) : Prop := ∀ a ∈ sel, a.tok.ty = .ARG

/-- The pass leaves this node of a rule alone; without a message when `cl`. -/
def FixR (cl : Bool) (x : Nd) : Prop := ∃ c, (cl = true → c = true) ∧
  ∀ sel, Meets (fun f => rules f sel x) true c (some x, [], [])
/-- The pass leaves this node of the stylesheet alone. -/
def FixC (cl : Bool) (x : Nd) : Prop := ∃ c, (cl = true → c = true) ∧ Meets (fun f => comps f x) true c (x, [])

theorem FixR.mono {cl cl' : Bool} {x : Nd} (h : FixR cl x) (hc : cl' = true → cl = true) : FixR cl' x := by
  obtain ⟨c, h1, h2⟩ := h; exact ⟨c, fun e => h1 (hc e), h2⟩
theorem FixC.mono {cl cl' : Bool} {x : Nd} (h : FixC cl x) (hc : cl' = true → cl = true) : FixC cl' x := by
  obtain ⟨c, h1, h2⟩ := h; exact ⟨c, fun e => h1 (hc e), h2⟩

theorem fixR_loop {cl : Bool} {l : List Nd} (h : ∀ x ∈ l, FixR cl x) : ∃ c, (cl = true → c = true) ∧
    ∀ sel, Meets (fun f => rulesLoop f sel l) true c (l, []) := by
  induction l with
  | nil => exact ⟨true, fun _ => rfl, fun sel => Meets.succ (Meets.pure _) (fun f => by rw [rulesLoop])⟩
  | cons x xs ih =>
    obtain ⟨c, hc, hx⟩ := h x (by simp)
    obtain ⟨d, hd, hxs⟩ := ih (fun y hy => h y (by simp [hy]))
    refine ⟨c && d, fun e => by rw [hc e, hd e]; rfl, fun sel => ?_⟩
    refine Meets.succ (Meets.bind (k := fun f r => (rulesLoop f sel (r.2.1 ++ xs)).bind fun rs =>
        .ok (r.1.toList ++ rs.1, r.2.2 ++ rs.2) []) (hx sel) (fun _ => Meets.map (k := fun rs : List Nd × List Nd =>
      (Option.toList (some x) ++ rs.1, ([] : List Nd) ++ rs.2)) (hxs sel))) (fun f => ?_)
    rw [rulesLoop]

theorem fixC_loop {cl : Bool} {l : List Nd} (h : ∀ x ∈ l, FixC cl x) : ∃ c, (cl = true → c = true) ∧
    Meets (fun f => compsLoop f l) true c l := by
  induction l with
  | nil => exact ⟨true, fun _ => rfl, Meets.succ (Meets.pure _) (fun f => by rw [compsLoop])⟩
  | cons x xs ih =>
    obtain ⟨c, hc, hx⟩ := h x (by simp)
    obtain ⟨d, hd, hxs⟩ := ih (fun y hy => h y (by simp [hy]))
    refine ⟨c && d, fun e => by rw [hc e, hd e]; rfl, ?_⟩
    refine Meets.succ (Meets.bind (k := fun f (r : Nd × List Nd) => (compsLoop f (r.2 ++ xs)).bind fun rs => .ok (r.1 :: rs) []) (v := (x, [])) hx
      (fun _ => Meets.map (k := fun rs : List Nd => x :: rs) hxs)) (fun f => ?_)
    rw [compsLoop]

/-- A declaration that is done: it goes away when it is empty. -/
theorem done_rules {cl : Bool} {s : Nd} (h : Done cl s) : ∃ c, (cl = true → c = true) ∧
    ∀ sel, Meets (fun f => rules f sel s) true c (if s.kids.isEmpty then none else some s, [], []) := by
  obtain ⟨t, kids⟩ := s
  obtain ⟨h1, h2, h3, h4, h5⟩ := h
  refine ⟨noneInAll .COMPONENT_VALUE kids, h5, fun sel => ?_⟩
  have h1' : t.ty = .DECLARATION := h1
  have := declAll_meets t.str kids
  have h4' : noneInAll .AT_KEYWORD kids = true := h4
  have h2' : keptAll kids = kids := h2
  have h3' : ∀ o, declarations o kids = [] := h3
  rw [h4', h2', h3'] at this
  refine Meets.succ (Meets.map (k := fun r : List Nd × List Nd =>
    (if r.1.isEmpty then none else some (Nd.mk t r.1), r.2, ([] : List Nd))) this) (fun f => ?_)
  rw [rules, if_neg (by simp [h1']), if_pos h1']

theorem done_comps {cl : Bool} {s : Nd} (h : Done cl s) : FixC cl s := by
  obtain ⟨t, kids⟩ := s
  obtain ⟨h1, h2, h3, h4, h5⟩ := h
  refine ⟨noneInAll .COMPONENT_VALUE kids, h5, ?_⟩
  have h1' : t.ty = .DECLARATION := h1
  have := declAll_meets t.str kids
  have h4' : noneInAll .AT_KEYWORD kids = true := h4
  have h2' : keptAll kids = kids := h2
  have h3' : ∀ o, declarations o kids = [] := h3
  rw [h4', h2', h3'] at this
  refine Meets.succ (Meets.map (k := fun r : List Nd × List Nd => (Nd.mk t r.1, r.2)) this) (fun f => ?_)
  rw [comps, if_neg (by simp [h1']), if_pos h1']

theorem done_loop {cl : Bool} {sibs ns : List Nd} {sel : List Nd} (h : ∀ s ∈ sibs, Done cl s) {a b : Bool}
    {x y : List Nd} (hn : Meets (fun f => rulesLoop f sel ns) a b (x, y)) : ∃ c, (cl = true → c = true) ∧
    Meets (fun f => rulesLoop f sel (sibs ++ ns)) a (c && b) (sibs.filter (fun d => !d.kids.isEmpty) ++ x, y) := by
  induction sibs with
  | nil => exact ⟨true, fun _ => rfl, by simpa using hn⟩
  | cons s ss ih =>
    obtain ⟨c, hc, hs⟩ := done_rules (h s (by simp))
    obtain ⟨d, hd, hss⟩ := ih (fun y hy => h y (by simp [hy]))
    refine ⟨c && d, fun e => by rw [hc e, hd e]; rfl, ?_⟩
    have := Meets.succ (m' := fun f => rulesLoop f sel (s :: (ss ++ ns)))
      (Meets.bind (k := fun f r => (rulesLoop f sel (r.2.1 ++ (ss ++ ns))).bind fun rs =>
        .ok (r.1.toList ++ rs.1, r.2.2 ++ rs.2) []) (hs sel) (fun _ => Meets.map (k := fun rs : List Nd × List Nd =>
      (Option.toList (if s.kids.isEmpty then none else some s) ++ rs.1, ([] : List Nd) ++ rs.2)) hss)) (fun f => by
        show rulesLoop (f + 1) sel _ = _
        rw [rulesLoop])
    refine Meets.congr this (by simp) (fun _ => by rw [Bool.and_assoc]) ?_
    congr 1
    cases hk : s.kids.isEmpty <;> simp [hk]

theorem fix_comps_loop {cl : Bool} {sibs ns : List Nd} (h : ∀ s ∈ sibs, FixC cl s) {a b : Bool}
    {x : List Nd} (hn : Meets (fun f => compsLoop f ns) a b x) : ∃ c, (cl = true → c = true) ∧
    Meets (fun f => compsLoop f (sibs ++ ns)) a (c && b) (sibs ++ x) := by
  induction sibs with
  | nil => exact ⟨true, fun _ => rfl, by simpa using hn⟩
  | cons s ss ih =>
    obtain ⟨c, hc, hs⟩ := h s (by simp)
    obtain ⟨d, hd, hss⟩ := ih (fun y hy => h y (by simp [hy]))
    refine ⟨c && d, fun e => by rw [hc e, hd e]; rfl, ?_⟩
    have := Meets.succ (m' := fun f => compsLoop f (s :: (ss ++ ns)))
      (Meets.bind (k := fun f r => (compsLoop f (r.2 ++ (ss ++ ns))).bind fun rs =>
        .ok (r.1 :: rs) []) hs (fun _ => Meets.map (k := fun rs : List Nd => s :: rs) hss)) (fun f => by
        show compsLoop (f + 1) _ = _
        rw [compsLoop])
    exact Meets.congr this (by simp) (fun _ => by rw [Bool.and_assoc]) rfl

/-- What is shown of each node `n`. -/
structure Ok (n : Nd) : Prop where
  rule : ∀ sel, Args sel → ∃ o sibs,
    Meets (fun f => rules f sel n) (without .AT_KEYWORD n) (without .COMPONENT_VALUE n) (o, sibs, lifted sel n) ∧
    (without .AT_KEYWORD n = true → ∀ s ∈ sibs, Done (without .COMPONENT_VALUE n) s) ∧
    o.toList ++ sibs.filter (fun d => !d.kids.isEmpty) = inRule n
  comp : ∃ x sibs,
    Meets (fun f => comps f n) (without .AT_KEYWORD n) (without .COMPONENT_VALUE n) (x, sibs) ∧ x :: sibs = expanded n
  fixR : without .AT_KEYWORD n = true → ∀ x ∈ inRule n, FixR (without .COMPONENT_VALUE n) x
  fixL : without .AT_KEYWORD n = true → ∀ sel, Args sel → ∀ x ∈ lifted sel n, FixC (without .COMPONENT_VALUE n) x
  fixC : without .AT_KEYWORD n = true → ∀ x ∈ expanded n, FixC (without .COMPONENT_VALUE n) x

/-- The same for the children. -/
structure OkAll (l : List Nd) : Prop where
  rule : ∀ sel, Args sel → Meets (fun f => rulesLoop f sel l) (withoutAll .AT_KEYWORD l) (withoutAll .COMPONENT_VALUE l)
    (inRuleAll l, liftedAll sel l)
  after : ∀ sel, Args sel → Meets (fun f => rulesLoop f sel (afterArgs l)) (withoutAll .AT_KEYWORD l)
    (withoutAll .COMPONENT_VALUE l) (afterSelectors l, liftedAll sel l)
  comp : Meets (fun f => compsLoop f l) (withoutAll .AT_KEYWORD l) (withoutAll .COMPONENT_VALUE l) (expandedAll l)
  fixR : withoutAll .AT_KEYWORD l = true → ∀ x ∈ inRuleAll l, FixR (withoutAll .COMPONENT_VALUE l) x
  fixA : withoutAll .AT_KEYWORD l = true → ∀ x ∈ afterSelectors l, FixR (withoutAll .COMPONENT_VALUE l) x
  fixL : withoutAll .AT_KEYWORD l = true → ∀ sel, Args sel → ∀ x ∈ liftedAll sel l,
    FixC (withoutAll .COMPONENT_VALUE l) x
  fixC : withoutAll .AT_KEYWORD l = true → ∀ x ∈ expandedAll l, FixC (withoutAll .COMPONENT_VALUE l) x

theorem okAll_nil : OkAll [] where
  rule sel _ := by
    rw [withoutAll, withoutAll, inRuleAll, liftedAll]
    exact Meets.succ (Meets.pure _) (fun f => by rw [rulesLoop])
  after sel _ := by
    rw [withoutAll, withoutAll, afterSelectors, liftedAll]
    exact Meets.succ (Meets.pure _) (fun f => by show rulesLoop (f + 1) sel [] = _; rw [rulesLoop])
  comp := by
    rw [withoutAll, withoutAll, expandedAll]
    exact Meets.succ (Meets.pure _) (fun f => by rw [compsLoop])
  fixR _ x hx := by rw [inRuleAll] at hx; cases hx
  fixA _ x hx := by rw [afterSelectors] at hx; cases hx
  fixL _ _ _ x hx := by rw [liftedAll] at hx; cases hx
  fixC _ x hx := by rw [expandedAll] at hx; cases hx

theorem and_absorb {c d : Bool} (h : d = true → c = true) (b : Bool) : (d && (c && b)) = (d && b) := by
  cases d
  · rfl
  · rw [h rfl]; rfl

theorem okAll_cons {n : Nd} {ns : List Nd} (h : Ok n) (hs : OkAll ns) : OkAll (n :: ns) := by
  have hr : ∀ sel, Args sel → Meets (fun f => rulesLoop f sel (n :: ns)) (without .AT_KEYWORD n && withoutAll .AT_KEYWORD ns)
      (without .COMPONENT_VALUE n && withoutAll .COMPONENT_VALUE ns)
      (inRule n ++ inRuleAll ns, lifted sel n ++ liftedAll sel ns) := by
    intro sel hsel
    obtain ⟨o, sibs, h1, h2, h3⟩ := h.rule sel hsel
    by_cases hw : without .AT_KEYWORD n = true
    · obtain ⟨c, hc, hl⟩ := done_loop (h2 hw) (hs.rule sel hsel)
      have := Meets.succ (m' := fun f => rulesLoop f sel (n :: ns))
        (Meets.bind (k := fun f r => (rulesLoop f sel (r.2.1 ++ ns)).bind fun rs =>
          .ok (r.1.toList ++ rs.1, r.2.2 ++ rs.2) []) h1 (fun _ => Meets.map (k := fun rs : List Nd × List Nd =>
        (o.toList ++ rs.1, lifted sel n ++ rs.2)) hl)) (fun f => by
          show rulesLoop (f + 1) sel _ = _
          rw [rulesLoop])
      refine Meets.congr this rfl (fun _ => and_absorb hc _) ?_
      simp only [← List.append_assoc, h3]
    · rw [Bool.not_eq_true] at hw
      have hk : ∀ v, Meets (fun f => rulesLoop f sel (n :: ns)) (without .AT_KEYWORD n && true)
          (without .COMPONENT_VALUE n && true) v := fun v =>
        Meets.succ (m' := fun f => rulesLoop f sel (n :: ns))
        (Meets.bind (k := fun f r => (rulesLoop f sel (r.2.1 ++ ns)).bind fun rs =>
          .ok (r.1.toList ++ rs.1, r.2.2 ++ rs.2) []) h1 (fun e => by rw [hw] at e; cases e)) (fun f => by
          show rulesLoop (f + 1) sel _ = _
          rw [rulesLoop])
      exact Meets.congr (hk _) (by rw [hw]; rfl) (fun e => by rw [hw] at e; cases e) rfl
  have hf1 : withoutAll .COMPONENT_VALUE (n :: ns) = true → without .COMPONENT_VALUE n = true := by
    rw [withoutAll, Bool.and_eq_true]; exact And.left
  have hf2 : withoutAll .COMPONENT_VALUE (n :: ns) = true → withoutAll .COMPONENT_VALUE ns = true := by
    rw [withoutAll, Bool.and_eq_true]; exact And.right
  have ha1 : withoutAll .AT_KEYWORD (n :: ns) = true → without .AT_KEYWORD n = true := by
    rw [withoutAll, Bool.and_eq_true]; exact And.left
  have ha2 : withoutAll .AT_KEYWORD (n :: ns) = true → withoutAll .AT_KEYWORD ns = true := by
    rw [withoutAll, Bool.and_eq_true]; exact And.right
  have hfr : withoutAll .AT_KEYWORD (n :: ns) = true → ∀ x ∈ inRule n ++ inRuleAll ns,
      FixR (withoutAll .COMPONENT_VALUE (n :: ns)) x := by
    intro hw x hx
    rcases List.mem_append.1 hx with hx | hx
    · exact (h.fixR (ha1 hw) x hx).mono hf1
    · exact (hs.fixR (ha2 hw) x hx).mono hf2
  have plain_arg : n.tok.ty = .ARG → Plain n.tok := fun e => by rw [Plain, e]; decide
  refine ⟨?_, ?_, ?_, ?_, ?_, ?_, ?_⟩
  · intro sel hsel
    rw [withoutAll, withoutAll, inRuleAll, liftedAll]
    exact hr sel hsel
  · intro sel hsel
    rw [withoutAll, withoutAll, afterSelectors, liftedAll]
    by_cases he : n.tok.ty = .ARG
    · have e1 : afterArgs (n :: ns) = afterArgs ns := by
        unfold afterArgs; rw [List.dropWhile_cons, if_pos (decide_eq_true (show n.ty = .ARG from he))]
      obtain ⟨t, kids⟩ := n
      have hp : Plain t := plain_arg he
      rw [e1, if_pos he, without_plain hp, without_plain hp, lifted_other hp.1 hp.2.2.2]
      exact hs.after sel hsel
    · have e1 : afterArgs (n :: ns) = n :: ns := by
        unfold afterArgs; rw [List.dropWhile_cons, if_neg (by simpa using (show ¬ n.ty = .ARG from he))]
      rw [e1, if_neg he]
      exact hr sel hsel
  · rw [withoutAll, withoutAll, expandedAll]
    obtain ⟨x, sibs, h1, h2⟩ := h.comp
    by_cases hw : without .AT_KEYWORD n = true
    · obtain ⟨c, hc, hl⟩ := fix_comps_loop (cl := without .COMPONENT_VALUE n) (sibs := sibs)
        (fun s hs' => h.fixC hw s (by rw [← h2]; simp [hs'])) hs.comp
      have := Meets.succ (m' := fun f => compsLoop f (n :: ns))
        (Meets.bind (k := fun f r => (compsLoop f (r.2 ++ ns)).bind fun rs =>
          .ok (r.1 :: rs) []) h1 (fun _ => Meets.map (k := fun rs : List Nd => x :: rs) hl)) (fun f => by
          show compsLoop (f + 1) _ = _
          rw [compsLoop])
      refine Meets.congr this rfl (fun _ => and_absorb hc _) ?_
      rw [← h2]; rfl
    · rw [Bool.not_eq_true] at hw
      have hk : ∀ v, Meets (fun f => compsLoop f (n :: ns)) (without .AT_KEYWORD n && true)
          (without .COMPONENT_VALUE n && true) v := fun v =>
        Meets.succ (m' := fun f => compsLoop f (n :: ns))
        (Meets.bind (k := fun f r => (compsLoop f (r.2 ++ ns)).bind fun rs =>
          .ok (r.1 :: rs) []) h1 (fun e => by rw [hw] at e; cases e)) (fun f => by
          show compsLoop (f + 1) _ = _
          rw [compsLoop])
      exact Meets.congr (hk _) (by rw [hw]; rfl) (fun e => by rw [hw] at e; cases e) rfl
  · intro hw; rw [inRuleAll]; exact hfr hw
  · intro hw x hx
    rw [afterSelectors] at hx
    split at hx
    · exact (hs.fixA (ha2 hw) x hx).mono hf2
    · exact hfr hw x hx
  · intro hw sel hsel x hx
    rw [liftedAll, List.mem_append] at hx
    rcases hx with hx | hx
    · exact (h.fixL (ha1 hw) sel hsel x hx).mono hf1
    · exact (hs.fixL (ha2 hw) sel hsel x hx).mono hf2
  · intro hw x hx
    rw [expandedAll, List.mem_append] at hx
    rcases hx with hx | hx
    · exact (h.fixC (ha1 hw) x hx).mono hf1
    · exact (hs.fixC (ha2 hw) x hx).mono hf2

theorem fixR_plain {t : Tok} {kids : List Nd} (h : Plain t) : FixR true (.mk t kids) := by
  obtain ⟨h1, h2, h3, h4⟩ := h
  exact ⟨true, fun _ => rfl, fun sel => Meets.succ (Meets.pure _) (fun f => by
    rw [rules, if_neg h1, if_neg h2, if_neg h3, if_neg h4])⟩

theorem fixC_plain {t : Tok} {kids : List Nd} (h : Plain t) : FixC true (.mk t kids) := by
  obtain ⟨h1, h2, h3, h4⟩ := h
  exact ⟨true, fun _ => rfl, Meets.succ (Meets.pure _) (fun f => by
    rw [comps, if_neg h1, if_neg h2, if_neg (by rintro (h | h | h) <;> simp_all)])⟩

theorem fixC_rule {t : Tok} {kids : List Nd} (ht : t.ty = .COMPONENT_VALUE) {cl : Bool} (h : ∀ x ∈ kids, FixR cl x) :
    FixC cl (.mk t kids) := by
  obtain ⟨c, hc, hl⟩ := fixR_loop h
  refine ⟨c, hc, ?_⟩
  exact Meets.succ (Meets.map (k := fun r : List Nd × List Nd => (Nd.mk t r.1, r.2)) (hl (args kids))) (fun f => by
    rw [comps, if_pos ht])

theorem fixC_block {t : Tok} {kids : List Nd} (ht : t.ty = .LIST ∨ t.ty = .AT_KEYWORD ∨ t.ty = .OPEN_CURLYBRACKET)
    {cl : Bool} (h : ∀ x ∈ kids, FixC cl x) : FixC cl (.mk t kids) := by
  obtain ⟨c, hc, hl⟩ := fixC_loop h
  refine ⟨c, hc, ?_⟩
  exact Meets.succ (Meets.map (k := fun r : List Nd => (Nd.mk t r, ([] : List Nd))) hl) (fun f => by
    rw [comps, if_neg (by rintro e; simp [e] at ht), if_neg (by rintro e; simp [e] at ht), if_pos ht])

theorem ok_of {t : Tok} {kids : List Nd} (h : OkAll kids) : Ok (.mk t kids) := by
  by_cases h1 : t.ty = .COMPONENT_VALUE
  · have hb : ∀ bad, without bad (.mk t kids) = withoutAll bad kids := fun bad => without_block (.inl h1)
    have hfl : withoutAll .AT_KEYWORD kids = true → ∀ sel, Args sel → ∀ x ∈ lifted sel (.mk t kids),
        FixC (withoutAll .COMPONENT_VALUE kids) x := by
      intro hw sel hsel x hx
      rw [lifted_rule h1] at hx
      have ha : Args (sel.map (below (selectors kids))) := by
        intro a ha
        obtain ⟨b, hb, rfl⟩ := List.mem_map.1 ha
        exact hsel b hb
      rcases List.mem_cons.1 hx with rfl | hx
      · refine fixC_rule h1 (fun x hx => ?_)
        rcases List.mem_append.1 hx with hx | hx
        · obtain ⟨xt, xk⟩ := x
          have := ha _ hx
          exact (fixR_plain (by rw [Plain, show xt.ty = .ARG from this]; decide)).mono (fun _ => rfl)
        · exact h.fixA hw x hx
      · exact h.fixL hw _ ha x hx
    refine ⟨?_, ?_, ?_, ?_, ?_⟩
    · intro sel hsel
      have ha : Args (sel.map (below (selectors kids))) := by
        intro a ha
        obtain ⟨b, hb, rfl⟩ := List.mem_map.1 ha
        exact hsel b hb
      refine ⟨none, [], ?_, by simp, by rw [inRule_rule h1]; rfl⟩
      rw [hb, hb, lifted_rule h1]
      have hj : joinKids sel kids = sel.map (below (selectors kids)) ++ afterArgs kids := by
        unfold joinKids; rw [args_eq]; simp only [join_eq]
      obtain ⟨c, hc, hl⟩ : ∃ c, (true = true → c = true) ∧ Meets (fun f => rulesLoop f (sel.map (below (selectors kids)))
          (sel.map (below (selectors kids)) ++ afterArgs kids)) (withoutAll .AT_KEYWORD kids)
          (c && withoutAll .COMPONENT_VALUE kids)
          (sel.map (below (selectors kids)) ++ afterSelectors kids, liftedAll (sel.map (below (selectors kids))) kids) := by
        have := h.after _ ha
        generalize sel.map (below (selectors kids)) = pre at ha this ⊢
        have key : ∀ p : List Nd, Args p → Meets (fun f => rulesLoop f pre (p ++ afterArgs kids))
            (withoutAll .AT_KEYWORD kids) (withoutAll .COMPONENT_VALUE kids)
            (p ++ afterSelectors kids, liftedAll pre kids) := by
          intro p hp
          induction p with
          | nil => exact this
          | cons a as ih =>
            obtain ⟨at', ak⟩ := a
            have hpl : Plain at' := by rw [Plain, show at'.ty = .ARG from hp (.mk at' ak) (by simp)]; decide
            obtain ⟨c, hc, hx⟩ := fixR_plain (kids := ak) hpl
            rw [hc rfl] at hx
            have := Meets.succ (m' := fun f => rulesLoop f pre (.mk at' ak :: (as ++ afterArgs kids)))
              (Meets.bind (k := fun f r => (rulesLoop f pre (r.2.1 ++ (as ++ afterArgs kids))).bind fun rs =>
                .ok (r.1.toList ++ rs.1, r.2.2 ++ rs.2) []) (hx pre) (fun _ => Meets.map
                (k := fun rs : List Nd × List Nd =>
              (Option.toList (some (Nd.mk at' ak)) ++ rs.1, ([] : List Nd) ++ rs.2)) (ih (fun x hx => hp x (by simp [hx])))))
              (fun f => by
                show rulesLoop (f + 1) pre _ = _
                rw [rulesLoop])
            exact Meets.congr this (by simp) (fun _ => by simp) rfl
        exact ⟨true, fun _ => rfl, by simpa using key pre ha⟩
      rw [hc rfl, Bool.true_and] at hl
      refine Meets.succ (Meets.map (k := fun r : List Nd × List Nd => ((none : Option Nd), ([] : List Nd), Nd.mk t r.1 :: r.2)) hl)
        (fun f => ?_)
      rw [rules, if_pos h1, hj]
      dsimp only
      rw [args_eq, selectors_arg hsel]
    · refine ⟨_, _, ?_, (expanded_rule h1).symm⟩
      rw [hb, hb]
      refine Meets.succ (Meets.map (k := fun r : List Nd × List Nd => (Nd.mk t r.1, r.2)) (h.rule _ (selectors_all kids)))
        (fun f => ?_)
      rw [comps, if_pos h1, args_eq]
    · intro _ x hx; rw [inRule_rule h1] at hx; cases hx
    · rw [hb, hb]; exact hfl
    · rw [hb, hb]
      intro hw x hx
      rw [expanded_rule h1] at hx
      rcases List.mem_cons.1 hx with rfl | hx
      · exact fixC_rule h1 (h.fixR hw)
      · exact h.fixL hw _ (selectors_all kids) x hx
  · by_cases h2 : t.ty = .DECLARATION
    · have hb : ∀ bad, without bad (.mk t kids) = noneInAll bad kids := fun bad => without_decl h2
      have hl : ∀ sel, lifted sel (.mk t kids) = [] := fun sel => lifted_other h1 (by simp [h2])
      have hd : noneInAll .AT_KEYWORD kids = true → ∀ s ∈ flatDecl t kids, Done (noneInAll .COMPONENT_VALUE kids) s := by
        intro hw s hs
        rcases List.mem_cons.1 hs with rfl | hs
        · exact done_kept h2 hw id
        · exact declarations_done _ _ kids hw id s hs
      refine ⟨?_, ?_, ?_, ?_, ?_⟩
      · intro sel _
        refine ⟨if (keptAll kids).isEmpty then none else some (.mk t (keptAll kids)), declarations t.str kids, ?_, ?_, ?_⟩
        · rw [hb, hb, hl]
          refine Meets.succ (Meets.map (k := fun r : List Nd × List Nd =>
            (if r.1.isEmpty then none else some (Nd.mk t r.1), r.2, ([] : List Nd))) (declAll_meets t.str kids))
            (fun f => ?_)
          rw [rules, if_neg h1, if_pos h2]
        · rw [hb, hb]; exact fun hw s hs => hd hw s (by simp [flatDecl, hs])
        · rw [inRule_decl h2, flatDecl, List.filter_cons]
          cases hk : (keptAll kids).isEmpty <;> simp [Nd.kids, hk]
      · refine ⟨_, _, ?_, (expanded_decl h2).symm⟩
        rw [hb, hb]
        refine Meets.succ (Meets.map (k := fun r : List Nd × List Nd => (Nd.mk t r.1, r.2)) (declAll_meets t.str kids))
          (fun f => ?_)
        rw [comps, if_neg h1, if_pos h2]
      · rw [hb, hb, inRule_decl h2]
        intro hw x hx
        obtain ⟨hx, hk⟩ := List.mem_filter.1 hx
        obtain ⟨c, hc, h⟩ := done_rules (hd hw x hx)
        refine ⟨c, hc, fun sel => ?_⟩
        have := h sel
        rwa [if_neg (by simpa using hk)] at this
      · intro _ sel _ x hx; rw [hl] at hx; cases hx
      · rw [hb, hb, expanded_decl h2]
        exact fun hw x hx => done_comps (hd hw x hx)
    · by_cases h3 : t.ty = .AT_KEYWORD
      · have hb : ∀ bad, without bad (.mk t kids) = withoutAll bad kids := fun bad => without_block (.inr (.inl h3))
        have hl : ∀ sel, lifted sel (.mk t kids) = [] := fun sel => lifted_other h1 (by simp [h3])
        refine ⟨?_, ?_, ?_, ?_, ?_⟩
        · intro sel _
          refine ⟨some (.mk t (expandedAll kids)), [], ?_, by simp, by rw [inRule_at h3]; rfl⟩
          rw [hb, hb, hl]
          refine Meets.succ (Meets.map (k := fun ks : List Nd => (some (Nd.mk t ks), ([] : List Nd), ([] : List Nd))) h.comp)
            (fun f => ?_)
          rw [rules, if_neg h1, if_neg h2, if_pos h3]
        · refine ⟨_, _, ?_, (expanded_block (.inr (.inl h3))).symm⟩
          rw [hb, hb]
          refine Meets.succ (Meets.map (k := fun ks : List Nd => (Nd.mk t ks, ([] : List Nd))) h.comp) (fun f => ?_)
          rw [comps, if_neg h1, if_neg h2, if_pos (.inr (.inl h3))]
        · rw [hb, hb, inRule_at h3]
          intro hw x hx
          obtain rfl : x = .mk t (expandedAll kids) := by simpa using hx
          obtain ⟨c, hc, hl⟩ := fixC_loop (h.fixC hw)
          refine ⟨c, hc, fun sel => ?_⟩
          refine Meets.succ (Meets.map (k := fun ks : List Nd => (some (Nd.mk t ks), ([] : List Nd), ([] : List Nd))) hl)
            (fun f => ?_)
          rw [rules, if_neg h1, if_neg h2, if_pos h3]
        · intro _ sel _ x hx; rw [hl] at hx; cases hx
        · rw [hb, hb, expanded_block (.inr (.inl h3))]
          intro hw x hx
          obtain rfl : x = .mk t (expandedAll kids) := by simpa using hx
          exact fixC_block (.inr (.inl h3)) (h.fixC hw)
      · by_cases h4 : t.ty = .LIST ∨ t.ty = .OPEN_CURLYBRACKET
        · have hb : ∀ bad, without bad (.mk t kids) = withoutAll bad kids := fun bad => without_block (.inr (.inr h4))
          have h4' : t.ty = .LIST ∨ t.ty = .AT_KEYWORD ∨ t.ty = .OPEN_CURLYBRACKET := by
            rcases h4 with h | h <;> simp [h]
          refine ⟨?_, ?_, ?_, ?_, ?_⟩
          · intro sel hsel
            refine ⟨some (.mk t (inRuleAll kids)), [], ?_, by simp, by rw [inRule_block h4]; rfl⟩
            rw [hb, hb, lifted_block h4]
            refine Meets.succ (Meets.map (k := fun r : List Nd × List Nd => (some (Nd.mk t r.1), ([] : List Nd), r.2))
              (h.rule sel hsel)) (fun f => ?_)
            rw [rules, if_neg h1, if_neg h2, if_neg h3, if_pos h4]
          · refine ⟨_, _, ?_, (expanded_block h4').symm⟩
            rw [hb, hb]
            refine Meets.succ (Meets.map (k := fun ks : List Nd => (Nd.mk t ks, ([] : List Nd))) h.comp) (fun f => ?_)
            rw [comps, if_neg h1, if_neg h2, if_pos h4']
          · rw [hb, hb, inRule_block h4]
            intro hw x hx
            obtain rfl : x = .mk t (inRuleAll kids) := by simpa using hx
            obtain ⟨c, hc, hl⟩ := fixR_loop (h.fixR hw)
            refine ⟨c, hc, fun sel => ?_⟩
            refine Meets.succ (Meets.map (k := fun r : List Nd × List Nd => (some (Nd.mk t r.1), ([] : List Nd), r.2)) (hl sel))
              (fun f => ?_)
            rw [rules, if_neg h1, if_neg h2, if_neg h3, if_pos h4]
          · rw [hb, hb]
            intro hw sel hsel x hx
            rw [lifted_block h4] at hx
            exact h.fixL hw sel hsel x hx
          · rw [hb, hb, expanded_block h4']
            intro hw x hx
            obtain rfl : x = .mk t (expandedAll kids) := by simpa using hx
            exact fixC_block h4' (h.fixC hw)
        · have hp : Plain t := ⟨h1, h2, h3, h4⟩
          have hb : ∀ bad, without bad (.mk t kids) = true := fun bad => without_plain hp
          have hl : ∀ sel, lifted sel (.mk t kids) = [] := fun sel => lifted_other h1 h4
          refine ⟨?_, ?_, ?_, ?_, ?_⟩
          · intro sel _
            refine ⟨some (.mk t kids), [], ?_, by simp, by rw [inRule_plain hp]; rfl⟩
            rw [hb, hb, hl]
            obtain ⟨c, hc, hx⟩ := fixR_plain (kids := kids) hp
            rw [hc rfl] at hx; exact hx sel
          · refine ⟨_, _, ?_, (expanded_plain hp).symm⟩
            rw [hb, hb]
            obtain ⟨c, hc, hx⟩ := fixC_plain (kids := kids) hp
            rw [hc rfl] at hx; exact hx
          · rw [hb, hb, inRule_plain hp]
            intro _ x hx
            obtain rfl : x = .mk t kids := by simpa using hx
            exact fixR_plain hp
          · intro _ sel _ x hx; rw [hl] at hx; cases hx
          · rw [hb, hb, expanded_plain hp]
            intro _ x hx
            obtain rfl : x = .mk t kids := by simpa using hx
            exact fixC_plain hp

mutual
theorem ok : (n : Nd) → Ok n
  | .mk _ kids => ok_of (okAll kids)
theorem okAll : (l : List Nd) → OkAll l
  | [] => okAll_nil
  | n :: ns => okAll_cons (ok n) (okAll ns)
end

end Csspp.Expand
