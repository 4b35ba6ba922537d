import Verif.Props.Expand

/-!
C63: the theorems on the expansion of the nested rules and declarations.
-/

namespace Csspp.Expand
open Csspp.Parse (Nd)
open Csspp.Lex (Tok Pos)
open Csspp.Spec.Nest

/-! ### What it says -/

section Kinds
variable {t : Tok} {kids : List Nd} {at' : List Tok} {sel : Option (List Nd)}

theorem declFacts_decl {o : Str} (h : t.ty = .DECLARATION) : declFacts at' sel o (.mk t kids) =
    says at' sel (full o t.str) (keptAll kids) ++ declFactsAll at' sel (full o t.str) kids := by
  unfold declFacts; rw [h]
theorem declFacts_block {o : Str} (h : t.ty = .LIST ∨ t.ty = .OPEN_CURLYBRACKET) :
    declFacts at' sel o (.mk t kids) = declFactsAll at' sel o kids := by
  unfold declFacts; rcases h with h | h <;> rw [h]
theorem declFacts_other {o : Str} (h1 : t.ty ≠ .DECLARATION) (h2 : ¬ (t.ty = .LIST ∨ t.ty = .OPEN_CURLYBRACKET)) :
    declFacts at' sel o (.mk t kids) = [] := by
  unfold declFacts; split <;> simp_all
theorem facts_decl (h : t.ty = .DECLARATION) : facts at' sel (.mk t kids) =
    says at' sel t.str (keptAll kids) ++ declFactsAll at' sel t.str kids := by
  unfold facts; rw [h]
theorem facts_top (h : t.ty = .COMPONENT_VALUE) : facts at' none (.mk t kids) =
    factsAll at' (some (selectors kids)) kids := by unfold facts; rw [h]
theorem facts_rule {s : List Nd} (h : t.ty = .COMPONENT_VALUE) : facts at' (some s) (.mk t kids) =
    factsAll at' (some (s.map (below (selectors kids)))) kids := by unfold facts; rw [h]
theorem facts_at (h : t.ty = .AT_KEYWORD) : facts at' sel (.mk t kids) = factsAll (at' ++ [t]) none kids := by
  unfold facts; rw [h]
theorem facts_block (h : t.ty = .LIST ∨ t.ty = .OPEN_CURLYBRACKET) :
    facts at' sel (.mk t kids) = factsAll at' sel kids := by
  unfold facts; rcases h with h | h <;> rw [h]
theorem facts_plain (h : Plain t) : facts at' sel (.mk t kids) = [] := by
  obtain ⟨h1, h2, h3, h4⟩ := h; unfold facts; split <;> simp_all
end Kinds

theorem factsAll_append (at' : List Tok) (sel : Option (List Nd)) (a b : List Nd) :
    factsAll at' sel (a ++ b) = factsAll at' sel a ++ factsAll at' sel b := by
  induction a with
  | nil => rw [factsAll]; rfl
  | cons x xs ih =>
    show factsAll at' sel (x :: (xs ++ b)) = _
    rw [factsAll, ih, factsAll, List.append_assoc]

theorem declFactsAll_append (at' : List Tok) (sel : Option (List Nd)) (o : Str) (a b : List Nd) :
    declFactsAll at' sel o (a ++ b) = declFactsAll at' sel o a ++ declFactsAll at' sel o b := by
  induction a with
  | nil => rw [declFactsAll]; rfl
  | cons x xs ih =>
    show declFactsAll at' sel o (x :: (xs ++ b)) = _
    rw [declFactsAll, ih, declFactsAll, List.append_assoc]

mutual
theorem declFacts_kept (at' : List Tok) (sel : Option (List Nd)) (o : Str) : (n : Nd) →
    declFactsAll at' sel o (kept n) = []
  | .mk t kids => by
    by_cases h1 : t.ty = .DECLARATION
    · rw [kept_decl h1, declFactsAll]
    · by_cases h2 : t.ty = .LIST ∨ t.ty = .OPEN_CURLYBRACKET
      · rw [kept_block h2]
        split
        · rw [declFactsAll]
        · rw [declFactsAll, declFacts_block h2, declFacts_keptAll, declFactsAll]; rfl
      · rw [kept_other h1 h2, declFactsAll, declFacts_other h1 h2, declFactsAll]; rfl
theorem declFacts_keptAll (at' : List Tok) (sel : Option (List Nd)) (o : Str) : (l : List Nd) →
    declFactsAll at' sel o (keptAll l) = []
  | [] => by rw [keptAll, declFactsAll]
  | n :: ns => by
    rw [keptAll, declFactsAll_append, declFacts_kept at' sel o n, declFacts_keptAll at' sel o ns]; rfl
end

/-- What a declaration says once the nested ones are out of it. -/
theorem facts_flat {t : Tok} {kids : List Nd} (at' : List Tok) (sel : Option (List Nd)) (h : t.ty = .DECLARATION) :
    facts at' sel (.mk t (keptAll kids)) = says at' sel t.str (keptAll kids) := by
  rw [facts_decl h, (keptAll_keptAll kids).1, declFacts_keptAll, List.append_nil]

mutual
theorem facts_pulled (at' : List Tok) (sel : Option (List Nd)) (o : Str) : (n : Nd) →
    factsAll at' sel (pulled o n) = declFacts at' sel o n
  | .mk t kids => by
    by_cases h1 : t.ty = .DECLARATION
    · rw [pulled_decl h1, declFacts_decl h1, factsAll, facts_flat at' sel (by exact h1),
        facts_pulledAll at' sel _ kids]
    · by_cases h2 : t.ty = .LIST ∨ t.ty = .OPEN_CURLYBRACKET
      · rw [pulled_block h2, declFacts_block h2, facts_pulledAll]
      · rw [pulled_other h1 h2, declFacts_other h1 h2, factsAll]
theorem facts_pulledAll (at' : List Tok) (sel : Option (List Nd)) (o : Str) : (l : List Nd) →
    factsAll at' sel (pulledAll o l) = declFactsAll at' sel o l
  | [] => by rw [pulledAll, declFactsAll, factsAll]
  | n :: ns => by
    rw [pulledAll, factsAll_append, facts_pulled, facts_pulledAll at' sel o ns, declFactsAll]
end

theorem facts_declarations (at' : List Tok) (sel : Option (List Nd)) (o : Str) (l : List Nd) :
    (factsAll at' sel (declarations o l)).Perm (declFactsAll at' sel o l) := by
  induction l with
  | nil => rw [declarations, declFactsAll, factsAll]
  | cons n ns ih =>
    rw [declarations, factsAll_append, facts_pulled, declFactsAll]
    exact List.perm_append_comm.trans (List.Perm.append_left _ ih)

theorem facts_flatDecl {t : Tok} {kids : List Nd} (at' : List Tok) (sel : Option (List Nd)) (h : t.ty = .DECLARATION) :
    (factsAll at' sel (flatDecl t kids)).Perm (facts at' sel (.mk t kids)) := by
  unfold flatDecl
  rw [factsAll, facts_flat at' sel h, facts_decl h]
  exact List.Perm.append_left _ (facts_declarations at' sel _ kids)

theorem flatDecl_decl {t : Tok} {kids : List Nd} (h : t.ty = .DECLARATION) :
    ∀ s ∈ flatDecl t kids, s.tok.ty = .DECLARATION := by
  intro s hs
  rcases List.mem_cons.1 hs with rfl | hs
  · exact h
  · have key : ∀ l : List Nd, ∀ s ∈ declarations t.str l, s.tok.ty = .DECLARATION := by
      intro l
      induction l with
      | nil => intro s hs; cases hs
      | cons n ns ih =>
        intro s hs
        rw [declarations, List.mem_append] at hs
        rcases hs with hs | hs
        · exact ih s hs
        · exact pulled_is_decl _ n s hs
    exact key kids s hs
where
  pulled_is_decl (o : Str) : (n : Nd) → ∀ s ∈ pulled o n, s.tok.ty = .DECLARATION
    | .mk t kids => by
      intro s hs
      by_cases h1 : t.ty = .DECLARATION
      · rw [pulled_decl h1] at hs
        rcases List.mem_cons.1 hs with rfl | hs
        · exact h1
        · exact pulledAll_is_decl _ kids s hs
      · by_cases h2 : t.ty = .LIST ∨ t.ty = .OPEN_CURLYBRACKET
        · rw [pulled_block h2] at hs; exact pulledAll_is_decl _ kids s hs
        · rw [pulled_other h1 h2] at hs; cases hs
  pulledAll_is_decl (o : Str) : (l : List Nd) → ∀ s ∈ pulledAll o l, s.tok.ty = .DECLARATION
    | [] => by intro s hs; rw [pulledAll] at hs; cases hs
    | n :: ns => by
      intro s hs
      rw [pulledAll, List.mem_append] at hs
      rcases hs with hs | hs
      · exact pulled_is_decl o n s hs
      · exact pulledAll_is_decl o ns s hs

theorem facts_filter (at' : List Tok) (sel : Option (List Nd)) (l : List Nd) (h : ∀ s ∈ l, s.tok.ty = .DECLARATION) :
    factsAll at' sel (l.filter (fun d => !d.kids.isEmpty)) = factsAll at' sel l := by
  induction l with
  | nil => rfl
  | cons x xs ih =>
    have ih := ih (fun s hs => h s (by simp [hs]))
    have hx := h x (by simp)
    obtain ⟨t, kids⟩ := x
    rw [List.filter_cons, factsAll, ← ih]
    cases kids with
    | nil =>
      have hx : t.ty = .DECLARATION := hx
      rw [if_neg (by simp [Nd.kids]), facts_decl hx, keptAll, declFactsAll]
      simp [says]
    | cons k ks => rw [if_pos (by simp [Nd.kids]), factsAll]

theorem noArg_iff (l : List Nd) : noArg l = true ↔ ∀ x ∈ l, x.tok.ty ≠ .ARG := by
  induction l with
  | nil => simp [noArg]
  | cons x xs ih => simp [noArg, ih]

/-- What stays in a rule is an ARG only if it was one. -/
theorem inRule_arg {n : Nd} (h : n.tok.ty ≠ .ARG) : ∀ x ∈ inRule n, x.tok.ty ≠ .ARG := by
  obtain ⟨t, kids⟩ := n
  intro x hx
  have h : t.ty ≠ .ARG := h
  by_cases h1 : t.ty = .COMPONENT_VALUE
  · rw [inRule_rule h1] at hx; cases hx
  · by_cases h2 : t.ty = .DECLARATION
    · rw [inRule_decl h2] at hx
      rw [flatDecl_decl h2 x (List.mem_filter.1 hx).1]; decide
    · by_cases h3 : t.ty = .AT_KEYWORD
      · rw [inRule_at h3] at hx
        obtain rfl : x = .mk t (expandedAll kids) := by simpa using hx
        exact h
      · by_cases h4 : t.ty = .LIST ∨ t.ty = .OPEN_CURLYBRACKET
        · rw [inRule_block h4] at hx
          obtain rfl : x = .mk t (inRuleAll kids) := by simpa using hx
          exact h
        · rw [inRule_plain ⟨h1, h2, h3, h4⟩] at hx
          obtain rfl : x = .mk t kids := by simpa using hx
          exact h

theorem inRuleAll_arg {l : List Nd} (h : ∀ x ∈ l, x.tok.ty ≠ .ARG) : ∀ x ∈ inRuleAll l, x.tok.ty ≠ .ARG := by
  induction l with
  | nil => intro x hx; rw [inRuleAll] at hx; cases hx
  | cons n ns ih =>
    intro x hx
    rw [inRuleAll, List.mem_append] at hx
    rcases hx with hx | hx
    · exact inRule_arg (h n (by simp)) x hx
    · exact ih (fun x hx => h x (by simp [hx])) x hx

theorem afterSelectors_arg {l : List Nd} (h : argsFirst l = true) : ∀ x ∈ afterSelectors l, x.tok.ty ≠ .ARG := by
  induction l with
  | nil => intro x hx; rw [afterSelectors] at hx; cases hx
  | cons n ns ih =>
    rw [argsFirst] at h
    intro x hx
    rw [afterSelectors] at hx
    by_cases hn : n.tok.ty = .ARG
    · rw [if_pos hn] at h hx; exact ih h x hx
    · rw [if_neg hn] at h hx
      rcases List.mem_append.1 hx with hx | hx
      · exact inRule_arg hn x hx
      · exact inRuleAll_arg ((noArg_iff ns).1 h) x hx

theorem selectors_append {a b : List Nd} (ha : Args a) (hb : ∀ x ∈ b, x.tok.ty ≠ .ARG) : selectors (a ++ b) = a := by
  induction a with
  | nil =>
    cases b with
    | nil => rfl
    | cons y ys => show selectors (y :: ys) = []; rw [selectors, if_neg (hb y (by simp))]
  | cons x xs ih =>
    show selectors (x :: (xs ++ b)) = _
    rw [selectors, if_pos (ha x (by simp)), ih (fun y hy => ha y (by simp [hy]))]

theorem inRuleAll_split (l : List Nd) : inRuleAll l = selectors l ++ afterSelectors l := by
  induction l with
  | nil => rw [inRuleAll, selectors, afterSelectors]; rfl
  | cons n ns ih =>
    rw [inRuleAll, selectors, afterSelectors]
    by_cases hn : n.tok.ty = .ARG
    · obtain ⟨t, kids⟩ := n
      have hp : Plain t := by rw [Plain, show t.ty = .ARG from hn]; decide
      rw [if_pos hn, if_pos hn, inRule_plain hp, ih]; rfl
    · rw [if_neg hn, if_neg hn]; rfl

theorem facts_args (at' : List Tok) (sel : Option (List Nd)) {a : List Nd} (h : Args a) : factsAll at' sel a = [] := by
  induction a with
  | nil => rw [factsAll]
  | cons x xs ih =>
    obtain ⟨t, kids⟩ := x
    have hp : Plain t := by rw [Plain, show t.ty = .ARG from h (.mk t kids) (by simp)]; decide
    rw [factsAll, facts_plain hp, ih (fun y hy => h y (by simp [hy]))]; rfl

/-- The part of C63 on the meaning, for a node. -/
structure Means (n : Nd) : Prop where
  rule : ∀ at' s, Args s → (factsAll at' (some s) (inRule n) ++ factsAll at' none (lifted s n)).Perm (facts at' (some s) n)
  comp : ∀ at', (factsAll at' none (expanded n)).Perm (facts at' none n)

structure MeansAll (l : List Nd) : Prop where
  rule : ∀ at' s, Args s →
    (factsAll at' (some s) (inRuleAll l) ++ factsAll at' none (liftedAll s l)).Perm (factsAll at' (some s) l)
  comp : ∀ at', (factsAll at' none (expandedAll l)).Perm (factsAll at' none l)

theorem meansAll_cons {n : Nd} {ns : List Nd} (h : Means n) (hs : MeansAll ns) : MeansAll (n :: ns) where
  rule at' s hsel := by
    rw [inRuleAll, liftedAll, factsAll_append, factsAll_append, factsAll]
    refine List.Perm.trans ?_ ((h.rule at' s hsel).append (hs.rule at' s hsel))
    rw [List.append_assoc, List.append_assoc]
    refine List.Perm.append_left _ ?_
    rw [← List.append_assoc, ← List.append_assoc]
    exact List.Perm.append_right _ List.perm_append_comm
  comp at' := by
    rw [expandedAll, factsAll_append, factsAll]
    exact (h.comp at').append (hs.comp at')

theorem means_of {t : Tok} {kids : List Nd} (h : MeansAll kids) (hs : shaped (.mk t kids) = true) : Means (.mk t kids) := by
  by_cases h1 : t.ty = .COMPONENT_VALUE
  · have ha : argsFirst kids = true := by
      unfold shaped at hs; rw [h1] at hs; exact (Bool.and_eq_true _ _ ▸ hs).1
    refine ⟨fun at' s hsel => ?_, fun at' => ?_⟩
    · have hm : Args (s.map (below (selectors kids))) := by
        intro a ha
        obtain ⟨b, hb, rfl⟩ := List.mem_map.1 ha
        exact hsel b hb
      rw [inRule_rule h1, lifted_rule h1, facts_rule h1, factsAll, factsAll, facts_top h1,
        selectors_append hm (afterSelectors_arg ha), factsAll_append, facts_args _ _ hm]
      refine List.Perm.trans ?_ (h.rule at' _ hm)
      rw [inRuleAll_split kids, factsAll_append, facts_args _ _ (selectors_all kids)]
      exact List.Perm.refl _
    · rw [expanded_rule h1, factsAll, facts_top h1, facts_top h1]
      refine List.Perm.trans ?_ (h.rule at' _ (selectors_all kids))
      rw [inRuleAll_split kids, selectors_append (selectors_all kids) (afterSelectors_arg ha)]
  · by_cases h2 : t.ty = .DECLARATION
    · refine ⟨fun at' s hsel => ?_, fun at' => ?_⟩
      · rw [inRule_decl h2, lifted_other h1 (by simp [h2]), facts_filter _ _ _ (flatDecl_decl h2), factsAll,
          List.append_nil]
        exact facts_flatDecl at' _ h2
      · rw [expanded_decl h2]; exact facts_flatDecl at' _ h2
    · by_cases h3 : t.ty = .AT_KEYWORD
      · refine ⟨fun at' s hsel => ?_, fun at' => ?_⟩
        · rw [inRule_at h3, lifted_other h1 (by simp [h3]), factsAll, factsAll, factsAll, List.append_nil,
            List.append_nil, facts_at h3, facts_at h3]
          exact h.comp _
        · rw [expanded_block (.inr (.inl h3)), factsAll, factsAll, List.append_nil, facts_at h3, facts_at h3]
          exact h.comp _
      · by_cases h4 : t.ty = .LIST ∨ t.ty = .OPEN_CURLYBRACKET
        · refine ⟨fun at' s hsel => ?_, fun at' => ?_⟩
          · rw [inRule_block h4, lifted_block h4, factsAll, factsAll, List.append_nil, facts_block h4, facts_block h4]
            exact h.rule at' s hsel
          · rw [expanded_block (by rcases h4 with h | h <;> simp [h]), factsAll, factsAll, List.append_nil,
              facts_block h4, facts_block h4]
            exact h.comp _
        · have hp : Plain t := ⟨h1, h2, h3, h4⟩
          refine ⟨fun at' s hsel => ?_, fun at' => ?_⟩
          · rw [inRule_plain hp, lifted_other h1 h4, factsAll, factsAll, facts_plain hp]; exact List.Perm.refl _
          · rw [expanded_plain hp, factsAll, factsAll, facts_plain hp]; exact List.Perm.refl _

mutual
theorem means : (n : Nd) → shaped n = true → Means n
  | .mk t kids => by
    intro hs
    by_cases hb : t.ty = .COMPONENT_VALUE ∨ t.ty = .AT_KEYWORD ∨ t.ty = .LIST ∨ t.ty = .OPEN_CURLYBRACKET
    · have : shapedAll kids = true := by
        unfold shaped at hs
        rcases hb with h | h | h | h <;> rw [h] at hs
        · exact (Bool.and_eq_true _ _ ▸ hs).2
        all_goals exact hs
      exact means_of (meansAll kids this) hs
    · -- the children do not matter
      by_cases h2 : t.ty = .DECLARATION
      · refine ⟨fun at' s hsel => ?_, fun at' => ?_⟩
        · rw [inRule_decl h2, lifted_other (by simp [h2]) (by simp [h2]), facts_filter _ _ _ (flatDecl_decl h2), factsAll,
            List.append_nil]
          exact facts_flatDecl at' _ h2
        · rw [expanded_decl h2]; exact facts_flatDecl at' _ h2
      · have hp : Plain t := ⟨fun h => hb (.inl h), h2, fun h => hb (.inr (.inl h)), fun h => hb (.inr (.inr h))⟩
        refine ⟨fun at' s hsel => ?_, fun at' => ?_⟩
        · rw [inRule_plain hp, lifted_other hp.1 hp.2.2.2, factsAll, factsAll, facts_plain hp]; exact List.Perm.refl _
        · rw [expanded_plain hp, factsAll, factsAll, facts_plain hp]; exact List.Perm.refl _
theorem meansAll : (l : List Nd) → shapedAll l = true → MeansAll l
  | [] => fun _ => ⟨fun at' s _ => by simp [inRuleAll, liftedAll, factsAll],
      fun at' => by simp [expandedAll]⟩
  | n :: ns => fun h => by
    rw [shapedAll, Bool.and_eq_true] at h
    exact meansAll_cons (means n h.1) (meansAll ns h.2)
end

/-! ### Flatness -/

theorem flat_of {t : Tok} {kids : List Nd} (hk : ∀ x ∈ kids, Flat x)
    (h1 : t.ty = .COMPONENT_VALUE → ∀ y, Within y (.mk t kids) → y.tok.ty ≠ .COMPONENT_VALUE)
    (h2 : t.ty = .DECLARATION → ∀ y, Within y (.mk t kids) → y.tok.ty ≠ .DECLARATION) : Flat (.mk t kids) := by
  intro x hx
  cases hx with
  | self e => subst e; exact ⟨h1, h2⟩
  | child hb _ hp => exact hk _ hb x hp

theorem flat_alone {t : Tok} {kids : List Nd} (h1 : ¬ (t.ty = .COMPONENT_VALUE ∨ t.ty = .AT_KEYWORD ∨ t.ty = .LIST ∨
    t.ty = .OPEN_CURLYBRACKET)) (h2 : t.ty = .DECLARATION → ∀ y, Within y (.mk t kids) → y.tok.ty ≠ .DECLARATION) :
    Flat (.mk t kids) := by
  intro x hx
  cases hx with
  | self e => subst e; exact ⟨fun h => absurd (.inl h) h1, h2⟩
  | child _ h _ => exact absurd h h1

/-- No node of type `bad` is this node, or in it when it is a block. -/
def Free (bad : NT) (x : Nd) : Prop :=
  x.tok.ty ≠ bad ∧ (x.tok.ty = .LIST ∨ x.tok.ty = .OPEN_CURLYBRACKET → ∀ y, Within y x → y.tok.ty ≠ bad)

theorem within_free {bad : NT} {t : Tok} {kids : List Nd} (h : ∀ x ∈ kids, Free bad x) :
    ∀ y, Within y (.mk t kids) → y.tok.ty ≠ bad := by
  intro y hy
  cases hy with
  | child hb => exact (h y hb).1
  | block hb ht hw => exact (h _ hb).2 ht y hw

mutual
theorem kept_free : (n : Nd) → ∀ x ∈ kept n, Free .DECLARATION x
  | .mk t kids => by
    intro x hx
    by_cases h1 : t.ty = .DECLARATION
    · rw [kept_decl h1] at hx; cases hx
    · by_cases h2 : t.ty = .LIST ∨ t.ty = .OPEN_CURLYBRACKET
      · rw [kept_block h2] at hx
        split at hx
        · cases hx
        · obtain rfl : x = .mk t (keptAll kids) := by simpa using hx
          exact ⟨h1, fun _ => within_free (keptAll_free kids)⟩
      · rw [kept_other h1 h2] at hx
        obtain rfl : x = .mk t kids := by simpa using hx
        exact ⟨h1, fun h => absurd h h2⟩
theorem keptAll_free : (l : List Nd) → ∀ x ∈ keptAll l, Free .DECLARATION x
  | [] => by intro x hx; rw [keptAll] at hx; cases hx
  | n :: ns => by
    intro x hx
    rw [keptAll, List.mem_append] at hx
    rcases hx with hx | hx
    · exact kept_free n x hx
    · exact keptAll_free ns x hx
end

theorem flat_decl {t : Tok} (kids : List Nd) (h : t.ty = .DECLARATION) : Flat (.mk t (keptAll kids)) :=
  flat_alone (by simp [h]) (fun _ => within_free (keptAll_free kids))

mutual
theorem pulled_flat (o : Str) : (n : Nd) → ∀ x ∈ pulled o n, Flat x
  | .mk t kids => by
    intro x hx
    by_cases h1 : t.ty = .DECLARATION
    · rw [pulled_decl h1] at hx
      rcases List.mem_cons.1 hx with rfl | hx
      · exact flat_decl kids h1
      · exact pulledAll_flat _ kids x hx
    · by_cases h2 : t.ty = .LIST ∨ t.ty = .OPEN_CURLYBRACKET
      · rw [pulled_block h2] at hx; exact pulledAll_flat _ kids x hx
      · rw [pulled_other h1 h2] at hx; cases hx
theorem pulledAll_flat (o : Str) : (l : List Nd) → ∀ x ∈ pulledAll o l, Flat x
  | [] => by intro x hx; rw [pulledAll] at hx; cases hx
  | n :: ns => by
    intro x hx
    rw [pulledAll, List.mem_append] at hx
    rcases hx with hx | hx
    · exact pulled_flat o n x hx
    · exact pulledAll_flat o ns x hx
end

theorem flatDecl_flat {t : Tok} {kids : List Nd} (h : t.ty = .DECLARATION) : ∀ x ∈ flatDecl t kids, Flat x := by
  intro x hx
  rcases List.mem_cons.1 hx with rfl | hx
  · exact flat_decl kids h
  · have key : ∀ l : List Nd, ∀ s ∈ declarations t.str l, Flat s := by
      intro l
      induction l with
      | nil => intro s hs; cases hs
      | cons n ns ih =>
        intro s hs
        rw [declarations, List.mem_append] at hs
        rcases hs with hs | hs
        · exact ih s hs
        · exact pulled_flat _ n s hs
    exact key kids x hx

structure FlatOk (inr : List Nd) (lif : List Nd → List Nd) (exp : List Nd) : Prop where
  rule : ∀ x ∈ inr, Flat x ∧ Free .COMPONENT_VALUE x
  lift : ∀ sel, Args sel → ∀ x ∈ lif sel, Flat x
  comp : ∀ x ∈ exp, Flat x

theorem flat_arg {x : Nd} (h : x.tok.ty = .ARG) : Flat x ∧ Free .COMPONENT_VALUE x := by
  obtain ⟨t, kids⟩ := x
  have h : t.ty = .ARG := h
  exact ⟨flat_alone (by simp [h]) (by simp [h]), by show t.ty ≠ _; simp [h],
    fun e => by have : t.ty = .LIST ∨ t.ty = .OPEN_CURLYBRACKET := e; simp [h] at this⟩

theorem flatRule {t : Tok} {kids : List Nd} (ht : t.ty = .COMPONENT_VALUE)
    (h : ∀ x ∈ kids, Flat x ∧ Free .COMPONENT_VALUE x) : Flat (.mk t kids) :=
  flat_of (fun x hx => (h x hx).1) (fun _ => within_free (fun x hx => (h x hx).2)) (by simp [ht])

theorem flatBlock {t : Tok} {kids : List Nd} (ht : t.ty = .AT_KEYWORD ∨ t.ty = .LIST ∨ t.ty = .OPEN_CURLYBRACKET)
    (h : ∀ x ∈ kids, Flat x) : Flat (.mk t kids) :=
  flat_of h (fun e => by simp [e] at ht) (fun e => by simp [e] at ht)

theorem after_of (l : List Nd) : ∀ x ∈ afterSelectors l, x ∈ inRuleAll l := by
  intro x hx; rw [inRuleAll_split]; simp [hx]

theorem flat_node {t : Tok} {kids : List Nd} (h : FlatOk (inRuleAll kids) (fun s => liftedAll s kids) (expandedAll kids)) :
    FlatOk (inRule (.mk t kids)) (fun s => lifted s (.mk t kids)) (expanded (.mk t kids)) := by
  by_cases h1 : t.ty = .COMPONENT_VALUE
  · refine ⟨fun x hx => ?_, fun sel hsel x hx => ?_, fun x hx => ?_⟩
    · rw [inRule_rule h1] at hx; cases hx
    · have hx : x ∈ lifted sel (.mk t kids) := hx
      rw [lifted_rule h1] at hx
      have hm : Args (sel.map (below (selectors kids))) := by
        intro a ha
        obtain ⟨b, hb, rfl⟩ := List.mem_map.1 ha
        exact hsel b hb
      rcases List.mem_cons.1 hx with rfl | hx
      · refine flatRule h1 (fun x hx => ?_)
        rcases List.mem_append.1 hx with hx | hx
        · exact flat_arg (hm x hx)
        · exact h.rule x (after_of _ x hx)
      · exact h.lift _ hm x hx
    · rw [expanded_rule h1] at hx
      rcases List.mem_cons.1 hx with rfl | hx
      · exact flatRule h1 h.rule
      · exact h.lift _ (selectors_all kids) x hx
  · by_cases h2 : t.ty = .DECLARATION
    · refine ⟨fun x hx => ?_, fun sel hsel x hx => ?_, fun x hx => ?_⟩
      · rw [inRule_decl h2] at hx
        have hx := (List.mem_filter.1 hx).1
        refine ⟨flatDecl_flat h2 x hx, ?_, ?_⟩ <;> rw [flatDecl_decl h2 x hx] <;> simp
      · have hx : x ∈ lifted sel (.mk t kids) := hx
        rw [lifted_other h1 (by simp [h2])] at hx; cases hx
      · rw [expanded_decl h2] at hx; exact flatDecl_flat h2 x hx
    · by_cases h3 : t.ty = .AT_KEYWORD
      · have key : Flat (.mk t (expandedAll kids)) := flatBlock (.inl h3) h.comp
        refine ⟨fun x hx => ?_, fun sel hsel x hx => ?_, fun x hx => ?_⟩
        · rw [inRule_at h3] at hx
          obtain rfl : x = .mk t (expandedAll kids) := by simpa using hx
          exact ⟨key, h1, fun e => by have : t.ty = .LIST ∨ t.ty = .OPEN_CURLYBRACKET := e; simp [h3] at this⟩
        · have hx : x ∈ lifted sel (.mk t kids) := hx
          rw [lifted_other h1 (by simp [h3])] at hx; cases hx
        · rw [expanded_block (.inr (.inl h3))] at hx
          obtain rfl : x = .mk t (expandedAll kids) := by simpa using hx
          exact key
      · by_cases h4 : t.ty = .LIST ∨ t.ty = .OPEN_CURLYBRACKET
        · refine ⟨fun x hx => ?_, fun sel hsel x hx => ?_, fun x hx => ?_⟩
          · rw [inRule_block h4] at hx
            obtain rfl : x = .mk t (inRuleAll kids) := by simpa using hx
            exact ⟨flatBlock (.inr h4) (fun x hx => (h.rule x hx).1), h1,
              fun _ => within_free (fun x hx => (h.rule x hx).2)⟩
          · have hx : x ∈ lifted sel (.mk t kids) := hx
            rw [lifted_block h4] at hx; exact h.lift sel hsel x hx
          · rw [expanded_block (by rcases h4 with h | h <;> simp [h])] at hx
            obtain rfl : x = .mk t (expandedAll kids) := by simpa using hx
            exact flatBlock (.inr h4) h.comp
        · have hp : Plain t := ⟨h1, h2, h3, h4⟩
          have key : Flat (.mk t kids) := flat_alone (by simp_all) (fun e => absurd e h2)
          refine ⟨fun x hx => ?_, fun sel hsel x hx => ?_, fun x hx => ?_⟩
          · rw [inRule_plain hp] at hx
            obtain rfl : x = .mk t kids := by simpa using hx
            exact ⟨key, h1, fun e => absurd e h4⟩
          · have hx : x ∈ lifted sel (.mk t kids) := hx
            rw [lifted_other h1 h4] at hx; cases hx
          · rw [expanded_plain hp] at hx
            obtain rfl : x = .mk t kids := by simpa using hx
            exact key

mutual
theorem flatOk : (n : Nd) → FlatOk (inRule n) (fun s => lifted s n) (expanded n)
  | .mk _ kids => flat_node (flatOkAll kids)
theorem flatOkAll : (l : List Nd) → FlatOk (inRuleAll l) (fun s => liftedAll s l) (expandedAll l)
  | [] => by
    refine ⟨fun x hx => ?_, fun sel _ x hx => ?_, fun x hx => ?_⟩
    · rw [inRuleAll] at hx; cases hx
    · have hx : x ∈ liftedAll sel [] := hx
      rw [liftedAll] at hx; cases hx
    · rw [expandedAll] at hx; cases hx
  | n :: ns => by
    have h := flatOk n
    have hs := flatOkAll ns
    refine ⟨fun x hx => ?_, fun sel hsel x hx => ?_, fun x hx => ?_⟩
    · rw [inRuleAll, List.mem_append] at hx
      exact hx.elim (h.rule x) (hs.rule x)
    · have hx : x ∈ liftedAll sel (n :: ns) := hx
      rw [liftedAll, List.mem_append] at hx
      exact hx.elim (h.lift sel hsel x) (hs.lift sel hsel x)
    · rw [expandedAll, List.mem_append] at hx
      exact hx.elim (h.comp x) (hs.comp x)
end

/-! ### C63 -/

/-- C63: the pass ends, and gives the stylesheet where the nested rules follow the rule they were in and the nested
declarations the declaration they were in. There is an error exactly when a declaration contains a rule. -/
theorem C63_expand (t : Tok) (kids : List Nd) (ht : t.ty = .LIST) (h : withoutAll .AT_KEYWORD kids = true) :
    ∃ f e, (∀ g, f ≤ g → comps g (.mk t kids) = .ok (.mk t (expandedAll kids), []) e) ∧
      (e = [] ↔ withoutAll .COMPONENT_VALUE kids = true) := by
  obtain ⟨x, sibs, ⟨f, r, h1, h2⟩, h3⟩ := (ok (.mk t kids)).comp
  rw [expanded_block (.inl ht)] at h3
  rw [without_block (.inr (.inr (.inl ht))), without_block (.inr (.inr (.inl ht))), h, if_pos rfl] at h2
  obtain ⟨e, rfl, he⟩ := h2
  injection h3 with hx hs
  subst hx hs
  refine ⟨f, e, h1, ?_⟩
  rw [← he]
  cases e <;> simp

/-- C63: an @-rule in a declaration ends the compilation with an exception. -/
theorem C63_throws (t : Tok) (kids : List Nd) (ht : t.ty = .LIST) (h : withoutAll .AT_KEYWORD kids = false) :
    ∃ f, ∀ g, f ≤ g → comps g (.mk t kids) = .throws := by
  obtain ⟨x, sibs, ⟨f, r, h1, h2⟩, h3⟩ := (ok (.mk t kids)).comp
  rw [without_block (.inr (.inr (.inl ht))), h] at h2
  exact ⟨f, fun g hg => (h1 g hg).trans (by simpa using h2)⟩

/-- C63: whatever the fuel, what comes out of the pass has no rule in a rule and no declaration in a declaration. -/
theorem C63_flat (t : Tok) (kids : List Nd) (ht : t.ty = .LIST) {f : Nat} {n : Nd} {sibs : List Nd} {e : List Pos}
    (h : ∀ g, f ≤ g → comps g (.mk t kids) = .ok (n, sibs) e) : Flat n ∧ sibs = [] := by
  cases hw : withoutAll .AT_KEYWORD kids with
  | true =>
    obtain ⟨f', e', h', _⟩ := C63_expand t kids ht hw
    have h1 := h (max f f') (by omega)
    rw [h' (max f f') (by omega)] at h1
    injection h1 with h1 _
    injection h1 with h1 h2
    subst h1 h2
    exact ⟨flatBlock (.inr (.inl ht)) (flatOkAll kids).comp, rfl⟩
  | false =>
    obtain ⟨f', h'⟩ := C63_throws t kids ht hw
    have h1 := h (max f f') (by omega)
    rw [h' (max f f') (by omega)] at h1
    cases h1

/-- C63: nothing is lost, added or changed: the stylesheet says after the pass exactly what it said before, each
declaration as many times as it was there. -/
theorem C63_facts (t : Tok) (kids : List Nd) (ht : t.ty = .LIST) (hs : shapedAll kids = true) {f : Nat} {n : Nd}
    {sibs : List Nd} {e : List Pos} (h : ∀ g, f ≤ g → comps g (.mk t kids) = .ok (n, sibs) e) :
    (facts [] none n).Perm (facts [] none (.mk t kids)) := by
  cases hw : withoutAll .AT_KEYWORD kids with
  | true =>
    obtain ⟨f', e', h', _⟩ := C63_expand t kids ht hw
    have h1 := h (max f f') (by omega)
    rw [h' (max f f') (by omega)] at h1
    injection h1 with h1 _
    injection h1 with h1 h2
    subst h1
    rw [facts_block (.inl ht), facts_block (.inl ht)]
    exact (meansAll kids hs).comp []
  | false =>
    obtain ⟨f', h'⟩ := C63_throws t kids ht hw
    have h1 := h (max f f') (by omega)
    rw [h' (max f f') (by omega)] at h1
    cases h1

theorem item_spaced {l : List Nd} {i : Nd} (h1 : i.tok.ty ≠ .EOF_TOKEN)
    (h2 : ¬ (endsInSpace l = true ∧ i.tok.ty = .WHITESPACE)) : item l i = l ++ [i] := by
  unfold item
  split
  · contradiction
  · rename_i hw
    cases hl : l.getLast? with
    | none => rfl
    | some x =>
      have : ¬ x.tok.ty = .WHITESPACE := fun e => h2 ⟨by simp [endsInSpace, hl, e], hw⟩
      simp [this]
  · rfl

theorem endsInSpace_concat (l : List Nd) (i : Nd) : endsInSpace (l ++ [i]) = decide (i.tok.ty = .WHITESPACE) := by
  simp [endsInSpace]

theorem items_spaced {l items : List Nd} (h : spaced (endsInSpace l) items = true) :
    items.foldl item l = l ++ items := by
  induction items generalizing l with
  | nil => simp
  | cons i is ih =>
    rw [spaced, Bool.and_eq_true, Bool.and_eq_true] at h
    obtain ⟨⟨h1, h2⟩, h3⟩ := h
    have h1 : i.tok.ty ≠ .EOF_TOKEN := by simpa using h1
    rw [List.foldl_cons, item_spaced h1 (by rintro ⟨a, b⟩; simp [a, b] at h2), ih (by rw [endsInSpace_concat]; exact h3)]
    simp

theorem filter_none {l : List Nd} (h : ∀ i ∈ l, i.tok.ty ≠ .REFERENCE) :
    l.filter (fun i => i.tok.ty ≠ .REFERENCE) = l := List.filter_eq_self.2 (fun a ha => by simpa using h a ha)

/-- C63: a rule that has one selector, without `&`, in a rule: the outer selector, a space and the inner selector. -/
theorem C63_selector (outer inner : Nd) (hi : inner.kids ≠ []) (h : ∀ i ∈ inner.kids, i.tok.ty ≠ .REFERENCE)
    (hs : spaced true inner.kids = true) (ho : endsInSpace outer.kids = false) :
    join outer [inner] = .mk outer.tok
      (outer.kids ++ .mk { ty := .WHITESPACE, pos := outer.tok.pos } [] :: inner.kids) := by
  rw [join_eq]
  obtain ⟨it, ik⟩ := inner
  unfold below
  simp only [List.foldl_cons, List.foldl_nil]
  congr 1
  show under _ _ ik = _ ++ _ :: ik
  have hi : ik ≠ [] := hi
  have h : ∀ i ∈ ik, i.tok.ty ≠ .REFERENCE := h
  have hs : spaced true ik = true := hs
  obtain ⟨i, is, rfl⟩ := List.exists_cons_of_ne_nil hi
  unfold under
  dsimp only
  rw [if_neg (h i (by simp)), filter_none h, item_spaced (by simp [Nd.tok]) (by simp [ho]),
    items_spaced (by rw [endsInSpace_concat]; exact hs)]
  simp

/-- C63: a rule that has one selector that starts with `&`: nothing in between. -/
theorem C63_reference (outer inner amp : Nd) (rest : List Nd) (hi : inner.kids = amp :: rest)
    (ha : amp.tok.ty = .REFERENCE) (h : ∀ i ∈ rest, i.tok.ty ≠ .REFERENCE)
    (hs : spaced (endsInSpace outer.kids) rest = true) :
    join outer [inner] = .mk outer.tok (outer.kids ++ rest) := by
  rw [join_eq]
  unfold below
  simp only [List.foldl_cons, List.foldl_nil, hi]
  congr 1
  unfold under
  dsimp only
  rw [if_pos ha, List.filter_cons, if_neg (by simp [ha]), filter_none h, items_spaced hs]

/-- C63: a nested rule has as many selectors as the outer rule, however many were written: they are all put one after
another. It should be the product of the two numbers. -/
theorem C63_count (sel kids : List Nd) (t : Tok) (h : t.ty = .COMPONENT_VALUE) (hs : Args sel)
    (ha : argsFirst kids = true) : ∃ kids' more, lifted sel (.mk t kids) = .mk t kids' :: more ∧
      (selectors kids').length = sel.length := by
  refine ⟨_, _, lifted_rule h, ?_⟩
  have hm : Args (sel.map (below (selectors kids))) := by
    intro a ha
    obtain ⟨b, hb, rfl⟩ := List.mem_map.1 ha
    exact hs b hb
  rw [selectors_append hm (afterSelectors_arg ha), List.length_map]

/-! ### Examples -/

def exAt : Pos := ⟨1, 1, 1⟩
def exN (ty : NT) (s : Str) (kids : List Nd) : Nd := .mk { ty := ty, pos := exAt, str := s } kids
def exId (s : Str) : Nd := exN .IDENTIFIER s []
def exArg (l : List Nd) : Nd := exN .ARG [] l
def exDecl (s : Str) (kids : List Nd) : Nd := exN .DECLARATION s kids
def exBlock (l : List Nd) : Nd := exN .OPEN_CURLYBRACKET [] l
def exRule (sels : List Nd) (l : List Nd) : Nd := exN .COMPONENT_VALUE [] (sels ++ [exBlock l])
def exWs : Nd := exN .WHITESPACE [] []

/-- `a { x: 1; b { font: { size: 2 } c { y: 3 } } }` -/
def exSheet : Nd := exN .LIST []
  [exRule [exArg [exId b!"a"]] [exDecl b!"x" [exArg [exId b!"1"]],
    exRule [exArg [exId b!"b"]] [exDecl b!"font" [exBlock [exDecl b!"size" [exArg [exId b!"2"]]]],
      exRule [exArg [exId b!"c"]] [exDecl b!"y" [exArg [exId b!"3"]]]]]]

/-- `a { x: 1 } a b { font-size: 2 } a b c { y: 3 }` -/
def exFlat : Nd := exN .LIST []
  [exRule [exArg [exId b!"a"]] [exDecl b!"x" [exArg [exId b!"1"]]],
   exRule [exArg [exId b!"a", exWs, exId b!"b"]] [exDecl b!"font-size" [exArg [exId b!"2"]]],
   exRule [exArg [exId b!"a", exWs, exId b!"b", exWs, exId b!"c"]] [exDecl b!"y" [exArg [exId b!"3"]]]]

example : comps 100 exSheet = .ok (exFlat, []) [] := by rfl
example : withoutAll .AT_KEYWORD exSheet.kids = true ∧ shapedAll exSheet.kids = true ∧ exSheet.tok.ty = .LIST := by
  decide +kernel

/-- `a { b, c { x: 1 } }` becomes `a {} a b c { x: 1 }`. -/
example : comps 100 (exN .LIST [] [exRule [exArg [exId b!"a"]]
      [exRule [exArg [exId b!"b"], exArg [exId b!"c"]] [exDecl b!"x" [exArg [exId b!"1"]]]]]) =
    .ok (exN .LIST [] [exRule [exArg [exId b!"a"]] [],
      exRule [exArg [exId b!"a", exWs, exId b!"b", exWs, exId b!"c"]] [exDecl b!"x" [exArg [exId b!"1"]]]], []) [] := by
  rfl

/-- A rule in a declaration is an error; the @-rule is an exception. -/
example : ∃ e, e ≠ [] ∧ comps 100 (exN .LIST [] [exDecl b!"x" [exBlock [exRule [exArg [exId b!"b"]] []]]]) =
    .ok (exN .LIST [] [exDecl b!"x" [exBlock [exRule [exArg [exId b!"b"]] []]]], []) e :=
  ⟨[exAt], by simp, by rfl⟩
example : comps 100 (exN .LIST [] [exDecl b!"x" [exBlock [exN .AT_KEYWORD b!"media" []]]]) = .throws := by rfl

end Csspp.Expand
