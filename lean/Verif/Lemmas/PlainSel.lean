import Verif.Lemmas.PlainVars
import Verif.Props.Selector

/-!
For C83: the commas and the selectors of a plain style sheet.
-/

namespace Csspp.Spec.Plain
open Csspp.Spec (Word)
open Csspp.Lex (Tok Pos)
open Csspp.Parse

/-- The words of the shortest text, with one blank where there must be one. -/
def squeezed : List Item → List Word
  | [] => []
  | .word w :: l => w :: squeezed l
  | .must :: l => ws :: squeezed l
  | .opt :: l => squeezed l
  | .semi :: l => squeezed l

theorem squeezed_append (a b : List Item) : squeezed (a ++ b) = squeezed a ++ squeezed b := by
  induction a with
  | nil => rfl
  | cons i a ih => cases i <;> simp [squeezed, ih]

/-! ### The commas -/

theorem gap_map {g : List Tok} (hg : Gap g) : g.map Nd.leaf = [] ∨ ∃ c, g.map Nd.leaf = [c] ∧ c.ty = .WHITESPACE := by
  rcases hg.ty with rfl | ⟨t, rfl, e⟩
  · exact .inl rfl
  · exact .inr ⟨_, rfl, e⟩

theorem pieces_no {sep : NT} : ∀ {l : List Nd}, (∀ c ∈ l, c.ty ≠ sep) → pieces sep l = [l]
  | [], _ => rfl
  | c :: l, h => by
    rw [pieces, if_neg (h c (by simp)), pieces_no (fun c hc => h c (by simp [hc]))]

theorem pieces_cons {sep : NT} {c : Nd} (hc : c.ty = sep) (m : List Nd) : ∀ {l : List Nd}, (∀ c ∈ l, c.ty ≠ sep) →
    pieces sep (l ++ c :: m) = l :: pieces sep m
  | [], _ => by rw [List.nil_append, pieces, if_pos hc]
  | d :: l, h => by
    rw [List.cons_append, pieces, if_neg (h d (by simp)), pieces_cons hc m (fun c hc => h c (by simp [hc]))]

theorem complaint_none : ∀ {l : List (List Nd)}, (∀ p ∈ l, blank p = false) → complaint l = none
  | [], _ => rfl
  | [_], _ => rfl
  | p :: q :: ps, h => by
    show (if blank p then _ else if (q :: ps).dropLast.any blank then _ else if ((q :: ps).getLastD []).isEmpty then _ else _) = _
    rw [if_neg (by rw [h p (by simp)]; simp), if_neg, if_neg]
    · intro e
      have : (q :: ps).getLastD [] ∈ q :: ps := by
        rw [List.getLastD_eq_getLast?, List.getLast?_eq_some_getLast (by simp)]
        exact List.getLast_mem _
      have h1 := h _ (List.mem_cons_of_mem _ this)
      rw [List.isEmpty_iff.1 e] at h1
      cases h1
    · rw [Bool.not_eq_true, List.any_eq_false]
      intro x hx
      rw [h x (List.mem_cons_of_mem _ (List.dropLast_subset _ hx))]
      simp

theorem solid_ws {k : List Tok} (hk : Solid k) : (∃ c l, k.map Nd.leaf = c :: l ∧ isWs c = false) ∧
    ∃ c l, k.map Nd.leaf = l ++ [c] ∧ isWs c = false := by
  constructor
  · obtain ⟨t, l, rfl⟩ := List.exists_cons_of_ne_nil hk.ne
    refine ⟨Nd.leaf t, l.map Nd.leaf, rfl, ?_⟩
    have := hk.head
    unfold isWs
    simpa [Nd.leaf, Nd.ty, Nd.tok] using this
  · obtain ⟨l, t, rfl⟩ : ∃ l t, k = l ++ [t] := ⟨_, _, (List.dropLast_concat_getLast hk.ne).symm⟩
    refine ⟨Nd.leaf t, l.map Nd.leaf, by simp, ?_⟩
    have := hk.last
    unfold isWs
    simpa [Nd.leaf, Nd.ty, Nd.tok] using this

theorem lead_gap {g k : List Tok} (hg : Gap g) (hk : Solid k) (m : List Nd) :
    lead (g.map Nd.leaf ++ (k.map Nd.leaf ++ m)) = k.map Nd.leaf ++ m := by
  obtain ⟨⟨c, l, e, hc⟩, _⟩ := solid_ws hk
  rw [e]
  unfold lead
  rcases gap_map hg with e' | ⟨w, e', hw⟩
  · rw [e', List.nil_append, List.cons_append, List.dropWhile_cons, if_neg (by rw [hc]; simp)]
  · rw [e', List.singleton_append, List.dropWhile_cons, if_pos (by unfold isWs; rw [hw]; rfl), List.cons_append,
      List.dropWhile_cons, if_neg (by rw [hc]; simp)]

theorem trim_gap {g k g' : List Tok} (hg : Gap g) (hk : Solid k) (hg' : Gap g') :
    trim (g.map Nd.leaf ++ (k.map Nd.leaf ++ g'.map Nd.leaf)) = k.map Nd.leaf := by
  unfold trim
  rw [lead_gap hg hk]
  obtain ⟨_, c, l, e, hc⟩ := solid_ws hk
  rw [e]
  have : ∀ m : List Nd, (m = [] ∨ ∃ w, m = [w] ∧ w.ty = .WHITESPACE) → ((l ++ [c] ++ m).reverse.dropWhile isWs).reverse = l ++ [c] := by
    rintro m (rfl | ⟨w, rfl, hw⟩)
    · rw [List.append_nil, List.reverse_append, List.reverse_singleton, List.singleton_append, List.dropWhile_cons,
        if_neg (by rw [hc]; simp)]
      simp
    · rw [List.reverse_append, List.reverse_singleton, List.singleton_append, List.dropWhile_cons,
        if_pos (by unfold isWs; rw [hw]; rfl), List.reverse_append, List.reverse_singleton, List.singleton_append,
        List.dropWhile_cons, if_neg (by rw [hc]; simp)]
      simp
  exact this _ (gap_map hg')

theorem blank_solid {k : List Tok} (hk : Solid k) (a b : List Nd) : blank (a ++ (k.map Nd.leaf ++ b)) = false := by
  obtain ⟨⟨c, l, e, hc⟩, _⟩ := solid_ws hk
  unfold blank
  rw [e]
  simp [hc]

/-- The tokens of a part, as nodes. -/
def Is' {α : Type} (f : α → List Item) (x : α) (a : List Nd) : Prop := ∃ ks, a = ks.map Nd.leaf ∧ Read (f x) ks

/-- A list with commas is split. -/
theorem split_join {α : Type} {f : α → List Item} : ∀ {l : List α}, l ≠ [] →
    (∀ x ∈ l, ∀ ks, Read (f x) ks → Solid ks ∧ ∀ t ∈ ks, t.ty ≠ .COMMA) → ∀ {g k : List Tok}, Gap g →
    Read (join f [.opt, mark .COMMA, .opt] l) k →
    (∀ p ∈ pieces .COMMA ((g ++ k).map Nd.leaf), blank p = false) ∧
      Each (Is' f) l (arguments (pieces .COMMA ((g ++ k).map Nd.leaf)))
  | [], h, _, _, _, _, _ => absurd rfl h
  | [x], _, h, g, k, hg, hr => by
    obtain ⟨h1, h2⟩ := h x (by simp) k hr
    have hn : ∀ c ∈ (g ++ k).map Nd.leaf, c.ty ≠ .COMMA := by
      intro c hc
      obtain ⟨t, ht, rfl⟩ := List.mem_map.1 hc
      rcases List.mem_append.1 ht with ht | ht
      · rcases hg.ty with rfl | ⟨w, rfl, hw⟩
        · cases ht
        · rw [List.mem_singleton] at ht
          rw [ht]
          show w.ty ≠ _
          rw [hw]; simp
      · exact h2 t ht
    rw [pieces_no hn, List.map_append]
    constructor
    · intro p hp
      rw [List.mem_singleton] at hp
      rw [hp]
      simpa using blank_solid h1 (g.map Nd.leaf) []
    · show Each _ _ [lead _]
      have := lead_gap hg h1 []
      rw [List.append_nil] at this
      rw [this]
      exact .cons ⟨k, rfl, hr⟩ .nil
  | x :: y :: l, _, h, g, k, hg, hr => by
    have e : join f [.opt, mark .COMMA, .opt] (x :: y :: l) = f x ++ ([.opt, mark .COMMA, .opt] ++ join f [.opt, mark .COMMA, .opt] (y :: l)) := by
      rw [← List.append_assoc]; rfl
    rw [e] at hr
    obtain ⟨kx, k', rfl, hx, hr⟩ := hr.append
    obtain ⟨g1, k', rfl, hg1, hr⟩ := Read.opt (l := mark .COMMA :: .opt :: join f [.opt, mark .COMMA, .opt] (y :: l)) hr
    obtain ⟨c, k', rfl, hc, hr⟩ := Read.word hr
    obtain ⟨g2, k', rfl, hg2, hr⟩ := Read.opt hr
    obtain ⟨h1, h2⟩ := h x (by simp) kx hx
    obtain ⟨i1, i2⟩ := split_join (l := y :: l) (by simp) (fun z hz => h z (List.mem_cons_of_mem _ hz)) hg2 hr
    have gapc : ∀ {g : List Tok}, Gap g → ∀ t ∈ g, t.ty ≠ .COMMA := by
      intro g hg t ht
      rcases hg.ty with rfl | ⟨w, rfl, hw⟩
      · cases ht
      · rw [List.mem_singleton] at ht
        rw [ht, hw]; simp
    have hn : ∀ c ∈ (g ++ (kx ++ g1)).map Nd.leaf, c.ty ≠ .COMMA := by
      intro c hc
      obtain ⟨t, ht, rfl⟩ := List.mem_map.1 hc
      rcases List.mem_append.1 ht with ht | ht
      · exact gapc hg t ht
      · rcases List.mem_append.1 ht with ht | ht
        · exact h2 t ht
        · exact gapc hg1 t ht
    have hcty : (Nd.leaf c).ty = .COMMA := congrArg Word.ty hc
    have ep : (g ++ (kx ++ (g1 ++ c :: (g2 ++ k')))).map Nd.leaf =
        (g ++ (kx ++ g1)).map Nd.leaf ++ Nd.leaf c :: (g2 ++ k').map Nd.leaf := by simp
    rw [ep, pieces_cons hcty _ hn]
    constructor
    · intro p hp
      rcases List.mem_cons.1 hp with rfl | hp
      · rw [List.map_append, List.map_append]
        exact blank_solid h1 _ _
      · exact i1 p hp
    · have hne : pieces .COMMA ((g2 ++ k').map Nd.leaf) ≠ [] := by
        intro e
        rw [e] at i2
        cases i2
      obtain ⟨p, ps, e⟩ := List.exists_cons_of_ne_nil hne
      rw [e] at i2 ⊢
      show Each _ _ (trim _ :: arguments (p :: ps))
      rw [List.map_append, List.map_append, trim_gap hg h1 hg1]
      exact .cons ⟨kx, rfl, hx⟩ i2

/-! ### The selectors -/

open Csspp.Sel.Spec (Selector Term Sep Ws)

/-- What follows a term, and how it is written. -/
def Tail (env : Sel.Env) (k o : List Nd) : Prop :=
  k = [] ∧ o = [] ∨ ∃ s s' r o', k = s ++ r ∧ Sep s s' ∧ Selector env false r o' ∧ o = s' ++ o'

theorem term_tail {env : Sel.Env} {b : Bool} {ts out k o : List Nd} (h : Term env b ts out k) (ht : Tail env k o) :
    Selector env b ts (out ++ o) := by
  rcases ht with ⟨rfl, rfl⟩ | ⟨s, s', r, o', rfl, h1, h2, rfl⟩
  · rw [List.append_nil]; exact .last h
  · rw [← List.append_assoc]; exact .more h h1 h2

/-- A word of a compound, as a node. -/
theorem simple_term {env : Sel.Env} {s : Simple} {b : Bool} {k : List Tok} (hk : Read s.items k) {r : List Nd}
    (hr : Sel.Spec.first r ≠ some .SCOPE) : Term env b (k.map Nd.leaf ++ r) (k.map Nd.leaf) r ∧ k.map Word.of = squeezed s.items := by
  cases s with
  | tag s =>
    obtain ⟨t, k, rfl, ht, hk⟩ := Read.word hk
    rw [hk.nil]
    have hty : t.ty = .IDENTIFIER := congrArg Word.ty ht
    refine ⟨.simple (.name hty hr) ?_, by rw [List.map_singleton, ht]; rfl⟩
    intro c f r' e hc _
    obtain ⟨rfl, _⟩ := List.cons.inj e
    rw [show (Nd.leaf t).ty = t.ty from rfl, hty] at hc
    cases hc
  | id s =>
    obtain ⟨t, k, rfl, ht, hk⟩ := Read.word hk
    rw [hk.nil]
    have hty : t.ty = .HASH := congrArg Word.ty ht
    refine ⟨.simple (.id hty) ?_, by rw [List.map_singleton, ht]; rfl⟩
    intro c f r' e hc _
    obtain ⟨rfl, _⟩ := List.cons.inj e
    rw [show (Nd.leaf t).ty = t.ty from rfl, hty] at hc
    cases hc
  | cls s =>
    obtain ⟨p, k, rfl, hp, hk⟩ := Read.word hk
    obtain ⟨t, k, rfl, ht, hk⟩ := Read.word hk
    rw [hk.nil]
    have hty : p.ty = .PERIOD := congrArg Word.ty hp
    have hty' : t.ty = .IDENTIFIER := congrArg Word.ty ht
    refine ⟨.simple (.cls hty hty') ?_, by
      show [Word.of p, Word.of t] = _; rw [hp, ht]; rfl⟩
    intro c f r' e hc _
    obtain ⟨rfl, _⟩ := List.cons.inj e
    rw [show (Nd.leaf p).ty = p.ty from rfl, hty] at hc
    cases hc

theorem simple_first {s : Simple} {k : List Tok} (hk : Read s.items k) : ∃ t k', k = t :: k' ∧
    (t.ty = .IDENTIFIER ∨ t.ty = .HASH ∨ t.ty = .PERIOD) := by
  cases s with
  | tag s => obtain ⟨t, k, rfl, ht, hk⟩ := Read.word hk; exact ⟨t, k, rfl, .inl (congrArg Word.ty ht)⟩
  | id s => obtain ⟨t, k, rfl, ht, hk⟩ := Read.word hk; exact ⟨t, k, rfl, .inr (.inl (congrArg Word.ty ht))⟩
  | cls s => obtain ⟨t, k, rfl, ht, hk⟩ := Read.word hk; exact ⟨t, k, rfl, .inr (.inr (congrArg Word.ty ht))⟩

theorem first_ne {t : Tok} {k : List Tok} {r : List Nd} (h : t.ty = .IDENTIFIER ∨ t.ty = .HASH ∨ t.ty = .PERIOD) :
    Sel.Spec.first ((t :: k).map Nd.leaf ++ r) ≠ some .SCOPE := by
  show some t.ty ≠ _
  rcases h with h | h | h <;> rw [h] <;> simp

/-- A compound. -/
theorem compound_selector {env : Sel.Env} : ∀ {l : List Simple}, l ≠ [] → ∀ {k : List Tok}, Read (l.flatMap Simple.items) k →
    ∀ {b : Bool} {r o : List Nd}, Sel.Spec.first r ≠ some .SCOPE → Tail env r o →
    Selector env b (k.map Nd.leaf ++ r) (k.map Nd.leaf ++ o) ∧ k.map Word.of = squeezed (l.flatMap Simple.items) ∧
      ∃ t k', k = t :: k' ∧ (t.ty = .IDENTIFIER ∨ t.ty = .HASH ∨ t.ty = .PERIOD)
  | [], h, _, _, _, _, _, _, _ => absurd rfl h
  | [s], _, k, hk, b, r, o, hr, ht => by
    rw [List.flatMap_cons, List.flatMap_nil, List.append_nil] at hk ⊢
    obtain ⟨h1, h2⟩ := simple_term (env := env) (b := b) hk hr
    exact ⟨term_tail h1 ht, h2, simple_first hk⟩
  | s :: s' :: l, _, k, hk, b, r, o, hr, ht => by
    rw [List.flatMap_cons] at hk ⊢
    obtain ⟨k1, k2, rfl, hk1, hk2⟩ := hk.append
    obtain ⟨h3, h4, t, k', rfl, h5⟩ := compound_selector (env := env) (l := s' :: l) (by simp) hk2 (b := false) hr ht
    obtain ⟨h1, h2⟩ := simple_term (env := env) (b := b) hk1 (r := (t :: k').map Nd.leaf ++ r) (first_ne h5)
    refine ⟨?_, ?_, ?_⟩
    · rw [List.map_append, List.append_assoc, List.append_assoc]
      exact term_tail h1 (.inr ⟨[], [], _, _, rfl, .none, h3, rfl⟩)
    · rw [List.map_append, squeezed_append, h2, h4]
    · obtain ⟨u, v, rfl, h6⟩ := simple_first hk1
      exact ⟨u, _, rfl, h6⟩

theorem gap_ws {g : List Tok} (hg : Gap g) : Ws (g.map Nd.leaf) := by
  rcases gap_map hg with e | ⟨c, e, h⟩
  · rw [e]; exact .none
  · rw [e]; exact .one c h

/-- A combinator: the tokens, and what is written. -/
theorem comb_sep {c : Comb} {k : List Tok} (hk : Read c.items k) :
    ∃ k' : List Tok, Sep (k.map Nd.leaf) (k'.map Nd.leaf) ∧ k'.map Word.of = squeezed c.items ∧
      (∀ t ∈ k', t.ty ≠ .HASH) ∧ (∃ t l, k = t :: l ∧ t.ty ≠ .SCOPE) := by
  have op : ∀ {ty : NT} {k : List Tok}, Sel.Spec.Combinator ty → Read [.opt, mark ty, .opt] k →
      ∃ k' : List Tok, Sep (k.map Nd.leaf) (k'.map Nd.leaf) ∧ k'.map Word.of = [{ ty := ty }] ∧ (∀ t ∈ k', t.ty ≠ .HASH) ∧
        (∃ t l, k = t :: l ∧ t.ty ≠ .SCOPE) := by
    intro ty k hty hk
    obtain ⟨g, k, rfl, hg, hk⟩ := Read.opt hk
    obtain ⟨t, k, rfl, ht, hk⟩ := Read.word hk
    obtain ⟨g', k, rfl, hg', hk⟩ := Read.opt hk
    rw [hk.nil, List.append_nil]
    have ety : t.ty = ty := congrArg Word.ty ht
    refine ⟨[t], ?_, by rw [List.map_singleton, ht], ?_, ?_⟩
    · have : Sel.Spec.Combinator (Nd.leaf t).ty := by rw [show (Nd.leaf t).ty = t.ty from rfl, ety]; exact hty
      have := Sep.op (c := Nd.leaf t) (gap_ws hg) (gap_ws hg') this
      simpa using this
    · intro x hx
      rw [List.mem_singleton] at hx
      rw [hx, ety]
      rcases hty with h | h | h <;> rw [h] <;> simp
    · rcases hg.ty with rfl | ⟨w, rfl, hw⟩
      · refine ⟨t, g', rfl, ?_⟩
        rw [ety]
        rcases hty with h | h | h <;> rw [h] <;> simp
      · exact ⟨w, t :: g', rfl, by rw [hw]; simp⟩
  cases c with
  | desc =>
    obtain ⟨t, k, rfl, ht, hk⟩ := Read.must hk
    rw [hk.nil]
    have ety : t.ty = .WHITESPACE := congrArg Word.ty ht
    refine ⟨[t], .space ety, by rw [List.map_singleton, ht]; rfl, ?_, ⟨t, [], rfl, by rw [ety]; simp⟩⟩
    intro x hx
    rw [List.mem_singleton] at hx
    rw [hx, ety]; simp
  | child => exact op (.inl rfl) hk
  | next => exact op (.inr (.inl rfl)) hk
  | sibling => exact op (.inr (.inr rfl)) hk

/-- The other compounds. -/
theorem more_selector {env : Sel.Env} : ∀ {l : List (Comb × List Simple)}, (∀ p ∈ l, Compound p.2) → ∀ {k : List Tok},
    Read (l.flatMap (fun p => p.1.items ++ p.2.flatMap Simple.items)) k →
    ∃ k' : List Tok, Tail env (k.map Nd.leaf) (k'.map Nd.leaf) ∧
      k'.map Word.of = squeezed (l.flatMap (fun p => p.1.items ++ p.2.flatMap Simple.items)) ∧
      Sel.Spec.first (k.map Nd.leaf) ≠ some .SCOPE
  | [], _, k, hk => by
    rw [hk.nil]
    exact ⟨[], .inl ⟨rfl, rfl⟩, rfl, by simp [Sel.Spec.first]⟩
  | p :: l, h, k, hk => by
    rw [List.flatMap_cons] at hk ⊢
    obtain ⟨k0, k2, rfl, hk0, hk2⟩ := hk.append
    obtain ⟨k0, k1, rfl, hk0, hk1⟩ := hk0.append
    obtain ⟨m, i1, i2, i3⟩ := more_selector (env := env) (l := l) (fun q hq => h q (by simp [hq])) hk2
    obtain ⟨h1, h2, _⟩ := compound_selector (env := env) (h p (by simp)).1 hk1 (b := false) i3 i1
    obtain ⟨c, j1, j2, _, t, l', rfl, j4⟩ := comb_sep hk0
    refine ⟨c ++ (k1 ++ m), .inr ⟨_, _, _, _, ?_, j1, h1, ?_⟩, ?_, ?_⟩
    · simp
    · simp
    · rw [List.map_append, List.map_append, j2, h2, i2, squeezed_append, squeezed_append]
      simp
    · show some t.ty ≠ _
      simpa using j4

/-- The #id of a list of tokens. -/
theorem ids_leaves (k : List Tok) : Sel.Spec.ids (k.map Nd.leaf) = (k.map Word.of).filterMap
    (fun w => if w.ty = .HASH then some w.str else none) := by
  unfold Sel.Spec.ids
  induction k with
  | nil => rfl
  | cons t k ih =>
    rw [List.map_cons, List.map_cons, List.filter_cons, List.filterMap_cons]
    by_cases h : t.ty = .HASH
    · rw [if_pos (decide_eq_true (show (Nd.leaf t).ty = .HASH from h)), List.map_cons, ih, if_pos (show (Word.of t).ty = .HASH from h)]
      rfl
    · rw [if_neg (show ¬ decide ((Nd.leaf t).ty = .HASH) = true from fun e => h (of_decide_eq_true e)), ih, if_neg (show ¬ (Word.of t).ty = .HASH from h)]

theorem ids_simples (l : List Simple) : (squeezed (l.flatMap Simple.items)).filterMap
    (fun w => if w.ty = .HASH then some w.str else none) = ids l := by
  induction l with
  | nil => rfl
  | cons s l ih =>
    rw [List.flatMap_cons, squeezed_append, List.filterMap_append, ih]
    cases s <;> rfl

theorem ids_more (l : List (Comb × List Simple)) :
    (squeezed (l.flatMap (fun p => p.1.items ++ p.2.flatMap Simple.items))).filterMap
      (fun w => if w.ty = .HASH then some w.str else none) = ids (l.flatMap (·.2)) := by
  have ids_append : ∀ a b : List Simple, ids (a ++ b) = ids a ++ ids b := fun a b => List.filterMap_append
  induction l with
  | nil => rfl
  | cons p l ih =>
    rw [List.flatMap_cons, squeezed_append, squeezed_append, List.filterMap_append, List.filterMap_append, ih, ids_simples,
      List.flatMap_cons, ids_append]
    have : (squeezed p.1.items).filterMap (fun w => if w.ty = .HASH then some w.str else none) = [] := by
      cases p.1 <;> rfl
    rw [this, List.nil_append]

theorem no_errors {k : List Nd} (h : (Sel.Spec.ids k).Nodup) : Sel.hashErrors [] k = [] := by
  apply List.eq_nil_iff_forall_not_mem.2
  intro x hx
  have h1 := Sel.hashErrors_count x k []
  have h2 := List.count_pos_iff.2 hx
  have h3 := h.count (a := x)
  simp at h1
  split at h3 <;> omega

/-- A selector is accepted, and is written without the blanks that are not needed. -/
theorem selector_of {env : Sel.Env} {s : Sel} (hs : s.Ok) {k : List Tok} (hk : Read s.items k) :
    ∃ k' : List Tok, Selector env true (k.map Nd.leaf) (k'.map Nd.leaf) ∧ k'.map Word.of = squeezed s.items ∧
      Sel.hashErrors [] (k'.map Nd.leaf) = [] := by
  obtain ⟨h1, h2, h3⟩ := hs
  obtain ⟨k1, k2, rfl, hk1, hk2⟩ := Read.append (a := s.first.flatMap Simple.items) hk
  obtain ⟨m, i1, i2, i3⟩ := more_selector (env := env) h2 hk2
  obtain ⟨j1, j2, _⟩ := compound_selector (env := env) h1.1 hk1 (b := true) i3 i1
  have e : (k1 ++ m).map Word.of = squeezed s.items := by
    rw [List.map_append, j2, i2, ← squeezed_append]
    rfl
  refine ⟨k1 ++ m, by rw [List.map_append, List.map_append]; exact j1, e, no_errors ?_⟩
  rw [ids_leaves, e]
  unfold Sel.items
  rw [squeezed_append, List.filterMap_append, ids_simples, ids_more]
  have ids_append : ∀ a b : List Simple, ids (a ++ b) = ids a ++ ids b := fun a b => List.filterMap_append
  rw [← ids_append]
  exact h3

end Csspp.Spec.Plain
