import Verif.Lemmas.VarsStep
import Verif.Spec.Assign

/-!
C59: variables are set and used.
-/

namespace Csspp.Vars
open Csspp.Parse (Nd)
open Csspp.Lex (Tok Pos)
open Csspp.Spec

theorem flags_eq : ∀ vs : List Nd, (flags vs).kids = vs.filter (fun c => ¬ AnyFlag c) ∧
    ((flags vs).global = true ↔ ∃ c ∈ vs, IsFlag b!"global" c) ∧
    ((flags vs).default_ = true ↔ ∃ c ∈ vs, IsFlag b!"default" c) ∧
    ((flags vs).notAtEnd = true ↔ Late vs)
  | [] => by
    refine ⟨rfl, by simp [flags], by simp [flags], ?_⟩
    simp only [flags]
    refine ⟨by simp, ?_⟩
    rintro ⟨a, f, b, c, h, _⟩
    cases a <;> cases h
  | c :: vs => by
    obtain ⟨h1, h2, h3, h4⟩ := flags_eq vs
    have hlate : Late (c :: vs) ↔ Late vs ∨ (AnyFlag c ∧ (vs.filter (fun c => ¬ AnyFlag c)) ≠ []) := by
      constructor
      · rintro ⟨a, f, b, x, h, hf, hx, hnx⟩
        cases a with
        | nil =>
          cases h
          refine .inr ⟨hf, fun he => ?_⟩
          have : x ∈ vs.filter (fun c => ¬ AnyFlag c) := List.mem_filter.2 ⟨hx, by simpa using hnx⟩
          rw [he] at this
          cases this
        | cons y a =>
          cases h
          exact .inl ⟨a, f, b, x, rfl, hf, hx, hnx⟩
      · rintro (⟨a, f, b, x, h, hf, hx, hnx⟩ | ⟨hf, hne⟩)
        · exact ⟨c :: a, f, b, x, by rw [h]; rfl, hf, hx, hnx⟩
        · obtain ⟨x, hx⟩ := List.exists_mem_of_ne_nil _ hne
          obtain ⟨hx, hnx⟩ := List.mem_filter.1 hx
          exact ⟨[], c, vs, x, rfl, hf, hx, by simpa using hnx⟩
    have hempty : ∀ l : List Nd, (!l.isEmpty) = true ↔ l ≠ [] := by intro l; cases l <;> simp
    have hgd : ∀ c : Nd, IsFlag b!"global" c → ¬ IsFlag b!"default" c := by
      rintro c ⟨_, hg⟩ ⟨_, hd⟩
      rw [hg] at hd
      exact absurd hd (by decide)
    have hdg : ∀ c : Nd, IsFlag b!"default" c → ¬ IsFlag b!"global" c := fun c h h' => hgd c h' h
    rw [hlate]
    unfold flags flagStep
    by_cases hg : IsFlag b!"global" c
    · have ha : AnyFlag c := .inl hg
      rw [if_pos (show c.ty = .EXCLAMATION ∧ c.tok.str = strGlobal from hg), List.filter_cons_of_neg (by simpa using ha)]
      refine ⟨h1, ⟨fun _ => ⟨c, by simp, hg⟩, fun _ => rfl⟩, ?_, ?_⟩
      · dsimp only
        rw [h3]
        simp [hgd c hg]
      · dsimp only
        rw [Bool.or_eq_true, h4, hempty, h1]
        simp only [ha, true_and]
    · rw [if_neg (show ¬ (c.ty = .EXCLAMATION ∧ c.tok.str = strGlobal) from hg)]
      by_cases hd : IsFlag b!"default" c
      · have ha : AnyFlag c := .inr hd
        rw [if_pos (show c.ty = .EXCLAMATION ∧ c.tok.str = strDefault from hd), List.filter_cons_of_neg (by simpa using ha)]
        refine ⟨h1, ?_, ⟨fun _ => ⟨c, by simp, hd⟩, fun _ => rfl⟩, ?_⟩
        · dsimp only
          rw [h2]
          simp [hg]
        · dsimp only
          rw [Bool.or_eq_true, h4, hempty, h1]
          simp only [ha, true_and]
      · have ha : ¬ AnyFlag c := by exact fun h => h.elim hg hd
        rw [if_neg (show ¬ (c.ty = .EXCLAMATION ∧ c.tok.str = strDefault) from hd), List.filter_cons_of_pos (by simpa using ha)]
        refine ⟨by rw [h1], ?_, ?_, ?_⟩
        · rw [h2]; simp [hg]
        · rw [h3]; simp [hd]
        · rw [h4]; simp [ha]

theorem valueOf_eq (pos : Pos) (vs : List Nd) : valueOf pos (flags vs).kids = assigned pos vs := by
  rw [(flags_eq vs).1]
  unfold valueOf assigned
  generalize vs.filter (fun c => ¬ AnyFlag c) = kids
  match kids with
  | [] => rfl
  | [c] => rfl
  | a :: b :: l => rfl

/-- C59: `$x: value` sets the variable: in the innermost block, or in the root with !global; not at all with !default
when it already has a value. The flags are removed from the value wherever they are, with a warning when they are
not at the end. -/
theorem C59_set (E : Env) (t var colon : Tok) (w1 w2 : Option Tok) (vs : List Nd) (s : St) (hp : ∀ c ∈ vs, Plain c)
    (hw : vs.head?.map Nd.ty ≠ some .WHITESPACE) (h3 : w1.isSome ∨ w2.isSome ∨ vs ≠ []) :
    ∃ s1, (s1.scopes = s.scopes ∧ s1.root = s.root ∧ (Late vs → s1.errs = (.flagNotAtEnd, t.pos) :: s.errs) ∧
        (¬ Late vs → s1.errs = s.errs)) ∧
      ((∃ c ∈ vs, IsFlag b!"default" c) ∧ (s.get var.str).isSome = true →
        Gives (fun f => replaceVars E f (setNode t var colon w1 w2 vs)) s (.ok none s1)) ∧
      (¬ ((∃ c ∈ vs, IsFlag b!"default" c) ∧ (s.get var.str).isSome = true) → ∀ g : Bool,
        (g = true ↔ ∃ c ∈ vs, IsFlag b!"global" c) →
        Gives (fun f => replaceVars E f (setNode t var colon w1 w2 vs)) s
          (.ok none (s1.put ⟨.leaf { var with ty := .VARIABLE }, assigned t.pos vs⟩ g))) := by
  obtain ⟨f1, f2, f3, f4⟩ := flags_eq vs
  have hkids : ∀ c ∈ (w1.toList.map (fun w => Nd.leaf { w with ty := .WHITESPACE }) ++
      .leaf { colon with ty := .COLON } :: (w2.toList.map (fun w => .leaf { w with ty := .WHITESPACE }) ++ vs)), Plain c := by
    have leaf : ∀ t : Tok, t.ty = .WHITESPACE ∨ t.ty = .COLON → Plain (.leaf t) := by
      intro t ht
      refine .mk _ _ ?_ ?_ ?_ ?_ ?_ (by simp)
      all_goals (rcases ht with h | h <;> rw [h] <;> simp)
    intro c hc
    simp only [List.mem_append, List.mem_map, List.mem_cons] at hc
    rcases hc with ⟨w, _, rfl⟩ | rfl | ⟨w, _, rfl⟩ | hc
    · exact leaf _ (.inl rfl)
    · exact leaf _ (.inr rfl)
    · exact leaf _ (.inl rfl)
    · exact hp c hc
  have hafter : afterColon (w1.toList.map (fun w => Nd.leaf { w with ty := .WHITESPACE }) ++
      .leaf { colon with ty := .COLON } :: (w2.toList.map (fun w => .leaf { w with ty := .WHITESPACE }) ++ vs)) = some vs := by
    have hskip : skipSpace vs = vs := by
      unfold skipSpace
      cases vs with
      | nil => rfl
      | cons c cs => exact if_neg (fun h => hw (by show some c.ty = _; rw [h]))
    have h2 : skipSpace (w2.toList.map (fun w => Nd.leaf { w with ty := .WHITESPACE }) ++ vs) = vs := by
      cases w2 with
      | none => exact hskip
      | some w => rfl
    unfold afterColon
    cases w1 with
    | none =>
      show (match Nd.leaf { colon with ty := .COLON } :: (w2.toList.map (fun w => Nd.leaf { w with ty := .WHITESPACE }) ++ vs) with
        | [] => none
        | d :: ds => if d.ty = .COLON then some (skipSpace ds) else none) = some vs
      dsimp only
      rw [if_pos (show (Nd.leaf _).ty = NT.COLON from rfl), h2]
    | some w =>
      show (match Nd.leaf { colon with ty := .COLON } :: (w2.toList.map (fun w => Nd.leaf { w with ty := .WHITESPACE }) ++ vs) with
        | [] => none
        | d :: ds => if d.ty = .COLON then some (skipSpace ds) else none) = some vs
      dsimp only
      rw [if_pos (show (Nd.leaf _).ty = NT.COLON from rfl), h2]
  have hset : isVarSet (setNode t var colon w1 w2 vs) = true := by
    unfold isVarSet setNode isSet
    cases w1 with
    | none =>
      cases w2 with
      | none =>
        cases vs with
        | nil => simp at h3
        | cons c cs => rfl
      | some w => rfl
    | some w => rfl
  have hl := loop_plain E .COMPONENT_VALUE [.leaf { var with ty := .VARIABLE }] _ hkids
    (fun c hc s => C53_plain E c (hkids c hc) s) s
  have key : ∀ r, setVariable (setNode t var colon w1 w2 vs) s = .ok () r →
      Gives (fun f => replaceVars E f (setNode t var colon w1 w2 vs)) s (.ok none r) := by
    intro r hr
    refine gives_succ (gives_bind (f := fun _ k => setVariable (.mk { t with ty := .COMPONENT_VALUE } k) >>= fun _ => pure none) hl
      ⟨0, fun g _ => ?_⟩) (fun g => ?_)
    · show (setVariable (setNode t var colon w1 w2 vs) >>= fun _ => pure none) s = _
      rw [bind_apply, hr]
      rfl
    · have e1 : isScope (setNode t var colon w1 w2 vs) = false := rfl
      have e3 : firstIdx (setNode t var colon w1 w2 vs) = 1 := by unfold firstIdx; rw [hset]; rfl
      have ht' : (setNode t var colon w1 w2 vs).ty = .COMPONENT_VALUE := rfl
      conv => lhs; rw [replaceVars]
      rw [ht', if_neg (by simp), if_neg (by simp [walks]), if_neg (by simp), e1, hset, e3]
      simp only [bind_apply, enter, leave]
      rfl
  let s1 : St := { s with errs := if (flags vs).notAtEnd then (.flagNotAtEnd, t.pos) :: s.errs else s.errs }
  have hrun : setVariable (setNode t var colon w1 w2 vs) s =
      if (flags vs).default_ = true ∧ (s.get var.str).isSome = true then .ok () s1
      else .ok () (s1.put ⟨.leaf { var with ty := .VARIABLE }, assigned t.pos vs⟩ (flags vs).global) := by
    have hrep : reportIf (flags vs).notAtEnd .flagNotAtEnd t.pos s = .ok () s1 := by
      unfold reportIf
      cases hn : (flags vs).notAtEnd
      · show R.ok () s = .ok () _
        simp only [s1, hn]
        rfl
      · simp only [s1, hn]
        rfl
    unfold setVariable setNode
    dsimp only [Parse.Nd.kids, Parse.Nd.tok]
    rw [hafter]
    show (reportIf (flags vs).notAtEnd .flagNotAtEnd t.pos >>= fun _ => _) s = _
    rw [bind_apply, hrep]
    dsimp only
    show (get var.str >>= fun old => _) s1 = _
    rw [bind_apply]
    show (if (flags vs).default_ = true ∧ (s.get var.str).isSome = true then pure () else _ : M Unit) s1 = _
    by_cases hd : (flags vs).default_ = true ∧ (s.get var.str).isSome = true
    · rw [if_pos hd, if_pos hd]; rfl
    · rw [if_neg hd, if_neg hd, valueOf_eq]
      rfl
  refine ⟨s1, ⟨rfl, rfl, ?_, ?_⟩, ?_, ?_⟩
  · intro h
    simp only [s1, f4.2 h, if_true]
  · intro h
    have : (flags vs).notAtEnd = false := by
      cases hn : (flags vs).notAtEnd
      · rfl
      · exact absurd (f4.1 hn) h
    simp only [s1, this]
    rfl
  · rintro ⟨h1, h2⟩
    exact key s1 (by rw [hrun, if_pos ⟨f3.2 h1, h2⟩])
  · intro h g hg
    have e : (flags vs).global = g := by
      rw [Bool.eq_iff_iff, f2, hg]
    refine key _ (by rw [hrun, if_neg (fun h' => h ⟨f3.1 h'.1, h'.2⟩), e])

/-! ### What a variable holds after it was set -/

theorem findVar_put (v : Var) (name : Str) : ∀ l : List Var,
    findVar name (putVar v l) = if v.key = name then some v else findVar name l
  | [] => by
    unfold putVar findVar
    by_cases h : v.key = name
    · rw [if_pos h, if_pos h]
    · rw [if_neg h, if_neg h]; rfl
  | w :: l => by
    have ih := findVar_put v name l
    unfold putVar
    by_cases hw : w.key = v.key
    · rw [if_pos hw]
      by_cases h : v.key = name
      · rw [if_pos h, findVar, if_pos h]
      · rw [if_neg h, findVar, if_neg h]
        conv => rhs; rw [findVar]
        rw [if_neg (by rw [hw]; exact h)]
    · rw [if_neg hw, findVar, findVar]
      by_cases h : v.key = name
      · rw [if_neg (by rw [← h]; exact hw), ih, if_pos h, if_pos h]
      · rw [ih, if_neg h]
        split <;> rfl

/-- C59: a variable set without !global has its value, and the other variables keep theirs. -/
theorem C59_get_local (s : St) (v : Var) (name : Str) :
    (s.put v false).get name = if v.key = name then some v else s.get name := by
  unfold St.put St.get
  rw [if_neg (by simp)]
  cases hs : s.scopes with
  | nil =>
    exact findVar_put v name s.root
  | cons b bs =>
    dsimp only
    unfold findScopes
    rw [findVar_put]
    by_cases h : v.key = name
    · rw [if_pos h, if_pos h]
    · rw [if_neg h, if_neg h]

theorem findScopes_root (name : Str) (r r' : List Var) (h : findVar name r' = findVar name r) : ∀ l : List (List Var),
    findScopes name l r' = findScopes name l r
  | [] => h
  | b :: bs => by
    unfold findScopes
    cases findVar name b with
    | some v => rfl
    | none => exact findScopes_root name r r' h bs

/-- C59: with !global it has its value wherever no enclosing block has one of its own; nothing else changes. -/
theorem C59_get_global (s : St) (v : Var) (name : Str) :
    (v.key ≠ name → (s.put v true).get name = s.get name) ∧
    (∀ w, (∃ b ∈ s.scopes, (findVar name b).isSome = true) → s.get name = some w → (s.put v true).get name = some w) ∧
    (v.key = name → (∀ b ∈ s.scopes, findVar name b = none) → (s.put v true).get name = some v) := by
  have e : (s.put v true).get name = findScopes name s.scopes (putVar v s.root) := rfl
  refine ⟨fun h => ?_, fun w hb hw => ?_, fun h hb => ?_⟩
  · rw [e]
    exact findScopes_root _ _ _ (by rw [findVar_put, if_neg h]) _
  · rw [e]
    clear e
    unfold St.get at hw
    generalize putVar v s.root = r at *
    generalize s.scopes = l at *
    induction l with
    | nil => obtain ⟨b, hb, _⟩ := hb; cases hb
    | cons b bs ih =>
      unfold findScopes at hw ⊢
      cases hf : findVar name b with
      | some x => rw [hf] at hw; exact hw
      | none =>
        rw [hf] at hw
        obtain ⟨b', hb', hs⟩ := hb
        rcases List.mem_cons.1 hb' with rfl | hb'
        · rw [hf] at hs; cases hs
        · exact ih ⟨b', hb', hs⟩ hw
  · rw [e]
    clear e
    generalize s.scopes = l at *
    induction l with
    | nil => show findVar name (putVar v s.root) = _; rw [findVar_put, if_pos h]
    | cons b bs ih =>
      unfold findScopes
      rw [hb b (by simp)]
      exact ih (fun b h => hb b (by simp [h]))

/-! ### The use of a variable -/

theorem insertAll_mid' (d cs l : List Nd) (h : ∀ c ∈ cs, c.ty ≠ .EOF_TOKEN ∧ (c.ty = .WHITESPACE → l ≠ [])) :
    insertAll (d ++ l) d.length cs = some (d ++ (cs ++ l)) := by
  induction cs generalizing d with
  | nil => rfl
  | cons c cs ih =>
    have hc := h c (by simp)
    have e : insertChild (d ++ l) d.length c = some ((d ++ [c]) ++ l) := by
      unfold insertChild
      cases l with
      | nil =>
        rw [if_pos (by simp)]
        unfold Parse.push
        rw [if_pos ⟨hc.1, .inl (fun h => hc.2 h rfl)⟩]
        simp
      | cons x l =>
        rw [if_neg (by simp), if_neg (by simp), if_pos hc.1]
        simp
    unfold insertAll
    rw [e]
    dsimp only
    have := ih (d ++ [c]) (fun c hc => h c (by simp [hc]))
    rw [List.length_append, List.length_singleton] at this
    rw [this]
    simp

theorem insertValue_eq (p : NT) (k : List Nd) (i : Nat) (v : Nd) : insertValue p k i v = insertAll k i (spliced p v) := by
  unfold insertValue spliced
  by_cases h1 : v.ty = .LIST ∨ v.ty = .OPEN_CURLYBRACKET
  · rw [if_pos h1, if_pos h1]
    split
    · rename_i cv hk
      rw [hk]
      dsimp only
      split <;> rfl
    · rename_i hk
      cases hv : v.kids with
      | nil => rfl
      | cons a l =>
        cases l with
        | nil => exact absurd hv (hk a)
        | cons b l => rfl
  · rw [if_neg h1, if_neg h1]
    by_cases h2 : v.ty = .OPEN_PARENTHESIS ∨ v.ty = .OPEN_SQUAREBRACKET
    · rw [if_pos h2, if_pos h2]
    · rw [if_neg h2, if_neg h2]
      by_cases h3 : v.ty = .NULL_TOKEN ∨ v.ty = .WHITESPACE
      · rw [if_pos h3, if_pos h3]; rfl
      · rw [if_neg h3, if_neg h3]
        unfold insertAll
        cases insertChild k i v <;> rfl

theorem to_variable {E : Env} {p : NT} {d l : List Nd} {n : Nd} (hn : n.ty = .VARIABLE) {s s' : St} {k' : List Nd}
    (h : ∀ g, replaceVariable E (g + 1) p (d ++ l) n d.length s = .ok k' s') :
    To E p (d ++ n :: l) d.length s k' d.length s' := by
  intro r _ hg
  have h' : Gives (fun f => replaceVariable E f p (d ++ l) n d.length) s (.ok k' s') := by
    refine ⟨1, fun g hg => ?_⟩
    obtain ⟨g, rfl⟩ : ∃ k, g = k + 1 := ⟨g - 1, by omega⟩
    exact h g
  refine gives_succ (gives_bind (f := fun f v => loop E f p v d.length) h' hg) (fun g => ?_)
  conv => lhs; rw [loop, show (d ++ n :: l)[d.length]? = some n by simp]
  dsimp only
  rw [if_pos hn, erase_mid]
where
  erase_mid {d l : List Nd} {n : Nd} : (d ++ n :: l).eraseIdx d.length = d ++ l := by
    rw [List.eraseIdx_append_of_length_le (Nat.le_refl _)]
    simp

/-- C59: the use of a variable is replaced by its value: a list or a block by its children (when it is one value in a value,
by the children of that), parentheses and square brackets are removed, null is nothing. -/
theorem C59_use {E : Env} {p : NT} {n : Nd} (hn : n.ty = .VARIABLE) {s : St} {v : Var} (hv : s.get n.tok.str = some v)
    (hf : v.name.ty ≠ .FUNCTION ∧ v.name.ty ≠ .VARIABLE_FUNCTION) (d l : List Nd)
    (hs : ∀ c ∈ spliced p v.value, c.ty ≠ .EOF_TOKEN ∧ (c.ty = .WHITESPACE → l ≠ [])) :
    To E p (d ++ n :: l) d.length s (d ++ (spliced p v.value ++ l)) d.length s := by
  refine to_variable hn (fun g => ?_)
  have e1 : isFunction v.name = false := by unfold isFunction; simp [hf]
  have e2 : isFunction n = false := by unfold isFunction; rw [hn]; rfl
  rw [replaceVariable, bind_apply]
  show (match s.get n.tok.str with | none => _ | some v => _ : M _) s = _
  rw [hv]
  dsimp only
  rw [e1, e2, if_neg (by simp), if_neg (by simp), insertValue_eq, insertAll_mid' _ _ _ hs]
  rfl

/-- C59: a value with nothing for the preprocessor in it is not looked at again. -/
theorem C59_use_plain {E : Env} {p : NT} {n : Nd} (hn : n.ty = .VARIABLE) {s : St} {v : Var} (hv : s.get n.tok.str = some v)
    (hf : v.name.ty ≠ .FUNCTION ∧ v.name.ty ≠ .VARIABLE_FUNCTION) (d l : List Nd)
    (hs : ∀ c ∈ spliced p v.value, c.ty ≠ .EOF_TOKEN ∧ (c.ty = .WHITESPACE → l ≠ [])) (hp : ∀ c ∈ spliced p v.value, Plain c) :
    To E p (d ++ n :: l) d.length s (d ++ (spliced p v.value ++ l)) (d.length + (spliced p v.value).length) s :=
  (C59_use hn hv hf d l hs).trans (to_plains d _ l hp s)

/-- C59: the use of a variable that is not set is removed, with an error unless undefined variables are said to be empty. -/
theorem C59_unset {E : Env} {p : NT} {n : Nd} (hn : n.ty = .VARIABLE) {s : St} (hv : s.get n.tok.str = none) (d l : List Nd) :
    To E p (d ++ n :: l) d.length s (d ++ l) d.length
      (if E.emptyOnUndefined then s else { s with errs := (.notSet, n.tok.pos) :: s.errs }) := by
  refine to_variable hn (fun g => ?_)
  rw [replaceVariable, bind_apply]
  show (match s.get n.tok.str with | none => _ | some v => _ : M _) s = _
  rw [hv]
  dsimp only
  cases E.emptyOnUndefined <;> rfl

/-- C59: a function used without its arguments is removed, with an error. -/
theorem C59_needs_call {E : Env} {p : NT} {n : Nd} (hn : n.ty = .VARIABLE) {s : St} {v : Var} (hv : s.get n.tok.str = some v)
    (hf : v.name.ty = .FUNCTION ∨ v.name.ty = .VARIABLE_FUNCTION) (d l : List Nd) :
    To E p (d ++ n :: l) d.length s (d ++ l) d.length { s with errs := (.needsCall, n.tok.pos) :: s.errs } := by
  refine to_variable hn (fun g => ?_)
  have e1 : isFunction v.name = true := by unfold isFunction; simp [hf]
  have e2 : isFunction n = false := by unfold isFunction; rw [hn]; rfl
  rw [replaceVariable, bind_apply]
  show (match s.get n.tok.str with | none => _ | some v => _ : M _) s = _
  rw [hv]
  dsimp only
  rw [e1, e2, if_pos rfl, if_pos rfl]
  rfl

/-- C59, the defect: a list which starts with a space, used last in a node that has a space before it: an exception. -/
theorem C59_overflow {E : Env} {p : NT} {n : Nd} (hn : n.ty = .VARIABLE) {s : St} {v : Var} (hv : s.get n.tok.str = some v)
    (hf : v.name.ty ≠ .FUNCTION ∧ v.name.ty ≠ .VARIABLE_FUNCTION) (d : List Nd) {w w' a : Nd} {m : List Nd}
    (hw : w.ty = .WHITESPACE) (hw' : w'.ty = .WHITESPACE) (hs : spliced p v.value = w' :: a :: m) :
    Gives (fun f => loop E f p (d ++ [w] ++ [n]) (d ++ [w]).length) s .throws := by
  have e1 : isFunction v.name = false := by unfold isFunction; simp [hf]
  have e2 : isFunction n = false := by unfold isFunction; rw [hn]; rfl
  have hi : insertValue p (d ++ [w]) (d ++ [w]).length v.value = none := by
    rw [insertValue_eq, hs]
    unfold insertAll
    have : insertChild (d ++ [w]) (d ++ [w]).length w' = some (d ++ [w]) := by
      unfold insertChild
      rw [if_pos rfl]
      unfold Parse.push
      rw [if_neg]
      rintro ⟨_, h | h | h⟩
      · exact h hw'
      · simp at h
      · apply h; simp [hw]
    rw [this]
    dsimp only
    unfold insertAll
    have : insertChild (d ++ [w]) ((d ++ [w]).length + 1) a = none := by
      unfold insertChild
      rw [if_neg (by omega), if_pos (by omega)]
    rw [this]
  refine ⟨2, fun g hg => ?_⟩
  obtain ⟨g, rfl⟩ : ∃ k, g = k + 2 := ⟨g - 2, by omega⟩
  dsimp only
  rw [loop, show (d ++ [w] ++ [n])[(d ++ [w]).length]? = some n by simp]
  dsimp only
  rw [if_pos hn, show (d ++ [w] ++ [n]).eraseIdx (d ++ [w]).length = d ++ [w] by
    rw [List.eraseIdx_append_of_length_le (Nat.le_refl _)]; simp, bind_apply, replaceVariable, bind_apply]
  rw [show get n.tok.str s = .ok (s.get n.tok.str) s from rfl, hv]
  dsimp only
  rw [e1, e2, if_neg (by simp), if_neg (by simp), hi]
  rfl

/-! ### Concrete cases -/

/-- `$x: red !default`, with the hypotheses of C59_set. -/
def exDefault : List Nd := [exLeaf .IDENTIFIER b!"red", exLeaf .EXCLAMATION b!"default"]

example : (∀ c ∈ exDefault, Plain c) ∧ exDefault.head?.map Nd.ty ≠ some .WHITESPACE ∧ exDefault ≠ [] ∧
    (∃ c ∈ exDefault, IsFlag b!"default" c) ∧ ¬ (∃ c ∈ exDefault, IsFlag b!"global" c) ∧
    assigned exPos exDefault = exLeaf .IDENTIFIER b!"red" := by
  refine ⟨?_, by decide, by decide, by decide, by decide, rfl⟩
  intro c hc
  simp only [exDefault, List.mem_cons, List.not_mem_nil, or_false] at hc
  rcases hc with rfl | rfl <;> exact .mk _ _ (by simp) (by simp) (by simp) (by simp) (by simp) (by simp)

/-- A flag before the value. -/
example : Late [exLeaf .EXCLAMATION b!"global", exLeaf .IDENTIFIER b!"red"] :=
  ⟨[], _, [exLeaf .IDENTIFIER b!"red"], exLeaf .IDENTIFIER b!"red", rfl, by decide, by simp, by decide⟩

/-- `$x: red` was set. -/
def exVar : Var := ⟨exLeaf .VARIABLE b!"x", exLeaf .IDENTIFIER b!"red"⟩
def exSt : St := ({} : St).put exVar false

example : exSt.get b!"x" = some exVar ∧ exSt.get b!"y" = none ∧ (exVar.name.ty ≠ .FUNCTION ∧ exVar.name.ty ≠ .VARIABLE_FUNCTION) ∧
    spliced .COMPONENT_VALUE exVar.value = [exLeaf .IDENTIFIER b!"red"] := ⟨rfl, rfl, by decide, rfl⟩

/-- `$x: red !default` keeps the value set before; `$x: blue` replaces it. -/
example : (match replaceVars exEnv 9 (exNode .COMPONENT_VALUE (exLeaf .VARIABLE b!"x" :: exLeaf .COLON [] ::
      [exLeaf .IDENTIFIER b!"blue", exLeaf .EXCLAMATION b!"default"])) exSt with
    | .ok none s => (s.get b!"x").map (·.value.tok.str)
    | _ => none) = some b!"red" := by decide +kernel
example : (match replaceVars exEnv 9 (exNode .COMPONENT_VALUE (exLeaf .VARIABLE b!"x" :: exLeaf .COLON [] ::
      [exLeaf .IDENTIFIER b!"blue"])) exSt with
    | .ok none s => (s.get b!"x").map (·.value.tok.str)
    | _ => none) = some b!"blue" := by decide +kernel

/-- `$l: !default a` is set to ` a`, a list which starts with a space. -/
example : assigned exPos [exLeaf .EXCLAMATION b!"default", exLeaf .WHITESPACE [], exLeaf .IDENTIFIER b!"a"] =
    .mk { ty := .LIST, pos := exPos } [exLeaf .WHITESPACE [], exLeaf .IDENTIFIER b!"a"] := rfl
/-- Used as `b $l` it is the exception of C59_overflow. -/
example : loop exEnv 9 .COMPONENT_VALUE [exLeaf .IDENTIFIER b!"b", exLeaf .WHITESPACE [], exLeaf .VARIABLE b!"l"] 2
    (({} : St).put ⟨exLeaf .VARIABLE b!"l", exNode .LIST [exLeaf .WHITESPACE [], exLeaf .IDENTIFIER b!"a"]⟩ false) =
    .throws := rfl

end Csspp.Vars
