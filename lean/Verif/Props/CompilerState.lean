import Verif.Model.CompilerState
import Verif.Spec.Scopes
import Verif.Spec.Files

/-!
C42 (the scopes of the variables), C45 (the search of a file) and C46 (the name of an @import).
-/

namespace Csspp.Comp
open Csspp.Node Csspp.Spec

/-! ### C42: the scopes -/

theorem lookup_setKey_self (name : Str) (v : Ref) (l : List (Str × Ref)) :
    (setKey name v l).lookup name = some v := by
  induction l with
  | nil => simp [setKey]
  | cons p l ih =>
    obtain ⟨k, x⟩ := p
    rw [setKey]
    by_cases h : k = name
    · rw [if_pos h]; simp [h]
    · rw [if_neg h, List.lookup_cons]
      have : (name == k) = false := by simpa using fun e => h e.symm
      rw [this]
      exact ih

theorem lookup_setKey_other {name m : Str} (v : Ref) (l : List (Str × Ref)) (hm : m ≠ name) :
    (setKey name v l).lookup m = l.lookup m := by
  induction l with
  | nil =>
    have : (m == name) = false := by simpa using hm
    simp [setKey, List.lookup_cons, this]
  | cons p l ih =>
    obtain ⟨k, x⟩ := p
    rw [setKey]
    by_cases h : k = name
    · rw [if_pos h, List.lookup_cons, List.lookup_cons]
      have : (m == k) = false := by simpa [h] using hm
      rw [this]
    · rw [if_neg h, List.lookup_cons, List.lookup_cons, ih]

/-- Everything of a heap but the variables. -/
def shape (h : Heap) (r : Ref) : Option (NT × Bool × Lex.Pos × Str × List Ref) :=
  h[r]?.map (fun n => (n.ty, n.bool, n.pos, n.str, n.children))

theorem target_eq (h : Heap) (s : State) (g : Bool) :
    target h s g = Scopes.block (isScope h) s.parents s.root g := by
  unfold target Scopes.block Scopes.chain
  cases g
  · simp only [if_neg Bool.false_ne_true]
    rw [← List.head?_filter]
    cases s.parents.filter (isScope h) <;> rfl
  · rfl

theorem isScope_valid {h : Heap} {r : Ref} (hr : isScope h r = true) : r < h.length := by
  unfold isScope at hr
  split at hr
  · rename_i n hn; exact (List.getElem?_eq_some_iff.mp hn).1
  · exact absurd hr (by simp)

theorem target_valid {h : Heap} {s : State} (g : Bool) (hr : s.root < h.length) :
    target h s g < h.length := by
  unfold target
  split
  · exact hr
  · split
    · rename_i r hf
      exact isScope_valid (List.find?_some hf)
    · exact hr

theorem addChild_list (ty : Ref → NT) (n : Node) (hn : n.ty = .LIST) (c : Ref) (hw : ty c ≠ .WHITESPACE) :
    n.addChild ty c =
      .ok (if ty c = .EOF_TOKEN then n else { n with children := n.children ++ [c] }) := by
  unfold Node.addChild guarded
  rw [if_pos (by rw [hn]; rfl)]
  by_cases he : ty c = .EOF_TOKEN
  · rw [if_neg (fun h => h.1 he), if_pos he]
  · rw [if_pos ⟨he, .inl hw⟩, if_neg he]

theorem addChild_space (ty : Ref → NT) (n : Node) (hn : n.ty = .LIST) (x c : Ref) (hw : ty c = .WHITESPACE)
    (hc : n.children = [x]) (hx : ty x ≠ .WHITESPACE) :
    n.addChild ty c = .ok { n with children := n.children ++ [c] } := by
  unfold Node.addChild guarded
  rw [if_pos (by rw [hn]; rfl), if_pos]
  refine ⟨by rw [hw]; decide, .inr (.inr ?_)⟩
  rw [hc]
  simpa using hx

/-- The list saved by set_variable(). -/
def entry (v : Node) (name value : Ref) : Node :=
  { ty := .LIST, pos := v.pos, children := if v.ty = .EOF_TOKEN then [name] else [name, value] }

theorem setVariable_eq {h : Heap} {s : State} {name value : Ref} {g : Bool} {n v : Node}
    (hn : h[name]? = some n) (hv : h[value]? = some v) (hs : supportsString n.ty = true) :
    setVariable h s name value g =
      .ok ((h ++ [entry v name value]).modify (target (h ++ [entry v name value]) s g)
        (fun m => m.setVariable n.str h.length)) := by
  have htn : n.ty ≠ .EOF_TOKEN ∧ n.ty ≠ .WHITESPACE := by
    constructor <;> (intro e; rw [e] at hs; exact absurd hs (by decide))
  unfold setVariable
  rw [hn, hv]
  dsimp only
  unfold Node.getString guarded
  rw [if_pos hs]
  dsimp only
  rw [addChild_list _ _ rfl name (by rw [hn]; exact htn.2)]
  simp only [hn]
  rw [if_neg htn.1]
  by_cases hw : v.ty = .WHITESPACE
  · rw [addChild_space _ _ rfl name value (by rw [hv]; exact hw) rfl (by rw [hn]; exact htn.2)]
    simp [entry, hw]
  · rw [addChild_list _ _ rfl value (by rw [hv]; exact hw)]
    simp only [hv]
    by_cases he : v.ty = .EOF_TOKEN <;> simp [entry, he]

/-- The result of a successful set_variable(). -/
theorem setVariable_ok {h h' : Heap} {s : State} {name value : Ref} {g : Bool}
    (hs : setVariable h s name value g = .ok h') :
    ∃ n v l, h[name]? = some n ∧ h[value]? = some v ∧ supportsString n.ty = true ∧
      l = entry v name value ∧
      h' = (h ++ [l]).modify (target (h ++ [l]) s g) (fun m => m.setVariable n.str h.length) := by
  cases hn : h[name]? with
  | none => unfold setVariable at hs; rw [hn] at hs; cases hs
  | some n =>
    cases hv : h[value]? with
    | none => unfold setVariable at hs; rw [hn, hv] at hs; cases hs
    | some v =>
      by_cases hsup : supportsString n.ty = true
      · rw [setVariable_eq hn hv hsup] at hs
        injection hs with hs
        exact ⟨n, v, _, rfl, rfl, hsup, rfl, hs.symm⟩
      · unfold setVariable at hs
        rw [hn, hv] at hs
        dsimp only at hs
        unfold Node.getString guarded at hs
        rw [if_neg hsup] at hs
        cases hs

theorem isScope_of_shape {h h' : Heap} {r : Ref} (e : shape h r = shape h' r) :
    isScope h r = isScope h' r := by
  unfold shape at e
  unfold isScope
  cases h1 : h[r]? <;> cases h2 : h'[r]? <;> rw [h1, h2] at e <;> simp at e ⊢
  rw [e.1, e.2.1]

theorem find?_congr_left {α : Type} {p q : α → Bool} : ∀ {l : List α}, (∀ x ∈ l, p x = q x) →
    l.find? p = l.find? q
  | [], _ => rfl
  | x :: l, h => by
    rw [List.find?_cons, List.find?_cons, h x (by simp), find?_congr_left (fun y hy => h y (by simp [hy]))]

theorem isScope_append {h : Heap} {l : Node} (hl : isScope [l] 0 = false) (r : Ref) :
    isScope (h ++ [l]) r = isScope h r := by
  unfold isScope
  rcases Nat.lt_trichotomy r h.length with hr | hr | hr
  · rw [List.getElem?_append_left hr]
  · subst hr
    unfold isScope at hl
    simp at hl ⊢
    exact hl
  · rw [List.getElem?_eq_none (by simp; omega), List.getElem?_eq_none (by omega)]

/-- The variables and the rest of the heap after a successful set_variable(). -/
theorem setVariable_effect {h h' : Heap} {s : State} {name value : Ref} {g : Bool}
    (hs : setVariable h s name value g = .ok h') (hroot : s.root < h.length) :
    ∃ n v, h[name]? = some n ∧ h[value]? = some v ∧
      h'.length = h.length + 1 ∧
      shape h' h.length = some (.LIST, false, v.pos, [],
        if v.ty = .EOF_TOKEN then [name] else [name, value]) ∧
      (∀ m, varOf h' h.length m = none) ∧
      (∀ r < h.length, shape h' r = shape h r) ∧
      varOf h' (target h s g) n.str = some h.length ∧
      (∀ r m, ¬ (r = target h s g ∧ m = n.str) → varOf h' r m = varOf h r m) ∧
      target h s g < h.length := by
  obtain ⟨n, v, l, hn, hv, hsup, hl, rfl⟩ := setVariable_ok hs
  have hlty : l.ty = .LIST := by rw [hl]; rfl
  have hlb : l.bool = false := by rw [hl]; rfl
  have hlv : l.vars = [] := by rw [hl]; rfl
  have htt : target (h ++ [l]) s g = target h s g := by
    unfold target
    rw [show isScope (h ++ [l]) = isScope h from
      funext (fun r => isScope_append (by unfold isScope; simp [hlty]) r)]
  have ht : target h s g < h.length := target_valid g hroot
  rw [htt]
  have hget : ∀ r, ((h ++ [l]).modify (target h s g) (fun m => m.setVariable n.str h.length))[r]? =
      if target h s g = r then ((h ++ [l])[r]?).map (fun m => m.setVariable n.str h.length)
      else (h ++ [l])[r]? := by
    intro r
    rw [List.getElem?_modify]
    split <;> simp
  have hnew : (h ++ [l])[h.length]? = some l := by simp
  refine ⟨n, v, hn, hv, by simp, ?_, ?_, ?_, ?_, ?_, ht⟩
  · unfold shape
    rw [hget, if_neg (Nat.ne_of_lt ht), hnew, hl]
    rfl
  · intro m
    unfold varOf
    rw [hget, if_neg (Nat.ne_of_lt ht), hnew]
    simp [Node.getVariable, hlv]
  · intro r hr
    unfold shape
    rw [hget, List.getElem?_append_left hr]
    split
    · cases h[r]? <;> rfl
    · rfl
  · unfold varOf
    rw [hget, if_pos rfl, List.getElem?_append_left ht]
    have : h[target h s g]? = some h[target h s g] := List.getElem?_eq_getElem ht
    rw [this]
    exact lookup_setKey_self _ _ _
  · intro r m hrm
    unfold varOf
    rw [hget]
    split
    · rename_i e
      subst e
      rw [List.getElem?_append_left ht]
      have : h[target h s g]? = some h[target h s g] := List.getElem?_eq_getElem ht
      rw [this]
      exact lookup_setKey_other _ _ (fun e => hrm ⟨rfl, e⟩)
    · rcases Nat.lt_trichotomy r h.length with hr | hr | hr
      · rw [List.getElem?_append_left hr]
      · subst hr
        rw [hnew, List.getElem?_eq_none (by omega)]
        simp [Node.getVariable, hlv]
      · rw [List.getElem?_eq_none (by simp; omega), List.getElem?_eq_none (by omega)]

/-- get_variable() as a search in the chain of blocks. -/
theorem getVariable_eq (h : Heap) (s : State) (name : Str) (g : Bool) :
    getVariable h s name g =
      (if g then [s.root] else Scopes.chain (isScope h) s.parents s.root).findSome?
        (fun r => varOf h r name) := by
  unfold getVariable
  cases g
  · simp only [if_neg Bool.false_ne_true, Scopes.chain, List.findSome?_append]
    have key : ∀ l, searchParents h name l = (l.filter (isScope h)).findSome? (fun r => varOf h r name) := by
      intro l
      induction l with
      | nil => rfl
      | cons r l ih =>
        rw [searchParents]
        cases hr : h[r]? with
        | none =>
          have : isScope h r = false := by unfold isScope; rw [hr]
          rw [List.filter_cons_of_neg (by simp [this])]
          exact ih
        | some n =>
          dsimp only
          by_cases h1 : n.ty = .OPEN_CURLYBRACKET
          · rw [if_pos h1]
            by_cases h2 : n.bool = true
            · have : isScope h r = true := by unfold isScope; rw [hr]; simp [h1, h2]
              rw [if_pos h2, List.filter_cons_of_pos this, List.findSome?_cons]
              unfold varOf at ih ⊢
              rw [hr, Option.bind_some]
              cases n.getVariable name <;> simp [ih]
            · have : isScope h r = false := by unfold isScope; rw [hr]; simp [h2]
              rw [if_neg h2, List.filter_cons_of_neg (by simp [this]), ih]
          · have : isScope h r = false := by unfold isScope; rw [hr]; simp [h1]
            rw [if_neg h1, List.filter_cons_of_neg (by simp [this]), ih]
    rw [key]
    cases (s.parents.filter (isScope h)).findSome? (fun r => varOf h r name) <;>
      simp [List.findSome?_cons]
    cases varOf h s.root name <;> rfl
  · simp only [if_true, List.findSome?_cons]
    cases varOf h s.root name <;> rfl

/-- The states a program reaches with what it assigned on the way: blocks are entered and left,
marked as accepting variables or not, new nodes are created, variables are set. -/
inductive History : Heap → State → List Scopes.Assign → Prop
  | start (h : Heap) (s : State) : (∀ n ∈ h, n.vars = [] ∧ n.ty ≠ .EOF_TOKEN) →
      s.root < h.length → History h s []
  | push {h s log} (r : Ref) : History h s log → History h (s.pushParent r) log
  | pop {h s s' log} : History h s log → s.popParent = some s' → History h s' log
  | mark {h s log} (r : Ref) (b : Bool) : History h s log →
      History (h.modify r (fun n => { n with bool := b })) s log
  | new {h s log} (n : Node) : History h s log → n.vars = [] → n.ty ≠ .EOF_TOKEN →
      History (h ++ [n]) s log
  | set {h h' s log} (name value : Ref) (global : Bool) (n : Node) : History h s log →
      setVariable h s name value global = .ok h' → h[name]? = some n →
      History h' s
        (⟨Scopes.block (isScope h) s.parents s.root global, n.str, name, value⟩ :: log)

/-- A variable of a heap and the assignment it comes from. -/
def Saved (h : Heap) (v : Option Ref) (a : Option (Nat × Nat)) : Prop :=
  match a with
  | none => v = none
  | some (x, y) => ∃ r n, v = some r ∧ h[r]? = some n ∧ n.ty = .LIST ∧ n.children = [x, y]

theorem Saved.mono {h h' : Heap} {v a} (hs : Saved h v a)
    (hh : ∀ (r : Nat) (n : Node), h[r]? = some n → ∃ n' : Node, h'[r]? = some n' ∧ n'.ty = n.ty ∧ n'.children = n.children) :
    Saved h' v a := by
  unfold Saved at hs ⊢
  split
  · exact hs
  · obtain ⟨r, n, h1, h2, h3, h4⟩ := hs
    obtain ⟨n', e1, e2, e3⟩ := hh r n h2
    exact ⟨r, n', h1, e1, e2.trans h3, e3.trans h4⟩

theorem shape_keep {h h' : Heap} {r : Ref} (e : shape h' r = shape h r) {n : Node}
    (hn : h[r]? = some n) : ∃ n', h'[r]? = some n' ∧ n'.ty = n.ty ∧ n'.children = n.children := by
  unfold shape at e
  rw [hn] at e
  cases h2 : h'[r]? with
  | none => rw [h2] at e; simp at e
  | some n' =>
    rw [h2] at e
    simp only [Option.map_some, Option.some.injEq, Prod.mk.injEq] at e
    exact ⟨n', rfl, e.1, e.2.2.2.2⟩

theorem history_inv {h : Heap} {s : State} {log : List Scopes.Assign} (H : History h s log) :
    s.root < h.length ∧ (∀ n ∈ h, n.ty ≠ .EOF_TOKEN) ∧
    ∀ r m, Saved h (varOf h r m) (Scopes.latest log r m) := by
  induction H with
  | start h s h0 hr =>
    refine ⟨hr, fun n hn => (h0 n hn).2, fun r m => ?_⟩
    show varOf h r m = none
    unfold varOf
    cases hn : h[r]? with
    | none => rfl
    | some n =>
      rw [Option.bind_some]
      unfold Node.getVariable
      rw [(h0 n (List.mem_of_getElem? hn)).1]
      rfl
  | push r _ ih => exact ih
  | pop _ hp ih =>
    rename_i h s s' log _
    unfold State.popParent at hp
    split at hp
    · cases hp
    · cases hp; exact ih
  | mark r b _ ih =>
    rename_i h s log _
    obtain ⟨a1, a2, a3⟩ := ih
    have hget : ∀ x, (h.modify r (fun n => { n with bool := b }))[x]? =
        if r = x then h[x]?.map (fun n => { n with bool := b }) else h[x]? := by
      intro x
      rw [List.getElem?_modify]
      split <;> simp
    refine ⟨by simpa using a1, ?_, ?_⟩
    · intro n hn
      obtain ⟨x, hx⟩ := List.mem_iff_getElem?.1 hn
      rw [hget] at hx
      split at hx
      · cases hq : h[x]? with
        | none => rw [hq] at hx; simp at hx
        | some m =>
          rw [hq] at hx
          simp only [Option.map_some, Option.some.injEq] at hx
          subst hx
          exact a2 m (List.mem_of_getElem? hq)
      · exact a2 n (List.mem_of_getElem? hx)
    · intro x m
      have hv : varOf (h.modify r (fun n => { n with bool := b })) x m = varOf h x m := by
        unfold varOf
        rw [hget]
        split
        · cases h[x]? <;> rfl
        · rfl
      rw [hv]
      refine (a3 x m).mono (fun y n hy => ?_)
      rw [hget]
      split
      · exact ⟨{ n with bool := b }, by rw [hy]; rfl, rfl, rfl⟩
      · exact ⟨n, hy, rfl, rfl⟩
  | new n _ hv he ih =>
    rename_i h s log _
    obtain ⟨a1, a2, a3⟩ := ih
    refine ⟨by rw [List.length_append]; exact Nat.lt_add_right _ a1, ?_, ?_⟩
    · intro x hx
      rcases List.mem_append.1 hx with hx | hx
      · exact a2 x hx
      · rw [List.mem_singleton.1 hx]; exact he
    · intro x m
      have hv : varOf (h ++ [n]) x m = varOf h x m := by
        unfold varOf
        rcases Nat.lt_trichotomy x h.length with hr | hr | hr
        · rw [List.getElem?_append_left hr]
        · subst hr
          rw [List.getElem?_eq_none (Nat.le_refl _)]
          simp [Node.getVariable, hv]
        · rw [List.getElem?_eq_none (by simp; omega), List.getElem?_eq_none (by omega)]
      rw [hv]
      refine (a3 x m).mono (fun y k hy => ⟨k, ?_, rfl, rfl⟩)
      rw [List.getElem?_append_left (List.getElem?_eq_some_iff.mp hy).1, hy]
  | set name value global n _ hs hn ih =>
    rename_i h h' s log _
    obtain ⟨a1, a2, a3⟩ := ih
    obtain ⟨n', v, b1, b2, b3, b4, b5, b6, b7, b8, b9⟩ := setVariable_effect hs a1
    rw [hn] at b1
    cases b1
    have hve : v.ty ≠ .EOF_TOKEN := a2 v (List.mem_of_getElem? b2)
    rw [if_neg hve] at b4
    have hold : ∀ (y : Nat) (k : Node), h[y]? = some k → ∃ k' : Node, h'[y]? = some k' ∧ k'.ty = k.ty ∧ k'.children = k.children :=
      fun y k hy => shape_keep (b6 y (List.getElem?_eq_some_iff.mp hy).1) hy
    have hnew : ∃ k, h'[h.length]? = some k ∧ k.ty = .LIST ∧ k.children = [name, value] := by
      unfold shape at b4
      cases hq : h'[h.length]? with
      | none => rw [hq] at b4; simp at b4
      | some k =>
        rw [hq] at b4
        simp only [Option.map_some, Option.some.injEq, Prod.mk.injEq] at b4
        exact ⟨k, rfl, b4.1, b4.2.2.2.2⟩
    refine ⟨by rw [b3]; exact Nat.lt_succ_of_lt a1, ?_, ?_⟩
    · intro k hk
      obtain ⟨x, hx⟩ := List.mem_iff_getElem?.1 hk
      rcases Nat.lt_trichotomy x h.length with hr | hr | hr
      · obtain ⟨k', e1, e2, _⟩ := hold x _ (List.getElem?_eq_getElem hr)
        rw [hx] at e1
        cases e1
        rw [e2]
        exact a2 _ (List.getElem_mem hr)
      · subst hr
        obtain ⟨k', e1, e2, _⟩ := hnew
        rw [hx] at e1
        cases e1
        rw [e2]; decide
      · rw [List.getElem?_eq_none (by omega)] at hx; cases hx
    · intro x m
      unfold Scopes.latest
      rw [List.find?_cons]
      dsimp only
      rw [← target_eq]
      by_cases hxm : x = target h s global ∧ m = n.str
      · obtain ⟨rfl, rfl⟩ := hxm
        rw [b7]
        obtain ⟨k, e1, e2, e3⟩ := hnew
        simp only [BEq.rfl, Bool.and_self, Option.map_some]
        exact ⟨_, k, rfl, e1, e2, e3⟩
      · rw [b8 x m hxm]
        have : (target h s global == x && n.str == m) = false := by
          cases hq : (target h s global == x && n.str == m)
          · rfl
          · rw [Bool.and_eq_true, beq_iff_eq, beq_iff_eq] at hq
            exact absurd ⟨hq.1.symm, hq.2.symm⟩ hxm
        rw [this]
        exact (a3 x m).mono hold

theorem saved_findSome {h : Heap} {log : List Scopes.Assign} {m : Str}
    (a : ∀ r, Saved h (varOf h r m) (Scopes.latest log r m)) (l : List Ref) :
    Saved h (l.findSome? (fun r => varOf h r m)) (Scopes.lookup log l m) := by
  unfold Scopes.lookup
  induction l with
  | nil => rfl
  | cons r l ih =>
    rw [List.findSome?_cons, List.findSome?_cons]
    have := a r
    cases hq : Scopes.latest log r m with
    | none =>
      rw [hq] at this
      have this : varOf h r m = none := this
      rw [this]
      exact ih
    | some p =>
      rw [hq] at this
      obtain ⟨x, y⟩ := p
      obtain ⟨v, n, h1, h2⟩ := this
      rw [h1]
      exact ⟨v, n, rfl, h2⟩

/-- C42: after any history of blocks entered and left and of variables set, get_variable() returns
what was last assigned to the name in the first block of the chain that has an assignment for it
(the open blocks that accept variables, innermost first, then the root), as a list of the node of
the name and the value; and null when there is none. With global_only, only the root counts. -/
theorem C42_scopes {h : Heap} {s : State} {log : List Scopes.Assign} (H : History h s log)
    (name : Str) (globalOnly : Bool) :
    Saved h (getVariable h s name globalOnly)
      (Scopes.lookup log
        (if globalOnly then [s.root] else Scopes.chain (isScope h) s.parents s.root) name) := by
  rw [getVariable_eq]
  exact saved_findSome (fun r => (history_inv H).2.2 r name) _

/-- C42: in any heap, set_variable() with a node that has a name succeeds. -/
theorem C42_set (h : Heap) (s : State) (name value : Ref) (global : Bool) (n v : Node)
    (hn : h[name]? = some n) (hv : h[value]? = some v) :
    (∃ h', setVariable h s name value global = .ok h') ↔ supportsString n.ty = true := by
  constructor
  · rintro ⟨h', e⟩
    obtain ⟨n', _, _, e1, _, e2, _⟩ := setVariable_ok e
    rw [hn] at e1; cases e1; exact e2
  · intro hs
    exact ⟨_, setVariable_eq hn hv hs⟩

/-- C42: in any heap, whatever its variables: after a set_variable() the innermost block (the root
for !global) has the new value, a fresh list; every other variable of every block is unchanged, and
so is everything else of the heap. -/
theorem C42_frame (h h' : Heap) (s : State) (name value : Ref) (global : Bool) (n : Node)
    (hroot : s.root < h.length) (hn : h[name]? = some n)
    (hs : setVariable h s name value global = .ok h') :
    varOf h' (Scopes.block (isScope h) s.parents s.root global) n.str = some h.length ∧
    (∀ r m, (r ≠ Scopes.block (isScope h) s.parents s.root global ∨ m ≠ n.str) →
      varOf h' r m = varOf h r m) ∧
    (∀ r < h.length, shape h' r = shape h r) ∧ h'.length = h.length + 1 := by
  obtain ⟨n', v, b1, b2, b3, b4, b5, b6, b7, b8, b9⟩ := setVariable_effect hs hroot
  rw [hn] at b1; cases b1
  rw [target_eq] at b7 b8
  refine ⟨b7, fun r m hrm => b8 r m ?_, b6, b3⟩
  rintro ⟨e1, e2⟩
  rcases hrm with h | h
  · exact h e1
  · exact h e2

/-- C42: read your writes. Without !global, get_variable() just after gives the new value. -/
theorem C42_get_set (h h' : Heap) (s : State) (name value : Ref) (n : Node)
    (hroot : s.root < h.length) (hn : h[name]? = some n)
    (hs : setVariable h s name value false = .ok h') :
    getVariable h' s n.str false = some h.length := by
  obtain ⟨f1, f2, f3, f4⟩ := C42_frame h h' s name value false n hroot hn hs
  rw [getVariable_eq]
  have hsc : s.parents.filter (isScope h') = s.parents.filter (isScope h) := by
    refine List.filter_congr (fun r _ => ?_)
    rcases Nat.lt_or_ge r h.length with hr | hr
    · exact isScope_of_shape (f3 r hr)
    · obtain ⟨_, v, _, _, b3, b4, _⟩ := setVariable_effect hs hroot
      have e1 : isScope h r = false := by unfold isScope; rw [List.getElem?_eq_none hr]
      rw [e1]
      rcases Nat.eq_or_lt_of_le hr with e | e
      · subst e
        unfold shape at b4
        unfold isScope
        cases hq : h'[h.length]? with
        | none => rfl
        | some k =>
          rw [hq] at b4
          simp only [Option.map_some, Option.some.injEq, Prod.mk.injEq] at b4
          simp [b4.1]
      · unfold isScope; rw [List.getElem?_eq_none (by omega)]
  simp only [Bool.false_eq_true, if_false]
  unfold Scopes.chain Scopes.block at *
  simp only [Bool.false_eq_true, if_false] at f1
  rw [hsc]
  unfold Scopes.chain at f1
  cases hq : s.parents.filter (isScope h) with
  | nil =>
    rw [hq] at f1
    simp only [List.nil_append, List.head?_cons, Option.getD_some] at f1
    rw [List.nil_append, List.findSome?_cons, f1]
  | cons r l =>
    rw [hq] at f1
    simp only [List.cons_append, List.head?_cons, Option.getD_some] at f1
    rw [List.cons_append, List.findSome?_cons, f1]

/-- A document with two nested blocks, the outer one accepting variables, and a name. -/
def sampleScopes : Heap :=
  [ { ty := .LIST, pos := ⟨1, 1, 1⟩ },
    { ty := .OPEN_CURLYBRACKET, pos := ⟨1, 1, 1⟩, bool := true },
    { ty := .OPEN_CURLYBRACKET, pos := ⟨1, 1, 1⟩, bool := false },
    { ty := .VARIABLE, pos := ⟨1, 1, 1⟩, str := [118] },
    { ty := .INTEGER, pos := ⟨1, 1, 1⟩, int := 1 },
    { ty := .INTEGER, pos := ⟨1, 1, 1⟩, int := 2 } ]

/-- A history: a global variable, then two blocks are entered, the variable is set again, read, and
the blocks are left. -/
example : ∃ h s log, History h s log ∧ log.length = 2 ∧ s.parents = [] ∧
    getVariable h s [118] false = some 6 := by
  refine ⟨_, _, _, .pop (s' := ⟨0, [], [], false⟩) (.pop (s' := ⟨0, [1], [], false⟩)
    (.set 3 5 false _ (.push 2 (.push 1 (.set 3 4 true _ (.start sampleScopes ⟨0, [], [], false⟩
      (by decide) (by decide)) rfl rfl))) rfl rfl) rfl) rfl, rfl, rfl, by decide⟩

/-! ### C45: the search of a file -/

theorem searchPaths_eq (access : Str → Bool) (script : Str) (dirs : List Str) :
    searchPaths access script dirs = Files.first access (dirs.map (Files.inDir · script)) := by
  induction dirs with
  | nil => rfl
  | cons d dirs ih =>
    rw [searchPaths, ih]
    unfold Files.first
    rw [List.map_cons, List.find?_cons]
    show (if access (Files.inDir d script) then Files.inDir d script else _) = _
    cases h : access (Files.inDir d script) <;> simp

/-- The directories searched: the default one when none was given. -/
def dirs (s : State) : List Str := if s.paths = [] then [defaultPath] else s.paths

/-- C45: find_file() returns the first readable name among the candidates: the name itself if it is
absolute, otherwise the name in each directory, in the order they were added; "" if none is
readable. It changes nothing but the list of directories, and that only from empty to the default
directory, so it searches the same directories every time. -/
theorem C45_find (access : Str → Bool) (s : State) (script : Str) :
    (findFile access s script).1 = Files.first access (Files.candidates (dirs s) script) ∧
    dirs (findFile access s script).2 = dirs s ∧
    (findFile access s script).2 = { s with paths := (findFile access s script).2.paths } := by
  unfold findFile
  cases script with
  | nil => exact ⟨rfl, rfl, rfl⟩
  | cons c t =>
    dsimp only
    by_cases hc : c = 47
    · subst hc
      rw [if_pos rfl]
      refine ⟨?_, rfl, rfl⟩
      unfold Files.candidates Files.first
      simp only [List.cons_ne_nil, if_false, List.head?_cons, if_true, List.find?_cons]
      cases access (47 :: t) <;> rfl
    · rw [if_neg hc]
      dsimp only
      have hcd : ∀ d, Files.candidates d (c :: t) = d.map (Files.inDir · (c :: t)) := by
        intro d
        unfold Files.candidates
        rw [if_neg (List.cons_ne_nil c t), if_neg (by simpa using hc)]
      rw [hcd, searchPaths_eq]
      unfold dirs
      by_cases hp : s.paths = []
      · rw [if_pos hp, if_pos hp]
        exact ⟨rfl, rfl, rfl⟩
      · rw [if_neg hp, if_neg hp]
        exact ⟨rfl, rfl, rfl⟩

theorem first_mem {access : Str → Bool} {l : List Str} (h : Files.first access l ≠ []) :
    Files.first access l ∈ l ∧ access (Files.first access l) = true := by
  unfold Files.first at h ⊢
  cases hf : l.find? access with
  | none => rw [hf] at h; exact absurd rfl h
  | some x => exact ⟨List.mem_of_find?_eq_some hf, List.find?_some (p := access) hf⟩

/-- C45: what find_file() finds is readable; and it finds something when a candidate is readable. -/
theorem C45_readable (access : Str → Bool) (s : State) (script : Str) :
    ((findFile access s script).1 ≠ [] → access (findFile access s script).1 = true) ∧
    ((findFile access s script).1 = [] ↔ ∀ x ∈ Files.candidates (dirs s) script, access x = false) := by
  rw [(C45_find access s script).1]
  refine ⟨fun h => (first_mem h).2, ?_⟩
  have hne : ∀ x ∈ Files.candidates (dirs s) script, x ≠ [] := by
    intro x hx
    unfold Files.candidates at hx
    split at hx
    · simp at hx
    · rename_i hs
      split at hx
      · rw [List.mem_singleton.1 hx]; exact hs
      · obtain ⟨d, _, rfl⟩ := List.mem_map.1 hx
        unfold Files.inDir
        split
        · exact hs
        · simp
  unfold Files.first
  cases hf : (Files.candidates (dirs s) script).find? access with
  | none =>
    simp only [Option.getD_none, true_iff]
    intro x hx
    have := List.find?_eq_none.1 hf x hx
    simpa using this
  | some x =>
    simp only [Option.getD_some]
    constructor
    · intro e; exact absurd e (hne x (List.mem_of_find?_eq_some hf))
    · intro h
      have := h x (List.mem_of_find?_eq_some hf)
      rw [List.find?_some (p := access) hf] at this
      cases this

theorem first_append (access : Str → Bool) (l m : List Str) (hne : ∀ x ∈ l, x ≠ []) :
    Files.first access (l ++ m) =
      if Files.first access l = [] then Files.first access m else Files.first access l := by
  unfold Files.first
  rw [List.find?_append]
  cases hf : l.find? access with
  | none => simp
  | some x =>
    have := hne x (List.mem_of_find?_eq_some hf)
    simp [this]

theorem candidates_ne (d : List Str) (n : Str) : ∀ x ∈ Files.candidates d n, x ≠ [] := by
  intro x hx
  unfold Files.candidates at hx
  split at hx
  · simp at hx
  · rename_i hs
    split at hx
    · rw [List.mem_singleton.1 hx]; exact hs
    · obtain ⟨d, _, rfl⟩ := List.mem_map.1 hx
      unfold Files.inDir
      split
      · exact hs
      · simp

theorem drop_eq_scss {s : Str} (h : 5 ≤ s.length) : s.drop (s.length - 5) = scss ↔ scss <:+ s := by
  constructor
  · intro e; rw [← e]; exact List.drop_suffix _ _
  · rintro ⟨t, rfl⟩
    rw [List.length_append, show scss.length = 5 from rfl, Nat.add_sub_cancel]
    exact List.drop_left

/-- C45: the file of an @import is the first readable one of: the candidates of the name, then, for
a name of more than 5 bytes that does not end with ".scss", the candidates of the name with
".scss" appended. A name of 5 bytes or less is never completed. -/
theorem C45_import (access : Str → Bool) (s : State) (script : Str) :
    (importFile access s script).1 = Files.first access
      (Files.candidates (dirs s) script ++
        if 5 < script.length ∧ ¬ scss <:+ script then Files.candidates (dirs s) (script ++ scss)
        else []) := by
  have h1 := C45_find access s script
  have hd := h1.2.1
  rw [first_append _ _ _ (candidates_ne _ _), ← h1.1]
  unfold importFile
  rcases hf : findFile access s script with ⟨f, s'⟩
  rw [hf] at hd
  dsimp only at hd ⊢
  by_cases hn : f = []
  · by_cases hl : script.length > 5
    · rw [if_pos ⟨hn, hl⟩, if_pos hn]
      by_cases hx : scss <:+ script
      · rw [if_neg (by simpa using (drop_eq_scss (by omega)).2 hx), if_neg (fun h => h.2 hx), hn]
        rfl
      · rw [if_pos (fun e => hx ((drop_eq_scss (by omega)).1 e)), if_pos ⟨hl, hx⟩,
          (C45_find access s' (script ++ scss)).1, hd]
    · rw [if_neg (fun h => hl h.2), if_pos hn, if_neg (fun h => hl h.1), hn]
      rfl
  · rw [if_neg (fun h => hn h.1), if_neg hn]

/-- C45: the same for the script of a validation, without the limit on the length; but a name of
less than 5 bytes that is not found makes set_validation_script() throw std::out_of_range. -/
theorem C45_validation (access : Str → Bool) (s : State) (script : Str) :
    (validationFile access s script).1 =
      (let names := Files.candidates (dirs s) script ++
        if 5 ≤ script.length ∧ ¬ scss <:+ script then Files.candidates (dirs s) (script ++ scss)
        else []
       if Files.first access names ≠ [] then .found (Files.first access names)
       else if script.length < 5 then .outOfRange else .notFound) := by
  have h1 := C45_find access s script
  have hd := h1.2.1
  dsimp only
  rw [first_append _ _ _ (candidates_ne _ _), ← h1.1]
  unfold validationFile
  rcases hf : findFile access s script with ⟨f, s'⟩
  rw [hf] at hd
  dsimp only at hd ⊢
  by_cases hn : f = []
  · rw [if_neg (fun h => h hn), if_pos hn]
    by_cases hl : script.length < 5
    · have e : ¬ (5 ≤ script.length ∧ ¬ scss <:+ script) := fun h => absurd h.1 (by omega)
      rw [if_pos hl, if_neg e, if_pos hl]
      rfl
    · rw [if_neg hl, if_neg hl]
      by_cases hx : scss <:+ script
      · have e : ¬ (5 ≤ script.length ∧ ¬ scss <:+ script) := fun h => h.2 hx
        rw [if_neg (by simpa using (drop_eq_scss (by omega)).2 hx), if_neg e]
        rfl
      · have e : 5 ≤ script.length ∧ ¬ scss <:+ script := ⟨by omega, hx⟩
        rw [if_pos (fun e => hx ((drop_eq_scss (by omega)).1 e)), if_pos e, ← hd,
          ← (C45_find access s' (script ++ scss)).1]
        dsimp only
        by_cases hq : (findFile access s' (script ++ scss)).1 = []
        · rw [if_pos hq, if_neg (fun h => h hq)]
        · rw [if_neg hq, if_pos hq]
  · rw [if_pos hn, if_neg hn, if_pos hn]

/-- `@import "theme"` (5 bytes) does not find "a/theme.scss", `@import "themes"` finds
"a/themes.scss". -/
example :
    let theme : Str := [116, 104, 101, 109, 101]
    (importFile (fun n => n == 97 :: 47 :: theme ++ scss) ⟨0, [], [[97]], false⟩ theme).1 = [] ∧
    (importFile (fun n => n == 97 :: 47 :: theme ++ 115 :: scss) ⟨0, [], [[97]], false⟩
      (theme ++ [115])).1 = 97 :: 47 :: theme ++ 115 :: scss := by
  decide

/-! ### C46: what an @import names -/

theorem absolute_eq (s : Str) : absolute s = Files.path s := by
  unfold absolute Files.path
  cases s with
  | nil => rfl
  | cons c t =>
    by_cases h : c = 47 <;> simp [h]

theorem isProtocol_iff {s : Str} (h0 : 0 ∉ s) : isProtocol s = true ↔ ∀ c ∈ s, Files.letter c := by
  induction s with
  | nil => simp [isProtocol]
  | cons c s ih =>
    have hc : c ≠ 0 := fun e => h0 (by simp [e])
    rw [isProtocol, if_neg hc]
    have ih := ih (fun e => h0 (by simp [e]))
    by_cases hl : Files.letter c
    · rw [if_neg (by unfold Files.letter at hl; omega), ih]
      simp [hl]
    · rw [if_pos (by unfold Files.letter at hl; omega)]
      simp [hl]

theorem letter_ne {c : Nat} (h : Files.letter c) : c ≠ 58 := by unfold Files.letter at h; omega

theorem findIdx_colon {p : Str} (h : 58 ∉ p) (t : Str) :
    (p ++ 58 :: t).findIdx? (· = 58) = some p.length := by
  induction p with
  | nil => rfl
  | cons c p ih =>
    have hc : c ≠ 58 := fun e => h (by simp [e])
    rw [List.cons_append, List.findIdx?_cons, ih (fun e => h (by simp [e]))]
    simp [hc]

theorem split_colon {s : Str} {p : Nat} (h : s.findIdx? (· = 58) = some p) :
    ∃ t, s = s.take p ++ 58 :: t ∧ (s.take p).length = p := by
  have hp := List.findIdx?_eq_some_iff_getElem.1 h
  obtain ⟨hlt, he, _⟩ := hp
  refine ⟨s.drop (p + 1), ?_, by rw [List.length_take]; omega⟩
  have he : s[p] = 58 := by simpa using he
  rw [← he, List.getElem_cons_drop, List.take_append_drop]

/-- C46: an @import of a url() names a file only for a `file://` URI, and then the absolute path that
follows. -/
theorem C46_url (s n : Str) :
    importName true s = some n ↔ ∃ rest, s = fileScheme ++ rest ∧ n = Files.path rest := by
  unfold importName
  rw [if_pos rfl]
  constructor
  · intro h
    split at h
    · rename_i he
      cases h
      exact ⟨s.drop 7, by rw [← he, List.take_append_drop], absolute_eq _⟩
    · cases h
  · rintro ⟨rest, rfl, rfl⟩
    rw [if_pos (by rfl), ← absolute_eq]
    rfl

/-- C46: an @import of a string: a `file://` URI names the absolute path that follows, a URI with
another scheme is left alone, and anything else is a file name as it is. -/
theorem C46_string (s : Str) (h0 : 0 ∉ s) :
    (∀ rest, Files.Uri s Files.file rest → importName false s = some (Files.path rest)) ∧
    (∀ scheme rest, Files.Uri s scheme rest → scheme ≠ Files.file → importName false s = none) ∧
    ((∀ scheme rest, ¬ Files.Uri s scheme rest) → importName false s = some s) := by
  have key : ∀ scheme rest, Files.Uri s scheme rest → importName false s =
      if scheme ≠ Files.file then none else some (absolute (s.drop 7)) := by
    rintro scheme rest ⟨hl, rfl⟩
    have hn : 58 ∉ scheme := fun h => letter_ne (hl 58 h) rfl
    unfold importName
    rw [if_neg (by decide), findIdx_colon hn]
    dsimp only
    rw [List.drop_left, if_pos (by rfl), List.take_left,
      if_pos ((isProtocol_iff (fun h => h0 (by simp [h]))).2 hl)]
    rfl
  refine ⟨fun rest hu => ?_, fun scheme rest hu hne => ?_, fun hno => ?_⟩
  · rw [key _ _ hu, if_neg (fun h => h rfl), absolute_eq, hu.2]
    rfl
  · rw [key _ _ hu, if_pos hne]
  · unfold importName
    rw [if_neg (by decide)]
    cases hf : s.findIdx? (· = 58) with
    | none => rfl
    | some p =>
      dsimp only
      obtain ⟨t, e, hp⟩ := split_colon hf
      by_cases hc : (s.drop p).take 3 = colonSlashes
      · rw [if_pos hc]
        by_cases hpr : isProtocol (s.take p) = true
        · exfalso
          have hl := (isProtocol_iff (fun h => h0 (List.mem_of_mem_take h))).1 hpr
          refine hno (s.take p) ((s.drop p).drop 3) ⟨hl, ?_⟩
          calc s = s.take p ++ s.drop p := (List.take_append_drop _ _).symm
            _ = s.take p ++ ((s.drop p).take 3 ++ (s.drop p).drop 3) := by
              rw [List.take_append_drop (l := s.drop p), List.take_append_drop]
            _ = _ := by rw [hc]; rfl
        · rw [if_neg hpr]
      · rw [if_neg hc]

/-- The name of a file URI is an absolute path. -/
theorem C46_absolute (rest : Str) : Files.Absolute (Files.path rest) := by
  unfold Files.Absolute Files.path
  split
  · assumption
  · rfl

example : importName false [104, 116, 116, 112, 58, 47, 47, 120] = none ∧
    importName false (fileScheme ++ [120]) = some [47, 120] ∧
    importName true (fileScheme ++ [47, 120]) = some [47, 120] ∧
    importName false [97, 98] = some [97, 98] ∧
    importName true [97, 98] = none := by decide

/-! ### The parents -/

/-- C42: the parents are a stack. set_root() empties it and changes the root only, pop_parent() undoes push_parent(),
and get_previous_parent() is the parent pushed just before the current one; it throws when there are not two. -/
theorem C42_parents (s : State) (root a b : Ref) :
    (s.setRoot root).root = root ∧ (s.setRoot root).parents = [] ∧
    { s.setRoot root with root := s.root, parents := s.parents } = s ∧
    (s.pushParent a).popParent = some s ∧
    ((s.pushParent a).pushParent b).previousParent = .ok a ∧
    (s.setRoot root).previousParent = .error .logic ∧ ((s.setRoot root).pushParent a).previousParent = .error .logic ∧
    (s.setRoot root).popParent = none := by
  refine ⟨rfl, rfl, rfl, rfl, rfl, rfl, rfl, rfl⟩

end Csspp.Comp
