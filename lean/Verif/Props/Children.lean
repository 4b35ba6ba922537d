import Verif.Model.Node

/-!
C33: the list of children of a node.
-/

namespace Csspp.Spec
open Csspp.Node

/-- What a sequence of add_child() keeps: everything but EOF_TOKEN and the whitespaces that follow a
whitespace. `ws` says whether the last child kept so far is a whitespace. -/
def squeeze (ty : Ref → NT) : Bool → List Ref → List Ref
  | _, [] => []
  | ws, r :: rs =>
    if ty r = .EOF_TOKEN then squeeze ty ws rs
    else if ty r = .WHITESPACE then
      if ws then squeeze ty true rs else r :: squeeze ty true rs
    else r :: squeeze ty false rs

/-- No EOF_TOKEN, no two whitespaces in a row. -/
def WellFormed (ty : Ref → NT) (kids : List Ref) : Prop :=
  (∀ r ∈ kids, ty r ≠ .EOF_TOKEN) ∧
  ∀ i a b, kids[i]? = some a → kids[i + 1]? = some b → ¬ (ty a = .WHITESPACE ∧ ty b = .WHITESPACE)

end Csspp.Spec

namespace Csspp.Node
open Csspp.Spec

/-- add_child() called on each of the nodes in turn; a call that throws leaves the node as it is. -/
def addAll (ty : Ref → NT) (n : Node) (rs : List Ref) : Node :=
  rs.foldl (fun n r => match n.addChild ty r with | .ok n' => n' | .error _ => n) n

theorem addChild_keep (ty : Ref → NT) (n : Node) (r : Ref) (h : supportsChildren n.ty = true)
    (h1 : ty r ≠ .EOF_TOKEN)
    (h2 : ty r ≠ .WHITESPACE ∨ n.children.getLast?.map ty ≠ some .WHITESPACE) :
    n.addChild ty r = .ok { n with
      children := n.children ++ [r] } := by
  unfold Node.addChild guarded
  rw [h, if_pos rfl, if_pos ⟨h1, h2.elim .inl (fun h => .inr (.inr h))⟩]

theorem addChild_drop (ty : Ref → NT) (n : Node) (r : Ref) (h : supportsChildren n.ty = true)
    (h1 : ty r = .EOF_TOKEN ∨ (ty r = .WHITESPACE ∧ n.children.getLast?.map ty = some .WHITESPACE)) :
    n.addChild ty r = .ok n := by
  unfold Node.addChild guarded
  rw [h, if_pos rfl, if_neg]
  rintro ⟨g1, g2⟩
  rcases h1 with h1 | ⟨h1, h2⟩
  · exact g1 h1
  · rcases g2 with g | g | g
    · exact g h1
    · rw [g] at h2; cases h2
    · exact g h2

theorem addAll_cons {ty : Ref → NT} {n n' : Node} {r : Ref} (rs : List Ref) (h : n.addChild ty r = .ok n') :
    addAll ty n (r :: rs) = addAll ty n' rs := by
  show addAll ty (match n.addChild ty r with | .ok n' => n' | .error _ => n) rs = _
  rw [h]

/-- C33 (additions): whatever the sequence of add_child() calls on a node that supports children,
the children added are exactly the nodes given, in order, without the EOF_TOKEN nodes and without
the whitespaces that follow a whitespace. -/
theorem C33_additions (ty : Ref → NT) (n : Node) (h : supportsChildren n.ty = true) (rs : List Ref) :
    (addAll ty n rs).children =
      n.children ++ squeeze ty (n.children.getLast?.map ty == some .WHITESPACE) rs := by
  induction rs generalizing n with
  | nil => simp [addAll, squeeze]
  | cons r rs ih =>
    rw [squeeze]
    by_cases h1 : ty r = .EOF_TOKEN
    · rw [if_pos h1, addAll_cons rs (addChild_drop ty n r h (.inl h1)), ih n h]
    · rw [if_neg h1]
      by_cases h2 : ty r = .WHITESPACE
      · rw [if_pos h2]
        by_cases h3 : n.children.getLast?.map ty = some .WHITESPACE
        · rw [addAll_cons rs (addChild_drop ty n r h (.inr ⟨h2, h3⟩)), ih n h, h3]
          rfl
        · rw [addAll_cons rs (addChild_keep ty n r h h1 (.inr h3)),
            ih { n with children := n.children ++ [r] } h]
          dsimp only
          rw [if_neg (by simpa using h3), List.append_assoc]
          simp [h2]
      · rw [if_neg h2, addAll_cons rs (addChild_keep ty n r h h1 (.inl h2)),
          ih { n with children := n.children ++ [r] } h]
        dsimp only
        rw [List.append_assoc]
        have : ((n.children ++ [r]).getLast?.map ty == some NT.WHITESPACE) = false := by simp [h2]
        rw [this]
        rfl

theorem squeeze_wellFormed (ty : Ref → NT) (ws : Bool) (rs : List Ref) :
    WellFormed ty (squeeze ty ws rs) ∧
    (ws = true → (squeeze ty ws rs).head?.map ty ≠ some .WHITESPACE) := by
  induction rs generalizing ws with
  | nil => exact ⟨⟨by simp [squeeze], by simp [squeeze]⟩, by simp [squeeze]⟩
  | cons r rs ih =>
    have cons : ∀ (w : Bool), ty r ≠ .EOF_TOKEN → (ty r = .WHITESPACE → w = true) →
        WellFormed ty (r :: squeeze ty w rs) := by
      intro w h1 h2
      obtain ⟨⟨a1, a2⟩, a3⟩ := ih w
      refine ⟨?_, ?_⟩
      · intro x hx
        rcases List.mem_cons.1 hx with rfl | hx
        · exact h1
        · exact a1 x hx
      · intro i a b ha hb
        cases i with
        | zero =>
          rintro ⟨e1, e2⟩
          simp at ha
          subst ha
          apply a3 (h2 e1)
          simp at hb
          cases hq : squeeze ty w rs with
          | nil => rw [hq] at hb; simp at hb
          | cons x t => rw [hq] at hb; simp at hb; rw [hb]; simp [e2]
        | succ i => exact a2 i a b (by simpa using ha) (by simpa using hb)
    rw [squeeze]
    by_cases h1 : ty r = .EOF_TOKEN
    · rw [if_pos h1]; exact ih ws
    · rw [if_neg h1]
      by_cases h2 : ty r = .WHITESPACE
      · rw [if_pos h2]
        cases ws with
        | true => rw [if_pos rfl]; exact ih true
        | false =>
          rw [if_neg (by simp)]
          exact ⟨cons true h1 (fun _ => rfl), by simp⟩
      · rw [if_neg h2]
        exact ⟨cons false h1 (fun h => absurd h h2), fun _ => by simp [h2]⟩

/-- C33 (invariant): the children built by add_child() never contain an EOF_TOKEN nor two
whitespaces in a row. -/
theorem C33_wellformed (ty : Ref → NT) (n : Node) (h : supportsChildren n.ty = true)
    (h0 : n.children = []) (rs : List Ref) : WellFormed ty (addAll ty n rs).children := by
  rw [C33_additions ty n h, h0]
  exact (squeeze_wellFormed ty _ rs).1

/-- C33: only the EOF_TOKENs and whitespaces are left out. -/
theorem C33_keeps (ty : Ref → NT) (n : Node) (h : supportsChildren n.ty = true)
    (h0 : n.children = []) (rs : List Ref) :
    (addAll ty n rs).children.Sublist rs ∧
    (addAll ty n rs).children.filter (fun r => ty r ≠ .WHITESPACE) =
      rs.filter (fun r => ty r ≠ .WHITESPACE ∧ ty r ≠ .EOF_TOKEN) := by
  rw [C33_additions ty n h, h0, List.nil_append]
  generalize (([] : List Ref).getLast?.map ty == some .WHITESPACE) = ws
  induction rs generalizing ws with
  | nil => exact ⟨List.Sublist.refl _, rfl⟩
  | cons r rs ih =>
    rw [squeeze]
    by_cases h1 : ty r = .EOF_TOKEN
    · rw [if_pos h1]
      exact ⟨(ih ws).1.cons _, by rw [(ih ws).2]; simp [h1]⟩
    · rw [if_neg h1]
      by_cases h2 : ty r = .WHITESPACE
      · rw [if_pos h2]
        cases ws with
        | true =>
          rw [if_pos rfl]
          exact ⟨(ih true).1.cons _, by rw [(ih true).2]; simp [h2]⟩
        | false =>
          rw [if_neg (by simp)]
          refine ⟨(ih true).1.cons_cons _, ?_⟩
          rw [List.filter_cons_of_neg (by simpa using h2), (ih true).2]
          simp [h2]
      · rw [if_neg h2]
        refine ⟨(ih false).1.cons_cons _, ?_⟩
        rw [List.filter_cons_of_pos (by simpa using h2), (ih false).2]
        simp [h1, h2]

/-- C33 (insertion): insert_child() succeeds exactly on a node that supports children with an index
up to the size; inside the list the child then is at that index and the others keep their order.
(At the end it is add_child().) -/
theorem C33_insert (ty : Ref → NT) (n : Node) (idx : Nat) (c : Ref) :
    ((∃ n', n.insertChild ty idx c = .ok n') ↔
      supportsChildren n.ty = true ∧ idx ≤ n.children.length) ∧
    (supportsChildren n.ty = true → idx < n.children.length → ty c ≠ .EOF_TOKEN →
      ∃ n', n.insertChild ty idx c = .ok n' ∧
        n'.children.length = n.children.length + 1 ∧ n'.children[idx]? = some c ∧
        (∀ j, j < idx → n'.children[j]? = n.children[j]?) ∧
        (∀ j, idx ≤ j → n'.children[j + 1]? = n.children[j]?)) := by
  constructor
  · unfold Node.insertChild
    by_cases h1 : idx = n.children.length
    · rw [if_pos h1]
      cases h : supportsChildren n.ty with
      | true =>
        unfold Node.addChild guarded
        rw [h]
        exact ⟨fun _ => ⟨rfl, by omega⟩, fun _ => ⟨_, rfl⟩⟩
      | false =>
        unfold Node.addChild guarded
        rw [h]
        exact ⟨fun ⟨_, h⟩ => (by cases h), fun h => by cases h.1⟩
    · rw [if_neg h1]
      cases h : supportsChildren n.ty with
      | false => rw [if_pos rfl]; exact ⟨fun ⟨_, h⟩ => (by cases h), fun h => by cases h.1⟩
      | true =>
        rw [if_neg (by simp)]
        by_cases h2 : idx ≥ n.children.length
        · rw [if_pos h2]; exact ⟨fun ⟨_, h⟩ => (by cases h), fun h => by omega⟩
        · rw [if_neg h2]
          refine ⟨fun _ => ⟨rfl, by omega⟩, fun _ => ?_⟩
          split
          · exact ⟨_, rfl⟩
          · exact ⟨_, rfl⟩
  · intro h1 h2 h3
    refine ⟨_, by unfold Node.insertChild; rw [if_neg (by omega), if_neg (by simp [h1]), if_neg (by omega), if_pos h3], ?_, ?_, ?_, ?_⟩
    · simp; omega
    · dsimp only
      rw [List.getElem?_append_right (by simp; omega)]
      simp
      rw [show idx - min idx n.children.length = 0 by omega]
      rfl
    · intro j hj
      dsimp only
      rw [List.getElem?_append_left (by simp; omega), List.getElem?_take_of_lt hj]
    · intro j hj
      dsimp only
      rw [List.getElem?_append_right (by simp; omega), List.length_take,
        show j + 1 - min idx n.children.length = (j - idx) + 1 by omega, List.getElem?_cons_succ,
        List.getElem?_drop]
      congr 1
      omega

/-- C33 (removal): remove_child(idx) succeeds exactly on a node that supports children with an index
in range, and removes exactly that position. -/
theorem C33_removeAt (n : Node) (idx : Nat) :
    ((∃ n', n.removeAt idx = .ok n') ↔ supportsChildren n.ty = true ∧ idx < n.children.length) ∧
    (∀ n', n.removeAt idx = .ok n' →
      n'.children.length + 1 = n.children.length ∧
      (∀ j, j < idx → n'.children[j]? = n.children[j]?) ∧
      (∀ j, idx ≤ j → n'.children[j]? = n.children[j + 1]?)) := by
  unfold Node.removeAt
  cases h : supportsChildren n.ty with
  | false =>
    rw [if_pos rfl]
    exact ⟨⟨fun ⟨_, h⟩ => (by cases h), fun h => by cases h.1⟩, fun n' h => by cases h⟩
  | true =>
    rw [if_neg (by simp)]
    by_cases h2 : idx ≥ n.children.length
    · rw [if_pos h2]
      exact ⟨⟨fun ⟨_, h⟩ => (by cases h), fun h => by omega⟩, fun n' h => by cases h⟩
    · rw [if_neg h2]
      refine ⟨⟨fun _ => ⟨rfl, by omega⟩, fun _ => ⟨_, rfl⟩⟩, fun n' hn => ?_⟩
      cases hn
      refine ⟨?_, ?_, ?_⟩
      · dsimp only
        rw [List.length_eraseIdx_of_lt (by omega)]
        omega
      · intro j hj
        dsimp only
        rw [List.getElem?_eraseIdx, if_pos hj]
      · intro j hj
        dsimp only
        rw [List.getElem?_eraseIdx, if_neg (by omega)]

theorem find_none {c : Ref} {l : List Ref} (h : c ∉ l) : find c l = none := by
  induction l with
  | nil => rfl
  | cons x t ih =>
    rw [find, if_neg (fun e => h (by simp [e])), ih (fun e => h (by simp [e]))]
    rfl

theorem find_some {c : Ref} {l : List Ref} (h : c ∈ l) :
    ∃ i, find c l = some i ∧ l[i]? = some c ∧ ∀ j, j < i → l[j]? ≠ some c := by
  induction l with
  | nil => cases h
  | cons x t ih =>
    rw [find]
    by_cases hx : x = c
    · rw [if_pos hx]
      exact ⟨0, rfl, by simp [hx], fun j hj => by omega⟩
    · rw [if_neg hx]
      rcases List.mem_cons.1 h with h | h
      · exact absurd h.symm hx
      · obtain ⟨i, h1, h2, h3⟩ := ih h
        refine ⟨i + 1, by rw [h1]; rfl, by simpa using h2, fun j hj => ?_⟩
        cases j with
        | zero => simpa using hx
        | succ j => simpa using h3 j (by omega)

/-- C33 (by pointer): remove_child(c) removes the first occurrence of the pointer, which is where
child_position() finds it, and throws when it is not a child. -/
theorem C33_remove (n : Node) (c : Ref) (h : supportsChildren n.ty = true) :
    (c ∉ n.children → n.removeChild c = .error .logic ∧ n.childPosition c = .ok none) ∧
    (c ∈ n.children → ∃ i n', n.childPosition c = .ok (some i) ∧ n.children[i]? = some c ∧
      (∀ j, j < i → n.children[j]? ≠ some c) ∧
      n.removeChild c = .ok n' ∧ n.removeAt i = .ok n') := by
  unfold Node.removeChild Node.childPosition Node.removeAt guarded
  rw [h]
  refine ⟨fun hc => ?_, fun hc => ?_⟩
  · rw [find_none hc]
    exact ⟨rfl, rfl⟩
  · obtain ⟨i, h1, h2, h3⟩ := find_some hc
    have hi : i < n.children.length := by
      obtain ⟨hi, _⟩ := List.getElem?_eq_some_iff.mp h2
      exact hi
    rw [h1]
    refine ⟨i, _, rfl, h2, h3, rfl, ?_⟩
    rw [if_neg (by simp), if_neg (by omega)]

/-- C33 (replacement): replace_child(o, c) puts c in place of the first occurrence of o and touches
nothing else; it throws when o is not a child. -/
theorem C33_replace (n : Node) (o c : Ref) :
    (o ∉ n.children → n.replaceChild o c = .error .logic) ∧
    (o ∈ n.children → ∃ (i : Nat) (n' : Node), n.children[i]? = some o ∧ (∀ j, j < i → n.children[j]? ≠ some o) ∧
      n.replaceChild o c = .ok n' ∧ n'.children.length = n.children.length ∧
      n'.children[i]? = some c ∧ ∀ j, j ≠ i → n'.children[j]? = n.children[j]?) := by
  unfold Node.replaceChild
  refine ⟨fun h => by rw [find_none h], fun h => ?_⟩
  obtain ⟨i, h1, h2, h3⟩ := find_some h
  have hi : i < n.children.length := by
    obtain ⟨hi, _⟩ := List.getElem?_eq_some_iff.mp h2
    exact hi
  rw [h1]
  refine ⟨i, _, h2, h3, rfl, ?_, ?_, ?_⟩
  · simp; omega
  · dsimp only
    rw [List.getElem?_append_right (by simp; omega), List.length_take,
      show i - min i n.children.length = 0 by omega]
    rfl
  · intro j hj
    dsimp only
    by_cases hlt : j < i
    · rw [List.getElem?_append_left (by simp; omega), List.getElem?_take_of_lt hlt]
    · rw [List.getElem?_append_right (by simp; omega), List.length_take,
        show j - min i n.children.length = (j - i - 1) + 1 by omega, List.getElem?_cons_succ,
        List.getElem?_drop]
      congr 1
      omega

/-- C33 (indexes): get_child() and get_last_child() throw exactly when the node does not support
children or the index is out of range (the list empty). -/
theorem C33_get (n : Node) (idx : Nat) :
    ((∃ c, n.getChild idx = .ok c) ↔ supportsChildren n.ty = true ∧ idx < n.children.length) ∧
    (∀ c, n.getChild idx = .ok c → n.children[idx]? = some c) ∧
    ((∃ c, n.getLastChild = .ok c) ↔ supportsChildren n.ty = true ∧ n.children ≠ []) ∧
    (∀ c, n.getLastChild = .ok c → n.children.getLast? = some c) := by
  have key : ∀ idx, ((∃ c, n.getChild idx = .ok c) ↔
      supportsChildren n.ty = true ∧ idx < n.children.length) ∧
      (∀ c, n.getChild idx = .ok c → n.children[idx]? = some c) := by
    intro idx
    unfold Node.getChild
    cases h : supportsChildren n.ty with
    | false =>
      rw [if_pos rfl]
      exact ⟨⟨fun ⟨_, h⟩ => (by cases h), fun h => by cases h.1⟩, fun _ h => by cases h⟩
    | true =>
      rw [if_neg (by simp)]
      cases hx : n.children[idx]? with
      | none =>
        refine ⟨⟨fun ⟨_, h⟩ => (by cases h), fun h => ?_⟩, fun _ h => by cases h⟩
        rw [List.getElem?_eq_none_iff] at hx
        omega
      | some c =>
        obtain ⟨hi, _⟩ := List.getElem?_eq_some_iff.mp hx
        refine ⟨⟨fun _ => ⟨rfl, hi⟩, fun _ => ⟨c, rfl⟩⟩, fun d hd => ?_⟩
        cases hd
        rfl
  refine ⟨(key idx).1, (key idx).2, ?_, ?_⟩
  · unfold Node.getLastChild
    rw [(key _).1]
    cases hc : n.children with
    | nil => simp
    | cons x t => simp
  · intro c hcc
    unfold Node.getLastChild at hcc
    have := (key _).2 c hcc
    cases hc : n.children with
    | nil => rw [hc] at this; simp at this
    | cons x t =>
      rw [hc] at this
      rw [List.getLast?_eq_getElem?]
      simpa using this

theorem modify_other {α : Type} {l : List α} {i j : Nat} (f : α → α) (h : i ≠ j) :
    (l.modify i f)[j]? = l[j]? := by
  rw [List.getElem?_modify]
  simp [h]

/-- C33 (take over): the children of n are moved to this node, which loses its own; n has none left.
When n is this node they are all lost. -/
theorem C33_take_over (h : Heap) (this n : Ref) (a b : Node) (ha : h[this]? = some a)
    (hb : h[n]? = some b) (ca : supportsChildren a.ty = true) (cb : supportsChildren b.ty = true) :
    ∃ h', takeOver h this n = .ok h' ∧ h'.length = h.length ∧
      (∀ r, r ≠ this → r ≠ n → h'[r]? = h[r]?) ∧
      h'[this]? = some { a with
        children := if this = n then [] else b.children } ∧
      (this ≠ n → h'[n]? = some { b with
        children := [] }) := by
  have h1 : this < h.length := (List.getElem?_eq_some_iff.mp ha).1
  have h2 : n < h.length := (List.getElem?_eq_some_iff.mp hb).1
  unfold takeOver
  rw [ha, hb]
  dsimp only
  rw [ca, cb, if_neg (by simp), if_neg (by simp)]
  by_cases he : this = n
  · subst he
    rw [ha] at hb
    cases hb
    have e : (h.set this { a with children := [] })[this]? = some { a with children := [] } := by
      rw [List.getElem?_set_self h1]
    rw [e]
    dsimp only
    refine ⟨_, rfl, by simp, fun r hr _ => ?_, ?_, fun hne => absurd rfl hne⟩
    · rw [modify_other _ (Ne.symm hr),
        List.getElem?_set_ne (Ne.symm hr), List.getElem?_set_ne (Ne.symm hr)]
    · rw [List.getElem?_modify_eq, List.getElem?_set_self (by simpa using h1), if_pos rfl]
      rfl
  · have e : (h.set this { a with children := [] })[n]? = some b := by
      rw [List.getElem?_set_ne he, hb]
    rw [e]
    dsimp only
    refine ⟨_, rfl, by simp, fun r hr hr2 => ?_, ?_, fun _ => ?_⟩
    · rw [modify_other _ (Ne.symm hr), List.getElem?_set_ne (Ne.symm hr2),
        List.getElem?_set_ne (Ne.symm hr)]
    · rw [List.getElem?_modify_eq, List.getElem?_set_ne (Ne.symm he),
        List.getElem?_set_self h1, if_neg he]
      rfl
    · rw [modify_other _ he, List.getElem?_set_self (by simpa using h2)]

/-! ### concrete cases -/

/-- The types used below: 0 is a whitespace, 1 the end of the file, the others identifiers. -/
def sample (r : Ref) : NT := if r = 0 then .WHITESPACE else if r = 1 then .EOF_TOKEN else .IDENTIFIER

example : (addAll sample { ty := .LIST, pos := ⟨1, 1, 1⟩ } [0, 0, 2, 1, 0, 0, 1, 0, 3]).children =
    [0, 2, 0, 3] := by decide

/-- The insertion and the removal inside the list do not keep the "no two whitespaces" invariant. -/
theorem C33_refuted_insert_remove :
    (Node.insertChild sample { ty := .LIST, pos := ⟨1, 1, 1⟩, children := [0, 2] } 0 0).map (·.children) =
      .ok [0, 0, 2] ∧
    (Node.removeAt { ty := .LIST, pos := ⟨1, 1, 1⟩, children := [0, 2, 0] } 1).map (·.children) =
      .ok [0, 0] := by
  decide

/-! ### Flags -/

/-- C33 (flags): set_flag() sets or clears that flag, and no other one; clear_flags() clears them all;
nothing else of the node changes. -/
theorem C33_flags (n : Node) (name other : Str) (value : Bool) :
    (n.setFlag name value).getFlag other = (if other = name then value else n.getFlag other) ∧
    n.clearFlags.getFlag other = false ∧
    { n.setFlag name value with flags := n.flags } = n ∧ { n.clearFlags with flags := n.flags } = n := by
  refine ⟨?_, ?_, rfl, rfl⟩
  · unfold Node.setFlag Node.getFlag
    cases value <;> by_cases h : other = name
    · simp [h]
    · simp [h]
    · simp only [if_pos h, if_true]
      subst h
      by_cases hm : other ∈ n.flags <;> simp [hm]
    · simp only [if_neg h, if_true]
      by_cases hm : name ∈ n.flags
      · rw [if_pos hm]
      · rw [if_neg hm]; simp [h]
  · simp [Node.clearFlags, Node.getFlag]

end Csspp.Node
