import Verif.Spec.Marks
import Verif.Props.SetVar

/-! C62: the blocks that accept variables, the empty rules, the references in the comments. -/

namespace Csspp.Vars
open Csspp.Parse (Nd)
open Csspp.Lex (Tok Pos)
open Csspp.Spec

/-! ### mark_selectors() -/

theorem marks_iff (ty : NT) : marks ty = true ↔ Rules ty := by
  unfold Rules; cases ty <;> decide

theorem isSetBlock_iff (kids : List Nd) : isSetBlock kids = true ↔ DefinesBlock (kids.map Nd.ty) := by
  constructor
  · intro h
    unfold isSetBlock isSet at h
    match kids, h with
    | c0 :: c1 :: c2 :: cs, h =>
      dsimp only [List.tail] at h
      by_cases h0 : c0.ty = .VARIABLE ∨ c0.ty = .VARIABLE_FUNCTION
      · rw [if_pos h0] at h
        by_cases h1 : c1.ty = .WHITESPACE
        · rw [if_pos h1, if_pos h1] at h
          have h2 : c2.ty = .COLON := by simp at h; exact h.1
          have h3 : startsBlock cs = true := by simp at h; exact h.2
          unfold startsBlock at h3
          match cs, h3 with
          | d :: ds, h3 =>
            dsimp only at h3
            by_cases h4 : d.ty = .WHITESPACE
            · rw [if_pos h4] at h3
              match ds, h3 with
              | e :: es, h3 =>
                have h3 := of_decide_eq_true h3
                exact ⟨c0.ty, [.WHITESPACE], [.WHITESPACE], es.map Nd.ty, h0, .inr rfl, .inr rfl, by simp [h1, h2, h3, h4]⟩
            · rw [if_neg h4] at h3
              have h3 := of_decide_eq_true h3
              exact ⟨c0.ty, [.WHITESPACE], [], ds.map Nd.ty, h0, .inr rfl, .inl rfl, by simp [h1, h2, h3]⟩
        · rw [if_neg h1, if_neg h1] at h
          have h2 : c1.ty = .COLON := by simp at h; exact h.1
          have h3 : startsBlock (c2 :: cs) = true := by simp at h; exact h.2
          unfold startsBlock at h3
          dsimp only at h3
          by_cases h4 : c2.ty = .WHITESPACE
          · rw [if_pos h4] at h3
            match cs, h3 with
            | e :: es, h3 =>
              have h3 := of_decide_eq_true h3
              exact ⟨c0.ty, [], [.WHITESPACE], es.map Nd.ty, h0, .inl rfl, .inr rfl, by simp [h2, h3, h4]⟩
          · rw [if_neg h4] at h3
            have h3 := of_decide_eq_true h3
            exact ⟨c0.ty, [], [], cs.map Nd.ty, h0, .inl rfl, .inl rfl, by simp [h2, h3]⟩
      · rw [if_neg h0] at h; simp at h
  · rintro ⟨v, w1, w2, rest, hv, h1, h2, h⟩
    match kids, h with
    | [], h => simp at h
    | [_], h => rcases h1 with rfl | rfl <;> rcases h2 with rfl | rfl <;> simp at h
    | [_, _], h => rcases h1 with rfl | rfl <;> rcases h2 with rfl | rfl <;> simp at h
    | c0 :: c1 :: c2 :: cs, h =>
      unfold isSetBlock isSet
      dsimp only [List.tail]
      rcases h1 with rfl | rfl <;> rcases h2 with rfl | rfl
      · simp only [List.map_cons, List.nil_append, List.cons.injEq] at h
        obtain ⟨rfl, e1, e2, e3⟩ := h
        rw [if_pos hv, e1, if_neg (by simp), if_neg (by simp)]
        unfold startsBlock; simp [e2]
      · simp only [List.map_cons, List.nil_append, List.cons_append, List.cons.injEq] at h
        obtain ⟨rfl, e1, e2, e3⟩ := h
        match cs, e3 with
        | c3 :: cs, e3 =>
        simp only [List.map_cons, List.cons.injEq] at e3
        rw [if_pos hv, e1, if_neg (by simp), if_neg (by simp)]
        unfold startsBlock; simp [e2, e3.1]
      · simp only [List.map_cons, List.nil_append, List.cons_append, List.cons.injEq] at h
        obtain ⟨rfl, e1, e2, e3⟩ := h
        match cs, e3 with
        | c3 :: cs, e3 =>
        simp only [List.map_cons, List.cons.injEq] at e3
        rw [if_pos hv, e1, if_pos rfl, if_pos rfl]
        unfold startsBlock; simp [e2, e3.1]
      · simp only [List.map_cons, List.nil_append, List.cons_append, List.cons.injEq] at h
        obtain ⟨rfl, e1, e2, e3⟩ := h
        match cs, e3 with
        | [c3], e3 => simp at e3
        | c3 :: c4 :: cs, e3 =>
        simp only [List.map_cons, List.cons.injEq] at e3
        rw [if_pos hv, e1, if_pos rfl, if_pos rfl]
        unfold startsBlock; simp [e2, e3.1, e3.2.1]

theorem markAll_get (last : Bool) : ∀ (kids : List Nd) (i : Nat),
    (markAll last kids)[i]? = (kids[i]?).map (mark (last && decide (i + 1 = kids.length)))
  | [], i => by simp [markAll]
  | c :: cs, 0 => by
    rw [markAll]
    cases cs with
    | nil => simp
    | cons d ds => simp
  | c :: cs, i + 1 => by
    rw [markAll]
    simp [markAll_get last cs i]

/-- The node at a path after the pass: `acc` when the root itself was marked. -/
def Accepts (acc : Bool) (n : Nd) (q : List Nat) : Prop := (q = [] ∧ acc = true) ∨ BlockOfRule n q

theorem blockOfRule_nil (n : Nd) : ¬ BlockOfRule n [] := by
  rintro ⟨p, i, _, _, h, _⟩; simp at h

theorem blockOfRule_one (t : Tok) (kids : List Nd) (i : Nat) : BlockOfRule (.mk t kids) [i] ↔
    Rules t.ty ∧ (marksLast kids && decide (i + 1 = kids.length)) = true := by
  constructor
  · rintro ⟨p, j, parent, block, h, h1, h2, h3, h4, h5, h6⟩
    have hp : p = [] ∧ i = j := by
      cases p with
      | nil => simpa using h
      | cons a p => cases p <;> simp at h
    obtain ⟨rfl, rfl⟩ := hp
    simp only [nodeAt, Option.some.injEq] at h1
    subst h1
    dsimp only [Nd.kids] at h2 h3 h5
    refine ⟨h6 [] (.mk t kids) (List.prefix_refl _) (by simp [nodeAt]), ?_⟩
    have hn : isSetBlock kids = false := by
      rw [← Bool.not_eq_true, isSetBlock_iff]; exact h5
    have hl : kids.getLast? = some block := by
      rw [List.getLast?_eq_getElem?, ← h2]; congr 1; omega
    unfold marksLast
    simp [hn, hl, h4, h3]
  · rintro ⟨h1, h2⟩
    unfold marksLast at h2
    simp only [Bool.and_eq_true, Bool.not_eq_true', decide_eq_true_eq] at h2
    obtain ⟨⟨h2, h3⟩, h4⟩ := h2
    cases hl : kids.getLast? with
    | none => rw [hl] at h3; simp at h3
    | some block =>
      rw [hl] at h3
      refine ⟨[], i, .mk t kids, block, rfl, by simp [nodeAt], ?_, h4, by simpa using h3, ?_, ?_⟩
      · rw [← hl, List.getLast?_eq_getElem?]; show kids[i]? = _; congr 1; omega
      · intro h; rw [← isSetBlock_iff] at h; dsimp only [Nd.kids] at h; rw [h] at h2; cases h2
      · intro p' m hp hm
        rw [List.prefix_nil.1 hp] at hm
        simp only [nodeAt, Option.some.injEq] at hm
        rw [← hm]; exact h1

theorem blockOfRule_cons (t : Tok) (kids : List Nd) (i : Nat) (c : Nd) (hc : kids[i]? = some c) (q : List Nat) (hq : q ≠ []) :
    BlockOfRule (.mk t kids) (i :: q) ↔ Rules t.ty ∧ BlockOfRule c q := by
  have hnode : ∀ p, nodeAt (.mk t kids) (i :: p) = nodeAt c p := by intro p; rw [nodeAt, hc]
  constructor
  · rintro ⟨p, j, parent, block, h, h1, h2, h3, h4, h5, h6⟩
    cases p with
    | nil => simp at h; exact absurd h.2 hq
    | cons a p =>
      simp only [List.cons_append, List.cons.injEq] at h
      obtain ⟨rfl, rfl⟩ := h
      refine ⟨h6 [] (.mk t kids) List.nil_prefix (by simp [nodeAt]), p, j, parent, block, rfl, ?_, h2, h3, h4, h5, ?_⟩
      · rw [← hnode]; exact h1
      · intro p' m hp hm
        exact h6 (i :: p') m (by simpa using hp) (by rw [hnode]; exact hm)
  · rintro ⟨h0, p, j, parent, block, h, h1, h2, h3, h4, h5, h6⟩
    refine ⟨i :: p, j, parent, block, by simp [h], by rw [hnode]; exact h1, h2, h3, h4, h5, ?_⟩
    intro p' m hp hm
    cases p' with
    | nil => simp only [nodeAt, Option.some.injEq] at hm; rw [← hm]; exact h0
    | cons a p' =>
      simp only [List.cons_prefix_cons] at hp
      obtain ⟨rfl, hp⟩ := hp
      rw [hnode] at hm
      exact h6 p' m hp hm

/-- A path on a tree where nothing is marked. -/
theorem blockOfRule_not {t : Tok} (kids : List Nd) (h : ¬ Rules t.ty) (q : List Nat) : ¬ BlockOfRule (.mk t kids) q := by
  rintro ⟨p, j, parent, block, _, _, _, _, _, _, h6⟩
  exact h (h6 [] (.mk t kids) List.nil_prefix (by simp [nodeAt]))

theorem mark_at (q : List Nat) : ∀ (acc : Bool) (n : Nd),
    (nodeAt (mark acc n) q).map Nd.tok = (nodeAt n q).map (fun m => { m.tok with bool := m.tok.bool || (q.isEmpty && acc) }) ∧
      ¬ BlockOfRule n q ∨
    (nodeAt (mark acc n) q).map Nd.tok = (nodeAt n q).map (fun m => { m.tok with bool := true }) ∧ BlockOfRule n q := by
  induction q with
  | nil =>
    intro acc n
    refine .inl ⟨?_, blockOfRule_nil n⟩
    cases n with
    | mk t kids =>
    rw [mark]
    cases acc with
    | false => simp only [Bool.false_eq_true, if_false]; split <;> simp [nodeAt, Nd.tok]
    | true => simp only [if_true]; split <;> simp [nodeAt, Nd.tok]
  | cons i q ih =>
    intro acc n
    cases n with
    | mk t kids =>
    rw [mark]
    have ht : (if acc = true then { t with bool := true } else t).ty = t.ty := by cases acc <;> rfl
    dsimp only
    rw [ht]
    by_cases hr : marks t.ty = true
    · rw [if_pos hr]
      rw [nodeAt, nodeAt, markAll_get]
      cases hc : kids[i]? with
      | none =>
        refine .inl ⟨rfl, ?_⟩
        rintro ⟨p, j, parent, block, h, h1, h2, _⟩
        cases p with
        | nil =>
          simp only [List.nil_append, List.cons.injEq] at h
          simp only [nodeAt, Option.some.injEq] at h1
          subst h1
          rw [← h.1] at h2
          have h2 : kids[i]? = some block := h2
          rw [hc] at h2; cases h2
        | cons a p =>
          simp only [List.cons_append, List.cons.injEq] at h
          rw [← h.1, nodeAt, hc] at h1
          cases h1
      | some c =>
        simp only [Option.map_some]
        rcases ih (marksLast kids && decide (i + 1 = kids.length)) c with ⟨e, hn⟩ | ⟨e, hb⟩
        · rw [e]
          cases q with
          | nil =>
            by_cases hm : (marksLast kids && decide (i + 1 = kids.length)) = true
            · refine .inr ⟨?_, (blockOfRule_one t kids i).2 ⟨(marks_iff _).1 hr, hm⟩⟩
              rw [hm]; simp
            · refine .inl ⟨?_, fun h => hm ((blockOfRule_one t kids i).1 h).2⟩
              rw [Bool.not_eq_true] at hm
              rw [hm]; simp
          | cons j q =>
            refine .inl ⟨by simp, fun h => hn ((blockOfRule_cons t kids i c hc _ (by simp)).1 h).2⟩
        · rw [e]
          have hq : q ≠ [] := by rintro rfl; exact blockOfRule_nil c hb
          exact .inr ⟨rfl, (blockOfRule_cons t kids i c hc q hq).2 ⟨(marks_iff _).1 hr, hb⟩⟩
    · rw [if_neg hr]
      refine .inl ⟨?_, blockOfRule_not kids (fun h => hr ((marks_iff _).2 h)) _⟩
      rw [nodeAt, nodeAt]
      cases kids[i]? with
      | none => rfl
      | some c => dsimp only; cases nodeAt c q <;> simp

open Classical in
/-- C62: the pass only changes the boolean of the blocks of the rules, which becomes true. -/
theorem C62_mark (n : Nd) (q : List Nat) :
    (nodeAt (mark false n) q).map Nd.tok =
      (nodeAt n q).map (fun m => if BlockOfRule n q then { m.tok with bool := true } else m.tok) := by
  rcases mark_at q false n with ⟨e, h⟩ | ⟨e, h⟩
  · rw [e]; simp [h]
  · rw [e]; simp [h]

/-- C62: it is the same tree otherwise. -/
theorem C62_mark_length (n : Nd) (q : List Nat) :
    (nodeAt (mark false n) q).map (fun m => m.kids.length) = (nodeAt n q).map (fun m => m.kids.length) := by
  have key : ∀ (q : List Nat) (acc : Bool) (n : Nd),
      (nodeAt (mark acc n) q).map (fun m => m.kids.length) = (nodeAt n q).map (fun m => m.kids.length) := by
    have hlen : ∀ (l : Bool) (kids : List Nd), (markAll l kids).length = kids.length := by
      intro l kids
      induction kids with
      | nil => rfl
      | cons c cs ih => rw [markAll]; simp [ih]
    intro q
    induction q with
    | nil =>
      intro acc n
      cases n with
      | mk t kids =>
      rw [mark]
      generalize (if acc = true then { t with bool := true } else t) = t'
      show Option.map _ (nodeAt (if marks t'.ty = true then _ else _) []) = _
      split <;> simp [nodeAt, Nd.kids, hlen]
    | cons i q ih =>
      intro acc n
      cases n with
      | mk t kids =>
      rw [mark]
      generalize (if acc = true then { t with bool := true } else t) = t'
      show Option.map _ (nodeAt (if marks t'.ty = true then _ else _) _) = _
      split
      · rw [nodeAt, nodeAt, markAll_get]
        cases kids[i]? with
        | none => rfl
        | some c => exact ih _ c
      · rw [nodeAt, nodeAt]
  exact key q false n

/-! ### remove_empty_rules() -/

theorem isEmptyRule_iff (n : Nd) : isEmptyRule n = true ↔ EmptyRule n := by
  unfold isEmptyRule EmptyRule
  constructor
  · intro h
    rw [Bool.and_eq_true] at h
    refine ⟨of_decide_eq_true h.1, ?_⟩
    have h2 := h.2
    cases hl : n.kids.getLast? with
    | none => rw [hl] at h2; cases h2
    | some l =>
      rw [hl] at h2
      simp only [Bool.and_eq_true, decide_eq_true_eq, List.isEmpty_iff] at h2
      cases l with
      | mk t kids =>
      have : kids = [] := h2.2
      subst this
      exact ⟨n.kids.dropLast, t, (by rw [List.getLast?_eq_some_iff] at hl; obtain ⟨ys, hy⟩ := hl; rw [hy]; simp), h2.1⟩
  · rintro ⟨h1, sel, t, h2, h3⟩
    rw [h2]
    have e : (Nd.mk t []).ty = .OPEN_CURLYBRACKET := h3
    simp [h1, e, Nd.kids]

open Classical in
/-- C62: the empty rules are removed at every level inside of rules; all the other nodes are kept, in order. -/
theorem C62_empty (t : Tok) (kids : List Nd) :
    removeEmptyIn (.mk t kids) =
      .mk t (if Rules t.ty then (kids.filter (fun c => decide (¬ EmptyRule c))).map removeEmptyIn else kids) := by
  have key : ∀ l : List Nd, removeEmptyAll l = (l.filter (fun c => decide (¬ EmptyRule c))).map removeEmptyIn := by
    intro l
    induction l with
    | nil => rfl
    | cons c cs ih =>
      rw [removeEmptyAll]
      by_cases h : isEmptyRule c = true
      · rw [if_pos h, ih, List.filter_cons_of_neg (by simp [(isEmptyRule_iff c).1 h])]
      · rw [if_neg h, ih, List.filter_cons_of_pos (by simp [mt (isEmptyRule_iff c).2 h]), List.map_cons]
  rw [removeEmptyIn]
  by_cases h : marks t.ty = true
  · rw [if_pos h, if_pos ((marks_iff _).1 h), key]
  · rw [if_neg h, if_neg (fun h' => h ((marks_iff _).2 h'))]

/-- C62: the pass fails only when the root itself is an empty rule (no style sheet is). -/
theorem C62_empty_root (n : Nd) : (removeEmptyRules n = none ↔ EmptyRule n) ∧ (¬ EmptyRule n → removeEmptyRules n = some (removeEmptyIn n)) := by
  unfold removeEmptyRules
  by_cases h : isEmptyRule n = true
  · rw [if_pos h]; simp [(isEmptyRule_iff n).1 h]
  · rw [if_neg h]; simp [mt (isEmptyRule_iff n).2 h]

/-- C62: known limit, the rules are looked at before what is in them: a rule with a block that is not empty becomes an
empty rule, and is left, exactly when everything in the block is an empty rule. -/
theorem C62_left (t bt : Tok) (sel kids : List Nd) (ht : t.ty = .COMPONENT_VALUE) (hb : bt.ty = .OPEN_CURLYBRACKET) (hk : kids ≠ []) :
    removeEmptyAll [.mk t (sel ++ [.mk bt kids])] = [removeEmptyIn (.mk t (sel ++ [.mk bt kids]))] ∧
    (EmptyRule (removeEmptyIn (.mk t (sel ++ [.mk bt kids]))) ↔ ∀ k ∈ kids, EmptyRule k) := by
  classical
  have hne : ¬ EmptyRule (.mk t (sel ++ [.mk bt kids])) := by
    rintro ⟨_, s', t', h, _⟩
    have h : sel ++ [.mk bt kids] = s' ++ [.mk t' []] := h
    have := List.append_inj_right' h rfl
    simp at this
    exact hk this.2
  have hnb : ¬ EmptyRule (.mk bt kids) := by
    rintro ⟨h, _⟩
    have h : bt.ty = .COMPONENT_VALUE := h
    rw [hb] at h; cases h
  refine ⟨?_, ?_⟩
  · rw [removeEmptyAll, if_neg (mt (isEmptyRule_iff _).1 hne)]; rfl
  · rw [C62_empty, if_pos (by rw [ht]; decide), List.filter_append, List.filter_cons_of_pos (by simp [hnb]), List.filter_nil,
      List.map_append, List.map_cons, List.map_nil, C62_empty bt, if_pos (by rw [hb]; decide)]
    constructor
    · rintro ⟨_, s', t', h, _⟩
      have h := List.append_inj_right' h rfl
      simp only [List.cons.injEq, Nd.mk.injEq, List.map_eq_nil_iff, List.filter_eq_nil_iff] at h
      intro k hk
      have := h.1.2 k hk
      simpa using this
    · intro h
      refine ⟨ht, (sel.filter (fun c => decide (¬ EmptyRule c))).map removeEmptyIn, bt, ?_, hb⟩
      · have : kids.filter (fun c => decide (¬ EmptyRule c)) = [] := by
          rw [List.filter_eq_nil_iff]; intro k hk; simp [h k hk]
        rw [this]; rfl

/-! ### replace_variables_in_comment() -/

/-- The text of the value of a variable that can be used in a comment: any one that is not a function. -/
def usable (E : Env) (s : St) (name : Str) : Option Str :=
  match s.get name with
  | some v => if v.name.ty = .FUNCTION ∨ v.name.ty = .VARIABLE_FUNCTION then none else some (E.toString v.value)
  | none => none

/-- The warning of a reference. -/
def warning (E : Env) (s : St) : Bit → List Err
  | .char _ => []
  | .ref name args =>
    match s.get name with
    | some v =>
      if v.name.ty = .FUNCTION ∨ v.name.ty = .VARIABLE_FUNCTION then [.commentFunction]
      else if args.isSome then [.commentCall] else []
    | none => if E.emptyOnUndefined then [] else [.commentNotSet]

theorem cutAt_mid (c : Nat) (a b : Str) (h : c ∉ a) : cutAt c (a ++ c :: b) = some (a, b) := by
  induction a with
  | nil => simp [cutAt]
  | cons x a ih =>
    simp only [List.mem_cons, not_or] at h
    rw [List.cons_append, cutAt, if_neg (fun e => h.1 e.symm), ih h.2]

theorem cutAt_none (c : Nat) (a : Str) (h : c ∉ a) : cutAt c a = none := by
  induction a with
  | nil => rfl
  | cons x a ih =>
    simp only [List.mem_cons, not_or] at h
    rw [cutAt, if_neg (fun e => h.1 e.symm), ih h.2]

theorem cutAt_some (c : Nat) (s a b : Str) (h : cutAt c s = some (a, b)) : s = a ++ c :: b := by
  induction s generalizing a b with
  | nil => cases h
  | cons x s ih =>
    rw [cutAt] at h
    by_cases hx : x = c
    · rw [if_pos hx] at h; cases h; simp [hx]
    · rw [if_neg hx] at h
      cases hc : cutAt c s with
      | none => rw [hc] at h; cases h
      | some ab =>
        obtain ⟨a', b'⟩ := ab
        rw [hc] at h
        cases h
        rw [ih _ _ hc]; rfl

theorem commentRef_none (rest : Str) (h : ∀ x y, rest ≠ 36 :: (x ++ 125 :: y)) : commentRef rest = none := by
  unfold commentRef
  match rest, h with
  | [], _ => rfl
  | [_], _ => rfl
  | d :: x :: more, h =>
    dsimp only
    by_cases hd : d = 36
    · rw [if_pos hd]
      cases hc : cutAt 125 (x :: more) with
      | none => rfl
      | some ab =>
        obtain ⟨a, b⟩ := ab
        exact absurd (by rw [cutAt_some _ _ _ _ hc, hd]) (h a b)
    · rw [if_neg hd]

theorem commentRef_plain (name rest : Str) (h1 : 40 ∉ name) (h2 : 125 ∉ name) :
    commentRef (36 :: (name ++ 125 :: rest)) = some (name, false, rest) := by
  unfold commentRef
  match hn : name ++ 125 :: rest with
  | [] => simp at hn
  | x :: more =>
    dsimp only
    rw [if_pos rfl, ← hn, cutAt_mid _ _ _ h2]
    dsimp only
    rw [cutAt_none _ _ h1]

theorem commentRef_call (name a rest : Str) (h1 : 40 ∉ name) (h2 : 125 ∉ name) (h3 : 125 ∉ a) :
    commentRef (36 :: (name ++ 40 :: (a ++ 125 :: rest))) = some (name, true, rest) := by
  unfold commentRef
  match hn : name ++ 40 :: (a ++ 125 :: rest) with
  | [] => simp at hn
  | x :: more =>
    dsimp only
    rw [if_pos rfl, ← hn, show name ++ 40 :: (a ++ 125 :: rest) = (name ++ 40 :: a) ++ 125 :: rest by simp,
      cutAt_mid _ _ _ (by simp [h2, h3])]
    dsimp only
    rw [cutAt_mid _ _ _ h1]

theorem dropHash_eq (done : Str) : dropHash done.reverse = (withoutHash done).reverse := by
  unfold dropHash withoutHash
  cases hd : done.reverse with
  | nil => simp at hd; simp [hd]
  | cons c o =>
    have : done = o.reverse ++ [c] := by rw [← List.reverse_reverse done, hd]; simp
    subst this
    dsimp only
    by_cases hc : c = 35
    · simp [hc]
    · simp [hc]

/-- The characters of a text without '{'. -/
theorem commentLoop_text (E : Env) (s : St) (a : Str) (h : 123 ∉ a) (f : Nat) (out rest : Str) :
    commentLoop E s (f + a.length) out (a ++ rest) = commentLoop E s f (a.reverse ++ out) rest := by
  induction a generalizing out with
  | nil => rfl
  | cons x a ih =>
    simp only [List.mem_cons, not_or] at h
    rw [List.length_cons, ← Nat.add_assoc, List.cons_append, commentLoop, if_pos (fun e => h.1 e.symm), ih h.2]
    simp

theorem commentLoop_more (E : Env) (s : St) (f g : Nat) (out rest : Str) (h1 : rest.length ≤ f) (h2 : rest.length ≤ g) :
    commentLoop E s f out rest = commentLoop E s g out rest := by
  induction f generalizing g out rest with
  | zero =>
    have : rest = [] := by simpa using h1
    subst this
    cases g <;> simp [commentLoop]
  | succ f ih =>
    cases rest with
    | nil => cases g <;> simp [commentLoop]
    | cons c rest =>
      cases g with
      | zero => simp at h2
      | succ g =>
        simp only [List.length_cons, Nat.add_le_add_iff_right] at h1 h2
        rw [commentLoop, commentLoop]
        split
        · exact ih _ _ _ h1 h2
        · split
          · exact ih _ _ _ h1 h2
          · rename_i name call after hc
            have hlen : after.length ≤ rest.length := by
              unfold commentRef at hc
              match rest, hc with
              | d :: x :: more, hc =>
                dsimp only at hc
                split at hc
                · cases hq : cutAt 125 (x :: more) with
                  | none => rw [hq] at hc; cases hc
                  | some ab =>
                    obtain ⟨a, b⟩ := ab
                    rw [hq] at hc
                    have := congrArg List.length (cutAt_some _ _ _ _ hq)
                    simp at this
                    have hb : after = b := by
                      dsimp only at hc
                      split at hc
                      · cases hc; rfl
                      · cases hc; rfl
                    subst hb
                    simp; omega
                · cases hc
            split
            · rw [ih g _ _ h1 h2]
            · split
              · rw [ih g _ _ h1 h2]
              · rw [ih g _ _ (by omega) (by omega)]

theorem commentLoop_pieces (E : Env) (s : St) (ps : List Bit) (hp : Bits ps) (f : Nat) (done : Str)
    (hf : (commentText ps).length ≤ f) :
    commentLoop E s f done.reverse (commentText ps) = (filled (usable E s) done ps, ps.flatMap (warning E s)) := by
  induction ps generalizing f done with
  | nil => cases f <;> simp [commentText, commentLoop, filled]
  | cons p ps ih =>
    cases p with
    | char c =>
      obtain ⟨h1, h2⟩ := hp
      have ht : commentText (.char c :: ps) = c :: commentText ps := rfl
      rw [ht] at hf ⊢
      obtain ⟨f, rfl⟩ : ∃ k, f = k + 1 := ⟨f - 1, by simp at hf; omega⟩
      have key : commentLoop E s (f + 1) done.reverse (c :: commentText ps) = commentLoop E s f (done ++ [c]).reverse (commentText ps) := by
        rw [commentLoop]
        by_cases hc : c = 123
        · rw [if_neg (by simp [hc]), commentRef_none _ (h1 hc)]; simp
        · rw [if_pos hc]; simp
      rw [key, ih h2 f _ (by simpa using hf)]
      rfl
    | ref name args =>
      obtain ⟨⟨h1, h2, h3⟩, h4, h5⟩ := hp
      obtain ⟨body, hb, hbody, hcr⟩ : ∃ body, (Bit.ref name args).text = 123 :: body ∧ 123 ∉ body ∧
          commentRef (body ++ commentText ps) = some (name, args.isSome, commentText ps) := by
        cases args with
        | none =>
          refine ⟨36 :: (name ++ [125]), rfl, by simp [h2], ?_⟩
          have := commentRef_plain name (commentText ps) h1 h3
          simpa using this
        | some a =>
          have ha := h4 a rfl
          refine ⟨36 :: (name ++ 40 :: (a ++ [125])), rfl, by simp [h2, ha.1], ?_⟩
          have := commentRef_call name a (commentText ps) h1 h3 ha.2
          simpa using this
      have ht : commentText (.ref name args :: ps) = 123 :: (body ++ commentText ps) := by
        show (Bit.ref name args).text ++ commentText ps = _
        rw [hb]; rfl
      rw [ht] at hf ⊢
      obtain ⟨f, rfl⟩ : ∃ k, f = k + 1 := ⟨f - 1, by simp at hf; omega⟩
      simp only [List.length_cons, List.length_append, Nat.add_le_add_iff_right] at hf
      have hkeep : commentLoop E s f (123 :: done.reverse) (body ++ commentText ps) =
          (filled (usable E s) (done ++ (Bit.ref name args).text) ps, ps.flatMap (warning E s)) := by
        obtain ⟨g, rfl⟩ : ∃ g, f = g + body.length := ⟨f - body.length, by omega⟩
        rw [commentLoop_text E s body hbody,
          show body.reverse ++ 123 :: done.reverse = (done ++ (Bit.ref name args).text).reverse by rw [hb]; simp,
          ih h5 g _ (by omega)]
      rw [commentLoop, if_neg (by simp), hcr]
      dsimp only
      cases hg : s.get name with
      | none =>
        have hu : usable E s name = none := by unfold usable; rw [hg]
        dsimp only
        rw [hkeep]
        conv => rhs; unfold filled
        rw [hu]
        unfold withErr
        cases he : E.emptyOnUndefined <;> simp [warning, hg, he]
      | some v =>
        dsimp only
        by_cases hv : v.name.ty = .FUNCTION ∨ v.name.ty = .VARIABLE_FUNCTION
        · have hu : usable E s name = none := by unfold usable; rw [hg]; dsimp only; rw [if_pos hv]
          rw [if_pos (by unfold isFunction; exact decide_eq_true hv), hkeep]
          conv => rhs; unfold filled
          rw [hu]
          unfold withErr
          simp [warning, hg, hv]
        · have hu : usable E s name = some (E.toString v.value) := by unfold usable; rw [hg]; dsimp only; rw [if_neg hv]
          rw [if_neg (by unfold isFunction; rw [decide_eq_true_eq]; exact hv), dropHash_eq,
            show (E.toString v.value).reverse ++ (withoutHash done).reverse = (withoutHash done ++ E.toString v.value).reverse by simp,
            ih h5 f _ (by omega)]
          conv => rhs; unfold filled
          rw [hu]
          unfold withErr
          cases args <;> simp [warning, hg, hv]

theorem reports_eq (pos : Pos) : ∀ (es : List Err) (s : St),
    reports pos es s = .ok () { s with errs := (es.map (·, pos)).reverse ++ s.errs }
  | [], s => rfl
  | e :: es, s => by
    rw [reports, bind_apply]
    show reports pos es { s with errs := (e, pos) :: s.errs } = _
    rw [reports_eq pos es]
    simp

/-- C62: each reference `{$name}` of a comment is replaced by the text of the value of the variable, together with a '#' in
front of it; it is left, with a warning, when there is no such variable or it is a function. The values are not looked at
again. -/
theorem C62_comment (E : Env) (t : Tok) (ht : t.ty = .COMMENT) (kids : List Nd) (ps : List Bit) (hp : Bits ps)
    (hs : t.str = commentText ps) (s : St) :
    Gives (fun f => replaceVars E f (.mk t kids)) s
      (.ok (some (.mk { t with str := filled (usable E s) [] ps } kids))
        { s with errs := ((ps.flatMap (warning E s)).map (·, t.pos)).reverse ++ s.errs }) := by
  refine ⟨1, fun g hg => ?_⟩
  obtain ⟨g, rfl⟩ : ∃ k, g = k + 1 := ⟨g - 1, by omega⟩
  dsimp only
  rw [replaceVars, if_pos (show (Nd.mk t kids).ty = _ from ht), bind_apply]
  unfold comment
  have := commentLoop_pieces E s ps hp (commentText ps).length [] (Nat.le_refl _)
  rw [show (Nd.mk t kids).tok.str = commentText ps from hs]
  rw [show ([] : Str).reverse = [] from rfl] at this
  rw [this]
  dsimp only
  rw [bind_apply, reports_eq]
  rfl

/-- Every text without a '{' inside of a reference is made of such pieces: the others are the only ones that C62_comment leaves
out. -/
theorem pieces_char (s : Str) (h : 123 ∉ s) : Bits (s.map .char) ∧ commentText (s.map .char) = s := by
  induction s with
  | nil => exact ⟨trivial, rfl⟩
  | cons c s ih =>
    simp only [List.mem_cons, not_or] at h
    obtain ⟨i1, i2⟩ := ih h.2
    refine ⟨⟨fun e => absurd e.symm h.1, i1⟩, ?_⟩
    show c :: commentText (s.map .char) = _
    rw [i2]

end Csspp.Vars
