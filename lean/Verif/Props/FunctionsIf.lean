import Verif.Props.Functions
import Verif.Props.FunctionsConv
import Verif.Props.ExprTable

/-!
C84: if(), not(), type_of(), unit().
-/

namespace Csspp.Func
open Csspp.Flt Csspp.Expr Csspp.Spec

variable {α : Type}

/-! ### if() and not() -/

/-- What if() gives of the argument it chose: its value, or a list when there is not exactly one. -/
inductive Chosen : List (Val α) → Ret α → Prop where
  | one (v : Val α) : Chosen [v] (.node v)
  | none : Chosen [] (.list [])
  | many (v w : Val α) (l : List (Val α)) : Chosen (v :: w :: l) (.list (v :: w :: l))

theorem chosen_unique {l : List (Val α)} {r r' : Ret α} (h : Chosen l r) (h' : Chosen l r') : r = r' := by
  cases h <;> cases h' <;> rfl

theorem chosen_match (l : List (Val α)) (es : List Msg) : ∃ r, Chosen l r ∧
    (match l with
      | [v] => Res.ok (.node v) es
      | l => .ok (.list l) es) = .ok r es := by
  cases l with
  | nil => exact ⟨_, .none, rfl⟩
  | cons v l =>
    cases l with
    | nil => exact ⟨_, .one v, rfl⟩
    | cons w l => exact ⟨_, .many v w l, rfl⟩

theorem call_if (env : Env α) (n : Int) (c t e : List (Val α)) : call env n b!"if" [c, t, e] = (fIf [c, t, e], n) := by
  rfl

theorem call_not (env : Env α) (n : Int) (c : List (Val α)) : call env n b!"not" [c] = (fNot [c], n) := by rfl

/-- C84: if() gives its second argument when the first one is true and its third one when it is false, with no message. The
argument that is not chosen does not matter. -/
theorem C84_if (env : Env α) (n : Int) (c : Val α) (t e : List (Val α)) (r : Ret α) :
    (True' c → Chosen t r → call env n b!"if" [[c], t, e] = (.ok r [], n)) ∧
    (False' c → Chosen e r → call env n b!"if" [[c], t, e] = (.ok r [], n)) := by
  constructor
  · intro hc hr
    obtain ⟨r', h1, h2⟩ := chosen_match t []
    rw [call_if, chosen_unique hr h1, ← h2]
    unfold fIf boolVal
    dsimp only
    rw [(toBoolean_of c).1 hc]
    rfl
  · intro hc hr
    obtain ⟨r', h1, h2⟩ := chosen_match e []
    rw [call_if, chosen_unique hr h1, ← h2]
    unfold fIf boolVal
    dsimp only
    rw [(toBoolean_of c).2 hc]
    rfl

/-- C84: a condition that is neither true nor false is reported once, and is false. -/
theorem C84_if_neither (env : Env α) (n : Int) (c : Val α) (hc : ¬ True' c) (hc' : ¬ False' c)
    (hn : ∀ x, c = .color x → Color.getColor x ≠ none) (t e : List (Val α)) (r : Ret α) (hr : Chosen e r) :
    call env n b!"if" [[c], t, e] = (.ok r [.boolean], n) ∧ call env n b!"not" [[c]] = (.ok (.node (.bool true)) [.boolean], n) := by
  obtain ⟨x, hx⟩ := (C52_truth c hn).2.2.1 ⟨hc, hc'⟩
  obtain ⟨r', h1, h2⟩ := chosen_match e [.boolean]
  constructor
  · rw [call_if, chosen_unique hr h1, ← h2]
    unfold fIf
    dsimp only
    rw [hx]
    rfl
  · rw [call_not]
    unfold fNot
    dsimp only
    rw [hx]
    rfl

/-- C84: a condition which is not exactly one value (`if(a b, ...)`) gives nothing and one message. -/
theorem C84_if_refused (env : Env α) (n : Int) (c t e : List (Val α)) (hc : c.length ≠ 1) :
    call env n b!"if" [c, t, e] = (.ok .null [.expects b!"if"], n) ∧
      call env n b!"not" [c] = (.ok .null [.expects b!"not"], n) := by
  rcases c with _ | ⟨v, _ | ⟨w, l⟩⟩
  · exact ⟨rfl, rfl⟩
  · exact absurd rfl hc
  · exact ⟨rfl, rfl⟩

/-- C84: not() gives the other boolean, and not(not()) has the truth value of its argument; a NaN color is undefined. -/
theorem C84_not (env : Env α) (n : Int) (c : Val α) :
    (True' c → call env n b!"not" [[c]] = (.ok (.node (.bool false)) [], n)) ∧
    (False' c → call env n b!"not" [[c]] = (.ok (.node (.bool true)) [], n)) ∧
    (∀ x, c = .color x → Color.getColor x = none → call env n b!"not" [[c]] = (.undef, n)) := by
  refine ⟨fun h => ?_, fun h => ?_, ?_⟩
  · rw [call_not]
    unfold fNot boolVal
    dsimp only
    rw [(toBoolean_of c).1 h]
    rfl
  · rw [call_not]
    unfold fNot boolVal
    dsimp only
    rw [(toBoolean_of c).2 h]
    rfl
  · rintro x rfl hx
    rw [call_not]
    unfold fNot boolVal toBoolean
    dsimp only
    rw [hx]
    rfl

/-- C84: choosing with not() is choosing the other way around. -/
theorem C84_if_not (env : Env α) (n : Int) (c d : Val α) (hc : True' c ∨ False' c) (t e : List (Val α))
    (h : call env n b!"not" [[c]] = (.ok (.node d) [], n)) :
    call env n b!"if" [[d], e, t] = call env n b!"if" [[c], t, e] := by
  obtain ⟨rt, h1, _⟩ := chosen_match t []
  obtain ⟨re, h2, _⟩ := chosen_match e []
  have hn := C84_not env n c
  rcases hc with hc | hc
  · rw [hn.1 hc] at h
    injection h with h _
    injection h with h _
    injection h with h
    subst h
    rw [(C84_if env n c t e rt).1 hc h1, (C84_if env n _ e t rt).2 .bool h1]
  · rw [hn.2.1 hc] at h
    injection h with h _
    injection h with h _
    injection h with h
    subst h
    rw [(C84_if env n c t e re).2 hc h2, (C84_if env n _ e t re).1 .bool h2]

/-! ### type_of() and unit() -/

/-- The name of the type of a value. -/
inductive TypeName : Val α → Str → Prop where
  | array (l) : TypeName (.array l) b!"list"
  | list (s) : TypeName (.other .LIST s) b!"list"
  | bool (b) : TypeName (.bool b) b!"bool"
  | color (c) : TypeName (.color c) b!"color"
  | dec (x u) : TypeName (.dec x u) b!"number"
  | pct (x) : TypeName (.pct x) b!"number"
  | ident (s) : TypeName (.ident s) b!"identifier"
  | int (i u) : TypeName (.int i u) b!"integer"
  | map (l) : TypeName (.map l) b!"map"
  | str (s) : TypeName (.str s) b!"string"
  | range (i) : TypeName (.range i) b!"unicode-range"
  | null : TypeName .null b!"undefined"

/-- C84: type_of() names the type of its argument; what has no type, as null, is "undefined". -/
theorem C84_type_of (env : Env α) (n : Int) (v : Val α) :
    (∀ s, TypeName v s → call env n b!"type_of" [[v]] = (.ok (.node (.str s)) [], n)) ∧
    ((∀ s, ¬ TypeName v s) → call env n b!"type_of" [[v]] = (.ok (.node (.str b!"undefined")) [], n)) ∧
    (∀ a : List (Val α), a.length ≠ 1 → call env n b!"type_of" [a] = (.ok .null [.expects b!"type_of"], n)) := by
  refine ⟨?_, ?_, ?_⟩
  · intro s h
    cases h <;> rfl
  · intro h
    show ((val (.str (typeName v)) : Res α), n) = _
    have : typeName v = b!"undefined" := by
      unfold typeName
      split
      · exact absurd (.array _) (h _)
      · exact absurd (.list _) (h _)
      · exact absurd (.bool _) (h _)
      · exact absurd (.color _) (h _)
      · exact absurd (.dec _ _) (h _)
      · exact absurd (.pct _) (h _)
      · exact absurd (.ident _) (h _)
      · exact absurd (.int _ _) (h _)
      · exact absurd (.map _) (h _)
      · exact absurd (.str _) (h _)
      · exact absurd (.range _) (h _)
      · rfl
    rw [this]
    rfl
  · intro a h
    rcases a with _ | ⟨v, _ | ⟨w, l⟩⟩
    · rfl
    · exact absurd rfl h
    · rfl

theorem val_node {v w : Val α} {n n' : Int} {es : List Msg} (h : ((val v : Res α), n) = (.ok (.node w) es, n')) : w = v := by
  injection h with h _
  injection h with h _
  injection h with h
  exact h.symm

theorem fromText_node {env : Env α} {s name : Str} {g : Lexed → Option (Res α)} {w : Val α} {es : List Msg}
    (h : fromText env s name g = .ok (.node w) es) : ∃ t fs, g t = some (.ok (.node w) fs) := by
  unfold fromText at h
  split at h
  · cases h
  · rename_i t es' _
    split at h
    · rename_i r fs hg
      injection h with h _
      exact ⟨t, fs, by rw [hg, h]⟩
    · rename_i r hr1 hr2
      subst h
      exact ⟨t, es, hr2⟩
    · injection h with h _
      cases h

theorem ofDouble_node {x : Fp} {u : Str} {w : Val α} {es : List Msg}
    (h : ofDouble x (fun i => (val (.int i u) : Res α)) = .ok (.node w) es) : ∃ i, w = .int i u := by
  unfold ofDouble at h
  split at h
  · injection h with h _
    injection h with h
    exact ⟨_, h.symm⟩
  · cases h

/-- C84: whatever their argument is, what the conversions give has the type of their name. -/
theorem C84_converted (env : Env α) (n n' : Int) (a : List (Val α)) (f : Str) (v : Val α) (es : List Msg)
    (h : call env n f [a] = (.ok (.node v) es, n')) :
    (f = b!"integer" → call env n b!"type_of" [[v]] = (.ok (.node (.str b!"integer")) [], n)) ∧
    (f = b!"decimal_number" ∨ f = b!"percentage" → call env n b!"type_of" [[v]] = (.ok (.node (.str b!"number")) [], n)) ∧
    (f = b!"string" → call env n b!"type_of" [[v]] = (.ok (.node (.str b!"string")) [], n)) ∧
    (f = b!"identifier" → call env n b!"type_of" [[v]] = (.ok (.node (.str b!"identifier")) [], n)) := by
  refine ⟨?_, ?_, ?_, ?_⟩
  · rintro rfl
    suffices ∃ i u, v = .int i u by obtain ⟨i, u, rfl⟩ := this; rfl
    replace h : (fInteger env [a], n) = (.ok (.node v) es, n') := h
    injection h with h _
    unfold fInteger at h
    dsimp only at h
    have text : ∀ s : Str, (fromText env s b!"decimal_number" fun t =>
      match t.ty with
      | .INTEGER => some (val (.int t.int t.unit))
      | .DECIMAL_NUMBER => some (ofDouble t.dec fun i => val (.int i t.unit))
      | .PERCENT => some (ofDouble t.dec fun i => val (.int i []))
      | _ => none) = .ok (.node v) es → ∃ i u, v = .int i u := by
      intro s hs
      obtain ⟨t, fs, ht⟩ := fromText_node hs
      split at ht
      · injection ht with ht
        injection ht with ht _
        injection ht with ht
        exact ⟨_, _, ht.symm⟩
      · injection ht with ht
        obtain ⟨i, hi⟩ := ofDouble_node ht
        exact ⟨i, _, hi⟩
      · injection ht with ht
        obtain ⟨i, hi⟩ := ofDouble_node ht
        exact ⟨i, _, hi⟩
      · cases ht
    split at h
    · injection h with h _
      injection h with h
      exact ⟨_, _, h.symm⟩
    · obtain ⟨i, hi⟩ := ofDouble_node h
      exact ⟨i, _, hi⟩
    · obtain ⟨i, hi⟩ := ofDouble_node h
      exact ⟨i, _, hi⟩
    · exact text _ h
    · exact text _ h
    · exact text _ h
    · cases h
  · intro hf
    suffices (∃ x u, v = .dec x u) ∨ ∃ x, v = .pct x by rcases this with ⟨x, u, rfl⟩ | ⟨x, rfl⟩ <;> rfl
    rcases hf with rfl | rfl
    · replace h : (fDecimal env [a], n) = (.ok (.node v) es, n') := h
      injection h with h _
      unfold fDecimal at h
      dsimp only at h
      have text : ∀ s : Str, (fromText env s b!"decimal_number" fun t =>
        match t.ty with
        | .DECIMAL_NUMBER => some (val (.dec t.dec t.unit))
        | .PERCENT => some (val (.dec t.dec []))
        | .INTEGER => some (val (.dec (toDouble t.int) t.unit))
        | _ => none) = .ok (.node v) es → (∃ x u, v = .dec x u) ∨ ∃ x, v = .pct x := by
        intro s hs
        obtain ⟨t, fs, ht⟩ := fromText_node hs
        split at ht <;> first
          | (injection ht with ht
             injection ht with ht _
             injection ht with ht
             exact .inl ⟨_, _, ht.symm⟩)
          | cases ht
      split at h <;> first
        | exact text _ h
        | (injection h with h _
           injection h with h
           exact .inl ⟨_, _, h.symm⟩)
        | cases h
    · replace h : (fPercentage env [a], n) = (.ok (.node v) es, n') := h
      injection h with h _
      unfold fPercentage at h
      dsimp only at h
      have text : ∀ s : Str, (fromText env s b!"percentage" fun t =>
        match t.ty with
        | .DECIMAL_NUMBER => some (val (.pct t.dec))
        | .PERCENT => some (val (.pct t.dec))
        | .INTEGER => some (val (.pct (toDouble t.int)))
        | _ => none) = .ok (.node v) es → (∃ x u, v = .dec x u) ∨ ∃ x, v = .pct x := by
        intro s hs
        obtain ⟨t, fs, ht⟩ := fromText_node hs
        split at ht <;> first
          | (injection ht with ht
             injection ht with ht _
             injection ht with ht
             exact .inr ⟨_, ht.symm⟩)
          | cases ht
      split at h <;> first
        | exact text _ h
        | (injection h with h _
           injection h with h
           exact .inr ⟨_, h.symm⟩)
        | cases h
  · rintro rfl
    suffices ∃ s, v = .str s by obtain ⟨s, rfl⟩ := this; rfl
    replace h : (fText env b!"string" .str [a], n) = (.ok (.node v) es, n') := h
    injection h with h _
    unfold fText at h
    split at h <;> first
      | (injection h with h _
         injection h with h
         exact ⟨_, h.symm⟩)
      | cases h
  · rintro rfl
    suffices ∃ s, v = .ident s by obtain ⟨s, rfl⟩ := this; rfl
    replace h : (fText env b!"identifier" .ident [a], n) = (.ok (.node v) es, n') := h
    injection h with h _
    unfold fText at h
    split at h <;> first
      | (injection h with h _
         injection h with h
         exact ⟨_, h.symm⟩)
      | cases h

/-- The unit of a number. -/
inductive UnitIs : Val α → Str → Prop where
  | int (i u) : UnitIs (.int i u) u
  | dec (x u) : UnitIs (.dec x u) u
  | pct (x) : UnitIs (.pct x) b!"%"

/-- C84: unit() gives the unit of a number ("%" for a percentage), and refuses anything else. -/
theorem C84_unit (env : Env α) (n : Int) (v : Val α) :
    (∀ u, UnitIs v u → call env n b!"unit" [[v]] = (.ok (.node (.str u)) [], n)) ∧
    ((∀ u, ¬ UnitIs v u) → call env n b!"unit" [[v]] = (.ok .null [.expects b!"unit"], n)) := by
  constructor
  · intro u h
    cases h <;> rfl
  · intro h
    cases v <;> first
      | exact absurd (.int _ _) (h _)
      | exact absurd (.dec _ _) (h _)
      | exact absurd (.pct _) (h _)
      | rfl

/-! ### Examples -/

example (env : Env Nat) : call env 0 b!"if" [[.int 3 b!"px"], [.ident b!"a"], []] = (.ok (.node (.ident b!"a")) [], 0) :=
  (C84_if env 0 _ _ _ _).1 (.int _ _ (by decide)) (.one _)
example (env : Env Nat) : call env 0 b!"if" [[.str []], [.ident b!"a"], [.null, .bool true]] =
    (.ok (.list [.null, .bool true]) [], 0) :=
  (C84_if env 0 _ _ _ _).2 .str (.many _ _ _)
example (env : Env Nat) : call env 0 b!"if" [[.ident b!"maybe"], [.ident b!"a"], []] = (.ok (.list []) [.boolean], 0) :=
  (C84_if_neither env 0 _ (by rintro ⟨⟩) (by rintro ⟨⟩) (by rintro _ ⟨⟩) _ _ _ .none).1
example (env : Env Nat) : call env 0 b!"integer" [[.int 3 b!"px"]] = (.ok (.node (.int 3 b!"px")) [], 0) := rfl
example (env : Env Nat) : call env 0 b!"unit" [[.pct (.fin false 0)]] = (.ok (.node (.str b!"%")) [], 0) :=
  (C84_unit env 0 _).1 _ (.pct _)

end Csspp.Func
