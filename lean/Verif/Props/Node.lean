import Verif.Spec.NodeFields

/-!
C32, C33 and C35: the data and the children of a node.
-/

namespace Csspp.Node
open Csspp.Spec

/-! ### C35: the two dimensions of a font -/

theorem cutSlash_none {s : Str} (h : 47 ∉ s) : cutSlash s = (s, none) := by
  induction s with
  | nil => rfl
  | cons c s ih =>
    have hc : c ≠ 47 := fun e => h (by simp [e])
    rw [cutSlash, if_neg hc, ih (fun e => h (by simp [e]))]

theorem cutSlash_some {s : Str} (t : Str) (h : 47 ∉ s) : cutSlash (s ++ 47 :: t) = (s, some t) := by
  induction s with
  | nil => rfl
  | cons c s ih =>
    have hc : c ≠ 47 := fun e => h (by simp [e])
    rw [List.cons_append, cutSlash, if_neg hc, ih (fun e => h (by simp [e]))]

theorem cutSlash_spec (s : Str) : 47 ∉ (cutSlash s).1 ∧
    ((cutSlash s).2 = none ∧ s = (cutSlash s).1 ∨
      ∃ t, (cutSlash s).2 = some t ∧ s = (cutSlash s).1 ++ 47 :: t) := by
  induction s with
  | nil => exact ⟨by simp [cutSlash], .inl ⟨rfl, rfl⟩⟩
  | cons c s ih =>
    rw [cutSlash]
    by_cases hc : c = 47
    · rw [if_pos hc]
      exact ⟨by simp, .inr ⟨s, rfl, by rw [hc]; rfl⟩⟩
    · rw [if_neg hc]
      rcases hr : cutSlash s with ⟨a, b⟩
      rw [hr] at ih
      dsimp only at ih ⊢
      refine ⟨?_, ?_⟩
      · intro h
        rcases List.mem_cons.1 h with h | h
        · exact hc h.symm
        · exact ih.1 h
      · rcases ih.2 with ⟨h1, h2⟩ | ⟨t, h1, h2⟩
        · exact .inl ⟨h1, by rw [← h2]⟩
        · exact .inr ⟨t, h1, by rw [List.cons_append, ← h2]⟩

theorem dim1_putDim1 (s d : Str) (h : 47 ∉ d) : (cutSlash (putDim1 s d)).1 = d ∧
    (cutSlash (putDim1 s d)).2.getD [] = (cutSlash s).2.getD [] := by
  unfold putDim1
  split
  · rename_i hs; rw [cutSlash_none h, hs]; exact ⟨rfl, rfl⟩
  · split
    · rename_i hc; rw [cutSlash_none h, hc]; exact ⟨rfl, rfl⟩
    · rename_i hc; rw [cutSlash_some _ h, hc]; exact ⟨rfl, rfl⟩

theorem dim2_putDim2 (s d : Str) : (cutSlash (putDim2 s d)).2.getD [] = d ∧
    (cutSlash (putDim2 s d)).1 = (cutSlash s).1 := by
  have hs := cutSlash_spec s
  rcases hc : cutSlash s with ⟨a, b⟩
  rw [hc] at hs
  dsimp only at hs
  unfold putDim2
  rcases hs.2 with ⟨rfl, rfl⟩ | ⟨t, rfl, rfl⟩
  · rw [hc]
    dsimp only
    split
    · rename_i hd; rw [hc, hd]; exact ⟨rfl, rfl⟩
    · split
      · rename_i hn; subst hn; exact ⟨rfl, rfl⟩
      · rw [cutSlash_some _ hs.1]; exact ⟨rfl, rfl⟩
  · rw [hc]
    dsimp only
    split
    · rename_i hd; rw [cutSlash_none hs.1, hd]; exact ⟨rfl, rfl⟩
    · split
      · rename_i hn; simp at hn
      · rw [cutSlash_some _ hs.1]; exact ⟨rfl, rfl⟩

/-- C35: on a FONT_METRICS node set_dim1() changes what get_dim1() returns, not get_dim2(), and
conversely; whatever the dimensions were. -/
theorem C35_dimensions (n : Node) (h : n.ty = .FONT_METRICS) :
    (∀ d, 47 ∉ d → ∃ n', n.setDim1 d = .ok n' ∧ n'.getDim1 = .ok d ∧ n'.getDim2 = n.getDim2) ∧
    (∀ d, ∃ n', n.setDim2 d = .ok n' ∧ n'.getDim2 = .ok d ∧ n'.getDim1 = n.getDim1) := by
  have hs : supportsFont n.ty = true := by rw [h]; rfl
  constructor
  · intro d hd
    have := dim1_putDim1 n.str d hd
    refine ⟨{ n with str := putDim1 n.str d }, ?_, ?_, ?_⟩
    · unfold Node.setDim1 guarded; rw [hs]; rfl
    · unfold Node.getDim1 guarded; dsimp only; rw [hs, this.1]; rfl
    · unfold Node.getDim2 guarded; dsimp only; rw [hs, this.2]
  · intro d
    have := dim2_putDim2 n.str d
    refine ⟨{ n with str := putDim2 n.str d }, ?_, ?_, ?_⟩
    · unfold Node.setDim2 guarded; rw [hs]; rfl
    · unfold Node.getDim2 guarded; dsimp only; rw [hs, this.1]; rfl
    · unfold Node.getDim1 guarded; dsimp only; rw [hs, this.2]

/-- C35: on any other node they all throw. -/
theorem C35_guard (n : Node) (h : n.ty ≠ .FONT_METRICS) (d : Str) :
    n.setDim1 d = .error .logic ∧ n.setDim2 d = .error .logic ∧
    n.getDim1 = .error .logic ∧ n.getDim2 = .error .logic := by
  have hs : supportsFont n.ty = false := by
    revert h; cases n.ty <;> simp [supportsFont]
  unfold Node.setDim1 Node.setDim2 Node.getDim1 Node.getDim2 guarded
  rw [hs]
  exact ⟨rfl, rfl, rfl, rfl⟩

/-! ### C32 -/

/-- The check made by the accessors of a field. -/
def supports : Field → NT → Bool
  | .string | .lowercase => supportsString
  | .integer => supportsInteger
  | .boolean => supportsBoolean
  | .decimal => supportsDecimal
  | .color => supportsColor
  | .fontSize | .lineHeight | .dim1 | .dim2 => supportsFont

theorem supports_iff (f : Field) (ty : NT) : supports f ty = decide (ty ∈ f.types) := by
  cases f <;> cases ty <;> rfl

theorem getField_guard (n : Node) (f : Field) :
    (n.ty ∈ f.types → ∃ v, getField n f = .ok v) ∧
    (n.ty ∉ f.types → getField n f = .error .logic) := by
  have hs := supports_iff f n.ty
  have key : ∃ v, getField n f = guarded (supports f n.ty) v := by
    cases f <;> exact ⟨_, rfl⟩
  obtain ⟨v, hv⟩ := key
  rw [hv, hs]
  constructor
  · intro h; rw [decide_eq_true h]; exact ⟨v, rfl⟩
  · intro h; rw [decide_eq_false h]; rfl

theorem setField_guard (n : Node) (f : Field) (v : f.T) :
    (n.ty ∈ f.types → ∃ n', setField n f v = .ok n') ∧
    (n.ty ∉ f.types → setField n f v = .error .logic) := by
  have hs := supports_iff f n.ty
  have key : ∃ n', setField n f v = guarded (supports f n.ty) n' := by
    cases f <;> exact ⟨_, rfl⟩
  obtain ⟨n', hv⟩ := key
  rw [hv, hs]
  constructor
  · intro h; rw [decide_eq_true h]; exact ⟨n', rfl⟩
  · intro h; rw [decide_eq_false h]; rfl

theorem guarded_ok {α : Type} {b : Bool} {x y : α} (h : guarded b x = .ok y) : b = true ∧ x = y := by
  unfold guarded at h
  cases b with
  | false => cases h
  | true => cases h; exact ⟨rfl, rfl⟩

/-- A setter keeps the type, the position, the children, the variables and the flags. -/
theorem setField_ty {n n' : Node} {f : Field} {v : f.T} (h : setField n f v = .ok n') :
    n'.ty = n.ty ∧ n'.pos = n.pos ∧ n'.children = n.children ∧ n'.vars = n.vars ∧
      n'.flags = n.flags := by
  cases f <;>
  · obtain ⟨_, rfl⟩ := guarded_ok h
    exact ⟨rfl, rfl, rfl, rfl, rfl⟩

theorem bits_back (v : Nat) (h : v < 18446744073709551616) : toU64 (wrap64 v) = v := by
  unfold toU64 wrap64; omega

theorem get_set_same {n n' : Node} {f : Field} {v : f.T} (hv : f.Ok v)
    (h : setField n f v = .ok n') : getField n' f = .ok v := by
  cases f with
  | string => obtain ⟨hs, rfl⟩ := guarded_ok h; unfold getField Node.getString guarded; dsimp only; rw [hs]; rfl
  | lowercase => obtain ⟨hs, rfl⟩ := guarded_ok h; unfold getField Node.getLower guarded; dsimp only; rw [hs]; rfl
  | integer => obtain ⟨hs, rfl⟩ := guarded_ok h; unfold getField Node.getInteger guarded; dsimp only; rw [hs]; rfl
  | boolean => obtain ⟨hs, rfl⟩ := guarded_ok h; unfold getField Node.getBoolean guarded; dsimp only; rw [hs]; rfl
  | decimal => obtain ⟨hs, rfl⟩ := guarded_ok h; unfold getField Node.getDecimal guarded; dsimp only; rw [hs]; rfl
  | fontSize => obtain ⟨hs, rfl⟩ := guarded_ok h; unfold getField Node.getFontSize guarded; dsimp only; rw [hs]; rfl
  | lineHeight =>
    obtain ⟨hs, rfl⟩ := guarded_ok h
    unfold getField Node.getLineHeight guarded
    dsimp only
    rw [hs]
    rw [bits_back v hv]
    rfl
  | color =>
    obtain ⟨hs, rfl⟩ := guarded_ok h
    unfold getField Node.getColor guarded
    dsimp only
    rw [hs]
    obtain ⟨h1, h2, h3, h4⟩ : v.r < 4294967296 ∧ v.g < 4294967296 ∧ v.b < 4294967296 ∧ v.a < 4294967296 := hv
    have e : toU64 (wrap64 ((4294967296 * v.g + v.r : Nat) : Int)) = 4294967296 * v.g + v.r := by
      unfold toU64 wrap64; omega
    rw [e]
    have e1 : (4294967296 * v.g + v.r) % 4294967296 = v.r := by omega
    have e2 : (4294967296 * v.g + v.r) / 4294967296 = v.g := by omega
    have e3 : (4294967296 * v.a + v.b) % 4294967296 = v.b := by omega
    have e4 : (4294967296 * v.a + v.b) / 4294967296 = v.a := by omega
    rw [e1, e2, e3, e4]
    rfl
  | dim1 =>
    obtain ⟨hs, rfl⟩ := guarded_ok h
    unfold getField Node.getDim1 guarded
    dsimp only
    rw [hs, (dim1_putDim1 n.str v hv).1]
    rfl
  | dim2 =>
    obtain ⟨hs, rfl⟩ := guarded_ok h
    unfold getField Node.getDim2 guarded
    dsimp only
    rw [hs, (dim2_putDim2 n.str v).1]
    rfl

/-- The fields that share storage are never on the same type. -/
theorem fields_excl (f g : Field) (hne : f ≠ g) : ∀ t ∈ f.types, t ∈ g.types →
    f ≠ .color ∧ g ≠ .color ∧
      ((f = .fontSize ∨ f = .lineHeight ∨ f = .dim1 ∨ f = .dim2) ↔
       (g = .fontSize ∨ g = .lineHeight ∨ g = .dim1 ∨ g = .dim2)) := by
  cases f <;> cases g <;> first | exact absurd rfl hne | decide

theorem get_set_other {n n' : Node} {f g : Field} {v : f.T} (hne : f ≠ g) (hv : f.Ok v)
    (h : setField n f v = .ok n') : getField n' g = getField n g := by
  have hf : n.ty ∈ f.types := by
    apply Decidable.byContradiction
    intro hc
    rw [(setField_guard n f v).2 hc] at h
    cases h
  have hty := (setField_ty h).1
  by_cases hg : n.ty ∈ g.types
  · obtain ⟨x1, x2, x3⟩ := fields_excl f g hne _ hf hg
    clear hf hg hty
    cases f <;> cases g <;>
    first
    | exact absurd rfl hne
    | exact absurd rfl x1
    | exact absurd rfl x2
    | exact absurd x3 (by decide)
    | (obtain ⟨_, rfl⟩ := guarded_ok h; rfl)
    | skip
    · obtain ⟨hs, rfl⟩ := guarded_ok h
      unfold getField Node.getDim2
      dsimp only
      rw [(dim1_putDim1 n.str v hv).2]
    · obtain ⟨hs, rfl⟩ := guarded_ok h
      unfold getField Node.getDim1
      dsimp only
      rw [(dim2_putDim2 n.str v).2]
  · rw [(getField_guard n g).2 hg, (getField_guard n' g).2 (by rw [hty]; exact hg)]

/-- C32 (guards): a getter or a setter throws exactly when the type of the node does not have the
field. -/
theorem C32_guards (n : Node) (f : Field) :
    (n.ty ∈ f.types ↔ ∃ v, getField n f = .ok v) ∧
    (∀ v, n.ty ∈ f.types ↔ ∃ n', setField n f v = .ok n') := by
  have h1 := getField_guard n f
  refine ⟨⟨h1.1, fun ⟨v, hv⟩ => ?_⟩, fun v => ⟨(setField_guard n f v).1, fun ⟨n', hn⟩ => ?_⟩⟩
  · apply Decidable.byContradiction
    intro hc; rw [h1.2 hc] at hv; cases hv
  · apply Decidable.byContradiction
    intro hc; rw [(setField_guard n f v).2 hc] at hn; cases hn

/-- C32 (history): after any sequence of setter calls, some of which may throw, the getter of each
field the node has returns the last value given to the setter of that field, or the first value
if there was none; the type, position, children, variables and flags are those of the start. -/
theorem C32_history (n : Node) (calls : List SetCall) (hok : ∀ c ∈ calls, c.field.Ok c.value) :
    (∀ (f : Field) (first : f.T), getField n f = .ok first →
      getField (afterCalls n calls) f = .ok (lastValue f first calls)) ∧
    (afterCalls n calls).ty = n.ty ∧ (afterCalls n calls).pos = n.pos ∧
    (afterCalls n calls).children = n.children ∧ (afterCalls n calls).vars = n.vars ∧
    (afterCalls n calls).flags = n.flags := by
  induction calls generalizing n with
  | nil => exact ⟨fun _ _ h => h, rfl, rfl, rfl, rfl, rfl⟩
  | cons c cs ih =>
    have hcs : ∀ x ∈ cs, x.field.Ok x.value := fun x hx => hok x (by simp [hx])
    have hc := hok c (by simp)
    have hstep : afterCalls n (c :: cs) = afterCalls (match setField n c.field c.value with
      | .ok n' => n' | .error _ => n) cs := rfl
    rw [hstep]
    cases hs : setField n c.field c.value with
    | error e =>
      dsimp only
      have := ih n hcs
      refine ⟨fun f first hf => ?_, this.2⟩
      rw [lastValue]
      have hne : ¬ c.field = f := by
        intro he
        have h1 := (C32_guards n f).1.mpr ⟨first, hf⟩
        rw [← he] at h1
        obtain ⟨n', hn'⟩ := (setField_guard n c.field c.value).1 h1
        rw [hn'] at hs
        cases hs
      rw [dif_neg hne]
      exact this.1 f first hf
    | ok n' =>
      dsimp only
      have hi := ih n' hcs
      have hk := setField_ty hs
      rw [hk.1, hk.2.1, hk.2.2.1, hk.2.2.2.1, hk.2.2.2.2] at hi
      refine ⟨fun f first hf => ?_, hi.2⟩
      rw [lastValue]
      rcases c with ⟨cf, cv⟩
      by_cases he : cf = f
      · subst he
        rw [dif_pos rfl]
        exact hi.1 cf cv (get_set_same hc hs)
      · rw [dif_neg he]
        apply hi.1
        rw [get_set_other he hc hs]
        exact hf

example : let n : Node := { ty := .FONT_METRICS, pos := ⟨1, 1, 1⟩ }
    let m := afterCalls n [⟨.dim2, b!"px"⟩, ⟨.lineHeight, (0x3FF0000000000000 : Nat)⟩, ⟨.dim1, b!"em"⟩,
      ⟨.string, b!"lost"⟩, ⟨.dim2, b!"%"⟩]
    m.getDim1 = .ok b!"em" ∧ m.getDim2 = .ok b!"%" ∧ m.getLineHeight = .ok 0x3FF0000000000000 ∧
      m.getString = .error .logic := by
  decide +kernel

end Csspp.Node
