import Verif.Model.ExprEval
import Verif.Props.ExprAdd
import Verif.Props.Dimension
import Verif.Props.UnicodeRange

/-!
More of C25 and C26 (percentages, colors, strings, ranges), C30 (the spelling of the operators),
C51 (powers) and C52 (truth values, `and` and `or`).
-/

namespace Csspp.Expr
open Csspp.Flt
variable {α : Type}

/-! ### C25 -/

/-- A component of a color (a float) and a double: the operation is made with doubles and rounded to a
float. -/
def component (op : Fp → Fp → Fp) (x d : Fp) : Fp := convert f64 f32 (op (convert f32 f64 x) d)

/-- The color with these components. -/
def colorVal (r g b a : Fp) : Val α := .color ⟨r, g, b, a⟩

/-- C25: two percentages. -/
theorem C25_percents (x y : Fp) :
    addOp (α := α) false (.pct x) (.pct y) = .ret (some (.pct (add f64 x y))) [] ∧
    addOp (α := α) true (.pct x) (.pct y) = .ret (some (.pct (sub f64 x y))) [] := ⟨rfl, rfl⟩

/-- C25: two strings. -/
theorem C25_strings (a b : Str) :
    addOp (α := α) false (.str a) (.str b) = .ret (some (.str (a ++ b))) [] ∧
    ∃ e, addOp (α := α) true (.str a) (.str b) = .ret none [e] := ⟨rfl, _, rfl⟩

/-- C25: two colors, component by component (in floats). -/
theorem C25_colors (l r : Color.Color) :
    addOp (α := α) false (.color l) (.color r) = .ret (some (colorVal (add f32 l.red r.red)
      (add f32 l.green r.green) (add f32 l.blue r.blue) (add f32 l.alpha r.alpha))) [] ∧
    addOp (α := α) true (.color l) (.color r) = .ret (some (colorVal (sub f32 l.red r.red)
      (sub f32 l.green r.green) (sub f32 l.blue r.blue) (sub f32 l.alpha r.alpha))) [] := ⟨rfl, rfl⟩

/-- C25: a color and a number without dimension: the number is added to each component, is subtracted
from it, or the component is subtracted from the number. -/
theorem C25_offset (c : Color.Color) (v : Val α) (y : Fp) (hv : number v = some (y, [])) :
    (∀ l r, (l = .color c ∧ r = v) ∨ (l = v ∧ r = .color c) →
      addOp false l r = .ret (some (colorVal (component (add f64) c.red y) (component (add f64) c.green y)
        (component (add f64) c.blue y) (component (add f64) c.alpha y))) []) ∧
    addOp true (.color c) v = .ret (some (colorVal (component (sub f64) c.red y) (component (sub f64) c.green y)
        (component (sub f64) c.blue y) (component (sub f64) c.alpha y))) [] ∧
    addOp true v (.color c) = .ret (some (colorVal (component (fun x d => sub f64 d x) c.red y)
      (component (fun x d => sub f64 d x) c.green y) (component (fun x d => sub f64 d x) c.blue y)
      (component (fun x d => sub f64 d x) c.alpha y))) [] := by
  cases v <;> simp only [number, Option.some.injEq, Prod.mk.injEq, reduceCtorEq] at hv
  all_goals
    obtain ⟨rfl, rfl⟩ := hv
    refine ⟨?_, ?_, ?_⟩
    · rintro l r (⟨rfl, rfl⟩ | ⟨rfl, rfl⟩) <;>
        simp only [addOp, addOffset, mapColor, compD, colorVal, component, toDouble, if_true, reduceCtorEq,
          if_false, Bool.false_eq_true]
    · simp only [addOp, addOffset, mapColor, compD, colorVal, component, toDouble, if_true, reduceCtorEq,
          if_false, Bool.false_eq_true]
    · simp only [addOp, addOffset, mapColor, compD, colorVal, component, toDouble, if_true, reduceCtorEq,
          if_false, Bool.false_eq_true]

example : number (α := Nat) (.int 3 []) = some (ofInt f64 3, []) := rfl

/-! ### C26 -/

theorem repeatStr_eq (s : Str) (n : Nat) : repeatStr s n = (List.replicate n s).flatten := by
  induction n with
  | zero => rfl
  | succ n ih => rw [repeatStr, ih, List.replicate_succ, List.flatten_cons]

/-- C26: a string times an integer, in any order and whatever the dimension, is that many copies of the
string; a negative number or another operator is an error. -/
theorem C26_strings (font : Bool) (s : Str) (n : Int) (d : Str) (l r : Val α)
    (h : (l = .str s ∧ r = .int n d) ∨ (l = .int n d ∧ r = .str s)) :
    (0 ≤ n → mulOp font .mul l r = .ret (some (.str (List.replicate n.toNat s).flatten)) []) ∧
    (n < 0 → ∃ e, mulOp font .mul l r = .ret none [e]) ∧
    (∀ op, op ≠ .mul → ∃ e, mulOp font op l r = .ret none [e]) := by
  have hm : ∀ op, mulOp font op l r = mulStr op s n := by
    intro op; rcases h with ⟨rfl, rfl⟩ | ⟨rfl, rfl⟩ <;> rfl
  simp only [hm]
  unfold mulStr
  refine ⟨fun hn => ?_, fun hn => ⟨.strCount, ?_⟩, fun op ho => ⟨.strOp, ?_⟩⟩
  · rw [if_neg (by simp), if_neg (by omega), repeatStr_eq]
  · rw [if_neg (by simp), if_pos hn]
  · rw [if_pos ho]

example : (List.replicate 3 b!"ab").flatten = b!"ababab" := by decide

/-- Only 64 bits of a range are used. -/
theorem rangeToStart_mod (m : Nat) : URange.rangeToStart (m % 18446744073709551616) = URange.rangeToStart m := by
  unfold URange.rangeToStart
  have h : ∀ a : Nat, a &&& 0xFFFFFFFF = a % 4294967296 := fun a => Nat.and_two_pow_sub_one_eq_mod a 32
  simp only [h]
  congr 1
  omega

theorem rangeToEnd_mod (m : Nat) : URange.rangeToEnd (m % 18446744073709551616) = URange.rangeToEnd m := by
  unfold URange.rangeToEnd
  have h : ∀ a : Nat, a &&& 0xFFFFFFFF = a % 4294967296 := fun a => Nat.and_two_pow_sub_one_eq_mod a 32
  have h2 : ∀ a : Nat, a >>> 32 = a / 4294967296 := fun a => Nat.shiftRight_eq_div_pow a 32
  simp only [h, h2]
  congr 1
  omega

/-- C26: the product of two unicode ranges is their intersection: `null` when it is empty, otherwise the
range of the common characters. -/
theorem C26_ranges (font : Bool) (l r : Int)
    (hl : URange.ValidPair (URange.UR.mk (toU64 l)).getStart (URange.UR.mk (toU64 l)).getEnd)
    (hr : URange.ValidPair (URange.UR.mk (toU64 r)).getStart (URange.UR.mk (toU64 r)).getEnd) :
    (mulOp (α := α) font .mul (.range l) (.range r) = .ret (some .null) [] ∧
      ∀ c, ¬ (URange.Covers (toU64 l) c ∧ URange.Covers (toU64 r) c)) ∨
    ∃ m, mulOp (α := α) font .mul (.range l) (.range r) = .ret (some (.range m)) [] ∧
      ∀ c, URange.Covers (toU64 m) c ↔ URange.Covers (toU64 l) c ∧ URange.Covers (toU64 r) c := by
  have hm : mulOp (α := α) font .mul (.range l) (.range r) = mulRange .mul l r := rfl
  rw [hm]
  unfold mulRange
  rw [if_neg (by simp)]
  rcases URange.C13_mul_is_intersection _ _ hl hr with ⟨h, hc⟩ | ⟨m, h, hv, _, hc⟩
  · rw [h]; exact .inl ⟨rfl, hc⟩
  · rw [h]
    refine .inr ⟨wrap64 m, rfl, ?_⟩
    have hm : toU64 (wrap64 m) = m % 18446744073709551616 := by
      unfold toU64 wrap64
      omega
    intro c
    rw [← hc c]
    unfold URange.Covers URange.UR.getStart URange.UR.getEnd
    rw [hm, rangeToStart_mod, rangeToEnd_mod]

/-- C26: a range or `null` with `null` gives `null`; the other operators are refused on ranges. -/
theorem C26_null (font : Bool) (l r : Val α) (h : (l = .null ∧ (r = .null ∨ ∃ i, r = .range i)) ∨
    ((∃ i, l = .range i) ∧ r = .null)) :
    mulOp font .mul l r = .ret (some .null) [] ∧
    ∀ op, op ≠ .mul → ∃ e, mulOp font op l r = .ret none [e] := by
  rcases h with ⟨rfl, rfl | ⟨i, rfl⟩⟩ | ⟨⟨i, rfl⟩, rfl⟩ <;>
    (refine ⟨rfl, fun op ho => ⟨.rangeOp, ?_⟩⟩; simp [mulOp, ho])

theorem C26_ranges_refused (font : Bool) (op : MulOp) (ho : op ≠ .mul) (a b : Int) :
    ∃ e, mulOp (α := α) font op (.range a) (.range b) = .ret none [e] :=
  ⟨.rangeOp, by simp [mulOp, mulRange, ho]⟩

/-- A number without dimension, or a percentage. -/
def factor : Val α → Option Fp
  | .int i [] => some (ofInt f64 i)
  | .dec x [] => some x
  | .pct x => some x
  | _ => none

/-- C26: a color times, divided by or modulo a number, component by component; a number times a color.
A number with a dimension, and a number divided by a color, are refused. -/
theorem C26_color_factor (font : Bool) (c : Color.Color) (v : Val α) (y : Fp) (hv : factor v = some y) :
    (∀ op, mulOp font op (.color c) v = .ret (some (colorVal (component (fpResult op) c.red y)
      (component (fpResult op) c.green y) (component (fpResult op) c.blue y)
      (component (fpResult op) c.alpha y))) []) ∧
    mulOp font .mul v (.color c) = mulOp font .mul (.color c) v ∧
    ∀ op, op ≠ .mul → ∃ e, mulOp font op v (.color c) = .ret none [e] := by
  have hv : (∃ i, v = .int i [] ∧ y = ofInt f64 i) ∨ v = .dec y [] ∨ v = .pct y := by
    cases v with
    | int i d =>
      cases d with
      | nil => left; exact ⟨i, rfl, (Option.some.inj hv).symm⟩
      | cons => cases hv
    | dec x d =>
      cases d with
      | nil => cases hv; exact .inr (.inl rfl)
      | cons => cases hv
    | pct x => cases hv; exact .inr (.inr rfl)
    | _ => cases hv
  have hc : ∀ op (y : Fp), (mulColor op c y [] : Out (Val α)) = .ret (some (colorVal (component (fpResult op) c.red y)
      (component (fpResult op) c.green y) (component (fpResult op) c.blue y)
      (component (fpResult op) c.alpha y))) [] := by
    intro op y
    unfold mulColor
    rw [if_pos rfl]
    unfold colorVal mapColor component compD
    cases op
    · rfl
    · rfl
    · rfl
  rcases hv with ⟨i, h1, h2⟩ | h1 | h1
  all_goals
    refine ⟨fun op => ?_, ?_, fun op ho => ⟨.numOverColor, ?_⟩⟩
    · rw [← hc op, h1]; unfold mulOp; dsimp only [toDouble]; try rw [h2]
    · rw [h1]; simp only [mulOp, ne_eq, not_true_eq_false, if_false]
    · rw [h1]; simp [mulOp, ho]

theorem C26_color_unit (font : Bool) (op : MulOp) (c : Color.Color) (i : Int) (x : Fp) (d : Str) (hd : d ≠ []) :
    (∃ e, mulOp (α := α) font op (.color c) (.int i d) = .ret none [e]) ∧
    (∃ e, mulOp (α := α) font op (.color c) (.dec x d) = .ret none [e]) ∧
    (∃ e, mulOp (α := α) font op (.int i d) (.color c) = .ret none [e]) ∧
    ∃ e, mulOp (α := α) font op (.dec x d) (.color c) = .ret none [e] := by
  have h : ∀ c y, (mulColor op c y d : Out (Val α)) = .ret none [.factorUnit] := by
    intro c y; simp [mulColor, hd]
  refine ⟨⟨_, h _ _⟩, ⟨_, h _ _⟩, ?_, ?_⟩
  · by_cases ho : op ≠ .mul
    · exact ⟨.numOverColor, by simp [mulOp, ho]⟩
    · exact ⟨.factorUnit, by simp only [mulOp, if_neg ho]; exact h _ _⟩
  · by_cases ho : op ≠ .mul
    · exact ⟨.numOverColor, by simp [mulOp, ho]⟩
    · exact ⟨.factorUnit, by simp only [mulOp, if_neg ho]; exact h _ _⟩

/-- A float that is 0 or -0. -/
def Zero (x : Fp) : Prop := ∃ neg, x = .fin neg 0

theorem isZero_iff (x : Fp) : isZero x = true ↔ Zero x := by
  unfold isZero Zero
  cases x with
  | nan => simp [eq, le]
  | inf n => cases n <;> simp [eq, le]
  | fin n m =>
    constructor
    · intro h
      refine ⟨n, ?_⟩
      congr 1
      cases n <;> simp [eq, le, signed] at h <;> omega
    · rintro ⟨k, e⟩
      cases e
      cases n <;> rfl

/-- The operations on floats. -/
def floatResult : MulOp → Fp → Fp → Fp
  | .mul, x, y => Flt.mul f32 x y
  | .div, x, y => Flt.div f32 x y
  | .mod, x, y => fmod x y

/-- C26: two colors, component by component; / and % are refused when a component of the second color is
zero. -/
theorem C26_color_color (font : Bool) (op : MulOp) (l r : Color.Color) :
    (op ≠ .mul → (Zero r.red ∨ Zero r.green ∨ Zero r.blue ∨ Zero r.alpha) →
      ∃ e, mulOp (α := α) font op (.color l) (.color r) = .ret none [e]) ∧
    (op = .mul ∨ ¬ (Zero r.red ∨ Zero r.green ∨ Zero r.blue ∨ Zero r.alpha) →
      mulOp (α := α) font op (.color l) (.color r) =
        .ret (some (colorVal (floatResult op l.red r.red) (floatResult op l.green r.green)
          (floatResult op l.blue r.blue) (floatResult op l.alpha r.alpha))) []) := by
  have hm : mulOp (α := α) font op (.color l) (.color r) = mulColors op l r := rfl
  rw [hm]
  unfold mulColors
  simp only [← isZero_iff]
  refine ⟨fun ho hz => ⟨.colorZero, ?_⟩, fun h => ?_⟩
  · rw [if_pos]
    refine ⟨ho, ?_⟩
    simpa [or_assoc] using hz
  · rw [if_neg]
    · cases op <;> rfl
    · rintro ⟨h1, h2⟩
      rcases h with h | h
      · exact h1 h
      · apply h; simpa [or_assoc] using h2

/-- The operands that * / and % accept, with the right operator. -/
inductive Multipliable : MulOp → Val α → Val α → Prop where
  | numbers (op) {l r : Val α} {x y} {d e} : number l = some (x, d) → number r = some (y, e) → Multipliable op l r
  | percentLeft (op x) {r : Val α} {y e} : number r = some (y, e) → Multipliable op (.pct x) r
  | percentRight (op y) {l : Val α} {x d} : number l = some (x, d) → Multipliable op l (.pct y)
  | percents (op x y) : Multipliable op (.pct x) (.pct y)
  | copies (s n d) : Multipliable .mul (.str s) (.int n d)
  | copies' (s n d) : Multipliable .mul (.int n d) (.str s)
  | ranges (a b) : Multipliable .mul (.range a) (.range b)
  | nulls : Multipliable .mul .null .null
  | nullRange (a) : Multipliable .mul .null (.range a)
  | rangeNull (a) : Multipliable .mul (.range a) .null
  | colors (op a b) : Multipliable op (.color a) (.color b)
  | colorFactor (op c) {v : Val α} {y} : factor v = some y → Multipliable op (.color c) v
  | factorColor (c) {v : Val α} {y} : factor v = some y → Multipliable .mul v (.color c)

/-- C26: any other operands have no result and exactly one error. -/
theorem C26_others (font : Bool) (op : MulOp) (l r : Val α) (h : ¬ Multipliable op l r) :
    ∃ e, mulOp font op l r = .ret none [e] := by
  have unit : ∀ c y (d : Str), d ≠ [] → (mulColor op c y d : Out (Val α)) = .ret none [.factorUnit] := by
    intro c y d hd; simp [mulColor, hd]
  cases l <;> cases r
  all_goals first
    | exact ⟨.mulTypes, rfl⟩
    | exact absurd (Multipliable.numbers op rfl rfl) h
    | exact absurd (Multipliable.percentLeft op _ rfl) h
    | exact absurd (Multipliable.percentRight op _ rfl) h
    | exact absurd (Multipliable.percents op _ _) h
    | exact absurd (Multipliable.colors op _ _) h
    | exact absurd (Multipliable.colorFactor op _ rfl) h
    | (by_cases ho : op = .mul
       · subst ho
         first
          | exact absurd (Multipliable.copies _ _ _) h
          | exact absurd (Multipliable.copies' _ _ _) h
          | exact absurd (Multipliable.ranges _ _) h
          | exact absurd (Multipliable.nulls) h
          | exact absurd (Multipliable.nullRange _) h
          | exact absurd (Multipliable.rangeNull _) h
          | exact absurd (Multipliable.factorColor _ rfl) h
          | (rename_i i d c
             refine ⟨.factorUnit, unit _ _ _ (fun e => ?_)⟩
             subst e
             exact h (.factorColor _ rfl))
       · first
          | (refine ⟨.numOverColor, ?_⟩; simp [mulOp, ho]; done)
          | (refine ⟨.strOp, ?_⟩; simp [mulOp, mulStr, ho]; done)
          | (refine ⟨.rangeOp, ?_⟩; simp [mulOp, mulRange, ho]; done)
          | (rename_i c i d
             refine ⟨.factorUnit, unit _ _ _ (fun e => ?_)⟩
             subst e
             exact h (.colorFactor _ _ rfl)))
    | (rename_i c i d
       refine ⟨.factorUnit, unit _ _ _ (fun e => ?_)⟩
       subst e
       exact h (.colorFactor _ _ rfl))

example : ¬ Multipliable (α := Nat) .mul (.str b!"a") (.str b!"b") := by
  intro h
  cases h with
  | numbers _ h => cases h

/-- C26: when a division makes font metrics (the `font` shorthand), two numbers or percentages are kept
with their dimensions, "%" for a percentage; every other operation is unchanged. -/
theorem C26_font (l r : Val α) :
    (∀ x d y e, (number l = some (x, d) ∨ (l = .pct x ∧ d = b!"%")) →
      (number r = some (y, e) ∨ (r = .pct y ∧ e = b!"%")) →
      mulOp true .div l r = .ret (some (.font x y d e)) []) ∧
    (∀ op, op ≠ .div → mulOp true op l r = mulOp false op l r) := by
  constructor
  · intro x d y e hl hr
    cases l <;> simp only [number, Option.some.injEq, Prod.mk.injEq, reduceCtorEq, false_and, or_false, false_or, Val.pct.injEq] at hl
    all_goals
      cases r <;> simp only [number, Option.some.injEq, Prod.mk.injEq, reduceCtorEq, false_and, or_false, false_or, Val.pct.injEq] at hr
    all_goals
      obtain ⟨rfl, rfl⟩ := hl
      obtain ⟨rfl, rfl⟩ := hr
      rfl
  · intro op ho
    cases l <;> cases r <;> simp [mulOp, orFont, ho]

/-! ### C30: the operators -/

/-- The operators of each level, as they are written. -/
def spelling : List (Bin × Tok × BinOp) :=
  [(.mul, .sym .MULTIPLY, .mul .mul), (.mul, .ident b!"mul", .mul .mul),
   (.mul, .sym .DIVIDE, .mul .div), (.mul, .ident b!"div", .mul .div),
   (.mul, .sym .MODULO, .mul .mod), (.mul, .ident b!"mod", .mul .mod),
   (.add, .sym .ADD, .add false), (.add, .sym .SUBTRACT, .add true),
   (.rel, .sym .LESS_THAN, .cmp .lt), (.rel, .sym .LESS_EQUAL, .cmp .le),
   (.rel, .sym .GREATER_THAN, .cmp .gt), (.rel, .sym .GREATER_EQUAL, .cmp .ge),
   (.equ, .sym .EQUAL, .cmp .eq), (.equ, .sym .NOT_EQUAL, .cmp .ne), (.equ, .ident b!"not-equal", .cmp .ne),
   (.equ, .sym .INCLUDE_MATCH, .cmp (.mat .include)), (.equ, .sym .PREFIX_MATCH, .cmp (.mat .prefix)),
   (.equ, .sym .SUFFIX_MATCH, .cmp (.mat .suffix)), (.equ, .sym .SUBSTRING_MATCH, .cmp (.mat .substring)),
   (.equ, .sym .DASH_MATCH, .cmp (.mat .dash)),
   (.and, .sym .AND, .logic false), (.and, .ident b!"and", .logic false),
   (.or, .sym .COLUMN, .logic true), (.or, .ident b!"or", .logic true)]

/-- C30: an operator is recognized exactly when it is in the table. -/
theorem C30_operators (b : Bin) (t : Tok) (op : BinOp) : opOf b t = some op ↔ (b, t, op) ∈ spelling := by
  constructor
  · intro h
    cases b <;> simp only [opOf] at h
    · unfold mulOf at h
      split at h
      · split at h
        · rename_i e; subst e; cases h; simp [spelling]
        · split at h
          · rename_i e; subst e; cases h; simp [spelling]
          · split at h
            · rename_i e; subst e; cases h; simp [spelling]
            · cases h
      all_goals first | (cases h; simp [spelling]; done) | cases h
    · unfold addOf at h
      split at h
      all_goals first | (cases h; simp [spelling]; done) | cases h
    · unfold relOf at h
      split at h
      all_goals first | (cases h; simp [spelling]; done) | cases h
    · unfold equOf at h
      split at h
      all_goals first
        | (cases h; simp [spelling]; done)
        | (cases h; done)
        | (split at h
           · rename_i e; subst e; cases h; simp [spelling]
           · cases h)
    · unfold andOf at h
      split at h
      · split at h
        · rename_i e; subst e; cases h; simp [spelling]
        · cases h
      all_goals first | (cases h; simp [spelling]; done) | cases h
    · unfold orOf at h
      split at h
      · split at h
        · rename_i e; subst e; cases h; simp [spelling]
        · cases h
      all_goals first | (cases h; simp [spelling]; done) | cases h
  · intro h
    simp only [spelling, List.mem_cons, Prod.mk.injEq, List.not_mem_nil, or_false] at h
    rcases h with ⟨rfl, rfl, rfl⟩ | ⟨rfl, rfl, rfl⟩ | ⟨rfl, rfl, rfl⟩ | ⟨rfl, rfl, rfl⟩ | ⟨rfl, rfl, rfl⟩ |
      ⟨rfl, rfl, rfl⟩ | ⟨rfl, rfl, rfl⟩ | ⟨rfl, rfl, rfl⟩ | ⟨rfl, rfl, rfl⟩ | ⟨rfl, rfl, rfl⟩ |
      ⟨rfl, rfl, rfl⟩ | ⟨rfl, rfl, rfl⟩ | ⟨rfl, rfl, rfl⟩ | ⟨rfl, rfl, rfl⟩ | ⟨rfl, rfl, rfl⟩ |
      ⟨rfl, rfl, rfl⟩ | ⟨rfl, rfl, rfl⟩ | ⟨rfl, rfl, rfl⟩ | ⟨rfl, rfl, rfl⟩ | ⟨rfl, rfl, rfl⟩ |
      ⟨rfl, rfl, rfl⟩ | ⟨rfl, rfl, rfl⟩ | ⟨rfl, rfl, rfl⟩ | ⟨rfl, rfl, rfl⟩ <;> rfl

/-- C30: the power operator is `**` or `pow`. -/
theorem C30_power (t : Tok) : powOf t = true ↔ t = .sym .POWER ∨ t = .ident b!"pow" := by
  constructor
  · intro h
    unfold powOf at h
    split at h
    · exact .inr (by rw [show _ = _ from (beq_iff_eq.1 h)])
    · exact .inl rfl
    · cases h
  · rintro (h | h) <;> subst h <;> rfl

/-! ### C51: powers -/

theorem repeatUnits_count (u : Str) (l : List Str) (n : Nat) : (repeatUnits l n).count u = n * l.count u := by
  induction n with
  | zero => simp [repeatUnits]
  | succ n ih => rw [repeatUnits, List.count_append, ih, Nat.succ_mul, Nat.add_comm]

/-- The double is the integer p. -/
def Whole (y : Fp) (p : Int) : Prop := ∃ neg k, y = .fin neg (k * 2 ^ 1074) ∧ p = if neg then -(k : Int) else k

/-- The value of an exponent: its double and, if it is an integer, the integer. -/
inductive Exponent : Val α → Fp → Option Int → Prop where
  | int (b) : Exponent (.int b []) (ofInt f64 b) (some b)
  | whole (y p) : Whole y p → Exponent (.dec y []) y (some p)
  | fraction (y) : (∀ p, ¬ Whole y p) → (∀ n, y ≠ .inf n) → Exponent (.dec y []) y none

theorem modf_fin (a : Bool) (x : Nat) : modf (.fin a x) =
    if x % 2 ^ 1074 ≠ 0 then .fraction else .whole (signed a (x / 2 ^ 1074)) := by rw [modf]

theorem modf_whole {y : Fp} {p : Int} (h : Whole y p) : modf y = .whole p := by
  obtain ⟨neg, k, rfl, rfl⟩ := h
  rw [modf_fin]
  have hpos : 0 < 2 ^ 1074 := Nat.pow_pos (by decide)
  generalize 2 ^ 1074 = D at *
  rw [if_neg (by rw [Nat.mul_mod_left]; simp), Nat.mul_div_cancel _ hpos]
  rfl

theorem modf_fraction {y : Fp} (h : ∀ p, ¬ Whole y p) (hi : ∀ n, y ≠ .inf n) : modf y = .fraction := by
  cases y with
  | nan => rfl
  | inf n => exact absurd rfl (hi n)
  | fin a x =>
    rw [modf_fin]
    unfold Whole at h
    generalize 2 ^ 1074 = D at *
    by_cases hx : x % D = 0
    · exact absurd ⟨a, x / D, by rw [Nat.div_mul_cancel (Nat.dvd_of_mod_eq_zero hx)], rfl⟩
        (h (if a then -((x / D : Nat) : Int) else ((x / D : Nat) : Int)))
    · rw [if_pos hx]

/-- The type of the base without its dimension. -/
inductive Base : Val α → Fp → Str → Prop where
  | int (a d) : Base (.int a d) (ofInt f64 a) d
  | dec (x d) : Base (.dec x d) x d

/-- C51: a number with a dimension, to a whole power between 1 and 100 or -1 and -100: the value is the
one of pow() (a decimal number unless both are integers) and the exponent of every unit is multiplied by
the power; there is no error. -/
theorem C51_units (pow : Fp → Fp → Fp) (l r : Val α) (x y : Fp) (num den : List Str) (p : Int)
    (hl : Base l x (Dim.rebuild num den)) (hr : Exponent r y (some p)) (hp : p ≠ 0) (hp2 : p.natAbs ≤ 100)
    (hn : ∀ u ∈ num, Spec.IsUnit u) (hd : ∀ u ∈ den, Spec.IsUnit u) (h1 : ¬ (num = [b!"1"] ∧ den ≠ []))
    (hne : num ≠ [] ∨ den ≠ []) :
    ∃ num' den', (∀ u, Spec.exponent u num' den' = p * Spec.exponent u num den) ∧
      ((isInt l && isInt r) = false →
        powOp pow l r = .ret (some (.dec (pow x y) (Dim.rebuild num' den'))) []) ∧
      ((isInt l && isInt r) = true →
        powOp pow l r =
          match toInt f64 (-9223372036854775808) 9223372036854775807 (pow x y) with
          | none => .undef
          | some v => .ret (some (.int v (Dim.rebuild num' den'))) []) := by
  have hdim : Dim.rebuild num den ≠ [] := by
    unfold Dim.rebuild
    rw [if_neg (by rintro ⟨a, b⟩; rcases hne with h | h <;> contradiction)]
    intro e
    rw [List.append_eq_nil_iff] at e
    by_cases hnum : num = []
    · rw [if_pos hnum] at e; cases e.1
    · rw [if_neg hnum] at e
      cases num with
      | nil => exact hnum rfl
      | cons a t =>
        cases t with
        | nil => exact (hn a (by simp)).1 e.1
        | cons b t => simp [Dim.joinStar] at e
  have key : ∃ num' den', (∀ u, Spec.exponent u num' den' = p * Spec.exponent u num den) ∧
      powDim (Dim.rebuild num den) p = (.ok (Dim.rebuild num' den'), []) := by
    unfold powDim
    rw [if_neg hp, if_neg (by omega), Dim.C24_reread num den hn hd h1]
    dsimp only
    rw [List.nil_append, List.nil_append]
    by_cases h0 : 0 ≤ p
    · rw [if_pos h0]
      refine ⟨_, _, fun u => ?_, rfl⟩
      unfold Spec.exponent
      rw [repeatUnits_count, repeatUnits_count]
      have : (p.natAbs : Int) = p := by omega
      rw [Int.natCast_mul, Int.natCast_mul, this, Int.mul_sub]
    · rw [if_neg h0]
      dsimp only
      refine ⟨_, _, fun u => ?_, rfl⟩
      unfold Spec.exponent
      rw [repeatUnits_count, repeatUnits_count]
      have : (p.natAbs : Int) = -p := by omega
      rw [Int.natCast_mul, Int.natCast_mul, this, Int.neg_mul, Int.neg_mul, Int.mul_sub]
      omega
  obtain ⟨num', den', he, hk⟩ := key
  have hw : ∀ mk : Str → Val α, withPowDim (Dim.rebuild num den) (.whole p) mk =
      .ret (some (mk (Dim.rebuild num' den'))) [] := by
    intro mk
    unfold withPowDim
    rw [if_neg hdim]
    dsimp only
    rw [if_neg (by unfold IsI64; omega), if_neg (by omega), hk]
  refine ⟨num', den', he, fun hi => ?_, fun hi => ?_⟩
  · generalize Dim.rebuild num den = D at *
    cases hl <;> cases hr
    · cases hi
    · rename_i hwh
      simp only [powOp, ne_eq, not_true_eq_false, if_false, modf_whole hwh, toDouble, hw]
    · simp only [powOp, ne_eq, not_true_eq_false, if_false, toDouble, hw]
    · rename_i hwh
      simp only [powOp, ne_eq, not_true_eq_false, if_false, modf_whole hwh, hw]
  · generalize Dim.rebuild num den = D at *
    cases hl <;> cases hr
    · simp only [powOp, ne_eq, not_true_eq_false, if_false, toDouble, hw]
      rfl
    all_goals cases hi

/-- C51: the power of a number with a dimension has no value and one error when it is zero, over 100 in
absolute value (within 64 bits), or has a fraction. -/
theorem C51_refused (pow : Fp → Fp → Fp) (l r : Val α) (x y : Fp) (d : Str) (q : Option Int)
    (hl : Base l x d) (hd : d ≠ []) (hr : Exponent r y q)
    (hq : ∀ p, q = some p → p = 0 ∨ (100 < p.natAbs ∧ IsI64 p ∧ p ≠ -9223372036854775808))
    (hi : (isInt l && isInt r) = false ∨
      toInt f64 (-9223372036854775808) 9223372036854775807 (pow x y) ≠ none) :
    ∃ e, powOp pow l r = .ret none [e] := by
  have hw : ∀ p (mk : Str → Val α), q = some p → ∃ e, withPowDim d (.whole p) mk = .ret none [e] := by
    intro p mk hqp
    unfold withPowDim
    rw [if_neg hd]
    dsimp only
    rcases hq p hqp with h | ⟨h, h2, h3⟩
    · rw [if_neg (by unfold IsI64; omega), if_neg (by omega)]
      exact ⟨.powZero, by simp [powDim, h]⟩
    · rw [if_neg (by simpa using h2), if_neg h3]
      have hp0 : p ≠ 0 := by omega
      exact ⟨.powLarge, by simp [powDim, h, hp0]⟩
  have hf : ∀ mk : Str → Val α, withPowDim d .fraction mk = .ret none [.powFraction] := by
    intro mk; simp [withPowDim, hd]
  cases hl <;> cases hr
  · simp only [powOp, ne_eq, not_true_eq_false, if_false, toDouble]
    rcases hi with hi | hi
    · cases hi
    · cases ht : toInt f64 (-9223372036854775808) 9223372036854775807 (pow _ _) with
      | none => exact absurd ht hi
      | some v => exact hw _ _ rfl
  · rename_i hwh
    simp only [powOp, ne_eq, not_true_eq_false, if_false, modf_whole hwh]
    exact hw _ _ rfl
  · rename_i h1 h2
    simp only [powOp, ne_eq, not_true_eq_false, if_false, modf_fraction h1 h2]
    exact ⟨_, hf _⟩
  · simp only [powOp, ne_eq, not_true_eq_false, if_false]
    exact hw _ _ rfl
  · rename_i hwh
    simp only [powOp, ne_eq, not_true_eq_false, if_false, modf_whole hwh]
    exact hw _ _ rfl
  · rename_i h1 h2
    simp only [powOp, ne_eq, not_true_eq_false, if_false, modf_fraction h1 h2]
    exact ⟨_, hf _⟩

/-- C51: without dimension the value is the one of pow(): a percentage for a percentage, an integer (with
the fraction dropped, undefined when it does not fit 64 bits) for two integers, else a decimal number. -/
theorem C51_plain (pow : Fp → Fp → Fp) :
    (∀ (l r : Val α) x y, Base l x [] → number r = some (y, []) → (isInt l && isInt r) = false →
      powOp pow l r = .ret (some (.dec (pow x y) [])) []) ∧
    (∀ a b : Int, powOp pow (α := α) (.int a []) (.int b []) =
      match toInt f64 (-9223372036854775808) 9223372036854775807 (pow (ofInt f64 a) (ofInt f64 b)) with
      | none => .undef
      | some v => .ret (some (.int v [])) []) ∧
    (∀ (r : Val α) x y, number r = some (y, []) → powOp pow (.pct x) r = .ret (some (.pct (pow x y))) []) := by
  refine ⟨fun l r x y hl hr hi => ?_, fun a b => ?_, fun r x y hr => ?_⟩
  · cases r <;> simp only [number, Option.some.injEq, Prod.mk.injEq, reduceCtorEq] at hr
    all_goals
      obtain ⟨rfl, rfl⟩ := hr
      cases hl <;> first
        | (cases hi; done)
        | simp only [powOp, withPowDim, toDouble, ne_eq, not_true_eq_false, if_false, if_true]
  · simp only [powOp, withPowDim, toDouble, ne_eq, not_true_eq_false, if_false, if_true]
    rfl
  · cases r <;> simp only [number, Option.some.injEq, Prod.mk.injEq, reduceCtorEq] at hr
    all_goals
      obtain ⟨rfl, rfl⟩ := hr
      simp [powOp, toDouble]

/-- C51: the exponent cannot have a dimension, and the operands have to be numbers (the base may be a
percentage, the exponent may not). -/
theorem C51_types (pow : Fp → Fp → Fp) (l r : Val α)
    (h : (∃ y d, number r = some (y, d) ∧ d ≠ []) ∨ number r = none ∨ (number l = none ∧ ∀ x, l ≠ .pct x)) :
    ∃ e, powOp pow l r = .ret none [e] := by
  rcases h with ⟨y, d, hr, hd⟩ | hr | ⟨hl, hp⟩
  · cases r <;> simp only [number, Option.some.injEq, Prod.mk.injEq, reduceCtorEq] at hr
    all_goals
      obtain ⟨rfl, rfl⟩ := hr
      cases l <;> exact ⟨.powUnit, by simp [powOp, hd]⟩
  · cases r <;> simp only [number, reduceCtorEq] at hr
    all_goals
      cases l <;> exact ⟨.powTypes, rfl⟩
  · cases l <;> simp only [number, reduceCtorEq] at hl
    all_goals
      cases r with
      | int i d =>
        by_cases hd : d = []
        · first
          | exact absurd rfl (hp _)
          | (refine ⟨.powTypes, ?_⟩; simp [powOp, hd])
        · exact ⟨.powUnit, by simp [powOp, hd]⟩
      | dec i d =>
        by_cases hd : d = []
        · first
          | exact absurd rfl (hp _)
          | (refine ⟨.powTypes, ?_⟩; simp [powOp, hd])
        · exact ⟨.powUnit, by simp [powOp, hd]⟩
      | _ => exact ⟨.powTypes, rfl⟩

/-- (3 px/s) ** -2 meets the hypotheses of C51_units. -/
example : Base (α := Nat) (.int 3 b!"px / s") (ofInt f64 3) (Dim.rebuild [b!"px"] [b!"s"]) := .int _ _
example : Exponent (α := Nat) (.int (-2) []) (ofInt f64 (-2)) (some (-2)) := .int _
example : Whole (ofInt f64 2) 2 := ⟨false, 2, by decide +kernel, rfl⟩
example : powDim b!"px / s" (-2) = (.ok b!"s * s / px * px", []) := rfl

/-! ### C52: truth values -/

/-- The values that are false. -/
inductive False' : Val α → Prop where
  | bool : False' (.bool false)
  | ident : False' (.ident b!"false")
  | identNull : False' (.ident b!"null")
  | null : False' .null
  | int (d) : False' (.int 0 d)
  | dec (x d) : Zero x → False' (.dec x d)
  | pct (x) : Zero x → False' (.pct x)
  | str : False' (.str [])
  | array : False' (.array [])
  | map : False' (.map [])
  /-- black, whatever its transparency -/
  | color (c rgba) : Color.getColor c = some rgba → rgba % 16777216 = 0 → False' (.color c)

/-- The values that are true. -/
inductive True' : Val α → Prop where
  | bool : True' (.bool true)
  | ident : True' (.ident b!"true")
  | int (i d) : i ≠ 0 → True' (.int i d)
  | dec (x d) : ¬ Zero x → True' (.dec x d)
  | pct (x) : ¬ Zero x → True' (.pct x)
  | str (s) : s ≠ [] → True' (.str s)
  | array (l) : l ≠ [] → True' (.array l)
  | map (l) : l ≠ [] → True' (.map l)
  | color (c rgba) : Color.getColor c = some rgba → rgba % 16777216 ≠ 0 → True' (.color c)

theorem toBoolean_of (v : Val α) : (True' v → toBoolean v = some (some true)) ∧
    (False' v → toBoolean v = some (some false)) := by
  constructor
  · intro h
    cases h with
    | bool => rfl
    | ident => rfl
    | int i d h => simp [toBoolean, h]
    | dec x d h =>
      have : isZero x = false := by rw [← Bool.not_eq_true, isZero_iff]; exact h
      simp [toBoolean, this]
    | pct x h =>
      have : isZero x = false := by rw [← Bool.not_eq_true, isZero_iff]; exact h
      simp [toBoolean, this]
    | str s h => cases s <;> first | exact absurd rfl h | rfl
    | array s h => cases s <;> first | exact absurd rfl h | rfl
    | map s h => cases s <;> first | exact absurd rfl h | rfl
    | color c rgba h h2 => simp only [toBoolean, h, Option.map_some]; simp [h2]
  · intro h
    cases h with
    | dec x d h => simp [toBoolean, (isZero_iff x).2 h]
    | pct x h => simp [toBoolean, (isZero_iff x).2 h]
    | color c rgba h h2 => simp only [toBoolean, h, Option.map_some]; simp [h2]
    | ident => rfl
    | identNull => rfl
    | _ => rfl

/-- C52: the truth value of a value: true, false, or (anything else) an error and false; it is undefined
only for a color with NaN in it. -/
theorem C52_truth (v : Val α) (hc : ∀ c, v = .color c → Color.getColor c ≠ none) :
    (True' v ↔ boolVal v = .ret true []) ∧ (False' v ↔ boolVal v = .ret false []) ∧
    ((¬ True' v ∧ ¬ False' v) ↔ ∃ e, boolVal v = .ret false [e]) := by
  have cases3 : True' v ∨ False' v ∨ (toBoolean v = some none) := by
    cases v with
    | bool b => cases b; exact .inr (.inl .bool); exact .inl .bool
    | ident s =>
      by_cases h1 : s = b!"true"
      · subst h1; exact .inl .ident
      · by_cases h2 : s = b!"false"
        · subst h2; exact .inr (.inl .ident)
        · by_cases h3 : s = b!"null"
          · subst h3; exact .inr (.inl .identNull)
          · right; right; simp [toBoolean, h1, h2, h3]
    | int i d => by_cases h : i = 0; (subst h; exact .inr (.inl (.int d))); exact .inl (.int i d h)
    | dec x d => by_cases h : Zero x; exact .inr (.inl (.dec x d h)); exact .inl (.dec x d h)
    | pct x => by_cases h : Zero x; exact .inr (.inl (.pct x h)); exact .inl (.pct x h)
    | str s => by_cases h : s = []; (subst h; exact .inr (.inl .str)); exact .inl (.str s h)
    | array s => by_cases h : s = []; (subst h; exact .inr (.inl .array)); exact .inl (.array s h)
    | map s => by_cases h : s = []; (subst h; exact .inr (.inl .map)); exact .inl (.map s h)
    | color c =>
      cases hg : Color.getColor c with
      | none => exact absurd hg (hc c rfl)
      | some rgba => by_cases h : rgba % 16777216 = 0; exact .inr (.inl (.color c rgba hg h)); exact .inl (.color c rgba hg h)
    | null => exact .inr (.inl .null)
    | _ => exact .inr (.inr rfl)
  have ht := (toBoolean_of v).1
  have hf := (toBoolean_of v).2
  unfold boolVal
  rcases cases3 with h | h | h
  · have nf : ¬ False' v := fun h2 => by rw [ht h] at hf; exact absurd (hf h2) (by simp)
    rw [ht h]
    simp [h, nf]
  · have nt : ¬ True' v := fun h2 => by rw [hf h] at ht; exact absurd (ht h2) (by simp)
    rw [hf h]
    simp [h, nt]
  · have nt : ¬ True' v := fun h2 => by rw [h] at ht; exact absurd (ht h2) (by simp)
    have nf : ¬ False' v := fun h2 => by rw [h] at hf; exact absurd (hf h2) (by simp)
    rw [h]
    simp [nt, nf]

/-- C52: `and` and `or` evaluate both sides, report the errors of both (left first), and always give a
boolean. -/
theorem C52_logic (l r : Val α) (a b : Bool) (es fs : List Err) (hl : boolVal l = .ret a es)
    (hr : boolVal r = .ret b fs) :
    logicOp false l r = .ret (some (.bool (a && b))) (es ++ fs) ∧
    logicOp true l r = .ret (some (.bool (a || b))) (es ++ fs) := by
  unfold logicOp
  rw [hl, hr]
  exact ⟨rfl, rfl⟩

example : False' (α := Nat) (.color (Color.ofInts 0 0 0 255)) := .color _ 4278190080 (by decide +kernel) (by decide)
example : boolVal (α := Nat) (.ident b!"maybe") = .ret false [.boolean] := by decide +kernel

end Csspp.Expr
