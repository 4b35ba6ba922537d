import Verif.Props.FunctionsConv
import Verif.Props.Color

/-!
C76: the components of the colors.
-/

namespace Csspp.Func
open Csspp.Flt Csspp.Expr Csspp.Spec

variable {α : Type}

/-- An integer as a component, through doubles. -/
def comp (i : Int) : Fp := convert f64 f32 (by255 (ofInt f64 i))
/-- A component as an integer, through doubles. -/
def uncomp (c : Fp) : Option Int :=
  toInt f64 (-9223372036854775808) 9223372036854775807 (add f64 (mul f64 (convert f32 f64 c) (lit 255)) half)

theorem comp_byte : ∀ i : Fin 256, comp i.val = Color.component i.val ∧ uncomp (comp i.val) = some i.val := by
  decide +kernel

theorem ofInts_byte {r g b : Nat} (hr : r < 256) (hg : g < 256) (hb : b < 256) :
    ofDoubles (by255 (ofInt f64 r)) (by255 (ofInt f64 g)) (by255 (ofInt f64 b)) (lit 1) = Color.ofInts r g b 255 := by
  have h1 := (comp_byte ⟨r, hr⟩).1
  have h2 := (comp_byte ⟨g, hg⟩).1
  have h3 := (comp_byte ⟨b, hb⟩).1
  have h4 : convert f64 f32 (lit 1) = Color.component 255 := by decide +kernel
  unfold ofDoubles Color.ofInts
  unfold comp at h1 h2 h3
  rw [h1, h2, h3, h4]

theorem pack_color {r g b : Nat} (hr : r < 256) (hg : g < 256) (hb : b < 256) :
    Color.ofRgba (Color.pack r g b 255) = Color.ofInts r g b 255 := by
  unfold Color.ofRgba Color.pack
  rw [show (16777216 * 255 + 65536 * b + 256 * g + r) % 256 = r by omega,
    show (16777216 * 255 + 65536 * b + 256 * g + r) / 256 % 256 = g by omega,
    show (16777216 * 255 + 65536 * b + 256 * g + r) / 65536 % 256 = b by omega,
    show (16777216 * 255 + 65536 * b + 256 * g + r) / 16777216 % 256 = 255 by omega]
  rfl

theorem call_rgb (env : Env α) (n r g b : Int) (u1 u2 u3 : Str) :
    call env n b!"rgb" [[.int r u1], [.int g u2], [.int b u3]] =
      (.ok (.node (.color (ofDoubles (by255 (toDouble r)) (by255 (toDouble g)) (by255 (toDouble b)) (lit 1)))) [], n) := rfl

theorem ofDouble_some {x : Fp} {i : Int} (k : Int → Res α)
    (h : toInt f64 (-9223372036854775808) 9223372036854775807 x = some i) : ofDouble x k = k i := by
  unfold ofDouble
  rw [h]

theorem call_red (env : Env α) (n : Int) (c : Color.Color) {i : Int} (h : uncomp c.red = some i) :
    call env n b!"red" [[.color c]] = (.ok (.node (.int i [])) [], n) :=
  congrArg (·, n) (ofDouble_some _ h)
theorem call_green (env : Env α) (n : Int) (c : Color.Color) {i : Int} (h : uncomp c.green = some i) :
    call env n b!"green" [[.color c]] = (.ok (.node (.int i [])) [], n) :=
  congrArg (·, n) (ofDouble_some _ h)
theorem call_blue (env : Env α) (n : Int) (c : Color.Color) {i : Int} (h : uncomp c.blue = some i) :
    call env n b!"blue" [[.color c]] = (.ok (.node (.int i [])) [], n) :=
  congrArg (·, n) (ofDouble_some _ h)

/-- C76: rgb() of three bytes is the color #rrggbb, whatever the units, and red(), green() and blue() give the bytes back. -/
theorem C76_rgb (env : Env α) (n : Int) (r g b : Nat) (hr : r < 256) (hg : g < 256) (hb : b < 256) (u1 u2 u3 : Str) :
    ∃ c, call env n b!"rgb" [[.int r u1], [.int g u2], [.int b u3]] = (.ok (.node (.color c)) [], n) ∧
      c = Color.ofRgba (Color.pack r g b 255) ∧ Color.getColor c = some (Color.pack r g b 255) ∧
      call env n b!"red" [[.color c]] = (.ok (.node (.int r [])) [], n) ∧
      call env n b!"green" [[.color c]] = (.ok (.node (.int g [])) [], n) ∧
      call env n b!"blue" [[.color c]] = (.ok (.node (.int b [])) [], n) := by
  have key : ∀ i : Nat, i < 256 → uncomp (Color.component i) = some (i : Int) := by
    intro i hi
    have := comp_byte ⟨i, hi⟩
    rw [← this.1]
    exact this.2
  refine ⟨Color.ofInts r g b 255, ?_, ?_, ?_, ?_, ?_, ?_⟩
  · rw [← ofInts_byte hr hg hb]
    exact call_rgb env n _ _ _ u1 u2 u3
  · exact (pack_color hr hg hb).symm
  · exact Color.getColor_ofInts hr hg hb (by decide)
  · exact call_red env n _ (key r hr)
  · exact call_green env n _ (key g hg)
  · exact call_blue env n _ (key b hb)

theorem call_rgba (env : Env α) (n r g b : Int) (a : Fp) (u1 u2 u3 u4 : Str) :
    call env n b!"rgba" [[.int r u1], [.int g u2], [.int b u3], [.dec a u4]] =
      (.ok (.node (.color (ofDoubles (by255 (toDouble r)) (by255 (toDouble g)) (by255 (toDouble b)) a))) [], n) := rfl

/-- C76: rgba() of three bytes and an alpha is that color with the alpha rounded to a float. -/
theorem C76_rgba (env : Env α) (n : Int) (r g b : Nat) (hr : r < 256) (hg : g < 256) (hb : b < 256) (u1 u2 u3 u4 : Str) (a : Fp) :
    call env n b!"rgba" [[.int r u1], [.int g u2], [.int b u3], [.dec a u4]] =
      (.ok (.node (.color { Color.ofRgba (Color.pack r g b 255) with alpha := convert f64 f32 a })) [], n) := by
  rw [pack_color hr hg hb, ← ofInts_byte hr hg hb]
  have e : ∀ x y z w : Fp, ({ ofDoubles x y z w with alpha := convert f64 f32 a } : Color.Color) = ofDoubles x y z a :=
    fun _ _ _ _ => rfl
  rw [e]
  exact call_rgba env n _ _ _ a u1 u2 u3 u4

/-- C76: rgb() and rgba() of a color change its alpha and nothing else. Known defect: what follows is not looked at. -/
theorem C76_alpha_only (env : Env α) (n : Int) (c : Color.Color) (f : Str) (rest : Args α) :
    ((f = b!"rgb" ∨ f = b!"frgb") → rest.length ≤ 2 →
      call env n f ([.color c] :: rest) = (.ok (.node (.color { c with alpha := ofInt f32 1 })) [], n)) ∧
    ((f = b!"rgba" ∨ f = b!"frgba") → rest.length ≤ 2 → ∀ a u,
      call env n f ([.color c] :: [.dec a u] :: rest) = (.ok (.node (.color { c with alpha := convert f64 f32 a })) [], n)) := by
  constructor
  · intro hf hl
    match rest, hl with
    | [], _ => rcases hf with rfl | rfl <;> rfl
    | [_], _ => rcases hf with rfl | rfl <;> rfl
    | [_, _], _ => rcases hf with rfl | rfl <;> rfl
  · intro hf hl a u
    match rest, hl with
    | [], _ => rcases hf with rfl | rfl <;> rfl
    | [_], _ => rcases hf with rfl | rfl <;> rfl
    | [_, _], _ => rcases hf with rfl | rfl <;> rfl

end Csspp.Func
