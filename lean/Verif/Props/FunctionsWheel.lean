import Verif.Lemmas.Wheel1
import Verif.Lemmas.Wheel2
import Verif.Lemmas.Wheel3
import Verif.Lemmas.Wheel4

/-!
C80: the color wheel.
-/

namespace Csspp.Func
open Csspp.Flt Csspp.Expr Csspp.Spec

variable {α : Type}

theorem good_all {d : Nat} (hd : d < 360) : good d = true := by
  have key : ∀ q : Nat, (∀ d : Fin 30, good (q + d.val) = true) → q ≤ d → d < q + 30 → good d = true := by
    intro q h h1 h2
    have := h ⟨d - q, by omega⟩
    dsimp only at this
    rwa [show q + (d - q) = d by omega] at this
  by_cases h0 : d < 30
  · exact key 0 good_0 (by omega) h0
  by_cases h1 : d < 60
  · exact key 30 good_1 (by omega) h1
  by_cases h2 : d < 90
  · exact key 60 good_2 (by omega) h2
  by_cases h3 : d < 120
  · exact key 90 good_3 (by omega) h3
  by_cases h4 : d < 150
  · exact key 120 good_4 (by omega) h4
  by_cases h5 : d < 180
  · exact key 150 good_5 (by omega) h5
  by_cases h6 : d < 210
  · exact key 180 good_6 (by omega) h6
  by_cases h7 : d < 240
  · exact key 210 good_7 (by omega) h7
  by_cases h8 : d < 270
  · exact key 240 good_8 (by omega) h8
  by_cases h9 : d < 300
  · exact key 270 good_9 (by omega) h9
  by_cases h10 : d < 330
  · exact key 300 good_10 (by omega) h10
  exact key 330 good_11 (by omega) (by omega)

theorem bytes {o : Option Nat} {d : Nat} (h : goodBytes o d = true) :
    ∃ x y z : Nat, o = some (Color.pack x y z 255) ∧ x < 256 ∧ y < 256 ∧ z < 256 ∧
      Nearest x (wheelRed d) ∧ Nearest y (wheelGreen d) ∧ Nearest z (wheelBlue d) := by
  cases o with
  | none => cases h
  | some v =>
    obtain ⟨h2, h3, h4⟩ := of_decide_eq_true h
    refine ⟨v % 256, v / 256 % 256, v / 65536 % 256, ?_, by omega, by omega, by omega, h4⟩
    unfold Color.pack
    exact congrArg some (by omega)

/-- C80: the color wheel. hsl() of a whole number of degrees, 100% and 50% is the opaque color with the
nearest bytes of the wheel, and hue() gives the angle back up to 1/20000 degree, saturation() and lightness()
give the percentages back exactly. -/
theorem C80_wheel (env : Env α) (n : Int) (d : Nat) (hd : d < 360) :
    ∃ c r g b hue, call env n b!"hsl" [[.int d b!"deg"], [.pct (lit 1)], [.pct half]] = (.ok (.node (.color c)) [], n) ∧
      Color.getColor c = some (Color.pack r g b 255) ∧ r < 256 ∧ g < 256 ∧ b < 256 ∧
      Nearest r (wheelRed d) ∧ Nearest g (wheelGreen d) ∧ Nearest b (wheelBlue d) ∧
      call env n b!"hue" [[.color c]] = (.ok (.node (.dec hue b!"deg")) [], n) ∧
      (quanta hue - d * unity).natAbs * 20000 ≤ unity.natAbs ∧
      call env n b!"saturation" [[.color c]] = (.ok (.node (.pct (lit 1))) [], n) ∧
      call env n b!"lightness" [[.color c]] = (.ok (.node (.pct half)) [], n) := by
  have hgood := good_all hd
  unfold good at hgood
  rw [Bool.and_eq_true] at hgood
  obtain ⟨r, g, b, h1, i1, i2, i3, h2, h3, h4⟩ := bytes hgood.1
  have hback : Back (wheel d) d := of_decide_eq_true hgood.2
  have hw : call env n b!"hsl" [[.int d b!"deg"], [.pct (lit 1)], [.pct half]] = (.ok (.node (.color (wheel d))) [], n) := by
    unfold wheel
    exact call_hsl_int env n d (lit 1) half
  have hs : ∀ c : Color.Color, call env n b!"saturation" [[.color c]] = (.ok (.node (.pct (convert f32 f64 (getHsl c).2.1))) [], n) :=
    fun _ => rfl
  have hl : ∀ c : Color.Color, call env n b!"lightness" [[.color c]] = (.ok (.node (.pct (convert f32 f64 (getHsl c).2.2))) [], n) :=
    fun _ => rfl
  have hh : ∀ c : Color.Color, call env n b!"hue" [[.color c]] = (.ok (.node (.dec (hueOf c) b!"deg")) [], n) :=
    fun _ => rfl
  clear hgood
  generalize wheel d = c at *
  obtain ⟨h5, h6, h7⟩ := hback
  refine ⟨c, r, g, b, hueOf c, hw, h1, i1, i2, i3, h2, h3, h4, hh _, h5, ?_, ?_⟩
  · rw [hs]
    exact congrArg (fun x => (Res.ok (.node (.pct x)) [], n)) h6
  · rw [hl]
    exact congrArg (fun x => (Res.ok (.node (.pct x)) [], n)) h7


end Csspp.Func
