import Verif.Props.FunctionsGray

/-!
C80: the color wheel, what is checked of it.
-/

namespace Csspp.Func
open Csspp.Flt Csspp.Expr Csspp.Spec

variable {α : Type}

/-! ### Whole degrees -/

/-- An angle of d degrees, as hsl() passes it to the color. -/
def degrees (d : Int) : Fp := convert f64 f32 (div f64 (mul f64 (ofInt f64 d) pi) (lit 180))

theorem call_hsl_int (env : Env α) (n d : Int) (s l : Fp) :
    call env n b!"hsl" [[.int d b!"deg"], [.pct s], [.pct l]] =
      (.ok (.node (.color (setHsl (degrees d) (convert f64 f32 s) (convert f64 f32 l) (convert f64 f32 (lit 1))))) [], n) := by
  unfold degrees
  rfl

/-- The red of the color wheel, in sixtieths: full up to 60 degrees and from 300 degrees, none from 120 to 240 degrees. -/
def wheelRed (d : Nat) : Nat :=
  if d < 60 then 60 else if d < 120 then 120 - d else if d < 240 then 0 else if d < 300 then d - 240 else 60
/-- The green: the same 120 degrees further. -/
def wheelGreen (d : Nat) : Nat := wheelRed ((d + 240) % 360)
/-- The blue: the same 240 degrees further. -/
def wheelBlue (d : Nat) : Nat := wheelRed ((d + 120) % 360)

/-- `byte` is a nearest integer of 255 * s / 60. -/
def Nearest (byte s : Nat) : Prop := 2 * (60 * byte) ≤ 2 * (255 * s) + 60 ∧ 2 * (255 * s) ≤ 2 * (60 * byte) + 60

instance (byte s : Nat) : Decidable (Nearest byte s) := inferInstanceAs (Decidable (_ ∧ _))

/-- The color hsl(d deg, 100%, 50%). -/
def wheel (d : Nat) : Color.Color := setHsl (degrees d) (convert f64 f32 (lit 1)) (convert f64 f32 half) (convert f64 f32 (lit 1))

/-- What is checked of the bytes. -/
def goodBytes (o : Option Nat) (d : Nat) : Bool :=
  match o with
  | some v => decide (v / 16777216 % 256 = 255 ∧ v < 4294967296 ∧
      Nearest (v % 256) (wheelRed d) ∧ Nearest (v / 256 % 256) (wheelGreen d) ∧ Nearest (v / 65536 % 256) (wheelBlue d))
  | none => false

/-- The angle and the percentages of a color are those given to hsl(). -/
def Back (c : Color.Color) (d : Nat) : Prop :=
  ((quanta (hueOf c) - d * unity).natAbs * 20000 ≤ unity.natAbs) ∧
    convert f32 f64 (getHsl c).2.1 = lit 1 ∧ convert f32 f64 (getHsl c).2.2 = half

instance (c : Color.Color) (d : Nat) : Decidable (Back c d) := inferInstanceAs (Decidable (_ ∧ _))

/-- What is checked of each angle. -/
def good (d : Nat) : Bool := goodBytes (Color.getColor (wheel d)) d && decide (Back (wheel d) d)

end Csspp.Func
