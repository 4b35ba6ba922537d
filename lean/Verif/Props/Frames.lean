import Verif.Props.CompileFrames
import Verif.Props.Literal
import Verif.Model.Pipeline

/-!
C95: the position of a frame of @keyframes comes out as it was written: `from` as `0%`, `to` and `100%` as `to`, and any
other percentage with the same digits.
-/

namespace Csspp.Spec
open Csspp.Parse (Nd)

/-- The text of the position of a frame, with at most p digits after the period. -/
inductive At (p : Nat) : Nd → Str → Prop
  | start {n : Nd} (h : n.ty = .IDENTIFIER) (hs : n.tok.str = b!"from") : At p n b!"0%"
  | finish {n : Nd} (h : n.ty = .IDENTIFIER) (hs : n.tok.str = b!"to") : At p n b!"to"
  | percent {n : Nd} {k : Numeral} (hk : k.Ok) (hn : k.neg = false) (hl : k.frac.length ≤ p) (h : Word.of n.tok = k.word b!"%")
      (hs : decVal k.int < 100) : At p n (literal false k.int k.frac true ++ b!"%")
  | whole {n : Nd} {k : Numeral} (hk : k.Ok) (hn : k.neg = false) (hl : k.frac.length ≤ p) (h : Word.of n.tok = k.word b!"%")
      (hs : decVal k.int = 100) (hf : decVal k.frac = 0) : At p n b!"to"

/-- The start of a block. -/
def brace : Asm.Mode → Str
  | .compressed | .tidy => b!"{"
  | .compact => b!" { "
  | .expanded => b!"\n{\n"

end Csspp.Spec

namespace Csspp.Written
open Csspp.Asm Csspp.Spec Csspp.Lex Csspp.Flt Csspp.Tree
open Csspp.Parse (Nd)

/-- A percentage under 100% is under 1. -/
theorem percent_div {R N : Nat} (h1 : R ≤ N + X) (hN : N ≤ 100 * U) :
    ∃ R3, div f64 (.fin false R) (ofInt f64 100) = .fin false R3 ∧ 100 * R3 ≤ N + 5 * X := by
  have hu := u_pos
  have hxu := u_eq
  have hx := x_pos
  have hq : 0 < 100 * U := by omega
  have hlt : R * U / (100 * U) < 17179869184 * U := by
    rw [Nat.mul_div_mul_right _ _ hu]
    omega
  have e3 := roundMag_error (prec := 53) (p := R * U) (q := 100 * U) 1108 (by omega) hq (by rw [pow_1108]; exact hlt) (by omega)
  have h55 := pow_1055
  generalize hy : 2 ^ (1108 - 53) = y at e3 h55
  generalize hR3 : roundMag 53 (R * U) (100 * U) = R3 at e3
  have f3 : 2 * (100 * R3) ≤ 2 * R + 100 * y := by
    refine Nat.le_of_mul_le_mul_right (c := U) ?_ hu
    have := e3.1
    rw [show 2 * (R3 * (100 * U)) = 2 * (100 * R3) * U by ac_rfl] at this
    rw [show 2 * (R * U) + 100 * U * y = (2 * R + 100 * y) * U by
      rw [Nat.add_mul]; ac_rfl] at this
    exact this
  refine ⟨R3, ?_, by omega⟩
  rw [hundred_fin]
  unfold div
  dsimp only
  rw [if_neg (by omega), scale_eq, round_fin, hR3]
  · rfl
  · rw [hR3]; omega

theorem part_small {fr : Str} (hfr : Dec.AllDigits fr) (hl : fr.length ≤ 3) : mag (part fr) + 15 * X ≤ U := by
  have hp := part_ok hfr hl
  unfold partOk at hp
  obtain ⟨_, hp2, _⟩ := of_decide_eq_true hp
  have hD := Dec.decVal_lt fr hfr
  have hxu := u_eq
  have hx := x_pos
  have hD' : decVal fr * U + U ≤ 10 ^ fr.length * U := by
    rw [← Nat.succ_mul]
    exact Nat.mul_le_mul_right _ hD
  generalize decVal fr * U = Du at *
  generalize mag (part fr) = P at *
  have hk' : fr.length = 0 ∨ fr.length = 1 ∨ fr.length = 2 ∨ fr.length = 3 := by omega
  rcases hk' with h | h | h | h <;> rw [h] at hp2 hD' <;> (simp at hp2 hD'; omega)

theorem value_small {pow10 : Int → Fp} (h1 : pow10 0 = ofInt f64 1) {ds fr : Str} (hds : decVal ds < 100)
    (hfr : Dec.AllDigits fr) (hl : fr.length ≤ 3) :
    ∃ R3, div f64 (Num.value pow10 ⟨false, decVal ds, fr, 0⟩) (ofInt f64 100) = .fin false R3 ∧ R3 < U := by
  obtain ⟨R, e, _, b1, b2, b3⟩ := value_eq (neg := false) h1 (ds := ds) (by omega) hfr hl
  have hs := part_small hfr hl
  have hN : decVal ds * U ≤ 99 * U := Nat.mul_le_mul_right _ (by omega)
  have hxu := u_eq
  have hx := x_pos
  obtain ⟨R3, e3, b⟩ := percent_div b1 (by omega)
  exact ⟨R3, by rw [e, e3], by omega⟩

theorem position_small {p R : Nat} (h : R < U) :
    framePosition p (.fin false R) = decimal p (mul f64 (.fin false R) (ofInt f64 100)) ⊹ rawText b!"%" := by
  unfold framePosition
  rw [one_fin', zero_fin]
  have h1 : le (.fin false U) (.fin false R) = false := by
    unfold le signed
    dsimp only
    exact decide_eq_false (by simp; omega)
  have h2 : lt (.fin false R) (.fin false 0) = false := by
    unfold lt signed
    dsimp only
    exact decide_eq_false (by simp)
  rw [h1, h2, if_neg (by decide), if_neg (by decide)]

theorem position_to {p : Nat} : framePosition p (ofInt f64 1) = rawText b!"to" := by
  unfold framePosition
  exact if_pos (by decide +kernel)

theorem hundred_one {pow10 : Int → Fp} (h1 : pow10 0 = ofInt f64 1) {fr : Str} (hfr : Dec.AllDigits fr) (hl : fr.length ≤ 3)
    (hf : decVal fr = 0) : div f64 (Num.value pow10 ⟨false, 100, fr, 0⟩) (ofInt f64 100) = ofInt f64 1 := by
  have hz : fr = List.replicate fr.length 48 := by
    refine digits_inj hfr (fun c hc => ?_) (by simp) ?_
    · rw [List.mem_replicate] at hc
      obtain ⟨_, rfl⟩ := hc
      decide
    · rw [hf]
      have := decVal_zeros [] fr.length
      rw [List.nil_append] at this
      rw [this]
      exact (Nat.zero_mul _).symm
  unfold Num.value
  dsimp only
  rw [h1, hz]
  have hk' : fr.length = 0 ∨ fr.length = 1 ∨ fr.length = 2 ∨ fr.length = 3 := by omega
  rcases hk' with h | h | h | h <;> rw [h] <;> decide +kernel

/-- The text of the position of the node made for a frame. -/
theorem position_text {E : Compile.Env} {pow10 : Int → Fp} (h1 : pow10 0 = ofInt f64 1) {p : Nat} (hp : p ≤ 3) {n : Nd} {s : Str}
    (h : At p n s) {num : Option Num × Option Made} (hat : Compile.FrameAt E n num) {pos : Pos} (m : Mode) :
    Text m (framePosition p (({ ty := .FRAME, pos := pos, num := num.1, made := num.2 } : Tok).data pow10).dec) s := by
  have hz : div f64 (Num.value pow10 ⟨false, 0, [], 0⟩) (ofInt f64 100) = .fin false 0 := by
    unfold Num.value
    dsimp only
    rw [h1]
    decide +kernel
  have word : ∀ k : Numeral, Word.of n.tok = k.word b!"%" →
      n.ty = .PERCENT ∧ n.tok.num = some ⟨k.neg, decVal k.int, k.frac, 0⟩ ∧ n.tok.made = none := by
    intro k hk
    unfold Numeral.word at hk
    rw [if_pos rfl] at hk
    unfold Word.of at hk
    injection hk with a1 a2 a3 a4 a5 a6
    exact ⟨a1, a4, a6⟩
  have dec : ∀ v : Num, (({ ty := .FRAME, pos := pos, num := some v } : Tok).data pow10).dec =
      div f64 (v.value pow10) (ofInt f64 100) := by
    intro v
    unfold Tok.data
    dsimp only
    exact if_pos (.inr rfl)
  cases h with
  | start ht hs =>
    cases hat with
    | start _ _ =>
      dsimp only
      rw [dec, hz, position_small u_pos]
      have hd := C71_percent pow10 h1 p hp false b!"0" [] (by decide) (by decide) (by decide) (by simp) true
      rw [show ((decVal b!"0" : Nat) : Int) = 0 from rfl, hz] at hd
      rw [decimal_text hd]
      exact (text_raw m _).andThen (text_raw m _)
    | finish _ h' => rw [hs] at h'; exact absurd h' (by decide)
    | percent h' _ => rw [ht] at h'; cases h'
  | finish ht hs =>
    cases hat with
    | start _ h' => rw [hs] at h'; exact absurd h' (by decide)
    | finish _ _ =>
      dsimp only
      rw [dec, hundred_one h1 (fr := []) (by intro c hc; cases hc) (by simp) rfl, position_to]
      exact text_raw m _
    | percent h' _ => rw [ht] at h'; cases h'
  | @percent k hk hn hl hw hs =>
    obtain ⟨w1, w2, w3⟩ := word k hw
    cases hat with
    | start h' _ => rw [w1] at h'; cases h'
    | finish h' _ => rw [w1] at h'; cases h'
    | percent _ _ =>
      dsimp only
      rw [w2, w3, dec, hn]
      obtain ⟨R3, e3, hlt⟩ := value_small h1 hs hk.frac (Nat.le_trans hl hp)
      have hd := C71_percent pow10 h1 p hp false k.int k.frac hk.int hk.frac (by omega) hl true
      rw [e3] at hd ⊢
      rw [position_small hlt, decimal_text hd]
      exact (text_raw m _).andThen (text_raw m _)
  | @whole k hk hn hl hw hs hf =>
    obtain ⟨w1, w2, w3⟩ := word k hw
    cases hat with
    | start h' _ => rw [w1] at h'; cases h'
    | finish h' _ => rw [w1] at h'; cases h'
    | percent _ _ =>
      dsimp only
      rw [w2, w3, dec, hn, hs, show ((100 : Nat) : Int) = 100 from rfl, hundred_one h1 hk.frac (Nat.le_trans hl hp) hf, position_to]
      exact text_raw m _

theorem brace_text (m : Mode) : Text m (operator b!"{" .spacesOrNewlines) (brace m) := by
  refine ⟨_, rfl, fun st => ?_⟩
  cases m <;> rfl

/-- C95: a frame of @keyframes that the compiler accepts, whatever is in its block when it gets written, starts with its
position: `0%` for `from`, `to` for `to` and for `100%`, and for another percentage the same digits, in their shortest form; and
then its block. -/
theorem C95_position {E : Compile.Env} {pow10 : Int → Fp} (h1 : pow10 0 = ofInt f64 1) {p : Nat} (hp : p ≤ 3) {t ft : Tok}
    {n block : Nd} {fk kids : List Nd} {s : Str} (h : At p n s) (hf : Compile.frameOf E (.mk t [n, block]) = .ok (.mk ft fk))
    {m : Mode} {out : Str} (ho : m.write p (Pipeline.toTree pow10 (.mk ft kids)) = .ok out) :
    ∃ rest, out = s ++ brace m ++ rest := by
  have key : ∀ {num : Option Num × Option Made}, Compile.FrameAt E n num →
      ft = { ty := .FRAME, pos := n.tok.pos, num := num.1, made := num.2 } → ∃ rest, out = s ++ brace m ++ rest := by
    intro num hat hft
    have ht := (position_text h1 hp h hat (pos := n.tok.pos) m).andThen (brace_text m)
    rw [← hft] at ht
    have hty : (ft.data pow10).ty = .FRAME := by rw [hft]; rfl
    unfold Mode.write at ho
    unfold Pipeline.toTree at ho
    have hout : ∃ o, output p (.mk (ft.data pow10) (Pipeline.toTrees pow10 kids)) =
        (framePosition p (ft.data pow10).dec ⊹ operator b!"{" .spacesOrNewlines) ⊹ o := by
      refine ⟨outAfter p .DECLARATION (.op b!";" .spaceAfterOrNewline) (Pipeline.toTrees pow10 kids) ⊹ closeCalls, ?_⟩
      rw [andThen_assoc]
      rw [output.eq_def]
      dsimp only
      unfold leafCalls
      rw [hty]
    obtain ⟨o, hout⟩ := hout
    rw [hout] at ho
    obtain ⟨calls, e, hc⟩ := ht
    rw [e] at ho
    cases o with
    | error x => cases ho
    | ok b =>
      have ho : Except.ok (m.text (calls ++ b)) = Except.ok out := ho
      injection ho with ho
      rw [text_eq] at ho
      obtain ⟨st', hst⟩ := from_append m calls b _
      exact ⟨m.from st' b, by rw [← ho, hst, hc]⟩
  cases Compile.frameOf_iff.1 hf with
  | one _ hat _ _ _ => exact key hat rfl
  | several _ hat _ _ _ => exact key hat rfl

/-- `12.5%{margin:1}`: a frame that is accepted, and its position. -/
def exHalf : Nd := .leaf { ty := .PERCENT, pos := ⟨1, 1, 1⟩, num := some ⟨false, 12, b!"5", 0⟩ }
def exHalfFrame : Nd :=
  .mk { ty := .COMPONENT_VALUE, pos := ⟨1, 1, 1⟩ }
    [exHalf, .mk { ty := .OPEN_CURLYBRACKET, pos := ⟨1, 1, 1⟩ } [.leaf { ty := .COMPONENT_VALUE, pos := ⟨1, 1, 1⟩ }]]

theorem exHalf_at : At 3 exHalf b!"12.5%" :=
  .percent (k := ⟨false, b!"12", b!"5"⟩) ⟨by decide, by decide, by decide, by decide, by decide⟩ rfl (by decide) rfl (by decide)

example (E : Compile.Env) (h : E.inUnit exHalf.tok = true) : ∃ ft fk, Compile.frameOf E exHalfFrame = .ok (.mk ft fk) :=
  ⟨_, _, Compile.frameOf_iff.2 (.one rfl (.percent rfl h) rfl rfl rfl)⟩

/-- `from`, `to` and `100.0%`. -/
example : At 3 (.leaf { ty := .IDENTIFIER, pos := ⟨1, 1, 1⟩, str := b!"from" }) b!"0%" := .start rfl rfl
example : At 3 (.leaf { ty := .IDENTIFIER, pos := ⟨1, 1, 1⟩, str := b!"to" }) b!"to" := .finish rfl rfl
example : At 3 (.leaf { ty := .PERCENT, pos := ⟨1, 1, 1⟩, num := some ⟨false, 100, b!"0", 0⟩ }) b!"to" :=
  .whole (k := ⟨false, b!"100", b!"0"⟩) ⟨by decide, by decide, by decide, by decide, by decide⟩ rfl (by decide) rfl (by decide) (by decide)

end Csspp.Written
