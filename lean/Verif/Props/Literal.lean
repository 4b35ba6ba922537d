import Verif.Lemmas.Literal2
import Verif.Lemmas.Written6

/-!
C71: a number of the source is written with its own digits.
-/

namespace Csspp.Written
open Csspp.Spec Csspp.Flt Csspp.Lex Csspp.Asm Csspp.Tree

/-- C71: the double kept for a number with at most `p ≤ 3` digits after its period is written, with p digits of precision,
with exactly the digits of the number, in their shortest form: no zero in front, none at the end of the fraction, no sign on
zero. (`pow(10.0, 0.0)` is 1.) -/
theorem C71_decimal (pow10 : Int → Fp) (h1 : pow10 0 = ofInt f64 1) (p : Nat) (hp : p ≤ 3) (neg : Bool) (ds fr : Str)
    (hds : ∀ c ∈ ds, 48 ≤ c ∧ c ≤ 57) (hfr : ∀ c ∈ fr, 48 ≤ c ∧ c ≤ 57) (hn : decVal ds < 1000000000000)
    (hl : fr.length ≤ p) (short : Bool) :
    Color.decText p (Num.value pow10 ⟨neg, decVal ds, fr, 0⟩) short = some (literal neg ds fr short) := by
  obtain ⟨R, e, _, b1, b2, _⟩ := value_eq (neg := neg) h1 hn hfr (Nat.le_trans hl hp)
  rw [e]
  have := x_pos
  exact decText_close hp short hds hn hfr hl (by omega) (by omega)

/-- C71: the same of a percentage, which is divided by 100 when it is read and multiplied by 100 when it is written. -/
theorem C71_percent (pow10 : Int → Fp) (h1 : pow10 0 = ofInt f64 1) (p : Nat) (hp : p ≤ 3) (neg : Bool) (ds fr : Str)
    (hds : ∀ c ∈ ds, 48 ≤ c ∧ c ≤ 57) (hfr : ∀ c ∈ fr, 48 ≤ c ∧ c ≤ 57) (hn : decVal ds < 1000000000000)
    (hl : fr.length ≤ p) (short : Bool) :
    Color.decText p
      (mul f64 (div f64 (Num.value pow10 ⟨neg, decVal ds, fr, 0⟩) (ofInt f64 100)) (ofInt f64 100)) short =
      some (literal neg ds fr short) := by
  obtain ⟨R, e, _, b1, b2, b3⟩ := value_eq (neg := neg) h1 hn hfr (Nat.le_trans hl hp)
  rw [e]
  have hN : decVal ds * U + mag (part fr) ≤ 1000000000000 * U := by
    have : decVal ds * U + U ≤ 1000000000000 * U := by
      rw [← Nat.succ_mul]
      exact Nat.mul_le_mul_right _ hn
    omega
  obtain ⟨m, em, c1, c2⟩ := percent_close (neg := neg) b1 b2 hN
  rw [em]
  exact decText_close hp short hds hn hfr hl c1 c2

theorem read_numeral {n : Numeral} (h : n.Ok) {unit : Str} (hu : unit = b!"%" ∨ Unit unit) {f : Nat}
    (hf : (n.text ++ unit).length < f) :
    ∃ t, (lexAll f (init (n.text ++ unit))).1 = [t] ∧ Word.of t = n.word unit ∧
      (lexAll f (init (n.text ++ unit))).2.err = [] ∧ (lexAll f (init (n.text ++ unit))).2.exn = none ∧
      (lexAll f (init (n.text ++ unit))).2.ub = false := by
  have hs := numeral_spells h hu
  have hfit : Fits .compressed [.word (n.text ++ unit) (n.word unit)] [.word (n.word unit)] := .word hs .nil
  have hutf : Utf8 (chars [.word (n.text ++ unit) (n.word unit)]) (n.text ++ unit) := by
    have : chars [.word (n.text ++ unit) (n.word unit)] = n.text ++ unit := List.append_nil _
    rw [this]
    exact utf8_append (utf8_ascii (numeral_ascii h)) (utf8_ascii (unit_ascii hu))
  obtain ⟨e1, e2⟩ := read_back hfit rfl hutf hf
  have e3 : merged (erase [.word (n.text ++ unit) (n.word unit)]) = [n.word unit] := rfl
  rw [e3] at e1
  cases hts : (lexAll f (init (n.text ++ unit))).1 with
  | nil =>
    rw [hts] at e1
    have := congrArg List.length e1
    simp at this
  | cons t ts =>
    rw [hts] at e1
    cases ts with
    | nil =>
      injection e1 with e1 _
      exact ⟨t, rfl, e1, e2⟩
    | cons t' ts =>
      have := congrArg List.length e1
      simp at this

theorem write_text {m : Mode} {p : Nat} {t : Tree} {s : Str} (h : Text m (output p t) s) : m.write p t = .ok s := by
  obtain ⟨calls, e, h⟩ := h
  unfold Mode.write
  rw [e]
  dsimp only
  rw [text_eq, h]

theorem literal_int (neg : Bool) (ds : Str) (h : Dec.AllDigits ds) :
    intDigits (if neg then -(decVal ds : Int) else decVal ds) = literal neg ds [] true := by
  have hnl : noLead ds = natDigits (decVal ds) ∨ decVal ds = 0 := by
    by_cases h0 : decVal ds = 0
    · exact .inr h0
    · left
      refine lead_inj (AllDigits.noLead h) (natDigits_digits _).2 (fun c t e => noLead_head ds e) ?_ ?_
      · intro c t e
        obtain ⟨c', t', e', hc⟩ := natDigitsAux_head (decVal ds + 1) (decVal ds) (by omega) (by omega)
        have e' : natDigits (decVal ds) = c' :: t' := e'
        rw [e] at e'
        cases e'
        exact hc
      · rw [decVal_noLead, decVal_natDigits]
  have hz : noTrail [] = [] := rfl
  have key : literal neg ds [] true =
      if noLead ds = [] then b!"0" else (if neg then b!"-" else []) ++ noLead ds := by
    unfold literal
    rw [hz]
    by_cases h0 : noLead ds = []
    · rw [if_pos ⟨h0, rfl⟩, if_pos h0]
    · rw [if_neg (fun e : noLead ds = [] ∧ _ => h0 e.1)]
      simp only [if_neg h0, if_true, List.append_nil]
  rw [key]
  by_cases h0 : decVal ds = 0
  · rw [if_pos ((noLead_nil h).2 h0), h0]
    cases neg <;> decide
  · have hne : noLead ds ≠ [] := fun e => h0 ((noLead_nil h).1 e)
    rw [if_neg hne]
    rcases hnl with e | e
    · rw [e]
      generalize decVal ds = v at h0 ⊢
      unfold intDigits
      cases neg with
      | true =>
        have e1 : (if true = true then -(v : Int) else v) = -(v : Int) := rfl
        rw [e1, if_pos (by omega), show (-(v : Int)).natAbs = v by omega]
        rfl
      | false =>
        have e1 : (if false = true then -(v : Int) else v) = (v : Int) := rfl
        rw [e1, if_neg (by omega), show ((v : Int)).natAbs = v by omega]
        rfl
    · exact absurd e h0

theorem decimal_text {p : Nat} {x : Fp} {s : Str} (h : Color.decText p x true = some s) : decimal p x = rawText s := by
  unfold decimal
  rw [h]

theorem output_leaf {p : Nat} {d : Data} {o : Out} (h : leafCalls p d = some o) : output p (.mk d []) = o := by
  unfold output
  rw [h]

/-- C71: a number of a style sheet, `[-]digits[.digits]` and a unit or `%`, with less than 10^12 units and at most `p ≤ 3`
digits after the period, is one token, read without a message, and whatever the mode the assembler writes it, with p digits
of precision, with the same digits, in their shortest form, and the same unit. -/
theorem C71_source (m : Mode) (pow10 : Int → Fp) (h1 : pow10 0 = ofInt f64 1) (p : Nat) (hp : p ≤ 3) (n : Numeral) (hn : n.Ok)
    (hs : decVal n.int < 1000000000000) (hl : n.frac.length ≤ p) (unit : Str) (hu : unit = b!"%" ∨ Unit unit)
    (f : Nat) (hf : (n.text ++ unit).length < f) :
    ∃ t, (lexAll f (init (n.text ++ unit))).1 = [t] ∧ (lexAll f (init (n.text ++ unit))).2.err = [] ∧
      m.write p (.mk (t.data pow10) []) = .ok (literal n.neg n.int n.frac true ++ unit) := by
  obtain ⟨t, e, hw, herr, _⟩ := read_numeral hn hu hf
  refine ⟨t, e, herr, write_text ?_⟩
  have hty : t.ty = (n.word unit).ty := by rw [← hw]; rfl
  have hstr : t.str = (n.word unit).str := by rw [← hw]; rfl
  have hint : t.int = (n.word unit).int := by rw [← hw]; rfl
  have hnum : t.num = (n.word unit).num := by rw [← hw]; rfl
  have hmade : t.made = none := (show t.made = (n.word unit).made by rw [← hw]; rfl).trans (by
    unfold Numeral.word
    split
    · rfl
    · split <;> rfl)
  unfold Numeral.word at hty hstr hint hnum
  by_cases hpc : unit = b!"%"
  · simp only [if_pos hpc] at hty hnum
    have hdec : (t.data pow10).dec = div f64 (Num.value pow10 ⟨n.neg, decVal n.int, n.frac, 0⟩) (ofInt f64 100) := by
      unfold Tok.data
      dsimp only
      rw [hmade, hnum]
      dsimp only
      rw [if_pos (.inl hty)]
    have hout : output p (.mk (t.data pow10) []) =
        decimal p (mul f64 (t.data pow10).dec (ofInt f64 100)) ⊹ rawText b!"%" := by
      have hd : (t.data pow10).ty = .PERCENT := hty
      refine output_leaf ?_
      unfold leafCalls
      rw [hd]
    rw [hout, hdec]
    have hd := C71_percent pow10 h1 p hp n.neg n.int n.frac hn.int hn.frac hs hl true
    rw [decimal_text hd, hpc]
    exact (text_raw m _).andThen (text_raw m _)
  · have hun : Unit unit := hu.resolve_left hpc
    simp only [if_neg hpc] at hty hstr hint hnum
    by_cases hfr : n.frac ≠ []
    · simp only [if_pos hfr] at hty hstr hint hnum
      have hdec : (t.data pow10).dec = Num.value pow10 ⟨n.neg, decVal n.int, n.frac, 0⟩ := by
        unfold Tok.data
        dsimp only
        rw [hmade, hnum]
        dsimp only
        rw [if_neg (by rw [hty]; simp)]
      have hout : output p (.mk (t.data pow10) []) =
          verifyDimension unit ⊹ decimal p (t.data pow10).dec ⊹ rawText unit := by
        have hd : (t.data pow10).ty = .DECIMAL_NUMBER := hty
        have hs : (t.data pow10).str = unit := hstr
        refine output_leaf ?_
        unfold leafCalls
        rw [hd, hs]
      rw [hout, hdec, unit_quiet hun, nil_andThen]
      rw [decimal_text (C71_decimal pow10 h1 p hp n.neg n.int n.frac hn.int hn.frac hs hl true)]
      exact (text_raw m _).andThen (text_raw m _)
    · simp only [if_neg hfr] at hty hstr hint
      have hf0 : n.frac = [] := Decidable.not_not.1 hfr
      have hout : output p (.mk (t.data pow10) []) = verifyDimension unit ⊹ rawText (intDigits t.int ++ unit) := by
        have hd : (t.data pow10).ty = .INTEGER := hty
        have hs : (t.data pow10).str = unit := hstr
        refine output_leaf ?_
        unfold leafCalls
        rw [hd, hs]
        rfl
      rw [hout, unit_quiet hun, nil_andThen, hint, hf0, literal_int n.neg n.int hn.int]
      exact text_raw m _

/-- The hypotheses of C71 are met: `-007.250px` with 3 digits of precision is `-7.25px`, `0.50%` is `.5%`, `00em` is `0em`. -/
example :
    Numeral.text ⟨true, b!"007", b!"250"⟩ ++ b!"px" = b!"-007.250px" ∧
    Numeral.Ok ⟨true, b!"007", b!"250"⟩ ∧ Unit b!"px" ∧ Unit [] ∧
    literal true b!"007" b!"250" true ++ b!"px" = b!"-7.25px" ∧
    literal false b!"0" b!"50" true ++ b!"%" = b!".5%" ∧
    literal false b!"0" b!"50" false = b!"0.5" ∧
    literal true b!"00" b!"00" true ++ b!"em" = b!"0em" ∧
    (fun _ => ofInt f64 1 : Int → Fp) 0 = ofInt f64 1 :=
  ⟨by decide, ⟨by decide, by decide, by decide, by decide, by decide⟩, ⟨by decide, by decide⟩, ⟨by decide, by decide⟩,
    by decide, by decide, by decide, by decide, rfl⟩

end Csspp.Written
