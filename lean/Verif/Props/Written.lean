import Verif.Lemmas.Written8
import Verif.Lemmas.WrittenNum
import Verif.Props.AssemblerText

/-!
C57: the text written for a tree is read back as the tokens of the tree.
-/

namespace Csspp.Written
open Csspp.Spec Csspp.Lex Csspp.Asm Csspp.Tree Csspp.Flt

/-- C57: in COMPRESSED mode, a tree whose values can be written, and which has no two tokens that
can't be next to each other, is written, and its text is read back, without a message, as the
tokens of the tree. -/
theorem C57_compressed (p : Nat) (t : Tree) (h : Printable p t) (ha : apart (settle false (items p t)) = true) :
    ∃ s, Mode.write .compressed p t = .ok s ∧ ∀ f, s.length < f →
      (lexAll f (init s)).1.map Word.of = merged (settle false (items p t)) ∧
      (lexAll f (init s)).2.err = [] ∧ (lexAll f (init s)).2.exn = none ∧ (lexAll f (init s)).2.ub = false := by
  obtain ⟨calls, hc, hw⟩ := output_gives .compressed p t h
  obtain ⟨bits, hf, hu⟩ := hw false
  refine ⟨Mode.text .compressed calls, by unfold Mode.write; rw [hc], fun f hl => ?_⟩
  rw [text_eq] at hl ⊢
  have := read_back hf ha hu hl
  rw [fits_compressed hf] at this
  exact this

/-- C57: in every mode the text is read back as the same tokens, and blanks between them, plus the
optional semicolons in EXPANDED mode. -/
theorem C57_modes (m : Mode) (p : Nat) (t : Tree) (h : Printable p t) (ha : apart (settle false (items p t)) = true) :
    ∃ s, m.write p t = .ok s ∧ ∀ f, s.length < f →
      ((lexAll f (init s)).1.map Word.of).filter (fun w => w.ty ≠ .WHITESPACE) = solid (settle m.opt (items p t)) ∧
      (lexAll f (init s)).2.err = [] ∧ (lexAll f (init s)).2.exn = none ∧ (lexAll f (init s)).2.ub = false := by
  obtain ⟨calls, hc, hw⟩ := output_gives m p t h
  obtain ⟨bits, hf, hu⟩ := hw false
  refine ⟨m.text calls, by unfold Mode.write; rw [hc], fun f hl => ?_⟩
  rw [text_eq] at hl ⊢
  obtain ⟨h1, h2⟩ := read_back hf ha hu hl
  rw [h1, merged_solid _ (erase_words bits hf.good), fits_solid hf]
  exact ⟨rfl, h2⟩

/-- C57: the doubles which can be written as numbers include all those under 2^62, up to 3 digits. -/
theorem C57_number (p : Nat) (hp : p ≤ 3) (neg : Bool) (m : Nat) (h : m < 2 ^ 62 * 2 ^ 1074) :
    HasNumeral p (.fin neg m) := number_written hp neg m (by unfold W; exact h)

/-! ### Examples -/

theorem ascii1 (c : Nat) (h : c < 128) : Utf8 [c] [c] := (Utf8.cons (.one c h) .nil : Utf8 [c] ([c] ++ []))

theorem name_ok {s : Str} (hne : s ≠ []) (h : ∀ c ∈ s, 97 ≤ c ∧ c ≤ 122) : IsPlainName s :=
  ⟨s, (letters_plain hne h).2, (letters_plain hne h).1⟩

/-- `a > b:hover, c { color: rgba...; width: calc(3px + 4) !important }`, as a tree. -/
def page : Tree :=
  .mk { ty := .LIST } [
    .mk { ty := .COMPONENT_VALUE } [
      .mk { ty := .ARG } [.leaf { ty := .HASH, str := b!"a" }, .leaf { ty := .GREATER_THAN }, .leaf { ty := .PERIOD },
        .leaf { ty := .HASH, str := b!"b" }],
      .mk { ty := .ARG } [.leaf { ty := .HASH, str := b!"c" }],
      .mk { ty := .OPEN_CURLYBRACKET } [
        .mk { ty := .DECLARATION, str := b!"width" } [
          .mk { ty := .ARG } [.leaf { ty := .INTEGER, int := -3, str := b!"px" }, .leaf { ty := .WHITESPACE },
            .leaf { ty := .DECIMAL_NUMBER, dec := .fin true (3 * 2 ^ 1073), str := b!"em" }],
          .mk { ty := .ARG } [.leaf { ty := .INTEGER, int := 4 }]],
        .mk { ty := .DECLARATION, str := b!"color", flags := [b!"important"] } [
          .leaf { ty := .STRING, str := b!"x" }]]],
    .mk { ty := .AT_KEYWORD, str := b!"media" } [
      .mk { ty := .OPEN_PARENTHESIS } [.leaf { ty := .INTEGER, int := 5 }]]]

example : Mode.write .compressed 3 page =
    .ok b!"#a>.#b,#c{width:-3px -1.5em,4;color:\"x\"!important}@media  (5);" := by decide +kernel

theorem letter_fair {c : Nat} (h : 97 ≤ c ∧ c ≤ 122) : NameChar c ∧ Fair c := by
  unfold Fair Valid NameChar Scalar Nonchar VarChar Letter
  omega

/-- The hypotheses of C57 are met. -/
example : Printable 3 page ∧ apart (settle false (items 3 page)) = true := by
  have hash : ∀ c, 97 ≤ c ∧ c ≤ 122 → ∃ cs, Utf8 cs [c] ∧ cs ≠ [] ∧ ∀ c ∈ cs, NameChar c ∧ Fair c := by
    intro c hc
    exact ⟨[c], ascii1 c (by omega), by simp, by intro d hd; simp at hd; subst hd; exact letter_fair hc⟩
  have str : ∃ cs, Utf8 cs [120] ∧ ∀ c ∈ cs, Fair c ∧ c ≠ 10 ∧ c ≠ 12 ∧ c ≠ 13 ∧ c ≠ 92 :=
    ⟨[120], ascii1 120 (by omega), by intro d hd; simp at hd; subst hd; exact ⟨(letter_fair (by omega)).2, by omega⟩⟩
  refine ⟨?_, by decide +kernel⟩
  have num : HasNumeral 3 (.fin true (3 * 2 ^ 1073)) := C57_number 3 (by omega) true _ (by decide +kernel)
  generalize hx : Fp.fin true (3 * 2 ^ 1073) = x at num
  unfold page
  rw [hx]
  simp only [Printable, PrintableKids, PrintableArgs, Sound, Tree.leaf]
  refine ⟨trivial, ⟨⟨trivial, ?_⟩, ?_⟩⟩
  · refine ⟨.inr ⟨.inl trivial, trivial, ⟨hash 97 (by omega), trivial⟩, ⟨rfl, trivial⟩, ⟨rfl, trivial⟩, ⟨hash 98 (by omega), trivial⟩, trivial⟩, ?_⟩
    refine ⟨.inr ⟨.inl trivial, trivial, ⟨hash 99 (by omega), trivial⟩, trivial⟩, ?_⟩
    refine ⟨.inr ⟨.inr trivial, trivial, ?_⟩, trivial⟩
    refine ⟨⟨name_ok (by decide) (by decide), ?_, ?_⟩, ⟨name_ok (by decide) (by decide), ?_⟩, trivial⟩
    · refine ⟨trivial, ⟨⟨by decide, by decide, ?_⟩, trivial⟩, ⟨trivial, trivial⟩, ⟨⟨num, ?_⟩, trivial⟩, trivial⟩
      · unfold Spec.Unit; decide
      · unfold Spec.Unit; decide
    · refine ⟨⟨trivial, ⟨⟨by decide, by decide, ?_⟩, trivial⟩, trivial⟩, trivial⟩
      unfold Spec.Unit; decide
    · exact ⟨⟨str, trivial⟩, trivial⟩
  · refine ⟨⟨name_ok (by decide) (by decide), ⟨trivial, ⟨⟨by decide, by decide, ?_⟩, trivial⟩, trivial⟩, trivial⟩, trivial⟩
    unfold Spec.Unit; decide

/-- The defect that `apart` leaves out: `u + a` is written `u+a` in COMPRESSED mode, which is read as
the unicode range `u+a`. -/
def uPlusA : Tree := .mk { ty := .ARG } [.leaf { ty := .IDENTIFIER, str := b!"u" }, .leaf { ty := .ADD },
  .leaf { ty := .IDENTIFIER, str := b!"a" }]
example : Mode.write .compressed 3 uPlusA = .ok b!"u+a" ∧ apart (settle false (items 3 uPlusA)) = false ∧
    (lexAll 9 (init b!"u+a")).1.map (·.ty) = [.UNICODE_RANGE] := by decide +kernel

end Csspp.Written
