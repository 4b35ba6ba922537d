import Verif.Spec.Plain
import Verif.Lemmas.Written5

/-!
For C83: the tokens of the text of a plain style sheet.
-/

namespace Csspp.Spec.Plain
open Csspp.Spec (Word Piece apart merged Glued)
open Csspp.Written (Spells Bit chars erase Loose)
open Csspp.Lex (lexAll init)

/-- The token of a blank. -/
def ws : Word := { ty := .WHITESPACE }

/-- No or one blank. -/
inductive OptWs : List Word → Prop where
  | none : OptWs []
  | one : OptWs [ws]

/-- The tokens of a list of items. -/
inductive Toks : List Item → List Word → Prop where
  | nil : Toks [] []
  | word {w : Word} {l : List Item} {t : List Word} : Toks l t → Toks (.word w :: l) (w :: t)
  | opt {g : List Word} {l : List Item} {t : List Word} : OptWs g → Toks l t → Toks (.opt :: l) (g ++ t)
  | must {l : List Item} {t : List Word} : Toks l t → Toks (.must :: l) (ws :: t)
  | noSemi {g : List Word} {l : List Item} {t : List Word} : OptWs g → Toks l t → Toks (.semi :: l) (g ++ t)
  | semi {g g' : List Word} {l : List Item} {t : List Word} : OptWs g → OptWs g' → Toks l t →
      Toks (.semi :: l) (g ++ { ty := .SEMICOLON } :: (g' ++ t))

/-- Only a word, or nothing, comes after something else than a word. -/
def sep : List Item → Bool
  | [] => true
  | .word _ :: l => sep l
  | _ :: [] => true
  | _ :: .word _ :: l => sep l
  | _ => false

/-- The words and the blanks of the shortest text. -/
def tight : List Item → List Piece
  | [] => []
  | .word w :: l => .word w :: tight l
  | .must :: l => .blank :: tight l
  | .opt :: l => tight l
  | .semi :: l => tight l

/-- The text of the word is read as the word. -/
def Writable (w : Word) : Prop := ∃ cs, Utf8 cs (Text w) ∧ Spells cs w

/-- Nothing, or a word first. -/
def wordFirst : List Item → Bool
  | [] => true
  | .word _ :: _ => true
  | _ => false

theorem sep_tail {x : Item} {l : List Item} (h : sep (x :: l) = true) : sep l = true := by
  cases x with
  | word w => exact h
  | opt | must | semi =>
    cases l with
    | nil => rfl
    | cons y l =>
      cases y with
      | word w => exact h
      | opt | must | semi => exact absurd h (by simp [sep])

theorem sep_next {x : Item} {l : List Item} (h : sep (x :: l) = true) (hx : ∀ w, x ≠ .word w) : wordFirst l = true := by
  cases x with
  | word w => exact absurd rfl (hx w)
  | opt | must | semi =>
    cases l with
    | nil => rfl
    | cons y l =>
      cases y with
      | word w => rfl
      | opt | must | semi => exact absurd h (by simp [sep])

theorem utf8_blanks {g : Str} (h : Blanks g) : Utf8 g g := by
  induction g with
  | nil => exact .nil
  | cons c g ih =>
    have hc := h c (by simp)
    exact Utf8.cons (.one c (by omega)) (ih (fun x hx => h x (by simp [hx])))

/-- The bits of a text. -/
structure Made (l : List Item) (src : Str) (bits : List Bit) : Prop where
  good : ∀ b ∈ bits, b.Good
  utf8 : Utf8 (chars bits) src
  loose : Loose (tight l) (erase bits)
  toks : Toks l (merged (erase bits))
  first : wordFirst l = true → (erase bits).head? ≠ some .blank

theorem semi_spells : Spells [59] { ty := .SEMICOLON } := Written.mark_spells (ty := .SEMICOLON) (by decide)

theorem gap_made {g : Str} (hg : Blanks g) {bits : List Bit} (h : (erase bits).head? ≠ some .blank) :
    ∃ o, OptWs o ∧ merged (erase (.gap g :: bits)) = o ++ merged (erase bits) ∧ (g ≠ [] → o = [ws]) := by
  rw [show erase (.gap g :: bits) = if g = [] then erase bits else .blank :: erase bits from rfl]
  by_cases h0 : g = []
  · rw [if_pos h0]; exact ⟨[], .none, rfl, fun h => absurd h0 h⟩
  · rw [if_neg h0]
    refine ⟨[ws], .one, ?_, fun _ => rfl⟩
    rw [merged, if_neg h]
    rfl

theorem gap_loose {g : Str} {a : List Piece} {bits : List Bit} (h : Loose a (erase bits)) :
    Loose a (erase (.gap g :: bits)) := by
  unfold erase
  by_cases h0 : g = []
  · rw [if_pos h0]; exact h
  · rw [if_neg h0]; exact .blank h

theorem gap_good {g : Str} (hg : Blanks g) {bits : List Bit} (h : ∀ b ∈ bits, b.Good) : ∀ b ∈ Bit.gap g :: bits, b.Good := by
  intro b hb
  rcases List.mem_cons.1 hb with rfl | hb
  · exact hg
  · exact h b hb

theorem word_good {cs : List Nat} {w : Word} (hg : Spells cs w) {bits : List Bit} (h : ∀ b ∈ bits, b.Good) :
    ∀ b ∈ Bit.word cs w :: bits, b.Good := by
  intro b hb
  rcases List.mem_cons.1 hb with rfl | hb
  · exact hg
  · exact h b hb

theorem lays_made {l : List Item} {src : Str} (h : Lays l src) (hs : sep l = true)
    (hw : ∀ w, Item.word w ∈ l → Writable w) : ∃ bits, Made l src bits := by
  induction h with
  | nil => exact ⟨[], by simp, .nil, .nil, .nil, by simp [erase]⟩
  | @word w l t _ ih =>
    obtain ⟨bits, m⟩ := ih (sep_tail hs) (fun w hx => hw w (by simp [hx]))
    obtain ⟨cs, h1, h2⟩ := hw w (by simp)
    exact ⟨.word cs w :: bits, word_good h2 m.good, by rw [Written.chars_cons]; exact Lex.utf8_append h1 m.utf8,
      .same _ m.loose, .word m.toks, by simp [erase]⟩
  | @opt g l t hg _ ih =>
    obtain ⟨bits, m⟩ := ih (sep_tail hs) (fun w hx => hw w (by simp [hx]))
    have hf := m.first (sep_next hs (by simp))
    obtain ⟨o, ho, e, _⟩ := gap_made hg hf
    exact ⟨.gap g :: bits, gap_good hg m.good, by rw [Written.chars_cons]; exact Lex.utf8_append (utf8_blanks hg) m.utf8,
      gap_loose m.loose, by rw [e]; exact .opt ho m.toks, fun h => by cases h⟩
  | @must g l t hg hne _ ih =>
    obtain ⟨bits, m⟩ := ih (sep_tail hs) (fun w hx => hw w (by simp [hx]))
    have hf := m.first (sep_next hs (by simp))
    obtain ⟨o, ho, e, ho'⟩ := gap_made hg hf
    refine ⟨.gap g :: bits, gap_good hg m.good, by rw [Written.chars_cons]; exact Lex.utf8_append (utf8_blanks hg) m.utf8,
      ?_, ?_, fun h => by cases h⟩
    · unfold erase
      rw [if_neg hne]
      exact .same _ m.loose
    · rw [e, ho' hne]; exact .must m.toks
  | @noSemi g l t hg _ ih =>
    obtain ⟨bits, m⟩ := ih (sep_tail hs) (fun w hx => hw w (by simp [hx]))
    have hf := m.first (sep_next hs (by simp))
    obtain ⟨o, ho, e, _⟩ := gap_made hg hf
    exact ⟨.gap g :: bits, gap_good hg m.good, by rw [Written.chars_cons]; exact Lex.utf8_append (utf8_blanks hg) m.utf8,
      gap_loose m.loose, by rw [e]; exact .noSemi ho m.toks, fun h => by cases h⟩
  | @semi g g' l t hg hg' _ ih =>
    obtain ⟨bits, m⟩ := ih (sep_tail hs) (fun w hx => hw w (by simp [hx]))
    have hf := m.first (sep_next hs (by simp))
    obtain ⟨o', ho', e', _⟩ := gap_made hg' hf
    have hf' : (erase (.word [59] { ty := .SEMICOLON } :: .gap g' :: bits)).head? ≠ some .blank := by simp [erase]
    obtain ⟨o, ho, e, _⟩ := gap_made hg hf'
    refine ⟨.gap g :: .word [59] { ty := .SEMICOLON } :: .gap g' :: bits,
      gap_good hg (word_good semi_spells (gap_good hg' m.good)), ?_, ?_, ?_, fun h => by cases h⟩
    · rw [Written.chars_cons, Written.chars_cons, Written.chars_cons]
      refine Lex.utf8_append (utf8_blanks hg) ?_
      exact Lex.utf8_append (Utf8.cons (.one 59 (by omega)) .nil) (Lex.utf8_append (utf8_blanks hg') m.utf8)
    · refine gap_loose ?_
      exact .semi (gap_loose m.loose)
    · rw [e]
      show Toks _ (o ++ { ty := .SEMICOLON } :: merged (erase (.gap g' :: bits)))
      rw [e']
      exact .semi ho ho' m.toks

/-- The tokens of a text. -/
theorem lays_tokens {l : List Item} {src : Str} (h : Lays l src) (hs : sep l = true)
    (hw : ∀ w, Item.word w ∈ l → Writable w) (ha : apart (tight l) = true) {f : Nat} (hf : src.length < f) :
    Toks l ((lexAll f (init src)).1.map Word.of) ∧ (lexAll f (init src)).2.err = [] ∧
      (lexAll f (init src)).2.exn = none ∧ (lexAll f (init src)).2.ub = false := by
  obtain ⟨bits, m⟩ := lays_made h hs hw
  have hfa := Written.followAll_of bits m.good (Written.loose_apart m.loose ha)
  obtain ⟨ls, ht, ho⟩ := Written.bits_tokens bits m.good hfa [] (by intro c hc; cases hc)
  have hc := Written.chars_clean m.good
  rw [List.nil_append] at ht
  obtain ⟨h1, h2, h3, h4⟩ := Lex.C47_complete (chars bits) src m.utf8 (fun c hm => ⟨(hc c hm).1, (hc c hm).2.1⟩) ls
    (by rw [Written.clean_newlines hc]; exact ht) f hf
  rw [if_pos rfl] at ho
  obtain ⟨e1, e2⟩ := Written.holds_word h1 ho
  exact ⟨by rw [e1]; exact m.toks, by rw [h2, e2]; rfl, h3, h4⟩

end Csspp.Spec.Plain
