import Verif.Lemmas.Written4
import Verif.Props.LexGrammar

/-!
For C57: texts that fit a list of items, and their tokens.
-/

namespace Csspp.Written
open Csspp.Spec Csspp.Lex

/-- `Fits m bits ws`: the bits are the items, in the mode m: more blanks but in COMPRESSED mode, and
the optional semicolons in EXPANDED mode only. -/
inductive Fits (m : Asm.Mode) : List Bit → List Piece → Prop
  | nil : Fits m [] []
  | gap {g : List Nat} {bits : List Bit} {ws : List Piece} : (∀ c ∈ g, c = 32 ∨ c = 10) → (m = .compressed → g = []) →
      Fits m bits ws → Fits m (.gap g :: bits) ws
  | word {cs : List Nat} {w : Word} {bits : List Bit} {ws : List Piece} : Spells cs w → Fits m bits ws →
      Fits m (.word cs w :: bits) (.word w :: ws)
  | blank {bits : List Bit} {ws : List Piece} : Fits m bits ws → Fits m (.gap [32] :: bits) (.blank :: ws)
  | semi {bits : List Bit} {ws : List Piece} : m = .expanded → Fits m bits ws →
      Fits m (.word (spell .SEMICOLON) { ty := .SEMICOLON } :: bits) (.semi :: ws)
  | noSemi {bits : List Bit} {ws : List Piece} : m ≠ .expanded → Fits m bits ws → Fits m bits (.semi :: ws)

theorem Fits.append {m : Asm.Mode} {a b : List Bit} {x y : List Piece} (h : Fits m a x) (h' : Fits m b y) :
    Fits m (a ++ b) (x ++ y) := by
  induction h with
  | nil => exact h'
  | gap h1 h2 _ ih => exact .gap h1 h2 ih
  | word h1 _ ih => exact .word h1 ih
  | blank _ ih => exact .blank ih
  | semi h1 _ ih => exact .semi h1 ih
  | noSemi h1 _ ih => exact .noSemi h1 ih

theorem Fits.good {m : Asm.Mode} {bits : List Bit} {ws : List Piece} (h : Fits m bits ws) : ∀ b ∈ bits, b.Good := by
  induction h with
  | nil => intro b hb; cases hb
  | gap h1 _ _ ih =>
    intro b hb
    rcases List.mem_cons.1 hb with rfl | hb
    · exact h1
    · exact ih b hb
  | word h1 _ ih =>
    intro b hb
    rcases List.mem_cons.1 hb with rfl | hb
    · exact h1
    · exact ih b hb
  | blank _ ih =>
    intro b hb
    rcases List.mem_cons.1 hb with rfl | hb
    · intro c hc; simp at hc; exact .inl hc
    · exact ih b hb
  | semi _ _ ih =>
    intro b hb
    rcases List.mem_cons.1 hb with rfl | hb
    · exact mark_spells (by decide)
    · exact ih b hb
  | noSemi _ _ ih => exact ih

/-! ### More blanks and semicolons -/

inductive Loose : List Piece → List Piece → Prop
  | nil : Loose [] []
  | same (i : Piece) {a b : List Piece} : Loose a b → Loose (i :: a) (i :: b)
  | blank {a b : List Piece} : Loose a b → Loose a (.blank :: b)
  | semi {a b : List Piece} : Loose a b → Loose a (mark .SEMICOLON :: b)

theorem glued_semi (w : Word) : Glued w { ty := .SEMICOLON } = false := by
  unfold Glued
  split <;> rfl

theorem apart_cons_word {w : Word} {l : List Piece} (h : apart l = true)
    (hn : ∀ v r, l = .word v :: r → Glued w v = false) : apart (.word w :: l) = true := by
  cases l with
  | nil => rfl
  | cons j l =>
    cases j with
    | word v => unfold apart; rw [hn v l rfl, h]; rfl
    | blank => exact h
    | semi => exact h

theorem loose_apart {a b : List Piece} (h : Loose a b) : apart a = true → apart b = true := by
  induction h with
  | nil => exact id
  | same i h ih =>
    intro ha
    have hb := ih (apart_tail ha)
    cases i with
    | word w =>
      refine apart_cons_word hb ?_
      rintro v r rfl
      cases h with
      | same _ _ => exact apart_next ha
      | semi _ => exact glued_semi w
    | blank => exact hb
    | semi => exact hb
  | blank _ ih => exact ih
  | semi _ ih => intro ha; exact apart_cons_word (ih ha) (fun _ _ _ => rfl)

theorem settle_loose : ∀ ws : List Piece, Loose (settle false ws) (settle true ws)
  | [] => .nil
  | .semi :: l => .semi (settle_loose l)
  | .word w :: l => .same _ (settle_loose l)
  | .blank :: l => .same _ (settle_loose l)

theorem fits_loose {m : Asm.Mode} {bits : List Bit} {ws : List Piece} (h : Fits m bits ws) :
    Loose (settle m.opt ws) (erase bits) := by
  induction h with
  | nil => exact .nil
  | gap _ _ _ ih =>
    unfold erase
    split
    · exact ih
    · exact .blank ih
  | word _ _ ih => exact .same _ ih
  | blank _ ih => exact .same _ ih
  | semi h1 _ ih => subst h1; exact .same _ ih
  | noSemi h1 _ ih =>
    have : m.opt = false := by cases m <;> first | rfl | exact absurd rfl h1
    unfold settle
    rw [this] at ih ⊢
    exact ih

theorem settle_apart {m : Asm.Mode} {ws : List Piece} (h : apart (settle false ws) = true) :
    apart (settle m.opt ws) = true := by
  cases hm : m.opt with
  | false => exact h
  | true => exact loose_apart (settle_loose ws) h

/-- In COMPRESSED mode there are no other blanks. -/
theorem fits_compressed {bits : List Bit} {ws : List Piece} (h : Fits .compressed bits ws) :
    erase bits = settle false ws := by
  induction h with
  | nil => rfl
  | gap _ h2 _ ih =>
    unfold erase
    rw [if_pos (h2 rfl)]; exact ih
  | word _ _ ih => show _ :: erase _ = _ :: settle _ _; rw [ih]
  | blank _ ih => show _ :: erase _ = _ :: settle _ _; rw [ih]
  | semi h1 _ _ => cases h1
  | noSemi _ _ ih => exact ih

/-- The tokens that are not blanks are the same in all the modes. -/
theorem fits_solid {m : Asm.Mode} {bits : List Bit} {ws : List Piece} (h : Fits m bits ws) :
    solid (erase bits) = solid (settle m.opt ws) := by
  induction h with
  | nil => rfl
  | gap _ _ _ ih =>
    unfold erase
    split
    · exact ih
    · exact ih
  | word _ _ ih => show _ :: solid (erase _) = _ :: solid (settle _ _); rw [ih]
  | blank _ ih => exact ih
  | semi h1 _ ih => subst h1; show _ :: solid (erase _) = _ :: solid (settle _ _); rw [ih]
  | noSemi h1 _ ih =>
    have : m.opt = false := by cases m <;> first | rfl | exact absurd rfl h1
    unfold settle
    rw [this] at ih ⊢
    exact ih

/-! ### Reading -/

theorem chars_clean {bits : List Bit} (h : ∀ b ∈ bits, b.Good) : Clean (chars bits) := by
  intro c hc
  obtain ⟨b, hb, hc⟩ := List.mem_flatMap.1 hc
  cases b with
  | word cs w => exact (h _ hb : Spells cs w).clean c hc
  | gap g => have := (h _ hb : ∀ c ∈ g, c = 32 ∨ c = 10) c hc; omega

theorem clean_newlines {cs : List Nat} (h : Clean cs) : newlines cs = cs := by
  induction cs with
  | nil => rfl
  | cons c cs ih =>
    obtain ⟨_, _, h12, h13⟩ := h c (by simp)
    rw [newlines_other cs h13 h12, ih (fun c hc => h c (by simp [hc]))]

/-- A text is the only one with these characters. -/
theorem shape_forms {c : Nat} {s : Str} (h : CharBytes c s) :
    (s = [c] ∧ c < 128) ∨
    (∃ x y, s = [x, y] ∧ c = 64 * (x - 0xC0) + (y - 0x80) ∧ 0xC2 ≤ x ∧ x ≤ 0xDF ∧ 0x80 ≤ y ∧ y ≤ 0xBF) ∨
    (∃ x y z, s = [x, y, z] ∧ c = 4096 * (x - 0xE0) + 64 * (y - 0x80) + (z - 0x80) ∧ 0xE0 ≤ x ∧ x ≤ 0xEF ∧
      0x80 ≤ y ∧ y ≤ 0xBF ∧ 0x80 ≤ z ∧ z ≤ 0xBF ∧ (x = 0xE0 → 0xA0 ≤ y)) ∨
    (∃ x y z t, s = [x, y, z, t] ∧ c = 262144 * (x - 0xF0) + 4096 * (y - 0x80) + 64 * (z - 0x80) + (t - 0x80) ∧
      0xF0 ≤ x ∧ x ≤ 0xF4 ∧ 0x80 ≤ y ∧ y ≤ 0xBF ∧ 0x80 ≤ z ∧ z ≤ 0xBF ∧ 0x80 ≤ t ∧ t ≤ 0xBF ∧ (x = 0xF0 → 0x90 ≤ y)) := by
  cases h with
  | one _ h => exact .inl ⟨rfl, h⟩
  | two a b ha hb => exact .inr (.inl ⟨a, b, rfl, rfl, ha.1, ha.2, hb.1, hb.2⟩)
  | three a b c ha hb hc h1 h2 => exact .inr (.inr (.inl ⟨a, b, c, rfl, rfl, ha.1, ha.2, hb.1, hb.2, hc.1, hc.2, h1⟩))
  | four a b c d ha hb hc hd h1 h2 =>
    exact .inr (.inr (.inr ⟨a, b, c, d, rfl, rfl, ha.1, ha.2, hb.1, hb.2, hc.1, hc.2, hd.1, hd.2, h1⟩))

theorem shape_unique {c : Nat} {a b : Str} (h : CharBytes c a) (h' : CharBytes c b) : a = b := by
  rcases shape_forms h with ⟨rfl, h⟩ | ⟨x, y, rfl, h⟩ | ⟨x, y, z, rfl, h⟩ | ⟨x, y, z, t, rfl, h⟩ <;>
  rcases shape_forms h' with ⟨rfl, h'⟩ | ⟨x', y', rfl, h'⟩ | ⟨x', y', z', rfl, h'⟩ | ⟨x', y', z', t', rfl, h'⟩
  · rfl
  · omega
  · omega
  · omega
  · omega
  · have : x = x' ∧ y = y' := by omega
    rw [this.1, this.2]
  · omega
  · omega
  · omega
  · omega
  · have : x = x' ∧ y = y' ∧ z = z' := by omega
    rw [this.1, this.2.1, this.2.2]
  · omega
  · omega
  · omega
  · omega
  · have : x = x' ∧ y = y' ∧ z = z' ∧ t = t' := by omega
    rw [this.1, this.2.1, this.2.2.1, this.2.2.2]

theorem utf8_unique {cs : List Nat} {a b : Str} (h : Utf8 cs a) (h' : Utf8 cs b) : a = b := by
  induction h generalizing b with
  | nil => cases h'; rfl
  | cons h1 _ ih =>
    cases h' with
    | cons h2 h3 => rw [shape_unique h1 h2, ih h3]

theorem holds_word {ts : List Tok} {ls : List Lexeme} {ws : List Word} (h : HoldAll ts ls) (h' : OfAll ls ws) :
    ts.map Word.of = ws ∧ ls.filterMap (·.warn) = [] := by
  induction h generalizing ws with
  | nil => cases h'; exact ⟨rfl, rfl⟩
  | cons h1 _ ih =>
    cases h' with
    | cons h2 h3 =>
      obtain ⟨e1, e2⟩ := ih h3
      refine ⟨?_, ?_⟩
      · rw [List.map_cons, e1]
        congr 1
        unfold Word.of
        rw [h1.ty, h2.ty, h1.int, h2.int, h1.num, h2.num, h1.sign, h2.sign, utf8_unique h1.text h2.text, h1.made, ← h2.made]
      · rw [List.filterMap_cons, h2.warn]; exact e2

theorem read_back {m : Asm.Mode} {bits : List Bit} {ws : List Piece} (h : Fits m bits ws)
    (ha : apart (settle false ws) = true) {s : Str} (hu : Utf8 (chars bits) s) {f : Nat} (hf : s.length < f) :
    (lexAll f (init s)).1.map Word.of = merged (erase bits) ∧ (lexAll f (init s)).2.err = [] ∧
    (lexAll f (init s)).2.exn = none ∧ (lexAll f (init s)).2.ub = false := by
  have hfa := followAll_of bits h.good (loose_apart (fits_loose h) (settle_apart ha))
  obtain ⟨ls, ht, ho⟩ := bits_tokens bits h.good hfa [] (by intro c hc; cases hc)
  have hc := chars_clean h.good
  rw [List.nil_append] at ht
  obtain ⟨h1, h2, h3, h4⟩ := C47_complete (chars bits) s hu (fun c hm => ⟨(hc c hm).1, (hc c hm).2.1⟩) ls
    (by rw [clean_newlines hc]; exact ht) f hf
  rw [if_pos rfl] at ho
  obtain ⟨e1, e2⟩ := holds_word h1 ho
  exact ⟨e1, by rw [h2, e2]; rfl, h3, h4⟩

theorem merged_solid : ∀ l : List Piece, (∀ w, .word w ∈ l → w.ty ≠ .WHITESPACE) →
    (merged l).filter (fun w => w.ty ≠ .WHITESPACE) = solid l
  | [], _ => rfl
  | .word w :: l, h => by
    show (w :: merged l).filter _ = w :: solid l
    rw [List.filter_cons_of_pos (by simpa using h w (by simp)), merged_solid l (fun w hw => h w (by simp [hw]))]
  | .semi :: l, h => merged_solid l (fun w hw => h w (by simp [hw]))
  | .blank :: l, h => by
    have ih := merged_solid l (fun w hw => h w (by simp [hw]))
    unfold merged
    split
    · exact ih
    · rw [List.filter_cons_of_neg (by simp)]; exact ih

theorem starts_solid {w : Word} {cs : List Nat} (h : Starts w cs) : w.ty ≠ .WHITESPACE := by
  intro e
  unfold Starts at h
  rw [e] at h
  exact h.1 rfl

theorem erase_words : ∀ bits : List Bit, (∀ b ∈ bits, b.Good) → ∀ w, .word w ∈ erase bits → w.ty ≠ .WHITESPACE
  | [], _, w, h => by cases h
  | .word cs v :: l, hg, w, h => by
    rcases List.mem_cons.1 h with h | h
    · injection h with h; subst h; exact starts_solid (hg (.word cs w) (by simp) : Spells cs w).starts
    · exact erase_words l (fun b hb => hg b (by simp [hb])) w h
  | .gap g :: l, hg, w, h => by
    unfold erase at h
    refine erase_words l (fun b hb => hg b (by simp [hb])) w ?_
    split at h
    · exact h
    · simpa using h

end Csspp.Written
