import Verif.Lemmas.Written3

/-!
For C57: from words that are not glued to tokens.
-/

namespace Csspp.Written
open Csspp.Spec Csspp.Lex

/-- A piece of the text: a word, or blanks. -/
inductive Bit where
  | word (cs : List Nat) (w : Word)
  | gap (g : List Nat)

def Bit.chars : Bit → List Nat
  | .word cs _ => cs
  | .gap g => g

def chars (l : List Bit) : List Nat := l.flatMap Bit.chars

def Bit.Good : Bit → Prop
  | .word cs w => Spells cs w
  | .gap g => ∀ c ∈ g, c = 32 ∨ c = 10

/-- The items of the text; blanks without a character do not count. -/
def erase : List Bit → List Piece
  | [] => []
  | .word _ w :: l => .word w :: erase l
  | .gap g :: l => if g = [] then erase l else .blank :: erase l

theorem chars_cons (b : Bit) (l : List Bit) : chars (b :: l) = b.chars ++ chars l := by
  unfold chars; rw [List.flatMap_cons]
theorem chars_append (a b : List Bit) : chars (a ++ b) = chars a ++ chars b := by
  unfold chars; rw [List.flatMap_append]

/-! ### What follows a word -/

/-- The first character of a word is not a blank. -/
theorem starts_next {w : Word} {cs : List Nat} (h : Starts w cs) : NextIs (fun c => 32 < c) cs := by
  have hs : ∀ ty, spell ty ≠ [] → cs = spell ty → NextIs (fun c => 32 < c) cs := by
    rintro ty hne rfl
    have := spell_ascii ty
    cases hs : spell ty with
    | nil => exact absurd hs hne
    | cons c t => exact ⟨c, t, rfl, (this c (by rw [hs]; simp)).1⟩
  unfold Starts at h
  split at h
  case _ | _ | _ | _ =>
    obtain ⟨c, t, rfl, h⟩ := h
    refine ⟨c, t, rfl, ?_⟩
    unfold NameStart Letter at h; omega
  case _ | _ | _ =>
    obtain ⟨c, t, rfl, h⟩ := h
    refine ⟨c, t, rfl, ?_⟩
    unfold Dec at h; omega
  case _ => obtain ⟨c, t, rfl, h⟩ := h; exact ⟨c, t, rfl, by omega⟩
  case _ => obtain ⟨c, t, rfl, h⟩ := h; exact ⟨c, t, rfl, by omega⟩
  case _ => obtain ⟨c, t, rfl, h⟩ := h; exact ⟨c, t, rfl, by omega⟩
  case _ => obtain ⟨c, t, rfl, h⟩ := h; exact ⟨c, t, rfl, by omega⟩
  case _ => exact hs _ h.1 h.2.1

/-- A blank ends a word. -/
theorem follow_blank (w : Word) {c : Nat} (t : List Nat) (hc : c = 32 ∨ c = 10) : Follow w (c :: t) := by
  refine ⟨?_, ?_⟩
  · rw [nextIs_cons]
    unfold Bad
    split
    all_goals first
      | exact id
      | ((try unfold NameChar); (try unfold VarChar); (try unfold NameStart); (try unfold Hex); (try unfold Dec); (try unfold Letter); omega)
  · intro _ u e; injection e with e _; omega

/-- What a wordy word starts with ends the words it is not glued to. -/
theorem not_glued_class {a b : Word} (hg : Glued a b = false) {c : Nat}
    (h : (b.ty = .IDENTIFIER ∨ b.ty = .FUNCTION ∨ b.ty = .URL ∨ b.ty = .UNICODE_RANGE) ∧ (NameStart c ∨ c = 45 ∨ c = 92) ∨
      (b.ty = .INTEGER ∨ b.ty = .DECIMAL_NUMBER ∨ b.ty = .PERCENT) ∧ (Dec c ∨ c = 45 ∨ c = 46) ∨
      c = 35 ∨ c = 36 ∨ c = 64 ∨ c = 34 ∨ c = 39) : ¬ Bad a c := by
  have hw : (b.ty = .IDENTIFIER ∨ b.ty = .FUNCTION ∨ b.ty = .URL ∨ b.ty = .UNICODE_RANGE) ∨
      (b.ty = .INTEGER ∨ b.ty = .DECIMAL_NUMBER ∨ b.ty = .PERCENT) → b.wordy = true := by
    unfold Word.wordy
    rintro ((h | h | h | h) | h | h | h) <;> rw [h]
  have hn : (b.ty = .INTEGER ∨ b.ty = .DECIMAL_NUMBER ∨ b.ty = .PERCENT) → b.numeric = true := by
    unfold Word.numeric
    rintro (h | h | h) <;> rw [h]
  have hch : c = 35 ∨ c = 36 ∨ c = 64 ∨ c = 34 ∨ c = 39 → ¬ Bad a c := by
    intro hc
    unfold Bad
    split
    all_goals first
      | exact id
      | ((try unfold NameChar); (try unfold VarChar); (try unfold NameStart); (try unfold Hex); (try unfold Dec); (try unfold Letter); omega)
  unfold Glued at hg
  unfold Bad at hch ⊢
  rcases h with ⟨h1, h2⟩ | ⟨h1, h2⟩ | h
  · have hw := hw (.inl h1)
    split <;> first | exact id | skip
    all_goals rename_i ht
    all_goals rw [ht] at hg
    all_goals dsimp only at hg
    all_goals first
      | (rw [hw] at hg; simp at hg; done)
      | (unfold NameStart at h2; (try unfold Dec); unfold Letter at h2; omega)
  · have hw := hw (.inr h1)
    have hn := hn h1
    split <;> first | exact id | skip
    all_goals rename_i ht
    all_goals rw [ht] at hg
    all_goals dsimp only at hg
    all_goals first
      | (rw [hw] at hg; simp at hg; done)
      | (rw [hn] at hg; cases hg; done)
      | (unfold Dec at h2; omega)
  · exact hch h

/-- The same of the words without a value. -/
theorem not_glued_mark {a b : Word} (hg : Glued a b = false) (hs : spell b.ty ≠ []) {c : Nat} {t : List Nat}
    (hc : spell b.ty = c :: t) : ¬ Bad a c := by
  have hu : ∀ s : Str, (s == b!"u" || s == b!"U") = false → ¬ (s = b!"u" ∨ s = b!"U") := by
    intro s h h'; rcases h' with h' | h' <;> rw [h'] at h <;> cases h
  unfold Glued at hg
  unfold Bad
  obtain ⟨bt, bs, bi, bn, bg⟩ := b
  dsimp only at hs hc hg
  have hc' : c = (spell bt).headD 0 := by rw [hc]; rfl
  subst hc'
  clear hc
  cases bt
  all_goals first
    | exact absurd rfl hs
    | skip
  all_goals
    clear hs
    simp only [spell, List.headD_cons]
    unfold Word.wordy Word.numeric at hg
    dsimp only at hg
    split <;> first | exact id | skip
    all_goals rename_i ht
    all_goals rw [ht] at hg
    all_goals dsimp only at hg
  all_goals first
    | (exfalso; revert hg; decide)
    | ((try unfold NameChar); (try unfold VarChar); (try unfold NameStart); (try unfold Hex); (try unfold Dec); (try unfold Letter); omega)
    | skip
  all_goals first
    | (exfalso; simp at hg; done)
    | skip
  all_goals
    have hg : (a.str == b!"u" || a.str == b!"U") = false := by simpa using hg
    have := hu _ hg
    rintro (h | h | h | ⟨h, _⟩)
    · unfold NameChar VarChar Dec Letter at h; omega
    · exact absurd h (by decide)
    · exact absurd h (by decide)
    · exact this h

theorem starts_mark {w : Word} {cs : List Nat} (h : Starts w cs) :
    ((w.ty = .IDENTIFIER ∨ w.ty = .FUNCTION ∨ w.ty = .URL ∨ w.ty = .UNICODE_RANGE) ∧
        NextIs (fun c => NameStart c ∨ c = 45 ∨ c = 92) cs) ∨
    ((w.ty = .INTEGER ∨ w.ty = .DECIMAL_NUMBER ∨ w.ty = .PERCENT) ∧ NextIs (fun c => Dec c ∨ c = 45 ∨ c = 46) cs) ∨
    NextIs (fun c => c = 35 ∨ c = 36 ∨ c = 64 ∨ c = 34 ∨ c = 39) cs ∨ (spell w.ty ≠ [] ∧ cs = spell w.ty) := by
  unfold Starts at h
  split at h <;> rename_i ht
  · exact .inl ⟨.inl ht, h⟩
  · exact .inl ⟨.inr (.inl ht), h⟩
  · exact .inl ⟨.inr (.inr (.inl ht)), h⟩
  · exact .inl ⟨.inr (.inr (.inr ht)), h⟩
  · exact .inr (.inl ⟨.inl ht, h⟩)
  · exact .inr (.inl ⟨.inr (.inl ht), h⟩)
  · exact .inr (.inl ⟨.inr (.inr ht), h⟩)
  · obtain ⟨c, t, e, h⟩ := h; exact .inr (.inr (.inl ⟨c, t, e, by omega⟩))
  · obtain ⟨c, t, e, h⟩ := h; exact .inr (.inr (.inl ⟨c, t, e, by omega⟩))
  · obtain ⟨c, t, e, h⟩ := h; exact .inr (.inr (.inl ⟨c, t, e, by omega⟩))
  · obtain ⟨c, t, e, h⟩ := h; exact .inr (.inr (.inl ⟨c, t, e, by omega⟩))
  · exact .inr (.inr (.inr ⟨h.1, h.2.1⟩))

theorem follow_next {a b : Word} {cs rest : List Nat} (hg : Glued a b = false) (hs : Starts b cs) (hf : Follow b rest) :
    Follow a (cs ++ rest) := by
  refine ⟨?_, ?_⟩
  · rcases starts_mark hs with ⟨h1, c, t, rfl, h2⟩ | ⟨h1, c, t, rfl, h2⟩ | ⟨c, t, rfl, h2⟩ | ⟨h1, rfl⟩
    · rw [List.cons_append, nextIs_cons]; exact not_glued_class hg (.inl ⟨h1, h2⟩)
    · rw [List.cons_append, nextIs_cons]; exact not_glued_class hg (.inr (.inl ⟨h1, h2⟩))
    · rw [List.cons_append, nextIs_cons]; exact not_glued_class hg (.inr (.inr h2))
    · cases he : spell b.ty with
      | nil => exact absurd he h1
      | cons c t => rw [List.cons_append, nextIs_cons]; exact not_glued_mark hg h1 he
  · intro ha t e
    rcases starts_mark hs with ⟨h1, c, u, rfl, h2⟩ | ⟨h1, c, u, rfl, h2⟩ | ⟨c, u, rfl, h2⟩ | ⟨h1, rfl⟩
    · injection e with e _; unfold NameStart Letter at h2; omega
    · have hn : b.numeric = true ∧ b.wordy = true := by
        unfold Word.numeric Word.wordy; rcases h1 with h | h | h <;> rw [h] <;> exact ⟨rfl, rfl⟩
      unfold Glued at hg
      rcases ha with h | h <;> rw [h] at hg
      · rw [hn.1] at hg; cases hg
      · rw [hn.2] at hg; cases hg
    · injection e with e _; omega
    · have hty : b.ty = .PERIOD ∧ t = rest := by
        revert e h1
        generalize b.ty = ty
        cases ty <;> intro h1 e
        all_goals first
          | exact absurd rfl h1
          | (injection e with e1 e2; first | omega | exact ⟨rfl, e2.symm⟩)
      rw [hty.2]
      have := hf.bad
      unfold Bad at this
      rw [hty.1] at this
      exact this

/-! ### From items to tokens -/

/-- Every word is followed by something that does not extend it. -/
def FollowAll : List Bit → Prop
  | [] => True
  | .word _ w :: l => Follow w (chars l) ∧ FollowAll l
  | .gap _ :: l => FollowAll l

theorem erase_next : ∀ (l : List Bit), (∀ b ∈ l, b.Good) → FollowAll l →
    (erase l = [] ∧ chars l = []) ∨ (∃ r c t, erase l = .blank :: r ∧ chars l = c :: t ∧ (c = 32 ∨ c = 10)) ∨
    ∃ r w cs t, erase l = .word w :: r ∧ chars l = cs ++ t ∧ Starts w cs ∧ Follow w t
  | [], _, _ => .inl ⟨rfl, rfl⟩
  | .word cs w :: l, hg, hf => by
    refine .inr (.inr ⟨erase l, w, cs, chars l, rfl, rfl, ?_, hf.1⟩)
    have := hg (.word cs w) (by simp)
    exact this.starts
  | .gap [] :: l, hg, hf => erase_next l (fun b hb => hg b (by simp [hb])) hf
  | .gap (c :: g) :: l, hg, _ => by
    refine .inr (.inl ⟨erase l, c, g ++ chars l, by simp [erase], rfl, ?_⟩)
    have := hg (.gap (c :: g)) (by simp)
    exact this c (by simp)

theorem apart_tail {i : Piece} {l : List Piece} (h : apart (i :: l) = true) : apart l = true := by
  cases i with
  | word a =>
    cases l with
    | nil => rfl
    | cons j l =>
      cases j with
      | word b =>
        unfold apart at h; rw [Bool.and_eq_true] at h; exact h.2
      | blank => exact h
      | semi => exact h
  | blank => exact h
  | semi => exact h

theorem apart_next {a b : Word} {l : List Piece} (h : apart (.word a :: .word b :: l) = true) : Glued a b = false := by
  unfold apart at h; rw [Bool.and_eq_true] at h; simpa using h.1

theorem followAll_of : ∀ (l : List Bit), (∀ b ∈ l, b.Good) → apart (erase l) = true → FollowAll l
  | [], _, _ => trivial
  | .gap g :: l, hg, ha => by
    refine followAll_of l (fun b hb => hg b (by simp [hb])) ?_
    unfold erase at ha
    split at ha
    · exact ha
    · exact apart_tail ha
  | .word cs w :: l, hg, ha => by
    have hg' : ∀ b ∈ l, b.Good := fun b hb => hg b (by simp [hb])
    have ih := followAll_of l hg' (apart_tail ha)
    refine ⟨?_, ih⟩
    rcases erase_next l hg' ih with ⟨_, h⟩ | ⟨r, c, t, _, h, hc⟩ | ⟨r, w', cs', t, he, h, hs, hf⟩
    · rw [h]; exact follow_nil w
    · rw [h]; exact follow_blank w t hc
    · rw [h]
      unfold erase at ha
      rw [he] at ha
      exact follow_next (apart_next ha) hs hf

/-- The lexemes have the values of the words. -/
inductive OfAll : List Lexeme → List Word → Prop
  | nil : OfAll [] []
  | cons {l : Lexeme} {w : Word} {ls : List Lexeme} {ws : List Word} : Of l w → OfAll ls ws → OfAll (l :: ls) (w :: ws)

theorem merged_blanks (l : List Piece) : merged (.blank :: .blank :: l) = merged (.blank :: l) := by
  conv => lhs; unfold merged
  rfl

theorem merged_blank {l : List Piece} (h : l.head? ≠ some .blank) :
    merged (.blank :: l) = { ty := .WHITESPACE } :: merged l := by
  conv => lhs; unfold merged
  rw [if_neg h]

theorem bits_tokens : ∀ (l : List Bit), (∀ b ∈ l, b.Good) → FollowAll l → ∀ g : List Nat, (∀ c ∈ g, c = 32 ∨ c = 10) →
    ∃ ls, Tokens (g ++ chars l) ls ∧ OfAll ls (merged (if g = [] then erase l else .blank :: erase l))
  | [], _, _, g, hgap => by
    cases g with
    | nil => exact ⟨[], .eof, .nil⟩
    | cons c g =>
      refine ⟨[{ ty := .WHITESPACE }], .token (.spaces (fun c hc => ?_) (by simp) nextIs_nil) (by simp) .eof, ?_⟩
      · have := hgap c hc; unfold Blank; omega
      · rw [if_neg (by simp)]
        exact .cons ⟨rfl, .nil, rfl, rfl, rfl, rfl, rfl⟩ .nil
  | .gap g' :: l, hg, hf, g, hgap => by
    obtain ⟨ls, h1, h2⟩ := bits_tokens l (fun b hb => hg b (by simp [hb])) hf (g ++ g') (by
      intro c hc
      rcases List.mem_append.1 hc with hc | hc
      · exact hgap c hc
      · exact hg (.gap g') (by simp) c hc)
    refine ⟨ls, ?_, ?_⟩
    · rw [chars_cons, ← List.append_assoc]; exact h1
    · cases g' with
      | nil => rw [List.append_nil] at h2; exact h2
      | cons c t =>
        rw [if_neg (by simp)] at h2
        have e : erase (.gap (c :: t) :: l) = .blank :: erase l := by simp [erase]
        rw [e]
        split
        · exact h2
        · rw [merged_blanks]; exact h2
  | .word cs w :: l, hg, hf, g, hgap => by
    obtain ⟨ls, h1, h2⟩ := bits_tokens l (fun b hb => hg b (by simp [hb])) hf.2 [] (by intro c hc; cases hc)
    have hw : Spells cs w := hg (.word cs w) (by simp)
    obtain ⟨lx, ho, hne, hnw, hr⟩ := hw.reads
    have hr := hr _ hf.1
    have ht : Tokens (chars (.word cs w :: l)) (lx :: ls) := by
      rw [chars_cons]; exact .token hr hne h1
    have ha : OfAll (lx :: ls) (merged (erase (.word cs w :: l))) := .cons ho h2
    cases g with
    | nil => exact ⟨lx :: ls, ht, ha⟩
    | cons c g =>
      refine ⟨{ ty := .WHITESPACE } :: lx :: ls, .token (.spaces (fun c hc => ?_) (by simp) ?_) (by simp) ht, ?_⟩
      · have := hgap c hc; unfold Blank; omega
      · obtain ⟨d, u, e, hd⟩ := starts_next hw.starts
        rw [chars_cons]
        show ¬ NextIs Blank (cs ++ _)
        rw [e, List.cons_append, nextIs_cons]; unfold Blank; omega
      · rw [if_neg (by simp), merged_blank (by simp [erase])]
        exact .cons ⟨rfl, .nil, rfl, rfl, rfl, rfl, rfl⟩ ha

end Csspp.Written
