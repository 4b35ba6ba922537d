import Verif.Spec.Written
import Verif.Props.LexGrammar
import Verif.Props.RoundTripNum
import Verif.Props.RoundTripRange

/-!
For C57: the words written by the assembler are read as tokens, when what follows does not extend
them.
-/

namespace Csspp.Written
open Csspp.Spec Csspp.Lex

/-- The lexeme has the values of the word, and no warning comes with it. -/
structure Of (l : Lexeme) (w : Word) : Prop where
  ty : l.ty = w.ty
  text : Utf8 l.text w.str
  int : l.int = w.int
  num : l.num = w.num
  sign : l.sign = w.sign
  warn : l.warn = none
  made : w.made = none

/-- The words without a value that are written. -/
def spell : NT → List Nat
  | .ADD => b!"+" | .COLON => b!":" | .DASH_MATCH => b!"|=" | .DIVIDE => b!"/" | .EQUAL => b!"="
  | .GREATER_THAN => b!">" | .INCLUDE_MATCH => b!"~=" | .MULTIPLY => b!"*" | .PERIOD => b!"."
  | .PRECEDED => b!"~" | .PREFIX_MATCH => b!"^=" | .SCOPE => b!"|" | .SUBSTRING_MATCH => b!"*="
  | .SUBTRACT => b!"-" | .SUFFIX_MATCH => b!"$=" | .COMMA => b!"," | .SEMICOLON => b!";"
  | .EXCLAMATION => b!"!" | .OPEN_CURLYBRACKET => b!"{" | .CLOSE_CURLYBRACKET => b!"}"
  | .OPEN_PARENTHESIS => b!"(" | .CLOSE_PARENTHESIS => b!")" | .OPEN_SQUAREBRACKET => b!"["
  | .CLOSE_SQUAREBRACKET => b!"]"
  | _ => []

/-- The character c extends the word w. -/
def Bad (w : Word) (c : Nat) : Prop :=
  match w.ty with
  | .IDENTIFIER => NameChar c ∨ c = 92 ∨ c = 40 ∨ ((w.str = b!"u" ∨ w.str = b!"U") ∧ c = 43)
  | .AT_KEYWORD | .HASH => NameChar c ∨ c = 92
  | .VARIABLE => VarChar c ∨ c = 40
  | .INTEGER | .DECIMAL_NUMBER => NameChar c ∨ c = 92 ∨ c = 46 ∨ c = 37
  | .UNICODE_RANGE => Hex c ∨ c = 63 ∨ c = 45
  | .ADD | .PERIOD => Dec c
  | .SUBTRACT => Dec c ∨ NameStart c ∨ c = 92 ∨ c = 45
  | .EQUAL | .COLON | .EXCLAMATION | .GREATER_THAN | .PRECEDED => c = 61
  | .MULTIPLY => c = 61 ∨ c = 42
  | .SCOPE => c = 61 ∨ c = 124
  | .DIVIDE => c = 42 ∨ c = 47
  | _ => False

/-- The text does not extend the word. -/
structure Follow (w : Word) (rest : List Nat) : Prop where
  bad : ¬ NextIs (Bad w) rest
  dot : w.ty = .ADD ∨ w.ty = .SUBTRACT → ∀ t, rest = 46 :: t → ¬ NextIs Dec t

/-- What the word starts with. -/
def Starts (w : Word) (cs : List Nat) : Prop :=
  match w.ty with
  | .IDENTIFIER | .FUNCTION | .URL | .UNICODE_RANGE => NextIs (fun c => NameStart c ∨ c = 45 ∨ c = 92) cs
  | .INTEGER | .DECIMAL_NUMBER | .PERCENT => NextIs (fun c => Dec c ∨ c = 45 ∨ c = 46) cs
  | .HASH => NextIs (fun c => c = 35) cs
  | .VARIABLE => NextIs (fun c => c = 36) cs
  | .AT_KEYWORD => NextIs (fun c => c = 64) cs
  | .STRING => NextIs (fun c => c = 34 ∨ c = 39) cs
  | ty => spell ty ≠ [] ∧ cs = spell ty ∧ w = { ty := ty }

/-- Characters that are read as they are. -/
def Clean (cs : List Nat) : Prop := ∀ c ∈ cs, c ≠ 0 ∧ c ≠ 0xFFFD ∧ c ≠ 12 ∧ c ≠ 13

theorem Clean.append {a b : List Nat} (ha : Clean a) (hb : Clean b) : Clean (a ++ b) := by
  intro c h; rcases List.mem_append.1 h with h | h
  · exact ha c h
  · exact hb c h

/-- `cs` is a text of the word w. -/
structure Spells (cs : List Nat) (w : Word) : Prop where
  reads : ∃ l, Of l w ∧ l.ty ≠ .EOF_TOKEN ∧ l.ty ≠ .WHITESPACE ∧ ∀ rest, Follow w rest → Reads (cs ++ rest) l rest
  starts : Starts w cs
  clean : Clean cs

/-! ### Words without a value -/

/-- The text that follows p does not extend it to another punctuation. -/
theorem longest {p rest : List Nat} {bad : List Nat}
    (hb : ∀ q ∈ punctuation, q.1.length > p.length → q.1.take p.length = p → (q.1.drop p.length).head?.any (bad.contains ·) = true)
    (hr : ∀ c ∈ bad, ¬ NextIs (fun d => d = c) rest) :
    ∀ p' ty', (p', ty') ∈ Spec.punctuation → p' <+: p ++ rest → p'.length ≤ p.length := by
  intro p' ty' hm hp
  apply Classical.byContradiction
  intro hl
  have hl : p'.length > p.length := by omega
  obtain ⟨t, ht⟩ := hp
  have e1 : p'.take p.length = p := by
    have := congrArg (List.take p.length) ht
    rw [List.take_append_of_le_length (by omega), List.take_left] at this
    exact this
  have h := hb (p', ty') hm hl e1
  have e2 : p'.drop p.length ++ t = rest := by
    have := congrArg (List.drop p.length) ht
    rw [List.drop_append_of_le_length (by omega), List.drop_left] at this
    exact this
  cases hd : p'.drop p.length with
  | nil => rw [hd] at h; cases h
  | cons c u =>
    rw [hd] at h
    simp only [List.head?_cons, Option.any_some, List.contains_iff_mem] at h
    refine hr c h ⟨c, u ++ t, ?_, rfl⟩
    rw [← e2, hd]; rfl

theorem spell_ascii (ty : NT) : ∀ c ∈ spell ty, 32 < c ∧ c < 0x80 := by
  cases ty <;> decide

theorem mem_punct {ty : NT} (h : spell ty ≠ []) : (spell ty, ty) ∈ punctuation := by
  cases ty <;> first | decide | exact absurd rfl h

theorem follow_ne {w : Word} {rest : List Nat} (h : Follow w rest) {c : Nat} (hb : Bad w c) :
    ¬ NextIs (fun d => d = c) rest := by
  rintro ⟨d, t, rfl, rfl⟩
  exact h.bad ⟨d, t, rfl, hb⟩

theorem start_dec {c : Nat} : Dec c ↔ 48 ≤ c ∧ c ≤ 57 := Iff.rfl

/-- Nothing else starts with this character. -/
theorem quiet {c : Nat} {t : List Nat} (h : ¬ Dec c ∧ c ≠ 46 ∧ c ≠ 43 ∧ c ≠ 45 ∧ ¬ NameStart c ∧ c ≠ 92 ∧ c ≠ 47 ∧ c ≠ 36) :
    ¬ StartsNumber (c :: t) ∧ ¬ StartsName (c :: t) ∧ ¬ StartsComment (c :: t) ∧ ¬ StartsVariable (c :: t) := by
  refine ⟨?_, ?_, ?_, ?_⟩
  · rintro (⟨d, u, e, hd⟩ | ⟨u, e, hd⟩ | ⟨d, u, e, hd, _⟩) <;> cases e
    · exact h.1 hd
    · exact h.2.1 rfl
    · omega
  · rintro (⟨d, u, e, hd⟩ | ⟨u, e, hd⟩) <;> cases e
    · rcases hd with hd | hd
      · exact h.2.2.2.2.1 hd
      · exact h.2.2.2.2.2.1 hd
    · omega
  · rintro ⟨u, e | e⟩ <;> cases e <;> omega
  · rintro ⟨u, e, _⟩; cases e; omega

theorem mark_spells {ty : NT} (h : spell ty ≠ []) : Spells (spell ty) { ty := ty } := by
  have hs : Starts { ty := ty } (spell ty) := by
    unfold Starts
    cases ty <;> first | exact absurd rfl h | exact ⟨h, rfl, rfl⟩
  refine ⟨⟨{ ty := ty }, ⟨rfl, .nil, rfl, rfl, rfl, rfl, rfl⟩, ?_, ?_, ?_⟩, hs, ?_⟩
  · show ty ≠ _; rintro rfl; exact h rfl
  · show ty ≠ _; rintro rfl; exact h rfl
  · intro rest hf
    have key : ∀ (bad : List Nat),
        (∀ q ∈ punctuation, q.1.length > (spell ty).length → q.1.take (spell ty).length = spell ty →
          (q.1.drop (spell ty).length).head?.any (bad.contains ·) = true) →
        (∀ c ∈ bad, Bad { ty := ty } c) →
        (¬ StartsNumber (spell ty ++ rest) ∧ ¬ StartsName (spell ty ++ rest) ∧ ¬ StartsComment (spell ty ++ rest) ∧
          ¬ StartsVariable (spell ty ++ rest)) → spell ty ≠ b!"==" →
        Reads (spell ty ++ rest) { ty := ty } rest := by
      intro bad h1 h2 h3 h4
      have := Reads.punctuation (mem_punct h) (longest h1 (fun c hc => follow_ne hf (h2 c hc))) h3.1 h3.2.1 h3.2.2.1 h3.2.2.2
      rw [if_neg h4] at this
      exact this
    have q : ∀ c t, (¬ Dec c ∧ c ≠ 46 ∧ c ≠ 43 ∧ c ≠ 45 ∧ ¬ NameStart c ∧ c ≠ 92 ∧ c ≠ 47 ∧ c ≠ 36) →
      ¬ StartsNumber (c :: t) ∧ ¬ StartsName (c :: t) ∧ ¬ StartsComment (c :: t) ∧ ¬ StartsVariable (c :: t) :=
      fun c t h => quiet h
    cases ty
    all_goals first
      | exact absurd rfl h
      | skip
    -- the words that need more than their first character
    case ADD =>
      refine key [] (by decide) (by intro c hc; cases hc) ⟨?_, ?_, ?_, ?_⟩ (by decide)
      · rintro (⟨d, u, e, hd⟩ | ⟨u, e, hd⟩ | ⟨d, u, e, hd, hn | ⟨v, rfl, hn⟩⟩)
        · cases e; unfold Dec at hd; omega
        · cases e
        · cases e; obtain ⟨c, t, rfl, hc⟩ := hn; exact hf.bad ⟨c, t, rfl, hc⟩
        · cases e; exact hf.dot (.inl rfl) v rfl hn
      · rintro (⟨d, u, e, hd⟩ | ⟨u, e, hd⟩) <;> cases e
        unfold NameStart Letter at hd; omega
      · rintro ⟨u, e | e⟩ <;> cases e
      · rintro ⟨u, e, _⟩; cases e
    case PERIOD =>
      refine key [] (by decide) (by intro c hc; cases hc) ⟨?_, ?_, ?_, ?_⟩ (by decide)
      · rintro (⟨d, u, e, hd⟩ | ⟨u, e, hn⟩ | ⟨d, u, e, hd, hn | ⟨v, rfl, hn⟩⟩)
        · cases e; unfold Dec at hd; omega
        · cases e; obtain ⟨c, t, rfl, hc⟩ := hn; exact hf.bad ⟨c, t, rfl, hc⟩
        · cases e; omega
        · cases e; omega
      · rintro (⟨d, u, e, hd⟩ | ⟨u, e, hd⟩) <;> cases e
        unfold NameStart Letter at hd; omega
      · rintro ⟨u, e | e⟩ <;> cases e
      · rintro ⟨u, e, _⟩; cases e
    case SUBTRACT =>
      refine key [45] (by decide) (by intro c hc; simp at hc; subst hc; exact .inr (.inr (.inr rfl))) ⟨?_, ?_, ?_, ?_⟩ (by decide)
      · rintro (⟨d, u, e, hd⟩ | ⟨u, e, hn⟩ | ⟨d, u, e, hd, hn | ⟨v, rfl, hn⟩⟩)
        · cases e; unfold Dec at hd; omega
        · cases e
        · cases e; obtain ⟨c, t, rfl, hc⟩ := hn; exact hf.bad ⟨c, t, rfl, .inl hc⟩
        · cases e; exact hf.dot (.inr rfl) v rfl hn
      · rintro (⟨d, u, e, hd⟩ | ⟨u, e, hn⟩)
        · cases e; unfold NameStart Letter at hd; omega
        · cases e
          obtain ⟨c, t, rfl, hc | hc⟩ := hn
          · exact hf.bad ⟨c, t, rfl, .inr (.inl hc)⟩
          · exact hf.bad ⟨c, t, rfl, .inr (.inr (.inl hc))⟩
      · rintro ⟨u, e | e⟩ <;> cases e
      · rintro ⟨u, e, _⟩; cases e
    case DIVIDE =>
      refine key [] (by decide) (by intro c hc; cases hc) ⟨?_, ?_, ?_, ?_⟩ (by decide)
      · rintro (⟨d, u, e, hd⟩ | ⟨u, e, hn⟩ | ⟨d, u, e, hd, hn⟩)
        · cases e; unfold Dec at hd; omega
        · cases e
        · cases e; omega
      · rintro (⟨d, u, e, hd⟩ | ⟨u, e, hd⟩) <;> cases e
        unfold NameStart Letter at hd; omega
      · rintro ⟨u, e | e⟩ <;> cases e
        · exact hf.bad ⟨42, _, rfl, .inl rfl⟩
        · exact hf.bad ⟨47, _, rfl, .inr rfl⟩
      · rintro ⟨u, e, _⟩; cases e
    case SUFFIX_MATCH =>
      refine key [] (by decide) (by intro c hc; cases hc) ⟨?_, ?_, ?_, ?_⟩ (by decide)
      · rintro (⟨d, u, e, hd⟩ | ⟨u, e, hn⟩ | ⟨d, u, e, hd, hn⟩)
        · cases e; unfold Dec at hd; omega
        · cases e
        · cases e; omega
      · rintro (⟨d, u, e, hd⟩ | ⟨u, e, hd⟩) <;> cases e
        unfold NameStart Letter at hd; omega
      · rintro ⟨u, e | e⟩ <;> cases e
      · rintro ⟨u, e, hd⟩; cases e
        have hd : NextIs VarChar (61 :: rest) := hd
        rw [nextIs_cons] at hd; unfold VarChar Dec Letter at hd; omega
    case EQUAL | COLON | EXCLAMATION | GREATER_THAN | PRECEDED =>
      exact key [61] (by decide) (by intro c hc; simp at hc; subst hc; exact rfl)
        (q _ _ (by unfold Dec NameStart Letter; omega)) (by decide)
    case MULTIPLY | SCOPE =>
      first
        | exact key [61, 42] (by decide) (by intro c hc; simp at hc; exact hc)
            (q _ _ (by unfold Dec NameStart Letter; omega)) (by decide)
        | exact key [61, 124] (by decide) (by intro c hc; simp at hc; exact hc)
            (q _ _ (by unfold Dec NameStart Letter; omega)) (by decide)
    all_goals exact key [] (by decide) (by intro c hc; cases hc) (q _ _ (by unfold Dec NameStart Letter; omega)) (by decide)
  · intro c hc
    have := spell_ascii ty c hc
    omega

/-! ### Names -/

theorem follow_nil (w : Word) : Follow w [] := ⟨nextIs_nil, by intro _ t h; cases h⟩

theorem nameTail_plain {cs rest : List Nat} (hc : ∀ c ∈ cs, NameChar c ∧ Fair c)
    (hr : ¬ NextIs (fun c => NameChar c ∨ c = 92) rest) : NameTail (cs ++ rest) cs false rest := by
  induction cs with
  | nil => exact .stop rest hr
  | cons c cs ih => exact .char (hc c (by simp)).1 (hc c (by simp)).2.1 (ih (fun x hx => hc x (by simp [hx])))

theorem name_plain {cs rest : List Nat} (hn : PlainName cs)
    (hr : ¬ NextIs (fun c => NameChar c ∨ c = 92) rest) : Name (cs ++ rest) cs false rest := by
  obtain ⟨hc, hs⟩ := hn
  rcases hs with ⟨c, t, rfl, hcs⟩ | ⟨t, rfl, c, u, rfl, hcs⟩
  · exact .plain (.char hcs (hc c (by simp)).2.1 (nameTail_plain (fun x hx => hc x (by simp [hx])) hr)) (by simp)
  · exact .dash (.char hcs (hc c (by simp)).2.1 (nameTail_plain (fun x hx => hc x (by simp [hx])) hr))

theorem start_lt {c : Nat} (h : isStartIdentifier c = true) (hle : c ≤ 0x10FFFF) : NameStart c := by
  have := Lex.isStart_cases h
  unfold NameStart Letter
  omega

theorem not_ident {c : Nat} (h : ¬ isIdentifier c = true) (hle : c ≤ 0x10FFFF) : ¬ NameChar c := by
  intro hn; exact h ((isIdentifier_name hle).2 hn)

theorem hex_name {c : Nat} (h : Hex c) : NameChar c := by
  unfold Hex Dec at h; unfold NameChar VarChar Dec Letter; omega

theorem escTail_name {cs rest : List Nat} (hc : ∀ c ∈ cs, Fair c ∧ c ≠ 10 ∧ c ≠ 12 ∧ c ≠ 13)
    (hr : ¬ NextIs (fun c => NameChar c ∨ c = 92) rest) : NameTail (escTail cs ++ rest) cs false rest := by
  induction cs with
  | nil => exact .stop rest hr
  | cons c cs ih =>
    have hf := hc c (by simp)
    have ih := ih (fun x hx => hc x (by simp [hx]))
    have hle := valid_le hf.1.1
    unfold escTail at ih ⊢
    rw [List.flatMap_cons]
    by_cases hi : isIdentifier c = true
    · rw [if_pos hi]; exact .char ((isIdentifier_name hle).1 hi) hf.1.1 ih
    · rw [if_neg hi]
      exact .escape (.plain _ hf.2.1 (fun h => not_ident hi hle (hex_name h))) hf.1.2 hf.1.1 ih

theorem escChars_name {cs rest : List Nat} (hne : cs ≠ [])
    (hc : ∀ c ∈ cs, Fair c ∧ c ≠ 10 ∧ c ≠ 12 ∧ c ≠ 13) (h1 : ∀ c, cs = [c] → ¬ Dec c)
    (hr : ¬ NextIs (fun c => NameChar c ∨ c = 92) rest) : Name (escChars cs ++ rest) cs false rest := by
  cases cs with
  | nil => exact absurd rfl hne
  | cons c cs =>
    have hf := hc c (by simp)
    have ht := escTail_name (cs := cs) (rest := rest) (fun x hx => hc x (by simp [hx])) hr
    have hle := valid_le hf.1.1
    unfold escChars
    dsimp only
    by_cases hs : isStartIdentifier c = true
    · rw [if_pos hs]; exact .plain (.char (start_lt hs hle) hf.1.1 ht) (by simp)
    · rw [if_neg hs]
      by_cases hd : isDigit c = true
      · rw [if_pos hd]
        have hdc : Dec c := by unfold isDigit at hd; simp at hd; exact hd
        have hx : ∀ d ∈ [51, c], Hex d := by
          intro d hd; simp at hd; left; unfold Dec at *; omega
        have hv : hexValue [51, c] = c := by
          unfold Dec at hdc
          unfold hexValue hexDigitValue; simp; rw [if_pos (by omega)]; omega
        have hv2 : 0 < hexValue [51, c] ∧ hexValue [51, c] ≤ 0x10FFFF := by
          rw [hv]; unfold Dec at hdc; omega
        refine .plain ?_ (by simp)
        by_cases hh : cs.head?.any isHex = true
        · rw [if_pos hh]
          have e := Escape.spaced (sp := 32) (escTail cs ++ rest) hx (by simp) hv2 (.inl rfl)
          rw [hv] at e
          have := NameBody.escape e hf.1.2 hf.1.1 ht
          simpa using this
        · rw [if_neg hh]
          have e := Escape.short (escTail cs ++ rest) hx (by simp) hv2 (by
            cases cs with
            | nil => exact absurd hdc (h1 c rfl)
            | cons d cs =>
              have hfd := hc d (by simp)
              have hled := valid_le hfd.1.1
              have : escTail (d :: cs) = (if isIdentifier d then [d] else [92, d]) ++ escTail cs := by
                unfold escTail; rw [List.flatMap_cons]
              rw [this]
              by_cases hi : isIdentifier d = true
              · rw [if_pos hi]
                rw [List.append_assoc, List.singleton_append, nextIs_cons]
                have : ¬ isHex d = true := by simpa using hh
                rintro (hx | hb)
                · apply this
                  unfold Hex Dec at hx; unfold isHex isDigit; simp; omega
                · have := (isIdentifier_name hled).1 hi
                  unfold NameChar VarChar Dec Letter at this; unfold Blank at hb; omega
              · rw [if_neg hi]
                rw [List.append_assoc, List.cons_append, nextIs_cons]
                unfold Hex Dec Blank; omega)
          rw [hv] at e
          have := NameBody.escape e hf.1.2 hf.1.1 ht
          simpa using this
      · rw [if_neg hd]
        refine .plain ?_ (by simp)
        have hx : ¬ Hex c := by
          intro hx
          unfold isDigit at hd
          unfold Hex at hx
          simp at hd
          unfold Dec at hx
          apply hs
          unfold isStartIdentifier isAlpha; simp; omega
        exact .escape (.plain _ hf.2.1 hx) hf.1.2 hf.1.1 ht

end Csspp.Written
