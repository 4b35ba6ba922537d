import Verif.Spec.TokenFields
import Verif.Lemmas.LexType
import Verif.Props.Lexer

/-!
C44: the tokens of the lexer are well formed.
-/

namespace Csspp.Lex
open Csspp.Node (supportsString supportsInteger supportsDecimal supportsBoolean)

/-- A type without values. -/
def isBare (ty : NT) : Bool := isTokenType ty && !isNamed ty && ty != .DECIMAL_NUMBER && ty != .PERCENT

theorem WellTok.bare {s : LS} {ty : NT} (h : isBare ty = true) : WellTok (s.tok ty) := by
  unfold isBare at h
  simp only [Bool.and_eq_true, Bool.not_eq_true', bne_iff_ne, ne_eq] at h
  obtain ⟨⟨⟨h1, h2⟩, h3⟩, h4⟩ := h
  refine ⟨h1, ?_, ?_, ?_, ?_, ?_, fun _ => rfl, ?_, fun _ => .inl rfl⟩
  all_goals simp [LS.tok, h2, h3, h4]

/-- A type with a text. -/
theorem WellTok.text {s : LS} {ty : NT} {str lo : Str} (h1 : supportsString ty = true)
    (h2 : isTokenType ty = true) (h3 : isNamed ty = true → str ≠ [])
    (h4 : ty ≠ .DECIMAL_NUMBER) (h5 : ty ≠ .EXCLAMATION) :
    WellTok { s.tok ty with str := str, lower := lo } := by
  refine ⟨h2, fun _ => h1, fun _ => h1, by simp [LS.tok], ?_, by simp [LS.tok], ?_, h3, fun _ => .inl rfl⟩
  · constructor
    · intro h; exact absurd rfl h
    · rintro (h | h)
      · exact absurd h h4
      · have h : ty = .PERCENT := h; rw [h] at h1; cases h1
  · intro h; exact absurd h h5

/-- What an iteration returns. -/
def Wt (r : Option Tok × LS) : Prop := ∀ t, r.1 = some t → WellTok t

theorem Wt.none {s : LS} : Wt (none, s) := fun t ht => by cases ht
theorem Wt.some {t : Tok} {s : LS} (h : WellTok t) : Wt (some t, s) := fun u hu => by cases hu; exact h
theorem Wt.tok {s s' : LS} {ty : NT} (h : isBare ty = true) : Wt (Option.some (s.tok ty), s') :=
  .some (.bare h)

theorem numNode_wt (hs ng : Bool) (i : Int) (fr : List Nat) (d : Bool) (e : Int) (dim : Str) (pc : Bool)
    (s : LS) : WellTok (numNode hs ng i fr d e dim pc s).1 := by
  unfold numNode
  split
  · cases pc <;> exact ⟨rfl, by simp [LS.tok, supportsString], by simp [LS.tok], by simp [LS.tok],
      by simp [LS.tok], fun _ => rfl, by simp [LS.tok], by simp [LS.tok, isNamed], by simp [LS.tok]⟩
  · cases ng <;> exact ⟨rfl, fun _ => rfl, fun _ => rfl, fun _ => rfl,
      by simp [LS.tok], fun _ => rfl, by simp [LS.tok], by simp [LS.tok, isNamed], by simp [LS.tok]⟩

theorem number_wt (c : Nat) (s : LS) : Wt (found (number c s)) := by
  refine .some ?_
  unfold number
  split
  · unfold numBody
    exact numNode_wt _ _ _ _ _ _ _ _ _
  · unfold numBody
    exact numNode_wt _ _ _ _ _ _ _ _ _

theorem lexUrl_wt (s : LS) : WellTok (lexUrl s).1 := by
  unfold lexUrl
  exact .text (lo := []) rfl rfl (fun h => by cases h) (by decide) (by decide)

theorem idEnd_wt (ty : NT) (hty : isNamed ty = true) (r : Str × Str × Nat × LS) :
    WellTok (idEnd ty r).1 := by
  rcases r with ⟨id, lo, c, s⟩
  unfold idEnd
  dsimp only
  split
  · exact .bare rfl
  · rename_i hid
    split
    · split
      · exact lexUrl_wt s
      · exact .text (lo := []) rfl rfl (fun h => by cases h) (by decide) (by decide)
    · refine .text ?_ ?_ (fun _ => hid) ?_ ?_ <;> revert hty <;> cases ty <;>
        first | (intro h; rfl) | (intro h; cases h; done) | (intro h; simp; done)

theorem idRest_wt (ty : NT) (hty : isNamed ty = true) (r : Option (Str × Str) × LS) :
    WellTok (idRest ty r).1 := by
  rcases r with ⟨_ | ⟨i, l⟩, s1⟩
  · exact .bare rfl
  · exact idEnd_wt ty hty _

theorem identifier_wt (c : Nat) (s : LS) : WellTok (identifier c s).1 := by
  unfold identifier
  split
  · exact idRest_wt _ rfl _
  · split
    · exact idRest_wt _ rfl _
    · exact idRest_wt _ rfl _

theorem rangeTok_wt (a b d : Nat) (s : LS) : WellTok (rangeTok a b d s).1 := by
  unfold rangeTok
  split
  · exact .bare rfl
  · exact ⟨rfl, by simp [LS.tok], by simp [LS.tok], fun _ => rfl, by simp [LS.tok], by simp [LS.tok],
      by simp [LS.tok], by simp [LS.tok, isNamed], by simp [LS.tok]⟩

theorem rangePlain_wt (a b d : Nat) (s : LS) : WellTok (rangePlain a b d s).1 := by
  unfold rangePlain
  split
  · exact .bare rfl
  · exact rangeTok_wt _ _ _ _

theorem unicodeRange_wt (d : Nat) (s : LS) : WellTok (unicodeRange d s).1 := by
  unfold unicodeRange
  rcases rangeLoop 6 0 0 false d s with ⟨st, en, _ | _, d1, s1⟩
  · unfold rangeRest
    dsimp only
    split
    · exact rangePlain_wt _ _ _ _
    · exact rangePlain_wt _ _ _ _
  · unfold rangeRest
    dsimp only
    split
    · exact rangeTok_wt _ _ _ _
    · exact rangeTok_wt _ _ _ _

theorem lexId_wt (c : Nat) (s : LS) : Wt (lexId c s) := by
  unfold lexId
  dsimp only
  split
  · exact .none
  · exact .some (identifier_wt c s)

theorem op2_wt {c n : Nat} {ty : NT} (h : op2 c n = some ty) : isBare ty = true := by
  unfold op2 at h
  repeat' split at h
  all_goals cases h <;> rfl

theorem op1_wt {c : Nat} {ty : NT} (h : op1 c = some (some ty)) : isBare ty = true := by
  unfold op1 at h
  repeat' split at h
  all_goals cases h <;> rfl

theorem simple_wt {c : Nat} {ty : NT} (h : simple c = some ty) : isBare ty = true := by
  unfold simple at h
  repeat' split at h
  all_goals cases h <;> rfl

theorem commentEnd_wt (b : Bool) (r : Str × LS) : Wt (commentEnd b r) := by
  rcases r with ⟨str, s⟩
  unfold commentEnd
  dsimp only
  split
  · exact .some ⟨rfl, fun _ => rfl, fun _ => rfl, fun _ => rfl, by simp [LS.tok], by simp [LS.tok],
      by simp [LS.tok], by simp [LS.tok, isNamed], fun _ => by cases b <;> simp⟩
  · exact .none

theorem lexSign_wt (c n : Nat) (s : LS) : Wt (lexSign c n s) := by
  unfold lexSign
  split
  · exact .tok (by decide)
  · split
    · rcases getc s with ⟨p, s1⟩
      dsimp only
      split
      · exact .tok (by decide)
      · exact .tok (by decide)
    · split
      · exact .some (identifier_wt _ _)
      · exact .tok (by decide)

theorem lexOther_wt (c : Nat) (s : LS) : Wt (lexOther c s) := by
  unfold lexOther
  by_cases h1 : c = 46
  · rw [if_pos h1]
    unfold lexPeriod
    rcases getc s with ⟨n, s1⟩
    dsimp only
    split
    · exact number_wt _ _
    · exact .tok (by decide)
  rw [if_neg h1]; clear h1
  by_cases h1 : c = 60
  · rw [if_pos h1]
    unfold lexLess
    rcases getc s with ⟨n, s1⟩
    dsimp only
    split
    · rcases getc s1 with ⟨p, s2⟩
      dsimp only
      split
      · rcases getc s2 with ⟨l, s3⟩
        dsimp only
        split
        · exact .tok (by decide)
        · exact .tok (by decide)
      · exact .tok (by decide)
    · split
      · exact .tok (by decide)
      · exact .tok (by decide)
  rw [if_neg h1]; clear h1
  by_cases h1 : c = 43 ∨ c = 45
  · rw [if_pos h1]
    unfold lexPlusMinus
    rcases getc s with ⟨n, s1⟩
    dsimp only
    split
    · exact number_wt _ _
    · split
      · rcases getc s1 with ⟨p, s2⟩
        dsimp only
        split
        · exact number_wt _ _
        · exact lexSign_wt _ _ _
      · exact lexSign_wt _ _ _
  rw [if_neg h1]; clear h1
  by_cases h1 : c = 36
  · rw [if_pos h1]
    unfold lexDollar
    rcases getc s with ⟨n, s1⟩
    dsimp only
    split
    · exact .tok (by decide)
    · split
      · refine .some ?_
        unfold variable' varEnd
        dsimp only
        split
        · exact .text (lo := []) rfl rfl (fun h => by cases h) (by decide) (by decide)
        · exact .text (lo := []) rfl rfl (fun h => by cases h) (by decide) (by decide)
      · exact .tok (by decide)
  rw [if_neg h1]; clear h1
  by_cases h1 : c = 34 ∨ c = 39
  · rw [if_pos h1]
    unfold lexQuote
    rcases lexString c s.fuel [] s with ⟨str, s1⟩
    exact .some (.text (lo := []) rfl rfl (fun h => by cases h) (by decide) (by decide))
  rw [if_neg h1]; clear h1
  by_cases h1 : c = 47
  · rw [if_pos h1]
    unfold lexSlash
    rcases getc s with ⟨n, s1⟩
    dsimp only
    split
    · exact commentEnd_wt _ _
    · split
      · intro t ht
        rw [warnCpp_fst] at ht
        exact commentEnd_wt _ _ t ht
      · exact .tok (by decide)
  rw [if_neg h1]; clear h1
  by_cases h1 : isSpace c = true ∨ c = 12
  · rw [if_pos h1]; exact .tok (by decide)
  rw [if_neg h1]; clear h1
  by_cases h1 : isDigit c = true
  · rw [if_pos h1]; exact number_wt _ _
  rw [if_neg h1]; clear h1
  by_cases h1 : c = 35
  · rw [if_pos h1]
    unfold hash hashEnd
    dsimp only
    split
    · exact .none
    · rename_i hs
      exact .some (.text (lo := []) rfl rfl (fun _ => hs) (by decide) (by decide))
  rw [if_neg h1]; clear h1
  by_cases h1 : c = 37
  · rw [if_pos h1]
    unfold lexPercent
    dsimp only
    split
    · exact lexId_wt _ _
    · exact .tok (by decide)
  rw [if_neg h1]; clear h1
  by_cases h1 : c = 92 ∨ c = 64
  · rw [if_pos h1]; exact lexId_wt _ _
  rw [if_neg h1]; clear h1
  by_cases h1 : c = 117 ∨ c = 85
  · rw [if_pos h1]
    unfold lexU
    dsimp only
    split
    · split
      · exact .some (unicodeRange_wt _ _)
      · exact .some (identifier_wt _ _)
    · exact .some (identifier_wt _ _)
  rw [if_neg h1]; clear h1
  by_cases h1 : isStartIdentifier c = true
  · rw [if_pos h1]; exact .some (identifier_wt _ _)
  rw [if_neg h1]
  exact .none

theorem lexChar_wt (c : Nat) (s : LS) : Wt (lexChar c s) := by
  unfold lexChar
  split
  · exact .tok (by decide)
  split
  · rename_i h; exact .tok (simple_wt h)
  · split
    · rename_i alone h
      unfold lexOp
      rcases getc s with ⟨n, s1⟩
      dsimp only
      split
      · rename_i h2; exact .tok (op2_wt h2)
      · split
        · exact .tok (op1_wt h)
        · exact .none
    · exact lexOther_wt c s

theorem lexLoop_wt (f : Nat) (s : LS) : WellTok (lexLoop f s).1 := by
  induction f generalizing s with
  | zero => exact .bare rfl
  | succ f ih =>
    unfold lexLoop
    have h := lexChar_wt (getc { s with start := s.pos }).1 (getc { s with start := s.pos }).2
    have : lexStep s = lexChar (getc { s with start := s.pos }).1 (getc { s with start := s.pos }).2 := rfl
    rw [← this] at h
    rcases hr : lexStep s with ⟨_ | t, s1⟩
    · exact ih s1
    · rw [hr] at h; exact h t rfl

/-- C44: every token of every stream is well formed. -/
theorem C44_tokens (inp : Str) (n : Nat) : WellTok (token n (init inp)) := lexLoop_wt _ _

example : (token 0 (init b!"$Ab(")).ty = .VARIABLE_FUNCTION ∧ (token 0 (init b!"$Ab(")).str = b!"ab" := by
  decide +kernel

end Csspp.Lex
