import Verif.Lemmas.LexType

/-! What a token is, by type: the types the lexer gives, and where a unicode range comes from. -/

namespace Csspp.Lex
open Csspp.Utf8

/-- The types next_token() never returns: they are made by the parser, the compiler and the
expression evaluator. -/
def NotLexed : NT → Bool
  | .UNKNOWN | .BOOLEAN | .COLOR | .FONT_METRICS | .NULL_TOKEN | .AN_PLUS_B | .ARG | .ARRAY
  | .COMPONENT_VALUE | .DECLARATION | .LIST | .MAP | .FRAME => true
  | _ => false

/-- An outcome of an iteration: a type of the lexer, a range coming from `unicodeRange`. -/
def Orig (r : Option Tok × LS) : Prop :=
  ∀ t, r.1 = some t → NotLexed t.ty = false ∧
    (t.ty = .UNICODE_RANGE → ∃ d s0, (t, r.2) = unicodeRange d s0)

theorem Orig.tok {s s' : LS} {ty : NT} (h : NotLexed ty = false ∧ ty ≠ .UNICODE_RANGE) :
    Orig (some (s.tok ty), s') := fun t ht => by cases ht; exact ⟨h.1, fun e => absurd e h.2⟩

theorem Orig.of_ty {r : Option Tok × LS} (h : ∀ t, r.1 = some t → NotLexed t.ty = false ∧
    t.ty ≠ .UNICODE_RANGE) : Orig r :=
  fun t ht => ⟨(h t ht).1, fun e => absurd e (h t ht).2⟩

theorem Orig.none {s : LS} : Orig (none, s) := fun t ht => by cases ht

theorem Orig.number (c : Nat) (s : LS) : Orig (found (number c s)) := by
  refine .of_ty (fun t ht => ?_)
  cases ht
  have hn : ∀ (hs ng : Bool) (i : Int) (fr : List Nat) (d : Bool) (e : Int) (dim : Str) (pc : Bool)
    (s : LS), NotLexed (numNode hs ng i fr d e dim pc s).1.ty = false ∧
      (numNode hs ng i fr d e dim pc s).1.ty ≠ .UNICODE_RANGE := by
    intro hs ng i fr d e dim pc s
    unfold numNode
    split
    · cases pc <;> simp [LS.tok, NotLexed]
    · cases ng <;> simp [LS.tok, NotLexed]
  unfold Lex.number
  split
  · unfold numBody
    exact hn _ _ _ _ _ _ _ _ _
  · unfold numBody
    exact hn _ _ _ _ _ _ _ _ _

theorem idRest_orig (ty : NT) (h : NotLexed ty = false ∧ ty ≠ .UNICODE_RANGE) (r : Option (Str × Str) × LS) :
    NotLexed (idRest ty r).1.ty = false ∧ (idRest ty r).1.ty ≠ .UNICODE_RANGE := by
  have hend : ∀ r, NotLexed (idEnd ty r).1.ty = false ∧ (idEnd ty r).1.ty ≠ .UNICODE_RANGE := by
    rintro ⟨id, lo, c, s⟩
    unfold idEnd
    dsimp only
    split
    · exact ⟨rfl, by simp [LS.tok]⟩
    · split
      · split
        · exact ⟨rfl, by simp [lexUrl, LS.tok]⟩
        · exact ⟨rfl, by simp [LS.tok]⟩
      · exact h
  rcases r with ⟨_ | ⟨i, l⟩, s⟩
  · exact ⟨rfl, by simp [idRest, LS.tok]⟩
  · exact hend _

theorem identifier_orig (c : Nat) (s : LS) :
    NotLexed (identifier c s).1.ty = false ∧ (identifier c s).1.ty ≠ .UNICODE_RANGE := by
  unfold identifier
  split
  · exact idRest_orig _ ⟨rfl, by decide⟩ _
  · split
    · exact idRest_orig _ ⟨rfl, by decide⟩ _
    · exact idRest_orig _ ⟨rfl, by decide⟩ _

theorem Orig.identifier (c : Nat) (s : LS) : Orig (found (identifier c s)) :=
  .of_ty (fun t ht => by cases ht; exact identifier_orig c s)

theorem lexId_orig (c : Nat) (s : LS) : Orig (lexId c s) := by
  unfold lexId
  dsimp only
  split
  · exact .none
  · exact .of_ty (fun t ht => by cases ht; exact identifier_orig c s)

theorem op2_orig {c n : Nat} {ty : NT} (h : op2 c n = some ty) :
    NotLexed ty = false ∧ ty ≠ .UNICODE_RANGE := by
  unfold op2 at h
  repeat' split at h
  all_goals first | (cases h; decide) | cases h

theorem op1_orig {c : Nat} {ty : NT} (h : op1 c = some (some ty)) :
    NotLexed ty = false ∧ ty ≠ .UNICODE_RANGE := by
  unfold op1 at h
  repeat' split at h
  all_goals first | (cases h; decide) | cases h

theorem simple_orig {c : Nat} {ty : NT} (h : simple c = some ty) :
    NotLexed ty = false ∧ ty ≠ .UNICODE_RANGE := by
  unfold simple at h
  repeat' split at h
  all_goals first | (cases h; decide) | cases h

theorem lexSign_orig (c n : Nat) (s : LS) : Orig (lexSign c n s) := by
  unfold lexSign
  split
  · exact .tok (by decide)
  · split
    · rcases getc s with ⟨p, s1⟩
      dsimp only
      split
      · exact .tok (by decide)
      · exact .tok (by decide)
    · split
      · exact .identifier _ _
      · exact .tok (by decide)

theorem unicodeRange_isRange (d : Nat) (s : LS) : (unicodeRange d s).1.ty = .UNICODE_RANGE := by
  have h1 : ∀ a b d s, (rangeTok a b d s).1.ty = .UNICODE_RANGE := by
    intro a b d s
    unfold rangeTok
    split <;> rfl
  have h2 : ∀ a b d s, (rangePlain a b d s).1.ty = .UNICODE_RANGE := by
    intro a b d s
    unfold rangePlain
    split
    · rfl
    · exact h1 _ _ _ _
  unfold unicodeRange
  rcases rangeLoop 6 0 0 false d s with ⟨st, en, _ | _, d1, s1⟩
  · unfold rangeRest
    dsimp only
    split
    · exact h2 _ _ _ _
    · exact h2 _ _ _ _
  · unfold rangeRest
    dsimp only
    split
    · exact h1 _ _ _ _
    · exact h1 _ _ _ _

theorem lexOther_orig (c : Nat) (s : LS) : Orig (lexOther c s) := by
  unfold lexOther
  by_cases h1 : c = 46
  · rw [if_pos h1]
    unfold lexPeriod
    rcases getc s with ⟨n, s1⟩
    dsimp only
    split
    · exact .number _ _
    · exact .tok (by decide)
  rw [if_neg h1]; clear h1
  by_cases h1 : c = 60
  · rw [if_pos h1]
    unfold lexLess
    rcases getc s with ⟨n, s1⟩
    dsimp only
    split
    · rcases getc s1 with ⟨p, s2⟩
      dsimp only
      split
      · rcases getc s2 with ⟨l, s3⟩
        dsimp only
        split
        · exact .tok (by decide)
        · exact .tok (by decide)
      · exact .tok (by decide)
    · split
      · exact .tok (by decide)
      · exact .tok (by decide)
  rw [if_neg h1]; clear h1
  by_cases h1 : c = 43 ∨ c = 45
  · rw [if_pos h1]
    unfold lexPlusMinus
    rcases getc s with ⟨n, s1⟩
    dsimp only
    split
    · exact .number _ _
    · split
      · rcases getc s1 with ⟨p, s2⟩
        dsimp only
        split
        · exact .number _ _
        · exact lexSign_orig _ _ _
      · exact lexSign_orig _ _ _
  rw [if_neg h1]; clear h1
  by_cases h1 : c = 36
  · rw [if_pos h1]
    unfold lexDollar
    rcases getc s with ⟨n, s1⟩
    dsimp only
    split
    · exact .tok (by decide)
    · split
      · refine .of_ty (fun t ht => ?_)
        cases ht
        unfold variable' varEnd
        dsimp only
        split <;> simp [LS.tok, NotLexed]
      · exact .tok (by decide)
  rw [if_neg h1]; clear h1
  by_cases h1 : c = 34 ∨ c = 39
  · rw [if_pos h1]
    unfold lexQuote
    rcases lexString c s.fuel [] s with ⟨str, s1⟩
    exact .of_ty (fun t ht => by cases ht; simp [LS.tok, NotLexed])
  rw [if_neg h1]; clear h1
  by_cases h1 : c = 47
  · rw [if_pos h1]
    unfold lexSlash
    rcases getc s with ⟨n, s1⟩
    dsimp only
    split
    · exact .of_ty (fun t ht => by rw [commentEnd_comment _ _ t ht]; decide)
    · split
      · refine .of_ty (fun t ht => ?_)
        rw [warnCpp_fst] at ht
        rw [commentEnd_comment false _ t ht]
        decide
      · exact .tok (by decide)
  rw [if_neg h1]; clear h1
  by_cases h1 : isSpace c = true ∨ c = 12
  · rw [if_pos h1]; exact .tok (by decide)
  rw [if_neg h1]; clear h1
  by_cases h1 : isDigit c = true
  · rw [if_pos h1]; exact .number _ _
  rw [if_neg h1]; clear h1
  by_cases h1 : c = 35
  · rw [if_pos h1]
    unfold hash hashEnd
    dsimp only
    split
    · exact .none
    · exact .of_ty (fun t ht => by cases ht; simp [LS.tok, NotLexed])
  rw [if_neg h1]; clear h1
  by_cases h1 : c = 37
  · rw [if_pos h1]
    unfold lexPercent
    dsimp only
    split
    · exact lexId_orig _ _
    · exact .tok (by decide)
  rw [if_neg h1]; clear h1
  by_cases h1 : c = 92 ∨ c = 64
  · rw [if_pos h1]; exact lexId_orig _ _
  rw [if_neg h1]
  clear h1
  by_cases h1 : c = 117 ∨ c = 85
  · rw [if_pos h1]
    unfold lexU
    dsimp only
    split
    · split
      · intro t ht
        cases ht
        refine ⟨?_, fun _ => ⟨_, _, rfl⟩⟩
        rw [unicodeRange_isRange]
        rfl
      · exact .identifier _ _
    · exact .identifier _ _
  rw [if_neg h1]; clear h1
  by_cases h1 : isStartIdentifier c = true
  · rw [if_pos h1]; exact .identifier _ _
  rw [if_neg h1]
  exact .none

theorem lexChar_orig (c : Nat) (s : LS) : Orig (lexChar c s) := by
  unfold lexChar
  split
  · exact .tok (by decide)
  split
  · rename_i h; exact .tok (simple_orig h)
  · split
    · rename_i alone h
      unfold lexOp
      rcases getc s with ⟨n, s1⟩
      dsimp only
      split
      · rename_i h2; exact .tok (op2_orig h2)
      · split
        · exact .tok (op1_orig h)
        · exact .none
    · exact lexOther_orig c s

/-- Every token returned by next_token(). -/
theorem nextToken_orig (s : LS) : NotLexed (nextToken s).1.ty = false ∧
    ((nextToken s).1.ty = .UNICODE_RANGE → ∃ d s0, nextToken s = unicodeRange d s0) := by
  have h : ∀ f s, NotLexed (lexLoop f s).1.ty = false ∧
      ((lexLoop f s).1.ty = .UNICODE_RANGE → ∃ d s0, lexLoop f s = unicodeRange d s0) := by
    intro f
    induction f with
    | zero => intro s; exact ⟨rfl, fun h => by simp [lexLoop, LS.tok] at h⟩
    | succ f ih =>
      intro s
      rw [lexLoop]
      have ho := lexChar_orig (getc { s with start := s.pos }).1 (getc { s with start := s.pos }).2
      have hs : lexStep s = lexChar (getc { s with start := s.pos }).1 (getc { s with start := s.pos }).2 := rfl
      rw [← hs] at ho
      rcases hr : lexStep s with ⟨_ | t, s1⟩
      · exact ih s1
      · rw [hr] at ho
        exact ho t rfl
  exact h _ _

end Csspp.Lex
