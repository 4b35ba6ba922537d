import Verif.Lemmas.LexReach3

/-! The types of the tokens: EOF_TOKEN only comes from the end of the stream, from an empty identifier
(reported) or with an exception. -/

namespace Csspp.Lex
open Csspp.Utf8

theorem numNode_ty (hs ng : Bool) (i : Int) (fr : List Nat) (d : Bool) (e : Int) (dim : Str) (pc : Bool)
    (s : LS) : (numNode hs ng i fr d e dim pc s).1.ty ≠ .EOF_TOKEN := by
  unfold numNode
  split
  · cases pc <;> simp [LS.tok]
  · cases ng <;> simp [LS.tok]

theorem number_ty (c : Nat) (s : LS) : (number c s).1.ty ≠ .EOF_TOKEN := by
  unfold number
  split
  · unfold numBody
    exact numNode_ty _ _ _ _ _ _ _ _ _
  · unfold numBody
    exact numNode_ty _ _ _ _ _ _ _ _ _

theorem idEnd_ty (ty : NT) (hty : ty ≠ .EOF_TOKEN) (r : Str × Str × Nat × LS)
    (h : (idEnd ty r).1.ty = .EOF_TOKEN) :
    (idEnd ty r).2.err.head? = some .emptyIdentifier := by
  rcases r with ⟨id, lo, c, s⟩
  unfold idEnd at h ⊢
  dsimp only at h ⊢
  split at h
  · rename_i h1; rw [if_pos h1]; rfl
  · split at h
    · split at h
      · simp [lexUrl, LS.tok] at h
      · simp [LS.tok] at h
    · exact absurd h hty

theorem idFirst_none (ty : NT) (hty : ty ≠ .AT_KEYWORD) (id : Str) (c : Nat) (s : LS)
    (h : (idFirst ty id c s).1 = none) : (idFirst ty id c s).2.exn ≠ none := by
  unfold idFirst at h ⊢
  by_cases h1 : c = 92
  · rw [if_pos h1] at h
    rcases he : escape s with ⟨d, s2⟩
    rw [he] at h
    dsimp only at h
    split at h
    · cases h
    · cases h
  · rw [if_neg h1] at h ⊢
    by_cases h2 : isStartIdentifier c = true
    · rw [if_pos h2] at h; cases h
    · rw [if_neg h2, if_neg hty]
      simp [LS.throw]

theorem idDash_none (ty : NT) (hty : ty ≠ .AT_KEYWORD) (c : Nat) (s : LS)
    (h : (idDash ty c s).1 = none) : (idDash ty c s).2.exn ≠ none := by
  unfold idDash at h ⊢
  split at h
  · rename_i h1
    rw [if_pos h1]
    exact idFirst_none ty hty _ _ _ h
  · rename_i h1
    rw [if_neg h1]
    exact idFirst_none ty hty _ _ _ h

theorem idRest_ty (ty : NT) (h1 : ty ≠ .EOF_TOKEN) (h2 : ty ≠ .AT_KEYWORD) (c : Nat) (s : LS)
    (h : (idRest ty (idDash ty c s)).1.ty = .EOF_TOKEN) :
    (idRest ty (idDash ty c s)).2.err.head? = some .emptyIdentifier ∨
      (idRest ty (idDash ty c s)).2.exn ≠ none := by
  have hn := idDash_none ty h2 c s
  rcases hd : idDash ty c s with ⟨_ | ⟨i, l⟩, s1⟩
  · rw [hd] at hn
    right
    exact hn rfl
  · rw [hd] at h
    left
    exact idEnd_ty ty h1 _ h

/-- The identifiers that are not dropped. -/
theorem identifier_ty (c : Nat) (s : LS) (hc : c ≠ 64) (h : (identifier c s).1.ty = .EOF_TOKEN) :
    (identifier c s).2.err.head? = some .emptyIdentifier ∨ (identifier c s).2.exn ≠ none := by
  unfold identifier at h ⊢
  split at h
  · rename_i h1
    rw [if_pos h1]
    exact idRest_ty _ (by decide) (by decide) _ _ h
  · rename_i h1
    rw [if_neg h1, if_neg hc]
    exact idRest_ty _ (by decide) (by decide) _ _ h

theorem rangeTok_ty (a b d : Nat) (s : LS) : (rangeTok a b d s).1.ty ≠ .EOF_TOKEN := by
  unfold rangeTok
  split <;> simp [LS.tok]

theorem rangePlain_ty (a b d : Nat) (s : LS) : (rangePlain a b d s).1.ty ≠ .EOF_TOKEN := by
  unfold rangePlain
  split
  · simp [LS.tok]
  · exact rangeTok_ty _ _ _ _

theorem unicodeRange_ty (d : Nat) (s : LS) : (unicodeRange d s).1.ty ≠ .EOF_TOKEN := by
  unfold unicodeRange
  rcases rangeLoop 6 0 0 false d s with ⟨st, en, _ | _, d1, s1⟩
  · unfold rangeRest
    dsimp only
    split
    · exact rangePlain_ty _ _ _ _
    · exact rangePlain_ty _ _ _ _
  · unfold rangeRest
    dsimp only
    split
    · exact rangeTok_ty _ _ _ _
    · exact rangeTok_ty _ _ _ _

/-- The outcome of an iteration that is not at the end of the stream. -/
def EofOk (r : Option Tok × LS) : Prop :=
  ∀ t, r.1 = some t → t.ty = .EOF_TOKEN →
    r.2.err.head? = some .emptyIdentifier ∨ r.2.exn ≠ none

theorem EofOk.of_ne {r : Option Tok × LS} (h : ∀ t, r.1 = some t → t.ty ≠ .EOF_TOKEN) : EofOk r :=
  fun t ht he => absurd he (h t ht)

theorem EofOk.tok {s s' : LS} {ty : NT} (h : ty ≠ .EOF_TOKEN) : EofOk (some (s.tok ty), s') :=
  .of_ne (fun t ht => by cases ht; exact h)

theorem EofOk.none {s : LS} : EofOk (none, s) := fun t ht => by cases ht

theorem EofOk.number (c : Nat) (s : LS) : EofOk (found (number c s)) :=
  .of_ne (fun t ht => by cases ht; exact number_ty c s)

theorem EofOk.identifier (c : Nat) (s : LS) (hc : c ≠ 64) : EofOk (found (identifier c s)) := by
  intro t ht he
  cases ht
  exact identifier_ty c s hc he

theorem lexId_ty (c : Nat) (s : LS) : EofOk (lexId c s) := by
  unfold lexId
  dsimp only
  split
  · exact .none
  · rename_i h; exact .of_ne (fun t ht => by cases ht; exact h)

theorem op2_ty {c n : Nat} {ty : NT} (h : op2 c n = some ty) : ty ≠ .EOF_TOKEN := by
  rintro rfl
  unfold op2 at h
  repeat' split at h
  all_goals cases h

theorem op1_ty {c : Nat} {ty : NT} (h : op1 c = some (some ty)) : ty ≠ .EOF_TOKEN := by
  rintro rfl
  unfold op1 at h
  repeat' split at h
  all_goals cases h

theorem simple_ty {c : Nat} {ty : NT} (h : simple c = some ty) : ty ≠ .EOF_TOKEN := by
  rintro rfl
  unfold simple at h
  repeat' split at h
  all_goals cases h

theorem commentEnd_comment (b : Bool) (r : Str × LS) (t : Tok) (h : (commentEnd b r).1 = some t) :
    t.ty = .COMMENT := by
  rcases r with ⟨str, s⟩
  unfold commentEnd at h
  dsimp only at h
  split at h
  · cases h; rfl
  · cases h

theorem commentEnd_ty (b : Bool) (r : Str × LS) : EofOk (commentEnd b r) :=
  .of_ne (fun t ht => by rw [commentEnd_comment b r t ht]; decide)

theorem warnCpp_fst (r : Option Tok × LS) : (warnCpp r).1 = r.1 := by
  rcases r with ⟨_ | t, s⟩ <;> rfl

theorem lexSign_ty (c n : Nat) (s : LS) (hc : c ≠ 64) : EofOk (lexSign c n s) := by
  unfold lexSign
  split
  · exact .tok (by decide)
  · split
    · rcases getc s with ⟨p, s1⟩
      dsimp only
      split
      · exact .tok (by decide)
      · exact .tok (by decide)
    · split
      · exact .identifier _ _ hc
      · exact .tok (by decide)

theorem lexOther_ty (c : Nat) (s : LS) : EofOk (lexOther c s) := by
  unfold lexOther
  by_cases h1 : c = 46
  · rw [if_pos h1]
    unfold lexPeriod
    rcases getc s with ⟨n, s1⟩
    dsimp only
    split
    · exact .number _ _
    · exact .tok (by decide)
  rw [if_neg h1]; clear h1
  by_cases h1 : c = 60
  · rw [if_pos h1]
    unfold lexLess
    rcases getc s with ⟨n, s1⟩
    dsimp only
    split
    · rcases getc s1 with ⟨p, s2⟩
      dsimp only
      split
      · rcases getc s2 with ⟨l, s3⟩
        dsimp only
        split
        · exact .tok (by decide)
        · exact .tok (by decide)
      · exact .tok (by decide)
    · split
      · exact .tok (by decide)
      · exact .tok (by decide)
  rw [if_neg h1]; clear h1
  by_cases h1 : c = 43 ∨ c = 45
  · rw [if_pos h1]
    have hc : c ≠ 64 := by omega
    unfold lexPlusMinus
    rcases getc s with ⟨n, s1⟩
    dsimp only
    split
    · exact .number _ _
    · split
      · rcases getc s1 with ⟨p, s2⟩
        dsimp only
        split
        · exact .number _ _
        · exact lexSign_ty _ _ _ hc
      · exact lexSign_ty _ _ _ hc
  rw [if_neg h1]; clear h1
  by_cases h1 : c = 36
  · rw [if_pos h1]
    unfold lexDollar
    rcases getc s with ⟨n, s1⟩
    dsimp only
    split
    · exact .tok (by decide)
    · split
      · refine .of_ne (fun t ht => ?_)
        cases ht
        unfold variable' varEnd
        dsimp only
        split <;> simp [LS.tok]
      · exact .tok (by decide)
  rw [if_neg h1]; clear h1
  by_cases h1 : c = 34 ∨ c = 39
  · rw [if_pos h1]
    unfold lexQuote
    rcases lexString c s.fuel [] s with ⟨str, s1⟩
    exact .of_ne (fun t ht => by cases ht; simp [LS.tok])
  rw [if_neg h1]; clear h1
  by_cases h1 : c = 47
  · rw [if_pos h1]
    unfold lexSlash
    rcases getc s with ⟨n, s1⟩
    dsimp only
    split
    · exact commentEnd_ty _ _
    · split
      · refine .of_ne (fun t ht => ?_)
        rw [warnCpp_fst] at ht
        rw [commentEnd_comment false _ t ht]
        decide
      · exact .tok (by decide)
  rw [if_neg h1]; clear h1
  by_cases h1 : isSpace c = true ∨ c = 12
  · rw [if_pos h1]; exact .tok (by decide)
  rw [if_neg h1]; clear h1
  by_cases h1 : isDigit c = true
  · rw [if_pos h1]; exact .number _ _
  rw [if_neg h1]; clear h1
  by_cases h1 : c = 35
  · rw [if_pos h1]
    unfold hash hashEnd
    dsimp only
    split
    · exact .none
    · exact .of_ne (fun t ht => by cases ht; simp [LS.tok])
  rw [if_neg h1]; clear h1
  by_cases h1 : c = 37
  · rw [if_pos h1]
    unfold lexPercent
    dsimp only
    split
    · exact lexId_ty _ _
    · exact .tok (by decide)
  rw [if_neg h1]; clear h1
  by_cases h1 : c = 92 ∨ c = 64
  · rw [if_pos h1]; exact lexId_ty _ _
  rw [if_neg h1]
  have hc : c ≠ 64 := fun h => h1 (.inr h)
  clear h1
  by_cases h1 : c = 117 ∨ c = 85
  · rw [if_pos h1]
    unfold lexU
    dsimp only
    split
    · split
      · exact .of_ne (fun t ht => by cases ht; exact unicodeRange_ty _ _)
      · exact .identifier _ _ hc
    · exact .identifier _ _ hc
  rw [if_neg h1]; clear h1
  by_cases h1 : isStartIdentifier c = true
  · rw [if_pos h1]; exact .identifier _ _ hc
  rw [if_neg h1]
  exact .none

theorem lexChar_ty (c : Nat) (s : LS) (hc : c ≠ eof) : EofOk (lexChar c s) := by
  unfold lexChar
  rw [if_neg hc]
  split
  · rename_i h; exact .tok (simple_ty h)
  · split
    · rename_i alone h
      unfold lexOp
      rcases getc s with ⟨n, s1⟩
      dsimp only
      split
      · rename_i h2; exact .tok (op2_ty h2)
      · split
        · exact .tok (op1_ty h)
        · exact .none
    · exact lexOther_ty c s

/-- The characters in the push-back buffer are not EOF: ungetc() ignores it. -/
def NoEof (s : LS) : Prop := eof ∉ s.un

/-- A decoded character fits in 21 bits. -/
theorem mbLoop_lt : ∀ (cnt wc : Nat) (s : Str) (B : Nat), wc < B →
    (mbLoop cnt wc s).1 < 64 ^ cnt * B ∨ (mbLoop cnt wc s).1 = 0xFFFD := by
  intro cnt
  induction cnt with
  | zero =>
    intro wc s B h
    cases s with
    | nil => left; simpa [mbLoop] using h
    | cons a s => right; rfl
  | succ cnt ih =>
    intro wc s B h
    cases s with
    | nil => right; rfl
    | cons a s =>
      unfold mbLoop
      split
      · right; rfl
      · rcases ih (64 * wc + a % 64) s (64 * B) (by omega) with h1 | h1
        · left
          rw [Nat.pow_succ, Nat.mul_assoc]
          exact h1
        · right; exact h1

theorem mbtowc_lt (bs : Str) : (mbtowc bs).1 < 0x200000 := by
  cases bs with
  | nil => decide
  | cons c s =>
    dsimp only [mbtowc]
    split
    · dsimp only; omega
    · split
      · split
        · dsimp only; omega
        · rcases mbLoop_lt 3 (c % 8) s 8 (by omega) with h | h <;> omega
      · split
        · rcases mbLoop_lt 2 (c % 16) s 16 (by omega) with h | h <;> omega
        · split
          · rcases mbLoop_lt 1 (c % 32) s 32 (by omega) with h | h <;> omega
          · dsimp only; omega

theorem endOfLine_lt (c : Nat) (s : LS) (h : c < 0x200000) : (endOfLine c s).1 < 0x200000 := by
  unfold endOfLine
  repeat' split
  all_goals first | exact h | (dsimp only; omega)

/-- A character read from the stream is not EOF. -/
theorem getc_stream_lt (s : LS) (b : Nat) (bs : Str) (hu : s.un = []) (hi : s.inp = b :: bs) :
    (getc s).1 < 0x200000 := by
  unfold getc
  rw [hu, hi]
  dsimp only
  split
  · unfold getHigh
    dsimp only
    split
    · split
      · dsimp only; omega
      · exact endOfLine_lt _ _ (mbtowc_lt _)
    · dsimp only; omega
  · exact endOfLine_lt _ _ (by omega)

/-- EOF is only read at the end of the stream. -/
theorem getc_eof {s s' : LS} (hn : NoEof s) (hg : getc s = (eof, s')) : s'.un = [] ∧ s'.inp = [] := by
  cases hu : s.un with
  | cons c un =>
    exfalso
    unfold getc at hg
    rw [hu] at hg
    dsimp only at hg
    have h1 := (Prod.mk.inj hg).1
    unfold NoEof at hn
    rw [hu] at hn
    split at h1
    · exact absurd h1 (by decide)
    · exact hn (by rw [h1]; simp)
  | nil =>
    cases hi : s.inp with
    | nil =>
      have := (getc_amount s).2.2.2.1 hu hi
      rw [hg] at this
      cases this
      exact ⟨hu, hi⟩
    | cons b bs =>
      have := getc_stream_lt s b bs hu hi
      rw [hg] at this
      exact absurd (show eof < 0x200000 from this) (by decide)

theorem endOfLine_un (c : Nat) (s : LS) : (endOfLine c s).2.un = s.un := (endOfLine_inp c s).2

theorem getc_un (s : LS) : (getc s).2.un = s.un.tail := by
  unfold getc
  split
  · rename_i h; rw [h]; rfl
  · rename_i h
    split
    · rw [h]; rfl
    · dsimp only
      split
      · rw [(getHigh_inp _ _).2, h]; rfl
      · rw [endOfLine_un, h]; rfl

theorem Reach.noEof {s0 s : LS} (h : Reach s0 s) (h0 : NoEof s0) : NoEof s := by
  induction h with
  | refl => exact h0
  | getc _ ih =>
    unfold NoEof at *
    rw [getc_un]
    exact fun hm => ih (List.mem_of_mem_tail hm)
  | @unget s t c _ _ _ _ ih _ =>
    unfold NoEof at *
    unfold ungetc
    split
    · exact ih
    · rename_i hc
      split
      · exact ih
      · split
        · exact ih
        · intro hm
          rcases List.mem_cons.1 hm with h | h
          · exact hc (.inl h.symm)
          · exact ih h
  | report _ _ ih => exact ih
  | start _ ih => exact ih
  | badStart _ _ _ ih _ => exact ih
  | undef _ _ ih => exact ih

theorem lexLoop_eof : ∀ (f : Nat) (s : LS) (t : Tok) (s' : LS), s.rem < f → s.un.length ≤ 3 → NoEof s →
    lexLoop f s = (t, s') → t.ty = .EOF_TOKEN →
    (s'.un = [] ∧ s'.inp = []) ∨ s'.err.head? = some .emptyIdentifier ∨ s'.exn ≠ none := by
  intro f
  induction f with
  | zero => intro _ _ _ h; omega
  | succ f ih =>
    intro s t s' hf hu hn heq ht
    have hR : Res s 3 s.rem s := ⟨.refl, hu, Nat.le_refl _⟩
    unfold lexLoop at heq
    rcases hl : lexStep s with ⟨_ | t1, s1⟩
    · rw [hl] at heq
      dsimp only at heq
      obtain ⟨h1, h2⟩ := lexStep_res hR hl
      have hlt : s1.rem < s.rem := by
        rcases h2 with ⟨t, ht, _⟩ | h2
        · cases ht
        · exact h2
      exact ih s1 t s' (by omega) h1.un (h1.reach.noEof hn) heq ht
    · rw [hl] at heq
      dsimp only at heq
      cases heq
      unfold lexStep at hl
      rcases hg : getc { s with start := s.pos } with ⟨c, s2⟩
      rw [hg] at hl
      dsimp only at hl
      by_cases hc : c = eof
      · left
        have e : lexChar c s2 = (some (s2.tok .EOF_TOKEN), s2) := by
          unfold lexChar; rw [if_pos hc]
        rw [e] at hl
        cases hl
        -- EOF is only read at the end
        rw [hc] at hg
        exact getc_eof (show NoEof { s with start := s.pos } from hn) hg
      · right
        have := lexChar_ty c s2 hc t (by rw [hl])
        rw [hl] at this
        exact this ht

/-- What EOF_TOKEN means. -/
theorem nextToken_eof {s s' : LS} {t : Tok} (hu : s.un.length ≤ 3) (hn : NoEof s)
    (heq : nextToken s = (t, s')) (ht : t.ty = .EOF_TOKEN) :
    (s'.un = [] ∧ s'.inp = []) ∨ s'.err.head? = some .emptyIdentifier ∨ s'.exn ≠ none :=
  lexLoop_eof _ s t s' (by unfold LS.fuel; omega) hu hn heq ht

end Csspp.Lex
