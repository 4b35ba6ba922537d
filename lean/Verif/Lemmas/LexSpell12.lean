import Verif.Lemmas.LexSpell6
import Verif.Lemmas.LexSpell11

/-! Whatever is not one of the tokens of `Spec.Reads` is an error: all of them. -/

namespace Csspp.Lex
open Csspp.Utf8 Csspp.Spec

theorem punct_len {p : List Nat} {ty : NT} (h : (p, ty) ∈ punctuation) : p.length ≤ 4 := by
  have : ∀ q ∈ punctuation, q.1.length ≤ 4 := by decide
  exact this _ h

/-- Some punctuation: the longest one is read. -/
theorem punct_total {cs : List Nat} (h1 : ¬ StartsNumber cs) (h2 : ¬ StartsName cs)
    (h3 : ¬ StartsComment cs) (h4 : ¬ StartsVariable cs) : ∀ (n : Nat) (p : List Nat) (ty : NT),
    (p, ty) ∈ punctuation → p <+: cs → 4 - p.length ≤ n → ∃ l rest, Reads cs l rest := by
  have stop : ∀ (p : List Nat) (ty : NT), (p, ty) ∈ punctuation → p <+: cs →
      (∀ p' ty', (p', ty') ∈ punctuation → p' <+: cs → p'.length ≤ p.length) → ∃ l rest, Reads cs l rest := by
    rintro p ty hm ⟨rest, rfl⟩ hl
    exact ⟨_, rest, .punctuation hm hl h1 h2 h3 h4⟩
  intro n
  induction n with
  | zero =>
    intro p ty hm hp hn
    refine stop p ty hm hp fun p' ty' hm' _ => ?_
    have := punct_len hm'
    omega
  | succ n ih =>
    intro p ty hm hp hn
    by_cases hl : ∃ p' ty', (p', ty') ∈ punctuation ∧ p' <+: cs ∧ p.length < p'.length
    · obtain ⟨p', ty', hm', hp', hlt⟩ := hl
      exact ih p' ty' hm' hp' (by omega)
    · refine stop p ty hm hp fun p' ty' hm' hp' => ?_
      apply Nat.le_of_not_lt
      intro hlt
      exact hl ⟨p', ty', hm', hp', hlt⟩

theorem span_var (cs : List Nat) : ∃ b t, cs = b ++ t ∧ (∀ c ∈ b, VarChar c) ∧ ¬ NextIs VarChar t := by
  induction cs with
  | nil => exact ⟨[], [], rfl, by simp, nextIs_nil⟩
  | cons c cs ih =>
    by_cases h : VarChar c
    · obtain ⟨b, t, rfl, hb, ht⟩ := ih
      refine ⟨c :: b, t, rfl, ?_, ht⟩
      intro x hx
      rcases List.mem_cons.1 hx with rfl | hx
      · exact h
      · exact hb x hx
    · exact ⟨[], c :: cs, rfl, by simp, by rw [nextIs_cons]; exact h⟩

theorem variable_total {cs : List Nat} (h : StartsVariable cs) : ∃ l rest, Reads cs l rest := by
  obtain ⟨t, rfl, d, u, rfl, hd⟩ := h
  obtain ⟨b, t, e, hb, ht⟩ := span_var (d :: u)
  have hn : b ≠ [] := by
    rintro rfl
    rw [List.nil_append] at e
    rw [← e, nextIs_cons] at ht
    exact ht hd
  rw [e]
  by_cases h40 : ∃ r, t = 40 :: r
  · obtain ⟨r, rfl⟩ := h40
    exact ⟨_, _, .variableFunction hb hn⟩
  · exact ⟨_, _, .variableName hb hn ht (fun r hr => h40 ⟨r, hr⟩)⟩

theorem spaces_total {c : Nat} {cs : List Nat} (h : Blank c) : ∃ l rest, Reads (c :: cs) l rest := by
  obtain ⟨b, t, rfl, hb, ht⟩ := span_blank cs
  refine ⟨_, t, .spaces (sp := c :: b) ?_ (by simp) ht⟩
  intro x hx
  rcases List.mem_cons.1 hx with rfl | hx
  · exact h
  · exact hb x hx

/-- The character c is not the start of anything. -/
theorem lexChar_invalid {s0 s : LS} {c : Nat} {cs : List Nat} (ha : At s0 2 (c :: cs) c s)
    (hp : ¬ ∃ p ty, (p, ty) ∈ punctuation ∧ p <+: c :: cs) (hn : ¬ StartsName (c :: cs)) (h1 : ¬ StartsNumber (c :: cs))
    (hb : ¬ Blank c) (hm : c ≠ 34 ∧ c ≠ 39 ∧ c ≠ 35 ∧ c ≠ 37 ∧ c ≠ 64 ∧ c ≠ 12) : Fails s0 (lexChar c s).2 := by
  obtain ⟨_, r, hread, hle, hne⟩ := ha.cons
  have one : ∀ d, (∃ q ∈ punctuation, q.1 = [d]) → c ≠ d := by
    rintro d ⟨⟨p, ty⟩, hd, he⟩ rfl
    exact hp ⟨p, ty, hd, by rw [show p = [c] from he]; exact ⟨cs, rfl⟩⟩
  have hs : NameStart c ∨ c = 92 → False := fun h => hn (.inl ⟨c, cs, rfl, h⟩)
  have hdec : ¬ Dec c := fun h => h1 (.inl ⟨c, cs, rfl, h⟩)
  have hsm : simple c = none := by
    unfold simple
    rw [if_neg (one 44 (by decide)), if_neg (one 59 (by decide)), if_neg (one 63 (by decide)),
      if_neg (one 40 (by decide)), if_neg (one 41 (by decide)), if_neg (one 91 (by decide)),
      if_neg (one 93 (by decide)), if_neg (one 123 (by decide)), if_neg (one 125 (by decide))]
  unfold lexChar
  rw [if_neg hne, hsm]
  dsimp only
  by_cases h94 : c = 94
  · subst h94
    show Fails s0 (lexOp 94 none s).2
    obtain ⟨s1, e1, a1⟩ := r.at
    unfold lexOp
    rw [e1]
    dsimp only
    have ho : op2 94 (cs.headD eof) = none := by
      cases h : op2 94 (cs.headD eof) with
      | none => rfl
      | some ty =>
        exfalso
        obtain ⟨hm, hx⟩ := op2_mem h
        rcases a1.le with he | ⟨_, _, _, t, ht⟩
        · rw [he] at hx; unfold eof at hx; omega
        · refine hp ⟨_, _, hm, t, ?_⟩
          rw [List.cons_append, List.cons_append, List.nil_append, ← ht]
    rw [ho]
    dsimp only
    unfold invalid
    exact .report (a1.unget (by omega)).err _ rfl
  · have ho : op1 c = none := by
      unfold op1
      rw [if_neg (one 61 (by decide)), if_neg (one 58 (by decide)), if_neg (one 33 (by decide)),
        if_neg (one 62 (by decide)), if_neg (one 38 (by decide)), if_neg h94, if_neg (one 126 (by decide)),
        if_neg (one 42 (by decide)), if_neg (one 124 (by decide))]
    rw [ho]
    dsimp only
    have h43 := one 43 (by decide)
    have h45 := one 45 (by decide)
    have hid : isStartIdentifier c = false :=
      bool_false (isStart_name hle hread.2) (fun h => hs (.inl h))
    have h92 : c ≠ 92 := fun h => hs (.inr h)
    have hu : ¬ (c = 117 ∨ c = 85) := fun h => hs (.inl (by unfold NameStart Letter; omega))
    unfold lexOther
    rw [if_neg (one 46 (by decide)), if_neg (one 60 (by decide)), if_neg (by omega),
      if_neg (one 36 (by decide)), if_neg (by omega), if_neg (one 47 (by decide)),
      if_neg (by rw [bool_false (isSpace_blank c) hb]; simp; omega),
      if_neg (by rw [bool_false (isDigit_dec c) hdec]; decide), if_neg (by omega), if_neg (by omega), if_neg (by omega),
      if_neg hu, if_neg (by rw [hid]; decide)]
    exact .report r.err _ rfl

theorem comment_total {s0 s : LS} {c : Nat} {cs : List Nat} (h : StartsComment cs) (ha : At s0 2 cs c s) :
    Fails s0 (lexChar c s).2 ∨ (∃ l rest, Reads cs l rest) ∨ ∃ rest, Dropped cs rest := by
  obtain ⟨t, rfl | rfl⟩ := h
  · obtain ⟨rfl, r, _⟩ := ha.cons
    obtain ⟨s1, e1, r1, _⟩ := r.getc'
    show Fails s0 (lexSlash s).2 ∨ _
    unfold lexSlash
    rw [e1]
    dsimp only
    rw [if_pos rfl]
    rcases cComment_total (r1.weak (by omega)) with hf | ⟨body, rest, hc⟩
    · exact .inl hf
    · right
      obtain ⟨left, hl⟩ := trimLeft_total body
      by_cases hp : Preserved left
      · obtain ⟨text, ht⟩ := trim_total left
        exact .inl ⟨_, _, .comment hc hl hp ht⟩
      · exact .inr ⟨_, .comment hc hl hp⟩
  · obtain ⟨rfl, r, _⟩ := ha.cons
    obtain ⟨s1, e1, r1, _⟩ := r.getc'
    show Fails s0 (lexSlash s).2 ∨ _
    unfold lexSlash
    rw [e1]
    dsimp only
    rw [if_neg (by decide), if_pos rfl]
    rcases lineComment_total (r1.weak (by omega)) with hf | ⟨body, rest, hc⟩
    · exact .inl (hf.of_g (fun g => warnCpp_g _ g))
    · right
      by_cases hp : Preserved body
      · obtain ⟨text, ht⟩ := trim_total body
        exact .inl ⟨_, _, .lineComment hc hp ht⟩
      · exact .inr ⟨_, .lineComment hc hp⟩

/-- Every text that is read without an error starts with a token or a comment that is left out. -/
theorem lexChar_total {s0 s : LS} {cs : List Nat} {c : Nat} (h12 : 12 ∉ cs) (ha : At s0 2 cs c s) :
    Fails s0 (lexChar c s).2 ∨ (∃ l rest, Reads cs l rest) ∨ ∃ rest, Dropped cs rest := by
  by_cases hnum : StartsNumber cs
  · obtain ⟨s1, a1, e⟩ := lexChar_number hnum ha
    rw [e]
    rcases number_total hnum a1 with h | h
    · exact .inl h
    · exact .inr (.inl h)
  by_cases hrange : StartsRange cs
  · obtain ⟨u, t, rfl, hu, hx⟩ := hrange
    obtain ⟨rfl, r, _⟩ := ha.cons
    have hlx : lexChar c s = lexU c s := by rcases hu with rfl | rfl <;> rfl
    rw [hlx]
    obtain ⟨s1, e1, r1, _⟩ := r.getc'
    obtain ⟨s2, e2, a2⟩ := r1.at
    unfold lexU
    rw [e1]
    dsimp only
    rw [if_pos rfl, e2]
    dsimp only
    have hx' : isHex (t.headD eof) = true ∨ t.headD eof = 63 := by
      obtain ⟨d, v, rfl, hd⟩ := hx
      rcases hd with hd | hd
      · exact .inl ((isHex_hex _).2 hd)
      · exact .inr hd
    rw [if_pos hx']
    rcases unicodeRange_total hx (a2.mono (by omega)) with h | ⟨a, b, rest, h⟩
    · exact .inl h
    · exact .inr (.inl ⟨_, _, .range hu h⟩)
  by_cases hname : StartsName cs
  · obtain ⟨s1, a1, e2, _⟩ := lexChar_name hname hrange ha
    rw [e2]
    rcases name_total .IDENTIFIER (.inl hname) a1 with h | ⟨vs, cut, rest, hn, he⟩
    · exact .inl h
    · right; left
      rcases he with he | he | he | ⟨r1, rfl, rfl, he⟩
      · cases he
      · exact ⟨_, _, .identifier hrange hn (.inl he)⟩
      · exact ⟨_, _, .identifier hrange hn (.inr he)⟩
      · by_cases hu : vs.map lowerByte = b!"url"
        · rcases he with he | ⟨us, r2, he⟩
          · exact absurd hu he
          · exact ⟨_, _, .url hrange hn hu he⟩
        · exact ⟨_, _, .function hrange hn hu⟩
  by_cases hcom : StartsComment cs
  · exact comment_total hcom ha
  by_cases hvar : StartsVariable cs
  · exact .inr (.inl (variable_total hvar))
  by_cases hp : ∃ p ty, (p, ty) ∈ punctuation ∧ p <+: cs
  · obtain ⟨p, ty, hm, hp⟩ := hp
    exact .inr (.inl (punct_total hnum hname hcom hvar 4 p ty hm hp (by omega)))
  cases cs with
  | nil => exact .inr (.inl ⟨_, _, .eof⟩)
  | cons d t =>
    obtain ⟨rfl, r, _⟩ := ha.cons
    by_cases hb : Blank c
    · exact .inr (.inl (spaces_total hb))
    by_cases hq : c = 34 ∨ c = 39
    · rcases quoted_or hq t.length t (Nat.le_refl _) with ⟨vs, rest, h⟩ | h
      · exact .inr (.inl ⟨_, _, .string hq h⟩)
      · left
        have hlx : lexChar c s = lexQuote c s := by rcases hq with rfl | rfl <;> rfl
        rw [hlx]
        exact lexString_bad hq h s.fuel [] s r.fuel r
    by_cases h35 : c = 35
    · subst h35
      rcases hash_total r with h | ⟨vs, cut, rest, h, hn⟩
      · exact .inl h
      · exact .inr (.inl ⟨_, _, .hash h hn⟩)
    by_cases h37 : c = 37
    · subst h37
      by_cases hs : NextIs NameStart t
      · obtain ⟨d, s1, a1, e2, _⟩ := lexPercent_name hs r
        have hlx : (lexChar 37 s).2 = (lexPercent s).2 := rfl
        rw [hlx, e2]
        rcases name_total .PLACEHOLDER (.inl (.inl (hs.mono fun _ h => .inl h))) a1 with h | ⟨vs, cut, rest, hn, he⟩
        · exact .inl h
        · right; left
          rcases he with he | he | he | ⟨r1, rfl, rfl, he⟩
          · cases he
          · exact ⟨_, _, .placeholder hs hn (.inl he)⟩
          · exact ⟨_, _, .placeholder hs hn (.inr he)⟩
          · by_cases hu : vs.map lowerByte = b!"url"
            · rcases he with he | ⟨us, r2, he⟩
              · exact absurd hu he
              · exact ⟨_, _, .placeholderUrl hs hn hu he⟩
            · exact ⟨_, _, .placeholderFunction hs hn hu⟩
      · exact .inr (.inl ⟨_, _, .modulo hs⟩)
    by_cases h64 : c = 64
    · subst h64
      obtain ⟨d, s1, a1, e2, _⟩ := lexId_at r
      have hlx : (lexChar 64 s).2 = (lexId 64 s).2 := rfl
      rw [hlx, e2]
      rcases name_total .AT_KEYWORD (.inr rfl) a1 with h | ⟨vs, cut, rest, hn, _⟩
      · exact .inl h
      · exact .inr (.inl ⟨_, _, .atKeyword hn⟩)
    left
    refine lexChar_invalid ha hp hname hnum hb ⟨by omega, by omega, h35, h37, h64, ?_⟩
    rintro rfl
    exact h12 (by simp)

end Csspp.Lex
