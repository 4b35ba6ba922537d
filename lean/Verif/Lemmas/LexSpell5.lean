import Verif.Lemmas.LexSpell4

/-! The tokens of `Spec.Reads` are read by the lexer: the first character and the whole step. -/

namespace Csspp.Lex
open Csspp.Utf8 Csspp.Spec

/-- The lexer found the token l; rest is what it will read next. -/
def Out (s0 : LS) (l : Lexeme) (rest : List Nat) (r : Option Tok × LS) : Prop :=
  ∃ t s1, r = (some t, match l.warn with | none => s1 | some w => s1.report w) ∧ Holds t l ∧
    t.pos = s0.start ∧ Rd s0 3 rest s1

theorem Out.mk {s0 s1 : LS} {l : Lexeme} {rest : List Nat} {t : Tok} (hw : l.warn = none) (ht : Holds t l)
    (hp : t.pos = s0.start) (h : Rd s0 3 rest s1) : Out s0 l rest (some t, s1) :=
  ⟨t, s1, by rw [hw], ht, hp, h⟩

theorem holds_bare (s : LS) (ty : NT) (w : Option Rpt) : Holds (s.tok ty) { ty := ty, warn := w } :=
  ⟨rfl, .nil, .nil, rfl, rfl, rfl, rfl⟩

theorem op2_mem {c n : Nat} {ty : NT} (h : op2 c n = some ty) :
    ([c, n], ty) ∈ punctuation ∧ (n = 61 ∨ n = 38 ∨ n = 42 ∨ n = 124) := by
  unfold op2 at h
  repeat' split at h
  all_goals first
    | (rename_i hh; cases h; obtain ⟨rfl, rfl⟩ := hh; exact ⟨by simp [punctuation], by decide⟩)
    | cases h

theorem lexChar_simple {c : Nat} {ty : NT} (h : simple c = some ty) (hne : c ≠ eof) (s : LS) :
    lexChar c s = (some (s.tok ty), s) := by
  unfold lexChar
  rw [if_neg hne, h]

theorem lexChar_op {c : Nat} {a : Option NT} (h : simple c = none) (h1 : op1 c = some a) (hne : c ≠ eof) (s : LS) :
    lexChar c s = lexOp c a s := by
  unfold lexChar
  rw [if_neg hne, h, h1]

theorem At.tok {s0 s : LS} {k c : Nat} {cs : List Nat} (h : At s0 k cs c s) (ty : NT) :
    s.tok ty = s0.tok ty := h.tl.tok ty

/-- One character of punctuation that may have been longer. -/
theorem lexOp_one {s0 s : LS} {c : Nat} {ty : NT} {rest : List Nat}
    (hl : ∀ p' ty', (p', ty') ∈ punctuation → p' <+: [c] ++ rest → p'.length ≤ 1) (h : Rd s0 2 rest s) :
    Out s0 { ty := ty } rest (lexOp c (some ty) s) := by
  obtain ⟨s1, e1, a1⟩ := h.at
  unfold lexOp
  rw [e1]
  dsimp only
  have : op2 c (rest.headD eof) = none := by
    cases ho : op2 c (rest.headD eof) with
    | none => rfl
    | some ty' =>
      obtain ⟨hm, hn⟩ := op2_mem ho
      rcases a1.le with he | ⟨_, _, _, t, ht⟩
      · rw [he] at hn; unfold eof at hn; omega
      · have := hl _ _ hm (by rw [ht]; exact ⟨t, by simp⟩)
        simp at this
  rw [this]
  exact .mk rfl (holds_bare _ _ _) a1.tl.start ((a1.unget (by omega)).mono (by omega))

/-- Two characters of punctuation. -/
theorem lexOp_two {s0 s : LS} {c n : Nat} {a : Option NT} {ty : NT} {rest : List Nat} (ho : op2 c n = some ty)
    (h : Rd s0 2 (n :: rest) s) :
    Out s0 { ty := ty, warn := if c = 61 then some .doubleEqual else none } rest (lexOp c a s) := by
  obtain ⟨s1, e1, r1, _⟩ := h.getc'
  unfold lexOp
  rw [e1]
  dsimp only
  rw [ho]
  refine ⟨s1.tok ty, s1, ?_, holds_bare _ _ _, r1.start, r1.mono (by omega)⟩
  by_cases hc : c = 61
  · rw [if_pos hc, hc]; rfl
  · rw [if_neg hc, show (c == 61) = false from by simp [hc]]; rfl

theorem noNum {cs : List Nat} (h : ¬ StartsNumber cs) :
    ¬ NextIs Dec cs ∧ (∀ t, cs = 46 :: t → ¬ NextIs Dec t) ∧
    (∀ c t, cs = c :: t → c = 43 ∨ c = 45 → ¬ NextIs Dec t ∧ ∀ u, t = 46 :: u → ¬ NextIs Dec u) :=
  ⟨fun h1 => h (.inl h1), fun t e h1 => h (.inr (.inl ⟨t, e, h1⟩)), fun c t e hc =>
    ⟨fun h1 => h (.inr (.inr ⟨c, t, e, hc, .inl h1⟩)), fun u eu h1 => h (.inr (.inr ⟨c, t, e, hc, .inr ⟨u, eu, h1⟩⟩))⟩⟩

theorem lexPeriod_one {s0 s : LS} {rest : List Nat} (h1 : ¬ NextIs Dec rest) (h : Rd s0 2 rest s) :
    Out s0 { ty := .PERIOD } rest (lexPeriod s) := by
  obtain ⟨s1, e1, a1⟩ := h.at
  unfold lexPeriod
  rw [e1]
  dsimp only
  rw [if_neg (by rw [a1.notDigit h1]; decide)]
  exact .mk rfl (holds_bare _ _ _) a1.tl.start ((a1.unget (by omega)).mono (by omega))

/-- The longest punctuation: nothing longer starts there. -/
theorem longest {p p' rest : List Nat} {ty' : NT}
    (hl : ∀ p' ty', (p', ty') ∈ punctuation → p' <+: p ++ rest → p'.length ≤ p.length)
    (hm : (p', ty') ∈ punctuation) (hlen : p.length < p'.length) : ¬ p' <+: p ++ rest :=
  fun h => by have := hl _ _ hm h; omega

theorem At.cons' {s0 s : LS} {k c d : Nat} {cs : List Nat} (h : At s0 k cs c s) (hc : c = d) (hd : d ≠ eof) :
    ∃ t, cs = d :: t := by
  rcases h.le with he | ⟨_, _, _, t, ht⟩
  · exact absurd (hc.symm.trans he) hd
  · exact ⟨t, by rw [ht, hc]⟩

theorem lexLess_one {s0 s : LS} {rest : List Nat}
    (hl : ∀ p' ty', (p', ty') ∈ punctuation → p' <+: [60] ++ rest → p'.length ≤ ([60] : List Nat).length)
    (h : Rd s0 2 rest s) : Out s0 { ty := .LESS_THAN } rest (lexLess s) := by
  obtain ⟨s1, e1, a1⟩ := h.at
  unfold lexLess
  rw [e1]
  dsimp only
  by_cases h33 : rest.headD eof = 33
  · rw [if_pos h33]
    obtain ⟨t, rfl⟩ := a1.cons' h33 (by decide)
    obtain ⟨_, r1, hr, hle, _⟩ := a1.cons
    obtain ⟨s2, e2, a2⟩ := r1.at
    rw [e2]
    dsimp only
    by_cases h45 : t.headD eof = 45
    · rw [if_pos h45]
      obtain ⟨t, rfl⟩ := a2.cons' h45 (by decide)
      obtain ⟨_, r2, hr2, hle2, _⟩ := a2.cons
      obtain ⟨s3, e3, a3⟩ := r2.at
      rw [e3]
      dsimp only
      have hne : t.headD eof ≠ 45 := by
        intro h3
        obtain ⟨u, rfl⟩ := a3.cons' h3 (by decide)
        exact longest hl (p' := b!"<!--") (ty' := .CDO) (by simp [punctuation]) (by decide) ⟨u, rfl⟩
      rw [if_neg hne]
      refine .mk rfl (holds_bare _ _ _) a3.tl.start ?_
      have r3 := a3.unget (by omega)
      exact ((r3.unget (by omega) hr2 hle2).unget (by omega) hr hle).mono (by omega)
    · rw [if_neg h45]
      refine .mk rfl (holds_bare _ _ _) a2.tl.start ?_
      exact ((a2.unget (by omega)).unget (by omega) hr hle).mono (by omega)
  · rw [if_neg h33]
    have hne : rest.headD eof ≠ 61 := by
      intro h3
      obtain ⟨u, rfl⟩ := a1.cons' h3 (by decide)
      exact longest hl (p' := b!"<=") (ty' := .LESS_EQUAL) (by simp [punctuation]) (by decide) ⟨u, rfl⟩
    rw [if_neg hne]
    exact .mk rfl (holds_bare _ _ _) a1.tl.start ((a1.unget (by omega)).mono (by omega))

theorem lexLess_two {s0 s : LS} {rest : List Nat} (h : Rd s0 2 (61 :: rest) s) :
    Out s0 { ty := .LESS_EQUAL } rest (lexLess s) := by
  obtain ⟨s1, e1, r1, _⟩ := h.getc'
  unfold lexLess
  rw [e1]
  exact .mk rfl (holds_bare _ _ _) r1.start (r1.mono (by omega))

theorem lexLess_cdo {s0 s : LS} {rest : List Nat} (h : Rd s0 2 (33 :: 45 :: 45 :: rest) s) :
    Out s0 { ty := .CDO } rest (lexLess s) := by
  obtain ⟨s1, e1, r1, _⟩ := h.getc'
  obtain ⟨s2, e2, r2, _⟩ := r1.getc'
  obtain ⟨s3, e3, r3, _⟩ := r2.getc'
  unfold lexLess
  rw [e1]
  dsimp only
  rw [if_pos rfl, e2]
  dsimp only
  rw [if_pos rfl, e3]
  exact .mk rfl (holds_bare _ _ _) r3.start (r3.mono (by omega))

/-- A sign that is not part of a number. -/
theorem lexPlusMinus_sign {s0 s : LS} {c : Nat} {rest : List Nat}
    (h1 : ¬ NextIs Dec rest) (h2 : ∀ u, rest = 46 :: u → ¬ NextIs Dec u) (h : Rd s0 2 rest s) :
    ∃ n s1, lexPlusMinus c s = lexSign c n s1 ∧ At s0 1 rest n s1 := by
  obtain ⟨s1, e1, a1⟩ := h.at
  unfold lexPlusMinus
  rw [e1]
  dsimp only
  rw [if_neg (by rw [a1.notDigit h1]; decide)]
  by_cases h46 : rest.headD eof = 46
  · rw [if_pos h46]
    obtain ⟨t, rfl⟩ := a1.cons' h46 (by decide)
    obtain ⟨_, r1, hr, hle, _⟩ := a1.cons
    obtain ⟨s2, e2, a2⟩ := r1.at
    rw [e2]
    dsimp only
    rw [if_neg (by rw [a2.notDigit (h2 t rfl)]; decide)]
    exact ⟨_, _, rfl, ⟨rfl, (a2.unget (by omega)).mono (by omega), a1.mem⟩⟩
  · rw [if_neg h46]
    exact ⟨_, _, rfl, a1⟩

theorem lexSign_plus {s0 s : LS} {n : Nat} {rest : List Nat} (h : At s0 1 rest n s) :
    Out s0 { ty := .ADD } rest (lexSign 43 n s) := by
  unfold lexSign
  rw [if_pos rfl]
  exact .mk rfl (holds_bare _ _ _) h.tl.start ((h.unget (by omega)).mono (by omega))

/-- The character n after a dash is not the start of a name. -/
theorem notName {s0 s : LS} {k n : Nat} {rest : List Nat} (h : At s0 k rest n s)
    (hn : ¬ NextIs (fun c => NameStart c ∨ c = 92) rest) (hd : ¬ NextIs Dec rest) (h45 : n ≠ 45) :
    ¬ ((isIdentifier n = true ∨ n = 92) ∧ ¬ isDigit n = true) := by
  rintro ⟨h1, h2⟩
  rcases h.le with he | ⟨hle, hr, _, t, ht⟩
  · rw [he] at h1; exact absurd h1 (by decide)
  · apply hn
    refine ⟨n, t, ht, ?_⟩
    rcases h1 with h1 | h1
    · left
      have := (isIdentifier_name hle).1 h1
      rw [isDigit_dec] at h2
      unfold NameChar VarChar at this
      unfold NameStart
      rcases this with (h | h | h | h) | h
      · exact absurd h h2
      · exact .inl h
      · exact absurd h h45
      · exact .inr (.inl h)
      · exact .inr (.inr h)
    · exact .inr h1

theorem lexSign_minus {s0 s : LS} {n : Nat} {rest : List Nat} (h : At s0 1 rest n s)
    (hl : ∀ p' ty', (p', ty') ∈ punctuation → p' <+: [45] ++ rest → p'.length ≤ ([45] : List Nat).length)
    (hn : ¬ NextIs (fun c => NameStart c ∨ c = 92) rest) (hd : ¬ NextIs Dec rest) :
    Out s0 { ty := .SUBTRACT } rest (lexSign 45 n s) := by
  unfold lexSign
  rw [if_neg (by decide)]
  by_cases h45 : n = 45
  · rw [if_pos h45]
    obtain ⟨t, rfl⟩ := h.cons' h45 (by decide)
    obtain ⟨_, r1, hr, hle, _⟩ := h.cons
    obtain ⟨s2, e2, a2⟩ := r1.at
    rw [e2]
    dsimp only
    have hne : t.headD eof ≠ 62 := by
      intro h3
      obtain ⟨u, rfl⟩ := a2.cons' h3 (by decide)
      exact longest hl (p' := b!"-->") (ty' := .CDC) (by simp [punctuation]) (by decide) ⟨u, rfl⟩
    rw [if_neg hne, h45]
    exact .mk rfl (holds_bare _ _ _) a2.tl.start (((a2.unget (by omega)).unget (by omega) hr hle).mono (by omega))
  · rw [if_neg h45, if_neg (notName h hn hd h45)]
    exact .mk rfl (holds_bare _ _ _) h.tl.start ((h.unget (by omega)).mono (by omega))

theorem lexSign_cdc {s0 s : LS} {rest : List Nat} (h : At s0 1 (45 :: 62 :: rest) 45 s) :
    Out s0 { ty := .CDC } rest (lexSign 45 45 s) := by
  obtain ⟨_, r1, _⟩ := h.cons
  obtain ⟨s2, e2, r2, _⟩ := r1.getc'
  unfold lexSign
  rw [if_neg (by decide), if_pos rfl, e2]
  exact .mk rfl (holds_bare _ _ _) r2.start (r2.mono (by omega))

theorem lexDollar_one {s0 s : LS} {rest : List Nat}
    (hl : ∀ p' ty', (p', ty') ∈ punctuation → p' <+: [36] ++ rest → p'.length ≤ ([36] : List Nat).length)
    (hv : ¬ NextIs VarChar rest) (h : Rd s0 2 rest s) : Out s0 { ty := .DOLLAR } rest (lexDollar s) := by
  obtain ⟨s1, e1, a1⟩ := h.at
  unfold lexDollar
  rw [e1]
  dsimp only
  have hne : rest.headD eof ≠ 61 := by
    intro h3
    obtain ⟨u, rfl⟩ := a1.cons' h3 (by decide)
    exact longest hl (p' := b!"$=") (ty' := .SUFFIX_MATCH) (by simp [punctuation]) (by decide) ⟨u, rfl⟩
  rw [if_neg hne, if_neg (by rw [a1.notVar hv]; decide)]
  exact .mk rfl (holds_bare _ _ _) a1.tl.start ((a1.unget (by omega)).mono (by omega))

theorem lexDollar_two {s0 s : LS} {rest : List Nat} (h : Rd s0 2 (61 :: rest) s) :
    Out s0 { ty := .SUFFIX_MATCH } rest (lexDollar s) := by
  obtain ⟨s1, e1, r1, _⟩ := h.getc'
  unfold lexDollar
  rw [e1]
  exact .mk rfl (holds_bare _ _ _) r1.start (r1.mono (by omega))

theorem lexSlash_one {s0 s : LS} {rest : List Nat} (hc : ¬ StartsComment (47 :: rest)) (h : Rd s0 2 rest s) :
    Out s0 { ty := .DIVIDE } rest (lexSlash s) := by
  obtain ⟨s1, e1, a1⟩ := h.at
  unfold lexSlash
  rw [e1]
  dsimp only
  have h42 : rest.headD eof ≠ 42 := by
    intro h3
    obtain ⟨u, rfl⟩ := a1.cons' h3 (by decide)
    exact hc ⟨u, .inl rfl⟩
  have h47 : rest.headD eof ≠ 47 := by
    intro h3
    obtain ⟨u, rfl⟩ := a1.cons' h3 (by decide)
    exact hc ⟨u, .inr rfl⟩
  rw [if_neg h42, if_neg h47]
  exact .mk rfl (holds_bare _ _ _) a1.tl.start ((a1.unget (by omega)).mono (by omega))

/-- The punctuation by the code that reads it. -/
theorem punct_class {p : List Nat} {ty : NT} (h : (p, ty) ∈ punctuation) :
    (∃ c, p = [c] ∧ simple c = some ty) ∨
    (∃ c, p = [c] ∧ simple c = none ∧ op1 c = some (some ty)) ∨
    (∃ c n a, p = [c, n] ∧ simple c = none ∧ op1 c = some a ∧ op2 c n = some ty) ∨
    (p, ty) ∈ ([(b!"<", .LESS_THAN), (b!"<=", .LESS_EQUAL), (b!"<!--", .CDO), (b!"+", .ADD), (b!"-", .SUBTRACT),
      (b!"-->", .CDC), (b!".", .PERIOD), (b!"$", .DOLLAR), (b!"$=", .SUFFIX_MATCH), (b!"/", .DIVIDE)] :
      List (List Nat × NT)) := by
  simp only [punctuation, List.mem_cons, List.not_mem_nil, or_false] at h
  rcases h with h | h | h | h | h | h | h | h | h | h | h | h | h | h | h | h | h | h | h | h | h | h | h | h | h | h | h | h | h | h | h | h | h | h | h | h | h | h
  all_goals
    obtain ⟨rfl, rfl⟩ := Prod.mk.inj h
    first
    | exact .inl ⟨_, rfl, rfl⟩
    | exact .inr (.inl ⟨_, rfl, rfl, rfl⟩)
    | exact .inr (.inr (.inl ⟨_, _, _, rfl, rfl, rfl, rfl⟩))
    | exact .inr (.inr (.inr (by decide)))

end Csspp.Lex
