import Verif.Lemmas.LexType
import Verif.Props.Utf8
import Verif.Spec.Lines

/-!
C03 to C07: properties of every sequence of calls to `lexer::next_token()`.
-/

namespace Csspp.Lex
open Csspp.Utf8 Csspp.Spec

/-- The lexer after n calls to next_token(). -/
def after : Nat → LS → LS
  | 0, s => s
  | n + 1, s => (nextToken (after n s)).2

/-- The token returned by the call number n (the first one is number 0). -/
def token (n : Nat) (s : LS) : Tok := (nextToken (after n s)).1

theorem res_init (inp : Str) : Res (init inp) 3 inp.length (init inp) :=
  ⟨.refl, Nat.zero_le _, by show 0 + inp.length ≤ _; omega⟩

theorem after_res (inp : Str) (n : Nat) : Res (init inp) 3 inp.length (after n (init inp)) := by
  induction n with
  | zero => exact res_init inp
  | succ n ih =>
    rcases h : nextToken (after n (init inp)) with ⟨t, s'⟩
    have := (nextToken_res ih h).1
    show Res _ _ _ (nextToken (after n (init inp))).2
    rw [h]
    exact this

/-! ### C04, C05: exceptions -/

theorem ungetc_exn (c : Nat) (s : LS) (hl : s.un.length ≤ 3) :
    (ungetc c s).exn = s.exn ∨ (s.exn = none ∧ (ungetc c s).exn = some .ungetRange) := by
  unfold ungetc
  split
  · exact .inl rfl
  · split
    · cases h : s.exn with
      | none => right; simp [LS.throw, h]
      | some e => left; simp [LS.throw, h]
    · rw [if_neg (by omega)]; exact .inl rfl

theorem Reach.exn {s0 s : LS} (h : Reach s0 s) (h0 : s0.exn = none) :
    s.exn = none ∨ s.exn = some .ungetRange ∨ s.exn = some .badStart := by
  induction h with
  | refl => exact .inl h0
  | getc _ ih => rw [getc_exn]; exact ih
  | @unget s t c _ hl _ _ ih _ =>
    rcases ungetc_exn c s hl with h | ⟨_, h⟩
    · rw [h]; exact ih
    · exact .inr (.inl h)
  | report _ _ ih => exact ih
  | start _ ih => exact ih
  | @badStart s t _ _ _ ih _ =>
    rcases ih with h | h | h
    · right; right; simp [LS.throw, h]
    · right; left; simp [LS.throw, h]
    · right; right; simp [LS.throw, h]
  | undef _ _ ih => exact ih

/-- C03: no call to next_token() loops forever, on any stream. -/
theorem C03_no_hang (inp : Str) (n : Nat) : (after n (init inp)).exn ≠ some .hang := by
  rcases (after_res inp n).reach.exn rfl with h | h | h <;> rw [h] <;> simp

/-- C04: after any number of calls on any stream at most three characters are pushed back, and the
exception "ran out of space" was not thrown. -/
theorem C04_bounded (inp : Str) (n : Nat) :
    (after n (init inp)).un.length ≤ 3 ∧ (after n (init inp)).exn ≠ some .ungetFull := by
  refine ⟨(after_res inp n).un, ?_⟩
  rcases (after_res inp n).reach.exn rfl with h | h | h <;> rw [h] <;> simp

/-- C04: within a call as well, no more than four characters are ever pushed back. -/
theorem C04_inside (inp : Str) (s : LS) (h : Reach (init inp) s) : s.un.length ≤ 4 := by
  induction h with
  | refl => exact Nat.zero_le _
  | getc _ ih => rw [getc_un]; simp; omega
  | @unget s t c _ hl _ _ _ _ => have := (ungetc_amount c s).1; omega
  | report _ _ ih => exact ih
  | start _ ih => exact ih
  | badStart _ _ _ ih _ => exact ih
  | undef _ _ ih => exact ih

/-- C05: the only exceptions are the two marked "should never happen" at lexer.cpp:731 and 867. -/
theorem C05_exceptions (inp : Str) (n : Nat) :
    (after n (init inp)).exn = none ∨ (after n (init inp)).exn = some .ungetRange ∨
      (after n (init inp)).exn = some .badStart :=
  (after_res inp n).reach.exn rfl

/-! ### Reading well formed UTF-8 -/

theorem charBytes_high {c : Nat} {b : Str} (h : CharBytes c b) :
    (∃ a, b = [a] ∧ c = a ∧ a < 0x80) ∨
    (∃ a fs, b = a :: fs ∧ 0xC0 ≤ a ∧ a < 0xF8 ∧ fs.length ≤ 3 ∧ (∀ x ∈ fs, isFollow x = true) ∧
      0x80 ≤ c ∧ c ≤ 0x10FFFF) := by
  cases h with
  | one _ h => exact .inl ⟨c, rfl, rfl, h⟩
  | two a b ha hb =>
    unfold Follow at hb
    refine .inr ⟨a, [b], rfl, by omega, by omega, by simp, ?_, by omega, by omega⟩
    simp [isFollow]; omega
  | three a b c ha hb hc h1 h2 =>
    unfold Follow at hb hc
    refine .inr ⟨a, [b, c], rfl, by omega, by omega, by simp, ?_, by omega, by omega⟩
    simp [isFollow]; omega
  | four a b c d ha hb hc hd h1 h2 =>
    unfold Follow at hb hc hd
    refine .inr ⟨a, [b, c, d], rfl, by omega, by omega, by simp, ?_, by omega, by omega⟩
    simp [isFollow]; omega

/-- The first byte of a text is not a follow byte. -/
theorem utf8_head {cs : List Nat} {bs : Str} (h : Utf8 cs bs) :
    ∀ b t, bs = b :: t → isFollow b = false := by
  cases h with
  | nil => intro b t h; cases h
  | @cons c b cs bs hc _ =>
    intro x t hx
    rcases charBytes_high hc with ⟨a, rfl, rfl, ha⟩ | ⟨a, fs, rfl, ha, ha2, _⟩
    · have : x = c := by simpa using (List.cons.inj hx).1.symm
      unfold isFollow; subst this; simp; omega
    · have : x = a := by simpa using (List.cons.inj hx).1.symm
      unfold isFollow; subst this; simp; omega

theorem takeWhile_follow : ∀ (fs bs : Str), (∀ x ∈ fs, isFollow x = true) →
    (∀ b t, bs = b :: t → isFollow b = false) →
    (fs ++ bs).takeWhile isFollow = fs ∧ (fs ++ bs).dropWhile isFollow = bs := by
  intro fs
  induction fs with
  | nil =>
    intro bs _ hb
    cases bs with
    | nil => exact ⟨rfl, rfl⟩
    | cons b t =>
      have := hb b t rfl
      simp [this]
  | cons f fs ih =>
    intro bs hf hb
    have h1 := hf f (by simp)
    obtain ⟨h2, h3⟩ := ih bs (fun x hx => hf x (by simp [hx])) hb
    simp [h1, h2, h3]

/-- Reading a character of a well formed text. -/
theorem getc_utf8 {s : LS} {c : Nat} {b bs : Str} {cs : List Nat} (hu : s.un = [])
    (hi : s.inp = b ++ bs) (hc : CharBytes c b) (hcs : Utf8 cs bs) :
    getc s = endOfLine c { s with inp := bs } := by
  unfold getc
  rw [hu]
  dsimp only
  have hdec := C01_decode c b hc
  rcases charBytes_high hc with ⟨a, rfl, rfl, ha⟩ | ⟨a, fs, rfl, ha, ha2, hl, hf, hc1, hc2⟩
  · rw [hi]
    dsimp only [List.cons_append, List.nil_append]
    rw [if_neg (by omega)]
  · rw [hi]
    dsimp only [List.cons_append]
    rw [if_pos (by omega)]
    unfold getHigh
    dsimp only
    obtain ⟨h1, h2⟩ := takeWhile_follow fs bs hf (utf8_head hcs)
    rw [h1, h2, if_pos ⟨ha, by omega⟩, if_neg (by omega), hdec]
    simp [LS.reportMb]

theorem utf8_cons {cs : List Nat} {b : Nat} {t : Str} (h : Utf8 cs (b :: t)) :
    ∃ c bb cs' bs', CharBytes c bb ∧ Utf8 cs' bs' ∧ cs = c :: cs' ∧ b :: t = bb ++ bs' := by
  generalize hx : b :: t = x at h
  cases h with
  | nil => cases hx
  | @cons c bb cs' bs' hc hcs => exact ⟨c, bb, cs', bs', hc, hcs, rfl, rfl⟩

theorem utf8_tail_ascii {cs : List Nat} {a : Nat} {bs : Str} (ha : a < 0x80)
    (h : Utf8 cs (a :: bs)) : ∃ cs', cs = a :: cs' ∧ Utf8 cs' bs := by
  obtain ⟨c, b, cs', bs', hc, hcs, rfl, he⟩ := utf8_cons h
  rcases charBytes_high hc with ⟨x, rfl, rfl, hx⟩ | ⟨x, fs, rfl, hx1, hx2, _⟩
  · obtain ⟨rfl, rfl⟩ := List.cons.inj he
    exact ⟨cs', rfl, hcs⟩
  · have := (List.cons.inj he).1
    omega

/-- A state whose stream is well formed and holds neither NUL nor U+FFFD. -/
structure Clean (s : LS) : Prop where
  inp : ∃ cs, Utf8 cs s.inp ∧ ∀ c ∈ cs, c ≠ 0 ∧ c ≠ 0xFFFD
  un : ∀ c ∈ s.un, c ≠ 0 ∧ c ≠ 0xFFFD ∧ c ≤ 0x10FFFF
  exn : s.exn = none

theorem endOfLine_clean {c : Nat} {s : LS} (h : Clean s) (h0 : c ≠ 0) (h1 : c ≠ 0xFFFD)
    (h2 : c ≤ 0x10FFFF) : Clean (endOfLine c s).2 ∧ (endOfLine c s).1 ≠ 0xFFFD ∧
      (endOfLine c s).1 ≤ 0x10FFFF := by
  unfold endOfLine
  split
  · split
    · rename_i rest hi
      obtain ⟨cs, hu, hcs⟩ := h.inp
      rw [hi] at hu
      obtain ⟨cs', rfl, hu'⟩ := utf8_tail_ascii (by omega) hu
      exact ⟨⟨⟨cs', hu', fun c hc => hcs c (by simp [hc])⟩, h.un, h.exn⟩, by simp, by simp⟩
    · exact ⟨⟨h.inp, h.un, h.exn⟩, by simp, by simp⟩
  · split
    · exact ⟨⟨h.inp, h.un, h.exn⟩, by simp, by simp⟩
    · split
      · exact ⟨⟨h.inp, h.un, h.exn⟩, by simp, by simp⟩
      · exact ⟨h, h1, h2⟩

theorem getc_clean {s : LS} (h : Clean s) :
    Clean (getc s).2 ∧ (getc s).1 ≠ 0xFFFD ∧ ((getc s).1 = eof ∨ (getc s).1 ≤ 0x10FFFF) := by
  cases hu : s.un with
  | cons c un =>
    have hc := h.un c (by rw [hu]; simp)
    unfold getc
    rw [hu]
    dsimp only
    rw [if_neg hc.1]
    refine ⟨⟨h.inp, ?_, h.exn⟩, hc.2.1, .inr hc.2.2⟩
    intro x hx
    exact h.un x (by rw [hu]; exact List.mem_cons_of_mem _ hx)
  | nil =>
    cases hi : s.inp with
    | nil =>
      rw [(getc_amount s).2.2.2.1 hu hi]
      exact ⟨h, show eof ≠ 0xFFFD by decide, .inl rfl⟩
    | cons b t =>
      obtain ⟨cs, hU, hcs⟩ := h.inp
      rw [hi] at hU
      obtain ⟨c, bb, cs', bs', hc, hcs', rfl, he⟩ := utf8_cons hU
      rw [getc_utf8 hu (by rw [hi]; exact he) hc hcs']
      have hc0 := hcs c (by simp)
      have hle : c ≤ 0x10FFFF := by
        rcases charBytes_high hc with ⟨a, _, rfl, ha⟩ | ⟨_, _, _, _, _, _, _, _, h⟩
        · omega
        · exact h
      have hcl : Clean { s with inp := bs' } :=
        ⟨⟨cs', hcs', fun c hc => hcs c (by simp [hc])⟩, h.un, h.exn⟩
      obtain ⟨h1, h2, h3⟩ := endOfLine_clean hcl hc0.1 hc0.2 hle
      exact ⟨h1, h2, .inr h3⟩

theorem Reach.clean {s0 s : LS} (h : Reach s0 s) (h0 : Clean s0) : Clean s := by
  induction h with
  | refl => exact h0
  | getc _ ih => exact (getc_clean ih).1
  | @unget s t c _ hl _ hc ih1 ih2 =>
    have hc' : c ≠ 0 ∧ c ≠ 0xFFFD ∧ (c = eof ∨ c ≤ 0x10FFFF) := by
      rcases hc with hc | hc
      · exact ⟨by omega, by omega, by omega⟩
      · have h1 := getc_clean ih2
        rw [hc] at h1
        exact ⟨by rw [← hc]; exact getc_ne_zero t, h1.2⟩
    unfold ungetc
    split
    · exact ih1
    · rename_i hne
      have hle : c ≤ 0x10FFFF := by
        rcases hc'.2.2 with h | h
        · exact absurd (.inl h) hne
        · exact h
      rw [if_neg (by omega), if_neg (by omega)]
      refine ⟨ih1.inp, ?_, ih1.exn⟩
      intro x hx
      rcases List.mem_cons.1 hx with rfl | hx
      · exact ⟨hc'.1, hc'.2.1, hle⟩
      · exact ih1.un x hx
  | report _ _ ih => exact ⟨ih.inp, ih.un, ih.exn⟩
  | start _ ih => exact ⟨ih.inp, ih.un, ih.exn⟩
  | badStart _ _ hc _ ih2 => exact absurd hc (getc_clean ih2).2.1
  | undef _ _ ih => exact ⟨ih.inp, ih.un, ih.exn⟩

/-- C05: on a well formed UTF-8 text without the characters U+0000 and U+FFFD no call to
next_token() ever throws. -/
theorem C05_clean (cs : List Nat) (inp : Str) (h : Utf8 cs inp) (hc : ∀ c ∈ cs, c ≠ 0 ∧ c ≠ 0xFFFD)
    (n : Nat) : (after n (init inp)).exn = none :=
  ((after_res inp n).reach.clean ⟨⟨cs, h, hc⟩, by simp [init], rfl⟩).exn

/-- C05: but "should never happen" does happen: `=` followed by the bytes F7 BF BF BF. -/
theorem C05_refuted_range : (after 1 (init [61, 0xF7, 0xBF, 0xBF, 0xBF])).exn = some .ungetRange := by
  decide +kernel

/-- C05: `-` followed by a NUL byte, or by U+FFFD itself in a well formed text. -/
theorem C05_refuted_start : (after 1 (init [45, 0, 32])).exn = some .badStart ∧
    (after 1 (init [45, 0xEF, 0xBF, 0xBD, 32])).exn = some .badStart := by
  decide +kernel

/-! ### C03: progress and end of the stream -/

theorem nextToken_end {s : LS} (hu : s.un = []) (hi : s.inp = []) :
    (nextToken s).1.ty = .EOF_TOKEN ∧ (nextToken s).2 = { s with start := s.pos } := by
  have hg : getc { s with start := s.pos } = (eof, { s with start := s.pos }) :=
    (getc_amount _).2.2.2.1 hu hi
  have hf : s.fuel = 1 := by simp [LS.fuel, LS.rem, hu, hi]
  unfold nextToken
  rw [hf]
  unfold lexLoop lexStep
  rw [hg]
  dsimp only
  unfold lexChar
  rw [if_pos rfl]
  exact ⟨rfl, rfl⟩

/-- C03: each call either consumes at least one character or is at the end of the stream and gives
EOF_TOKEN. -/
theorem C03_progress (inp : Str) (n : Nat) :
    (after (n + 1) (init inp)).rem < (after n (init inp)).rem ∨
    ((token n (init inp)).ty = .EOF_TOKEN ∧ (after (n + 1) (init inp)).un = [] ∧
      (after (n + 1) (init inp)).inp = []) := by
  rcases h : nextToken (after n (init inp)) with ⟨t, s'⟩
  have := (nextToken_res (after_res inp n) h).2
  have e1 : after (n + 1) (init inp) = s' := by show (nextToken _).2 = _; rw [h]
  have e2 : token n (init inp) = t := by unfold token; rw [h]
  rw [e1, e2]
  rcases this with h | h
  · exact .inr h
  · exact .inl h

/-- C03: at most one call per byte of the stream, plus one, gives EOF_TOKEN with nothing left. -/
theorem C03_eof_reached (inp : Str) : ∃ n ≤ inp.length,
    (token n (init inp)).ty = .EOF_TOKEN ∧ (after (n + 1) (init inp)).un = [] ∧
      (after (n + 1) (init inp)).inp = [] := by
  apply Classical.byContradiction
  intro hno
  have key : ∀ n, n ≤ inp.length + 1 → (after n (init inp)).rem + n ≤ inp.length := by
    intro n
    induction n with
    | zero => intro _; show 0 + inp.length + 0 ≤ _; omega
    | succ n ih =>
      intro hn
      have h1 := ih (by omega)
      rcases C03_progress inp n with h | h
      · omega
      · exact absurd ⟨n, by omega, h⟩ hno
  have := key (inp.length + 1) (Nat.le_refl _)
  omega

/-- C03: once everything was read every call gives EOF_TOKEN, at no further effect. -/
theorem C03_eof_stays (inp : Str) (n m : Nat) (hu : (after n (init inp)).un = [])
    (hi : (after n (init inp)).inp = []) :
    (token (n + m) (init inp)).ty = .EOF_TOKEN ∧
    (after (n + m) (init inp)).err = (after n (init inp)).err ∧
    (after (n + m) (init inp)).pos = (after n (init inp)).pos := by
  have key : ∀ m, (after (n + m) (init inp)).un = [] ∧ (after (n + m) (init inp)).inp = [] ∧
      (after (n + m) (init inp)).err = (after n (init inp)).err ∧
      (after (n + m) (init inp)).pos = (after n (init inp)).pos := by
    intro m
    induction m with
    | zero => exact ⟨hu, hi, rfl, rfl⟩
    | succ m ih =>
      have h := (nextToken_end ih.1 ih.2.1).2
      show (nextToken (after (n + m) (init inp))).2.un = [] ∧ _
      rw [show after (n + (m + 1)) (init inp) = (nextToken (after (n + m) (init inp))).2 from rfl, h]
      exact ih
  have h := key m
  exact ⟨(nextToken_end h.1 h.2.1).1, h.2.2⟩

theorem noEof_after (inp : Str) (n : Nat) : NoEof (after n (init inp)) :=
  (after_res inp n).reach.noEof (by simp [NoEof, init])

/-- C03: EOF_TOKEN means that everything was read, unless the call just reported "found an empty
identifier" or threw. -/
theorem C03_eof_meaning (inp : Str) (n : Nat) (h : (token n (init inp)).ty = .EOF_TOKEN) :
    ((after (n + 1) (init inp)).un = [] ∧ (after (n + 1) (init inp)).inp = []) ∨
    (after (n + 1) (init inp)).err.head? = some .emptyIdentifier ∨
    (after (n + 1) (init inp)).exn ≠ none :=
  nextToken_eof (after_res inp n).un (noEof_after inp n) (s' := after (n + 1) (init inp))
    (t := token n (init inp)) rfl h

/-- C03: the exception is real: an encoded surrogate gives EOF_TOKEN before the end of the
stream. -/
theorem C03_refuted_eof : (token 0 (init [0xED, 0xA0, 0x80, 32, 98])).ty = .EOF_TOKEN ∧
    (token 2 (init [0xED, 0xA0, 0x80, 32, 98])).ty = .IDENTIFIER := by
  decide +kernel

example : (List.range 6).map (fun n => (token n (init b!"a: 1;")).ty) =
    [.IDENTIFIER, .COLON, .WHITESPACE, .INTEGER, .SEMICOLON, .EOF_TOKEN] := by decide +kernel

/-! ### C07: errors -/

/-- C07: the list of messages only grows. -/
theorem C07_grows (inp : Str) (n m : Nat) :
    (after n (init inp)).err <:+ (after (n + m) (init inp)).err := by
  induction m with
  | zero => exact List.suffix_refl _
  | succ m ih =>
    have h := after_res inp (n + m)
    have hs : Res (after (n + m) (init inp)) 3 (after (n + m) (init inp)).rem
        (after (n + m) (init inp)) := ⟨.refl, h.un, Nat.le_refl _⟩
    have h1 := (nextToken_res hs (t := token (n + m) (init inp))
      (s' := after (n + m + 1) (init inp)) rfl).1
    obtain ⟨l, hl⟩ := h1.reach.err
    exact ih.trans ⟨l, hl.symm⟩

theorem Reach.ub {s0 s : LS} (h : Reach s0 s) (h0 : s0.ub = false) : s.ub = true → s.hasError := by
  induction h with
  | refl => intro h; rw [h0] at h; cases h
  | @getc s h1 ih =>
    intro hu
    have hub : (Lex.getc s).2.ub = s.ub := by
      unfold Lex.getc
      split
      · rfl
      · split
        · rfl
        · dsimp only
          have he : ∀ c t, (endOfLine c t).2.ub = t.ub := by
            intro c t
            unfold endOfLine
            repeat' split
            all_goals rfl
          split
          · unfold getHigh
            dsimp only
            split
            · split
              · rfl
              · rw [he]
                cases (mbtowc _).2 <;> rfl
            · rfl
          · rw [he]
    rw [hub] at hu
    obtain ⟨r, hr, hr'⟩ := ih hu
    obtain ⟨l, hl⟩ := getc_err s
    exact ⟨r, by rw [hl]; exact List.mem_append_right _ hr, hr'⟩
  | @unget s t c _ _ _ _ ih _ =>
    intro hu
    have hub : (ungetc c s).ub = s.ub := by
      unfold ungetc
      repeat' split
      all_goals rfl
    rw [hub] at hu
    obtain ⟨r, hr, hr'⟩ := ih hu
    exact ⟨r, by rw [ungetc_err]; exact hr, hr'⟩
  | report x _ ih =>
    intro hu
    obtain ⟨r, hr, hr'⟩ := ih hu
    exact ⟨r, List.mem_cons_of_mem _ hr, hr'⟩
  | start _ ih => exact ih
  | badStart _ _ _ ih _ => exact ih
  | undef _ he _ => intro _; exact he

/-- C07: a signed overflow only happens after an error was reported: when lexing a whole text
reports no error, there was none. -/
theorem C07_no_silent_overflow (inp : Str) (n : Nat)
    (h : ∀ r ∈ (after n (init inp)).err, r.isError = false) : (after n (init inp)).ub = false := by
  cases hu : (after n (init inp)).ub with
  | false => rfl
  | true =>
    obtain ⟨r, hr, hr'⟩ := (after_res inp n).reach.ub rfl hu
    rw [h r hr] at hr'
    cases hr'

/-- The overflow does happen, after the error. -/
example : (after 1 (init b!"1e99999999999999999999")).ub = true ∧
    Rpt.expTooLarge ∈ (after 1 (init b!"1e99999999999999999999")).err := by decide +kernel

/-! ### C06: positions -/

theorem lineBreaks_other {c : Nat} (t : Str) (h1 : c ≠ 13) (h2 : c ≠ 10) :
    lineBreaks (c :: t) = lineBreaks t := by
  rw [lineBreaks]
  · intro _ h; cases h; omega
  · intro h; omega
  · intro h; omega

theorem lineBreaks_skip (b bs : Str) (h : ∀ x ∈ b, x ≥ 0x80) : lineBreaks (b ++ bs) = lineBreaks bs ∧
    formFeeds (b ++ bs) = formFeeds bs ∧ (12 ∈ b ++ bs ↔ 12 ∈ bs) ∧
    (12 ∈ bs → lastPage (b ++ bs) = lastPage bs) := by
  induction b with
  | nil => simp
  | cons x b ih =>
    obtain ⟨h1, h2, h3, h4⟩ := ih (fun y hy => h y (by simp [hy]))
    have hx := h x (by simp)
    refine ⟨?_, ?_, ?_, ?_⟩
    · rw [List.cons_append, lineBreaks_other _ (by omega) (by omega)]; exact h1
    · unfold formFeeds at *
      rw [List.cons_append, List.count_cons, h2]
      simp; omega
    · rw [List.cons_append, List.mem_cons, h3]
      constructor
      · rintro (h | h)
        · omega
        · exact h
      · exact .inr
    · intro hm
      rw [List.cons_append, lastPage, if_pos (h3.2 hm)]
      exact h4 hm

/-- What is still to come is accounted for. -/
structure Lines (p l t : Nat) (s : LS) : Prop where
  total : s.pos.total + lineBreaks s.inp = t
  page : s.pos.page + formFeeds s.inp = p
  line : (if 12 ∈ s.inp then 1 + lineBreaks (lastPage s.inp) else s.pos.line + lineBreaks s.inp) = l

theorem getc_lines {s : LS} {p l t : Nat} (hcl : ∃ cs, Utf8 cs s.inp) (h : Lines p l t s) :
    Lines p l t (getc s).2 ∧ ∃ cs, Utf8 cs (getc s).2.inp := by
  cases hu : s.un with
  | cons c un =>
    unfold getc
    rw [hu]
    exact ⟨⟨h.total, h.page, h.line⟩, hcl⟩
  | nil =>
    cases hi : s.inp with
    | nil =>
      rw [(getc_amount s).2.2.2.1 hu hi]
      exact ⟨h, hcl⟩
    | cons b bt =>
      obtain ⟨cs, hU⟩ := hcl
      rw [hi] at hU
      obtain ⟨c, bb, cs', bs, hc, hcs', rfl, he⟩ := utf8_cons hU
      rw [getc_utf8 hu (by rw [hi]; exact he) hc hcs']
      obtain ⟨ht, hp, hl⟩ := h
      rw [hi, he] at ht hp hl
      rcases charBytes_high hc with ⟨a, rfl, rfl, ha⟩ | ⟨a, fs, rfl, ha1, ha2, _, hf, hc1, hc2⟩
      · simp only [List.cons_append, List.nil_append] at ht hp hl
        unfold endOfLine
        by_cases h13 : c = 13
        · rw [if_pos h13]
          subst h13
          split
          · rename_i rest hr
            dsimp only at hr
            subst hr
            obtain ⟨cs2, rfl, hU2⟩ := utf8_tail_ascii (by omega) hcs'
            refine ⟨⟨?_, ?_, ?_⟩, cs2, hU2⟩
            · show s.pos.total + 1 + lineBreaks rest = t
              rw [lineBreaks] at ht; omega
            · show s.pos.page + formFeeds rest = p
              rw [← hp]; simp [formFeeds]
            · show (if 12 ∈ rest then _ else s.pos.line + 1 + lineBreaks rest) = l
              rw [← hl]
              by_cases hm : 12 ∈ rest
              · simp [hm, lastPage]
              · simp [hm, lineBreaks]; omega
          · rename_i hne
            dsimp only at hne
            have hlb : lineBreaks (13 :: bs) = 1 + lineBreaks bs := by
              cases bs with
              | nil => rfl
              | cons x y =>
                rw [lineBreaks]
                intro z hz
                obtain ⟨rfl, rfl⟩ := List.cons.inj hz
                exact hne _ rfl
            refine ⟨⟨?_, ?_, ?_⟩, cs', hcs'⟩
            · show s.pos.total + 1 + lineBreaks bs = t
              rw [hlb] at ht; omega
            · show s.pos.page + formFeeds bs = p
              rw [← hp]; simp [formFeeds]
            · show (if 12 ∈ bs then _ else s.pos.line + 1 + lineBreaks bs) = l
              rw [← hl]
              by_cases hm : 12 ∈ bs
              · simp [hm, lastPage]
              · simp [hm, hlb]; omega
        rw [if_neg h13]
        by_cases h10 : c = 10
        · rw [if_pos h10]
          subst h10
          refine ⟨⟨?_, ?_, ?_⟩, cs', hcs'⟩
          · show s.pos.total + 1 + lineBreaks bs = t
            rw [lineBreaks] at ht; omega
          · show s.pos.page + formFeeds bs = p
            rw [← hp]; simp [formFeeds]
          · show (if 12 ∈ bs then _ else s.pos.line + 1 + lineBreaks bs) = l
            rw [← hl]
            by_cases hm : 12 ∈ bs
            · simp [hm, lastPage]
            · simp [hm, lineBreaks]; omega
        rw [if_neg h10]
        have hlb := lineBreaks_other bs h13 h10
        by_cases h12 : c = 12
        · rw [if_pos h12]
          subst h12
          refine ⟨⟨?_, ?_, ?_⟩, cs', hcs'⟩
          · show s.pos.total + lineBreaks bs = t
            rw [hlb] at ht; exact ht
          · show s.pos.page + 1 + formFeeds bs = p
            rw [← hp]; simp [formFeeds]; omega
          · show (if 12 ∈ bs then _ else 1 + lineBreaks bs) = l
            rw [← hl]
            by_cases hm : 12 ∈ bs
            · simp [hm, lastPage]
            · simp [hm, lastPage]
        rw [if_neg h12]
        have hgoal : Lines p l t { s with inp := bs } := by
          refine ⟨?_, ?_, ?_⟩
          · show s.pos.total + lineBreaks bs = t
            rw [hlb] at ht; exact ht
          · show s.pos.page + formFeeds bs = p
            rw [← hp]; simp [formFeeds, h12]
          · show (if 12 ∈ bs then _ else s.pos.line + lineBreaks bs) = l
            rw [← hl]
            by_cases hm : 12 ∈ bs
            · simp [hm, lastPage]
            · simp [hm, hlb, Ne.symm h12]
        split
        · exact ⟨hgoal, cs', hcs'⟩
        · exact ⟨hgoal, cs', hcs'⟩
      · have hend : endOfLine c { s with inp := bs } = (c, { s with inp := bs }) := by
          unfold endOfLine
          rw [if_neg (by omega), if_neg (by omega), if_neg (by omega), if_neg (by omega)]
        rw [hend]
        have hge : ∀ x ∈ a :: fs, x ≥ 0x80 := by
          intro x hx
          rcases List.mem_cons.1 hx with rfl | hx
          · omega
          · have := hf x hx
            simp [isFollow] at this
            omega
        obtain ⟨e1, e2, e3, e4⟩ := lineBreaks_skip (a :: fs) bs hge
        refine ⟨⟨?_, ?_, ?_⟩, cs', hcs'⟩
        · rw [e1] at ht; exact ht
        · rw [e2] at hp; exact hp
        · show (if 12 ∈ bs then _ else s.pos.line + lineBreaks bs) = l
          rw [← hl]
          by_cases hm : 12 ∈ bs
          · rw [if_pos hm, if_pos (e3.2 hm), e4 hm]
          · rw [if_neg hm, if_neg (fun h => hm (e3.1 h)), e1]

theorem Reach.lines {s0 s : LS} {p l t : Nat} (h : Reach s0 s) (h0 : Lines p l t s0)
    (hc : ∃ cs, Utf8 cs s0.inp) : Lines p l t s ∧ ∃ cs, Utf8 cs s.inp := by
  induction h with
  | refl => exact ⟨h0, hc⟩
  | getc _ ih => exact getc_lines ih.2 ih.1
  | @unget s t c _ _ _ _ ih _ =>
    unfold ungetc
    repeat' split
    all_goals exact ⟨⟨ih.1.total, ih.1.page, ih.1.line⟩, ih.2⟩
  | report _ _ ih => exact ⟨⟨ih.1.total, ih.1.page, ih.1.line⟩, ih.2⟩
  | start _ ih => exact ⟨⟨ih.1.total, ih.1.page, ih.1.line⟩, ih.2⟩
  | badStart _ _ _ ih _ => exact ⟨⟨ih.1.total, ih.1.page, ih.1.line⟩, ih.2⟩
  | undef _ _ ih => exact ⟨⟨ih.1.total, ih.1.page, ih.1.line⟩, ih.2⟩

/-- C06: whatever the tokens of a well formed text, once it was all read the counters are 1 plus the
number of line ends of the text, of form feeds, and of line ends of the last page. -/
theorem C06_at_end (cs : List Nat) (inp : Str) (h : Utf8 cs inp) (n : Nat)
    (hi : (after n (init inp)).inp = []) :
    (after n (init inp)).pos.total = 1 + lineBreaks inp ∧
    (after n (init inp)).pos.page = 1 + formFeeds inp ∧
    (after n (init inp)).pos.line = 1 + lineBreaks (lastPage inp) := by
  have hlp : 12 ∉ inp → lastPage inp = inp := by
    intro hm
    cases inp with
    | nil => rfl
    | cons a t =>
      rw [lastPage, if_neg (fun h => hm (List.mem_cons_of_mem _ h)),
        if_neg (fun h => hm (by rw [h]; simp))]
  have h0 : Lines (1 + formFeeds inp) (1 + lineBreaks (lastPage inp)) (1 + lineBreaks inp)
      (init inp) := by
    refine ⟨rfl, rfl, ?_⟩
    show (if 12 ∈ inp then 1 + lineBreaks (lastPage inp) else 1 + lineBreaks inp) = _
    by_cases hm : 12 ∈ inp
    · rw [if_pos hm]
    · rw [if_neg hm, hlp hm]
  obtain ⟨⟨h1, h2, h3⟩, _⟩ := (after_res inp n).reach.lines h0 ⟨cs, h⟩
  rw [hi] at h1 h2 h3
  simp [lineBreaks, formFeeds] at h1 h2 h3
  exact ⟨h1, h2, h3⟩

/-- C06: at any time, the counters account for the text read from the stream so far. -/
theorem C06_so_far (cs : List Nat) (inp : Str) (h : Utf8 cs inp) (n : Nat) :
    (after n (init inp)).pos.total + lineBreaks (after n (init inp)).inp = 1 + lineBreaks inp ∧
    (after n (init inp)).pos.page + formFeeds (after n (init inp)).inp = 1 + formFeeds inp := by
  have h0 : Lines (1 + formFeeds inp) (if 12 ∈ inp then 1 + lineBreaks (lastPage inp) else
      1 + lineBreaks inp) (1 + lineBreaks inp) (init inp) := ⟨rfl, rfl, rfl⟩
  obtain ⟨⟨h1, h2, _⟩, _⟩ := (after_res inp n).reach.lines h0 ⟨cs, h⟩
  exact ⟨h1, h2⟩

theorem endOfLine_pos (c : Nat) (s : LS) : s.pos.total ≤ (endOfLine c s).2.pos.total ∧
    s.pos.page ≤ (endOfLine c s).2.pos.page := by
  unfold endOfLine
  repeat' split
  all_goals simp [Pos.nextLine, Pos.nextPage]

theorem getc_pos (s : LS) : s.pos.total ≤ (getc s).2.pos.total ∧ s.pos.page ≤ (getc s).2.pos.page := by
  unfold getc
  split
  · exact ⟨Nat.le_refl _, Nat.le_refl _⟩
  · split
    · exact ⟨Nat.le_refl _, Nat.le_refl _⟩
    · dsimp only
      split
      · unfold getHigh
        dsimp only
        split
        · split
          · exact ⟨Nat.le_refl _, Nat.le_refl _⟩
          · refine ⟨Nat.le_trans ?_ (endOfLine_pos _ _).1, Nat.le_trans ?_ (endOfLine_pos _ _).2⟩
            · cases (mbtowc _).2 <;> exact Nat.le_refl _
            · cases (mbtowc _).2 <;> exact Nat.le_refl _
        · exact ⟨Nat.le_refl _, Nat.le_refl _⟩
      · rename_i b rest _ _
        exact endOfLine_pos b { s with inp := rest }

theorem Reach.pos {s0 s : LS} (h : Reach s0 s) :
    s0.pos.total ≤ s.pos.total ∧ s0.pos.page ≤ s.pos.page := by
  induction h with
  | refl => exact ⟨Nat.le_refl _, Nat.le_refl _⟩
  | @getc s _ ih =>
    exact ⟨Nat.le_trans ih.1 (getc_pos s).1, Nat.le_trans ih.2 (getc_pos s).2⟩
  | @unget s t c _ _ _ _ ih _ =>
    unfold ungetc
    repeat' split
    all_goals exact ih
  | report _ _ ih => exact ih
  | start _ ih => exact ih
  | badStart _ _ _ ih _ => exact ih
  | undef _ _ ih => exact ih

/-- C06: on any stream, the position only moves forward. -/
theorem C06_forward (inp : Str) (n m : Nat) :
    (after n (init inp)).pos.total ≤ (after (n + m) (init inp)).pos.total ∧
    (after n (init inp)).pos.page ≤ (after (n + m) (init inp)).pos.page := by
  induction m with
  | zero => exact ⟨Nat.le_refl _, Nat.le_refl _⟩
  | succ m ih =>
    have h := after_res inp (n + m)
    have hs : Res (after (n + m) (init inp)) 3 (after (n + m) (init inp)).rem
        (after (n + m) (init inp)) := ⟨.refl, h.un, Nat.le_refl _⟩
    have h1 := (nextToken_res hs (t := token (n + m) (init inp))
      (s' := after (n + m + 1) (init inp)) rfl).1.reach.pos
    exact ⟨Nat.le_trans ih.1 h1.1, Nat.le_trans ih.2 h1.2⟩

/-- C06 with an overlong line feed (ill formed UTF-8): the lexer counts a line the text does not
have. -/
theorem C06_overlong : (after 2 (init [0xC0, 0x8A])).pos.total = 2 ∧ lineBreaks [0xC0, 0x8A] = 0 := by
  decide +kernel

example : (after 5 (init [97, 13, 10, 98, 12, 10, 99])).inp = [] ∧
    (after 5 (init [97, 13, 10, 98, 12, 10, 99])).pos = ⟨2, 2, 3⟩ := by decide +kernel

end Csspp.Lex
