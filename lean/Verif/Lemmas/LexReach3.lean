import Verif.Lemmas.LexReach2

/-! Continued: the other tokens and next_token(). -/

namespace Csspp.Lex
open Csspp.Utf8

theorem hashLoop_res {s0 : LS} : ∀ (f : Nat) (str : Str) (s : LS) (R : Nat), R < f → Res s0 2 R s →
    Res s0 2 R (hashLoop f str s).2 := by
  intro f
  induction f with
  | zero => intro _ _ _ h; omega
  | succ f ih =>
    intro str s R hf h
    unfold hashLoop
    rcases hg : getc s with ⟨c, s1⟩
    have hG := getc_res h hg
    dsimp only
    have step : ∀ (d : Nat) (s2 : LS), c ≠ eof → Res s0 1 (R - 1) s2 →
        Res s0 2 R (match put d str s2 with | (str, s) => hashLoop f str s).2 := by
      intro d s2 hne h2
      have h1R := (hG.dec hne).2
      rcases hp : put d str s2 with ⟨u, s3⟩
      exact (ih _ _ (R - 1) (by omega) ((h2.put hp).mono (by omega) (Nat.le_refl _))).mono
        (Nat.le_refl _) (by omega)
    by_cases h92 : c = 92
    · rw [if_pos h92]
      have hne : c ≠ eof := by rw [h92]; decide
      rcases he : escape s1 with ⟨d, s2⟩
      have h2 := escape_res (by omega) (by omega) (hG.dec hne).1 he
      dsimp only
      split
      · exact h2.mono (by omega) (by omega)
      · exact step d s2 hne h2
    · rw [if_neg h92]
      split
      · rename_i hi
        exact step c s1 (isHashCharacter_ne hi) (hG.dec (isHashCharacter_ne hi)).1
      · exact hG.unget (by omega)

theorem hash_res {s0 s : LS} {R : Nat} (h : Res s0 2 R s) : Res s0 2 R (hash s).2 := by
  unfold hash
  have h1 := (hashLoop_res _ [] s _ (fuel_lt s) h.self).mono (Nat.le_refl _) h.rem
  rcases hl : hashLoop s.fuel [] s with ⟨str, s1⟩
  rw [hl] at h1
  unfold hashEnd
  dsimp only
  split
  · exact h1.report _
  · exact h1

theorem skipLead_res {s0 : LS} (p : Nat → Bool) (hp : ∀ c, p c = true → c ≠ eof) :
    ∀ (f : Nat) (s : LS) (R : Nat), R < f → Res s0 2 R s → Res s0 2 R (skipLead p f s) := by
  intro f
  induction f with
  | zero => intro _ _ h; omega
  | succ f ih =>
    intro s R hf h
    unfold skipLead
    rcases hg : getc s with ⟨c, s1⟩
    have hG := getc_res h hg
    dsimp only
    split
    · rename_i hi
      have hd := hG.dec (hp c hi)
      exact (ih _ (R - 1) (by omega) (hd.1.mono (by omega) (Nat.le_refl _))).mono
        (Nat.le_refl _) (by omega)
    · exact hG.unget (by omega)

theorem cLoop_res {s0 : LS} : ∀ (f : Nat) (str : Str) (s : LS) (R : Nat), R < f → Res s0 2 R s →
    Res s0 2 R (cLoop f str s).2 := by
  intro f
  induction f with
  | zero => intro _ _ _ h; omega
  | succ f ih =>
    intro str s R hf h
    unfold cLoop
    rcases hg : getc s with ⟨c, s1⟩
    have hG := getc_res h hg
    have hG' := hG.res.mono (show 2 - 1 ≤ 2 by omega) (Nat.le_refl _)
    dsimp only
    by_cases hc : c = eof
    · rw [if_pos hc]; exact hG'.report _
    rw [if_neg hc]
    have hd := hG.dec hc
    have step : ∀ (d : Nat) (s2 : LS), Res s0 2 (R - 1) s2 →
        Res s0 2 R (match put d str s2 with | (str, s) => cLoop f str s).2 := by
      intro d s2 h2
      rcases hp : put d str s2 with ⟨u, s3⟩
      exact (ih _ _ (R - 1) (by omega) (h2.put hp)).mono (Nat.le_refl _) (by omega)
    by_cases h42 : c = 42
    · rw [if_pos h42]
      rcases hg2 : getc s1 with ⟨d, s2⟩
      have hG2 := getc_res hd.1 hg2
      dsimp only
      split
      · exact hG2.res.mono (by omega) (by omega)
      · exact step 42 _ ((hG2.unget (by omega)).mono (by omega) (Nat.le_refl _))
    · rw [if_neg h42]
      exact step c s1 (hd.1.mono (by omega) (Nat.le_refl _))

theorem skipOne_res {s0 s : LS} {R : Nat} (h : Res s0 2 R s) : Res s0 2 R (skipOne s) := by
  unfold skipOne
  rcases hg : getc s with ⟨c, s1⟩
  have hG := getc_res h hg
  dsimp only
  split
  · exact hG.res.mono (by omega) (Nat.le_refl _)
  · exact hG.unget (by omega)

theorem lineLoop_res {s0 : LS} : ∀ (f : Nat) (str : Str) (s : LS) (R : Nat), R < f → Res s0 2 R s →
    Res s0 3 R (lineLoop f str s).2 := by
  intro f
  induction f with
  | zero => intro _ _ _ h; omega
  | succ f ih =>
    intro str s R hf h
    unfold lineLoop
    rcases hg : getc s with ⟨c, s1⟩
    have hG := getc_res h hg
    dsimp only
    by_cases hc : c = eof
    · rw [if_pos hc]; exact hG.res.mono (by omega) (Nat.le_refl _)
    rw [if_neg hc]
    have hd := hG.dec hc
    by_cases h10 : c = 10
    · rw [if_pos h10]
      rcases hg2 : getc s1 with ⟨d, s2⟩
      have hG2 := getc_res hd.1 hg2
      dsimp only
      have fin : ∀ s3 : LS, Res s0 2 (R - 1) s3 → Res s0 3 R (ungetc 10 s3) := by
        intro s3 h3
        have : Got s0 2 R 10 s3 := ⟨.inl (by omega), h3.mono (Nat.le_refl _) (by omega), fun _ => by
          have := h3.rem; omega⟩
        exact this.unget (by omega)
      by_cases h47 : d = 47
      · rw [if_pos h47]
        have hne : d ≠ eof := by rw [h47]; decide
        have hd2 := hG2.dec hne
        rcases hg3 : getc s2 with ⟨e, s3⟩
        have hG3 := getc_res hd2.1 hg3
        dsimp only
        split
        · have h4 : Res s0 2 (R - 1 - 1) (skipOne s3) :=
            skipOne_res (hG3.res.mono (by omega) (Nat.le_refl _))
          exact (ih _ _ (R - 1 - 1) (by omega) h4).mono (Nat.le_refl _) (by omega)
        · have h4 := hG3.unget (by omega)
          have h5 : Got s0 1 (R - 1) 47 (ungetc e s3) := by
            rw [← h47]
            exact hG2.keep (h4.mono (by omega) (Nat.le_refl _)) hne
          exact fin _ (h5.unget (by omega))
      · rw [if_neg h47]
        exact fin _ ((hG2.unget (by omega)).mono (by omega) (Nat.le_refl _))
    · rw [if_neg h10]
      rcases hp : put c str s1 with ⟨u, s3⟩
      exact (ih _ _ (R - 1) (by omega) ((hd.1.put hp).mono (by omega) (Nat.le_refl _))).mono
        (Nat.le_refl _) (by omega)

theorem commentEnd_snd (b : Bool) (r : Str × LS) : (commentEnd b r).2 = r.2 := by
  rcases r with ⟨str, s⟩
  unfold commentEnd
  dsimp only
  split <;> rfl

theorem cComment_res {s0 s : LS} {R : Nat} (h : Res s0 2 R s) : Res s0 2 R (cComment s).2 := by
  unfold cComment
  dsimp only
  rw [commentEnd_snd]
  have h1 := (skipLead_res isSpace (fun c hc => isSpace_ne hc) _ s _ (fuel_lt s) h.self).mono
    (Nat.le_refl _) h.rem
  exact (cLoop_res _ [] _ _ (fuel_lt _) h1.self).mono (Nat.le_refl _) h1.rem

theorem lineComment_res {s0 s : LS} {R : Nat} (h : Res s0 2 R s) : Res s0 3 R (lineComment s).2 := by
  unfold lineComment
  dsimp only
  rw [commentEnd_snd]
  have h1 := (skipLead_res (fun c => c == 32 || c == 9)
    (by intro c hc; rintro rfl; revert hc; decide) _ s _ (fuel_lt s) h.self).mono
    (Nat.le_refl _) h.rem
  exact (lineLoop_res _ [] _ _ (fuel_lt _) h1.self).mono (Nat.le_refl _) h1.rem

theorem rangeLoop_res {s0 : LS} {R : Nat} : ∀ (n st en : Nat) (m : Bool) (d : Nat) (s : LS),
    Got s0 1 R d s → ∀ st' en' m' d' s', rangeLoop n st en m d s = (st', en', m', d', s') →
    Got s0 1 R d' s' := by
  intro n
  induction n with
  | zero => intro st en m d s h st' en' m' d' s' heq; cases heq; exact h
  | succ n ih =>
    intro st en m d s h st' en' m' d' s' heq
    unfold rangeLoop at heq
    rcases hg : getc s with ⟨x, s1⟩
    rw [hg] at heq
    have hG := (getc_res h.res hg).mono (show 1 - 1 ≤ 1 by omega) (Nat.le_refl _)
    dsimp only at heq
    split at heq
    · exact ih _ _ _ _ _ hG _ _ _ _ _ heq
    · split at heq
      · exact ih _ _ _ _ _ hG _ _ _ _ _ heq
      · cases heq; exact h

theorem rangeEnd_res {s0 : LS} {R : Nat} : ∀ (n en d : Nat) (s : LS), Got s0 1 R d s →
    ∀ en' d' s', rangeEnd n en d s = (en', d', s') → Got s0 1 R d' s' := by
  intro n
  induction n with
  | zero => intro en d s h en' d' s' heq; cases heq; exact h
  | succ n ih =>
    intro en d s h en' d' s' heq
    unfold rangeEnd at heq
    rcases hg : getc s with ⟨x, s1⟩
    rw [hg] at heq
    have hG := (getc_res h.res hg).mono (show 1 - 1 ≤ 1 by omega) (Nat.le_refl _)
    dsimp only at heq
    split at heq
    · exact ih _ _ _ hG _ _ _ heq
    · cases heq; exact h

theorem rangeTok_res {s0 s : LS} {R d : Nat} (st en : Nat) (h : Got s0 1 R d s) :
    Res s0 2 R (rangeTok st en d s).2 := by
  unfold rangeTok
  split
  · exact (h.res.mono (by omega) (Nat.le_refl _)).report _
  · exact h.unget (by omega)

theorem rangePlain_res {s0 s : LS} {R d : Nat} (st en : Nat) (h : Got s0 1 R d s) :
    Res s0 2 R (rangePlain st en d s).2 := by
  unfold rangePlain
  split
  · exact (h.res.mono (by omega) (Nat.le_refl _)).report _
  · exact rangeTok_res st en h

theorem unicodeRange_res {s0 s : LS} {R d : Nat} (h : Got s0 1 R d s) :
    Res s0 2 R (unicodeRange d s).2 := by
  unfold unicodeRange
  rcases hl : rangeLoop 6 0 0 false d s with ⟨st, en, m, d1, s1⟩
  have h1 := rangeLoop_res _ _ _ _ _ _ h _ _ _ _ _ hl
  cases m with
  | true =>
    unfold rangeRest
    dsimp only
    split
    · exact rangeTok_res _ _ ⟨h1.chr, h1.res.report _, h1.lt⟩
    · exact rangeTok_res _ _ h1
  | false =>
    unfold rangeRest
    dsimp only
    split
    · rcases hg : getc s1 with ⟨x, s2⟩
      have hG := (getc_res h1.res hg).mono (show 1 - 1 ≤ 1 by omega) (Nat.le_refl _)
      dsimp only
      rcases he : rangeEnd 6 en x s2 with ⟨en2, d2, s3⟩
      exact rangePlain_res _ _ (rangeEnd_res _ _ _ _ hG _ _ _ he)
    · exact rangePlain_res _ _ h1

theorem varLoop_res {s0 : LS} : ∀ (f : Nat) (var : Str) (c : Nat) (s : LS) (R : Nat), R < f →
    Res s0 1 R s → ∀ v d s', varLoop f var c s = (v, d, s') → Got s0 1 R d s' := by
  intro f
  induction f with
  | zero => intro _ _ _ _ h; omega
  | succ f ih =>
    intro var c s R hf h v d s' heq
    unfold varLoop at heq
    rcases hp : put (toLower (if c = 45 then 95 else c)) var s with ⟨u, s1⟩
    rw [hp] at heq
    dsimp only at heq
    rcases hg : getc s1 with ⟨x, s2⟩
    rw [hg] at heq
    dsimp only at heq
    have hG := (getc_res (h.put hp) hg).mono (show 1 - 1 ≤ 1 by omega) (Nat.le_refl _)
    by_cases hv : isVariable x = true
    · rw [if_pos hv] at heq
      have hd := hG.dec (isVariable_ne hv)
      exact (ih _ _ _ (R - 1) (by omega) hd.1 _ _ _ heq).mono (Nat.le_refl _) (by omega)
    · rw [if_neg hv] at heq
      cases heq
      exact hG

theorem variable_res {s0 s : LS} {R : Nat} (c : Nat) (h : Res s0 1 R s) :
    Res s0 2 R (variable' c s).2 := by
  unfold variable'
  rcases hl : varLoop (s.fuel + 1) [] c s with ⟨v, d, s1⟩
  have h1 := (varLoop_res _ _ _ _ _ (by unfold LS.fuel; omega) h.self _ _ _ hl).mono (Nat.le_refl _) h.rem
  unfold varEnd
  dsimp only
  split
  · exact h1.res.mono (by omega) (Nat.le_refl _)
  · exact h1.unget (by omega)

/-! ### next_token() -/

theorem lexOp_res {s0 s : LS} {R : Nat} (c : Nat) (a : Option NT) (h : Res s0 2 R s) :
    Res s0 3 R (lexOp c a s).2 := by
  unfold lexOp
  rcases hg : getc s with ⟨n, s1⟩
  have hG := getc_res h hg
  dsimp only
  split
  · exact (hG.res.reportIf _ _).mono (by omega) (Nat.le_refl _)
  · split
    · exact (hG.unget (by omega)).mono (by omega) (Nat.le_refl _)
    · exact ((hG.unget (by omega)).report _).mono (by omega) (Nat.le_refl _)

theorem lexPeriod_res {s0 s : LS} {R : Nat} (h : Res s0 2 R s) : Res s0 3 R (lexPeriod s).2 := by
  unfold lexPeriod
  rcases hg : getc s with ⟨n, s1⟩
  have hG := getc_res h hg
  dsimp only
  split
  · exact number_res (hG.unget (by omega)) (.inr (.inr (.inr rfl)))
  · exact (hG.unget (by omega)).mono (by omega) (Nat.le_refl _)

theorem lexLess_res {s0 s : LS} {R : Nat} (h : Res s0 2 R s) : Res s0 3 R (lexLess s).2 := by
  unfold lexLess
  rcases hg : getc s with ⟨n, s1⟩
  have hG := getc_res h hg
  dsimp only
  by_cases h33 : n = 33
  · rw [if_pos h33]
    have hne : n ≠ eof := by rw [h33]; decide
    have hd := hG.dec hne
    rcases hg2 : getc s1 with ⟨p, s2⟩
    have hG2 := getc_res hd.1 hg2
    dsimp only
    have last : ∀ s3, Res s0 2 (R - 1) s3 → Res s0 3 R (ungetc n s3) := fun s3 h3 =>
      (hG.keep h3 hne).unget (by omega)
    by_cases h45 : p = 45
    · rw [if_pos h45]
      have hne2 : p ≠ eof := by rw [h45]; decide
      have hd2 := hG2.dec hne2
      rcases hg3 : getc s2 with ⟨l, s3⟩
      have hG3 := getc_res hd2.1 hg3
      dsimp only
      split
      · exact hG3.res.mono (by omega) (by omega)
      · have h4 : Got s0 1 (R - 1) p (ungetc l s3) :=
          hG2.keep ((hG3.unget (by omega)).mono (by omega) (Nat.le_refl _)) hne2
        exact last _ (h4.unget (by omega))
    · rw [if_neg h45]
      exact last _ ((hG2.unget (by omega)).mono (by omega) (Nat.le_refl _))
  · rw [if_neg h33]
    split
    · exact hG.res.mono (by omega) (Nat.le_refl _)
    · exact (hG.unget (by omega)).mono (by omega) (Nat.le_refl _)

theorem isStart_of_ident {n : Nat} (h : isIdentifier n = true) (hd : ¬ isDigit n = true)
    (h45 : n ≠ 45) (hf : n ≠ 0xFFFD) : isStartIdentifier n = true := by
  unfold isIdentifier isVariable isDigit at h
  unfold isDigit at hd
  unfold isStartIdentifier
  unfold isAlpha at *
  simp only [Bool.or_eq_true, Bool.and_eq_true, decide_eq_true_eq, beq_iff_eq, bne_iff_ne] at *
  omega

theorem isIdentifier_ne_zero {n : Nat} (h : isIdentifier n = true) : n ≠ 0 := by
  rintro rfl; revert h; decide

theorem lexSign_res {s0 s : LS} {R c n : Nat} (hc : c = 43 ∨ c = 45) (h : Got s0 1 R n s)
    (hF : n = 0xFFFD → ∃ t, Reach s0 t ∧ (getc t).1 = 0xFFFD) :
    Res s0 3 R (lexSign c n s).2 := by
  unfold lexSign
  by_cases h43 : c = 43
  · rw [if_pos h43]; exact (h.unget (by omega)).mono (by omega) (Nat.le_refl _)
  rw [if_neg h43]
  by_cases h45 : n = 45
  · rw [if_pos h45]
    have hne : n ≠ eof := by rw [h45]; decide
    have hd := h.dec hne
    rcases hg : getc s with ⟨p, s1⟩
    have hG := getc_res hd.1 hg
    dsimp only
    split
    · exact hG.res.mono (by omega) (by omega)
    · exact (h.keep (hG.unget (by omega)) hne).unget (by omega) |>.mono (by omega) (Nat.le_refl _)
  rw [if_neg h45]
  by_cases hi : (isIdentifier n = true ∨ n = 92) ∧ ¬ isDigit n = true
  · rw [if_pos hi]
    have hu := h.unget (show 1 ≤ 3 by omega)
    refine (identifier_plain_res hu (.inr (.inr ⟨hc.resolve_left h43, ?_⟩))).mono (by omega) (Nat.le_refl _)
    have hl := h.res.un
    rcases hi with ⟨hi | hi, hnd⟩
    · by_cases hf : n = 0xFFFD
      · -- the invalid character was read
        exact .inr (.inr (.inr (hF hf)))
      · rcases getc_ungetc' (isIdentifier_ne_zero hi) hf (isIdentifier_ne hi)
          (show s.un.length < 16 by omega) with hg | hx
        · rw [hg]; exact .inr (.inl (isStart_of_ident hi hnd h45 hf))
        · right; right; left
          rw [getc_exn]; exact hx
    · left
      rw [hi, getc_ungetc (by omega) (by omega) (by omega) (by omega)]
  · rw [if_neg hi]
    exact (h.unget (by omega)).mono (by omega) (Nat.le_refl _)

theorem lexPlusMinus_res {s0 s : LS} {R c : Nat} (hc : c = 43 ∨ c = 45) (h : Res s0 2 R s) :
    Res s0 3 R (lexPlusMinus c s).2 := by
  unfold lexPlusMinus
  rcases hg : getc s with ⟨n, s1⟩
  have hG := getc_res h hg
  have hF : n = 0xFFFD → ∃ t, Reach s0 t ∧ (getc t).1 = 0xFFFD :=
    fun hn => ⟨s, h.reach, by rw [hg]; exact hn⟩
  have hcc : isDigit c = true ∨ c = 45 ∨ c = 43 ∨ c = 46 :=
    hc.elim (fun h => .inr (.inr (.inl h))) (fun h => .inr (.inl h))
  dsimp only
  split
  · exact number_res (hG.unget (by omega)) hcc
  · by_cases h46 : n = 46
    · rw [if_pos h46]
      have hne : n ≠ eof := by rw [h46]; decide
      have hd := hG.dec hne
      rcases hg2 : getc s1 with ⟨p, s2⟩
      have hG2 := getc_res hd.1 hg2
      have hk := hG.keep ((hG2.unget (by omega)).mono (show 1 - 1 + 1 ≤ 1 by omega)
        (Nat.le_refl _)) hne
      dsimp only
      split
      · exact number_res (hk.unget (by omega)) hcc
      · exact lexSign_res hc hk hF
    · rw [if_neg h46]
      exact lexSign_res hc hG hF

theorem lexDollar_res {s0 s : LS} {R : Nat} (h : Res s0 2 R s) : Res s0 3 R (lexDollar s).2 := by
  unfold lexDollar
  rcases hg : getc s with ⟨n, s1⟩
  have hG := getc_res h hg
  dsimp only
  split
  · exact hG.res.mono (by omega) (Nat.le_refl _)
  · split
    · exact (variable_res n hG.res).mono (by omega) (Nat.le_refl _)
    · exact (hG.unget (by omega)).mono (by omega) (Nat.le_refl _)

theorem lexSlash_res {s0 s : LS} {R : Nat} (h : Res s0 2 R s) : Res s0 3 R (lexSlash s).2 := by
  unfold lexSlash
  rcases hg : getc s with ⟨n, s1⟩
  have hG := getc_res h hg
  have hG' := hG.res.mono (show 2 - 1 ≤ 2 by omega) (Nat.le_refl _)
  dsimp only
  split
  · exact (cComment_res hG').mono (by omega) (Nat.le_refl _)
  · split
    · have h1 := lineComment_res hG'
      rcases hl : lineComment s1 with ⟨_ | t, s2⟩
      · rw [hl] at h1; exact h1
      · rw [hl] at h1; exact h1.report _
    · exact (hG.unget (by omega)).mono (by omega) (Nat.le_refl _)

theorem lexSpaces_res {s0 s : LS} {R : Nat} (h : Res s0 2 R s) : Res s0 3 R (lexSpaces s).2 := by
  unfold lexSpaces
  exact (skipLead_res isSpace (fun c hc => isSpace_ne hc) _ s _ (fuel_lt s) h.self).mono
    (by omega) h.rem

theorem lexId_snd (c : Nat) (s : LS) : (lexId c s).2 = (identifier c s).2 := by
  unfold lexId
  rcases identifier c s with ⟨t, s1⟩
  dsimp only
  split <;> rfl

theorem isStart_ne_zero {n : Nat} (h : isStartIdentifier n = true) : n ≠ 0 ∧ n ≠ 0xFFFD := by
  constructor <;> rintro rfl <;> revert h <;> decide

theorem lexPercent_res {s0 s : LS} {R : Nat} (h : Res s0 2 R s) : Res s0 3 R (lexPercent s).2 := by
  unfold lexPercent
  rcases hg : getc s with ⟨n, s1⟩
  have hG := getc_res h hg
  dsimp only
  split
  · rename_i hst
    rw [lexId_snd]
    refine (identifier_percent_res (hG.unget (by omega)) ?_).mono (by omega) (Nat.le_refl _)
    have hl := hG.res.un
    rcases getc_ungetc' (isStart_ne_zero hst).1 (isStart_ne_zero hst).2 (isStartIdentifier_ne hst)
      (show s1.un.length < 16 by omega) with hx | hx
    · left; rw [hx]; exact hst
    · exact .inr hx
  · exact hG.res.mono (by omega) (Nat.le_refl _)

theorem lexU_res {s0 s : LS} {R c : Nat} (hc : c = 117 ∨ c = 85) (h : Res s0 2 R s) :
    Res s0 3 R (lexU c s).2 := by
  have hst : isStartIdentifier c = true := by rcases hc with rfl | rfl <;> decide
  unfold lexU
  rcases hg : getc s with ⟨n, s1⟩
  have hG := getc_res h hg
  dsimp only
  by_cases h43 : n = 43
  · rw [if_pos h43]
    have hne : n ≠ eof := by rw [h43]; decide
    have hd := hG.dec hne
    rcases hg2 : getc s1 with ⟨d, s2⟩
    have hG2 := getc_res hd.1 hg2
    dsimp only
    split
    · exact (unicodeRange_res (hG2.mono (by omega) (Nat.le_refl _))).mono (by omega) (by omega)
    · have hk := hG.keep ((hG2.unget (by omega)).mono (show 1 - 1 + 1 ≤ 1 by omega) (Nat.le_refl _)) hne
      exact (identifier_plain_res (hk.unget (by omega)) (.inr (.inl hst))).mono (by omega)
        (Nat.le_refl _)
  · rw [if_neg h43]
    exact (identifier_plain_res (hG.unget (by omega)) (.inr (.inl hst))).mono (by omega)
      (Nat.le_refl _)

theorem lexQuote_res {s0 s : LS} {R : Nat} (c : Nat) (h : Res s0 2 R s) :
    Res s0 3 R (lexQuote c s).2 := by
  unfold lexQuote
  have h1 := lexString_res c _ [] s _ (fuel_lt s) h.self
  rcases hl : lexString c s.fuel [] s with ⟨str, s1⟩
  rw [hl] at h1
  exact h1.mono (by omega) h.rem

theorem lexOther_res {s0 s : LS} {R : Nat} (c : Nat) (h : Res s0 2 R s) :
    Res s0 3 R (lexOther c s).2 := by
  unfold lexOther
  by_cases h1 : c = 46
  · rw [if_pos h1]; exact lexPeriod_res h
  rw [if_neg h1]; clear h1
  by_cases h1 : c = 60
  · rw [if_pos h1]; exact lexLess_res h
  rw [if_neg h1]; clear h1
  by_cases h1 : c = 43 ∨ c = 45
  · rw [if_pos h1]; exact lexPlusMinus_res h1 h
  rw [if_neg h1]; clear h1
  by_cases h1 : c = 36
  · rw [if_pos h1]; exact lexDollar_res h
  rw [if_neg h1]; clear h1
  by_cases h1 : c = 34 ∨ c = 39
  · rw [if_pos h1]; exact lexQuote_res c h
  rw [if_neg h1]; clear h1
  by_cases h1 : c = 47
  · rw [if_pos h1]; exact lexSlash_res h
  rw [if_neg h1]; clear h1
  by_cases h1 : isSpace c = true ∨ c = 12
  · rw [if_pos h1]; exact lexSpaces_res h
  rw [if_neg h1]; clear h1
  by_cases h1 : isDigit c = true
  · rw [if_pos h1]; exact number_res h (.inl h1)
  rw [if_neg h1]; clear h1
  by_cases h1 : c = 35
  · rw [if_pos h1]; exact (hash_res h).mono (by omega) (Nat.le_refl _)
  rw [if_neg h1]; clear h1
  by_cases h1 : c = 37
  · rw [if_pos h1]; exact lexPercent_res h
  rw [if_neg h1]; clear h1
  by_cases h1 : c = 92 ∨ c = 64
  · rw [if_pos h1, lexId_snd]
    refine Res.mono ?_ (show 2 ≤ 3 by omega) (Nat.le_refl _)
    rcases h1 with rfl | rfl
    · exact identifier_plain_res h (.inl rfl)
    · exact identifier_at_res h
  rw [if_neg h1]; clear h1
  by_cases h1 : c = 117 ∨ c = 85
  · rw [if_pos h1]; exact lexU_res h1 h
  rw [if_neg h1]; clear h1
  by_cases h1 : isStartIdentifier c = true
  · rw [if_pos h1]
    exact (identifier_plain_res h (.inr (.inl h1))).mono (by omega) (Nat.le_refl _)
  rw [if_neg h1]
  exact (h.report _).mono (by omega) (Nat.le_refl _)

theorem lexChar_res {s0 s : LS} {R : Nat} (c : Nat) (h : Res s0 2 R s) :
    Res s0 3 R (lexChar c s).2 := by
  have h3 : Res s0 3 R s := h.mono (by omega) (Nat.le_refl _)
  unfold lexChar
  split
  · exact h3
  · split
    · exact h3
    · split
      · exact lexOp_res c _ h
      · exact lexOther_res c h

/-- One iteration of next_token(): progress is made unless the end is reached. -/
theorem lexStep_res {s0 s : LS} {R : Nat} (h : Res s0 3 R s) {ot : Option Tok} {s' : LS}
    (heq : lexStep s = (ot, s')) :
    Res s0 3 R s' ∧ ((∃ t, ot = some t ∧ t.ty = .EOF_TOKEN ∧ s'.un = [] ∧ s'.inp = []) ∨
      s'.rem < R) := by
  unfold lexStep at heq
  rcases hg : getc { s with start := s.pos } with ⟨c, s1⟩
  rw [hg] at heq
  dsimp only at heq
  have hG := getc_res h.start hg
  by_cases hc : c = eof
  · have : lexChar c s1 = (some (s1.tok .EOF_TOKEN), s1) := by unfold lexChar; rw [if_pos hc]
    rw [this] at heq
    cases heq
    refine ⟨hG.res.mono (by omega) (Nat.le_refl _), ?_⟩
    have ha := getc_amount { s with start := s.pos }
    by_cases hr : s'.rem < R
    · exact .inr hr
    · left
      refine ⟨_, rfl, rfl, ?_⟩
      have h1 : s'.rem = ({ s with start := s.pos } : LS).rem := by
        have hle := ha.2.1
        rw [hg] at hle
        have := h.rem
        have hrr : ({ s with start := s.pos } : LS).rem = s.rem := rfl
        dsimp only at hle
        omega
      have h2 := ha.2.2.2.2 (by rw [hg]; exact h1)
      have h3 := ha.2.2.2.1 h2.1 h2.2
      rw [hg] at h3
      have h4 := (Prod.mk.inj h3).2
      rw [h4]
      exact h2
  · have hd := hG.dec hc
    have := lexChar_res c hd.1
    rw [heq] at this
    dsimp only at this
    exact ⟨this.mono (Nat.le_refl _) (by omega), .inr (by have := this.rem; omega)⟩

theorem lexLoop_res {s0 : LS} : ∀ (f : Nat) (s : LS) (R : Nat), R < f → Res s0 3 R s →
    ∀ t s', lexLoop f s = (t, s') → Res s0 3 R s' ∧
      ((t.ty = .EOF_TOKEN ∧ s'.un = [] ∧ s'.inp = []) ∨ s'.rem < R) := by
  intro f
  induction f with
  | zero => intro _ _ h; omega
  | succ f ih =>
    intro s R hf h t s' heq
    unfold lexLoop at heq
    rcases hl : lexStep s with ⟨_ | t1, s1⟩
    · rw [hl] at heq
      dsimp only at heq
      obtain ⟨h1, h2⟩ := lexStep_res h hl
      have hlt : s1.rem < R := by
        rcases h2 with ⟨t, ht, _⟩ | h2
        · cases ht
        · exact h2
      obtain ⟨h3, h4⟩ := ih s1 (R - 1) (by omega) ⟨h1.reach, h1.un, by omega⟩ _ _ heq
      refine ⟨h3.mono (Nat.le_refl _) (by omega), ?_⟩
      rcases h4 with h4 | h4
      · exact .inl h4
      · exact .inr (by omega)
    · rw [hl] at heq
      dsimp only at heq
      cases heq
      obtain ⟨h1, h2⟩ := lexStep_res h hl
      refine ⟨h1, ?_⟩
      rcases h2 with ⟨t2, ht, h2⟩ | h2
      · cases ht; exact .inl h2
      · exact .inr h2

/-- What one call to next_token() does. -/
theorem nextToken_res {s0 s s' : LS} {R : Nat} {t : Tok} (h : Res s0 3 R s)
    (heq : nextToken s = (t, s')) : Res s0 3 R s' ∧
      ((t.ty = .EOF_TOKEN ∧ s'.un = [] ∧ s'.inp = []) ∨ s'.rem < s.rem) := by
  obtain ⟨h1, h2⟩ := lexLoop_res _ s _ (fuel_lt s) h.self _ _ heq
  exact ⟨h1.mono (Nat.le_refl _) h.rem, h2⟩

end Csspp.Lex
