import Verif.Lemmas.LexReach

/-! Continued: identifiers, numbers. -/

namespace Csspp.Lex
open Csspp.Utf8

theorem getc_ungetc {c : Nat} {s : LS} (h0 : c ≠ 0) (h1 : c ≠ 0xFFFD) (h2 : c ≤ 0x10FFFF)
    (hl : s.un.length < 16) : getc (ungetc c s) = (c, s) := by
  unfold ungetc
  rw [if_neg (by unfold eof; omega), if_neg (by omega), if_neg (by omega)]
  unfold getc
  simp [h0]

theorem endOfLine_exn (c : Nat) (s : LS) : (endOfLine c s).2.exn = s.exn := by
  unfold endOfLine
  split
  · split <;> rfl
  · repeat' split
    all_goals rfl

theorem reportMb_exn (s : LS) (e : Option MbErr) : (s.reportMb e).exn = s.exn := by
  cases e <;> rfl

theorem getc_exn (s : LS) : (getc s).2.exn = s.exn := by
  unfold getc
  split
  · rfl
  · split
    · rfl
    · dsimp only
      split
      · unfold getHigh
        dsimp only
        split
        · split
          · rfl
          · rw [endOfLine_exn, reportMb_exn]
        · rfl
      · rw [endOfLine_exn]

/-- Pushing back then reading a character gives it back, unless an exception was thrown or the
character is invalid. -/
theorem getc_ungetc' {c : Nat} {s : LS} (h0 : c ≠ 0) (h1 : c ≠ 0xFFFD) (he : c ≠ eof)
    (hl : s.un.length < 16) :
    getc (ungetc c s) = (c, s) ∨ (ungetc c s).exn ≠ none := by
  by_cases h2 : c ≤ 0x10FFFF
  · exact .inl (getc_ungetc h0 h1 h2 hl)
  · right
    unfold ungetc
    rw [if_neg (by omega), if_pos (by omega)]
    simp [LS.throw]

/-! ### identifier() -/

theorem idLoop_res {s0 : LS} : ∀ (f : Nat) (id lo : Str) (s : LS) (R : Nat), R < f →
    Res s0 2 R s → ∀ i l c s', idLoop f id lo s = (i, l, c, s') → Got s0 1 R c s' := by
  intro f
  induction f with
  | zero => intro _ _ _ _ h; omega
  | succ f ih =>
    intro id lo s R hf h i l cc s' heq
    unfold idLoop at heq
    rcases hg : getc s with ⟨c, s1⟩
    rw [hg] at heq
    have hG := getc_res h hg
    dsimp only at heq
    have step : ∀ (d : Nat) (s2 : LS), c ≠ eof → Res s0 1 (R - 1) s2 →
        (match put d id s2 with
          | (id, s) =>
            match put (toLower d) lo s with
            | (lo, s) => idLoop f id lo s) = (i, l, cc, s') → Got s0 1 R cc s' := by
      intro d s2 hne h2 he
      rcases hp : put d id s2 with ⟨i1, s3⟩
      rw [hp] at he
      dsimp only at he
      rcases hp2 : put (toLower d) lo s3 with ⟨l1, s4⟩
      rw [hp2] at he
      dsimp only at he
      have h1R := (hG.dec hne).2
      have hr := ih _ _ _ (R - 1) (by omega) (((h2.put hp).put hp2).mono (by omega) (Nat.le_refl _))
        _ _ _ _ he
      exact ⟨hr.chr, hr.res.mono (by omega) (by omega), fun hc => by have := hr.lt hc; omega⟩
    by_cases h92 : c = 92
    · rw [if_pos h92] at heq
      have hne : c ≠ eof := by rw [h92]; decide
      rcases he : escape s1 with ⟨d, s2⟩
      rw [he] at heq
      dsimp only at heq
      have h2 := escape_res (by omega) (by omega) (hG.dec hne).1 he
      by_cases hd : d = 0xFFFD
      · rw [if_pos hd] at heq
        cases heq
        have h1R := (hG.dec hne).2
        exact ⟨.inr (.inl hd), h2.mono (by omega) (by omega), fun _ => by have := h2.rem; omega⟩
      · rw [if_neg hd] at heq
        exact step d s2 hne h2 heq
    · rw [if_neg h92] at heq
      by_cases hi : isIdentifier c = true
      · rw [if_pos hi] at heq
        exact step c s1 (isIdentifier_ne hi) (hG.dec (isIdentifier_ne hi)).1 heq
      · rw [if_neg hi] at heq
        cases heq
        exact hG

theorem skipSpaces_res {s0 : LS} : ∀ (f : Nat) (s : LS) (R : Nat), R < f → Res s0 2 R s →
    ∀ c s', skipSpaces f s = (c, s') → Got s0 1 R c s' := by
  intro f
  induction f with
  | zero => intro _ _ h; omega
  | succ f ih =>
    intro s R hf h cc s' heq
    unfold skipSpaces at heq
    rcases hg : getc s with ⟨c, s1⟩
    rw [hg] at heq
    have hG := getc_res h hg
    dsimp only at heq
    by_cases hs : isSpace c = true
    · rw [if_pos hs] at heq
      have hd := hG.dec (isSpace_ne hs)
      have hr := ih _ (R - 1) (by omega) (hd.1.mono (by omega) (Nat.le_refl _)) _ _ heq
      exact ⟨hr.chr, hr.res.mono (by omega) (by omega), fun hc => by have := hr.lt hc; omega⟩
    · rw [if_neg hs] at heq
      cases heq
      exact hG

theorem urlLoop_res {s0 : LS} : ∀ (f : Nat) (url : Str) (s : LS) (R : Nat), R < f → Res s0 2 R s →
    Res s0 2 R (urlLoop f url s).2.2 := by
  intro f
  induction f with
  | zero => intro _ _ _ h; omega
  | succ f ih =>
    intro url s R hf h
    unfold urlLoop
    rcases hg : getc s with ⟨c, s1⟩
    have hG := getc_res h hg
    have hG' := hG.res.mono (show 2 - 1 ≤ 2 by omega) (Nat.le_refl _)
    dsimp only
    split
    · exact hG'
    · split
      · exact hG'.report _
      · rename_i h1 h2
        have hne : c ≠ eof := fun h' => h2 (.inl h')
        rcases hp : put c url s1 with ⟨u, s2⟩
        have hd := hG.dec hne
        exact (ih _ _ (R - 1) (by omega) ((hd.1.put hp).mono (by omega) (Nat.le_refl _))).mono
          (Nat.le_refl _) (by omega)

theorem urlClose_res {s0 : LS} : ∀ (f : Nat) (s : LS) (R : Nat), R < f → Res s0 2 R s →
    Res s0 2 R (urlClose f s) := by
  intro f
  induction f with
  | zero => intro _ _ h; omega
  | succ f ih =>
    intro s R hf h
    unfold urlClose
    rcases hg : getc s with ⟨c, s1⟩
    have hG := getc_res h hg
    have hG' := hG.res.mono (show 2 - 1 ≤ 2 by omega) (Nat.le_refl _)
    dsimp only
    split
    · exact hG'
    · split
      · rename_i h1 h2
        have hd := hG.dec (isSpace_ne h2)
        exact (ih _ (R - 1) (by omega) (hd.1.mono (by omega) (Nat.le_refl _))).mono
          (Nat.le_refl _) (by omega)
      · exact hG'.report _

theorem Res.self {s0 s : LS} {k R : Nat} (h : Res s0 k R s) : Res s0 k s.rem s :=
  ⟨h.reach, h.un, Nat.le_refl _⟩

theorem fuel_lt (s : LS) : s.rem < s.fuel := Nat.lt_succ_self _

theorem Got.mono {s0 s : LS} {k R k' R' c : Nat} (h : Got s0 k R c s) (hk : k ≤ k') (hR : R ≤ R') :
    Got s0 k' R' c s :=
  ⟨h.chr, h.res.mono hk hR, fun hc => Nat.lt_of_lt_of_le (h.lt hc) hR⟩

theorem urlText_res {s0 s : LS} {R : Nat} (c : Nat) (h : Res s0 2 R s) :
    Res s0 2 R (urlText c s).2.2 := by
  unfold urlText
  split
  · exact (lexString_res c _ [] s _ (fuel_lt s) h.self).mono (Nat.le_refl _) h.rem
  · rcases hp : put c [] s with ⟨u, s1⟩
    have h1 := h.put hp
    exact (urlLoop_res _ u s1 _ (fuel_lt s1) h1.self).mono (Nat.le_refl _) h1.rem

theorem lexUrl_res {s0 s : LS} {R : Nat} (h : Res s0 2 R s) : Res s0 2 R (lexUrl s).2 := by
  unfold lexUrl
  rcases hs : skipSpaces s.fuel s with ⟨c, s1⟩
  have h1 := (skipSpaces_res _ _ _ (fuel_lt s) h.self _ _ hs).mono (show 1 ≤ 2 by omega) h.rem
  dsimp only
  have h2 := urlText_res c h1.res
  rcases ht : urlText c s1 with ⟨url, d, s2⟩
  rw [ht] at h2
  dsimp only at h2 ⊢
  split
  · exact h2
  · exact (urlClose_res _ _ _ (fuel_lt s2) h2.self).mono (Nat.le_refl _) h2.rem

/-- An exception was thrown before, or an invalid character was read. -/
def Poisoned (s0 s : LS) : Prop := s.exn ≠ none ∨ ∃ t, Reach s0 t ∧ (getc t).1 = 0xFFFD

theorem idFirst_res {s0 s : LS} {R c : Nat} (ty : NT) (id : Str) (h2 : Res s0 2 R s)
    (h : ty = .AT_KEYWORD → Got s0 1 R c s)
    (hs : c = 92 ∨ isStartIdentifier c = true ∨ ty = .AT_KEYWORD ∨ Poisoned s0 s) :
    Res s0 2 R (idFirst ty id c s).2 := by
  have two : ∀ (d : Nat) (s : LS), Res s0 2 R s → Res s0 2 R (match put d id s with
      | (i, s) =>
        match put (toLower d) id s with
        | (lo, s) => ((some (i, lo), s) : Option (Str × Str) × LS)).2 := by
    intro d s h
    rcases hp : put d id s with ⟨i1, s3⟩
    dsimp only
    rcases hp2 : put (toLower d) id s3 with ⟨l1, s4⟩
    exact (h.put hp).put hp2
  unfold idFirst
  by_cases h92 : c = 92
  · rw [if_pos h92]
    rcases he : escape s with ⟨d, s2⟩
    have h3 := escape_res (by omega) (by omega) h2 he
    dsimp only
    split
    · exact h3
    · exact two d s2 h3
  · rw [if_neg h92]
    by_cases hst : isStartIdentifier c = true
    · rw [if_pos hst]; exact two c s h2
    · rw [if_neg hst]
      by_cases hty : ty = .AT_KEYWORD
      · rw [if_pos hty]; exact ((h hty).unget (by omega)).report _
      · rw [if_neg hty]
        rcases hs with hs | hs | hs | hs | ⟨t, ht, hc⟩
        · exact absurd hs h92
        · exact absurd hs hst
        · exact absurd hs hty
        · have : s.throw .badStart = s := by
            unfold LS.throw
            rcases s with ⟨a, b, c, d, e, x, u⟩
            cases x
            · exact absurd rfl hs
            · rfl
          rw [this]; exact h2
        · exact ⟨.badStart h2.reach ht hc, h2.un, h2.rem⟩

theorem idEnd_res {s0 s : LS} {R c : Nat} (ty : NT) (id lo : Str) (h : Got s0 1 R c s) :
    Res s0 2 R (idEnd ty (id, lo, c, s)).2 := by
  have h2 : Res s0 2 R s := h.res.mono (by omega) (Nat.le_refl _)
  unfold idEnd
  dsimp only
  split
  · exact (h.unget (by omega)).report _
  · split
    · split
      · exact lexUrl_res h2
      · exact h2
    · exact h.unget (by omega)

theorem idRest_res {s0 : LS} {R : Nat} (ty : NT) (r : Option (Str × Str) × LS) (h : Res s0 2 R r.2) :
    Res s0 2 R (idRest ty r).2 := by
  rcases r with ⟨_ | ⟨id, lo⟩, s⟩
  · exact h
  · unfold idRest
    dsimp only at h ⊢
    rcases hl : idLoop s.fuel id lo s with ⟨i, l, c, s1⟩
    have h1 := (idLoop_res _ _ _ _ _ (fuel_lt s) h.self _ _ _ _ hl).mono (Nat.le_refl _) h.rem
    exact idEnd_res ty i l h1

/-- The identifier starts properly, once a first dash was skipped. -/
theorem idDash_res {s0 s : LS} {R c : Nat} (ty : NT) (h : Res s0 2 R s)
    (hat : ty = .AT_KEYWORD → Got s0 1 R c s)
    (hs : c = 92 ∨ isStartIdentifier c = true ∨ ty = .AT_KEYWORD ∨ Poisoned s0 s ∨
      (c = 45 ∧ ((getc s).1 = 92 ∨ isStartIdentifier (getc s).1 = true ∨ Poisoned s0 (getc s).2))) :
    Res s0 2 R (idDash ty c s).2 := by
  unfold idDash
  by_cases h45 : c = 45
  · rw [if_pos h45]
    rcases hg : getc s with ⟨d, s1⟩
    rw [hg] at hs
    have hG := getc_res h hg
    refine idFirst_res ty _ (hG.res.mono (by omega) (Nat.le_refl _)) (fun _ => hG) ?_
    rcases hs with hs | hs | hs | hs | ⟨_, hs⟩
    · rw [h45] at hs; exact absurd hs (by decide)
    · rw [h45] at hs; exact absurd hs (by decide)
    · exact .inr (.inr (.inl hs))
    · refine .inr (.inr (.inr ?_))
      rcases hs with hs | hs
      · left; have := getc_exn s; rw [hg] at this; rw [show s1.exn = s.exn from this]; exact hs
      · exact .inr hs
    · rcases hs with hs | hs | hs
      · exact .inl hs
      · exact .inr (.inl hs)
      · exact .inr (.inr (.inr hs))
  · rw [if_neg h45]
    refine idFirst_res ty _ h hat ?_
    rcases hs with hs | hs | hs | hs | ⟨hs, _⟩
    · exact .inl hs
    · exact .inr (.inl hs)
    · exact .inr (.inr (.inl hs))
    · exact .inr (.inr (.inr hs))
    · exact absurd hs h45

theorem identifier_plain_res {s0 s : LS} {R c : Nat} (h : Res s0 2 R s)
    (hs : c = 92 ∨ isStartIdentifier c = true ∨
      (c = 45 ∧ ((getc s).1 = 92 ∨ isStartIdentifier (getc s).1 = true ∨ Poisoned s0 (getc s).2))) :
    Res s0 2 R (identifier c s).2 := by
  have h37 : c ≠ 37 := by rintro rfl; revert hs; simp [isStartIdentifier, isAlpha]
  have h64 : c ≠ 64 := by rintro rfl; revert hs; simp [isStartIdentifier, isAlpha]
  unfold identifier
  rw [if_neg h37, if_neg h64]
  refine idRest_res _ _ (idDash_res _ h (fun h' => by cases h') ?_)
  rcases hs with hs | hs | hs
  · exact .inl hs
  · exact .inr (.inl hs)
  · exact .inr (.inr (.inr (.inr hs)))

theorem identifier_percent_res {s0 s : LS} {R : Nat} (h : Res s0 2 R s)
    (hs : isStartIdentifier (getc s).1 = true ∨ s.exn ≠ none) :
    Res s0 2 R (identifier 37 s).2 := by
  unfold identifier
  rw [if_pos rfl]
  rcases hg : getc s with ⟨d, s1⟩
  rw [hg] at hs
  have hG := getc_res h hg
  refine idRest_res _ _ (idDash_res _ (hG.res.mono (by omega) (Nat.le_refl _)) (fun h' => by cases h') ?_)
  rcases hs with hs | hs
  · exact .inr (.inl hs)
  · refine .inr (.inr (.inr (.inl (.inl ?_))))
    have := getc_exn s
    rw [hg] at this
    rw [show s1.exn = s.exn from this]
    exact hs

theorem identifier_at_res {s0 s : LS} {R : Nat} (h : Res s0 2 R s) :
    Res s0 2 R (identifier 64 s).2 := by
  unfold identifier
  rw [if_neg (by decide), if_pos rfl]
  rcases hg : getc s with ⟨d, s1⟩
  have hG := getc_res h hg
  exact idRest_res _ _ (idDash_res _ (hG.res.mono (by omega) (Nat.le_refl _)) (fun _ => hG)
    (.inr (.inr (.inl rfl))))

/-! ### number() -/

theorem hasError_report {s : LS} {r : Rpt} (h : r.isError = true) : (s.report r).hasError :=
  ⟨r, List.mem_cons_self, h⟩

theorem hasError_err {s t : LS} (h : s.hasError) (he : ∀ r ∈ s.err, r ∈ t.err) : t.hasError :=
  let ⟨r, hr, hx⟩ := h
  ⟨r, he r hr, hx⟩

theorem endOfLine_err (c : Nat) (s : LS) : (endOfLine c s).2.err = s.err := by
  unfold endOfLine
  split
  · split <;> rfl
  · repeat' split
    all_goals rfl

theorem reportMb_err (s : LS) (e : Option MbErr) : ∃ l, (s.reportMb e).err = l ++ s.err := by
  cases e with
  | none => exact ⟨[], rfl⟩
  | some e => exact ⟨[.mb e], rfl⟩

theorem getc_err (s : LS) : ∃ l, (getc s).2.err = l ++ s.err := by
  unfold getc
  split
  · exact ⟨[], rfl⟩
  · split
    · exact ⟨[], rfl⟩
    · dsimp only
      split
      · unfold getHigh
        dsimp only
        split
        · split
          · exact ⟨[_], rfl⟩
          · rw [endOfLine_err]; exact reportMb_err _ _
        · exact ⟨[_], rfl⟩
      · rw [endOfLine_err]; exact ⟨[], rfl⟩

theorem ungetc_err (c : Nat) (s : LS) : (ungetc c s).err = s.err := by
  unfold ungetc
  repeat' split
  all_goals rfl

/-- The messages reported stay: they are a suffix (the oldest part) of the later ones. -/
theorem Reach.err {s0 s : LS} (h : Reach s0 s) : ∃ l, s.err = l ++ s0.err := by
  induction h with
  | refl => exact ⟨[], rfl⟩
  | getc _ ih =>
    obtain ⟨l, hl⟩ := ih
    obtain ⟨l', hl'⟩ := getc_err ‹_›
    exact ⟨l' ++ l, by rw [hl', hl, List.append_assoc]⟩
  | unget _ _ _ _ ih => rw [ungetc_err]; exact ih
  | report r _ ih =>
    obtain ⟨l, hl⟩ := ih
    exact ⟨r :: l, by show r :: _ = _; rw [hl]; rfl⟩
  | start _ ih => exact ih
  | badStart _ _ _ ih => exact ih
  | undef _ _ ih => exact ih

theorem Reach.hasError {s0 s : LS} (h : Reach s0 s) (h0 : s0.hasError) : s.hasError := by
  obtain ⟨l, hl⟩ := h.err
  exact hasError_err h0 (fun r hr => by rw [hl]; exact List.mem_append_right _ hr)

theorem Res.undefIf {s0 s : LS} {k R : Nat} (h : Res s0 k R s) (b : Bool)
    (hb : b = true → s.hasError) : Res s0 k R (s.undefIf b) := by
  cases b
  · exact h
  · exact ⟨.undef h.reach (hb rfl), h.un, h.rem⟩

theorem nextInt_ok {i : Int} {c : Nat} (h : intTooLarge (nextInt i c) = false) :
    0 ≤ wrap64 (nextInt i c) := by
  unfold intTooLarge nextInt at h
  unfold nextInt wrap64
  simp only [decide_eq_false_iff_not] at h
  omega

theorem intLoop_res {s0 : LS} : ∀ (f : Nat) (i : Int) (s : LS) (R : Nat), R < f → Res s0 2 R s →
    (0 ≤ i ∨ s.hasError) → ∀ j c s', intLoop f i s = (j, c, s') →
    Got s0 1 R c s' ∧ (0 ≤ j ∨ s'.hasError) := by
  intro f
  induction f with
  | zero => intro _ _ _ h; omega
  | succ f ih =>
    intro i s R hf h hi j cc s' heq
    unfold intLoop at heq
    rcases hg : getc s with ⟨c, s1⟩
    rw [hg] at heq
    have hG := getc_res h hg
    dsimp only at heq
    have herr : s.hasError → s1.hasError := by
      intro he
      have := (Reach.getc (Reach.refl (s0 := s))).hasError he
      rw [hg] at this; exact this
    by_cases hd : isDigit c = true
    · rw [if_pos hd] at heq
      have hdec := hG.dec (isDigit_ne hd)
      have hr := ih _ _ (R - 1) (by omega) ((hdec.1.reportIf _ _).mono (by omega) (Nat.le_refl _)) ?_
        _ _ _ heq
      · exact ⟨hr.1.mono (Nat.le_refl _) (by omega), hr.2⟩
      · cases hb : intTooLarge (nextInt i c) with
        | true => right; exact hasError_report rfl
        | false => left; exact nextInt_ok hb
    · rw [if_neg hd] at heq
      cases heq
      exact ⟨hG, hi.imp id herr⟩

theorem intPart_res {s0 s : LS} {R c : Nat} (h : Res s0 2 R s)
    (hc : isDigit c = false → c ≠ 46 → Got s0 1 R c s)
    {i : Int} {d : Nat} {s' : LS} (heq : intPart c s = (i, d, s')) :
    Res s0 2 R s' ∧ (d ≠ 46 → Got s0 1 R d s') ∧ (0 ≤ i ∨ s'.hasError) := by
  unfold intPart at heq
  by_cases hd : isDigit c = true
  · rw [if_pos hd] at heq
    have := intLoop_res _ _ _ _ (fuel_lt s) h.self (.inl (by omega)) _ _ _ heq
    have h1 := this.1.mono (Nat.le_refl _) h.rem
    exact ⟨h1.res.mono (by omega) (Nat.le_refl _), fun _ => h1, this.2⟩
  · rw [if_neg hd] at heq
    cases heq
    exact ⟨h, fun h46 => hc (by simpa using hd) h46, .inl (by omega)⟩

theorem fracLoop_res {s0 : LS} : ∀ (f : Nat) (ds : List Nat) (s : LS) (R : Nat), R < f →
    Res s0 2 R s → ∀ j c s', fracLoop f ds s = (j, c, s') → Got s0 1 R c s' := by
  intro f
  induction f with
  | zero => intro _ _ _ h; omega
  | succ f ih =>
    intro ds s R hf h j cc s' heq
    unfold fracLoop at heq
    rcases hg : getc s with ⟨c, s1⟩
    rw [hg] at heq
    have hG := getc_res h hg
    dsimp only at heq
    by_cases hd : isDigit c = true
    · rw [if_pos hd] at heq
      have hdec := hG.dec (isDigit_ne hd)
      have hr := ih _ _ (R - 1) (by omega) ((hdec.1.reportIf _ _).mono (by omega) (Nat.le_refl _))
        _ _ _ heq
      exact hr.mono (Nat.le_refl _) (by omega)
    · rw [if_neg hd] at heq
      cases heq
      exact hG

theorem fracPart_res {s0 s : LS} {R c : Nat} (h2 : Res s0 2 R s) (h : c ≠ 46 → Got s0 1 R c s) {ds : List Nat} {b : Bool} {d : Nat}
    {s' : LS} (heq : fracPart c s = (ds, b, d, s')) : Got s0 1 R d s' := by
  unfold fracPart at heq
  split at heq
  · rcases hl : fracLoop s.fuel [] s with ⟨j, c1, s1⟩
    rw [hl] at heq
    dsimp only at heq
    have := (fracLoop_res _ _ _ _ (fuel_lt s) h2.self _ _ _ hl).mono (Nat.le_refl _) h2.rem
    cases heq
    exact ⟨this.chr, this.res.reportIf _ _, fun hc => by
      have := this.lt hc
      cases hb : j.isEmpty <;> exact this⟩
  · rename_i h46; cases heq; exact h h46

theorem isDigit_iff {c : Nat} : isDigit c = true ↔ 48 ≤ c ∧ c ≤ 57 := by
  unfold isDigit; simp

theorem overflows_iff {x : Int} : overflows x = true ↔ ¬ IsI64 x := by
  unfold overflows; simp

theorem expLoop_res {s0 : LS} : ∀ (f : Nat) (e : Int) (c : Nat) (s : LS) (R : Nat), R < f →
    Got s0 1 R c s → ((0 ≤ e ∧ e < 1024) ∨ s.hasError) → IsI64 e → ∀ j d s', expLoop f e c s = (j, d, s') →
    Got s0 1 R d s' ∧ ((0 ≤ j ∧ j < 1024) ∨ s'.hasError) ∧ IsI64 j := by
  intro f
  induction f with
  | zero => intro _ _ _ _ h; omega
  | succ f ih =>
    intro e c s R hf h he hI j dd s' heq
    unfold expLoop at heq
    by_cases hd : isDigit c = true
    · rw [if_pos hd] at heq
      dsimp only at heq
      have hdec := h.dec (isDigit_ne hd)
      have hov : overflows (nextExp e c) = true → s.hasError := by
        intro ho
        rcases he with he | he
        · exfalso
          have := isDigit_iff.mp hd
          rw [overflows_iff] at ho
          unfold nextExp IsI64 at ho
          omega
        · exact he
      have h1 := (hdec.1.undefIf _ hov).reportIf (decide (1024 ≤ wrap64 (nextExp e c))) .expTooLarge
      generalize hs1 : (s.undefIf (overflows (nextExp e c))).reportIf
        (decide (1024 ≤ wrap64 (nextExp e c))) .expTooLarge = s1 at heq h1
      rcases hg : getc s1 with ⟨c2, s2⟩
      rw [hg] at heq
      dsimp only at heq
      have hG := (getc_res h1 hg).mono (show 1 - 1 ≤ 1 by omega) (Nat.le_refl _)
      have hr := ih _ _ _ (R - 1) (by omega) hG ?_ (isI64_wrap64 _) _ _ _ heq
      · exact ⟨hr.1.mono (Nat.le_refl _) (by omega), hr.2⟩
      · have e12 : s1.hasError → s2.hasError := by
          intro h'
          have := (Reach.getc (Reach.refl (s0 := s1))).hasError h'
          rw [hg] at this; exact this
        rcases he with he | he
        · by_cases hb : 1024 ≤ wrap64 (nextExp e c)
          · right
            apply e12
            rw [← hs1]
            simp only [hb, decide_true]
            exact hasError_report rfl
          · left
            have := isDigit_iff.mp hd
            have hw : wrap64 (nextExp e c) = nextExp e c :=
              wrap64_of_isI64 (by unfold IsI64 nextExp; omega)
            rw [hw] at hb ⊢
            unfold nextExp at hb ⊢
            omega
        · right
          apply e12
          rw [← hs1]
          refine hasError_err he (fun r hr => ?_)
          cases overflows (nextExp e c) <;> cases decide (1024 ≤ wrap64 (nextExp e c)) <;>
            simp [LS.undefIf, LS.reportIf, LS.undef, LS.report, hr]
    · rw [if_neg hd] at heq
      cases heq
      exact ⟨h, he, hI⟩

theorem expDigits_res {s0 s : LS} {R c : Nat} (neg : Bool) (h : Got s0 1 R c s)
    (hc : isDigit c = true) {e : Int} {d : Nat} {s' : LS} (heq : expDigits neg c s = (e, d, s')) :
    Got s0 1 R d s' := by
  unfold expDigits at heq
  simp only [hc, if_true] at heq
  rcases hl : expLoop (s.fuel + 1) 0 c s with ⟨j, d1, s1⟩
  rw [hl] at heq
  dsimp only at heq
  have hlt := h.lt (isDigit_ne hc)
  have h1 : Got s0 1 (s.rem + 1) c s :=
    ⟨h.chr, ⟨h.res.reach, h.res.un, by omega⟩, fun _ => by omega⟩
  obtain ⟨h2, h3, h4⟩ := expLoop_res _ _ _ _ _ (by unfold LS.fuel; omega) h1 (.inl (by omega))
    (by unfold IsI64; omega) _ _ _ hl
  have h5 := h2.mono (Nat.le_refl _) (show s.rem + 1 ≤ R by omega)
  cases neg with
  | false => cases heq; exact h5
  | true =>
    cases heq
    have hu : Res s0 1 R (s1.undefIf (overflows (-j))) := by
      refine h5.res.undefIf _ (fun ho => ?_)
      rcases h3 with h3 | h3
      · exfalso
        rw [overflows_iff] at ho
        unfold IsI64 at ho
        omega
      · exact h3
    refine ⟨h5.chr, hu, fun hc => ?_⟩
    have := h5.lt hc
    cases overflows (-j) <;> exact this

theorem isExponent_spec {s0 s s' : LS} {R : Nat} (h : Res s0 1 R s)
    (heq : isExponent s = (true, s')) :
    Res s0 2 R s' ∧ ∃ c s1, getc s' = (c, s1) ∧ Got s0 1 R c s1 ∧
      (isDigit c = true ∨ ((c = 45 ∨ c = 43) ∧ isDigit (getc s1).1 = true)) := by
  unfold isExponent at heq
  rcases hg : getc s with ⟨c, s1⟩
  rw [hg] at heq
  have hG := getc_res h hg
  dsimp only at heq
  by_cases hc : c = 45 ∨ c = 43
  · rw [if_pos hc] at heq
    rcases hg2 : getc s1 with ⟨d, s2⟩
    rw [hg2] at heq
    dsimp only at heq
    have hne : c ≠ eof := by unfold eof; omega
    have hG1 := (hG.dec hne)
    have hG2 := getc_res hG1.1 hg2
    have hd : isDigit d = true := (Prod.mk.inj heq).1
    have hdd := isDigit_iff.mp hd
    have hs' := (Prod.mk.inj heq).2
    have h3 := hG2.unget (by omega)
    have hl2 := hG2.res.un
    have e1 : getc (ungetc d s2) = (d, s2) :=
      getc_ungetc (by omega) (by omega) (by omega) (by omega)
    have hl3 := h3.un
    have e2 : getc (ungetc c (ungetc d s2)) = (c, ungetc d s2) :=
      getc_ungetc (by omega) (by omega) (by omega) (by omega)
    have h4 : Got s0 1 R c (ungetc d s2) := hG.keep (h3.mono (by omega) (by omega)) hne
    have h5 := h4.unget (by omega)
    rw [← hs']
    refine ⟨h5, c, ungetc d s2, e2, h4, .inr ⟨hc, ?_⟩⟩
    rw [e1]; exact hd
  · rw [if_neg hc] at heq
    have hd : isDigit c = true := (Prod.mk.inj heq).1
    have hdd := isDigit_iff.mp hd
    have hs' := (Prod.mk.inj heq).2
    have hl := hG.res.un
    have e1 : getc (ungetc c s1) = (c, s1) :=
      getc_ungetc (by omega) (by omega) (by omega) (by omega)
    rw [← hs']
    exact ⟨(hG.unget (by omega)).mono (by omega) (Nat.le_refl _), c, s1, e1,
      hG.mono (by omega) (Nat.le_refl _), .inl hd⟩

theorem isExponent_false {s0 s s' : LS} {R : Nat} {b : Bool} (h : Res s0 1 R s)
    (heq : isExponent s = (b, s')) : Res s0 2 R s' := by
  unfold isExponent at heq
  rcases hg : getc s with ⟨c, s1⟩
  rw [hg] at heq
  have hG := getc_res h hg
  dsimp only at heq
  by_cases hc : c = 45 ∨ c = 43
  · rw [if_pos hc] at heq
    rcases hg2 : getc s1 with ⟨d, s2⟩
    rw [hg2] at heq
    dsimp only at heq
    have hne : c ≠ eof := by unfold eof; omega
    have hG1 := (hG.dec hne)
    have hG2 := getc_res hG1.1 hg2
    have h3 := hG2.unget (by omega)
    have h4 : Got s0 1 R c (ungetc d s2) := hG.keep (h3.mono (by omega) (by omega)) hne
    rw [← (Prod.mk.inj heq).2]
    exact h4.unget (by omega)
  · rw [if_neg hc] at heq
    rw [← (Prod.mk.inj heq).2]
    exact (hG.unget (by omega)).mono (by omega) (Nat.le_refl _)

theorem expSign_res {s0 s : LS} {R c : Nat} (h : Got s0 1 R c s)
    (hc : isDigit c = true ∨ ((c = 45 ∨ c = 43) ∧ isDigit (getc s).1 = true)) {e : Int} {d : Nat}
    {s' : LS} (heq : expSign c s = (e, d, s')) : Got s0 1 R d s' := by
  unfold expSign at heq
  by_cases h45 : c = 45
  · rw [if_pos h45] at heq
    rcases hg : getc s with ⟨x, s1⟩
    rw [hg] at heq hc
    have hG := (getc_res h.res hg).mono (show 1 - 1 ≤ 1 by omega) (Nat.le_refl _)
    refine expDigits_res true hG ?_ heq
    rcases hc with hc | hc
    · rw [h45] at hc; exact absurd hc (by decide)
    · exact hc.2
  · rw [if_neg h45] at heq
    by_cases h43 : c = 43
    · rw [if_pos h43] at heq
      rcases hg : getc s with ⟨x, s1⟩
      rw [hg] at heq hc
      have hG := (getc_res h.res hg).mono (show 1 - 1 ≤ 1 by omega) (Nat.le_refl _)
      refine expDigits_res false hG ?_ heq
      rcases hc with hc | hc
      · rw [h43] at hc; exact absurd hc (by decide)
      · exact hc.2
    · rw [if_neg h43] at heq
      refine expDigits_res false h ?_ heq
      rcases hc with hc | hc
      · exact hc
      · omega

/-- After the exponent: either a character was just read, or nothing was an exponent and the letter
is still to be handled. -/
theorem expPart_res {s0 s : LS} {R c : Nat} (h : Got s0 1 R c s) {e : Int} {d : Nat} {s' : LS}
    (heq : expPart c s = (e, d, s')) :
    Got s0 2 R d s' ∧ (Got s0 1 R d s' ∨ d = 101 ∨ d = 69) := by
  unfold expPart at heq
  by_cases hc : c = 101 ∨ c = 69
  · rw [if_pos hc] at heq
    have hne : c ≠ eof := by unfold eof; omega
    have hd := h.dec hne
    rcases hx : isExponent s with ⟨b, s1⟩
    rw [hx] at heq
    cases b with
    | true =>
      dsimp only at heq
      obtain ⟨h1, x, s2, hg, hG, hdig⟩ := isExponent_spec hd.1 hx
      rw [hg] at heq
      dsimp only at heq
      have := (expSign_res hG hdig heq).mono (Nat.le_refl _) (show R - 1 ≤ R by omega)
      exact ⟨this.mono (by omega) (Nat.le_refl _), .inl this⟩
    | false =>
      dsimp only at heq
      cases heq
      have h1 := isExponent_false hd.1 hx
      exact ⟨h.keep h1 hne, .inr hc⟩
  · rw [if_neg hc] at heq
    cases heq
    exact ⟨h.mono (by omega) (Nat.le_refl _), .inl h⟩

theorem dimLoop_res {s0 : LS} : ∀ (f : Nat) (dim : Str) (c : Nat) (s : LS) (R : Nat), R < f →
    Got s0 2 R c s → (Got s0 1 R c s ∨ isIdentifier c = true ∨ c = 92) → ∀ dm d s',
    dimLoop f dim c s = (dm, d, s') →
    Res s0 2 R s' ∧ (isIdentifier c = true ∨ c = 92 → Res s0 2 (R - 1) s') := by
  intro f
  induction f with
  | zero => intro _ _ _ _ h; omega
  | succ f ih =>
    intro dim c s R hf h hc dm dd s' heq
    unfold dimLoop at heq
    have step : ∀ (d : Nat) (s2 : LS), c ≠ eof → Res s0 2 (R - 1) s2 →
        (match put (toLower d) dim s2 with
          | (dim, s) =>
            match getc s with
            | (c, s) => dimLoop f dim c s) = (dm, dd, s') →
        Res s0 2 R s' ∧ (isIdentifier c = true ∨ c = 92 → Res s0 2 (R - 1) s') := by
      intro d s2 hne h2 he
      rcases hp : put (toLower d) dim s2 with ⟨i1, s3⟩
      rw [hp] at he
      dsimp only at he
      rcases hg : getc s3 with ⟨x, s4⟩
      rw [hg] at he
      dsimp only at he
      have h1R := (h.dec hne).2
      have hG := getc_res (h2.put hp) hg
      have hr := (ih _ _ _ (R - 1) (by omega) (hG.mono (by omega) (Nat.le_refl _)) (.inl hG) _ _ _ he).1
      exact ⟨hr.mono (Nat.le_refl _) (by omega), fun _ => hr⟩
    by_cases h92 : c = 92
    · rw [if_pos h92] at heq
      have hne : c ≠ eof := by rw [h92]; decide
      rcases he : escape s with ⟨d, s2⟩
      rw [he] at heq
      dsimp only at heq
      have h2 := escape_res (by omega) (by omega) (h.dec hne).1 he
      by_cases hd : d = 0xFFFD
      · rw [if_pos hd] at heq
        cases heq
        exact ⟨h2.mono (by omega) (by omega), fun _ => h2⟩
      · rw [if_neg hd] at heq
        exact step d s2 hne h2 heq
    · rw [if_neg h92] at heq
      by_cases hi : isIdentifier c = true
      · rw [if_pos hi] at heq
        exact step c s (isIdentifier_ne hi) (h.dec (isIdentifier_ne hi)).1 heq
      · rw [if_neg hi] at heq
        cases heq
        rcases hc with hc | hc | hc
        · exact ⟨hc.unget (by omega), fun h' => (h'.elim hi h92).elim⟩
        · exact absurd hc hi
        · exact absurd hc h92

theorem dimPart_res {s0 s : LS} {R c : Nat} (h : Got s0 2 R c s)
    (hc : Got s0 1 R c s ∨ c = 101 ∨ c = 69) {dim : Str} {b : Bool} {s' : LS}
    (heq : dimPart c s = (dim, b, s')) : Res s0 3 R s' := by
  unfold dimPart at heq
  by_cases hi : isIdentifier c = true ∨ c = 92
  · rw [if_pos hi] at heq
    have hne : c ≠ eof := by
      rcases hi with hi | hi
      · exact isIdentifier_ne hi
      · rw [hi]; decide
    rcases hl : dimLoop (s.fuel + 1) [] c s with ⟨dm, d, s1⟩
    rw [hl] at heq
    have hlt := h.lt hne
    have h1 : Got s0 2 (s.rem + 1) c s :=
      ⟨h.chr, ⟨h.res.reach, h.res.un, by omega⟩, fun _ => by omega⟩
    have hr := (dimLoop_res _ _ _ _ _ (by unfold LS.fuel; omega) h1 (.inr hi) _ _ _ hl).2 hi
    have hr' : Res s0 2 (R - 1) s1 := hr.mono (Nat.le_refl _) (by omega)
    unfold dimDash at heq
    dsimp only at heq
    by_cases hd : dm = [45]
    · rw [if_pos hd] at heq
      cases heq
      have : Got s0 2 R 45 s1 := ⟨.inl (by omega), hr'.mono (Nat.le_refl _) (by omega), fun _ => by
        have := hr'.rem; omega⟩
      exact this.unget (by omega)
    · rw [if_neg hd] at heq
      cases heq
      exact hr'.mono (by omega) (by omega)
  · rw [if_neg hi] at heq
    have h1 : Got s0 1 R c s := by
      rcases hc with hc | rfl | rfl
      · exact hc
      · exact absurd (.inl (by decide)) hi
      · exact absurd (.inl (by decide)) hi
    by_cases h37 : c = 37
    · rw [if_pos h37] at heq
      cases heq
      exact h1.res.mono (by omega) (Nat.le_refl _)
    · rw [if_neg h37] at heq
      cases heq
      exact (h1.unget (by omega)).mono (by omega) (Nat.le_refl _)

theorem intLoop_i64 : ∀ (f : Nat) (i : Int) (s : LS), IsI64 i → IsI64 (intLoop f i s).1 := by
  intro f
  induction f with
  | zero => intro i s h; exact h
  | succ f ih =>
    intro i s h
    unfold intLoop
    rcases getc s with ⟨c, s1⟩
    dsimp only
    split
    · exact ih _ _ (isI64_wrap64 _)
    · exact h

theorem intPart_i64 (c : Nat) (s : LS) : IsI64 (intPart c s).1 := by
  unfold intPart
  split
  · rename_i hd
    have := isDigit_iff.mp hd
    exact intLoop_i64 _ _ _ (by unfold IsI64; omega)
  · unfold IsI64; dsimp only; omega

theorem endOfLine_ne_zero (c : Nat) (s : LS) : (endOfLine c s).1 ≠ 0 := by
  unfold endOfLine
  repeat' split
  all_goals first | assumption | simp

/-- getc() never gives the character 0. -/
theorem getc_ne_zero (s : LS) : (getc s).1 ≠ 0 := by
  unfold getc
  split
  · dsimp only
    split
    · decide
    · assumption
  · split
    · simp
    · dsimp only
      split
      · unfold getHigh
        dsimp only
        split
        · split
          · simp
          · exact endOfLine_ne_zero _ _
        · simp
      · exact endOfLine_ne_zero _ _

/-- The state before the last character was read. -/
theorem Got.rewind {s0 s : LS} {k R c : Nat} (h : Got s0 k R c s) :
    Got { s with un := c :: s.un } k R c s := by
  have hg : (getc { s with un := c :: s.un }).2 = s := by unfold getc; rfl
  refine ⟨?_, ⟨?_, h.res.un, h.res.rem⟩, h.lt⟩
  · by_cases h0 : c = 0
    · exfalso
      rcases h.chr with hc | hc | ⟨t, _, hc⟩
      · omega
      · omega
      · exact getc_ne_zero t (by rw [hc]; exact h0)
    · right; right
      exact ⟨_, .refl, by unfold getc; simp [h0]⟩
  · have := Reach.getc (Reach.refl (s0 := ({ s with un := c :: s.un } : LS)))
    rw [hg] at this
    exact this

theorem Res.rewind {s0 s : LS} {k R : Nat} (c : Nat) (h : Res s0 k R s) :
    Res { s with un := c :: s.un } k R s := by
  have hg : (getc { s with un := c :: s.un }).2 = s := by unfold getc; rfl
  refine ⟨?_, h.un, h.rem⟩
  have := Reach.getc (Reach.refl (s0 := ({ s with un := c :: s.un } : LS)))
  rw [hg] at this
  exact this

theorem numBody_res {s0 s : LS} {R c : Nat} (hs ng : Bool) (h : Res s0 2 R s)
    (hc : isDigit c = false → c ≠ 46 → Got s0 1 R c s) : Res s0 3 R (numBody hs ng c s).2 := by
  unfold numBody
  rcases h1 : intPart c s with ⟨i, c1, s1⟩
  obtain ⟨g0, g1, e1⟩ := intPart_res h hc h1
  have hi64 : IsI64 i := by have := intPart_i64 c s; rw [h1] at this; exact this
  dsimp only
  -- the same steps are also seen from the state before c1, to keep track of the errors
  have k0 := g0.rewind c1
  have k1 := fun h => (g1 h).rewind
  rcases h2 : fracPart c1 s1 with ⟨ds, b, c2, s2⟩
  have g2 := fracPart_res g0 g1 h2
  have k2 := fracPart_res k0 k1 h2
  dsimp only
  rcases h3 : expPart c2 s2 with ⟨e, c3, s3⟩
  obtain ⟨g3, g3'⟩ := expPart_res g2 h3
  obtain ⟨k3, k3'⟩ := expPart_res k2 h3
  dsimp only
  rcases h4 : dimPart c3 s3 with ⟨dim, pc, s4⟩
  have g4 := dimPart_res g3 g3' h4
  have k4 := dimPart_res k3 k3' h4
  dsimp only
  have herr : s1.hasError → s4.hasError := fun he => k4.reach.hasError he
  unfold numNode
  split
  · cases pc <;> exact g4
  · cases ng with
    | false => exact g4
    | true =>
      refine g4.undefIf _ (fun ho => ?_)
      rcases e1 with e1 | e1
      · exfalso
        rw [overflows_iff] at ho
        unfold IsI64 at ho hi64
        omega
      · exact herr e1

theorem number_res {s0 s : LS} {R c : Nat} (h : Res s0 2 R s)
    (hc : isDigit c = true ∨ c = 45 ∨ c = 43 ∨ c = 46) : Res s0 3 R (number c s).2 := by
  unfold number
  by_cases hsg : c = 45 ∨ c = 43
  · rw [if_pos hsg]
    rcases hg : getc s with ⟨d, s1⟩
    have hG := getc_res h hg
    exact numBody_res _ _ (hG.res.mono (by omega) (Nat.le_refl _)) (fun _ _ => hG)
  · rw [if_neg hsg]
    refine numBody_res _ _ h (fun hd h46 => ?_)
    rcases hc with hc | hc | hc | hc
    · rw [hc] at hd; cases hd
    · exact absurd (.inl hc) hsg
    · exact absurd (.inr hc) hsg
    · exact absurd hc h46

end Csspp.Lex
