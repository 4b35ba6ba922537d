import Verif.Model.Lexer

/-!
Every state of the lexer is reached from the start of the stream by a few primitive operations,
whose side conditions hold on every stream. The invariants of Props/Lexer.lean are proved on these
primitive operations.
-/

namespace Csspp.Lex
open Csspp.Utf8

/-- An error (not a warning) was reported. -/
def LS.hasError (s : LS) : Prop := ∃ r ∈ s.err, r.isError = true

/-- `Reach s0 s`: s is reached from s0 by the primitive operations of the lexer, with what is always
true when they are used: at most three characters are in the push-back buffer before a push, the
character pushed is an ASCII character or was read before, an identifier without a valid start
only happens after the invalid character 0xFFFD was read, a signed overflow only happens after an
error was reported. Running out of fuel is not one of these operations. -/
inductive Reach (s0 : LS) : LS → Prop
  | refl : Reach s0 s0
  | getc {s : LS} : Reach s0 s → Reach s0 (getc s).2
  | unget {s t : LS} {c : Nat} : Reach s0 s → s.un.length ≤ 3 →
      Reach s0 t → (0 < c ∧ c < 128 ∨ (Lex.getc t).1 = c) → Reach s0 (ungetc c s)
  | report {s : LS} (r : Rpt) : Reach s0 s → Reach s0 (s.report r)
  | start {s : LS} : Reach s0 s → Reach s0 { s with start := s.pos }
  | badStart {s t : LS} : Reach s0 s → Reach s0 t → (Lex.getc t).1 = 0xFFFD →
      Reach s0 (s.throw .badStart)
  | undef {s : LS} : Reach s0 s → s.hasError → Reach s0 s.undef

theorem Reach.trans {a b c : LS} (h1 : Reach a b) (h2 : Reach b c) : Reach a c := by
  induction h2 with
  | refl => exact h1
  | getc _ ih => exact .getc ih
  | unget _ hl _ hc ih1 ih2 => exact .unget ih1 hl ih2 hc
  | report r _ ih => exact .report r ih
  | start _ ih => exact .start ih
  | badStart _ _ hc ih1 ih2 => exact .badStart ih1 ih2 hc
  | undef _ he ih => exact .undef ih he

/-- A reached state with at most k characters pushed back and at most R characters left. -/
structure Res (s0 : LS) (k R : Nat) (s : LS) : Prop where
  reach : Reach s0 s
  un : s.un.length ≤ k
  rem : s.rem ≤ R

theorem Res.mono {s0 : LS} {k R k' R' : Nat} {s : LS} (h : Res s0 k R s) (hk : k ≤ k')
    (hR : R ≤ R') : Res s0 k' R' s :=
  ⟨h.reach, Nat.le_trans h.un hk, Nat.le_trans h.rem hR⟩

/-- A character was read (or an escape sequence was invalid, which gives 0xFFFD). -/
structure Got (s0 : LS) (k R c : Nat) (s : LS) : Prop where
  chr : 0 < c ∧ c < 128 ∨ c = 0xFFFD ∨ ∃ t, Reach s0 t ∧ (getc t).1 = c
  res : Res s0 k R s
  lt : c ≠ eof → s.rem < R

theorem endOfLine_inp (c : Nat) (s : LS) :
    (endOfLine c s).2.inp.length ≤ s.inp.length ∧ (endOfLine c s).2.un = s.un := by
  unfold endOfLine
  split
  · split
    · rename_i h; simp [h]
    · simp
  · repeat' split
    all_goals simp

theorem reportMb_fields (s : LS) (e : Option MbErr) :
    (s.reportMb e).inp = s.inp ∧ (s.reportMb e).un = s.un := by
  cases e <;> exact ⟨rfl, rfl⟩

theorem dropWhile_length_le (p : Nat → Bool) (l : Str) : (l.dropWhile p).length ≤ l.length := by
  induction l with
  | nil => simp
  | cons a l ih => rw [List.dropWhile_cons]; split <;> simp; omega

theorem getHigh_inp (b : Nat) (s : LS) :
    (getHigh b s).2.inp.length ≤ s.inp.length ∧ (getHigh b s).2.un = s.un := by
  have hd := dropWhile_length_le isFollow s.inp
  unfold getHigh
  dsimp only
  split
  · split
    · exact ⟨hd, rfl⟩
    · have h1 := endOfLine_inp (mbtowc (b :: s.inp.takeWhile isFollow)).1
        (({ s with inp := s.inp.dropWhile isFollow } : LS).reportMb
          (mbtowc (b :: s.inp.takeWhile isFollow)).2)
      have h2 := reportMb_fields ({ s with inp := s.inp.dropWhile isFollow } : LS)
          (mbtowc (b :: s.inp.takeWhile isFollow)).2
      rw [h2.1, h2.2] at h1
      exact ⟨by have := h1.1; dsimp only at this; omega, h1.2⟩
  · exact ⟨hd, rfl⟩

/-- What reading a character does to the amount left. -/
theorem getc_amount (s : LS) :
    (getc s).2.un.length = s.un.length - 1 ∧ (getc s).2.rem ≤ s.rem ∧
    ((getc s).1 ≠ eof → (getc s).2.rem < s.rem) ∧
    (s.un = [] → s.inp = [] → (getc s) = (eof, s)) ∧
    ((getc s).2.rem = s.rem → s.un = [] ∧ s.inp = []) := by
  unfold getc LS.rem
  split
  · rename_i c un h
    simp [h]
  · rename_i h
    split
    · rename_i h2; simp [h, h2]
    · rename_i b rest h2
      dsimp only
      have h3 : ∀ t : LS, t.un = [] → t.inp = rest → ∀ r : Nat × LS,
          (r.2.inp.length ≤ t.inp.length ∧ r.2.un = t.un) →
          r.2.un.length = s.un.length - 1 ∧
          r.2.un.length + r.2.inp.length ≤ s.un.length + s.inp.length ∧
          (r.1 ≠ eof → r.2.un.length + r.2.inp.length < s.un.length + s.inp.length) ∧
          (s.un = [] → s.inp = [] → r = (eof, s)) ∧
          (r.2.un.length + r.2.inp.length = s.un.length + s.inp.length → s.un = [] ∧ s.inp = []) := by
        intro t hu hi r hr
        have hl : s.inp.length = t.inp.length + 1 := by rw [h2, hi]; rfl
        have hul : t.un.length = 0 := by rw [hu]; rfl
        have hsl : s.un.length = 0 := by rw [h]; rfl
        rw [hr.2]
        have h5 := hr.1
        refine ⟨by omega, by omega, fun _ => by omega, ?_, fun h' => by omega⟩
        intro _ h'
        rw [h2] at h'
        cases h'
      split
      · exact h3 ({ s with inp := rest }) h rfl _ (getHigh_inp b _)
      · exact h3 ({ s with inp := rest }) h rfl _ (endOfLine_inp b _)

theorem getc_res {s0 s s' : LS} {k R c : Nat} (h : Res s0 k R s) (hg : getc s = (c, s')) :
    Got s0 (k - 1) R c s' := by
  obtain ⟨h1, h2, h3, _, _⟩ := getc_amount s
  rw [hg] at h1 h2 h3
  have hr := h.reach.getc
  rw [hg] at hr
  have hu := h.un
  have hre := h.rem
  refine ⟨.inr (.inr ⟨s, h.reach, by rw [hg]⟩), ⟨hr, ?_, ?_⟩, ?_⟩
  · dsimp only at h1; omega
  · dsimp only at h2; omega
  · intro hc; have := h3 hc; dsimp only at this; omega

theorem ungetc_amount (c : Nat) (s : LS) :
    (ungetc c s).un.length ≤ s.un.length + 1 ∧ (ungetc c s).rem ≤ s.rem + 1 ∧
    (c = eof → ungetc c s = s) := by
  unfold ungetc
  split
  · exact ⟨by omega, by omega, fun _ => rfl⟩
  · rename_i h
    refine ⟨?_, ?_, fun h' => absurd (.inl h') h⟩
    · split
      · simp [LS.throw]
      · split
        · simp [LS.throw]
        · simp
    · split
      · simp [LS.throw, LS.rem]
      · split
        · simp [LS.throw, LS.rem]
        · simp [LS.rem]; omega

theorem Got.unget {s0 s : LS} {k R c : Nat} (h : Got s0 k R c s) (hk : k ≤ 3) :
    Res s0 (k + 1) R (ungetc c s) := by
  obtain ⟨h1, h2, h3⟩ := ungetc_amount c s
  have hu := h.res.un
  have hr := h.res.rem
  refine ⟨?_, by omega, ?_⟩
  · rcases h.chr with hc | hc | ⟨t, ht, hc⟩
    · exact .unget h.res.reach (by omega) h.res.reach (.inl hc)
    · have : ungetc c s = s := by unfold ungetc; rw [if_pos (.inr hc)]
      rw [this]; exact h.res.reach
    · exact .unget h.res.reach (by omega) ht (.inr hc)
  · by_cases hc : c = eof
    · rw [h3 hc]; exact hr
    · have := h.lt hc; omega

/-- The lookahead character c, already read, is still to be pushed back on a later state. -/
theorem Got.keep {s0 s s' : LS} {k k' R c : Nat} (h : Got s0 k R c s) (h' : Res s0 k' (R - 1) s')
    (hne : c ≠ eof) : Got s0 k' R c s' :=
  ⟨h.chr, h'.mono (Nat.le_refl _) (by omega), fun _ => by have := h.lt hne; have := h'.rem; omega⟩

theorem Got.dec {s0 s : LS} {k R c : Nat} (h : Got s0 k R c s) (hne : c ≠ eof) :
    Res s0 k (R - 1) s ∧ 1 ≤ R := by
  have := h.lt hne
  exact ⟨⟨h.res.reach, h.res.un, by omega⟩, by omega⟩

theorem Res.report {s0 s : LS} {k R : Nat} (h : Res s0 k R s) (r : Rpt) : Res s0 k R (s.report r) :=
  ⟨.report r h.reach, h.un, h.rem⟩

theorem Res.reportIf {s0 s : LS} {k R : Nat} (h : Res s0 k R s) (b : Bool) (r : Rpt) :
    Res s0 k R (s.reportIf b r) := by
  cases b
  · exact h
  · exact h.report r

theorem Res.reportWc {s0 s : LS} {k R : Nat} (h : Res s0 k R s) (e : Option WcErr) :
    Res s0 k R (s.reportWc e) := by
  cases e
  · exact h
  · exact h.report _

theorem Res.reportMb {s0 s : LS} {k R : Nat} (h : Res s0 k R s) (e : Option MbErr) :
    Res s0 k R (s.reportMb e) := by
  cases e
  · exact h
  · exact h.report _

theorem Res.put {s0 s s' : LS} {k R c : Nat} {str str' : Str} (h : Res s0 k R s)
    (hp : put c str s = (str', s')) : Res s0 k R s' := by
  unfold Lex.put at hp
  have := (Prod.mk.inj hp).2
  rw [← this]
  exact h.reportWc _

theorem Res.start {s0 s : LS} {k R : Nat} (h : Res s0 k R s) :
    Res s0 k R { s with start := s.pos } := ⟨.start h.reach, h.un, h.rem⟩

/-! ### Characters that are not EOF -/

theorem isHex_ne {c : Nat} (h : isHex c = true) : c ≠ eof := by
  rintro rfl; revert h; decide
theorem isDigit_ne {c : Nat} (h : isDigit c = true) : c ≠ eof := by
  rintro rfl; revert h; decide
theorem isSpace_ne {c : Nat} (h : isSpace c = true) : c ≠ eof := by
  rintro rfl; revert h; decide
theorem isVariable_ne {c : Nat} (h : isVariable c = true) : c ≠ eof := by
  rintro rfl; revert h; decide
theorem isIdentifier_ne {c : Nat} (h : isIdentifier c = true) : c ≠ eof := by
  rintro rfl; revert h; decide
theorem isStartIdentifier_ne {c : Nat} (h : isStartIdentifier c = true) : c ≠ eof := by
  rintro rfl; revert h; decide
theorem isHashCharacter_ne {c : Nat} (h : isHashCharacter c = true) : c ≠ eof := by
  rintro rfl; revert h; decide

/-! ### escape() -/

theorem escLoop_res {s0 : LS} {R : Nat} : ∀ (n wc : Nat) (s : LS) (k : Nat), 1 ≤ k → k ≤ 3 →
    Res s0 k R s → Res s0 k R (escLoop n wc s).2 := by
  intro n
  induction n with
  | zero => intro wc s k h1 h3 h; exact h
  | succ n ih =>
    intro wc s k h1 h3 h
    unfold escLoop
    rcases hg : getc s with ⟨c, s1⟩
    have hG := getc_res h hg
    dsimp only
    have hk : Res s0 k R s1 := hG.res.mono (by omega) (Nat.le_refl _)
    by_cases hx : isHex c = true
    · rw [if_pos hx]
      by_cases hw : 16 * wc + hexVal c ≥ 0x110000
      · rw [if_pos hw]; exact hk.report _
      · rw [if_neg hw]; exact ih _ _ _ h1 h3 hk
    · rw [if_neg hx]
      dsimp only
      split
      · exact hk
      · exact (hG.unget (by omega)).mono (by omega) (Nat.le_refl _)

theorem escEnd_res {s0 : LS} {k R : Nat} (r : Option Nat × LS) (h : Res s0 k R r.2) :
    Res s0 k R (escEnd r).2 := by
  rcases r with ⟨_ | wc, s⟩
  · exact h
  · unfold escEnd
    dsimp only
    split
    · exact h.report _
    · exact h

theorem escape_res {s0 s s' : LS} {R k c : Nat} (h1 : 1 ≤ k) (h3 : k ≤ 3) (h : Res s0 k R s)
    (he : escape s = (c, s')) : Res s0 k R s' := by
  have : Res s0 k R (escape s).2 := by
    unfold escape
    rcases hg : getc s with ⟨c, s1⟩
    have hG := (getc_res h hg).res.mono (show k - 1 ≤ k by omega) (Nat.le_refl _)
    dsimp only
    split
    · exact hG.report _
    · split
      · exact hG.report _
      · split
        · exact hG.report _
        · split
          · exact escEnd_res _ (escLoop_res _ _ _ k h1 h3 hG)
          · exact hG
  rw [he] at this
  exact this

/-! ### string() -/

theorem strEscape_res {s0 s s' : LS} {R k c : Nat} (h1 : 1 ≤ k) (h3 : k ≤ 3) (h : Res s0 k R s)
    (he : strEscape s = (c, s')) : Res s0 k R s' := by
  have : Res s0 k R (strEscape s).2 := by
    unfold strEscape
    rcases hg : getc s with ⟨c, s1⟩
    have hG := (getc_res h hg)
    have hG' := hG.res.mono (show k - 1 ≤ k by omega) (Nat.le_refl _)
    dsimp only
    split
    · exact hG'
    · split
      · exact hG'
      · split
        · exact hG'.report _
        · rcases hx : escape (ungetc c s1) with ⟨d, s2⟩
          exact escape_res h1 h3 ((hG.unget (by omega)).mono (by omega) (Nat.le_refl _)) hx
  rw [he] at this
  exact this

theorem strPut_res {s0 s s' : LS} {R k c : Nat} {str str' : Str} (h : Res s0 k R s)
    (he : strPut c str s = (str', s')) : Res s0 k R s' := by
  unfold strPut at he
  split at he
  · cases he; exact h
  · exact h.put he

theorem lexString_res {s0 : LS} (q : Nat) : ∀ (f : Nat) (str : Str) (s : LS) (R : Nat), R < f →
    Res s0 2 R s → Res s0 2 R (lexString q f str s).2 := by
  intro f
  induction f with
  | zero => intro _ _ _ h; omega
  | succ f ih =>
    intro str s R hf h
    unfold lexString
    rcases hg : getc s with ⟨c, s1⟩
    have hG := getc_res h hg
    have hG' := hG.res.mono (show 2 - 1 ≤ 2 by omega) (Nat.le_refl _)
    dsimp only
    by_cases hc : c = eof
    · rw [if_pos hc]; exact hG'.report _
    rw [if_neg hc]
    have hd := hG.dec hc
    by_cases h10 : c = 10
    · rw [if_pos h10]; exact (hG.unget (by omega)).report _
    rw [if_neg h10]
    by_cases hq : c = q
    · rw [if_pos hq]; exact hG'
    rw [if_neg hq]
    by_cases h92 : c = 92
    · rw [if_pos h92]
      rcases he : strEscape s1 with ⟨d, s2⟩
      have h2 := strEscape_res (by omega) (by omega) hd.1 he
      dsimp only
      rcases hp : strPut d str s2 with ⟨str', s3⟩
      have h3 := strPut_res h2 hp
      exact (ih _ _ _ (by omega) (h3.mono (by omega) (Nat.le_refl _))).mono (by omega) (by omega)
    · rw [if_neg h92]
      rcases hp : strPut c str s1 with ⟨str', s3⟩
      have h3 := strPut_res hd.1 hp
      exact (ih _ _ _ (by omega) (h3.mono (by omega) (Nat.le_refl _))).mono (by omega) (by omega)

end Csspp.Lex
