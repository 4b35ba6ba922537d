import Verif.Lemmas.NthChild
import Verif.Lemmas.Digits

namespace Csspp.Nth
open Csspp.Spec

/-! ### The integer tokens do not overflow on short digit runs -/

theorem digits_ub (ds r : Str) (v : Int) (c : Nat) (k : Nat)
    (hds : ∀ c ∈ ds, 48 ≤ c ∧ c ≤ 57) (hc : 48 ≤ c ∧ c ≤ 57) (hr : NoDigit r)
    (hb : ∀ x ∈ r, ByteOK x) (h0 : 0 ≤ v) (hv : v < 10 ^ k) (hk : k + ds.length ≤ 17) :
    (digits v c false (ds ++ r)).ub = false := by
  have hp : ((10 : Int) ^ k) ≤ 10 ^ 17 := by
    have : (10 : Nat) ^ k ≤ 10 ^ 17 := Nat.pow_le_pow_right (by omega) (by omega)
    exact_mod_cast this
  have hs : stepOverflows v c = false := by
    unfold stepOverflows maxI64
    simp only [Bool.or_eq_false_iff, decide_eq_false_iff_not]
    have : (10 : Int) ^ 17 = 100000000000000000 := by decide
    omega
  induction ds generalizing v c k with
  | nil =>
    cases r with
    | nil => rw [List.append_nil, digits]; simp [hs]
    | cons x xs =>
      have hx := hr x xs rfl
      have hbx := hb x List.mem_cons_self
      have hw : charToWide x < 48 ∨ charToWide x > 57 := by
        unfold ByteOK at hbx; unfold charToWide; split <;> omega
      rw [List.nil_append, digits, if_pos hw]; simp [hs]
  | cons d ds ih =>
    have hd := hds d List.mem_cons_self
    have hw : charToWide d = d := charToWide_ascii (by omega)
    rw [List.cons_append, digits, if_neg (by rw [hw]; omega), hw, hs]
    simp only [List.length_cons] at hk
    have hp1 : (10 : Int) ^ (k + 1) = 10 * 10 ^ k := by rw [Int.pow_succ]; omega
    have hp2 : ((10 : Int) ^ (k + 1)) ≤ 10 ^ 17 := by
      have : (10 : Nat) ^ (k + 1) ≤ 10 ^ 17 := Nat.pow_le_pow_right (by omega) (by omega)
      exact_mod_cast this
    have hval : v * 10 + (c : Int) - 48 < 10 ^ (k + 1) := by rw [hp1]; omega
    refine ih _ d (k + 1) (fun x hx => hds x (List.mem_cons_of_mem _ hx)) hd (by omega) hval
      (by omega) hp2 ?_
    unfold stepOverflows maxI64
    simp only [Bool.or_eq_false_iff, decide_eq_false_iff_not]
    have : (10 : Int) ^ 17 = 100000000000000000 := by decide
    omega

/-- Every run of digits of the text is at most 18 digits long. -/
def ShortRuns (s : Str) : Prop := ∀ d, Digits d → d <:+: s → d.length ≤ 18

theorem ShortRuns.suffix {a b : Str} (h : ShortRuns (a ++ b)) : ShortRuns b :=
  fun d hd hi => h d hd (hi.trans (List.suffix_append a b).isInfix)

theorem evenTail_ub (r : Str) : (evenTail r).ub = false := by
  unfold evenTail; dsimp only; repeat' split
  all_goals rfl

theorem oddTail_ub (r : Str) : (oddTail r).ub = false := by
  unfold oddTail; dsimp only; repeat' split
  all_goals rfl

theorem tokS_ub (s : Str) (hb : ∀ x ∈ s, ByteOK x) (hs : ShortRuns s) : (tokS s).ub = false := by
  obtain ⟨sp, r, rfl, hsp, hr⟩ := split_spaces s
  rw [tokS_skip r hsp]
  cases r with
  | nil => rfl
  | cons c cs =>
    have hbc : ByteOK c := hb c (by simp)
    rw [tokS_char cs hbc (hr c cs rfl)]
    unfold tokenOf
    split
    · rfl
    · split
      · rename_i hd
        have hcd : 48 ≤ c ∧ c ≤ 57 := by
          unfold ByteOK at hbc
          revert hd; unfold charToWide; split <;> omega
        obtain ⟨d, r, e, h1, h2⟩ := split_digits cs
        have hbr : ∀ x ∈ r, ByteOK x := by
          intro x hx; apply hb x; rw [e]; simp [hx]
        have hlen : (c :: d).length ≤ 18 := by
          apply hs
          · refine ⟨by simp, ?_⟩
            intro x hx
            rcases List.mem_cons.mp hx with rfl | hx
            · exact hcd
            · exact h1 x hx
          · exact ⟨sp, r, by rw [e]; simp⟩
        rw [e, charToWide_ascii (by omega)]
        exact digits_ub d r 0 c 0 h1 hcd h2 hbr (by omega) (by decide) (by simpa using hlen)
      · repeat' split
        all_goals first | rfl | exact evenTail_ub _ | exact oddTail_ub _

/-! ### parse() accepts the texts of the grammar -/

theorem noDigit_append {a b : Str} (ha : ∀ c t, a = c :: t → ¬ (48 ≤ c ∧ c ≤ 57))
    (hb : NoDigit b) : NoDigit (a ++ b) := by
  intro c t e
  cases a with
  | nil => exact hb c t e
  | cons x xs => cases e; exact ha _ xs rfl

theorem spaces_noDigit {s : Str} (h : Spaces s) : NoDigit s := by
  intro c t e; have := h c (by rw [e]; simp); omega

theorem noDigit_cons {c : Nat} (t : Str) (h : ¬ (48 ≤ c ∧ c ≤ 57)) : NoDigit (c :: t) := by
  intro x t' e; cases e; exact h

/-- After the optional sign. -/
theorem parseA_accepts_b (n : Nth) (σ : Int) {s2 d s3 : Str} (h2 : Spaces s2) (hd : Digits d)
    (h3 : Spaces s3) :
    (parseA n σ (tokS (s2 ++ (d ++ s3)))).ok = true ∧
    (parseA n σ (tokS (s2 ++ (d ++ s3)))).nth =
      { n with a := 0, b := wrap32 (σ * decVal d) } := by
  rw [tokS_skip _ h2]
  have hb3 : ∀ x ∈ s3, ByteOK x := fun x hx => by have := h3 x hx; unfold ByteOK; omega
  have ht := tokS_digits hd (spaces_noDigit h3) hb3
  unfold parseA
  rw [if_neg (by rw [ht.1]; simp)]
  dsimp only
  rw [token_rep ht.2.2, if_pos (tokS_eof h3)]
  dsimp only
  rw [ht.2.1, Int.mul_comm]
  exact ⟨rfl, rfl⟩

theorem parseA_accepts_anb (n : Nth) (σ τ : Int) {s2 d s3 nn s4 h s5 e s6 : Str}
    (h2 : Spaces s2) (hd : Digits d) (h3 : Spaces s3) (hn : lower nn = b!"n") (h4 : Spaces s4)
    (hh : MustSign h τ) (h5 : Spaces s5) (he : Digits e) (h6 : Spaces s6) :
    (parseA n σ (tokS (s2 ++ (d ++ (s3 ++ (nn ++ (s4 ++ (h ++ (s5 ++ (e ++ s6)))))))))).ok = true ∧
    (parseA n σ (tokS (s2 ++ (d ++ (s3 ++ (nn ++ (s4 ++ (h ++ (s5 ++ (e ++ s6)))))))))).nth =
      { n with a := wrap32 (σ * decVal d), b := wrap32 (τ * decVal e) } := by
  obtain ⟨nc, rfl, hnc⟩ := lower_one hn
  have hnb : nc = 110 ∨ nc = 78 := by
    have := (lowerByte_eq (c := nc) (k := 110) (by omega) (by omega)).mp hnc; omega
  have hbs : ∀ s : Str, Spaces s → ∀ x ∈ s, ByteOK x := fun s hs x hx => by
    have := hs x hx; unfold ByteOK; omega
  have hbe : ∀ x ∈ e, ByteOK x := fun x hx => by have := he.2 x hx; unfold ByteOK; omega
  have hbh : ∀ x ∈ h, ByteOK x := by
    cases hh <;> (intro x hx; simp at hx; subst hx; unfold ByteOK; omega)
  have hbr : ∀ x ∈ s3 ++ ([nc] ++ (s4 ++ (h ++ (s5 ++ (e ++ s6))))), ByteOK x := by
    intro x hx
    simp only [List.mem_append, List.mem_singleton] at hx
    rcases hx with hx | rfl | hx | hx | hx | hx | hx
    · exact hbs _ h3 x hx
    · unfold ByteOK; omega
    · exact hbs _ h4 x hx
    · exact hbh x hx
    · exact hbs _ h5 x hx
    · exact hbe x hx
    · exact hbs _ h6 x hx
  rw [tokS_skip _ h2]
  have ht := tokS_digits (r := s3 ++ ([nc] ++ (s4 ++ (h ++ (s5 ++ (e ++ s6)))))) hd
    (noDigit_append (spaces_noDigit h3) (noDigit_cons _ (by omega))) hbr
  unfold parseA
  rw [if_neg (by rw [ht.1]; simp)]
  dsimp only
  rw [token_rep ht.2.2, ht.2.1, tokS_skip _ h3, List.singleton_append, tokS_n _ hnc]
  dsimp only
  rw [if_neg (by decide), if_neg (by decide)]
  unfold parseB
  dsimp only
  rw [token_rep (Rep.zero _), tokS_skip _ h4]
  have hte := tokS_digits he (spaces_noDigit h6) (hbs _ h6)
  have fin : ∀ ub, (parseB2 n (decVal d * σ) τ ub ⟨0, s5 ++ (e ++ s6)⟩).ok = true ∧
      (parseB2 n (decVal d * σ) τ ub ⟨0, s5 ++ (e ++ s6)⟩).nth =
        { n with a := wrap32 (σ * decVal d), b := wrap32 (τ * decVal e) } := by
    intro ub
    unfold parseB2
    dsimp only
    rw [token_rep (Rep.zero _), tokS_skip _ h5, if_neg (by rw [hte.1]; decide),
      token_rep hte.2.2, if_pos (tokS_eof h6)]
    dsimp only
    rw [hte.2.1, Int.mul_comm, Int.mul_comm τ]
    exact ⟨rfl, rfl⟩
  cases hh with
  | plus =>
    rw [List.singleton_append, tokS_plus]
    exact fin _
  | minus =>
    rw [List.singleton_append, tokS_minus]
    exact fin _

theorem parse_accepts (n : Nth) (s : Str) (a b : Int) (h : AnB s a b) :
    (n.parse s).ok = true ∧
    (n.parse s).nth = { error := none, a := wrap32 a, b := wrap32 b } := by
  unfold Nth.parse
  dsimp only
  rw [token_rep (Rep.zero s)]
  cases h with
  | even h1 hw h2 =>
    rw [List.append_assoc, tokS_skip _ h1, tokS_even _ hw]
    dsimp only
    rw [if_pos rfl, token_rep (Rep.zero _), if_pos (tokS_eof h2), show wrap32 2 = 2 by decide +kernel,
      show wrap32 0 = 0 by decide +kernel]
    exact ⟨rfl, rfl⟩
  | odd h1 hw h2 =>
    rw [List.append_assoc, tokS_skip _ h1, tokS_odd _ hw]
    dsimp only
    rw [if_neg (by decide), if_pos rfl, token_rep (Rep.zero _), if_pos (tokS_eof h2),
      show wrap32 2 = 2 by decide +kernel, show wrap32 1 = 1 by decide +kernel]
    exact ⟨rfl, rfl⟩
  | @b s1 g σ s2 d s3 h1 hg h2 hd h3 =>
    have e0 : wrap32 0 = 0 := by decide +kernel
    rw [e0]
    simp only [List.append_assoc]
    rw [tokS_skip _ h1]
    cases hg with
    | none =>
      have hb3 : ∀ x ∈ s3, ByteOK x := fun x hx => by have := h3 x hx; unfold ByteOK; omega
      have ht := (tokS_digits hd (spaces_noDigit h3) hb3).1
      have ht' : (tokS ([] ++ (s2 ++ (d ++ s3)))).tok = .integer := by
        rw [List.nil_append, tokS_skip _ h2]; exact ht
      rw [if_neg (by rw [ht']; decide), if_neg (by rw [ht']; decide), if_neg (by rw [ht']; decide),
        if_neg (by rw [ht']; decide)]
      exact parseA_accepts_b _ 1 h2 hd h3
    | plus =>
      rw [List.singleton_append, tokS_plus]
      dsimp only
      rw [if_neg (by decide), if_neg (by decide), if_pos rfl, token_rep (Rep.zero _)]
      exact parseA_accepts_b _ 1 h2 hd h3
    | minus =>
      rw [List.singleton_append, tokS_minus]
      dsimp only
      rw [if_neg (by decide), if_neg (by decide), if_neg (by decide), if_pos rfl,
        token_rep (Rep.zero _)]
      exact parseA_accepts_b _ (-1) h2 hd h3
  | @anb s1 g σ s2 d s3 nn s4 h τ s5 e s6 h1 hg h2 hd h3 hn h4 hh h5 he h6 =>
    simp only [List.append_assoc]
    rw [tokS_skip _ h1]
    cases hg with
    | none =>
      obtain ⟨nc, rfl, hnc⟩ := lower_one hn
      have hnb : nc = 110 ∨ nc = 78 := by
        have := (lowerByte_eq (c := nc) (k := 110) (by omega) (by omega)).mp hnc; omega
      have key := parseA_accepts_anb { n with error := none } 1 τ h2 hd h3 hn h4 hh h5 he h6
      have ht' : (tokS ([] ++ (s2 ++ (d ++ (s3 ++ ([nc] ++ (s4 ++ (h ++ (s5 ++ (e ++ s6)))))))))).tok
          = .integer := by
        have := key.1
        unfold parseA at this
        rw [List.nil_append]
        revert this
        split
        · intro h; simp at h
        · rename_i hx
          intro _
          exact Decidable.of_not_not hx
      rw [if_neg (by rw [ht']; decide), if_neg (by rw [ht']; decide), if_neg (by rw [ht']; decide),
        if_neg (by rw [ht']; decide)]
      exact key
    | plus =>
      rw [List.singleton_append, tokS_plus]
      dsimp only
      rw [if_neg (by decide), if_neg (by decide), if_pos rfl, token_rep (Rep.zero _)]
      exact parseA_accepts_anb _ 1 τ h2 hd h3 hn h4 hh h5 he h6
    | minus =>
      rw [List.singleton_append, tokS_minus]
      dsimp only
      rw [if_neg (by decide), if_neg (by decide), if_neg (by decide), if_pos rfl,
        token_rep (Rep.zero _)]
      exact parseA_accepts_anb _ (-1) τ h2 hd h3 hn h4 hh h5 he h6

/-! ### parse() accepts nothing else -/

theorem TokView.of_eof {s : Str} {t : TokRes} (v : TokView s t) (h : t.tok = .eof) : Spaces s := by
  cases v <;> simp_all

theorem TokView.of_integer {s : Str} {t : TokRes} (v : TokView s t) (h : t.tok = .integer) :
    ∃ sp d r, s = sp ++ d ++ r ∧ Spaces sp ∧ Digits d ∧ NoDigit r ∧ t.value = decVal d ∧
      Rep t.inp r := by
  cases v <;> simp_all
  exact ⟨_, _, _, rfl, by assumption, by assumption, by assumption, rfl, by assumption⟩

theorem TokView.of_n {s : Str} {t : TokRes} (v : TokView s t) (h : t.tok = .n) :
    ∃ sp c r, s = sp ++ [c] ++ r ∧ Spaces sp ∧ lowerByte c = 110 ∧ Rep t.inp r := by
  cases v <;> simp_all
  exact ⟨_, _, _, rfl, by assumption, by assumption, by assumption⟩

theorem TokView.of_plus {s : Str} {t : TokRes} (v : TokView s t) (h : t.tok = .plus) :
    ∃ sp r, s = sp ++ [43] ++ r ∧ Spaces sp ∧ Rep t.inp r := by
  cases v <;> simp_all
  exact ⟨_, _, rfl, by assumption, by assumption⟩

theorem TokView.of_minus {s : Str} {t : TokRes} (v : TokView s t) (h : t.tok = .minus) :
    ∃ sp r, s = sp ++ [45] ++ r ∧ Spaces sp ∧ Rep t.inp r := by
  cases v <;> simp_all
  exact ⟨_, _, rfl, by assumption, by assumption⟩

theorem TokView.of_even {s : Str} {t : TokRes} (v : TokView s t) (h : t.tok = .even) :
    ∃ sp w r, s = sp ++ w ++ r ∧ Spaces sp ∧ lower w = b!"even" ∧ Rep t.inp r := by
  cases v <;> simp_all
  exact ⟨_, _, _, rfl, by assumption, by assumption, by assumption⟩

theorem TokView.of_odd {s : Str} {t : TokRes} (v : TokView s t) (h : t.tok = .odd) :
    ∃ sp w r, s = sp ++ w ++ r ∧ Spaces sp ∧ lower w = b!"odd" ∧ Rep t.inp r := by
  cases v <;> simp_all
  exact ⟨_, _, _, rfl, by assumption, by assumption, by assumption⟩

/-- Bytes of a suffix. -/
theorem bytes_suffix {a b s : Str} (e : s = a ++ b) (hb : ∀ x ∈ s, ByteOK x) : ∀ x ∈ b, ByteOK x :=
  fun x hx => hb x (by rw [e]; exact List.mem_append_right _ hx)

theorem parseB2_accepted (n : Nth) (first τ : Int) (ub : Bool) (i : In) (s : Str) (hi : Rep i s)
    (hb : ∀ x ∈ s, ByteOK x) (hok : (parseB2 n first τ ub i).ok = true) :
    ∃ s5 e s6, s = s5 ++ e ++ s6 ∧ Spaces s5 ∧ Digits e ∧ Spaces s6 ∧
      (parseB2 n first τ ub i).nth = { n with a := wrap32 first, b := wrap32 (τ * decVal e) } := by
  unfold parseB2 at *
  dsimp only at *
  rw [token_rep hi] at *
  by_cases hint : (tokS s).tok = .integer
  · obtain ⟨sp, d, r, e, h1, h2, h3, h4, h5⟩ := (tokView s hb).of_integer hint
    rw [if_neg (by rw [hint]; decide), token_rep h5] at *
    by_cases heof : (tokS r).tok = .eof
    · rw [if_pos heof]
      refine ⟨sp, d, r, e, h1, h2, (tokView r (bytes_suffix e hb)).of_eof heof, ?_⟩
      dsimp only
      rw [h4, Int.mul_comm]
    · rw [if_neg heof] at hok; simp at hok
  · rw [if_pos hint] at hok; simp at hok

theorem parseB_accepted (n : Nth) (first : Int) (ub : Bool) (i : In) (s : Str) (hi : Rep i s)
    (hb : ∀ x ∈ s, ByteOK x) (hok : (parseB n first ub i).ok = true) :
    ∃ s4 h τ s5 e s6, s = s4 ++ h ++ s5 ++ e ++ s6 ∧ Spaces s4 ∧ MustSign h τ ∧ Spaces s5 ∧
      Digits e ∧ Spaces s6 ∧
      (parseB n first ub i).nth = { n with a := wrap32 first, b := wrap32 (τ * decVal e) } := by
  unfold parseB at *
  dsimp only at *
  rw [token_rep hi] at *
  by_cases hp : (tokS s).tok = .plus
  · obtain ⟨sp, r, e, h1, h2⟩ := (tokView s hb).of_plus hp
    rw [if_pos hp] at *
    obtain ⟨s5, d, s6, e2, h3, h4, h5, h6⟩ :=
      parseB2_accepted n first 1 ub _ r h2 (bytes_suffix e hb) hok
    exact ⟨sp, _, 1, s5, d, s6, by rw [e, e2]; simp, h1, .plus, h3, h4, h5, h6⟩
  · rw [if_neg hp] at *
    by_cases hm : (tokS s).tok = .minus
    · obtain ⟨sp, r, e, h1, h2⟩ := (tokView s hb).of_minus hm
      rw [if_pos hm] at *
      obtain ⟨s5, d, s6, e2, h3, h4, h5, h6⟩ :=
        parseB2_accepted n first (-1) ub _ r h2 (bytes_suffix e hb) hok
      exact ⟨sp, _, -1, s5, d, s6, by rw [e, e2]; simp, h1, .minus, h3, h4, h5, h6⟩
    · rw [if_neg hm] at hok; simp at hok

/-- What follows the optional sign. -/
theorem parseA_accepted (n : Nth) (σ : Int) (s : Str)
    (hb : ∀ x ∈ s, ByteOK x) (hok : (parseA n σ (tokS s)).ok = true) :
    (∃ s2 d s3, s = s2 ++ d ++ s3 ∧ Spaces s2 ∧ Digits d ∧ Spaces s3 ∧
      (parseA n σ (tokS s)).nth = { n with a := 0, b := wrap32 (σ * decVal d) }) ∨
    (∃ s2 d s3 nn s4 h τ s5 e s6, s = s2 ++ d ++ s3 ++ nn ++ s4 ++ h ++ s5 ++ e ++ s6 ∧
      Spaces s2 ∧ Digits d ∧ Spaces s3 ∧ lower nn = b!"n" ∧ Spaces s4 ∧ MustSign h τ ∧
      Spaces s5 ∧ Digits e ∧ Spaces s6 ∧
      (parseA n σ (tokS s)).nth =
        { n with a := wrap32 (σ * decVal d), b := wrap32 (τ * decVal e) }) := by
  unfold parseA at *
  dsimp only at *
  by_cases hint : (tokS s).tok = .integer
  · obtain ⟨s2, d, r, e, h1, h2, h3, h4, h5⟩ := (tokView s hb).of_integer hint
    have hbr := bytes_suffix e hb
    rw [if_neg (by rw [hint]; decide), token_rep h5, h4] at hok ⊢
    by_cases heof : (tokS r).tok = .eof
    · left
      rw [if_pos heof]
      exact ⟨s2, d, r, e, h1, h2, (tokView r hbr).of_eof heof, by dsimp only; rw [Int.mul_comm]⟩
    · rw [if_neg heof] at *
      by_cases hn : (tokS r).tok = .n
      · right
        rw [if_neg (by rw [hn]; decide)] at *
        obtain ⟨s3, c, r2, e2, h6, h7, h8⟩ := (tokView r hbr).of_n hn
        obtain ⟨s4, h, τ, s5, ee, s6, e3, h9, h10, h11, h12, h13, h14⟩ :=
          parseB_accepted n _ _ _ r2 h8 (bytes_suffix e2 hbr) hok
        refine ⟨s2, d, s3, [c], s4, h, τ, s5, ee, s6, by rw [e, e2, e3]; simp, h1, h2, h6, ?_, h9,
          h10, h11, h12, h13, ?_⟩
        · unfold lower; rw [List.map_cons, h7]; rfl
        · rw [h14, Int.mul_comm]
      · rw [if_pos hn] at hok; simp at hok
  · rw [if_pos hint] at hok; simp at hok

theorem parse_accepted (n : Nth) (s : Str) (hb : ∀ x ∈ s, ByteOK x) (hok : (n.parse s).ok = true) :
    ∃ a b, AnB s a b ∧ (n.parse s).nth = { error := none, a := wrap32 a, b := wrap32 b } := by
  unfold Nth.parse at *
  dsimp only at *
  rw [token_rep (Rep.zero s)] at *
  -- what follows an optional sign
  have fin : ∀ (s1 g r : Str) (σ : Int), s = s1 ++ g ++ r → Spaces s1 → OptSign g σ →
      (parseA { n with error := none } σ (tokS r)).ok = true →
      ∃ a b, AnB s a b ∧ (parseA { n with error := none } σ (tokS r)).nth =
        { error := none, a := wrap32 a, b := wrap32 b } := by
    intro s1 g r σ e h1 hg hok
    rcases parseA_accepted _ σ r (bytes_suffix e hb) hok with
      ⟨s2, d, s3, e2, h2, h3, h4, h5⟩ |
      ⟨s2, d, s3, nn, s4, h, τ, s5, ee, s6, e2, h2, h3, h4, hn, h6, h7, h8, h9, h10, h11⟩
    · refine ⟨0, σ * decVal d, ?_, ?_⟩
      · rw [e, e2]
        have := AnB.b (s1 := s1) (g := g) (s2 := s2) (d := d) (s3 := s3) h1 hg h2 h3 h4
        simpa using this
      · rw [h5, show wrap32 0 = 0 by decide +kernel]
    · refine ⟨σ * decVal d, τ * decVal ee, ?_, h11⟩
      rw [e, e2]
      have := AnB.anb (s1 := s1) h1 hg h2 h3 h4 hn h6 h7 h8 h9 h10
      simpa using this
  by_cases he : (tokS s).tok = .even
  · rw [if_pos he] at *
    obtain ⟨sp, w, r, e, h1, h2, h3⟩ := (tokView s hb).of_even he
    rw [token_rep h3] at *
    by_cases heof : (tokS r).tok = .eof
    · rw [if_pos heof]
      refine ⟨2, 0, ?_, ?_⟩
      · rw [e]; exact .even h1 h2 ((tokView r (bytes_suffix e hb)).of_eof heof)
      · rw [show wrap32 2 = 2 by decide +kernel, show wrap32 0 = 0 by decide +kernel]
    · rw [if_neg heof] at hok; simp at hok
  · rw [if_neg he] at *
    by_cases ho : (tokS s).tok = .odd
    · rw [if_pos ho] at *
      obtain ⟨sp, w, r, e, h1, h2, h3⟩ := (tokView s hb).of_odd ho
      rw [token_rep h3] at *
      by_cases heof : (tokS r).tok = .eof
      · rw [if_pos heof]
        refine ⟨2, 1, ?_, ?_⟩
        · rw [e]; exact .odd h1 h2 ((tokView r (bytes_suffix e hb)).of_eof heof)
        · rw [show wrap32 2 = 2 by decide +kernel, show wrap32 1 = 1 by decide +kernel]
      · rw [if_neg heof] at hok; simp at hok
    · rw [if_neg ho] at *
      by_cases hp : (tokS s).tok = .plus
      · rw [if_pos hp] at *
        obtain ⟨sp, r, e, h1, h2⟩ := (tokView s hb).of_plus hp
        rw [token_rep h2] at *
        exact fin sp [43] r 1 e h1 .plus hok
      · rw [if_neg hp] at *
        by_cases hm : (tokS s).tok = .minus
        · rw [if_pos hm] at *
          obtain ⟨sp, r, e, h1, h2⟩ := (tokView s hb).of_minus hm
          rw [token_rep h2] at *
          exact fin sp [45] r (-1) e h1 .minus hok
        · rw [if_neg hm] at *
          exact fin [] [] s 1 rfl (fun _ h => by cases h) .none hok

/-! ### No undefined behaviour on short runs of digits -/

theorem parseB2_ub (n : Nth) (first τ : Int) (i : In) (s : Str) (hi : Rep i s)
    (hb : ∀ x ∈ s, ByteOK x) (hs : ShortRuns s) : (parseB2 n first τ false i).ub = false := by
  unfold parseB2
  dsimp only
  rw [token_rep hi]
  by_cases hint : (tokS s).tok = .integer
  · obtain ⟨sp, d, r, e, h1, h2, h3, h4, h5⟩ := (tokView s hb).of_integer hint
    rw [if_neg (by rw [hint]; decide), token_rep h5, tokS_ub s hb hs,
      tokS_ub r (bytes_suffix e hb) (e ▸ hs).suffix]
    split <;> rfl
  · rw [if_pos hint]

theorem parseB_ub (n : Nth) (first : Int) (i : In) (s : Str) (hi : Rep i s)
    (hb : ∀ x ∈ s, ByteOK x) (hs : ShortRuns s) : (parseB n first false i).ub = false := by
  unfold parseB
  dsimp only
  rw [token_rep hi]
  split
  · rename_i h
    obtain ⟨sp, r, e, h1, h2⟩ := (tokView s hb).of_plus h
    exact parseB2_ub _ _ _ _ r h2 (bytes_suffix e hb) (e ▸ hs).suffix
  · split
    · rename_i h
      obtain ⟨sp, r, e, h1, h2⟩ := (tokView s hb).of_minus h
      exact parseB2_ub _ _ _ _ r h2 (bytes_suffix e hb) (e ▸ hs).suffix
    · dsimp only; rw [tokS_ub s hb hs]; rfl

theorem parseA_ub (n : Nth) (σ : Int) (s : Str) (hb : ∀ x ∈ s, ByteOK x) (hs : ShortRuns s) :
    (parseA n σ (tokS s)).ub = false := by
  have hu := tokS_ub s hb hs
  unfold parseA
  dsimp only
  by_cases hint : (tokS s).tok = .integer
  · obtain ⟨sp, d, r, e, h1, h2, h3, h4, h5⟩ := (tokView s hb).of_integer hint
    have hbr := bytes_suffix e hb
    have hsr : ShortRuns r := (e ▸ hs).suffix
    rw [if_neg (by rw [hint]; decide), token_rep h5, hu]
    split
    · rfl
    · split
      · dsimp only; rw [tokS_ub r hbr hsr]; rfl
      · rename_i h
        obtain ⟨s3, c, r2, e2, h6, h7, h8⟩ := (tokView r hbr).of_n (Decidable.of_not_not h)
        exact parseB_ub _ _ _ r2 h8 (bytes_suffix e2 hbr) (e2 ▸ hsr).suffix
  · rw [if_pos hint]; exact hu

theorem parse_ub (n : Nth) (s : Str) (hb : ∀ x ∈ s, ByteOK x) (hs : ShortRuns s) :
    (n.parse s).ub = false := by
  unfold Nth.parse
  dsimp only
  rw [token_rep (Rep.zero s)]
  split
  · rename_i h
    obtain ⟨sp, w, r, e, h1, h2, h3⟩ := (tokView s hb).of_even h
    rw [token_rep h3]
    split
    · rfl
    · dsimp only; exact tokS_ub r (bytes_suffix e hb) (e ▸ hs).suffix
  · split
    · rename_i h
      obtain ⟨sp, w, r, e, h1, h2, h3⟩ := (tokView s hb).of_odd h
      rw [token_rep h3]
      split
      · rfl
      · dsimp only; exact tokS_ub r (bytes_suffix e hb) (e ▸ hs).suffix
    · split
      · rename_i h
        obtain ⟨sp, r, e, h1, h2⟩ := (tokView s hb).of_plus h
        rw [token_rep h2]
        exact parseA_ub _ _ r (bytes_suffix e hb) (e ▸ hs).suffix
      · split
        · rename_i h
          obtain ⟨sp, r, e, h1, h2⟩ := (tokView s hb).of_minus h
          rw [token_rep h2]
          exact parseA_ub _ _ r (bytes_suffix e hb) (e ▸ hs).suffix
        · exact parseA_ub _ _ s hb hs

end Csspp.Nth
