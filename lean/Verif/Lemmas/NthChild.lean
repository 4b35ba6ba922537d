import Verif.Model.NthChild
import Verif.Spec.AnB

namespace Csspp.Nth
open Csspp.Spec

/-- Bytes the reader passes on faithfully: NUL is the "nothing pushed back" mark and 0xFF reads
as EOF. -/
def ByteOK (c : Nat) : Prop := 1 ≤ c ∧ c ≤ 254

/-- The reader `i` still has to deliver exactly the text `s`. -/
def Rep (i : In) (s : Str) : Prop :=
  (i.unget = 0 ∧ i.rest = s) ∨
  (∃ c, 1 ≤ c ∧ c ≤ 254 ∧ i.unget = charToWide c ∧ s = c :: i.rest) ∨
  (i.unget = -1 ∧ i.rest = [] ∧ s = [])

theorem Rep.zero (s : Str) : Rep ⟨0, s⟩ s := .inl ⟨rfl, rfl⟩

/-- The token read from a text. -/
def tokS (s : Str) : TokRes := tokenOf (skipSpaces s).1 (skipSpaces s).2

theorem charToWide_ne_zero {c : Nat} (h : ByteOK c) : charToWide c ≠ 0 := by
  unfold ByteOK at h; unfold charToWide; split <;> omega

theorem charToWide_ne_eof {c : Nat} (h : ByteOK c) : charToWide c ≠ -1 := by
  unfold ByteOK at h; unfold charToWide; split <;> omega

theorem charToWide_ascii {c : Nat} (h : c < 128) : charToWide c = c := by
  unfold charToWide; rw [if_pos h]

theorem charToWide_eq {c k : Nat} (hc : ByteOK c) (hk : k < 128) : charToWide c = k ↔ c = k := by
  unfold ByteOK at hc; unfold charToWide; split <;> omega

theorem skipSpaces_append (sp r : Str) (h : Spaces sp) : skipSpaces (sp ++ r) = skipSpaces r := by
  induction sp with
  | nil => rfl
  | cons c cs ih =>
    have hc : c = 32 := h c List.mem_cons_self
    subst hc
    rw [List.cons_append, skipSpaces, if_pos (by decide)]
    exact ih (fun x hx => h x (List.mem_cons_of_mem _ hx))

theorem skipSpaces_spaces (sp : Str) (h : Spaces sp) : skipSpaces sp = (-1, []) := by
  have := skipSpaces_append sp [] h
  rw [List.append_nil] at this
  rw [this, skipSpaces]

theorem skipSpaces_cons (c : Nat) (r : Str) (hc : ByteOK c) (h : c ≠ 32) :
    skipSpaces (c :: r) = (charToWide c, r) := by
  rw [skipSpaces, if_neg]
  intro h'
  exact h ((charToWide_eq hc (k := 32) (by omega)).mp h')

theorem token_rep {i : In} {s : Str} (h : Rep i s) : i.token = tokS s := by
  unfold In.token tokS In.getc
  rcases h with ⟨h1, h2⟩ | ⟨c, h0, h1, h2, h3⟩ | ⟨h1, h2, h3⟩
  · subst h2
    rw [h1]
    cases hr : i.rest with
    | nil => simp [getcRest, skipSpaces]
    | cons c cs =>
      simp only [getcRest, skipSpaces]
      by_cases h : charToWide c = 32
      · simp [h]
      · simp [h]
  · have hb : ByteOK c := ⟨h0, h1⟩
    have hz := charToWide_ne_zero hb
    subst h3
    rw [h2]
    simp only [skipSpaces]
    by_cases h : charToWide c = 32
    · simp [h]
    · simp [h, hz]
  · subst h3
    simp [h1, h2, skipSpaces]

/-- `r` does not start with a digit. -/
def NoDigit (r : Str) : Prop := ∀ c t, r = c :: t → ¬ (48 ≤ c ∧ c ≤ 57)

/-- The arithmetic of the digit loop. -/
def accVal (v : Int) (ds : Str) : Int := ds.foldl (fun (v : Int) (c : Nat) => v * 10 + (c : Int) - 48) v

theorem accVal_eq (v : Nat) (ds : Str) (h : ∀ c ∈ ds, 48 ≤ c ∧ c ≤ 57) :
    accVal v ds = (ds.foldl (fun v c => 10 * v + (c - 48)) v : Nat) := by
  induction ds generalizing v with
  | nil => rfl
  | cons c cs ih =>
    have hc := h c List.mem_cons_self
    have e : (v : Int) * 10 + c - 48 = ((10 * v + (c - 48) : Nat) : Int) := by omega
    unfold accVal at *
    rw [List.foldl_cons, List.foldl_cons, e]
    exact ih _ (fun x hx => h x (List.mem_cons_of_mem _ hx))

theorem digits_spec (ds r : Str) (v : Int) (c : Nat) (ub : Bool)
    (hds : ∀ c ∈ ds, 48 ≤ c ∧ c ≤ 57) (hr : NoDigit r) (hb : ∀ x ∈ r, ByteOK x) :
    (digits v c ub (ds ++ r)).tok = .integer ∧
    (digits v c ub (ds ++ r)).value = accVal v (c :: ds) ∧
    Rep (digits v c ub (ds ++ r)).inp r := by
  induction ds generalizing v c ub with
  | nil =>
    cases r with
    | nil =>
      rw [List.append_nil, digits]
      exact ⟨rfl, rfl, .inr (.inr ⟨rfl, rfl, rfl⟩)⟩
    | cons x xs =>
      have hx := hr x xs rfl
      have hbx := hb x List.mem_cons_self
      have hw : charToWide x < 48 ∨ charToWide x > 57 := by
        unfold ByteOK at hbx; unfold charToWide; split <;> omega
      rw [List.nil_append, digits, if_pos hw]
      exact ⟨rfl, rfl, .inr (.inl ⟨x, hbx.1, hbx.2, rfl, rfl⟩)⟩
  | cons d ds ih =>
    have hd := hds d List.mem_cons_self
    have hw : charToWide d = d := charToWide_ascii (by omega)
    rw [List.cons_append, digits, if_neg (by rw [hw]; omega), hw]
    have := ih (v * 10 + c - 48) d (ub || stepOverflows v c)
      (fun x hx => hds x (List.mem_cons_of_mem _ hx))
    exact this

theorem tokS_eof {s : Str} (h : Spaces s) : (tokS s).tok = .eof := by
  unfold tokS; rw [skipSpaces_spaces s h]; rfl

theorem tokS_skip {sp : Str} (r : Str) (h : Spaces sp) : tokS (sp ++ r) = tokS r := by
  unfold tokS; rw [skipSpaces_append sp r h]

theorem tokS_digits {d r : Str} (hd : Digits d) (hr : NoDigit r) (hb : ∀ x ∈ r, ByteOK x) :
    (tokS (d ++ r)).tok = .integer ∧ (tokS (d ++ r)).value = decVal d ∧
    Rep (tokS (d ++ r)).inp r := by
  obtain ⟨hne, hall⟩ := hd
  cases d with
  | nil => exact absurd rfl hne
  | cons c cs =>
    have hc := hall c List.mem_cons_self
    unfold tokS
    rw [List.cons_append, skipSpaces_cons c _ (by unfold ByteOK; omega) (by omega)]
    have hw : charToWide c = c := charToWide_ascii (by omega)
    have ht : tokenOf (charToWide c) (cs ++ r) = digits 0 c false (cs ++ r) := by
      unfold tokenOf
      rw [hw, if_neg (by omega), if_pos (by omega)]
    dsimp only
    rw [ht]
    have := digits_spec cs r 0 c false (fun x hx => hall x (List.mem_cons_of_mem _ hx)) hr hb
    refine ⟨this.1, ?_, this.2.2⟩
    rw [this.2.1]
    exact accVal_eq 0 (c :: cs) hall

theorem lower_one {n : Str} {k : Nat} (h : lower n = [k]) : ∃ c, n = [c] ∧ lowerByte c = k := by
  unfold lower at h
  cases n with
  | nil => cases h
  | cons c cs =>
    cases cs with
    | nil => exact ⟨c, rfl, by simpa using h⟩
    | cons d ds => simp at h

theorem lowerByte_eq {c k : Nat} (hk : 97 ≤ k) (hk2 : k ≤ 122) :
    lowerByte c = k ↔ c = k ∨ c = k - 32 := by
  unfold lowerByte; split <;> omega

/-- Single character tokens. -/
theorem tokS_char {c : Nat} (r : Str) (hc : ByteOK c) (h : c ≠ 32) :
    tokS (c :: r) = tokenOf (charToWide c) r := by
  unfold tokS; rw [skipSpaces_cons c r hc h]

theorem tokS_plus (r : Str) : tokS (43 :: r) = { tok := .plus, inp := ⟨0, r⟩ } := by
  rw [tokS_char r (by unfold ByteOK; omega) (by omega)]; rfl

theorem tokS_minus (r : Str) : tokS (45 :: r) = { tok := .minus, inp := ⟨0, r⟩ } := by
  rw [tokS_char r (by unfold ByteOK; omega) (by omega)]; rfl

theorem tokS_n {c : Nat} (r : Str) (h : lowerByte c = 110) :
    tokS (c :: r) = { tok := .n, inp := ⟨0, r⟩ } := by
  rcases (lowerByte_eq (by omega) (by omega)).mp h with rfl | rfl
  · rw [tokS_char r (by unfold ByteOK; omega) (by omega)]; rfl
  · rw [tokS_char r (by unfold ByteOK; omega) (by omega)]; rfl

theorem tokS_even {w : Str} (r : Str) (h : lower w = b!"even") :
    tokS (w ++ r) = { tok := .even, inp := ⟨0, r⟩ } := by
  unfold lower at h
  rcases w with _ | ⟨c1, _ | ⟨c2, _ | ⟨c3, _ | ⟨c4, _ | ⟨c5, w⟩⟩⟩⟩⟩
  case cons.cons.cons.cons.nil =>
    simp only [List.map_cons, List.map_nil, List.cons.injEq, and_true] at h
    obtain ⟨h1, h2, h3, h4⟩ := h
    rw [lowerByte_eq (by omega) (by omega)] at h1 h2 h3 h4
    rcases h1 with rfl | rfl <;> rcases h2 with rfl | rfl <;> rcases h3 with rfl | rfl <;>
      rcases h4 with rfl | rfl <;>
      (rw [List.cons_append, tokS_char _ (by unfold ByteOK; omega) (by omega)]; rfl)
  all_goals simp at h

theorem tokS_odd {w : Str} (r : Str) (h : lower w = b!"odd") :
    tokS (w ++ r) = { tok := .odd, inp := ⟨0, r⟩ } := by
  unfold lower at h
  rcases w with _ | ⟨c1, _ | ⟨c2, _ | ⟨c3, _ | ⟨c4, w⟩⟩⟩⟩
  case cons.cons.cons.nil =>
    simp only [List.map_cons, List.map_nil, List.cons.injEq, and_true] at h
    obtain ⟨h1, h2, h3⟩ := h
    rw [lowerByte_eq (by omega) (by omega)] at h1 h2 h3
    rcases h1 with rfl | rfl <;> rcases h2 with rfl | rfl <;> rcases h3 with rfl | rfl <;>
      (rw [List.cons_append, tokS_char _ (by unfold ByteOK; omega) (by omega)]; rfl)
  all_goals simp at h

/-- Every text is a run of spaces followed by a text that does not start with a space. -/
theorem split_spaces (s : Str) : ∃ sp r, s = sp ++ r ∧ Spaces sp ∧ ∀ c t, r = c :: t → c ≠ 32 := by
  induction s with
  | nil => exact ⟨[], [], rfl, fun _ h => (by cases h), fun _ _ h => by cases h⟩
  | cons c cs ih =>
    by_cases h : c = 32
    · obtain ⟨sp, r, e, h1, h2⟩ := ih
      refine ⟨c :: sp, r, by rw [e]; rfl, ?_, h2⟩
      intro x hx
      rcases List.mem_cons.mp hx with rfl | hx
      · exact h
      · exact h1 x hx
    · exact ⟨[], c :: cs, rfl, fun _ h => (by cases h), fun x t e => by cases e; exact h⟩

/-- Every text is a run of digits followed by a text that does not start with a digit. -/
theorem split_digits (s : Str) :
    ∃ d r, s = d ++ r ∧ (∀ c ∈ d, 48 ≤ c ∧ c ≤ 57) ∧ NoDigit r := by
  induction s with
  | nil => exact ⟨[], [], rfl, fun _ h => (by cases h), fun _ _ h => by cases h⟩
  | cons c cs ih =>
    by_cases h : 48 ≤ c ∧ c ≤ 57
    · obtain ⟨d, r, e, h1, h2⟩ := ih
      refine ⟨c :: d, r, by rw [e]; rfl, ?_, h2⟩
      intro x hx
      rcases List.mem_cons.mp hx with rfl | hx
      · exact h
      · exact h1 x hx
    · exact ⟨[], c :: cs, rfl, fun _ h => (by cases h), fun x t e => by cases e; exact h⟩

/-- Inversion of a token. -/
inductive TokView (s : Str) : TokRes → Prop
  | eof {t} : t.tok = .eof → Spaces s → TokView s t
  | integer {t sp d r} : t.tok = .integer → s = sp ++ d ++ r → Spaces sp → Digits d → NoDigit r →
      t.value = (decVal d : Int) → Rep t.inp r → TokView s t
  | n {t sp c r} : t.tok = .n → s = sp ++ [c] ++ r → Spaces sp → lowerByte c = 110 → Rep t.inp r →
      TokView s t
  | plus {t sp r} : t.tok = .plus → s = sp ++ [43] ++ r → Spaces sp → Rep t.inp r → TokView s t
  | minus {t sp r} : t.tok = .minus → s = sp ++ [45] ++ r → Spaces sp → Rep t.inp r → TokView s t
  | even {t sp w r} : t.tok = .even → s = sp ++ w ++ r → Spaces sp → lower w = b!"even" →
      Rep t.inp r → TokView s t
  | odd {t sp w r} : t.tok = .odd → s = sp ++ w ++ r → Spaces sp → lower w = b!"odd" →
      Rep t.inp r → TokView s t
  | unknown {t} : t.tok = .unknown → TokView s t

theorem getcRest_cons (c : Nat) (cs : Str) : getcRest (c :: cs) = (charToWide c, cs) := rfl

theorem tokView (s : Str) (hb : ∀ x ∈ s, ByteOK x) : TokView s (tokS s) := by
  obtain ⟨sp, r, rfl, hsp, hr⟩ := split_spaces s
  rw [tokS_skip r hsp]
  cases r with
  | nil =>
    refine .eof (tokS_eof (fun _ h => by cases h)) ?_
    rw [List.append_nil]; exact hsp
  | cons c cs =>
    have hc32 := hr c cs rfl
    have hbc : ByteOK c := hb c (by simp)
    have hbcs : ∀ x ∈ cs, ByteOK x := fun x hx => hb x (by simp [hx])
    by_cases hdig : 48 ≤ c ∧ c ≤ 57
    · obtain ⟨d, r, e, h1, h2⟩ := split_digits (c :: cs)
      have hd : Digits d := by
        refine ⟨?_, h1⟩
        rintro rfl
        exact h2 c cs (by rw [e]; rfl) hdig
      have hbr : ∀ x ∈ r, ByteOK x := by
        intro x hx
        apply hb x
        rw [e]; simp [hx]
      rw [e]
      have ht := tokS_digits hd h2 hbr
      exact .integer ht.1 (by rw [List.append_assoc]) hsp hd h2 ht.2.1 ht.2.2
    · rw [tokS_char cs hbc hc32]
      have hw := charToWide_ne_eof hbc
      have hk : ∀ k : Nat, k < 128 → (charToWide c = (k : Int) ↔ c = k) :=
        fun k hk => charToWide_eq hbc hk
      have hnd : ¬ (48 ≤ charToWide c ∧ charToWide c ≤ 57) := by
        unfold ByteOK at hbc; unfold charToWide; split <;> omega
      unfold tokenOf
      rw [if_neg hw, if_neg hnd]
      split
      · rename_i h
        refine .n (sp := sp) (c := c) (r := cs) rfl (by simp) hsp ?_ (.zero _)
        rw [lowerByte_eq (by omega) (by omega)]
        have h1 := hk 110 (by omega); have h2 := hk 78 (by omega)
        omega
      · split
        · rename_i h
          have hE : lowerByte c = 101 := by
            rw [lowerByte_eq (by omega) (by omega)]
            have h1 := hk 101 (by omega); have h2 := hk 69 (by omega)
            omega
          unfold evenTail
          cases cs with
          | nil => exact .unknown rfl
          | cons c1 cs1 =>
            have hb1 : ByteOK c1 := hbcs c1 (by simp)
            simp only [getcRest_cons]
            by_cases hv : charToWide c1 = 118 ∨ charToWide c1 = 86
            · simp only [hv, if_true]
              cases cs1 with
              | nil => exact .unknown rfl
              | cons c2 cs2 =>
                have hb2 : ByteOK c2 := hbcs c2 (by simp)
                simp only [getcRest_cons]
                by_cases he : charToWide c2 = 101 ∨ charToWide c2 = 69
                · simp only [he, if_true]
                  cases cs2 with
                  | nil => exact .unknown rfl
                  | cons c3 cs3 =>
                    have hb3 : ByteOK c3 := hbcs c3 (by simp)
                    simp only [getcRest_cons]
                    by_cases hn : charToWide c3 = 110 ∨ charToWide c3 = 78
                    · simp only [hn, if_true]
                      refine .even (sp := sp) (w := [c, c1, c2, c3]) (r := cs3) rfl (by simp) hsp ?_
                        (.zero _)
                      have e1 : lowerByte c1 = 118 := by
                        rw [lowerByte_eq (by omega) (by omega)]
                        have h1 := charToWide_eq hb1 (k := 118) (by omega)
                        have h2 := charToWide_eq hb1 (k := 86) (by omega)
                        omega
                      have e2 : lowerByte c2 = 101 := by
                        rw [lowerByte_eq (by omega) (by omega)]
                        have h1 := charToWide_eq hb2 (k := 101) (by omega)
                        have h2 := charToWide_eq hb2 (k := 69) (by omega)
                        omega
                      have e3 : lowerByte c3 = 110 := by
                        rw [lowerByte_eq (by omega) (by omega)]
                        have h1 := charToWide_eq hb3 (k := 110) (by omega)
                        have h2 := charToWide_eq hb3 (k := 78) (by omega)
                        omega
                      simp [lower, hE, e1, e2, e3]
                    · simp only [hn, if_false]; exact .unknown rfl
                · simp only [he, if_false]; exact .unknown rfl
            · simp only [hv, if_false]; exact .unknown rfl
        · split
          · rename_i h
            have hO : lowerByte c = 111 := by
              rw [lowerByte_eq (by omega) (by omega)]
              have h1 := hk 111 (by omega); have h2 := hk 79 (by omega)
              omega
            unfold oddTail
            cases cs with
            | nil => exact .unknown rfl
            | cons c1 cs1 =>
              have hb1 : ByteOK c1 := hbcs c1 (by simp)
              simp only [getcRest_cons]
              by_cases hv : charToWide c1 = 100 ∨ charToWide c1 = 68
              · simp only [hv, if_true]
                cases cs1 with
                | nil => exact .unknown rfl
                | cons c2 cs2 =>
                  have hb2 : ByteOK c2 := hbcs c2 (by simp)
                  simp only [getcRest_cons]
                  by_cases he : charToWide c2 = 100 ∨ charToWide c2 = 68
                  · simp only [he, if_true]
                    refine .odd (sp := sp) (w := [c, c1, c2]) (r := cs2) rfl (by simp) hsp ?_
                      (.zero _)
                    have e1 : lowerByte c1 = 100 := by
                      rw [lowerByte_eq (by omega) (by omega)]
                      have h1 := charToWide_eq hb1 (k := 100) (by omega)
                      have h2 := charToWide_eq hb1 (k := 68) (by omega)
                      omega
                    have e2 : lowerByte c2 = 100 := by
                      rw [lowerByte_eq (by omega) (by omega)]
                      have h1 := charToWide_eq hb2 (k := 100) (by omega)
                      have h2 := charToWide_eq hb2 (k := 68) (by omega)
                      omega
                    simp [lower, hO, e1, e2]
                  · simp only [he, if_false]; exact .unknown rfl
              · simp only [hv, if_false]; exact .unknown rfl
          · split
            · rename_i h
              have : c = 43 := (hk 43 (by omega)).mp h
              subst this
              exact .plus (sp := sp) (r := cs) rfl (by simp) hsp (.zero _)
            · split
              · rename_i h
                have : c = 45 := (hk 45 (by omega)).mp h
                subst this
                exact .minus (sp := sp) (r := cs) rfl (by simp) hsp (.zero _)
              · exact .unknown rfl

end Csspp.Nth
