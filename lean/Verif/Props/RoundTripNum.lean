import Verif.Props.RoundTrip
import Verif.Lemmas.Digits

/-!
C10: the integers written by the assembler are read back by the lexer.
-/

namespace Csspp.Asm

/-- assembler.cpp:516-520: an integer and its dimension. -/
def outputInteger (i : Int) (dim : Str) : Str := intDigits i ++ dim

end Csspp.Asm

namespace Csspp.Lex
open Csspp.Utf8 Csspp.Spec Csspp.Asm

/-- `rest` does not extend a number written before it: it does not start with a character of
identifiers, a backslash, a period or a percent sign. -/
def EndsNumber (rest : List Nat) : Prop :=
  ∀ r, rest.head? = some r → ¬ IdentChar r ∧ r ≠ 92 ∧ r ≠ 46 ∧ r ≠ 37

/-- A unit: lower case letters, but `e` alone (which could be an exponent). -/
def UnitName (dim : Str) : Prop := (∀ c ∈ dim, 97 ≤ c ∧ c ≤ 122) ∧ dim ≠ [101]

theorem nextInt_eq {v : Nat} {c : Nat} (h : 10 * v + (c - 48) < 9223372036854775808) :
    nextInt (v : Int) c = 10 * v + (c - 48) := by
  unfold nextInt toU64
  have : ((v : Int) % 18446744073709551616).toNat = v := by omega
  rw [this]
  omega

theorem intLoop_text {s0 : LS} (rest : List Nat) (hend : ∀ r, rest.head? = some r → isDigit r = false) :
    ∀ (ds : Str) (f v : Nat) (s : LS) (k : Nat), k ≤ 1 → (∀ c ∈ ds, 48 ≤ c ∧ c ≤ 57) →
    v * 10 ^ ds.length + decVal ds < 9223372036854775808 →
    Rd s0 k (ds ++ rest) s → ds.length < f →
    ∃ s', intLoop f (v : Int) s = (((v * 10 ^ ds.length + decVal ds : Nat) : Int), rest.headD eof, s') ∧
      Rd s0 1 rest (ungetc (rest.headD eof) s') ∧ Rd s0 0 rest.tail s' := by
  intro ds
  induction ds with
  | nil =>
    intro f v s k hk _ hv h hf
    obtain ⟨f, rfl⟩ : ∃ g, f = g + 1 := ⟨f - 1, by simp at hf; omega⟩
    obtain ⟨s', h1, h2, h3⟩ := Rd.look (show Rd s0 1 rest s from h.mono hk) (by omega) (by omega)
    refine ⟨s', ?_, h2, h3⟩
    unfold intLoop
    rw [h1]
    dsimp only
    have : isDigit (rest.headD eof) = false := by
      cases rest with
      | nil => decide
      | cons r t => exact hend r rfl
    rw [this]
    simp [decVal]
  | cons c ds ih =>
    intro f v s k hk hds hv h hf
    obtain ⟨f, rfl⟩ : ∃ g, f = g + 1 := ⟨f - 1, by simp at hf; omega⟩
    have hc := hds c (by simp)
    obtain ⟨s1, h1, r1⟩ := Rd.getc (show Rd s0 k (c :: (ds ++ rest)) s from h)
    have hval : v * 10 ^ (c :: ds).length + decVal (c :: ds) =
        (10 * v + (c - 48)) * 10 ^ ds.length + decVal ds := by
      rw [decVal_cons, List.length_cons, Nat.pow_succ, Nat.add_mul, Nat.mul_comm (10 ^ ds.length) 10,
        ← Nat.mul_assoc, Nat.mul_comm v 10]
      omega
    rw [hval] at hv ⊢
    have hsmall : 10 * v + (c - 48) < 9223372036854775808 := by
      have : 0 < 10 ^ ds.length := Nat.pow_pos (by omega)
      have := Nat.le_mul_of_pos_right (10 * v + (c - 48)) this
      omega
    have hn := nextInt_eq hsmall
    obtain ⟨s', e1, e2⟩ := ih f (10 * v + (c - 48)) s1 (k - 1) (by omega)
      (fun x hx => hds x (by simp [hx])) hv r1 (by simp at hf; omega)
    refine ⟨s', ?_, e2⟩
    unfold intLoop
    rw [h1]
    dsimp only
    have hd : isDigit c = true := isDigit_iff.mpr hc
    have hover : intTooLarge (10 * v + (c - 48)) = false := by
      unfold intTooLarge
      simp
      omega
    rw [if_pos hd, hn, hover, wrap64_of_isI64 (by unfold IsI64; omega)]
    exact e1

theorem dimLoop_text {s0 : LS} (rest : List Nat) (hend : ∀ r, rest.head? = some r →
      isIdentifier r = false ∧ r ≠ 92) :
    ∀ (cs : Str) (f : Nat) (dim : Str) (c : Nat) (s : LS) (k : Nat), k ≤ 1 →
    (∀ x ∈ c :: cs, 97 ≤ x ∧ x ≤ 122) →
    Rd s0 k (cs ++ rest) s → cs.length + 1 < f →
    ∃ s', dimLoop f dim c s = (dim ++ c :: cs, 0, s') ∧ Rd s0 1 rest s' := by
  intro cs
  induction cs with
  | nil =>
    intro f dim c s k hk hcs h hf
    obtain ⟨f, rfl⟩ : ∃ g, f = g + 2 := ⟨f - 2, by simp at hf; omega⟩
    have hc := hcs c (by simp)
    obtain ⟨s', h1, h2, _⟩ := Rd.look (show Rd s0 1 rest s from h.mono hk) (by omega) (by omega)
    refine ⟨_, ?_, h2⟩
    have hid : isIdentifier c = true := by
      unfold isIdentifier isVariable isAlpha; simp; omega
    have hlow : toLower c = c := by unfold toLower; rw [if_neg (by omega)]
    unfold dimLoop
    rw [if_neg (by omega), if_pos hid, hlow, put_ok (by unfold Encodable Scalar Nonchar; omega)]
    dsimp only
    rw [h1]
    dsimp only
    unfold dimLoop
    have hne : rest.headD eof ≠ 92 ∧ isIdentifier (rest.headD eof) = false := by
      cases rest with
      | nil => exact ⟨by decide, by decide⟩
      | cons r t => exact ⟨(hend r rfl).2, (hend r rfl).1⟩
    rw [if_neg hne.1, hne.2]
    have : (wctomb c).1 = [c] := by unfold wctomb; rw [if_pos (by omega), if_neg (by omega)]
    rw [this]
    rfl
  | cons d cs ih =>
    intro f dim c s k hk hcs h hf
    obtain ⟨f, rfl⟩ : ∃ g, f = g + 1 := ⟨f - 1, by simp at hf; omega⟩
    have hc := hcs c (by simp)
    obtain ⟨s1, h1, r1⟩ := Rd.getc (show Rd s0 k (d :: (cs ++ rest)) s from h)
    obtain ⟨s', e1, e2⟩ := ih f (dim ++ [c]) d s1 (k - 1) (by omega) (fun x hx => hcs x (by
      rcases List.mem_cons.1 hx with h | h <;> simp [h])) r1 (by simp at hf; omega)
    refine ⟨s', ?_, e2⟩
    have hid : isIdentifier c = true := by
      unfold isIdentifier isVariable isAlpha; simp; omega
    have hlow : toLower c = c := by unfold toLower; rw [if_neg (by omega)]
    have hw : (wctomb c).1 = [c] := by unfold wctomb; rw [if_pos (by omega), if_neg (by omega)]
    unfold dimLoop
    rw [if_neg (by omega), if_pos hid, hlow, put_ok (by unfold Encodable Scalar Nonchar; omega), hw]
    dsimp only
    rw [h1]
    dsimp only
    rw [e1]
    simp

/-- The digits, the unit and the end of an integer. -/
theorem numBody_text {s0 s : LS} {k d : Nat} {ds dim : Str} {rest : List Nat} (hs ng : Bool)
    (hk : k ≤ 1) (hd : 48 ≤ d ∧ d ≤ 57) (hds : ∀ c ∈ ds, 48 ≤ c ∧ c ≤ 57) (hdim : UnitName dim)
    (hv : decVal (d :: ds) < 9223372036854775808)
    (hend : ∀ r, rest.head? = some r → isIdentifier r = false ∧ r ≠ 92 ∧ r ≠ 46 ∧ r ≠ 37)
    (h : Rd s0 k (ds ++ (dim ++ rest)) s) :
    ∃ s', numBody hs ng d s =
        ({ s'.tok .INTEGER with
            int := if ng then -(decVal (d :: ds) : Int) else (decVal (d :: ds) : Int), str := dim,
            bool := hs }, s') ∧
      Rd s0 1 rest s' := by
  have hnd : ∀ r, (dim ++ rest).head? = some r → isDigit r = false := by
    intro r hr
    cases dim with
    | nil =>
      have := (hend r hr).1
      cases hx : isDigit r with
      | false => rfl
      | true =>
        unfold isIdentifier isVariable at this
        rw [hx] at this
        cases this
    | cons x t =>
      cases hr
      have := hdim.1 r (by simp)
      unfold isDigit
      simp
      omega
  rw [decVal_cons] at hv
  obtain ⟨s1, h1, h2, h3⟩ := intLoop_text (dim ++ rest) hnd ds s.fuel (d - 48) s k hk hds hv h (by
    have := h.fuel
    simp at this
    omega)
  rw [← decVal_cons] at h1 hv
  have hdd : isDigit d = true := isDigit_iff.mpr hd
  have hi : intPart d s = ((decVal (d :: ds) : Int), (dim ++ rest).headD eof, s1) := by
    unfold intPart
    rw [if_pos hdd, h1]
  -- the unit
  have key : ∃ c2 t2 s2, fracPart ((dim ++ rest).headD eof) s1 = ([], false, (dim ++ rest).headD eof, s1) ∧
      expPart ((dim ++ rest).headD eof) s1 = (0, c2, t2) ∧
      dimPart c2 t2 = (dim, false, s2) ∧ Rd s0 1 rest s2 := by
    cases dim with
    | nil =>
      have hne : isIdentifier (rest.headD eof) = false ∧ rest.headD eof ≠ 92 ∧
          rest.headD eof ≠ 46 ∧ rest.headD eof ≠ 37 := by
        cases rest with
        | nil => exact ⟨by decide, by decide, by decide, by decide⟩
        | cons r t => exact hend r rfl
      have hexp : ¬ (rest.headD eof = 101 ∨ rest.headD eof = 69) := by
        rintro (h | h) <;> rw [h] at hne <;> revert hne <;> decide
      refine ⟨rest.headD eof, s1, ungetc (rest.headD eof) s1, ?_, ?_, ?_, h2⟩
      · show fracPart (rest.headD eof) s1 = _
        unfold fracPart
        rw [if_neg hne.2.2.1]
        rfl
      · show expPart (rest.headD eof) s1 = _
        unfold expPart
        rw [if_neg hexp]
      · unfold dimPart
        rw [if_neg (fun h => h.elim (fun h => by rw [hne.1] at h; cases h) hne.2.1), if_neg hne.2.2.2]
    | cons x dim =>
      have hx := hdim.1 x (by simp)
      have h2' : Rd s0 0 (dim ++ rest) s1 := h3
      -- not an exponent
      have hexp : ∃ s2, expPart x s1 = (0, x, s2) ∧ Rd s0 1 (dim ++ rest) s2 := by
        by_cases he : x = 101 ∨ x = 69
        · obtain ⟨s2, g1, g2, _⟩ := Rd.look (h2'.mono (show 0 ≤ 1 by omega)) (by omega) (by omega)
          refine ⟨_, ?_, g2⟩
          unfold expPart
          rw [if_pos he]
          unfold isExponent
          rw [g1]
          dsimp only
          have hx101 : x = 101 := by omega
          cases dim with
          | nil => exact absurd (by rw [hx101]) hdim.2
          | cons y dim =>
            have hy := hdim.1 y (by simp)
            show (match (if (y = 45 ∨ y = 43) then _ else (isDigit y, ungetc y s2)) with
              | (true, s) => _ | (false, s) => _) = _
            have hyd : isDigit y = false := by unfold isDigit; simp; omega
            rw [if_neg (by omega), hyd]
            rfl
        · refine ⟨s1, ?_, h2'.mono (by omega)⟩
          unfold expPart
          rw [if_neg he]
      obtain ⟨s2, g1, g2⟩ := hexp
      obtain ⟨s3, g3, g4⟩ := dimLoop_text rest (fun r hr => ⟨(hend r hr).1, (hend r hr).2.1⟩) dim
        (s2.fuel + 1) [] x s2 1 (by omega) (fun y hy => hdim.1 y hy) g2 (by
          have := g2.fuel
          simp at this
          omega)
      refine ⟨x, s2, s3, ?_, g1, ?_, g4⟩
      · show fracPart x s1 = _
        unfold fracPart
        rw [if_neg (by omega)]
        rfl
      · unfold dimPart
        have hid : isIdentifier x = true := by
          unfold isIdentifier isVariable isAlpha; simp; omega
        rw [if_pos (.inl hid), g3]
        unfold dimDash
        dsimp only
        have : ¬ ([] ++ x :: dim = [45]) := by
          intro h
          have := (List.cons.inj h).1
          omega
        rw [if_neg this]
        rfl
  obtain ⟨c2, t2, s2, k1, k2, k3, g2⟩ := key
  refine ⟨s2, ?_, g2⟩
  unfold numBody
  rw [hi]
  dsimp only
  rw [k1]
  dsimp only
  rw [k2]
  dsimp only
  rw [k3]
  dsimp only
  unfold numNode
  rw [if_neg (by simp)]
  cases ng with
  | false => rfl
  | true =>
    have hno : overflows (-(decVal (d :: ds) : Int)) = false := by
      cases ho : overflows (-(decVal (d :: ds) : Int)) with
      | false => rfl
      | true =>
        rw [overflows_iff] at ho
        exfalso
        apply ho
        unfold IsI64
        omega
    dsimp only
    rw [hno, wrap64_of_isI64 (by unfold IsI64; omega)]
    rfl

theorem lexChar_digit {d : Nat} (s : LS) (hd : 48 ≤ d ∧ d ≤ 57) : lexChar d s = found (number d s) := by
  have h1 : simple d = none := by
    unfold simple
    repeat rw [if_neg (by omega)]
  have h2 : op1 d = none := by
    unfold op1
    repeat rw [if_neg (by omega)]
  unfold lexChar
  rw [if_neg (by unfold eof; omega), h1]
  dsimp only
  rw [h2]
  dsimp only
  unfold lexOther
  have hsp : ¬ (isSpace d = true ∨ d = 12) := by unfold isSpace; simp; omega
  rw [if_neg (by omega), if_neg (by omega), if_neg (by omega), if_neg (by omega), if_neg (by omega),
    if_neg (by omega), if_neg hsp, if_pos (isDigit_iff.mpr hd)]

theorem utf8_ascii {s : Str} (h : ∀ c ∈ s, c < 0x80) : Utf8 s s := by
  induction s with
  | nil => exact .nil
  | cons c s ih => exact .cons (.one c (h c (by simp))) (ih (fun x hx => h x (by simp [hx])))

/-- C10: every 64 bit integer but the smallest one, with or without a unit, written by the assembler
and followed by any text that does not extend the number, is read back as one INTEGER token with
the same value and unit, without any message. -/
theorem C10_integer (i : Int) (hi64 : -9223372036854775808 < i ∧ i ≤ 9223372036854775807)
    (dim : Str) (hdim : UnitName dim)
    (crest : List Nat) (rest : Str) (hr : Utf8 crest rest) (hrest : ∀ c ∈ crest, Readable c)
    (hend : EndsNumber crest)
    (s : LS) (hu : s.un = []) (hi : s.inp = outputInteger i dim ++ rest) :
    ∃ t s', nextToken s = (t, s') ∧ t.ty = .INTEGER ∧ t.int = i ∧ t.str = dim ∧ t.pos = s.pos ∧
      s'.err = s.err ∧ s'.exn = s.exn ∧ s'.ub = s.ub ∧ LeftToRead s' crest := by
  have hdg := natDigits_digits i.natAbs
  have hval := decVal_natDigits i.natAbs
  obtain ⟨d, ds, hds⟩ : ∃ d ds, natDigits i.natAbs = d :: ds := by
    cases h : natDigits i.natAbs with
    | nil => exact absurd h hdg.1
    | cons d ds => exact ⟨d, ds, rfl⟩
  rw [hds] at hdg hval
  have hd := hdg.2 d (by simp)
  have hds' : ∀ c ∈ ds, 48 ≤ c ∧ c ≤ 57 := fun c hc => hdg.2 c (by simp [hc])
  have hend' : ∀ r, (newlines crest).head? = some r →
      isIdentifier r = false ∧ r ≠ 92 ∧ r ≠ 46 ∧ r ≠ 37 := by
    intro r hr'
    obtain ⟨q, hq, h3⟩ := newlines_head hr'
    have h4 := hend q hq
    rcases h3 with rfl | ⟨rfl, _⟩
    · refine ⟨?_, h4.2⟩
      cases hx : isIdentifier r with
      | false => rfl
      | true =>
        have hle : r ≤ 0x10FFFF := by
          cases crest with
          | nil => cases hq
          | cons a t => cases hq; exact utf8_le hr r (by simp)
        exact absurd ((isIdentifier_iff hle).mp hx) h4.1
    · exact ⟨by decide, by omega, by omega, by omega⟩
  have hout : ∀ x ∈ outputInteger i dim, x < 0x80 ∧ Readable x ∧ x ≠ 13 ∧ x ≠ 12 := by
    intro x hx
    unfold outputInteger intDigits at hx
    rw [hds] at hx
    unfold Readable
    rcases List.mem_append.1 hx with hx | hx
    · split at hx
      · rcases List.mem_cons.1 hx with rfl | hx
        · omega
        · have := hdg.2 x hx; omega
      · have := hdg.2 x hx; omega
    · have := hdim.1 x hx; omega
  have hU := utf8_append (utf8_ascii (fun x hx => (hout x hx).1)) hr
  have R := Rd.of_text hu hi hU (by
    intro c hc
    rcases List.mem_append.1 hc with h | h
    · exact (hout c h).2.1
    · exact hrest c h)
  rw [newlines_plain (fun c hc => (hout c hc).2.2)] at R
  have R := R.start'
  unfold outputInteger intDigits at R
  rw [hds] at R
  by_cases hneg : i < 0
  · rw [if_pos hneg] at R
    simp only [List.cons_append, List.append_assoc] at R
    obtain ⟨s1, h1, r1⟩ := R.getc
    obtain ⟨s2, h2, r2⟩ := r1.getc
    have r3 := (r2.mono (show 0 - 1 - 1 ≤ 0 by omega)).unget (c := d) (by omega)
      (by unfold Readable; omega) (by omega)
    obtain ⟨s4, h4, r4⟩ := r3.getc
    obtain ⟨s5, h5, r5⟩ := numBody_text (hs := true) (ng := true) (by omega) hd hds' hdim (by
      rw [hval]; omega) hend' r4
    have hstep : lexStep s = found ({ s5.tok .INTEGER with
            int := if true then -(decVal (d :: ds) : Int) else (decVal (d :: ds) : Int), str := dim,
            bool := true }, s5) := by
      unfold lexStep
      rw [h1]
      have : lexChar 45 s1 = lexPlusMinus 45 s1 := rfl
      dsimp only
      rw [this]
      unfold lexPlusMinus
      rw [h2]
      dsimp only
      rw [if_pos (isDigit_iff.mpr hd)]
      unfold number
      rw [if_pos (.inl rfl), h4]
      dsimp only
      rw [show ((45 : Nat) == 45) = true from rfl, h5]
    refine ⟨_, s5, nextToken_step hstep, rfl, ?_, rfl, r5.start, r5.err, r5.exn, r5.ub, r5.left⟩
    show (if true then -(decVal (d :: ds) : Int) else (decVal (d :: ds) : Int)) = i
    rw [if_pos rfl, hval]
    omega
  · rw [if_neg hneg] at R
    simp only [List.cons_append, List.append_assoc] at R
    obtain ⟨s1, h1, r1⟩ := R.getc
    obtain ⟨s5, h5, r5⟩ := numBody_text (hs := false) (ng := false) (by omega) hd hds' hdim (by
      rw [hval]; omega) hend' r1
    have hstep : lexStep s = found ({ s5.tok .INTEGER with
            int := if false then -(decVal (d :: ds) : Int) else (decVal (d :: ds) : Int), str := dim,
            bool := false }, s5) := by
      unfold lexStep
      rw [h1]
      dsimp only
      rw [lexChar_digit s1 hd]
      unfold number
      rw [if_neg (by omega), h5]
    refine ⟨_, s5, nextToken_step hstep, rfl, ?_, rfl, r5.start, r5.err, r5.exn, r5.ub, r5.left⟩
    show (if false then -(decVal (d :: ds) : Int) else (decVal (d :: ds) : Int)) = i
    rw [if_neg (by simp), hval]
    omega

example : UnitName b!"px" := ⟨by decide, by decide⟩
example : EndsNumber b!";" := by
  intro r hr; cases hr; unfold IdentChar; omega
example : outputInteger (-9223372036854775807) b!"px" = b!"-9223372036854775807px" := by
  decide +kernel

/-- C10: the smallest integer is written but reported as too large when read. -/
theorem C10_refuted_min :
    outputInteger (-9223372036854775808) [] = b!"-9223372036854775808" ∧
    Rpt.intTooLarge ∈ (nextToken (init b!"-9223372036854775808")).2.err := by
  decide +kernel

end Csspp.Lex
