import Verif.Lemmas.LexSpell10

/-! What does not spell a token is reported: numbers, unicode ranges and comments. -/

namespace Csspp.Lex
open Csspp.Utf8 Csspp.Spec

theorem isExponent_true {s0 s : LS} {t : List Nat} (r : Rd s0 2 t s)
    (h : NextIs Dec t ∨ ∃ c u, t = c :: u ∧ (c = 43 ∨ c = 45) ∧ NextIs Dec u) :
    ∃ s2, isExponent s = (true, s2) ∧ Rd s0 2 t s2 := by
  unfold isExponent
  rcases h with ⟨d, u, rfl, hd⟩ | ⟨c, u, rfl, hc, d, v, rfl, hd⟩
  · obtain ⟨s1, e1, r1, hr, hl, _⟩ := r.getc'
    rw [e1]
    dsimp only
    have hd' := hd
    unfold Dec at hd'
    rw [if_neg (by omega), (isDigit_dec d).2 hd]
    exact ⟨_, rfl, (r1.unget (by omega) hr hl).mono (by omega)⟩
  · obtain ⟨s1, e1, r1, hr, hl, _⟩ := r.getc'
    obtain ⟨s2, e2, r2, hr2, hl2, _⟩ := r1.getc'
    rw [e1]
    dsimp only
    rw [if_pos (by omega), e2]
    dsimp only
    rw [(isDigit_dec d).2 hd]
    exact ⟨_, rfl, ((r2.unget (by omega) hr2 hl2).unget (by omega) hr hl).mono (by omega)⟩

theorem expDigits_bad {s0 s : LS} {cs ds rest : List Nat} {c : Nat} (neg : Bool) (h : DigitRun cs ds rest)
    (hv : 1023 < decVal ds) (ha : At s0 2 cs c s) : Fails s0 (expDigits neg c s).2.2 := by
  obtain ⟨rfl, hd, he⟩ := h
  have hn : ds ≠ [] := by rintro rfl; exact absurd hv (by decide)
  have hc : Dec c := by
    cases ds with
    | nil => exact absurd rfl hn
    | cons d ds => obtain ⟨rfl, _⟩ := At.cons (cs := ds ++ rest) ha; exact hd c (by simp)
  have hf := ha.tl.fuel
  have hlen : ds.length < s.fuel + 1 := by
    simp at hf; omega
  have hb : Fails s0 (expLoop (s.fuel + 1) 0 c s).2.2 := expLoop_bad ds [] (s.fuel + 1) c s hd (by decide) hv ha hlen
  unfold expDigits
  rw [if_pos ((isDigit_dec c).2 hc)]
  dsimp only
  cases neg with
  | false => exact hb
  | true => exact hb.of_g (undefIf_g _)

theorem expPart_total {s0 s : LS} {cs : List Nat} {c : Nat} (ha : At s0 2 cs c s) :
    Fails s0 (expPart c s).2.2 ∨ ∃ e rest, Exponent cs e rest := by
  by_cases hx : IsExponent cs
  · obtain ⟨e, t, rfl, he, ht⟩ := hx
    obtain ⟨rfl, r, _⟩ := ha.cons
    obtain ⟨hs, neg, t2, hsg⟩ := sign_total t
    obtain ⟨ds, rest, hrun⟩ := digitRun t2
    have hn : ds ≠ [] := by
      have hd2 : NextIs Dec t2 := by
        cases hsg with
        | plus =>
          rcases ht with h | ⟨c, u, hu, _, h⟩
          · rw [nextIs_cons] at h; unfold Dec at h; omega
          · cases hu; exact h
        | minus =>
          rcases ht with h | ⟨c, u, hu, _, h⟩
          · rw [nextIs_cons] at h; unfold Dec at h; omega
          · cases hu; exact h
        | no hno =>
          rcases ht with h | ⟨c, u, rfl, hc, h⟩
          · exact h
          · exact absurd ⟨c, u, rfl, hc⟩ hno
      rintro rfl
      obtain ⟨e2, _, h2⟩ := hrun
      rw [List.nil_append] at e2
      rw [e2] at hd2
      exact h2 hd2
    by_cases hv : decVal ds ≤ 1023
    · exact .inr ⟨_, rest, .digits he hsg hrun hn hv⟩
    · left
      obtain ⟨s2, e2, r2⟩ := isExponent_true r ht
      obtain ⟨s3, e3, a3⟩ := r2.at
      unfold expPart
      rw [if_pos he, e2]
      dsimp only
      rw [e3]
      dsimp only
      unfold expSign
      cases hsg with
      | plus =>
        obtain ⟨_, r3, _⟩ := a3.cons
        obtain ⟨s4, e4, a4⟩ := r3.at
        rw [if_neg (show (43 :: t2).headD eof ≠ 45 from fun h => absurd (show (43 : Nat) = 45 from h) (by decide)), if_pos (show (43 :: t2).headD eof = 43 from rfl), e4]
        exact expDigits_bad false hrun (by omega) (a4.mono (by omega))
      | minus =>
        obtain ⟨_, r3, _⟩ := a3.cons
        obtain ⟨s4, e4, a4⟩ := r3.at
        rw [if_pos (show (45 :: t2).headD eof = 45 from rfl), e4]
        exact expDigits_bad true hrun (by omega) (a4.mono (by omega))
      | no hno =>
        rw [if_neg (a3.ne (d := 45) (by decide) (fun h => hno (h.mono (fun _ h => .inr h)))),
          if_neg (a3.ne (d := 43) (by decide) (fun h => hno (h.mono (fun _ h => .inl h))))]
        exact expDigits_bad false hrun (by omega) (a3.mono (by omega))
  · exact .inr ⟨0, cs, .no hx⟩

theorem dimPart_total {s0 s : LS} {cs : List Nat} {c : Nat} (ha : At s0 2 cs c s) :
    Fails s0 (dimPart c s).2.2 ∨ ∃ dim pc rest, Dimension cs dim pc rest := by
  by_cases hs : NextIs (fun c => NameChar c ∨ c = 92) cs
  · rcases nameTail_or _ cs (Nat.le_refl _) with ⟨vs, cut, rest, h⟩ | h
    · by_cases hd : vs = [45]
      · subst hd; exact .inr ⟨_, _, _, .dash h⟩
      · exact .inr ⟨_, _, _, .name hs h hd⟩
    · left
      have hs' := hs
      obtain ⟨d, t, rfl, hd⟩ := hs'
      have ha' := ha
      obtain ⟨rfl, r1, hr, hl, hne⟩ := ha.cons
      have hf := r1.fuel
      unfold dimPart
      have hc : isIdentifier c = true ∨ c = 92 := by
        rcases hd with hd | hd
        · exact .inl ((isIdentifier_name hl).2 hd)
        · exact .inr hd
      rw [if_pos hc]
      exact (dimLoop_bad h (s.fuel + 1) [] c s (by simp; omega) ha').of_g (fun g => dimDash_g _ g)
  · by_cases hp : ∃ t, cs = 37 :: t
    · obtain ⟨t, rfl⟩ := hp
      exact .inr ⟨_, _, _, .percent t⟩
    · refine .inr ⟨_, _, _, .no (rest := cs) ?_⟩
      rintro ⟨d, t, rfl, hd | hd | hd⟩
      · exact hs ⟨d, t, rfl, .inl hd⟩
      · exact hs ⟨d, t, rfl, .inr hd⟩
      · subst hd; exact hp ⟨t, rfl⟩

theorem numBody_total {s0 s : LS} {cs1 : List Nat} {c : Nat} (hs neg : Bool) (ha : At s0 2 cs1 c s) :
    Fails s0 (numBody hs neg c s).2 ∨ ∃ ds cs2 fr isDec cs3 e cs4 dim pc rest, DigitRun cs1 ds cs2 ∧ IntOk ds ∧
      Fraction cs2 fr isDec cs3 ∧ Exponent cs3 e cs4 ∧ Dimension cs4 dim pc rest := by
  obtain ⟨ds, cs2, h2⟩ := digitRun cs1
  unfold numBody
  by_cases hi : IntOk ds
  · obtain ⟨c1, s1, e1, a1⟩ := intPart_ok h2 hi (by omega) ha
    rw [e1]
    dsimp only
    rcases fracPart_total a1 with hf | ⟨fr, isDec, cs3, h3⟩
    · left
      exact (hf.of_g (fun g => dimPart_g _ (expPart_g _ g))).of_g (numNode_g _ _ _ _ _ _ _ _)
    · obtain ⟨c2, s2, e2, a2⟩ := fracPart_ok h3 a1
      rw [e2]
      dsimp only
      rcases expPart_total a2 with hf | ⟨e, cs4, h4⟩
      · left
        exact (hf.of_g (fun g => dimPart_g _ g)).of_g (numNode_g _ _ _ _ _ _ _ _)
      · obtain ⟨c3, s3, e3, a3⟩ := expPart_ok h4 a2
        rw [e3]
        dsimp only
        rcases dimPart_total a3 with hf | ⟨dim, pc, rest, h5⟩
        · left
          exact hf.of_g (numNode_g _ _ _ _ _ _ _ _)
        · exact .inr ⟨ds, cs2, fr, isDec, cs3, e, cs4, dim, pc, rest, h2, hi, h3, h4, h5⟩
  · left
    have hf := intPart_bad h2 hi (by omega) ha
    exact (hf.of_g (fun g => dimPart_g _ (expPart_g _ (fracPart_g _ g)))).of_g (numNode_g _ _ _ _ _ _ _ _)

theorem number_total {s0 s : LS} {cs : List Nat} {c : Nat} (h : StartsNumber cs) (ha : At s0 2 cs c s) :
    Fails s0 (number c s).2 ∨ ∃ l rest, Reads cs l rest := by
  obtain ⟨hs, neg, cs1, hsg⟩ := sign_total cs
  have fin : ∀ {c1 : Nat} {s1 : LS}, At s0 2 cs1 c1 s1 → number c s = numBody hs neg c1 s1 →
      Fails s0 (number c s).2 ∨ ∃ l rest, Reads cs l rest := by
    intro c1 s1 a1 e
    rw [e]
    rcases numBody_total hs neg a1 with hf | ⟨ds, cs2, fr, isDec, cs3, e, cs4, dim, pc, rest, h2, hi, h3, h4, h5⟩
    · exact .inl hf
    · exact .inr ⟨_, rest, .number h hsg h2 hi h3 h4 h5⟩
  unfold number at fin ⊢
  cases hsg with
  | plus =>
    obtain ⟨rfl, r, _⟩ := ha.cons
    obtain ⟨s1, e1, a1⟩ := r.at
    refine fin (a1.mono (by omega)) ?_
    rw [if_pos (.inr rfl), e1]
    rfl
  | minus =>
    obtain ⟨rfl, r, _⟩ := ha.cons
    obtain ⟨s1, e1, a1⟩ := r.at
    refine fin (a1.mono (by omega)) ?_
    rw [if_pos (.inl rfl), e1]
    rfl
  | no hno =>
    refine fin ha ?_
    rw [if_neg]
    have h1 := ha.ne (d := 45) (by decide) (fun h => hno (h.mono (fun _ h => .inr h)))
    have h2 := ha.ne (d := 43) (by decide) (fun h => hno (h.mono (fun _ h => .inl h)))
    exact fun h => h.elim h1 h2

/-! ### Unicode ranges -/

theorem span_hex : ∀ (n : Nat) (cs : List Nat), ∃ ds t, cs = ds ++ t ∧ (∀ d ∈ ds, Hex d) ∧ ds.length ≤ n ∧
    (ds.length = n ∨ ¬ NextIs Hex t) := by
  intro n
  induction n with
  | zero => intro cs; exact ⟨[], cs, rfl, by simp, by simp, .inl rfl⟩
  | succ n ih =>
    intro cs
    cases cs with
    | nil => exact ⟨[], [], rfl, by simp, by simp, .inr nextIs_nil⟩
    | cons c cs =>
      by_cases h : Hex c
      · obtain ⟨ds, t, rfl, hd, hl, he⟩ := ih cs
        refine ⟨c :: ds, t, rfl, ?_, by simp; omega, ?_⟩
        · intro x hx
          rcases List.mem_cons.1 hx with rfl | hx
          · exact h
          · exact hd x hx
        · rcases he with he | he
          · left; simp [he]
          · exact .inr he
      · exact ⟨[], c :: cs, rfl, by simp, by simp, .inr (by rw [nextIs_cons]; exact h)⟩

theorem span_mask : ∀ (n : Nat) (cs : List Nat), ∃ q t, cs = List.replicate q 63 ++ t ∧ q ≤ n ∧
    (q = n ∨ ¬ NextIs (fun c => c = 63) t) := by
  intro n
  induction n with
  | zero => intro cs; exact ⟨0, cs, rfl, by omega, .inl rfl⟩
  | succ n ih =>
    intro cs
    cases cs with
    | nil => exact ⟨0, [], rfl, by omega, .inr nextIs_nil⟩
    | cons c cs =>
      by_cases h : c = 63
      · subst h
        obtain ⟨q, t, rfl, hl, he⟩ := ih cs
        refine ⟨q + 1, t, rfl, by omega, ?_⟩
        rcases he with he | he
        · left; omega
        · exact .inr he
      · exact ⟨0, c :: cs, rfl, by omega, .inr (by rw [nextIs_cons]; exact h)⟩

theorem hexFrom_zero (ds : List Nat) : hexFrom 0 ds = hexValue ds := rfl

theorem rangePlain_total {s0 s : LS} {rest : List Nat} {st en d : Nat} (ha : At s0 2 rest d s) :
    Fails s0 (rangePlain st en d s).2 ∨ (st ≤ en ∧ en ≤ 0x10FFFF) := by
  unfold rangePlain
  by_cases h1 : st ≥ 0x110000 ∨ en ≥ 0x110000
  · rw [if_pos h1]
    exact .inl (Fails.report ha.tl.err _ rfl)
  · rw [if_neg h1]
    unfold rangeTok
    by_cases h2 : st > en
    · rw [if_pos h2]
      exact .inl (Fails.report ha.tl.err _ rfl)
    · exact .inr (by omega)

theorem rangeTok_g {a s : LS} (st en d : Nat) (h : Grows a s) : Grows a (rangeTok st en d s).2 := by
  unfold rangeTok
  split
  · exact report_g _ h
  · exact ungetc_g _ h

theorem unicodeRange_total {s0 s : LS} {cs : List Nat} {d : Nat} (hx : NextIs (fun c => Hex c ∨ c = 63) cs)
    (ha : At s0 2 cs d s) : Fails s0 (unicodeRange d s).2 ∨ ∃ a b rest, Range cs a b rest := by
  obtain ⟨ds, t, rfl, hds, hlen, hend⟩ := span_hex 6 cs
  obtain ⟨d1, s1, e1, a1⟩ := rangeLoop_digits t ds 6 0 d s hlen hds ha
  unfold unicodeRange
  rw [e1, hexFrom_zero]
  obtain ⟨q, u, rfl, hq, hqe⟩ := span_mask (6 - ds.length) t
  by_cases hq0 : q = 0
  · subst hq0
    have a1' : At s0 2 u d1 s1 := a1
    have hstop : 6 - ds.length = 0 ∨ (¬ NextIs (fun c => c = 63) u ∧ (false = true ∨ ¬ NextIs Hex u)) := by
      by_cases h6 : ds.length = 6
      · left; omega
      · right
        refine ⟨?_, .inr ?_⟩
        · rcases hqe with h | h
          · omega
          · exact h
        · rcases hend with h | h
          · exact absurd h h6
          · exact h
    rw [rangeLoop_stop a1' hstop]
    have hne : 1 ≤ ds.length := by
      cases ds with
      | cons => simp
      | nil =>
        exfalso
        obtain ⟨c, v, hv, hc⟩ := hx
        rcases hstop with h | ⟨h1, h2⟩
        · simp at h
        · have hv' : u = c :: v := hv
          rcases hc with hc | hc
          · exact (h2.resolve_left (by decide)) ⟨c, v, hv', hc⟩
          · exact h1 ⟨c, v, hv', hc⟩
    unfold rangeRest
    dsimp only
    by_cases h45 : d1 = 45
    · rw [if_pos h45]
      obtain ⟨v, rfl⟩ := a1'.cons' h45 (by decide)
      obtain ⟨_, r1, _⟩ := a1'.cons
      obtain ⟨s2, e2, a2⟩ := r1.at
      rw [e2]
      dsimp only
      obtain ⟨es, w, rfl, hes, hel, hee⟩ := span_hex 6 v
      obtain ⟨d3, s3, e3, a3⟩ := rangeEnd_digits w es 6 0 _ s2 hel hes hee (a2.mono (by omega))
      rw [e3]
      dsimp only
      rcases rangePlain_total (st := hexValue ds) (en := hexFrom 0 es) a3 with hf | hv
      · exact .inl hf
      · rw [hexFrom_zero] at hv
        exact .inr ⟨_, _, w, .pair hds ⟨hne, hlen⟩ hes hel hee hv⟩
    · rw [if_neg h45]
      rcases rangePlain_total (st := hexValue ds) (en := hexValue ds) a1' with hf | hv
      · exact .inl hf
      · refine .inr ⟨_, _, u, .one hds ⟨hne, hlen⟩ ?_ ?_ hv.2⟩
        · by_cases h6 : ds.length = 6
          · exact .inl h6
          · right
            rcases hstop with h | ⟨h1, h2⟩
            · omega
            · rintro ⟨c, v, rfl, hc | hc⟩
              · exact (h2.resolve_left (by decide)) ⟨c, v, rfl, hc⟩
              · exact h1 ⟨c, v, rfl, hc⟩
        · rintro v rfl
          exact h45 a1'.cons.1
  · obtain ⟨d2, s2, e2, a2⟩ := rangeLoop_mask u q (6 - ds.length) (hexValue ds) d1 s1 (by omega) hq a1
    rw [e2]
    have hstop : 6 - ds.length - q = 0 ∨ (¬ NextIs (fun c => c = 63) u ∧ (true = true ∨ ¬ NextIs Hex u)) := by
      rcases hqe with h | h
      · left; omega
      · exact .inr ⟨h, .inl rfl⟩
    rw [rangeLoop_stop a2 hstop]
    unfold rangeRest
    dsimp only
    by_cases hv : hexValue ds * 16 ^ q ≤ 0x10FFFF
    · refine .inr ⟨_, _, u, .mask hds (by omega) (by omega) ?_ hv⟩
      rcases hqe with h | h
      · left; omega
      · exact .inr h
    · left
      rw [if_pos (show hexValue ds * 16 ^ q ≥ 0x110000 by omega)]
      exact (Fails.report a2.tl.err .rangeTooLarge rfl).of_g (rangeTok_g _ _ _)

/-! ### Comments -/

theorem trimLeft_total (body : List Nat) : ∃ left, TrimmedLeft body left := by
  obtain ⟨b, t, e, hb, ht⟩ := span_blank body
  exact ⟨t, b, e, hb, ht⟩

theorem trim_total (body : List Nat) : ∃ text, Trimmed body text := by
  obtain ⟨b, t, e, hb, ht⟩ := span_blank body.reverse
  refine ⟨t.reverse, b.reverse, ?_, ?_, ?_⟩
  · have := congrArg List.reverse e
    rw [List.reverse_reverse, List.reverse_append] at this
    exact this
  · intro c hc; exact hb c (List.mem_reverse.1 hc)
  · intro c t' h hc
    have := congrArg List.reverse h
    rw [List.reverse_reverse, List.reverse_append] at this
    exact ht ⟨c, t'.reverse, by rw [this]; rfl, hc⟩

/-- A `/*` comment that is not closed. -/
theorem cbody_or : ∀ (cs : List Nat), (∃ body rest, cs = body ++ 42 :: 47 :: rest ∧
    ∀ a b, body ++ [42] ≠ a ++ (42 :: 47 :: b)) ∨ ∀ a b, cs ≠ a ++ 42 :: 47 :: b := by
  intro cs
  induction cs with
  | nil => right; intro a b h; exact absurd h (by simp)
  | cons c cs ih =>
    by_cases h0 : ∃ t, c :: cs = 42 :: 47 :: t
    · obtain ⟨t, h0⟩ := h0
      left
      refine ⟨[], t, h0, ?_⟩
      intro a b h
      have := congrArg List.length h
      simp at this
      omega
    · rcases ih with ⟨body, rest, rfl, hno⟩ | hno
      · left
        refine ⟨c :: body, rest, rfl, ?_⟩
        intro a b h
        cases a with
        | nil =>
          cases body with
          | nil => cases h
          | cons y body =>
            obtain ⟨rfl, hh⟩ := List.cons.inj h
            obtain ⟨rfl, _⟩ := List.cons.inj hh
            exact h0 ⟨_, rfl⟩
        | cons x a =>
          exact hno a b (List.cons.inj h).2
      · right
        intro a b h
        cases a with
        | nil => exact h0 ⟨b, h⟩
        | cons x a => exact hno a b (List.cons.inj h).2

theorem cLoop_unclosed {s0 : LS} : ∀ (n : Nat) (cs : List Nat) (f : Nat) (str : Str) (s : LS), cs.length ≤ n →
    (∀ a b, cs ≠ a ++ 42 :: 47 :: b) → cs.length < f → Rd s0 2 cs s → Fails s0 (cLoop f str s).2 := by
  intro n
  induction n with
  | zero =>
    intro cs f str s hn hno hf h
    obtain ⟨f, rfl⟩ : ∃ g, f = g + 1 := ⟨f - 1, by omega⟩
    cases cs with
    | cons => simp at hn
    | nil =>
      unfold cLoop
      rw [h.getc_nil]
      exact Fails.report h.err _ rfl
  | succ n ih =>
    intro cs f str s hn hno hf h
    obtain ⟨f, rfl⟩ : ∃ g, f = g + 1 := ⟨f - 1, by omega⟩
    cases cs with
    | nil =>
      unfold cLoop
      rw [h.getc_nil]
      exact Fails.report h.err _ rfl
    | cons c cs =>
      simp at hn hf
      have hno' : ∀ a b, cs ≠ a ++ 42 :: 47 :: b := fun a b e => hno (c :: a) b (by rw [e]; rfl)
      obtain ⟨s1, e1, r1, hr, hl, hne⟩ := h.getc'
      unfold cLoop
      rw [e1]
      dsimp only
      rw [if_neg hne]
      by_cases h42 : c = 42
      · rw [if_pos h42]
        obtain ⟨s2, e2, a2⟩ := r1.at
        rw [e2]
        dsimp only
        have h47 : cs.headD eof ≠ 47 := by
          intro h47
          obtain ⟨t, rfl⟩ := a2.cons' h47 (by decide)
          exact hno [] t (by rw [h42]; rfl)
        rw [if_neg h47, put_valid (c := 42) (by unfold Valid Scalar Nonchar; omega)]
        exact ih cs f _ _ hn hno' (by omega) ((a2.unget (by omega)).mono (by omega))
      · rw [if_neg h42]
        by_cases hv : Valid c
        · rw [put_valid hv]
          exact ih cs f _ _ hn hno' (by omega) (r1.mono (by omega))
        · exact (put_bad r1.err (not_valid hr.1 hv) str).of_g (cLoop_g _ _ _)

theorem cLoop_invalid {s0 : LS} {rest : List Nat} : ∀ (body : List Nat) (f : Nat) (str : Str) (s : LS),
    (∀ a b, body ++ [42] ≠ a ++ (42 :: 47 :: b)) → (∃ c ∈ body, ¬ Valid c) → body.length < f →
    Rd s0 2 (body ++ 42 :: 47 :: rest) s → Fails s0 (cLoop f str s).2 := by
  intro body
  induction body with
  | nil => intro f str s _ ⟨c, hc, _⟩; cases hc
  | cons c body ih =>
    intro f str s hno hb hf h
    obtain ⟨f, rfl⟩ : ∃ g, f = g + 1 := ⟨f - 1, by omega⟩
    simp at hf
    have hno' : ∀ a b, body ++ [42] ≠ a ++ (42 :: 47 :: b) := fun a b e => hno (c :: a) b (by rw [List.cons_append, e]; rfl)
    obtain ⟨s1, e1, r1, hr, hl, hne⟩ := Rd.getc' (cs := body ++ 42 :: 47 :: rest) h
    unfold cLoop
    rw [e1]
    dsimp only
    rw [if_neg hne]
    by_cases hv : Valid c
    · have hb' : ∃ x ∈ body, ¬ Valid x := by
        obtain ⟨x, hx, hxv⟩ := hb
        rcases List.mem_cons.1 hx with rfl | hx
        · exact absurd hv hxv
        · exact ⟨x, hx, hxv⟩
      by_cases h42 : c = 42
      · rw [if_pos h42]
        obtain ⟨s2, e2, a2⟩ := r1.at
        rw [e2]
        dsimp only
        have h47 : (body ++ 42 :: 47 :: rest).headD eof ≠ 47 := by
          cases body with
          | nil => obtain ⟨_, hx, _⟩ := hb'; cases hx
          | cons y body =>
            intro (h47 : y = 47)
            exact hno [] (body ++ [42]) (by rw [h42, h47]; rfl)
        rw [if_neg h47, put_valid (c := 42) (by unfold Valid Scalar Nonchar; omega)]
        exact ih f _ _ hno' hb' (by omega) ((a2.unget (by omega)).mono (by omega))
      · rw [if_neg h42, put_valid hv]
        exact ih f _ _ hno' hb' (by omega) (r1.mono (by omega))
    · have h42 : c ≠ 42 := by rintro rfl; exact hv (by unfold Valid Scalar Nonchar; omega)
      rw [if_neg h42]
      exact (put_bad r1.err (not_valid hr.1 hv) str).of_g (cLoop_g _ _ _)

theorem blank_no {body : List Nat} (hno : ∀ a b, body ++ [42] ≠ a ++ (42 :: 47 :: b)) : ∀ b : List Nat,
    (∀ c ∈ b, Blank c) → ∀ a x, (b ++ body) ++ [42] ≠ a ++ (42 :: 47 :: x) := by
  intro b
  induction b with
  | nil => intro _ a x; exact hno a x
  | cons y b ih =>
    intro hb a x e
    cases a with
    | nil =>
      have h1 := (List.cons.inj e).1
      have h2 := hb y (by simp)
      unfold Blank at h2
      omega
    | cons z a => exact ih (fun c hc => hb c (by simp [hc])) a x (List.cons.inj e).2

theorem cComment_total {s0 s : LS} {cs : List Nat} (h : Rd s0 2 cs s) :
    Fails s0 (cComment s).2 ∨ ∃ body rest, CComment (47 :: 42 :: cs) body rest := by
  obtain ⟨b, t, rfl, hb, hnb⟩ := span_blank cs
  have hf := h.fuel
  have r1 := skipLead_ok isSpace_blank rfl hnb b s.fuel s hb (by simp at hf; omega) h
  have hbv : ∀ c ∈ b, Valid c := by
    intro c hc
    have := hb c hc
    unfold Blank at this
    unfold Valid Scalar Nonchar; omega
  unfold cComment
  dsimp only
  rcases cbody_or t with ⟨body, rest, rfl, hno⟩ | hno
  · by_cases hv : ∃ c ∈ body, ¬ Valid c
    · left
      have hf2 := r1.fuel
      exact (cLoop_invalid body _ [] _ hno hv (by simp at hf2; omega) r1).of_g (fun g => commentEnd_g _ _ g)
    · right
      refine ⟨b ++ body, rest, by simp, ?_, ?_⟩
      · exact blank_no hno b hb
      · intro c hc
        rcases List.mem_append.1 hc with hc | hc
        · exact hbv c hc
        · exact Classical.byContradiction fun hh => hv ⟨c, hc, hh⟩
  · left
    exact (cLoop_unclosed _ t _ [] _ (Nat.le_refl _) hno r1.fuel r1).of_g (fun g => commentEnd_g _ _ g)

/-- A `//` comment with a character that can't be. -/
theorem lineLoop_total {s0 : LS} : ∀ (n : Nat) (cs : List Nat), cs.length ≤ n →
    (∃ vs rest, Spec.Lines cs vs rest) ∨
    ∀ (f : Nat) (str : Str) (s : LS), cs.length < f → Rd s0 2 cs s → Fails s0 (lineLoop f str s).2 := by
  intro n
  induction n with
  | zero =>
    intro cs hn
    cases cs with
    | cons => simp at hn
    | nil => exact .inl ⟨[], [], .eof⟩
  | succ n ih =>
    intro cs hn
    cases cs with
    | nil => exact .inl ⟨[], [], .eof⟩
    | cons c cs =>
      simp at hn
      by_cases h10 : c = 10
      · subst h10
        by_cases hj : ∃ t, cs = 47 :: 47 :: t
        · obtain ⟨t, rfl⟩ := hj
          simp at hn
          by_cases hb : NextIs (fun c => c = 32 ∨ c = 9) t
          · obtain ⟨x, u, rfl, hx⟩ := hb
            simp at hn
            rcases ih u (by omega) with ⟨vs, rest, h⟩ | h
            · exact .inl ⟨10 :: vs, rest, .joinBlank hx h⟩
            · right
              intro f str s hf r
              obtain ⟨f, rfl⟩ : ∃ g, f = g + 1 := ⟨f - 1, by omega⟩
              obtain ⟨s1, e1, r1, _⟩ := r.getc'
              obtain ⟨s2, e2, r2, _⟩ := r1.getc'
              obtain ⟨s3, e3, r3, _⟩ := r2.getc'
              obtain ⟨s4, e4, r4, _⟩ := r3.getc'
              unfold lineLoop
              rw [e1]
              dsimp only
              rw [if_neg (by decide), if_pos rfl, e2]
              dsimp only
              rw [if_pos rfl, e3]
              dsimp only
              rw [if_pos rfl]
              have : skipOne s3 = s4 := by
                unfold skipOne
                rw [e4]
                dsimp only
                rw [if_pos hx]
              rw [this]
              exact h _ _ _ (by simp at hf; omega) (r4.mono (by omega))
          · rcases ih t (by omega) with ⟨vs, rest, h⟩ | h
            · exact .inl ⟨10 :: vs, rest, .join hb h⟩
            · right
              intro f str s hf r
              obtain ⟨f, rfl⟩ : ∃ g, f = g + 1 := ⟨f - 1, by omega⟩
              obtain ⟨s1, e1, r1, _⟩ := r.getc'
              obtain ⟨s2, e2, r2, _⟩ := r1.getc'
              obtain ⟨s3, e3, r3, _⟩ := r2.getc'
              obtain ⟨s4, e4, a4⟩ := r3.at
              unfold lineLoop
              rw [e1]
              dsimp only
              rw [if_neg (by decide), if_pos rfl, e2]
              dsimp only
              rw [if_pos rfl, e3]
              dsimp only
              rw [if_pos rfl]
              have : Rd s0 2 t (skipOne s3) := by
                unfold skipOne
                rw [e4]
                dsimp only
                have h1 := a4.ne (d := 32) (by decide) (fun h => hb (h.mono (fun _ h => .inl h)))
                have h2 := a4.ne (d := 9) (by decide) (fun h => hb (h.mono (fun _ h => .inr h)))
                rw [if_neg (fun h => h.elim h1 h2)]
                exact (a4.unget (by omega)).mono (by omega)
              exact h _ _ _ (by simp at hf; omega) this
        · exact .inl ⟨[], 10 :: cs, .stop (fun t e => hj ⟨t, e⟩)⟩
      · by_cases hv : Valid c
        · rcases ih cs hn with ⟨vs, rest, h⟩ | h
          · exact .inl ⟨c :: vs, rest, .char h10 hv h⟩
          · right
            intro f str s hf r
            obtain ⟨f, rfl⟩ : ∃ g, f = g + 1 := ⟨f - 1, by omega⟩
            obtain ⟨s1, e1, r1, hr, hl, hne⟩ := r.getc'
            unfold lineLoop
            rw [e1]
            dsimp only
            rw [if_neg hne, if_neg h10, put_valid hv]
            exact h _ _ _ (by simp at hf; omega) (r1.mono (by omega))
        · right
          intro f str s hf r
          obtain ⟨f, rfl⟩ : ∃ g, f = g + 1 := ⟨f - 1, by omega⟩
          obtain ⟨s1, e1, r1, hr, hl, hne⟩ := r.getc'
          unfold lineLoop
          rw [e1]
          dsimp only
          rw [if_neg hne, if_neg h10]
          exact (put_bad r1.err (not_valid hr.1 hv) str).of_g (lineLoop_g _ _ _)

theorem span_tab (cs : List Nat) : ∃ b t, cs = b ++ t ∧ (∀ c ∈ b, c = 32 ∨ c = 9) ∧ ¬ NextIs (fun c => c = 32 ∨ c = 9) t := by
  induction cs with
  | nil => exact ⟨[], [], rfl, by simp, nextIs_nil⟩
  | cons c cs ih =>
    by_cases h : c = 32 ∨ c = 9
    · obtain ⟨b, t, rfl, hb, ht⟩ := ih
      refine ⟨c :: b, t, rfl, ?_, ht⟩
      intro x hx
      rcases List.mem_cons.1 hx with rfl | hx
      · exact h
      · exact hb x hx
    · exact ⟨[], c :: cs, rfl, by simp, by rw [nextIs_cons]; exact h⟩

theorem lineComment_total {s0 s : LS} {cs : List Nat} (h : Rd s0 2 cs s) :
    Fails s0 (lineComment s).2 ∨ ∃ body rest, LineComment (47 :: 47 :: cs) body rest := by
  obtain ⟨b, t, rfl, hb, hnb⟩ := span_tab cs
  have hf := h.fuel
  have r1 := skipLead_ok (p := fun c => c == 32 || c == 9) (P := fun c => c = 32 ∨ c = 9) (by intro c; simp)
    (by decide) hnb b s.fuel s hb (by simp at hf; omega) h
  rcases lineLoop_total (s0 := s0) _ t (Nat.le_refl _) with ⟨vs, rest, hl⟩ | hbad
  · exact .inr ⟨vs, rest, b, t, rfl, hb, hnb, hl⟩
  · left
    unfold lineComment
    exact (hbad _ [] _ r1.fuel r1).of_g (fun g => commentEnd_g _ _ g)

end Csspp.Lex
