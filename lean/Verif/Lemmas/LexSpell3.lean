import Verif.Lemmas.LexSpell2

/-! Reading a text that spells a token, continued: numbers. -/

namespace Csspp.Lex
open Csspp.Utf8 Csspp.Spec

/-! ### The integral part -/

theorem decVal_append (a b : List Nat) : decVal (a ++ b) = b.foldl (fun v c => 10 * v + (c - 48)) (decVal a) := by
  unfold decVal; rw [List.foldl_append]

theorem decVal_snoc (a : List Nat) (c : Nat) : decVal (a ++ [c]) = 10 * decVal a + (c - 48) := by
  rw [decVal_append]; rfl

theorem wrapped_snoc (a : List Nat) (c : Nat) :
    wrapped (a ++ [c]) = (10 * wrapped a + (c - 48)) % 18446744073709551616 := by
  unfold wrapped
  rw [decVal_snoc]
  omega

theorem nextInt_wrapped {a : List Nat} (h : wrapped a < 9223372036854775808) (c : Nat) :
    nextInt (wrapped a : Int) c = wrapped (a ++ [c]) := by
  unfold nextInt toU64
  have : ((wrapped a : Int) % 18446744073709551616).toNat = wrapped a := by omega
  rw [this, wrapped_snoc]

theorem wrap64_small {n : Nat} (h : n < 9223372036854775808) : wrap64 (n : Int) = n :=
  wrap64_of_isI64 (by unfold IsI64; omega)

theorem intOk_take {a b : List Nat} (h : IntOk (a ++ b)) : IntOk a := by
  intro k hk h2
  have := h k (by simp; omega) h2
  rwa [List.take_append_of_le_length hk] at this

theorem wrapped_digit {d : Nat} (h : Dec d) : wrapped [d] = d - 48 := by
  unfold wrapped decVal Dec at *
  simp
  omega

theorem intOk_small {a : List Nat} (h : IntOk a) (hd : ∀ d ∈ a, Dec d) : wrapped a < 9223372036854775808 := by
  by_cases h2 : 2 ≤ a.length
  · have := h a.length (Nat.le_refl _) h2
    rwa [List.take_length] at this
  · match a, h2 with
    | [], _ => decide
    | [d], _ => rw [wrapped_digit (hd d (by simp))]; have := hd d (by simp); unfold Dec at this; omega
    | _ :: _ :: _, h2 => simp at h2

theorem intLoop_ok {s0 : LS} {rest : List Nat} (hend : ¬ NextIs Dec rest) :
    ∀ (ds a : List Nat) (f : Nat) (s : LS) (k : Nat), k ≤ 2 → a ≠ [] → (∀ c ∈ a ++ ds, Dec c) →
    IntOk (a ++ ds) → Rd s0 k (ds ++ rest) s → ds.length < f →
    ∃ s', intLoop f (wrapped a : Int) s = ((wrapped (a ++ ds) : Int), rest.headD eof, s') ∧
      At s0 1 rest (rest.headD eof) s' := by
  intro ds
  induction ds with
  | nil =>
    intro a f s k hk ha hd _ h hf
    obtain ⟨f, rfl⟩ : ∃ g, f = g + 1 := ⟨f - 1, by omega⟩
    obtain ⟨s1, e1, a1⟩ := Rd.at (show Rd s0 k rest s from h)
    refine ⟨s1, ?_, a1.mono (by omega)⟩
    unfold intLoop
    rw [e1]
    dsimp only
    rw [a1.notDigit hend, List.append_nil]
    rfl
  | cons c ds ih =>
    intro a f s k hk ha hd hi h hf
    obtain ⟨f, rfl⟩ : ∃ g, f = g + 1 := ⟨f - 1, by omega⟩
    obtain ⟨s1, e1, r1⟩ := Rd.getc (show Rd s0 k (c :: (ds ++ rest)) s from h)
    have hc := hd c (by simp)
    have hsplit : a ++ c :: ds = (a ++ [c]) ++ ds := by simp
    rw [hsplit] at hd hi ⊢
    have hsm : wrapped (a ++ [c]) < 9223372036854775808 :=
      intOk_small (intOk_take hi) (fun x hx => hd x (List.mem_append_left _ hx))
    have hsa : wrapped a < 9223372036854775808 :=
      intOk_small (intOk_take (intOk_take hi))
        (fun x hx => hd x (List.mem_append_left _ (List.mem_append_left _ hx)))
    obtain ⟨s', e2, r2⟩ := ih (a ++ [c]) f s1 (k - 1) (by omega) (by simp) hd hi r1 (by simp at hf; omega)
    refine ⟨s', ?_, r2⟩
    unfold intLoop
    rw [e1]
    dsimp only
    have hover : intTooLarge (wrapped (a ++ [c])) = false := by
      unfold intTooLarge; simp; omega
    rw [if_pos ((isDigit_dec c).2 hc), nextInt_wrapped hsa, hover, wrap64_small hsm]
    exact e2

theorem intPart_ok {s0 s : LS} {cs ds rest : List Nat} {c k : Nat} (h : DigitRun cs ds rest) (hi : IntOk ds)
    (hk : k ≤ 2) (ha : At s0 k cs c s) :
    ∃ c' s', intPart c s = ((wrapped ds : Int), c', s') ∧ At s0 2 rest c' s' := by
  obtain ⟨rfl, hd, he⟩ := h
  cases ds with
  | nil =>
    refine ⟨c, s, ?_, ha.mono (by omega)⟩
    unfold intPart
    rw [ha.notDigit he]
    rfl
  | cons d ds =>
    obtain ⟨rfl, r1, _, _, _⟩ := ha.cons
    have hc := hd c (by simp)
    have hf := r1.fuel
    obtain ⟨s', e, a1⟩ := intLoop_ok he ds [c] s.fuel s k hk (by simp) hd hi r1 (by simp at hf; omega)
    refine ⟨_, s', ?_, a1.mono (by omega)⟩
    unfold intPart
    rw [if_pos ((isDigit_dec c).2 hc)]
    rw [wrapped_digit hc] at e
    exact e

/-! ### The fraction -/

theorem fracLoop_ok {s0 : LS} {rest : List Nat} (hend : ¬ NextIs Dec rest) :
    ∀ (ds a : List Nat) (f : Nat) (s : LS) (k : Nat), k ≤ 2 → (∀ c ∈ ds, Dec c) →
    a.length + ds.length ≤ 20 → Rd s0 k (ds ++ rest) s → ds.length < f →
    ∃ s', fracLoop f a s = (ds.reverse ++ a, rest.headD eof, s') ∧ At s0 1 rest (rest.headD eof) s' := by
  intro ds
  induction ds with
  | nil =>
    intro a f s k hk hd _ h hf
    obtain ⟨f, rfl⟩ : ∃ g, f = g + 1 := ⟨f - 1, by omega⟩
    obtain ⟨s1, e1, a1⟩ := Rd.at (show Rd s0 k rest s from h)
    refine ⟨s1, ?_, a1.mono (by omega)⟩
    unfold fracLoop
    rw [e1]
    dsimp only
    rw [a1.notDigit hend]
    rfl
  | cons c ds ih =>
    intro a f s k hk hd hl h hf
    obtain ⟨f, rfl⟩ : ∃ g, f = g + 1 := ⟨f - 1, by omega⟩
    obtain ⟨s1, e1, r1⟩ := Rd.getc (show Rd s0 k (c :: (ds ++ rest)) s from h)
    have hc := hd c (by simp)
    obtain ⟨s', e2, r2⟩ := ih (c :: a) f s1 (k - 1) (by omega) (fun x hx => hd x (by simp [hx]))
      (by simp at hl ⊢; omega) r1 (by simp at hf; omega)
    refine ⟨s', ?_, r2⟩
    unfold fracLoop
    rw [e1]
    dsimp only
    have h21 : (a.length + 1 == 21) = false := by
      simp at hl ⊢; omega
    rw [if_pos ((isDigit_dec c).2 hc), h21]
    show fracLoop f (c :: a) s1 = _
    rw [e2]
    simp

theorem fracPart_ok {s0 s : LS} {cs fr rest : List Nat} {isDec : Bool} {c : Nat}
    (h : Fraction cs fr isDec rest) (ha : At s0 2 cs c s) :
    ∃ c' s', fracPart c s = (fr, isDec, c', s') ∧ At s0 2 rest c' s' := by
  cases h with
  | @digits cs _ _ h hn =>
    obtain ⟨rfl, hd, he⟩ := h
    obtain ⟨rfl, r1, _, _, _⟩ := ha.cons
    have hf := r1.fuel
    obtain ⟨s', e, a1⟩ := fracLoop_ok he fr [] s.fuel s 2 (by omega) hd (by simp; omega) r1 (by simp at hf; omega)
    refine ⟨_, s', ?_, a1.mono (by omega)⟩
    unfold fracPart
    rw [if_pos rfl, e]
    have : (fr.reverse ++ []).isEmpty = false := by
      cases fr with
      | nil => simp at hn
      | cons => simp
    dsimp only
    rw [this]
    simp [LS.reportIf]
  | no hn =>
    refine ⟨c, s, ?_, ha⟩
    unfold fracPart
    have : c ≠ 46 := by
      rcases ha.le with h | ⟨_, _, _, t, ht⟩
      · rw [h]; decide
      · rintro rfl; exact hn t ht
    rw [if_neg this]

/-! ### The exponent -/

theorem decVal_ge (b : List Nat) : ∀ v, v ≤ b.foldl (fun v c => 10 * v + (c - 48)) v := by
  induction b with
  | nil => intro v; exact Nat.le_refl _
  | cons c b ih =>
    intro v
    have := ih (10 * v + (c - 48))
    show v ≤ b.foldl (fun v c => 10 * v + (c - 48)) (10 * v + (c - 48))
    omega

theorem nextExp_eq (v c : Nat) (hc : Dec c) : nextExp (v : Int) c = ((10 * v + (c - 48) : Nat) : Int) := by
  unfold nextExp; unfold Dec at hc; omega

theorem expLoop_ok {s0 : LS} {rest : List Nat} (hend : ¬ NextIs Dec rest) :
    ∀ (ds a : List Nat) (f c : Nat) (s : LS), (∀ c ∈ ds, Dec c) →
    decVal (a ++ ds) ≤ 1023 → At s0 2 (ds ++ rest) c s → ds.length < f →
    ∃ c' s', expLoop f (decVal a : Int) c s = ((decVal (a ++ ds) : Int), c', s') ∧ At s0 2 rest c' s' := by
  intro ds
  induction ds with
  | nil =>
    intro a f c s hd _ h hf
    obtain ⟨f, rfl⟩ : ∃ g, f = g + 1 := ⟨f - 1, by omega⟩
    refine ⟨c, s, ?_, h⟩
    unfold expLoop
    rw [At.notDigit (cs := rest) h hend, List.append_nil]
    rfl
  | cons d ds ih =>
    intro a f c s hd hv h hf
    obtain ⟨f, rfl⟩ : ∃ g, f = g + 1 := ⟨f - 1, by omega⟩
    obtain ⟨rfl, r1, _⟩ := At.cons (cs := ds ++ rest) h
    have hc := hd c (by simp)
    have hsplit : a ++ c :: ds = (a ++ [c]) ++ ds := by simp
    rw [hsplit] at hv ⊢
    have hle : decVal (a ++ [c]) ≤ 1023 := by
      have := decVal_ge ds (decVal (a ++ [c]))
      rw [decVal_append] at hv
      omega
    obtain ⟨s1, e1, a1⟩ := r1.at
    obtain ⟨c', s', e2, r2⟩ := ih (a ++ [c]) f _ s1 (fun x hx => hd x (by simp [hx])) hv
      (a1.mono (by omega)) (by simp at hf; omega)
    refine ⟨c', s', ?_, r2⟩
    have hn : nextExp (decVal a : Int) c = (decVal (a ++ [c]) : Int) := by
      rw [nextExp_eq _ _ hc, decVal_snoc]
    have ho : overflows (decVal (a ++ [c]) : Int) = false := by
      unfold overflows IsI64; simp; omega
    have hw : wrap64 (decVal (a ++ [c]) : Int) = (decVal (a ++ [c]) : Int) :=
      wrap64_of_isI64 (by unfold IsI64; omega)
    have hl : decide ((1024 : Int) ≤ (decVal (a ++ [c]) : Int)) = false := by simp; omega
    unfold expLoop
    rw [if_pos ((isDigit_dec c).2 hc)]
    dsimp only
    rw [hn, ho, hw, hl]
    show (match getc s with | (c, s) => expLoop f _ c s) = _
    rw [e1]
    exact e2

theorem expDigits_ok {s0 s : LS} {cs ds rest : List Nat} {c : Nat} (neg : Bool) (h : DigitRun cs ds rest)
    (hn : ds ≠ []) (hv : decVal ds ≤ 1023) (ha : At s0 2 cs c s) :
    ∃ c' s', expDigits neg c s = (if neg then -(decVal ds : Int) else decVal ds, c', s') ∧ At s0 2 rest c' s' := by
  obtain ⟨rfl, hd, he⟩ := h
  have hc : Dec c := by
    cases ds with
    | nil => exact absurd rfl hn
    | cons d ds => obtain ⟨rfl, _⟩ := At.cons (cs := ds ++ rest) ha; exact hd c (by simp)
  have hf := ha.tl.fuel
  have hlen : ds.length < s.fuel + 1 := by
    simp at hf; omega
  obtain ⟨c', s', e, a1⟩ := expLoop_ok he ds [] (s.fuel + 1) c s hd hv ha hlen
  refine ⟨c', s', ?_, a1⟩
  unfold expDigits
  rw [if_pos ((isDigit_dec c).2 hc)]
  dsimp only
  have e' : expLoop (s.fuel + 1) 0 c s = ((decVal ds : Int), c', s') := e
  rw [e']
  dsimp only
  cases neg with
  | false => rfl
  | true =>
    have ho : overflows (-(decVal ds : Int)) = false := by
      unfold overflows IsI64; simp; omega
    dsimp only
    rw [ho, wrap64_of_isI64 (by unfold IsI64; omega)]
    rfl

theorem expPart_ok {s0 s : LS} {cs rest : List Nat} {e : Int} {c : Nat}
    (h : Exponent cs e rest) (ha : At s0 2 cs c s) :
    ∃ c' s', expPart c s = (e, c', s') ∧ At s0 2 rest c' s' := by
  cases h with
  | @digits e' cs t ds _ hs neg he hsg h hn hv =>
    obtain ⟨rfl, r1, _⟩ := ha.cons
    obtain ⟨s1, e1, a1⟩ := r1.at
    have key : ∀ s2, isExponent s = (true, s2) → Rd s0 2 cs s2 → ∃ c' s', expPart c s =
        (if neg then -(decVal ds : Int) else decVal ds, c', s') ∧ At s0 2 rest c' s' := by
      intro s2 hx r2
      obtain ⟨s3, e3, a3⟩ := r2.at
      cases hsg with
      | plus =>
        obtain ⟨_, r3, _⟩ := a3.cons
        obtain ⟨s4, e4, a4⟩ := r3.at
        obtain ⟨c', s', e5, a5⟩ := expDigits_ok false h hn hv (a4.mono (by omega))
        refine ⟨c', s', ?_, a5⟩
        unfold expPart
        rw [if_pos he, hx]
        dsimp only
        rw [e3]
        dsimp only
        unfold expSign
        rw [if_neg (show (43 :: t).headD eof ≠ 45 from fun h => absurd (show (43 : Nat) = 45 from h) (by decide)), if_pos (show (43 :: t).headD eof = 43 from rfl), e4]
        exact e5
      | minus =>
        obtain ⟨_, r3, _⟩ := a3.cons
        obtain ⟨s4, e4, a4⟩ := r3.at
        obtain ⟨c', s', e5, a5⟩ := expDigits_ok true h hn hv (a4.mono (by omega))
        refine ⟨c', s', ?_, a5⟩
        unfold expPart
        rw [if_pos he, hx]
        dsimp only
        rw [e3]
        dsimp only
        unfold expSign
        rw [if_pos (show (45 :: t).headD eof = 45 from rfl), e4]
        exact e5
      | no hno =>
        obtain ⟨c', s', e5, a5⟩ := expDigits_ok false h hn hv (a3.mono (by omega))
        refine ⟨c', s', ?_, a5⟩
        unfold expPart
        rw [if_pos he, hx]
        dsimp only
        rw [e3]
        dsimp only
        unfold expSign
        rw [if_neg (a3.ne (d := 45) (by decide) (fun h => hno (h.mono (fun _ h => .inr h)))),
          if_neg (a3.ne (d := 43) (by decide) (fun h => hno (h.mono (fun _ h => .inl h))))]
        exact e5
    obtain ⟨rfl, hd, hend⟩ := h
    obtain ⟨d, ds', rfl⟩ : ∃ d ds', ds = d :: ds' := by
      cases ds with
      | nil => exact absurd rfl hn
      | cons d ds' => exact ⟨d, ds', rfl⟩
    have hdd := hd d (by simp)
    cases hsg with
    | plus =>
      obtain ⟨s2, e2, r2, q2, q3, q4⟩ := Rd.getc' (show Rd s0 1 (d :: (ds' ++ rest)) s1 from a1.tl)
      refine key (ungetc 43 (ungetc d s2)) ?_ ?_
      · unfold isExponent
        rw [e1]
        dsimp only
        rw [if_pos (by right; rfl), e2]
        dsimp only
        rw [(isDigit_dec d).2 hdd]
        rfl
      · have := (r2.unget (by omega) q2 q3).unget (c := 43) (by omega) ⟨by decide, by decide⟩ (by decide)
        exact this.mono (by omega)
    | minus =>
      obtain ⟨s2, e2, r2, q2, q3, q4⟩ := Rd.getc' (show Rd s0 1 (d :: (ds' ++ rest)) s1 from a1.tl)
      refine key (ungetc 45 (ungetc d s2)) ?_ ?_
      · unfold isExponent
        rw [e1]
        dsimp only
        rw [if_pos (by left; rfl), e2]
        dsimp only
        rw [(isDigit_dec d).2 hdd]
        rfl
      · have := (r2.unget (by omega) q2 q3).unget (c := 45) (by omega) ⟨by decide, by decide⟩ (by decide)
        exact this.mono (by omega)
    | no hno =>
      refine key (ungetc d s1) ?_ ?_
      · unfold isExponent
        rw [e1]
        dsimp only
        rw [if_neg (show ¬ ((d :: ds' ++ rest).headD eof = 45 ∨ (d :: ds' ++ rest).headD eof = 43) from by
          show ¬ (d = 45 ∨ d = 43); unfold Dec at hdd; omega)]
        show (isDigit d, ungetc d s1) = _
        rw [(isDigit_dec d).2 hdd]
      · exact (a1.unget (by omega)).mono (by omega)
  | no hn =>
    by_cases he : c = 101 ∨ c = 69
    · have hce : c ≠ eof := by rintro rfl; revert he; decide
      rcases ha.le with h | ⟨_, _, _, t, ht⟩
      · exact absurd h hce
      subst ht
      have r1 : Rd s0 2 t s := ha.tl
      obtain ⟨s1, e1, a1⟩ := r1.at
      have fin : ∀ s2, isExponent s = (false, s2) → Rd s0 2 t s2 → ∃ c' s', expPart c s =
          (0, c', s') ∧ At s0 2 (c :: t) c' s' := by
        intro s2 hx r2
        refine ⟨c, s2, ?_, ⟨rfl, r2, ha.mem⟩⟩
        unfold expPart
        rw [if_pos he, hx]
      by_cases hsign : t.headD eof = 45 ∨ t.headD eof = 43
      · obtain ⟨x, u, rfl⟩ : ∃ x u, t = x :: u := by
          cases t with
          | nil => exact absurd (show eof = 45 ∨ eof = 43 from hsign) (by decide)
          | cons x u => exact ⟨x, u, rfl⟩
        have hx : x = 45 ∨ x = 43 := hsign
        obtain ⟨s2, e2, a2⟩ := Rd.at (show Rd s0 1 u s1 from a1.tl)
        refine fin (ungetc x (ungetc (u.headD eof) s2)) ?_ ?_
        · unfold isExponent
          rw [e1]
          dsimp only
          rw [if_pos hsign, e2]
          dsimp only
          rw [a2.notDigit (fun hd => hn ⟨c, x :: u, rfl, he, .inr ⟨x, u, rfl, hx.symm, hd⟩⟩)]
          rfl
        · have hm := a1.mem x (by simp)
          exact ((a2.unget (by omega)).unget (by omega) hm.1 hm.2).mono (by omega)
      · refine fin (ungetc (t.headD eof) s1) ?_ ((a1.unget (by omega)).mono (by omega))
        unfold isExponent
        rw [e1]
        dsimp only
        rw [if_neg hsign, a1.notDigit (fun hd => hn ⟨c, t, rfl, he, .inl hd⟩)]
    · refine ⟨c, s, ?_, ha⟩
      unfold expPart
      rw [if_neg he]

/-! ### The dimension -/

theorem dimLoop_ok {s0 : LS} {cs vs rest : List Nat} {cut : Bool} (h : NameTail cs vs cut rest) :
    ∀ (f : Nat) (dim : Str) (c : Nat) (s : LS) (k : Nat), (k ≤ 1 ∨ (k ≤ 2 ∧ NextIs (fun c => NameChar c ∨ c = 92) cs)) →
    cs.length < f → At s0 k cs c s →
    ∃ x s', dimLoop f dim c s = (dim ++ encode (vs.map lowerByte), x, s') ∧ Rd s0 2 rest s' := by
  induction h with
  | stop rest hn =>
    intro f dim c s k hk hf ha
    obtain ⟨f, rfl⟩ : ∃ g, f = g + 1 := ⟨f - 1, by omega⟩
    rcases hk with hk | ⟨_, hk⟩
    · refine ⟨0, _, ?_, (ha.unget (by omega)).mono (by omega)⟩
      unfold dimLoop
      rw [if_neg (ha.ne (d := 92) (by decide) (fun h => hn (h.mono (fun _ h => .inr h)))),
        ha.notIdent (fun h => hn (h.mono (fun _ h => .inl h)))]
      simp [encode_nil]
    · exact absurd hk hn
  | @char d cs vs rest cut hc hv _ ih =>
    intro f dim c s k hk hf ha
    obtain ⟨f, rfl⟩ : ∃ g, f = g + 1 := ⟨f - 1, by omega⟩
    obtain ⟨rfl, r1, hrd, hl, hne⟩ := ha.cons
    obtain ⟨s1, e1, a1⟩ := r1.at
    obtain ⟨x, s', e2, r2⟩ := ih f (dim ++ (wctomb (lowerByte c)).1) _ s1 (k - 1) (by omega)
      (by simp at hf; omega) a1
    refine ⟨x, s', ?_, r2⟩
    have h92 : c ≠ 92 := by unfold NameChar VarChar Dec Letter at hc; omega
    unfold dimLoop
    rw [if_neg h92, if_pos ((isIdentifier_name hl).2 hc), put_lower hv]
    dsimp only
    rw [e1]
    dsimp only
    rw [e2, List.map_cons, encode_cons, List.append_assoc]
  | @escape d es cs vs rest cut he hd hv _ ih =>
    intro f dim c s k hk hf ha
    obtain ⟨f, rfl⟩ : ∃ g, f = g + 1 := ⟨f - 1, by omega⟩
    obtain ⟨rfl, r1, hrd, hl, hne⟩ := ha.cons
    obtain ⟨s1, e1, r2⟩ := escape_ok he (by omega) r1
    obtain ⟨s2, e2, a2⟩ := r2.at
    have hlen := he.length
    obtain ⟨x, s', e3, r3⟩ := ih f (dim ++ (wctomb (lowerByte d)).1) _ s2 0 (by omega)
      (by simp at hf; omega) a2
    refine ⟨x, s', ?_, r3⟩
    unfold dimLoop
    rw [if_pos rfl, e1]
    dsimp only
    rw [if_neg hd, put_lower hv]
    dsimp only
    rw [e2]
    dsimp only
    rw [e3, List.map_cons, encode_cons, List.append_assoc]
  | @lost es rest he =>
    intro f dim c s k hk hf ha
    obtain ⟨f, rfl⟩ : ∃ g, f = g + 1 := ⟨f - 1, by omega⟩
    obtain ⟨rfl, r1, hrd, hl, hne⟩ := ha.cons
    obtain ⟨s1, e1, r2⟩ := escape_ok he (by omega) r1
    refine ⟨0xFFFD, s1, ?_, r2.mono (by omega)⟩
    unfold dimLoop
    rw [if_pos rfl, e1]
    dsimp only
    rw [if_pos rfl]
    simp [encode_nil]

theorem isIdent_37 : isIdentifier 37 = false := by decide

theorem dimPart_ok {s0 s : LS} {cs dim rest : List Nat} {pc : Bool} {c : Nat}
    (h : Dimension cs dim pc rest) (ha : At s0 2 cs c s) :
    ∃ s', dimPart c s = (encode dim, pc, s') ∧ Rd s0 3 rest s' := by
  have cond : ∀ {cs : List Nat}, At s0 2 cs c s → NextIs (fun c => NameChar c ∨ c = 92) cs →
      (isIdentifier c = true ∨ c = 92) ∧ cs.length < s.fuel + 1 := by
    rintro _ ha ⟨d, t, rfl, hd⟩
    obtain ⟨rfl, r1, hr, hl, hne⟩ := ha.cons
    have hf := r1.fuel
    refine ⟨?_, by simp; omega⟩
    rcases hd with hd | hd
    · exact .inl ((isIdentifier_name hl).2 hd)
    · exact .inr hd
  cases h with
  | percent =>
    obtain ⟨rfl, r1, _⟩ := ha.cons
    refine ⟨s, ?_, r1.mono (by omega)⟩
    unfold dimPart
    rw [if_neg (by rw [isIdent_37]; decide), if_pos rfl]
    rfl
  | @name _ vs _ cut hs h hd =>
    have hc := cond ha hs
    obtain ⟨x, s', e, r⟩ := dimLoop_ok h (s.fuel + 1) [] c s 2 (.inr ⟨by omega, hs⟩) hc.2 ha
    refine ⟨s', ?_, r.mono (by omega)⟩
    unfold dimPart
    rw [if_pos hc.1, e]
    unfold dimDash
    dsimp only
    have hne : ¬ (([] : Str) ++ encode (vs.map lowerByte) = [45]) := by
      intro he
      have h1 := (encode_ascii (valid_map h.valid) (t := [45]) (by decide)).1 he
      cases vs with
      | nil => cases h1
      | cons a vs =>
        obtain ⟨h2, h3⟩ := List.cons.inj h1
        have hvs : vs = [] := by cases vs with | nil => rfl | cons => cases h3
        subst hvs
        have : a = 45 := by
          unfold lowerByte at h2
          split at h2 <;> omega
        exact hd (by rw [this])
    rw [if_neg hne]
    rfl
  | @dash _ rest cut h =>
    have hs : NextIs (fun c => NameChar c ∨ c = 92) cs := by
      cases h with
      | char hc _ _ => exact ⟨_, _, rfl, .inl hc⟩
      | escape => exact ⟨_, _, rfl, .inr rfl⟩
    have hc := cond ha hs
    obtain ⟨x, s', e, r⟩ := dimLoop_ok h (s.fuel + 1) [] c s 2 (.inr ⟨by omega, hs⟩) hc.2 ha
    refine ⟨ungetc 45 s', ?_, r.unget (by omega) ⟨by decide, by decide⟩ (by decide)⟩
    unfold dimPart
    rw [if_pos hc.1, e]
    unfold dimDash
    dsimp only
    have hne : (([] : Str) ++ encode ([45].map lowerByte)) = [45] := by decide
    rw [if_pos hne]
    rfl
  | no hn =>
    refine ⟨_, ?_, ha.unget (by omega)⟩
    unfold dimPart
    have h1 := ha.notIdent (fun h => hn (h.mono (fun _ h => .inl h)))
    have h2 := ha.ne (d := 92) (by decide) (fun h => hn (h.mono (fun _ h => .inr (.inl h))))
    have h3 := ha.ne (d := 37) (by decide) (fun h => hn (h.mono (fun _ h => .inr (.inr h))))
    rw [if_neg (by rw [h1]; exact fun h => h.elim (by decide) h2), if_neg h3]
    rfl

/-! ### The number -/

/-- The token t holds the lexeme l. -/
theorem numNode_ok {s : LS} {ds fr dim : List Nat} (hs neg isDec : Bool) (e : Int)
    (pc : Bool) (hi : IntOk ds) (hd : ∀ d ∈ ds, Dec d) (hv : ∀ c ∈ dim, Valid c) :
    ∃ t, numNode hs neg (wrapped ds : Int) fr isDec e (encode dim) pc s = (t, s) ∧
      Holds t (numberLexeme hs neg ds fr isDec e dim pc) := by
  have hdim : Utf8 dim (encode dim) := encode_utf8 (fun c hc => ⟨valid_enc (hv c hc), (hv c hc).2.2⟩)
  unfold numNode numberLexeme
  cases pc with
  | true =>
    rw [if_pos (.inr (.inr rfl)), if_pos rfl]
    exact ⟨_, rfl, rfl, .nil, .nil, rfl, rfl, rfl, rfl⟩
  | false =>
    rw [if_neg (by decide : ¬ (false = true))]
    by_cases hcond : isDec = true ∨ e ≠ 0
    · rw [if_pos (by rcases hcond with h | h; exact .inr (.inl h); exact .inl h), if_pos hcond]
      exact ⟨_, rfl, rfl, hdim, .nil, rfl, rfl, rfl, rfl⟩
    · have hno : ¬ (e ≠ 0 ∨ isDec = true ∨ false = true) := by
        rintro (h | h | h)
        · exact hcond (.inr h)
        · exact hcond (.inl h)
        · cases h
      rw [if_neg hno, if_neg hcond]
      have hsm := intOk_small hi hd
      cases neg with
      | false => exact ⟨_, rfl, rfl, hdim, .nil, rfl, rfl, rfl, rfl⟩
      | true =>
        have ho : overflows (-(wrapped ds : Int)) = false := by
          unfold overflows IsI64; simp; omega
        dsimp only
        rw [ho, wrap64_of_isI64 (by unfold IsI64; omega)]
        exact ⟨_, rfl, rfl, hdim, .nil, rfl, rfl, rfl, rfl⟩

theorem _root_.Csspp.Spec.Dimension.valid {cs dim rest : List Nat} {pc : Bool} (h : Dimension cs dim pc rest) :
    ∀ c ∈ dim, Valid c := by
  cases h with
  | percent => exact fun c hc => by cases hc
  | name _ h _ => exact valid_map h.valid
  | dash => exact fun c hc => by cases hc
  | no => exact fun c hc => by cases hc

theorem numBody_ok {s0 s : LS} {cs1 cs2 cs3 cs4 ds fr dim rest : List Nat} {isDec pc : Bool} {e : Int}
    {c : Nat} (hs neg : Bool) (h2 : DigitRun cs1 ds cs2) (hi : IntOk ds) (h3 : Fraction cs2 fr isDec cs3)
    (h4 : Exponent cs3 e cs4) (h5 : Dimension cs4 dim pc rest) (ha : At s0 2 cs1 c s) :
    ∃ t s', numBody hs neg c s = (t, s') ∧ Holds t (numberLexeme hs neg ds fr isDec e dim pc) ∧
      Rd s0 3 rest s' := by
  obtain ⟨c1, s1, e1, a1⟩ := intPart_ok h2 hi (by omega) ha
  obtain ⟨c2, s2, e2, a2⟩ := fracPart_ok h3 a1
  obtain ⟨c3, s3, e3, a3⟩ := expPart_ok h4 a2
  obtain ⟨s4, e4, r4⟩ := dimPart_ok h5 a3
  obtain ⟨t, e5, h6⟩ := numNode_ok (fr := fr) hs neg isDec e pc hi h2.2.1 h5.valid
  refine ⟨t, s4, ?_, h6, r4⟩
  unfold numBody
  rw [e1]
  dsimp only
  rw [e2]
  dsimp only
  rw [e3]
  dsimp only
  rw [e4]
  exact e5

/-- A number; its first character is c. -/
theorem number_ok {s0 s : LS} {cs cs1 cs2 cs3 cs4 ds fr dim rest : List Nat} {hs neg isDec pc : Bool} {e : Int}
    {c : Nat} (h1 : Sign cs hs neg cs1) (h2 : DigitRun cs1 ds cs2) (hi : IntOk ds)
    (h3 : Fraction cs2 fr isDec cs3) (h4 : Exponent cs3 e cs4) (h5 : Dimension cs4 dim pc rest)
    (ha : At s0 2 cs c s) :
    ∃ t s', number c s = (t, s') ∧ Holds t (numberLexeme hs neg ds fr isDec e dim pc) ∧
      Rd s0 3 rest s' := by
  unfold number
  cases h1 with
  | plus =>
    obtain ⟨rfl, r1, _⟩ := ha.cons
    obtain ⟨s1, e1, a1⟩ := r1.at
    obtain ⟨t, s', e2, h⟩ := numBody_ok true false h2 hi h3 h4 h5 (a1.mono (by omega))
    refine ⟨t, s', ?_, h⟩
    rw [if_pos (.inr rfl), e1]
    exact e2
  | minus =>
    obtain ⟨rfl, r1, _⟩ := ha.cons
    obtain ⟨s1, e1, a1⟩ := r1.at
    obtain ⟨t, s', e2, h⟩ := numBody_ok true true h2 hi h3 h4 h5 (a1.mono (by omega))
    refine ⟨t, s', ?_, h⟩
    rw [if_pos (.inl rfl), e1]
    exact e2
  | no hn =>
    obtain ⟨t, s', e2, h⟩ := numBody_ok false false h2 hi h3 h4 h5 ha
    refine ⟨t, s', ?_, h⟩
    rw [if_neg (fun h => h.elim
      (ha.ne (d := 45) (by decide) (fun h => hn (h.mono (fun _ h => .inr h))))
      (ha.ne (d := 43) (by decide) (fun h => hn (h.mono (fun _ h => .inl h)))))]
    exact e2

end Csspp.Lex
