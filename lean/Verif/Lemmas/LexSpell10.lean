import Verif.Lemmas.LexSpell9

/-! What does not spell a token is reported: names, hashes, numbers. -/

namespace Csspp.Lex
open Csspp.Utf8 Csspp.Spec

/-! ### Names -/

theorem nameBody_bad {s0 s : LS} {cs : List Nat} {c : Nat} {ty : NT} (id : Str)
    (hs : NextIs (fun c => NameStart c ∨ c = 92) cs) (hno : ¬ ∃ vs cut rest, NameBody cs vs cut rest)
    (ha : At s0 2 cs c s) :
    ∃ i l s1, idFirst ty id c s = (some (i, l), s1) ∧ Fails s0 (idLoop s1.fuel i l s1).2.2.2 := by
  obtain ⟨d, t, rfl, hd⟩ := hs
  obtain ⟨rfl, r, hr, hle, hne⟩ := ha.cons
  unfold idFirst
  by_cases h92 : c = 92
  · subst h92
    rw [if_pos rfl]
    by_cases he : ∃ x u, Escape t x u
    · obtain ⟨x, u, he⟩ := he
      obtain ⟨s1, e1, r1⟩ := escape_ok he (by omega) r
      rw [e1]
      dsimp only
      by_cases hx : x = 0xFFFD
      · subst hx
        rw [if_pos rfl]
        refine ⟨_, _, _, rfl, ?_⟩
        rcases nameTail_or _ u (Nat.le_refl _) with ⟨vs, cut, rest, h⟩ | h
        · exact absurd ⟨vs, cut, rest, .lost he h⟩ hno
        · exact idLoop_bad h _ _ _ _ r1.fuel (r1.mono (by omega))
      · rw [if_neg hx]
        refine ⟨_, _, _, rfl, ?_⟩
        by_cases hv : Valid x
        · rw [put_valid hv, put_lower hv]
          rcases nameTail_or _ u (Nat.le_refl _) with ⟨vs, cut, rest, h⟩ | h
          · exact absurd ⟨x :: vs, cut, rest, .escape he hx hv h⟩ hno
          · exact idLoop_bad h _ _ _ _ r1.fuel (r1.mono (by omega))
        · exact ((put_bad r1.err (not_valid (escape_pos he r) hv) id).of_g (fun g => put_g (str := id) (toLower x) g)).of_g
            (idLoop_g _ _ _ _)
    · have hb := escape_bad he r
      rcases hE : Lex.escape s with ⟨x, s2⟩
      rw [hE] at hb
      dsimp only
      by_cases hx : x = 0xFFFD
      · rw [if_pos hx]
        exact ⟨_, _, _, rfl, hb.of_g (idLoop_g _ _ _ _)⟩
      · rw [if_neg hx]
        exact ⟨_, _, _, rfl, (hb.of_g (fun g => put_g (str := id) _ (put_g (str := id) _ g))).of_g (idLoop_g _ _ _ _)⟩
  · have hst : NameStart c := by
      rcases hd with h | h
      · exact h
      · exact absurd h h92
    rw [if_neg h92, if_pos ((isStart_name hle hr.2).2 hst)]
    by_cases hv : Valid c
    · rw [put_valid hv]
      dsimp only
      rw [put_lower hv]
      refine ⟨_, _, _, rfl, ?_⟩
      rcases nameTail_or _ t (Nat.le_refl _) with ⟨vs, cut, rest, h⟩ | h
      · exact absurd ⟨c :: vs, cut, rest, .char hst hv h⟩ hno
      · exact idLoop_bad h _ _ _ _ r.fuel (r.mono (by omega))
    · refine ⟨_, _, _, rfl, ?_⟩
      exact ((put_bad r.err (not_valid hr.1 hv) id).of_g (fun g => put_g (str := id) (toLower c) g)).of_g
            (idLoop_g _ _ _ _)

theorem idFirst_at {s0 s : LS} {cs : List Nat} {c : Nat} (id : Str)
    (hs : ¬ NextIs (fun c => NameStart c ∨ c = 92) cs) (ha : At s0 2 cs c s) :
    ∃ s1, idFirst .AT_KEYWORD id c s = (none, s1) ∧ Fails s0 s1 := by
  have h92 : c ≠ 92 := by
    intro h
    obtain ⟨t, rfl⟩ := ha.cons' h (by decide)
    exact hs ⟨92, t, rfl, .inr rfl⟩
  have hst := ha.notStart (fun h => hs (h.mono (fun c => .inl)))
  unfold idFirst
  rw [if_neg h92, if_neg (by rw [hst]; decide), if_pos rfl]
  exact ⟨_, rfl, Fails.report (ha.unget (by omega)).err _ rfl⟩

/-- A name and what follows it, or an error. -/
theorem name_total {s0 s : LS} {cs : List Nat} {c : Nat} (ty : NT) (hs : StartsName cs ∨ ty = .AT_KEYWORD)
    (ha : At s0 2 cs c s) :
    Fails s0 (idRest ty (idDash ty c s)).2 ∨ ∃ vs cut rest, Name cs vs cut rest ∧
      (ty = .AT_KEYWORD ∨ cut = true ∨ (∀ t, rest ≠ 40 :: t) ∨ ∃ r1, rest = 40 :: r1 ∧ cut = false ∧
        (vs.map lowerByte ≠ b!"url" ∨ ∃ us r2, UrlBody r1 us r2)) := by
  have main : (∃ vs cut rest, Name cs vs cut rest) ∨ Fails s0 (idRest ty (idDash ty c s)).2 := by
    by_cases h45 : c = 45
    · obtain ⟨t, rfl⟩ := ha.cons' h45 (by decide)
      subst h45
      obtain ⟨_, r, _⟩ := ha.cons
      obtain ⟨s1, e1, a1⟩ := r.at
      unfold idDash
      rw [if_pos rfl, e1]
      dsimp only
      by_cases hn : NextIs (fun c => NameStart c ∨ c = 92) t
      · by_cases hb : ∃ vs cut rest, NameBody t vs cut rest
        · obtain ⟨vs, cut, rest, hb⟩ := hb
          exact .inl ⟨45 :: vs, cut, rest, .dash hb⟩
        · obtain ⟨i, l, s2, e2, hf⟩ := nameBody_bad (ty := ty) [45] hn hb (a1.mono (by omega))
          rw [e2]
          exact .inr (hf.of_g (fun g => idEnd_g ty _ g))
      · rcases hs with hs | rfl
        · exfalso
          rcases hs with ⟨x, u, hx, hh⟩ | ⟨u, hu, hh⟩
          · cases hx
            have hh : NameStart 45 ∨ (45 : Nat) = 92 := hh
            unfold NameStart Letter at hh; omega
          · cases hu; exact hn hh
        · obtain ⟨s2, e2, hf⟩ := idFirst_at [45] hn (a1.mono (by omega))
          rw [e2]
          exact .inr hf
    · unfold idDash
      rw [if_neg h45]
      by_cases hn : NextIs (fun c => NameStart c ∨ c = 92) cs
      · by_cases hb : ∃ vs cut rest, NameBody cs vs cut rest
        · obtain ⟨vs, cut, rest, hb⟩ := hb
          by_cases hv : vs = []
          · subst hv
            obtain ⟨i, l, s1, e1, c', s', e2, h1, h2⟩ := nameBody_ok (ty := ty) [] hb ha
            rw [e1]
            refine .inr ?_
            unfold idRest
            dsimp only
            rw [e2]
            unfold idEnd
            dsimp only
            rw [if_pos (show ([] : Str) ++ encode [] = [] from rfl)]
            cases cut with
            | false => exact Fails.report ((h1 rfl).unget (by omega)).err _ rfl
            | true =>
              obtain ⟨rfl, r⟩ := h2 rfl
              have : ungetc 0xFFFD s' = s' := by unfold ungetc; rw [if_pos (.inr rfl)]
              rw [this]
              exact Fails.report r.err _ rfl
          · exact .inl ⟨vs, cut, rest, .plain hb hv⟩
        · obtain ⟨i, l, s2, e2, hf⟩ := nameBody_bad (ty := ty) [] hn hb ha
          rw [e2]
          exact .inr (hf.of_g (fun g => idEnd_g ty _ g))
      · rcases hs with hs | rfl
        · exfalso
          rcases hs with h | ⟨u, rfl, hh⟩
          · exact hn h
          · exact h45 ha.cons.1
        · obtain ⟨s2, e2, hf⟩ := idFirst_at [] hn ha
          rw [e2]
          exact .inr hf
  rcases main with ⟨vs, cut, rest, h⟩ | hf
  · by_cases hgood : ty = .AT_KEYWORD ∨ cut = true ∨ ∀ t, rest ≠ 40 :: t
    · refine .inr ⟨vs, cut, rest, h, ?_⟩
      rcases hgood with h | h | h
      · exact .inl h
      · exact .inr (.inl h)
      · exact .inr (.inr (.inl h))
    · have hty : ty ≠ .AT_KEYWORD := fun h => hgood (.inl h)
      have hcut : cut = false := by cases cut with | false => rfl | true => exact absurd (.inr (.inl rfl)) hgood
      obtain ⟨r1, hr1⟩ : ∃ t, rest = 40 :: t :=
        Classical.byContradiction fun hh => hgood (.inr (.inr (fun t e => hh ⟨t, e⟩)))
      subst hr1 hcut
      by_cases hu : vs.map lowerByte = b!"url"
      · by_cases hb : ∃ us r2, UrlBody r1 us r2
        · exact .inr ⟨vs, false, _, h, .inr (.inr (.inr ⟨r1, rfl, rfl, .inr hb⟩))⟩
        · obtain ⟨c', s', e, h1, _⟩ := name_ok (ty := ty) h ha
          obtain ⟨rfl, r, _⟩ := (h1 rfl).cons
          rw [e]
          unfold idEnd
          dsimp only
          rw [if_neg (encode_ne h.ne h.valid), if_pos ⟨rfl, hty⟩, if_pos ((encode_ascii (valid_map h.valid) (by decide)).2 hu)]
          exact .inl (lexUrl_bad hb (r.mono (by omega)))
      · exact .inr ⟨vs, false, _, h, .inr (.inr (.inr ⟨r1, rfl, rfl, .inl hu⟩))⟩
  · exact .inl hf

theorem hash_total {s0 s : LS} {cs : List Nat} (r : Rd s0 2 cs s) :
    Fails s0 (hash s).2 ∨ ∃ vs cut rest, NameTail cs vs cut rest ∧ vs ≠ [] := by
  unfold hash
  rcases nameTail_or _ cs (Nat.le_refl _) with ⟨vs, cut, rest, h⟩ | h
  · by_cases hv : vs = []
    · subst hv
      obtain ⟨s1, e1, r1⟩ := hashLoop_ok h s.fuel [] s r.fuel r
      rw [e1]
      exact .inl (Fails.report r1.err _ rfl)
    · exact .inr ⟨vs, cut, rest, h, hv⟩
  · left
    have := hashLoop_bad h s.fuel [] s r.fuel r
    unfold hashEnd
    dsimp only
    split
    · exact this.of_g (report_g _)
    · exact this

/-! ### Numbers -/

theorem digitRun (cs : List Nat) : ∃ ds rest, DigitRun cs ds rest := by
  induction cs with
  | nil => exact ⟨[], [], rfl, by simp, nextIs_nil⟩
  | cons c cs ih =>
    by_cases h : Dec c
    · obtain ⟨ds, rest, rfl, hd, he⟩ := ih
      refine ⟨c :: ds, rest, rfl, ?_, he⟩
      intro x hx
      rcases List.mem_cons.1 hx with rfl | hx
      · exact h
      · exact hd x hx
    · exact ⟨[], c :: cs, rfl, by simp, by rw [nextIs_cons]; exact h⟩

theorem sign_total (cs : List Nat) : ∃ hs neg rest, Sign cs hs neg rest := by
  by_cases h : NextIs (fun c => c = 43 ∨ c = 45) cs
  · obtain ⟨c, t, rfl, rfl | rfl⟩ := h
    · exact ⟨_, _, _, .plus t⟩
    · exact ⟨_, _, _, .minus t⟩
  · exact ⟨_, _, _, .no h⟩

theorem intTooLarge_iff (n : Nat) : intTooLarge n = true ↔ 9223372036854775808 ≤ n := by
  unfold intTooLarge; simp

theorem intLoop_bad {s0 : LS} {rest : List Nat} :
    ∀ (ds a : List Nat) (f : Nat) (s : LS) (k : Nat), k ≤ 2 → a ≠ [] → (∀ c ∈ a ++ ds, Dec c) → IntOk a →
    ¬ IntOk (a ++ ds) → Rd s0 k (ds ++ rest) s → ds.length < f →
    Fails s0 (intLoop f (wrapped a : Int) s).2.2 := by
  intro ds
  induction ds with
  | nil =>
    intro a f s k _ _ _ hi hn _ _
    rw [List.append_nil] at hn
    exact absurd hi hn
  | cons d ds ih =>
    intro a f s k hk ha hd hi hn h hf
    obtain ⟨f, rfl⟩ : ∃ g, f = g + 1 := ⟨f - 1, by omega⟩
    obtain ⟨s1, e1, r1, _⟩ := Rd.getc' (cs := ds ++ rest) h
    unfold intLoop
    rw [e1]
    dsimp only
    rw [if_pos ((isDigit_dec d).2 (hd d (by simp)))]
    have hsm := intOk_small hi (fun c hc => hd c (by simp [hc]))
    rw [nextInt_wrapped hsm]
    by_cases hb : 9223372036854775808 ≤ wrapped (a ++ [d])
    · rw [(intTooLarge_iff _).2 hb]
      exact (Fails.report r1.err .intTooLarge rfl).of_g (intLoop_g _ _ _)
    · rw [bool_false (intTooLarge_iff _) hb, wrap64_small (by omega)]
      have hok : IntOk (a ++ [d]) := by
        intro k hk h2
        by_cases hka : k ≤ a.length
        · rw [List.take_append_of_le_length hka]
          exact hi k hka h2
        · have : k = (a ++ [d]).length := by simp at hk ⊢; omega
          rw [this, List.take_length]
          omega
      refine ih (a ++ [d]) f s1 (k - 1) (by omega) (by simp) (by simpa using hd) hok (by simpa using hn) r1
        (by simp at hf; omega)

theorem intPart_bad {s0 s : LS} {cs ds rest : List Nat} {c k : Nat} (h : DigitRun cs ds rest) (hi : ¬ IntOk ds)
    (hk : k ≤ 2) (ha : At s0 k cs c s) : Fails s0 (intPart c s).2.2 := by
  obtain ⟨rfl, hd, he⟩ := h
  cases ds with
  | nil => exact absurd (fun k h1 h2 => by simp at h1; omega) hi
  | cons d ds =>
    obtain ⟨rfl, r, _⟩ := At.cons (cs := ds ++ rest) ha
    unfold intPart
    have hdd := hd c (by simp)
    rw [if_pos ((isDigit_dec c).2 hdd)]
    have e : ((c - 48 : Nat) : Int) = (wrapped [c] : Int) := by rw [wrapped_digit hdd]
    rw [e]
    have hf := r.fuel
    exact intLoop_bad ds [c] s.fuel s k hk (by simp) (by simpa using hd)
      (fun k h1 h2 => by simp at h1; omega) (by simpa using hi) r (by simp at hf; omega)

theorem fracLoop_bad {s0 : LS} {rest : List Nat} :
    ∀ (ds a : List Nat) (f : Nat) (s : LS) (k : Nat), k ≤ 2 → (∀ c ∈ ds, Dec c) →
    a.length ≤ 20 → 20 < a.length + ds.length → Rd s0 k (ds ++ rest) s → ds.length < f →
    Fails s0 (fracLoop f a s).2.2 := by
  intro ds
  induction ds with
  | nil => intro a f s k _ _ h1 h2; simp at h2; omega
  | cons d ds ih =>
    intro a f s k hk hd ha hb h hf
    obtain ⟨f, rfl⟩ : ∃ g, f = g + 1 := ⟨f - 1, by omega⟩
    obtain ⟨s1, e1, r1, _⟩ := Rd.getc' (cs := ds ++ rest) h
    unfold fracLoop
    rw [e1]
    dsimp only
    rw [if_pos ((isDigit_dec d).2 (hd d (by simp)))]
    by_cases h20 : a.length = 20
    · have : (a.length + 1 == 21) = true := by rw [h20]; rfl
      rw [this]
      exact (Fails.report r1.err .fracTooLarge rfl).of_g (fracLoop_g _ _ _)
    · have : (a.length + 1 == 21) = false := by simp; omega
      rw [this]
      exact ih (d :: a) f s1 (k - 1) (by omega) (fun x hx => hd x (by simp [hx])) (by simp; omega)
        (by simp at hb ⊢; omega) r1 (by simp at hf; omega)

theorem fracPart_total {s0 s : LS} {cs : List Nat} {c : Nat} (ha : At s0 2 cs c s) :
    Fails s0 (fracPart c s).2.2.2 ∨ ∃ fr isDec rest, Fraction cs fr isDec rest := by
  by_cases h46 : c = 46
  · obtain ⟨t, rfl⟩ := ha.cons' h46 (by decide)
    subst h46
    obtain ⟨_, r, _⟩ := ha.cons
    obtain ⟨ds, rest, rfl, hd, he⟩ := digitRun t
    have hf := r.fuel
    unfold fracPart
    rw [if_pos rfl]
    by_cases h20 : ds.length ≤ 20
    · by_cases h0 : ds = []
      · subst h0
        obtain ⟨s1, e1, a1⟩ := fracLoop_ok he [] [] s.fuel s 2 (by omega) (by simp) (by simp) r (by simp at hf ⊢; omega)
        rw [e1]
        exact .inl (Fails.report a1.tl.err _ rfl)
      · refine .inr ⟨ds, true, rest, .digits ⟨rfl, hd, he⟩ ⟨?_, h20⟩⟩
        cases ds with
        | nil => exact absurd rfl h0
        | cons => simp
    · left
      have := fracLoop_bad ds [] s.fuel s 2 (by omega) hd (by simp) (by simp; omega) r (by simp at hf; omega)
      exact this.of_g (reportIf_g _ _)
  · refine .inr ⟨[], false, cs, .no ?_⟩
    rintro t rfl
    exact h46 ha.cons.1

theorem expLoop_bad {s0 : LS} {rest : List Nat} :
    ∀ (ds a : List Nat) (f : Nat) (c : Nat) (s : LS), (∀ c ∈ ds, Dec c) → decVal a ≤ 1023 →
    1023 < decVal (a ++ ds) → At s0 2 (ds ++ rest) c s → ds.length < f →
    Fails s0 (expLoop f (decVal a : Int) c s).2.2 := by
  intro ds
  induction ds with
  | nil => intro a f c s _ h1 h2; rw [List.append_nil] at h2; omega
  | cons d ds ih =>
    intro a f c s hd ha hb h hf
    obtain ⟨f, rfl⟩ : ∃ g, f = g + 1 := ⟨f - 1, by omega⟩
    obtain ⟨rfl, r, _⟩ := At.cons (cs := ds ++ rest) h
    have hc := hd c (by simp)
    unfold expLoop
    dsimp only
    rw [if_pos ((isDigit_dec c).2 hc), nextExp_eq _ _ hc, ← decVal_snoc]
    have hsm : decVal (a ++ [c]) < 9223372036854775808 := by
      rw [decVal_snoc]; unfold Dec at hc; omega
    have hov : overflows ((decVal (a ++ [c]) : Nat) : Int) = false := by
      unfold overflows IsI64
      simp
      omega
    rw [wrap64_small hsm, hov]
    by_cases h1024 : 1024 ≤ decVal (a ++ [c])
    · have : decide ((1024 : Int) ≤ ((decVal (a ++ [c]) : Nat) : Int)) = true := by simp; omega
      rw [this]
      exact ((Fails.report r.err .expTooLarge rfl).of_g (fun g => getc_g g)).of_g (expLoop_g _ _ _ _)
    · have : decide ((1024 : Int) ≤ ((decVal (a ++ [c]) : Nat) : Int)) = false := by simp; omega
      rw [this]
      obtain ⟨s1, e1, a1⟩ := r.at
      show Fails s0 (expLoop f _ (getc s).1 (getc s).2).2.2
      rw [e1]
      exact ih (a ++ [c]) f _ s1 (fun x hx => hd x (by simp [hx])) (by omega) (by simpa using hb) (a1.mono (by omega))
        (by simp at hf; omega)

end Csspp.Lex
