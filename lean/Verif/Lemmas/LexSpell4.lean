import Verif.Lemmas.LexSpell3

/-! Reading a text that spells a token, continued: unicode ranges, comments, variables, spaces. -/

namespace Csspp.Lex
open Csspp.Utf8 Csspp.Spec

/-! ### Unicode ranges -/

theorem rangeLoop_digits {s0 : LS} (tl : List Nat) : ∀ (ds : List Nat) (k st d : Nat) (s : LS),
    ds.length ≤ k → (∀ c ∈ ds, Hex c) → At s0 2 (ds ++ tl) d s →
    ∃ d' s', rangeLoop k st 0 false d s = rangeLoop (k - ds.length) (hexFrom st ds) 0 false d' s' ∧
      At s0 2 tl d' s' := by
  intro ds
  induction ds with
  | nil => intro k st d s _ _ h; exact ⟨d, s, rfl, h⟩
  | cons x ds ih =>
    intro k st d s hk hh h
    obtain ⟨k, rfl⟩ : ∃ j, k = j + 1 := ⟨k - 1, by simp at hk; omega⟩
    obtain ⟨rfl, r1, _⟩ := At.cons (cs := ds ++ tl) h
    obtain ⟨s1, e1, a1⟩ := r1.at
    obtain ⟨d', s', e2, a2⟩ := ih k (16 * st + hexDigitValue d) _ s1 (by simpa using hk)
      (fun c hc => hh c (by simp [hc])) (a1.mono (by omega))
    refine ⟨d', s', ?_, a2⟩
    have hd := hh d (by simp)
    have hne : d ≠ 63 := by unfold Hex Dec at hd; omega
    rw [rangeLoop, if_neg hne, if_pos ⟨(isHex_hex d).2 hd, rfl⟩, e1, hexVal_value hd]
    dsimp only
    rw [e2]
    simp only [List.length_cons, Nat.add_sub_add_right]
    rfl

theorem rangeLoop_masks {s0 : LS} (tl : List Nat) : ∀ (q k st en d : Nat) (s : LS), q ≤ k →
    At s0 2 (List.replicate q 63 ++ tl) d s →
    ∃ d' s', rangeLoop k st en true d s =
        rangeLoop (k - q) (st * 16 ^ q) (en * 16 ^ q + (16 ^ q - 1)) true d' s' ∧ At s0 2 tl d' s' := by
  intro q
  induction q with
  | zero =>
    intro k st en d s _ h
    exact ⟨d, s, by simp, h⟩
  | succ q ih =>
    intro k st en d s hk h
    obtain ⟨k, rfl⟩ : ∃ j, k = j + 1 := ⟨k - 1, by omega⟩
    obtain ⟨rfl, r1, _⟩ := At.cons (c := 63) (cs := List.replicate q 63 ++ tl) h
    obtain ⟨s1, e1, a1⟩ := r1.at
    obtain ⟨d', s', e2, a2⟩ := ih k (16 * st) (16 * en + 15) _ s1 (by omega) (a1.mono (by omega))
    refine ⟨d', s', ?_, a2⟩
    rw [rangeLoop, if_pos rfl, e1]
    dsimp only
    rw [if_pos rfl, e2]
    have hp : 16 ^ (q + 1) = 16 * 16 ^ q := by rw [Nat.pow_succ, Nat.mul_comm]
    have hpos : 0 < 16 ^ q := Nat.pow_pos (by omega)
    have e1 : 16 * st * 16 ^ q = st * 16 ^ (q + 1) := by
      rw [hp, ← Nat.mul_assoc, Nat.mul_comm 16 st]
    have e2 : (16 * en + 15) * 16 ^ q + (16 ^ q - 1) = en * 16 ^ (q + 1) + (16 ^ (q + 1) - 1) := by
      rw [hp, Nat.add_mul, ← Nat.mul_assoc, Nat.mul_comm 16 en]
      omega
    rw [e1, e2, Nat.add_sub_add_right]

/-- The first question mark of a mask. -/
theorem rangeLoop_mask {s0 : LS} (tl : List Nat) (q k st d : Nat) (s : LS) (hq : 1 ≤ q) (hk : q ≤ k)
    (h : At s0 2 (List.replicate q 63 ++ tl) d s) :
    ∃ d' s', rangeLoop k st 0 false d s =
        rangeLoop (k - q) (st * 16 ^ q) (st * 16 ^ q + (16 ^ q - 1)) true d' s' ∧ At s0 2 tl d' s' := by
  obtain ⟨q, rfl⟩ : ∃ j, q = j + 1 := ⟨q - 1, by omega⟩
  obtain ⟨k, rfl⟩ : ∃ j, k = j + 1 := ⟨k - 1, by omega⟩
  obtain ⟨rfl, r1, _⟩ := At.cons (c := 63) (cs := List.replicate q 63 ++ tl) h
  obtain ⟨s1, e1, a1⟩ := r1.at
  obtain ⟨d', s', e2, a2⟩ := rangeLoop_masks tl q k (16 * st) (16 * st + 15) _ s1 (by omega) (a1.mono (by omega))
  refine ⟨d', s', ?_, a2⟩
  rw [rangeLoop, if_pos rfl, e1]
  dsimp only
  rw [if_neg (by decide), e2]
  have hp : 16 ^ (q + 1) = 16 * 16 ^ q := by rw [Nat.pow_succ, Nat.mul_comm]
  have hpos : 0 < 16 ^ q := Nat.pow_pos (by omega)
  have e1 : 16 * st * 16 ^ q = st * 16 ^ (q + 1) := by
    rw [hp, ← Nat.mul_assoc, Nat.mul_comm 16 st]
  have e2 : (16 * st + 15) * 16 ^ q + (16 ^ q - 1) = st * 16 ^ (q + 1) + (16 ^ (q + 1) - 1) := by
    rw [hp, Nat.add_mul, ← Nat.mul_assoc, Nat.mul_comm 16 st]
    omega
  rw [e1, e2, Nat.add_sub_add_right]

theorem rangeEnd_digits {s0 : LS} (tl : List Nat) : ∀ (ds : List Nat) (k st d : Nat) (s : LS),
    ds.length ≤ k → (∀ c ∈ ds, Hex c) → (ds.length = k ∨ ¬ NextIs Hex tl) → At s0 2 (ds ++ tl) d s →
    ∃ d' s', rangeEnd k st d s = (hexFrom st ds, d', s') ∧ At s0 2 tl d' s' := by
  intro ds
  induction ds with
  | nil =>
    intro k st d s _ _ he h
    refine ⟨d, s, ?_, h⟩
    cases k with
    | zero => rfl
    | succ k =>
      rcases he with he | he
      · simp at he
      · rw [rangeEnd, At.notHex (cs := tl) h he, if_neg (by simp)]
        rfl
  | cons x ds ih =>
    intro k st d s hk hh he h
    obtain ⟨k, rfl⟩ : ∃ j, k = j + 1 := ⟨k - 1, by simp at hk; omega⟩
    obtain ⟨rfl, r1, _⟩ := At.cons (cs := ds ++ tl) h
    obtain ⟨s1, e1, a1⟩ := r1.at
    obtain ⟨d', s', e2, a2⟩ := ih k (16 * st + hexDigitValue d) _ s1 (by simpa using hk)
      (fun c hc => hh c (by simp [hc])) (by simpa using he) (a1.mono (by omega))
    refine ⟨d', s', ?_, a2⟩
    have hd := hh d (by simp)
    rw [rangeEnd, if_pos ((isHex_hex d).2 hd), e1, hexVal_value hd]
    exact e2

theorem rangeTok_ok {s0 s : LS} {a b d : Nat} {rest : List Nat} (hab : a ≤ b) (ha : At s0 2 rest d s) :
    ∃ t s', rangeTok a b d s = (t, s') ∧
      Holds t { ty := .UNICODE_RANGE, int := ((4294967296 * b + a : Nat) : Int) } ∧ Rd s0 3 rest s' := by
  unfold rangeTok
  rw [if_neg (by omega)]
  exact ⟨_, _, rfl, ⟨rfl, .nil, .nil, rfl, rfl, rfl, rfl⟩, ha.unget (by omega)⟩

theorem rangeLoop_stop {s0 s : LS} {k st en d : Nat} {m : Bool} {rest : List Nat} (ha : At s0 2 rest d s)
    (h : k = 0 ∨ (¬ NextIs (fun c => c = 63) rest ∧ (m = true ∨ ¬ NextIs Hex rest))) :
    rangeLoop k st en m d s = (st, en, m, d, s) := by
  cases k with
  | zero => rfl
  | succ k =>
    rcases h with h | ⟨h1, h2⟩
    · omega
    · rw [rangeLoop, if_neg (ha.ne (by decide) h1)]
      rcases h2 with h2 | h2
      · subst h2
        rw [if_neg (by simp)]
      · rw [if_neg (by rw [ha.notHex h2]; simp)]

theorem unicodeRange_ok {s0 s : LS} {cs rest : List Nat} {a b d : Nat} (h : Range cs a b rest)
    (ha : At s0 2 cs d s) :
    ∃ t s', unicodeRange d s = (t, s') ∧
      Holds t { ty := .UNICODE_RANGE, int := ((4294967296 * b + a : Nat) : Int) } ∧ Rd s0 3 rest s' := by
  unfold unicodeRange
  cases h with
  | @mask ds _ q hx hq hn he hv =>
    obtain ⟨d1, s1, e1, a1⟩ := rangeLoop_digits (List.replicate q 63 ++ rest) ds 6 0 d s (by omega) hx ha
    obtain ⟨d2, s2, e2, a2⟩ := rangeLoop_mask rest q (6 - ds.length) (hexFrom 0 ds) d1 s1 hq (by omega) a1
    have e3 := rangeLoop_stop (k := 6 - ds.length - q) (st := hexFrom 0 ds * 16 ^ q)
      (en := hexFrom 0 ds * 16 ^ q + (16 ^ q - 1)) (m := true) a2 (by
        rcases he with he | he
        · left; omega
        · exact .inr ⟨he, .inl rfl⟩)
    rw [e1, e2, e3]
    unfold rangeRest
    dsimp only
    have hh : hexFrom 0 ds = hexValue ds := rfl
    rw [hh, if_neg (by omega : ¬ (hexValue ds * 16 ^ q ≥ 0x110000))]
    have hm : (if hexValue ds * 16 ^ q + (16 ^ q - 1) > 0x1FFFFF then 0x1FFFFF
        else hexValue ds * 16 ^ q + (16 ^ q - 1)) = min (hexValue ds * 16 ^ q + (16 ^ q - 1)) 0x1FFFFF := by
      split <;> omega
    rw [hm]
    exact rangeTok_ok (by omega) a2
  | @pair ds es _ hx hn hy hm he hv =>
    obtain ⟨d1, s1, e1, a1⟩ := rangeLoop_digits (45 :: (es ++ rest)) ds 6 0 d s hn.2 hx ha
    have e2 := rangeLoop_stop (k := 6 - ds.length) (st := hexFrom 0 ds) (en := 0) (m := false) a1 (by
      right
      rw [nextIs_cons, nextIs_cons]
      exact ⟨by decide, .inr (by unfold Hex Dec; omega)⟩)
    obtain ⟨rfl, r1, _⟩ := a1.cons
    obtain ⟨s3, e3, a3⟩ := r1.at
    obtain ⟨d4, s4, e4, a4⟩ := rangeEnd_digits rest es 6 0 _ s3 hm hy he (a3.mono (by omega))
    rw [e1, e2]
    unfold rangeRest
    dsimp only
    rw [if_pos rfl, e3]
    dsimp only
    rw [e4]
    dsimp only
    unfold rangePlain
    have hh : hexFrom 0 ds = hexValue ds := rfl
    have hh2 : hexFrom 0 es = hexValue es := rfl
    rw [hh, hh2, if_neg (by omega)]
    exact rangeTok_ok hv.1 a4
  | @one ds _ hx hn he h45 hv =>
    obtain ⟨d1, s1, e1, a1⟩ := rangeLoop_digits rest ds 6 0 d s hn.2 hx ha
    have e2 := rangeLoop_stop (k := 6 - ds.length) (st := hexFrom 0 ds) (en := 0) (m := false) a1 (by
      rcases he with he | he
      · left; omega
      · exact .inr ⟨fun h => he (h.mono (fun _ h => .inr h)), .inr (fun h => he (h.mono (fun _ h => .inl h)))⟩)
    rw [e1, e2]
    unfold rangeRest
    dsimp only
    have hne : d1 ≠ 45 := by
      rcases a1.le with h | ⟨_, _, _, t, ht⟩
      · rw [h]; decide
      · rintro rfl; exact h45 t ht
    have hh : hexFrom 0 ds = hexValue ds := rfl
    rw [if_neg hne, hh]
    unfold rangePlain
    rw [if_neg (by omega)]
    exact rangeTok_ok (Nat.le_refl _) a1

/-! ### Variables -/

theorem var_char {c : Nat} (h : VarChar c) :
    toLower (if c = 45 then 95 else c) = (if c = 45 then 95 else lowerByte c) ∧
    Valid (if c = 45 then 95 else lowerByte c) := by
  unfold VarChar Dec Letter at h
  split
  · exact ⟨rfl, by unfold Valid Scalar Nonchar; omega⟩
  · refine ⟨rfl, ?_⟩
    unfold lowerByte
    split
    · unfold Valid Scalar Nonchar; omega
    · unfold Valid Scalar Nonchar; omega

/-- The characters of a variable, as kept. -/
def varText (vs : List Nat) : List Nat := vs.map (fun c => if c = 45 then 95 else lowerByte c)

theorem varText_valid {vs : List Nat} (h : ∀ c ∈ vs, VarChar c) : ∀ c ∈ varText vs, Valid c := by
  intro c hc
  obtain ⟨d, hd, rfl⟩ := List.mem_map.1 hc
  exact (var_char (h d hd)).2

theorem varLoop_ok {s0 : LS} {rest : List Nat} (he : ¬ NextIs VarChar rest) :
    ∀ (vs : List Nat) (f : Nat) (var : Str) (c : Nat) (s : LS), vs ≠ [] → (∀ c ∈ vs, VarChar c) →
    vs.length < f → At s0 2 (vs ++ rest) c s →
    ∃ d s', varLoop f var c s = (var ++ encode (varText vs), d, s') ∧ At s0 1 rest d s' := by
  intro vs
  induction vs with
  | nil => intro _ _ _ _ h; exact absurd rfl h
  | cons x vs ih =>
    intro f var c s _ hv hf ha
    obtain ⟨f, rfl⟩ : ∃ g, f = g + 1 := ⟨f - 1, by omega⟩
    obtain ⟨rfl, r1, _⟩ := At.cons (cs := vs ++ rest) ha
    obtain ⟨s1, e1, a1⟩ := r1.at
    have hc := var_char (hv c (by simp))
    have hput : put (toLower (if c = 45 then 95 else c)) var s =
        (var ++ (wctomb (if c = 45 then 95 else lowerByte c)).1, s) := by
      rw [hc.1]; exact put_valid hc.2 var s
    have henc : var ++ encode (varText (c :: vs)) =
        (var ++ (wctomb (if c = 45 then 95 else lowerByte c)).1) ++ encode (varText vs) := by
      show var ++ encode ((if c = 45 then 95 else lowerByte c) :: varText vs) = _
      rw [encode_cons, List.append_assoc]
    rw [varLoop, hput]
    dsimp only
    rw [e1]
    dsimp only
    rw [henc]
    cases vs with
    | nil =>
      refine ⟨_, s1, ?_, a1⟩
      rw [At.notVar (cs := rest) a1 he]
      simp [varText, encode_nil]
    | cons y vs =>
      obtain ⟨d, s', e2, a2⟩ := ih f (var ++ (wctomb (if c = 45 then 95 else lowerByte c)).1) _ s1 (by simp)
        (fun z hz => hv z (by simp [hz])) (by simp at hf ⊢; omega) (a1.mono (by omega))
      refine ⟨d, s', ?_, a2⟩
      have hy : isVariable ((y :: vs ++ rest).headD eof) = true := (isVariable_var y).2 (hv y (by simp))
      rw [if_pos hy]
      exact e2

/-! ### Spaces -/

theorem skipLead_ok {s0 : LS} {p : Nat → Bool} {P : Nat → Prop} (hp : ∀ c, p c = true ↔ P c)
    (heof : p eof = false) {tl : List Nat}
    (hn : ¬ NextIs P tl) : ∀ (b : List Nat) (f : Nat) (s : LS),
    (∀ c ∈ b, P c) → b.length < f → Rd s0 2 (b ++ tl) s → Rd s0 2 tl (skipLead p f s) := by
  intro b
  induction b with
  | nil =>
    intro f s _ hf h
    obtain ⟨f, rfl⟩ : ∃ g, f = g + 1 := ⟨f - 1, by omega⟩
    obtain ⟨s1, e1, a1⟩ := Rd.at (show Rd s0 2 tl s from h)
    unfold skipLead
    rw [e1]
    dsimp only
    have : p (tl.headD eof) = false := by
      rcases a1.not hn with h | h
      · rw [h]; exact heof
      · exact bool_false (hp _) h
    rw [this]
    exact a1.unget (by omega)
  | cons c b ih =>
    intro f s hb hf h
    obtain ⟨f, rfl⟩ : ∃ g, f = g + 1 := ⟨f - 1, by omega⟩
    obtain ⟨s1, e1, r1⟩ := Rd.getc (show Rd s0 2 (c :: (b ++ tl)) s from h)
    unfold skipLead
    rw [e1]
    dsimp only
    rw [if_pos ((hp c).2 (hb c (by simp)))]
    exact ih f s1 (fun x hx => hb x (by simp [hx])) (by simp at hf; omega) (r1.mono (by omega))

/-! ### Comments -/

theorem cLoop_ok {s0 : LS} {rest : List Nat} : ∀ (body : List Nat) (f : Nat) (str : Str) (s : LS),
    (∀ a b, body ++ [42] ≠ a ++ (42 :: 47 :: b)) → (∀ c ∈ body, Valid c) → body.length < f →
    Rd s0 2 (body ++ 42 :: 47 :: rest) s →
    ∃ s', cLoop f str s = (str ++ encode body, s') ∧ Rd s0 2 rest s' := by
  intro body
  induction body with
  | nil =>
    intro f str s _ _ hf h
    obtain ⟨f, rfl⟩ : ∃ g, f = g + 1 := ⟨f - 1, by omega⟩
    obtain ⟨s1, e1, r1⟩ := Rd.getc (show Rd s0 2 (42 :: 47 :: rest) s from h)
    obtain ⟨s2, e2, r2⟩ := r1.getc
    refine ⟨s2, ?_, r2.mono (by omega)⟩
    unfold cLoop
    rw [e1]
    dsimp only
    rw [if_neg (by decide), if_pos rfl, e2]
    dsimp only
    rw [if_pos rfl]
    simp [encode_nil]
  | cons c body ih =>
    intro f str s hno hv hf h
    obtain ⟨f, rfl⟩ : ∃ g, f = g + 1 := ⟨f - 1, by omega⟩
    obtain ⟨s1, e1, r1, hr, hl, hne⟩ := Rd.getc' (show Rd s0 2 (c :: (body ++ 42 :: 47 :: rest)) s from h)
    have hno' : ∀ a b, body ++ [42] ≠ a ++ (42 :: 47 :: b) := by
      intro a b hab
      exact hno (c :: a) b (by rw [List.cons_append, hab]; rfl)
    have hv' : ∀ c ∈ body, Valid c := fun x hx => hv x (by simp [hx])
    have hc := hv c (by simp)
    by_cases h42 : c = 42
    · subst h42
      obtain ⟨s2, e2, a2⟩ := r1.at
      have h47 : (body ++ 42 :: 47 :: rest).headD eof ≠ 47 := by
        cases body with
        | nil => exact fun h => absurd (show (42 : Nat) = 47 from h) (by decide)
        | cons x body =>
          intro hx
          have hx : x = 47 := hx
          subst hx
          exact hno [] (body ++ [42]) rfl
      obtain ⟨s', e3, r3⟩ := ih f (str ++ (wctomb 42).1) (ungetc ((body ++ 42 :: 47 :: rest).headD eof) s2)
        hno' hv' (by simp at hf; omega) ((a2.unget (by omega)).mono (by omega))
      refine ⟨s', ?_, r3⟩
      unfold cLoop
      rw [e1]
      dsimp only
      rw [if_neg (by decide), if_pos rfl, e2]
      dsimp only
      rw [if_neg h47, put_valid hc]
      dsimp only
      rw [e3, encode_cons, List.append_assoc]
    · obtain ⟨s', e3, r3⟩ := ih f (str ++ (wctomb c).1) s1 hno' hv' (by simp at hf; omega) (r1.mono (by omega))
      refine ⟨s', ?_, r3⟩
      unfold cLoop
      rw [e1]
      dsimp only
      rw [if_neg hne, if_neg h42, put_valid hc]
      dsimp only
      rw [e3, encode_cons, List.append_assoc]

theorem lineLoop_ok {s0 : LS} {cs vs rest : List Nat} (h : Spec.Lines cs vs rest) :
    ∀ (f : Nat) (str : Str) (s : LS), cs.length < f → Rd s0 2 cs s →
    ∃ s', lineLoop f str s = (str ++ encode vs, s') ∧ Rd s0 3 rest s' := by
  induction h with
  | eof =>
    intro f str s hf h
    obtain ⟨f, rfl⟩ : ∃ g, f = g + 1 := ⟨f - 1, by omega⟩
    obtain ⟨s1, e1, a1⟩ := h.at
    refine ⟨s1, ?_, a1.tl.mono (by omega)⟩
    unfold lineLoop
    rw [e1]
    dsimp only
    rw [if_pos (show ([] : List Nat).headD eof = eof from rfl)]
    simp [encode_nil]
  | @stop rest hno =>
    intro f str s hf h
    obtain ⟨f, rfl⟩ : ∃ g, f = g + 1 := ⟨f - 1, by omega⟩
    obtain ⟨s1, e1, r1, hr, hl, _⟩ := h.getc'
    obtain ⟨s2, e2, a2⟩ := r1.at
    by_cases h47 : rest.headD eof = 47
    · obtain ⟨t, rfl⟩ : ∃ t, rest = 47 :: t := by
        cases rest with
        | nil => exact absurd (show eof = 47 from h47) (by decide)
        | cons x t => exact ⟨t, by rw [show x = 47 from h47]⟩
      obtain ⟨_, r2, hr2, hl2, _⟩ := a2.cons
      obtain ⟨s3, e3, a3⟩ := r2.at
      have hn : t.headD eof ≠ 47 := by
        cases t with
        | nil => exact fun h => absurd (show eof = 47 from h) (by decide)
        | cons x t => intro hx; have hx : x = 47 := hx; subst hx; exact hno t rfl
      refine ⟨ungetc 10 (ungetc 47 (ungetc (t.headD eof) s3)), ?_, ?_⟩
      · unfold lineLoop
        rw [e1]
        dsimp only
        rw [if_neg (by decide), if_pos rfl, e2]
        dsimp only
        rw [if_pos h47, e3]
        dsimp only
        rw [if_neg hn]
        simp [encode_nil]
      · have := ((a3.unget (by omega)).unget (by omega) hr2 hl2).unget (by omega) hr hl
        exact this.mono (by omega)
    · refine ⟨ungetc 10 (ungetc (rest.headD eof) s2), ?_, ?_⟩
      · unfold lineLoop
        rw [e1]
        dsimp only
        rw [if_neg (by decide), if_pos rfl, e2]
        dsimp only
        rw [if_neg h47]
        simp [encode_nil]
      · have := (a2.unget (by omega)).unget (by omega) hr hl
        exact this.mono (by omega)
  | @char c cs vs rest hc hv _ ih =>
    intro f str s hf h
    obtain ⟨f, rfl⟩ : ∃ g, f = g + 1 := ⟨f - 1, by omega⟩
    obtain ⟨s1, e1, r1, hr, hl, hne⟩ := h.getc'
    obtain ⟨s', e2, r2⟩ := ih f (str ++ (wctomb c).1) s1 (by simp at hf; omega) (r1.mono (by omega))
    refine ⟨s', ?_, r2⟩
    unfold lineLoop
    rw [e1]
    dsimp only
    rw [if_neg hne, if_neg hc, put_valid hv]
    dsimp only
    rw [e2, encode_cons, List.append_assoc]
  | @joinBlank c cs vs rest hc _ ih =>
    intro f str s hf h
    obtain ⟨f, rfl⟩ : ∃ g, f = g + 1 := ⟨f - 1, by omega⟩
    obtain ⟨s1, e1, r1⟩ := h.getc
    obtain ⟨s2, e2, r2⟩ := r1.getc
    obtain ⟨s3, e3, r3⟩ := r2.getc
    obtain ⟨s4, e4, r4⟩ := r3.getc
    obtain ⟨s', e5, r5⟩ := ih f (str ++ [10]) s4 (by simp at hf; omega) (r4.mono (by omega))
    refine ⟨s', ?_, r5⟩
    unfold lineLoop
    rw [e1]
    dsimp only
    rw [if_neg (by decide), if_pos rfl, e2]
    dsimp only
    rw [if_pos rfl, e3]
    dsimp only
    rw [if_pos rfl]
    unfold skipOne
    rw [e4]
    dsimp only
    rw [if_pos hc, e5, encode_cons, List.append_assoc]
    rfl
  | @join cs vs rest hn _ ih =>
    intro f str s hf h
    obtain ⟨f, rfl⟩ : ∃ g, f = g + 1 := ⟨f - 1, by omega⟩
    obtain ⟨s1, e1, r1⟩ := h.getc
    obtain ⟨s2, e2, r2⟩ := r1.getc
    obtain ⟨s3, e3, r3⟩ := r2.getc
    obtain ⟨s4, e4, a4⟩ := r3.at
    obtain ⟨s', e5, r5⟩ := ih f (str ++ [10]) (ungetc (cs.headD eof) s4) (by simp at hf; omega)
      ((a4.unget (by omega)).mono (by omega))
    refine ⟨s', ?_, r5⟩
    unfold lineLoop
    rw [e1]
    dsimp only
    rw [if_neg (by decide), if_pos rfl, e2]
    dsimp only
    rw [if_pos rfl, e3]
    dsimp only
    rw [if_pos rfl]
    unfold skipOne
    rw [e4]
    dsimp only
    have hnb : ¬ (cs.headD eof = 32 ∨ cs.headD eof = 9) := by
      rcases a4.not hn with h | h
      · rw [h]; decide
      · exact h
    rw [if_neg hnb, e5, encode_cons, List.append_assoc]
    rfl

theorem contains_iff (pat s : Str) : contains pat s = true ↔ pat <:+: s := by
  induction s with
  | nil =>
    unfold contains
    constructor
    · intro h
      have : pat = [] := by cases pat with | nil => rfl | cons => cases h
      rw [this]
      exact List.infix_refl _
    · intro h
      have := List.eq_nil_of_infix_nil h
      rw [this]; rfl
  | cons c s ih =>
    unfold contains
    rw [Bool.or_eq_true, ih, List.isPrefixOf_iff_prefix]
    constructor
    · rintro (h | h)
      · exact h.isInfix
      · exact h.trans (List.suffix_cons c s).isInfix
    · intro h
      rcases List.infix_cons_iff.1 h with h | h
      · exact .inl h
      · exact .inr h

theorem encode_of_utf8 {cs : List Nat} {bs : Str} (h : Utf8 cs bs) (hv : ∀ c ∈ cs, Valid c) : bs = encode cs :=
  (utf8_encode h (fun c hc => ⟨valid_enc (hv c hc), (hv c hc).2.2⟩)).symm

theorem valid_utf8 {cs : List Nat} (hv : ∀ c ∈ cs, Valid c) : Utf8 cs (encode cs) :=
  encode_utf8 (fun c hc => ⟨valid_enc (hv c hc), (hv c hc).2.2⟩)

theorem preserved_iff {body : List Nat} (hv : ∀ c ∈ body, Valid c) :
    Preserved body ↔ contains b!"@preserve" (encode body) = true := by
  rw [contains_iff]
  constructor
  · rintro ⟨bs, h1, h2⟩
    rwa [encode_of_utf8 h1 hv] at h2
  · intro h
    exact ⟨_, valid_utf8 hv, h⟩

theorem encode_blank {b : List Nat} (h : ∀ c ∈ b, Blank c) : encode b = b :=
  ascii_encode b (fun c hc => by have := h c hc; unfold Blank at this; omega)

/-- The last byte of a text that does not end with a blank is not a blank. -/
theorem encode_last {text : List Nat} (hv : ∀ c ∈ text, Valid c) (h : ∀ c t, text = t ++ [c] → ¬ Blank c) :
    ∀ c t, encode text = t ++ [c] → isSpace c = false := by
  intro c t he
  rcases List.eq_nil_or_concat text with rfl | ⟨t', x, rfl⟩
  · have he : ([] : List Nat) = t ++ [c] := he
    exact absurd he (by simp)
  · have hx := hv x (by simp)
    have hb := h x t' (by simp)
    have e1 : encode (t'.concat x) = encode t' ++ (wctomb x).1 := by
      rw [List.concat_eq_append, encode_append]
      simp [encode]
    rw [e1] at he
    rcases charBytes_high (wctomb_ok (valid_enc hx) hx.2.2).2 with ⟨a, e, hxa, _⟩ | ⟨a, fs, e, ha, ha2, hfs, hf, _⟩
    · rw [e] at he
      have := List.append_inj' he rfl
      cases this.2
      subst hxa
      exact bool_false (isSpace_blank x) hb
    · rw [e] at he
      have hall : ∀ y ∈ a :: fs, y ≥ 0x80 := by
        intro y hy
        rcases List.mem_cons.1 hy with rfl | hy
        · omega
        · have := hf y hy
          unfold isFollow at this
          simp at this
          omega
      have hlast : c ∈ a :: fs := by
        rcases List.eq_nil_or_concat (a :: fs) with h | ⟨u, y, hu⟩
        · cases h
        · rw [hu, List.concat_eq_append, ← List.append_assoc] at he
          have := List.append_inj' he rfl
          cases this.2
          rw [hu]; simp
      have := hall c hlast
      unfold isSpace
      simp
      omega

theorem trimRight_ok {body text : List Nat} (hv : ∀ c ∈ body, Valid c) (h : Trimmed body text) :
    trimRight (encode body) = encode text := by
  obtain ⟨b, rfl, hb, hl⟩ := h
  have hlast := encode_last (fun c hc => hv c (by simp [hc])) hl
  unfold trimRight
  rw [encode_append, encode_blank hb, List.reverse_append]
  have h1 : ∀ (x y : List Nat), (∀ c ∈ x, isSpace c = true) → (x ++ y).dropWhile isSpace = y.dropWhile isSpace := by
    intro x y hx
    induction x with
    | nil => rfl
    | cons c x ih =>
      rw [List.cons_append, List.dropWhile_cons, if_pos (hx c (by simp))]
      exact ih (fun c hc => hx c (by simp [hc]))
  rw [h1 _ _ (fun c hc => (isSpace_blank c).2 (hb c (by simpa using hc)))]
  generalize hg : encode text = bytes at hlast
  rcases List.eq_nil_or_concat bytes with rfl | ⟨t, c, rfl⟩
  · rfl
  · have := hlast c t (by simp)
    rw [List.concat_eq_append, List.reverse_append]
    show (List.dropWhile isSpace (c :: t.reverse)).reverse = _
    rw [List.dropWhile_cons, this]
    simp

theorem _root_.Csspp.Spec.Lines.valid {cs vs rest : List Nat} (h : Spec.Lines cs vs rest) : ∀ c ∈ vs, Valid c := by
  have h10 : Valid 10 := by unfold Valid Scalar Nonchar; omega
  induction h with
  | eof => intro c hc; cases hc
  | stop => intro c hc; cases hc
  | char _ hv _ ih =>
    intro x hx
    rcases List.mem_cons.1 hx with rfl | hx
    · exact hv
    · exact ih x hx
  | joinBlank _ _ ih =>
    intro x hx
    rcases List.mem_cons.1 hx with rfl | hx
    · exact h10
    · exact ih x hx
  | join _ _ ih =>
    intro x hx
    rcases List.mem_cons.1 hx with rfl | hx
    · exact h10
    · exact ih x hx

/-- After `/*`. -/
theorem cComment_ok {s0 s : LS} {body left rest : List Nat}
    (hno : ∀ a b, body ++ [42] ≠ a ++ (42 :: 47 :: b)) (hv : ∀ c ∈ body, Valid c)
    (hl : TrimmedLeft body left) (h : Rd s0 2 (body ++ 42 :: 47 :: rest) s) :
    ∃ s', Rd s0 2 rest s' ∧
      (¬ Preserved left → cComment s = (none, s')) ∧
      (∀ text, Preserved left → Trimmed left text →
        cComment s = (some { s0.tok .COMMENT with str := encode text, int := 1 }, s')) := by
  obtain ⟨b, rfl, hb, hnb⟩ := hl
  have hf := h.fuel
  have hnb' : ¬ NextIs Blank (left ++ 42 :: 47 :: rest) := by
    cases left with
    | nil => rw [List.nil_append, nextIs_cons]; unfold Blank; omega
    | cons x left => rw [List.cons_append, nextIs_cons]; rwa [nextIs_cons] at hnb
  rw [List.append_assoc] at h
  have r1 := skipLead_ok (p := isSpace) isSpace_blank (by decide) hnb' b s.fuel s hb (by simp at hf; omega) h
  have hno' : ∀ x y, left ++ [42] ≠ x ++ (42 :: 47 :: y) := by
    intro x y hxy
    exact hno (b ++ x) y (by rw [List.append_assoc, hxy, List.append_assoc])
  have hv' : ∀ c ∈ left, Valid c := fun c hc => hv c (by simp [hc])
  have hf1 := r1.fuel
  obtain ⟨s', e, r2⟩ := cLoop_ok left (skipLead isSpace s.fuel s).fuel [] _ hno' hv' (by simp at hf1; omega) r1
  refine ⟨s', r2, ?_, ?_⟩
  · intro hp
    rw [preserved_iff hv'] at hp
    unfold cComment
    dsimp only
    rw [e]
    unfold commentEnd
    dsimp only
    rw [List.nil_append, if_neg hp]
  · intro text hp ht
    rw [preserved_iff hv'] at hp
    unfold cComment
    dsimp only
    rw [e]
    unfold commentEnd
    dsimp only
    rw [List.nil_append, if_pos hp, trimRight_ok hv' ht, r2.tok]
    rfl

/-- After `//`. -/
theorem lineComment_ok {s0 s : LS} {b t body rest : List Nat} (hb : ∀ c ∈ b, c = 32 ∨ c = 9)
    (hnb : ¬ NextIs (fun c => c = 32 ∨ c = 9) t) (hl : Spec.Lines t body rest) (h : Rd s0 2 (b ++ t) s) :
    ∃ s', Rd s0 3 rest s' ∧
      (¬ Preserved body → lineComment s = (none, s')) ∧
      (∀ text, Preserved body → Trimmed body text →
        lineComment s = (some { s0.tok .COMMENT with str := encode text, int := 0 }, s')) := by
  have hf := h.fuel
  have r1 := skipLead_ok (p := fun c => c == 32 || c == 9) (P := fun c => c = 32 ∨ c = 9) (by intro c; simp)
    (by decide) hnb b s.fuel s hb (by simp at hf; omega) h
  obtain ⟨s', e, r2⟩ := lineLoop_ok hl (skipLead (fun c => c == 32 || c == 9) s.fuel s).fuel [] _ r1.fuel r1
  refine ⟨s', r2, ?_, ?_⟩
  · intro hp
    rw [preserved_iff hl.valid] at hp
    unfold lineComment
    dsimp only
    rw [e]
    unfold commentEnd
    dsimp only
    rw [List.nil_append, if_neg hp]
  · intro text hp ht
    rw [preserved_iff hl.valid] at hp
    unfold lineComment
    dsimp only
    rw [e]
    unfold commentEnd
    dsimp only
    rw [List.nil_append, if_pos hp, trimRight_ok hl.valid ht, r2.tok]
    rfl

end Csspp.Lex
