import Verif.Lemmas.LexSpell7

/-! What does not spell a token is reported: escapes, names, strings, URLs. -/

namespace Csspp.Lex
open Csspp.Utf8 Csspp.Spec

theorem Fails.of_g {s0 s s' : LS} (h : Fails s0 s) (g : ∀ {a}, Grows a s → Grows a s') : Fails s0 s' :=
  h.grow (g (Grows.refl s))

/-! ### escape() -/

theorem escLoop_split {s0 : LS} : ∀ (j v : Nat) (cs : List Nat) (s : LS) (k : Nat), Rd s0 k cs s → v ≤ 0x10FFFF →
    Fails s0 (escLoop j v s).2 ∨ ∃ ds tl s', cs = ds ++ tl ∧ (∀ d ∈ ds, Hex d) ∧ ds.length ≤ j ∧
      (ds.length = j ∨ ¬ NextIs Hex tl) ∧ hexFrom v ds ≤ 0x10FFFF ∧
      escLoop j v s = (some (hexFrom v ds), s') ∧ s'.err = s0.err := by
  intro j
  induction j with
  | zero =>
    intro v cs s k h hv
    exact .inr ⟨[], cs, s, rfl, by simp, by simp, .inl rfl, hv, rfl, h.err⟩
  | succ j ih =>
    intro v cs s k h hv
    obtain ⟨s1, e1, a1⟩ := h.at
    unfold escLoop
    rw [e1]
    dsimp only
    by_cases hx : isHex (cs.headD eof) = true
    · rw [if_pos hx]
      have hne : cs.headD eof ≠ eof := by intro he; rw [he] at hx; exact absurd hx (by decide)
      rcases a1.le with he | ⟨_, _, _, t, ht⟩
      · exact absurd he hne
      · have hd : Hex (cs.headD eof) := (isHex_hex _).1 hx
        generalize cs.headD eof = d at *
        subst ht
        obtain ⟨_, r1, _⟩ := a1.cons
        rw [hexVal_value hd]
        by_cases hlim : 16 * v + hexDigitValue d ≥ 0x110000
        · rw [if_pos hlim]
          exact .inl (Fails.report r1.err _ rfl)
        · rw [if_neg hlim]
          rcases ih (16 * v + hexDigitValue d) t s1 _ r1 (by omega) with hf | ⟨ds, tl, s', e, hds, hl, he, hv2, es, er⟩
          · exact .inl hf
          · refine .inr ⟨d :: ds, tl, s', by rw [e]; rfl, ?_, by simp; omega, ?_, hv2, es, er⟩
            · intro x hx
              rcases List.mem_cons.1 hx with rfl | hx
              · exact hd
              · exact hds x hx
            · rcases he with he | he
              · left; simp [he]
              · exact .inr he
    · rw [if_neg hx]
      refine .inr ⟨[], cs, _, rfl, by simp, by simp, .inr ?_, hv, rfl, ?_⟩
      · rintro ⟨d, t, rfl, hd⟩
        exact hx ((isHex_hex _).2 hd)
      · split
        · exact a1.tl.err
        · by_cases hc : cs.headD eof = eof
          · rw [hc]
            unfold ungetc
            rw [if_pos (.inl rfl)]
            exact a1.tl.err
          · rcases a1.le with he | ⟨hle, hr, h0, t, ht⟩
            · exact absurd he hc
            · unfold ungetc
              split
              · exact a1.tl.err
              · split
                · exact a1.tl.err
                · split <;> exact a1.tl.err

/-- An escape or an error. -/
theorem escape_bad {s0 s : LS} {cs : List Nat} {k : Nat} (hno : ¬ ∃ c rest, Escape cs c rest) (h : Rd s0 k cs s) :
    Fails s0 (escape s).2 := by
  obtain ⟨s1, e1, a1⟩ := h.at
  unfold escape
  rw [e1]
  dsimp only
  rcases a1.le with he | ⟨hle, hr, h0, t, ht⟩
  · rw [he, if_neg (by decide), if_neg (by decide), if_pos rfl]
    exact Fails.report a1.tl.err _ rfl
  · generalize cs.headD eof = d at *
    subst ht
    obtain ⟨_, r1, _, _, hne⟩ := a1.cons
    by_cases h10 : d = 10
    · rw [if_pos h10]
      exact Fails.report r1.err _ rfl
    · rw [if_neg h10, if_neg hr, if_neg hne]
      by_cases hx : isHex d = true
      · rw [if_pos hx]
        have hd : Hex d := (isHex_hex _).1 hx
        rw [hexVal_value hd]
        have hsmall : hexDigitValue d ≤ 0x10FFFF := by
          unfold hexDigitValue; unfold Hex Dec at hd
          repeat' split
          all_goals omega
        rcases escLoop_split 5 (hexDigitValue d) t s1 _ r1 hsmall with hf | ⟨ds, tl, s', e, hds, hl, he, hv2, es, er⟩
        · rcases hh : escLoop 5 (hexDigitValue d) s1 with ⟨_ | wc, s2⟩
          · rw [hh] at hf
            exact hf
          · rw [hh] at hf
            unfold escEnd
            dsimp only
            split
            · exact hf.of_g (report_g _)
            · exact hf
        · rw [es]
          unfold escEnd
          dsimp only
          by_cases hz : hexFrom (hexDigitValue d) ds = 0
          · rw [if_pos hz]
            exact Fails.report er _ rfl
          · exfalso
            apply hno
            have hval : hexValue (d :: ds) = hexFrom (hexDigitValue d) ds := hexValue_cons d ds
            have hall : ∀ x ∈ d :: ds, Hex x := by
              intro x hx
              rcases List.mem_cons.1 hx with rfl | hx
              · exact hd
              · exact hds x hx
            have hvv : 0 < hexValue (d :: ds) ∧ hexValue (d :: ds) ≤ 0x10FFFF := by rw [hval]; omega
            subst e
            by_cases h5 : ds.length = 5
            · exact ⟨_, tl, Escape.six (ds := d :: ds) tl hall (by simp [h5]) hvv⟩
            · have hnx : ¬ NextIs Hex tl := by
                rcases he with he | he
                · exact absurd he h5
                · exact he
              by_cases hb : NextIs Blank tl
              · obtain ⟨sp, u, rfl, hsp⟩ := hb
                exact ⟨_, u, Escape.spaced (ds := d :: ds) u hall (by simp; omega) hvv hsp⟩
              · refine ⟨_, tl, Escape.short (ds := d :: ds) tl hall (by simp; omega) hvv ?_⟩
                rintro ⟨c, u, rfl, hc | hc⟩
                · exact hnx ⟨c, u, rfl, hc⟩
                · exact hb ⟨c, u, rfl, hc⟩
      · exfalso
        exact hno ⟨d, t, Escape.plain t h10 (fun hh => hx ((isHex_hex _).2 hh))⟩

/-! ### Runs of name characters -/

/-- A run of name characters with something that can't be. -/
inductive BadTail : List Nat → Prop
  | char {c : Nat} {cs : List Nat} (h : NameChar c) (hv : ¬ Valid c) : BadTail (c :: cs)
  | escape {es : List Nat} (h : ¬ ∃ c cs, Escape es c cs) : BadTail (92 :: es)
  | escaped {c : Nat} {es cs : List Nat} (h : Escape es c cs) (hc : c ≠ 0xFFFD) (hv : ¬ Valid c) :
      BadTail (92 :: es)
  | stepChar {c : Nat} {cs : List Nat} (h : NameChar c) (hv : Valid c) : BadTail cs → BadTail (c :: cs)
  | stepEscape {c : Nat} {es cs : List Nat} (h : Escape es c cs) (hc : c ≠ 0xFFFD) (hv : Valid c) :
      BadTail cs → BadTail (92 :: es)

theorem nameTail_or : ∀ (n : Nat) (cs : List Nat), cs.length ≤ n →
    (∃ vs cut rest, NameTail cs vs cut rest) ∨ BadTail cs := by
  intro n
  induction n with
  | zero =>
    intro cs hn
    cases cs with
    | nil => exact .inl ⟨[], false, [], .stop [] nextIs_nil⟩
    | cons => simp at hn
  | succ n ih =>
    intro cs hn
    cases cs with
    | nil => exact .inl ⟨[], false, [], .stop [] nextIs_nil⟩
    | cons c cs =>
      simp at hn
      by_cases h92 : c = 92
      · subst h92
        by_cases he : ∃ d t, Escape cs d t
        · obtain ⟨d, t, he⟩ := he
          by_cases hr : d = 0xFFFD
          · subst hr
            exact .inl ⟨[], true, t, .lost he⟩
          · by_cases hv : Valid d
            · have := he.length
              rcases ih t (by omega) with ⟨vs, cut, rest, h⟩ | h
              · exact .inl ⟨d :: vs, cut, rest, .escape he hr hv h⟩
              · exact .inr (.stepEscape he hr hv h)
            · exact .inr (.escaped he hr hv)
        · exact .inr (.escape he)
      · by_cases hc : NameChar c
        · by_cases hv : Valid c
          · rcases ih cs hn with ⟨vs, cut, rest, h⟩ | h
            · exact .inl ⟨c :: vs, cut, rest, .char hc hv h⟩
            · exact .inr (.stepChar hc hv h)
          · exact .inr (.char hc hv)
        · refine .inl ⟨[], false, c :: cs, .stop _ ?_⟩
          rw [nextIs_cons]
          rintro (h | h)
          · exact hc h
          · exact h92 h

theorem nameChar_ne92 {c : Nat} (h : NameChar c) : c ≠ 92 := by
  unfold NameChar VarChar Dec Letter at h; omega

theorem idLoop_bad {s0 : LS} {cs : List Nat} (h : BadTail cs) : ∀ (f : Nat) (id lo : Str) (s : LS),
    cs.length < f → Rd s0 2 cs s → Fails s0 (idLoop f id lo s).2.2.2 := by
  induction h with
  | @char c cs h hv =>
    intro f id lo s hf r
    obtain ⟨f, rfl⟩ : ∃ g, f = g + 1 := ⟨f - 1, by omega⟩
    obtain ⟨s1, e1, r1, hr, hle, _⟩ := r.getc'
    unfold idLoop
    rw [e1]
    dsimp only
    rw [if_neg (nameChar_ne92 h), if_pos ((isIdentifier_name hle).2 h)]
    exact ((put_bad r1.err (not_valid hr.1 hv) id).of_g (fun g => put_g (toLower c) g)).of_g (idLoop_g _ _ _ _)
  | @escape es h =>
    intro f id lo s hf r
    obtain ⟨f, rfl⟩ : ∃ g, f = g + 1 := ⟨f - 1, by omega⟩
    obtain ⟨s1, e1, r1, hr, hle, _⟩ := r.getc'
    unfold idLoop
    rw [e1]
    dsimp only
    rw [if_pos rfl]
    have hb := escape_bad h r1
    split
    · exact hb
    · exact (hb.of_g (fun g => put_g _ (put_g _ g))).of_g (idLoop_g _ _ _ _)
  | @escaped c es cs h hc hv =>
    intro f id lo s hf r
    obtain ⟨f, rfl⟩ : ∃ g, f = g + 1 := ⟨f - 1, by omega⟩
    obtain ⟨s1, e1, r1, hr, hle, _⟩ := r.getc'
    unfold idLoop
    rw [e1]
    dsimp only
    rw [if_pos rfl]
    obtain ⟨s2, e2, r2⟩ := escape_ok h (by omega) r1
    rw [e2]
    dsimp only
    rw [if_neg hc]
    have h0 : c ≠ 0 := by
      cases h with
      | plain _ _ _ => exact (r1.mem c (by simp)).1.1
      | six _ _ _ hv => omega
      | short _ _ _ hv => omega
      | spaced _ _ _ hv => omega
    exact ((put_bad r2.err (not_valid h0 hv) id).of_g (fun g => put_g (toLower c) g)).of_g (idLoop_g _ _ _ _)
  | @stepChar c cs h hv _ ih =>
    intro f id lo s hf r
    obtain ⟨f, rfl⟩ : ∃ g, f = g + 1 := ⟨f - 1, by omega⟩
    obtain ⟨s1, e1, r1, hr, hle, _⟩ := r.getc'
    unfold idLoop
    rw [e1]
    dsimp only
    rw [if_neg (nameChar_ne92 h), if_pos ((isIdentifier_name hle).2 h), put_valid hv, put_lower hv]
    exact ih _ _ _ _ (by simp at hf; omega) (r1.mono (by omega))
  | @stepEscape c es cs h hc hv _ ih =>
    intro f id lo s hf r
    obtain ⟨f, rfl⟩ : ∃ g, f = g + 1 := ⟨f - 1, by omega⟩
    obtain ⟨s1, e1, r1, hr, hle, _⟩ := r.getc'
    unfold idLoop
    rw [e1]
    dsimp only
    rw [if_pos rfl]
    obtain ⟨s2, e2, r2⟩ := escape_ok h (by omega) r1
    rw [e2]
    dsimp only
    rw [if_neg hc, put_valid hv, put_lower hv]
    have := h.length
    exact ih _ _ _ _ (by simp at hf; omega) (r2.mono (by omega))

theorem escape_pos {s0 s : LS} {es cs : List Nat} {c k : Nat} (h : Escape es c cs) (r : Rd s0 k es s) : c ≠ 0 := by
  cases h with
  | plain _ _ _ => exact (r.mem c (by simp)).1.1
  | six _ _ _ hv => omega
  | short _ _ _ hv => omega
  | spaced _ _ _ hv => omega

theorem hashLoop_bad {s0 : LS} {cs : List Nat} (h : BadTail cs) : ∀ (f : Nat) (str : Str) (s : LS),
    cs.length < f → Rd s0 2 cs s → Fails s0 (hashLoop f str s).2 := by
  induction h with
  | @char c cs h hv =>
    intro f str s hf r
    obtain ⟨f, rfl⟩ : ∃ g, f = g + 1 := ⟨f - 1, by omega⟩
    obtain ⟨s1, e1, r1, hr, hle, _⟩ := r.getc'
    unfold hashLoop
    rw [e1]
    dsimp only
    rw [if_neg (nameChar_ne92 h), if_pos ((isHash_name hle hr.2).2 h)]
    exact (put_bad r1.err (not_valid hr.1 hv) str).of_g (hashLoop_g _ _ _)
  | @escape es h =>
    intro f str s hf r
    obtain ⟨f, rfl⟩ : ∃ g, f = g + 1 := ⟨f - 1, by omega⟩
    obtain ⟨s1, e1, r1, hr, hle, _⟩ := r.getc'
    unfold hashLoop
    rw [e1]
    dsimp only
    rw [if_pos rfl]
    have hb := escape_bad h r1
    split
    · exact hb
    · exact (hb.of_g (fun g => put_g _ g)).of_g (hashLoop_g _ _ _)
  | @escaped c es cs h hc hv =>
    intro f str s hf r
    obtain ⟨f, rfl⟩ : ∃ g, f = g + 1 := ⟨f - 1, by omega⟩
    obtain ⟨s1, e1, r1, hr, hle, _⟩ := r.getc'
    unfold hashLoop
    rw [e1]
    dsimp only
    rw [if_pos rfl]
    obtain ⟨s2, e2, r2⟩ := escape_ok h (by omega) r1
    rw [e2]
    dsimp only
    rw [if_neg hc]
    exact (put_bad r2.err (not_valid (escape_pos h r1) hv) str).of_g (hashLoop_g _ _ _)
  | @stepChar c cs h hv _ ih =>
    intro f str s hf r
    obtain ⟨f, rfl⟩ : ∃ g, f = g + 1 := ⟨f - 1, by omega⟩
    obtain ⟨s1, e1, r1, hr, hle, _⟩ := r.getc'
    unfold hashLoop
    rw [e1]
    dsimp only
    rw [if_neg (nameChar_ne92 h), if_pos ((isHash_name hle hr.2).2 h), put_valid hv]
    exact ih _ _ _ (by simp at hf; omega) (r1.mono (by omega))
  | @stepEscape c es cs h hc hv _ ih =>
    intro f str s hf r
    obtain ⟨f, rfl⟩ : ∃ g, f = g + 1 := ⟨f - 1, by omega⟩
    obtain ⟨s1, e1, r1, hr, hle, _⟩ := r.getc'
    unfold hashLoop
    rw [e1]
    dsimp only
    rw [if_pos rfl]
    obtain ⟨s2, e2, r2⟩ := escape_ok h (by omega) r1
    rw [e2]
    dsimp only
    rw [if_neg hc, put_valid hv]
    have := h.length
    exact ih _ _ _ (by simp at hf; omega) (r2.mono (by omega))

theorem lower_encodable {c : Nat} (h : ¬ Encodable c) : ¬ Encodable (toLower c) := by
  unfold toLower
  split
  · intro _; apply h; unfold Encodable Scalar Nonchar; omega
  · exact h

theorem dimLoop_bad {s0 : LS} {cs : List Nat} (h : BadTail cs) : ∀ (f : Nat) (dim : Str) (c : Nat) (s : LS),
    cs.length < f → At s0 2 cs c s → Fails s0 (dimLoop f dim c s).2.2 := by
  induction h with
  | @char c cs h hv =>
    intro f dim d s hf a
    obtain ⟨f, rfl⟩ : ∃ g, f = g + 1 := ⟨f - 1, by omega⟩
    obtain ⟨rfl, r1, hr, hle, _⟩ := a.cons
    unfold dimLoop
    rw [if_neg (nameChar_ne92 h), if_pos ((isIdentifier_name hle).2 h)]
    exact ((put_bad r1.err (lower_encodable (not_valid hr.1 hv)) dim).of_g (fun g => getc_g g)).of_g (dimLoop_g _ _ _ _)
  | @escape es h =>
    intro f dim d s hf a
    obtain ⟨f, rfl⟩ : ∃ g, f = g + 1 := ⟨f - 1, by omega⟩
    obtain ⟨rfl, r1, hr, hle, _⟩ := a.cons
    unfold dimLoop
    dsimp only
    rw [if_pos rfl]
    have hb := escape_bad h r1
    split
    · exact hb
    · exact (hb.of_g (fun g => getc_g (put_g _ g))).of_g (dimLoop_g _ _ _ _)
  | @escaped c es cs h hc hv =>
    intro f dim d s hf a
    obtain ⟨f, rfl⟩ : ∃ g, f = g + 1 := ⟨f - 1, by omega⟩
    obtain ⟨rfl, r1, hr, hle, _⟩ := a.cons
    unfold dimLoop
    rw [if_pos rfl]
    obtain ⟨s2, e2, r2⟩ := escape_ok h (by omega) r1
    rw [e2]
    dsimp only
    rw [if_neg hc]
    exact ((put_bad r2.err (lower_encodable (not_valid (escape_pos h r1) hv)) dim).of_g (fun g => getc_g g)).of_g
      (dimLoop_g _ _ _ _)
  | @stepChar c cs h hv _ ih =>
    intro f dim d s hf a
    obtain ⟨f, rfl⟩ : ∃ g, f = g + 1 := ⟨f - 1, by omega⟩
    obtain ⟨rfl, r1, hr, hle, _⟩ := a.cons
    unfold dimLoop
    rw [if_neg (nameChar_ne92 h), if_pos ((isIdentifier_name hle).2 h), put_lower hv]
    obtain ⟨s2, e2, a2⟩ := r1.at
    dsimp only
    rw [e2]
    exact ih _ _ _ _ (by simp at hf; omega) (a2.mono (by omega))
  | @stepEscape c es cs h hc hv _ ih =>
    intro f dim d s hf a
    obtain ⟨f, rfl⟩ : ∃ g, f = g + 1 := ⟨f - 1, by omega⟩
    obtain ⟨rfl, r1, hr, hle, _⟩ := a.cons
    unfold dimLoop
    rw [if_pos rfl]
    obtain ⟨s2, e2, r2⟩ := escape_ok h (by omega) r1
    rw [e2]
    dsimp only
    rw [if_neg hc, put_lower hv]
    obtain ⟨s3, e3, a3⟩ := r2.at
    dsimp only
    rw [e3]
    have := h.length
    exact ih _ _ _ _ (by simp at hf; omega) (a3.mono (by omega))

end Csspp.Lex
