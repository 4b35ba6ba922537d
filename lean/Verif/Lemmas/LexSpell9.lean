import Verif.Lemmas.LexSpell8

/-! What does not spell a token is reported: strings, URLs, whole names. -/

namespace Csspp.Lex
open Csspp.Utf8 Csspp.Spec

/-! ### Strings -/

/-- A string that is not closed or has something that can't be. -/
inductive BadQuoted (q : Nat) : List Nat → Prop
  | eof : BadQuoted q []
  | newline {cs : List Nat} : BadQuoted q (10 :: cs)
  | char {c : Nat} {cs : List Nat} (hq : c ≠ q) (h10 : c ≠ 10) (hb : c ≠ 92) (hv : ¬ Valid c) :
      BadQuoted q (c :: cs)
  | lastEscape : BadQuoted q [92]
  | escape {c : Nat} {es : List Nat} (h10 : c ≠ 10) (h : ¬ ∃ d cs, Escape (c :: es) d cs) :
      BadQuoted q (92 :: c :: es)
  | escaped {c : Nat} {es cs : List Nat} (h : Escape es c cs) (hc : c ≠ 0xFFFD) (hv : ¬ Valid c) :
      BadQuoted q (92 :: es)
  | stepChar {c : Nat} {cs : List Nat} (hq : c ≠ q) (h10 : c ≠ 10) (hb : c ≠ 92) (hv : Valid c) :
      BadQuoted q cs → BadQuoted q (c :: cs)
  | stepNewline {cs : List Nat} : BadQuoted q cs → BadQuoted q (92 :: 10 :: cs)
  | stepEscape {c : Nat} {es cs : List Nat} (h : Escape es c cs) (hc : c ≠ 0xFFFD) (hv : Valid c) :
      BadQuoted q cs → BadQuoted q (92 :: es)
  | stepLost {es cs : List Nat} (h : Escape es 0xFFFD cs) : BadQuoted q cs → BadQuoted q (92 :: es)

theorem quoted_or {q : Nat} (hq : q = 34 ∨ q = 39) : ∀ (n : Nat) (cs : List Nat), cs.length ≤ n →
    (∃ vs rest, Quoted q cs vs rest) ∨ BadQuoted q cs := by
  intro n
  induction n with
  | zero =>
    intro cs hn
    cases cs with
    | nil => exact .inr .eof
    | cons => simp at hn
  | succ n ih =>
    intro cs hn
    cases cs with
    | nil => exact .inr .eof
    | cons c cs =>
      simp at hn
      by_cases hcq : c = q
      · subst hcq
        exact .inl ⟨[], cs, .close cs⟩
      · by_cases h10 : c = 10
        · subst h10; exact .inr .newline
        · by_cases h92 : c = 92
          · subst h92
            cases cs with
            | nil => exact .inr .lastEscape
            | cons d cs =>
              simp at hn
              by_cases hd : d = 10
              · subst hd
                rcases ih cs (by omega) with ⟨vs, rest, h⟩ | h
                · exact .inl ⟨10 :: vs, rest, .newline h⟩
                · exact .inr (.stepNewline h)
              · by_cases he : ∃ x t, Escape (d :: cs) x t
                · obtain ⟨x, t, he⟩ := he
                  have hlen := he.length
                  simp at hlen
                  by_cases hr : x = 0xFFFD
                  · subst hr
                    rcases ih t (by omega) with ⟨vs, rest, h⟩ | h
                    · exact .inl ⟨vs, rest, .lost he h⟩
                    · exact .inr (.stepLost he h)
                  · by_cases hv : Valid x
                    · rcases ih t (by omega) with ⟨vs, rest, h⟩ | h
                      · exact .inl ⟨x :: vs, rest, .escape he hr hv h⟩
                      · exact .inr (.stepEscape he hr hv h)
                    · exact .inr (.escaped he hr hv)
                · exact .inr (.escape hd he)
          · by_cases hv : Valid c
            · rcases ih cs hn with ⟨vs, rest, h⟩ | h
              · exact .inl ⟨c :: vs, rest, .char hcq h10 h92 hv h⟩
              · exact .inr (.stepChar hcq h10 h92 hv h)
            · exact .inr (.char hcq h10 h92 hv)

theorem strPut_bad {s0 s : LS} {c : Nat} (h : s.err = s0.err) (hle : c ≤ 0x10FFFF) (hr : c ≠ 0xFFFD)
    (hc : ¬ Encodable c) (str : Str) : Fails s0 (strPut c str s).2 := by
  unfold strPut
  rw [if_neg (fun h => h.elim (fun h => by unfold eof at h; omega) hr)]
  exact put_bad h hc str

theorem escape_le {s0 s : LS} {es cs : List Nat} {c k : Nat} (h : Escape es c cs) (r : Rd s0 k es s) : c ≤ 0x10FFFF := by
  cases h with
  | plain _ _ _ => exact (r.mem c (by simp)).2
  | six _ _ _ hv => omega
  | short _ _ _ hv => omega
  | spaced _ _ _ hv => omega

theorem strPut_lost (str : Str) (s : LS) : strPut 0xFFFD str s = (str, s) := by
  unfold strPut; rw [if_pos (.inr rfl)]

theorem lexString_bad {s0 : LS} {q : Nat} (hq : q = 34 ∨ q = 39) {cs : List Nat} (h : BadQuoted q cs) :
    ∀ (f : Nat) (str : Str) (s : LS), cs.length < f → Rd s0 2 cs s → Fails s0 (lexString q f str s).2 := by
  induction h with
  | eof =>
    intro f str s hf r
    obtain ⟨f, rfl⟩ : ∃ g, f = g + 1 := ⟨f - 1, by omega⟩
    unfold lexString
    rw [r.getc_nil]
    exact Fails.report r.err _ rfl
  | @newline cs =>
    intro f str s hf r
    obtain ⟨f, rfl⟩ : ∃ g, f = g + 1 := ⟨f - 1, by omega⟩
    obtain ⟨s1, e1, r1, hr, hle, _⟩ := r.getc'
    unfold lexString
    rw [e1]
    exact Fails.report (r1.unget (by omega) hr hle).err _ rfl
  | @char c cs hcq h10 hb hv =>
    intro f str s hf r
    obtain ⟨f, rfl⟩ : ∃ g, f = g + 1 := ⟨f - 1, by omega⟩
    obtain ⟨s1, e1, r1, hr, hle, hne⟩ := r.getc'
    unfold lexString
    rw [e1]
    dsimp only
    rw [if_neg hne, if_neg h10, if_neg hcq, if_neg hb]
    exact (strPut_bad r1.err hle hr.2 (not_valid hr.1 hv) str).of_g (lexString_g _ _ _ _)
  | lastEscape =>
    intro f str s hf r
    obtain ⟨f, rfl⟩ : ∃ g, f = g + 1 := ⟨f - 1, by omega⟩
    obtain ⟨s1, e1, r1, hr, hle, hne⟩ := r.getc'
    unfold lexString
    rw [e1]
    dsimp only
    rw [if_neg hne, if_neg (by decide), if_neg (by omega), if_pos rfl]
    have e2 : strEscape s1 = (eof, s1) := by
      unfold strEscape
      rw [r1.getc_nil]
      rfl
    rw [e2]
    dsimp only
    have e3 : strPut eof str s1 = (str, s1) := by unfold strPut; rw [if_pos (.inl rfl)]
    rw [e3]
    dsimp only
    obtain ⟨f, rfl⟩ : ∃ g, f = g + 1 := ⟨f - 1, by simp at hf; omega⟩
    unfold lexString
    rw [r1.getc_nil]
    exact Fails.report r1.err _ rfl
  | @escape c es h10 h =>
    intro f str s hf r
    obtain ⟨f, rfl⟩ : ∃ g, f = g + 1 := ⟨f - 1, by omega⟩
    obtain ⟨s1, e1, r1, hr, hle, hne⟩ := r.getc'
    obtain ⟨s2, e2, r2, hr2, hle2, hne2⟩ := r1.getc'
    unfold lexString
    rw [e1]
    dsimp only
    rw [if_neg hne, if_neg (by decide), if_neg (by omega), if_pos rfl]
    have e3 : strEscape s1 = Lex.escape (ungetc c s2) := by
      unfold strEscape
      rw [e2]
      dsimp only
      rw [if_neg h10, if_neg hne2, if_neg hr2.2]
    rw [e3]
    have hb := escape_bad h (r2.unget (by omega) hr2 hle2)
    exact (hb.of_g (fun g => strPut_g _ g)).of_g (lexString_g _ _ _ _)
  | @escaped c es cs h hc hv =>
    intro f str s hf r
    obtain ⟨f, rfl⟩ : ∃ g, f = g + 1 := ⟨f - 1, by omega⟩
    obtain ⟨s1, e1, r1, hr, hle, hne⟩ := r.getc'
    unfold lexString
    rw [e1]
    dsimp only
    rw [if_neg hne, if_neg (by decide), if_neg (by omega), if_pos rfl]
    obtain ⟨s2, e2, r2⟩ := strEscape_ok h (by omega) r1
    rw [e2]
    exact (strPut_bad r2.err (escape_le h r1) hc (not_valid (escape_pos h r1) hv) str).of_g (lexString_g _ _ _ _)
  | @stepChar c cs hcq h10 hb hv _ ih =>
    intro f str s hf r
    obtain ⟨f, rfl⟩ : ∃ g, f = g + 1 := ⟨f - 1, by omega⟩
    obtain ⟨s1, e1, r1, hr, hle, hne⟩ := r.getc'
    unfold lexString
    rw [e1]
    dsimp only
    rw [if_neg hne, if_neg h10, if_neg hcq, if_neg hb, strPut_ok hv hr.2]
    exact ih _ _ _ (by simp at hf; omega) (r1.mono (by omega))
  | @stepNewline cs _ ih =>
    intro f str s hf r
    obtain ⟨f, rfl⟩ : ∃ g, f = g + 1 := ⟨f - 1, by omega⟩
    obtain ⟨s1, e1, r1, hr, hle, hne⟩ := r.getc'
    obtain ⟨s2, e2, r2, hr2, hle2, hne2⟩ := r1.getc'
    unfold lexString
    rw [e1]
    dsimp only
    rw [if_neg hne, if_neg (by decide), if_neg (by omega), if_pos rfl]
    have e3 : strEscape s1 = (10, s2) := by
      unfold strEscape
      rw [e2]
      rfl
    rw [e3]
    dsimp only
    rw [strPut_ok (c := 10) (by unfold Valid Scalar Nonchar; omega) (by decide)]
    exact ih _ _ _ (by simp at hf; omega) (r2.mono (by omega))
  | @stepEscape c es cs h hc hv _ ih =>
    intro f str s hf r
    obtain ⟨f, rfl⟩ : ∃ g, f = g + 1 := ⟨f - 1, by omega⟩
    obtain ⟨s1, e1, r1, hr, hle, hne⟩ := r.getc'
    unfold lexString
    rw [e1]
    dsimp only
    rw [if_neg hne, if_neg (by decide), if_neg (by omega), if_pos rfl]
    obtain ⟨s2, e2, r2⟩ := strEscape_ok h (by omega) r1
    rw [e2]
    dsimp only
    rw [strPut_ok hv hc]
    have := h.length
    exact ih _ _ _ (by simp at hf; omega) (r2.mono (by omega))
  | @stepLost es cs h _ ih =>
    intro f str s hf r
    obtain ⟨f, rfl⟩ : ∃ g, f = g + 1 := ⟨f - 1, by omega⟩
    obtain ⟨s1, e1, r1, hr, hle, hne⟩ := r.getc'
    unfold lexString
    rw [e1]
    dsimp only
    rw [if_neg hne, if_neg (by decide), if_neg (by omega), if_pos rfl]
    obtain ⟨s2, e2, r2⟩ := strEscape_ok h (by omega) r1
    rw [e2]
    dsimp only
    rw [strPut_lost]
    have := h.length
    exact ih _ _ _ (by simp at hf; omega) (r2.mono (by omega))

/-! ### URLs -/

theorem span_blank (cs : List Nat) : ∃ b t, cs = b ++ t ∧ (∀ c ∈ b, Blank c) ∧ ¬ NextIs Blank t := by
  induction cs with
  | nil => exact ⟨[], [], rfl, by simp, nextIs_nil⟩
  | cons c cs ih =>
    by_cases h : Blank c
    · obtain ⟨b, t, rfl, hb, ht⟩ := ih
      refine ⟨c :: b, t, rfl, ?_, ht⟩
      intro x hx
      rcases List.mem_cons.1 hx with rfl | hx
      · exact h
      · exact hb x hx
    · exact ⟨[], c :: cs, rfl, by simp, by rw [nextIs_cons]; exact h⟩

/-- After the text of a URL: blanks and the closing parenthesis, or an error. -/
theorem urlClose_bad {s0 : LS} (tl : List Nat) (hn : ¬ NextIs Blank tl) (h41 : ∀ t, tl ≠ 41 :: t) :
    ∀ (b : List Nat) (f : Nat) (s : LS) (k : Nat), k ≤ 2 → (∀ c ∈ b, Blank c) → b.length < f →
    Rd s0 k (b ++ tl) s → Fails s0 (urlClose f s) := by
  intro b
  induction b with
  | nil =>
    intro f s k hk _ hf h
    obtain ⟨f, rfl⟩ : ∃ g, f = g + 1 := ⟨f - 1, by omega⟩
    obtain ⟨s1, e1, a1⟩ := Rd.at (cs := tl) h
    unfold urlClose
    rw [e1]
    dsimp only
    have : tl.headD eof ≠ 41 := by
      intro hh
      obtain ⟨t, ht⟩ := a1.cons' hh (by decide)
      exact h41 t ht
    rw [if_neg this, if_neg (by rw [a1.notSpace hn]; decide)]
    exact Fails.report a1.tl.err _ rfl
  | cons c b ih =>
    intro f s k hk hb hf h
    obtain ⟨f, rfl⟩ : ∃ g, f = g + 1 := ⟨f - 1, by omega⟩
    obtain ⟨s1, e1, r1, _⟩ := Rd.getc' (cs := b ++ tl) h
    unfold urlClose
    rw [e1]
    dsimp only
    have hc := hb c (by simp)
    rw [if_neg (by unfold Blank at hc; omega), if_pos ((isSpace_blank c).2 hc)]
    exact ih _ _ _ (by omega) (fun x hx => hb x (by simp [hx])) (by simp at hf; omega) r1

/-- The longest run of characters of an unquoted URL. -/
theorem span_url (cs : List Nat) : ∃ us t, cs = us ++ t ∧
    (∀ u ∈ us, ¬ Blank u ∧ u ≠ 41 ∧ ¬ UrlForbidden u) ∧
    (t = [] ∨ ∃ d t', t = d :: t' ∧ (d = 41 ∨ Blank d ∨ UrlForbidden d)) := by
  induction cs with
  | nil => exact ⟨[], [], rfl, by simp, .inl rfl⟩
  | cons c cs ih =>
    by_cases h : c = 41 ∨ Blank c ∨ UrlForbidden c
    · exact ⟨[], c :: cs, rfl, by simp, .inr ⟨c, cs, rfl, h⟩⟩
    · obtain ⟨us, t, rfl, hu, ht⟩ := ih
      refine ⟨c :: us, t, rfl, ?_, ht⟩
      intro x hx
      rcases List.mem_cons.1 hx with rfl | hx
      · exact ⟨fun hh => h (.inr (.inl hh)), fun hh => h (.inl hh), fun hh => h (.inr (.inr hh))⟩
      · exact hu x hx

theorem forbidden_bool {c : Nat} (h : UrlForbidden c) : c = eof ∨ c = 34 ∨ c = 39 ∨ c = 40 ∨ isNonPrintable c = true := by
  unfold UrlForbidden at h
  unfold isNonPrintable
  simp
  omega

/-- The end of the run is a forbidden character or the end of the text, or a character is not
valid: an error. -/
theorem urlLoop_bad {s0 : LS} (tl : List Nat) : ∀ (us : List Nat) (f : Nat) (url : Str) (s : LS) (k : Nat), k ≤ 2 →
    (∀ u ∈ us, ¬ Blank u ∧ u ≠ 41 ∧ ¬ UrlForbidden u) →
    ((∃ u ∈ us, ¬ Valid u) ∨ tl = [] ∨ ∃ d t, tl = d :: t ∧ UrlForbidden d) → us.length < f →
    Rd s0 k (us ++ tl) s → Fails s0 (urlLoop f url s).2.2 := by
  intro us
  induction us with
  | nil =>
    intro f url s k hk _ hb hf h
    obtain ⟨f, rfl⟩ : ∃ g, f = g + 1 := ⟨f - 1, by omega⟩
    unfold urlLoop
    rcases hb with ⟨u, hu, _⟩ | rfl | ⟨d, t, rfl, hd⟩
    · cases hu
    · rw [Rd.getc_nil h]
      exact Fails.report h.err _ rfl
    · obtain ⟨s1, e1, r1, hr, hle, _⟩ := Rd.getc' (cs := t) h
      rw [e1]
      dsimp only
      have hnb : ¬ (d = 41 ∨ isSpace d = true) := by
        rw [isSpace_blank]
        unfold Blank; unfold UrlForbidden at hd; omega
      rw [if_neg hnb, if_pos (forbidden_bool hd)]
      exact Fails.report r1.err _ rfl
  | cons c us ih =>
    intro f url s k hk hu hb hf h
    obtain ⟨f, rfl⟩ : ∃ g, f = g + 1 := ⟨f - 1, by omega⟩
    obtain ⟨s1, e1, r1, hr, hle, hne⟩ := Rd.getc' (cs := us ++ tl) h
    obtain ⟨g1, g2, g3⟩ := hu c (by simp)
    unfold urlLoop
    rw [e1]
    dsimp only
    rw [if_neg (by rw [isSpace_blank]; exact fun h => h.elim g2 g1), if_neg (not_forbidden g3 hr hne)]
    by_cases hv : Valid c
    · rw [put_valid hv]
      refine ih _ _ _ _ (by omega) (fun x hx => hu x (by simp [hx])) ?_ (by simp at hf; omega) r1
      rcases hb with ⟨u, hu, hv'⟩ | hb
      · rcases List.mem_cons.1 hu with rfl | hu
        · exact absurd hv hv'
        · exact .inl ⟨u, hu, hv'⟩
      · exact .inr hb
    · exact (put_bad r1.err (not_valid hr.1 hv) url).of_g (urlLoop_g _ _ _)

theorem lexUrl_end_bad' {s0 : LS} {r : Str × Nat × LS} (h : Fails s0 r.2.2) :
    Fails s0 (if r.2.1 = 41 then r.2.2 else urlClose r.2.2.fuel r.2.2) := by
  split
  · exact h
  · exact h.of_g (urlClose_g _ _)

theorem lexUrl_bad {s0 s : LS} {cs : List Nat} (hno : ¬ ∃ us rest, UrlBody cs us rest) (hr : Rd s0 2 cs s) :
    Fails s0 (lexUrl s).2 := by
  obtain ⟨b1, t, rfl, hb1, hnb⟩ := span_blank cs
  have hf := hr.fuel
  obtain ⟨s1, e1, a1⟩ := skipSpaces_ok t hnb b1 s.fuel s 2 (by omega) hb1 (by simp at hf; omega) hr
  unfold lexUrl
  rw [e1]
  dsimp only
  rcases a1.le with he | ⟨hle, hrr, h0, t', ht⟩
  · have ht : t = [] := by
      cases t with
      | nil => rfl
      | cons x t =>
        obtain ⟨hx, _, _, _, hne⟩ := a1.cons
        exact absurd (hx.symm.trans he) hne
    subst ht
    rw [he]
    refine lexUrl_end_bad' ?_
    unfold urlText
    rw [if_neg (by decide)]
    exact (put_bad (c := eof) a1.tl.err (by unfold Encodable Scalar eof; omega) []).of_g (urlLoop_g _ _ _)
  · generalize t.headD eof = c at *
    subst ht
    obtain ⟨_, r1, hread, _, hne⟩ := a1.cons
    by_cases hq : c = 34 ∨ c = 39
    · rcases quoted_or hq _ t' (Nat.le_refl _) with ⟨vs, rest, hqd⟩ | hbad
      · obtain ⟨s2, e2, r2⟩ := lexString_ok hq hqd s1.fuel [] s1 r1.fuel (r1.mono (by omega))
        have e3 : urlText c s1 = ([] ++ encode vs, c, s2) := by
          unfold urlText
          rw [if_pos hq, e2]
        rw [e3]
        dsimp only
        rw [if_neg (by omega)]
        obtain ⟨b2, u, rfl, hb2, hnb2⟩ := span_blank rest
        have hf2 := r2.fuel
        refine urlClose_bad u hnb2 ?_ b2 s2.fuel s2 1 (by omega) hb2 (by simp at hf2; omega) r2
        rintro v rfl
        exact hno ⟨vs, v, .quoted hb1 hq hqd hb2⟩
      · refine lexUrl_end_bad' ?_
        unfold urlText
        rw [if_pos hq]
        exact lexString_bad hq hbad _ _ _ r1.fuel (r1.mono (by omega))
    · by_cases hv : Valid c
      · obtain ⟨us, w, rfl, hus, hw⟩ := span_url t'
        have e3 : urlText c s1 = urlLoop s1.fuel ([] ++ (wctomb c).1) s1 := by
          unfold urlText
          rw [if_neg hq, put_valid hv]
        have hf1 := r1.fuel
        by_cases hb : (∃ u ∈ us, ¬ Valid u) ∨ w = [] ∨ ∃ d t, w = d :: t ∧ UrlForbidden d
        · refine lexUrl_end_bad' ?_
          rw [e3]
          exact urlLoop_bad w us s1.fuel _ s1 1 (by omega) hus hb (by simp at hf1; omega) r1
        · have hvu : ∀ u ∈ us, Valid u := fun u hu => Classical.byContradiction fun hh => hb (.inl ⟨u, hu, hh⟩)
          rcases hw with rfl | ⟨d, v, rfl, hd⟩
          · exact absurd (.inr (.inl rfl)) hb
          · have hd' : d = 41 ∨ Blank d := by
              rcases hd with hd | hd | hd
              · exact .inl hd
              · exact .inr hd
              · exact absurd (.inr (.inr ⟨d, v, rfl, hd⟩)) hb
            obtain ⟨s2, e2, r2⟩ := urlLoop_ok d v hd' us s1.fuel ([] ++ (wctomb c).1) s1 1 (by omega) hus hvu
              (by simp at hf1; omega) r1
            have hvc : ∀ u ∈ c :: us, Valid u := by
              intro u hu
              rcases List.mem_cons.1 hu with rfl | hu
              · exact hv
              · exact hvu u hu
            have hcc : ¬ Blank c ∧ c ≠ 34 ∧ c ≠ 39 :=
              ⟨fun hh => hnb ⟨c, _, rfl, hh⟩, fun hh => hq (.inl hh), fun hh => hq (.inr hh)⟩
            rw [e3, e2]
            dsimp only
            by_cases h41 : d = 41
            · exfalso
              subst h41
              exact hno ⟨c :: us, v, by simpa using UrlBody.plain (b2 := []) hb1 hcc hus hvc (by simp)⟩
            · rw [if_neg h41]
              have hbd : Blank d := hd'.resolve_left h41
              obtain ⟨b2, u, rfl, hb2, hnb2⟩ := span_blank v
              have hf2 := r2.fuel
              refine urlClose_bad u hnb2 ?_ b2 s2.fuel s2 1 (by omega) hb2 (by simp at hf2; omega) r2
              rintro x rfl
              exact hno ⟨c :: us, x, UrlBody.plain (b2 := d :: b2) hb1 hcc hus hvc (by
                intro y hy
                rcases List.mem_cons.1 hy with rfl | hy
                · exact hbd
                · exact hb2 y hy)⟩
      · refine lexUrl_end_bad' ?_
        unfold urlText
        rw [if_neg hq]
        exact (put_bad r1.err (not_valid hread.1 hv) []).of_g (urlLoop_g _ _ _)

end Csspp.Lex
