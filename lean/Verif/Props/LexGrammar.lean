import Verif.Lemmas.LexSpell13

/-!
C47: the lexer reads exactly the token grammar of `Spec/Lexemes.lean`.
-/

namespace Csspp.Lex
open Csspp.Utf8 Csspp.Spec

theorem _root_.Csspp.Spec.Skips.snoc {a b c : List Nat} (h : Skips a b) (hd : Dropped b c) : Skips a c := by
  induction h with
  | refl a => exact .step hd (.refl _)
  | step h _ ih => exact .step h (ih hd)

theorem _root_.Csspp.Spec.Skips.tokens {a b : List Nat} {ls : List Lexeme} (h : Skips a b) (ht : Tokens b ls) :
    Tokens a ls := by
  induction h with
  | refl a => exact ht
  | step h _ ih => exact .skip h (ih ht)

theorem _root_.Csspp.Spec.Skips.sub {a b : List Nat} (h : Skips a b) : b ⊆ a := by
  induction h with
  | refl a => exact fun _ h => h
  | step h _ ih => exact fun x hx => h.sub (ih hx)

theorem reads_eof {mid rest : List Nat} {l : Lexeme} (hr : Reads mid l rest) (h : l.ty = .EOF_TOKEN) : mid = [] := by
  cases hr with
  | eof => rfl
  | punctuation hm =>
    have : ∀ q ∈ punctuation, q.2 ≠ .EOF_TOKEN := by decide
    exact absurd h (this _ hm)
  | number =>
    exfalso
    revert h
    unfold numberLexeme
    repeat' split
    all_goals exact fun h => by cases h
  | _ => cases h

theorem warned_rem (w : Option Rpt) (s : LS) : (warned w s).rem = s.rem := by cases w <;> rfl
theorem warned_err (w : Option Rpt) (s : LS) : (warned w s).err = w.toList ++ s.err := by cases w <;> rfl
theorem warned_rd {w : Option Rpt} {s : LS} {cs : List Nat} (h : Rd s 3 cs s) :
    Rd (warned w s) 3 cs (warned w s) := by
  cases w with
  | none => exact h
  | some w => exact ⟨h.len, h.un, h.raw, rfl, rfl, rfl, rfl⟩

theorem next_rem {s : LS} (hl : s.un.length ≤ 3) (ht : (nextToken s).1.ty ≠ .EOF_TOKEN) :
    (nextToken s).2.rem < s.rem := by
  rcases (nextToken_res (s0 := s) (R := s.rem) ⟨.refl, hl, Nat.le_refl _⟩ (t := (nextToken s).1)
    (s' := (nextToken s).2) rfl).2 with h | h
  · exact absurd h.1 ht
  · exact h

theorem lexAll_reads {a : List Nat} {ls : List Lexeme} (ht : Tokens a ls) :
    ∀ (cs : List Nat), Skips cs a → ∀ (f : Nat) (s : LS), s.rem < f → Rd s 3 cs s →
    ∃ ts s1, lexAll f s = (ts, s1) ∧ HoldAll ts ls ∧ s1.err = (ls.filterMap (·.warn)).reverse ++ s.err ∧
      s1.exn = s.exn ∧ s1.ub = s.ub := by
  induction ht with
  | eof =>
    intro cs hs f s hf h
    cases f with
    | zero => omega
    | succ f =>
      obtain ⟨t, s1, e, hh, err, exn, ub, _⟩ := lexLoop_reads .eof hs s.fuel s (fuel_lt s) h
      refine ⟨[], s1, ?_, .nil, err, exn, ub⟩
      unfold lexAll nextToken
      rw [e]
      dsimp only
      rw [if_pos hh.ty]
      rfl
  | skip hd _ ih =>
    intro cs hs f s hf h
    exact ih cs (hs.snoc hd) f s hf h
  | @token a b l ls hr hty _ ih =>
    intro cs hs f s hf h
    cases f with
    | zero => omega
    | succ f =>
      obtain ⟨t, s1, e, hh, err, exn, ub, hd⟩ := lexLoop_reads hr hs s.fuel s (fuel_lt s) h
      have e' : nextToken s = (t, warned l.warn s1) := e
      have hlt := next_rem (s := s) h.len (by rw [e']; dsimp only; rw [hh.ty]; exact hty)
      rw [e'] at hlt
      dsimp only at hlt
      obtain ⟨ts, s2, e2, hh2, err2, exn2, ub2⟩ := ih b (.refl _) f (warned l.warn s1) (by omega) (warned_rd hd)
      refine ⟨t :: ts, s2, ?_, .cons hh hh2, ?_, ?_, ?_⟩
      · unfold lexAll
        rw [e']
        dsimp only
        rw [if_neg (by rw [hh.ty]; exact hty), e2]
      · rw [err2, warned_err, err]
        cases hw : l.warn <;> simp [hw]
      · rw [exn2, ← exn]; cases l.warn <;> rfl
      · rw [ub2, ← ub]; cases l.warn <;> rfl

theorem lexAll_grows : ∀ (f : Nat) (s : LS), s.un.length ≤ 3 → s.rem < f → Grows s (lexAll f s).2 := by
  intro f
  induction f with
  | zero => intro s _ h; omega
  | succ f ih =>
    intro s hl hf
    unfold lexAll
    rcases e : nextToken s with ⟨t, s1⟩
    have hr := nextToken_res (s0 := s) (R := s.rem) ⟨.refl, hl, Nat.le_refl _⟩ e
    have g1 : Grows s s1 := by
      obtain ⟨l, h⟩ := hr.1.reach.err
      exact ⟨l, h.symm⟩
    dsimp only
    by_cases ht : t.ty = .EOF_TOKEN
    · rw [if_pos ht]; exact g1
    · rw [if_neg ht]
      have hlt : s1.rem < s.rem := by
        rcases hr.2 with h | h
        · exact absurd h.1 ht
        · exact h
      exact g1.trans (ih s1 hr.1.un (by omega))

theorem lexAll_total : ∀ (f : Nat) (s : LS) (cs : List Nat), s.rem < f → 12 ∉ cs → Rd s 3 cs s →
    Fails s (lexAll f s).2 ∨ ∃ ls, Tokens cs ls := by
  intro f
  induction f with
  | zero => intro s cs h; omega
  | succ f ih =>
    intro s cs hf h12 h
    have hr := nextToken_res (s0 := s) (R := s.rem) ⟨.refl, h.len, Nat.le_refl _⟩
      (t := (nextToken s).1) (s' := (nextToken s).2) rfl
    have e1 : lexAll (f + 1) s = if (nextToken s).1.ty = .EOF_TOKEN then ([], (nextToken s).2)
        else ((nextToken s).1 :: (lexAll f (nextToken s).2).1, (lexAll f (nextToken s).2).2) := rfl
    rw [e1]
    rcases nextToken_next h12 h with hb | @⟨mid, rest, l, s1, hs, hrd, hh, he, err, exn, ub, hd⟩
    · left
      by_cases ht : (nextToken s).1.ty = .EOF_TOKEN
      · rw [if_pos ht]; exact hb
      · rw [if_neg ht]
        have := next_rem h.len ht
        exact hb.grow (lexAll_grows f _ hr.1.un (by omega))
    · by_cases ht : (nextToken s).1.ty = .EOF_TOKEN
      · right
        have hm := reads_eof hrd (by rw [← hh.ty]; exact ht)
        subst hm
        exact ⟨[], hs.tokens .eof⟩
      · rw [if_neg ht]
        have hlt := next_rem h.len ht
        have hd' : Rd (nextToken s).2 3 rest (nextToken s).2 := by rw [he]; exact warned_rd hd
        have h12' := fun hm : 12 ∈ rest => (hrd.sub 12 hm).elim (by decide) (fun hm => h12 (hs.sub hm))
        rcases ih (nextToken s).2 rest (by omega) h12' hd' with hb | ⟨ls, hls⟩
        · left
          obtain ⟨es, h1, h2⟩ := hb
          refine ⟨es ++ (nextToken s).2.err.take ((nextToken s).2.err.length - s.err.length), ?_, ?_⟩
          · have : (nextToken s).2.err =
              (nextToken s).2.err.take ((nextToken s).2.err.length - s.err.length) ++ s.err := by
              obtain ⟨l, hl⟩ := hr.1.reach.err
              rw [hl]
              simp
            rw [List.append_assoc, ← this]
            exact h1
          · obtain ⟨r, hr, hre⟩ := h2
            exact ⟨r, by simp [hr], hre⟩
        · right
          exact ⟨_, hs.tokens (.token hrd (by rw [← hh.ty]; exact ht) hls)⟩

/-- C47: a text that is made of tokens is read as these tokens; nothing but their warnings is
reported, nothing is thrown. -/
theorem C47_complete (cs : List Nat) (inp : Str) (h : Utf8 cs inp) (hc : ∀ c ∈ cs, c ≠ 0 ∧ c ≠ 0xFFFD)
    (ls : List Lexeme) (ht : Tokens (newlines cs) ls) (f : Nat) (hf : inp.length < f) :
    HoldAll (lexAll f (init inp)).1 ls ∧
    (lexAll f (init inp)).2.err = (ls.filterMap (·.warn)).reverse ∧
    (lexAll f (init inp)).2.exn = none ∧ (lexAll f (init inp)).2.ub = false := by
  obtain ⟨ts, s1, e, hh, err, exn, ub⟩ := lexAll_reads ht _ (.refl _) f (init inp)
    (by show 0 + inp.length < f; omega) ((Rd.of_text rfl rfl h hc).mono (by omega))
  rw [e]
  exact ⟨hh, by rw [err]; exact List.append_nil _, exn, ub⟩

/-- C47: a text that is read without an error is made of tokens. -/
theorem C47_sound (cs : List Nat) (inp : Str) (h : Utf8 cs inp) (hc : ∀ c ∈ cs, c ≠ 0 ∧ c ≠ 0xFFFD)
    (f : Nat) (hf : inp.length < f) (he : ∀ r ∈ (lexAll f (init inp)).2.err, r.isError = false) :
    ∃ ls, Tokens (newlines cs) ls := by
  rcases lexAll_total f (init inp) (newlines cs) (by show 0 + inp.length < f; omega) (newlines_no12 cs)
    ((Rd.of_text rfl rfl h hc).mono (by omega)) with hb | h
  · obtain ⟨es, h1, r, hr, hre⟩ := hb
    rw [he r (by rw [h1]; simp [hr])] at hre
    cases hre
  · exact h

theorem C47_warnings {l : Lexeme} {w : Rpt} {cs rest : List Nat} (h : Reads cs l rest) (hw : l.warn = some w) :
    w.isError = false := by
  cases h with
  | punctuation =>
    dsimp only at hw
    split at hw
    · cases hw; rfl
    · cases hw
  | number =>
    exfalso
    revert hw
    unfold numberLexeme
    repeat' split
    all_goals exact fun h => by cases h
  | lineComment => cases hw; rfl
  | _ => cases hw

theorem tokens_warn {cs : List Nat} {ls : List Lexeme} (h : Tokens cs ls) :
    ∀ w ∈ ls.filterMap (·.warn), w.isError = false := by
  induction h with
  | eof => intro w hw; cases hw
  | skip _ _ ih => exact ih
  | token hr _ _ ih =>
    intro w hw
    rw [List.mem_filterMap] at hw
    obtain ⟨m, hm, hw⟩ := hw
    rcases List.mem_cons.1 hm with rfl | hm
    · exact C47_warnings hr hw
    · exact ih w (List.mem_filterMap.2 ⟨m, hm, hw⟩)

/-- C47: an error is reported exactly when the text is not made of tokens. -/
theorem C47_errors (cs : List Nat) (inp : Str) (h : Utf8 cs inp) (hc : ∀ c ∈ cs, c ≠ 0 ∧ c ≠ 0xFFFD)
    (f : Nat) (hf : inp.length < f) :
    (∃ r ∈ (lexAll f (init inp)).2.err, r.isError = true) ↔ ¬ ∃ ls, Tokens (newlines cs) ls := by
  constructor
  · rintro ⟨r, hr, hre⟩ ⟨ls, hl⟩
    obtain ⟨_, e, _⟩ := C47_complete cs inp h hc ls hl f hf
    rw [e] at hr
    rw [tokens_warn hl r (by simpa using hr)] at hre
    cases hre
  · intro hn
    apply Classical.byContradiction
    intro hr
    apply hn
    refine C47_sound cs inp h hc f hf fun r hm => ?_
    cases hre : r.isError with
    | false => rfl
    | true => exact absurd ⟨r, hm, hre⟩ hr

/-- C47: the grammar is not ambiguous: a text starts with one token only. -/
theorem C47_unambiguous (cs : List Nat) (hv : ∀ c ∈ cs, Valid c ∧ c ≠ 0xFFFD ∧ c ≠ 12 ∧ c ≠ 13)
    (l m : Lexeme) (r1 r2 : List Nat) (h1 : Reads cs l r1) (h2 : Reads cs m r2) : l = m ∧ r1 = r2 := by
  have hn : newlines cs = cs := by
    clear h1 h2
    induction cs with
    | nil => rfl
    | cons c cs ih =>
      obtain ⟨_, _, h12, h13⟩ := hv c (by simp)
      rw [newlines_other cs h13 h12, ih (fun c hc => hv c (by simp [hc]))]
  have hr := Rd.of_text (s := init (encode cs)) rfl rfl (encode_utf8 fun c hc => ⟨valid_enc (hv c hc).1, (hv c hc).1.2.2⟩)
    (fun c hc => ⟨(hv c hc).1.2.2, (hv c hc).2.1⟩)
  rw [hn] at hr
  obtain ⟨c, s, e, ha⟩ := lexStep_at hr (by omega)
  obtain ⟨t1, s1, e1, hh1, _, d1⟩ := lexChar_reads h1 ha
  obtain ⟨t2, s2, e2, hh2, _, d2⟩ := lexChar_reads h2 ha
  have e3 : (some t1, warned l.warn s1) = (some t2, warned m.warn s2) := e1.symm.trans e2
  obtain ⟨ht, hs⟩ := Prod.mk.inj e3
  cases ht
  have hw : l.warn = m.warn := by
    have := congrArg LS.err hs
    rw [warned_err, warned_err, d1.err, d2.err] at this
    have := List.append_cancel_right this
    cases h1 : l.warn <;> cases h2 : m.warn <;> simp_all
  refine ⟨holds_inj hh1 hh2 hw, ?_⟩
  obtain ⟨raw1, u1, _, q1⟩ := d1.raw
  obtain ⟨raw2, u2, _, q2⟩ := d2.raw
  have hin : s1.inp = s2.inp ∧ s1.un = s2.un := by
    rw [hw] at hs
    cases hm : m.warn with
    | none => rw [hm] at hs; have hs : s1 = s2 := hs; rw [hs]; exact ⟨rfl, rfl⟩
    | some w =>
      rw [hm] at hs
      have := congrArg LS.inp hs
      have := congrArg LS.un hs
      exact ⟨by assumption, by assumption⟩
  rw [q1, q2, hin.2]
  rw [hin.1] at u1
  rw [utf8_inj u1 u2]

/-! ### Cases -/

theorem ascii_text : ∀ t : Str, (∀ c ∈ t, c < 0x80) → Utf8 t t
  | [], _ => .nil
  | c :: t, h => by
    have := Utf8.cons (.one c (h c (by simp))) (ascii_text t (fun x hx => h x (by simp [hx])))
    simpa using this

/-- A style sheet that is made of tokens. -/
example : ∃ ls, Tokens (newlines b!"/* x */ a:hover { width : 3.5em; } // end") ls :=
  C47_sound _ b!"/* x */ a:hover { width : 3.5em; } // end" (ascii_text _ (by decide)) (by decide) 50 (by decide)
    (by decide +kernel)

/-- And one that is not. -/
example : ¬ ∃ ls, Tokens (newlines b!"a { b: \"c }") ls :=
  (C47_errors _ b!"a { b: \"c }" (ascii_text _ (by decide)) (by decide) 50 (by decide)).1
    (by decide +kernel)

example : Tokens b!"-.5" [numberLexeme true true [] [53] true 0 [] false] := by
  refine .token (b := []) ?_ (by decide) .eof
  refine .number (cs1 := [46, 53]) (cs2 := [46, 53]) (cs3 := []) (cs4 := []) ?_ (.minus _) ⟨rfl, by simp, ?_⟩ ?_ ?_ ?_ ?_
  · exact .inr (.inr ⟨45, _, rfl, .inr rfl, .inr ⟨_, rfl, 53, [], rfl, by unfold Dec; omega⟩⟩)
  · rw [nextIs_cons]; unfold Dec; omega
  · intro k h1 h2; simp at h1; omega
  · exact .digits ⟨rfl, by intro d hd; simp at hd; unfold Dec; omega, nextIs_nil⟩ (by decide)
  · exact .no (by rintro ⟨_, _, h, _⟩; cases h)
  · exact .no nextIs_nil

/-- C47, what is read differs from CSS: `%` loses the next character, `\fffd` is lost, `url()`
does not end, six digits of an escape keep the space, an integer over 2^64 gets another value. -/
theorem C47_css_differences :
    (lexAll 9 (init b!"%1")).1.map (·.ty) = [.MODULO] ∧ (lexAll 9 (init b!"%1")).2.err = [] ∧
    (lexAll 9 (init b!"'a\\fffd'")).1.map (·.str) = [b!"a"] ∧ (lexAll 9 (init b!"'a\\fffd'")).2.err = [] ∧
    (lexAll 9 (init b!"url()a)")).1.map (·.str) = [b!")a"] ∧ (lexAll 9 (init b!"url()a)")).2.err = [] ∧
    (lexAll 12 (init b!"'\\000041 b'")).1.map (·.str) = [b!"A b"] ∧
    (lexAll 12 (init b!"'\\41 b'")).1.map (·.str) = [b!"Ab"] ∧
    (lexAll 30 (init b!"20000000000000000000")).1.map (·.int) = [1553255926290448384] ∧
    (lexAll 30 (init b!"20000000000000000000")).2.err = [] := by
  decide +kernel

end Csspp.Lex
