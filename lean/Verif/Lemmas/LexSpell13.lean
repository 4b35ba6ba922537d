import Verif.Lemmas.LexSpell12

/-! What is left after a token is part of the text; decoding is unambiguous. -/

namespace Csspp.Lex
open Csspp.Utf8 Csspp.Spec

/-- Every character of `rest` is one of `cs`. -/
theorem _root_.Csspp.Spec.Escape.sub {cs rest : List Nat} {c : Nat} (h : Escape cs c rest) : rest ⊆ cs := by
  intro x hx
  cases h <;> simp [hx]

theorem _root_.Csspp.Spec.NameTail.sub {cs vs rest : List Nat} {cut : Bool} (h : NameTail cs vs cut rest) :
    rest ⊆ cs := by
  induction h with
  | stop => exact fun _ h => h
  | char _ _ _ ih => exact fun x hx => List.mem_cons_of_mem _ (ih hx)
  | escape he _ _ _ ih => exact fun x hx => List.mem_cons_of_mem _ (he.sub (ih hx))
  | lost he => exact fun x hx => List.mem_cons_of_mem _ (he.sub hx)

theorem _root_.Csspp.Spec.NameBody.sub {cs vs rest : List Nat} {cut : Bool} (h : NameBody cs vs cut rest) :
    rest ⊆ cs := by
  cases h with
  | char _ _ ht => exact fun x hx => List.mem_cons_of_mem _ (ht.sub hx)
  | escape he _ _ ht => exact fun x hx => List.mem_cons_of_mem _ (he.sub (ht.sub hx))
  | lost he ht => exact fun x hx => List.mem_cons_of_mem _ (he.sub (ht.sub hx))

theorem _root_.Csspp.Spec.Name.sub {cs vs rest : List Nat} {cut : Bool} (h : Name cs vs cut rest) :
    rest ⊆ cs := by
  cases h with
  | dash h => exact fun x hx => List.mem_cons_of_mem _ (h.sub hx)
  | plain h _ => exact h.sub

theorem _root_.Csspp.Spec.Quoted.sub {q : Nat} {cs vs rest : List Nat} (h : Quoted q cs vs rest) : rest ⊆ cs := by
  induction h with
  | close => exact fun x hx => List.mem_cons_of_mem _ hx
  | char _ _ _ _ _ ih => exact fun x hx => List.mem_cons_of_mem _ (ih hx)
  | newline _ ih => exact fun x hx => List.mem_cons_of_mem _ (List.mem_cons_of_mem _ (ih hx))
  | escape he _ _ _ ih => exact fun x hx => List.mem_cons_of_mem _ (he.sub (ih hx))
  | lost he _ ih => exact fun x hx => List.mem_cons_of_mem _ (he.sub (ih hx))

theorem _root_.Csspp.Spec.UrlBody.sub {cs us rest : List Nat} (h : UrlBody cs us rest) : rest ⊆ cs := by
  intro x hx
  cases h with
  | @quoted b1 b2 cs _ _ q h1 hq h h2 =>
    have := h.sub (a := x) (by simp [hx])
    simp [this]
  | plain => simp [hx]

theorem _root_.Csspp.Spec.Lines.sub {cs vs rest : List Nat} (h : Spec.Lines cs vs rest) : rest ⊆ cs := by
  induction h with
  | eof => exact fun _ h => h
  | stop => exact fun _ h => h
  | char _ _ _ ih => exact fun x hx => List.mem_cons_of_mem _ (ih hx)
  | joinBlank _ _ ih =>
    intro x hx
    simp [ih hx]
  | join _ _ ih =>
    intro x hx
    simp [ih hx]

theorem _root_.Csspp.Spec.Sign.sub {cs rest : List Nat} {a b : Bool} (h : Sign cs a b rest) : rest ⊆ cs := by
  intro x hx
  cases h <;> simp [hx]

theorem _root_.Csspp.Spec.DigitRun.sub {cs ds rest : List Nat} (h : DigitRun cs ds rest) : rest ⊆ cs := by
  obtain ⟨rfl, _⟩ := h
  intro x hx; simp [hx]

theorem _root_.Csspp.Spec.Fraction.sub {cs fr rest : List Nat} {b : Bool} (h : Fraction cs fr b rest) : rest ⊆ cs := by
  cases h with
  | digits h _ => exact fun x hx => List.mem_cons_of_mem _ (h.sub hx)
  | no => exact fun _ h => h

theorem _root_.Csspp.Spec.Exponent.sub {cs rest : List Nat} {e : Int} (h : Exponent cs e rest) : rest ⊆ cs := by
  cases h with
  | digits _ hs h _ _ => exact fun x hx => List.mem_cons_of_mem _ (hs.sub (h.sub hx))
  | no => exact fun _ h => h

theorem _root_.Csspp.Spec.Dimension.sub {cs dim rest : List Nat} {b : Bool} (h : Dimension cs dim b rest) :
    ∀ c ∈ rest, c = 45 ∨ c ∈ cs := by
  intro x hx
  cases h with
  | percent => right; simp [hx]
  | name _ h _ => exact .inr (h.sub hx)
  | dash h =>
    rcases List.mem_cons.1 hx with rfl | hx
    · exact .inl rfl
    · exact .inr (h.sub hx)
  | no => exact .inr hx

theorem _root_.Csspp.Spec.Range.sub {cs rest : List Nat} {a b : Nat} (h : Range cs a b rest) : rest ⊆ cs := by
  intro x hx
  cases h <;> simp [hx]

theorem _root_.Csspp.Spec.CComment.sub {cs body rest : List Nat} (h : CComment cs body rest) : rest ⊆ cs := by
  obtain ⟨rfl, _⟩ := h
  intro x hx; simp [hx]

theorem _root_.Csspp.Spec.LineComment.sub {cs body rest : List Nat} (h : LineComment cs body rest) : rest ⊆ cs := by
  obtain ⟨b, t, rfl, _, _, h⟩ := h
  intro x hx
  have := h.sub hx
  simp [this]

theorem _root_.Csspp.Spec.Dropped.sub {cs rest : List Nat} (h : Dropped cs rest) : rest ⊆ cs := by
  cases h with
  | comment h => exact h.sub
  | lineComment h => exact h.sub

theorem _root_.Csspp.Spec.Reads.sub {cs rest : List Nat} {l : Lexeme} (h : Reads cs l rest) :
    ∀ c ∈ rest, c = 45 ∨ c ∈ cs := by
  intro x hx
  cases h with
  | eof => exact .inr hx
  | punctuation => right; simp [hx]
  | modulo => exact .inr (List.mem_cons_of_mem _ (List.mem_of_mem_tail hx))
  | spaces => right; simp [hx]
  | string _ h => exact .inr (List.mem_cons_of_mem _ (h.sub hx))
  | identifier _ h _ => exact .inr (h.sub hx)
  | function _ h _ => exact .inr (h.sub (List.mem_cons_of_mem _ hx))
  | url _ h _ hb => exact .inr (h.sub (List.mem_cons_of_mem _ (hb.sub hx)))
  | atKeyword h => exact .inr (List.mem_cons_of_mem _ (h.sub hx))
  | placeholder _ h _ => exact .inr (List.mem_cons_of_mem _ (h.sub hx))
  | placeholderFunction _ h _ => exact .inr (List.mem_cons_of_mem _ (h.sub (List.mem_cons_of_mem _ hx)))
  | placeholderUrl _ h _ hb => exact .inr (List.mem_cons_of_mem _ (h.sub (List.mem_cons_of_mem _ (hb.sub hx))))
  | hash h _ => exact .inr (List.mem_cons_of_mem _ (h.sub hx))
  | variableName => right; simp [hx]
  | variableFunction => right; simp [hx]
  | number _ h1 h2 _ h3 h4 h5 =>
    rcases h5.sub x hx with h | h
    · exact .inl h
    · exact .inr (h1.sub (h2.sub (h3.sub (h4.sub h))))
  | range _ h => exact .inr (List.mem_cons_of_mem _ (List.mem_cons_of_mem _ (h.sub hx)))
  | comment h => exact .inr (h.sub hx)
  | lineComment h => exact .inr (h.sub hx)

theorem newlines_no12 (cs : List Nat) : 12 ∉ newlines cs := by
  induction cs using newlines.induct with
  | case1 => simp [newlines]
  | case2 t ih => rw [newlines]; simp [ih]
  | case3 t hne ih => rw [newlines]; simp [ih]; exact hne
  | case4 t ih => rw [newlines]; simp [ih]
  | case5 x t h1 h2 h3 ih => rw [newlines_other t h2 h3]; simp [ih]; exact fun h => h3 h.symm

/-! ### One text has one list of characters -/

theorem charBytes_prefix {c d : Nat} {a b x y : Str} (h1 : CharBytes c a) (h2 : CharBytes d b)
    (h : a ++ x = b ++ y) : c = d ∧ a = b ∧ x = y := by
  cases h1 <;> cases h2 <;>
    simp only [List.cons_append, List.nil_append, List.cons.injEq] at h <;>
    first
    | (refine ⟨?_, ?_, ?_⟩ <;> simp_all; done)
    | (exfalso; omega)

theorem utf8_inj {a b : List Nat} {bs : Str} (h1 : Utf8 a bs) (h2 : Utf8 b bs) : a = b := by
  induction h1 generalizing b with
  | nil =>
    generalize he : ([] : Str) = e at h2
    cases h2 with
    | nil => rfl
    | cons hc _ => cases hc <;> cases he
  | cons hc h ih =>
    generalize he : (_ ++ _ : Str) = e at h2
    cases h2 with
    | nil => cases hc <;> cases he
    | cons hd h' =>
      obtain ⟨rfl, _, e⟩ := charBytes_prefix hc hd he
      subst e
      rw [ih h']

theorem holds_inj {t : Tok} {l m : Lexeme} (h1 : Holds t l) (h2 : Holds t m) (hw : l.warn = m.warn) : l = m := by
  obtain ⟨a1, a2, a3, a4, a5, a6⟩ := h1
  obtain ⟨b1, b2, b3, b4, b5, b6⟩ := h2
  cases l; cases m
  have e1 := utf8_inj a2 b2
  have e2 := utf8_inj a3 b3
  simp only at *
  subst e1 e2
  simp_all

/-! ### next_token() -/

theorem Rd.self {s0 s : LS} {k : Nat} {cs : List Nat} (h : Rd s0 k cs s) : Rd s k cs s :=
  ⟨h.len, h.un, h.raw, rfl, rfl, rfl, rfl⟩

/-- The state s with the message w, if any. -/
def warned (w : Option Rpt) (s : LS) : LS := match w with | none => s | some w => s.report w

/-- What next_token() does: an error is reported or the token is the one of the text. -/
inductive Next (s : LS) (cs : List Nat) (r : Tok × LS) : Prop
  | fail (h : Fails s r.2)
  | ok {mid rest : List Nat} {l : Lexeme} {s1 : LS} (hs : Skips cs mid) (hr : Reads mid l rest)
      (hh : Holds r.1 l) (he : r.2 = warned l.warn s1) (err : s1.err = s.err) (exn : s1.exn = s.exn)
      (ub : s1.ub = s.ub) (hd : Rd s1 3 rest s1)

theorem lexLoop_next : ∀ (f : Nat) (s : LS) (cs : List Nat), s.rem < f → 12 ∉ cs → Rd s 3 cs s →
    Next s cs (lexLoop f s) := by
  intro f
  induction f with
  | zero => intro s cs h; omega
  | succ f ih =>
    intro s cs hf h12 h
    obtain ⟨c, s1, e, ha⟩ := lexStep_at h (Nat.le_refl _)
    have hself : Res s 3 s.rem s := ⟨.refl, h.len, Nat.le_refl _⟩
    rcases lexChar_total h12 ha with hbad | ⟨l, rest, hr⟩ | ⟨rest, hdr⟩
    · -- an error
      refine .fail ?_
      have hbad : Fails s (lexStep s).2 := by rw [e]; exact hbad
      unfold lexLoop
      rcases hl : lexStep s with ⟨_ | t1, s2⟩
      · rw [hl] at hbad
        dsimp only at hbad ⊢
        obtain ⟨h1, h2⟩ := lexStep_res hself hl
        have hlt : s2.rem < s.rem := by
          rcases h2 with ⟨t, ht, _⟩ | h2
          · cases ht
          · exact h2
        have h3 := (lexLoop_res (s0 := s2) f s2 s2.rem (by omega) ⟨.refl, h1.un, Nat.le_refl _⟩ _ _ rfl).1.reach.err
        obtain ⟨l, hl⟩ := h3
        exact hbad.grow ⟨l, hl.symm⟩
      · rw [hl] at hbad
        exact hbad
    · -- a token
      obtain ⟨t, s2, e2, hh, _, hd⟩ := lexChar_reads hr ha
      have : lexLoop (f + 1) s = (t, warned l.warn s2) := by
        unfold lexLoop
        rw [e, e2]
        rfl
      rw [this]
      exact .ok (.refl cs) hr hh rfl hd.err hd.exn hd.ub hd.self
    · -- a comment
      obtain ⟨s2, e2, hd⟩ := lexChar_dropped hdr ha
      have e3 : lexStep s = (none, s2) := e.trans e2
      obtain ⟨h1, h2⟩ := lexStep_res hself e3
      have hlt : s2.rem < s.rem := by
        rcases h2 with ⟨t, ht, _⟩ | h2
        · cases ht
        · exact h2
      have : lexLoop (f + 1) s = lexLoop f s2 := by
        conv => lhs; unfold lexLoop
        rw [e3]
      rw [this]
      rcases ih s2 rest (by omega) (fun hm => h12 (hdr.sub hm)) hd.self with hb | ⟨hs, hr, hh, he, err, exn, ub, hd'⟩
      · refine .fail ?_
        obtain ⟨es, h1, h2⟩ := hb
        have : s2.err = s.err := hd.err
        exact ⟨es, by rw [h1, this], h2⟩
      · exact .ok (.step hdr hs) hr hh he (err.trans hd.err) (exn.trans hd.exn) (ub.trans hd.ub) hd'

theorem nextToken_next {s : LS} {cs : List Nat} (h12 : 12 ∉ cs) (h : Rd s 3 cs s) : Next s cs (nextToken s) :=
  lexLoop_next s.fuel s cs (fuel_lt s) h12 h

/-- The same the other way round. -/
theorem lexLoop_reads {mid rest : List Nat} {l : Lexeme} (hr : Reads mid l rest) {cs : List Nat}
    (hs : Skips cs mid) : ∀ (f : Nat) (s : LS), s.rem < f → Rd s 3 cs s →
    ∃ t s1, lexLoop f s = (t, warned l.warn s1) ∧ Holds t l ∧ s1.err = s.err ∧ s1.exn = s.exn ∧ s1.ub = s.ub ∧
      Rd s1 3 rest s1 := by
  induction hs with
  | refl cs =>
    intro f s hf h
    cases f with
    | zero => omega
    | succ f =>
      obtain ⟨c, s1, e, ha⟩ := lexStep_at h (Nat.le_refl _)
      obtain ⟨t, s2, e2, hh, _, hd⟩ := lexChar_reads hr ha
      refine ⟨t, s2, ?_, hh, hd.err, hd.exn, hd.ub, hd.self⟩
      unfold lexLoop
      rw [e, e2]
      rfl
  | step hdr _ ih =>
    intro f s hf h
    cases f with
    | zero => omega
    | succ f =>
      obtain ⟨c, s1, e, ha⟩ := lexStep_at h (Nat.le_refl _)
      obtain ⟨s2, e2, hd⟩ := lexChar_dropped hdr ha
      have e3 : lexStep s = (none, s2) := e.trans e2
      obtain ⟨h1, h2⟩ := lexStep_res (s0 := s) (R := s.rem) ⟨.refl, h.len, Nat.le_refl _⟩ e3
      have hlt : s2.rem < s.rem := by
        rcases h2 with ⟨t, ht, _⟩ | h2
        · cases ht
        · exact h2
      obtain ⟨t, s4, e4, hh, err, exn, ub, hd'⟩ := ih hr f s2 (by omega) hd.self
      refine ⟨t, s4, ?_, hh, err.trans hd.err, exn.trans hd.exn, ub.trans hd.ub, hd'⟩
      conv => lhs; unfold lexLoop
      rw [e3]
      exact e4

end Csspp.Lex
