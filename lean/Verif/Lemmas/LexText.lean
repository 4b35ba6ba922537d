import Verif.Props.Lexer

/-!
Reading a known text: the vocabulary and the lemmas used by the round trip theorems (C08 to C12).
-/

namespace Csspp.Spec

/-- The characters a reader sees: every line terminator (CR LF, CR, FF, LF) is one LF
(CSS Syntax, preprocessing the input). -/
def newlines : List Nat → List Nat
  | [] => []
  | 13 :: 10 :: t => 10 :: newlines t
  | 13 :: t => 10 :: newlines t
  | 12 :: t => 10 :: newlines t
  | c :: t => c :: newlines t

/-- A character without special meaning for the lexer's input: neither NUL nor U+FFFD. -/
def Readable (c : Nat) : Prop := c ≠ 0 ∧ c ≠ 0xFFFD

end Csspp.Spec

namespace Csspp.Lex
open Csspp.Utf8 Csspp.Spec

/-- The characters the lexer has still to read are those of the text `cs`: first the ones pushed
back, then the ones in the stream. -/
def LeftToRead (s : LS) (cs : List Nat) : Prop :=
  ∃ raw, Utf8 raw s.inp ∧ s.un ++ newlines raw = newlines cs

/-- `Rd s0 k cs s`: the state s will read the characters cs, at most k of them are pushed back, and
nothing was reported since s0. -/
structure Rd (s0 : LS) (k : Nat) (cs : List Nat) (s : LS) : Prop where
  len : s.un.length ≤ k
  un : ∀ c ∈ s.un, Readable c ∧ c ≤ 0x10FFFF
  raw : ∃ raw, Utf8 raw s.inp ∧ (∀ c ∈ raw, Readable c) ∧ cs = s.un ++ newlines raw
  err : s.err = s0.err
  exn : s.exn = s0.exn
  ub : s.ub = s0.ub
  start : s.start = s0.start

theorem newlines_other {c : Nat} (t : List Nat) (h1 : c ≠ 13) (h2 : c ≠ 12) :
    newlines (c :: t) = c :: newlines t := by
  rw [newlines]
  · intro _ h; cases h; omega
  · intro h; omega
  · intro h; omega

theorem charBytes_le {c : Nat} {b : Str} (h : CharBytes c b) : c ≤ 0x10FFFF := by
  rcases charBytes_high h with ⟨a, _, rfl, ha⟩ | ⟨_, _, _, _, _, _, _, _, h⟩
  · omega
  · exact h

theorem utf8_le {cs : List Nat} {bs : Str} (h : Utf8 cs bs) : ∀ c ∈ cs, c ≤ 0x10FFFF := by
  induction h with
  | nil => intro c hc; cases hc
  | cons hc _ ih =>
    intro x hx
    rcases List.mem_cons.1 hx with rfl | hx
    · exact charBytes_le hc
    · exact ih x hx

theorem utf8_append {a b : List Nat} {x y : Str} (h1 : Utf8 a x) (h2 : Utf8 b y) :
    Utf8 (a ++ b) (x ++ y) := by
  induction h1 with
  | nil => exact h2
  | cons hc _ ih =>
    rw [List.cons_append, List.append_assoc]
    exact .cons hc ih

theorem newlines_mem (cs : List Nat) : ∀ c ∈ newlines cs, c = 10 ∨ c ∈ cs := by
  intro c hc
  induction cs using newlines.induct with
  | case1 => cases hc
  | case2 t ih =>
    rw [newlines] at hc
    rcases List.mem_cons.1 hc with h | h
    · exact .inl h
    · rcases ih h with h | h
      · exact .inl h
      · exact .inr (by simp [h])
  | case3 t hne ih =>
    rw [newlines] at hc
    · rcases List.mem_cons.1 hc with h | h
      · exact .inl h
      · rcases ih h with h | h
        · exact .inl h
        · exact .inr (by simp [h])
    · exact hne
  | case4 t ih =>
    rw [newlines] at hc
    rcases List.mem_cons.1 hc with h | h
    · exact .inl h
    · rcases ih h with h | h
      · exact .inl h
      · exact .inr (by simp [h])
  | case5 x t h1 h2 h3 ih =>
    rw [newlines_other t h2 h3] at hc
    rcases List.mem_cons.1 hc with h | h
    · exact .inr (by simp [h])
    · rcases ih h with h | h
      · exact .inl h
      · exact .inr (by simp [h])

theorem newlines_length (cs : List Nat) : (newlines cs).length ≤ cs.length := by
  induction cs using newlines.induct with
  | case1 => simp [newlines]
  | case2 t ih => rw [newlines]; simp; omega
  | case3 t hne ih => rw [newlines]; simp; omega; exact hne
  | case4 t ih => rw [newlines]; simp; omega
  | case5 x t h1 h2 h3 ih => rw [newlines_other t h2 h3]; simp; omega

theorem utf8_length {cs : List Nat} {bs : Str} (h : Utf8 cs bs) : cs.length ≤ bs.length := by
  induction h with
  | nil => simp
  | @cons c b cs bs hc _ ih =>
    have : 1 ≤ b.length := by
      rcases charBytes_high hc with ⟨a, rfl, _⟩ | ⟨_, _, rfl, _⟩ <;> simp
    simp; omega

theorem Rd.length {s0 s : LS} {k : Nat} {cs : List Nat} (h : Rd s0 k cs s) : cs.length ≤ s.rem := by
  obtain ⟨raw, h1, _, h3⟩ := h.raw
  rw [h3]
  have := newlines_length raw
  have := utf8_length h1
  simp [LS.rem]; omega

theorem Rd.fuel {s0 s : LS} {k : Nat} {cs : List Nat} (h : Rd s0 k cs s) : cs.length < s.fuel := by
  have := h.length
  unfold LS.fuel; omega

theorem Rd.mem {s0 s : LS} {k : Nat} {cs : List Nat} (h : Rd s0 k cs s) :
    ∀ c ∈ cs, Readable c ∧ c ≤ 0x10FFFF := by
  obtain ⟨raw, h1, h2, h3⟩ := h.raw
  intro c hc
  rw [h3] at hc
  rcases List.mem_append.1 hc with hc | hc
  · exact h.un c hc
  · rcases newlines_mem raw c hc with rfl | hc
    · unfold Readable; omega
    · exact ⟨h2 c hc, utf8_le h1 c hc⟩

theorem Rd.mono {s0 s : LS} {k k' : Nat} {cs : List Nat} (h : Rd s0 k cs s) (hk : k ≤ k') :
    Rd s0 k' cs s := ⟨Nat.le_trans h.len hk, h.un, h.raw, h.err, h.exn, h.ub, h.start⟩

theorem Rd.left {s0 s : LS} {k : Nat} {cs : List Nat} (h : Rd s0 k (newlines cs) s) :
    LeftToRead s cs := by
  obtain ⟨raw, h1, _, h3⟩ := h.raw
  exact ⟨raw, h1, h3.symm⟩

/-- The start of a round trip. -/
theorem Rd.of_text {s : LS} {cs : List Nat} {bs : Str} (hu : s.un = []) (hi : s.inp = bs)
    (h : Utf8 cs bs) (hr : ∀ c ∈ cs, Readable c) : Rd s 0 (newlines cs) s := by
  refine ⟨by rw [hu]; simp, by rw [hu]; simp, ⟨cs, by rw [hi]; exact h, hr, by rw [hu]; rfl⟩,
    rfl, rfl, rfl, rfl⟩

theorem Rd.start' {s : LS} {cs : List Nat} {k : Nat} (h : Rd s k cs s) :
    Rd { s with start := s.pos } k cs { s with start := s.pos } :=
  ⟨h.len, h.un, h.raw, rfl, rfl, rfl, rfl⟩

theorem charBytes_ascii {c : Nat} {b : Str} (h : CharBytes c b) (hc : c < 0x80) : b = [c] := by
  rcases charBytes_high h with ⟨a, rfl, rfl, _⟩ | ⟨_, _, _, _, _, _, _, h, _⟩
  · rfl
  · omega

theorem Rd.getc_nil {s0 s : LS} {k : Nat} (h : Rd s0 k [] s) : getc s = (eof, s) := by
  obtain ⟨raw, h1, _, h3⟩ := h.raw
  have hu : s.un = [] := by
    cases hu : s.un with
    | nil => rfl
    | cons a t => rw [hu] at h3; cases h3
  rw [hu] at h3
  have hr : raw = [] := by
    cases raw with
    | nil => rfl
    | cons a t =>
      exfalso
      have h3 : [] = newlines (a :: t) := h3
      rw [newlines.eq_def] at h3
      split at h3 <;> cases h3
      rename_i h; cases h
  subst hr
  have hi : s.inp = [] := by
    generalize hx : s.inp = x at h1
    cases h1
    rfl
  exact (getc_amount s).2.2.2.1 hu hi

theorem Rd.getc {s0 s : LS} {k c : Nat} {cs : List Nat} (h : Rd s0 k (c :: cs) s) :
    ∃ s', Lex.getc s = (c, s') ∧ Rd s0 (k - 1) cs s' := by
  obtain ⟨raw, h1, h2, h3⟩ := h.raw
  cases hu : s.un with
  | cons a un =>
    rw [hu, List.cons_append] at h3
    obtain ⟨rfl, rfl⟩ := List.cons.inj h3
    have ha := h.un c (by rw [hu]; simp)
    refine ⟨{ s with un := un }, ?_, ?_, ?_, ⟨raw, h1, h2, rfl⟩, h.err, h.exn, h.ub, h.start⟩
    · unfold Lex.getc
      rw [hu]
      dsimp only
      rw [if_neg ha.1.1]
    · have := h.len; rw [hu] at this; simp at this ⊢; omega
    · intro x hx
      exact h.un x (by rw [hu]; simp [hx])
  | nil =>
    rw [hu, List.nil_append] at h3
    cases raw with
    | nil => cases h3
    | cons x raw =>
      generalize hinp : s.inp = inp at h1
      cases h1 with
      | @cons _ b _ bs hb hbs =>
        rw [getc_utf8 hu hinp hb hbs]
        have hx := h2 x (by simp)
        have h2' : ∀ c ∈ raw, Readable c := fun c hc => h2 c (by simp [hc])
        have mk : ∀ (p : Pos) (raw' : List Nat) (bs' : Str), Utf8 raw' bs' →
            (∀ c ∈ raw', Readable c) → cs = newlines raw' →
            Rd s0 (k - 1) cs { s with inp := bs', pos := p } := by
          intro p raw' bs' e1 e2 e3
          exact ⟨by show s.un.length ≤ _; rw [hu]; simp, h.un, ⟨raw', e1, e2, by
            show cs = s.un ++ _; rw [hu]; exact e3⟩, h.err, h.exn, h.ub, h.start⟩
        unfold endOfLine
        by_cases h13 : x = 13
        · rw [if_pos h13]
          subst h13
          split
          · rename_i rest hr
            dsimp only at hr
            subst hr
            obtain ⟨raw', rfl, hU⟩ := utf8_tail_ascii (by omega) hbs
            rw [newlines] at h3
            obtain ⟨rfl, rfl⟩ := List.cons.inj h3
            exact ⟨_, rfl, mk _ _ _ hU (fun c hc => h2' c (by simp [hc])) rfl⟩
          · rename_i hne
            dsimp only at hne
            have hnr : ∀ t, raw ≠ 10 :: t := by
              intro t ht
              subst ht
              generalize hq : bs = q at hbs
              cases hbs with
              | @cons _ b' _ bs' hb' hbs' =>
                rw [charBytes_ascii hb' (by omega)] at hq
                exact hne _ hq
            have hn : newlines (13 :: raw) = 10 :: newlines raw := by
              rw [newlines]
              intro t ht
              exact hnr t ht
            rw [hn] at h3
            obtain ⟨rfl, rfl⟩ := List.cons.inj h3
            exact ⟨_, rfl, mk _ _ _ hbs h2' rfl⟩
        rw [if_neg h13]
        by_cases h12 : x = 12
        · rw [if_neg (by omega), if_pos h12]
          subst h12
          rw [newlines] at h3
          obtain ⟨rfl, rfl⟩ := List.cons.inj h3
          exact ⟨_, rfl, mk _ _ _ hbs h2' rfl⟩
        rw [newlines_other raw h13 h12] at h3
        obtain ⟨rfl, rfl⟩ := List.cons.inj h3
        by_cases h10 : c = 10
        · rw [if_pos h10]
          exact ⟨_, by rw [h10], mk _ _ _ hbs h2' rfl⟩
        · rw [if_neg h10, if_neg h12, if_neg hx.1]
          exact ⟨_, rfl, mk s.pos _ _ hbs h2' rfl⟩

theorem Rd.unget {s0 s : LS} {k c : Nat} {cs : List Nat} (h : Rd s0 k cs s) (hk : k ≤ 15)
    (hc : Readable c) (hc2 : c ≤ 0x10FFFF) : Rd s0 (k + 1) (c :: cs) (ungetc c s) := by
  have hl := h.len
  have e : ungetc c s = { s with un := c :: s.un } := by
    unfold ungetc
    rw [if_neg (fun h => h.elim (fun h => by unfold eof at h; omega) hc.2),
      if_neg (by omega), if_neg (by omega)]
  rw [e]
  obtain ⟨raw, h1, h2, h3⟩ := h.raw
  refine ⟨by simpa using hl, ?_, ⟨raw, h1, h2, by rw [h3]; rfl⟩, h.err, h.exn, h.ub, h.start⟩
  intro x hx
  rcases List.mem_cons.1 hx with rfl | hx
  · exact ⟨hc, hc2⟩
  · exact h.un x hx

theorem ungetc_eof (s : LS) : ungetc eof s = s := by
  unfold ungetc; rw [if_pos (.inl rfl)]

/-- Reading a character and pushing it back. -/
theorem Rd.look {s0 s : LS} {k : Nat} {cs : List Nat} (h : Rd s0 k cs s) (hk1 : 1 ≤ k) (hk : k ≤ 15) :
    ∃ s', Lex.getc s = (cs.headD eof, s') ∧ Rd s0 k cs (ungetc (cs.headD eof) s') ∧
      Rd s0 (k - 1) cs.tail s' := by
  cases cs with
  | nil =>
    have hu : s.un = [] := by
      obtain ⟨raw, _, _, h3⟩ := h.raw
      cases hu : s.un with
      | nil => rfl
      | cons a t => rw [hu] at h3; cases h3
    refine ⟨s, h.getc_nil, ?_, ?_⟩
    · show Rd s0 k [] (ungetc eof s); rw [ungetc_eof]; exact h
    · exact ⟨by rw [hu]; simp, h.un, h.raw, h.err, h.exn, h.ub, h.start⟩
  | cons c t =>
    obtain ⟨s', h1, h2⟩ := h.getc
    have hc := h.mem c (by simp)
    refine ⟨s', h1, ?_, h2⟩
    exact (h2.unget (by omega) hc.1 hc.2).mono (by omega)

theorem put_ok {c : Nat} (hc : Encodable c) (str : Str) (s : LS) :
    put c str s = (str ++ (wctomb c).1, s) := by
  unfold put
  rw [(C01_roundtrip c hc).1]
  rfl

theorem charBytes_unique {c : Nat} {b : Str} (h : CharBytes c b) (hc : Encodable c) (h0 : c ≠ 0) :
    (wctomb c).1 = b := by
  have h1 := (wctomb_ok hc h0).2
  have hd1 := C01_decode c _ h1
  unfold wctomb at h1 ⊢
  cases h with
  | one _ h => rw [if_pos h, if_neg h0]
  | two a b ha hb =>
    unfold Follow at hb
    rw [if_neg (by omega), if_pos (by omega)]
    dsimp only
    rw [show 0xC0 + (64 * (a - 0xC0) + (b - 0x80)) / 64 = a by omega,
      show 0x80 + (64 * (a - 0xC0) + (b - 0x80)) % 64 = b by omega]
  | three a b c ha hb hc' h2 h3 =>
    unfold Follow at hb hc'
    unfold Encodable Scalar Nonchar at hc
    rw [if_neg (by omega), if_neg (by omega), if_pos (by omega), if_neg (by omega), if_neg (by omega)]
    dsimp only
    rw [show 0xE0 + (4096 * (a - 0xE0) + 64 * (b - 0x80) + (c - 0x80)) / 4096 = a by omega,
      show 0x80 + (4096 * (a - 0xE0) + 64 * (b - 0x80) + (c - 0x80)) / 64 % 64 = b by omega,
      show 0x80 + (4096 * (a - 0xE0) + 64 * (b - 0x80) + (c - 0x80)) % 64 = c by omega]
  | four a b c d ha hb hc' hd h2 h3 =>
    unfold Follow at hb hc' hd
    unfold Encodable Scalar Nonchar at hc
    rw [if_neg (by omega), if_neg (by omega), if_neg (by omega), if_pos (by omega), if_neg (by omega)]
    dsimp only
    rw [show 0xF0 + (262144 * (a - 0xF0) + 4096 * (b - 0x80) + 64 * (c - 0x80) + (d - 0x80)) / 262144 = a by omega,
      show 0x80 + (262144 * (a - 0xF0) + 4096 * (b - 0x80) + 64 * (c - 0x80) + (d - 0x80)) / 4096 % 64 = b by omega,
      show 0x80 + (262144 * (a - 0xF0) + 4096 * (b - 0x80) + 64 * (c - 0x80) + (d - 0x80)) / 64 % 64 = c by omega,
      show 0x80 + (262144 * (a - 0xF0) + 4096 * (b - 0x80) + 64 * (c - 0x80) + (d - 0x80)) % 64 = d by omega]

/-- Encoding the characters of a text one by one gives the text. -/
def encode (cs : List Nat) : Str := cs.flatMap (fun c => (wctomb c).1)

theorem utf8_encode {cs : List Nat} {bs : Str} (h : Utf8 cs bs) (hc : ∀ c ∈ cs, Encodable c ∧ c ≠ 0) :
    encode cs = bs := by
  induction h with
  | nil => rfl
  | @cons c b cs bs hb _ ih =>
    have h1 := hc c (by simp)
    have e : encode (c :: cs) = (wctomb c).1 ++ encode cs := rfl
    rw [e, charBytes_unique hb h1.1 h1.2, ih (fun x hx => hc x (by simp [hx]))]

theorem encode_utf8 {cs : List Nat} (hc : ∀ c ∈ cs, Encodable c ∧ c ≠ 0) : Utf8 cs (encode cs) := by
  induction cs with
  | nil => exact .nil
  | cons c cs ih =>
    have h1 := hc c (by simp)
    exact .cons (wctomb_ok h1.1 h1.2).2 (ih (fun x hx => hc x (by simp [hx])))

theorem newlines_plain {cs rest : List Nat} (h : ∀ c ∈ cs, c ≠ 13 ∧ c ≠ 12) :
    newlines (cs ++ rest) = cs ++ newlines rest := by
  induction cs with
  | nil => rfl
  | cons c cs ih =>
    have hc := h c (by simp)
    rw [List.cons_append, newlines_other _ hc.1 hc.2, ih (fun x hx => h x (by simp [hx]))]
    rfl

/-- One step of next_token() that finds a token. -/
theorem nextToken_step {s : LS} {t : Tok} {s' : LS} (h : lexStep s = (some t, s')) :
    nextToken s = (t, s') := by
  unfold nextToken LS.fuel
  unfold lexLoop
  rw [h]

end Csspp.Lex
