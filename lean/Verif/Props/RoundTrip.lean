import Verif.Lemmas.LexText
import Verif.Model.AsmText

/-!
C08, C09: what the assembler writes for a string or an identifier is read back by the lexer as
the same string or identifier.
-/

namespace Csspp.Lex
open Csspp.Utf8 Csspp.Spec Csspp.Asm

/-- Encodable characters other than NUL and U+FFFD. -/
def GoodChar (c : Nat) : Prop := Encodable c ∧ c ≠ 0 ∧ c ≠ 0xFFFD

theorem GoodChar.readable {c : Nat} (h : GoodChar c) : Readable c := ⟨h.2.1, h.2.2⟩
theorem GoodChar.le {c : Nat} (h : GoodChar c) : c ≤ 0x10FFFF := by
  have := h.1.1; unfold Scalar at this; omega
theorem GoodChar.ne_eof {c : Nat} (h : GoodChar c) : c ≠ eof := by
  have := h.le; unfold eof; omega

/-! ### Strings -/

/-- The characters of a quoted string. -/
def quotedChars (q : Nat) (cs : List Nat) : List Nat :=
  cs.flatMap (fun c => if c = q then [92, c] else [c])

theorem quotedChars_length (q : Nat) (cs : List Nat) : cs.length ≤ (quotedChars q cs).length := by
  induction cs with
  | nil => simp
  | cons c cs ih =>
    have : quotedChars q (c :: cs) = (if c = q then [92, c] else [c]) ++ quotedChars q cs := rfl
    rw [this]
    split <;> simp <;> omega

theorem lexString_quoted {s0 : LS} (q : Nat) (hq : q = 34 ∨ q = 39) (rest : List Nat) :
    ∀ (cs : List Nat) (f : Nat) (str : Str) (s : LS) (k : Nat), k ≤ 1 →
    (∀ c ∈ cs, GoodChar c ∧ c ≠ 10 ∧ c ≠ 92) →
    Rd s0 k (quotedChars q cs ++ q :: rest) s → cs.length < f →
    ∃ s', lexString q f str s = (str ++ encode cs, s') ∧ Rd s0 0 rest s' := by
  intro cs
  induction cs with
  | nil =>
    intro f str s k hk _ h hf
    obtain ⟨f, rfl⟩ : ∃ g, f = g + 1 := ⟨f - 1, by simp at hf; omega⟩
    obtain ⟨s', h1, h2⟩ := Rd.getc (show Rd s0 k (q :: rest) s from h)
    refine ⟨s', ?_, h2.mono (by omega)⟩
    unfold lexString
    rw [h1]
    dsimp only
    rw [if_neg (by unfold eof; omega), if_neg (by omega), if_pos rfl]
    simp [encode]
  | cons c cs ih =>
    intro f str s k hk hcs h hf
    obtain ⟨f, rfl⟩ : ∃ g, f = g + 1 := ⟨f - 1, by simp at hf; omega⟩
    have hc := hcs c (by simp)
    have hcs' : ∀ c ∈ cs, GoodChar c ∧ c ≠ 10 ∧ c ≠ 92 := fun x hx => hcs x (by simp [hx])
    have hput : ∀ s1, strPut c str s1 = (str ++ (wctomb c).1, s1) := by
      intro s1
      unfold strPut
      rw [if_neg (fun h => h.elim hc.1.ne_eof hc.1.2.2), put_ok hc.1.1]
    have henc : str ++ encode (c :: cs) = str ++ (wctomb c).1 ++ encode cs := by
      simp [encode]
    by_cases hcq : c = q
    · have e : quotedChars q (c :: cs) ++ q :: rest =
          92 :: c :: (quotedChars q cs ++ q :: rest) := by simp [quotedChars, hcq]
      rw [e] at h
      obtain ⟨s1, h1, r1⟩ := h.getc
      obtain ⟨s2, h2, r2⟩ := r1.getc
      have r3 : Rd s0 1 (c :: (quotedChars q cs ++ q :: rest)) (ungetc c s2) :=
        (r2.mono (show k - 1 - 1 ≤ 0 by omega)).unget (by omega) hc.1.readable hc.1.le
      obtain ⟨s4, h4, r4⟩ := r3.getc
      obtain ⟨s', e1, e2⟩ := ih f (str ++ (wctomb c).1) s4 0 (by omega) hcs' r4 (by simp at hf; omega)
      refine ⟨s', ?_, e2⟩
      unfold lexString
      rw [h1]
      dsimp only
      rw [if_neg (by unfold eof; omega), if_neg (by omega), if_neg (by omega), if_pos rfl]
      have hesc : strEscape s1 = (c, s4) := by
        unfold strEscape
        rw [h2]
        dsimp only
        rw [if_neg hc.2.1, if_neg hc.1.ne_eof, if_neg hc.1.2.2]
        unfold escape
        rw [h4]
        dsimp only
        rw [if_neg hc.2.1, if_neg hc.1.2.2, if_neg hc.1.ne_eof]
        have : isHex c = false := by rcases hq with rfl | rfl <;> subst hcq <;> decide
        rw [this]
        rfl
      rw [hesc]
      dsimp only
      rw [hput, henc]
      exact e1
    · have e : quotedChars q (c :: cs) ++ q :: rest =
          c :: (quotedChars q cs ++ q :: rest) := by simp [quotedChars, hcq]
      rw [e] at h
      obtain ⟨s1, h1, r1⟩ := h.getc
      obtain ⟨s', e1, e2⟩ := ih f (str ++ (wctomb c).1) s1 (k - 1) (by omega) hcs' r1
        (by simp at hf; omega)
      refine ⟨s', ?_, e2⟩
      unfold lexString
      rw [h1]
      dsimp only
      rw [if_neg hc.1.ne_eof, if_neg hc.2.1, if_neg hcq, if_neg hc.2.2, hput, henc]
      exact e1

theorem quoted_utf8 (q : Nat) (hq : q < 0x80) {cs : List Nat} {bs : Str} (h : Utf8 cs bs) :
    Utf8 (quotedChars q cs) (quoted q bs) := by
  induction h with
  | nil => exact .nil
  | @cons c b cs bs hc _ ih =>
    have e1 : quotedChars q (c :: cs) = (if c = q then [92, c] else [c]) ++ quotedChars q cs := rfl
    have e2 : quoted q (b ++ bs) = quoted q b ++ quoted q bs := by simp [quoted]
    rw [e1, e2]
    refine utf8_append ?_ ih
    by_cases hcq : c = q
    · rw [if_pos hcq]
      have : b = [c] := charBytes_ascii hc (by omega)
      subst this
      have e3 : quoted q [c] = [92] ++ ([c] ++ []) := by simp [quoted, hcq]
      rw [e3]
      exact .cons (.one 92 (by omega)) (.cons hc .nil)
    · rw [if_neg hcq]
      have e3 : quoted q b = b := by
        have hb : ∀ x ∈ b, x ≠ q := by
          rcases charBytes_high hc with ⟨a, rfl, rfl, _⟩ | ⟨a, fs, rfl, ha, _, _, hf, _⟩
          · intro x hx; simp at hx; rw [hx]; exact hcq
          · intro x hx
            rcases List.mem_cons.1 hx with rfl | hx
            · omega
            · have := hf x hx; simp [isFollow] at this; omega
        have : ∀ l : Str, (∀ x ∈ l, x ≠ q) → quoted q l = l := by
          intro l
          induction l with
          | nil => intro _; rfl
          | cons x l ih' =>
            intro hl
            have h1 := hl x (by simp)
            have h2 := ih' (fun y hy => hl y (by simp [hy]))
            simp [quoted, h1] at h2 ⊢
            exact h2
        exact this b hb
      rw [e3]
      have := Utf8.cons hc Utf8.nil
      rwa [List.append_nil] at this

theorem cstr_id {s : Str} (h : ∀ c ∈ s, c ≠ 0) : cstr s = s := by
  induction s with
  | nil => rfl
  | cons c s ih =>
    have := h c (by simp)
    unfold cstr at ih ⊢
    rw [List.takeWhile_cons]
    simp [this]
    exact ih (fun x hx => h x (by simp [hx]))

theorem utf8_nonzero {cs : List Nat} {bs : Str} (h : Utf8 cs bs) (hc : ∀ c ∈ cs, c ≠ 0) :
    ∀ b ∈ bs, b ≠ 0 := by
  induction h with
  | nil => intro b hb; cases hb
  | @cons c b cs bs hcb _ ih =>
    intro x hx
    rcases List.mem_append.1 hx with hx | hx
    · rcases charBytes_high hcb with ⟨a, rfl, rfl, _⟩ | ⟨a, fs, rfl, ha, _, _, hf, _⟩
      · simp at hx; rw [hx]; exact hc c (by simp)
      · rcases List.mem_cons.1 hx with rfl | hx
        · omega
        · have := hf x hx; simp [isFollow] at this; omega
    · exact ih (fun c hc' => hc c (by simp [hc'])) x hx

theorem outputString_eq {cs : List Nat} {text : Str} (ht : Utf8 cs text) (h0 : ∀ c ∈ cs, c ≠ 0) :
    ∃ q, (q = 34 ∨ q = 39) ∧ outputString text = [q] ++ (quoted q text ++ [q]) := by
  unfold outputString
  rw [cstr_id (utf8_nonzero ht h0)]
  dsimp only
  split
  · exact ⟨34, .inl rfl, rfl⟩
  · exact ⟨39, .inr rfl, rfl⟩

/-- C08: a string (no backslash, no line terminator) written by the assembler and followed by any
text is read back as one STRING token with the same content, nothing is reported and the text
that follows is left to read. -/
theorem C08_string (cs : List Nat) (text : Str) (ht : Utf8 cs text)
    (hcs : ∀ c ∈ cs, GoodChar c ∧ c ≠ 92 ∧ c ≠ 10 ∧ c ≠ 12 ∧ c ≠ 13)
    (crest : List Nat) (rest : Str) (hr : Utf8 crest rest) (hrest : ∀ c ∈ crest, Readable c)
    (s : LS) (hu : s.un = []) (hi : s.inp = outputString text ++ rest) :
    ∃ t s', nextToken s = (t, s') ∧ t.ty = .STRING ∧ t.str = text ∧ t.pos = s.pos ∧
      s'.err = s.err ∧ s'.exn = s.exn ∧ LeftToRead s' crest := by
  obtain ⟨q, hq, hout⟩ := outputString_eq ht (fun c hc => (hcs c hc).1.2.1)
  have hq80 : q < 0x80 := by omega
  have one : Utf8 [q] [q] := by have := Utf8.cons (.one q hq80) .nil; simpa using this
  have hqc : ∀ c ∈ quotedChars q cs, GoodChar c ∧ c ≠ 10 ∧ c ≠ 12 ∧ c ≠ 13 := by
    intro c hc
    simp only [quotedChars, List.mem_flatMap] at hc
    obtain ⟨a, ha, hc⟩ := hc
    have h1 := hcs a ha
    have h92 : GoodChar 92 := by unfold GoodChar Encodable Scalar Nonchar; omega
    split at hc
    · simp at hc
      rcases hc with rfl | rfl
      · exact ⟨h92, by omega, by omega, by omega⟩
      · exact ⟨h1.1, h1.2.2⟩
    · simp at hc
      subst hc
      exact ⟨h1.1, h1.2.2⟩
  have hU : Utf8 ([q] ++ (quotedChars q cs ++ [q]) ++ crest) (outputString text ++ rest) := by
    rw [hout]
    exact utf8_append (utf8_append one (utf8_append (quoted_utf8 q hq80 ht) one)) hr
  have hread : ∀ c ∈ [q] ++ (quotedChars q cs ++ [q]) ++ crest, Readable c := by
    intro c hc
    simp only [List.mem_append, List.mem_singleton] at hc
    rcases hc with (rfl | hc | rfl) | hc
    · unfold Readable; omega
    · exact (hqc c hc).1.readable
    · unfold Readable; omega
    · exact hrest c hc
  have R := (Rd.of_text hu hi hU hread).start'
  have hn : newlines ([q] ++ (quotedChars q cs ++ [q]) ++ crest) =
      q :: (quotedChars q cs ++ q :: newlines crest) := by
    rw [newlines_plain]
    · simp
    · intro c hc
      simp only [List.mem_append, List.mem_singleton] at hc
      rcases hc with rfl | hc | rfl
      · omega
      · have := hqc c hc; omega
      · omega
  rw [hn] at R
  obtain ⟨s1, h1, r1⟩ := R.getc
  have hlen : cs.length < s1.fuel := by
    have := r1.fuel
    have h2 := quotedChars_length q cs
    simp at this
    omega
  obtain ⟨s2, h2, r2⟩ := lexString_quoted q hq _ cs s1.fuel [] s1 (0 - 1) (by omega)
    (fun c hc => by have := hcs c hc; exact ⟨this.1, by omega, by omega⟩) r1 hlen
  rw [List.nil_append, utf8_encode ht (fun c hc => ⟨(hcs c hc).1.1, (hcs c hc).1.2.1⟩)] at h2
  refine ⟨_, s2, nextToken_step (t := { s2.tok .STRING with str := text }) ?_, rfl, rfl, ?_, ?_, ?_, r2.left⟩
  · unfold lexStep
    rw [h1]
    have hc : lexChar q s1 = lexQuote q s1 := by
      rcases hq with rfl | rfl <;> rfl
    show lexChar q s1 = _
    rw [hc]
    unfold lexQuote
    rw [h2]
  · exact r2.start
  · exact r2.err
  · exact r2.exn

/-- The hypotheses of C08 are met by the string `it's "ok" é`, written `'it\'s "ok" é'`. -/
example : outputString b!"it's \"ok\"" = b!"'it\\'s \"ok\"'" := by decide
example : (nextToken (init (outputString b!"it's \"ok\"" ++ b!";"))).1.str = b!"it's \"ok\"" := by
  decide +kernel

/-- C08 does not hold with a backslash or a line feed in the string (both can be: `"\\a"` and
a backslash followed by a new line): the assembler does not escape them. -/
theorem C08_refuted_backslash :
    (nextToken (init b!"\"\\\\a\"")).1.str = [92, 97] ∧
    (nextToken (init (outputString [92, 97]))).1.str = [10] := by
  decide +kernel

theorem C08_refuted_newline :
    (nextToken (init [34, 92, 10, 97, 34])).1.str = [10, 97] ∧
    (nextToken (init (outputString [10, 97]))).1.str = [] ∧
    Rpt.stringNewline ∈ (nextToken (init (outputString [10, 97]))).2.err := by
  decide +kernel

/-! ### Identifiers -/

/-- The characters of identifiers. -/
def IdentChar (c : Nat) : Prop :=
  (48 ≤ c ∧ c ≤ 57) ∨ (65 ≤ c ∧ c ≤ 90) ∨ (97 ≤ c ∧ c ≤ 122) ∨ c = 45 ∨ c = 95 ∨ 0x80 ≤ c

/-- `crest` does not extend the identifier `cs` written before it: it does not start with a character
of identifiers, a backslash or a parenthesis; after a one digit name (written `\3d`) it does
not start with a space (which would end the escape sequence); after `u` it does not start with
`+`. -/
def NoExtend (cs crest : List Nat) : Prop :=
  ∀ r, crest.head? = some r → ¬ IdentChar r ∧ r ≠ 92 ∧ r ≠ 40 ∧
    ((∃ d, cs = [d] ∧ 48 ≤ d ∧ d ≤ 57) → r ≠ 32 ∧ r ≠ 9 ∧ r ≠ 10 ∧ r ≠ 12 ∧ r ≠ 13) ∧
    (cs = [117] ∨ cs = [85] → r ≠ 43)

theorem isIdentifier_iff {c : Nat} (h : c ≤ 0x10FFFF) : isIdentifier c = true ↔ IdentChar c := by
  unfold isIdentifier isVariable isDigit isAlpha IdentChar
  simp
  have : c ≠ eof := by unfold eof; omega
  simp [this]
  omega

/-- The characters written for the rest of an identifier. -/
def escTail (cs : List Nat) : List Nat := cs.flatMap (fun c => if isIdentifier c then [c] else [92, c])

/-- The characters written for an identifier. -/
def escChars : List Nat → List Nat
  | [] => []
  | c :: cs =>
    (if isStartIdentifier c then [c]
     else if isDigit c then [92, 51, c] ++ (if cs.head?.any isHex then [32] else [])
     else [92, c]) ++ escTail cs

theorem escTail_length (cs : List Nat) : cs.length ≤ (escTail cs).length := by
  induction cs with
  | nil => simp
  | cons c cs ih =>
    have : escTail (c :: cs) = (if isIdentifier c then [c] else [92, c]) ++ escTail cs := rfl
    rw [this]
    split <;> simp <;> omega

theorem encodable_lower {c : Nat} (h : GoodChar c) : Encodable (toLower c) := by
  unfold toLower
  split
  · unfold Encodable Scalar Nonchar; omega
  · exact h.1

theorem isHex_ident {c : Nat} (h : isHex c = true) : isIdentifier c = true := by
  unfold isHex isDigit at h
  unfold isIdentifier isVariable isDigit isAlpha
  simp at h ⊢
  omega

theorem escape_plain {s0 s : LS} {k c : Nat} {cs : List Nat} (hc : GoodChar c) (h10 : c ≠ 10)
    (hx : isHex c = false) (h : Rd s0 k (c :: cs) s) :
    ∃ s', escape s = (c, s') ∧ Rd s0 (k - 1) cs s' := by
  obtain ⟨s', h1, h2⟩ := h.getc
  refine ⟨s', ?_, h2⟩
  unfold escape
  rw [h1]
  dsimp only
  rw [if_neg h10, if_neg hc.2.2, if_neg hc.ne_eof, hx]
  rfl

theorem idLoop_text {s0 : LS} (rest : List Nat) (hend : ∀ r, rest.head? = some r →
      isIdentifier r = false ∧ r ≠ 92) :
    ∀ (cs : List Nat) (f : Nat) (id lo : Str) (s : LS) (k : Nat), k ≤ 2 →
    (∀ c ∈ cs, GoodChar c ∧ c ≠ 10) →
    Rd s0 k (escTail cs ++ rest) s → cs.length < f →
    ∃ s', idLoop f id lo s = (id ++ encode cs, lo ++ encode (cs.map toLower), rest.headD eof, s') ∧
      Rd s0 2 rest (ungetc (rest.headD eof) s') := by
  intro cs
  induction cs with
  | nil =>
    intro f id lo s k hk _ h hf
    obtain ⟨f, rfl⟩ : ∃ g, f = g + 1 := ⟨f - 1, by simp at hf; omega⟩
    obtain ⟨s', h1, h2, _⟩ := Rd.look (show Rd s0 2 rest s from h.mono hk) (by omega) (by omega)
    refine ⟨s', ?_, h2⟩
    unfold idLoop
    rw [h1]
    dsimp only
    have hne : rest.headD eof ≠ 92 ∧ isIdentifier (rest.headD eof) = false := by
      cases rest with
      | nil => exact ⟨by decide, by decide⟩
      | cons r t => exact ⟨(hend r rfl).2, (hend r rfl).1⟩
    rw [if_neg hne.1, hne.2]
    simp [encode]
  | cons c cs ih =>
    intro f id lo s k hk hcs h hf
    obtain ⟨f, rfl⟩ : ∃ g, f = g + 1 := ⟨f - 1, by simp at hf; omega⟩
    have hc := hcs c (by simp)
    have hcs' : ∀ c ∈ cs, GoodChar c ∧ c ≠ 10 := fun x hx => hcs x (by simp [hx])
    have henc : ∀ x : Str, x ++ encode (c :: cs) = x ++ (wctomb c).1 ++ encode cs := by
      intro x; simp [encode]
    have henc2 : ∀ x : Str, x ++ encode ((c :: cs).map toLower) =
        x ++ (wctomb (toLower c)).1 ++ encode (cs.map toLower) := by
      intro x; simp [encode]
    have e : escTail (c :: cs) ++ rest =
        (if isIdentifier c then [c] else [92, c]) ++ (escTail cs ++ rest) := by
      simp [escTail]
    rw [e] at h
    by_cases hi : isIdentifier c = true
    · rw [if_pos hi] at h
      obtain ⟨s1, h1, r1⟩ := Rd.getc h
      obtain ⟨s', e1, e2⟩ := ih f (id ++ (wctomb c).1) (lo ++ (wctomb (toLower c)).1) s1 (k - 1)
        (by omega) hcs' r1 (by simp at hf; omega)
      refine ⟨s', ?_, e2⟩
      unfold idLoop
      rw [h1]
      dsimp only
      have h92 : c ≠ 92 := by rintro rfl; revert hi; decide
      rw [if_neg h92, if_pos hi, put_ok hc.1.1]
      dsimp only
      rw [put_ok (encodable_lower hc.1), henc, henc2]
      exact e1
    · rw [if_neg hi] at h
      obtain ⟨s1, h1, r1⟩ := Rd.getc h
      have hx : isHex c = false := by
        cases hx : isHex c with
        | false => rfl
        | true => exact absurd (isHex_ident hx) hi
      obtain ⟨s2, h2, r2⟩ := escape_plain hc.1 hc.2 hx r1
      obtain ⟨s', e1, e2⟩ := ih f (id ++ (wctomb c).1) (lo ++ (wctomb (toLower c)).1) s2 (k - 1 - 1)
        (by omega) hcs' r2 (by simp at hf; omega)
      refine ⟨s', ?_, e2⟩
      unfold idLoop
      rw [h1]
      dsimp only
      rw [if_pos rfl, h2]
      dsimp only
      rw [if_neg hc.1.2.2, put_ok hc.1.1]
      dsimp only
      rw [put_ok (encodable_lower hc.1), henc, henc2]
      exact e1

theorem encode_ne_nil {c : Nat} (cs : List Nat) (h : GoodChar c) : encode (c :: cs) ≠ [] := by
  have h1 := (wctomb_ok h.1 h.2.1).2
  have : encode (c :: cs) = (wctomb c).1 ++ encode cs := rfl
  rw [this]
  rcases charBytes_high h1 with ⟨a, e, _⟩ | ⟨a, fs, e, _⟩ <;> rw [e] <;> simp

/-- After the first character. -/
theorem idRest_text {s0 s : LS} {k : Nat} {c : Nat} {cs rest : List Nat} (ty : NT)
    (hc : GoodChar c) (hcs : ∀ c ∈ cs, GoodChar c ∧ c ≠ 10)
    (hend : ∀ r, rest.head? = some r → isIdentifier r = false ∧ r ≠ 92 ∧ r ≠ 40) (hk : k ≤ 2)
    (h : Rd s0 k (escTail cs ++ rest) s) :
    ∃ s', idRest ty (some ((wctomb c).1, (wctomb (toLower c)).1), s) =
        ({ s'.tok ty with str := encode (c :: cs), lower := encode ((c :: cs).map toLower) }, s') ∧
      Rd s0 2 rest s' := by
  have hlen : cs.length < s.fuel := by
    have h1 := h.fuel
    have h2 := escTail_length cs
    simp at h1
    omega
  obtain ⟨s1, h1, h2⟩ := idLoop_text rest (fun r hr => ⟨(hend r hr).1, (hend r hr).2.1⟩) cs s.fuel
    (wctomb c).1 (wctomb (toLower c)).1 s k hk hcs h hlen
  refine ⟨_, ?_, h2⟩
  unfold idRest
  dsimp only
  rw [h1]
  unfold idEnd
  dsimp only
  have e1 : (wctomb c).1 ++ encode cs = encode (c :: cs) := rfl
  have e2 : (wctomb (toLower c)).1 ++ encode (cs.map toLower) = encode ((c :: cs).map toLower) := rfl
  rw [e1, e2, if_neg (encode_ne_nil cs hc)]
  have h40 : rest.headD eof ≠ 40 := by
    cases rest with
    | nil => decide
    | cons r t => exact (hend r rfl).2.2
  rw [if_neg (fun h => h40 h.1)]
  have : (ungetc (rest.headD eof) s1).tok ty = s1.tok ty := by
    unfold LS.tok
    have : (ungetc (rest.headD eof) s1).start = s1.start := by
      unfold ungetc
      repeat' split
      all_goals rfl
    rw [this]
  rw [this]

theorem isStart_cases {c : Nat} (h : isStartIdentifier c = true) :
    (65 ≤ c ∧ c ≤ 90) ∨ (97 ≤ c ∧ c ≤ 122) ∨ (0x80 ≤ c ∧ c ≠ eof) ∨ c = 95 := by
  unfold isStartIdentifier isAlpha at h
  simp at h
  omega

theorem isStart_isIdentifier {c : Nat} (h : isStartIdentifier c = true) : isIdentifier c = true := by
  unfold isIdentifier isVariable isAlpha isDigit
  simp
  have := isStart_cases h
  omega

/-- A start character that is not `u` goes to identifier(). -/
theorem lexChar_start {c : Nat} (s : LS) (h : isStartIdentifier c = true) (hu : c ≠ 117) (hu2 : c ≠ 85) :
    lexChar c s = found (identifier c s) := by
  have hc := isStart_cases h
  have hne : c ≠ eof := isStartIdentifier_ne h
  have h1 : simple c = none := by
    unfold simple
    repeat rw [if_neg (by omega)]
  have h2 : op1 c = none := by
    unfold op1
    repeat rw [if_neg (by omega)]
  unfold lexChar
  rw [if_neg hne, h1]
  dsimp only
  rw [h2]
  dsimp only
  unfold lexOther
  have hsp : ¬ (isSpace c = true ∨ c = 12) := by unfold isSpace; simp; omega
  have hdg : ¬ isDigit c = true := by unfold isDigit; simp; omega
  rw [if_neg (by omega), if_neg (by omega), if_neg (by omega), if_neg (by omega), if_neg (by omega),
    if_neg (by omega), if_neg hsp, if_neg hdg, if_neg (by omega), if_neg (by omega), if_neg (by omega),
    if_neg (by omega), if_pos h]

theorem identifier_start {c : Nat} (s : LS) (h : isStartIdentifier c = true) (hc : GoodChar c) :
    identifier c s = idRest .IDENTIFIER (some ((wctomb c).1, (wctomb (toLower c)).1), s) := by
  have hcc := isStart_cases h
  unfold identifier
  rw [if_neg (by omega), if_neg (by omega)]
  unfold idDash
  rw [if_neg (by omega)]
  unfold idFirst
  rw [if_neg (by omega), if_pos h, put_ok hc.1]
  dsimp only
  rw [put_ok (encodable_lower hc)]
  rfl

/-- Reading an identifier from its written form. -/
theorem lexStep_identifier {s : LS} {c : Nat} {cs rest : List Nat}
    (hc : GoodChar c ∧ c ≠ 10) (hcs : ∀ c ∈ cs, GoodChar c ∧ c ≠ 10)
    (hend : ∀ r, rest.head? = some r → isIdentifier r = false ∧ r ≠ 92 ∧ r ≠ 40)
    (hsp : isDigit c = true → cs = [] → ∀ r, rest.head? = some r → isSpace r = false)
    (hplus : c = 117 ∨ c = 85 → cs = [] → ∀ r, rest.head? = some r → r ≠ 43)
    (h : Rd s 0 (escChars (c :: cs) ++ rest) s) :
    ∃ s', lexStep s = (some { s'.tok .IDENTIFIER with
          str := encode (c :: cs), lower := encode ((c :: cs).map toLower) }, s') ∧
      Rd { s with start := s.pos } 2 rest s' := by
  have h' := h.start'
  dsimp only [escChars] at h'
  unfold lexStep
  by_cases hst : isStartIdentifier c = true
  · rw [if_pos hst, List.append_assoc] at h'
    obtain ⟨s1, h1, r1⟩ := Rd.getc (show Rd _ 0 (c :: (escTail cs ++ rest)) _ from h')
    rw [h1]
    dsimp only
    by_cases hu : c = 117 ∨ c = 85
    · have e1 : lexChar c s1 = lexU c s1 := by rcases hu with rfl | rfl <;> rfl
      rw [e1]
      unfold lexU
      obtain ⟨s2, h2, r2, _⟩ := (r1.mono (show 0 - 1 ≤ 1 by omega)).look (by omega) (by omega)
      rw [h2]
      dsimp only
      have h43 : (escTail cs ++ rest).headD eof ≠ 43 := by
        cases cs with
        | nil =>
          show rest.headD eof ≠ 43
          cases rest with
          | nil => decide
          | cons r t => exact hplus hu rfl r rfl
        | cons d ds =>
          have : escTail (d :: ds) ++ rest =
            (if isIdentifier d then [d] else [92, d]) ++ (escTail ds ++ rest) := by simp [escTail]
          rw [this]
          by_cases hd : isIdentifier d = true
          · rw [if_pos hd]
            show d ≠ 43
            rintro rfl
            revert hd
            decide
          · rw [if_neg hd]
            show (92 : Nat) ≠ 43
            decide
      rw [if_neg h43]
      unfold found
      rw [identifier_start _ hst hc.1]
      obtain ⟨s', e, r⟩ := idRest_text .IDENTIFIER hc.1 hcs hend (by omega) r2
      exact ⟨s', by rw [e], r⟩
    · rw [lexChar_start _ hst (fun h => hu (.inl h)) (fun h => hu (.inr h))]
      unfold found
      rw [identifier_start _ hst hc.1]
      obtain ⟨s', e, r⟩ := idRest_text .IDENTIFIER hc.1 hcs hend (by omega) r1
      exact ⟨s', by rw [e], r⟩
  · rw [if_neg hst] at h'
    -- a backslash then the escape sequence
    have hesc : ∃ s1 s2, getc { s with start := s.pos } = (92, s1) ∧ escape s1 = (c, s2) ∧
        Rd { s with start := s.pos } 1 (escTail cs ++ rest) s2 := by
      by_cases hd : isDigit c = true
      · rw [if_pos hd] at h'
        simp only [List.append_assoc, List.cons_append, List.nil_append] at h'
        obtain ⟨s1, h1, r1⟩ := Rd.getc h'
        obtain ⟨s2, h2, r2⟩ := Rd.getc r1
        obtain ⟨s3, h3, r3⟩ := Rd.getc r2
        have hdg := isDigit_iff.mp hd
        have hhex : isHex c = true := by unfold isHex; rw [hd]; rfl
        have hval : 16 * hexVal 51 + hexVal c = c := by
          have : hexVal c = c - 48 := by unfold hexVal; rw [if_pos hdg.2]
          rw [this]
          have : hexVal 51 = 3 := rfl
          rw [this]
          omega
        have e1 : ∀ s4, escLoop 4 c s3 = (some c, s4) → escape s1 = (c, s4) := by
          intro s4 h4
          unfold escape
          rw [h2]
          dsimp only
          rw [if_neg (by omega), if_neg (by omega), if_neg (by decide), if_pos (by decide)]
          unfold escLoop
          rw [h3]
          dsimp only
          rw [if_pos hhex, hval, if_neg (by omega), h4]
          unfold escEnd
          dsimp only
          rw [if_neg hc.1.2.1]
        by_cases hx : cs.head?.any isHex = true
        · rw [hx] at r3
          obtain ⟨s4, h4, r4⟩ := Rd.getc (show Rd _ _ (32 :: (escTail cs ++ rest)) s3 from r3)
          refine ⟨s1, s4, h1, e1 s4 ?_, r4.mono (by omega)⟩
          unfold escLoop
          rw [h4]
          rfl
        · have hxf : cs.head?.any isHex = false := by
            cases hq : cs.head?.any isHex with
            | false => rfl
            | true => exact absurd hq hx
          rw [hxf] at r3
          have r3' : Rd { s with start := s.pos } 1 (escTail cs ++ rest) s3 :=
            Rd.mono (show Rd _ _ (escTail cs ++ rest) s3 from r3) (by omega)
          obtain ⟨s4, h4, r4, _⟩ := r3'.look (by omega) (by omega)
          refine ⟨s1, _, h1, e1 _ ?_, r4⟩
          unfold escLoop
          rw [h4]
          dsimp only
          have hnn : isHex ((escTail cs ++ rest).headD eof) = false ∧
              isSpace ((escTail cs ++ rest).headD eof) = false := by
            cases cs with
            | nil =>
              show isHex (rest.headD eof) = false ∧ isSpace (rest.headD eof) = false
              cases rest with
              | nil => exact ⟨by decide, by decide⟩
              | cons r t =>
                refine ⟨?_, hsp hd rfl r rfl⟩
                cases hq : isHex r with
                | false => exact hq
                | true =>
                  have := isHex_ident hq
                  rw [(hend r rfl).1] at this
                  cases this
            | cons d ds =>
              have : escTail (d :: ds) ++ rest =
                (if isIdentifier d then [d] else [92, d]) ++ (escTail ds ++ rest) := by simp [escTail]
              rw [this]
              by_cases hdi : isIdentifier d = true
              · rw [if_pos hdi]
                show isHex d = false ∧ isSpace d = false
                refine ⟨hxf, ?_⟩
                cases hq : isSpace d with
                | false => rfl
                | true =>
                  exfalso
                  unfold isSpace at hq
                  simp at hq
                  rcases hq with (rfl | rfl) | rfl <;> revert hdi <;> decide
              · rw [if_neg hdi]
                exact ⟨by show isHex 92 = false; decide, by show isSpace 92 = false; decide⟩
          rw [hnn.1, hnn.2]
          rfl
      · rw [if_neg hd] at h'
        simp only [List.append_assoc, List.cons_append, List.nil_append] at h'
        obtain ⟨s1, h1, r1⟩ := Rd.getc h'
        have hx : isHex c = false := by
          cases hx : isHex c with
          | false => rfl
          | true =>
            exfalso
            apply hst
            unfold isHex at hx
            unfold isStartIdentifier isAlpha
            simp at hx ⊢
            have : ¬ isDigit c = true := hd
            simp [this] at hx
            omega
        obtain ⟨s2, h2, r2⟩ := escape_plain hc.1 hc.2 hx r1
        exact ⟨s1, s2, h1, h2, r2.mono (by omega)⟩
    obtain ⟨s1, s2, h1, h2, r2⟩ := hesc
    rw [h1]
    dsimp only
    have e1 : lexChar 92 s1 = lexId 92 s1 := rfl
    rw [e1]
    unfold lexId
    have e2 : identifier 92 s1 =
        idRest .IDENTIFIER (some ((wctomb c).1, (wctomb (toLower c)).1), s2) := by
      unfold identifier
      rw [if_neg (by omega), if_neg (by omega)]
      unfold idDash
      rw [if_neg (by omega)]
      unfold idFirst
      rw [if_pos rfl, h2]
      dsimp only
      rw [if_neg hc.1.2.2, put_ok hc.1.1]
      dsimp only
      rw [put_ok (encodable_lower hc.1)]
      rfl
    obtain ⟨s', e, r⟩ := idRest_text .IDENTIFIER hc.1 hcs hend (by omega) r2
    rw [e2, e]
    exact ⟨s', rfl, r⟩

/-! The bytes written for an identifier. -/

theorem charLen_eq {c : Nat} {b : Str} (h : CharBytes c b) : ∃ a t, b = a :: t ∧ charLen a = b.length := by
  cases h with
  | one _ h => exact ⟨_, _, rfl, by
      unfold charLen; rw [if_neg (by omega), if_neg (by omega), if_neg (by omega)]; rfl⟩
  | two a b ha hb => exact ⟨_, _, rfl, by
      unfold charLen; rw [if_neg (by omega), if_neg (by omega), if_pos (by omega)]; rfl⟩
  | three a b c ha hb hc h1 h2 => exact ⟨_, _, rfl, by
      unfold charLen; rw [if_neg (by omega), if_pos (by omega)]; rfl⟩
  | four a b c d ha hb hc hd h1 h2 => exact ⟨_, _, rfl, by
      unfold charLen; rw [if_pos (by omega)]; rfl⟩

theorem nextHex_eq {cs : List Nat} {bs : Str} (h : Utf8 cs bs) : nextHex bs = cs.head?.any isHex := by
  cases h with
  | nil => rfl
  | @cons c b cs bs hc _ =>
    rcases charBytes_high hc with ⟨a, rfl, rfl, _⟩ | ⟨a, fs, rfl, ha, _, _, _, hc1, _⟩
    · rfl
    · have h1 : isHex a = false := by unfold isHex isDigit; simp; omega
      have h2 : isHex c = false := by unfold isHex isDigit; simp; omega
      show isHex a = isHex c
      rw [h1, h2]

theorem escapeChar_bytes {c : Nat} {b : Str} (first : Bool) (next : Str) (h : CharBytes c b) :
    escapeChar first b next =
      if (first && isStartIdentifier c) || (!first && isIdentifier c) then b
      else if isDigit c then 92 :: 51 :: c :: (if nextHex next then [32] else [])
      else 92 :: b := by
  unfold escapeChar
  rw [C01_decode c b h]

theorem escapeLoop_tail {cs : List Nat} {bs : Str} (h : Utf8 cs bs) : ∀ f, bs.length ≤ f →
    ∃ out, escapeLoop f false bs = some out ∧ Utf8 (escTail cs) out := by
  induction h with
  | nil =>
    intro f _
    cases f <;> exact ⟨[], rfl, .nil⟩
  | @cons c b cs bs hc _ ih =>
    intro f hf
    obtain ⟨a, t, hb, hlen⟩ := charLen_eq hc
    have hbl : 1 ≤ b.length := by rw [hb]; simp
    obtain ⟨f, rfl⟩ : ∃ g, f = g + 1 := ⟨f - 1, by simp at hf; omega⟩
    obtain ⟨out, h1, h2⟩ := ih f (by simp at hf; omega)
    have e : b ++ bs = a :: (t ++ bs) := by rw [hb]; rfl
    have hdrop : (a :: (t ++ bs)).drop (charLen a) = bs := by rw [← e, hlen, List.drop_left]
    have htake : (a :: (t ++ bs)).take (charLen a) = b := by rw [← e, hlen, List.take_left]
    have hl : ¬ (a :: (t ++ bs)).length < charLen a := by
      rw [← e, hlen]; simp
    rw [e]
    unfold escapeLoop
    rw [if_neg hl, hdrop, htake, h1]
    refine ⟨_, rfl, ?_⟩
    rw [escapeChar_bytes false bs hc]
    have e2 : escTail (c :: cs) = (if isIdentifier c then [c] else [92, c]) ++ escTail cs := rfl
    rw [e2]
    refine utf8_append ?_ h2
    have u1 : Utf8 [c] b := by have := Utf8.cons hc .nil; rwa [List.append_nil] at this
    simp only [Bool.false_and, Bool.not_false, Bool.true_and, Bool.false_or]
    by_cases hi : isIdentifier c = true
    · rw [if_pos hi, if_pos hi]; exact u1
    · rw [if_neg hi, if_neg hi]
      have hd : ¬ isDigit c = true := by
        intro hd
        apply hi
        unfold isIdentifier isVariable
        rw [hd]; rfl
      rw [if_neg hd]
      exact .cons (.one 92 (by omega)) u1

theorem escapeId_bytes {cs : List Nat} {bs : Str} (h : Utf8 cs bs) (h0 : ∀ c ∈ cs, c ≠ 0) :
    ∃ out, escapeId bs = some out ∧ Utf8 (escChars cs) out := by
  unfold escapeId
  rw [cstr_id (utf8_nonzero h h0)]
  cases h with
  | nil => exact ⟨[], rfl, .nil⟩
  | @cons c b cs bs hc hcs =>
    obtain ⟨a, t, hb, hlen⟩ := charLen_eq hc
    have hbl : 1 ≤ b.length := by rw [hb]; simp
    obtain ⟨f, hf⟩ : ∃ g, (b ++ bs).length = g + 1 := ⟨(b ++ bs).length - 1, by simp; omega⟩
    obtain ⟨out, h1, h2⟩ := escapeLoop_tail hcs f (by simp at hf; omega)
    have e : b ++ bs = a :: (t ++ bs) := by rw [hb]; rfl
    have hdrop : (a :: (t ++ bs)).drop (charLen a) = bs := by rw [← e, hlen, List.drop_left]
    have htake : (a :: (t ++ bs)).take (charLen a) = b := by rw [← e, hlen, List.take_left]
    have hl : ¬ (a :: (t ++ bs)).length < charLen a := by
      rw [← e, hlen]; simp
    rw [hf, e]
    unfold escapeLoop
    rw [if_neg hl, hdrop, htake, h1]
    refine ⟨_, rfl, ?_⟩
    rw [escapeChar_bytes true bs hc, nextHex_eq hcs]
    unfold escChars
    refine utf8_append ?_ h2
    have u1 : Utf8 [c] b := by have := Utf8.cons hc .nil; rwa [List.append_nil] at this
    simp only [Bool.true_and, Bool.not_true, Bool.false_and, Bool.or_false]
    by_cases hi : isStartIdentifier c = true
    · rw [if_pos hi, if_pos hi]; exact u1
    · rw [if_neg hi, if_neg hi]
      by_cases hd : isDigit c = true
      · rw [if_pos hd, if_pos hd]
        have hdg := isDigit_iff.mp hd
        have a1 : Utf8 (if cs.head?.any isHex = true then [32] else [])
            (if cs.head?.any isHex = true then [32] else []) := by
          split
          · exact .cons (.one 32 (by omega)) .nil
          · exact .nil
        exact .cons (.one 92 (by omega)) (.cons (.one 51 (by omega)) (.cons (.one c (by omega)) a1))
      · rw [if_neg hd, if_neg hd]
        exact .cons (.one 92 (by omega)) u1

theorem escTail_mem {cs : List Nat} : ∀ c ∈ escTail cs, c = 92 ∨ c ∈ cs := by
  intro c hc
  simp only [escTail, List.mem_flatMap] at hc
  obtain ⟨a, ha, hc⟩ := hc
  split at hc
  · simp at hc; subst hc; exact .inr ha
  · simp at hc
    rcases hc with rfl | rfl
    · exact .inl rfl
    · exact .inr ha

theorem escChars_mem {cs : List Nat} : ∀ c ∈ escChars cs, c = 92 ∨ c = 51 ∨ c = 32 ∨ c ∈ cs := by
  cases cs with
  | nil => intro c hc; cases hc
  | cons a cs =>
    intro c hc
    unfold escChars at hc
    rcases List.mem_append.1 hc with hc | hc
    · split at hc
      · simp at hc; exact .inr (.inr (.inr (by simp [hc])))
      · split at hc
        · rcases List.mem_append.1 hc with hc | hc
          · simp at hc
            rcases hc with h | h | h
            · exact .inl h
            · exact .inr (.inl h)
            · exact .inr (.inr (.inr (by simp [h])))
          · split at hc
            · simp at hc; exact .inr (.inr (.inl hc))
            · cases hc
        · simp at hc
          rcases hc with h | h
          · exact .inl h
          · exact .inr (.inr (.inr (by simp [h])))
    · rcases escTail_mem c hc with h | h
      · exact .inl h
      · exact .inr (.inr (.inr (by simp [h])))

theorem newlines_head {crest : List Nat} {r : Nat} (h : (newlines crest).head? = some r) :
    ∃ q, crest.head? = some q ∧ (r = q ∨ (r = 10 ∧ (q = 13 ∨ q = 12))) := by
  cases crest with
  | nil => cases h
  | cons a t =>
    refine ⟨a, rfl, ?_⟩
    rw [newlines.eq_def] at h
    split at h
    · cases h
    · rename_i h1; cases h1; cases h; omega
    · rename_i h1; cases h1; cases h; omega
    · rename_i h1; cases h1; cases h; omega
    · rename_i h1; cases h1; cases h; omega

/-- C09: a name written by the assembler and followed by any text that does not extend it is read
back as one IDENTIFIER token with the same name, nothing is reported and the text that follows is
left to read. -/
theorem C09_identifier (cs : List Nat) (name : Str) (ht : Utf8 cs name) (hne : cs ≠ [])
    (hcs : ∀ c ∈ cs, GoodChar c ∧ c ≠ 10 ∧ c ≠ 12 ∧ c ≠ 13)
    (crest : List Nat) (rest : Str) (hr : Utf8 crest rest) (hrest : ∀ c ∈ crest, Readable c)
    (hno : NoExtend cs crest)
    (out : Str) (hout : escapeId name = some out)
    (s : LS) (hu : s.un = []) (hi : s.inp = out ++ rest) :
    ∃ t s', nextToken s = (t, s') ∧ t.ty = .IDENTIFIER ∧ t.str = name ∧ t.pos = s.pos ∧
      s'.err = s.err ∧ s'.exn = s.exn ∧ LeftToRead s' crest := by
  obtain ⟨out', h1, h2⟩ := escapeId_bytes ht (fun c hc => (hcs c hc).1.2.1)
  rw [hout] at h1
  cases h1
  have hmem : ∀ c ∈ escChars cs, GoodChar c ∧ c ≠ 10 ∧ c ≠ 12 ∧ c ≠ 13 := by
    intro c hc
    rcases escChars_mem c hc with rfl | rfl | rfl | h
    · exact ⟨by unfold GoodChar Encodable Scalar Nonchar; omega, by omega⟩
    · exact ⟨by unfold GoodChar Encodable Scalar Nonchar; omega, by omega⟩
    · exact ⟨by unfold GoodChar Encodable Scalar Nonchar; omega, by omega⟩
    · exact hcs c h
  have hU := utf8_append h2 hr
  have hread : ∀ c ∈ escChars cs ++ crest, Readable c := by
    intro c hc
    rcases List.mem_append.1 hc with h | h
    · exact (hmem c h).1.readable
    · exact hrest c h
  have R := Rd.of_text hu hi hU hread
  rw [newlines_plain (fun c hc => by have := hmem c hc; omega)] at R
  cases cs with
  | nil => exact absurd rfl hne
  | cons c cs =>
    have hc := hcs c (by simp)
    have hend : ∀ r, (newlines crest).head? = some r → isIdentifier r = false ∧ r ≠ 92 ∧ r ≠ 40 := by
      intro r hr'
      obtain ⟨q, hq, h3⟩ := newlines_head hr'
      have h4 := hno q hq
      rcases h3 with rfl | ⟨rfl, _⟩
      · refine ⟨?_, h4.2.1, h4.2.2.1⟩
        cases hx : isIdentifier r with
        | false => rfl
        | true =>
          have hle : r ≤ 0x10FFFF := by
            cases crest with
            | nil => cases hq
            | cons a t => cases hq; exact utf8_le hr r (by simp)
          exact absurd ((isIdentifier_iff hle).mp hx) h4.1
      · exact ⟨by decide, by omega, by omega⟩
    have hsp : isDigit c = true → cs = [] → ∀ r, (newlines crest).head? = some r →
        isSpace r = false := by
      intro hd hnil r hr'
      obtain ⟨q, hq, h3⟩ := newlines_head hr'
      subst hnil
      have h4 := (hno q hq).2.2.2.1 ⟨c, rfl, isDigit_iff.mp hd⟩
      have : r ≠ 32 ∧ r ≠ 9 ∧ r ≠ 10 := by
        rcases h3 with rfl | ⟨rfl, h5⟩
        · exact ⟨h4.1, h4.2.1, h4.2.2.1⟩
        · omega
      unfold isSpace
      simp [this]
    have hplus : c = 117 ∨ c = 85 → cs = [] → ∀ r, (newlines crest).head? = some r → r ≠ 43 := by
      intro hcu hnil r hr'
      obtain ⟨q, hq, h3⟩ := newlines_head hr'
      subst hnil
      have h4 := (hno q hq).2.2.2.2 (hcu.elim (fun h => .inl (by rw [h])) (fun h => .inr (by rw [h])))
      rcases h3 with rfl | ⟨rfl, _⟩
      · exact h4
      · omega
    obtain ⟨s', e, r⟩ := lexStep_identifier ⟨hc.1, hc.2.1⟩
      (fun x hx => by have := hcs x (by simp [hx]); exact ⟨this.1, this.2.1⟩) hend hsp hplus R
    refine ⟨_, s', nextToken_step e, rfl, ?_, r.start, r.err, r.exn, r.left⟩
    exact utf8_encode ht (fun c hc => ⟨(hcs c hc).1.1, (hcs c hc).1.2.1⟩)

/-- C09: escape_id() does not throw on such a name. -/
theorem C09_no_throw (cs : List Nat) (name : Str) (ht : Utf8 cs name) (h0 : ∀ c ∈ cs, c ≠ 0) :
    ∃ out, escapeId name = some out := by
  obtain ⟨out, h, _⟩ := escapeId_bytes ht h0
  exact ⟨out, h⟩

/-- The hypotheses of C09 are met by names such as `1a b` (written `\31 a\ b`) followed by
` {`. -/
example : escapeId b!"1a b" = some b!"\\31 a\\ b" := by decide +kernel
example : NoExtend b!"1a b" b!" {" := by
  intro r hr
  cases hr
  refine ⟨by unfold IdentChar; omega, by omega, by omega, ?_, ?_⟩
  · rintro ⟨d, h, _⟩; cases h
  · rintro (h | h) <;> cases h

/-- C09: why a one digit name must not be followed by a space: the space is lost, so `.\31 .b`
(a descendant) is read back as `.\31.b`. -/
theorem C09_refuted_one_digit :
    escapeId b!"1" = some b!"\\31" ∧
    (token 0 (init (b!"\\31" ++ b!" .b"))).str = b!"1" ∧
    (token 1 (init (b!"\\31" ++ b!" .b"))).ty = .PERIOD := by
  decide +kernel

/-- C09: a name with a line feed (written `\a ` in the source) is not read back. -/
theorem C09_refuted_newline :
    (token 0 (init b!"a\\a b")).str = [97, 10, 98] ∧
    escapeId [97, 10, 98] = some [97, 92, 10, 98] ∧
    (token 0 (init [97, 92, 10, 98])).str = [97] := by
  decide +kernel

end Csspp.Lex
