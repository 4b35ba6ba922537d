import Verif.Props.RoundTripRange
import Verif.Spec.Lexemes

/-!
Reading a text that spells a token: the forward direction of C47. Every lemma says that when the
text to read starts with something of the grammar (Spec/Lexemes.lean), then the function of the
lexer gives the value that it denotes, reports nothing and leaves the rest of the text.
-/

namespace Csspp.Lex
open Csspp.Utf8 Csspp.Spec

/-! ### The classes of characters -/

theorem isSpace_blank (c : Nat) : isSpace c = true ↔ Blank c := by
  unfold isSpace Blank; simp [or_assoc]
theorem isDigit_dec (c : Nat) : isDigit c = true ↔ Dec c := by
  unfold isDigit Dec; simp
theorem isHex_hex (c : Nat) : isHex c = true ↔ Hex c := by
  unfold isHex Hex isDigit Dec; simp [or_assoc]
theorem isVariable_var (c : Nat) : isVariable c = true ↔ VarChar c := by
  unfold isVariable VarChar isDigit Dec isAlpha Letter; simp [or_assoc]
theorem isIdentifier_name {c : Nat} (h : c ≤ 0x10FFFF) : isIdentifier c = true ↔ NameChar c := by
  unfold isIdentifier NameChar
  rw [Bool.or_eq_true, isVariable_var]
  unfold eof
  simp only [Bool.and_eq_true, decide_eq_true_eq, bne_iff_ne]
  constructor
  · rintro (h | h)
    · exact .inl h
    · exact .inr h.1
  · rintro (h' | h')
    · exact .inl h'
    · exact .inr ⟨h', by omega⟩
theorem isStart_name {c : Nat} (h : c ≤ 0x10FFFF) (hr : c ≠ 0xFFFD) :
    isStartIdentifier c = true ↔ NameStart c := by
  unfold isStartIdentifier NameStart isAlpha Letter eof
  simp
  omega
theorem isHash_name {c : Nat} (h : c ≤ 0x10FFFF) (hr : c ≠ 0xFFFD) :
    isHashCharacter c = true ↔ NameChar c := by
  unfold isHashCharacter NameChar
  rw [Bool.or_eq_true, isVariable_var]
  unfold eof
  simp only [Bool.and_eq_true, decide_eq_true_eq, bne_iff_ne]
  constructor
  · rintro (h | h)
    · exact .inl h
    · exact .inr h.1.1
  · rintro (h' | h')
    · exact .inl h'
    · exact .inr ⟨⟨h', by omega⟩, hr⟩
theorem hexVal_value {c : Nat} (h : Hex c) : hexVal c = hexDigitValue c := by
  unfold hexVal hexDigitValue
  unfold Hex Dec at h
  repeat' split
  all_goals omega
theorem toLower_lower (c : Nat) : toLower c = lowerByte c := rfl

theorem valid_enc {c : Nat} (h : Valid c) : Encodable c := ⟨h.1, h.2.1⟩

theorem valid_lower {c : Nat} (h : Valid c) : Valid (lowerByte c) := by
  unfold lowerByte
  split
  · unfold Valid Scalar Nonchar; omega
  · exact h

theorem valid_le {c : Nat} (h : Valid c) : c ≤ 0x10FFFF := by
  unfold Valid Scalar at h; omega

/-! ### Looking at the next character -/

/-- The character c, the first one of the text cs (or EOF), was just read. -/
structure At (s0 : LS) (k : Nat) (cs : List Nat) (c : Nat) (s : LS) : Prop where
  hd : c = cs.headD eof
  tl : Rd s0 k cs.tail s
  mem : ∀ c ∈ cs, Readable c ∧ c ≤ 0x10FFFF

theorem Rd.at {s0 s : LS} {k : Nat} {cs : List Nat} (h : Rd s0 k cs s) :
    ∃ s', Lex.getc s = (cs.headD eof, s') ∧ At s0 (k - 1) cs (cs.headD eof) s' := by
  cases cs with
  | nil =>
    have hu : s.un = [] := by
      obtain ⟨raw, _, _, h3⟩ := h.raw
      cases hu : s.un with
      | nil => rfl
      | cons a t => rw [hu] at h3; cases h3
    exact ⟨s, h.getc_nil, rfl, ⟨by rw [hu]; simp, h.un, h.raw, h.err, h.exn, h.ub, h.start⟩, h.mem⟩
  | cons c t =>
    obtain ⟨s', h1, h2⟩ := h.getc
    exact ⟨s', h1, rfl, h2, h.mem⟩

theorem At.unget {s0 s : LS} {k c : Nat} {cs : List Nat} (h : At s0 k cs c s) (hk : k ≤ 15) :
    Rd s0 (k + 1) cs (ungetc c s) := by
  have h1 := h.hd
  have h2 := h.tl
  have h3 := h.mem
  subst h1
  cases cs with
  | nil => show Rd s0 (k + 1) [] (ungetc eof s); rw [ungetc_eof]; exact h2.mono (by omega)
  | cons c t =>
    have hc := h3 c (by simp)
    exact h2.unget hk hc.1 hc.2

theorem At.mono {s0 s : LS} {k k' c : Nat} {cs : List Nat} (h : At s0 k cs c s) (hk : k ≤ k') :
    At s0 k' cs c s := ⟨h.hd, h.tl.mono hk, h.mem⟩

theorem At.cons {s0 s : LS} {k c d : Nat} {cs : List Nat} (h : At s0 k (c :: cs) d s) :
    d = c ∧ Rd s0 k cs s ∧ Readable c ∧ c ≤ 0x10FFFF ∧ c ≠ eof :=
  ⟨h.hd, h.tl, (h.mem c (by simp)).1, (h.mem c (by simp)).2, by
    have := (h.mem c (by simp)).2; unfold eof; omega⟩

theorem At.nil {s0 s : LS} {k d : Nat} (h : At s0 k [] d s) : d = eof ∧ Rd s0 k [] s :=
  ⟨h.hd, h.tl⟩

theorem Rd.getc' {s0 s : LS} {k c : Nat} {cs : List Nat} (h : Rd s0 k (c :: cs) s) :
    ∃ s', Lex.getc s = (c, s') ∧ Rd s0 (k - 1) cs s' ∧ Readable c ∧ c ≤ 0x10FFFF ∧ c ≠ eof := by
  obtain ⟨s', e, r⟩ := h.getc
  have hm := h.mem c (by simp)
  exact ⟨s', e, r, hm.1, hm.2, by unfold eof; omega⟩

/-- The character read is not one of a class. -/
theorem At.not {s0 s : LS} {k c : Nat} {cs : List Nat} {P : Nat → Prop} (h : At s0 k cs c s)
    (hn : ¬ NextIs P cs) : c = eof ∨ ¬ P c := by
  have h1 := h.hd
  subst h1
  cases cs with
  | nil => exact .inl rfl
  | cons c t => exact .inr (fun hp => hn ⟨c, t, rfl, hp⟩)

theorem At.le {s0 s : LS} {k c : Nat} {cs : List Nat} (h : At s0 k cs c s) :
    c = eof ∨ (c ≤ 0x10FFFF ∧ c ≠ 0xFFFD ∧ c ≠ 0 ∧ ∃ t, cs = c :: t) := by
  have h1 := h.hd
  subst h1
  cases cs with
  | nil => exact .inl rfl
  | cons c t =>
    have := h.mem c (by simp)
    exact .inr ⟨this.2, this.1.2, this.1.1, t, rfl⟩

theorem At.next {s0 s : LS} {k c : Nat} {cs : List Nat} {P : Nat → Prop} (h : At s0 k cs c s)
    (hc : c ≠ eof) (hp : P c) : NextIs P cs := by
  rcases h.le with h | ⟨_, _, _, t, rfl⟩
  · exact absurd h hc
  · exact ⟨c, t, rfl, hp⟩

theorem bool_false {b : Bool} {P : Prop} (h : b = true ↔ P) (hn : ¬ P) : b = false := by
  cases b with
  | false => rfl
  | true => exact absurd (h.1 rfl) hn

theorem At.notSpace {s0 s : LS} {k c : Nat} {cs : List Nat} (h : At s0 k cs c s)
    (hn : ¬ NextIs Blank cs) : isSpace c = false := by
  rcases h.not hn with rfl | h
  · rfl
  · exact bool_false (isSpace_blank c) h

theorem At.notDigit {s0 s : LS} {k c : Nat} {cs : List Nat} (h : At s0 k cs c s)
    (hn : ¬ NextIs Dec cs) : isDigit c = false := by
  rcases h.not hn with rfl | h
  · rfl
  · exact bool_false (isDigit_dec c) h

theorem At.notHex {s0 s : LS} {k c : Nat} {cs : List Nat} (h : At s0 k cs c s)
    (hn : ¬ NextIs Hex cs) : isHex c = false := by
  rcases h.not hn with rfl | h
  · rfl
  · exact bool_false (isHex_hex c) h

theorem At.notVar {s0 s : LS} {k c : Nat} {cs : List Nat} (h : At s0 k cs c s)
    (hn : ¬ NextIs VarChar cs) : isVariable c = false := by
  rcases h.not hn with rfl | h
  · rfl
  · exact bool_false (isVariable_var c) h

theorem At.notIdent {s0 s : LS} {k c : Nat} {cs : List Nat} (h : At s0 k cs c s)
    (hn : ¬ NextIs NameChar cs) : isIdentifier c = false := by
  rcases h.le with rfl | ⟨hl, h2, _⟩
  · rfl
  · rcases h.not hn with rfl | h
    · rfl
    · exact bool_false (isIdentifier_name hl) h

theorem At.notHash {s0 s : LS} {k c : Nat} {cs : List Nat} (h : At s0 k cs c s)
    (hn : ¬ NextIs NameChar cs) : isHashCharacter c = false := by
  rcases h.le with rfl | ⟨hl, h2, _⟩
  · rfl
  · rcases h.not hn with rfl | h
    · rfl
    · exact bool_false (isHash_name hl h2) h

theorem At.notStart {s0 s : LS} {k c : Nat} {cs : List Nat} (h : At s0 k cs c s)
    (hn : ¬ NextIs NameStart cs) : isStartIdentifier c = false := by
  rcases h.le with rfl | ⟨hl, h2, _⟩
  · rfl
  · rcases h.not hn with rfl | h
    · rfl
    · exact bool_false (isStart_name hl h2) h

theorem _root_.Csspp.Spec.NextIs.mono {P Q : Nat → Prop} {cs : List Nat} (h : NextIs P cs) (hpq : ∀ c, P c → Q c) :
    NextIs Q cs := by
  obtain ⟨c, t, rfl, hp⟩ := h
  exact ⟨c, t, rfl, hpq c hp⟩

theorem nextIs_nil {P : Nat → Prop} : ¬ NextIs P [] := by rintro ⟨_, _, h, _⟩; cases h
theorem nextIs_cons {P : Nat → Prop} {c : Nat} {cs : List Nat} : NextIs P (c :: cs) ↔ P c :=
  ⟨by rintro ⟨_, _, h, hp⟩; cases h; exact hp, fun h => ⟨c, cs, rfl, h⟩⟩

theorem At.ne {s0 s : LS} {k c d : Nat} {cs : List Nat} (h : At s0 k cs c s) (hd : d ≠ eof)
    (hn : ¬ NextIs (fun x => x = d) cs) : c ≠ d := by
  rcases h.not hn with rfl | h
  · exact fun e => hd e.symm
  · exact h

/-! ### escape() -/

/-- The value of digits after others. -/
def hexFrom (v : Nat) (ds : List Nat) : Nat := ds.foldl (fun v d => 16 * v + hexDigitValue d) v

theorem hexValue_cons (d : Nat) (ds : List Nat) : hexValue (d :: ds) = hexFrom (hexDigitValue d) ds := by
  unfold hexValue hexFrom; simp

theorem hexFrom_ge (ds : List Nat) : ∀ v, v ≤ hexFrom v ds := by
  induction ds with
  | nil => intro v; exact Nat.le_refl _
  | cons d ds ih =>
    intro v
    have := ih (16 * v + hexDigitValue d)
    show v ≤ hexFrom (16 * v + hexDigitValue d) ds
    omega

/-- Reading digits in escape(). -/
theorem escLoop_digits {s0 : LS} (tl : List Nat) : ∀ (ds : List Nat) (j v k : Nat) (s : LS),
    (∀ d ∈ ds, Hex d) → hexFrom v ds ≤ 0x10FFFF → Rd s0 k (ds ++ tl) s →
    ∃ s', escLoop (j + ds.length) v s = escLoop j (hexFrom v ds) s' ∧ Rd s0 (k - ds.length) tl s' := by
  intro ds
  induction ds with
  | nil => intro j v k s _ _ h; exact ⟨s, rfl, h⟩
  | cons d ds ih =>
    intro j v k s hx hv h
    obtain ⟨s1, h1, r1⟩ := Rd.getc (show Rd s0 k (d :: (ds ++ tl)) s from h)
    have hd := hx d (by simp)
    have hv' : hexFrom (16 * v + hexDigitValue d) ds ≤ 0x10FFFF := hv
    obtain ⟨s', e1, e2⟩ := ih j (16 * v + hexDigitValue d) (k - 1) s1 (fun x hx' => hx x (by simp [hx'])) hv' r1
    refine ⟨s', ?_, e2.mono (by simp; omega)⟩
    have hl : j + (d :: ds).length = (j + ds.length) + 1 := by simp; omega
    rw [hl, escLoop, h1]
    dsimp only
    have hg := hexFrom_ge ds (16 * v + hexDigitValue d)
    rw [if_pos ((isHex_hex d).2 hd), hexVal_value hd, if_neg (by omega)]
    exact e1

theorem escape_ok {s0 s : LS} {cs rest : List Nat} {c k : Nat} (he : Escape cs c rest) (hk : k ≤ 2)
    (h : Rd s0 k cs s) : ∃ s', escape s = (c, s') ∧ Rd s0 1 rest s' := by
  have start : ∀ (d : Nat) (t : List Nat) (s1 : LS), At s0 (k - 1) (d :: t) d s1 → Hex d →
      getc s = (d, s1) → escape s = escEnd (escLoop 5 (hexDigitValue d) s1) := by
    intro d t s1 ha hd e
    obtain ⟨_, _, hr, hl, hne⟩ := ha.cons
    unfold escape
    rw [e]
    dsimp only
    have h10 : d ≠ 10 := by unfold Hex Dec at hd; omega
    rw [if_neg h10, if_neg hr.2, if_neg hne, if_pos ((isHex_hex d).2 hd), hexVal_value hd]
  have pos : ∀ (v : Nat) (s' : LS), 0 < v → escEnd (some v, s') = (v, s') := by
    intro v s' hv
    unfold escEnd
    dsimp only
    rw [if_neg (by omega)]
  cases he with
  | plain _ h10 hx =>
    obtain ⟨s1, e1, r1, hr, hl, hne⟩ := h.getc'
    refine ⟨s1, ?_, r1.mono (by omega)⟩
    unfold escape
    rw [e1]
    dsimp only
    rw [if_neg h10, if_neg hr.2, if_neg hne, bool_false (isHex_hex c) hx]
    rfl
  | @six ds _ hx hn hv =>
    cases ds with
    | nil => simp at hn
    | cons d ds =>
      have hd := hx d (by simp)
      obtain ⟨s1, e1, a1⟩ := h.at
      have r1 : Rd s0 (k - 1) (ds ++ rest) s1 := a1.tl
      rw [start d (ds ++ rest) s1 a1 hd e1, hexValue_cons]
      rw [hexValue_cons] at hv
      have hl : ds.length = 5 := by simpa using hn
      obtain ⟨s2, e2, r2⟩ := escLoop_digits rest ds 0 (hexDigitValue d) (k - 1) s1
        (fun x hx' => hx x (by simp [hx'])) hv.2 r1
      rw [hl] at e2
      rw [show (5 : Nat) = 0 + 5 from rfl, e2]
      unfold escLoop
      exact ⟨s2, pos _ _ hv.1, r2.mono (by omega)⟩
  | @short ds _ hx hn hv hend =>
    cases ds with
    | nil => simp at hn
    | cons d ds =>
      have hd := hx d (by simp)
      obtain ⟨s1, e1, a1⟩ := h.at
      have r1 : Rd s0 (k - 1) (ds ++ rest) s1 := a1.tl
      rw [start d (ds ++ rest) s1 a1 hd e1, hexValue_cons]
      rw [hexValue_cons] at hv
      have hl : ds.length < 5 := by simp at hn; omega
      obtain ⟨s2, e2, r2⟩ := escLoop_digits rest ds (5 - ds.length) (hexDigitValue d) (k - 1) s1
        (fun x hx' => hx x (by simp [hx'])) hv.2 r1
      rw [show (5 - ds.length) + ds.length = 5 by omega] at e2
      rw [e2]
      obtain ⟨s3, e3, a3⟩ := r2.at
      obtain ⟨j, hj⟩ : ∃ j, 5 - ds.length = j + 1 := ⟨4 - ds.length, by omega⟩
      rw [hj]
      unfold escLoop
      rw [e3]
      dsimp only
      rw [a3.notHex (fun hn => hend (hn.mono (fun _ h => .inl h))),
        a3.notSpace (fun hn => hend (hn.mono (fun _ h => .inr h)))]
      exact ⟨_, pos _ _ hv.1, (a3.unget (by omega)).mono (by omega)⟩
  | @spaced ds sp _ hx hn hv hs =>
    cases ds with
    | nil => simp at hn
    | cons d ds =>
      have hd := hx d (by simp)
      obtain ⟨s1, e1, a1⟩ := h.at
      have r1 : Rd s0 (k - 1) (ds ++ sp :: rest) s1 := a1.tl
      rw [start d (ds ++ sp :: rest) s1 a1 hd e1, hexValue_cons]
      rw [hexValue_cons] at hv
      have hl : ds.length < 5 := by simp at hn; omega
      obtain ⟨s2, e2, r2⟩ := escLoop_digits (sp :: rest) ds (5 - ds.length) (hexDigitValue d) (k - 1) s1
        (fun x hx' => hx x (by simp [hx'])) hv.2 r1
      rw [show (5 - ds.length) + ds.length = 5 by omega] at e2
      rw [e2]
      obtain ⟨s3, e3, r3⟩ := r2.getc
      obtain ⟨j, hj⟩ : ∃ j, 5 - ds.length = j + 1 := ⟨4 - ds.length, by omega⟩
      rw [hj]
      unfold escLoop
      rw [e3]
      dsimp only
      have hnx : isHex sp = false := bool_false (isHex_hex sp) (by
        unfold Hex Dec; unfold Blank at hs; omega)
      rw [hnx, (isSpace_blank sp).2 hs]
      exact ⟨_, pos _ _ hv.1, r3.mono (by omega)⟩

/-- An escape is not empty. -/
theorem _root_.Csspp.Spec.Escape.length {cs rest : List Nat} {c : Nat} (he : Escape cs c rest) : rest.length < cs.length := by
  cases he with
  | plain => simp
  | six _ _ hn => simp; omega
  | short _ _ hn => simp; omega
  | spaced => simp; omega

theorem encode_cons (c : Nat) (cs : List Nat) : encode (c :: cs) = (wctomb c).1 ++ encode cs := rfl
theorem encode_nil : encode [] = [] := rfl
theorem encode_append (a b : List Nat) : encode (a ++ b) = encode a ++ encode b := by
  unfold encode; simp

/-! ### string() -/

theorem ungetc_ok {c : Nat} {s : LS} (hr : Readable c) (hl : c ≤ 0x10FFFF) (h : s.un.length < 16) :
    ungetc c s = { s with un := c :: s.un } := by
  unfold ungetc
  rw [if_neg (fun h => h.elim (fun h => by unfold eof at h; omega) hr.2), if_neg (by omega),
    if_neg (by omega)]

theorem strEscape_ok {s0 s : LS} {es cs : List Nat} {c k : Nat} (he : Escape es c cs) (hk : k ≤ 2)
    (h : Rd s0 k es s) : ∃ s', strEscape s = (c, s') ∧ Rd s0 1 cs s' := by
  have hne : es ≠ [] := by intro hn; have := he.length; rw [hn] at this; simp at this
  obtain ⟨d, t, rfl⟩ : ∃ d t, es = d :: t := by
    cases es with
    | nil => exact absurd rfl hne
    | cons d t => exact ⟨d, t, rfl⟩
  obtain ⟨s1, e1, r1, hr, hl, hneo⟩ := h.getc'
  have h10 : d ≠ 10 := by
    rintro rfl
    generalize hg : (10 :: t) = es at he
    cases he with
    | plain _ h10 _ => cases hg; exact h10 rfl
    | @six ds _ hx hn _ =>
      cases ds with
      | nil => simp at hn
      | cons a ds => cases hg; have := hx 10 (by simp); unfold Hex Dec at this; omega
    | @short ds _ hx hn _ _ =>
      cases ds with
      | nil => simp at hn
      | cons a ds => cases hg; have := hx 10 (by simp); unfold Hex Dec at this; omega
    | @spaced ds _ _ hx hn _ _ =>
      cases ds with
      | nil => simp at hn
      | cons a ds => cases hg; have := hx 10 (by simp); unfold Hex Dec at this; omega
  obtain ⟨s', e2, r2⟩ := escape_ok (k := 2) he (Nat.le_refl _) ((r1.unget (by omega) hr hl).mono (by omega))
  refine ⟨s', ?_, r2⟩
  unfold strEscape
  rw [e1]
  dsimp only
  rw [if_neg h10, if_neg hneo, if_neg hr.2]
  exact e2

theorem strPut_ok {c : Nat} (hv : Valid c) (hc : c ≠ 0xFFFD) (str : Str) (s : LS) :
    strPut c str s = (str ++ (wctomb c).1, s) := by
  unfold strPut
  have := valid_le hv
  rw [if_neg (fun h => h.elim (fun h => by unfold eof at h; omega) hc)]
  exact put_ok (valid_enc hv) str s

theorem lexString_ok {s0 : LS} {q : Nat} (hq : q = 34 ∨ q = 39) {cs vs rest : List Nat}
    (h : Quoted q cs vs rest) : ∀ (f : Nat) (str : Str) (s : LS), cs.length < f → Rd s0 2 cs s →
    ∃ s', lexString q f str s = (str ++ encode vs, s') ∧ Rd s0 1 rest s' := by
  induction h with
  | close rest =>
    intro f str s hf hr
    obtain ⟨f, rfl⟩ : ∃ g, f = g + 1 := ⟨f - 1, by omega⟩
    obtain ⟨s1, e1, r1⟩ := hr.getc
    refine ⟨s1, ?_, r1⟩
    unfold lexString
    rw [e1]
    dsimp only
    rw [if_neg (by unfold eof; omega), if_neg (by omega), if_pos rfl]
    simp [encode_nil]
  | @char c cs vs rest hcq h10 h92 hv _ ih =>
    intro f str s hf hr
    obtain ⟨f, rfl⟩ : ∃ g, f = g + 1 := ⟨f - 1, by omega⟩
    obtain ⟨s1, e1, r1, hrd, hl, hne⟩ := hr.getc'
    obtain ⟨s', e2, r2⟩ := ih f (str ++ (wctomb c).1) s1 (by simp at hf; omega) (r1.mono (by omega))
    refine ⟨s', ?_, r2⟩
    unfold lexString
    rw [e1]
    dsimp only
    rw [if_neg hne, if_neg h10, if_neg hcq, if_neg h92]
    rw [strPut_ok hv hrd.2]
    dsimp only
    rw [e2, encode_cons, List.append_assoc]
  | @newline cs vs rest _ ih =>
    intro f str s hf hr
    obtain ⟨f, rfl⟩ : ∃ g, f = g + 1 := ⟨f - 1, by omega⟩
    obtain ⟨s1, e1, r1⟩ := hr.getc
    obtain ⟨s2, e2, r2⟩ := r1.getc
    have hv : Valid 10 := by unfold Valid Scalar Nonchar; omega
    obtain ⟨s', e3, r3⟩ := ih f (str ++ (wctomb 10).1) s2 (by simp at hf; omega) (r2.mono (by omega))
    refine ⟨s', ?_, r3⟩
    unfold lexString
    rw [e1]
    dsimp only
    rw [if_neg (by decide), if_neg (by decide), if_neg (by omega), if_pos rfl]
    unfold strEscape
    rw [e2]
    dsimp only
    rw [if_pos rfl]
    dsimp only
    rw [strPut_ok hv (by decide)]
    dsimp only
    rw [e3, encode_cons, List.append_assoc]
  | @escape c es cs vs rest he hc hv _ ih =>
    intro f str s hf hr
    obtain ⟨f, rfl⟩ : ∃ g, f = g + 1 := ⟨f - 1, by omega⟩
    obtain ⟨s1, e1, r1⟩ := hr.getc
    obtain ⟨s2, e2, r2⟩ := strEscape_ok he (by omega) r1
    have hlen := he.length
    obtain ⟨s', e3, r3⟩ := ih f (str ++ (wctomb c).1) s2 (by simp at hf; omega) (r2.mono (by omega))
    refine ⟨s', ?_, r3⟩
    unfold lexString
    rw [e1]
    dsimp only
    rw [if_neg (by decide), if_neg (by decide), if_neg (by omega), if_pos rfl, e2]
    dsimp only
    rw [strPut_ok hv hc]
    dsimp only
    rw [e3, encode_cons, List.append_assoc]
  | @lost es cs vs rest he _ ih =>
    intro f str s hf hr
    obtain ⟨f, rfl⟩ : ∃ g, f = g + 1 := ⟨f - 1, by omega⟩
    obtain ⟨s1, e1, r1⟩ := hr.getc
    obtain ⟨s2, e2, r2⟩ := strEscape_ok he (by omega) r1
    have hlen := he.length
    obtain ⟨s', e3, r3⟩ := ih f str s2 (by simp at hf; omega) (r2.mono (by omega))
    refine ⟨s', ?_, r3⟩
    unfold lexString
    rw [e1]
    dsimp only
    rw [if_neg (by decide), if_neg (by decide), if_neg (by omega), if_pos rfl, e2]
    dsimp only
    unfold strPut
    rw [if_pos (.inr rfl)]
    exact e3

/-! ### Names -/

theorem put_valid {c : Nat} (h : Valid c) (str : Str) (s : LS) : put c str s = (str ++ (wctomb c).1, s) :=
  put_ok (valid_enc h) str s

theorem put_lower {c : Nat} (h : Valid c) (str : Str) (s : LS) :
    put (toLower c) str s = (str ++ (wctomb (lowerByte c)).1, s) := put_ok (valid_enc (valid_lower h)) str s

/-- The run of characters of a name, and the state when it ends: the character that ended it was
read, unless it was cut. -/
theorem idLoop_ok {s0 : LS} {cs vs rest : List Nat} {cut : Bool} (h : NameTail cs vs cut rest) :
    ∀ (f : Nat) (id lo : Str) (s : LS), cs.length < f → Rd s0 2 cs s →
    ∃ c s', idLoop f id lo s = (id ++ encode vs, lo ++ encode (vs.map lowerByte), c, s') ∧
      (cut = false → At s0 1 rest c s') ∧ (cut = true → c = 0xFFFD ∧ Rd s0 1 rest s') := by
  induction h with
  | stop rest hn =>
    intro f id lo s hf hr
    obtain ⟨f, rfl⟩ : ∃ g, f = g + 1 := ⟨f - 1, by omega⟩
    obtain ⟨s1, e1, a1⟩ := hr.at
    refine ⟨rest.headD eof, s1, ?_, fun _ => a1, fun h => by cases h⟩
    unfold idLoop
    rw [e1]
    dsimp only
    rw [if_neg (a1.ne (d := 92) (by decide) (fun h => hn (h.mono (fun _ h => .inr h)))),
      a1.notIdent (fun h => hn (h.mono (fun _ h => .inl h)))]
    simp [encode_nil]
  | @char c cs vs rest cut hc hv _ ih =>
    intro f id lo s hf hr
    obtain ⟨f, rfl⟩ : ∃ g, f = g + 1 := ⟨f - 1, by omega⟩
    obtain ⟨s1, e1, r1, hrd, hl, hne⟩ := hr.getc'
    obtain ⟨c', s', e2, r2⟩ := ih f (id ++ (wctomb c).1) (lo ++ (wctomb (lowerByte c)).1) s1
      (by simp at hf; omega) (r1.mono (by omega))
    refine ⟨c', s', ?_, r2⟩
    have h92 : c ≠ 92 := by unfold NameChar VarChar Dec Letter at hc; omega
    unfold idLoop
    rw [e1]
    dsimp only
    rw [if_neg h92, if_pos (show isIdentifier (c) = true from (isIdentifier_name hl).2 hc)]
    rw [put_valid hv]
    dsimp only
    rw [put_lower hv]
    dsimp only
    rw [e2, List.map_cons, encode_cons, encode_cons, List.append_assoc, List.append_assoc]
  | @escape c es cs vs rest cut he hc hv _ ih =>
    intro f id lo s hf hr
    obtain ⟨f, rfl⟩ : ∃ g, f = g + 1 := ⟨f - 1, by omega⟩
    obtain ⟨s1, e1, r1⟩ := hr.getc
    obtain ⟨s2, e2, r2⟩ := escape_ok he (by omega) r1
    have hlen := he.length
    obtain ⟨c', s', e3, r3⟩ := ih f (id ++ (wctomb c).1) (lo ++ (wctomb (lowerByte c)).1) s2
      (by simp at hf; omega) (r2.mono (by omega))
    refine ⟨c', s', ?_, r3⟩
    unfold idLoop
    rw [e1]
    dsimp only
    rw [if_pos rfl, e2]
    dsimp only
    rw [if_neg hc, put_valid hv]
    dsimp only
    rw [put_lower hv]
    dsimp only
    rw [e3, List.map_cons, encode_cons, encode_cons, List.append_assoc, List.append_assoc]
  | @lost es rest he =>
    intro f id lo s hf hr
    obtain ⟨f, rfl⟩ : ∃ g, f = g + 1 := ⟨f - 1, by omega⟩
    obtain ⟨s1, e1, r1⟩ := hr.getc
    obtain ⟨s2, e2, r2⟩ := escape_ok he (by omega) r1
    refine ⟨0xFFFD, s2, ?_, (fun h => by cases h), fun _ => ⟨rfl, r2⟩⟩
    unfold idLoop
    rw [e1]
    dsimp only
    rw [if_pos rfl, e2]
    dsimp only
    rw [if_pos rfl]
    simp [encode_nil]

/-- hash(). -/
theorem hashLoop_ok {s0 : LS} {cs vs rest : List Nat} {cut : Bool} (h : NameTail cs vs cut rest) :
    ∀ (f : Nat) (str : Str) (s : LS), cs.length < f → Rd s0 2 cs s →
    ∃ s', hashLoop f str s = (str ++ encode vs, s') ∧ Rd s0 2 rest s' := by
  induction h with
  | stop rest hn =>
    intro f str s hf hr
    obtain ⟨f, rfl⟩ : ∃ g, f = g + 1 := ⟨f - 1, by omega⟩
    obtain ⟨s1, e1, a1⟩ := hr.at
    refine ⟨_, ?_, a1.unget (by omega)⟩
    unfold hashLoop
    rw [e1]
    dsimp only
    rw [if_neg (a1.ne (d := 92) (by decide) (fun h => hn (h.mono (fun _ h => .inr h)))),
      a1.notHash (fun h => hn (h.mono (fun _ h => .inl h)))]
    simp [encode_nil]
  | @char c cs vs rest cut hc hv _ ih =>
    intro f str s hf hr
    obtain ⟨f, rfl⟩ : ∃ g, f = g + 1 := ⟨f - 1, by omega⟩
    obtain ⟨s1, e1, r1, hrd, hl, hne⟩ := hr.getc'
    obtain ⟨s', e2, r2⟩ := ih f (str ++ (wctomb c).1) s1 (by simp at hf; omega) (r1.mono (by omega))
    refine ⟨s', ?_, r2⟩
    have h92 : c ≠ 92 := by unfold NameChar VarChar Dec Letter at hc; omega
    unfold hashLoop
    rw [e1]
    dsimp only
    rw [if_neg h92, if_pos (show isHashCharacter (c) = true from (isHash_name hl hrd.2).2 hc)]
    rw [put_valid hv]
    dsimp only
    rw [e2, encode_cons, List.append_assoc]
  | @escape c es cs vs rest cut he hc hv _ ih =>
    intro f str s hf hr
    obtain ⟨f, rfl⟩ : ∃ g, f = g + 1 := ⟨f - 1, by omega⟩
    obtain ⟨s1, e1, r1⟩ := hr.getc
    obtain ⟨s2, e2, r2⟩ := escape_ok he (by omega) r1
    have hlen := he.length
    obtain ⟨s', e3, r3⟩ := ih f (str ++ (wctomb c).1) s2 (by simp at hf; omega) (r2.mono (by omega))
    refine ⟨s', ?_, r3⟩
    unfold hashLoop
    rw [e1]
    dsimp only
    rw [if_pos rfl, e2]
    dsimp only
    rw [if_neg hc, put_valid hv]
    dsimp only
    rw [e3, encode_cons, List.append_assoc]
  | @lost es rest he =>
    intro f str s hf hr
    obtain ⟨f, rfl⟩ : ∃ g, f = g + 1 := ⟨f - 1, by omega⟩
    obtain ⟨s1, e1, r1⟩ := hr.getc
    obtain ⟨s2, e2, r2⟩ := escape_ok he (by omega) r1
    refine ⟨s2, ?_, r2.mono (by omega)⟩
    unfold hashLoop
    rw [e1]
    dsimp only
    rw [if_pos rfl, e2]
    dsimp only
    rw [if_pos rfl]
    simp [encode_nil]

end Csspp.Lex
