import Verif.Lemmas.LexSpell5

/-! The tokens of `Spec.Reads` are read by the lexer: all of them. -/

namespace Csspp.Lex
open Csspp.Utf8 Csspp.Spec

theorem punctuation_ok {s0 s : LS} {p rest : List Nat} {ty : NT} {c : Nat} (h : (p, ty) ∈ punctuation)
    (hl : ∀ p' ty', (p', ty') ∈ Spec.punctuation → p' <+: p ++ rest → p'.length ≤ p.length)
    (h1 : ¬ StartsNumber (p ++ rest)) (h2 : ¬ StartsName (p ++ rest))
    (h3 : ¬ StartsComment (p ++ rest)) (h4 : ¬ StartsVariable (p ++ rest)) (ha : At s0 2 (p ++ rest) c s) :
    Out s0 { ty := ty, warn := if p = b!"==" then some .doubleEqual else none } rest (lexChar c s) := by
  rcases punct_class h with ⟨d, rfl, hs⟩ | ⟨d, rfl, hs, ho⟩ | ⟨d, n, a, rfl, hs, ho, ht⟩ | hm
  · obtain ⟨rfl, r, _, _, hne⟩ := ha.cons
    rw [lexChar_simple hs hne, if_neg (by simp)]
    exact .mk rfl (holds_bare _ _ _) r.start (r.mono (by omega))
  · obtain ⟨rfl, r, _, _, hne⟩ := ha.cons
    rw [lexChar_op hs ho hne, if_neg (by simp)]
    exact lexOp_one hl r
  · obtain ⟨rfl, r, _, _, hne⟩ := ha.cons
    rw [lexChar_op hs ho hne]
    have := lexOp_two (a := a) ht r
    have he : (if [c, n] = b!"==" then some Rpt.doubleEqual else none) =
        if c = 61 then some Rpt.doubleEqual else none := by
      by_cases hc : c = 61
      · subst hc
        have hn : n = 61 := by
          unfold op2 at ht
          simp at ht
          exact ht.1
        rw [hn]; rfl
      · rw [if_neg hc, if_neg (fun e => hc (List.cons.inj e).1)]
    rw [he]
    exact this
  · obtain ⟨g1, g2, g3⟩ := noNum h1
    simp only [List.mem_cons, List.not_mem_nil, or_false] at hm
    rcases hm with hm | hm | hm | hm | hm | hm | hm | hm | hm | hm
    all_goals
      obtain ⟨rfl, rfl⟩ := Prod.mk.inj hm
      obtain ⟨rfl, r, _, _, hne⟩ := ha.cons
    · exact lexLess_one hl r
    · exact lexLess_two r
    · exact lexLess_cdo r
    · obtain ⟨k1, k2⟩ := g3 43 rest rfl (.inl rfl)
      obtain ⟨n, s1, e, a⟩ := lexPlusMinus_sign (c := 43) k1 k2 r
      show Out s0 _ rest (lexPlusMinus 43 s)
      rw [e]
      exact lexSign_plus a
    · obtain ⟨k1, k2⟩ := g3 45 rest rfl (.inr rfl)
      obtain ⟨n, s1, e, a⟩ := lexPlusMinus_sign (c := 45) k1 k2 r
      show Out s0 _ rest (lexPlusMinus 45 s)
      rw [e]
      exact lexSign_minus a hl (fun hn => h2 (.inr ⟨rest, rfl, hn⟩)) k1
    · obtain ⟨k1, k2⟩ := g3 45 (45 :: 62 :: rest) rfl (.inr rfl)
      obtain ⟨n, s1, e, a⟩ := lexPlusMinus_sign (c := 45) k1 k2 r
      show Out s0 _ rest (lexPlusMinus 45 s)
      rw [e]
      obtain ⟨rfl, _⟩ := a.cons
      exact lexSign_cdc a
    · exact lexPeriod_one (g2 rest rfl) r
    · exact lexDollar_one hl (fun hv => h4 ⟨rest, rfl, hv⟩) r
    · exact lexDollar_two r
    · exact lexSlash_one h3 r

/-! ### Names -/

theorem simple_none {c : Nat} (h : NameStart c ∨ c = 92 ∨ Dec c) : simple c = none ∧ op1 c = none := by
  unfold NameStart Letter Dec at h
  unfold simple op1
  constructor
  · repeat rw [if_neg (by omega)]
  · repeat rw [if_neg (by omega)]

/-- The state when an identifier starts. -/
theorem lexChar_name {s0 s : LS} {cs : List Nat} {c : Nat} (hs : StartsName cs) (hr : ¬ StartsRange cs)
    (ha : At s0 2 cs c s) :
    ∃ s1, At s0 2 cs c s1 ∧ (lexChar c s).2 = (idRest .IDENTIFIER (idDash .IDENTIFIER c s1)).2 ∧
      ((idRest .IDENTIFIER (idDash .IDENTIFIER c s1)).1.ty ≠ .EOF_TOKEN →
        (lexChar c s).1 = some (idRest .IDENTIFIER (idDash .IDENTIFIER c s1)).1) := by
  rcases hs with ⟨d, t, rfl, hd⟩ | ⟨t, rfl, hn⟩
  · obtain ⟨rfl, r, hread, hle, hne⟩ := ha.cons
    have hid : ∀ s1, identifier c s1 = idRest .IDENTIFIER (idDash .IDENTIFIER c s1) := by
      intro s1
      unfold identifier
      unfold NameStart Letter at hd
      rw [if_neg (by omega), if_neg (by omega)]
    have hsm : simple c = none ∧ op1 c = none := simple_none (by rcases hd with h | h <;> simp [h])
    have hlx : lexChar c s = lexOther c s := by unfold lexChar; rw [if_neg hne, hsm.1, hsm.2]
    rw [hlx]
    unfold lexOther
    have hb : isSpace c = false := bool_false (isSpace_blank c) (by
      unfold Blank; unfold NameStart Letter at hd; omega)
    have hdg : isDigit c = false := bool_false (isDigit_dec c) (by
      unfold Dec; unfold NameStart Letter at hd; omega)
    unfold NameStart Letter at hd
    rw [if_neg (by omega), if_neg (by omega), if_neg (by omega), if_neg (by omega), if_neg (by omega),
      if_neg (by omega), if_neg (by rw [hb]; simp; omega), if_neg (by rw [hdg]; decide), if_neg (by omega),
      if_neg (by omega)]
    by_cases h92 : c = 92
    · rw [if_pos (.inl h92)]
      refine ⟨s, ha, ?_, ?_⟩
      · unfold lexId
        rw [hid]
        dsimp only
        split <;> rfl
      · intro ht
        unfold lexId
        rw [hid]
        dsimp only
        rw [if_neg ht]
    · rw [if_neg (by omega)]
      by_cases hu : c = 117 ∨ c = 85
      · rw [if_pos hu]
        unfold lexU
        obtain ⟨s1, e1, a1⟩ := r.at
        rw [e1]
        dsimp only
        by_cases h43 : t.headD eof = 43
        · rw [if_pos h43]
          obtain ⟨t, rfl⟩ := a1.cons' h43 (by decide)
          obtain ⟨_, r1, hr1, hl1, _⟩ := a1.cons
          obtain ⟨s2, e2, a2⟩ := r1.at
          rw [e2]
          dsimp only
          have hno : ¬ (isHex (t.headD eof) = true ∨ t.headD eof = 63) := by
            intro hx
            apply hr
            refine ⟨c, t, rfl, by omega, ?_⟩
            rcases hx with hx | hx
            · refine a2.next ?_ (.inl ((isHex_hex _).1 hx))
              intro he; rw [he] at hx; exact absurd hx (by decide)
            · exact a2.next (by rw [hx]; decide) (.inr hx)
          rw [if_neg hno]
          have ra := ((a2.unget (by omega)).unget (by omega) hr1 hl1)
          refine ⟨ungetc 43 (ungetc (t.headD eof) s2), ⟨rfl, ra.mono (by omega), ha.mem⟩, ?_, ?_⟩
          · show (identifier c _).2 = _
            rw [hid]
            rfl
          · intro _
            show some (identifier c _).1 = _
            rw [hid]
            rfl
        · rw [if_neg h43]
          have ra := a1.unget (by omega)
          refine ⟨ungetc (t.headD eof) s1, ⟨rfl, ra.mono (by omega), ha.mem⟩, ?_, ?_⟩
          · show (identifier c _).2 = _
            rw [hid]
          · intro _
            show some (identifier c _).1 = _
            rw [hid]
      · rw [if_neg hu]
        have hst : isStartIdentifier c = true := (isStart_name hle hread.2).2 (by unfold NameStart Letter; omega)
        rw [if_pos hst]
        refine ⟨s, ha, ?_, ?_⟩
        · show (identifier c _).2 = _
          rw [hid]
        · intro _
          show some (identifier c _).1 = _
          rw [hid]
  · obtain ⟨rfl, r, hread, hle, hne⟩ := ha.cons
    have hn' := hn
    obtain ⟨n, u, rfl, hd⟩ := hn'
    have hd' : NameStart n ∨ n = 92 := hd
    have k1 : ¬ NextIs Dec (n :: u) := by
      rw [nextIs_cons]; unfold Dec; unfold NameStart Letter at hd'; omega
    have k2 : ∀ v, n :: u = 46 :: v → ¬ NextIs Dec v := by
      intro v e
      have := (List.cons.inj e).1
      unfold NameStart Letter at hd'; omega
    obtain ⟨m, s1, e, a⟩ := lexPlusMinus_sign (c := 45) k1 k2 r
    obtain ⟨rfl, r1, hr1, hl1, hne1⟩ := a.cons
    have hlx : lexChar 45 s = lexPlusMinus 45 s := rfl
    rw [hlx, e]
    unfold lexSign
    have hcond : (isIdentifier m = true ∨ m = 92) ∧ ¬ isDigit m = true := by
      constructor
      · rcases hd' with h | h
        · left
          rw [isIdentifier_name hl1]
          unfold NameChar VarChar
          unfold NameStart at h
          rcases h with h | h | h
          · exact .inl (.inr (.inl h))
          · exact .inl (.inr (.inr (.inr h)))
          · exact .inr h
        · exact .inr h
      · rw [isDigit_dec]
        intro h; exact k1 ⟨m, u, rfl, h⟩
    rw [if_neg (by decide), if_neg (by unfold NameStart Letter at hd'; omega), if_pos hcond]
    have ra := a.unget (by omega)
    refine ⟨ungetc m s1, ⟨rfl, ra.mono (by omega), ha.mem⟩, rfl, fun _ => rfl⟩

theorem name_out {s0 : LS} {o : Option Tok × LS} {r : Tok × LS} {l : Lexeme} {rest : List Nat} {t : Tok} {s' : LS}
    (e : r = (t, s')) (h2 : o.2 = r.2) (h1 : r.1.ty ≠ .EOF_TOKEN → o.1 = some r.1)
    (hty : t.ty ≠ .EOF_TOKEN) (hw : l.warn = none) (ht : Holds t l) (hp : t.pos = s0.start) (h : Rd s0 2 rest s') :
    Out s0 l rest o := by
  subst e
  obtain ⟨o1, o2⟩ := o
  have e2 : o2 = s' := h2
  have e1 : o1 = some t := h1 hty
  rw [e1, e2]
  exact .mk hw ht hp (h.mono (by omega))

theorem _root_.Csspp.Spec.NameBody.starts {cs vs rest : List Nat} {cut : Bool} (h : NameBody cs vs cut rest) :
    NextIs (fun c => NameStart c ∨ c = 92) cs := by
  cases h with
  | char h _ _ => exact ⟨_, _, rfl, .inl h⟩
  | escape _ _ _ _ => exact ⟨_, _, rfl, .inr rfl⟩
  | lost _ _ => exact ⟨_, _, rfl, .inr rfl⟩

theorem _root_.Csspp.Spec.Name.starts {cs vs rest : List Nat} {cut : Bool} (h : Name cs vs cut rest) :
    StartsName cs := by
  cases h with
  | dash h => exact .inr ⟨_, rfl, h.starts⟩
  | plain h _ => exact .inl h.starts

theorem holds_name (s0 : LS) (ty : NT) {vs : List Nat} (hv : ∀ c ∈ vs, Valid c) :
    Holds { s0.tok ty with str := encode vs, lower := encode (vs.map lowerByte) }
      { ty := ty, text := vs, low := vs.map lowerByte } :=
  ⟨rfl, valid_utf8 hv, valid_utf8 (valid_map hv), rfl, rfl, rfl, rfl⟩

theorem holds_text (s0 : LS) (ty : NT) {vs : List Nat} (hv : ∀ c ∈ vs, Valid c) (i : Int) (w : Option Rpt) :
    Holds { s0.tok ty with str := encode vs, int := i } { ty := ty, text := vs, int := i, warn := w } :=
  ⟨rfl, valid_utf8 hv, .nil, rfl, rfl, rfl, rfl⟩

theorem _root_.Csspp.Spec.Quoted.valid {q : Nat} {cs vs rest : List Nat} (h : Quoted q cs vs rest) :
    ∀ c ∈ vs, Valid c := by
  induction h with
  | close => intro c hc; cases hc
  | char _ _ _ hv _ ih =>
    intro x hx
    rcases List.mem_cons.1 hx with rfl | hx
    · exact hv
    · exact ih x hx
  | newline _ ih =>
    intro x hx
    rcases List.mem_cons.1 hx with rfl | hx
    · unfold Valid Scalar Nonchar; omega
    · exact ih x hx
  | escape _ _ hv _ ih =>
    intro x hx
    rcases List.mem_cons.1 hx with rfl | hx
    · exact hv
    · exact ih x hx
  | lost _ _ ih => exact ih

theorem _root_.Csspp.Spec.UrlBody.valid {cs vs rest : List Nat} (h : UrlBody cs vs rest) :
    ∀ c ∈ vs, Valid c := by
  cases h with
  | quoted _ _ h _ => exact h.valid
  | plain _ _ _ hv _ => exact hv

/-- `%` followed by the start of a name. -/
theorem lexPercent_name {s0 s : LS} {cs : List Nat} (hs : NextIs NameStart cs) (h : Rd s0 2 cs s) :
    ∃ c s1, At s0 2 cs c s1 ∧ (lexPercent s).2 = (idRest .PLACEHOLDER (idDash .PLACEHOLDER c s1)).2 ∧
      ((idRest .PLACEHOLDER (idDash .PLACEHOLDER c s1)).1.ty ≠ .EOF_TOKEN →
        (lexPercent s).1 = some (idRest .PLACEHOLDER (idDash .PLACEHOLDER c s1)).1) := by
  obtain ⟨n, t, rfl, hn⟩ := hs
  obtain ⟨s1, e1, r1, hr, hle, hne⟩ := h.getc'
  have r2 := r1.unget (by omega) hr hle
  obtain ⟨s3, e3, r3, _⟩ := r2.getc'
  unfold lexPercent
  rw [e1]
  dsimp only
  rw [if_pos ((isStart_name hle hr.2).2 hn)]
  unfold lexId identifier
  rw [if_pos rfl, e3]
  dsimp only
  refine ⟨n, s3, ⟨rfl, r3.mono (by omega), h.mem⟩, ?_, ?_⟩
  · split <;> rfl
  · intro ht
    rw [if_neg ht]

theorem lexId_at {s0 s : LS} {cs : List Nat} (h : Rd s0 2 cs s) :
    ∃ c s1, At s0 2 cs c s1 ∧ (lexId 64 s).2 = (idRest .AT_KEYWORD (idDash .AT_KEYWORD c s1)).2 ∧
      ((idRest .AT_KEYWORD (idDash .AT_KEYWORD c s1)).1.ty ≠ .EOF_TOKEN →
        (lexId 64 s).1 = some (idRest .AT_KEYWORD (idDash .AT_KEYWORD c s1)).1) := by
  obtain ⟨s1, e1, a1⟩ := h.at
  unfold lexId identifier
  rw [if_neg (by decide), if_pos rfl, e1]
  dsimp only
  refine ⟨_, s1, a1.mono (by omega), ?_, ?_⟩
  · split <;> rfl
  · intro ht
    rw [if_neg ht]

/-! ### Numbers -/

/-- The state when a number starts. -/
theorem lexChar_number {s0 s : LS} {cs : List Nat} {c : Nat} (hs : StartsNumber cs) (ha : At s0 2 cs c s) :
    ∃ s1, At s0 2 cs c s1 ∧ lexChar c s = found (number c s1) := by
  rcases hs with ⟨d, t, rfl, hd⟩ | ⟨t, rfl, hd⟩ | ⟨d, t, rfl, hd, hn⟩
  · obtain ⟨rfl, r, hread, hle, hne⟩ := ha.cons
    have hsm := simple_none (.inr (.inr hd))
    refine ⟨s, ha, ?_⟩
    unfold lexChar
    rw [if_neg hne, hsm.1, hsm.2]
    dsimp only
    have hdg : isDigit c = true := (isDigit_dec c).2 hd
    have hb : isSpace c = false := bool_false (isSpace_blank c) (by unfold Blank; unfold Dec at hd; omega)
    unfold lexOther
    unfold Dec at hd
    rw [if_neg (by omega), if_neg (by omega), if_neg (by omega), if_neg (by omega), if_neg (by omega),
      if_neg (by omega), if_neg (by rw [hb]; simp; omega), if_pos hdg]
  · obtain ⟨rfl, r, hread, hle, hne⟩ := ha.cons
    obtain ⟨d, u, rfl, hd⟩ := hd
    obtain ⟨s1, e1, r1, hr, hl, _⟩ := r.getc'
    refine ⟨ungetc d s1, ⟨rfl, (r1.unget (by omega) hr hl).mono (by omega), ha.mem⟩, ?_⟩
    show lexPeriod s = _
    unfold lexPeriod
    rw [e1]
    dsimp only
    rw [if_pos ((isDigit_dec d).2 hd)]
  · obtain ⟨rfl, r, hread, hle, hne⟩ := ha.cons
    have hlx : lexChar c s = lexPlusMinus c s := by rcases hd with rfl | rfl <;> rfl
    rw [hlx]
    unfold lexPlusMinus
    rcases hn with ⟨n, u, rfl, hn⟩ | ⟨u, rfl, v, w, rfl, hv⟩
    · obtain ⟨s1, e1, r1, hr, hl, _⟩ := r.getc'
      rw [e1]
      dsimp only
      rw [if_pos ((isDigit_dec n).2 hn)]
      exact ⟨_, ⟨rfl, (r1.unget (by omega) hr hl).mono (by omega), ha.mem⟩, rfl⟩
    · obtain ⟨s1, e1, r1, hr, hl, _⟩ := r.getc'
      obtain ⟨s2, e2, r2, hr2, hl2, _⟩ := r1.getc'
      rw [e1]
      dsimp only
      rw [if_neg (by decide), if_pos rfl, e2]
      dsimp only
      rw [if_pos ((isDigit_dec v).2 hv)]
      exact ⟨_, ⟨rfl, ((r2.unget (by omega) hr2 hl2).unget (by omega) hr hl).mono (by omega), ha.mem⟩, rfl⟩

theorem numNode_pos (hs ng : Bool) (i : Int) (fr : List Nat) (d : Bool) (e : Int) (dim : Str) (pc : Bool)
    (s : LS) : (numNode hs ng i fr d e dim pc s).1.pos = (numNode hs ng i fr d e dim pc s).2.start := by
  unfold numNode
  split
  · cases pc <;> rfl
  · cases ng
    · rfl
    · cases h : overflows (-i) <;> rfl

theorem number_pos (c : Nat) (s : LS) : (number c s).1.pos = (number c s).2.start := by
  unfold number
  split <;> (unfold numBody; exact numNode_pos _ _ _ _ _ _ _ _ _)

theorem rangeTok_pos (a b d : Nat) (s : LS) : (rangeTok a b d s).1.pos = (rangeTok a b d s).2.start := by
  unfold rangeTok
  split <;> rfl

theorem rangePlain_pos (a b d : Nat) (s : LS) : (rangePlain a b d s).1.pos = (rangePlain a b d s).2.start := by
  unfold rangePlain
  split
  · rfl
  · exact rangeTok_pos _ _ _ _

theorem unicodeRange_pos (d : Nat) (s : LS) : (unicodeRange d s).1.pos = (unicodeRange d s).2.start := by
  unfold unicodeRange
  rcases rangeLoop 6 0 0 false d s with ⟨st, en, _ | _, d, s⟩
  · unfold rangeRest
    dsimp only
    split <;> exact rangePlain_pos _ _ _ _
  · unfold rangeRest
    dsimp only
    split <;> exact rangeTok_pos _ _ _ _

/-! ### The whole step -/

theorem lexStep_at {s : LS} {cs : List Nat} {k : Nat} (h : Rd s k cs s) (hk : k ≤ 3) :
    ∃ c s1, lexStep s = lexChar c s1 ∧ At { s with start := s.pos } 2 cs c s1 := by
  obtain ⟨s1, e, a⟩ := (h.mono hk).start'.at
  unfold lexStep
  rw [e]
  exact ⟨_, _, rfl, a.mono (by omega)⟩

theorem lexChar_reads {s0 s : LS} {cs rest : List Nat} {l : Lexeme} {c : Nat} (h : Reads cs l rest)
    (ha : At s0 2 cs c s) : Out s0 l rest (lexChar c s) := by
  cases h with
  | eof =>
    obtain ⟨rfl, r⟩ := ha.nil
    exact .mk rfl (holds_bare _ _ _) r.start (r.mono (by omega))
  | punctuation h hl h1 h2 h3 h4 => exact punctuation_ok h hl h1 h2 h3 h4 ha
  | @modulo cs h =>
    obtain ⟨rfl, r, _⟩ := ha.cons
    obtain ⟨s1, e1, a1⟩ := r.at
    show Out s0 _ _ (lexPercent s)
    unfold lexPercent
    rw [e1]
    dsimp only
    rw [if_neg (by rw [a1.notStart h]; decide)]
    exact .mk rfl (holds_bare _ _ _) a1.tl.start (a1.tl.mono (by omega))
  | @spaces sp _ h hn he =>
    cases sp with
    | nil => exact absurd rfl hn
    | cons d sp =>
      obtain ⟨rfl, r, _⟩ := ha.cons
      have hb := h c (by simp)
      have hlx : lexChar c s = lexSpaces s := by
        unfold Blank at hb
        rcases hb with rfl | rfl | rfl <;> rfl
      rw [hlx]
      have hf := r.fuel
      have r1 := skipLead_ok isSpace_blank rfl he sp s.fuel s (fun c hc => h c (by simp [hc]))
        (by simp at hf; omega) r
      exact .mk rfl (holds_bare _ _ _) r1.start (r1.mono (by omega))
  | @string q cs vs _ hq h =>
    obtain ⟨rfl, r, _⟩ := ha.cons
    have hlx : lexChar c s = lexQuote c s := by rcases hq with rfl | rfl <;> rfl
    rw [hlx]
    obtain ⟨s1, e1, r1⟩ := lexString_ok hq h s.fuel [] s r.fuel r
    unfold lexQuote
    rw [e1]
    exact .mk rfl (holds_text s1 .STRING h.valid 0 none) r1.start (r1.mono (by omega))
  | @identifier cs vs _ cut hr h he =>
    obtain ⟨s1, a1, e2, e1⟩ := lexChar_name h.starts hr ha
    obtain ⟨s2, e3, r⟩ := name_token (ty := .IDENTIFIER) h (.inr he) a1
    exact name_out e3 e2 e1 (by simp [LS.tok]) rfl (holds_name s0 _ h.valid) rfl r
  | @function cs vs _ hr h hu =>
    obtain ⟨s1, a1, e2, e1⟩ := lexChar_name h.starts hr ha
    obtain ⟨s2, e3, r⟩ := function_token (ty := .IDENTIFIER) h (by decide) hu a1
    exact name_out e3 e2 e1 (by simp [LS.tok]) rfl (holds_text s0 _ (valid_map h.valid) 0 none) rfl r
  | @url cs vs us rest1 _ hr h hu hb =>
    obtain ⟨s1, a1, e2, e1⟩ := lexChar_name h.starts hr ha
    obtain ⟨s2, e3, r⟩ := url_token (ty := .IDENTIFIER) h (by decide) hu hb a1
    exact name_out e3 e2 e1 (by simp [LS.tok]) rfl (holds_text s0 _ hb.valid 0 none) rfl r
  | @atKeyword cs vs _ cut h =>
    obtain ⟨rfl, r, _⟩ := ha.cons
    obtain ⟨d, s1, a1, e2, e1⟩ := lexId_at r
    obtain ⟨s2, e3, r⟩ := name_token (ty := .AT_KEYWORD) h (.inl rfl) a1
    exact name_out (o := lexId 64 s) e3 e2 e1 (by simp [LS.tok]) rfl (holds_name s0 _ h.valid) rfl r
  | @placeholder cs vs _ cut hs h he =>
    obtain ⟨rfl, r, _⟩ := ha.cons
    obtain ⟨d, s1, a1, e2, e1⟩ := lexPercent_name hs r
    obtain ⟨s2, e3, r⟩ := name_token (ty := .PLACEHOLDER) h (.inr he) a1
    exact name_out (o := lexPercent s) e3 e2 e1 (by simp [LS.tok]) rfl (holds_name s0 _ h.valid) rfl r
  | @placeholderFunction cs vs _ hs h hu =>
    obtain ⟨rfl, r, _⟩ := ha.cons
    obtain ⟨d, s1, a1, e2, e1⟩ := lexPercent_name hs r
    obtain ⟨s2, e3, r⟩ := function_token (ty := .PLACEHOLDER) h (by decide) hu a1
    exact name_out (o := lexPercent s) e3 e2 e1 (by simp [LS.tok]) rfl
      (holds_text s0 _ (valid_map h.valid) 0 none) rfl r
  | @placeholderUrl cs vs us rest1 _ hs h hu hb =>
    obtain ⟨rfl, r, _⟩ := ha.cons
    obtain ⟨d, s1, a1, e2, e1⟩ := lexPercent_name hs r
    obtain ⟨s2, e3, r⟩ := url_token (ty := .PLACEHOLDER) h (by decide) hu hb a1
    exact name_out (o := lexPercent s) e3 e2 e1 (by simp [LS.tok]) rfl (holds_text s0 _ hb.valid 0 none) rfl r
  | @hash cs vs _ cut h hn =>
    obtain ⟨rfl, r, _⟩ := ha.cons
    show Out s0 _ rest (hash s)
    unfold hash
    obtain ⟨s1, e1, r1⟩ := hashLoop_ok h s.fuel [] s r.fuel r
    rw [e1]
    unfold hashEnd
    rw [List.nil_append]
    dsimp only
    rw [if_neg (encode_ne hn h.valid)]
    exact .mk rfl (holds_text s1 .HASH h.valid 0 none) r1.start (r1.mono (by omega))
  | @variableName vs _ h hn he hp =>
    obtain ⟨rfl, r, _⟩ := ha.cons
    cases vs with
    | nil => exact absurd rfl hn
    | cons d vs =>
      have hd := h d (by simp)
      obtain ⟨s1, e1, r1, hr1, hl1, _⟩ := Rd.getc' (cs := vs ++ rest) r
      show Out s0 _ rest (lexDollar s)
      unfold lexDollar
      rw [e1]
      dsimp only
      rw [if_neg (by unfold VarChar Dec Letter at hd; omega), if_pos ((isVariable_var d).2 hd)]
      unfold variable'
      have hf := r1.fuel
      obtain ⟨x, s2, e2, a2⟩ := varLoop_ok he (d :: vs) (s1.fuel + 1) [] d s1 (by simp) h
        (by simp at hf ⊢; omega) ⟨rfl, r1.mono (by omega), r.mem⟩
      rw [e2]
      unfold varEnd found
      dsimp only
      have h40 : x ≠ 40 := by
        intro hx
        obtain ⟨t, rfl⟩ := a2.cons' hx (by decide)
        exact hp t rfl
      rw [if_neg h40]
      exact .mk rfl (holds_text s2 .VARIABLE (varText_valid h) 0 none) a2.tl.start ((a2.unget (by omega)).mono (by omega))
  | @variableFunction vs _ h hn =>
    obtain ⟨rfl, r, _⟩ := ha.cons
    cases vs with
    | nil => exact absurd rfl hn
    | cons d vs =>
      have hd := h d (by simp)
      obtain ⟨s1, e1, r1, hr1, hl1, _⟩ := Rd.getc' (cs := vs ++ 40 :: rest) r
      show Out s0 _ rest (lexDollar s)
      unfold lexDollar
      rw [e1]
      dsimp only
      rw [if_neg (by unfold VarChar Dec Letter at hd; omega), if_pos ((isVariable_var d).2 hd)]
      unfold variable'
      have hf := r1.fuel
      obtain ⟨x, s2, e2, a2⟩ := varLoop_ok (rest := 40 :: rest)
        (by rw [nextIs_cons]; unfold VarChar Dec Letter; omega) (d :: vs) (s1.fuel + 1) [] d s1 (by simp) h
        (by simp at hf ⊢; omega) ⟨rfl, r1.mono (by omega), r.mem⟩
      obtain ⟨rfl, r2, _⟩ := a2.cons
      rw [e2]
      unfold varEnd found
      dsimp only
      rw [if_pos rfl]
      exact .mk rfl (holds_text s2 .VARIABLE_FUNCTION (varText_valid h) 0 none) r2.start (r2.mono (by omega))
  | number h h1 h2 hi h3 h4 h5 =>
    obtain ⟨s1, a1, e⟩ := lexChar_number h ha
    obtain ⟨t, s2, e2, ht, r⟩ := number_ok h1 h2 hi h3 h4 h5 a1
    have hp := number_pos c s1
    rw [e2] at hp
    rw [e, e2]
    refine .mk ?_ ht (hp.trans r.start) r
    unfold numberLexeme
    repeat' split
    all_goals rfl
  | @range u a b cs _ hu h =>
    obtain ⟨rfl, r, _⟩ := ha.cons
    have hlx : lexChar c s = lexU c s := by rcases hu with rfl | rfl <;> rfl
    rw [hlx]
    obtain ⟨s1, e1, r1, _⟩ := r.getc'
    obtain ⟨s2, e2, a2⟩ := r1.at
    unfold lexU
    rw [e1]
    dsimp only
    rw [if_pos rfl, e2]
    dsimp only
    have hx : isHex (cs.headD eof) = true ∨ cs.headD eof = 63 := by
      cases h with
      | @mask ds _ q hx hq _ _ _ =>
        cases ds with
        | nil =>
          obtain ⟨q, rfl⟩ : ∃ j, q = j + 1 := ⟨q - 1, by omega⟩
          exact .inr rfl
        | cons d ds => exact .inl ((isHex_hex d).2 (hx d (by simp)))
      | @pair ds es _ hx hn _ _ _ _ =>
        cases ds with
        | nil => simp at hn
        | cons d ds => exact .inl ((isHex_hex d).2 (hx d (by simp)))
      | @one ds _ hx hn _ _ _ =>
        cases ds with
        | nil => simp at hn
        | cons d ds => exact .inl ((isHex_hex d).2 (hx d (by simp)))
    rw [if_pos hx]
    obtain ⟨t, s3, e3, ht, r3⟩ := unicodeRange_ok h (a2.mono (by omega))
    have hp := unicodeRange_pos (cs.headD eof) s2
    rw [e3] at hp
    rw [e3]
    exact .mk rfl ht (hp.trans r3.start) r3
  | @comment cs body left text _ h hl hp ht =>
    obtain ⟨rfl, hno, hv⟩ := h
    obtain ⟨rfl, r, _⟩ := ha.cons
    obtain ⟨s1, e1, r1, _⟩ := r.getc'
    show Out s0 _ rest (lexSlash s)
    unfold lexSlash
    rw [e1]
    dsimp only
    rw [if_pos rfl]
    obtain ⟨s2, r2, _, h2⟩ := cComment_ok hno hv hl (r1.mono (by omega))
    rw [h2 text hp ht]
    have hvt : ∀ c ∈ text, Valid c := by
      obtain ⟨b1, rfl, _⟩ := hl
      obtain ⟨b2, rfl, _⟩ := ht
      exact fun c hc => hv c (by simp [hc])
    exact .mk rfl (holds_text s0 .COMMENT hvt 1 none) rfl (r2.mono (by omega))
  | @lineComment cs body text _ h hp ht =>
    obtain ⟨b, t, rfl, hb, hnb, hl⟩ := h
    obtain ⟨rfl, r, _⟩ := ha.cons
    obtain ⟨s1, e1, r1, _⟩ := r.getc'
    show Out s0 _ rest (lexSlash s)
    unfold lexSlash
    rw [e1]
    dsimp only
    rw [if_neg (by decide), if_pos rfl]
    obtain ⟨s2, r2, _, h2⟩ := lineComment_ok hb hnb hl (r1.mono (by omega))
    rw [h2 text hp ht]
    have hvt : ∀ c ∈ text, Valid c := by
      obtain ⟨b2, rfl, _⟩ := ht
      exact fun c hc => hl.valid c (by simp [hc])
    exact ⟨_, s2, rfl, holds_text s0 .COMMENT hvt 0 _, rfl, r2⟩

theorem lexChar_dropped {s0 s : LS} {cs rest : List Nat} {c : Nat} (h : Dropped cs rest)
    (ha : At s0 2 cs c s) : ∃ s1, lexChar c s = (none, s1) ∧ Rd s0 3 rest s1 := by
  cases h with
  | @comment body left _ h hl hp =>
    obtain ⟨rfl, hno, hv⟩ := h
    obtain ⟨rfl, r, _⟩ := ha.cons
    obtain ⟨s1, e1, r1, _⟩ := r.getc'
    show ∃ s1, lexSlash s = (none, s1) ∧ _
    unfold lexSlash
    rw [e1]
    dsimp only
    rw [if_pos rfl]
    obtain ⟨s2, r2, h2, _⟩ := cComment_ok hno hv hl (r1.mono (by omega))
    exact ⟨s2, h2 hp, r2.mono (by omega)⟩
  | @lineComment body _ h hp =>
    obtain ⟨b, t, rfl, hb, hnb, hl⟩ := h
    obtain ⟨rfl, r, _⟩ := ha.cons
    obtain ⟨s1, e1, r1, _⟩ := r.getc'
    show ∃ s1, lexSlash s = (none, s1) ∧ _
    unfold lexSlash
    rw [e1]
    dsimp only
    rw [if_neg (by decide), if_pos rfl]
    obtain ⟨s2, r2, h2, _⟩ := lineComment_ok hb hnb hl (r1.mono (by omega))
    rw [h2 hp]
    exact ⟨s2, rfl, r2⟩

end Csspp.Lex
