import Verif.Lemmas.LexSpell

/-! Reading a text that spells a token, continued: identifiers, URLs and numbers. -/

namespace Csspp.Lex
open Csspp.Utf8 Csspp.Spec

theorem Rd.weak {s0 s : LS} {k : Nat} {cs : List Nat} (h : Rd s0 k cs s) (hk : k ≤ 2) : Rd s0 2 cs s :=
  h.mono hk

/-- A token made with a state that started with s0. -/
theorem Rd.tok {s0 s : LS} {k : Nat} {cs : List Nat} (h : Rd s0 k cs s) (ty : NT) :
    s.tok ty = s0.tok ty := by
  unfold LS.tok; rw [h.start]

theorem ungetc_start (c : Nat) (s : LS) : (ungetc c s).start = s.start := by
  unfold ungetc
  repeat' split
  all_goals rfl

/-! ### identifier() -/

theorem idFirst_char {s : LS} {ty : NT} {c : Nat} (id : Str) (hc : NameStart c) (hv : Valid c)
    (hr : c ≠ 0xFFFD) :
    idFirst ty id c s = (some (id ++ (wctomb c).1, id ++ (wctomb (lowerByte c)).1), s) := by
  unfold idFirst
  have h92 : c ≠ 92 := by unfold NameStart Letter at hc; omega
  rw [if_neg h92, if_pos ((isStart_name (valid_le hv) hr).2 hc), put_valid hv]
  dsimp only
  rw [put_lower hv]

/-- The first character of a name and the next ones. -/
theorem nameBody_ok {s0 : LS} {cs vs rest : List Nat} {cut : Bool} {ty : NT} (id : Str) {s : LS} {c : Nat}
    (h : NameBody cs vs cut rest) (ha : At s0 2 cs c s) :
    ∃ i l s1, idFirst ty id c s = (some (i, l), s1) ∧ ∃ c' s', idLoop s1.fuel i l s1 =
        (id ++ encode vs, id ++ encode (vs.map lowerByte), c', s') ∧
      (cut = false → At s0 1 rest c' s') ∧ (cut = true → c' = 0xFFFD ∧ Rd s0 1 rest s') := by
  cases h with
  | @char d cs vs _ _ hc hv ht =>
    obtain ⟨rfl, r1, hr, hl, hne⟩ := ha.cons
    refine ⟨_, _, s, idFirst_char id hc hv hr.2, ?_⟩
    obtain ⟨c', s', e, h1⟩ := idLoop_ok ht s.fuel (id ++ (wctomb c).1) (id ++ (wctomb (lowerByte c)).1) s
      r1.fuel r1
    refine ⟨c', s', ?_, h1⟩
    rw [e, List.map_cons, encode_cons, encode_cons, List.append_assoc, List.append_assoc]
  | @escape d es cs vs _ _ he hd hv ht =>
    obtain ⟨rfl, r1, hr, hl, hne⟩ := ha.cons
    obtain ⟨s1, e1, r2⟩ := escape_ok he (by omega) r1
    refine ⟨id ++ (wctomb d).1, id ++ (wctomb (lowerByte d)).1, s1, ?_, ?_⟩
    · unfold idFirst
      rw [if_pos rfl, e1]
      dsimp only
      rw [if_neg hd, put_valid hv]
      dsimp only
      rw [put_lower hv]
    · obtain ⟨c', s', e, h1⟩ := idLoop_ok ht s1.fuel (id ++ (wctomb d).1) (id ++ (wctomb (lowerByte d)).1) s1
        r2.fuel (r2.mono (by omega))
      refine ⟨c', s', ?_, h1⟩
      rw [e, List.map_cons, encode_cons, encode_cons, List.append_assoc, List.append_assoc]
  | @lost es cs _ _ _ he ht =>
    obtain ⟨rfl, r1, hr, hl, hne⟩ := ha.cons
    obtain ⟨s1, e1, r2⟩ := escape_ok he (by omega) r1
    refine ⟨id, id, s1, ?_, ?_⟩
    · unfold idFirst
      rw [if_pos rfl, e1]
      dsimp only
      rw [if_pos rfl]
    · exact idLoop_ok ht s1.fuel id id s1 r2.fuel (r2.mono (by omega))

theorem encode_45 (vs : List Nat) : encode (45 :: vs) = 45 :: encode vs := rfl

/-- A whole name: what idRest() gives. -/
theorem name_ok {s0 : LS} {cs vs rest : List Nat} {cut : Bool} {ty : NT} {s : LS} {c : Nat}
    (h : Name cs vs cut rest) (ha : At s0 2 cs c s) :
    ∃ c' s', idRest ty (idDash ty c s) =
        idEnd ty (encode vs, encode (vs.map lowerByte), c', s') ∧
      (cut = false → At s0 1 rest c' s') ∧ (cut = true → c' = 0xFFFD ∧ Rd s0 1 rest s') := by
  cases h with
  | @dash cs vs _ _ hb =>
    obtain ⟨rfl, r1, hr, hl, hne⟩ := ha.cons
    obtain ⟨s1, e1, a1⟩ := r1.at
    obtain ⟨i, l, s2, e2, c', s', e3, h3⟩ := nameBody_ok (ty := ty) [45] hb (a1.mono (by omega))
    refine ⟨c', s', ?_, h3⟩
    unfold idDash
    rw [if_pos rfl, e1]
    dsimp only
    rw [e2]
    unfold idRest
    dsimp only
    rw [e3]
    rfl
  | plain hb hn =>
    obtain ⟨i, l, s2, e2, c', s', e3, h3⟩ := nameBody_ok (ty := ty) [] hb ha
    refine ⟨c', s', ?_, h3⟩
    have h45 : c ≠ 45 := by
      rintro rfl
      have := ha.hd
      cases hb with
      | char hc _ _ => have := ha.cons.1; unfold NameStart Letter at hc; omega
      | escape => have := ha.cons.1; omega
      | lost => have := ha.cons.1; omega
    unfold idDash
    rw [if_neg h45, e2]
    unfold idRest
    dsimp only
    rw [e3]
    rfl

theorem encode_ne {vs : List Nat} (h : vs ≠ []) (hv : ∀ c ∈ vs, Valid c) : encode vs ≠ [] := by
  cases vs with
  | nil => exact absurd rfl h
  | cons c vs =>
    rw [encode_cons]
    have hc := hv c (by simp)
    rcases charBytes_high (wctomb_ok (valid_enc hc) hc.2.2).2 with ⟨a, e, _⟩ | ⟨a, fs, e, _⟩ <;>
      rw [e] <;> simp

theorem _root_.Csspp.Spec.NameTail.valid {cs vs rest : List Nat} {cut : Bool} (h : NameTail cs vs cut rest) :
    ∀ c ∈ vs, Valid c := by
  induction h with
  | stop => intro c hc; cases hc
  | char _ hv _ ih =>
    intro x hx
    rcases List.mem_cons.1 hx with rfl | hx
    · exact hv
    · exact ih x hx
  | escape _ _ hv _ ih =>
    intro x hx
    rcases List.mem_cons.1 hx with rfl | hx
    · exact hv
    · exact ih x hx
  | lost => intro c hc; cases hc

theorem _root_.Csspp.Spec.NameBody.valid {cs vs rest : List Nat} {cut : Bool} (h : NameBody cs vs cut rest) :
    ∀ c ∈ vs, Valid c := by
  cases h with
  | char _ hv ht =>
    intro x hx
    rcases List.mem_cons.1 hx with rfl | hx
    · exact hv
    · exact ht.valid x hx
  | escape _ _ hv ht =>
    intro x hx
    rcases List.mem_cons.1 hx with rfl | hx
    · exact hv
    · exact ht.valid x hx
  | lost _ ht => exact ht.valid

theorem _root_.Csspp.Spec.Name.valid {cs vs rest : List Nat} {cut : Bool} (h : Name cs vs cut rest) :
    ∀ c ∈ vs, Valid c := by
  cases h with
  | dash hb =>
    intro x hx
    rcases List.mem_cons.1 hx with rfl | hx
    · unfold Valid Scalar Nonchar; omega
    · exact hb.valid x hx
  | plain hb _ => exact hb.valid

theorem _root_.Csspp.Spec.Name.ne {cs vs rest : List Nat} {cut : Bool} (h : Name cs vs cut rest) : vs ≠ [] := by
  cases h with
  | dash => simp
  | plain _ hn => exact hn

/-- An identifier, at-keyword or placeholder. -/
theorem name_token {s0 : LS} {cs vs rest : List Nat} {cut : Bool} {ty : NT} {s : LS} {c : Nat}
    (h : Name cs vs cut rest) (hend : ty = .AT_KEYWORD ∨ cut = true ∨ ∀ t, rest ≠ 40 :: t)
    (ha : At s0 2 cs c s) :
    ∃ s', idRest ty (idDash ty c s) =
        ({ s0.tok ty with str := encode vs, lower := encode (vs.map lowerByte) }, s') ∧ Rd s0 2 rest s' := by
  obtain ⟨c', s', e, h1, h2⟩ := name_ok (ty := ty) h ha
  rw [e]
  unfold idEnd
  dsimp only
  rw [if_neg (encode_ne h.ne h.valid)]
  have h40 : ¬ (c' = 40 ∧ ty ≠ .AT_KEYWORD) := by
    rintro ⟨hc, hty⟩
    rcases hend with hend | hend | hend
    · exact hty hend
    · have := (h2 hend).1; omega
    · cases cut with
      | true => have := (h2 rfl).1; omega
      | false =>
        rcases (h1 rfl).le with hc' | ⟨_, _, _, t, ht⟩
        · rw [hc] at hc'; revert hc'; decide
        · rw [hc] at ht; exact hend t ht
  rw [if_neg h40]
  cases cut with
  | false =>
    have h1 := h1 rfl
    refine ⟨_, ?_, h1.unget (by omega)⟩
    rw [h1.tl.tok]
  | true =>
    obtain ⟨hc, h2⟩ := h2 rfl
    have e' : ungetc c' s' = s' := by unfold ungetc; rw [if_pos (.inr hc)]
    rw [e', h2.tok]
    exact ⟨s', rfl, h2.mono (by omega)⟩

/-! ### URLs -/

theorem skipSpaces_ok {s0 : LS} (tl : List Nat) (hn : ¬ NextIs Blank tl) : ∀ (b : List Nat) (f : Nat) (s : LS) (k : Nat),
    k ≤ 2 → (∀ c ∈ b, Blank c) → b.length < f → Rd s0 k (b ++ tl) s →
    ∃ s', skipSpaces f s = (tl.headD eof, s') ∧ At s0 1 tl (tl.headD eof) s' := by
  intro b
  induction b with
  | nil =>
    intro f s k hk _ hf h
    obtain ⟨f, rfl⟩ : ∃ g, f = g + 1 := ⟨f - 1, by omega⟩
    obtain ⟨s1, e1, a1⟩ := Rd.at (show Rd s0 k tl s from h)
    refine ⟨s1, ?_, a1.mono (by omega)⟩
    unfold skipSpaces
    rw [e1]
    dsimp only
    rw [a1.notSpace hn]
    rfl
  | cons c b ih =>
    intro f s k hk hb hf h
    obtain ⟨f, rfl⟩ : ∃ g, f = g + 1 := ⟨f - 1, by omega⟩
    obtain ⟨s1, e1, r1⟩ := Rd.getc (show Rd s0 k (c :: (b ++ tl)) s from h)
    obtain ⟨s', e2, r2⟩ := ih f s1 (k - 1) (by omega) (fun x hx => hb x (by simp [hx]))
      (by simp at hf; omega) r1
    refine ⟨s', ?_, r2⟩
    unfold skipSpaces
    rw [e1]
    dsimp only
    rw [if_pos ((isSpace_blank c).2 (hb c (by simp)))]
    exact e2

theorem urlClose_ok {s0 : LS} (rest : List Nat) : ∀ (b : List Nat) (f : Nat) (s : LS) (k : Nat),
    k ≤ 2 → (∀ c ∈ b, Blank c) → b.length < f → Rd s0 k (b ++ 41 :: rest) s →
    Rd s0 2 rest (urlClose f s) := by
  intro b
  induction b with
  | nil =>
    intro f s k hk _ hf h
    obtain ⟨f, rfl⟩ : ∃ g, f = g + 1 := ⟨f - 1, by omega⟩
    obtain ⟨s1, e1, r1⟩ := Rd.getc (show Rd s0 k (41 :: rest) s from h)
    unfold urlClose
    rw [e1]
    dsimp only
    rw [if_pos rfl]
    exact r1.mono (by omega)
  | cons c b ih =>
    intro f s k hk hb hf h
    obtain ⟨f, rfl⟩ : ∃ g, f = g + 1 := ⟨f - 1, by omega⟩
    obtain ⟨s1, e1, r1⟩ := Rd.getc (show Rd s0 k (c :: (b ++ 41 :: rest)) s from h)
    have hc := hb c (by simp)
    have h41 : c ≠ 41 := by unfold Blank at hc; omega
    unfold urlClose
    rw [e1]
    dsimp only
    rw [if_neg h41, if_pos ((isSpace_blank c).2 hc)]
    exact ih f s1 (k - 1) (by omega) (fun x hx => hb x (by simp [hx])) (by simp at hf; omega) r1

theorem not_forbidden {c : Nat} (hu : ¬ UrlForbidden c) (hr : Readable c) (hne : c ≠ eof) :
    ¬ (c = eof ∨ c = 34 ∨ c = 39 ∨ c = 40 ∨ isNonPrintable c = true) := by
  unfold UrlForbidden at hu
  unfold Readable at hr
  unfold isNonPrintable
  simp
  omega

theorem urlLoop_ok {s0 : LS} (d : Nat) (tl : List Nat) (hd : d = 41 ∨ Blank d) :
    ∀ (us : List Nat) (f : Nat) (url : Str) (s : LS) (k : Nat),
    k ≤ 2 → (∀ u ∈ us, ¬ Blank u ∧ u ≠ 41 ∧ ¬ UrlForbidden u) → (∀ u ∈ us, Valid u) → us.length < f →
    Rd s0 k (us ++ d :: tl) s →
    ∃ s', urlLoop f url s = (url ++ encode us, d, s') ∧ Rd s0 1 tl s' := by
  intro us
  induction us with
  | nil =>
    intro f url s k hk _ _ hf h
    obtain ⟨f, rfl⟩ : ∃ g, f = g + 1 := ⟨f - 1, by omega⟩
    obtain ⟨s1, e1, r1⟩ := Rd.getc (show Rd s0 k (d :: tl) s from h)
    refine ⟨s1, ?_, r1.mono (by omega)⟩
    unfold urlLoop
    rw [e1]
    dsimp only
    rw [if_pos (hd.imp id (isSpace_blank d).2)]
    simp [encode_nil]
  | cons c us ih =>
    intro f url s k hk hb hv hf h
    obtain ⟨f, rfl⟩ : ∃ g, f = g + 1 := ⟨f - 1, by omega⟩
    obtain ⟨s1, e1, r1, hr, hl, hne⟩ := Rd.getc' (show Rd s0 k (c :: (us ++ d :: tl)) s from h)
    have hc := hb c (by simp)
    obtain ⟨s', e2, r2⟩ := ih f (url ++ (wctomb c).1) s1 (k - 1) (by omega) (fun x hx => hb x (by simp [hx]))
      (fun x hx => hv x (by simp [hx])) (by simp at hf; omega) r1
    refine ⟨s', ?_, r2⟩
    unfold urlLoop
    rw [e1]
    dsimp only
    rw [if_neg (fun h => h.elim hc.2.1 (fun h => hc.1 ((isSpace_blank c).1 h))),
      if_neg (not_forbidden hc.2.2 hr hne), put_valid (hv c (by simp))]
    dsimp only
    rw [e2, encode_cons, List.append_assoc]

theorem lexUrl_ok {s0 s : LS} {cs us rest : List Nat} (h : UrlBody cs us rest) (hr : Rd s0 2 cs s) :
    ∃ s', lexUrl s = ({ s0.tok .URL with str := encode us }, s') ∧ Rd s0 2 rest s' := by
  cases h with
  | @quoted b1 b2 cs _ _ q h1 hq h h2 =>
    have hnb : ¬ NextIs Blank (q :: cs) := by rw [nextIs_cons]; unfold Blank; omega
    have hf := hr.fuel
    obtain ⟨s1, e1, a1⟩ := skipSpaces_ok (q :: cs) hnb b1 s.fuel s 2 (by omega) h1
      (by simp at hf; omega) hr
    obtain ⟨_, r1, _, _, _⟩ := a1.cons
    obtain ⟨s2, e2, r2⟩ := lexString_ok hq h s1.fuel [] s1 r1.fuel (r1.mono (by omega))
    have hf2 := r2.fuel
    have r3 := urlClose_ok rest b2 s2.fuel s2 1 (by omega) h2 (by simp at hf2; omega) r2
    refine ⟨urlClose s2.fuel s2, ?_, r3⟩
    unfold lexUrl
    rw [e1]
    dsimp only
    unfold urlText
    rw [if_pos (show ((q :: cs).headD eof = 34 ∨ (q :: cs).headD eof = 39) from hq)]
    rw [show (q :: cs).headD eof = q from rfl, e2]
    dsimp only
    rw [if_neg (by omega), r3.tok]
    rfl
  | @plain b1 b2 us _ c h1 hc hu hv h2 =>
    have hnb : ¬ NextIs Blank (c :: (us ++ (b2 ++ 41 :: rest))) := by rw [nextIs_cons]; exact hc.1
    have hf := hr.fuel
    obtain ⟨s1, e1, a1⟩ := skipSpaces_ok _ hnb b1 s.fuel s 2 (by omega) h1
      (by simp at hf; omega) hr
    obtain ⟨_, r1, _, _, _⟩ := a1.cons
    have hf1 := r1.fuel
    have hpre : ∀ s2 d, (match (match put c [] s1 with | (url, s) => urlLoop s.fuel url s) with
      | (url, c, s) => ({ (if c = 41 then s else urlClose s.fuel s).tok .URL with str := url },
          if c = 41 then s else urlClose s.fuel s)) = (({ s0.tok .URL with str := encode (c :: us) }, s2) : Tok × LS) →
        d = 0 → lexUrl s = ({ s0.tok .URL with str := encode (c :: us) }, s2) := by
      intro s2 _ h' _
      unfold lexUrl
      rw [e1]
      dsimp only
      unfold urlText
      rw [if_neg (show ¬ ((c :: (us ++ (b2 ++ 41 :: rest))).headD eof = 34 ∨
        (c :: (us ++ (b2 ++ 41 :: rest))).headD eof = 39) from fun h => h.elim hc.2.1 hc.2.2)]
      exact h'
    cases b2 with
    | nil =>
      obtain ⟨s2, e2, r2⟩ := urlLoop_ok 41 rest (.inl rfl) us s1.fuel (wctomb c).1 s1 1 (by omega) hu
        (fun x hx => hv x (by simp [hx])) (by simp at hf1; omega) r1
      refine ⟨s2, hpre s2 0 ?_ rfl, r2.mono (by omega)⟩
      rw [put_valid (hv c (by simp))]
      dsimp only
      rw [List.nil_append, e2]
      dsimp only
      rw [if_pos rfl, r2.tok]
      rfl
    | cons d b2 =>
      have hd := h2 d (by simp)
      obtain ⟨s2, e2, r2⟩ := urlLoop_ok d (b2 ++ 41 :: rest) (.inr hd) us s1.fuel (wctomb c).1 s1 1 (by omega) hu
        (fun x hx => hv x (by simp [hx])) (by simp at hf1; omega) r1
      have hf2 := r2.fuel
      have r3 := urlClose_ok rest b2 s2.fuel s2 1 (by omega) (fun x hx => h2 x (by simp [hx]))
        (by simp at hf2; omega) r2
      refine ⟨_, hpre _ 0 ?_ rfl, r3⟩
      rw [put_valid (hv c (by simp))]
      dsimp only
      rw [List.nil_append, e2]
      dsimp only
      have h41 : d ≠ 41 := by unfold Blank at hd; omega
      rw [if_neg h41, r3.tok]
      rfl

/-! ### Functions -/

theorem charBytes_inj {c d : Nat} {b : Str} (h1 : CharBytes c b) (h2 : CharBytes d b) : c = d := by
  have e1 := C01_decode c b h1
  have e2 := C01_decode d b h2
  rw [e1] at e2
  cases e2
  rfl

theorem ascii_encode : ∀ t : Str, (∀ c ∈ t, c < 0x80 ∧ c ≠ 0) → encode t = t := by
  intro t
  induction t with
  | nil => intro _; rfl
  | cons c t ih =>
    intro h
    rw [encode_cons, ih (fun x hx => h x (by simp [hx]))]
    have hc := h c (by simp)
    unfold wctomb
    rw [if_pos hc.1, if_neg hc.2]
    rfl

/-- The encoding of a text is an ASCII text only when the text is that one. -/
theorem encode_ascii {vs : List Nat} (hv : ∀ c ∈ vs, Valid c) {t : Str} (ht : ∀ c ∈ t, c < 0x80 ∧ c ≠ 0) :
    encode vs = t ↔ vs = t := by
  constructor
  · intro h
    induction vs generalizing t with
    | nil => exact h
    | cons c vs ih =>
      rw [encode_cons] at h
      have hc := hv c (by simp)
      rcases charBytes_high (wctomb_ok (valid_enc hc) hc.2.2).2 with ⟨a, e, rfl, _⟩ | ⟨a, fs, e, ha, _⟩
      · rw [e] at h
        cases t with
        | nil => cases h
        | cons b t =>
          obtain ⟨rfl, hh⟩ := List.cons.inj (show c :: encode vs = b :: t from h)
          rw [ih (fun x hx => hv x (by simp [hx])) (fun x hx => ht x (by simp [hx])) hh]
      · rw [e] at h
        cases t with
        | nil => cases h
        | cons b t =>
          obtain ⟨rfl, h⟩ := List.cons.inj (show a :: (fs ++ encode vs) = b :: t from h)
          have := ht a (by simp)
          omega
  · rintro rfl
    exact ascii_encode _ ht

theorem valid_map {vs : List Nat} (hv : ∀ c ∈ vs, Valid c) : ∀ c ∈ vs.map lowerByte, Valid c := by
  intro c hc
  obtain ⟨d, hd, rfl⟩ := List.mem_map.1 hc
  exact valid_lower (hv d hd)

/-- A function. -/
theorem function_token {s0 : LS} {cs vs rest : List Nat} {ty : NT} {s : LS} {c : Nat}
    (h : Name cs vs false (40 :: rest)) (hty : ty ≠ .AT_KEYWORD) (hu : vs.map lowerByte ≠ b!"url")
    (ha : At s0 2 cs c s) :
    ∃ s', idRest ty (idDash ty c s) =
        ({ s0.tok .FUNCTION with str := encode (vs.map lowerByte) }, s') ∧ Rd s0 2 rest s' := by
  obtain ⟨c', s', e, h1, h2⟩ := name_ok (ty := ty) h ha
  obtain ⟨rfl, r1, _⟩ := (h1 rfl).cons
  rw [e]
  unfold idEnd
  dsimp only
  have hne : encode (vs.map lowerByte) ≠ b!"url" := fun he =>
    hu ((encode_ascii (valid_map h.valid) (by decide)).1 he)
  rw [if_neg (encode_ne h.ne h.valid), if_pos ⟨rfl, hty⟩, if_neg hne, r1.tok]
  exact ⟨s', rfl, r1.mono (by omega)⟩

/-- A URL. -/
theorem url_token {s0 : LS} {cs vs us rest1 rest : List Nat} {ty : NT} {s : LS} {c : Nat}
    (h : Name cs vs false (40 :: rest1)) (hty : ty ≠ .AT_KEYWORD) (hu : vs.map lowerByte = b!"url")
    (hb : UrlBody rest1 us rest) (ha : At s0 2 cs c s) :
    ∃ s', idRest ty (idDash ty c s) =
        ({ s0.tok .URL with str := encode us }, s') ∧ Rd s0 2 rest s' := by
  obtain ⟨c', s', e, h1, h2⟩ := name_ok (ty := ty) h ha
  obtain ⟨rfl, r1, _⟩ := (h1 rfl).cons
  rw [e]
  unfold idEnd
  dsimp only
  rw [if_neg (encode_ne h.ne h.valid), if_pos ⟨rfl, hty⟩,
    if_pos ((encode_ascii (valid_map h.valid) (by decide)).2 hu)]
  exact lexUrl_ok hb (r1.mono (by omega))

end Csspp.Lex
