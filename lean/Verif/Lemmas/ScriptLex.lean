import Verif.Lemmas.Written5

/-!
A quick way to the tokens of a validation script, proved to be what the lexer reads.
-/

namespace Csspp.Valid
open Csspp.Spec
open Csspp.Lex (Tok lexAll init)
open Csspp.Written (Of OfAll)

/-- The characters of the scripts. -/
def okChar (c : Nat) : Bool := decide (c = 10) || (decide (32 ≤ c) && decide (c ≤ 126))

/-- What follows a comment, without its newline; `none` when there is a '@' in it. -/
def skipLine : Nat → Str → Option Str
  | 0, _ => none
  | _ + 1, [] => some []
  | f + 1, c :: t =>
    if c = 10 then
      match t with
      | a :: b :: u => if a = 47 then if b = 47 then skipLine f u else some (c :: t) else some (c :: t)
      | _ => some (c :: t)
    else if c = 64 then none
    else skipLine f t

def isSp (c : Nat) : Bool := if c = 32 then true else decide (c = 10)
def isNm (c : Nat) : Bool := if c = 95 then true else if 97 ≤ c then decide (c ≤ 122) else false

/-- A blank is next. -/
def spNext : Str → Bool
  | [] => false
  | c :: _ => isSp c

/-- A name. -/
def letters (t : Str) : Str := t.takeWhile isNm
def afterName (t : Str) : Str := t.dropWhile isNm

/-- A name that starts with a letter and is followed by a blank. -/
def isWord (t : Str) : Bool :=
  match letters t with
  | [] => false
  | c :: _ => if c = 95 then false else spNext (afterName t)

def notQuote (c : Nat) : Bool := if c = 34 then false else if c = 92 then false else decide (c ≠ 10)

/-- The tokens. -/
def fast : Nat → Str → Option (List (NT × Str))
  | 0, _ => none
  | _ + 1, [] => some []
  | f + 1, c :: t =>
    if isSp c then (fast f (t.dropWhile isSp)).map ((.WHITESPACE, []) :: ·)
    else if c = 47 then
      match t with
      | d :: u => if d = 47 then (skipLine f u).bind (fast f) else none
      | [] => none
    else if c = 64 then
      if isWord t then (fast f (afterName t)).map ((.AT_KEYWORD, letters t) :: ·) else none
    else if c = 36 then
      if isWord t then (fast f (afterName t)).map ((.VARIABLE, letters t) :: ·) else none
    else if c = 34 then
      match t.dropWhile notQuote with
      | d :: u => if d = 34 then (fast f u).map ((.STRING, t.takeWhile notQuote) :: ·) else none
      | [] => none
    else if c = 33 then
      match t with
      | d :: u => if d = 61 then (fast f u).map ((.NOT_EQUAL, []) :: ·) else none
      | [] => none
    else if c = 43 then if spNext t then (fast f t).map ((.ADD, []) :: ·) else none
    else if c = 123 then (fast f t).map ((.OPEN_CURLYBRACKET, []) :: ·)
    else if c = 125 then (fast f t).map ((.CLOSE_CURLYBRACKET, []) :: ·)
    else if c = 59 then (fast f t).map ((.SEMICOLON, []) :: ·)
    else if isWord (c :: t) then (fast f (afterName (c :: t))).map ((.IDENTIFIER, letters (c :: t)) :: ·)
    else none

/-- A token without another value. -/
def wordOf (k : NT × Str) : Word := { ty := k.1, str := k.2 }

/-! ### The characters -/

theorem okChar_iff (c : Nat) : okChar c = true ↔ c = 10 ∨ 32 ≤ c ∧ c ≤ 126 := by unfold okChar; simp
theorem isSp_iff (c : Nat) : isSp c = true ↔ c = 32 ∨ c = 10 := by unfold isSp; split <;> simp_all
theorem isNm_iff (c : Nat) : isNm c = true ↔ c = 95 ∨ 97 ≤ c ∧ c ≤ 122 := by
  unfold isNm
  split
  · simp_all
  · split <;> simp <;> omega
theorem notQuote_iff (c : Nat) : notQuote c = true ↔ c ≠ 34 ∧ c ≠ 92 ∧ c ≠ 10 := by
  unfold notQuote
  split
  · simp_all
  · split <;> simp_all

theorem ok_valid {c : Nat} (h : okChar c = true) : Valid c ∧ c ≠ 0xFFFD := by
  rw [okChar_iff] at h
  unfold Valid Scalar Nonchar
  omega

theorem mem_takeWhile {p : Nat → Bool} {l : Str} : ∀ c ∈ l.takeWhile p, p c = true ∧ c ∈ l := by
  induction l with
  | nil => simp
  | cons d l ih =>
    intro c hc
    rw [List.takeWhile_cons] at hc
    split at hc
    · rcases List.mem_cons.mp hc with rfl | hc
      · exact ⟨by assumption, by simp⟩
      · exact ⟨(ih c hc).1, by simp [(ih c hc).2]⟩
    · simp at hc

theorem head_dropWhile {p : Nat → Bool} {l : Str} {c : Nat} {t : Str} (h : l.dropWhile p = c :: t) : p c = false := by
  induction l with
  | nil => simp at h
  | cons d l ih =>
    rw [List.dropWhile_cons] at h
    split at h
    · exact ih h
    · rename_i hp
      cases h
      simpa using hp

theorem split_while (p : Nat → Bool) (l : Str) : l.takeWhile p ++ l.dropWhile p = l := List.takeWhile_append_dropWhile

/-! ### Comments -/

theorem skipLine_lines : ∀ (f : Nat) (t rest : Str), (∀ c ∈ t, okChar c = true) → skipLine f t = some rest →
    ∃ vs, Lines t vs rest ∧ (∀ c ∈ vs, c < 128 ∧ c ≠ 64) ∧ rest <:+ t := by
  intro f
  induction f with
  | zero => intro t rest _ h; cases h
  | succ f ih =>
    intro t rest hok h
    cases t with
    | nil => cases h; exact ⟨[], .eof, by simp, List.suffix_refl _⟩
    | cons c t =>
      have hc := hok c (by simp)
      have hok' : ∀ c ∈ t, okChar c = true := fun c hc => hok c (by simp [hc])
      unfold skipLine at h
      have stop : c = 10 → (∀ u, t ≠ 47 :: 47 :: u) → some (c :: t) = some rest →
          ∃ vs, Lines (c :: t) vs rest ∧ (∀ c ∈ vs, c < 128 ∧ c ≠ 64) ∧ rest <:+ c :: t := by
        intro h10 hn h
        cases h
        subst h10
        exact ⟨[], .stop hn, by simp, List.suffix_refl _⟩
      split at h
      · rename_i h10
        split at h
        · rename_i a b u
          split at h
          · rename_i ha
            split at h
            · rename_i hb
              subst ha hb h10
              obtain ⟨vs, h1, h2, h3⟩ := ih u rest (fun c hc => hok' c (by simp [hc])) h
              have hsuf : rest <:+ 10 :: 47 :: 47 :: u := h3.trans ⟨[10, 47, 47], rfl⟩
              by_cases hbl : NextIs (fun c => c = 32 ∨ c = 9) u
              · obtain ⟨d, v, rfl, hd⟩ := hbl
                cases h1 with
                | stop => omega
                | char _ _ h1 => exact ⟨10 :: _, .joinBlank hd h1, by
                    intro c hc
                    rcases List.mem_cons.1 hc with rfl | hc
                    · omega
                    · exact h2 c (by simp [hc]), hsuf⟩
                | joinBlank => omega
                | join => omega
              · exact ⟨10 :: vs, .join hbl h1, by
                  intro c hc
                  rcases List.mem_cons.1 hc with rfl | hc
                  · omega
                  · exact h2 c hc, hsuf⟩
            · rename_i hb
              exact stop h10 (by intro v e; cases e; exact hb rfl) h
          · rename_i ha
            exact stop h10 (by intro v e; cases e; exact ha rfl) h
        · rename_i hn
          exact stop h10 (by intro v e; exact hn _ _ _ e) h
      · rename_i h10
        split at h
        · cases h
        · rename_i h64
          obtain ⟨vs, h1, h2, h3⟩ := ih t rest hok' h
          refine ⟨c :: vs, .char h10 (ok_valid hc).1 h1, ?_, h3.trans ⟨[c], rfl⟩⟩
          intro d hd
          rcases List.mem_cons.1 hd with rfl | hd
          · rw [okChar_iff] at hc
            exact ⟨by omega, h64⟩
          · exact h2 d hd

theorem not_preserved {vs : List Nat} (h : ∀ c ∈ vs, c < 128 ∧ c ≠ 64) : ¬ Preserved vs := by
  rintro ⟨bs, hu, hp⟩
  have : bs = vs := Written.utf8_unique hu (Lex.utf8_ascii (fun c hc => (h c hc).1))
  subst this
  have h64 : (64 : Nat) ∈ bs := hp.subset (by decide)
  exact (h 64 h64).2 rfl

theorem lines_blank {d : Nat} {t vs rest : List Nat} (hd : d = 32 ∨ d = 9) (h : Lines (d :: t) vs rest) :
    ∃ ws, vs = d :: ws ∧ Lines t ws rest := by
  cases h with
  | stop => omega
  | char _ _ h => exact ⟨_, rfl, h⟩
  | joinBlank => omega
  | join => omega

theorem skip_dropped {f : Nat} {u rest : Str} (hok : ∀ c ∈ u, okChar c = true) (h : skipLine f u = some rest) :
    Dropped (47 :: 47 :: u) rest ∧ rest <:+ u := by
  obtain ⟨vs, h1, h2, h3⟩ := skipLine_lines f u rest hok h
  refine ⟨?_, h3⟩
  -- the blanks in front
  have key : ∀ (t vs : Str), Lines t vs rest → (∀ c ∈ vs, c < 128 ∧ c ≠ 64) →
      ∃ b t' vs', t = b ++ t' ∧ (∀ c ∈ b, c = 32 ∨ c = 9) ∧ ¬ NextIs (fun c => c = 32 ∨ c = 9) t' ∧ Lines t' vs' rest ∧
        ∀ c ∈ vs', c < 128 ∧ c ≠ 64 := by
    intro t
    induction t with
    | nil => intro vs h1 h2; exact ⟨[], [], vs, rfl, by simp, (by rintro ⟨_, _, e, _⟩; cases e), h1, h2⟩
    | cons d t ih =>
      intro vs h1 h2
      by_cases hd : d = 32 ∨ d = 9
      · obtain ⟨ws, rfl, h⟩ := lines_blank hd h1
        obtain ⟨b, t', vs', rfl, a2, a3, a4, a5⟩ := ih ws h (fun c hc => h2 c (by simp [hc]))
        exact ⟨d :: b, t', vs', rfl, (by intro c hc; rcases List.mem_cons.1 hc with rfl | hc; exact hd; exact a2 c hc), a3, a4, a5⟩
      · exact ⟨[], d :: t, vs, rfl, by simp, (by rintro ⟨_, _, e, h⟩; cases e; exact hd h), h1, h2⟩
  obtain ⟨b, t', vs', rfl, a2, a3, a4, a5⟩ := key u vs h1 h2
  exact .lineComment ⟨b, t', rfl, a2, a3, a4⟩ (not_preserved a5)

/-! ### The tokens -/

theorem letters_append (t : Str) : letters t ++ afterName t = t := split_while _ _

theorem word_parts {t : Str} (h : isWord t = true) : (∀ c ∈ letters t, c = 95 ∨ 97 ≤ c ∧ c ≤ 122) ∧
    (∃ c v, letters t = c :: v ∧ c ≠ 95) ∧ ∃ c v, afterName t = c :: v ∧ (c = 32 ∨ c = 10) := by
  refine ⟨fun c hc => (isNm_iff c).1 (mem_takeWhile c hc).1, ?_⟩
  unfold isWord at h
  split at h
  · cases h
  · rename_i c v e
    split at h
    · cases h
    · rename_i h95
      refine ⟨⟨c, v, e, h95⟩, ?_⟩
      cases ha : afterName t with
      | nil => rw [ha] at h; cases h
      | cons d w => rw [ha] at h; exact ⟨d, w, rfl, (isSp_iff d).1 h⟩

theorem word_plain {t : Str} (h : isWord t = true) : PlainName (letters t) ∧ Utf8 (letters t) (letters t) := by
  obtain ⟨h1, ⟨c, v, e, h95⟩, _⟩ := word_parts h
  refine ⟨⟨?_, ?_⟩, Lex.utf8_ascii (fun c hc => by have := h1 c hc; omega)⟩
  · intro c hc
    have := h1 c hc
    unfold NameChar VarChar Letter Fair Valid Scalar Nonchar
    omega
  · left
    have := h1 c (by rw [e]; simp)
    exact ⟨c, v, e, by unfold NameStart Letter; omega⟩

theorem sp_follow {ty : NT} {s : Str} {rest : List Nat} (hty : ty ≠ .ADD ∧ ty ≠ .SUBTRACT) (h : ∃ c v, rest = c :: v ∧ (c = 32 ∨ c = 10))
    (ht : ty = .IDENTIFIER ∨ ty = .AT_KEYWORD) : Written.Follow { ty := ty, str := s } rest := by
  obtain ⟨c, v, rfl, hc⟩ := h
  refine ⟨?_, fun h => by rcases h with h | h; exact absurd h hty.1; exact absurd h hty.2⟩
  rintro ⟨d, u, e, hb⟩
  cases e
  unfold Written.Bad NameChar VarChar Dec Letter at hb
  rcases ht with rfl | rfl <;> dsimp only at hb <;> omega

theorem mark_reads {ty : NT} (h : Written.spell ty ≠ []) {rest : List Nat} (hf : Written.Follow { ty := ty } rest) :
    ∃ l, Of l { ty := ty } ∧ l.ty ≠ .EOF_TOKEN ∧ Reads (Written.spell ty ++ rest) l rest := by
  obtain ⟨l, h1, h2, _, h4⟩ := (Written.mark_spells h).reads
  exact ⟨l, h1, h2, h4 rest hf⟩

theorem free_follow {ty : NT} (h : ty = .OPEN_CURLYBRACKET ∨ ty = .CLOSE_CURLYBRACKET ∨ ty = .SEMICOLON) (rest : List Nat) :
    Written.Follow { ty := ty } rest := by
  refine ⟨?_, ?_⟩
  · rintro ⟨c, u, _, hb⟩
    rcases h with rfl | rfl | rfl <;> exact hb
  · intro h'
    rcases h with rfl | rfl | rfl <;> rcases h' with h | h <;> cases h

theorem notEqual_reads (rest : List Nat) : Reads (33 :: 61 :: rest) { ty := .NOT_EQUAL } rest := by
  have q := Written.quiet (c := 33) (t := 61 :: rest) (by unfold Dec NameStart Letter; omega)
  have := Reads.punctuation (p := b!"!=") (rest := rest) (ty := .NOT_EQUAL) (by decide)
    (Written.longest (bad := []) (by decide) (by simp)) q.1 q.2.1 q.2.2.1 q.2.2.2
  exact this

theorem fast_tokens : ∀ (f : Nat) (cs : Str) (ks : List (NT × Str)), (∀ c ∈ cs, okChar c = true) → fast f cs = some ks →
    ∃ ls, Tokens cs ls ∧ OfAll ls (ks.map wordOf) := by
  intro f
  induction f with
  | zero => intro cs ks _ h; cases h
  | succ f ih =>
    intro cs ks hok h
    cases cs with
    | nil => cases h; exact ⟨[], .eof, .nil⟩
    | cons c t =>
      have hc := hok c (by simp)
      have hok' : ∀ c ∈ t, okChar c = true := fun c hc => hok c (by simp [hc])
      -- a token and the rest
      have go : ∀ {k : NT × Str} {rest : Str} {l : Lexeme}, rest <:+ c :: t → (fast f rest).map (k :: ·) = some ks →
          Of l (wordOf k) → l.ty ≠ .EOF_TOKEN → Reads (c :: t) l rest → ∃ ls, Tokens (c :: t) ls ∧ OfAll ls (ks.map wordOf) := by
        intro k rest l hs h1 h2 h3 h4
        rw [Option.map_eq_some_iff] at h1
        obtain ⟨ks', h1, rfl⟩ := h1
        obtain ⟨ls, a1, a2⟩ := ih rest ks' (fun c hc => hok c (hs.subset hc)) h1
        exact ⟨l :: ls, .token h4 h3 a1, .cons h2 a2⟩
      have nsuf : ∀ (p : Nat → Bool), t.dropWhile p <:+ c :: t := fun p => (List.dropWhile_suffix p).trans ⟨[c], rfl⟩
      unfold fast at h
      by_cases hsp : isSp c = true
      · rw [if_pos hsp] at h
        rw [isSp_iff] at hsp
        have hr : Reads (c :: t) { ty := .WHITESPACE } (t.dropWhile isSp) := by
          have := Reads.spaces (sp := c :: t.takeWhile isSp) (rest := t.dropWhile isSp) (by
            intro d hd
            unfold Blank
            rcases List.mem_cons.1 hd with rfl | hd
            · omega
            · have := (isSp_iff d).1 (mem_takeWhile d hd).1; omega) (by simp) (by
            rintro ⟨d, u, e, hb⟩
            have h1 := head_dropWhile e
            have h2 : ¬ (d = 32 ∨ d = 10) := fun h => by rw [(isSp_iff d).2 h] at h1; cases h1
            have hd : d ∈ t := (List.dropWhile_suffix isSp).subset (by rw [e]; simp)
            have := (okChar_iff d).1 (hok' d hd)
            unfold Blank at hb
            omega)
          rw [List.cons_append, split_while] at this
          exact this
        exact go (nsuf _) h ⟨rfl, .nil, rfl, rfl, rfl, rfl, rfl⟩ (by simp) hr
      rw [if_neg hsp] at h
      by_cases h47 : c = 47
      · rw [if_pos h47] at h
        subst h47
        split at h
        · rename_i d u
          split at h
          · rename_i hd
            subst hd
            rw [Option.bind_eq_some_iff] at h
            obtain ⟨rest, h1, h2⟩ := h
            obtain ⟨h3, h4⟩ := skip_dropped (fun c hc => hok' c (by simp [hc])) h1
            obtain ⟨ls, a1, a2⟩ := ih rest ks (fun c hc => hok' c (by simp [h4.subset hc])) h2
            exact ⟨ls, .skip h3 a1, a2⟩
          · cases h
        · cases h
      rw [if_neg h47] at h
      by_cases h64 : c = 64
      · rw [if_pos h64] at h
        subst h64
        split at h
        · rename_i hw
          obtain ⟨p1, p2⟩ := word_plain hw
          obtain ⟨l, e1, e2, _, e4⟩ := (Written.keyword_spells p2 p1).reads
          have := e4 (afterName t) (sp_follow (by simp) (word_parts hw).2.2 (.inr rfl))
          rw [List.cons_append, letters_append] at this
          exact go (nsuf _) h e1 e2 this
        · cases h
      rw [if_neg h64] at h
      by_cases h36 : c = 36
      · rw [if_pos h36] at h
        subst h36
        split at h
        · rename_i hw
          obtain ⟨w1, ⟨d, v, w2, w3⟩, e, u, w4, w5⟩ := word_parts hw
          have hid : (letters t).map (fun c => if c = 45 then 95 else lowerByte c) = letters t := by
            refine (List.map_congr_left (g := id) ?_).trans (List.map_id _)
            intro c hc
            have := w1 c hc
            unfold lowerByte
            rw [if_neg (by omega), if_neg (by omega)]
            rfl
          have := Reads.variableName (vs := letters t) (rest := afterName t) (by
            intro c hc
            have := w1 c hc
            unfold VarChar Letter
            omega) (by rw [w2]; simp) (by
            rw [w4]; rintro ⟨x, y, e, hb⟩; cases e; unfold VarChar Dec Letter at hb; omega) (by
            rw [w4]; intro x e; cases e; omega)
          rw [letters_append, hid] at this
          exact go (nsuf _) h ⟨rfl, (word_plain hw).2, rfl, rfl, rfl, rfl, rfl⟩ (by simp) this
        · cases h
      rw [if_neg h36] at h
      by_cases h34 : c = 34
      · rw [if_pos h34] at h
        subst h34
        split at h
        · rename_i d u e
          split at h
          · rename_i hd
            subst hd
            have hq : ∀ (vs : Str), (∀ c ∈ vs, notQuote c = true ∧ okChar c = true) → Quoted 34 (vs ++ 34 :: u) vs u := by
              intro vs
              induction vs with
              | nil => intro _; exact .close u
              | cons x vs ihv =>
                intro hv
                have hx := hv x (by simp)
                have hn := (notQuote_iff x).1 hx.1
                exact .char hn.1 hn.2.2 hn.2.1 (ok_valid hx.2).1 (ihv (fun c hc => hv c (by simp [hc])))
            have hv : ∀ c ∈ t.takeWhile notQuote, notQuote c = true ∧ okChar c = true := fun c hc =>
              ⟨(mem_takeWhile c hc).1, hok' c (mem_takeWhile c hc).2⟩
            have hr := Reads.string (q := 34) (.inl rfl) (hq _ hv)
            rw [← e, split_while] at hr
            refine go (rest := u) ?_ h ⟨rfl, ?_, rfl, rfl, rfl, rfl, rfl⟩ (by simp) hr
            · exact (List.suffix_cons 34 u).trans (by rw [← e]; exact nsuf _)
            · exact Lex.utf8_ascii (fun c hc => by have := (okChar_iff c).1 (hv c hc).2; omega)
          · cases h
        · cases h
      rw [if_neg h34] at h
      by_cases h33 : c = 33
      · rw [if_pos h33] at h
        subst h33
        split at h
        · rename_i d u
          split at h
          · rename_i hd
            subst hd
            exact go ⟨[33, 61], rfl⟩ h ⟨rfl, .nil, rfl, rfl, rfl, rfl, rfl⟩ (by simp) (notEqual_reads u)
          · cases h
        · cases h
      rw [if_neg h33] at h
      by_cases h43 : c = 43
      · rw [if_pos h43] at h
        subst h43
        split at h
        · rename_i hs
          obtain ⟨l, e1, e2, e3⟩ := mark_reads (ty := .ADD) (by decide) (rest := t) ⟨by
            rintro ⟨x, y, rfl, hb⟩
            have := (isSp_iff x).1 hs
            have hb : Dec x := hb
            unfold Dec at hb
            omega, by
            rintro - y rfl
            have := (isSp_iff 46).1 hs
            omega⟩
          exact go ⟨[43], rfl⟩ h e1 e2 e3
        · cases h
      rw [if_neg h43] at h
      by_cases h1 : c = 123
      · rw [if_pos h1] at h
        subst h1
        obtain ⟨l, e1, e2, e3⟩ := mark_reads (ty := .OPEN_CURLYBRACKET) (by decide) (rest := t) (free_follow (by simp) t)
        exact go ⟨[123], rfl⟩ h e1 e2 e3
      rw [if_neg h1] at h
      by_cases h1 : c = 125
      · rw [if_pos h1] at h
        subst h1
        obtain ⟨l, e1, e2, e3⟩ := mark_reads (ty := .CLOSE_CURLYBRACKET) (by decide) (rest := t) (free_follow (by simp) t)
        exact go ⟨[125], rfl⟩ h e1 e2 e3
      rw [if_neg h1] at h
      by_cases h1 : c = 59
      · rw [if_pos h1] at h
        subst h1
        obtain ⟨l, e1, e2, e3⟩ := mark_reads (ty := .SEMICOLON) (by decide) (rest := t) (free_follow (by simp) t)
        exact go ⟨[59], rfl⟩ h e1 e2 e3
      rw [if_neg h1] at h
      by_cases hw : isWord (c :: t) = true
      · rw [if_pos hw] at h
        obtain ⟨p1, p2⟩ := word_plain hw
        obtain ⟨l, e1, e2, _, e4⟩ := (Written.plain_spells p2 p1).reads
        have := e4 (afterName (c :: t)) (sp_follow (by simp) (word_parts hw).2.2 (.inl rfl))
        rw [letters_append] at this
        exact go (List.dropWhile_suffix _) h e1 e2 this
      · rw [if_neg hw] at h
        cases h

/-- The tokens of the lexer. -/
theorem fast_lex {g : Nat} {src : Str} {ks : List (NT × Str)} (hok : src.all okChar = true) (h : fast g src = some ks) {f : Nat}
    (hf : src.length < f) : (lexAll f (init src)).1.map Word.of = ks.map wordOf ∧ (lexAll f (init src)).2.err = [] ∧
      (lexAll f (init src)).2.exn = none ∧ (lexAll f (init src)).2.ub = false := by
  have hok' : ∀ c ∈ src, okChar c = true := fun c hc => List.all_eq_true.1 hok c hc
  obtain ⟨ls, h1, h2⟩ := fast_tokens g src ks hok' h
  have hcl : Written.Clean src := fun c hc => by have := (okChar_iff c).1 (hok' c hc); omega
  obtain ⟨a1, a2, a3, a4⟩ := Lex.C47_complete src src (Lex.utf8_ascii (fun c hc => by have := (okChar_iff c).1 (hok' c hc); omega))
    (fun c hc => ⟨(hcl c hc).1, (hcl c hc).2.1⟩) ls (by rw [Written.clean_newlines hcl]; exact h1) f hf
  obtain ⟨b1, b2⟩ := Written.holds_word a1 h2
  exact ⟨b1, by rw [a2, b2]; rfl, a3, a4⟩

end Csspp.Valid
