import Verif.Lemmas.Written

/-!
For C57: the words with a value.
-/

namespace Csspp.Written
open Csspp.Spec Csspp.Lex

theorem fair_clean {c : Nat} (h : Fair c ∧ c ≠ 10 ∧ c ≠ 12 ∧ c ≠ 13) : c ≠ 0 ∧ c ≠ 0xFFFD ∧ c ≠ 12 ∧ c ≠ 13 :=
  ⟨h.1.1.2.2, h.1.2, h.2.2.1, h.2.2.2⟩

theorem name_clean {c : Nat} (h : NameChar c ∧ Fair c) : c ≠ 0 ∧ c ≠ 0xFFFD ∧ c ≠ 12 ∧ c ≠ 13 := by
  obtain ⟨h1, h2⟩ := h
  refine ⟨h2.1.2.2, h2.2, ?_, ?_⟩ <;> · unfold NameChar VarChar Dec Letter at h1; omega

theorem utf8_one {c : Nat} {s : Str} (hc : c < 0x80) (h : Utf8 [c] s) : s = [c] := by
  cases h with
  | cons h t =>
    cases t
    cases h with
    | one => rfl
    | two => unfold Spec.Follow at *; omega
    | three => unfold Spec.Follow at *; omega
    | four => unfold Spec.Follow at *; omega

/-! ### Identifiers -/

/-- A name that is not `u+`. -/
theorem ident_reads {text cs rest : List Nat} {s : Str} (hu : Utf8 cs s)
    (hn : Name (text ++ rest) cs false rest) (hf : Follow { ty := .IDENTIFIER, str := s } rest)
    (hr : ∀ u t, text = u :: t → (u = 85 ∨ u = 117) → (t = [] ∧ cs = [u]) ∨ ∃ c v, t = c :: v ∧ c ≠ 43)
    (hne : text ≠ []) :
    Reads (text ++ rest) { ty := .IDENTIFIER, text := cs, low := cs.map lowerByte } rest := by
  refine .identifier ?_ hn (.inr ?_)
  · rintro ⟨u, t, e, h1, h2⟩
    cases text with
    | nil => exact hne rfl
    | cons c v =>
      rw [List.cons_append] at e
      injection e with e1 e2
      subst e1
      rcases hr c v rfl h1 with ⟨rfl, rfl⟩ | ⟨d, v', rfl, hd⟩
      · refine hf.bad ⟨43, t, e2, ?_⟩
        have := utf8_one (by omega) hu
        refine .inr (.inr (.inr ⟨?_, rfl⟩))
        rcases h1 with rfl | rfl
        · exact .inr this
        · exact .inl this
      · rw [List.cons_append] at e2
        injection e2 with e3 _
        exact hd e3
  · rintro t rfl
    exact hf.bad ⟨40, t, rfl, .inr (.inr (.inl rfl))⟩

theorem follow_ident {s : Str} {rest : List Nat} (hf : Follow { ty := .IDENTIFIER, str := s } rest) :
    ¬ NextIs (fun c => NameChar c ∨ c = 92) rest := by
  rintro ⟨c, t, rfl, h⟩
  refine hf.bad ⟨c, t, rfl, ?_⟩
  rcases h with h | h
  · exact .inl h
  · exact .inr (.inl h)

theorem escTail_first {cs : List Nat} {c : Nat} {v : List Nat} (h : escTail cs = c :: v)
    (hc : ∀ c ∈ cs, Fair c ∧ c ≠ 10 ∧ c ≠ 12 ∧ c ≠ 13) : c ≠ 43 := by
  cases cs with
  | nil => cases h
  | cons d cs =>
    have : escTail (d :: cs) = (if isIdentifier d then [d] else [92, d]) ++ escTail cs := by
      unfold escTail; rw [List.flatMap_cons]
    rw [this] at h
    by_cases hi : isIdentifier d = true
    · rw [if_pos hi] at h
      injection h with h _
      subst h
      have := (isIdentifier_name (valid_le (hc d (by simp)).1.1)).1 hi
      unfold NameChar VarChar Dec Letter at this; omega
    · rw [if_neg hi] at h
      injection h with h _
      omega

theorem ident_spells {cs : List Nat} {s : Str} (hu : Utf8 cs s) (hne : cs ≠ [])
    (hc : ∀ c ∈ cs, Fair c ∧ c ≠ 10 ∧ c ≠ 12 ∧ c ≠ 13) (h1 : ∀ c, cs = [c] → ¬ Dec c) :
    Spells (escChars cs) { ty := .IDENTIFIER, str := s } := by
  have hfirst : ∃ c t, escChars cs = c :: t ∧ (NameStart c ∨ c = 92) ∧
      (NameStart c → ∃ ds, cs = c :: ds ∧ t = escTail ds) := by
    cases cs with
    | nil => exact absurd rfl hne
    | cons c ds =>
      unfold escChars
      dsimp only
      by_cases hs : isStartIdentifier c = true
      · rw [if_pos hs]
        exact ⟨c, escTail ds, rfl, .inl (start_lt hs (valid_le (hc c (by simp)).1.1)), fun _ => ⟨ds, rfl, rfl⟩⟩
      · rw [if_neg hs]
        have hn : ¬ NameStart 92 := by unfold NameStart Letter; omega
        by_cases hd : isDigit c = true
        · rw [if_pos hd]
          exact ⟨92, _, by simp only [List.cons_append]; rfl, .inr rfl, fun h => absurd h hn⟩
        · rw [if_neg hd]
          exact ⟨92, _, by simp only [List.cons_append]; rfl, .inr rfl, fun h => absurd h hn⟩
  obtain ⟨c0, t0, e0, hc0, he0⟩ := hfirst
  refine ⟨⟨{ ty := .IDENTIFIER, text := cs, low := cs.map lowerByte }, ⟨rfl, hu, rfl, rfl, rfl, rfl, rfl⟩,
    by simp, by simp, ?_⟩, ⟨c0, t0, e0, ?_⟩, ?_⟩
  · intro rest hf
    refine ident_reads hu (escChars_name hne hc h1 (follow_ident hf)) hf ?_ (by rw [e0]; simp)
    intro u t e hu
    rw [e0] at e
    injection e with e1 e2
    subst e1 e2
    obtain ⟨ds, rfl, rfl⟩ := he0 (by unfold NameStart Letter; omega)
    cases ht : escTail ds with
    | nil =>
      left
      refine ⟨rfl, ?_⟩
      cases ds with
      | nil => rfl
      | cons d ds =>
        have : escTail (d :: ds) = (if isIdentifier d then [d] else [92, d]) ++ escTail ds := by
          unfold escTail; rw [List.flatMap_cons]
        rw [this] at ht
        split at ht <;> cases ht
    | cons a v =>
      right
      exact ⟨a, v, rfl, escTail_first ht (fun c h => hc c (by simp [h]))⟩
  · rcases hc0 with h | h
    · exact .inl h
    · exact .inr (.inr h)
  · intro c h
    rcases escChars_mem c h with rfl | rfl | rfl | h
    · omega
    · omega
    · omega
    · exact fair_clean (hc c h)

theorem plain_start {cs : List Nat} (h : PlainName cs) : NextIs (fun c => NameStart c ∨ c = 45 ∨ c = 92) cs := by
  rcases h.2 with ⟨c, t, rfl, hc⟩ | ⟨t, rfl, _⟩
  · exact ⟨c, t, rfl, .inl hc⟩
  · exact ⟨45, t, rfl, .inr (.inl rfl)⟩

theorem plain_ne {cs : List Nat} (h : PlainName cs) : cs ≠ [] := by
  obtain ⟨c, t, rfl, _⟩ := plain_start h; simp

theorem plain_spells {cs : List Nat} {s : Str} (hu : Utf8 cs s) (h : PlainName cs) :
    Spells cs { ty := .IDENTIFIER, str := s } := by
  refine ⟨⟨{ ty := .IDENTIFIER, text := cs, low := cs.map lowerByte }, ⟨rfl, hu, rfl, rfl, rfl, rfl, rfl⟩,
    by simp, by simp, ?_⟩, plain_start h, fun c hc => name_clean (h.1 c hc)⟩
  intro rest hf
  refine ident_reads hu (name_plain h (follow_ident hf)) hf ?_ (plain_ne h)
  rintro u t rfl hu
  cases t with
  | nil => exact .inl ⟨rfl, rfl⟩
  | cons c v =>
    refine .inr ⟨c, v, rfl, ?_⟩
    have := (h.1 c (by simp)).1
    unfold NameChar VarChar Dec Letter at this; omega

theorem function_spells {cs : List Nat} {s : Str} (hu : Utf8 cs s) (h : PlainName cs)
    (hl : ∀ c ∈ cs, lowerByte c = c) (hurl : s ≠ b!"url") : Spells (cs ++ [40]) { ty := .FUNCTION, str := s } := by
  have hm : cs.map lowerByte = cs := by
    conv => rhs; rw [← List.map_id cs]
    exact List.map_congr_left hl
  refine ⟨⟨{ ty := .FUNCTION, text := cs.map lowerByte }, ⟨rfl, ?_, rfl, rfl, rfl, rfl, rfl⟩,
    by simp, by simp, ?_⟩, ?_, ?_⟩
  · show Utf8 (cs.map lowerByte) s
    rw [hm]; exact hu
  · intro rest hf
    rw [List.append_assoc]
    refine .function ?_ (name_plain h ?_) ?_
    · rintro ⟨u, t, e, h1, h2⟩
      rcases h.2 with ⟨c, v, rfl, _⟩ | ⟨v, rfl, _⟩
      · rw [List.cons_append] at e
        injection e with e1 e2
        subst e1
        cases v with
        | nil => injection e2 with e3 _; omega
        | cons d v =>
          injection e2 with e3 _
          have := (h.1 d (by simp)).1
          unfold NameChar VarChar Dec Letter at this; omega
      · injection e with e1 _; omega
    · rw [List.singleton_append, nextIs_cons]; unfold NameChar VarChar Dec Letter; omega
    · rw [hm]
      rintro rfl
      apply hurl
      have h1 : encode b!"url" = s := utf8_encode hu (fun c hc => ⟨valid_enc (h.1 c hc).2.1, (h.1 c hc).2.1.2.2⟩)
      rw [← h1]; decide
  · obtain ⟨c, t, rfl, hc⟩ := plain_start h
    exact ⟨c, t ++ [40], rfl, hc⟩
  · exact Clean.append (fun c hc => name_clean (h.1 c hc)) (by intro c hc; simp at hc; omega)

theorem keyword_spells {cs : List Nat} {s : Str} (hu : Utf8 cs s) (h : PlainName cs) :
    Spells (64 :: cs) { ty := .AT_KEYWORD, str := s } := by
  refine ⟨⟨{ ty := .AT_KEYWORD, text := cs, low := cs.map lowerByte }, ⟨rfl, hu, rfl, rfl, rfl, rfl, rfl⟩,
    by simp, by simp, ?_⟩, ⟨64, cs, rfl, rfl⟩, ?_⟩
  · intro rest hf
    exact .atKeyword (name_plain h hf.bad)
  · intro c hc
    rcases List.mem_cons.1 hc with rfl | hc
    · omega
    · exact name_clean (h.1 c hc)

theorem hash_spells {cs : List Nat} {s : Str} (hu : Utf8 cs s) (hne : cs ≠ []) (h : ∀ c ∈ cs, NameChar c ∧ Fair c) :
    Spells (35 :: cs) { ty := .HASH, str := s } := by
  refine ⟨⟨{ ty := .HASH, text := cs }, ⟨rfl, hu, rfl, rfl, rfl, rfl, rfl⟩,
    by simp, by simp, ?_⟩, ⟨35, cs, rfl, rfl⟩, ?_⟩
  · intro rest hf
    exact .hash (nameTail_plain h hf.bad) hne
  · intro c hc
    rcases List.mem_cons.1 hc with rfl | hc
    · omega
    · exact name_clean (h c hc)

/-- A name of a variable that is kept as it is: lowercase letters, digits and `_`. -/
theorem variable_spells {s : Str} (hne : s ≠ []) (h : ∀ c ∈ s, 97 ≤ c ∧ c ≤ 122 ∨ 48 ≤ c ∧ c ≤ 57 ∨ c = 95) :
    Spells (36 :: s) { ty := .VARIABLE, str := s } := by
  have hv : ∀ c ∈ s, VarChar c := fun c hc => by
    have := h c hc; unfold VarChar Dec Letter; omega
  have hm : s.map (fun c => if c = 45 then 95 else lowerByte c) = s := by
    conv => rhs; rw [← List.map_id s]
    refine List.map_congr_left fun c hc => ?_
    have := h c hc
    rw [if_neg (by omega)]
    unfold lowerByte
    rw [if_neg (by omega)]
    rfl
  refine ⟨⟨{ ty := .VARIABLE, text := s.map (fun c => if c = 45 then 95 else lowerByte c) }, ⟨rfl, ?_, rfl, rfl, rfl, rfl, rfl⟩,
    by simp, by simp, ?_⟩, ⟨36, s, rfl, rfl⟩, ?_⟩
  · show Utf8 (s.map _) s
    rw [hm]
    exact utf8_ascii (fun c hc => by have := h c hc; omega)
  · intro rest hf
    have hb := hf.bad
    refine .variableName hv hne ?_ ?_
    · rintro ⟨c, t, e, hc⟩
      exact hb ⟨c, t, e, .inl hc⟩
    · rintro t rfl
      exact hb ⟨40, t, rfl, .inr rfl⟩
  · intro c hc
    rcases List.mem_cons.1 hc with rfl | hc
    · omega
    · have := h c hc; omega

/-! ### Strings and URLs -/

theorem quoted_reads {q : Nat} (hq : q = 34 ∨ q = 39) {cs : List Nat} (rest : List Nat)
    (h : ∀ c ∈ cs, Fair c ∧ c ≠ 10 ∧ c ≠ 92) : Quoted q (quotedChars q cs ++ q :: rest) cs rest := by
  induction cs with
  | nil => exact .close rest
  | cons c cs ih =>
    have hc := h c (by simp)
    have ih := ih (fun x hx => h x (by simp [hx]))
    unfold quotedChars at ih ⊢
    rw [List.flatMap_cons]
    by_cases he : c = q
    · rw [if_pos he]
      subst he
      exact .escape (.plain _ (by omega) (by unfold Hex Dec; omega)) hc.1.2 hc.1.1 ih
    · rw [if_neg he]
      exact .char he hc.2.1 hc.2.2 hc.1.1 ih

theorem quotedChars_mem {q : Nat} {cs : List Nat} : ∀ c ∈ quotedChars q cs, c = 92 ∨ c ∈ cs := by
  intro c hc
  unfold quotedChars at hc
  rw [List.mem_flatMap] at hc
  obtain ⟨d, hd, h⟩ := hc
  split at h
  · simp at h
    rcases h with rfl | rfl
    · exact .inl rfl
    · exact .inr hd
  · simp at h; subst h; exact .inr hd

/-- The text of a string. -/
def stringChars (q : Nat) (cs : List Nat) : List Nat := q :: (quotedChars q cs ++ [q])

theorem stringChars_clean {q : Nat} (hq : q = 34 ∨ q = 39) {cs : List Nat}
    (h : ∀ c ∈ cs, Fair c ∧ c ≠ 10 ∧ c ≠ 12 ∧ c ≠ 13) : Clean (stringChars q cs) := by
  intro c hc
  unfold stringChars at hc
  rcases List.mem_cons.1 hc with rfl | hc
  · omega
  · rcases List.mem_append.1 hc with hc | hc
    · rcases quotedChars_mem c hc with rfl | hc
      · omega
      · exact fair_clean (h c hc)
    · simp at hc; omega

theorem outputString_chars {cs : List Nat} {s : Str} (hu : Utf8 cs s) (h0 : ∀ c ∈ cs, c ≠ 0) :
    ∃ q, (q = 34 ∨ q = 39) ∧ Utf8 (stringChars q cs) (Asm.outputString s) := by
  obtain ⟨q, hq, e⟩ := outputString_eq hu h0
  refine ⟨q, hq, ?_⟩
  rw [e]
  unfold stringChars
  have a : Utf8 [q] [q] := Utf8.cons (.one q (by omega)) .nil
  exact utf8_append a (utf8_append (quoted_utf8 q (by omega) hu) a)

theorem string_spells {q : Nat} (hq : q = 34 ∨ q = 39) {cs : List Nat} {s : Str} (hu : Utf8 cs s)
    (h : ∀ c ∈ cs, Fair c ∧ c ≠ 10 ∧ c ≠ 12 ∧ c ≠ 13 ∧ c ≠ 92) :
    Spells (stringChars q cs) { ty := .STRING, str := s } := by
  refine ⟨⟨{ ty := .STRING, text := cs }, ⟨rfl, hu, rfl, rfl, rfl, rfl, rfl⟩, by simp, by simp, ?_⟩, ⟨q, _, rfl, hq⟩,
    stringChars_clean hq (fun c hc => ⟨(h c hc).1, (h c hc).2.1, (h c hc).2.2.1, (h c hc).2.2.2.1⟩)⟩
  intro rest _
  unfold stringChars
  rw [List.cons_append, List.append_assoc]
  exact .string hq (quoted_reads hq rest (fun c hc => ⟨(h c hc).1, (h c hc).2.1, (h c hc).2.2.2.2⟩))

theorem url_name (rest : List Nat) : Name (b!"url" ++ 40 :: rest) b!"url" false (40 :: rest) := by
  refine name_plain ⟨?_, .inl ⟨117, b!"rl", rfl, by unfold NameStart Letter; omega⟩⟩ ?_
  · intro c hc
    simp at hc
    unfold NameChar VarChar Dec Letter Fair Valid Scalar Nonchar; omega
  · rw [nextIs_cons]; unfold NameChar VarChar Dec Letter; omega

theorem url_reads {b cs rest : List Nat} (h : UrlBody (b ++ rest) cs rest) :
    Reads (b!"url" ++ ([40] ++ b) ++ rest) { ty := .URL, text := cs } rest := by
  have := Reads.url (cs := b!"url" ++ 40 :: (b ++ rest)) ?_ (url_name _) rfl h
  · simpa using this
  · rintro ⟨u, t, e, h1, h2⟩
    injection e with e1 e2
    injection e2 with e3 _
    cases e3

theorem urlString_spells {q : Nat} (hq : q = 34 ∨ q = 39) {cs b1 b2 : List Nat} {s : Str} (hu : Utf8 cs s)
    (h : ∀ c ∈ cs, Fair c ∧ c ≠ 10 ∧ c ≠ 12 ∧ c ≠ 13 ∧ c ≠ 92)
    (h1 : ∀ c ∈ b1, c = 32) (h2 : ∀ c ∈ b2, c = 32) :
    Spells (b!"url" ++ ([40] ++ (b1 ++ (stringChars q cs ++ (b2 ++ [41]))))) { ty := .URL, str := s } := by
  refine ⟨⟨{ ty := .URL, text := cs }, ⟨rfl, hu, rfl, rfl, rfl, rfl, rfl⟩, by simp, by simp, ?_⟩,
    ⟨117, _, rfl, .inl (by unfold NameStart Letter; omega)⟩, ?_⟩
  · intro rest _
    refine url_reads ?_
    have := UrlBody.quoted (b1 := b1) (b2 := b2) (cs := quotedChars q cs ++ q :: (b2 ++ 41 :: rest)) (rest := rest)
      (fun c hc => .inl (h1 c hc)) hq
      (quoted_reads hq (b2 ++ 41 :: rest) (fun c hc => ⟨(h c hc).1, (h c hc).2.1, (h c hc).2.2.2.2⟩))
      (fun c hc => .inl (h2 c hc))
    unfold stringChars
    simpa using this
  · refine Clean.append (by unfold Clean; decide) (Clean.append (by unfold Clean; decide) (Clean.append ?_ (Clean.append ?_ (Clean.append ?_ (by unfold Clean; decide)))))
    · intro c hc; have := h1 c hc; omega
    · exact stringChars_clean hq (fun c hc => ⟨(h c hc).1, (h c hc).2.1, (h c hc).2.2.1, (h c hc).2.2.2.1⟩)
    · intro c hc; have := h2 c hc; omega

theorem urlPlain_spells {cs b1 b2 : List Nat} {s : Str} (hu : Utf8 cs s) (hne : cs ≠ [])
    (h : ∀ c ∈ cs, Fair c ∧ c ≠ 10 ∧ c ≠ 12 ∧ c ≠ 13) (hs : ∀ c ∈ cs, ¬ UrlSpecial c ∧ ¬ Blank c)
    (h1 : ∀ c ∈ b1, c = 32) (h2 : ∀ c ∈ b2, c = 32) :
    Spells (b!"url" ++ ([40] ++ (b1 ++ (cs ++ (b2 ++ [41]))))) { ty := .URL, str := s } := by
  refine ⟨⟨{ ty := .URL, text := cs }, ⟨rfl, hu, rfl, rfl, rfl, rfl, rfl⟩, by simp, by simp, ?_⟩,
    ⟨117, _, rfl, .inl (by unfold NameStart Letter; omega)⟩, ?_⟩
  · intro rest _
    refine url_reads ?_
    cases cs with
    | nil => exact absurd rfl hne
    | cons c us =>
      have := UrlBody.plain (b1 := b1) (b2 := b2) (us := us) (c := c) (rest := rest)
        (fun c hc => .inl (h1 c hc))
        ⟨(hs c (by simp)).2, fun e => (hs c (by simp)).1 (.inr (.inl e)), fun e => (hs c (by simp)).1 (.inr (.inr (.inl e)))⟩
        (fun u hu => ⟨(hs u (by simp [hu])).2, fun e => (hs u (by simp [hu])).1 (.inl e),
          fun e => (hs u (by simp [hu])).1 (.inr e)⟩)
        (fun u hu => (h u hu).1.1)
        (fun c hc => .inl (h2 c hc))
      simpa using this
  · refine Clean.append (by unfold Clean; decide) (Clean.append (by unfold Clean; decide) (Clean.append ?_ (Clean.append ?_ (Clean.append ?_ (by unfold Clean; decide)))))
    · intro c hc; have := h1 c hc; omega
    · exact fun c hc => fair_clean (h c hc)
    · intro c hc; have := h2 c hc; omega

end Csspp.Written
