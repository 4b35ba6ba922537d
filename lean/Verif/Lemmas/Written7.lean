import Verif.Lemmas.Written6

/-!
For C57: the text of the nodes without children (the end).
-/

namespace Csspp.Written
open Csspp.Spec Csspp.Lex Csspp.Asm Csspp.Tree

theorem url_gives (m : Mode) {cs : List Nat} {s : Str} (hu : Utf8 cs s)
    (hc : ∀ c ∈ cs, Fair c ∧ c ≠ 10 ∧ c ≠ 12 ∧ c ≠ 13)
    (h : (∃ c ∈ cs, UrlSpecial c) ∧ (∀ c ∈ cs, c ≠ 92) ∨ cs ≠ [] ∧ ∀ c ∈ cs, ¬ UrlSpecial c ∧ ¬ Spec.Blank c) :
    Gives m (url s) [.word { ty := .URL, str := s }] := by
  obtain ⟨b1, h1, t1⟩ := op_after m [40]
  obtain ⟨b2, h2, t2⟩ := op_before m [41]
  have sp : ∀ b : List Nat, (∀ c ∈ b, c = 32) → Utf8 b b := fun b h => utf8_ascii fun c hc => by have := h c hc; omega
  have h0 : ∀ c ∈ cs, c ≠ 0 := fun c hm => (hc c hm).1.1.2.2
  have key : ∀ (body : List Nat) (text : Str), Utf8 body text → urlArg s = text →
      Spells (b!"url" ++ ([40] ++ (b1 ++ (body ++ (b2 ++ [41]))))) { ty := .URL, str := s } →
      Gives m (url s) [.word { ty := .URL, str := s }] := by
    intro body text hb e hs
    unfold url
    rw [e]
    refine ((text_raw m b!"url").andThen (t1.andThen ((text_raw m text).andThen t2))).word hs ?_
    have := utf8_append (utf8_ascii (s := b!"url") (by decide)) (utf8_append (utf8_append (utf8_ascii (s := [40]) (by decide))
      (sp b1 h1)) (utf8_append hb (utf8_append (sp b2 h2) (utf8_ascii (s := [41]) (by decide)))))
    simpa using this
  -- urlDirect on the bytes is about the characters
  have hcstr : cstr s = s := cstr_id (utf8_nonzero hu h0)
  have hbyte : ∀ (k : Nat), k < 0x80 → (k ∈ s ↔ k ∈ cs) := by
    intro k hk
    clear h hc key h0 hcstr
    induction hu with
    | nil => exact Iff.rfl
    | @cons c b cs bs hb _ ih =>
      rw [List.mem_append, List.mem_cons, ih]
      refine or_congr_left ?_
      rcases shape_forms hb with ⟨rfl, h⟩ | ⟨x, y, rfl, h⟩ | ⟨x, y, z, rfl, h⟩ | ⟨x, y, z, t, rfl, h⟩
      · simp
      · simp; omega
      · simp; omega
      · simp; omega
  have hdir : urlDirect s = true ↔ ∀ c ∈ cs, ¬ UrlSpecial c := by
    unfold urlDirect
    rw [hcstr, List.all_eq_true]
    constructor
    · intro hall c hm hsp
      have hlt : c < 0x80 := by unfold UrlSpecial UrlForbidden at hsp; omega
      have := hall c ((hbyte c hlt).2 hm)
      unfold isNonPrintable at this
      unfold UrlSpecial UrlForbidden at hsp
      simp at this
      omega
    · intro hall b hb
      by_cases hlt : b < 0x80
      · have := hall b ((hbyte b hlt).1 hb)
        unfold UrlSpecial UrlForbidden at this
        unfold isNonPrintable
        simp
        have h00 := h0 b ((hbyte b hlt).1 hb)
        omega
      · simp [hlt]; omega
  rcases h with ⟨⟨c, hm, hsp⟩, hbs⟩ | ⟨hne, hall⟩
  · obtain ⟨q, hq, hout⟩ := outputString_chars hu h0
    refine key (stringChars q cs) (outputString s) hout ?_ (urlString_spells hq hu (fun c hm => ⟨(hc c hm).1, (hc c hm).2.1,
      (hc c hm).2.2.1, (hc c hm).2.2.2, hbs c hm⟩) h1 h2)
    unfold urlArg
    rw [if_neg]
    intro e
    exact hdir.1 e c hm hsp
  · refine key cs s hu ?_ (urlPlain_spells hu hne hc hall h1 h2)
    unfold urlArg
    rw [if_pos (hdir.2 fun c hm => (hall c hm).1)]

theorem range_gives (m : Mode) {a b : Nat} (hab : a ≤ b) (hb : b ≤ 0x10FFFF) (h0 : ¬ (a = 0 ∧ b = 0x10FFFF)) {i : Int}
    (hi : i = ((4294967296 * b + a : Nat) : Int)) :
    Gives m (Asm.unicodeRange i) [.word { ty := .UNICODE_RANGE, int := i }] := by
  obtain ⟨h1, h2, h3⟩ := Lex.ofRange_packed (n := a) (m := b) (by omega) hab (by omega)
  obtain ⟨text, h4, h5⟩ := URange.toStr_written hab (by omega) h2 h3
  have e : Asm.unicodeRange i = rawText (b!"U+" ++ text) := by
    unfold Asm.unicodeRange
    have : toU64 i = 4294967296 * b + a := by unfold toU64; omega
    rw [this, h1]
    dsimp only
    rw [h4]
  rw [e]
  subst hi
  exact (text_raw m _).word (range_spells hab hb h0 h5)
    (utf8_append (utf8_ascii (s := b!"U+") (by decide)) (range_ascii hb hab h5))

/-- The nodes without children. -/
theorem leaf_gives (m : Mode) (p : Nat) (d : Data) (h : Sound p d) :
    (leafItems p d = none ∧ leafCalls p d = none) ∨
    ∃ o l, leafItems p d = some l ∧ leafCalls p d = some o ∧ Gives m o l := by
  have op : ∀ (ty : NT) (s : Str) (f : Flag), d.ty = ty → spell ty ≠ [] → s = spell ty → f ≠ .optionalOperator →
      isOperator ty = true → leafCalls p d = some (operator s f) →
      ∃ o l, leafItems p d = some l ∧ leafCalls p d = some o ∧ Gives m o l := by
    intro ty s f hty h1 h2 h3 h4 h5
    refine ⟨_, [mark ty], ?_, h5, op_gives m h1 h2 h3⟩
    unfold leafItems
    rw [hty, if_pos h4]
  unfold Sound at h
  cases hty : d.ty
  all_goals
    rw [hty] at h
    dsimp only at h
    first
      | exact absurd h (by decide)
      | (refine .inl ⟨?_, ?_⟩ <;> first | (unfold leafItems; rw [hty]; rfl) | (unfold leafCalls; rw [hty]))
      | (refine .inr (op _ _ _ hty ?_ ?_ ?_ ?_ (by unfold leafCalls; rw [hty])) <;> first | rfl | decide)
      | skip
  all_goals right
  case COLOR =>
    obtain ⟨col, h1, h2⟩ := h
    obtain ⟨t, h3, h4⟩ := color_gives m h1 h2
    exact ⟨_, _, by unfold leafItems; rw [hty]; rfl, by unfold leafCalls; rw [hty]; dsimp only; rw [h3], h4⟩
  case DECIMAL_NUMBER =>
    refine ⟨_, _, by unfold leafItems; rw [hty]; rfl, by unfold leafCalls; rw [hty], ?_⟩
    rw [unit_quiet h.2, nil_andThen]
    exact decimal_gives m h.1 (.inr h.2)
  case FONT_METRICS =>
    refine ⟨_, _, by unfold leafItems; rw [hty]; rfl, by unfold leafCalls; rw [hty], ?_⟩
    obtain ⟨h1, h2, h3, h4⟩ := h
    have key := (decimal_gives m h1 h3).andThen (((text_raw m [47]).word (mark_spells (ty := .DIVIDE) (by decide))
      (utf8_ascii (s := [47]) (by decide))).andThen (decimal_gives m h2 h4))
    have e1 : ∀ x u, scaled x u = times x (percentOr1 u) := by intro x u; unfold scaled times percentOr1; rfl
    unfold fontMetrics
    dsimp only
    rw [e1, e1]
    unfold unit1 unit2 at key ⊢
    unfold mark
    rw [andThen_assoc, List.cons_append, List.nil_append] at key
    with_reducible exact key
  case HASH =>
    obtain ⟨cs, h1, h2, h3⟩ := h
    refine ⟨_, _, by unfold leafItems; rw [hty]; rfl, by unfold leafCalls; rw [hty], ?_⟩
    exact (text_raw m _).word (hash_spells h1 h2 h3) (utf8_append (a := [35]) (x := [35]) (utf8_ascii (by decide)) h1)
  case IDENTIFIER =>
    obtain ⟨cs, h1, h2, h3, h4⟩ := h
    obtain ⟨out, h5, h6⟩ := escapeId_bytes h1 (fun c hm => (h3 c hm).1.1.2.2)
    refine ⟨_, _, by unfold leafItems; rw [hty]; rfl, by unfold leafCalls; rw [hty], ?_⟩
    rw [h5]
    exact (text_raw m _).word (ident_spells h1 h2 h3 h4) h6
  case INTEGER =>
    refine ⟨_, _, by unfold leafItems; rw [hty]; rfl, by unfold leafCalls; rw [hty], ?_⟩
    rw [unit_quiet h.2.2, nil_andThen]
    exact (text_raw m _).word (integer_spells ⟨h.1, h.2.1⟩ h.2.2)
      (utf8_append (utf8_ascii (intDigits_ascii _)) (utf8_ascii (unit_ascii (.inr h.2.2))))
  case PERCENT =>
    refine ⟨_, _, by unfold leafItems; rw [hty]; rfl, by unfold leafCalls; rw [hty], ?_⟩
    exact decimal_gives m h (.inl rfl)
  case STRING =>
    obtain ⟨cs, h1, h2⟩ := h
    obtain ⟨q, h3, h4⟩ := outputString_chars h1 (fun c hm => (h2 c hm).1.1.2.2)
    refine ⟨_, _, by unfold leafItems; rw [hty]; rfl, by unfold leafCalls; rw [hty], ?_⟩
    exact (text_raw m _).word (string_spells h3 h1 h2) h4
  case UNICODE_RANGE =>
    obtain ⟨a, b, h1, h2, h3, h4⟩ := h
    refine ⟨_, _, by unfold leafItems; rw [hty]; rfl, by unfold leafCalls; rw [hty], ?_⟩
    exact range_gives m h1 h2 h3 h4
  case URL =>
    obtain ⟨cs, h1, h2, h3⟩ := h
    refine ⟨_, _, by unfold leafItems; rw [hty]; rfl, by unfold leafCalls; rw [hty], ?_⟩
    exact url_gives m h1 h2 h3
  case WHITESPACE =>
    exact ⟨_, _, by unfold leafItems; rw [hty]; rfl, by unfold leafCalls; rw [hty], space_gives m⟩

end Csspp.Written
