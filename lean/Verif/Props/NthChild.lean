import Verif.Lemmas.NthChildParse

/-!
C14, C15, C16: An+B.
-/

namespace Csspp.Nth
open Csspp.Spec

/-- C14: packing A and B in one 64 bit integer and unpacking it gives A and B back; and every
64 bit integer is the packed form of what it unpacks to. -/
theorem C14_pack_unpack (n : Nth) (ha : IsI32 n.a) (hb : IsI32 n.b) :
    IsI64 n.getNth ∧ (Nth.ofPacked n.getNth).a = n.a ∧ (Nth.ofPacked n.getNth).b = n.b := by
  unfold IsI32 at ha hb
  have e : n.getNth = wrap64 ((low32 n.b : Int) * 4294967296 + low32 n.a) := by
    unfold Nth.getNth
    have h1 : low32 n.a < 2 ^ 32 := by unfold low32; omega
    rw [Nat.or_comm, Nat.shiftLeft_eq, Nat.mul_comm, ← Nat.two_pow_add_eq_or_of_lt h1]
    congr 1
    omega
  refine ⟨?_, ?_, ?_⟩
  · rw [e]; exact isI64_wrap64 _
  · unfold Nth.ofPacked; dsimp only; rw [e]; unfold wrap64 wrap32 low32; omega
  · unfold Nth.ofPacked; dsimp only; rw [e]; unfold wrap64 wrap32 low32; omega

theorem C14_unpack_pack (p : Int) (hp : IsI64 p) :
    (Nth.ofPacked p).getNth = p ∧ IsI32 (Nth.ofPacked p).a ∧ IsI32 (Nth.ofPacked p).b := by
  refine ⟨?_, isI32_wrap32 _, isI32_wrap32 _⟩
  unfold IsI64 at hp
  unfold Nth.getNth Nth.ofPacked
  dsimp only
  have h1 : low32 (wrap32 p) < 2 ^ 32 := by unfold low32; omega
  rw [Nat.or_comm, Nat.shiftLeft_eq, Nat.mul_comm, ← Nat.two_pow_add_eq_or_of_lt h1]
  have e : ((2 ^ 32 * low32 (wrap32 (p / 4294967296)) + low32 (wrap32 p) : Nat) : Int) =
      (low32 (wrap32 (p / 4294967296)) : Int) * 4294967296 + low32 (wrap32 p) := by omega
  rw [e]
  unfold low32 wrap32 wrap64
  omega

example : (Nth.ofPacked (Nth.getNth { a := -3, b := -2147483648 })).a = -3 := by decide +kernel
example : IsI32 (-3) ∧ IsI32 (-2147483648) := by decide

/-- C16, exactness: on a text without NUL and 0xFF bytes and without integer overflow, `parse()`
succeeds exactly on the texts of the An+B grammar and then stores the (32 bit) A and B of the text
and an empty error message; otherwise it returns false with a non empty error message.
(The function is total: it always terminates.) -/
theorem C16_parse_exact (n : Nth) (s : Str) (hb : ∀ x ∈ s, 1 ≤ x ∧ x ≤ 254)
    (_hub : (n.parse s).ub = false) :
    ((n.parse s).ok = true ↔ ∃ a b, AnB s a b) ∧
    (∀ a b, AnB s a b →
      (n.parse s).nth.a = wrap32 a ∧ (n.parse s).nth.b = wrap32 b ∧
      (n.parse s).nth.error = none) ∧
    ((n.parse s).ok = false → (n.parse s).nth.error ≠ none) := by
  refine ⟨⟨?_, ?_⟩, ?_, ?_⟩
  · intro h
    obtain ⟨a, b, h1, _⟩ := parse_accepted n s hb h
    exact ⟨a, b, h1⟩
  · rintro ⟨a, b, h⟩
    exact (parse_accepts n s a b h).1
  · intro a b h
    rw [(parse_accepts n s a b h).2]
    exact ⟨rfl, rfl, rfl⟩
  · have hB2 : ∀ n f τ ub i, (parseB2 n f τ ub i).ok = false →
        (parseB2 n f τ ub i).nth.error ≠ none := by
      intro n f τ ub i
      unfold parseB2; dsimp only
      repeat' split
      all_goals simp
    have hB : ∀ n f ub i, (parseB n f ub i).ok = false → (parseB n f ub i).nth.error ≠ none := by
      intro n f ub i
      unfold parseB; dsimp only
      split
      · exact hB2 _ _ _ _ _
      · split
        · exact hB2 _ _ _ _ _
        · simp
    have hA : ∀ n σ t, (parseA n σ t).ok = false → (parseA n σ t).nth.error ≠ none := by
      intro n σ t
      unfold parseA; dsimp only
      split
      · simp
      · split
        · simp
        · split
          · simp
          · exact hB _ _ _ _
    unfold Nth.parse; dsimp only
    split
    · split <;> simp
    · split
      · split <;> simp
      · split
        · exact hA _ _ _
        · split
          · exact hA _ _ _
          · exact hA _ _ _

/-- C16, no undefined behaviour when no run of digits has more than 18 digits. -/
theorem C16_no_overflow (n : Nth) (s : Str) (hb : ∀ x ∈ s, 1 ≤ x ∧ x ≤ 254)
    (hs : ∀ d, Digits d → d <:+: s → d.length ≤ 18) : (n.parse s).ub = false :=
  parse_ub n s hb hs

/-- C16: the value of an accepted text is unique (the grammar is not ambiguous). -/
theorem C16_unambiguous (s : Str) (a b a' b' : Int) (h : AnB s a b) (h' : AnB s a' b') :
    wrap32 a = wrap32 a' ∧ wrap32 b = wrap32 b' := by
  have h1 := (parse_accepts {} s a b h).2
  have h2 := (parse_accepts {} s a' b' h').2
  rw [h1] at h2
  simpa using h2

/-- C16, the overflow is real: twenty digits overflow the 64 bit accumulator. -/
theorem C16_overflow_reachable : (Nth.parse {} b!"99999999999999999999").ub = true := by
  decide +kernel

/-- C16, the restriction on bytes is needed: a NUL byte after a number is skipped, and a 0xFF byte
ends the text, so that both texts are accepted although they are not in the grammar. -/
theorem C16_refuted_nul_and_ff :
    (Nth.parse {} [51, 0]).ok = true ∧ (Nth.parse {} [51, 255, 120]).ok = true := by
  decide +kernel

example : AnB b!" - 2 N +  7" (-2) 7 :=
  .anb (s1 := [32]) (g := [45]) (s2 := [32]) (d := [50]) (s3 := [32]) (n := [78]) (s4 := [32])
    (h := [43]) (s5 := [32, 32]) (e := [55]) (s6 := []) (σ := -1) (τ := 1)
    (by simp [Spaces]) .minus (by simp [Spaces]) (by simp [Digits]) (by simp [Spaces])
    (by decide) (by simp [Spaces]) .plus (by simp [Spaces]) (by simp [Digits]) (by simp [Spaces])
example : (Nth.parse {} b!" - 2 N +  7").nth = { a := -2, b := 7 } := by decide +kernel
example : (Nth.parse {} b!"3x").ok = false ∧ (Nth.parse {} b!"3x").ub = false := by decide +kernel

/-- The text of a number is in the grammar. -/
theorem anB_number (x : Int) : ∃ g σ d, intDigits x = g ++ d ∧ OptSign g σ ∧ Digits d ∧
    σ * decVal d = x := by
  unfold intDigits
  by_cases h : x < 0
  · rw [if_pos h]
    exact ⟨[45], -1, natDigits x.natAbs, rfl, .minus, natDigits_digits _, by
      rw [decVal_natDigits]; omega⟩
  · rw [if_neg h]
    exact ⟨[], 1, natDigits x.natAbs, rfl, .none, natDigits_digits _, by
      rw [decVal_natDigits]; omega⟩

theorem natDigits_i32_length {x : Int} (h : IsI32 x) : (natDigits x.natAbs).length ≤ 10 := by
  apply natDigits_length (by omega)
  unfold IsI32 at h
  have : (10 : Nat) ^ 10 = 10000000000 := by decide
  omega

/-- C15, proved part: for every A and B (32 bit) except B = 0 with A ≠ 0, the text written by
`to_string()` is parsed back as the same A and B, without overflow. -/
theorem C15_roundtrip (n m : Nth) (ha : IsI32 n.a) (hb : IsI32 n.b)
    (h : ¬ (n.a ≠ 0 ∧ n.b = 0)) :
    (m.parse n.toStr).ok = true ∧ (m.parse n.toStr).nth.a = n.a ∧ (m.parse n.toStr).nth.b = n.b ∧
    (m.parse n.toStr).nth.error = none ∧ (m.parse n.toStr).ub = false := by
  have hsp : Spaces [] := fun _ h => by cases h
  have spec : AnB n.toStr n.a n.b := by
    unfold Nth.toStr
    split
    · omega
    · split
      · rename_i h1
        rw [h1.1, h1.2]
        exact AnB.odd (s1 := []) (w := b!"odd") (s2 := []) hsp (by decide) hsp
      · split
        · rename_i h0
          obtain ⟨g, σ, d, e, h1, h2, h3⟩ := anB_number n.b
          rw [e, h0, ← h3]
          have := AnB.b (s1 := []) (s2 := []) (s3 := []) hsp h1 hsp h2 hsp
          simpa using this
        · split
          · omega
          · obtain ⟨g, σ, d, e, h1, h2, h3⟩ := anB_number n.a
            rw [e]
            rw [← h3]
            by_cases hn : n.b ≥ 0
            · rw [if_pos hn]
              have hi : intDigits n.b = natDigits n.b.natAbs := by
                unfold intDigits; rw [if_neg (by omega)]
              have := AnB.anb (s1 := []) (s2 := []) (s3 := []) (s4 := []) (s5 := []) (s6 := [])
                (n := b!"n") (h := b!"+") (e := natDigits n.b.natAbs) hsp h1 hsp h2 hsp (by decide)
                hsp .plus hsp (natDigits_digits _) hsp
              rw [decVal_natDigits, show (1 : Int) * (n.b.natAbs : Int) = n.b by omega] at this
              rw [hi]
              simpa using this
            · rw [if_neg hn]
              have hi : intDigits n.b = 45 :: natDigits n.b.natAbs := by
                unfold intDigits; rw [if_pos (by omega)]
              have := AnB.anb (s1 := []) (s2 := []) (s3 := []) (s4 := []) (s5 := []) (s6 := [])
                (n := b!"n") (h := b!"-") (e := natDigits n.b.natAbs) hsp h1 hsp h2 hsp (by decide)
                hsp .minus hsp (natDigits_digits _) hsp
              rw [decVal_natDigits, show (-1 : Int) * (n.b.natAbs : Int) = n.b by omega] at this
              rw [hi]
              simpa using this
  have hdig : ∀ x : Int, IsI32 x → (∀ c ∈ intDigits x, 1 ≤ c ∧ c ≤ 254) ∧
      (intDigits x).length ≤ 11 := by
    intro x hx
    have h1 := natDigits_digits x.natAbs
    have h2 := natDigits_i32_length hx
    unfold intDigits
    split
    · refine ⟨?_, by simp; omega⟩
      intro c hc
      rcases List.mem_cons.mp hc with rfl | hc
      · omega
      · have := h1.2 c hc; omega
    · exact ⟨fun c hc => by have := h1.2 c hc; omega, by omega⟩
  have hbytes : ∀ x ∈ n.toStr, 1 ≤ x ∧ x ≤ 254 := by
    unfold Nth.toStr
    intro x hx
    have hA := (hdig n.a ha).1
    have hB := (hdig n.b hb).1
    split at hx
    · simp at hx; omega
    · split at hx
      · simp at hx; omega
      · split at hx
        · exact hB x hx
        · split at hx
          · simp only [List.mem_append] at hx
            rcases hx with hx | hx
            · exact hA x hx
            · simp at hx; omega
          · simp only [List.mem_append] at hx
            rcases hx with ((hx | hx) | hx) | hx
            · exact hA x hx
            · simp at hx; omega
            · split at hx <;> simp at hx <;> omega
            · exact hB x hx
  have key := parse_accepts m _ _ _ spec
  have hub : (m.parse n.toStr).ub = false := by
    apply parse_ub m _ hbytes
    intro d hd hi
    -- a run of digits is inside one of the two numbers
    have hrun : ∀ (l r : Str) (c : Nat), ¬ (48 ≤ c ∧ c ≤ 57) → d <:+: l ++ c :: r →
        d <:+: l ∨ d <:+: r := by
      intro l r c hc hi
      have : ∀ x ∈ d, x ≠ c := fun x hx => by have := hd.2 x hx; omega
      rw [List.infix_append_iff] at hi
      rcases hi with hi | hi | ⟨d1, d2, rfl, hs, hp⟩
      · exact .inl hi
      · rw [List.infix_cons_iff] at hi
        rcases hi with hi | hi
        · cases d with
          | nil => exact .inl (List.nil_infix)
          | cons x xs =>
            have := (List.cons_prefix_cons.mp hi).1
            exact absurd this (this ▸ (by simp_all))
        · exact .inr hi
      · cases d2 with
        | nil => rw [List.append_nil]; exact .inl hs.isInfix
        | cons x xs =>
          have h1 := (List.cons_prefix_cons.mp hp).1
          have h2 := this x (by simp)
          exact absurd h1 h2
    have hlen : ∀ l : Str, d <:+: l → d.length ≤ l.length := fun l h => h.length_le
    have lA := (hdig n.a ha).2
    have lB := (hdig n.b hb).2
    unfold Nth.toStr at hi
    split at hi
    · have := hlen _ hi; simp at this; omega
    · split at hi
      · have := hlen _ hi; simp at this; omega
      · split at hi
        · have := hlen _ hi; omega
        · split at hi
          · have := hlen _ hi; simp at this; omega
          · simp only [List.append_assoc, List.singleton_append] at hi
            rcases hrun _ _ 110 (by omega) hi with hi | hi
            · have := hlen _ hi; omega
            · have := hlen _ hi
              split at this <;> simp at this <;> omega
  refine ⟨key.1, ?_, ?_, ?_, hub⟩
  · rw [key.2]; exact wrap32_of_isI32 ha
  · rw [key.2]; exact wrap32_of_isI32 hb
  · rw [key.2]

/-- C15, the full claim is false of the code: whenever B = 0 and A ≠ 0 (e.g. the selector argument
`even`, i.e. `2n`) the text `to_string()` writes, `An`, is rejected by `parse()` although the
comment of nth_child.cpp:34-36 lists it in the grammar. -/
theorem C15_refuted_B_zero (n m : Nth) (h0 : n.a ≠ 0) (h : n.b = 0) :
    (m.parse n.toStr).ok = false ∧ (m.parse n.toStr).nth.error = some .expectedSign := by
  have e : n.toStr = intDigits n.a ++ b!"n" := by
    unfold Nth.toStr
    split
    · rename_i h2; rw [h2.1]; decide
    · rename_i h2; simp only [h2, h0, h, if_false, if_true, and_false, Int.zero_ne_one]
  have key : ∀ (σ : Int) (d : Str) (nn : Nth), Digits d →
      (parseA nn σ (tokS (d ++ [110]))).ok = false ∧
      (parseA nn σ (tokS (d ++ [110]))).nth.error = some .expectedSign := by
    intro σ d nn hd
    have ht := tokS_digits hd (noDigit_cons [] (c := 110) (by omega))
      (by intro x hx; simp at hx; unfold ByteOK; omega)
    unfold parseA
    rw [if_neg (by rw [ht.1]; decide)]
    dsimp only
    rw [token_rep ht.2.2, tokS_n _ (by decide)]
    dsimp only
    rw [if_neg (by decide), if_neg (by decide)]
    unfold parseB
    dsimp only
    rw [token_rep (Rep.zero []), show (tokS []).tok = .eof from rfl, if_neg (by decide),
      if_neg (by decide)]
    exact ⟨rfl, rfl⟩
  rw [e]
  unfold Nth.parse
  dsimp only
  rw [token_rep (Rep.zero _)]
  obtain ⟨g, σ, d, e2, h1, h2, _⟩ := anB_number n.a
  rw [e2]
  have ht := (tokS_digits h2 (noDigit_cons [] (c := 110) (by omega))
      (by intro x hx; simp at hx; unfold ByteOK; omega)).1
  cases h1 with
  | none =>
    rw [List.nil_append]
    rw [if_neg (by rw [ht]; decide), if_neg (by rw [ht]; decide), if_neg (by rw [ht]; decide),
        if_neg (by rw [ht]; decide)]
    exact key _ _ _ h2
  | plus =>
    rw [List.append_assoc, List.singleton_append, tokS_plus]
    dsimp only
    rw [if_neg (by decide), if_neg (by decide), if_pos rfl, token_rep (Rep.zero _)]
    exact key _ _ _ h2
  | minus =>
    rw [List.append_assoc, List.singleton_append, tokS_minus]
    dsimp only
    rw [if_neg (by decide), if_neg (by decide), if_neg (by decide), if_pos rfl,
      token_rep (Rep.zero _)]
    exact key _ _ _ h2

example : (Nth.toStr { a := -3, b := -7 }) = b!"-3n-7" := by decide +kernel
example : (Nth.parse {} b!"2n").ok = false := by decide +kernel

end Csspp.Nth
