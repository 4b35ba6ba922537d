import Verif.Props.Functions
import Verif.Props.FunctionsConv
import Verif.Spec.Utf8

/-!
C78: the length of a string. C79: the unique identifiers. C81: random().
-/

namespace Csspp.Func
open Csspp.Flt Csspp.Expr Csspp.Spec

variable {α : Type}

/-! ### str_length() -/

theorem utf8_nonzero {cs : List Nat} {bs : Str} (h : Utf8 cs bs) (h0 : ∀ c ∈ cs, c ≠ 0) : ∀ b ∈ bs, b ≠ 0 := by
  induction h with
  | nil => intro b hb; cases hb
  | cons hc _ ih =>
    intro b hb
    rcases List.mem_append.1 hb with hb | hb
    · have hc0 := h0 _ (List.mem_cons_self ..)
      cases hc with
      | one _ h => rw [List.mem_singleton.1 hb]; exact hc0
      | two x y hx hy =>
        have := hy.1
        simp only [List.mem_cons, List.not_mem_nil, or_false] at hb
        omega
      | three x y z hx hy hz =>
        have := hy.1
        have := hz.1
        simp only [List.mem_cons, List.not_mem_nil, or_false] at hb
        omega
      | four x y z w hx hy hz hw =>
        have := hy.1
        have := hz.1
        have := hw.1
        simp only [List.mem_cons, List.not_mem_nil, or_false] at hb
        omega
    · exact ih (fun c hc => h0 c (List.mem_cons_of_mem _ hc)) b hb

theorem takeWhile_all {l : Str} (h : ∀ b ∈ l, b ≠ 0) : l.takeWhile (· != 0) = l := by
  induction l with
  | nil => rfl
  | cons b l ih =>
    rw [List.takeWhile_cons_of_pos (by simp [h b (List.mem_cons_self ..)]),
      ih (fun c hc => h c (List.mem_cons_of_mem _ hc))]

/-- The bytes that do not continue a character. -/
def starts (s : Str) : Nat := (s.filter (fun c => decide (c < 128) || decide (192 ≤ c))).length

theorem starts_char {c : Nat} {b : Str} (h : CharBytes c b) : starts b = 1 := by
  have first : ∀ a, (a < 128 ∨ 192 ≤ a) → (decide (a < 128) || decide (192 ≤ a)) = true := by
    intro a ha; simpa using ha
  have next : ∀ a, Follow a → (decide (a < 128) || decide (192 ≤ a)) = false := by
    intro a ha
    have h1 := ha.1
    have h2 := ha.2
    simp
    omega
  unfold starts
  cases h with
  | one _ h => simp [first c (.inl h)]
  | two x y hx hy => simp only [List.filter_cons, List.filter_nil, first x (.inr (by omega)), next y hy]; rfl
  | three x y z hx hy hz =>
    simp only [List.filter_cons, List.filter_nil, first x (.inr (by omega)), next y hy, next z hz]; rfl
  | four x y z w hx hy hz hw =>
    simp only [List.filter_cons, List.filter_nil, first x (.inr (by omega)), next y hy, next z hz, next w hw]; rfl

theorem starts_utf8 {cs : List Nat} {bs : Str} (h : Utf8 cs bs) : starts bs = cs.length := by
  induction h with
  | nil => rfl
  | cons hc _ ih =>
    have := starts_char hc
    unfold starts at this ih ⊢
    rw [List.filter_append, List.length_append, this, ih, List.length_cons]
    omega

/-- C78: str_length() is the number of characters, not of bytes. -/
theorem C78_length (env : Env α) (n : Int) (cs : List Nat) (s : Str) (h : Utf8 cs s) (h0 : ∀ c ∈ cs, c ≠ 0) :
    call env n b!"str_length" [[.str s]] = (.ok (.node (.int cs.length [])) [], n) := by
  show (val (.int (strLength s) []), n) = _
  unfold strLength
  rw [takeWhile_all (utf8_nonzero h h0)]
  have := starts_utf8 h
  unfold starts at this
  rw [this]
  rfl

/-- C78: of two strings one after the other it is the sum; known defect: what follows a null character is not counted. -/
theorem C78_append (env : Env α) (n : Int) (cs ds : List Nat) (s t : Str) (h : Utf8 cs s) (h' : Utf8 ds t)
    (h0 : ∀ c ∈ cs, c ≠ 0) :
    call env n b!"str_length" [[.str (s ++ 0 :: t)]] = (.ok (.node (.int cs.length [])) [], n) ∧
    ((∀ c ∈ ds, c ≠ 0) →
      call env n b!"str_length" [[.str (s ++ t)]] = (.ok (.node (.int (cs.length + ds.length : Nat) [])) [], n)) := by
  constructor
  · show (val (.int (strLength (s ++ 0 :: t)) []), n) = _
    unfold strLength
    have hn := utf8_nonzero h h0
    have : (s ++ 0 :: t).takeWhile (· != 0) = s := by
      rw [List.takeWhile_append_of_pos (by intro b hb; simp [hn b hb])]
      simp
    rw [this]
    have := starts_utf8 h
    unfold starts at this
    rw [this]
    rfl
  · intro h1
    have := C78_length env n (cs ++ ds) (s ++ t) (Lex.utf8_append h h') (by
      intro c hc
      rcases List.mem_append.1 hc with hc | hc
      · exact h0 c hc
      · exact h1 c hc)
    rw [List.length_append] at this
    exact this

/-! ### unique_id() -/

/-- A call to unique_id() with this prefix. -/
def IdCall (c : Str × Args α) (p : Str) : Prop :=
  c.1 = b!"unique_id" ∧
    ((p = b!"_csspp_unique" ∧ (c.2 = [] ∨ c.2 = [[.str []]] ∨ c.2 = [[.ident []]])) ∨
     (p ≠ [] ∧ (c.2 = [[.str p]] ∨ c.2 = [[.ident p]])))

/-- C79: unique_id() is its prefix followed by the counter, which is incremented first. -/
theorem C79_value (env : Env α) (n : Int) (hn : n < 2147483647) (c : Str × Args α) (p : Str) (h : IdCall c p) :
    call env n c.1 c.2 = (.ok (.node (.ident (p ++ intDigits (n + 1)))) [], n + 1) := by
  obtain ⟨f, args⟩ := c
  obtain ⟨rfl, h⟩ := h
  dsimp only at h ⊢
  have key : ∀ args : Args α, args.length ≤ 1 → call env n b!"unique_id" args = fUniqueId args n := by
    intro args hl
    show (if 0 ≤ args.length ∧ args.length ≤ 1 then fUniqueId args n else _) = _
    rw [if_pos ⟨Nat.zero_le _, hl⟩]
  have mk : ∀ q : Str, q ≠ [] → (if n < 2147483647 then
      (val (.ident ((if q = [] then b!"_csspp_unique" else q) ++ intDigits (n + 1))), n + 1)
      else ((.undef : Res α), n)) = (.ok (.node (.ident (q ++ intDigits (n + 1)))) [], n + 1) := by
    intro q hq
    rw [if_pos hn, if_neg hq]
    rfl
  rcases h with ⟨rfl, rfl | rfl | rfl⟩ | ⟨hp, rfl | rfl⟩
  · rw [key _ (by simp)]
    show (if n < 2147483647 then _ else _) = _
    rw [if_pos hn]
    rfl
  · rw [key _ (by simp)]
    show (if n < 2147483647 then _ else _) = _
    rw [if_pos hn]
    rfl
  · rw [key _ (by simp)]
    show (if n < 2147483647 then _ else _) = _
    rw [if_pos hn]
    rfl
  · rw [key _ (by simp)]
    exact mk p hp
  · rw [key _ (by simp)]
    exact mk p hp

/-- What a list of calls give, one after the other. -/
def history (env : Env α) : Int → List (Str × Args α) → List (Res α)
  | _, [] => []
  | n, c :: cs => (call env n c.1 c.2).1 :: history env (call env n c.1 c.2).2 cs

theorem counter_grows (env : Env α) (n : Int) (f : Str) (args : Args α) : n ≤ (call env n f args).2 := by
  by_cases h : f = b!"unique_id"
  · subst h
    show n ≤ ((if 0 ≤ args.length ∧ args.length ≤ 1 then fUniqueId args n else (fail _, n) : Res α × Int)).2
    split
    · unfold fUniqueId
      dsimp only
      repeat' split
      all_goals (show n ≤ _; first | exact Int.le_refl _ | exact Int.le_add_one (Int.le_refl _))
    · exact Int.le_refl _
  · rw [C72_counter env n f args h]
    exact Int.le_refl _

/-- The last character is not a digit. -/
def NotDigit (p : Str) : Prop := ∀ c, p.getLast? = some c → ¬ (48 ≤ c ∧ c ≤ 57)

theorem tail_digits {p s : Str} (hp : NotDigit p) (hs : ∀ c ∈ s, 48 ≤ c ∧ c ≤ 57) :
    (p ++ s).reverse.takeWhile (fun c => decide (48 ≤ c ∧ c ≤ 57)) = s.reverse := by
  rw [List.reverse_append, List.takeWhile_append_of_pos (by
    intro c hc
    have := hs c (List.mem_reverse.1 hc)
    simpa using this)]
  have : p.reverse.takeWhile (fun c => decide (48 ≤ c ∧ c ≤ 57)) = [] := by
    cases h : p.reverse with
    | nil => rfl
    | cons c t =>
      rw [List.takeWhile_cons_of_neg]
      have h2 : p.getLast? = some c := by
        rw [← List.head?_reverse, h]
        rfl
      simpa using hp c h2
  rw [this, List.append_nil]

theorem id_distinct {p q : Str} (h : p = q ∨ (NotDigit p ∧ NotDigit q)) {a b : Int} (ha : 0 ≤ a) (hab : a < b) :
    p ++ intDigits a ≠ q ++ intDigits b := by
  intro e
  have hd : ∀ i : Int, 0 ≤ i → intDigits i = natDigits i.natAbs := by
    intro i hi
    unfold intDigits
    rw [if_neg (by omega)]
  have he : intDigits a = intDigits b := by
    rcases h with rfl | ⟨h1, h2⟩
    · exact List.append_cancel_left e
    · have e2 := congrArg (fun s : Str => (s.reverse.takeWhile (fun c => decide (48 ≤ c ∧ c ≤ 57))).reverse) e
      rw [hd a ha, hd b (by omega)] at e2 ⊢
      rw [tail_digits h1 (natDigits_digits _).2, tail_digits h2 (natDigits_digits _).2, List.reverse_reverse,
        List.reverse_reverse] at e2
      exact e2
  rw [hd a ha, hd b (by omega)] at he
  have := congrArg decVal he
  rw [decVal_natDigits, decVal_natDigits] at this
  omega

/-- The counter before the call number i. -/
def counterAt (env : Env α) (n : Int) (cs : List (Str × Args α)) (i : Nat) : Int :=
  match i, cs with
  | 0, _ => n
  | i + 1, c :: cs => counterAt env (call env n c.1 c.2).2 cs i
  | _ + 1, [] => n

theorem counterAt_mono (env : Env α) : ∀ (i : Nat) (n : Int) (cs : List (Str × Args α)), n ≤ counterAt env n cs i := by
  intro i
  induction i with
  | zero => intro n cs; unfold counterAt; exact Int.le_refl _
  | succ i ih =>
    intro n cs
    cases cs with
    | nil => exact Int.le_refl _
    | cons c cs => exact Int.le_trans (counter_grows env n c.1 c.2) (ih _ cs)

theorem history_at (env : Env α) : ∀ (i : Nat) (n : Int) (cs : List (Str × Args α)) (c : Str × Args α), cs[i]? = some c →
    (history env n cs)[i]? = some (call env (counterAt env n cs i) c.1 c.2).1 ∧
    ∀ j, i < j → (call env (counterAt env n cs i) c.1 c.2).2 ≤ counterAt env n cs j := by
  intro i
  induction i with
  | zero =>
    intro n cs c h
    cases cs with
    | nil => simp at h
    | cons d cs =>
      have hd : d = c := by simpa using h
      subst hd
      refine ⟨rfl, fun j hj => ?_⟩
      cases j with
      | zero => omega
      | succ j => exact counterAt_mono env j _ cs
  | succ i ih =>
    intro n cs c h
    cases cs with
    | nil => simp at h
    | cons d cs =>
      obtain ⟨h1, h2⟩ := ih (call env n d.1 d.2).2 cs c (by simpa using h)
      refine ⟨by simpa [history, counterAt] using h1, fun j hj => ?_⟩
      cases j with
      | zero => omega
      | succ j => exact h2 j (by omega)

/-- C79: in any list of calls to any functions, two calls to unique_id() with the same prefix, or with two prefixes that do not
end with a digit, do not give the same identifier. -/
theorem C79_distinct (env : Env α) (n : Int) (hn : 0 ≤ n) (cs : List (Str × Args α)) (i j : Nat) (hij : i < j)
    (c d : Str × Args α) (hi : cs[i]? = some c) (hj : cs[j]? = some d) (p q : Str) (hc : IdCall c p) (hd : IdCall d q)
    (hpq : p = q ∨ (NotDigit p ∧ NotDigit q)) (s t : Str)
    (hs : (history env n cs)[i]? = some (.ok (.node (.ident s)) [])) (ht : (history env n cs)[j]? = some (.ok (.node (.ident t)) [])) :
    s ≠ t := by
  obtain ⟨h1, h2⟩ := history_at env i n cs c hi
  obtain ⟨h3, _⟩ := history_at env j n cs d hj
  have h5 := h2 j hij
  have h6 := counterAt_mono env i n cs
  generalize counterAt env n cs i = a at *
  generalize counterAt env n cs j = b at *
  have value : ∀ (k : Int) (c : Str × Args α) (p : Str), IdCall c p → ∀ s,
      (call env k c.1 c.2).1 = .ok (.node (.ident s)) [] → s = p ++ intDigits (k + 1) ∧ (call env k c.1 c.2).2 = k + 1 := by
    intro k c p hc s hs
    by_cases hk : k < 2147483647
    · rw [C79_value env k hk c p hc] at hs ⊢
      injection hs with hs _
      injection hs with hs
      injection hs with hs
      exact ⟨hs.symm, rfl⟩
    · exfalso
      obtain ⟨f, args⟩ := c
      obtain ⟨rfl, hc⟩ := hc
      dsimp only at hc hs
      have hu : call env k b!"unique_id" args = (.undef, k) := by
        rcases hc with ⟨rfl, rfl | rfl | rfl⟩ | ⟨hp, rfl | rfl⟩
        all_goals
          show (if k < 2147483647 then _ else _) = _
          rw [if_neg hk]
      rw [hu] at hs
      cases hs
  rw [h1] at hs
  injection hs with hs
  rw [h3] at ht
  injection ht with ht
  obtain ⟨e1, e2⟩ := value a c p hc s hs
  obtain ⟨e3, _⟩ := value b d q hd t ht
  rw [e1, e3]
  rw [e2] at h5
  exact id_distinct hpq (by omega) (by omega)

/-- C79: known defect: a prefix that ends with a digit can give the identifier of another prefix. -/
theorem C79_defect (env : Env α) :
    call env 1 b!"unique_id" [[.str b!"a1"]] = (.ok (.node (.ident b!"a12")) [], 2) ∧
    call env 11 b!"unique_id" [[.str b!"a"]] = (.ok (.node (.ident b!"a12")) [], 12) := ⟨rfl, rfl⟩

example (env : Env α) : history env 0 [(b!"unique_id", []), (b!"abs", []), (b!"unique_id", [[.str b!"x"]])] =
    [.ok (.node (.ident b!"_csspp_unique1")) [], .ok .null [.count b!"abs"], .ok (.node (.ident b!"x2")) []] := rfl

/-! ### random() -/

/-- C81: random() is the number given by rand() divided by 2^31, exactly: at least 0 and under 1. -/
theorem C81_random (env : Env α) (n : Int) (h : env.rand ≤ 2147483647) :
    ∃ x, call env n b!"random" [] = (.ok (.node (.dec x [])) [], n) ∧ Finite x ∧ IsDouble x ∧
      2147483648 * quanta x = env.rand * unity ∧ 0 ≤ quanta x ∧ quanta x < unity := by
  refine ⟨_, rfl, ?_⟩
  have h1 : add f64 (ofInt f64 randMax) (lit 1) = .fin false (2 ^ 31 * S) := by
    have e : add f64 (ofInt f64 randMax) (lit 1) = ofInt f64 2147483648 := by decide +kernel
    rw [e, ofInt_exact _ (by decide)]
    rfl
  have h2 : ofInt f64 env.rand = .fin false (env.rand * S) := by
    rw [ofInt_exact _ (by omega), decide_eq_false (by omega), Int.natAbs_natCast]
  rw [h1, h2]
  obtain ⟨R, hR⟩ : ∃ R, R = 2 ^ 1043 := ⟨_, rfl⟩
  have hRS : S = 2 ^ 31 * R := by
    rw [hR, ← Nat.pow_add]
    unfold S
    rfl
  have hRpos : 0 < R := by
    have := s_pos
    rw [hRS] at this
    exact Nat.pos_of_mul_pos_left this
  have hx : div f64 (.fin false (env.rand * S)) (.fin false (2 ^ 31 * S)) = .fin false (env.rand * R) := by
    show (if 2 ^ 31 * S = 0 then _ else round f64 false (env.rand * S * 2 ^ f64.scale) (2 ^ 31 * S)) = _
    have hp : 0 < 2 ^ 31 * S := Nat.mul_pos (by decide) s_pos
    rw [if_neg (by omega)]
    have e : env.rand * S * 2 ^ f64.scale = env.rand * R * (2 ^ 31 * S) := by
      rw [show 2 ^ f64.scale = S by unfold S; rfl]
      have hc : ∀ a s r p : Nat, s = p * r → a * s * s = a * r * (p * s) := by
        intro a s r p hs
        have : a * s * s = a * (p * r) * s := by rw [← hs]
        rw [this]
        ac_rfl
      exact hc _ _ _ _ hRS
    rw [e]
    unfold round
    have er : roundMag f64.prec (env.rand * R * (2 ^ 31 * S)) (2 ^ 31 * S) = env.rand * R := by
      refine roundMag_short (by decide) hp ?_
      rw [hR]
      exact Short.mul_pow (Nat.lt_of_le_of_lt h (by decide)) _
    rw [er, if_pos]
    refine Nat.lt_of_lt_of_le (m := S) ?_ ?_
    · rw [hRS]
      exact Nat.mul_lt_mul_of_pos_right (by omega) hRpos
    · rw [Nat.pow_add]
      unfold S
      exact Nat.le_mul_of_pos_right _ (Nat.two_pow_pos _)
  rw [hx]
  have hq : quanta (.fin false (env.rand * R)) = ((env.rand * R : Nat) : Int) := rfl
  refine ⟨trivial, ?_, ?_, ?_, ?_⟩
  · refine ⟨env.rand, 1043, by rw [hR], Nat.lt_of_le_of_lt h (by decide)⟩
  · rw [hq, unity_eq, hRS, Int.natCast_mul, Int.natCast_mul]
    have hc : ∀ p a r : Int, p * (a * r) = a * (p * r) := by intros; ac_rfl
    exact hc _ _ _
  · rw [hq]
    omega
  · rw [hq, unity_eq, hRS]
    have : env.rand * R < 2 ^ 31 * R := Nat.mul_lt_mul_of_pos_right (by omega) hRpos
    omega

end Csspp.Func
