import Verif.Props.FunctionsMax
import Verif.Props.Literal
import Verif.Props.Lexer

/-!
C75: the conversions.
-/

namespace Csspp.Func
open Csspp.Flt Csspp.Expr Csspp.Spec

variable {α : Type}

/-- The units of an integer of up to 53 bits. -/
theorem ofInt_exact (i : Int) (h : i.natAbs ≤ 9007199254740992) : ofInt f64 i = .fin (decide (i < 0)) (i.natAbs * S) := by
  unfold ofInt round
  have e : roundMag f64.prec (i.natAbs * 2 ^ f64.scale) 1 = i.natAbs * 2 ^ f64.scale := by
    have hs : Short f64.prec (i.natAbs * 2 ^ f64.scale) := by
      by_cases h2 : i.natAbs = 9007199254740992
      · rw [h2]
        refine ⟨4503599627370496, 1 + f64.scale, ?_, by decide⟩
        rw [Nat.pow_add, ← Nat.mul_assoc]
      · refine Short.mul_pow ?_ _
        show _ < 9007199254740992
        omega
    have := roundMag_short (prec := f64.prec) (q := 1) (by decide) (by decide) hs
    rwa [Nat.mul_one] at this
  rw [e, if_pos]
  · unfold S
    rfl
  · rw [Nat.pow_add, Nat.mul_comm]
    refine Nat.mul_lt_mul_of_pos_left (Nat.lt_of_le_of_lt h ?_) (Nat.two_pow_pos _)
    exact Nat.lt_of_lt_of_le (by decide : 9007199254740992 < 2 ^ 54) (Nat.pow_le_pow_right (by decide) (by decide))

theorem toInt_fin (b : Bool) (m : Nat) (lo hi : Int) :
    toInt f64 lo hi (.fin b m) = if lo ≤ signed b (m / S) ∧ signed b (m / S) ≤ hi then some (signed b (m / S)) else none := by
  unfold S
  rfl

theorem trunc_quanta (b : Bool) (m : Nat) : signed b (m / S) = (quanta (.fin b m)).tdiv unity := by
  rw [unity_eq]
  cases b with
  | false => exact Int.ofNat_tdiv m S
  | true =>
    show -((m / S : Nat) : Int) = (-(m : Int)).tdiv S
    rw [Int.neg_tdiv, Int.ofNat_tdiv]

/-- C75: integer() of a decimal number is the number without its fraction, with the same unit; of a percentage, the same without
a unit. When that integer has more than 64 bits, and for an infinity or a NaN, the conversion is undefined. -/
theorem C75_integer (env : Env α) (n : Int) (x : Fp) (unit : Str) :
    (Finite x → -9223372036854775808 ≤ (quanta x).tdiv unity → (quanta x).tdiv unity ≤ 9223372036854775807 →
      call env n b!"integer" [[.dec x unit]] = (.ok (.node (.int ((quanta x).tdiv unity) unit)) [], n) ∧
      call env n b!"integer" [[.pct x]] = (.ok (.node (.int ((quanta x).tdiv unity) [])) [], n)) ∧
    (¬ (Finite x ∧ -9223372036854775808 ≤ (quanta x).tdiv unity ∧ (quanta x).tdiv unity ≤ 9223372036854775807) →
      call env n b!"integer" [[.dec x unit]] = (.undef, n) ∧ call env n b!"integer" [[.pct x]] = (.undef, n)) := by
  have e1 : call env n b!"integer" [[.dec x unit]] = (ofDouble x fun i => val (.int i unit), n) := rfl
  have e2 : call env n b!"integer" [[.pct x]] = (ofDouble x fun i => val (.int i []), n) := rfl
  rw [e1, e2]
  unfold ofDouble
  cases x with
  | nan => exact ⟨fun h => absurd h id, fun _ => ⟨rfl, rfl⟩⟩
  | inf b => exact ⟨fun h => absurd h id, fun _ => ⟨rfl, rfl⟩⟩
  | fin b m =>
    rw [toInt_fin, trunc_quanta]
    constructor
    · intro _ h1 h2
      rw [if_pos ⟨h1, h2⟩]
      exact ⟨rfl, rfl⟩
    · intro h
      rw [if_neg (fun h' => h ⟨trivial, h'⟩)]
      exact ⟨rfl, rfl⟩

/-- C75: decimal_number() of an integer of up to 2^53 is exactly that number, with its unit, and integer() gives the integer
back. -/
theorem C75_round_trip (env : Env α) (n : Int) (i : Int) (h : i.natAbs ≤ 9007199254740992) (unit : Str) :
    ∃ x, call env n b!"decimal_number" [[.int i unit]] = (.ok (.node (.dec x unit)) [], n) ∧ Finite x ∧
      quanta x = i * unity ∧ call env n b!"integer" [[.dec x unit]] = (.ok (.node (.int i unit)) [], n) := by
  refine ⟨ofInt f64 i, rfl, ?_⟩
  rw [ofInt_exact i h]
  have hq : quanta (.fin (decide (i < 0)) (i.natAbs * S)) = i * unity := by
    rw [unity_eq]
    by_cases hi : i < 0
    · rw [decide_eq_true hi]
      show -((i.natAbs * S : Nat) : Int) = _
      rw [Int.natCast_mul, ← Int.neg_mul]
      congr 1
      omega
    · rw [decide_eq_false hi]
      show ((i.natAbs * S : Nat) : Int) = _
      rw [Int.natCast_mul]
      congr 1
      omega
  refine ⟨trivial, hq, ?_⟩
  have hd : (quanta (.fin (decide (i < 0)) (i.natAbs * S))).tdiv unity = i := by
    rw [hq, Int.mul_tdiv_cancel]
    rw [unity_eq]
    have := s_pos
    omega
  have := ((C75_integer env n (.fin (decide (i < 0)) (i.natAbs * S)) unit).1 trivial (by rw [hd]; omega) (by rw [hd]; omega)).1
  rw [hd] at this
  exact this

/-- C75: percentage() changes the type of a number, not its value, and decimal_number() gives it back, without a unit. -/
theorem C75_percentage (env : Env α) (n : Int) (x : Fp) (unit : Str) :
    call env n b!"percentage" [[.dec x unit]] = (.ok (.node (.pct x)) [], n) ∧
    call env n b!"percentage" [[.pct x]] = (.ok (.node (.pct x)) [], n) ∧
    call env n b!"decimal_number" [[.pct x]] = (.ok (.node (.dec x [])) [], n) ∧
    call env n b!"decimal_number" [[.dec x unit]] = (.ok (.node (.dec x unit)) [], n) ∧
    ∀ i : Int, i.natAbs ≤ 9007199254740992 → ∃ y, quanta y = i * unity ∧ Finite y ∧
      call env n b!"percentage" [[.int i unit]] = (.ok (.node (.pct y)) [], n) := by
  refine ⟨rfl, rfl, rfl, rfl, fun i hi => ?_⟩
  obtain ⟨x, h1, h2, h3, _⟩ := C75_round_trip env n i hi unit
  injection h1 with h1 _
  injection h1 with h1 _
  injection h1 with h1
  injection h1 with h1 _
  exact ⟨x, h3, h2, h1 ▸ rfl⟩

/-- The value of a number of a style sheet followed by a unit or by `%`. -/
def source (env : Env α) (k : Numeral) (unit : Str) : Val α :=
  if unit = b!"%" then .pct (div f64 (Lex.Num.value env.pow10 ⟨k.neg, decVal k.int, k.frac, 0⟩) (ofInt f64 100))
  else if k.frac = [] then .int (if k.neg then -(decVal k.int : Int) else decVal k.int) unit
  else .dec (Lex.Num.value env.pow10 ⟨k.neg, decVal k.int, k.frac, 0⟩) unit

theorem lexText_numeral (env : Env α) {k : Numeral} (hk : k.Ok) {unit : Str} (hu : unit = b!"%" ∨ Spec.Unit unit) :
    ∃ t : Lex.Tok, Word.of t = k.word unit ∧
      lexText env (k.text ++ unit) = some (⟨t.ty, t.int, (t.data env.pow10).dec, t.str⟩, []) := by
  have hr := Written.read_numeral hk hu (f := (k.text ++ unit).length + 2) (by omega)
  obtain ⟨t, h1, h2, h3, h4, _⟩ := hr
  refine ⟨t, h2, ?_⟩
  have hl : ∀ (f : Nat) (s : Lex.LS), Lex.lexAll (f + 1) s =
      (if (Lex.nextToken s).1.ty = .EOF_TOKEN then ([], (Lex.nextToken s).2)
       else ((Lex.nextToken s).1 :: (Lex.lexAll f (Lex.nextToken s).2).1, (Lex.lexAll f (Lex.nextToken s).2).2)) :=
    fun _ _ => rfl
  rw [hl] at h1 h3 h4
  have hne : (Lex.nextToken (Lex.init (k.text ++ unit))).1.ty ≠ .EOF_TOKEN := by
    intro h
    rw [if_pos h] at h1
    exact absurd h1 (by simp)
  rw [if_neg hne] at h1 h3 h4
  injection h1 with h1 h5
  rw [hl] at h5 h3 h4
  have hte : (Lex.nextToken (Lex.nextToken (Lex.init (k.text ++ unit))).2).1.ty = .EOF_TOKEN := by
    by_cases h : (Lex.nextToken (Lex.nextToken (Lex.init (k.text ++ unit))).2).1.ty = .EOF_TOKEN
    · exact h
    · rw [if_neg h] at h5
      exact absurd h5 (by simp)
  rw [if_pos hte] at h3 h4
  have herr : (Lex.nextToken (Lex.init (k.text ++ unit))).2.err = [] := by
    have := Lex.C07_grows (k.text ++ unit) 1 1
    have h6 : (Lex.after (1 + 1) (Lex.init (k.text ++ unit))).err = [] := h3
    rw [h6] at this
    exact List.suffix_nil.1 this
  have hexn : (Lex.nextToken (Lex.init (k.text ++ unit))).2.exn = none := by
    have hutf : Utf8 (k.text ++ unit) (k.text ++ unit) :=
      Lex.utf8_append (Lex.utf8_ascii (Written.numeral_ascii hk)) (Lex.utf8_ascii (Written.unit_ascii hu))
    refine Lex.C05_clean (k.text ++ unit) (k.text ++ unit) hutf ?_ 1
    intro c hc
    have : 0 < c ∧ c < 128 := by
      rcases List.mem_append.1 hc with hc | hc
      · refine ⟨?_, Written.numeral_ascii hk c hc⟩
        unfold Numeral.text at hc
        rcases List.mem_append.1 hc with hc | hc
        · split at hc
          · have := List.mem_singleton.1 hc
            omega
          · simp at hc
        · rcases List.mem_append.1 hc with hc | hc
          · have := hk.int c hc
            omega
          · split at hc
            · simp at hc
            · rcases List.mem_cons.1 hc with rfl | hc
              · decide
              · have := hk.frac c hc
                omega
      · refine ⟨?_, Written.unit_ascii hu c hc⟩
        rcases hu with rfl | hu
        · have := List.mem_singleton.1 hc
          omega
        · have := hu.1 c hc
          omega
    omega
  have hws : t.ty ≠ .WHITESPACE := by
    have : t.ty = (k.word unit).ty := by rw [← h2]; rfl
    rw [this]
    unfold Numeral.word
    by_cases hp : unit = b!"%"
    · rw [if_pos hp]
      exact (by decide : NT.PERCENT ≠ .WHITESPACE)
    · rw [if_neg hp]
      by_cases hf : k.frac ≠ []
      · rw [if_pos hf]
        exact (by decide : NT.DECIMAL_NUMBER ≠ .WHITESPACE)
      · rw [if_neg hf]
        exact (by decide : NT.INTEGER ≠ .WHITESPACE)
  unfold lexText
  generalize Lex.nextToken (Lex.init (k.text ++ unit)) = q at h1 hexn herr
  obtain ⟨t', ls⟩ := q
  dsimp only at h1 hexn herr
  subst h1
  dsimp only
  rw [if_neg hws]
  dsimp only
  rw [hexn, herr]
  rfl

/-- The value of a token. -/
def tokenValue (ty : NT) (i : Int) (x : Fp) (unit : Str) : Option (Val α) :=
  match ty with
  | .PERCENT => some (.pct x)
  | .INTEGER => some (.int i unit)
  | .DECIMAL_NUMBER => some (.dec x unit)
  | _ => none

theorem text_same (env : Env α) (n : Int) (f : Str)
    (hf : f = b!"decimal_number" ∨ f = b!"integer" ∨ f = b!"percentage") (s : Str) (v : Val α)
    (hv : v = .str s ∨ v = .ident s ∨ v = .other .URL s) (ty : NT) (i : Int) (x : Fp) (unit : Str)
    (key : ∀ g : Lexed → Option (Res α), ∀ name, fromText env s name g =
        match g ⟨ty, i, x, unit⟩ with
        | some (.ok r fs) => .ok r fs
        | some r => r
        | none => .ok .null [.numText name]) (w : Val α) (hw : tokenValue ty i x unit = some w) :
    call env n f [[v]] = call env n f [[w]] := by
  have ho : ∀ (r : Res α) (name : Str), (match some r with
        | some (.ok r fs) => Res.ok r fs
        | some r => r
        | none => .ok .null [.numText name]) = r := by
    intro r _
    cases r <;> rfl
  have h1 : ∀ v, (v = .str s ∨ v = .ident s ∨ v = .other .URL s) → fDecimal env [[v]] = fDecimal env [[w]] := by
    intro v hv
    unfold tokenValue at hw
    rcases hv with rfl | rfl | rfl <;> refine (key _ _).trans ?_
    all_goals
      split at hw
      all_goals (cases hw <;> rfl)
  have h2 : ∀ v, (v = .str s ∨ v = .ident s ∨ v = .other .URL s) → fInteger env [[v]] = fInteger env [[w]] := by
    intro v hv
    unfold tokenValue at hw
    rcases hv with rfl | rfl | rfl <;> refine (key _ _).trans ?_
    all_goals
      split at hw
      all_goals (cases hw <;> first | rfl | exact ho _ b!"decimal_number")
  have h3 : ∀ v, (v = .str s ∨ v = .ident s ∨ v = .other .URL s) → fPercentage env [[v]] = fPercentage env [[w]] := by
    intro v hv
    unfold tokenValue at hw
    rcases hv with rfl | rfl | rfl <;> refine (key _ _).trans ?_
    all_goals
      split at hw
      all_goals (cases hw <;> rfl)
  rcases hf with rfl | rfl | rfl
  · exact congrArg (·, n) (h1 v hv)
  · exact congrArg (·, n) (h2 v hv)
  · exact congrArg (·, n) (h3 v hv)

/-- C75: a text (a string, an identifier or a URL) which holds a number and a unit or `%` is converted as the number of the
style sheet is. -/
theorem C75_text (env : Env α) (n : Int) (f : Str) (hf : f = b!"decimal_number" ∨ f = b!"integer" ∨ f = b!"percentage")
    (k : Numeral) (hk : k.Ok) (unit : Str) (hu : unit = b!"%" ∨ Spec.Unit unit) (v : Val α)
    (hv : v = .str (k.text ++ unit) ∨ v = .ident (k.text ++ unit) ∨ v = .other .URL (k.text ++ unit)) :
    call env n f [[v]] = call env n f [[source env k unit]] := by
  obtain ⟨t, h1, h2⟩ := lexText_numeral env hk hu
  have hty : t.ty = (k.word unit).ty := by rw [← h1]; rfl
  have hstr : t.str = (k.word unit).str := by rw [← h1]; rfl
  have hint : t.int = (k.word unit).int := by rw [← h1]; rfl
  have hnum : t.num = (k.word unit).num := by rw [← h1]; rfl
  have hdec : (t.data env.pow10).dec = match t.num with
      | none => .fin false 0
      | some n => if t.ty = .PERCENT then div f64 (n.value env.pow10) (ofInt f64 100) else n.value env.pow10 := by
    have hF : t.ty ≠ .FRAME := by
      rw [hty]
      unfold Numeral.word
      split
      · simp
      · split <;> simp
    have hM : t.made = none := (show t.made = (k.word unit).made by rw [← h1]; rfl).trans (by
      unfold Numeral.word
      split
      · rfl
      · split <;> rfl)
    unfold Lex.Tok.data
    dsimp only
    rw [hM]
    dsimp only
    cases hn : t.num with
    | none => rfl
    | some n => simp only [hF, or_false]
  have key : ∀ g : Lexed → Option (Res α), ∀ name,
      fromText env (k.text ++ unit) name g =
        match g ⟨t.ty, t.int, (t.data env.pow10).dec, t.str⟩ with
        | some (.ok r fs) => .ok r fs
        | some r => r
        | none => .ok .null [.numText name] := by
    intro g name
    unfold fromText
    rw [h2]
    rfl
  unfold Numeral.word at hty hstr hint hnum
  unfold source
  by_cases hp : unit = b!"%"
  · rw [if_pos hp] at hty hstr hint hnum ⊢
    dsimp only at hty hstr hint hnum
    rw [hnum] at hdec
    dsimp only at hdec
    rw [if_pos hty] at hdec
    rw [hdec, hty, hstr, hint] at key
    exact text_same env n f hf _ v hv .PERCENT _ _ _ key _ rfl
  · rw [if_neg hp] at hty hstr hint hnum ⊢
    by_cases hfr : k.frac = []
    · rw [if_neg (fun h => h hfr)] at hty hstr hint hnum
      rw [if_pos hfr]
      dsimp only at hty hstr hint hnum
      rw [hty, hstr, hint] at key
      exact text_same env n f hf _ v hv .INTEGER _ _ _ key _ rfl
    · rw [if_pos hfr] at hty hstr hint hnum
      rw [if_neg hfr]
      dsimp only at hty hstr hint hnum
      rw [hnum] at hdec
      dsimp only at hdec
      rw [hty] at hdec
      rw [if_neg (by decide)] at hdec
      rw [hdec, hty, hstr, hint] at key
      exact text_same env n f hf _ v hv .DECIMAL_NUMBER _ _ _ key _ rfl

/-- C75: string() and identifier() change the type of a text, not its characters, and give the text of a color or of a
number. -/
theorem C75_words (env : Env α) (n : Int) (s : Str) (v : Val α) (hv : v = .str s ∨ v = .ident s ∨ v = .other .URL s) :
    call env n b!"string" [[v]] = (.ok (.node (.str s)) [], n) ∧
    call env n b!"identifier" [[v]] = (.ok (.node (.ident s)) [], n) := by
  rcases hv with rfl | rfl | rfl <;> exact ⟨rfl, rfl⟩

/-- A value that has a number or a text. -/
def Convertible : Val α → Prop
  | .int _ _ | .dec _ _ | .pct _ | .str _ | .ident _ | .color _ => True
  | .other .URL _ => True
  | _ => False

theorem C75_words_number (env : Env α) (n : Int) (v : Val α)
    (hv : (∃ i u, v = .int i u) ∨ (∃ x u, v = .dec x u) ∨ (∃ x, v = .pct x) ∨ ∃ c, v = .color c) :
    call env n b!"string" [[v]] = (.ok (.node (.str (env.text v))) [], n) ∧
    call env n b!"identifier" [[v]] = (.ok (.node (.ident (env.text v))) [], n) := by
  rcases hv with ⟨_, _, rfl⟩ | ⟨_, _, rfl⟩ | ⟨_, rfl⟩ | ⟨_, rfl⟩ <;> exact ⟨rfl, rfl⟩

/-- C75: a value without a number or a text, or an argument which is not one value, is exactly one error. -/
theorem C75_refused (env : Env α) (n : Int) (f : Str)
    (hf : f = b!"decimal_number" ∨ f = b!"integer" ∨ f = b!"percentage" ∨ f = b!"string" ∨ f = b!"identifier")
    (a : List (Val α)) (ha : ∀ v, a = [v] → ¬ Convertible v) :
    call env n f [a] = (.ok .null [.expects f], n) := by
  have key : ∀ v, getAny [a] 0 = some v → ¬ Convertible v := by
    intro v hv
    match a, hv with
    | [w], hv => injection hv with hv; subst hv; exact ha _ rfl
  have h1 : fDecimal env [a] = fail (.expects b!"decimal_number") := by
    unfold fDecimal
    dsimp only
    split
    all_goals first | rfl | (rename_i h; exact absurd trivial (key _ h))
  have h2 : fInteger env [a] = fail (.expects b!"integer") := by
    unfold fInteger
    dsimp only
    split
    all_goals first | rfl | (rename_i h; exact absurd trivial (key _ h))
  have h3 : fPercentage env [a] = fail (.expects b!"percentage") := by
    unfold fPercentage
    dsimp only
    split
    all_goals first | rfl | (rename_i h; exact absurd trivial (key _ h))
  have h4 : ∀ name mk, fText env name mk [a] = fail (.expects name) := by
    intro name mk
    unfold fText
    split
    all_goals first | rfl | (rename_i h; exact absurd trivial (key _ h))
  rcases hf with rfl | rfl | rfl | rfl | rfl
  · exact congrArg (·, n) h1
  · exact congrArg (·, n) h2
  · exact congrArg (·, n) h3
  · exact congrArg (·, n) (h4 _ _)
  · exact congrArg (·, n) (h4 _ _)

example : (⟨true, b!"12", b!"5"⟩ : Numeral).Ok ∧ Spec.Unit b!"px" ∧
    (⟨true, b!"12", b!"5"⟩ : Numeral).text ++ b!"px" = b!"-12.5px" :=
  ⟨⟨by decide, by decide, by decide, by decide, by decide⟩, ⟨by decide, by decide⟩, rfl⟩

end Csspp.Func
