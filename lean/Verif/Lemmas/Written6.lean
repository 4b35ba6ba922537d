import Verif.Lemmas.Written5
import Verif.Props.Assembler
import Verif.Props.Color

/-!
For C57: the text of the nodes without children.
-/

namespace Csspp.Written
open Csspp.Spec Csspp.Lex Csspp.Asm Csspp.Tree

/-- A gap of the mode m. -/
def Gap (m : Mode) (g : List Nat) : Prop := (∀ c ∈ g, c = 32 ∨ c = 10) ∧ (m = .compressed → g = [])

/-- The outcome is this text. -/
def Text (m : Mode) (o : Out) (s : Str) : Prop := ∃ calls, o = .ok calls ∧ ∀ st, m.from st calls = s

/-- The outcome is a text of these items. -/
def Gives (m : Mode) (o : Out) (ws : List Piece) : Prop :=
  ∃ calls, o = .ok calls ∧ ∀ st, ∃ bits, Fits m bits ws ∧ Utf8 (chars bits) (m.from st calls)

theorem from_append (m : Mode) (a b : List Call) : ∀ st, ∃ st', m.from st (a ++ b) = m.from st a ++ m.from st' b := by
  induction a with
  | nil => intro st; exact ⟨st, rfl⟩
  | cons c a ih =>
    intro st
    obtain ⟨st', h⟩ := ih (m.step st c).2
    refine ⟨st', ?_⟩
    show _ ++ m.from _ (a ++ b) = (_ ++ _) ++ _
    rw [h, List.append_assoc]

theorem Text.andThen {m : Mode} {a b : Out} {x y : Str} (ha : Text m a x) (hb : Text m b y) : Text m (a ⊹ b) (x ++ y) := by
  obtain ⟨c, rfl, hc⟩ := ha
  obtain ⟨d, rfl, hd⟩ := hb
  refine ⟨c ++ d, rfl, fun st => ?_⟩
  obtain ⟨st', h⟩ := from_append m c d st
  rw [h, hc, hd]

theorem Gives.andThen {m : Mode} {a b : Out} {x y : List Piece} (ha : Gives m a x) (hb : Gives m b y) :
    Gives m (a ⊹ b) (x ++ y) := by
  obtain ⟨c, rfl, hc⟩ := ha
  obtain ⟨d, rfl, hd⟩ := hb
  refine ⟨c ++ d, rfl, fun st => ?_⟩
  obtain ⟨st', h⟩ := from_append m c d st
  obtain ⟨b1, f1, u1⟩ := hc st
  obtain ⟨b2, f2, u2⟩ := hd st'
  refine ⟨b1 ++ b2, f1.append f2, ?_⟩
  rw [h, chars_append]
  exact utf8_append u1 u2

theorem Gives.nil {m : Mode} : Gives m (.ok []) [] := ⟨[], rfl, fun _ => ⟨[], .nil, .nil⟩⟩

theorem from_one (m : Mode) (c : Call) (st : Bool) : m.from st [c] = (m.step st c).1 := by
  show _ ++ [] = _; rw [List.append_nil]

theorem text_raw (m : Mode) (s : Str) : Text m (rawText s) s := ⟨_, rfl, fun st => by rw [from_one]; rfl⟩
theorem text_token (m : Mode) (s : Str) : Text m (one (.token s)) s :=
  ⟨_, rfl, fun st => by rw [from_one]; exact string_out _ _⟩

theorem Text.gives {m : Mode} {o : Out} {s : Str} {ws : List Piece} (h : Text m o s) {bits : List Bit}
    (hf : Fits m bits ws) (hu : Utf8 (chars bits) s) : Gives m o ws := by
  obtain ⟨c, rfl, hc⟩ := h
  exact ⟨c, rfl, fun st => ⟨bits, hf, by rw [hc]; exact hu⟩⟩

theorem Text.word {m : Mode} {o : Out} {s : Str} {w : Word} {cs : List Nat} (h : Text m o s) (hs : Spells cs w)
    (hu : Utf8 cs s) : Gives m o [.word w] :=
  h.gives (.word hs .nil) (by rw [chars_cons]; show Utf8 (cs ++ []) s; rw [List.append_nil]; exact hu)

theorem gap_utf8 {m : Mode} {g : List Nat} (h : Gap m g) : Utf8 g g := by
  refine utf8_ascii (fun c hc => ?_); have := h.1 c hc; omega

/-- Blanks that are not items. -/
theorem Text.gap {m : Mode} {o : Out} {g : Str} (h : Text m o g) (hg : Gap m g) : Gives m o [] :=
  h.gives (.gap hg.1 hg.2 .nil) (by rw [chars_cons]; show Utf8 (g ++ []) g; rw [List.append_nil]; exact gap_utf8 hg)

theorem gap_nil (m : Mode) : Gap m [] := ⟨fun c h => (by cases h), fun _ => rfl⟩
theorem gap_one {m : Mode} (hm : m ≠ .compressed) {c : Nat} (hc : c = 32 ∨ c = 10) : Gap m [c] :=
  ⟨fun d h => (by simp at h; omega), fun h => absurd h hm⟩

/-- An operator, in a mode. -/
theorem op_text (m : Mode) (s : Str) {f : Flag} (hf : f ≠ .optionalOperator) :
    ∃ g g', Gap m g ∧ Gap m g' ∧ Text m (operator s f) (g ++ (s ++ g')) := by
  have base : ∀ g g', Gap m g → Gap m g' → (∀ st, (m.step st (.op s f)).1 = g ++ (s ++ g')) →
      ∃ g g', Gap m g ∧ Gap m g' ∧ Text m (operator s f) (g ++ (s ++ g')) :=
    fun g g' h1 h2 h => ⟨g, g', h1, h2, _, rfl, fun st => by rw [from_one]; exact h st⟩
  have n := gap_nil m
  have hs : ∀ w : W, w.out = [] → f ≠ .optionalOperator → (opBase w s f).out = [] ++ (s ++ []) := by
    intro w h hf
    unfold opBase
    rw [if_neg hf, string_out, h, List.append_nil]
  cases m with
  | compressed => exact base [] [] n n fun st => hs _ rfl hf
  | tidy => exact base [] [] n n fun st => hs _ rfl hf
  | compact =>
    have sp : Gap .compact [32] := gap_one (by simp) (.inl rfl)
    cases f with
    | optionalOperator => exact absurd rfl hf
    | none => exact base [] [] n n fun st => hs (W.set ⟨[], st⟩ true) rfl hf
    | spaces | spacesOrNewlines => exact base [32] [32] sp sp fun st => rfl
    | spaceBefore | spaceBeforeOrNewline =>
      exact base [32] [] sp n fun st => by show 32 :: s = 32 :: (s ++ []); rw [List.append_nil]
    | spaceAfter | spaceAfterOrNewline => exact base [] [32] n sp fun st => rfl
  | expanded =>
    have sp : Gap .expanded [32] := gap_one (by simp) (.inl rfl)
    have nl : Gap .expanded [10] := gap_one (by simp) (.inr rfl)
    cases f with
    | optionalOperator => exact absurd rfl hf
    | none => exact base [] [] n n fun st => hs (W.set ⟨[], st⟩ true) rfl hf
    | spaces => exact base [32] [32] sp sp fun st => rfl
    | spacesOrNewlines => exact base [10] [10] nl nl fun st => rfl
    | spaceBefore => exact base [32] [] sp n fun st => by show 32 :: s = 32 :: (s ++ []); rw [List.append_nil]
    | spaceBeforeOrNewline => exact base [10] [] nl n fun st => by show 10 :: s = 10 :: (s ++ []); rw [List.append_nil]
    | spaceAfter => exact base [] [32] n sp fun st => rfl
    | spaceAfterOrNewline => exact base [] [10] n nl fun st => rfl

theorem op_none (m : Mode) (s : Str) : Text m (operator s .none) s := by
  refine ⟨_, rfl, fun st => ?_⟩
  rw [from_one]
  have hs : ∀ w : W, w.out = [] → (opBase w s .none).out = s := by
    intro w h
    unfold opBase
    rw [if_neg (by simp), string_out, h]; rfl
  cases m with
  | compressed => exact hs _ rfl
  | tidy => exact hs _ rfl
  | compact => exact hs (W.set ⟨[], st⟩ true) rfl
  | expanded => exact hs (W.set ⟨[], st⟩ true) rfl

theorem op_after (m : Mode) (s : Str) : ∃ b, (∀ c ∈ b, c = 32) ∧ Text m (operator s .spaceAfter) (s ++ b) := by
  have hs : ∀ w : W, w.out = [] → (opBase w s .spaceAfter).out = s ++ [] := by
    intro w h
    unfold opBase
    rw [if_neg (by simp), string_out, h, List.append_nil]; rfl
  have base : ∀ b, (∀ c ∈ b, c = 32) → (∀ st, (m.step st (.op s .spaceAfter)).1 = s ++ b) →
      ∃ b, (∀ c ∈ b, c = 32) ∧ Text m (operator s .spaceAfter) (s ++ b) :=
    fun b h1 h => ⟨b, h1, _, rfl, fun st => by rw [from_one]; exact h st⟩
  cases m with
  | compressed => exact base [] (fun _ h => by cases h) fun st => hs _ rfl
  | tidy => exact base [] (fun _ h => by cases h) fun st => hs _ rfl
  | compact => exact base [32] (fun _ h => by simpa using h) fun st => rfl
  | expanded => exact base [32] (fun _ h => by simpa using h) fun st => rfl

theorem op_before (m : Mode) (s : Str) : ∃ b, (∀ c ∈ b, c = 32) ∧ Text m (operator s .spaceBefore) (b ++ s) := by
  have hs : ∀ w : W, w.out = [] → (opBase w s .spaceBefore).out = [] ++ s := by
    intro w h
    unfold opBase
    rw [if_neg (by simp), string_out, h]
  have base : ∀ b, (∀ c ∈ b, c = 32) → (∀ st, (m.step st (.op s .spaceBefore)).1 = b ++ s) →
      ∃ b, (∀ c ∈ b, c = 32) ∧ Text m (operator s .spaceBefore) (b ++ s) :=
    fun b h1 h => ⟨b, h1, _, rfl, fun st => by rw [from_one]; exact h st⟩
  cases m with
  | compressed => exact base [] (fun _ h => by cases h) fun st => hs _ rfl
  | tidy => exact base [] (fun _ h => by cases h) fun st => hs _ rfl
  | compact => exact base [32] (fun _ h => by simpa using h) fun st => rfl
  | expanded => exact base [32] (fun _ h => by simpa using h) fun st => rfl

/-- A word without a value. -/
theorem op_gives (m : Mode) {ty : NT} (hty : spell ty ≠ []) {s : Str} (hs : s = spell ty) {f : Flag}
    (hf : f ≠ .optionalOperator) : Gives m (operator s f) [mark ty] := by
  obtain ⟨g, g', h1, h2, h⟩ := op_text m s hf
  subst hs
  refine h.gives (bits := [.gap g, .word (spell ty) { ty := ty }, .gap g'])
    (.gap h1.1 h1.2 (.word (mark_spells hty) (.gap h2.1 h2.2 .nil))) ?_
  have e : chars [.gap g, .word (spell ty) { ty := ty }, .gap g'] = g ++ (spell ty ++ g') := by
    simp [chars, Bit.chars]
  rw [e]
  exact utf8_append (gap_utf8 h1) (utf8_append (utf8_ascii fun c hc => (spell_ascii ty c hc).2) (gap_utf8 h2))

/-- The optional semicolon. -/
theorem optional_gives (m : Mode) : Gives m (operator b!";" .optionalOperator) [.semi] := by
  refine ⟨_, rfl, fun st => ?_⟩
  rw [from_one]
  cases m with
  | expanded =>
    refine ⟨[.word (spell .SEMICOLON) { ty := .SEMICOLON }], .semi rfl .nil, ?_⟩
    exact utf8_ascii (s := b!";") (by decide)
  | compressed => exact ⟨[], .noSemi (by simp) .nil, .nil⟩
  | tidy => exact ⟨[], .noSemi (by simp) .nil, .nil⟩
  | compact => exact ⟨[], .noSemi (by simp) .nil, .nil⟩

theorem newline_gives (m : Mode) : Gives m (one .newline) [] := by
  have : ∃ g, Gap m g ∧ Text m (one .newline) g := by
    cases m with
    | compressed => exact ⟨[], gap_nil _, _, rfl, fun st => rfl⟩
    | tidy => exact ⟨[10], gap_one (by simp) (.inr rfl), _, rfl, fun st => rfl⟩
    | compact => exact ⟨[10], gap_one (by simp) (.inr rfl), _, rfl, fun st => rfl⟩
    | expanded => exact ⟨[10], gap_one (by simp) (.inr rfl), _, rfl, fun st => rfl⟩
  obtain ⟨g, h1, h2⟩ := this
  exact h2.gap h1

theorem indent_gives (m : Mode) : Gives m (one .indent) [] := by
  have : ∃ g, Gap m g ∧ Text m (one .indent) g := by
    cases m with
    | compressed => exact ⟨[], gap_nil _, _, rfl, fun st => rfl⟩
    | tidy => exact ⟨[], gap_nil _, _, rfl, fun st => rfl⟩
    | compact => exact ⟨[], gap_nil _, _, rfl, fun st => rfl⟩
    | expanded =>
      exact ⟨[32, 32], ⟨fun c h => (by simp at h; omega), fun h => (by cases h)⟩, _, rfl, fun st => rfl⟩
  obtain ⟨g, h1, h2⟩ := this
  exact h2.gap h1

theorem space_gives (m : Mode) : Gives m (rawText [32]) [.blank] :=
  (text_raw m [32]).gives (.blank .nil) (utf8_ascii (s := [32]) (by decide))

/-! ### Numbers -/

theorem unit_ascii {unit : Str} (h : unit = b!"%" ∨ Unit unit) : ∀ c ∈ unit, c < 0x80 := by
  intro c hc
  rcases h with rfl | h
  · simp at hc; omega
  · have := h.1 c hc; omega

theorem numeral_ascii {n : Numeral} (h : n.Ok) : ∀ c ∈ n.text, c < 0x80 := by
  intro c hc
  unfold Numeral.text at hc
  rcases List.mem_append.1 hc with hc | hc
  · split at hc
    · simp at hc; omega
    · cases hc
  · rcases List.mem_append.1 hc with hc | hc
    · have := h.int c hc; omega
    · split at hc
      · cases hc
      · rcases List.mem_cons.1 hc with rfl | hc
        · omega
        · have := h.frac c hc; omega

theorem decimal_gives (m : Mode) {p : Nat} {x : Flt.Fp} {unit : Str} (h : HasNumeral p x)
    (hu : unit = b!"%" ∨ Unit unit) : Gives m (decimal p x ⊹ rawText unit) (Spec.number p x unit) := by
  obtain ⟨t, ht, n, hn, rfl⟩ := h
  have e : Spec.number p x unit = [.word ((numeral n.text).word unit)] := by unfold Spec.number; rw [ht]
  have e' : decimal p x = rawText n.text := by unfold decimal; rw [ht]
  rw [e, e']
  refine ((text_raw m n.text).andThen (text_raw m unit)).word (number_spells hn hu rfl) ?_
  exact utf8_append (utf8_ascii (numeral_ascii hn)) (utf8_ascii (unit_ascii hu))

theorem natDigits_dec (n : Nat) : ∀ c ∈ natDigits n, c < 0x80 := by
  intro c hc
  have := (natDigits_digits n).2 c hc
  omega

theorem nil_andThen (o : Out) : (.ok [] : Out) ⊹ o = o := by
  unfold andThen; cases o <;> rfl

theorem unit_quiet {unit : Str} (h : Unit unit) : verifyDimension unit = .ok [] := by
  unfold verifyDimension
  rw [if_neg]
  intro hc
  obtain ⟨c, hm, hc⟩ := List.any_eq_true.1 hc
  have := h.1 c hm
  simp at hc
  omega

theorem intDigits_ascii (i : Int) : ∀ c ∈ intDigits i, c < 0x80 := by
  intro c hc
  unfold intDigits at hc
  split at hc
  · rcases List.mem_cons.1 hc with rfl | hc
    · omega
    · exact natDigits_dec _ c hc
  · exact natDigits_dec _ c hc

/-! ### Colors -/

theorem hexDigit_hex {d : Nat} (h : d < 16) : NameChar (Color.hexDigit d) ∧ Fair (Color.hexDigit d) ∧
    Color.hexDigit d < 0x80 := by
  unfold Color.hexDigit NameChar VarChar Letter Spec.Dec Fair Valid Scalar Nonchar
  split <;> refine ⟨?_, ?_, ?_⟩ <;> omega

theorem letters_plain {t : Str} (hne : t ≠ []) (h : ∀ c ∈ t, 97 ≤ c ∧ c ≤ 122) : PlainName t ∧ Utf8 t t := by
  refine ⟨⟨fun c hc => ?_, .inl ?_⟩, utf8_ascii fun c hc => ?_⟩
  · have := h c hc
    unfold NameChar VarChar Letter Fair Valid Scalar Nonchar; omega
  · cases t with
    | nil => exact absurd rfl hne
    | cons c t =>
      have := h c (by simp)
      exact ⟨c, t, rfl, by unfold NameStart Letter; omega⟩
  · have := h c hc; omega

/-- `#` and digits, or a name. -/
def ColorText (t : Str) : Prop :=
  (∃ h, t = 35 :: h ∧ h ≠ [] ∧ ∀ c ∈ h, NameChar c ∧ Fair c ∧ c < 0x80) ∨ (t ≠ [] ∧ ∀ c ∈ t, 97 ≤ c ∧ c ≤ 122)

theorem color_ite {c : Prop} [Decidable c] {a b : Str} (ha : ColorText a) (hb : ColorText b) :
    ColorText (if c then a else b) := by
  by_cases h : c
  · rw [if_pos h]; exact ha
  · rw [if_neg h]; exact hb

theorem opaque_forms {r g b : Nat} (hr : r < 256) (hg : g < 256) (hb : b < 256) :
    ColorText (Color.opaqueText r g b) := by
  have key : ∀ t : Str, t ≠ [] ∧ (∀ c ∈ t, 97 ≤ c ∧ c ≤ 122) → ColorText t := fun t h => .inr h
  unfold Color.opaqueText
  refine color_ite (key _ (by decide)) (color_ite (key _ (by decide)) (color_ite (key _ (by decide))
    (color_ite (key _ (by decide)) (color_ite (key _ (by decide)) (color_ite (key _ (by decide))
    (color_ite (key _ (by decide)) (color_ite (key _ (by decide)) (color_ite (key _ (by decide))
    (color_ite (key _ (by decide)) (color_ite (key _ (by decide)) (color_ite (key _ (by decide))
    (color_ite ?_ ?_))))))))))))
  · refine .inl ⟨_, rfl, by simp, ?_⟩
    intro c hc
    simp at hc
    rcases hc with rfl | rfl | rfl
    · exact hexDigit_hex (by omega)
    · exact hexDigit_hex (by omega)
    · exact hexDigit_hex (by omega)
  · refine .inl ⟨_, rfl, by simp [Color.hex2], ?_⟩
    intro c hc
    simp [Color.hex2] at hc
    rcases hc with rfl | rfl | rfl | rfl | rfl | rfl
    · exact hexDigit_hex (by omega)
    · exact hexDigit_hex (by omega)
    · exact hexDigit_hex (by omega)
    · exact hexDigit_hex (by omega)
    · exact hexDigit_hex (by omega)
    · exact hexDigit_hex (by omega)

theorem colorText_gives (m : Mode) {t : Str} (h : ColorText t) {ws : List Piece}
    (h1 : ∀ u, t = 35 :: u → ws = [.word { ty := .HASH, str := u }]) (h2 : t.head? ≠ some 35 → ws = [Spec.name t]) :
    Gives m (one (.token t)) ws := by
  rcases h with ⟨u, rfl, hne, hu⟩ | ⟨hne, hl⟩
  · rw [h1 u rfl]
    have ha : Utf8 u u := utf8_ascii fun c hc => (hu c hc).2.2
    refine (text_token m _).word (hash_spells ha hne fun c hc => ⟨(hu c hc).1, (hu c hc).2.1⟩) ?_
    exact utf8_append (a := [35]) (x := [35]) (utf8_ascii (by decide)) ha
  · obtain ⟨hp, ha⟩ := letters_plain hne hl
    rw [h2 (by
      cases t with
      | nil => exact absurd rfl hne
      | cons c t => have := hl c (by simp); simp; omega)]
    exact (text_token m _).word (plain_spells ha hp) ha

theorem rgba_spells : Spells b!"rgba(" { ty := .FUNCTION, str := b!"rgba" } := by
  obtain ⟨hp, ha⟩ := letters_plain (t := b!"rgba") (by decide) (by decide)
  exact function_spells ha hp (by decide) (by decide)

theorem color_gives (m : Mode) {c : Color.Color} {col : Nat} (hc : Color.getColor c = some col)
    (h : col / 16777216 % 256 = 255 ∨ col / 16777216 % 256 = 0 ∨ HasNumeral 2 (Flt.convert Flt.f32 Flt.f64 c.alpha)) :
    ∃ t, Color.toString c = some t ∧ Gives m (one (.token t)) (colorItems c) := by
  have key : col / 16777216 % 256 = 255 ∨ col / 16777216 % 256 = 0 → ∀ t, Color.toString c = some t → ColorText t →
      Gives m (one (.token t)) (colorItems c) := by
    intro h t ht hct
    refine colorText_gives m hct ?_ ?_
    · rintro u rfl
      unfold colorItems
      rw [hc]
      dsimp only
      rw [if_pos h, ht]
      rfl
    · intro hn
      unfold colorItems
      rw [hc]
      dsimp only
      rw [if_pos h, ht]
      split
      · rename_i e; injection e with e; subst e; exact absurd rfl hn
      · rename_i e; injection e with e; subst e; rfl
      · rename_i e; cases e
  by_cases h1 : col / 16777216 % 256 = 255
  · have ht : Color.toString c = some (Color.opaqueText (col % 256) (col / 256 % 256) (col / 65536 % 256)) := by
      unfold Color.toString; rw [hc]; dsimp only; rw [if_pos h1]
    exact ⟨_, ht, key (.inl h1) _ ht (opaque_forms (by omega) (by omega) (by omega))⟩
  · by_cases h2 : col / 16777216 % 256 = 0
    · have ht : Color.toString c = some b!"transparent" := by
        unfold Color.toString; rw [hc]; dsimp only; rw [if_neg h1, if_pos h2]
      exact ⟨_, ht, key (.inr h2) _ ht (.inr (by decide))⟩
    · obtain ⟨a, ha, n, hn, rfl⟩ : HasNumeral 2 (Flt.convert Flt.f32 Flt.f64 c.alpha) := by
        rcases h with h | h | h
        · exact absurd h h1
        · exact absurd h h2
        · exact h
      refine ⟨_, by unfold Color.toString; rw [hc]; dsimp only; rw [if_neg h1, if_neg h2, ha], ?_⟩
      have e : colorItems c = [.word { ty := .FUNCTION, str := b!"rgba" }, integer (col % 256 : Nat) [], mark .COMMA,
          integer (col / 256 % 256 : Nat) [], mark .COMMA, integer (col / 65536 % 256 : Nat) [], mark .COMMA] ++
          [.word ((numeral n.text).word [])] ++ [mark .CLOSE_PARENTHESIS] := by
        unfold colorItems Spec.number
        rw [hc]
        dsimp only
        rw [if_neg (by omega), ha]
      rw [e]
      have hi : ∀ k : Nat, k < 256 → Spells (natDigits k) { ty := .INTEGER, int := (k : Int), str := [], sign := decide ((k : Int) < 0) } := by
        intro k hk
        have := integer_spells (i := (k : Int)) (by omega) (unit := []) ⟨fun c h => (by cases h), by simp⟩
        rw [List.append_nil] at this
        have e : intDigits (k : Int) = natDigits k := by unfold intDigits; rw [if_neg (by omega)]; rfl
        rw [e] at this
        exact this
      have hz : Unit [] := ⟨fun c h => (by cases h), by simp⟩
      have ha := number_spells hn (unit := []) (.inr hz) rfl
      rw [List.append_nil] at ha
      refine (text_token m _).gives (bits := [.word b!"rgba(" _, .word (natDigits (col % 256)) _, .word (spell .COMMA) _,
        .word (natDigits (col / 256 % 256)) _, .word (spell .COMMA) _, .word (natDigits (col / 65536 % 256)) _,
        .word (spell .COMMA) _, .word n.text _, .word (spell .CLOSE_PARENTHESIS) _])
        (.word rgba_spells (.word (hi _ (by omega)) (.word (mark_spells (by decide)) (.word (hi _ (by omega))
        (.word (mark_spells (by decide)) (.word (hi _ (by omega)) (.word (mark_spells (by decide)) (.word ha
        (.word (mark_spells (by decide)) .nil))))))))) ?_
      have e : ∀ ts : Str, (∀ c ∈ ts, c < 0x80) → ∀ cs, cs = ts → Utf8 cs ts := by
        rintro ts h cs rfl; exact utf8_ascii h
      refine e _ ?_ _ ?_
      · intro c hc
        simp only [List.mem_append] at hc
        have hnum := numeral_ascii hn
        have hnd := natDigits_dec
        rcases hc with (((((((hc | hc) | hc) | hc) | hc) | hc) | hc) | hc) | hc
        · revert c; decide
        · exact hnd _ c hc
        · simp at hc; omega
        · exact hnd _ c hc
        · simp at hc; omega
        · exact hnd _ c hc
        · simp at hc; omega
        · exact hnum c hc
        · simp at hc; omega
      · simp [chars, Bit.chars, spell]

end Csspp.Written
