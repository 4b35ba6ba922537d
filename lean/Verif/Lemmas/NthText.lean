import Verif.Props.NodeText
import Verif.Props.NthChild
import Verif.Props.LexGrammar
import Verif.Lemmas.Written5
import Verif.Props.Decimal

/-!
The tokens of an An+B and their texts (C89).
-/

namespace Csspp.NthText
open Csspp.Spec Csspp.Tree Csspp.Flt
open Csspp.Nth (ShortRuns)

/-! ### An+B with blanks -/

def Blanks (s : Str) : Prop := ∀ c ∈ s, Blank c

/-- AnB with at most 18 digits in a number. -/
inductive Short : Str → Int → Int → Prop
  | even {s1 w s2} : Spaces s1 → lower w = b!"even" → Spaces s2 → Short (s1 ++ (w ++ s2)) 2 0
  | odd {s1 w s2} : Spaces s1 → lower w = b!"odd" → Spaces s2 → Short (s1 ++ (w ++ s2)) 2 1
  | b {s1 g σ s2 d s3} : Spaces s1 → OptSign g σ → Spaces s2 → Digits d → d.length ≤ 18 → Spaces s3 →
      Short (s1 ++ (g ++ (s2 ++ (d ++ s3)))) 0 (σ * decVal d)
  | anb {s1 g σ s2 d s3 n s4 h τ s5 e s6} :
      Spaces s1 → OptSign g σ → Spaces s2 → Digits d → d.length ≤ 18 → Spaces s3 → lower n = b!"n" →
      Spaces s4 → MustSign h τ → Spaces s5 → Digits e → e.length ≤ 18 → Spaces s6 →
      Short (s1 ++ (g ++ (s2 ++ (d ++ (s3 ++ (n ++ (s4 ++ (h ++ (s5 ++ (e ++ s6))))))))))
        (σ * decVal d) (τ * decVal e)

theorem Short.anB {s : Str} {a b : Int} (h : Short s a b) : AnB s a b := by
  cases h with
  | even h1 h2 h3 => have := AnB.even h1 h2 h3; simpa only [List.append_assoc] using this
  | odd h1 h2 h3 => have := AnB.odd h1 h2 h3; simpa only [List.append_assoc] using this
  | b h1 h2 h3 h4 _ h5 => have := AnB.b h1 h2 h3 h4 h5; simpa only [List.append_assoc] using this
  | anb h1 h2 h3 h4 _ h5 h6 h7 h8 h9 h10 _ h11 =>
    have := AnB.anb h1 h2 h3 h4 h5 h6 h7 h8 h9 h10 h11; simpa only [List.append_assoc] using this

theorem short_cons {x : Nat} {b : Str} (hx : ¬ (48 ≤ x ∧ x ≤ 57)) (hb : ShortRuns b) : ShortRuns (x :: b) := by
  rintro d hd ⟨p, q, e⟩
  cases p with
  | nil =>
    cases d with
    | nil => exact absurd rfl hd.1
    | cons y d =>
      simp only [List.nil_append, List.cons_append] at e
      injection e with e1 _
      exact absurd (hd.2 y (by simp)) (e1 ▸ hx)
  | cons y p =>
    simp only [List.cons_append] at e
    injection e with _ e2
    exact hb d hd ⟨p, q, e2⟩

theorem short_append {a b : Str} (ha : ∀ x ∈ a, ¬ (48 ≤ x ∧ x ≤ 57)) (hb : ShortRuns b) : ShortRuns (a ++ b) := by
  induction a with
  | nil => exact hb
  | cons x a ih => exact short_cons (ha x (by simp)) (ih (fun y hy => ha y (by simp [hy])))

theorem short_digits {d b : Str} (hl : d.length ≤ 18) (hh : ∀ x t, b = x :: t → ¬ (48 ≤ x ∧ x ≤ 57)) (hb : ShortRuns b) :
    ShortRuns (d ++ b) := by
  rintro r hr ⟨p, q, e⟩
  by_cases hp : d.length ≤ p.length
  · have e' := congrArg (List.drop d.length) e
    rw [List.drop_left, List.append_assoc, List.drop_append_of_le_length hp] at e'
    exact hb r hr ⟨p.drop d.length, q, by rw [List.append_assoc]; exact e'⟩
  · by_cases hlen : r.length ≤ 18
    · exact hlen
    · exfalso
      -- the character of b at d.length is in r
      have h1 : (p ++ r ++ q)[d.length]? = (d ++ b)[d.length]? := by rw [e]
      have h2 : (d ++ b)[d.length]? = b[0]? := by rw [List.getElem?_append_right (Nat.le_refl _), Nat.sub_self]
      have h3 : (p ++ r ++ q)[d.length]? = r[d.length - p.length]? := by
        rw [List.append_assoc, List.getElem?_append_right (by omega), List.getElem?_append_left (by omega)]
      rw [h1, h2] at h3
      have h4 : d.length - p.length < r.length := by omega
      rw [List.getElem?_eq_getElem h4] at h3
      cases b with
      | nil => cases h3
      | cons x t =>
        simp only [List.getElem?_cons_zero, Option.some.injEq] at h3
        exact hh x t rfl (h3 ▸ hr.2 _ (List.getElem_mem h4))

theorem spaces_nd {s : Str} (h : Spaces s) : ∀ x ∈ s, ¬ (48 ≤ x ∧ x ≤ 57) := fun x hx => by rw [h x hx]; omega
theorem optSign_nd {s : Str} {σ : Int} (h : OptSign s σ) : ∀ x ∈ s, ¬ (48 ≤ x ∧ x ≤ 57) := by cases h <;> decide
theorem mustSign_nd {s : Str} {σ : Int} (h : MustSign s σ) : ∀ x ∈ s, ¬ (48 ≤ x ∧ x ≤ 57) := by cases h <;> decide
theorem lower_nd {w k : Str} (h : lower w = k) (hk : ∀ x ∈ k, 97 ≤ x ∧ x ≤ 122) : ∀ x ∈ w, Letter x := by
  intro x hx
  have := hk (lowerByte x) (by rw [← h]; exact List.mem_map_of_mem hx)
  unfold lowerByte at this
  unfold Letter
  split at this <;> omega
theorem letter_nd {x : Nat} (h : Letter x) : ¬ (48 ≤ x ∧ x ≤ 57) := by unfold Letter at h; omega
theorem short_nil : ShortRuns [] := by
  intro d hd h
  rw [List.infix_nil.1 h]; simp

theorem spaces_short {s : Str} (h : Spaces s) : ShortRuns s := by
  have := short_append (spaces_nd h) short_nil
  rwa [List.append_nil] at this

theorem spaces_head {s t : Str} (h : Spaces s) (ht : ∀ x u, t = x :: u → ¬ (48 ≤ x ∧ x ≤ 57)) :
    ∀ x u, s ++ t = x :: u → ¬ (48 ≤ x ∧ x ≤ 57) := by
  intro x u e
  cases s with
  | nil => exact ht x u e
  | cons y s => injection e with e1 _; rw [← e1]; exact spaces_nd h y (by simp)

theorem lower_n {n : Str} (h : lower n = b!"n") : ∃ c, n = [c] ∧ (c = 110 ∨ c = 78) := by
  obtain ⟨c, h1, h2⟩ := Nth.lower_one h
  exact ⟨c, h1, (Nth.lowerByte_eq (by omega) (by omega)).1 h2⟩

theorem Short.runs {s : Str} {a b : Int} (h : Short s a b) : ShortRuns s := by
  cases h with
  | even h1 h2 h3 =>
    exact short_append (spaces_nd h1) (short_append (fun x hx => letter_nd (lower_nd h2 (by decide) x hx)) (spaces_short h3))
  | odd h1 h2 h3 =>
    exact short_append (spaces_nd h1) (short_append (fun x hx => letter_nd (lower_nd h2 (by decide) x hx)) (spaces_short h3))
  | b h1 h2 h3 h4 hl h5 =>
    refine short_append (spaces_nd h1) (short_append (optSign_nd h2) (short_append (spaces_nd h3) (short_digits hl ?_ (spaces_short h5))))
    intro x t e; exact spaces_nd h5 x (by rw [e]; simp)
  | @anb s1 g σ s2 d s3 n s4 h τ s5 e s6 h1 h2 h3 h4 hl h5 h6 h7 h8 h9 h10 hl' h11 =>
    have hn := fun x hx => letter_nd (lower_nd h6 (by decide) x hx)
    refine short_append (spaces_nd h1) (short_append (optSign_nd h2) (short_append (spaces_nd h3) (short_digits hl ?_
      (short_append (spaces_nd h5) (short_append hn (short_append (spaces_nd h7) (short_append (mustSign_nd h8)
        (short_append (spaces_nd h9) (short_digits hl' ?_ (spaces_short h11))))))))))
    · refine spaces_head h5 ?_
      obtain ⟨c, rfl, hc⟩ := lower_n h6
      intro x u e
      injection e with e1 _
      omega
    · intro x t e; exact spaces_nd h11 x (by rw [e]; simp)

/-! ### The text of the tokens -/

/-- The text of a lexeme. -/
inductive Says : Lexeme → Str → Prop
  | int {l : Lexeme} (h : l.ty = .INTEGER) (ha : ∀ c ∈ l.text, c < 128) (hw : l.warn = none) :
      Says l ((if l.sign = true ∧ l.int ≥ 0 then b!"+" else []) ++ intDigits l.int ++ l.text)
  | ident {l : Lexeme} (h : l.ty = .IDENTIFIER) (ha : ∀ c ∈ l.text, c < 128) (hw : l.warn = none) : Says l l.text
  | space : Says { ty := .WHITESPACE } [32]
  | add : Says { ty := .ADD } [43]
  | sub : Says { ty := .SUBTRACT } [45]

/-- The text of the tokens of a text. -/
inductive Run : List Nat → Str → Prop
  | nil : Run [] []
  | tok {cs rest : List Nat} {l : Lexeme} {s out : Str} : Reads cs l rest → Says l s → Run rest out → Run cs (s ++ out)

theorem says_text (E : Text.Env) (p : Int → Fp) {l : Lexeme} {s : Str} (h : Says l s) {t : Lex.Tok} (ht : Holds t l) :
    Text.text E { quotes := true } (Pipeline.toTree p (Parse.Nd.leaf t)) = .ok s ∧ l.ty ≠ .EOF_TOKEN ∧ l.warn = none := by
  obtain ⟨ty, h2, _, h4, _, h6⟩ := ht
  have asc : (∀ c ∈ l.text, c < 128) → t.str = l.text := fun ha => Written.utf8_unique h2 (Lex.utf8_ascii ha)
  unfold Parse.Nd.leaf Pipeline.toTree
  rw [Text.text]
  cases h with
  | int hty ha hw =>
    refine ⟨?_, by rw [hty]; decide, hw⟩
    unfold Text.leaf Text.plus
    have e : (t.data p).ty = .INTEGER := by rw [← hty, ← ty]; rfl
    have e2 : (t.data p).int = l.int := h4
    have e3 : (t.data p).bool = l.sign := h6
    have e4 : (t.data p).str = l.text := asc ha
    rw [e, e2, e3, e4]
    rfl
  | ident hty ha hw =>
    refine ⟨?_, by rw [hty]; decide, hw⟩
    unfold Text.leaf
    have e : (t.data p).ty = .IDENTIFIER := by rw [← hty, ← ty]; rfl
    have e4 : (t.data p).str = l.text := asc ha
    rw [e, e4]
    rfl
  | space =>
    refine ⟨?_, by decide, rfl⟩
    unfold Text.leaf
    have e : (t.data p).ty = .WHITESPACE := ty
    rw [e]; rfl
  | add =>
    refine ⟨?_, by decide, rfl⟩
    unfold Text.leaf
    have e : (t.data p).ty = .ADD := ty
    rw [e]; rfl
  | sub =>
    refine ⟨?_, by decide, rfl⟩
    unfold Text.leaf
    have e : (t.data p).ty = .SUBTRACT := ty
    rw [e]; rfl

theorem says_facts {l : Lexeme} {s : Str} (h : Says l s) : l.ty ≠ .EOF_TOKEN ∧ l.warn = none := by
  cases h with
  | int hty _ hw => exact ⟨by rw [hty]; decide, hw⟩
  | ident hty _ hw => exact ⟨by rw [hty]; decide, hw⟩
  | space => exact ⟨by decide, rfl⟩
  | add => exact ⟨by decide, rfl⟩
  | sub => exact ⟨by decide, rfl⟩

theorem run_tokens {cs : List Nat} {out : Str} (h : Run cs out) :
    ∃ ls, Tokens cs ls ∧ ls.filterMap (·.warn) = [] ∧ ∀ (E : Text.Env) (p : Int → Fp) (ts : List Lex.Tok), HoldAll ts ls →
      Text.textAll E { quotes := true } (Pipeline.toTrees p (ts.map Parse.Nd.leaf)) = .ok out := by
  induction h with
  | nil =>
    refine ⟨[], .eof, rfl, ?_⟩
    intro E p ts hh
    cases hh
    rw [List.map_nil, Pipeline.toTrees, Text.textAll]
  | tok hr hs _ ih =>
    obtain ⟨ls, h1, h2, h3⟩ := ih
    rename_i l s out _
    refine ⟨l :: ls, .token hr (says_facts hs).1 h1, by rw [List.filterMap_cons, (says_facts hs).2]; exact h2, ?_⟩
    intro E p ts hh
    cases hh with
    | cons a b =>
      rw [List.map_cons, Pipeline.toTrees, Text.textAll, (says_text E p hs a).1, h3 E p _ b]
      rfl

/-! ### The pieces -/

theorem run_blanks {b cs : List Nat} {out : Str} (hb : Blanks b) (hn : ¬ NextIs Blank cs) (h : Run cs out) :
    ∃ sp, Spaces sp ∧ Run (b ++ cs) (sp ++ out) := by
  by_cases h0 : b = []
  · subst h0
    exact ⟨[], (by intro c hc; cases hc), h⟩
  · exact ⟨[32], (by intro c hc; simpa using hc), .tok (.spaces hb h0 hn) .space h⟩

theorem run_end {b : List Nat} (hb : Blanks b) : ∃ sp, Spaces sp ∧ Run b sp := by
  obtain ⟨sp, h1, h2⟩ := run_blanks (cs := []) hb (by rintro ⟨c, t, h, _⟩; cases h) .nil
  rw [List.append_nil, List.append_nil] at h2
  exact ⟨sp, h1, h2⟩

/-- What can follow the digits. -/
def After (y : List Nat) : Prop := ¬ NextIs Dec y ∧ (∀ t, y ≠ 46 :: t) ∧ ¬ IsExponent y

theorem small {d : Str} (hd : Digits d) (hl : d.length ≤ 18) : decVal d < 1000000000000000000 := by
  have h1 := Dec.decVal_lt d hd.2
  have h2 : (10 : Nat) ^ d.length ≤ 10 ^ 18 := Nat.pow_le_pow_right (by omega) hl
  have h3 : (10 : Nat) ^ 18 = 1000000000000000000 := by decide
  omega

/-- The sign of a number. -/
inductive Sg : Str → Bool → Bool → Int → Prop
  | none : Sg [] false false 1
  | plus : Sg b!"+" true false 1
  | minus : Sg b!"-" true true (-1)

theorem optSign_sg {g : Str} {σ : Int} (h : OptSign g σ) : ∃ hs neg, Sg g hs neg σ := by
  cases h
  · exact ⟨_, _, .none⟩
  · exact ⟨_, _, .plus⟩
  · exact ⟨_, _, .minus⟩

theorem int_reads {g : Str} {hs neg : Bool} {σ : Int} (hg : Sg g hs neg σ) {d y dim rest : List Nat} (hd : Digits d)
    (hl : d.length ≤ 18) (ha : After y) (hy : Dimension y dim false rest) :
    Reads (g ++ (d ++ y)) { ty := .INTEGER, int := σ * decVal d, text := dim, sign := hs } rest := by
  obtain ⟨c, t, rfl⟩ : ∃ c t, d = c :: t := by
    cases d with
    | nil => exact absurd rfl hd.1
    | cons c t => exact ⟨c, t, rfl⟩
  have hc := hd.2 c (by simp)
  have hst : StartsNumber (g ++ (c :: t ++ y)) := by
    cases hg
    · exact .inl ⟨c, t ++ y, rfl, hc⟩
    · exact .inr (.inr ⟨43, _, rfl, .inl rfl, .inl ⟨c, t ++ y, rfl, hc⟩⟩)
    · exact .inr (.inr ⟨45, _, rfl, .inr rfl, .inl ⟨c, t ++ y, rfl, hc⟩⟩)
  have hsg : Sign (g ++ (c :: t ++ y)) hs neg (c :: t ++ y) := by
    cases hg
    · refine .no ?_
      rintro ⟨x, u, e, hx⟩
      injection e with e _
      omega
    · exact .plus _
    · exact .minus _
  obtain ⟨i1, i2⟩ := Written.int_ok (ds := c :: t) (by have := small hd hl; omega)
  have h := Reads.number hst hsg (ds := c :: t) (cs2 := y) ⟨rfl, hd.2, ha.1⟩ i1 (.no ha.2.1) (.no ha.2.2) hy
  unfold numberLexeme at h
  rw [i2] at h
  have e : (if neg = true then -(decVal (c :: t) : Int) else decVal (c :: t)) = σ * decVal (c :: t) := by
    cases hg <;> simp
  simp only [Bool.false_eq_true, false_or, ne_eq, not_true, if_false] at h
  rw [e] at h
  exact h

/-- The text of the integer is an integer with the same value. -/
theorem int_text {g : Str} {hs neg : Bool} {σ : Int} (hg : Sg g hs neg σ) {d : List Nat} (hd : Digits d) (hl : d.length ≤ 18) :
    ∃ g' σ' d', (if hs = true ∧ σ * decVal d ≥ 0 then b!"+" else []) ++ intDigits (σ * decVal d) = g' ++ d' ∧ OptSign g' σ' ∧
      Digits d' ∧ d'.length ≤ 18 ∧ σ' * decVal d' = σ * decVal d ∧ (hs = true → MustSign g' σ') := by
  have hsm := small hd hl
  have hnat : (σ * decVal d).natAbs = decVal d := by cases hg <;> simp
  have hlen : (natDigits (decVal d)).length ≤ 18 := natDigits_length (by omega) (by
    have h3 : (10 : Nat) ^ 18 = 1000000000000000000 := by decide
    omega)
  unfold intDigits
  rw [hnat]
  generalize hv : σ * (decVal d : Int) = v at *
  by_cases h0 : v < 0
  · refine ⟨[45], -1, natDigits (decVal d), ?_, .minus, natDigits_digits _, hlen, ?_, fun _ => .minus⟩
    · rw [if_neg (by omega), if_pos h0]; rfl
    · rw [decVal_natDigits]; omega
  · rw [if_neg h0]
    by_cases hh : hs = true
    · refine ⟨[43], 1, natDigits (decVal d), ?_, .plus, natDigits_digits _, hlen, ?_, fun _ => .plus⟩
      · rw [if_pos ⟨hh, by omega⟩]
      · rw [decVal_natDigits]; omega
    · refine ⟨[], 1, natDigits (decVal d), ?_, .none, natDigits_digits _, hlen, ?_, fun h => absurd h hh⟩
      · rw [if_neg (fun h => hh h.1)]
      · rw [decVal_natDigits]; omega

theorem sign_reads {g : Str} {hs neg : Bool} {σ : Int} (hg : Sg g hs neg σ) (h : g ≠ []) {c : Nat} {t : List Nat} (hc : Blank c) :
    ∃ l, Reads (g ++ c :: t) l (c :: t) ∧ Says l g := by
  unfold Blank at hc
  have key : ∀ x : Nat, (x = 43 ∨ x = 45) → ¬ StartsNumber (x :: c :: t) ∧ ¬ StartsName (x :: c :: t) ∧
      ¬ StartsComment (x :: c :: t) ∧ ¬ StartsVariable (x :: c :: t) := by
    intro x hx
    refine ⟨?_, ?_, ?_, ?_⟩
    · rintro (⟨d, u, e, hd⟩ | ⟨u, e, hd⟩ | ⟨d, u, e, _, ⟨k, v, e2, hd⟩ | ⟨k, e2, _⟩⟩)
      · injection e with e _; unfold Dec at hd; omega
      · injection e with e _; omega
      · injection e with _ e; rw [← e] at e2; injection e2 with e2 _; unfold Dec at hd; omega
      · injection e with _ e; rw [← e] at e2; injection e2 with e2 _; omega
    · rintro (⟨d, u, e, hd⟩ | ⟨u, e, k, v, e2, hd⟩)
      · injection e with e _; unfold NameStart Letter at hd; omega
      · injection e with _ e; rw [← e] at e2; injection e2 with e2 _; unfold NameStart Letter at hd; omega
    · rintro ⟨u, e | e⟩ <;> · injection e with e _; omega
    · rintro ⟨u, e, _⟩; injection e with e _; omega
  cases hg with
  | none => exact absurd rfl h
  | plus =>
    obtain ⟨k1, k2, k3, k4⟩ := key 43 (.inl rfl)
    exact ⟨_, .punctuation (p := b!"+") (ty := .ADD) (by decide) (Written.longest (bad := []) (by decide) (by simp)) k1 k2 k3 k4, .add⟩
  | minus =>
    obtain ⟨k1, k2, k3, k4⟩ := key 45 (.inr rfl)
    refine ⟨_, .punctuation (p := b!"-") (ty := .SUBTRACT) (by decide) (Written.longest (bad := [45]) (by decide) ?_) k1 k2 k3 k4, .sub⟩
    intro x hx
    rintro ⟨d, u, e, hd⟩
    injection e with e _
    have : x = 45 := by simpa using hx
    omega

theorem digits_blank {d y : List Nat} (hd : Digits d) : ¬ NextIs Blank (d ++ y) := by
  rintro ⟨c, t, e, hc⟩
  cases d with
  | nil => exact hd.1 rfl
  | cons x d => injection e with e _; have := hd.2 x (by simp); unfold Blank at hc; omega

/-- A sign, blanks, digits and what follows. -/
theorem run_lead {g : Str} {σ : Int} (hg : OptSign g σ) {s d y dim rest : List Nat} {out : Str} (hs : Blanks s) (hd : Digits d)
    (hl : d.length ≤ 18) (ha : After y) (hy : Dimension y dim false rest) (hdim : ∀ c ∈ dim, c < 128) (h : Run rest out) :
    ∃ g' σ' s' d', OptSign g' σ' ∧ Spaces s' ∧ Digits d' ∧ d'.length ≤ 18 ∧ σ' * decVal d' = σ * decVal d ∧
      (g ≠ [] → MustSign g' σ') ∧ Run (g ++ (s ++ (d ++ y))) (g' ++ (s' ++ (d' ++ (dim ++ out)))) := by
  obtain ⟨b, neg, hsg⟩ := optSign_sg hg
  have join : ∀ {g : Str} {b neg : Bool} {σ : Int}, Sg g b neg σ → ∃ g' σ' d', OptSign g' σ' ∧ Digits d' ∧ d'.length ≤ 18 ∧
      σ' * decVal d' = σ * decVal d ∧ (b = true → MustSign g' σ') ∧ Run (g ++ (d ++ y)) (g' ++ (d' ++ (dim ++ out))) := by
    intro g b neg σ hsg
    obtain ⟨g', σ', d', e, h1, h2, h3, h4, h5⟩ := int_text hsg hd hl
    refine ⟨g', σ', d', h1, h2, h3, h4, h5, ?_⟩
    have := Run.tok (int_reads hsg hd hl ha hy) (.int rfl hdim rfl) h
    dsimp only at this
    rw [e] at this
    simpa only [List.append_assoc] using this
  by_cases h0 : s = [] ∨ g = []
  · rcases h0 with rfl | rfl
    · obtain ⟨g', σ', d', h1, h2, h3, h4, h5, h6⟩ := join hsg
      refine ⟨g', σ', [], d', h1, (by intro c hc; cases hc), h2, h3, h4, ?_, h6⟩
      intro hne
      refine h5 ?_
      cases hsg
      · exact absurd rfl hne
      · rfl
      · rfl
    · have hb : b = false ∧ neg = false := by cases hsg; exact ⟨rfl, rfl⟩
      obtain ⟨rfl, rfl⟩ := hb
      have hg' : σ = 1 := by cases hg; rfl
      subst hg'
      have e0 : (if (false : Bool) = true ∧ (1 : Int) * decVal d ≥ 0 then b!"+" else []) ++ intDigits ((1 : Int) * decVal d) =
          natDigits (decVal d) := by
        unfold intDigits
        rw [if_neg (by simp), if_neg (by omega)]
        simp
      have r := Run.tok (int_reads hsg hd hl ha hy) (.int rfl hdim rfl) h
      dsimp only at r
      rw [e0, List.nil_append] at r
      obtain ⟨sp, k1, k2⟩ := run_blanks hs (digits_blank hd) r
      refine ⟨[], 1, sp, natDigits (decVal d), .none, k1, natDigits_digits _, ?_, by rw [decVal_natDigits], fun h => absurd rfl h, ?_⟩
      · exact natDigits_length (by omega) (by
          have h3 : (10 : Nat) ^ 18 = 1000000000000000000 := by decide
          have := small hd hl
          omega)
      · simpa only [List.nil_append, List.append_assoc] using k2
  · have hsne : s ≠ [] := fun h => h0 (.inl h)
    have hgne : g ≠ [] := fun h => h0 (.inr h)
    have e0 : (if (false : Bool) = true ∧ (1 : Int) * decVal d ≥ 0 then b!"+" else []) ++ intDigits ((1 : Int) * decVal d) =
        natDigits (decVal d) := by
      unfold intDigits
      rw [if_neg (by simp), if_neg (by omega)]
      simp
    have r := Run.tok (int_reads .none hd hl ha hy) (.int rfl hdim rfl) h
    dsimp only at r
    rw [e0, List.nil_append] at r
    obtain ⟨sp, k1, k2⟩ := run_blanks hs (digits_blank hd) r
    obtain ⟨c, t, rfl⟩ : ∃ c t, s = c :: t := by
      cases s with
      | nil => exact absurd rfl hsne
      | cons c t => exact ⟨c, t, rfl⟩
    obtain ⟨l, r1, r2⟩ := sign_reads hsg hgne (t := t ++ (d ++ y)) (hs c (by simp))
    refine ⟨g, σ, sp, natDigits (decVal d), hg, k1, natDigits_digits _, ?_, by rw [decVal_natDigits], ?_, ?_⟩
    · exact natDigits_length (by omega) (by
        have h3 : (10 : Nat) ^ 18 = 1000000000000000000 := by decide
        have := small hd hl
        omega)
    · intro _
      cases hg
      · exact absurd rfl hgne
      · exact .plus
      · exact .minus
    · have := Run.tok r1 r2 k2
      simpa only [List.append_assoc, List.cons_append] using this

end Csspp.NthText
