import Verif.Props.Assembler
import Verif.Lemmas.Digits
import Verif.Props.RoundTrip

/-!
C41: the brackets of the text written by the assembler; which trees it accepts.
-/

namespace Csspp.Asm
open Csspp.Tree Csspp.Flt

/-! ### Texts without brackets -/

theorem Free.append {a b : Str} (ha : Free a) (hb : Free b) : Free (a ++ b) := by
  intro c h; rcases List.mem_append.1 h with h | h
  · exact ha c h
  · exact hb c h
theorem Free.cons {c : Nat} {a : Str} (hc : isBracket c = false) (ha : Free a) : Free (c :: a) := by
  intro d h; rcases List.mem_cons.1 h with rfl | h
  · exact hc
  · exact ha d h
theorem Free.nil : Free [] := by intro c h; cases h
theorem Free.sub {a b : Str} (h : Free b) (hs : ∀ c ∈ a, c ∈ b) : Free a := fun c hc => h c (hs c hc)
theorem Free.take {a : Str} (h : Free a) (n : Nat) : Free (a.take n) := h.sub (fun _ hc => List.mem_of_mem_take hc)
theorem Free.drop {a : Str} (h : Free a) (n : Nat) : Free (a.drop n) := h.sub (fun _ hc => List.mem_of_mem_drop hc)
theorem free_ite {c : Prop} [Decidable c] {a b : Str} (ha : Free a) (hb : Free b) :
    Free (if c then a else b) := by split <;> assumption

theorem free_digits {s : Str} (h : ∀ c ∈ s, 48 ≤ c ∧ c ≤ 57) : Free s := by
  intro c hc
  have := h c hc
  unfold isBracket
  simp
  omega

theorem free_natDigits (n : Nat) : Free (natDigits n) := free_digits (natDigits_digits n).2

theorem free_intDigits (x : Int) : Free (intDigits x) := by
  unfold intDigits
  exact free_ite (.cons (by decide) (free_natDigits _)) (free_natDigits _)

theorem free_strip {s : Str} (h : Free s) : Free (Dec.stripZeros s) := by
  refine h.sub (fun c hc => ?_)
  unfold Dec.stripZeros at hc
  rw [List.mem_reverse] at hc
  exact List.mem_reverse.1 ((List.dropWhile_sublist _).mem hc)

theorem free_dot {s : Str} (h : Free s) : Free (Dec.dot s) := by
  unfold Dec.dot; exact free_ite .nil (.cons (by decide) h)

theorem free_pad (n e : Nat) : Free (Dec.padDigits n e) := by
  unfold Dec.padDigits
  refine .append ?_ (free_natDigits n)
  intro c hc
  rw [List.eq_of_mem_replicate hc]; decide

theorem free_stream (neg : Bool) (n e : Nat) : Free (Dec.streamText neg n e) := by
  unfold Dec.streamText Dec.sciText Dec.fixedText
  refine .append (free_ite (free_of (by decide)) .nil) (free_ite ?_ ?_)
  · refine .append (.append (.append ((free_natDigits n).take _) (free_dot (free_strip ((free_natDigits n).drop _)))) ?_) ?_
    · refine .cons (by decide) (.cons ?_ .nil)
      split <;> decide
    · exact free_ite (.cons (by decide) (free_natDigits _)) (free_natDigits _)
  · exact .append ((free_pad n e).take _) (free_dot (free_strip ((free_pad n e).drop _)))

theorem free_trunc {s : Str} (p : Nat) (h : Free s) : Free (Dec.truncText p s) := by
  have hd : ∀ s, Free s → Free (Dec.dropDot s) := by
    intro s h
    unfold Dec.dropDot
    exact free_ite (h.sub (fun _ hc => (List.dropLast_sublist _).mem hc)) h
  unfold Dec.truncText
  split
  · exact h
  · have : ∀ e : Nat, Free (if s.length > e + p + 1 then s.take (e + p + 1) else s) :=
      fun e => free_ite (h.take _) h
    exact free_ite (hd _ (free_strip (this _))) (this _)

theorem free_lead {s : Str} (h : Free s) : Free (Dec.dropLeadingZero s) := by
  unfold Dec.dropLeadingZero
  exact free_ite (h.drop _) (free_ite (.cons (by decide) (h.drop _)) h)

theorem free_toStrSum (p : Nat) (neg : Bool) (n e : Nat) (r : Bool) : Free (Dec.toStrSum p neg n e r) := by
  unfold Dec.toStrSum
  have := free_trunc p (free_stream neg n e)
  exact free_ite (free_of (by decide)) (free_ite (free_lead this) this)

theorem free_decText {p : Nat} {d : Fp} {r : Bool} {s : Str} (h : Color.decText p d r = some s) : Free s := by
  unfold Color.decText at h
  dsimp only at h
  split at h
  · injection h with h; subst h; exact free_toStrSum _ _ _ _ _
  · cases h

theorem free_toHex (n : Nat) : Free (URange.toHex n) := by
  have key : ∀ f n acc, Free acc → Free (URange.toHexAux f n acc) := by
    intro f
    induction f with
    | zero => intro n acc h; exact h
    | succ f ih =>
      intro n acc h
      have hd : isBracket (URange.hexDigit (n % 16)) = false := by
        have : n % 16 < 16 := Nat.mod_lt _ (by omega)
        unfold URange.hexDigit isBracket
        split <;> simp <;> omega
      have hd' : n < 16 → isBracket (URange.hexDigit n) = false := by
        intro hn
        unfold URange.hexDigit isBracket
        split <;> simp <;> omega
      unfold URange.toHexAux
      split
      · rename_i hn
        exact .cons (hd' hn) h
      · exact ih _ _ (.cons hd h)
  exact key 8 n [] .nil

theorem free_padLeft {s : Str} (w : Nat) (h : Free s) : Free (URange.padLeft w s) := by
  unfold URange.padLeft
  refine .append ?_ h
  intro c hc
  rw [List.eq_of_mem_replicate hc]; decide

theorem free_range {u : URange.UR} {s : Str} (h : u.toStr = .ok s) : Free s := by
  have hx : ∀ x, Free (URange.hexOfInt x) := fun x => free_toHex _
  have hz : ∀ s, Free s → Free (URange.dropZeroes s) := by
    intro s h
    induction s with
    | nil => exact h
    | cons c s ih =>
      unfold URange.dropZeroes
      exact free_ite (ih (h.sub (fun _ hc => List.mem_cons_of_mem _ hc))) h
  unfold URange.UR.toStr at h
  dsimp only at h
  repeat' split at h
  all_goals first
    | (cases h; done)
    | (injection h with h; subst h)
  · exact free_of (by decide)
  · exact hx _
  · refine hz _ (.append ((free_padLeft _ (hx _)).take _) ?_)
    intro c hc
    rw [List.eq_of_mem_replicate hc]; decide
  · exact .append (.append (hx _) (free_of (by decide))) (hx _)

theorem free_nth (n : Nth.Nth) : Free n.toStr := by
  unfold Nth.Nth.toStr
  have hn : Free b!"n" := free_of (by decide)
  exact free_ite (free_of (by decide)) (free_ite (free_of (by decide)) (free_ite (free_intDigits _)
    (free_ite ((free_intDigits _).append hn) ((((free_intDigits _).append hn).append
      (free_ite (free_of (by decide)) .nil)).append (free_intDigits _)))))

theorem free_cstr {s : Str} (h : Free s) : Free (cstr s) :=
  h.sub (fun _ hc => (List.takeWhile_sublist _).mem hc)

theorem free_quoted {s : Str} (q : Nat) (h : Free s) : Free (quoted q s) := by
  intro c hc
  unfold quoted at hc
  obtain ⟨d, hd, hc⟩ := List.mem_flatMap.1 hc
  split at hc
  · rcases List.mem_cons.1 hc with rfl | hc
    · decide
    · simp at hc; subst hc; exact h c hd
  · simp at hc; subst hc; exact h c hd

theorem free_string {s : Str} (h : Free s) : Free (outputString s) := by
  unfold outputString
  have := fun q => free_quoted q (free_cstr h)
  exact free_ite (.cons (by decide) ((this _).append (free_of (by decide))))
    (.cons (by decide) ((this _).append (free_of (by decide))))

theorem free_urlArg {s : Str} (h : Free s) : Free (urlArg s) := by
  unfold urlArg; exact free_ite h (free_string h)

theorem free_escapeChar {first : Bool} {mb next : Str} (h : Free mb) : Free (escapeChar first mb next) := by
  unfold escapeChar
  dsimp only
  refine free_ite h ?_
  split
  · rename_i hd
    refine .cons (by decide) (.cons (by decide) (.cons ?_ (free_ite (free_of (by decide)) .nil)))
    have := hd
    unfold Lex.isDigit at this
    unfold isBracket
    simp at this ⊢
    omega
  · exact .cons (by decide) h

theorem free_escapeLoop : ∀ (f : Nat) (first : Bool) (s : Str) {r : Str}, Free s →
    escapeLoop f first s = some r → Free r := by
  intro f
  induction f with
  | zero => intro first s r _ h; injection h with h; subst h; exact .nil
  | succ f ih =>
    intro first s r hs h
    cases s with
    | nil => injection h with h; subst h; exact .nil
    | cons c t =>
      unfold escapeLoop at h
      split at h
      · cases h
      · split at h
        · cases h
        · rename_i r' hr
          injection h with h; subst h
          exact (free_escapeChar (hs.take _)).append (ih _ _ (hs.drop _) hr)

theorem free_cppComment (s : Str) : ∀ (first : Bool) (cur : Str), Free s → Free cur → Free (cppComment first cur s) := by
  have f1 : Free b!"/* " := free_of (by decide)
  have f2 : Free b!" */" := free_of (by decide)
  have f3 : Free b!" * " := free_of (by decide)
  have f4 : Free [10] := free_of (by decide)
  induction s with
  | nil =>
    intro first cur _ hc
    unfold cppComment
    exact free_ite .nil (free_ite (((f1.append hc).append f2).append f4)
      ((((f3.append hc).append f4).append f2).append f4))
  | cons c s ih =>
    intro first cur hs hc
    have hs' : Free s := hs.sub (fun _ h => List.mem_cons_of_mem _ h)
    unfold cppComment
    exact free_ite ((((free_ite f1 f3).append hc).append f4).append (ih _ _ hs' .nil))
      (ih _ _ hs' (hc.append (.cons (hs c List.mem_cons_self) .nil)))

theorem free_cutSlash (s : Str) (h : Free s) : Free (Node.cutSlash s).1 ∧ Free ((Node.cutSlash s).2.getD []) := by
  induction s with
  | nil => exact ⟨.nil, .nil⟩
  | cons c s ih =>
    have hs' : Free s := h.sub (fun _ h => List.mem_cons_of_mem _ h)
    unfold Node.cutSlash
    split
    · exact ⟨.nil, hs'⟩
    · exact ⟨.cons (h c List.mem_cons_self) (ih hs').1, (ih hs').2⟩

/-! ### Neutral texts -/

/-- A text that leaves the stack of the brackets as it is. -/
def Neutral (s : Str) : Prop := ∀ st rest, nested st (s ++ rest) = nested st rest

theorem Free.neutral {s : Str} (h : Free s) : Neutral s := by
  induction s with
  | nil => intro st rest; rfl
  | cons c s ih =>
    intro st rest
    have hc := h c List.mem_cons_self
    unfold isBracket at hc
    simp at hc
    rw [List.cons_append]
    rw [show nested st (c :: (s ++ rest)) = nested st (s ++ rest) by
      rw [nested.eq_def]; dsimp only; rw [if_neg (by omega), if_neg (by omega), if_neg (by omega), if_neg (by omega)]]
    exact ih (h.sub (fun _ hd => List.mem_cons_of_mem _ hd)) st rest

theorem Neutral.append {a b : Str} (ha : Neutral a) (hb : Neutral b) : Neutral (a ++ b) := by
  intro st rest
  rw [List.append_assoc, ha, hb]

theorem nested_open (c d : Nat) (h : (c = 123 ∧ d = 125) ∨ (c = 40 ∧ d = 41) ∨ (c = 91 ∧ d = 93)) (st : List Nat)
    (t : Str) : nested st (c :: t) = nested (d :: st) t := by
  rcases h with ⟨rfl, rfl⟩ | ⟨rfl, rfl⟩ | ⟨rfl, rfl⟩ <;> simp [nested]

theorem nested_close (d : Nat) (h : d = 125 ∨ d = 41 ∨ d = 93) (st : List Nat) (t : Str) :
    nested (d :: st) (d :: t) = nested st t := by
  rcases h with rfl | rfl | rfl <;> simp [nested]

theorem Neutral.wrap {c d : Nat} {a : Str} (h : (c = 123 ∧ d = 125) ∨ (c = 40 ∧ d = 41) ∨ (c = 91 ∧ d = 93))
    (ha : Neutral a) : Neutral (c :: (a ++ [d])) := by
  intro st rest
  rw [List.cons_append, nested_open c d h, List.append_assoc, ha]
  exact nested_close d (by omega) st rest

/-- The texts of the calls that are not operators are neutral. -/
def NeutralCall (c : Call) : Prop :=
  match c with
  | .raw s => Neutral s
  | .token s => Neutral s
  | _ => True

theorem shape_neutral {o : Bool} {l : List Call} (h : Shape l) (hn : ∀ c ∈ l, NeutralCall c) :
    Neutral (pieces o l).flatten := by
  induction h with
  | nil => exact Free.nil.neutral
  | append _ _ h1 h2 =>
    rw [pieces_append, List.flatten_append]
    exact (h1 (fun c hc => hn c (List.mem_append_left _ hc))).append
      (h2 (fun c hc => hn c (List.mem_append_right _ hc)))
  | @other c h =>
    have hc := hn c List.mem_cons_self
    cases c with
    | op s f => exact absurd rfl (h s f)
    | raw s => have : pieces o [.raw s] = [s] := rfl
               rw [this]; simpa [NeutralCall] using hc
    | token s => have : pieces o [.token s] = [s] := rfl
                 rw [this]; simpa [NeutralCall] using hc
    | _ => exact Free.nil.neutral
  | op h hs => rw [pieces_op h]; simpa [pieces] using hs.neutral
  | paren hf hg _ ih | square hf hg _ ih | curly hf hg _ ih =>
    rw [pieces_op hf, pieces_append, pieces_op hg]
    have := ih (fun c hc => hn c (List.mem_cons_of_mem _ (List.mem_append_left _ hc)))
    simpa [pieces] using this.wrap (by decide)
  | block hf hg _ ih =>
    rw [pieces_op hf, pieces_append]
    have := ih (fun c hc => hn c (List.mem_cons_of_mem _ (List.mem_append_left _ hc)))
    cases o with
    | false =>
      rw [show ∀ l, pieces false (.op b!";" .optionalOperator :: l) = pieces false l from fun _ => rfl,
        pieces_op hg]
      simpa [pieces] using this.wrap (by decide)
    | true =>
      rw [show ∀ l, pieces true (.op b!";" .optionalOperator :: l) = b!";" :: pieces true l from fun _ => rfl,
        pieces_op hg]
      simpa [pieces] using (this.append (Free.neutral (s := b!";") (free_of (by decide)))).wrap (by decide)

theorem gap_free {m : Mode} {g : Str} (h : m.gap g) : Free g := by
  intro c hc
  have : c = 32 ∨ c = 10 := by
    cases m
    · exact h c hc
    · exact .inr (h c hc)
    · exact h c hc
    · exact .inr (h c hc)
  rcases this with rfl | rfl <;> decide

theorem spread_nested {m : Mode} {ps : List Str} {t : Str} (h : Spread m.gap ps t) :
    ∀ (st : List Nat) (rest : Str), nested st (t ++ rest) = nested st (ps.flatten ++ rest) := by
  intro st rest
  induction h generalizing st rest with
  | last h => rw [(gap_free h).neutral]; rfl
  | @piece g p t ps h _ ih =>
    rw [List.append_assoc, (gap_free h).neutral, List.flatten_cons, List.append_assoc, List.append_assoc]
    -- what is in front of the texts does not matter
    have key : ∀ (p : Str) (st : List Nat) (a b : Str), (∀ st, nested st a = nested st b) →
        nested st (p ++ a) = nested st (p ++ b) := by
      intro p
      induction p with
      | nil => intro st a b h; exact h st
      | cons c p ih =>
        intro st a b h
        rw [List.cons_append, List.cons_append]
        unfold nested
        simp only [ih _ _ _ h]
        repeat' split
        all_goals first | rfl | exact ih _ _ _ h
    refine key p st _ _ (fun st => ih st rest)

/-! ### C41 -/

/-- C41: the brackets written as operators are nested. -/
theorem C41_operators (p : Nat) (t : Tree) (calls : List Call) (h : output p t = .ok calls) :
    nested [] (operators calls) = true := by
  have key : ∀ l, Shape l → Neutral (operators l) := by
    have app : ∀ a b, operators (a ++ b) = operators a ++ operators b := by
      intro a b
      induction a with
      | nil => rfl
      | cons c a ih => cases c <;> simp [operators, ih]
    intro l h
    induction h with
    | nil => exact Free.nil.neutral
    | append _ _ h1 h2 => rw [app]; exact h1.append h2
    | @other c h =>
      cases c with
      | op s f => exact absurd rfl (h s f)
      | _ => exact Free.nil.neutral
    | op h hs => simpa [operators] using hs.neutral
    | paren _ _ _ ih | square _ _ _ ih | curly _ _ _ ih =>
      simpa [operators, app] using ih.wrap (by decide)
    | block _ _ _ ih =>
      simpa [operators, app] using (ih.append (Free.neutral (s := b!";") (free_of (by decide)))).wrap (by decide)
  have := key calls (output_shaped p t calls h) [] []
  rw [List.append_nil] at this
  rw [this]; rfl

theorem color_neutral {c : Color.Color} {s : Str} (h : Color.toString c = some s) : Neutral s := by
  have hx : ∀ d, d < 16 → isBracket (Color.hexDigit d) = false := by
    intro d hd
    unfold Color.hexDigit isBracket
    split <;> simp <;> omega
  unfold Color.toString at h
  split at h
  · cases h
  · rename_i col _
    dsimp only at h
    split at h
    · injection h with h; subst h
      refine Free.neutral ?_
      have hm : ∀ x, isBracket (Color.hexDigit (x % 16)) = false := fun x => hx _ (Nat.mod_lt _ (by omega))
      have hh : ∀ x, x < 256 → Free (Color.hex2 x) := fun x h =>
        .cons (hx _ (by omega)) (.cons (hm _) .nil)
      unfold Color.opaqueText
      iterate 12 refine free_ite (free_of (by decide)) ?_
      refine free_ite (.cons (by decide) (.cons (hm _) (.cons (hm _) (.cons (hm _) .nil)))) (.cons (by decide) ?_)
      exact ((hh _ (by omega)).append (hh _ (by omega))).append (hh _ (by omega))
    · split at h
      · injection h with h; subst h
        exact Free.neutral (free_of (by decide))
      · split at h
        · cases h
        · rename_i a ha
          injection h with h; subst h
          have hf := free_decText ha
          have h44 : Free [44] := free_of (by decide)
          have := Neutral.wrap (c := 40) (d := 41) (by decide)
            ((((((((free_natDigits (col % 256)).append h44).append (free_natDigits (col / 256 % 256))).append h44).append
              (free_natDigits (col / 65536 % 256))).append h44).append hf).neutral)
          have h4 : Neutral b!"rgba" := Free.neutral (free_of (by decide))
          simpa using h4.append this

theorem neutral_decimal (p : Nat) (d : Fp) : Each NeutralCall (decimal p d) := by
  unfold decimal
  split
  · rename_i s hs
    exact .single (c := .raw s) (free_decText hs).neutral
  · exact .error _

theorem neutral_verify (s : Str) : Each NeutralCall (verifyDimension s) := by
  unfold verifyDimension; exact ite_each (.single trivial) .nil

theorem neutral_raw {s : Str} (h : Free s) : Each NeutralCall (rawText s) := .single (c := .raw s) h.neutral

theorem neutral_leaf (p : Nat) (d : Data) (o : Out) (hd : Free d.str) (h : leafCalls p d = some o) :
    Each NeutralCall o := by
  have op : ∀ (s : Str) (f : Flag), Each NeutralCall (operator s f) := fun s f => .single (c := .op s f) trivial
  unfold leafCalls at h
  split at h
  all_goals first | (replace h := Option.some.inj h; subst h) | (exact nomatch h)
  all_goals first
    | with_reducible exact op _ _
    | with_reducible exact (neutral_verify _).andThen ((neutral_decimal _ _).andThen (neutral_raw hd))
    | with_reducible exact (neutral_verify _).andThen (neutral_raw ((free_intDigits _).append hd))
    | with_reducible exact neutral_raw (free_nth _)
    | with_reducible exact neutral_raw (free_string hd)
    | with_reducible exact neutral_raw (.cons rfl hd)
    | with_reducible exact (neutral_decimal _ _).andThen (neutral_raw (free_of rfl))
    | with_reducible exact neutral_raw (free_of rfl)
    | skip
  · split
    · rename_i s hs
      exact .single (c := .token s) (color_neutral hs)
    · exact .error _
  · unfold comment
    refine (Each.single (c := .newlineIfNotEmpty) trivial).andThen (neutral_raw (free_ite (free_cppComment _ _ _ hd .nil) ?_))
    unfold outputCComment
    exact (((free_of (s := b!"/* ") (by decide)).append hd).append (free_of (by decide))).append (free_of (by decide))
  · unfold fontMetrics
    have := free_cutSlash d.str hd
    exact (neutral_decimal _ _).andThen ((neutral_raw this.1).andThen ((neutral_raw (free_of (by decide))).andThen
      ((neutral_decimal _ _).andThen (neutral_raw this.2))))
  · split
    · rename_i s hs
      unfold escapeId at hs
      exact neutral_raw (free_escapeLoop _ _ _ (free_cstr hd) hs)
    · exact .error _
  · unfold unicodeRange
    split
    · exact .error _
    · split
      · exact .error _
      · rename_i hs
        exact neutral_raw ((free_of (s := b!"U+") (by decide)).append (free_range hs))
  · unfold url
    exact (neutral_raw (free_of (by decide))).andThen ((op _ _).andThen ((neutral_raw (free_urlArg hd)).andThen (op _ _)))

theorem neutral_holds (p : Nat) : Holds p (fun d => Free d.str) NeutralCall where
  leaf d o hd h := neutral_leaf p d o hd h
  frame d _ := by
    unfold framePosition
    exact ite_each (neutral_raw (free_of (by decide))) ((neutral_decimal _ _).andThen (neutral_raw (free_of (by decide))))
  keyword d hd _ := (Free.cons (c := 64) (by decide) (Free.append hd (free_of (by decide)))).neutral
  name d hd _ := Free.neutral hd
  semi := Free.neutral (free_of (by decide))
  space := Free.neutral (free_of (by decide))
  important := Free.neutral (free_of (by decide))
  op _ _ _ := trivial
  newline := trivial
  indent := trivial

/-- C41: when no string of the tree has a bracket, the brackets of the text are nested, in every
mode. -/
theorem C41_text (m : Mode) (p : Nat) (t : Tree) (ht : All (fun d => Free d.str) t) {s : Str}
    (h : m.write p t = .ok s) : nested [] s = true := by
  unfold Mode.write at h
  cases ho : output p t with
  | error e => rw [ho] at h; cases h
  | ok calls =>
    rw [ho] at h
    injection h with h; subst h
    have hn := output_each (neutral_holds p) t ht calls ho
    have := spread_nested (C40_layout m calls) [] []
    rw [List.append_nil] at this
    rw [this, shape_neutral (output_shaped p t calls ho) hn]; rfl

/-- C41: whether the tree is accepted, and how it fails, does not depend on the mode. -/
theorem C41_modes (m m' : Mode) (p : Nat) (t : Tree) (e : Stop) :
    m.write p t = .error e ↔ m'.write p t = .error e := by
  unfold Mode.write
  cases output p t <;> simp

/-! ### Which trees are accepted -/

/-- The types that have a text, and the values that can be written: names in UTF-8, unicode ranges
that are ranges, and numbers that are numbers. -/
def ReadyData (p : Nat) (d : Data) : Prop :=
  match d.ty with
  | .ADD | .ARG | .AT_KEYWORD | .COLON | .COMMENT | .DASH_MATCH | .DECLARATION | .DIVIDE | .EQUAL | .FUNCTION
  | .GREATER_THAN | .HASH | .INCLUDE_MATCH | .INTEGER | .LIST | .MULTIPLY | .OPEN_CURLYBRACKET
  | .OPEN_PARENTHESIS | .OPEN_SQUAREBRACKET | .PERIOD | .PRECEDED | .PREFIX_MATCH | .SCOPE | .STRING
  | .SUBSTRING_MATCH | .SUBTRACT | .SUFFIX_MATCH | .URL | .WHITESPACE | .COMPONENT_VALUE | .AN_PLUS_B => True
  | .IDENTIFIER => ∃ cs, Spec.Utf8 cs d.str ∧ ∀ c ∈ cs, c ≠ 0
  | .UNICODE_RANGE => ∃ u s, URange.UR.ofRange (toU64 d.int) = .ok u ∧ u.toStr = .ok s
  | .COLOR => Color.toString d.color ≠ none
  | .DECIMAL_NUMBER => Color.decText p d.dec true ≠ none
  | .PERCENT => Color.decText p (mul f64 d.dec (ofInt f64 100)) true ≠ none
  | .FONT_METRICS => Color.decText p (scaled d.dec (Node.cutSlash d.str).1) true ≠ none ∧
      Color.decText p (scaled d.height ((Node.cutSlash d.str).2.getD [])) true ≠ none
  | .FRAME => ∃ calls, framePosition p d.dec = .ok calls
  | _ => False

mutual
/-- Every node is ready and the children of a COMPONENT_VALUE are ARG nodes or `{` blocks. -/
def Ready (p : Nat) : Tree → Prop
  | .mk d kids => ReadyData p d ∧
    (d.ty = .COMPONENT_VALUE → ∀ c ∈ kids, c.ty = .ARG ∨ c.ty = .OPEN_CURLYBRACKET) ∧ ReadyKids p kids
def ReadyKids (p : Nat) : List Tree → Prop
  | [] => True
  | c :: cs => Ready p c ∧ ReadyKids p cs
end

/-- No exception. -/
def Fine (o : Out) : Prop := ∃ calls, o = .ok calls

theorem Fine.andThen {a b : Out} (ha : Fine a) (hb : Fine b) : Fine (a ⊹ b) := by
  obtain ⟨x, rfl⟩ := ha; obtain ⟨y, rfl⟩ := hb; exact ⟨x ++ y, rfl⟩
theorem Fine.ok (l : List Call) : Fine (.ok l) := ⟨l, rfl⟩
theorem ite_fine {c : Prop} [Decidable c] {a b : Out} (ha : c → Fine a) (hb : ¬ c → Fine b) :
    Fine (if c then a else b) := by
  split
  · exact ha ‹_›
  · exact hb ‹_›
theorem fine_decimal {p : Nat} {d : Fp} (h : Color.decText p d true ≠ none) : Fine (decimal p d) := by
  unfold decimal
  split
  · exact .ok _
  · exact absurd ‹_› h
theorem fine_verify (s : Str) : Fine (verifyDimension s) := by
  unfold verifyDimension; exact ite_fine (fun _ => .ok _) (fun _ => .ok _)

theorem fine_op (s : Str) (f : Flag) : Fine (operator s f) := .ok _
theorem fine_raw (s : Str) : Fine (rawText s) := .ok _

theorem fine_leaf {p : Nat} {d : Data} {o : Out} (hd : ReadyData p d) (h : leafCalls p d = some o) : Fine o := by
  unfold leafCalls at h
  split at h
  all_goals rename_i ht
  all_goals first | (replace h := Option.some.inj h; subst h) | (exact nomatch h)
  all_goals (unfold ReadyData at hd; rw [ht] at hd; dsimp only at hd)
  all_goals first
    | with_reducible exact fine_op _ _
    | with_reducible exact fine_raw _
    | (unfold comment; exact Fine.ok _)
    | (unfold url; exact Fine.ok _)
    | skip
  · split
    · exact .ok _
    · exact absurd ‹_› hd
  · exact (fine_verify _).andThen ((fine_decimal hd).andThen (fine_raw _))
  · unfold fontMetrics
    exact (fine_decimal hd.1).andThen (Fine.andThen (.ok _) (Fine.andThen (.ok _)
      ((fine_decimal hd.2).andThen (.ok _))))
  · obtain ⟨cs, h1, h2⟩ := hd
    obtain ⟨out, h3⟩ := Lex.C09_no_throw cs _ h1 h2
    rw [h3]; exact .ok _
  · exact (fine_verify _).andThen (fine_raw _)
  · exact (fine_decimal hd).andThen (fine_raw _)
  · obtain ⟨u, s, h1, h2⟩ := hd
    unfold unicodeRange
    rw [h1]; dsimp only; rw [h2]; exact .ok _

mutual
theorem output_fine (p : Nat) : (t : Tree) → Ready p t → Fine (output p t)
  | .mk d kids, h => by
    unfold Ready at h
    obtain ⟨hd, hc, hk⟩ := h
    unfold output
    cases hl : leafCalls p d with
    | some o => exact fine_leaf hd hl
    | none =>
      dsimp only
      split
      · exact outAll_fine p kids hk
      · refine Fine.andThen (.ok _) (Fine.andThen ?_ (.ok _))
        cases kids with
        | nil => exact .ok _
        | cons c cs =>
          unfold ReadyKids at hk
          exact ite_fine (fun _ => (output_fine p c hk.1).andThen (Fine.andThen (.ok _) (Fine.andThen (.ok _)
            ((outAll_fine p cs hk.2).andThen (.ok _))))) (fun _ => outAt_fine p (c :: cs) (by unfold ReadyKids; exact hk))
      · exact Fine.andThen (.ok _) (Fine.andThen (.ok _) (Fine.andThen (.ok _)
          ((outAfter_fine p _ _ kids hk).andThen (ite_fine (fun _ => .ok _) (fun _ => .ok _)))))
      · refine Fine.andThen (.ok _) (Fine.andThen (.ok _) (Fine.andThen ?_ (.ok _)))
        cases kids with
        | nil => exact .ok _
        | cons c cs =>
          unfold ReadyKids at hk
          exact ite_fine (fun _ => (output_fine p c hk.1).andThen (outCommas_fine p cs hk.2))
            (fun _ => (output_fine p c hk.1).andThen (outAll_fine p cs hk.2))
      · exact outAfter_fine p _ _ kids hk
      · exact Fine.andThen (.ok _) ((outAfter_fine p _ _ kids hk).andThen (.ok _))
      · exact Fine.andThen (.ok _) (Fine.andThen (.ok _) ((outParen_fine p true kids hk).andThen (.ok _)))
      · exact Fine.andThen (.ok _) ((outAll_fine p kids hk).andThen (.ok _))
      · rename_i ht
        exact outCV_fine p true kids (hc ht) hk
      · rename_i ht
        unfold ReadyData at hd
        rw [ht] at hd
        exact Fine.andThen hd (Fine.andThen (.ok _) ((outAfter_fine p _ _ kids hk).andThen (.ok _)))
      · exfalso
        unfold ReadyData at hd
        unfold leafCalls at hl
        split at hd <;> simp_all

theorem outAll_fine (p : Nat) : (l : List Tree) → ReadyKids p l → Fine (outAll p l)
  | [], _ => by unfold outAll; exact .ok _
  | c :: cs, h => by
    unfold ReadyKids at h
    unfold outAll; exact (output_fine p c h.1).andThen (outAll_fine p cs h.2)

theorem outAfter_fine (p : Nat) (ty : NT) (sep : Call) : (l : List Tree) → ReadyKids p l → Fine (outAfter p ty sep l)
  | [], _ => by unfold outAfter; exact .ok _
  | c :: cs, h => by
    unfold ReadyKids at h
    unfold outAfter
    exact (output_fine p c h.1).andThen ((ite_fine (fun _ => .ok _) (fun _ => .ok _)).andThen
      (outAfter_fine p ty sep cs h.2))

theorem outCommas_fine (p : Nat) : (l : List Tree) → ReadyKids p l → Fine (outCommas p l)
  | [], _ => by unfold outCommas; exact .ok _
  | c :: cs, h => by
    unfold ReadyKids at h
    unfold outCommas
    exact Fine.andThen (.ok _) ((output_fine p c h.1).andThen (outCommas_fine p cs h.2))

theorem outParen_fine (p : Nat) : (first : Bool) → (l : List Tree) → ReadyKids p l → Fine (outParen p first l)
  | _, [], _ => by unfold outParen; exact .ok _
  | first, .mk d kids :: cs, h => by
    unfold ReadyKids at h
    have hk : ReadyKids p kids := by have := h.1; unfold Ready at this; exact this.2.2
    unfold outParen
    exact (ite_fine (fun _ => (ite_fine (fun _ => .ok _) (fun _ => .ok _)).andThen (Fine.andThen (.ok _)
      ((outParen_fine p true kids hk).andThen (.ok _)))) (fun _ => output_fine p (.mk d kids) h.1)).andThen
      (outParen_fine p false cs h.2)

theorem outCV_fine (p : Nat) : (first : Bool) → (l : List Tree) →
    (∀ c ∈ l, c.ty = .ARG ∨ c.ty = .OPEN_CURLYBRACKET) → ReadyKids p l → Fine (outCV p first l)
  | _, [], _, _ => by unfold outCV; exact .ok _
  | first, .mk d kids :: cs, hc, h => by
    unfold ReadyKids at h
    have hcs : ∀ c ∈ cs, c.ty = .ARG ∨ c.ty = .OPEN_CURLYBRACKET := fun c hm => hc c (List.mem_cons_of_mem _ hm)
    have h0 : d.ty = .ARG ∨ d.ty = .OPEN_CURLYBRACKET := hc _ List.mem_cons_self
    unfold outCV
    refine ite_fine (fun _ => (ite_fine (fun _ => .ok _) (fun _ => output_fine p (.mk d kids) h.1)).andThen
      (outCV_fine p first cs hcs h.2)) (fun h1 => ite_fine (fun h2 => ?_) (fun _ => ite_fine
      (fun _ => outCV_fine p first cs hcs h.2) (fun _ => (ite_fine (fun _ => .ok _) (fun _ => .ok _)).andThen
        ((output_fine p (.mk d kids) h.1).andThen (outCV_fine p false cs hcs h.2)))))
    rcases h0 with h0 | h0
    · exact absurd h0 h2
    · exact absurd h0 h1

theorem outAt_fine (p : Nat) : (l : List Tree) → ReadyKids p l → Fine (outAt p l)
  | [], _ => by unfold outAt; exact .ok _
  | .mk d kids :: cs, h => by
    unfold ReadyKids at h
    have hk : ReadyKids p kids := by have := h.1; unfold Ready at this; exact this.2.2
    have ho := output_fine p (.mk d kids) h.1
    unfold outAt
    exact (ite_fine (fun _ => (ite_fine (fun _ => .ok _) (fun _ => .ok _)).andThen (Fine.andThen (.ok _)
      (Fine.andThen (.ok _) ((outAll_fine p kids hk).andThen (.ok _))))) (fun _ => ite_fine
      (fun _ => ho.andThen (ite_fine (fun _ => .ok _) (fun _ => .ok _))) (fun _ => ho))).andThen
      ((ite_fine (fun _ => .ok _) (fun _ => .ok _)).andThen (outAt_fine p cs h.2))
end

/-- C41: a tree that is ready is written, in every mode. -/
theorem C41_accepts (m : Mode) (p : Nat) (t : Tree) (h : Ready p t) : ∃ s, m.write p t = .ok s := by
  obtain ⟨calls, hc⟩ := output_fine p t h
  exact ⟨m.text calls, by unfold Mode.write; rw [hc]⟩

/-! ### COMPRESSED adds nothing -/

theorem from_compressed (l : List Call) (h : ∀ c ∈ l, c ≠ .newlineIfNotEmpty) :
    ∀ st, Mode.from .compressed st l = (pieces false l).flatten := by
  induction l with
  | nil => intro st; rfl
  | cons c l ih =>
    intro st
    have ih := ih (fun c hc => h c (List.mem_cons_of_mem _ hc))
    have hc := h c List.mem_cons_self
    unfold Mode.from
    rw [ih]
    have : (Mode.step .compressed st c).1 = (pieces false [c]).flatten := by
      cases c with
      | newlineIfNotEmpty => exact absurd rfl hc
      | raw s => simp [Mode.step, Mode.call, pieces, Call.piece, W.put]
      | token s => simp [Mode.step, Mode.call, pieces, Call.piece, string_out]
      | op s f =>
        show (opBase _ _ _).out = _
        unfold opBase
        by_cases hf : f = .optionalOperator
        · subst hf; rfl
        · rw [if_neg hf, string_out, pieces_op hf]; simp [pieces]
      | _ => rfl
    rw [this, ← List.flatten_append, ← pieces_append]
    rfl

/-- C40: a tree without comments is written by COMPRESSED with nothing at all between the pieces. -/
theorem C40_compressed (p : Nat) (t : Tree) (ht : All (fun d => d.ty ≠ .COMMENT) t) (calls : List Call)
    (h : output p t = .ok calls) : Mode.text .compressed calls = (pieces false calls).flatten := by
  rw [text_eq]
  refine from_compressed calls ?_ false
  have raw : ∀ s, Each (· ≠ .newlineIfNotEmpty) (rawText s) := fun s => .single (c := .raw s) (by simp)
  have op : ∀ s f, Each (· ≠ .newlineIfNotEmpty) (operator s f) := fun s f => .single (c := .op s f) (by simp)
  have dec : ∀ d, Each (· ≠ .newlineIfNotEmpty) (decimal p d) := by
    intro d; unfold decimal; split
    · exact raw _
    · exact .error _
  have ver : ∀ s, Each (· ≠ .newlineIfNotEmpty) (verifyDimension s) := by
    intro s; unfold verifyDimension; exact ite_each (.single (by simp)) .nil
  have H : Holds p (fun d => d.ty ≠ .COMMENT) (· ≠ .newlineIfNotEmpty) := {
    leaf := by
      intro d o hd h
      unfold leafCalls at h
      split at h
      all_goals rename_i hty
      all_goals first | (replace h := Option.some.inj h; subst h) | (exact nomatch h)
      all_goals first
        | with_reducible exact op _ _
        | with_reducible exact raw _
        | with_reducible exact (ver _).andThen ((dec _).andThen (raw _))
        | with_reducible exact (ver _).andThen (raw _)
        | with_reducible exact (dec _).andThen (raw _)
        | (exact absurd hty hd)
        | (split
           · exact .single (by simp)
           · exact .error _)
        | (unfold fontMetrics
           exact (dec _).andThen ((raw _).andThen ((raw _).andThen ((dec _).andThen (raw _)))))
        | (unfold unicodeRange
           split
           · exact .error _
           · split
             · exact .error _
             · exact raw _)
        | (unfold url; exact (raw _).andThen ((op _ _).andThen ((raw _).andThen (op _ _))))
    frame := by
      intro d _
      unfold framePosition
      exact ite_each (raw _) ((dec _).andThen (raw _))
    keyword := by intros; simp
    name := by intros; simp
    semi := by simp
    space := by simp
    important := by simp
    op := by intros; simp
    newline := by simp
    indent := by simp }
  exact output_each H t ht calls h

/-! ### Examples -/

/-- `a, b { color: red; width: 3px } ` -/
def sample : Tree :=
  .mk { ty := .COMPONENT_VALUE } [
    .mk { ty := .ARG } [.leaf { ty := .IDENTIFIER, str := b!"a" }],
    .mk { ty := .ARG } [.leaf { ty := .IDENTIFIER, str := b!"b" }],
    .mk { ty := .OPEN_CURLYBRACKET } [
      .mk { ty := .DECLARATION, str := b!"color", flags := [b!"important"] } [
        .mk { ty := .ARG } [.leaf { ty := .STRING, str := b!"a b" }]],
      .mk { ty := .DECLARATION, str := b!"width" } [
        .mk { ty := .ARG } [.leaf { ty := .INTEGER, int := 3, str := b!"px" }]]]]

example : Mode.write .compressed 3 sample = .ok b!"a,b{color:\"a b\"!important;width:3px}" := by decide +kernel
example : Mode.write .tidy 3 sample = .ok (b!"a,b{color:\"a b\"!important;width:3px}" ++ [10]) := by decide +kernel
example : Mode.write .compact 3 sample = .ok (b!"a, b { color: \"a b\" !important; width: 3px }" ++ [10]) := by
  decide +kernel
example : Mode.write .expanded 3 sample = .ok (b!"a, b" ++ [10] ++ b!"{" ++ [10] ++
    b!"  color: \"a b\" !important;" ++ [10] ++ b!"  width: 3px;" ++ [10] ++ b!"}" ++ [10]) := by
  decide +kernel
/-- The sample meets the hypotheses of C40 and C41. -/
example : Ready 3 sample ∧ All (fun d => Free d.str) sample ∧ All (fun d => d.ty ≠ .COMMENT) sample := by
  have hi : ∀ c : Nat, 0 < c → c < 128 → ∃ cs, Spec.Utf8 cs [c] ∧ ∀ x ∈ cs, x ≠ 0 := by
    intro c h0 h
    exact ⟨[c], (Spec.Utf8.cons (.one c h) .nil : Spec.Utf8 [c] ([c] ++ [])), by intro x hx; simp at hx; omega⟩
  refine ⟨?_, ?_, ?_⟩
  · simp [sample, Ready, ReadyKids, ReadyData, Tree.leaf, Tree.ty, Tree.data]
    exact ⟨hi 97 (by decide) (by decide), hi 98 (by decide) (by decide)⟩
  · simp [sample, All, AllKids, Tree.leaf, Free, isBracket]
  · simp [sample, All, AllKids, Tree.leaf]
/-- A node that is not expected is an exception. -/
example : Mode.write .tidy 3 (.mk { ty := .LIST } [.leaf { ty := .COMMA }]) = .error .throws := by decide +kernel

end Csspp.Asm
