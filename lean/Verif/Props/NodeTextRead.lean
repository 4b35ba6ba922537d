import Verif.Props.NodeText
import Verif.Lemmas.Written7
import Verif.Props.Validation

/-!
C88: the flags of node::to_string(), and its text read again by the lexer.
-/

namespace Csspp.Text
open Csspp.Spec Csspp.Tree Csspp.Flt Csspp.Written
open Csspp.Lex (lexAll init utf8_append utf8_ascii)
open Csspp.Asm (Stop All AllKids)

/-! ### Strings -/

theorem escapeQuote_eq (q : Nat) : ∀ s : Str, escapeQuote q s = Asm.quoted q s
  | [] => rfl
  | c :: s => by
    unfold escapeQuote Asm.quoted
    rw [escapeQuote_eq q s, List.flatMap_cons]
    by_cases h : c = q
    · rw [if_pos h, if_pos h, h]; rfl
    · rw [if_neg h, if_neg h]; rfl

theorem cstr_eq (s : Str) : cstr s = Asm.cstr s := by
  unfold cstr Asm.cstr
  congr 1
  funext c
  by_cases h : c = 0 <;> simp [h]

theorem quoted_eq (s : Str) : quoted s = Asm.outputString s := by
  unfold quoted Asm.outputString
  dsimp only
  rw [cstr_eq, escapeQuote_eq, escapeQuote_eq]
  rfl

/-- C88: without the flag, the text of a string is its characters, up to the first NUL. -/
theorem C88_plain_string (E : Env) (fl : Flags) (hq : fl.quotes = false) (d : Data) (hd : d.ty = .STRING) (kids : List Tree) :
    text E fl (.mk d kids) = .ok (d.str.takeWhile (fun c => c ≠ 0)) := by
  rw [text]
  unfold leaf
  simp only [hd, symbol, hq]
  rfl

/-- C88: so the messages of the validation scripts (C87) are as expected with this function. -/
theorem C88_scripts {E : Pipeline.Env} {env : Expr.Env} {T : Env} (hE : E.vars.expr = Valid.evaluate env)
    (hT : E.vars.truth = Valid.truth) (hS : E.comp.toString = nodeText T E.pow10) {src : Str} {l : Allowed}
    (h : Checks src l) (name : Str) (pos : Lex.Pos) :
    ∃ t p f0, ∀ f ≥ f0, Valid.validate E f src l.var name pos =
      .ok t (if name ∈ l.names then [] else [.compiler (.user .error ((name ++ l.refused).takeWhile (· ≠ 0))) p]) := by
  refine Valid.C87_script hE hT (fun pos s => ?_) h name pos
  rw [hS]
  unfold nodeText Parse.Nd.leaf Pipeline.toTree
  rw [C88_plain_string T {} rfl _ rfl]
  rfl

/-- C88: with the flag, a string (no backslash, no line terminator) is read again as the same string. -/
theorem C88_string (E : Env) (fl : Flags) (hq : fl.quotes = true) (d : Data) (hd : d.ty = .STRING) (kids : List Tree)
    (cs : List Nat) (ht : Utf8 cs d.str) (hcs : ∀ c ∈ cs, Lex.GoodChar c ∧ c ≠ 92 ∧ c ≠ 10 ∧ c ≠ 12 ∧ c ≠ 13) :
    ∃ s, text E fl (.mk d kids) = .ok s ∧
      ∃ t s', Lex.nextToken (init s) = (t, s') ∧ t.ty = .STRING ∧ t.str = d.str ∧ s'.err = [] ∧ s'.exn = none := by
  refine ⟨Asm.outputString d.str, ?_, ?_⟩
  · rw [text]
    unfold leaf
    simp only [hd, symbol, hq, quoted_eq]
    rfl
  · obtain ⟨t, s', h1, h2, h3, _, h5, h6, _⟩ := Lex.C08_string cs d.str ht hcs [] [] .nil (by intro c hc; cases hc)
      (init (Asm.outputString d.str)) rfl (by rw [List.append_nil]; rfl)
    exact ⟨t, s', h1, h2, h3, h5, h6⟩

/-- C88, a defect: a backslash is not escaped; the string `\a` is written `"\a"`, which is a line feed. -/
theorem C88_backslash (E : Env) :
    text E { quotes := true } (.leaf { ty := .STRING, str := [92, 97] }) = .ok b!"\"\\a\"" ∧
    (Lex.nextToken (init b!"\"\\a\"")).1.str = [10] := by
  refine ⟨rfl, by decide +kernel⟩

/-! ### The flags -/

/-- The flags that count are the same. -/
def Same (f g : Flags) (d : Data) : Prop :=
  (d.ty = .STRING → f.quotes = g.quotes) ∧ (d.ty = .DIVIDE ∨ d.ty = .MODULO → f.spaces = g.spaces)

theorem leaf_same (E : Env) {f g : Flags} {d : Data} (h : Same f g d) : leaf E f d = leaf E g d := by
  unfold Same at h
  unfold leaf
  cases hty : d.ty
  all_goals first
    | rfl
    | skip
  case STRING => simp only [symbol, h.1 hty]
  case DIVIDE => simp only [symbol, h.2 (.inl hty)]
  case MODULO => simp only [symbol, h.2 (.inr hty)]

mutual
theorem all_mono {P Q : Data → Prop} (h : ∀ d, P d → Q d) : (t : Tree) → All P t → All Q t
  | .mk d kids, ht => by
    unfold All at ht ⊢
    exact ⟨h d ht.1, allKids_mono h kids ht.2⟩
theorem allKids_mono {P Q : Data → Prop} (h : ∀ d, P d → Q d) : (l : List Tree) → AllKids P l → AllKids Q l
  | [], _ => by unfold AllKids; trivial
  | c :: cs, hl => by
    unfold AllKids at hl ⊢
    exact ⟨all_mono h c hl.1, allKids_mono h cs hl.2⟩
end

theorem same_quotes {f g : Flags} {d : Data} (h : Same f g d) : Same { f with quotes := true } { g with quotes := true } d :=
  ⟨fun _ => rfl, h.2⟩

mutual
theorem text_same (E : Env) : (f g : Flags) → (t : Tree) → All (Same f g) t → text E f t = text E g t
  | f, g, .mk d kids, h => by
    unfold All at h
    have hq := allKids_mono (fun d => same_quotes) kids h.2
    rw [text, text, leaf_same E h.1, textAll_same E f g kids h.2, textSep_same E f g b!"," true kids h.2,
      textArgs_same E f g true kids h.2, textAfter_same E f g .ARG b!"," kids h.2, textAfter_same E f g .DECLARATION b!";" kids h.2,
      textSep_same E _ _ b!", " true kids hq, textMap_same E _ _ true true kids hq]
theorem textAll_same (E : Env) : (f g : Flags) → (l : List Tree) → AllKids (Same f g) l → textAll E f l = textAll E g l
  | _, _, [], _ => by rw [textAll, textAll]
  | f, g, c :: cs, h => by
    unfold AllKids at h
    rw [textAll, textAll, text_same E f g c h.1, textAll_same E f g cs h.2]
theorem textSep_same (E : Env) : (f g : Flags) → (sep : Str) → (first : Bool) → (l : List Tree) → AllKids (Same f g) l →
    textSep E f sep first l = textSep E g sep first l
  | _, _, _, _, [], _ => by rw [textSep, textSep]
  | f, g, sep, first, c :: cs, h => by
    unfold AllKids at h
    rw [textSep, textSep, text_same E f g c h.1, textSep_same E f g sep false cs h.2]
theorem textAfter_same (E : Env) : (f g : Flags) → (ty : NT) → (sep : Str) → (l : List Tree) → AllKids (Same f g) l →
    textAfter E f ty sep l = textAfter E g ty sep l
  | _, _, _, _, [], _ => by rw [textAfter, textAfter]
  | f, g, ty, sep, c :: cs, h => by
    unfold AllKids at h
    rw [textAfter, textAfter, text_same E f g c h.1, textAfter_same E f g ty sep cs h.2]
theorem textArgs_same (E : Env) : (f g : Flags) → (first : Bool) → (l : List Tree) → AllKids (Same f g) l →
    textArgs E f first l = textArgs E g first l
  | _, _, _, [], _ => by rw [textArgs, textArgs]
  | f, g, first, .mk d kids :: cs, h => by
    unfold AllKids at h
    rw [textArgs, textArgs, text_same E f g (.mk d kids) h.1, textArgs_same E f g false cs h.2, textArgs_same E f g first cs h.2]
theorem textMap_same (E : Env) : (f g : Flags) → (first label : Bool) → (l : List Tree) → AllKids (Same f g) l →
    textMap E f first label l = textMap E g first label l
  | _, _, _, _, [], _ => by rw [textMap, textMap]
  | f, g, first, label, c :: cs, h => by
    unfold AllKids at h
    rw [textMap, textMap, text_same E f g c h.1, textMap_same E f g false false cs h.2, textMap_same E f g first true cs h.2]
end

/-- C88: the flag for the quotes only changes the text of a tree with a string. -/
theorem C88_quotes (E : Env) (q q' sp : Bool) (t : Tree) (h : All (fun d => d.ty ≠ .STRING) t) :
    text E ⟨q, sp⟩ t = text E ⟨q', sp⟩ t :=
  text_same E _ _ t (all_mono (fun _ hd => ⟨fun e => absurd e hd, fun _ => rfl⟩) t h)

/-- C88: the flag for the spaces only changes the text of a tree with a division or a modulo. -/
theorem C88_spaces (E : Env) (q sp sp' : Bool) (t : Tree) (h : All (fun d => d.ty ≠ .DIVIDE ∧ d.ty ≠ .MODULO) t) :
    text E ⟨q, sp⟩ t = text E ⟨q, sp'⟩ t :=
  text_same E _ _ t (all_mono (fun _ hd => ⟨fun _ => rfl, fun e => (e.elim hd.1 hd.2).elim⟩) t h)

/-! ### Operators -/

/-- C88: the text of an operator is read as this operator, without a message. -/
theorem C88_operator (E : Env) (fl : Flags) (ty : NT) (hty : (symbol ty).isSome = true ∨ ty = .DIVIDE ∧ fl.spaces = false ∨ ty = .MODULO ∧ fl.spaces = false)
    (h0 : ty ≠ .NULL_TOKEN) :
    ∃ s, text E fl (.leaf { ty := ty }) = .ok s ∧ (lexAll 5 (init s)).1.map (fun t => t.ty) = [ty] ∧ (lexAll 5 (init s)).2.err = [] := by
  obtain ⟨q, sp⟩ := fl
  unfold Tree.leaf
  rw [text]
  unfold leaf
  rcases hty with h | ⟨rfl, h⟩ | ⟨rfl, h⟩
  · cases ty
    all_goals first
      | exact absurd h (by decide)
      | exact absurd rfl h0
      | exact ⟨_, rfl, by decide +kernel, by decide +kernel⟩
  · have h : sp = false := h
    subst h
    exact ⟨b!"/", rfl, by decide +kernel, by decide +kernel⟩
  · have h : sp = false := h
    subst h
    exact ⟨b!"%", rfl, by decide +kernel, by decide +kernel⟩

/-! ### Reading the tokens again -/

/-- The text is made of these pieces. -/
def Made (o : Out) (ps : List Piece) : Prop :=
  ∃ s bits, o = .ok s ∧ Fits .compressed bits ps ∧ Utf8 (chars bits) s

theorem Made.nil : Made (.ok []) [] := ⟨[], [], rfl, .nil, .nil⟩

theorem Made.cat {a b : Out} {x y : List Piece} (ha : Made a x) (hb : Made b y) : Made (a ⊕ b) (x ++ y) := by
  obtain ⟨s, bs, rfl, h1, h2⟩ := ha
  obtain ⟨s', bs', rfl, h1', h2'⟩ := hb
  exact ⟨s ++ s', bs ++ bs', rfl, h1.append h1', by rw [chars_append]; exact utf8_append h2 h2'⟩

theorem Made.word {s : Str} {cs : List Nat} {w : Word} (h : Spells cs w) (hu : Utf8 cs s) : Made (put s) [.word w] :=
  ⟨s, [.word cs w], rfl, .word h .nil, by simpa [chars, Bit.chars] using hu⟩

theorem Made.mark {ty : NT} (h : spell ty ≠ []) : Made (put (spell ty)) [Spec.mark ty] :=
  Made.word (mark_spells h) (utf8_ascii (fun c hc => (spell_ascii ty c hc).2))

theorem Made.eq {o : Out} {x y : List Piece} (h : Made o x) (e : x = y) : Made o y := e ▸ h

theorem Made.number {o : Option Str} (h : IsNumber o) {unit : Str} (hu : unit = b!"%" ∨ Unit unit) :
    ∃ t, o = some t ∧ Made (put (t ++ unit)) (numberToken o unit) := by
  obtain ⟨t, rfl, n, hn, rfl⟩ := h
  refine ⟨n.text, rfl, ?_⟩
  unfold numberToken
  dsimp only
  rw [numeral_text hn]
  exact Made.word (numeral_spells hn hu) (utf8_append (utf8_ascii (numeral_ascii hn)) (utf8_ascii (unit_ascii hu)))

theorem put_cat (a b : Str) : put (a ++ b) = (put a ⊕ put b) := rfl

theorem no_plus {d : Data} (h : NoPlus d) : plus d = [] := by
  unfold plus
  rw [if_neg]
  rintro ⟨a, b⟩
  have := h a
  omega

theorem Made.color {c : Color.Color} {col : Nat} (hc : Color.getColor c = some col)
    (h : col / 16777216 % 256 = 255 ∨ col / 16777216 % 256 = 0 ∨ HasNumeral 2 (convert f32 f64 c.alpha)) :
    ∃ t, Color.toString c = some t ∧ Made (put t) (colorItems c) := by
  obtain ⟨t, ht, calls, h1, h2⟩ := color_gives .compressed hc h
  refine ⟨t, ht, ?_⟩
  injection h1 with h1
  subst h1
  obtain ⟨bits, h3, h4⟩ := h2 false
  refine ⟨t, bits, rfl, h3, ?_⟩
  by_cases h0 : t = []
  · simpa [Asm.Mode.from, Asm.Mode.step, Asm.Mode.call, Asm.W.string, Asm.W.put, Asm.W.set, h0] using h4
  · simpa [Asm.Mode.from, Asm.Mode.step, Asm.Mode.call, Asm.W.string, Asm.W.put, Asm.W.set, h0] using h4

theorem leaf_made (E : Env) (d : Data) (h : OneToken E.stream E.precision d) :
    ∃ o, leaf E { quotes := true } d = some o ∧ Made o (oneToken E.stream E.precision d) := by
  have op : ∀ ty, d.ty = ty → spell ty ≠ [] → leaf E { quotes := true } d = some (put (spell ty)) →
      oneToken E.stream E.precision d = [Spec.mark ty] →
      ∃ o, leaf E { quotes := true } d = some o ∧ Made o (oneToken E.stream E.precision d) := by
    intro ty _ h2 h1 h3
    exact ⟨_, h1, by rw [h3]; exact Made.mark h2⟩
  unfold OneToken at h
  cases hty : d.ty
  all_goals
    rw [hty] at h
    dsimp only at h
    first
      | exact absurd h (by decide)
      | exact op _ hty (by decide) (by unfold leaf; rw [hty]; rfl) (by unfold oneToken; rw [hty])
      | skip
  case IDENTIFIER =>
    obtain ⟨cs, h1, h2⟩ := h
    exact ⟨put d.str, by unfold leaf; rw [hty]; rfl, by unfold oneToken; rw [hty]; exact Made.word (plain_spells h1 h2) h1⟩
  case AT_KEYWORD =>
    obtain ⟨cs, h1, h2⟩ := h
    exact ⟨put (64 :: d.str), by unfold leaf; rw [hty]; rfl, by
      unfold oneToken; rw [hty]
      exact Made.word (keyword_spells h1 h2) (utf8_append (a := [64]) (x := [64]) (utf8_ascii (by decide)) h1)⟩
  case HASH =>
    obtain ⟨cs, h1, h2, h3⟩ := h
    exact ⟨put (35 :: d.str), by unfold leaf; rw [hty]; rfl, by
      unfold oneToken; rw [hty]
      exact Made.word (hash_spells h1 h2 h3) (utf8_append (a := [35]) (x := [35]) (utf8_ascii (by decide)) h1)⟩
  case STRING =>
    obtain ⟨cs, h1, h2⟩ := h
    obtain ⟨q, h3, h4⟩ := outputString_chars h1 (fun c hm => (h2 c hm).1.1.2.2)
    exact ⟨put (quoted d.str), by unfold leaf; rw [hty]; rfl, by
      unfold oneToken; rw [hty, quoted_eq]; exact Made.word (string_spells h3 h1 h2) h4⟩
  case URL =>
    obtain ⟨cs, h1, h2, h3, h4⟩ := h
    have hs := urlPlain_spells (b1 := []) (b2 := []) h1 h2 h3 h4 (by simp) (by simp)
    refine ⟨put (b!"url(" ++ d.str ++ b!")"), by unfold leaf; rw [hty]; rfl, ?_⟩
    unfold oneToken; rw [hty]
    exact Made.word (cs := b!"url(" ++ cs ++ b!")") (by simpa using hs)
      (utf8_append (utf8_append (utf8_ascii (s := b!"url(") (by decide)) h1) (utf8_ascii (s := b!")") (by decide)))
  case BOOLEAN =>
    refine ⟨put (if d.bool then b!"true" else b!"false"), by unfold leaf; rw [hty]; rfl, ?_⟩
    unfold oneToken; rw [hty]
    have hp : ∀ t : Str, t ≠ [] → (∀ c ∈ t, 97 ≤ c ∧ c ≤ 122) → Made (put t) [Spec.name t] := by
      intro t h1 h2
      obtain ⟨h3, h4⟩ := letters_plain h1 h2
      exact Made.word (plain_spells h4 h3) h4
    cases d.bool
    · exact hp _ (by decide) (by decide)
    · exact hp _ (by decide) (by decide)
  case NULL_TOKEN =>
    exact ⟨put [], by unfold leaf; rw [hty]; rfl, by unfold oneToken; rw [hty]; exact Made.nil⟩
  case INTEGER =>
    obtain ⟨h1, h2, h3, h4⟩ := h
    exact ⟨put (plus d ++ intDigits d.int ++ d.str), by unfold leaf; rw [hty]; rfl, by
      unfold oneToken; rw [hty, no_plus h4, List.nil_append]
      exact Made.word (integer_spells ⟨h1, h2⟩ h3)
        (utf8_append (utf8_ascii (intDigits_ascii _)) (utf8_ascii (unit_ascii (.inr h3))))⟩
  case DECIMAL_NUMBER =>
    obtain ⟨h1, h2, h3⟩ := h
    obtain ⟨t, h4, h5⟩ := Made.number h1 (.inr h2)
    injection h4 with h4
    exact ⟨put (plus d ++ E.stream d.dec ++ d.str), by unfold leaf; rw [hty]; rfl, by
      unfold oneToken; rw [hty, no_plus h3, List.nil_append]
      rw [← h4] at h5
      exact h5⟩
  case PERCENT =>
    obtain ⟨h1, h3⟩ := h
    obtain ⟨t, h4, h5⟩ := Made.number h1 (unit := b!"%") (.inl rfl)
    refine ⟨put (plus d) ⊕ decimal E (mul f64 d.dec (ofInt f64 100)) ⊕ put b!"%", by unfold leaf; rw [hty]; rfl, ?_⟩
    unfold oneToken decimal
    rw [hty, no_plus h3, show mul f64 d.dec (ofInt f64 100) = times d.dec 100 from rfl]
    dsimp only
    generalize Color.decText E.precision (times d.dec 100) false = o at h4 h5 ⊢
    subst h4
    exact h5
  case FONT_METRICS =>
    obtain ⟨h1, h2, h3, h4⟩ := h
    obtain ⟨t, e1, m1⟩ := Made.number h1 h3
    obtain ⟨t', e2, m2⟩ := Made.number h2 h4
    refine ⟨fontMetrics E d, by unfold leaf; rw [hty]; rfl, ?_⟩
    have e : fontMetrics E d = (put (t ++ unit1 d) ⊕ (put b!"/" ⊕ put (t' ++ unit2 d))) := by
      unfold fontMetrics decimal
      dsimp only
      rw [show Asm.scaled d.dec (Node.cutSlash d.str).1 = times d.dec (percentOr1 (unit1 d)) from rfl,
        show Asm.scaled d.height ((Node.cutSlash d.str).2.getD []) = times d.height (percentOr1 (unit2 d)) from rfl, e1, e2]
      show Except.ok _ = Except.ok _
      simp [unit1, unit2]
    unfold oneToken
    rw [hty, e]
    dsimp only
    generalize numberToken (Color.decText E.precision (times d.dec (percentOr1 (unit1 d))) false) (unit1 d) = a at m1 ⊢
    generalize numberToken (Color.decText E.precision (times d.height (percentOr1 (unit2 d))) false) (unit2 d) = b at m2 ⊢
    exact m1.cat (Made.cat (Made.mark (ty := .DIVIDE) (by decide)) m2)
  case COLOR =>
    obtain ⟨col, h1, h2⟩ := h
    obtain ⟨t, h3, h4⟩ := Made.color h1 h2
    refine ⟨put t, by unfold leaf; rw [hty]; dsimp only [symbol]; rw [h3]; rfl, ?_⟩
    unfold oneToken
    rw [hty]
    exact h4
  case UNICODE_RANGE =>
    obtain ⟨a, b, hab, hb, h0, hi⟩ := h
    obtain ⟨h1, h2, h3⟩ := Lex.ofRange_packed (n := a) (m := b) (by omega) hab (by omega)
    obtain ⟨t, h4, h5⟩ := URange.toStr_written hab (by omega) h2 h3
    have e : unicodeRange d.int = put (b!"U+" ++ t) := by
      unfold unicodeRange
      have : toU64 d.int = 4294967296 * b + a := by unfold toU64; omega
      rw [this, h1]
      dsimp only
      rw [h4]
    refine ⟨unicodeRange d.int, by unfold leaf; rw [hty]; rfl, ?_⟩
    have e' : d.int = ((4294967296 * b + a : Nat) : Int) := by omega
    unfold oneToken
    rw [hty, e, e']
    exact Made.word (range_spells hab hb h0 h5) (utf8_append (utf8_ascii (s := b!"U+") (by decide)) (range_ascii hb hab h5))
  case WHITESPACE =>
    refine ⟨put [32], by unfold leaf; rw [hty]; rfl, ?_⟩
    unfold oneToken
    rw [hty]
    exact ⟨[32], [.gap [32]], rfl, .blank .nil, by
      have : Utf8 [32] [32] := utf8_ascii (by decide)
      simpa [chars, Bit.chars] using this⟩

/-! ### The children -/

section
variable (E : Env)

/-- The children have their tokens. -/
def MadeKids (l : List Tree) : Prop :=
  ∀ c ∈ l, Made (text E { quotes := true } c) (pieces E.stream E.precision c)

variable {E}

theorem MadeKids.head {c : Tree} {cs : List Tree} (h : MadeKids E (c :: cs)) :
    Made (text E { quotes := true } c) (pieces E.stream E.precision c) := h c (List.mem_cons_self ..)
theorem MadeKids.tail {c : Tree} {cs : List Tree} (h : MadeKids E (c :: cs)) : MadeKids E cs :=
  fun x hx => h x (List.mem_cons_of_mem _ hx)

theorem made_blank : Made (put [32]) [.blank] :=
  ⟨[32], [.gap [32]], rfl, .blank .nil, by
    have : Utf8 [32] [32] := utf8_ascii (by decide)
    simpa [chars, Bit.chars] using this⟩

theorem all_made : {l : List Tree} → MadeKids E l →
    Made (textAll E { quotes := true } l) ((piecesAll E.stream E.precision l).flatMap (fun k => k.2.2))
  | [], _ => by rw [textAll]; unfold piecesAll; exact .nil
  | c :: cs, h => by
    rw [textAll]; unfold piecesAll
    exact h.head.cat (all_made h.tail)

theorem sep_made {sep : Str} {ps : List Piece} (hs : Made (put sep) ps) : {l : List Tree} → MadeKids E l →
    Made (textSep E { quotes := true } sep false l) ((piecesAll E.stream E.precision l).flatMap (fun k => ps ++ k.2.2))
  | [], _ => by rw [textSep]; unfold piecesAll; exact .nil
  | c :: cs, h => by
    rw [textSep]; unfold piecesAll
    rw [List.flatMap_cons, List.append_assoc]
    exact hs.cat (h.head.cat (sep_made hs h.tail))

theorem joinedBy_eq (ps : List Piece) : (k : NT × Int × List Piece) → (l : List (NT × Int × List Piece)) →
    joinedBy ps (k :: l) = k.2.2 ++ l.flatMap (fun k => ps ++ k.2.2)
  | k, [] => by simp [joinedBy]
  | k, k' :: l => by rw [joinedBy, joinedBy_eq ps k' l, List.flatMap_cons, List.append_assoc]; simp

theorem joined_made {sep : Str} {ps : List Piece} (hs : Made (put sep) ps) : {l : List Tree} → MadeKids E l →
    Made (textSep E { quotes := true } sep true l) (joinedBy ps (piecesAll E.stream E.precision l))
  | [], _ => by rw [textSep]; unfold piecesAll; exact .nil
  | c :: cs, h => by
    rw [textSep]; unfold piecesAll
    rw [joinedBy_eq]
    exact (Made.nil.cat (h.head.cat (sep_made hs h.tail)))

theorem ended_made {sep : Str} {p : Piece} (ty : NT) (hs : Made (put sep) [p]) : {l : List Tree} → MadeKids E l →
    Made (textAfter E { quotes := true } ty sep l) (endedBy ty p (piecesAll E.stream E.precision l))
  | [], _ => by rw [textAfter]; unfold piecesAll; exact .nil
  | [c], h => by
    rw [textAfter, textAfter]; unfold piecesAll piecesAll
    rw [if_neg (by simp)]
    refine (h.head.cat (Made.nil.cat Made.nil)).eq ?_
    rw [endedBy]
    simp
  | c :: c' :: cs, h => by
    have ih := ended_made ty hs h.tail
    rw [textAfter]
    have e : endedBy ty p (piecesAll E.stream E.precision (c :: c' :: cs)) =
        pieces E.stream E.precision c ++ ((if c.ty = ty then [p] else []) ++
          endedBy ty p (piecesAll E.stream E.precision (c' :: cs))) := by
      rw [piecesAll, piecesAll, endedBy]
      simp
    rw [e]
    refine h.head.cat (Made.cat ?_ ih)
    by_cases ht : c.ty = ty
    · rw [if_pos ⟨ht, by simp⟩, if_pos ht]; exact hs
    · rw [if_neg (fun h => ht h.1), if_neg ht]; exact .nil

theorem separator_made {i : Int} (h : IsSeparator i) : Made (separator i) [Spec.mark (if i = 19 then .DIVIDE else .COMMA)] := by
  unfold separator
  rcases h with rfl | rfl | rfl
  · exact Made.mark (ty := .COMMA) (by decide)
  · exact Made.mark (ty := .COMMA) (by decide)
  · exact Made.mark (ty := .DIVIDE) (by decide)

theorem args_after : {l : List Tree} → MadeKids E l → (∀ x ∈ l, x.ty = .ARG → IsSeparator x.data.int) →
    Made (textArgs E { quotes := true } false l) ((piecesAll E.stream E.precision l).flatMap
      (fun k => (if k.1 = .ARG then [Spec.mark (if k.2.1 = 19 then .DIVIDE else .COMMA)] else []) ++ k.2.2))
  | [], _, _ => by rw [textArgs]; unfold piecesAll; exact .nil
  | .mk d kids :: cs, h, hs => by
    rw [textArgs]; unfold piecesAll
    have ih := args_after h.tail (fun x hx => hs x (List.mem_cons_of_mem _ hx))
    rw [List.flatMap_cons, List.append_assoc]
    by_cases ht : d.ty = .ARG
    · rw [if_pos ht, if_neg (by decide), if_pos (show (Tree.mk d kids).ty = .ARG from ht)]
      exact (separator_made (hs _ (List.mem_cons_self ..) ht)).cat (h.head.cat ih)
    · rw [if_neg ht, if_neg (show ¬ (Tree.mk d kids).ty = .ARG from ht)]
      exact h.head.cat ih

theorem args_made : {l : List Tree} → MadeKids E l → Separated l →
    Made (textArgs E { quotes := true } true l) (argTokens (piecesAll E.stream E.precision l))
  | [], _, _ => by rw [textArgs]; unfold piecesAll; exact .nil
  | .mk d kids :: cs, h, hs => by
    rw [textArgs]; unfold piecesAll
    unfold Separated at hs
    rw [argTokens]
    by_cases ht : d.ty = .ARG
    · rw [if_pos ht, if_pos rfl, if_pos (show (Tree.mk d kids).ty = .ARG from ht)]
      exact Made.nil.cat (h.head.cat (args_after h.tail (hs.1 ht)))
    · rw [if_neg ht, if_neg (show ¬ (Tree.mk d kids).ty = .ARG from ht)]
      exact h.head.cat (args_made h.tail hs.2)

theorem keyed_made : {l : List Tree} → MadeKids E l → (first : Bool) →
    Made (textMap E { quotes := true } first true l)
      ((if first = true ∨ l = [] then [] else [Spec.mark .COMMA, .blank]) ++ keyed (piecesAll E.stream E.precision l))
  | [], _, _ => by rw [textMap]; unfold piecesAll; rw [if_pos (.inr rfl)]; exact .nil
  | c :: cs, h, first => by
    have s1 : Made (put (if first then [] else b!", ")) (if first = true ∨ c :: cs = [] then [] else [Spec.mark .COMMA, .blank]) := by
      cases first
      · rw [if_neg (by simp), if_neg (by simp)]
        exact Made.cat (Made.mark (ty := .COMMA) (by decide)) made_blank
      · rw [if_pos rfl, if_pos (.inl rfl)]; exact .nil
    have s2 : Made (put b!": ") [Spec.mark .COLON, .blank] := Made.cat (Made.mark (ty := .COLON) (by decide)) made_blank
    rw [textMap, if_pos rfl]
    refine s1.cat ?_
    match cs, h with
    | [], h =>
      rw [textMap]
      refine (h.head.cat (s2.cat .nil)).eq ?_
      rw [piecesAll, piecesAll, keyed, List.append_nil]
    | v :: cs, h =>
      rw [textMap, if_neg (by decide)]
      have ih := keyed_made h.tail.tail false
      refine (h.head.cat (s2.cat (h.tail.head.cat ih))).eq ?_
      cases cs with
      | nil => simp [piecesAll, keyed]
      | cons x xs => simp [piecesAll, keyed]

theorem frame_made {x : Fp} (h : le x (ofInt f64 0) = true ∨ le (ofInt f64 1) x = true ∨
    IsNumber (Color.decText E.precision (times x 100) false)) : Made (frame E x) (frameToken E.precision x) := by
  have hp : ∀ t : Str, t ≠ [] → (∀ c ∈ t, 97 ≤ c ∧ c ≤ 122) → Made (put t) [Spec.name t] := by
    intro t h1 h2
    obtain ⟨h3, h4⟩ := letters_plain h1 h2
    exact Made.word (plain_spells h4 h3) h4
  unfold frame frameToken
  by_cases h1 : le x (ofInt f64 0) = true
  · rw [if_pos h1, if_pos h1]; exact hp _ (by decide) (by decide)
  · rw [if_neg h1, if_neg h1]
    by_cases h2 : le (ofInt f64 1) x = true
    · rw [if_pos h2, if_pos h2]; exact hp _ (by decide) (by decide)
    · rw [if_neg h2, if_neg h2]
      obtain ⟨t, h4, h5⟩ := Made.number ((h.resolve_left h1).resolve_left h2) (unit := b!"%") (.inl rfl)
      unfold decimal
      rw [show mul f64 x (ofInt f64 100) = times x 100 from rfl]
      generalize Color.decText E.precision (times x 100) false = o at h4 h5 ⊢
      subst h4
      exact h5

end

theorem leaf_kids {E : Env} {fl : Flags} {d : Data} (h : d.ty ∈ withKids) : leaf E fl d = none := by
  unfold withKids at h
  simp only [List.mem_cons, List.not_mem_nil, or_false] at h
  unfold leaf
  rcases h with h | h | h | h | h | h | h | h | h | h | h | h <;> rw [h] <;> rfl

theorem node_made (E : Env) (d : Data) (kids : List Tree) (hk : d.ty ∈ withKids) (hd : Sure E.precision d)
    (hs : d.ty = .COMPONENT_VALUE → Separated kids) (h : MadeKids E kids) :
    Made (text E { quotes := true } (.mk d kids)) (enclosed E.precision d (piecesAll E.stream E.precision kids)) := by
  rw [text, leaf_kids hk]
  dsimp only
  have c1 : Made (put b!")") [Spec.mark .CLOSE_PARENTHESIS] := Made.mark (ty := .CLOSE_PARENTHESIS) (by decide)
  have c2 : Made (put b!"}") [Spec.mark .CLOSE_CURLYBRACKET] := Made.mark (ty := .CLOSE_CURLYBRACKET) (by decide)
  have c3 : Made (put b!"]") [Spec.mark .CLOSE_SQUAREBRACKET] := Made.mark (ty := .CLOSE_SQUAREBRACKET) (by decide)
  have o1 : Made (put b!"(") [Spec.mark .OPEN_PARENTHESIS] := Made.mark (ty := .OPEN_PARENTHESIS) (by decide)
  have o2 : Made (put b!"{") [Spec.mark .OPEN_CURLYBRACKET] := Made.mark (ty := .OPEN_CURLYBRACKET) (by decide)
  have o3 : Made (put b!"[") [Spec.mark .OPEN_SQUAREBRACKET] := Made.mark (ty := .OPEN_SQUAREBRACKET) (by decide)
  have k1 : Made (put b!",") [Spec.mark .COMMA] := Made.mark (ty := .COMMA) (by decide)
  have k2 : Made (put b!";") [Spec.mark .SEMICOLON] := Made.mark (ty := .SEMICOLON) (by decide)
  have k3 : Made (put b!", ") [Spec.mark .COMMA, .blank] := k1.cat made_blank
  unfold Sure at hd
  unfold enclosed
  unfold withKids at hk
  simp only [List.mem_cons, List.not_mem_nil, or_false] at hk
  rcases hk with hk | hk | hk | hk | hk | hk | hk | hk | hk | hk | hk | hk <;> rw [hk] at hd ⊢ <;> dsimp only at hd ⊢
  · exact absurd hd (by decide)
  · obtain ⟨⟨cs, hu, hp, hl⟩, hurl⟩ := hd
    have o1 : Made (put (d.str ++ b!"(")) [.word { ty := .FUNCTION, str := d.str }] :=
      Made.word (function_spells hu hp hl hurl) (utf8_append hu (utf8_ascii (s := b!"(") (by decide)))
    exact o1.cat ((joined_made k1 h).cat c1)
  · exact o2.cat ((all_made h).cat c2)
  · exact o1.cat ((all_made h).cat c1)
  · exact o3.cat ((all_made h).cat c3)
  · exact args_made h (hs hk)
  · exact all_made h
  · refine Made.cat ?_ (ended_made .ARG k1 h)
    by_cases h0 : d.str = []
    · rw [if_pos h0, if_pos h0]; exact .nil
    · rw [if_neg h0, if_neg h0]
      obtain ⟨cs, h1, h2⟩ := hd.resolve_left h0
      have m1 : Made (put d.str) [Spec.name d.str] := Made.word (plain_spells h1 h2) h1
      exact m1.cat (Made.cat (Made.mark (ty := .COLON) (by decide)) made_blank)
  · exact ended_made .DECLARATION k2 h
  · exact o1.cat ((joined_made k3 h).cat c1)
  · exact o1.cat (Made.cat (by simpa using keyed_made h true) c1)
  · exact (frame_made hd).cat (o2.cat ((all_made h).cat c2))

mutual
theorem text_made (E : Env) : (t : Tree) → Tokenized E.stream E.precision t →
    Made (text E { quotes := true } t) (pieces E.stream E.precision t)
  | .mk d kids, h => by
    unfold Tokenized at h
    unfold pieces
    by_cases hk : d.ty ∈ withKids
    · rw [if_pos hk] at h ⊢
      exact node_made E d kids hk h.1 h.2.1 (textKids_made E kids h.2.2)
    · rw [if_neg hk] at h ⊢
      obtain ⟨o, h1, h2⟩ := leaf_made E d h
      rw [text, h1]
      exact h2
theorem textKids_made (E : Env) : (l : List Tree) → TokenizedAll E.stream E.precision l → MadeKids E l
  | [], _ => by intro c hc; cases hc
  | c :: cs, h => by
    unfold TokenizedAll at h
    intro x hx
    rcases List.mem_cons.1 hx with e | hx
    · rw [e]; exact text_made E c h.1
    · exact textKids_made E cs h.2 x hx
end

theorem fits_erase {bits : List Written.Bit} {ps : List Piece} (h : Fits .compressed bits ps) : erase bits = settle false ps :=
  fits_compressed h

/-- C88: a tree made of tokens (names, numbers, strings, colors, operators...) and of nodes which write their children (brackets,
functions, arguments, declarations, lists, arrays, maps, frames), where no token runs into the next one, has a text with quotes
which is read again as the same tokens, without a message. -/
theorem C88_reads (E : Env) (t : Tree) (h : Tokenized E.stream E.precision t)
    (ha : apart (settle false (pieces E.stream E.precision t)) = true) :
    ∃ s, text E { quotes := true } t = .ok s ∧ ∀ f, s.length < f →
      (lexAll f (init s)).1.map Word.of = merged (settle false (pieces E.stream E.precision t)) ∧
      (lexAll f (init s)).2.err = [] ∧ (lexAll f (init s)).2.exn = none ∧ (lexAll f (init s)).2.ub = false := by
  obtain ⟨s, bits, h1, h2, h3⟩ := text_made E t h
  refine ⟨s, h1, fun f hf => ?_⟩
  rw [← fits_erase h2]
  exact read_back h2 ha h3 hf

/-- C88: the texts one after the other, as for the parameters of a function. -/
theorem C88_reads_all (E : Env) (l : List Tree) (h : TokenizedAll E.stream E.precision l)
    (ha : apart (settle false ((piecesAll E.stream E.precision l).flatMap (fun k => k.2.2))) = true) :
    ∃ s, textAll E { quotes := true } l = .ok s ∧ ∀ f, s.length < f →
      (lexAll f (init s)).1.map Word.of = merged (settle false ((piecesAll E.stream E.precision l).flatMap (fun k => k.2.2))) ∧
      (lexAll f (init s)).2.err = [] ∧ (lexAll f (init s)).2.exn = none ∧ (lexAll f (init s)).2.ub = false := by
  obtain ⟨s, bits, h1, h2, h3⟩ := all_made (textKids_made E l h)
  refine ⟨s, h1, fun f hf => ?_⟩
  rw [← fits_erase h2]
  exact read_back h2 ha h3 hf

/-- C88: the sign: a number which was written with one gets a `+` unless its integer is negative (the integer of a decimal
number or of a percentage is not set by the lexer: `-1.5` is written `+-1.5` when the flag is set). -/
theorem C88_plus (E : Env) (fl : Flags) (d : Data) (kids : List Tree) (hd : d.ty ∈ [.INTEGER, .DECIMAL_NUMBER, .PERCENT])
    (hb : d.bool = true) :
    text E fl (.mk d kids) = (put (if d.int < 0 then [] else [43]) ⊕ text E fl (.mk { d with bool := false } kids)) := by
  have e1 : plus d = if d.int < 0 then [] else [43] := by
    unfold plus
    by_cases h : d.int < 0
    · rw [if_neg (fun a => by omega), if_pos h]
    · rw [if_pos ⟨hb, by omega⟩, if_neg h]
  have e2 : plus { d with bool := false } = [] := by unfold plus; rw [if_neg]; simp
  rw [text, text]
  unfold leaf
  dsimp only
  rw [e1, e2]
  simp only [List.mem_cons, List.not_mem_nil, or_false] at hd
  rcases hd with hd | hd | hd <;> simp only [hd, symbol]
  · show Except.ok _ = Except.ok _; simp
  · show Except.ok _ = Except.ok _; simp
  · cases decimal E (mul f64 d.dec (ofInt f64 100)) with
    | error e => rfl
    | ok x => show Except.ok _ = Except.ok _; simp

/-! ### Examples -/

/-- `@m a[b="c d"]/f(1px,#e)` `x: (k: true, y: (2, 3));z: 1,2 from{!}` in a list. -/
def sample : Tree := .mk { ty := .LIST } [
  .leaf { ty := .AT_KEYWORD, str := b!"m" }, .leaf { ty := .WHITESPACE },
  .mk { ty := .COMPONENT_VALUE } [
    .mk { ty := .ARG } [.leaf { ty := .IDENTIFIER, str := b!"a" },
      .mk { ty := .OPEN_SQUAREBRACKET } [.leaf { ty := .IDENTIFIER, str := b!"b" }, .leaf { ty := .EQUAL },
        .leaf { ty := .STRING, str := b!"c d" }]],
    .mk { ty := .ARG, int := 19 } [.mk { ty := .FUNCTION, str := b!"f" } [
      .mk { ty := .ARG } [.leaf { ty := .INTEGER, int := 1, str := b!"px" }], .mk { ty := .ARG } [.leaf { ty := .HASH, str := b!"e" }]]]],
  .mk { ty := .DECLARATION, str := b!"x" } [.mk { ty := .MAP } [
    .leaf { ty := .IDENTIFIER, str := b!"k" }, .leaf { ty := .BOOLEAN, bool := true },
    .leaf { ty := .IDENTIFIER, str := b!"y" },
    .mk { ty := .ARRAY } [.leaf { ty := .INTEGER, int := 2 }, .leaf { ty := .INTEGER, int := 3 }]]],
  .mk { ty := .DECLARATION, str := b!"z" } [.mk { ty := .ARG } [.leaf { ty := .INTEGER, int := 1 }],
    .mk { ty := .ARG } [.leaf { ty := .INTEGER, int := 2 }]],
  .mk { ty := .FRAME, dec := ofInt f64 0 } [.leaf { ty := .EXCLAMATION }]]

example (E : Env) : text E { quotes := true } sample =
    .ok b!"@m a[b=\"c d\"]/f(1px,#e)x: (k: true, y: (2, 3));z: 1,2;from{!}" := by
  have : le (ofInt f64 0) (ofInt f64 0) = true := by decide +kernel
  simp [sample, Tree.leaf, text, textAll, textSep, textAfter, textArgs, textMap, leaf, symbol, cat, put, separator, frame, this,
    quoted, cstr, escapeQuote, plus, intDigits, Tree.ty, Tree.data]
  decide
example (w : Fp → Str) (p : Nat) : apart (settle false (pieces w p sample)) = true := by
  have : le (ofInt f64 0) (ofInt f64 0) = true := by decide +kernel
  simp [sample, Tree.leaf, pieces, piecesAll, enclosed, withKids, joinedBy, keyed, endedBy, argTokens, oneToken, frameToken, this,
    Tree.ty, Tree.data, settle, apart, mark, integer, name, closing, Glued, Word.wordy, Word.numeric]
example (w : Fp → Str) (p : Nat) : Tokenized w p sample := by
  have n : ∀ c, 97 ≤ c → c ≤ 122 → IsPlainName [c] := fun c h1 h2 =>
    ⟨[c], (letters_plain (by simp) (by simp; omega)).2, (letters_plain (by simp) (by simp; omega)).1⟩
  have u : ∀ s : Str, (∀ c ∈ s, c < 128) → Utf8 s s := fun s h => utf8_ascii h
  have z : le (ofInt f64 0) (ofInt f64 0) = true := by decide +kernel
  have hs : ∃ cs, Utf8 cs b!"c d" ∧ ∀ c ∈ cs, Fair c ∧ c ≠ 10 ∧ c ≠ 12 ∧ c ≠ 13 ∧ c ≠ 92 := by
    refine ⟨b!"c d", u _ (by decide), ?_⟩
    intro c hc
    simp only [List.mem_cons, List.not_mem_nil, or_false] at hc
    rcases hc with rfl | rfl | rfl <;> (unfold Fair Valid Scalar Nonchar; omega)
  have he : ∃ cs, Utf8 cs b!"e" ∧ cs ≠ [] ∧ ∀ c ∈ cs, NameChar c ∧ Fair c := by
    refine ⟨b!"e", u _ (by decide), by decide, ?_⟩
    intro c hc
    simp only [List.mem_cons, List.not_mem_nil, or_false] at hc
    subst hc
    exact ⟨by unfold NameChar VarChar Letter; omega, by unfold Fair Valid Scalar Nonchar; omega⟩
  have hf : (∃ cs, Utf8 cs b!"f" ∧ PlainName cs ∧ ∀ c ∈ cs, lowerByte c = c) ∧ b!"f" ≠ b!"url" :=
    ⟨⟨b!"f", u _ (by decide), (letters_plain (by simp) (by decide)).1, by decide⟩, by decide⟩
  have u0 : Spec.Unit [] := ⟨by simp, by simp⟩
  have u1 : Spec.Unit b!"px" := ⟨by decide, by decide⟩
  simp [sample, Tree.leaf, TokenizedAll, Tokenized, OneToken, Sure, withKids, Separated, isOperator, NoPlus, IsSeparator, z,
    Tree.ty, Tree.data, hs, he, hf, u0, u1, n]

/-- `a <!--` has no text. -/
example (E : Env) : Unwritable (.mk { ty := .LIST } [.leaf { ty := .IDENTIFIER, str := b!"a" }, .leaf { ty := .CDO }]) ∧
    text E {} (.mk { ty := .LIST } [.leaf { ty := .IDENTIFIER, str := b!"a" }, .leaf { ty := .CDO }]) = .error .throws :=
  ⟨.child (c := .leaf { ty := .CDO }) (by decide) (by simp) (.type (by decide)), rfl⟩

end Csspp.Text
