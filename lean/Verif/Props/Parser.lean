import Verif.Lemmas.ParserEntry
import Verif.Props.LexTokens

/-!
C36, C37 and C38: the parser returns on every list of tokens, does not invent, duplicate or reorder
tokens, and does not lose any without a message.
-/

namespace Csspp.Parse
open Csspp.Lex (Tok Pos)

/-- component_value() called on a `!` or on a closing bracket gives that token alone: what follows
is about the other cases. -/
def Entry.fits (e : Entry) (s : St) : Prop :=
  e = .componentValue → s.last.ty ≠ .EXCLAMATION ∧ isClose s.last.ty = false

theorem run_ok (e : Entry) (s : St) (hp : AllPlain s) :
    Ok (e.run (fuelFor s)) s (fun v s' => (e.fits s → Tr s [] [v] s') ∧
      (e = .stylesheet ∨ e = .ruleList ∨ e = .declarationList → Ended s s')) := by
  cases e with
  | stylesheet =>
    show Ok (stylesheet (fuelFor s)) s _
    unfold stylesheet
    refine Ok.last ?_
    exact (stylesheetLoop_ok (fuelFor s) s (newNode .LIST s.last) hp (by unfold fuelFor; omega) rfl).mono
      (fun v s' h => ⟨fun _ => h.1.sub (Sub.group (.inl h.2.1)), fun _ => h.2.2⟩)
  | ruleList =>
    show Ok (ruleList (fuelFor s)) s _
    unfold ruleList
    refine Ok.last ?_
    exact (ruleLoop_ok (fuelFor s) s (newNode .LIST s.last) hp (by unfold fuelFor; omega) rfl).mono
      (fun v s' h => ⟨fun _ => h.1.sub (Sub.group (.inl h.2.1)), fun _ => h.2.2⟩)
  | rule =>
    exact (rule_ok (f := fuelFor s) hp (by unfold fuelFor; omega)).mono
      (fun v s' h => ⟨fun _ => h.1.tr, by rintro (h | h | h) <;> cases h⟩)
  | declarationList =>
    exact (declarationList_ok (f := fuelFor s) hp (by unfold fuelFor; omega)).mono
      (fun v s' h => ⟨fun _ => h.1, fun _ => h.2⟩)
  | componentValueList =>
    exact ((specs (fuelFor s)).list ⟨true, false⟩ s hp (by unfold fuelFor; omega)).mono
      (fun v s' h => ⟨fun _ => h.tr.sub (Sub.group h.group), by rintro (h | h | h) <;> cases h⟩)
  | componentValue =>
    show Ok (componentValue (fuelFor s)) s _
    by_cases hx : s.last.ty = .EXCLAMATION ∨ isClose s.last.ty = true
    · obtain ⟨f, hf⟩ : ∃ f, fuelFor s = f + 1 := ⟨5 * s.toks.length + 9, rfl⟩
      rw [hf]
      unfold componentValue
      refine Ok.last ?_
      split
      · rename_i h; rw [h] at hx; rcases hx with hx | hx <;> cases hx
      split
      · rename_i h; rw [h] at hx; rcases hx with hx | hx <;> cases hx
      split
      · rename_i h
        rcases h with h | h | h <;> rw [h] at hx <;> rcases hx with hx | hx <;> cases hx
      refine Ok.next (Ok.pure ⟨fun h => ?_, by rintro (h | h | h) <;> cases h⟩)
      rcases hx with hx | hx
      · exact absurd hx (h rfl).1
      · exact absurd hx (by rw [(h rfl).2]; simp)
    · have hx1 : s.last.ty ≠ .EXCLAMATION := fun h => hx (.inl h)
      have hx2 : isClose s.last.ty = false := by simpa using fun h => hx (.inr h)
      by_cases he : s.last.ty = .EOF_TOKEN
      · obtain ⟨f, hf⟩ : ∃ f, fuelFor s = f + 1 := ⟨5 * s.toks.length + 9, rfl⟩
        rw [hf]
        unfold componentValue
        refine Ok.last ?_
        rw [he]
        refine Ok.next (Ok.pure ⟨fun _ => ?_, by rintro (h | h | h) <;> cases h⟩)
        exact (Tr.skip (not_kept (by simp [he]))).sub (.eof he rfl)
      · exact ((specs (fuelFor s)).value s hp (by unfold fuelFor; omega) he hx1 hx2).mono
          (fun v s' h => ⟨fun _ => h.tr, by rintro (h | h | h) <;> cases h⟩)

/-- C36: every public function of the parser, in any state (any list of tokens of the types that
the lexer makes, see `C44_tokens`), returns a node: it does not loop for ever and it does not
throw. -/
theorem C36_returns (e : Entry) (s : St) (hp : ∀ t ∈ s.toks, Plain t) :
    ∃ v s', call e s = .ok v s' := by
  obtain ⟨v, s', h, _⟩ := run_ok e s hp
  exact ⟨v, s', h⟩

/-- C36: it only moves forward in the tokens and keeps the messages of before. -/
theorem C36_forward (e : Entry) (s : St) (hp : ∀ t ∈ s.toks, Plain t) (he : e ≠ .componentValue)
    {v : Nd} {s' : St} (h : call e s = .ok v s') :
    s'.toks <:+ s.toks ∧ s.errs <:+ s'.errs := by
  obtain ⟨v1, s1, h1, h2, _⟩ := run_ok e s hp
  have : call e s = .ok v1 s1 := h1
  rw [this] at h
  injection h with hv hs
  subst hv hs
  obtain ⟨c, er, k1, k2, _⟩ := h2 (fun h => absurd h he)
  exact ⟨⟨c, k1.symm⟩, ⟨er, k2.symm⟩⟩

/-- C36: stylesheet(), rule_list() and declaration_list() stop at the end of the stream, or give a
message. -/
theorem C36_to_the_end (e : Entry) (s : St) (hp : ∀ t ∈ s.toks, Plain t)
    (he : e = .stylesheet ∨ e = .ruleList ∨ e = .declarationList)
    {v : Nd} {s' : St} (h : call e s = .ok v s') (hn : ∀ t ∈ s.toks, t.ty ≠ .EOF_TOKEN) :
    s'.toks = [] ∨ s'.errs.length > s.errs.length := by
  obtain ⟨v1, s1, h1, h2, h3⟩ := run_ok e s hp
  have : call e s = .ok v1 s1 := h1
  rw [this] at h
  injection h with hv hs
  subst hv hs
  obtain ⟨c, er, k1, k2, _⟩ := h2 (fun h => by rw [h] at he; rcases he with he | he | he <;> cases he)
  cases er with
  | nil =>
    left
    have hend := h3 he k2
    cases ht : s1.toks with
    | nil => rfl
    | cons t l =>
      rw [last_cons ht] at hend
      exact absurd hend (hn t (by rw [k1, ht]; simp))
  | cons x er => right; rw [k2]; simp; omega

/-- C37: the tokens of the tree, read from left to right, are some of the tokens that were read, in
the same order. -/
theorem C37_subsequence (e : Entry) (s : St) (hp : ∀ t ∈ s.toks, Plain t) (he : e.fits s)
    {v : Nd} {s' : St} (h : call e s = .ok v s') :
    ∃ c, s.toks = c ++ s'.toks ∧ (flat v).Sublist (c.map sym) := by
  obtain ⟨v1, s1, h1, h2, _⟩ := run_ok e s hp
  have : call e s = .ok v1 s1 := h1
  rw [this] at h
  injection h with hv hs
  subst hv hs
  obtain ⟨c, er, k1, k2, k3, k4, _⟩ := h2 he
  exact ⟨c, k1, by simpa using k4⟩

/-- C37: without a message nothing is lost but whitespace, `;`, `<!--` and `-->`: with the closing
brackets and the `:` of the declarations, that are implied, the tree has all the other tokens. -/
theorem C37_nothing_lost (e : Entry) (s : St) (hp : ∀ t ∈ s.toks, Plain t) (he : e.fits s)
    {v : Nd} {s' : St} (h : call e s = .ok v s') (hn : s'.errs = s.errs) :
    ∃ c, s.toks = c ++ s'.toks ∧ keep (render v) = keep (c.map sym) := by
  obtain ⟨v1, s1, h1, h2, _⟩ := run_ok e s hp
  have : call e s = .ok v1 s1 := h1
  rw [this] at h
  injection h with hv hs
  subst hv hs
  obtain ⟨c, er, k1, k2, k3, k4, k5⟩ := h2 he
  rw [hn] at k2
  have : er = [] := by
    have := congrArg List.length k2
    simp at this
    exact this
  exact ⟨c, k1, by simpa using (k5 this).1⟩

/-- C38: when the brackets of the tokens are not properly nested, there is a message. -/
theorem C38_unbalanced_reported (e : Entry) (s : St) (hp : ∀ t ∈ s.toks, Plain t)
    (he : e = .stylesheet ∨ e = .ruleList ∨ e = .declarationList)
    (hn : ∀ t ∈ s.toks, t.ty ≠ .EOF_TOKEN) {v : Nd} {s' : St} (h : call e s = .ok v s')
    (hb : balanced [] (s.toks.map Tok.ty) = false) : s'.errs.length > s.errs.length := by
  rcases C36_to_the_end e s hp he h hn with h0 | h0
  · obtain ⟨v1, s1, h1, h2, _⟩ := run_ok e s hp
    have : call e s = .ok v1 s1 := h1
    rw [this] at h
    injection h with hv hs
    subst hv hs
    obtain ⟨c, er, k1, k2, k3, k4, k5⟩ :=
      h2 (fun h => by rw [h] at he; rcases he with he | he | he <;> cases he)
    cases er with
    | nil =>
      exfalso
      have hb2 := (k5 rfl).2 [] []
      rw [h0, List.append_nil] at k1
      rw [List.append_nil, ← k1, hb] at hb2
      cases hb2
    | cons x er => rw [k2]; simp; omega
  · exact h0

/-- C38: the functions that read a part of the tokens only read properly nested blocks. -/
theorem C38_nested (e : Entry) (s : St) (hp : ∀ t ∈ s.toks, Plain t) (he : e.fits s)
    {v : Nd} {s' : St} (h : call e s = .ok v s') (hn : s'.errs = s.errs) :
    ∃ c, s.toks = c ++ s'.toks ∧ balanced [] (c.map Tok.ty) = true := by
  obtain ⟨v1, s1, h1, h2, _⟩ := run_ok e s hp
  have : call e s = .ok v1 s1 := h1
  rw [this] at h
  injection h with hv hs
  subst hv hs
  obtain ⟨c, er, k1, k2, k3, k4, k5⟩ := h2 he
  rw [hn] at k2
  have : er = [] := by
    have := congrArg List.length k2
    simp at this
    exact this
  refine ⟨c, k1, ?_⟩
  have := (k5 this).2 [] []
  rw [List.append_nil] at this
  rw [this]; rfl

/-! ### From the text -/

/-- The tokens of a text: the calls of next_token() until the lexer has nothing left (C03). -/
def tokens (inp : Str) : List Tok := (List.range (inp.length + 1)).map (fun n => Lex.token n (Lex.init inp))

theorem tokens_plain (inp : Str) : ∀ t ∈ tokens inp, Plain t := by
  intro t ht
  obtain ⟨n, _, rfl⟩ := List.mem_map.1 ht
  have h := (Lex.C44_tokens inp n).ty
  refine ⟨?_, ?_, ?_⟩ <;> intro h' <;> rw [h'] at h <;> cases h

/-- C36: every text whatsoever can be parsed, with any of the functions. -/
theorem C36_text (e : Entry) (inp : Str) (fin : Pos) : ∃ v s', call e (start (tokens inp) fin) = .ok v s' :=
  C36_returns e _ (tokens_plain inp)

/-- C37: nothing of a text that is parsed without message is lost. -/
theorem C37_text (inp : Str) (fin : Pos) {v : Nd} {s' : St}
    (h : call .stylesheet (start (tokens inp) fin) = .ok v s') (hn : s'.errs = []) :
    ∃ c, tokens inp = c ++ s'.toks ∧ keep (render v) = keep (c.map sym) :=
  C37_nothing_lost .stylesheet _ (tokens_plain inp) (fun h => nomatch h) h hn

/-! ### Examples -/

/-- The types of the tokens of the tree, and the messages. -/
def outcome (e : Entry) (inp : Str) : Option (List NT × List Err × Nat) :=
  match call e (start (Lex.lexAll 1000 (Lex.init inp)).1 ⟨1, 1, 1⟩) with
  | .ok v s => some ((flat v).map Sym.ty, s.errs.map (·.1), s.toks.length)
  | _ => none

example : outcome .stylesheet b!"a{b:c !d;e:f(3,[4])}" =
    some ([.IDENTIFIER, .OPEN_CURLYBRACKET, .IDENTIFIER, .COLON, .IDENTIFIER, .EXCLAMATION, .IDENTIFIER,
      .IDENTIFIER, .COLON, .FUNCTION, .INTEGER, .COMMA, .OPEN_SQUAREBRACKET, .INTEGER], [], 0) := by
  decide +kernel

example : outcome .stylesheet b!"a{b(c]}" =
    some ([.IDENTIFIER, .OPEN_CURLYBRACKET, .FUNCTION, .IDENTIFIER], [.blockEnd, .blockEnd], 0) := by
  decide +kernel

example : outcome .declarationList b!"a:b;c : d}" =
    some ([.IDENTIFIER, .IDENTIFIER, .IDENTIFIER, .IDENTIFIER], [.notAtEnd], 1) := by
  decide +kernel

example : balanced [] [.OPEN_CURLYBRACKET, .FUNCTION, .IDENTIFIER, .CLOSE_SQUAREBRACKET, .CLOSE_CURLYBRACKET] =
    false := rfl

end Csspp.Parse
