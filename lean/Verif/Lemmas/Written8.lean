import Verif.Lemmas.Written7

/-!
For C57: the text of a tree.
-/

namespace Csspp.Written
open Csspp.Spec Csspp.Lex Csspp.Asm Csspp.Tree

theorem Gives.eq {m : Mode} {o : Out} {a b : List Piece} (h : Gives m o a) (e : a = b) : Gives m o b := e ▸ h

theorem semi_gives (m : Mode) : Gives m (rawText [59]) [mark .SEMICOLON] :=
  (text_raw m _).word (mark_spells (ty := .SEMICOLON) (by decide)) (utf8_ascii (s := [59]) (by decide))

theorem plainName_gives (m : Mode) {s : Str} (h : IsPlainName s) : Gives m (rawText s) [Spec.name s] := by
  obtain ⟨cs, hu, hp⟩ := h
  exact (text_raw m _).word (plain_spells hu hp) hu

theorem important_gives (m : Mode) : Gives m (rawText b!"important") [Spec.name b!"important"] := by
  obtain ⟨hp, hu⟩ := letters_plain (t := b!"important") (by decide) (by decide)
  exact plainName_gives m ⟨_, hu, hp⟩

theorem keyword_gives (m : Mode) {s : Str} (h : IsPlainName s) :
    Gives m (rawText (64 :: (s ++ [32]))) [.word { ty := .AT_KEYWORD, str := s }, .blank] := by
  obtain ⟨cs, hu, hp⟩ := h
  refine (text_raw m _).gives (bits := [.word (64 :: cs) _, .gap [32]]) (.word (keyword_spells hu hp) (.blank .nil)) ?_
  have := utf8_append (a := [64]) (x := [64]) (utf8_ascii (by decide)) (utf8_append hu (utf8_ascii (s := [32]) (by decide)))
  simpa [chars, Bit.chars] using this

theorem function_gives (m : Mode) {s : Str} (h : (∃ cs, Utf8 cs s ∧ PlainName cs ∧ ∀ c ∈ cs, lowerByte c = c) ∧ s ≠ b!"url") :
    Gives m (rawText s ⊹ operator b!"(" .none) [.word { ty := .FUNCTION, str := s }] := by
  obtain ⟨⟨cs, hu, hp, hl⟩, hurl⟩ := h
  exact ((text_raw m _).andThen (op_none m _)).word (function_spells hu hp hl hurl)
    (utf8_append hu (utf8_ascii (s := b!"(") (by decide)))

theorem close_gives (m : Mode) : Gives m closeCalls [.semi, mark .CLOSE_CURLYBRACKET] :=
  ((optional_gives m).andThen ((op_gives m (ty := .CLOSE_CURLYBRACKET) (by decide) rfl (by simp)).andThen (newline_gives m)))

theorem position_gives (m : Mode) {p : Nat} {x : Flt.Fp}
    (h : Flt.le (Flt.ofInt Flt.f64 1) x = true ∨
      HasNumeral p (times (if Flt.lt x (Flt.ofInt Flt.f64 0) then Flt.ofInt Flt.f64 0 else x) 100)) :
    Gives m (framePosition p x) (position p x) := by
  unfold framePosition position
  by_cases hle : Flt.le (Flt.ofInt Flt.f64 1) x = true
  · rw [if_pos hle, if_pos hle]
    obtain ⟨hp, hu⟩ := letters_plain (t := b!"to") (by decide) (by decide)
    exact plainName_gives m ⟨_, hu, hp⟩
  · rw [if_neg hle, if_neg hle]
    rcases h with h | h
    · exact absurd h hle
    · exact decimal_gives m h (.inl rfl)

/-- What is between the parentheses. -/
def inParen : List Kid → List Piece
  | [] => []
  | k :: l => k.bare ++ concat l

/-- The end of a rule. -/
def ruleTail (kids : List Kid) : List Piece :=
  (kids.filter (fun k => k.ty != .ARG || !k.hidden)).flatMap
    (fun k => (if k.ty = .ARG then [mark .COMMA] else []) ++ k.items)

theorem parenthesis_eq (kids : List Kid) :
    parenthesis kids = mark .OPEN_PARENTHESIS :: (inParen kids ++ [mark .CLOSE_PARENTHESIS]) := by
  cases kids <;> rfl

theorem hidden_eq (kids : List Tree) : endsWithPlaceholder kids = (kids.getLast?.map Tree.ty == some .PLACEHOLDER) := by
  induction kids with
  | nil => rfl
  | cons c l ih =>
    cases l with
    | nil => rfl
    | cons d l => unfold endsWithPlaceholder; rw [ih, List.getLast?_cons_cons]

theorem kidsOf_types (p : Nat) (l : List Tree) : (kidsOf p l).map (·.ty) = l.map Tree.ty := by
  induction l with
  | nil => unfold kidsOf; rfl
  | cons c l ih => cases c with | mk d kids => unfold kidsOf; rw [List.map_cons, ih]; rfl

theorem kidsOf_head (p : Nat) (l : List Tree) : (kidsOf p l).head?.map (·.ty) = l.head?.map Tree.ty := by
  rw [← List.head?_map, ← List.head?_map, kidsOf_types]

theorem kidsOf_last (p : Nat) (l : List Tree) : (kidsOf p l).getLast?.map (·.ty) = l.getLast?.map Tree.ty := by
  rw [← List.getLast?_map, ← List.getLast?_map, kidsOf_types]

theorem kidsOf_nil (p : Nat) (l : List Tree) : kidsOf p l = [] ↔ l = [] := by
  cases l with
  | nil => unfold kidsOf; simp
  | cons c l => cases c with | mk d kids => unfold kidsOf; simp

theorem kidsOf_cons (p : Nat) (d : Data) (kids l : List Tree) : kidsOf p (.mk d kids :: l) =
    { ty := d.ty
      items := nodeItems p d (kidsOf p kids)
      inner := concat (kidsOf p kids)
      bare := if d.ty = .OPEN_PARENTHESIS then parenthesis (kidsOf p kids) else nodeItems p d (kidsOf p kids)
      hidden := kids.getLast?.map Tree.ty == some .PLACEHOLDER } :: kidsOf p l := by
  conv => lhs; unfold kidsOf
  rw [kidOf]

theorem items_eq (p : Nat) (d : Data) (kids : List Tree) : items p (.mk d kids) = nodeItems p d (kidsOf p kids) := by
  unfold items; rfl

theorem kids_of {p : Nat} {d : Data} {kids : List Tree} (h : Printable p (.mk d kids)) (hty : d.ty ≠ .COMPONENT_VALUE) :
    PrintableKids p kids := by
  unfold Printable at h
  rw [if_neg hty] at h
  exact h.2

theorem node_leafless {p : Nat} {d : Data} {kids : List Kid} (h : leafItems p d = none) :
    nodeItems p d kids = match d.ty with
    | .ARG => concat kids
    | .AT_KEYWORD => atRule d.str kids
    | .DECLARATION => name d.str :: mark .COLON :: (separated .ARG (mark .COMMA) kids ++
        (if b!"important" ∈ d.flags then [mark .EXCLAMATION, name b!"important"] else []))
    | .FUNCTION => .word { ty := .FUNCTION, str := d.str } ::
        ((if kids.head?.map (·.ty) = some .ARG then commas kids else concat kids) ++ [mark .CLOSE_PARENTHESIS])
    | .LIST => separated .DECLARATION (mark .SEMICOLON) kids
    | .OPEN_CURLYBRACKET => block kids
    | .OPEN_PARENTHESIS => .blank :: parenthesis kids
    | .OPEN_SQUAREBRACKET => mark .OPEN_SQUAREBRACKET :: (concat kids ++ [mark .CLOSE_SQUAREBRACKET])
    | .COMPONENT_VALUE => rule kids
    | .FRAME => position p d.dec ++ block kids
    | _ => [] := by
  unfold nodeItems; rw [h]; rfl

theorem sound_other {p : Nat} {d : Data} (h : Sound p d) (h1 : leafItems p d = none) :
    d.ty = .ARG ∨ d.ty = .AT_KEYWORD ∨ d.ty = .DECLARATION ∨ d.ty = .FUNCTION ∨ d.ty = .LIST ∨
    d.ty = .OPEN_CURLYBRACKET ∨ d.ty = .OPEN_PARENTHESIS ∨ d.ty = .OPEN_SQUAREBRACKET ∨ d.ty = .COMPONENT_VALUE ∨
    d.ty = .FRAME := by
  unfold leafItems at h1
  unfold Sound at h
  cases hty : d.ty <;> rw [hty] at h h1 <;> first
    | (simp; done)
    | (exfalso; dsimp only at h; revert h; decide)
    | (exfalso; cases h1; done)

mutual
theorem output_gives (m : Mode) (p : Nat) : (t : Tree) → Printable p t → Gives m (output p t) (items p t)
  | .mk d kids, h => by
    have hs : Sound p d := by unfold Printable at h; exact h.1
    have o : ∀ (ty : NT) (s : Str) (f : Flag), spell ty ≠ [] → s = spell ty → f ≠ .optionalOperator →
        Gives m (operator s f) [mark ty] := fun ty s f h1 h2 h3 => op_gives m h1 h2 h3
    have nl := newline_gives m
    rw [items_eq]
    rcases leaf_gives m p d hs with ⟨h1, h2⟩ | ⟨x, l, h1, h2, h3⟩
    · rw [node_leafless h1]
      unfold output
      rw [h2]
      dsimp only
      rcases sound_other hs h1 with hty | hty | hty | hty | hty | hty | hty | hty | hty | hty
      · rw [hty]; dsimp only
        exact outAll_gives m p kids (kids_of h (by rw [hty]; simp))
      · have hk := kids_of h (by rw [hty]; simp)
        have hname : IsPlainName d.str := by unfold Sound at hs; rw [hty] at hs; exact hs
        rw [hty]; dsimp only
        unfold atRule
        have key : Gives m (match (generalizing := false) kids with
            | [] => rawText [59]
            | c :: cs => if isKeyframes d.str then
                output p c ⊹ operator b!"{" .spaceBefore ⊹ one .newline ⊹ outAll p cs ⊹ operator b!"}" .none
              else outAt p (c :: cs)) (if kidsOf p kids ≠ [] ∧ d.str ∈ [b!"-o-keyframes", b!"-webkit-keyframes", b!"keyframes"] then
              concat ((kidsOf p kids).take 1) ++ mark .OPEN_CURLYBRACKET :: (concat ((kidsOf p kids).drop 1) ++ [mark .CLOSE_CURLYBRACKET])
            else atBody (kidsOf p kids) ++ (if (kidsOf p kids).getLast?.map (·.ty) = some .OPEN_CURLYBRACKET then []
              else [mark .SEMICOLON])) := by
          cases kids with
          | nil =>
            have e : kidsOf p [] = [] := by unfold kidsOf; rfl
            rw [e, if_neg (by simp)]
            exact semi_gives m
          | cons c cs =>
            cases c with
            | mk dc kc =>
            dsimp only
            by_cases hkf : isKeyframes d.str = true
            · rw [if_pos hkf, if_pos ⟨by simp [kidsOf_nil], by
                unfold isKeyframes at hkf; simpa [or_assoc] using hkf⟩]
              unfold PrintableKids at hk
              have := (output_gives m p (.mk dc kc) hk.1).andThen ((o .OPEN_CURLYBRACKET b!"{" .spaceBefore (by decide) rfl (by simp)).andThen
                (nl.andThen ((outAll_gives m p cs hk.2).andThen (o .CLOSE_CURLYBRACKET b!"}" .none (by decide) rfl (by simp)))))
              refine this.eq ?_
              conv => rhs; rw [kidsOf_cons]
              unfold items concat
              rw [kidOf]
              simp
            · rw [if_neg hkf, if_neg (by
                rintro ⟨_, hm⟩
                apply hkf
                unfold isKeyframes
                simpa [or_assoc] using hm)]
              have := outAt_gives m p (.mk dc kc :: cs) (by simp) hk
              rw [kidsOf_last]
              exact this
        refine ((keyword_gives m hname).andThen (key.andThen nl)).eq ?_
        rw [List.append_nil]
        rfl
      · have hk := kids_of h (by rw [hty]; simp)
        have hname : IsPlainName d.str := by unfold Sound at hs; rw [hty] at hs; exact hs
        rw [hty]; dsimp only
        have himp : Gives m (if b!"important" ∈ d.flags then operator b!"!" .spaceBefore ⊹ rawText b!"important" else .ok [])
            (if b!"important" ∈ d.flags then [mark .EXCLAMATION, name b!"important"] else []) := by
          by_cases hi : b!"important" ∈ d.flags
          · rw [if_pos hi, if_pos hi]
            exact (o .EXCLAMATION b!"!" .spaceBefore (by decide) rfl (by simp)).andThen (important_gives m)
          · rw [if_neg hi, if_neg hi]; exact .nil
        exact (indent_gives m).andThen ((plainName_gives m hname).andThen ((o .COLON b!":" .spaceAfter (by decide) rfl (by simp)).andThen
          ((outAfter_gives m p .ARG (.op b!"," .spaceAfter) (mark .COMMA) (o .COMMA b!"," .spaceAfter (by decide) rfl (by simp)) kids hk).andThen himp)))
      · have hk := kids_of h (by rw [hty]; simp)
        have hname : (∃ cs, Utf8 cs d.str ∧ PlainName cs ∧ ∀ c ∈ cs, lowerByte c = c) ∧ d.str ≠ b!"url" := by
          unfold Sound at hs; rw [hty] at hs; exact hs
        rw [hty]; dsimp only
        rw [← andThen_assoc]
        have cl := o .CLOSE_PARENTHESIS b!")" .none (by decide) rfl (by simp)
        refine (function_gives m hname).andThen (Gives.andThen ?_ cl)
        cases kids with
        | nil =>
          have e : kidsOf p [] = [] := by unfold kidsOf; rfl
          rw [e]
          exact .nil
        | cons c cs =>
          unfold PrintableKids at hk
          rw [kidsOf_head]
          have hc := output_gives m p c hk.1
          cases c with
          | mk dc kc =>
          have e := kidsOf_cons p dc kc cs
          rw [items_eq] at hc
          by_cases ht : dc.ty = .ARG
          · rw [if_pos (by show some dc.ty = _; rw [ht])]
            dsimp only
            rw [if_pos (by exact ht), e]
            exact hc.andThen (outCommas_gives m p cs hk.2)
          · rw [if_neg (by show ¬ some dc.ty = _; intro h; injection h with h; exact ht h)]
            dsimp only
            rw [if_neg (by exact ht), e]
            exact hc.andThen (outAll_gives m p cs hk.2)
      · have hk := kids_of h (by rw [hty]; simp)
        rw [hty]; dsimp only
        exact outAfter_gives m p .DECLARATION _ (mark .SEMICOLON) (o .SEMICOLON b!";" .spaceAfterOrNewline (by decide) rfl (by simp)) kids hk
      · have hk := kids_of h (by rw [hty]; simp)
        rw [hty]; dsimp only
        exact (o .OPEN_CURLYBRACKET b!"{" .spacesOrNewlines (by decide) rfl (by simp)).andThen
          ((outAfter_gives m p .DECLARATION _ (mark .SEMICOLON) (o .SEMICOLON b!";" .spaceAfterOrNewline (by decide) rfl (by simp)) kids hk).andThen
          (close_gives m))
      · have hk := kids_of h (by rw [hty]; simp)
        rw [hty]; dsimp only
        rw [parenthesis_eq]
        exact (space_gives m).andThen ((o .OPEN_PARENTHESIS b!"(" .none (by decide) rfl (by simp)).andThen
          ((outParen_gives m p true kids hk).andThen (o .CLOSE_PARENTHESIS b!")" .spaceAfter (by decide) rfl (by simp))))
      · have hk := kids_of h (by rw [hty]; simp)
        rw [hty]; dsimp only
        exact (o .OPEN_SQUAREBRACKET b!"[" .none (by decide) rfl (by simp)).andThen
          ((outAll_gives m p kids hk).andThen (o .CLOSE_SQUAREBRACKET b!"]" .none (by decide) rfl (by simp)))
      · have hk : PrintableArgs p kids := by
          unfold Printable at h
          rw [if_pos hty] at h
          exact h.2
        rw [hty]; dsimp only
        exact outCV_gives m p true kids hk
      · have hk := kids_of h (by rw [hty]; simp)
        have hpos := by unfold Sound at hs; rw [hty] at hs; exact hs
        rw [hty]; dsimp only
        exact (position_gives m hpos).andThen ((o .OPEN_CURLYBRACKET b!"{" .spacesOrNewlines (by decide) rfl (by simp)).andThen
          ((outAfter_gives m p .DECLARATION _ (mark .SEMICOLON) (o .SEMICOLON b!";" .spaceAfterOrNewline (by decide) rfl (by simp)) kids hk).andThen
          (close_gives m)))
    · unfold output nodeItems
      rw [h1, h2]
      exact h3

theorem outAll_gives (m : Mode) (p : Nat) : (l : List Tree) → PrintableKids p l → Gives m (outAll p l) (concat (kidsOf p l))
  | [], _ => by unfold outAll kidsOf; exact .nil
  | .mk d kids :: cs, h => by
    unfold PrintableKids at h
    unfold outAll; rw [kidsOf_cons]
    have := (output_gives m p (.mk d kids) h.1).andThen (outAll_gives m p cs h.2)
    rw [items_eq] at this
    exact this

theorem outAfter_gives (m : Mode) (p : Nat) (ty : NT) (sep : Call) (i : Piece) (hsep : Gives m (one sep) [i]) :
    (l : List Tree) → PrintableKids p l → Gives m (outAfter p ty sep l) (separated ty i (kidsOf p l))
  | [], _ => by unfold outAfter kidsOf; exact .nil
  | [.mk d kids], h => by
    unfold PrintableKids at h
    have := (output_gives m p (.mk d kids) h.1).andThen (Gives.nil.andThen Gives.nil)
    rw [List.append_nil, List.append_nil, items_eq] at this
    unfold outAfter
    rw [if_neg (by simp), kidsOf_cons]
    unfold outAfter
    have e : kidsOf p [] = [] := by unfold kidsOf; rfl
    rw [e]
    exact this
  | .mk d kids :: c :: cs, h => by
    unfold PrintableKids at h
    have hr := outAfter_gives m p ty sep i hsep (c :: cs) h.2
    have hs : Gives m (if d.ty = ty ∧ c :: cs ≠ [] then one sep else .ok []) (if d.ty = ty then [i] else []) := by
      by_cases ht : d.ty = ty
      · rw [if_pos ⟨ht, by simp⟩, if_pos ht]; exact hsep
      · rw [if_neg (fun h => ht h.1), if_neg ht]; exact .nil
    have := (output_gives m p (.mk d kids) h.1).andThen (hs.andThen hr)
    rw [items_eq, ← List.append_assoc] at this
    unfold outAfter
    refine this.eq ?_
    cases c with
    | mk dc kc =>
    rw [kidsOf_cons p d, kidsOf_cons p dc]
    rfl

theorem outCommas_gives (m : Mode) (p : Nat) : (l : List Tree) → PrintableKids p l →
    Gives m (outCommas p l) ((kidsOf p l).flatMap (fun k => mark .COMMA :: k.items))
  | [], _ => by unfold outCommas kidsOf; exact .nil
  | .mk d kids :: cs, h => by
    unfold PrintableKids at h
    unfold outCommas; rw [kidsOf_cons]
    have := (op_gives m (ty := .COMMA) (by decide) (s := b!",") rfl (f := .spaceAfter) (by simp)).andThen
      ((output_gives m p (.mk d kids) h.1).andThen (outCommas_gives m p cs h.2))
    rw [items_eq] at this
    exact this

theorem outParen_gives (m : Mode) (p : Nat) : (first : Bool) → (l : List Tree) → PrintableKids p l →
    Gives m (outParen p first l) (if first then inParen (kidsOf p l) else concat (kidsOf p l))
  | first, [], _ => by unfold outParen kidsOf; cases first <;> exact .nil
  | first, .mk d kids :: cs, h => by
    unfold PrintableKids at h
    have hr := outParen_gives m p false cs h.2
    rw [if_neg (by simp)] at hr
    unfold outParen; rw [kidsOf_cons]
    by_cases hty : d.ty = .OPEN_PARENTHESIS
    · have hk := kids_of h.1 (by rw [hty]; simp)
      have hi := outParen_gives m p true kids hk
      rw [if_pos rfl] at hi
      have hsp : Gives m (if first then .ok [] else rawText [32]) (if first then [] else [.blank]) := by
        cases first
        · exact space_gives m
        · exact .nil
      have hl : leafItems p d = none := by unfold leafItems; rw [hty]; rfl
      have hn : nodeItems p d (kidsOf p kids) = .blank :: parenthesis (kidsOf p kids) := by
        rw [node_leafless hl, hty]
      have := (hsp.andThen ((op_gives m (ty := .OPEN_PARENTHESIS) (by decide) (s := b!"(") rfl (f := .none) (by simp)).andThen
        (hi.andThen (op_gives m (ty := .CLOSE_PARENTHESIS) (by decide) (s := b!")") rfl (f := .none) (by simp))))).andThen hr
      rw [if_pos hty]
      refine this.eq ?_
      rw [hn, if_pos hty, parenthesis_eq]
      cases first <;> simp [inParen, concat]
    · rw [if_neg hty, if_neg hty]
      have := (output_gives m p (.mk d kids) h.1).andThen hr
      rw [items_eq] at this
      refine this.eq ?_
      cases first <;> rfl

theorem outCV_gives (m : Mode) (p : Nat) : (first : Bool) → (l : List Tree) → PrintableArgs p l →
    Gives m (outCV p first l) (if first then rule (kidsOf p l) else ruleTail (kidsOf p l))
  | first, [], _ => by unfold outCV kidsOf; cases first <;> exact .nil
  | first, .mk d kids :: cs, h => by
    unfold PrintableArgs at h
    have hr := outCV_gives m p first cs h.2
    unfold outCV; rw [kidsOf_cons]
    by_cases hty : d.ty = .OPEN_CURLYBRACKET
    · have hp : Printable p (.mk d kids) := by
        rcases h.1 with ⟨h1, _⟩ | ⟨_, h1⟩
        · rw [hty] at h1; cases h1
        · exact h1
      rw [if_pos hty]
      cases first with
      | true =>
        refine (Gives.nil.andThen hr).eq ?_
        rw [if_pos rfl, if_pos rfl]
        unfold rule
        rw [List.filter_cons_of_pos (by simp [hty]), List.dropWhile_cons_of_pos (by simp [hty])]
        rfl
      | false =>
        have := (output_gives m p (.mk d kids) hp).andThen hr
        rw [items_eq] at this
        refine this.eq ?_
        rw [if_neg (by simp), if_neg (by simp)]
        unfold ruleTail
        rw [List.filter_cons_of_pos (by simp [hty]), List.flatMap_cons]
        dsimp only
        rw [if_neg (by rw [hty]; simp)]
        rfl
    · have ha : d.ty = .ARG := by
        rcases h.1 with ⟨h1, _⟩ | ⟨h1 | h1, _⟩
        · exact h1
        · exact h1
        · exact absurd h1 hty
      rw [if_neg hty, if_neg (by simp [ha])]
      by_cases hh : endsWithPlaceholder kids = true
      · rw [if_pos hh]
        rw [hidden_eq] at hh
        refine hr.eq ?_
        unfold rule ruleTail
        rw [List.filter_cons_of_neg (by simp [ha, hh])]
      · rw [if_neg hh]
        rw [hidden_eq] at hh
        have hp : Printable p (.mk d kids) := by
          rcases h.1 with ⟨_, h1⟩ | ⟨_, h1⟩
          · exact absurd (by rw [h1]; rfl) hh
          · exact h1
        have hr := outCV_gives m p false cs h.2
        rw [if_neg (by simp)] at hr
        have hc : Gives m (if first then .ok [] else operator b!"," .spaceAfter) (if first then [] else [mark .COMMA]) := by
          cases first
          · exact op_gives m (ty := .COMMA) (by decide) (s := b!",") rfl (f := .spaceAfter) (by simp)
          · exact .nil
        have := hc.andThen ((output_gives m p (.mk d kids) hp).andThen hr)
        rw [items_eq] at this
        refine this.eq ?_
        unfold rule ruleTail
        rw [List.filter_cons_of_pos (by simp [hh])]
        cases first with
        | true =>
          rw [if_pos rfl, if_pos rfl, List.dropWhile_cons_of_neg (by simp [ha])]
          rfl
        | false =>
          rw [if_neg (by simp), if_neg (by simp), List.flatMap_cons]
          dsimp only
          rw [if_pos ha, List.append_assoc]

theorem outAt_gives (m : Mode) (p : Nat) : (l : List Tree) → l ≠ [] → PrintableKids p l →
    Gives m (outAt p l) (atBody (kidsOf p l) ++
      (if l.getLast?.map Tree.ty = some .OPEN_CURLYBRACKET then [] else [mark .SEMICOLON]))
  | [], hne, _ => absurd rfl hne
  | .mk d kids :: cs, _, h => by
    unfold PrintableKids at h
    have nl := newline_gives m
    have hc : Gives m (if d.ty = .OPEN_CURLYBRACKET then
        (if cs.isEmpty then one .newline else .ok []) ⊹
          operator b!"{" .none ⊹ one .newline ⊹ outAll p kids ⊹ operator b!"}" .none ⊹ one .newline
        else if d.ty = .ARG then
          output p (.mk d kids) ⊹ (if cs.head?.map Tree.ty = some .ARG then operator b!"," .spaceAfter else .ok [])
        else output p (.mk d kids))
        (if d.ty = .OPEN_CURLYBRACKET then mark .OPEN_CURLYBRACKET :: (concat (kidsOf p kids) ++ [mark .CLOSE_CURLYBRACKET])
        else if d.ty = .ARG ∧ ((kidsOf p cs).head?.map (·.ty)) = some .ARG then nodeItems p d (kidsOf p kids) ++ [mark .COMMA]
        else nodeItems p d (kidsOf p kids)) := by
      by_cases hty : d.ty = .OPEN_CURLYBRACKET
      · rw [if_pos hty, if_pos hty]
        have hk := kids_of h.1 (by rw [hty]; simp)
        have hf : Gives m (if cs.isEmpty then one .newline else .ok []) [] := by
          cases cs
          · exact nl
          · exact .nil
        refine (hf.andThen ((op_gives m (ty := .OPEN_CURLYBRACKET) (by decide) (s := b!"{") rfl (f := .none) (by simp)).andThen
          (nl.andThen ((outAll_gives m p kids hk).andThen
          ((op_gives m (ty := .CLOSE_CURLYBRACKET) (by decide) (s := b!"}") rfl (f := .none) (by simp)).andThen nl))))).eq ?_
        simp
      · rw [if_neg hty, if_neg hty]
        have ho := output_gives m p (.mk d kids) h.1
        rw [items_eq] at ho
        rw [kidsOf_head]
        by_cases ha : d.ty = .ARG
        · rw [if_pos ha]
          by_cases hn : cs.head?.map Tree.ty = some .ARG
          · rw [if_pos hn, if_pos ⟨ha, hn⟩]
            exact ho.andThen (op_gives m (ty := .COMMA) (by decide) (s := b!",") rfl (f := .spaceAfter) (by simp))
          · rw [if_neg hn, if_neg (fun h => hn h.2)]
            exact (ho.andThen .nil).eq (List.append_nil _)
        · rw [if_neg ha, if_neg (fun h => ha h.1)]
          exact ho
    have eb : atBody (kidsOf p (.mk d kids :: cs)) =
        (if d.ty = .OPEN_CURLYBRACKET then mark .OPEN_CURLYBRACKET :: (concat (kidsOf p kids) ++ [mark .CLOSE_CURLYBRACKET])
        else if d.ty = .ARG ∧ ((kidsOf p cs).head?.map (·.ty)) = some .ARG then nodeItems p d (kidsOf p kids) ++ [mark .COMMA]
        else nodeItems p d (kidsOf p kids)) ++ atBody (kidsOf p cs) := by
      conv => lhs; rw [kidsOf_cons]
      conv => lhs; unfold atBody
    rw [eb, List.append_assoc]
    unfold outAt
    refine hc.andThen ?_
    cases cs with
    | nil =>
      have e : atBody (kidsOf p []) = [] := by unfold kidsOf; rfl
      rw [e]
      unfold outAt
      by_cases hty : d.ty = .OPEN_CURLYBRACKET
      · rw [if_neg (by rintro ⟨_, h⟩; exact h hty), if_pos (by show some d.ty = _; rw [hty])]
        exact Gives.nil.andThen .nil
      · rw [if_pos ⟨rfl, hty⟩, if_neg (by show ¬ some d.ty = _; intro h; injection h with h; exact hty h)]
        exact (semi_gives m).andThen .nil
    | cons c cs =>
      rw [if_neg (by rintro ⟨h, _⟩; cases h), List.getLast?_cons_cons]
      exact Gives.nil.andThen (outAt_gives m p (c :: cs) (by simp) h.2)
end

end Csspp.Written
