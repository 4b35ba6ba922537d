import Verif.Lemmas.CompileGives

/-!
C64: @error, @warning, @info, @message, @debug and @charset leave nothing in the style sheet but their message.
-/

namespace Csspp.Compile
open Csspp.Parse (Nd)
open Csspp.Lex (Tok Pos)

/-- The @-keywords that are messages: their level, and their text when they have none. -/
def messages : List (Str × Level × Str) :=
  [(b!"error", .error, b!"@error reached"), (b!"warning", .warning, b!"@warning reached"),
   (b!"info", .info, b!"@message reached"), (b!"message", .info, b!"@message reached"),
   (b!"debug", .debug, b!"@debug reached")]

/-- The text of a message: what follows the keyword, unless it is nothing or a block. -/
def textOf (E : Env) (d : Str) : List Nd → Str
  | [] => d
  | c :: _ => if c.ty = .OPEN_CURLYBRACKET then d else E.toString c

/-- The text of @charset is the name of UTF-8: with letters of any case, with spaces around it. -/
def IsUtf8 (s : Str) : Prop :=
  ∃ a w b, s = a ++ w ++ b ∧ (∀ c ∈ a ++ b, c = 32 ∨ 9 ≤ c ∧ c ≤ 13) ∧
    w.length = 5 ∧ ∀ (i c : Nat), w[i]? = some c → ∃ d : Nat, (b!"utf-8")[i]? = some d ∧ (c = d ∨ 97 ≤ d ∧ d ≤ 122 ∧ c + 32 = d)

/-- What a keyword that is removed reports. -/
inductive Says (E : Env) : Nd → List (Err × Pos) → Prop
  | message {t : Tok} {kids : List Nd} {l : Level} {d : Str} (ht : t.ty = .AT_KEYWORD) (h : (t.str, l, d) ∈ messages) :
      Says E (.mk t kids) [(.user l (textOf E d kids), t.pos)]
  | utf8 {t st : Tok} {k : List Nd} (ht : t.ty = .AT_KEYWORD) (h : t.str = b!"charset") (hs : st.ty = .STRING)
      (hu : IsUtf8 st.str) : Says E (.mk t [.mk st k]) []
  | other {t st : Tok} {k : List Nd} (ht : t.ty = .AT_KEYWORD) (h : t.str = b!"charset") (hs : st.ty = .STRING)
      (hu : ¬ IsUtf8 st.str) : Says E (.mk t [.mk st k]) [(.charsetName, t.pos)]
  | notString {t : Tok} {kids : List Nd} (ht : t.ty = .AT_KEYWORD) (h : t.str = b!"charset")
      (hk : ∀ st k, kids = [.mk st k] → st.ty ≠ .STRING) : Says E (.mk t kids) [(.charsetString, t.pos)]

theorem space_iff (c : Nat) : isSpaceC c = true ↔ c = 32 ∨ 9 ≤ c ∧ c ≤ 13 := by
  unfold isSpaceC; simp

theorem mem_takeWhile_space {p : Nat → Bool} {l : Str} {c : Nat} (h : c ∈ l.takeWhile p) : p c = true := by
  induction l with
  | nil => simp at h
  | cons d l ih =>
    rw [List.takeWhile_cons] at h
    split at h
    · rcases List.mem_cons.mp h with rfl | h
      · assumption
      · exact ih h
    · simp at h

theorem trim_split (s : Str) : ∃ a b, s = a ++ ((s.dropWhile isSpaceC).reverse.dropWhile isSpaceC).reverse ++ b ∧
    (∀ c ∈ a, isSpaceC c = true) ∧ ∀ c ∈ b, isSpaceC c = true := by
  refine ⟨s.takeWhile isSpaceC, ((s.dropWhile isSpaceC).reverse.takeWhile isSpaceC).reverse, ?_, ?_, ?_⟩
  · rw [List.append_assoc, ← List.reverse_append, List.takeWhile_append_dropWhile, List.reverse_reverse,
      List.takeWhile_append_dropWhile]
  · intro c hc; exact mem_takeWhile_space hc
  · intro c hc; exact mem_takeWhile_space (List.mem_reverse.mp hc)

theorem dropWhile_spaces {a : Str} (h : ∀ c ∈ a, isSpaceC c = true) (l : Str) :
    (a ++ l).dropWhile isSpaceC = l.dropWhile isSpaceC := by
  induction a with
  | nil => rfl
  | cons c a ih =>
    rw [List.cons_append, List.dropWhile_cons, if_pos (h c (by simp))]
    exact ih (fun c hc => h c (List.mem_cons_of_mem _ hc))

theorem lower_iff (c d : Nat) (h : (97 ≤ d ∧ d ≤ 122) ∨ d = 45 ∨ d = 56) :
    Lex.toLower c = d ↔ (c = d ∨ 97 ≤ d ∧ d ≤ 122 ∧ c + 32 = d) := by
  unfold Lex.toLower
  split <;> omega

theorem key_utf8 (s : Str) : charsetKey s = b!"utf-8" ↔ IsUtf8 s := by
  have hl : (b!"utf-8" : Str) = [117, 116, 102, 45, 56] := by decide
  have chars : ∀ w : Str, w.map Lex.toLower = b!"utf-8" ↔
      (w.length = 5 ∧ ∀ (i c : Nat), w[i]? = some c → ∃ d : Nat, (b!"utf-8")[i]? = some d ∧ (c = d ∨ 97 ≤ d ∧ d ≤ 122 ∧ c + 32 = d)) := by
    intro w
    rw [hl]
    constructor
    · intro h
      have h5 : w.length = 5 := by have := congrArg List.length h; simpa using this
      refine ⟨h5, fun i c hc => ?_⟩
      have hi : (w.map Lex.toLower)[i]? = some (Lex.toLower c) := by rw [List.getElem?_map, hc]; rfl
      rw [h] at hi
      refine ⟨Lex.toLower c, hi, (lower_iff c _ ?_).mp rfl⟩
      have hm := List.mem_of_getElem? hi
      simp at hm
      omega
    · rintro ⟨h5, h⟩
      match w, h5 with
      | [c0, c1, c2, c3, c4], _ =>
        have e0 := h 0 c0 rfl
        have e1 := h 1 c1 rfl
        have e2 := h 2 c2 rfl
        have e3 := h 3 c3 rfl
        have e4 := h 4 c4 rfl
        simp only [List.getElem?_cons_zero, List.getElem?_cons_succ, Option.some.injEq, exists_eq_left'] at e0 e1 e2 e3 e4
        rw [← lower_iff _ _ (by omega)] at e0 e1 e2 e3 e4
        simp [e0, e1, e2, e3, e4]
  constructor
  · intro h
    obtain ⟨a, b, e, ha, hb⟩ := trim_split s
    refine ⟨a, _, b, e, ?_, ?_⟩
    · intro c hc
      rw [← space_iff]
      rcases List.mem_append.mp hc with hc | hc
      · exact ha c hc
      · exact hb c hc
    · exact (chars _).mp h
  · rintro ⟨a, w, b, rfl, hs, h⟩
    have ha : ∀ c ∈ a, isSpaceC c = true := fun c hc => (space_iff c).mpr (hs c (by simp [hc]))
    have hb : ∀ c ∈ b, isSpaceC c = true := fun c hc => (space_iff c).mpr (hs c (by simp [hc]))
    have hw := (chars w).mpr h
    unfold charsetKey
    rw [List.append_assoc, dropWhile_spaces ha]
    rw [hl] at hw
    match w, h.1 with
    | [c0, c1, c2, c3, c4], _ =>
      simp only [List.map_cons, List.map_nil, List.cons.injEq, and_true] at hw
      have n0 : isSpaceC c0 = false := by
        have := hw.1; unfold Lex.toLower at this; unfold isSpaceC
        split at this <;> simp <;> omega
      have n4 : isSpaceC c4 = false := by
        have := hw.2.2.2.2; unfold Lex.toLower at this; unfold isSpaceC
        split at this <;> simp <;> omega
      rw [List.cons_append, List.dropWhile_cons, if_neg (by simp [n0])]
      rw [show (c0 :: ([c1, c2, c3, c4] ++ b)).reverse = b.reverse ++ [c4, c3, c2, c1, c0] by simp]
      rw [dropWhile_spaces (fun c hc => hb c (List.mem_reverse.mp hc)), List.dropWhile_cons, if_neg (by simp [n4])]
      simp [hw, hl]

theorem messageOf_iff (k : Str) (l : Level) (d : Str) : messageOf k = some (l, d) ↔ (k, l, d) ∈ messages := by
  unfold messageOf messages
  constructor
  · intro h
    split at h
    · cases h; rename_i e; simp [e]
    · split at h
      · cases h; rename_i e; simp [e]
      · split at h
        · cases h; rename_i e; rcases e with e | e <;> simp [e]
        · split at h
          · cases h; rename_i e; simp [e]
          · cases h
  · intro h
    simp only [List.mem_cons, Prod.mk.injEq, List.not_mem_nil, or_false] at h
    rcases h with ⟨rfl, rfl, rfl⟩ | ⟨rfl, rfl, rfl⟩ | ⟨rfl, rfl, rfl⟩ | ⟨rfl, rfl, rfl⟩ | ⟨rfl, rfl, rfl⟩ <;> decide

theorem says_ty {E : Env} {n : Nd} {l : List (Err × Pos)} (h : Says E n l) : n.ty = .AT_KEYWORD := by
  cases h <;> assumption

theorem atKeyword_says {E : Env} {n : Nd} {l : List (Err × Pos)} (h : Says E n l) (s : St) (f : Nat) :
    atKeyword E (f + 1) n s = .ok none (s.add l) := by
  have charset : ∀ {t : Tok} {kids : List Nd}, t.str = b!"charset" →
      atKeyword E (f + 1) (.mk t kids) s = .ok none (s.add ((charsetError kids).toList.map fun e => (e, t.pos))) := by
    intro t kids ht
    rw [atKeyword]
    have : messageOf t.str = none := by rw [ht]; decide
    rw [this]
    dsimp only
    rw [if_pos ht]
    show (reports _ >>= fun _ => pure none) s = _
    rw [bind_apply, reports_apply]
    cases charsetError kids <;> rfl
  cases h with
  | message ht h =>
    rename_i t kids l d
    rw [atKeyword, (messageOf_iff _ _ _).mpr h]
    have e : (match exprOf kids with | some e => E.toString e | none => d) = textOf E d kids := by
      unfold exprOf textOf
      cases kids with
      | nil => rfl
      | cons c cs => dsimp only; by_cases h : c.ty = .OPEN_CURLYBRACKET <;> simp [h]
    rw [← e]
    rfl
  | utf8 ht h hs hu =>
    rename_i t st k
    rw [charset h]
    have : charsetError [Nd.mk st k] = none := by
      unfold charsetError
      dsimp only
      rw [if_pos (show (Nd.mk st k).ty = _ from hs)]
      exact if_pos ((key_utf8 _).mpr hu)
    rw [this]; rfl
  | other ht h hs hu =>
    rename_i t st k
    rw [charset h]
    have : charsetError [Nd.mk st k] = some .charsetName := by
      unfold charsetError
      dsimp only
      rw [if_pos (show (Nd.mk st k).ty = _ from hs)]
      exact if_neg (fun x => hu ((key_utf8 _).mp x))
    rw [this]; rfl
  | notString ht h hk =>
    rename_i t kids
    rw [charset h]
    have : charsetError kids = some .charsetString := by
      unfold charsetError
      split
      · rename_i c
        obtain ⟨st, k⟩ := c
        exact if_neg (hk st k rfl)
      · rfl
    rw [this]; rfl

/-- C64: such a keyword in the style sheet is removed, with its message; the rest is compiled as if it had never been
there. -/
theorem C64_message_in_sheet {E : Env} {n : Nd} {l : List (Err × Pos)} (h : Says E n l) {s : St} (hs : s.ret = none)
    (rest : List Nd) {r : R (List Nd)} (hr : Gives (fun f => compLoop E f rest) (s.add l) r) :
    Gives (fun f => compLoop E f (n :: rest)) s r := by
  obtain ⟨f, hf⟩ := hr
  refine ⟨f + 4, fun g hg => ?_⟩
  obtain ⟨g, rfl⟩ : ∃ k, g = k + 3 := ⟨g - 3, by omega⟩
  show compLoop E (g + 2 + 1) (n :: rest) s = r
  have hc : comp E (g + 2) n s = .ok (.into []) (s.add l) := by
    have ht := says_ty h
    obtain ⟨t, kids⟩ := n
    have ht : t.ty = .AT_KEYWORD := ht
    rw [comp, ht]
    show (atKeyword E (g + 1) (Nd.mk t kids) >>= _) s = _
    rw [bind_apply, atKeyword_says h]
    rfl
  rw [compLoop]
  refine (if_neg (by rw [hs]; simp)).trans ?_
  show (comp E (g + 2) n >>= _) s = _
  rw [bind_apply, hc]
  exact hf (g + 2) (by omega)

/-- In a component value alone. -/
theorem compValue_says {E : Env} {n : Nd} {l : List (Err × Pos)} (h : Says E n l) {t : Tok}
    (ht : t.ty = .COMPONENT_VALUE) (s : St) (f : Nat) :
    compValue E (f + 2) (.mk t [n]) s = .ok (.into []) (s.add l) := by
  have hn := says_ty h
  rw [compValue, ht]
  simp only [hn, List.all_cons, List.all_nil, List.any_cons, List.any_nil]
  show (atKeyword E (f + 1) n >>= _) s = _
  rw [bind_apply, atKeyword_says h]
  rfl

/-- C64: in the block of a rule, of a declaration, of @media or of @font-face the component value that holds the keyword
is removed, and the rest of the block is compiled as if it had never been there. -/
theorem C64_message_in_block {E : Env} {n : Nd} {l : List (Err × Pos)} (h : Says E n l) {t : Tok}
    (ht : t.ty = .COMPONENT_VALUE) {s : St}
    {loop : Nat → List Nd → M (List Nd)}
    (hl : loop = ruleLoop E ∨ loop = items E ∨ loop = declBlock E ∨ loop = mediaLoop E ∨ loop = faceLoop E)
    (rest : List Nd) {r : R (List Nd)} (hr : Gives (fun f => loop f rest) (s.add l) r) :
    Gives (fun f => loop f (.mk t [n] :: rest)) s r := by
  obtain ⟨f, hf⟩ := hr
  refine ⟨f + 4, fun g hg => ?_⟩
  obtain ⟨g, rfl⟩ : ∃ k, g = k + 3 := ⟨g - 3, by omega⟩
  have hc := compValue_says h ht s g
  have hf := hf (g + 2) (by omega)
  have hty : (Nd.mk t [n]).ty = .COMPONENT_VALUE := ht
  show loop (g + 2 + 1) (.mk t [n] :: rest) s = r
  rcases hl with rfl | rfl | rfl | rfl | rfl
  · rw [ruleLoop, hty]
    show (compValue E (g + 2) (Nd.mk t [n]) >>= _) s = _
    rw [bind_apply, hc]
    exact hf
  · rw [items]
    show (compValue E (g + 2) (Nd.mk t [n]) >>= _) s = _
    rw [bind_apply, hc]
    exact hf
  · rw [declBlock, hty]
    show (compValue E (g + 2) (Nd.mk t [n]) >>= _) s = _
    rw [bind_apply, hc]
    exact hf
  · rw [mediaLoop, hty]
    show (compValue E (g + 2) (Nd.mk t [n]) >>= _) s = _
    rw [bind_apply, hc]
    exact hf
  · rw [faceLoop, hty]
    show (compValue E (g + 2) (Nd.mk t [n]) >>= _) s = _
    rw [bind_apply, hc]
    exact hf

/-- C64: every @error, @warning, @info, @message, @debug and @charset is in one of these cases. -/
theorem C64_every_message (E : Env) {t : Tok} (ht : t.ty = .AT_KEYWORD) (kids : List Nd)
    (h : t.str ∈ [b!"error", b!"warning", b!"info", b!"message", b!"debug", b!"charset"]) :
    ∃ l, Says E (.mk t kids) l ∧ l.length ≤ 1 := by
  by_cases hc : t.str = b!"charset"
  · match kids with
    | [.mk st k] =>
      by_cases hs : st.ty = .STRING
      · by_cases hu : IsUtf8 st.str
        · exact ⟨_, .utf8 ht hc hs hu, by simp⟩
        · exact ⟨_, .other ht hc hs hu, by simp⟩
      · exact ⟨_, .notString ht hc (fun st' k' e => by cases e; exact hs), by simp⟩
    | [] => exact ⟨_, .notString ht hc (fun _ _ e => by cases e), by simp⟩
    | _ :: _ :: _ => exact ⟨_, .notString ht hc (fun _ _ e => by cases e), by simp⟩
  · have : ∃ l d, (t.str, l, d) ∈ messages := by
      simp only [List.mem_cons, List.not_mem_nil, or_false, hc] at h
      rcases h with e | e | e | e | e <;> rw [e]
      · exact ⟨_, _, List.mem_cons_self⟩
      · exact ⟨.warning, b!"@warning reached", by decide⟩
      · exact ⟨.info, b!"@message reached", by decide⟩
      · exact ⟨.info, b!"@message reached", by decide⟩
      · exact ⟨.debug, b!"@debug reached", by decide⟩
    obtain ⟨l, d, hm⟩ := this
    exact ⟨_, .message ht hm, by simp⟩

/-! ### Examples -/

def exEnv : Env where
  sel := ⟨fun _ => true, fun _ => true, fun _ => true, fun _ => true, fun _ => true, fun _ => true, fun _ => []⟩
  metrics _ := false
  slash _ := false
  arg _ kids := some (kids, [])
  ret kids := some ⟨kids, none, []⟩
  inUnit _ := true
  toString n := n.tok.str

def exPos : Pos := ⟨1, 1, 1⟩
def exNode (ty : NT) (s : Str) (kids : List Nd) : Nd := .mk { ty := ty, pos := exPos, str := s } kids

example : Says exEnv (exNode .AT_KEYWORD b!"warning" [exNode .STRING b!"old" []]) [(.user .warning b!"old", exPos)] :=
  .message (d := b!"@warning reached") rfl (by decide)
example : Says exEnv (exNode .AT_KEYWORD b!"charset" [exNode .STRING b!" Utf-8 " []]) [] :=
  .utf8 rfl rfl rfl ((key_utf8 _).mp (by decide))
example : Says exEnv (exNode .AT_KEYWORD b!"charset" [exNode .STRING b!"latin1" []]) [(.charsetName, exPos)] :=
  .other rfl rfl rfl (fun h => absurd ((key_utf8 _).mpr h) (by decide))

end Csspp.Compile
