import Verif.Spec.ParseText

/-!
The relation between the tokens read and the trees made by the parser, and the rules to run its
functions.
-/

namespace Csspp.Parse
open Csspp.Lex (Tok Pos)
open Csspp.Node (supportsChildren supportsString supportsInteger supportsDecimal supportsBoolean)

/-! ### Running -/

/-- The call returns, with a result such that `P`. -/
def Ok {α : Type} (m : M α) (s : St) (P : α → St → Prop) : Prop := ∃ v s', m s = .ok v s' ∧ P v s'

theorem Ok.bind {α β : Type} {m : M α} {g : α → M β} {s : St} {P : α → St → Prop}
    {Q : β → St → Prop} (h : Ok m s P) (hg : ∀ v s', P v s' → Ok (g v) s' Q) : Ok (m >>= g) s Q := by
  obtain ⟨v, s', h1, h2⟩ := h
  obtain ⟨w, s'', h3, h4⟩ := hg v s' h2
  refine ⟨w, s'', ?_, h4⟩
  show (match m s with | .ok v s => g v s | .throws => .throws | .fuel => .fuel) = _
  rw [h1]; exact h3

theorem Ok.pure {α : Type} {v : α} {s : St} {P : α → St → Prop} (h : P v s) :
    Ok (Pure.pure v : M α) s P := ⟨v, s, rfl, h⟩

theorem Ok.mono {α : Type} {m : M α} {s : St} {P Q : α → St → Prop} (h : Ok m s P)
    (hp : ∀ v s', P v s' → Q v s') : Ok m s Q := by
  obtain ⟨v, s', h1, h2⟩ := h
  exact ⟨v, s', h1, hp v s' h2⟩

theorem Ok.last {β : Type} {g : Tok → M β} {s : St} {Q : β → St → Prop} (h : Ok (g s.last) s Q) :
    Ok (last >>= g) s Q :=
  Ok.bind (P := fun v s' => v = s.last ∧ s' = s) ⟨_, _, rfl, rfl, rfl⟩ (by
    rintro _ _ ⟨rfl, rfl⟩; exact h)

/-- The state after next_token(). -/
def St.adv (s : St) : St := { s with toks := s.toks.tail }
/-- The state after a message. -/
def St.err (s : St) (e : Err) (p : Pos) : St := { s with errs := (e, p) :: s.errs }

theorem Ok.next {β : Type} {g : Unit → M β} {s : St} {Q : β → St → Prop} (h : Ok (g ()) s.adv Q) :
    Ok (next >>= g) s Q :=
  Ok.bind (P := fun _ s' => s' = s.adv) ⟨_, _, rfl, rfl⟩ (by rintro _ _ rfl; exact h)

theorem Ok.report {β : Type} {g : Unit → M β} {s : St} {Q : β → St → Prop} {e : Err} {p : Pos}
    (h : Ok (g ()) (s.err e p) Q) : Ok (report e p >>= g) s Q :=
  Ok.bind (P := fun _ s' => s' = s.err e p) ⟨_, _, rfl, rfl⟩ (by rintro _ _ rfl; exact h)

/-- A step that only computes a value. -/
theorem Ok.val {α β : Type} {m : M α} {v : α} {g : α → M β} {s : St} {Q : β → St → Prop}
    (hm : m = Pure.pure v) (h : Ok (g v) s Q) : Ok (m >>= g) s Q := by
  subst hm
  exact Ok.bind (P := fun w s' => w = v ∧ s' = s) ⟨_, _, rfl, rfl, rfl⟩ (by
    rintro _ _ ⟨rfl, rfl⟩; exact h)

/-! ### Reading trees -/

@[simp] theorem flatL_nil : flatL [] = [] := by unfold flatL; rfl
@[simp] theorem flatL_cons (n : Nd) (l : List Nd) : flatL (n :: l) = flat n ++ flatL l := by
  rw [flatL]
@[simp] theorem renderL_nil : renderL [] = [] := by unfold renderL; rfl
@[simp] theorem renderL_cons (n : Nd) (l : List Nd) : renderL (n :: l) = render n ++ renderL l := by
  rw [renderL]

@[simp] theorem flatL_append (a b : List Nd) : flatL (a ++ b) = flatL a ++ flatL b := by
  induction a with
  | nil => simp
  | cons n l ih => simp [ih]

@[simp] theorem renderL_append (a b : List Nd) : renderL (a ++ b) = renderL a ++ renderL b := by
  induction a with
  | nil => simp
  | cons n l ih => simp [ih]

theorem flat_mk (t : Tok) (k : List Nd) : flat (.mk t k) = front t ++ flatL k := by rw [flat]
theorem render_mk (t : Tok) (k : List Nd) :
    render (.mk t k) = front t ++ (colon t ++ (renderL k ++ closing t)) := by rw [render]

@[simp] theorem keep_append (a b : List Sym) : keep (a ++ b) = keep a ++ keep b := by
  unfold keep; rw [List.filter_append]
@[simp] theorem keep_nil : keep [] = [] := rfl

/-- A node that only groups. -/
def Group (n : Nd) : Prop := n.ty = .LIST ∨ n.ty = .COMPONENT_VALUE

theorem Group.flat {n : Nd} (h : Group n) : flat n = flatL n.kids := by
  obtain ⟨t, k⟩ := n
  rw [flat_mk]
  unfold Group Nd.ty Nd.tok at h
  unfold front
  rcases h with h | h <;> rw [h] <;> rfl

theorem Group.render {n : Nd} (h : Group n) : render n = renderL n.kids := by
  obtain ⟨t, k⟩ := n
  rw [render_mk]
  unfold Group Nd.ty Nd.tok at h
  unfold front colon closing
  rcases h with h | h <;> rw [h] <;> simp [Nd.kids]

theorem Group.children {n : Nd} (h : Group n) : supportsChildren n.ty = true := by
  unfold Group at h
  rcases h with h | h <;> rw [h] <;> rfl

/-- Replacing the list `v` by `w` only loses tokens that are not kept. -/
def Sub (v w : List Nd) : Prop :=
  (flatL w).Sublist (flatL v) ∧ keep (renderL w) = keep (renderL v)

theorem Sub.refl (v : List Nd) : Sub v v := ⟨List.Sublist.refl _, rfl⟩
theorem Sub.trans {u v w : List Nd} (h : Sub u v) (h' : Sub v w) : Sub u w :=
  ⟨h'.1.trans h.1, h'.2.trans h.2⟩
theorem Sub.append {a b v w : List Nd} (h : Sub a b) (h' : Sub v w) : Sub (a ++ v) (b ++ w) := by
  refine ⟨?_, ?_⟩
  · simp only [flatL_append]; exact h.1.append h'.1
  · simp only [renderL_append, keep_append, h.2, h'.2]

theorem Sub.group {n : Nd} (h : Group n) : Sub n.kids [n] :=
  ⟨by simp [h.flat], by simp [h.render]⟩
theorem Sub.ungroup {n : Nd} (h : Group n) : Sub [n] n.kids :=
  ⟨by simp [h.flat], by simp [h.render]⟩

/-- Brackets that are closed within `l`. -/
def Nested (l : List NT) : Prop := ∀ st r, balanced st (l ++ r) = balanced st r

theorem balanced_cons (st : List NT) (t : NT) (l : List NT) : balanced st (t :: l) =
    (match closer t with
     | some c => balanced (c :: st) l
     | none =>
       if isCloser t then
         match st with
         | [] => false
         | c :: st => c == t && balanced st l
       else balanced st l) := by rw [balanced.eq_def]; rfl

theorem Nested.nil : Nested [] := fun _ _ => rfl
theorem Nested.append {a b : List NT} (ha : Nested a) (hb : Nested b) : Nested (a ++ b) := by
  intro st r
  rw [List.append_assoc, ha, hb]
theorem Nested.one {t : NT} (h1 : closer t = none) (h2 : isCloser t = false) : Nested [t] := by
  intro st r
  show balanced st (t :: r) = _
  rw [balanced_cons, h1]
  dsimp only
  rw [h2]
  rfl
theorem Nested.block {t u : NT} {l : List NT} (h1 : closer t = some u) (h2 : closer u = none)
    (h3 : isCloser u = true) (h : Nested l) : Nested (t :: l ++ [u]) := by
  intro st r
  rw [List.cons_append, List.cons_append, balanced_cons, h1]
  dsimp only
  rw [List.append_assoc, h, List.singleton_append, balanced_cons, h2]
  dsimp only
  rw [h3]
  simp

/-- The call went from `s` to `s'` and made `v` from `a` and the tokens read. -/
def Tr (s : St) (a v : List Nd) (s' : St) : Prop :=
  ∃ c e, s.toks = c ++ s'.toks ∧ s'.errs = e ++ s.errs ∧ s'.fin = s.fin ∧
    (flatL v).Sublist (flatL a ++ c.map sym) ∧
    (e = [] → keep (renderL v) = keep (renderL a) ++ keep (c.map sym) ∧ Nested (c.map Tok.ty))

theorem Tr.ofSub {s : St} {a v : List Nd} (h : Sub a v) : Tr s a v s :=
  ⟨[], [], rfl, rfl, rfl, by simpa using h.1, fun _ => ⟨by simpa using h.2, .nil⟩⟩

theorem Tr.refl (s : St) (a : List Nd) : Tr s a a s := .ofSub (.refl a)

theorem Tr.trans {s s' s'' : St} {a v w : List Nd} (h : Tr s a v s') (h' : Tr s' v w s'') :
    Tr s a w s'' := by
  obtain ⟨c, e, h1, h2, h3, h4, h5⟩ := h
  obtain ⟨c', e', k1, k2, k3, k4, k5⟩ := h'
  refine ⟨c ++ c', e' ++ e, ?_, ?_, k3.trans h3, ?_, ?_⟩
  · rw [h1, k1, List.append_assoc]
  · rw [k2, h2, List.append_assoc]
  · refine k4.trans ?_
    rw [List.map_append, ← List.append_assoc]
    exact h4.append (List.Sublist.refl _)
  · intro he
    have he' := List.append_eq_nil_iff.1 he
    refine ⟨?_, ?_⟩
    · rw [(k5 he'.1).1, (h5 he'.2).1, List.map_append, keep_append, List.append_assoc]
    · rw [List.map_append]
      exact (h5 he'.2).2.append (k5 he'.1).2

theorem Tr.frame {s s' : St} {a v : List Nd} (b : List Nd) (h : Tr s a v s') :
    Tr s (b ++ a) (b ++ v) s' := by
  obtain ⟨c, e, h1, h2, h3, h4, h5⟩ := h
  refine ⟨c, e, h1, h2, h3, ?_, ?_⟩
  · simp only [flatL_append, List.append_assoc]
    exact (List.Sublist.refl _).append h4
  · intro he
    refine ⟨?_, (h5 he).2⟩
    simp only [renderL_append, keep_append, (h5 he).1, List.append_assoc]

theorem Tr.sub {s s' : St} {a v w : List Nd} (h : Tr s a v s') (h' : Sub v w) : Tr s a w s' :=
  h.trans (.ofSub h')

theorem Tr.subl {s s' : St} {a b v : List Nd} (h' : Sub a b) (h : Tr s b v s') : Tr s a v s' :=
  (Tr.ofSub h').trans h

theorem Tr.len {s s' : St} {a v : List Nd} (h : Tr s a v s') : s'.toks.length ≤ s.toks.length := by
  obtain ⟨c, _, h1, _⟩ := h
  rw [h1]; simp

/-- All the tokens to come are as made by the lexer. -/
def AllPlain (s : St) : Prop := ∀ t ∈ s.toks, Plain t

theorem Tr.plain {s s' : St} {a v : List Nd} (h : Tr s a v s') (hp : AllPlain s) : AllPlain s' := by
  obtain ⟨c, _, h1, _⟩ := h
  intro t ht
  exact hp t (by rw [h1]; exact List.mem_append_right _ ht)

/-! ### The last token -/

theorem last_cons {s : St} {t : Tok} {l : List Tok} (h : s.toks = t :: l) : s.last = t := by
  unfold St.last; rw [h]; rfl

theorem toks_of_last {s : St} (h : s.last.ty ≠ .EOF_TOKEN) : s.toks = s.last :: s.adv.toks := by
  cases hs : s.toks with
  | nil => exact absurd (by unfold St.last; rw [hs]; rfl) h
  | cons t l => rw [last_cons hs]; show _ = t :: s.toks.tail; rw [hs]; rfl

theorem adv_len {s : St} (h : s.last.ty ≠ .EOF_TOKEN) :
    s.toks.length = s.adv.toks.length + 1 := by
  conv => lhs; rw [toks_of_last h]
  simp

theorem adv_le (s : St) : s.adv.toks.length ≤ s.toks.length := by
  show s.toks.tail.length ≤ _
  simp

theorem last_plain {s : St} (hp : AllPlain s) : Plain s.last := by
  cases hs : s.toks with
  | nil => unfold St.last; rw [hs]; exact ⟨by simp, by simp, by simp⟩
  | cons t l => rw [last_cons hs]; exact hp t (by rw [hs]; exact List.mem_cons_self)

/-- A token that needs not be kept is skipped. -/
theorem Tr.skip {s : St} {a : List Nd} (h : kept (sym s.last) = false) : Tr s a a s.adv := by
  cases hs : s.toks with
  | nil =>
    have : s.adv = s := by unfold St.adv; rw [hs]; cases s; simp_all
    rw [this]; exact .refl s a
  | cons t l =>
    have ht := last_cons hs
    refine ⟨[t], [], by show _ = [t] ++ s.toks.tail; rw [hs]; rfl, rfl, rfl, ?_, fun _ => ?_⟩
    · exact List.sublist_append_left _ _
    · rw [← ht]; refine ⟨by simp [keep, h], ?_⟩
      have h : kept (sym s.last) = false := h
      revert h
      unfold kept
      rw [show (sym s.last).ty = s.last.ty from rfl, List.map_cons, List.map_nil]
      generalize s.last.ty = ty
      intro h
      exact .one (by cases ty <;> first | rfl | cases h) (by cases ty <;> first | rfl | cases h)

/-- Any token is skipped with a message. -/
theorem Tr.drop {s : St} {a : List Nd} (e : Err) (p : Pos) : Tr s a a (s.adv.err e p) := by
  refine ⟨s.toks.take 1, [(e, p)], ?_, rfl, rfl, List.sublist_append_left _ _, fun h => nomatch h⟩
  show s.toks = s.toks.take 1 ++ s.toks.tail
  cases s.toks <;> simp

theorem Tr.error {s : St} {a : List Nd} (e : Err) (p : Pos) : Tr s a a (s.err e p) :=
  ⟨[], [(e, p)], rfl, rfl, rfl, by simp, fun h => nomatch h⟩

/-- With a message only the order matters. -/
theorem Tr.errorSub {s : St} {a v : List Nd} (e : Err) (p : Pos) (h : (flatL v).Sublist (flatL a)) :
    Tr s a v (s.err e p) :=
  ⟨[], [(e, p)], rfl, rfl, rfl, by simpa using h, fun h => nomatch h⟩

/-- The type of a token that stands for itself and closes nothing. -/
def Simple (ty : NT) : Prop :=
  ty ≠ .EXCLAMATION ∧ ty ≠ .OPEN_CURLYBRACKET ∧ ty ≠ .OPEN_SQUAREBRACKET ∧
    ty ≠ .OPEN_PARENTHESIS ∧ ty ≠ .FUNCTION ∧ ty ≠ .VARIABLE_FUNCTION ∧ isClose ty = false

theorem Simple.nested {ty : NT} (h : Simple ty) : Nested [ty] := by
  refine .one ?_ ?_
  · revert h; unfold Simple; cases ty <;> simp [closer]
  · revert h; unfold Simple; cases ty <;> simp [isCloser, isClose]

theorem front_plain {t : Tok} (hp : Plain t) (h : t.ty ≠ .EXCLAMATION) (h0 : t.ty ≠ .EOF_TOKEN) :
    front t = [sym t] := by
  obtain ⟨h1, h2, h3⟩ := hp
  unfold front
  split <;> first | rfl | (rename_i hh; first | exact absurd hh h | exact absurd hh h0 | exact absurd hh h1 | exact absurd hh h2 | exact absurd hh h3)

theorem colon_plain {t : Tok} (hp : Plain t) : colon t = [] := by
  obtain ⟨h1, h2, h3⟩ := hp
  unfold colon
  split <;> first | rfl | (rename_i hh; exact absurd hh h3)

theorem closing_simple {t : Tok} (h : Simple t.ty) : closing t = [] := by
  obtain ⟨h1, h2, h3, h4, h5, h6, _⟩ := h
  unfold closing
  split <;> first
    | rfl
    | (rename_i hh; first | exact absurd hh h2 | exact absurd hh h3 | exact absurd hh h4 | exact absurd hh h5 | exact absurd hh h6)

/-- A token is put in the tree. -/
theorem Tr.take {s : St} (hp : AllPlain s) (he : s.last.ty ≠ .EOF_TOKEN) (h : Simple s.last.ty) :
    Tr s [] [.leaf s.last] s.adv := by
  have hf := front_plain (last_plain hp) h.1 he
  refine ⟨[s.last], [], by rw [toks_of_last he]; rfl, rfl, rfl, ?_, fun _ => ?_⟩
  · simp [Nd.leaf, flat_mk, hf]
  · refine ⟨?_, h.nested⟩
    simp [Nd.leaf, render_mk, hf, colon_plain (last_plain hp), closing_simple h]

/-- A token that takes over children, without a closing token. -/
theorem Tr.prefix {s s' : St} {k : List Nd} (hp : AllPlain s) (he : s.last.ty ≠ .EOF_TOKEN)
    (h : Simple s.last.ty) (ht : Tr s.adv [] k s') : Tr s [] [.mk s.last k] s' := by
  have hf := front_plain (last_plain hp) h.1 he
  obtain ⟨c, e, h1, h2, h3, h4, h5⟩ := ht
  refine ⟨s.last :: c, e, by rw [toks_of_last he, h1]; rfl, h2, h3, ?_, fun hh => ?_⟩
  · simpa [flat_mk, hf] using h4
  · have := (h5 hh).1
    refine ⟨?_, h.nested.append (h5 hh).2⟩
    simp only [renderL_nil, keep_nil, List.nil_append] at this
    simp only [renderL_cons, renderL_nil, render_mk, hf, colon_plain (last_plain hp), closing_simple h,
      List.nil_append, List.append_nil, keep_append, List.map_cons, this]
    rw [← List.singleton_append (l := c.map sym), keep_append]; rfl

/-- The same for any token, when there is a message. -/
theorem Tr.prefixErr {s s' : St} {k : List Nd} (hp : AllPlain s) (he : s.last.ty ≠ .EOF_TOKEN)
    (hx : s.last.ty ≠ .EXCLAMATION) (ht : Tr s.adv [] k s') (hl : s'.errs.length > s.errs.length) :
    Tr s [] [.mk s.last k] s' := by
  have hf := front_plain (last_plain hp) hx he
  obtain ⟨c, e, h1, h2, h3, h4, h5⟩ := ht
  refine ⟨s.last :: c, e, by rw [toks_of_last he, h1]; rfl, h2, h3, ?_, fun hh => ?_⟩
  · simpa [flat_mk, hf] using h4
  · rw [h2, hh] at hl
    exact absurd hl (Nat.lt_irrefl _)

theorem closing_closer {t u : Tok} (h : [sym u] = closing t) :
    closer t.ty = some u.ty ∧ closer u.ty = none ∧ isCloser u.ty = true := by
  unfold closing at h
  split at h
  all_goals first
    | (rename_i hh
       have hu : u.ty = _ := congrArg Sym.ty (List.cons.inj h).1
       dsimp only at hu
       rw [hh, hu]
       exact ⟨rfl, rfl, rfl⟩)
    | cases h

/-- A block and its closing token. -/
theorem Tr.block {s s' : St} {k : List Nd} (hp : AllPlain s) (he : s.last.ty ≠ .EOF_TOKEN)
    (hx : s.last.ty ≠ .EXCLAMATION) (ht : Tr s.adv [] k s') (hc : [sym s'.last] = closing s.last)
    (he' : s'.last.ty ≠ .EOF_TOKEN) : Tr s [] [.mk s.last k] s'.adv := by
  have hf := front_plain (last_plain hp) hx he
  obtain ⟨c, e, h1, h2, h3, h4, h5⟩ := ht
  refine ⟨s.last :: c ++ [s'.last], e, ?_, h2, h3, ?_, fun hh => ?_⟩
  · rw [toks_of_last he, h1, toks_of_last he']
    simp
  · simp only [flatL_nil, List.nil_append] at h4
    simp only [flatL_cons, flat_mk, hf, flatL_nil, List.append_nil, List.nil_append, List.cons_append,
      List.map_cons, List.map_append, List.map_nil]
    exact (h4.trans (List.sublist_append_left _ _)).cons_cons _
  · have := (h5 hh).1
    refine ⟨?_, ?_⟩
    rotate_left
    · have hc2 := closing_closer hc
      rw [List.map_append, List.map_cons]
      exact .block hc2.1 hc2.2.1 hc2.2.2 (h5 hh).2
    simp only [renderL_nil, keep_nil, List.nil_append] at this
    simp only [renderL_cons, renderL_nil, render_mk, hf, colon_plain (last_plain hp), ← hc,
      List.nil_append, List.append_nil, keep_append, List.map_cons, List.map_append, List.map_nil, this]
    rw [← List.append_assoc, ← keep_append, List.singleton_append]; rfl

/-! ### Children -/

theorem whitespace_text {n : Nd} (h : n.ty = .WHITESPACE) (hk : n.kids = []) :
    keep (render n) = [] := by
  obtain ⟨t, k⟩ := n
  have hk : k = [] := hk
  have h : t.ty = .WHITESPACE := h
  rw [render_mk, hk]
  unfold front colon closing
  rw [h]
  simp [keep, kept, sym, h]

theorem eof_text {n : Nd} (h : n.ty = .EOF_TOKEN) (hk : n.kids = []) :
    keep (render n) = [] := by
  obtain ⟨t, k⟩ := n
  have hk : k = [] := hk
  have h : t.ty = .EOF_TOKEN := h
  rw [render_mk, hk]
  unfold front colon closing
  rw [h]
  simp [keep]

/-- A WHITESPACE or EOF_TOKEN has no children. -/
def Bare (n : Nd) : Prop := n.ty = .WHITESPACE ∨ n.ty = .EOF_TOKEN → n.kids = []

theorem Sub.push {l : List Nd} {c : Nd} (h : Bare c) : Sub (l ++ [c]) (push l c) := by
  unfold Parse.push
  split
  · exact .refl _
  · rename_i hc
    refine ⟨by simp, ?_⟩
    have : keep (Parse.render c) = [] := by
      by_cases h1 : c.ty = .EOF_TOKEN
      · exact eof_text h1 (h (.inr h1))
      · by_cases h2 : c.ty = .WHITESPACE
        · exact whitespace_text h2 (h (.inl h2))
        · exact absurd ⟨h1, .inl h2⟩ hc
    simp [this]

/-- The children `l` of a node whose WHITESPACE are leaves. -/
def BareL (l : List Nd) : Prop := ∀ n ∈ l, Bare n

theorem BareL.push {l : List Nd} {c : Nd} (h : BareL l) (hc : Bare c) : BareL (push l c) := by
  unfold Parse.push
  split
  · intro n hn
    rcases List.mem_append.1 hn with hn | hn
    · exact h n hn
    · rw [List.mem_singleton.1 hn]; exact hc
  · exact h

theorem Sub.dropLeft {l : List Nd} (h : BareL l) :
    Sub l (l.dropWhile (fun c => c.ty = .WHITESPACE)) := by
  induction l with
  | nil => exact .refl _
  | cons c l ih =>
    rw [List.dropWhile_cons]
    split
    · rename_i hc
      have ih := ih (fun n hn => h n (List.mem_cons_of_mem _ hn))
      refine Sub.trans ?_ ih
      refine ⟨by simp, ?_⟩
      simp [whitespace_text (of_decide_eq_true hc) (h c List.mem_cons_self (.inl (of_decide_eq_true hc)))]
    · exact .refl _

theorem Sub.init {l : List Nd} {c : Nd} (h : Bare c) (hc : c.ty = .WHITESPACE) : Sub (l ++ [c]) l := by
  refine ⟨by simp, ?_⟩
  simp [whitespace_text hc (h (.inl hc))]

theorem dropRight_concat (l : List Nd) (c : Nd) :
    ((l ++ [c]).reverse.dropWhile (fun c => c.ty = .WHITESPACE)).reverse =
      if c.ty = .WHITESPACE then (l.reverse.dropWhile (fun c => c.ty = .WHITESPACE)).reverse
      else l ++ [c] := by
  rw [List.reverse_append, List.reverse_singleton, List.singleton_append, List.dropWhile_cons]
  split
  · rename_i h; rw [if_pos (of_decide_eq_true h)]
  · rename_i h; rw [if_neg (by simpa using h)]; simp

theorem snoc_cases {α : Type} (l : List α) : l = [] ∨ ∃ l' a, l = l' ++ [a] := by
  cases h : l.reverse with
  | nil => left; simpa using h
  | cons a l' =>
    right
    refine ⟨l'.reverse, a, ?_⟩
    have := congrArg List.reverse h
    simpa using this

theorem Sub.dropRight {l : List Nd} (h : BareL l) :
    Sub l (l.reverse.dropWhile (fun c => c.ty = .WHITESPACE)).reverse := by
  generalize hn : l.length = n
  induction n generalizing l with
  | zero => have : l = [] := List.length_eq_zero_iff.1 hn; subst this; exact .refl _
  | succ n ih =>
    rcases snoc_cases l with rfl | ⟨l', c, rfl⟩
    · exact .refl _
    · rw [dropRight_concat]
      split
      · rename_i hc
        refine (Sub.init (h c (by simp)) hc).trans (ih (fun m hm => h m (by simp [hm])) ?_)
        simpa using hn
      · exact .refl _

theorem BareL.sub {l l' : List Nd} (h : BareL l) (hs : l'.Sublist l) : BareL l' :=
  fun n hn => h n (hs.subset hn)

end Csspp.Parse
