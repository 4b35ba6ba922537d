import Verif.Lemmas.PlainLex
import Verif.Lemmas.Written6

/-!
For C83: the words of the text of a plain style sheet can be written, and nothing is glued.
-/

namespace Csspp.Spec.Plain
open Csspp.Spec (Word Piece apart merged Glued NameStart NameChar Fair Unit IsPlainName PlainName)
open Csspp.Written (Spells)

/-- Items that start with a word in F and end with a word in L. -/
structure Seg (F L : Word → Prop) (l : List Item) : Prop where
  sep : sep l = true
  apart : apart (tight l) = true
  first : ∃ w k, l = .word w :: k ∧ F w
  last : ∃ w k, l = k ++ [.word w] ∧ L w
  words : ∀ w, Item.word w ∈ l → Writable w

theorem sep_append {a b : List Item} (ha : sep a = true) (hb : sep b = true) (h : wordFirst b = true) :
    sep (a ++ b) = true := by
  induction a with
  | nil => exact hb
  | cons x a ih =>
    have ha' := ih (sep_tail ha)
    cases x with
    | word w => exact ha'
    | opt | must | semi =>
      cases a with
      | nil =>
        cases b with
        | nil => rfl
        | cons y b =>
          cases y with
          | word w => exact hb
          | opt | must | semi => exact absurd h (by simp [wordFirst])
      | cons y a =>
        cases y with
        | word w => exact ha'
        | opt | must | semi => exact absurd ha (by simp [Plain.sep])

theorem sep_gap {a b : List Item} {g : Item} {w : Word} (ha : sep (a ++ [.word w]) = true) (hb : sep b = true)
    (h : wordFirst b = true) : sep (a ++ [.word w] ++ g :: b) = true := by
  have hg : sep (g :: b) = true := by
    cases g with
    | word w => exact hb
    | opt | must | semi =>
      cases b with
      | nil => rfl
      | cons y b =>
        cases y with
        | word w => exact hb
        | opt | must | semi => exact absurd h (by simp [wordFirst])
  induction a with
  | nil => exact hg
  | cons x a ih =>
    have ih := ih (sep_tail ha)
    cases x with
    | word w => exact ih
    | opt | must | semi =>
      cases a with
      | nil => exact ih
      | cons y a =>
        cases y with
        | word w => exact ih
        | opt | must | semi => exact absurd ha (by simp [Plain.sep])

theorem tight_append (a b : List Item) : tight (a ++ b) = tight a ++ tight b := by
  induction a with
  | nil => rfl
  | cons x a ih => cases x <;> simp [tight, ih]

theorem apart_cons {x : Piece} {l : List Piece} (h : apart (x :: l) = true) : apart l = true := by
  cases x with
  | blank => exact h
  | semi => exact h
  | word a =>
    cases l with
    | nil => rfl
    | cons y l =>
      cases y with
      | word b => rw [apart, Bool.and_eq_true] at h; exact h.2
      | blank => exact h
      | semi => exact h

theorem apart_append {a b : List Piece} {x y : Word} (ha : apart (a ++ [.word x]) = true) (hb : apart (.word y :: b) = true)
    (h : Glued x y = false) : apart (a ++ [.word x] ++ .word y :: b) = true := by
  induction a with
  | nil => simp [apart, h] at hb ⊢; exact hb
  | cons p a ih =>
    have ih := ih (apart_cons ha)
    cases p with
    | blank => exact ih
    | semi => exact ih
    | word w =>
      cases a with
      | nil =>
        simp only [List.nil_append, List.cons_append, apart, Bool.and_eq_true] at ha ih ⊢
        exact ⟨ha.1, ih⟩
      | cons q a =>
        cases q with
        | word v =>
          simp only [List.cons_append, apart, Bool.and_eq_true] at ha ih ⊢
          exact ⟨ha.1, ih⟩
        | blank => exact ih
        | semi => exact ih

theorem apart_blank {a b : List Piece} (ha : apart a = true) (hb : apart b = true) :
    apart (a ++ .blank :: b) = true := by
  induction a with
  | nil => exact hb
  | cons p a ih =>
    have ih := ih (apart_cons ha)
    cases p with
    | blank => exact ih
    | semi => exact ih
    | word w =>
      cases a with
      | nil => exact ih
      | cons q a =>
        cases q with
        | word v =>
          simp only [List.cons_append, apart, Bool.and_eq_true] at ha ih ⊢
          exact ⟨ha.1, ih⟩
        | blank => exact ih
        | semi => exact ih

theorem Seg.append {F L F' L' : Word → Prop} {a b : List Item} (ha : Seg F L a) (hb : Seg F' L' b)
    (h : ∀ x y, L x → F' y → Glued x y = false) : Seg F L' (a ++ b) := by
  obtain ⟨w, k, ew, hw⟩ := ha.first
  obtain ⟨x, kx, ex, hx⟩ := ha.last
  obtain ⟨y, ky, ey, hy⟩ := hb.first
  obtain ⟨z, kz, ez, hz⟩ := hb.last
  refine ⟨sep_append ha.sep hb.sep (by rw [ey]; rfl), ?_, ⟨w, k ++ b, by rw [ew]; rfl, hw⟩,
    ⟨z, a ++ kz, by rw [ez, List.append_assoc], hz⟩, fun v hv => ?_⟩
  · have h1 := ha.apart
    have h2 := hb.apart
    rw [tight_append]
    rw [ex, tight_append] at h1 ⊢
    rw [ey] at h2 ⊢
    exact apart_append h1 h2 (h x y hx hy)
  · rcases List.mem_append.1 hv with hv | hv
    · exact ha.words v hv
    · exact hb.words v hv

theorem Seg.gap {F L F' L' : Word → Prop} {a b : List Item} {g : Item} (ha : Seg F L a) (hb : Seg F' L' b)
    (hg : ∀ w, g ≠ .word w) (h : g = .must ∨ ∀ x y, L x → F' y → Glued x y = false) : Seg F L' (a ++ g :: b) := by
  obtain ⟨w, k, ew, hw⟩ := ha.first
  obtain ⟨x, kx, ex, hx⟩ := ha.last
  obtain ⟨y, ky, ey, hy⟩ := hb.first
  obtain ⟨z, kz, ez, hz⟩ := hb.last
  have h1 := ha.apart
  have h2 := hb.apart
  refine ⟨?_, ?_, ⟨w, k ++ g :: b, by rw [ew]; rfl, hw⟩,
    ⟨z, a ++ g :: kz, by rw [ez]; simp, hz⟩, fun v hv => ?_⟩
  · have hs := ha.sep
    rw [ex] at hs ⊢
    exact sep_gap hs hb.sep (by rw [ey]; rfl)
  · rw [tight_append]
    rcases h with rfl | h
    · exact apart_blank h1 h2
    · cases g with
      | word w => exact absurd rfl (hg w)
      | must => exact apart_blank h1 h2
      | opt | semi =>
        show Spec.apart (tight a ++ tight b) = true
        rw [ex, tight_append] at h1 ⊢
        rw [ey] at h2 ⊢
        exact apart_append h1 h2 (h x y hx hy)
  · rcases List.mem_append.1 hv with hv | hv
    · exact ha.words v hv
    · rcases List.mem_cons.1 hv with hv | hv
      · exact absurd hv.symm (hg v)
      · exact hb.words v hv

theorem seg_word {w : Word} (h : Writable w) {F L : Word → Prop} (hF : F w) (hL : L w) : Seg F L [.word w] :=
  ⟨rfl, rfl, ⟨w, [], rfl, hF⟩, ⟨w, [], rfl, hL⟩, fun v hv => by
    rcases List.mem_singleton.1 hv with e; cases e; exact h⟩

theorem Seg.mono {F L F' L' : Word → Prop} {a : List Item} (h : Seg F L a) (hF : ∀ w, F w → F' w) (hL : ∀ w, L w → L' w) :
    Seg F' L' a := by
  obtain ⟨w, k, ew, hw⟩ := h.first
  obtain ⟨x, kx, ex, hx⟩ := h.last
  exact ⟨h.sep, h.apart, ⟨w, k, ew, hF w hw⟩, ⟨x, kx, ex, hL x hx⟩, h.words⟩

/-- Is of the type. -/
def Is (ty : NT) (w : Word) : Prop := w.ty = ty

/-! ### The words -/

theorem marks_writable {ty : NT} (h : ty = .PERIOD ∨ ty = .COMMA ∨ ty = .COLON ∨ ty = .SEMICOLON ∨ ty = .GREATER_THAN ∨
    ty = .ADD ∨ ty = .PRECEDED ∨ ty = .OPEN_CURLYBRACKET ∨ ty = .CLOSE_CURLYBRACKET ∨ ty = .SUBTRACT) : Writable { ty := ty } := by
  rcases h with rfl | rfl | rfl | rfl | rfl | rfl | rfl | rfl | rfl | rfl
  · exact ⟨_, Lex.utf8_ascii (by decide), Written.mark_spells (ty := .PERIOD) (by decide)⟩
  · exact ⟨_, Lex.utf8_ascii (by decide), Written.mark_spells (ty := .COMMA) (by decide)⟩
  · exact ⟨_, Lex.utf8_ascii (by decide), Written.mark_spells (ty := .COLON) (by decide)⟩
  · exact ⟨_, Lex.utf8_ascii (by decide), Written.mark_spells (ty := .SEMICOLON) (by decide)⟩
  · exact ⟨_, Lex.utf8_ascii (by decide), Written.mark_spells (ty := .GREATER_THAN) (by decide)⟩
  · exact ⟨_, Lex.utf8_ascii (by decide), Written.mark_spells (ty := .ADD) (by decide)⟩
  · exact ⟨_, Lex.utf8_ascii (by decide), Written.mark_spells (ty := .PRECEDED) (by decide)⟩
  · exact ⟨_, Lex.utf8_ascii (by decide), Written.mark_spells (ty := .OPEN_CURLYBRACKET) (by decide)⟩
  · exact ⟨_, Lex.utf8_ascii (by decide), Written.mark_spells (ty := .CLOSE_CURLYBRACKET) (by decide)⟩
  · exact ⟨_, Lex.utf8_ascii (by decide), Written.mark_spells (ty := .SUBTRACT) (by decide)⟩

theorem plainName_writable {s : Str} (h : IsPlainName s) : Writable { ty := .IDENTIFIER, str := s } := by
  obtain ⟨cs, hu, hp⟩ := h
  exact ⟨cs, hu, Written.plain_spells hu hp⟩

theorem Name.plain {s : Str} (h : Name s) : IsPlainName s := by
  obtain ⟨cs, hu, hc, hn, _⟩ := h
  exact ⟨cs, hu, hc, .inl hn⟩

theorem hash_writable {s : Str} (h : Name s) : Writable { ty := .HASH, str := s } := by
  obtain ⟨cs, hu, hc, hn, _⟩ := h
  refine ⟨35 :: cs, Utf8.cons (.one 35 (by omega)) hu, Written.hash_spells hu ?_ hc⟩
  rintro rfl
  obtain ⟨c, t, e, _⟩ := hn
  cases e

theorem quoted_same {cs : List Nat} (h : ∀ c ∈ cs, c ≠ 34 ∧ c ≠ 92) : Lex.quotedChars 34 cs = cs := by
  induction cs with
  | nil => rfl
  | cons c cs ih =>
    have hc := h c (by simp)
    have := ih (fun x hx => h x (by simp [hx]))
    unfold Lex.quotedChars at this ⊢
    simp [hc.1, this]

theorem int_writable {i : Int} {u : Str} (h : InRange i) (hu : Unit u) : Writable (intWord i u) := by
  refine ⟨intDigits i ++ u, ?_, Written.integer_spells ⟨h.1, h.2⟩ hu⟩
  refine Lex.utf8_ascii fun c hc => ?_
  rcases List.mem_append.1 hc with hc | hc
  · unfold intDigits at hc
    split at hc
    · rcases List.mem_cons.1 hc with rfl | hc
      · omega
      · exact Written.natDigits_dec _ c hc
    · exact Written.natDigits_dec _ c hc
  · have := hu.1 c hc; omega

theorem str_writable {s : Str} (h : (Val.str s).Ok) : Writable { ty := .STRING, str := s } := by
  obtain ⟨cs, hu, hc⟩ := h
  refine ⟨34 :: (cs ++ [34]), ?_, ?_⟩
  · exact Utf8.cons (.one 34 (by omega)) (Lex.utf8_append hu (Utf8.cons (.one 34 (by omega)) .nil))
  · have e := quoted_same (cs := cs) (fun c h => ⟨(hc c h).2.2.2.2.2, (hc c h).2.2.2.2.1⟩)
    have := Written.string_spells (.inl rfl) hu
      (fun c h => ⟨(hc c h).1, (hc c h).2.1, (hc c h).2.2.1, (hc c h).2.2.2.1, (hc c h).2.2.2.2.1⟩)
    unfold Written.stringChars at this
    rw [e] at this
    exact this

/-! ### The parts of a style sheet -/

/-- A name other than u, or a `#name`. -/
def NameEnd (w : Word) : Prop := w.ty = .IDENTIFIER ∧ w.str ≠ b!"u" ∧ w.str ≠ b!"U" ∨ w.ty = .HASH
/-- The first of a simple selector. -/
def SimpleStart (w : Word) : Prop := w.ty = .IDENTIFIER ∨ w.ty = .HASH ∨ w.ty = .PERIOD
/-- A value. -/
def IsVal (w : Word) : Prop := w.ty = .IDENTIFIER ∨ w.ty = .INTEGER ∨ w.ty = .STRING ∨ w.ty = .VARIABLE

theorem seg_mark {ty : NT} (h : ty = .PERIOD ∨ ty = .COMMA ∨ ty = .COLON ∨ ty = .SEMICOLON ∨ ty = .GREATER_THAN ∨
    ty = .ADD ∨ ty = .PRECEDED ∨ ty = .OPEN_CURLYBRACKET ∨ ty = .CLOSE_CURLYBRACKET ∨ ty = .SUBTRACT) : Seg (Is ty) (Is ty) [mark ty] :=
  seg_word (marks_writable h) rfl rfl

/-- `a` , `mark`, `b` with blanks if any. -/
theorem Seg.around {F L F' L' : Word → Prop} {a b : List Item} {ty : NT} (ha : Seg F L a) (hb : Seg F' L' b)
    (hm : ty = .PERIOD ∨ ty = .COMMA ∨ ty = .COLON ∨ ty = .SEMICOLON ∨ ty = .GREATER_THAN ∨
      ty = .ADD ∨ ty = .PRECEDED ∨ ty = .OPEN_CURLYBRACKET ∨ ty = .CLOSE_CURLYBRACKET ∨ ty = .SUBTRACT)
    (h1 : ∀ x y, L x → Is ty y → Glued x y = false) (h2 : ∀ x y, Is ty x → F' y → Glued x y = false) :
    Seg F L' (a ++ [.opt, mark ty, .opt] ++ b) := by
  have := (ha.gap (g := .opt) (seg_mark hm) (by simp) (.inr h1)).gap (g := .opt) hb (by simp) (.inr h2)
  simpa using this

theorem seg_join {α : Type} {f : α → List Item} {F L : Word → Prop} {ty : NT}
    (hm : ty = .PERIOD ∨ ty = .COMMA ∨ ty = .COLON ∨ ty = .SEMICOLON ∨ ty = .GREATER_THAN ∨
      ty = .ADD ∨ ty = .PRECEDED ∨ ty = .OPEN_CURLYBRACKET ∨ ty = .CLOSE_CURLYBRACKET ∨ ty = .SUBTRACT)
    (h1 : ∀ x y, L x → Is ty y → Glued x y = false) (h2 : ∀ x y, Is ty x → F y → Glued x y = false) :
    ∀ (l : List α), l ≠ [] → (∀ x ∈ l, Seg F L (f x)) → Seg F L (join f [.opt, mark ty, .opt] l)
  | [], h, _ => absurd rfl h
  | [x], _, h => h x (by simp)
  | x :: y :: l, _, h =>
    (h x (by simp)).around (seg_join hm h1 h2 (y :: l) (by simp) (fun z hz => h z (List.mem_cons_of_mem _ hz))) hm h1 h2

theorem seg_musts {α : Type} {f : α → List Item} {F L : Word → Prop} :
    ∀ (l : List α), l ≠ [] → (∀ x ∈ l, Seg F L (f x)) → Seg F L (join f [.must] l)
  | [], h, _ => absurd rfl h
  | [x], _, h => h x (by simp)
  | x :: y :: l, _, h => by
    have := (h x (by simp)).gap (g := .must) (seg_musts (y :: l) (by simp) (fun z hz => h z (List.mem_cons_of_mem _ hz)))
      (by simp) (.inl rfl)
    simpa [join] using this

theorem Simple.seg {s : Simple} (h : s.Ok) : Seg SimpleStart NameEnd s.items := by
  cases s with
  | tag s => exact seg_word (plainName_writable h.plain) (.inl rfl) (.inl ⟨rfl, h.choose_spec.2.2.2⟩)
  | id s => exact seg_word (hash_writable h) (.inr (.inl rfl)) (.inr rfl)
  | cls s =>
    have h1 : Seg SimpleStart (Is .PERIOD) [mark .PERIOD] :=
      (seg_mark (.inl rfl)).mono (fun w hw => .inr (.inr hw)) (fun _ h => h)
    have h2 : Seg (Is .IDENTIFIER) NameEnd [ident s] :=
      seg_word (plainName_writable h.plain) rfl (.inl ⟨rfl, h.choose_spec.2.2.2⟩)
    refine h1.append h2 fun x y hx hy => ?_
    unfold Is at hx hy
    simp [Glued, Word.numeric, hx, hy]

theorem Simple.seg' {s : Simple} (h : s.Ok) (ht : ∀ n, s ≠ .tag n) :
    Seg (fun w => w.ty = .HASH ∨ w.ty = .PERIOD) NameEnd s.items := by
  cases s with
  | tag s => exact absurd rfl (ht s)
  | id s => exact seg_word (hash_writable h) (.inl rfl) (.inr rfl)
  | cls s =>
    have h1 : Seg (fun w => w.ty = .HASH ∨ w.ty = .PERIOD) (Is .PERIOD) [mark .PERIOD] :=
      (seg_mark (.inl rfl)).mono (fun w hw => .inr hw) (fun _ h => h)
    have h2 : Seg (Is .IDENTIFIER) NameEnd [ident s] :=
      seg_word (plainName_writable h.plain) rfl (.inl ⟨rfl, h.choose_spec.2.2.2⟩)
    refine h1.append h2 fun x y hx hy => ?_
    unfold Is at hx hy
    simp [Glued, Word.numeric, hx, hy]

theorem compound_seg {l : List Simple} (h : Compound l) : Seg SimpleStart NameEnd (l.flatMap Simple.items) := by
  obtain ⟨hne, hok, ht⟩ := h
  cases l with
  | nil => exact absurd rfl hne
  | cons s l =>
    have h0 := Simple.seg (hok s (by simp))
    rw [List.flatMap_cons]
    have hl : ∀ x ∈ l, x.Ok ∧ ∀ n, x ≠ .tag n := fun x hx => ⟨hok x (by simp [hx]), ht x hx⟩
    clear hne hok ht
    generalize s.items = a at h0
    induction l generalizing a with
    | nil => simpa using h0
    | cons x l ih =>
      rw [List.flatMap_cons, ← List.append_assoc]
      refine ih (fun y hy => hl y (by simp [hy])) _ (h0.append (Simple.seg' (hl x (by simp)).1 (hl x (by simp)).2) ?_)
      intro p q hp hq
      rcases hp with ⟨hp, _⟩ | hp <;> rcases hq with hq | hq <;> simp [Glued, Word.wordy, hp, hq]

theorem Comb.glue {c : Comb} {a b : List Item} {F : Word → Prop} (ha : Seg F NameEnd a) (hb : Seg SimpleStart NameEnd b) :
    Seg F NameEnd (a ++ (c.items ++ b)) := by
  have key : ∀ ty : NT, (ty = .GREATER_THAN ∨ ty = .ADD ∨ ty = .PRECEDED) →
      Seg F NameEnd (a ++ [.opt, mark ty, .opt] ++ b) := by
    intro ty hty
    refine ha.around hb (by rcases hty with rfl | rfl | rfl <;> simp) ?_ ?_
    · intro x y hx hy
      unfold Is at hy
      rcases hty with rfl | rfl | rfl <;> rcases hx with ⟨hx, h1, h2⟩ | hx <;>
        simp_all [Glued, Word.wordy]
    · intro x y hx hy
      unfold Is at hx
      rcases hty with rfl | rfl | rfl <;> rcases hy with hy | hy | hy <;>
        simp_all [Glued, Word.numeric]
  cases c with
  | desc => exact ha.gap (g := .must) hb (by simp) (.inl rfl)
  | child => simpa [Comb.items] using key .GREATER_THAN (.inl rfl)
  | next => simpa [Comb.items] using key .ADD (.inr (.inl rfl))
  | sibling => simpa [Comb.items] using key .PRECEDED (.inr (.inr rfl))

theorem Sel.seg {s : Sel} (h1 : Compound s.first) (h2 : ∀ p ∈ s.more, Compound p.2) : Seg SimpleStart NameEnd s.items := by
  have h0 := compound_seg h1
  unfold Sel.items
  generalize s.first.flatMap Simple.items = a at h0
  generalize s.more = m at h2
  induction m generalizing a with
  | nil => simpa using h0
  | cons p m ih =>
    rw [List.flatMap_cons, ← List.append_assoc]
    exact ih _ (Comb.glue h0 (compound_seg (h2 p (by simp)))) (fun q hq => h2 q (by simp [hq]))

theorem more_seg {u : Str} (hu : Unit u) : ∀ {more : List (Bool × Int)} {a : List Item}, (∀ p ∈ more, InRange p.2) →
    Seg IsVal IsVal a → Seg IsVal IsVal (a ++ moreItems u more)
  | [], a, _, ha => by rw [moreItems, List.append_nil]; exact ha
  | (minus, j) :: l, a, h, ha => by
    have hm : Seg (Is (if minus then .SUBTRACT else .ADD)) (Is (if minus then .SUBTRACT else .ADD)) [mark (if minus then .SUBTRACT else .ADD)] :=
      seg_mark (by cases minus <;> simp)
    have hi : Seg IsVal IsVal [.word (intWord j u)] :=
      seg_word (int_writable (h (minus, j) (by simp)) hu) (by simp [IsVal, intWord]) (by simp [IsVal, intWord])
    have h1 := (ha.gap (g := .must) hm (by simp) (.inl rfl)).gap (g := .must) hi (by simp) (.inl rfl)
    have h2 := more_seg hu (more := l) (fun p hp => h p (List.mem_cons_of_mem _ hp)) h1
    rw [moreItems]
    simpa using h2

theorem Val.Ok.src {v : Val} (h : v.Ok) : v.Src := .inl h
theorem Decl.Ok.src {d : Decl} (h : d.Ok) : d.Src := ⟨h.1, h.2.1, fun g hg => ⟨(h.2.2 g hg).1, fun v hv => .inl ((h.2.2 g hg).2 v hv)⟩⟩
theorem Rule.Ok.src {r : Rule} (h : r.Ok) : r.Src := ⟨h.1, h.2.1, fun d hd => (h.2.2 d hd).src⟩
theorem Sheet.Ok.src {S : Sheet} (h : S.Ok) : S.Src := fun r hr => (h r hr).src

theorem variable_writable {s : Str} (h : VarName s) : Writable { ty := .VARIABLE, str := s } := by
  refine ⟨36 :: s, Lex.utf8_ascii (fun c hc => ?_), Written.variable_spells h.1 h.2⟩
  rcases List.mem_cons.1 hc with rfl | hc
  · omega
  · have := h.2 c hc; omega

theorem Val.seg {v : Val} (h : v.Src) : Seg IsVal IsVal v.items := by
  rcases h with h | ⟨n, rfl, h⟩
  case inr => exact seg_word (variable_writable h) (by simp [IsVal]) (by simp [IsVal])
  cases v with
  | var n => exact h.elim
  | word s => exact seg_word (plainName_writable h.1.plain) (by simp [IsVal]) (by simp [IsVal])
  | int i u => exact seg_word (int_writable ⟨h.1, h.2.1⟩ h.2.2) (by simp [IsVal, intWord]) (by simp [IsVal, intWord])
  | str s => exact seg_word (str_writable h) (by simp [IsVal]) (by simp [IsVal])
  | sum i more u =>
    refine more_seg h.2.2 h.1 (a := [.word (intWord i u)]) (seg_word (int_writable (h.2.1 i ?_) h.2.2) (by simp [IsVal, intWord]) (by simp [IsVal, intWord]))
    cases more with
    | nil => simp [partials]
    | cons p l => simp [partials]

theorem valueItems_seg {l : List (List Val)} (hne : l ≠ []) (h : ∀ g ∈ l, g ≠ [] ∧ ∀ v ∈ g, v.Src) :
    Seg IsVal IsVal (valueItems l) := by
  refine seg_join (.inr (.inl rfl)) ?_ ?_ l hne ?_
  · intro x y hx hy
    unfold Is at hy
    rcases hx with hx | hx | hx | hx <;> simp [Glued, Word.wordy, hx, hy]
  · intro x y hx hy
    unfold Is at hx
    simp [Glued, hx]
  · intro g hg
    exact seg_musts g (h g hg).1 fun v hv => Val.seg ((h g hg).2 v hv)

theorem Decl.seg {d : Decl} (h : d.Src) : Seg (Is .IDENTIFIER) IsVal d.items := by
  obtain ⟨h1, h2, h3⟩ := h
  have a : Seg (Is .IDENTIFIER) (Is .IDENTIFIER) [ident d.name] := seg_word (plainName_writable h1) rfl rfl
  refine a.around (ty := .COLON) (valueItems_seg h2 h3) (by simp) ?_ ?_
  · intro x y hx hy
    unfold Is at hx hy
    simp [Glued, Word.wordy, hx, hy]
  · intro x y hx hy
    unfold Is at hx
    rcases hy with hy | hy | hy | hy <;> simp [Glued, hx, hy]

theorem decls_seg {l : List Decl} (hne : l ≠ []) (h : ∀ d ∈ l, d.Src) :
    Seg (Is .IDENTIFIER) IsVal (join Decl.items [.opt, mark .SEMICOLON, .opt] l) := by
  refine seg_join (by simp) ?_ ?_ l hne fun d hd => Decl.seg (h d hd)
  · intro x y hx hy
    unfold Is at hy
    rcases hx with hx | hx | hx | hx <;> simp [Glued, Word.wordy, hx, hy]
  · intro x y hx hy
    unfold Is at hx
    simp [Glued, hx]

theorem Rule.seg {r : Rule} (h : r.Src) : Seg SimpleStart (Is .CLOSE_CURLYBRACKET) r.items := by
  obtain ⟨h1, h2, h3⟩ := h
  have a : Seg SimpleStart NameEnd (join Sel.items [.opt, mark .COMMA, .opt] r.sels) := by
    refine seg_join (by simp) ?_ ?_ _ h1 fun s hs => Sel.seg (h2 s hs).1 (h2 s hs).2.1
    · intro x y hx hy
      unfold Is at hy
      rcases hx with ⟨hx, _⟩ | hx <;> simp [Glued, Word.wordy, hx, hy]
    · intro x y hx hy
      unfold Is at hx
      simp [Glued, hx]
  have b : Seg SimpleStart (Is .OPEN_CURLYBRACKET)
      (join Sel.items [.opt, mark .COMMA, .opt] r.sels ++ [.opt, mark .OPEN_CURLYBRACKET]) := by
    refine a.gap (g := .opt) (seg_mark (ty := .OPEN_CURLYBRACKET) (by simp)) (by simp) (.inr ?_)
    intro x y hx hy
    unfold Is at hy
    rcases hx with ⟨hx, _⟩ | hx <;> simp [Glued, Word.wordy, hx, hy]
  have c := seg_mark (ty := .CLOSE_CURLYBRACKET) (by simp)
  unfold Rule.items body
  by_cases hd : r.decls = []
  · rw [hd]
    simp only [List.isEmpty_nil, if_true, join, List.nil_append]
    refine b.gap (g := .semi) c (by simp) (.inr ?_)
    intro x y hx hy
    unfold Is at hx
    simp [Glued, hx]
  · have e : r.decls.isEmpty = false := by simpa using hd
    rw [e]
    have d := decls_seg hd h3
    have h4 := b.gap (g := .opt) d (by simp) (.inr fun x y hx hy => by unfold Is at hx; simp [Glued, hx])
    have h5 := h4.gap (g := .semi) c (by simp) (.inr ?_)
    · simpa using h5
    · intro x y hx hy
      unfold Is at hy
      rcases hx with hx | hx | hx | hx <;> simp [Glued, Word.wordy, hx, hy]

/-- What `lays_tokens` asks for. -/
theorem items_seg {S : Sheet} (h : S.Src) :
    sep (items S) = true ∧ apart (tight (items S)) = true ∧ ∀ w, Item.word w ∈ items S → Writable w := by
  have key : S = [] ∨ ∃ l, S.flatMap (fun r => r.items ++ [.opt]) = l ++ [.opt] ∧ Seg SimpleStart (Is .CLOSE_CURLYBRACKET) l := by
    induction S with
    | nil => exact .inl rfl
    | cons r S ih =>
      have hr := Rule.seg (h r (by simp))
      right
      rcases ih (fun x hx => h x (by simp [hx])) with rfl | ⟨l, e, hl⟩
      · exact ⟨r.items, by simp, hr⟩
      · refine ⟨r.items ++ .opt :: l, by rw [List.flatMap_cons, e]; simp, hr.gap (g := .opt) hl (by simp) (.inr ?_)⟩
        intro x y hx hy
        unfold Is at hx
        simp [Glued, hx]
  unfold items
  rcases key with rfl | ⟨l, e, hl⟩
  · exact ⟨rfl, rfl, by simp⟩
  · rw [e]
    obtain ⟨x, k, ex, _⟩ := hl.last
    obtain ⟨y, ky, ey, _⟩ := hl.first
    refine ⟨?_, ?_, ?_⟩
    · have h1 := hl.sep
      have h2 : sep (l ++ [.opt]) = true := by
        rw [ex] at h1 ⊢; exact sep_gap h1 rfl rfl
      rw [ey] at h2 ⊢
      exact h2
    · show apart (tight (l ++ [.opt])) = true
      rw [tight_append]
      simpa [tight] using hl.apart
    · intro w hw
      simp at hw
      exact hl.words w hw

/-- The tokens of the text of a plain style sheet. -/
theorem sheet_tokens {S : Sheet} (h : S.Src) {src : Str} (hl : Lays (items S) src) {f : Nat} (hf : src.length < f) :
    Toks (items S) ((Lex.lexAll f (Lex.init src)).1.map Word.of) ∧ (Lex.lexAll f (Lex.init src)).2.err = [] ∧
      (Lex.lexAll f (Lex.init src)).2.exn = none ∧ (Lex.lexAll f (Lex.init src)).2.ub = false := by
  obtain ⟨h1, h2, h3⟩ := items_seg h
  exact lays_tokens hl h1 h3 h2 hf

end Csspp.Spec.Plain
