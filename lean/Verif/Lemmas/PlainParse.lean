import Verif.Lemmas.PlainSeg
import Verif.Lemmas.ParserBack

/-!
For C83: the tree of the tokens of a plain style sheet.
-/

namespace Csspp.Spec.Plain
open Csspp.Spec (Word types Glued variableSet variableBlock nestedDeclaration afterColon)
open Csspp.Lex (Tok Pos)
open Csspp.Parse
open Csspp.Node (supportsChildren)

/-- One by one. -/
inductive Each {α β : Type} (R : α → β → Prop) : List α → List β → Prop where
  | nil : Each R [] []
  | cons {a : α} {b : β} {l : List α} {m : List β} : R a b → Each R l m → Each R (a :: l) (b :: m)

/-- The tokens. -/
def Read (l : List Item) (ts : List Tok) : Prop := Toks l (ts.map Word.of)

theorem toks_append {a b : List Item} : ∀ {w : List Word}, Toks (a ++ b) w → ∃ x y, w = x ++ y ∧ Toks a x ∧ Toks b y := by
  induction a with
  | nil => intro w h; exact ⟨[], w, rfl, .nil, h⟩
  | cons i a ih =>
    intro w h
    cases h with
    | word h =>
      obtain ⟨x, y, e, h1, h2⟩ := ih h
      exact ⟨_ :: x, y, by rw [e]; rfl, .word h1, h2⟩
    | opt hg h =>
      obtain ⟨x, y, e, h1, h2⟩ := ih h
      exact ⟨_ ++ x, y, by rw [e, List.append_assoc], .opt hg h1, h2⟩
    | must h =>
      obtain ⟨x, y, e, h1, h2⟩ := ih h
      exact ⟨_ :: x, y, by rw [e]; rfl, .must h1, h2⟩
    | noSemi hg h =>
      obtain ⟨x, y, e, h1, h2⟩ := ih h
      exact ⟨_ ++ x, y, by rw [e, List.append_assoc], .noSemi hg h1, h2⟩
    | semi hg hg' h =>
      obtain ⟨x, y, e, h1, h2⟩ := ih h
      exact ⟨_ ++ _ :: (_ ++ x), y, by rw [e]; simp, .semi hg hg' h1, h2⟩

theorem Read.append {a b : List Item} {ts : List Tok} (h : Read (a ++ b) ts) :
    ∃ x y, ts = x ++ y ∧ Read a x ∧ Read b y := by
  obtain ⟨x, y, e, h1, h2⟩ := toks_append h
  obtain ⟨u, v, e', rfl, rfl⟩ := List.map_eq_append_iff.1 e
  exact ⟨u, v, e', h1, h2⟩

/-- No blank or one. -/
def Gap (ts : List Tok) : Prop := ts = [] ∨ ∃ t, ts = [t] ∧ Word.of t = ws

theorem gap_of {ts : List Tok} (h : OptWs (ts.map Word.of)) : Gap ts := by
  generalize e : ts.map Word.of = w at h
  cases h with
  | none => exact .inl (List.map_eq_nil_iff.1 e)
  | one =>
    obtain ⟨t, l, rfl, h1, h2⟩ := List.map_eq_cons_iff.1 e
    rw [List.map_eq_nil_iff.1 h2]
    exact .inr ⟨t, rfl, h1⟩

theorem Gap.ty {ts : List Tok} (h : Gap ts) : ts = [] ∨ ∃ t, ts = [t] ∧ t.ty = .WHITESPACE := by
  rcases h with h | ⟨t, h, e⟩
  · exact .inl h
  · exact .inr ⟨t, h, by have := congrArg Word.ty e; exact this⟩

theorem Read.opt {l : List Item} {ts : List Tok} (h : Read (.opt :: l) ts) : ∃ g k, ts = g ++ k ∧ Gap g ∧ Read l k := by
  unfold Read at h
  generalize e : ts.map Word.of = w at h
  cases h with
  | opt hg h =>
    obtain ⟨u, v, e', rfl, rfl⟩ := List.map_eq_append_iff.1 e
    exact ⟨u, v, e', gap_of hg, h⟩

theorem Read.must {l : List Item} {ts : List Tok} (h : Read (.must :: l) ts) :
    ∃ t k, ts = t :: k ∧ Word.of t = ws ∧ Read l k := by
  unfold Read at h
  generalize e : ts.map Word.of = w at h
  cases h with
  | must h =>
    obtain ⟨u, v, e', h1, rfl⟩ := List.map_eq_cons_iff.1 e
    exact ⟨u, v, e', h1, h⟩

theorem Read.word {w : Word} {l : List Item} {ts : List Tok} (h : Read (.word w :: l) ts) :
    ∃ t k, ts = t :: k ∧ Word.of t = w ∧ Read l k := by
  unfold Read at h
  generalize e : ts.map Word.of = w' at h
  cases h with
  | word h =>
    obtain ⟨u, v, e', h1, rfl⟩ := List.map_eq_cons_iff.1 e
    exact ⟨u, v, e', h1, h⟩

theorem Read.nil {ts : List Tok} (h : Read [] ts) : ts = [] := by
  unfold Read at h
  generalize e : ts.map Word.of = w at h
  cases h
  exact List.map_eq_nil_iff.1 e

theorem Read.semi {l : List Item} {ts : List Tok} (h : Read (.semi :: l) ts) :
    (∃ g k, ts = g ++ k ∧ Gap g ∧ Read l k) ∨
      ∃ g s g' k, ts = g ++ s :: (g' ++ k) ∧ Gap g ∧ s.ty = .SEMICOLON ∧ Gap g' ∧ Read l k := by
  unfold Read at h
  generalize e : ts.map Word.of = w at h
  cases h with
  | noSemi hg h =>
    obtain ⟨u, v, e', rfl, rfl⟩ := List.map_eq_append_iff.1 e
    exact .inl ⟨u, v, e', gap_of hg, h⟩
  | semi hg hg' h =>
    obtain ⟨u, v, e', rfl, e2⟩ := List.map_eq_append_iff.1 e
    obtain ⟨s, v', rfl, hs, e3⟩ := List.map_eq_cons_iff.1 e2
    obtain ⟨u', v'', rfl, rfl, rfl⟩ := List.map_eq_append_iff.1 e3
    exact .inr ⟨u, s, u', v'', e', gap_of hg, congrArg Word.ty hs, gap_of hg', h⟩

/-! ### The leaves -/

/-- A token that is only added to the list. -/
def leafTy (ty : NT) : Bool :=
  match ty with
  | .IDENTIFIER | .HASH | .INTEGER | .STRING | .PERIOD | .COMMA | .COLON | .GREATER_THAN | .ADD | .SUBTRACT | .PRECEDED
  | .VARIABLE | .WHITESPACE => true
  | _ => false

/-- No two blanks in a row. -/
def tidy : List NT → Bool
  | a :: b :: l => !(a == .WHITESPACE && b == .WHITESPACE) && tidy (b :: l)
  | _ => true

theorem tidy_tail {a : NT} {l : List NT} (h : tidy (a :: l) = true) : tidy l = true := by
  cases l with
  | nil => rfl
  | cons b l => rw [tidy, Bool.and_eq_true] at h; exact h.2

theorem tidy_left {a b : List NT} (h : tidy (a ++ b) = true) : tidy a = true := by
  induction a with
  | nil => rfl
  | cons x a ih =>
    have ih := ih (tidy_tail h)
    cases a with
    | nil => rfl
    | cons y a =>
      simp only [List.cons_append, tidy, Bool.and_eq_true] at h ⊢
      exact ⟨h.1, ih⟩

theorem tidy_right {a b : List NT} (h : tidy (a ++ b) = true) : tidy b = true := by
  induction a with
  | nil => exact h
  | cons x a ih => exact ih (tidy_tail h)

theorem tidy_snoc {a : List NT} {b : NT} (h : tidy (a ++ [b]) = true) :
    b ≠ .WHITESPACE ∨ a = [] ∨ a.getLast? ≠ some .WHITESPACE := by
  induction a with
  | nil => exact .inr (.inl rfl)
  | cons x a ih =>
    cases a with
    | nil =>
      by_cases hb : b = .WHITESPACE
      · subst hb
        right; right
        simp [tidy] at h
        simpa using h
      · exact .inl hb
    | cons y a =>
      rcases ih (tidy_tail h) with h1 | h1 | h1
      · exact .inl h1
      · cases h1
      · right; right
        simpa [List.getLast?_cons_cons] using h1

theorem tidy_junction {a b : List NT} (ha : tidy a = true) (hb : tidy b = true)
    (h : a.getLast? ≠ some .WHITESPACE ∨ b.head? ≠ some .WHITESPACE) : tidy (a ++ b) = true := by
  induction a with
  | nil => exact hb
  | cons x a ih =>
    cases a with
    | nil =>
      cases b with
      | nil => rfl
      | cons y b =>
        show (!(x == .WHITESPACE && y == .WHITESPACE) && tidy (y :: b)) = true
        rw [hb]
        rcases h with h | h
        · have : x ≠ .WHITESPACE := by simpa using h
          cases x <;> simp_all
        · have : y ≠ .WHITESPACE := by simpa using h
          cases y <;> simp_all
    | cons y a =>
      have := ih (tidy_tail ha) (by simpa [List.getLast?_cons_cons] using h)
      simp only [List.cons_append, tidy, Bool.and_eq_true] at ha this ⊢
      exact ⟨ha.1, this⟩

theorem types_leaves (ts : List Tok) : types (ts.map Nd.leaf) = ts.map (·.ty) := by
  unfold types
  rw [List.map_map]
  rfl

theorem leaf_facts {ty : NT} (h : leafTy ty = true) (fl : Flags) : stops fl ty = false ∧ ty ≠ .AT_KEYWORD ∧ ty ≠ .SEMICOLON ∧
    ty ≠ .EXCLAMATION ∧ ty ≠ .OPEN_CURLYBRACKET ∧ ty ≠ .OPEN_SQUAREBRACKET ∧ ty ≠ .OPEN_PARENTHESIS ∧ ty ≠ .FUNCTION ∧
    ty ≠ .VARIABLE_FUNCTION ∧ ty ≠ .EOF_TOKEN := by
  revert h
  cases ty <;> simp [leafTy, stops]

theorem leaf_run {t : Tok} (h : leafTy t.ty = true) {g : Nat} {fl : Flags} {result list : Nd} {rest : List Tok} {fin : Pos}
    {errs : List (Err × Pos)} (hl : list.ty = .COMPONENT_VALUE) (hw : tidy (types list.kids ++ [t.ty]) = true) :
    cvLoop (g + 2) fl result list ⟨t :: rest, fin, errs⟩ =
      cvLoop (g + 1) fl result (.mk list.tok (list.kids ++ [.leaf t])) ⟨rest, fin, errs⟩ := by
  obtain ⟨h1, h2, h3, h4, h5, h6, h7, h8, h9, h10⟩ := leaf_facts h fl
  have hc : supportsChildren list.ty = true := by rw [hl]; rfl
  have hcv : componentValue (g + 1) ⟨t :: rest, fin, errs⟩ = .ok (.leaf t) ⟨rest, fin, errs⟩ := by
    unfold componentValue
    rw [last_run, if_neg h5, if_neg h6, if_neg (by simp [h7, h8, h9]), next_run]
    rfl
  conv => lhs; unfold cvLoop
  rw [last_run, if_neg (by rw [h1]; simp), if_neg h2, if_neg h3, if_neg h4, val_run _ (beforeBlock_eq hc),
    if_neg (by simp [h5, h6, h7]), bind_run hcv,
    val_run _ (addChild_ok (n := .mk list.tok list.kids) hc), if_neg h5]
  have e : push list.kids (.leaf t) = list.kids ++ [.leaf t] := by
    unfold push
    rw [if_pos]
    refine ⟨h10, ?_⟩
    rcases tidy_snoc hw with h | h | h
    · exact .inl h
    · right; left
      have : list.kids = [] := List.map_eq_nil_iff.1 h
      rw [this]; rfl
    · right; right
      unfold types at h
      rw [List.getLast?_map] at h
      exact h
  show cvLoop (g + 1) fl result (.mk list.tok (push list.kids (.leaf t))) _ = _
  rw [e]

theorem leaves_run {g : Nat} {fl : Flags} {result : Nd} {lt : Tok} {rest : List Tok} {fin : Pos}
    {errs : List (Err × Pos)} (hl : lt.ty = .COMPONENT_VALUE) : ∀ {ts : List Tok} {k : List Nd}, (∀ t ∈ ts, leafTy t.ty = true) →
    tidy (types k ++ ts.map (·.ty)) = true →
    cvLoop (g + ts.length + 1) fl result (.mk lt k) ⟨ts ++ rest, fin, errs⟩ =
      cvLoop (g + 1) fl result (.mk lt (k ++ ts.map Nd.leaf)) ⟨rest, fin, errs⟩ := by
  intro ts
  induction ts with
  | nil => intro k _ _; simp
  | cons t ts ih =>
    intro k h hw
    have h1 : types (k ++ [Nd.leaf t]) = types k ++ [t.ty] := by unfold types; simp; rfl
    have := leaf_run (t := t) (h t (by simp)) (g := g + ts.length) (fl := fl) (result := result) (list := .mk lt k)
      (rest := ts ++ rest) (fin := fin) (errs := errs) hl (by
        refine tidy_left (b := ts.map (·.ty)) ?_
        rw [mk_kids]
        simpa using hw)
    rw [List.length_cons, List.cons_append]
    refine Eq.trans this ?_
    rw [mk_tok, mk_kids, ih (fun x hx => h x (by simp [hx])) (by rw [h1]; simpa using hw)]
    simp

/-! ### Names and values -/

/-- Words and blanks. -/
def Flat (l : List Item) : Prop := ∀ i ∈ l, i ≠ .semi ∧ ∀ w, i = .word w → leafTy w.ty = true ∧ w.ty ≠ .WHITESPACE

/-- Tokens for the list, without a blank first or last. -/
structure Solid (ts : List Tok) : Prop where
  ne : ts ≠ []
  leaf : ∀ t ∈ ts, leafTy t.ty = true
  tidy : tidy (ts.map (·.ty)) = true
  head : (ts.map (·.ty)).head? ≠ some .WHITESPACE
  last : (ts.map (·.ty)).getLast? ≠ some .WHITESPACE

theorem gap_cons {g k : List Tok} (hg : Gap g) (h1 : ∀ t ∈ k, leafTy t.ty = true) (h2 : tidy (k.map (·.ty)) = true)
    (h3 : (k.map (·.ty)).head? ≠ some .WHITESPACE) :
    (∀ t ∈ g ++ k, leafTy t.ty = true) ∧ tidy ((g ++ k).map (·.ty)) = true := by
  rcases hg.ty with rfl | ⟨t, rfl, e⟩
  · exact ⟨h1, h2⟩
  · refine ⟨?_, ?_⟩
    · intro x hx
      rcases List.mem_append.1 hx with hx | hx
      · rw [List.mem_singleton.1 hx, e]; rfl
      · exact h1 x hx
    · rw [List.map_append]
      exact tidy_junction rfl h2 (.inr h3)

theorem read_flat : ∀ {l : List Item} {ts : List Tok}, Flat l → sep l = true → Read l ts →
    (∀ t ∈ ts, leafTy t.ty = true) ∧ tidy (ts.map (·.ty)) = true ∧
      (wordFirst l = true → (ts.map (·.ty)).head? ≠ some .WHITESPACE) := by
  intro l
  induction l with
  | nil => intro ts _ _ h; rw [h.nil]; exact ⟨by simp, rfl, by simp⟩
  | cons i l ih =>
    intro ts hf hs h
    have hi := hf i (by simp)
    have hs' := sep_tail hs
    have hf' : Flat l := fun j hj => hf j (by simp [hj])
    cases i with
    | word w =>
      obtain ⟨t, k, rfl, e, hk⟩ := h.word
      obtain ⟨h1, h2, h3⟩ := ih hf' hs' hk
      have hw := hi.2 w rfl
      have et : t.ty = w.ty := congrArg Word.ty e
      refine ⟨?_, ?_, fun _ => ?_⟩
      · intro x hx
        rcases List.mem_cons.1 hx with rfl | hx
        · rw [et]; exact hw.1
        · exact h1 x hx
      · exact tidy_junction (a := [t.ty]) rfl h2 (.inl (by rw [et]; simpa using hw.2))
      · rw [List.map_cons, et]; simpa using hw.2
    | opt =>
      obtain ⟨g, k, rfl, hg, hk⟩ := h.opt
      obtain ⟨h1, h2, h3⟩ := ih hf' hs' hk
      have := gap_cons hg h1 h2 (h3 (sep_next hs (by simp)))
      exact ⟨this.1, this.2, fun h => by cases h⟩
    | must =>
      obtain ⟨t, k, rfl, hg, hk⟩ := h.must
      obtain ⟨h1, h2, h3⟩ := ih hf' hs' hk
      have := gap_cons (g := [t]) (.inr ⟨t, rfl, hg⟩) h1 h2 (h3 (sep_next hs (by simp)))
      exact ⟨this.1, this.2, fun h => by cases h⟩
    | semi => exact absurd rfl hi.1

theorem read_solid {F L : Word → Prop} {l : List Item} {ts : List Tok} (hs : Seg F L l) (hf : Flat l) (h : Read l ts) :
    Solid ts := by
  obtain ⟨w, k, ew, _⟩ := hs.first
  obtain ⟨x, kx, ex, _⟩ := hs.last
  obtain ⟨h1, h2, h3⟩ := read_flat hf hs.sep h
  have hx := (hf (.word x) (by rw [ex]; simp)).2 x rfl
  rw [ex] at h
  obtain ⟨a, b, rfl, ha, hb⟩ := h.append
  obtain ⟨t, k', rfl, e, hk⟩ := hb.word
  rw [hk.nil] at h1 h2 h3 ⊢
  have et : t.ty = x.ty := congrArg Word.ty e
  refine ⟨by simp, h1, h2, h3 (by rw [ew]; rfl), ?_⟩
  rw [List.map_append, List.map_cons, List.map_nil, List.getLast?_concat, et]
  simpa using hx.2

theorem mem_join {α : Type} {f : α → List Item} {sp : List Item} {i : Item} : ∀ {l : List α}, i ∈ join f sp l →
    i ∈ sp ∨ ∃ x ∈ l, i ∈ f x
  | [], h => by cases h
  | [x], h => .inr ⟨x, by simp, h⟩
  | x :: y :: l, h => by
    rw [join, List.mem_append, List.mem_append] at h
    rcases h with (h | h) | h
    · exact .inr ⟨x, by simp, h⟩
    · exact .inl h
    · rcases mem_join h with h | ⟨z, hz, h⟩
      · exact .inl h
      · exact .inr ⟨z, List.mem_cons_of_mem _ hz, h⟩

theorem Flat.of_word {w : Word} (h : leafTy w.ty = true ∧ w.ty ≠ .WHITESPACE) {i : Item} (hi : i = .word w) :
    i ≠ .semi ∧ ∀ w, i = .word w → leafTy w.ty = true ∧ w.ty ≠ .WHITESPACE := by
  subst hi
  refine ⟨by simp, fun v hv => ?_⟩
  cases hv; exact h

theorem Flat.around {ty : NT} (h : leafTy ty = true ∧ ty ≠ .WHITESPACE) : Flat [.opt, mark ty, .opt] := by
  intro i hi
  simp only [List.mem_cons, List.not_mem_nil, or_false] at hi
  rcases hi with rfl | hi | rfl
  · simp
  · exact Flat.of_word h hi
  · simp

theorem more_flat (u : Str) : ∀ more : List (Bool × Int), Flat (moreItems u more)
  | [] => fun i hi => by cases hi
  | (minus, j) :: l => by
    intro i hi
    rw [moreItems] at hi
    simp only [List.mem_cons] at hi
    rcases hi with h | h | h | h | h
    · rw [h]; simp
    · exact Flat.of_word (by cases minus <;> simp [leafTy]) h
    · rw [h]; simp
    · exact Flat.of_word (by simp [leafTy, intWord]) h
    · exact more_flat u l i h

theorem Val.flat (v : Val) : Flat v.items := by
  intro i hi
  cases v with
  | word s => exact Flat.of_word (by simp [leafTy]) (List.mem_singleton.1 hi)
  | int j u => exact Flat.of_word (by simp [leafTy, intWord]) (List.mem_singleton.1 hi)
  | str s => exact Flat.of_word (by simp [leafTy]) (List.mem_singleton.1 hi)
  | var s => exact Flat.of_word (by simp [leafTy]) (List.mem_singleton.1 hi)
  | sum j more u =>
    rcases List.mem_cons.1 hi with h | h
    · exact Flat.of_word (by simp [leafTy, intWord]) h
    · exact more_flat u more i h

theorem valueItems_flat (l : List (List Val)) : Flat (valueItems l) := by
  intro i hi
  rcases mem_join hi with h | ⟨g, _, h⟩
  · exact Flat.around (ty := .COMMA) (by decide) i h
  · rcases mem_join h with h | ⟨v, _, h⟩
    · rw [List.mem_singleton.1 h]; simp
    · exact Val.flat v i h

theorem Decl.flat (d : Decl) : Flat d.items := by
  intro i hi
  unfold Decl.items at hi
  simp only [List.mem_cons] at hi
  rcases hi with h | h | h | h | h
  · exact Flat.of_word (by simp [leafTy]) h
  · rw [h]; simp
  · exact Flat.of_word (by simp [leafTy]) h
  · rw [h]; simp
  · exact valueItems_flat _ i h

theorem Simple.flat (s : Simple) : Flat s.items := by
  intro i hi
  cases s <;> simp only [Simple.items, List.mem_cons, List.not_mem_nil, or_false] at hi
  · exact Flat.of_word (by simp [leafTy]) hi
  · rcases hi with hi | hi <;> exact Flat.of_word (by simp [leafTy]) hi
  · exact Flat.of_word (by simp [leafTy]) hi

theorem Comb.flat (c : Comb) : Flat c.items := by
  cases c with
  | desc => intro i hi; rw [List.mem_singleton.1 hi]; simp
  | child => exact Flat.around (ty := .GREATER_THAN) (by decide)
  | next => exact Flat.around (ty := .ADD) (by decide)
  | sibling => exact Flat.around (ty := .PRECEDED) (by decide)

theorem Sel.flat (s : Sel) : Flat s.items := by
  have hs : ∀ l : List Simple, Flat (l.flatMap Simple.items) := by
    intro l i hi
    obtain ⟨x, _, h⟩ := List.mem_flatMap.1 hi
    exact x.flat i h
  intro i hi
  rcases List.mem_append.1 hi with h | h
  · exact hs _ i h
  · obtain ⟨p, _, h⟩ := List.mem_flatMap.1 h
    rcases List.mem_append.1 h with h | h
    · exact p.1.flat i h
    · exact hs _ i h

theorem sels_flat (l : List Sel) : Flat (join Sel.items [.opt, mark .COMMA, .opt] l) := by
  intro i hi
  rcases mem_join hi with h | ⟨g, _, h⟩
  · exact Flat.around (ty := .COMMA) (by decide) i h
  · exact g.flat i h

/-! ### The declarations -/

/-- The tree of a declaration. -/
def IsDecl (d : Decl) (n : Nd) : Prop :=
  ∃ p k, n = .mk { ty := .COMPONENT_VALUE, pos := p } (k.map Nd.leaf) ∧ Read d.items k

theorem trim_heads {g k : List Tok} (hg : Gap g) (hk : Solid k) (r : List Nd) :
    dropHeads (g.map Nd.leaf ++ (k.map Nd.leaf ++ r)) = k.map Nd.leaf ++ r := by
  have h0 : dropHeads (k.map Nd.leaf ++ r) = k.map Nd.leaf ++ r := by
    refine dropHeads_id ?_
    have := hk.head
    cases k with
    | nil => exact absurd rfl hk.ne
    | cons t k => exact this
  rcases hg.ty with rfl | ⟨t, rfl, e⟩
  · exact h0
  · have h1 : dropHeads ([t].map Nd.leaf ++ (k.map Nd.leaf ++ r)) = dropHeads (k.map Nd.leaf ++ r) := by
      unfold dropHeads
      have : (Nd.leaf t).ty = .WHITESPACE := e
      simp [this]
    rw [h1, h0]

theorem trim_ends {g k : List Tok} (hg : Gap g) (hk : Solid k) :
    dropEnds (k.map Nd.leaf ++ g.map Nd.leaf) = k.map Nd.leaf := by
  have h0 : dropEnds (k.map Nd.leaf) = k.map Nd.leaf := dropEnds_id (by rw [types_leaves]; exact hk.last)
  rcases hg.ty with rfl | ⟨t, rfl, e⟩
  · simpa using h0
  · have h1 : dropEnds (k.map Nd.leaf ++ [t].map Nd.leaf) = dropEnds (k.map Nd.leaf) := by
      unfold dropEnds
      have : (Nd.leaf t).ty = .WHITESPACE := e
      simp [this]
    rw [h1, h0]

theorem trim_value {g k g' : List Tok} (hg : Gap g) (hk : Solid k) (hg' : Gap g') (t : Tok) :
    lastValue t (g.map Nd.leaf ++ (k.map Nd.leaf ++ g'.map Nd.leaf)) = [.mk t (k.map Nd.leaf)] := by
  have h1 : dropHead (g.map Nd.leaf ++ (k.map Nd.leaf ++ g'.map Nd.leaf)) = k.map Nd.leaf ++ g'.map Nd.leaf := by
    have h0 : dropHead (k.map Nd.leaf ++ g'.map Nd.leaf) = k.map Nd.leaf ++ g'.map Nd.leaf := by
      refine dropHead_id ?_
      have := hk.head
      cases k with
      | nil => exact absurd rfl hk.ne
      | cons t k => exact this
    rcases hg.ty with rfl | ⟨t, rfl, e⟩
    · exact h0
    · show dropHead (Nd.leaf t :: _) = _
      rw [dropHead_cons, if_pos (show (Nd.leaf t).ty = .WHITESPACE from e)]
      rfl
  have h2 : dropEnd (k.map Nd.leaf ++ g'.map Nd.leaf) = k.map Nd.leaf := by
    rcases hg'.ty with rfl | ⟨t, rfl, e⟩
    · rw [List.map_nil, List.append_nil]
      exact dropEnd_id (by rw [types_leaves]; exact hk.last)
    · unfold dropEnd
      rw [if_pos (by
        unfold types
        rw [List.map_append, List.map_cons, List.map_cons, List.map_nil, List.map_nil, List.getLast?_concat]
        exact congrArg some e)]
      simp
  unfold lastValue
  rw [h1, h2]
  cases k with
  | nil => exact absurd rfl hk.ne
  | cons t k => rfl

theorem gap_value {g : List Tok} (hg : Gap g) (t : Tok) : lastValue t (g.map Nd.leaf) = [] := by
  rcases hg.ty with rfl | ⟨t', rfl, e⟩
  · rfl
  · unfold lastValue
    rw [show dropHead ([t'].map Nd.leaf) = [] from by
      show dropHead (Nd.leaf t' :: []) = _
      rw [dropHead_cons, if_pos (show (Nd.leaf t').ty = .WHITESPACE from e)]]
    rfl

theorem gap_leaves {g : List Tok} (hg : Gap g) : (∀ t ∈ g, leafTy t.ty = true) ∧ tidy (g.map (·.ty)) = true := by
  rcases hg.ty with rfl | ⟨t, rfl, e⟩
  · exact ⟨by simp, rfl⟩
  · refine ⟨fun x hx => ?_, rfl⟩
    rw [List.mem_singleton.1 hx, e]; rfl

/-- A gap, tokens and a gap. -/
theorem around_leaves {g k g' : List Tok} (hg : Gap g) (hk : Solid k) (hg' : Gap g') :
    (∀ t ∈ g ++ (k ++ g'), leafTy t.ty = true) ∧ tidy ((g ++ (k ++ g')).map (·.ty)) = true := by
  have h1 := gap_leaves hg'
  refine gap_cons hg ?_ ?_ ?_
  · intro t ht
    rcases List.mem_append.1 ht with h | h
    · exact hk.leaf t h
    · exact h1.1 t h
  · rw [List.map_append]
    exact tidy_junction hk.tidy h1.2 (.inl hk.last)
  · have := hk.head
    have hn := hk.ne
    cases k with
    | nil => exact absurd rfl hn
    | cons t k => exact this

theorem semi_run {s : Tok} (hs : s.ty = .SEMICOLON) {g : Nat} {result : Nd} {lt : Tok} {k : List Nd} {rest : List Tok}
    {fin : Pos} {errs : List (Err × Pos)} (hl : lt.ty = .COMPONENT_VALUE) (hr : result.ty = .LIST) {k' : List Nd}
    (hk : dropEnds (dropHeads k) = k') :
    cvLoop (g + 1) ⟨false, false⟩ result (.mk lt k) ⟨s :: rest, fin, errs⟩ =
      (if k' = [] then cvLoop g ⟨false, false⟩ result (.mk lt []) ⟨rest, fin, errs⟩
       else cvLoop g ⟨false, false⟩ (.mk result.tok (result.kids ++ [.mk lt k']))
        (.mk { ty := .COMPONENT_VALUE, pos := s.pos } []) ⟨rest, fin, errs⟩) := by
  have hc : ∀ k, supportsChildren (Nd.mk lt k).ty = true := by
    intro k; show supportsChildren lt.ty = true; rw [hl]; rfl
  have hcr : supportsChildren result.ty = true := by rw [hr]; rfl
  conv => lhs; unfold cvLoop
  rw [last_run, if_neg (by rw [hs]; simp [stops]), if_neg (by rw [hs]; simp), if_pos hs, next_run,
    val_run _ (dropFirsts_eq (hc _)), mk_kids, mk_tok, val_run _ (dropLasts_eq (hc _)), mk_kids, mk_tok, hk,
    val_run (v := false) _ (by rw [endsVariable_eq (hc _)]; rfl), if_neg (by simp),
    val_run _ (isEmpty_ok (hc _)), mk_kids]
  cases k' with
  | nil => simp
  | cons x k' =>
    rw [if_neg (by simp), if_neg (by simp), val_run _ (addChild_ok hcr), push_group (c := .mk lt (x :: k')) (.inr hl)]
    rfl

/-- The declarations of a block. -/
theorem decls_run {close : Tok} (hc : close.ty = .CLOSE_CURLYBRACKET) {rest : List Tok} {fin : Pos} {errs : List (Err × Pos)} :
    ∀ (ds : List Decl), ds ≠ [] → (∀ d ∈ ds, d.Src) → ∀ (ts : List Tok) (f : Nat) (result : Nd) (p : Pos), result.ty = .LIST →
    Read (.opt :: (join Decl.items [.opt, mark .SEMICOLON, .opt] ds ++ [.semi])) ts → ts.length + 1 < f →
    ∃ ns, Each IsDecl ds ns ∧
      cvLoop f ⟨false, false⟩ result (.mk { ty := .COMPONENT_VALUE, pos := p } []) ⟨ts ++ close :: rest, fin, errs⟩ =
        .ok (finish result.tok (result.kids ++ ns)) ⟨close :: rest, fin, errs⟩
  | [], h, _ => absurd rfl h
  | [d], _, hok => by
    intro ts f result p hr h hf
    obtain ⟨g, ts, rfl, hg, h⟩ := h.opt
    obtain ⟨k, ts, rfl, hk, h⟩ := Read.append (a := d.items) h
    have hs := read_solid (Decl.seg (hok d (by simp))) d.flat hk
    have hd : IsDecl d (.mk { ty := .COMPONENT_VALUE, pos := p } (k.map Nd.leaf)) := ⟨p, k, rfl, hk⟩
    refine ⟨_, .cons hd .nil, ?_⟩
    rcases h.semi with ⟨g', e, rfl, hg', he⟩ | ⟨g', s, g'', e, rfl, hg', hs', hg'', he⟩
    · rw [he.nil] at hf ⊢
      obtain ⟨h1, h2⟩ := around_leaves hg hs hg'
      obtain ⟨f, rfl⟩ : ∃ f', f = f' + (g ++ (k ++ g')).length + 1 := ⟨f - ((g ++ (k ++ g')).length + 1), by
        simp at hf ⊢; omega⟩
      have := leaves_run (g := f) (fl := ⟨false, false⟩) (result := result) (lt := { ty := .COMPONENT_VALUE, pos := p })
        (rest := close :: rest) (fin := fin) (errs := errs) rfl (k := []) h1 h2
      rw [List.append_nil, this, stops_run (by intro t r e; cases e; rw [hc]; rfl), listEnd_eq hr rfl, mk_tok, mk_kids]
      show R.ok _ _ = _
      rw [show ([] : List Nd) ++ (g ++ (k ++ g')).map Nd.leaf = g.map Nd.leaf ++ (k.map Nd.leaf ++ g'.map Nd.leaf) by simp,
        trim_value hg hs hg']
    · rw [he.nil, List.append_nil] at hf ⊢
      obtain ⟨h1, h2⟩ := around_leaves hg hs hg'
      obtain ⟨f, rfl⟩ : ∃ f', f = f' + g''.length + 1 + (g ++ (k ++ g')).length + 1 :=
        ⟨f - (g''.length + 1 + (g ++ (k ++ g')).length + 1), by simp at hf ⊢; omega⟩
      have := leaves_run (g := f + g''.length + 1) (fl := ⟨false, false⟩) (result := result)
        (lt := { ty := .COMPONENT_VALUE, pos := p })
        (rest := s :: (g'' ++ close :: rest)) (fin := fin) (errs := errs) rfl (k := []) h1 h2
      rw [show g ++ (k ++ (g' ++ s :: g'')) ++ close :: rest = g ++ (k ++ g') ++ s :: (g'' ++ close :: rest) by simp, this,
        show ([] : List Nd) ++ (g ++ (k ++ g')).map Nd.leaf = g.map Nd.leaf ++ (k.map Nd.leaf ++ g'.map Nd.leaf) by simp,
        semi_run hs' rfl hr (by rw [trim_heads hg hs, trim_ends hg' hs]), if_neg (by simpa using hs.ne)]
      obtain ⟨h3, h4⟩ := gap_leaves hg''
      rw [leaves_run (g := f) rfl (k := []) h3 h4, stops_run (by intro t r e; cases e; rw [hc]; rfl),
        listEnd_eq (result := .mk result.tok _) hr rfl, mk_tok, mk_kids, mk_tok, mk_kids, List.nil_append, gap_value hg'',
        List.append_nil]
      rfl
  | d :: d' :: ds, _, hok => by
    intro ts f result p hr h hf
    obtain ⟨g, ts, rfl, hg, h⟩ := h.opt
    rw [join, List.append_assoc, List.append_assoc] at h
    obtain ⟨k, ts, rfl, hk, h⟩ := Read.append (a := d.items) h
    have hs := read_solid (Decl.seg (hok d (by simp))) d.flat hk
    have hd : IsDecl d (.mk { ty := .COMPONENT_VALUE, pos := p } (k.map Nd.leaf)) := ⟨p, k, rfl, hk⟩
    replace h : Read (.opt :: mark .SEMICOLON :: .opt ::
      (join Decl.items [.opt, mark .SEMICOLON, .opt] (d' :: ds) ++ [.semi])) ts := h
    obtain ⟨g', ts, rfl, hg', h⟩ := Read.opt h
    obtain ⟨s, ts, rfl, hs', h⟩ := Read.word h
    have hs' : s.ty = .SEMICOLON := congrArg Word.ty hs'
    obtain ⟨h1, h2⟩ := around_leaves hg hs hg'
    obtain ⟨f, rfl⟩ : ∃ f', f = f' + 1 + (g ++ (k ++ g')).length + 1 :=
        ⟨f - (1 + (g ++ (k ++ g')).length + 1), by simp at hf ⊢; omega⟩
    have := leaves_run (g := f + 1) (fl := ⟨false, false⟩) (result := result)
        (lt := { ty := .COMPONENT_VALUE, pos := p })
        (rest := s :: (ts ++ close :: rest)) (fin := fin) (errs := errs) rfl (k := []) h1 h2
    obtain ⟨ns, hn, e⟩ := decls_run hc (rest := rest) (fin := fin) (errs := errs) (d' :: ds) (by simp) (fun x hx => hok x (List.mem_cons_of_mem _ hx)) ts (f + 1)
      (.mk result.tok (result.kids ++ [.mk { ty := .COMPONENT_VALUE, pos := p } (k.map Nd.leaf)])) s.pos hr h
      (by simp at hf; omega)
    refine ⟨_, .cons hd hn, ?_⟩
    rw [show g ++ (k ++ (g' ++ s :: ts)) ++ close :: rest = g ++ (k ++ g') ++ s :: (ts ++ close :: rest) by simp, this,
        show ([] : List Nd) ++ (g ++ (k ++ g')).map Nd.leaf = g.map Nd.leaf ++ (k.map Nd.leaf ++ g'.map Nd.leaf) by simp,
        semi_run hs' rfl hr (by rw [trim_heads hg hs, trim_ends hg' hs]), if_neg (by simpa using hs.ne), e, mk_tok, mk_kids]
    simp

/-- A block without a declaration. -/
theorem nothing_run {close : Tok} (hc : close.ty = .CLOSE_CURLYBRACKET) {rest : List Tok} {fin : Pos}
    {errs : List (Err × Pos)} {ts : List Tok} {f : Nat} {result : Nd} {p : Pos} (hr : result.ty = .LIST)
    (h : Read [.semi] ts) (hf : ts.length + 1 < f) :
    cvLoop f ⟨false, false⟩ result (.mk { ty := .COMPONENT_VALUE, pos := p } []) ⟨ts ++ close :: rest, fin, errs⟩ =
        .ok (finish result.tok result.kids) ⟨close :: rest, fin, errs⟩ := by
  rcases h.semi with ⟨g, e, rfl, hg, he⟩ | ⟨g, s, g', e, rfl, hg, hs', hg', he⟩
  · rw [he.nil] at hf ⊢
    obtain ⟨h1, h2⟩ := gap_leaves hg
    obtain ⟨f, rfl⟩ : ∃ f', f = f' + g.length + 1 := ⟨f - (g.length + 1), by simp at hf ⊢; omega⟩
    rw [List.append_nil, leaves_run (g := f) rfl (k := []) h1 h2, stops_run (by intro t r e; cases e; rw [hc]; rfl),
      listEnd_eq hr rfl, mk_tok, mk_kids, List.nil_append, gap_value hg, List.append_nil]
    rfl
  · rw [he.nil, List.append_nil] at hf ⊢
    obtain ⟨h1, h2⟩ := gap_leaves hg
    obtain ⟨h3, h4⟩ := gap_leaves hg'
    obtain ⟨f, rfl⟩ : ∃ f', f = f' + g'.length + 1 + g.length + 1 := ⟨f - (g'.length + 1 + g.length + 1), by simp at hf ⊢; omega⟩
    have hd : dropEnds (dropHeads ([] ++ g.map Nd.leaf)) = [] := by
      rcases hg.ty with rfl | ⟨t, rfl, e⟩
      · rfl
      · have : (Nd.leaf t).ty = .WHITESPACE := e
        simp [dropHeads, dropEnds, this]
    rw [show g ++ s :: g' ++ close :: rest = g ++ s :: (g' ++ close :: rest) by simp,
      leaves_run (g := f + g'.length + 1) rfl (k := []) h1 h2, semi_run hs' rfl hr hd, if_pos rfl,
      leaves_run (g := f) rfl (k := []) h3 h4, stops_run (by intro t r e; cases e; rw [hc]; rfl),
      listEnd_eq hr rfl, mk_tok, mk_kids, List.nil_append, gap_value hg', List.append_nil]
    rfl

/-! ### The rules -/

/-- The tree of the inside of `{ }`: one declaration, or the list of them. -/
def IsBody (ds : List Decl) (l : List Nd) : Prop :=
  ∃ p ns, Each IsDecl ds ns ∧ l = [finish { ty := .LIST, pos := p } ns]

/-- The tree of a rule. -/
def IsRule (r : Rule) (n : Nd) : Prop :=
  ∃ p k o b, n = .mk { ty := .COMPONENT_VALUE, pos := p } (k.map Nd.leaf ++ [.mk o b]) ∧
    Read (join Sel.items [.opt, mark .COMMA, .opt] r.sels) k ∧ Word.of o = { ty := .OPEN_CURLYBRACKET } ∧ IsBody r.decls b

theorem finish_ty {ds : List Decl} {ns : List Nd} (h : Each IsDecl ds ns) {p : Pos} :
    (finish { ty := .LIST, pos := p } ns).ty = .LIST ∨ (finish { ty := .LIST, pos := p } ns).ty = .COMPONENT_VALUE := by
  cases h with
  | nil => exact .inl rfl
  | cons h1 h2 =>
    obtain ⟨_, _, rfl, _⟩ := h1
    cases h2 with
    | nil => exact .inr rfl
    | cons _ _ => exact .inl rfl

/-- `{ ... }` -/
theorem block_run' {o close : Tok} (ho : o.ty = .OPEN_CURLYBRACKET) (hc : close.ty = .CLOSE_CURLYBRACKET)
    {rest : List Tok} {fin : Pos} {errs : List (Err × Pos)} {ds : List Decl} (hok : ∀ d ∈ ds, d.Src) {ts : List Tok}
    (h : Read (body ds) ts) {f : Nat} (hf : ts.length + 5 < f) :
    ∃ b, IsBody ds b ∧ componentValue f ⟨o :: (ts ++ close :: rest), fin, errs⟩ = .ok (.mk o b) ⟨rest, fin, errs⟩ := by
  obtain ⟨f, rfl⟩ : ∃ f', f = f' + 4 := ⟨f - 4, by omega⟩
  obtain ⟨l, hl⟩ : ∃ l : Tok, l = (⟨ts ++ close :: rest, fin, errs⟩ : St).last := ⟨_, rfl⟩
  obtain ⟨ns, hn, e⟩ : ∃ ns, Each IsDecl ds ns ∧
      cvLoop f ⟨false, false⟩ (newNode .LIST l) (newNode .COMPONENT_VALUE l) ⟨ts ++ close :: rest, fin, errs⟩ =
        .ok (finish { ty := .LIST, pos := l.pos } ns) ⟨close :: rest, fin, errs⟩ := by
    by_cases hd : ds = []
    · subst hd
      refine ⟨[], .nil, ?_⟩
      exact nothing_run hc (result := newNode .LIST l) rfl h (by omega)
    · have hb : body ds = .opt :: (join Decl.items [.opt, mark .SEMICOLON, .opt] ds ++ [.semi]) := by
        unfold body
        rw [show ds.isEmpty = false by simpa using hd]
        simp
      rw [hb] at h
      exact decls_run hc ds hd hok ts f (newNode .LIST l) l.pos rfl h (by omega)
  have hg := finish_ty hn (p := l.pos)
  refine ⟨[finish { ty := .LIST, pos := l.pos } ns], ⟨l.pos, ns, hn, rfl⟩, ?_⟩
  have hcl : componentValueList (f + 1) ⟨false, false⟩ ⟨ts ++ close :: rest, fin, errs⟩ =
      .ok (finish { ty := .LIST, pos := l.pos } ns) ⟨close :: rest, fin, errs⟩ := by
    unfold componentValueList
    rw [last_eq, ← hl]
    exact e
  have hbl : blockLoop (f + 2) (.leaf o) ⟨ts ++ close :: rest, fin, errs⟩ =
      .ok (.mk o [finish { ty := .LIST, pos := l.pos } ns]) ⟨close :: rest, fin, errs⟩ := by
    unfold blockLoop
    rw [bind_run hcl, val_run _ (addChild_ok (n := .leaf o) (by show supportsChildren o.ty = true; rw [ho]; rfl)),
      push_group hg]
    have hbt : betweenLists o ⟨close :: rest, fin, errs⟩ = .ok () ⟨close :: rest, fin, errs⟩ := by
      unfold betweenLists
      rw [last_run, if_neg (by rw [hc]; simp), if_neg (by rw [hc]; simp)]
      rfl
    refine Eq.trans (bind_run hbt) ?_
    rw [last_run, if_pos (.inl hc)]
    rfl
  unfold componentValue
  rw [last_run, if_pos ho]
  unfold blockList
  rw [last_run, next_run, bind_run hbl]
  have hcl' : closeList o ⟨close :: rest, fin, errs⟩ = .ok () ⟨rest, fin, errs⟩ := by
    unfold closeList
    rw [last_run, if_neg (by rw [hc]; simp)]
    rfl
  rw [bind_run hcl']
  rfl

theorem read_mem : ∀ {l : List Item} {ts : List Tok}, Read l ts → ∀ t ∈ ts, Word.of t = ws ∨ t.ty = .SEMICOLON ∨ .word (Word.of t) ∈ l := by
  intro l
  induction l with
  | nil => intro ts h t ht; rw [h.nil] at ht; cases ht
  | cons i l ih =>
    intro ts h t ht
    have gap : ∀ {g : List Tok}, Gap g → t ∈ g → Word.of t = ws := by
      intro g hg hm
      rcases hg with rfl | ⟨x, rfl, e⟩
      · cases hm
      · rw [List.mem_singleton.1 hm]; exact e
    have lift : ∀ {ts}, Read l ts → t ∈ ts → Word.of t = ws ∨ t.ty = .SEMICOLON ∨ .word (Word.of t) ∈ i :: l := fun h hm =>
      (ih h t hm).imp id (Or.imp id (List.mem_cons_of_mem _))
    cases i with
    | word w =>
      obtain ⟨x, k, rfl, e, hk⟩ := h.word
      rcases List.mem_cons.1 ht with rfl | ht
      · right; right; rw [e]; simp
      · exact lift hk ht
    | opt =>
      obtain ⟨g, k, rfl, hg, hk⟩ := h.opt
      rcases List.mem_append.1 ht with ht | ht
      · exact .inl (gap hg ht)
      · exact lift hk ht
    | must =>
      obtain ⟨x, k, rfl, e, hk⟩ := h.must
      rcases List.mem_cons.1 ht with rfl | ht
      · exact .inl e
      · exact lift hk ht
    | semi =>
      rcases h.semi with ⟨g, e, rfl, hg, he⟩ | ⟨g, s, g', e, rfl, hg, hs', hg', he⟩
      · rcases List.mem_append.1 ht with ht | ht
        · exact .inl (gap hg ht)
        · exact lift he ht
      · simp only [List.mem_append, List.mem_cons] at ht
        rcases ht with ht | rfl | ht | ht
        · exact .inl (gap hg ht)
        · exact .inr (.inl hs')
        · exact .inl (gap hg' ht)
        · exact lift he ht

theorem no_colon {r : Rule} {k : List Tok} (h : Read (join Sel.items [.opt, mark .COMMA, .opt] r.sels) k) :
    ∀ t ∈ k, t.ty ≠ .COLON := by
  intro t ht
  rcases read_mem h t ht with h | h | h
  · rw [show t.ty = .WHITESPACE from congrArg Word.ty h]; simp
  · rw [h]; simp
  · have simple : ∀ (s : Simple), .word (Word.of t) ∈ s.items → t.ty ≠ .COLON := by
      intro s hs
      cases s <;> simp only [Simple.items, List.mem_cons, List.not_mem_nil, or_false] at hs
      · injection hs with hs; rw [show t.ty = .IDENTIFIER from congrArg Word.ty hs]; simp
      · rcases hs with hs | hs
        · injection hs with hs; rw [show t.ty = .PERIOD from congrArg Word.ty hs]; simp
        · injection hs with hs; rw [show t.ty = .IDENTIFIER from congrArg Word.ty hs]; simp
      · injection hs with hs; rw [show t.ty = .HASH from congrArg Word.ty hs]; simp
    have around : ∀ ty : NT, ty ≠ .COLON → .word (Word.of t) ∈ [Item.opt, mark ty, .opt] → t.ty ≠ .COLON := by
      intro ty hty hm
      simp only [List.mem_cons, List.not_mem_nil, or_false] at hm
      rcases hm with hm | hm | hm
      · cases hm
      · injection hm with hm; rw [show t.ty = ty from congrArg Word.ty hm]; exact hty
      · cases hm
    rcases mem_join h with h | ⟨s, _, h⟩
    · exact around .COMMA (by simp) h
    · rcases List.mem_append.1 h with h | h
      · obtain ⟨x, _, h⟩ := List.mem_flatMap.1 h
        exact simple x h
      · obtain ⟨p, _, h⟩ := List.mem_flatMap.1 h
        rcases List.mem_append.1 h with h | h
        · cases hp : p.1 with
          | desc => rw [hp] at h; cases List.mem_singleton.1 h
          | child => rw [hp] at h; exact around .GREATER_THAN (by simp) h
          | next => rw [hp] at h; exact around .ADD (by simp) h
          | sibling => rw [hp] at h; exact around .PRECEDED (by simp) h
        · obtain ⟨x, _, h⟩ := List.mem_flatMap.1 h
          exact simple x h

theorem no_variable {r : Rule} {k : List Tok} (h : Read (join Sel.items [.opt, mark .COMMA, .opt] r.sels) k) :
    ∀ t ∈ k, t.ty ≠ .VARIABLE := by
  intro t ht
  rcases read_mem h t ht with h | h | h
  · rw [show t.ty = .WHITESPACE from congrArg Word.ty h]; simp
  · rw [h]; simp
  · have simple : ∀ (s : Simple), .word (Word.of t) ∈ s.items → t.ty ≠ .VARIABLE := by
      intro s hs
      cases s <;> simp only [Simple.items, List.mem_cons, List.not_mem_nil, or_false] at hs
      · injection hs with hs; rw [show t.ty = .IDENTIFIER from congrArg Word.ty hs]; simp
      · rcases hs with hs | hs
        · injection hs with hs; rw [show t.ty = .PERIOD from congrArg Word.ty hs]; simp
        · injection hs with hs; rw [show t.ty = .IDENTIFIER from congrArg Word.ty hs]; simp
      · injection hs with hs; rw [show t.ty = .HASH from congrArg Word.ty hs]; simp
    have around : ∀ ty : NT, ty ≠ .VARIABLE → .word (Word.of t) ∈ [Item.opt, mark ty, .opt] → t.ty ≠ .VARIABLE := by
      intro ty hty hm
      simp only [List.mem_cons, List.not_mem_nil, or_false] at hm
      rcases hm with hm | hm | hm
      · cases hm
      · injection hm with hm; rw [show t.ty = ty from congrArg Word.ty hm]; exact hty
      · cases hm
    rcases mem_join h with h | ⟨s, _, h⟩
    · exact around .COMMA (by simp) h
    · rcases List.mem_append.1 h with h | h
      · obtain ⟨x, _, h⟩ := List.mem_flatMap.1 h
        exact simple x h
      · obtain ⟨p, _, h⟩ := List.mem_flatMap.1 h
        rcases List.mem_append.1 h with h | h
        · cases hp : p.1 with
          | desc => rw [hp] at h; cases List.mem_singleton.1 h
          | child => rw [hp] at h; exact around .GREATER_THAN (by simp) h
          | next => rw [hp] at h; exact around .ADD (by simp) h
          | sibling => rw [hp] at h; exact around .PRECEDED (by simp) h
        · obtain ⟨x, _, h⟩ := List.mem_flatMap.1 h
          exact simple x h

theorem after_none {ts : List NT} (h : ∀ t ∈ ts, t ≠ .COLON) : afterColon ts = none := by
  unfold afterColon
  split
  · exact absurd rfl (h .COLON (by simp))
  · exact absurd rfl (h .COLON (by simp))
  · rfl

theorem not_set {ts : List NT} (h : ∀ t ∈ ts, t ≠ .COLON) : variableSet ts = false ∧ variableBlock ts = false ∧
    nestedDeclaration ts = false := by
  refine ⟨?_, ?_, ?_⟩
  · unfold variableSet
    split
    · rw [after_none (fun t ht => h t (by simp [ht]))]; rfl
    · rw [after_none (fun t ht => h t (by simp [ht]))]; rfl
    · rfl
  · unfold variableBlock
    split
    · rw [after_none (fun t ht => h t (by simp [ht]))]
    · rw [after_none (fun t ht => h t (by simp [ht]))]
    · rfl
  · unfold nestedDeclaration
    split
    · rw [after_none (fun t ht => h t (by simp [ht]))]; simp
    · rfl

theorem rule_run {r : Rule} (hr : r.Src) {ts rest : List Tok} {fin : Pos} {errs : List (Err × Pos)}
    (h : Read r.items ts) {f : Nat} (hf : ts.length + 8 < f) :
    ∃ n, IsRule r n ∧ qualifiedRule f ⟨ts ++ rest, fin, errs⟩ = .ok n ⟨rest, fin, errs⟩ := by
  obtain ⟨a, ts, rfl, h1, h2⟩ := Read.append h
  obtain ⟨k, a, rfl, hk, h1⟩ := Read.append h1
  obtain ⟨g, a, rfl, hg, h1⟩ := h1.opt
  obtain ⟨o, a, rfl, ho, h1⟩ := Read.word h1
  rw [h1.nil] at hf ⊢
  obtain ⟨ts, c, rfl, hb, hc⟩ := Read.append h2
  obtain ⟨close, c, rfl, hc', h1⟩ := Read.word hc
  rw [h1.nil] at hf ⊢
  have hot : o.ty = .OPEN_CURLYBRACKET := congrArg Word.ty ho
  have hct : close.ty = .CLOSE_CURLYBRACKET := congrArg Word.ty hc'
  have hseg : Seg SimpleStart NameEnd (join Sel.items [.opt, mark .COMMA, .opt] r.sels) := by
    refine seg_join (by simp) ?_ ?_ _ hr.1 fun s hs => Sel.seg (hr.2.1 s hs).1 (hr.2.1 s hs).2.1
    · intro x y hx hy
      unfold Is at hy
      rcases hx with ⟨hx, _⟩ | hx <;> simp [Glued, Word.wordy, hx, hy]
    · intro x y hx hy
      unfold Is at hx
      simp [Glued, hx]
  have hs := read_solid hseg (sels_flat _) hk
  have hnc := no_colon hk
  obtain ⟨f, rfl⟩ : ∃ f', f = f' + 1 + (k ++ g).length + 1 + 1 := ⟨f - ((k ++ g).length + 3), by simp at hf ⊢; omega⟩
  obtain ⟨b, hb1, hb2⟩ := block_run' (o := o) (close := close) hot hct (rest := rest) (fin := fin) (errs := errs) hr.2.2 hb
    (f := f + 1) (by simp at hf; omega)
  obtain ⟨t, k', ek⟩ : ∃ t k', k = t :: k' := by
    cases k with
    | nil => exact absurd rfl hs.ne
    | cons t k => exact ⟨t, k, rfl⟩
  have htl : leafTy t.ty = true := hs.leaf t (by rw [ek]; simp)
  have htw : t.ty ≠ .WHITESPACE := by
    have := hs.head
    rw [ek] at this
    simpa using this
  obtain ⟨l1, l2⟩ : (∀ x ∈ k ++ g, leafTy x.ty = true) ∧ tidy ((k ++ g).map (·.ty)) = true := by
    have := around_leaves (g := []) (.inl rfl) hs hg
    simpa using this
  have hlast : (⟨t :: k' ++ g ++ [o] ++ (ts ++ [close]) ++ rest, fin, errs⟩ : St).last = t := rfl
  have htypes : ∀ x ∈ types (k.map Nd.leaf ++ [Nd.mk o b]), x ≠ .COLON := by
    intro x hx
    unfold types at hx
    rw [List.map_append] at hx
    rcases List.mem_append.1 hx with hx | hx
    · rw [List.map_map] at hx
      obtain ⟨y, hy, rfl⟩ := List.mem_map.1 hx
      exact hnc y hy
    · rw [show x = (Nd.mk o b).ty from by simpa using hx, show (Nd.mk o b).ty = o.ty from rfl, hot]; simp
  have hns := not_set htypes
  let ct : Tok := { ty := .COMPONENT_VALUE, pos := t.pos }
  have hcc : ∀ k, supportsChildren (Nd.mk ct k).ty = true := fun _ => rfl
  have hfirst : (types (k.map Nd.leaf ++ [Nd.mk o b])).head? ≠ some .WHITESPACE := by
    rw [ek]
    show some t.ty ≠ _
    simpa using htw
  have hlst : (types (k.map Nd.leaf ++ [Nd.mk o b])).getLast? ≠ some .WHITESPACE := by
    unfold types
    rw [List.map_append, List.map_cons, List.map_nil, List.getLast?_concat]
    show some o.ty ≠ _
    rw [hot]; simp
  have hcv : componentValueList (f + 1 + (k ++ g).length + 1 + 1) ⟨false, true⟩
      ⟨(k ++ (g ++ [o])) ++ (ts ++ [close]) ++ rest, fin, errs⟩ =
        .ok (.mk ct (k.map Nd.leaf ++ [.mk o b])) ⟨rest, fin, errs⟩ := by
    unfold componentValueList
    rw [last_eq]
    have e1 : (⟨(k ++ (g ++ [o])) ++ (ts ++ [close]) ++ rest, fin, errs⟩ : St).last = t := by rw [ek]; rfl
    rw [e1]
    have e2 : (k ++ (g ++ [o])) ++ (ts ++ [close]) ++ rest = (k ++ g) ++ (o :: (ts ++ close :: rest)) := by simp
    rw [e2]
    refine Eq.trans (leaves_run (g := f + 1) (k := []) (lt := ct) rfl l1 l2) ?_
    rw [List.nil_append]
    conv => lhs; unfold cvLoop
    have e3 : dropEnd ((k ++ g).map Nd.leaf) = k.map Nd.leaf := by
      rcases hg.ty with rfl | ⟨x, rfl, e⟩
      · rw [List.append_nil]
        exact dropEnd_id (by rw [types_leaves]; exact hs.last)
      · unfold dropEnd
        rw [if_pos (by
          unfold types
          rw [List.map_append, List.map_append, List.map_cons, List.map_cons, List.map_nil, List.map_nil, List.getLast?_concat]
          exact congrArg some e)]
        simp
    rw [last_run, if_neg (by rw [hot]; simp [stops]), if_neg (by rw [hot]; simp), if_neg (by rw [hot]; simp),
      if_neg (by rw [hot]; simp), val_run _ (beforeBlock_eq (hcc _)), mk_kids, mk_tok, if_pos (.inl hot), e3, bind_run hb2,
      val_run _ (addChild_ok (hcc _)), mk_kids, mk_tok, if_pos hot, push_ne (by show o.ty ≠ _; rw [hot]; simp) (by show o.ty ≠ _; rw [hot]; simp),
      val_run _ (dropFirsts_eq (hcc _)), mk_kids, mk_tok, dropHeads_id hfirst,
      val_run (v := false) _ (by rw [isBlockValue_eq (hcc _), mk_kids, hns.2.1, hns.2.2]; rfl), if_pos rfl, listEnd_eq rfl rfl,
      mk_tok, mk_kids, lastValue_run (by simp) hfirst hlst]
    rfl
  refine ⟨.mk ct (k.map Nd.leaf ++ [.mk o b]), ⟨t.pos, k, o, b, rfl, hk, ho, hb1⟩, ?_⟩
  unfold qualifiedRule
  rw [last_eq]
  have e1 : (⟨(k ++ (g ++ [o])) ++ (ts ++ [close]) ++ rest, fin, errs⟩ : St).last = t := by rw [ek]; rfl
  obtain ⟨_, _, h3, _, _, _, _, _, _, h10⟩ := leaf_facts htl ⟨false, true⟩
  rw [e1, if_neg h10, if_neg h3, bind_run hcv, val_run (v := false) _ (by rw [isEmpty_ok (hcc _), mk_kids, ek]; rfl),
    if_neg (by simp), val_run _ (getLast_ok (c := .mk o b) (hcc _) (by rw [mk_kids, List.getLast?_concat])),
    val_run (v := false) _ (by rw [isVariableSet_eq false (hcc _), mk_kids]; show (pure (variableSet _) : M Bool) = _; rw [hns.1]), if_neg (by
      rintro ⟨_, h⟩; exact h hot)]
  rfl

/-- The rules of a style sheet. -/
theorem rules_run {fin : Pos} : ∀ (S : Sheet), S.Src → ∀ (ts : List Tok) (result : Nd) (f : Nat), result.ty = .LIST →
    Read (.opt :: S.flatMap (fun r => r.items ++ [.opt])) ts → ts.length + 10 < f →
    ∃ ns, Each IsRule S ns ∧
      stylesheetLoop f result ⟨ts, fin, []⟩ = .ok (.mk result.tok (result.kids ++ ns)) ⟨[], fin, []⟩ := by
  intro S
  induction S with
  | nil =>
    intro _ ts result f hr h hf
    refine ⟨[], .nil, ?_⟩
    obtain ⟨g, k, rfl, hg, h⟩ := h.opt
    rw [h.nil, List.append_nil] at hf ⊢
    have e : stylesheetLoop (f - 1) result ⟨[], fin, []⟩ = .ok (.mk result.tok (result.kids ++ [])) ⟨[], fin, []⟩ := by
      obtain ⟨f, rfl⟩ : ∃ f', f = f' + 2 := ⟨f - 2, by omega⟩
      show stylesheetLoop (f + 1) _ _ = _
      unfold stylesheetLoop
      show (if NT.EOF_TOKEN = .EOF_TOKEN then _ else _ : M Nd) _ = _
      rw [if_pos rfl, List.append_nil]
      obtain ⟨t, k⟩ := result
      rfl
    rcases hg.ty with rfl | ⟨t, rfl, et⟩
    · obtain ⟨f, rfl⟩ : ∃ f', f = f' + 2 := ⟨f - 2, by omega⟩
      conv => lhs; unfold stylesheetLoop
      show (if NT.EOF_TOKEN = .EOF_TOKEN then _ else _ : M Nd) _ = _
      rw [if_pos rfl, List.append_nil]
      obtain ⟨t, k⟩ := result
      rfl
    · obtain ⟨f, rfl⟩ : ∃ f', f = f' + 1 := ⟨f - 1, by omega⟩
      conv => lhs; unfold stylesheetLoop
      rw [last_run, if_neg (by rw [et]; simp), if_pos (by simp [et]), next_run]
      exact e
  | cons r S ih =>
    intro hok ts result f hr h hf
    obtain ⟨g, ts, rfl, hg, h⟩ := h.opt
    rw [List.flatMap_cons, List.append_assoc] at h
    obtain ⟨k, ts, rfl, hk, h⟩ := Read.append h
    obtain ⟨f, rfl⟩ : ∃ f', f = f' + 2 := ⟨f - 2, by omega⟩
    have hcr : supportsChildren result.ty = true := by rw [hr]; rfl
    have key : ∀ f, k.length + ts.length + 9 < f → ∃ ns, Each IsRule (r :: S) ns ∧
      stylesheetLoop (f + 1) result ⟨k ++ ts, fin, []⟩ = .ok (.mk result.tok (result.kids ++ ns)) ⟨[], fin, []⟩ := by
      intro f hf
      obtain ⟨n, hn, e1⟩ := rule_run (hok r (by simp)) hk (rest := ts) (fin := fin) (errs := []) (f := f) (by omega)
      obtain ⟨p, kk, o, b, en, _⟩ := hn.imp (fun p h => h)
      have hnt : n.ty = .COMPONENT_VALUE := by rw [en]; rfl
      obtain ⟨t, k', ek, htt⟩ : ∃ t k', k = t :: k' ∧ (t.ty = .IDENTIFIER ∨ t.ty = .HASH ∨ t.ty = .PERIOD) := by
        obtain ⟨w, l, ew, hw⟩ := (Rule.seg (hok r (by simp))).first
        rw [ew] at hk
        obtain ⟨t, k', ek, et, _⟩ := hk.word
        refine ⟨t, k', ek, ?_⟩
        rw [show t.ty = w.ty from congrArg Word.ty et]
        exact hw
      have hlen : 0 < k.length := by rw [ek]; simp
      obtain ⟨ns, h2, e2⟩ := ih (fun x hx => hok x (by simp [hx])) ts (.mk result.tok (result.kids ++ [n])) f hr h (by omega)
      refine ⟨n :: ns, .cons hn h2, ?_⟩
      conv => lhs; unfold stylesheetLoop
      have el : (⟨k ++ ts, fin, []⟩ : St).last = t := by rw [ek]; rfl
      rw [last_eq, el]
      have hty : t.ty ≠ .EOF_TOKEN ∧ ¬ (t.ty = .CDO ∨ t.ty = .CDC ∨ t.ty = .WHITESPACE) ∧ isClose t.ty = false ∧
          t.ty ≠ .COMMENT ∧ t.ty ≠ .AT_KEYWORD := by
        rcases htt with h | h | h <;> rw [h] <;> simp [isClose]
      rw [if_neg hty.1, if_neg hty.2.1, if_neg (by rw [hty.2.2.1]; simp), if_neg hty.2.2.2.1, if_neg hty.2.2.2.2,
        bind_run e1, val_run _ (addChild_ok hcr), push_group (.inr hnt), e2, mk_tok, mk_kids]
      simp
    rcases hg.ty with rfl | ⟨t, rfl, et⟩
    · exact key (f + 1) (by simp at hf; omega)
    · obtain ⟨ns, h2, e2⟩ := key f (by simp at hf; omega)
      refine ⟨ns, h2, ?_⟩
      conv => lhs; unfold stylesheetLoop
      rw [List.singleton_append, last_run, if_neg (by rw [et]; simp), if_pos (by simp [et]), next_run]
      exact e2

/-- The tree of a plain style sheet. -/
theorem sheet_tree {S : Sheet} (hok : S.Src) {ts : List Tok} (h : Read (items S) ts) {fin : Pos} {f : Nat}
    (hf : ts.length + 10 < f) : ∃ p ns, Each IsRule S ns ∧
      stylesheet f ⟨ts, fin, []⟩ = .ok (.mk { ty := .LIST, pos := p } ns) ⟨[], fin, []⟩ := by
  obtain ⟨ns, h1, h2⟩ := rules_run (fin := fin) S hok ts (newNode .LIST (⟨ts, fin, []⟩ : St).last) f rfl h hf
  exact ⟨_, ns, h1, h2⟩

end Csspp.Spec.Plain
