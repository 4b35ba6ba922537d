import Verif.Lemmas.PlainSel
import Verif.Props.CompileLocal
import Verif.Props.CompileDecl

/-!
For C83: the rules and the declarations of a plain style sheet are compiled.
-/

namespace Csspp.Spec.Plain
open Csspp.Spec (Word types)
open Csspp.Lex (Tok Pos)
open Csspp.Parse
open Csspp.Compile (Gives compValue comp compLoop St Act declaration)

/-- What is written of a token. -/
def face (t : Tok) : NT × Str × Int := (t.ty, t.str, t.int)
def wface (w : Word) : NT × Str × Int := (w.ty, w.str, w.int)

theorem face_of (t : Tok) : wface (Word.of t) = face t := rfl

/-- What is written between two commas. -/
def source (g : List Val) : List Item := join Val.items [.must] g

/-- The word of the value. -/
def Val.word' : Val → Word
  | .word s => { ty := .IDENTIFIER, str := s }
  | .int i u => intWord i u
  | .str s => { ty := .STRING, str := s }
  | .sum i more u => intWord (total i more) u
  | .var n => { ty := .VARIABLE, str := n }

/-- The values between two commas. -/
def group (g : List Val) : List Item := join (fun v => [.word v.word']) [.must] g

/-- compile_list() gives the values. -/
def Keeps (E : Compile.Env) : Prop :=
  ∀ (m : Bool) (g : List Val), g ≠ [] → (∀ v ∈ g, v.Ok) → ∀ ks : List Tok, ks.map Word.of = squeezed (source g) →
    ∃ ks' : List Tok, E.arg m (ks.map Nd.leaf) = some (ks'.map Nd.leaf, []) ∧ ks'.map face = (squeezed (group g)).map wface

/-- An ARG with the words of a list. -/
def IsArg (l : List Item) (n : Nd) : Prop :=
  ∃ (p : Pos) (i : Int) (ks : List Tok), n = .mk { ty := .ARG, pos := p, int := i } (ks.map Nd.leaf) ∧ ks.map face = (squeezed l).map wface

/-- A declaration. -/
def CDecl (d : Decl) (n : Nd) : Prop :=
  ∃ p args, n = .mk { ty := .DECLARATION, pos := p, str := d.name } args ∧ Each (fun g a => IsArg (group g) a) d.values args

/-- The inside of `{ }`. -/
def CBody (ds : List Decl) (l : List Nd) : Prop :=
  ds = [] ∧ l = [] ∨ ds ≠ [] ∧ ∃ p ns, Each CDecl ds ns ∧ (l = ns ∧ ds.length = 1 ∨ l = [.mk { ty := .LIST, pos := p } ns])

/-- A rule. -/
def CRule (r : Rule) (n : Nd) : Prop :=
  ∃ p args o b, n = .mk { ty := .COMPONENT_VALUE, pos := p } (args ++ [.mk o b]) ∧
    Each (fun s a => IsArg (Sel.items s) a) r.sels args ∧ o.ty = .OPEN_CURLYBRACKET ∧ CBody r.decls b

theorem read_exact : ∀ {l : List Item}, (∀ i ∈ l, i ≠ .opt ∧ i ≠ .semi) → ∀ {ks : List Tok}, Read l ks → ks.map Word.of = squeezed l
  | [], _, ks, h => by rw [h.nil]; rfl
  | i :: l, hl, ks, h => by
    have hl' := fun i hi => hl i (List.mem_cons_of_mem _ hi)
    cases i with
    | word w =>
      obtain ⟨t, k, rfl, e, hk⟩ := h.word
      rw [List.map_cons, e, read_exact hl' hk]; rfl
    | must =>
      obtain ⟨t, k, rfl, e, hk⟩ := h.must
      rw [List.map_cons, e, read_exact hl' hk]; rfl
    | opt => exact absurd rfl (hl _ (by simp)).1
    | semi => exact absurd rfl (hl _ (by simp)).2

theorem mem_group {g : List Val} {i : Item} (h : i ∈ group g) : i = .must ∨ ∃ v ∈ g, i = .word v.word' := by
  rcases mem_join h with h | ⟨v, hv, h⟩
  · exact .inl (by simpa using h)
  · exact .inr ⟨v, hv, by simpa using h⟩

/-- The types of the words of a value. -/
def valTy (ty : NT) : Prop := ty = .IDENTIFIER ∨ ty = .INTEGER ∨ ty = .STRING ∨ ty = .ADD ∨ ty = .SUBTRACT ∨ ty = .VARIABLE

theorem mem_more {u : Str} {i : Item} : ∀ {more : List (Bool × Int)}, i ∈ moreItems u more → i = .must ∨ ∃ w, i = .word w ∧ valTy w.ty
  | [], h => by cases h
  | (minus, j) :: l, h => by
    rw [moreItems] at h
    simp only [List.mem_cons] at h
    rcases h with h | h | h | h | h
    · exact .inl h
    · exact .inr ⟨_, h, by cases minus <;> simp [valTy]⟩
    · exact .inl h
    · exact .inr ⟨_, h, by simp [valTy, intWord]⟩
    · exact mem_more h

theorem mem_source {g : List Val} {i : Item} (h : i ∈ source g) : i = .must ∨ ∃ w, i = .word w ∧ valTy w.ty := by
  rcases mem_join h with h | ⟨v, hv, h⟩
  · exact .inl (by simpa using h)
  · cases v with
    | word s => exact .inr ⟨_, List.mem_singleton.1 h, by simp [valTy]⟩
    | int j u => exact .inr ⟨_, List.mem_singleton.1 h, by simp [valTy, intWord]⟩
    | str s => exact .inr ⟨_, List.mem_singleton.1 h, by simp [valTy]⟩
    | var s => exact .inr ⟨_, List.mem_singleton.1 h, by simp [valTy]⟩
    | sum j more u =>
      rcases List.mem_cons.1 h with h | h
      · exact .inr ⟨_, h, by simp [valTy, intWord]⟩
      · exact mem_more h

theorem source_exact {g : List Val} {ks : List Tok} (h : Read (source g) ks) : ks.map Word.of = squeezed (source g) :=
  read_exact (fun i hi => by rcases mem_source hi with rfl | ⟨w, rfl, _⟩ <;> simp) h

theorem source_ty {g : List Val} {ks : List Tok} (h : Read (source g) ks) : ∀ t ∈ ks, t.ty = .WHITESPACE ∨ valTy t.ty ∨
    t.ty = .SEMICOLON := by
  intro t ht
  rcases read_mem h t ht with e | e | e
  · exact .inl (congrArg Word.ty e)
  · simp [e]
  · rcases mem_source e with e | ⟨w, e, hw⟩
    · cases e
    · injection e with e
      have e : t.ty = w.ty := congrArg Word.ty e
      rw [e]; exact .inr (.inl hw)

theorem source_solid {g : List Val} (hne : g ≠ []) (hv : ∀ v ∈ g, v.Ok) {ks : List Tok} (h : Read (source g) ks) :
    Solid ks ∧ ∀ t ∈ ks, t.ty ≠ .COMMA := by
  refine ⟨read_solid (F := IsVal) (L := IsVal) (seg_musts g hne fun v hv' => Val.seg (hv v hv').src) ?_ h, fun t ht => ?_⟩
  · intro i hi
    rcases mem_join hi with h | ⟨v, _, h⟩
    · rw [List.mem_singleton.1 h]; simp
    · exact Val.flat v i h
  · rcases source_ty h t ht with h | (h | h | h | h | h | h) | h <;> rw [h] <;> simp

theorem sel_words {s : Sel} {w : Word} (h : .word w ∈ s.items) : w.ty ≠ .COMMA := by
  have simple : ∀ (x : Simple), .word w ∈ x.items → w.ty ≠ .COMMA := by
    intro s hs
    cases s <;> simp only [Simple.items, List.mem_cons, List.not_mem_nil, or_false] at hs
    · injection hs with hs; rw [hs]; simp
    · rcases hs with hs | hs
      · injection hs with hs; rw [hs]; simp
      · injection hs with hs; rw [hs]; simp
    · injection hs with hs; rw [hs]; simp
  have around : ∀ ty : NT, ty ≠ .COMMA → .word w ∈ [Item.opt, mark ty, .opt] → w.ty ≠ .COMMA := by
    intro ty hty hm
    simp only [List.mem_cons, List.not_mem_nil, or_false] at hm
    rcases hm with hm | hm | hm
    · cases hm
    · injection hm with hm; rw [hm]; exact hty
    · cases hm
  rcases List.mem_append.1 h with h | h
  · obtain ⟨x, _, h⟩ := List.mem_flatMap.1 h
    exact simple x h
  · obtain ⟨p, _, h⟩ := List.mem_flatMap.1 h
    rcases List.mem_append.1 h with h | h
    · cases hp : p.1 with
      | desc => rw [hp] at h; cases List.mem_singleton.1 h
      | child => rw [hp] at h; exact around .GREATER_THAN (by simp) h
      | next => rw [hp] at h; exact around .ADD (by simp) h
      | sibling => rw [hp] at h; exact around .PRECEDED (by simp) h
    · obtain ⟨x, _, h⟩ := List.mem_flatMap.1 h
      exact simple x h

theorem sel_solid {s : Sel} (hs : s.Ok) {ks : List Tok} (h : Read s.items ks) : Solid ks ∧ ∀ t ∈ ks, t.ty ≠ .COMMA := by
  refine ⟨read_solid (Sel.seg hs.1 hs.2.1) (Sel.flat s) h, fun t ht => ?_⟩
  rcases read_mem h t ht with e | e | e
  · rw [show t.ty = .WHITESPACE from congrArg Word.ty e]; simp
  · rw [e]; simp
  · exact sel_words e

theorem clean_of : ∀ {l : List Nd}, (∀ c ∈ l, c.ty ≠ .EOF_TOKEN) → tidy (l.map Nd.ty) = true → Clean l
  | [], _, _ => trivial
  | [c], h, _ => h c (by simp)
  | c :: d :: l, h, ht => by
    refine ⟨h c (by simp), ?_, clean_of (fun x hx => h x (List.mem_cons_of_mem _ hx)) (tidy_tail ht)⟩
    intro hc hd
    simp only [List.map_cons, tidy, hc, hd] at ht
    cases ht

theorem leaves_types (k : List Tok) : (k.map Nd.leaf).map Nd.ty = k.map (·.ty) := by
  rw [List.map_map]; rfl

theorem solid_clean {k : List Tok} (hk : Solid k) : Clean (k.map Nd.leaf) := by
  refine clean_of (fun c hc => ?_) (by rw [leaves_types]; exact hk.tidy)
  obtain ⟨t, ht, rfl⟩ := List.mem_map.1 hc
  have := hk.leaf t ht
  intro e
  rw [show t.ty = .EOF_TOKEN from e] at this
  cases this

theorem leaf_ty {k : List Tok} (hk : Solid k) {c : Nd} (hc : c ∈ k.map Nd.leaf) : leafTy c.ty = true := by
  obtain ⟨t, ht, rfl⟩ := List.mem_map.1 hc
  exact hk.leaf t ht

theorem leafTy_ne {ty : NT} (h : leafTy ty = true) : ty ≠ .LIST ∧ ty ≠ .COMPONENT_VALUE ∧ ty ≠ .OPEN_CURLYBRACKET ∧ ty ≠ .ARG ∧
    ty ≠ .COMMENT ∧ ty ≠ .AT_KEYWORD ∧ ty ≠ .EOF_TOKEN ∧ ty ≠ .FUNCTION ∧ ty ≠ .VARIABLE_FUNCTION ∧
    ty ≠ .DECLARATION := by
  revert h; cases ty <;> decide

theorem Each.map {α β γ : Type} {R : α → β → Prop} {R' : α → γ → Prop} {f : β → γ} (hf : ∀ a b, R a b → R' a (f b))
    {l : List α} {m : List β} (h : Each R l m) : Each R' l (m.map f) := by
  induction h with
  | nil => exact .nil
  | cons a b ih => exact .cons (hf _ _ a) ih

/-! ### A declaration -/

theorem gap_comp {g : List Tok} (hg : Gap g) : Compile.Gap (g.map Nd.leaf) := gap_map hg

theorem computed {E : Compile.Env} (hE : Keeps E) (m : Bool) : ∀ {l : List (List Val)} {a : List (List Nd)},
    (∀ g ∈ l, g ≠ [] ∧ ∀ v ∈ g, v.Ok) → Each (Is' source) l a →
    ∃ args, Compile.Computed E m a args [] ∧
      Each (fun g x => ∃ ks : List Tok, x = ks.map Nd.leaf ∧ ks.map face = (squeezed (group g)).map wface) l args := by
  intro l a hl h
  induction h with
  | nil => exact ⟨[], .nil, .nil⟩
  | cons h1 h2 ih =>
    obtain ⟨args, i1, i2⟩ := ih (fun g hg => hl g (by simp [hg]))
    obtain ⟨ks, rfl, hk⟩ := h1
    have he := source_exact hk
    obtain ⟨ks', j1, j2⟩ := hE m _ (hl _ (by simp)).1 (hl _ (by simp)).2 ks he
    refine ⟨ks'.map Nd.leaf :: args, ?_, .cons ⟨ks', rfl, ?_⟩ i2⟩
    · have := Compile.Computed.cons j1 i1
      simpa using this
    · exact j2

theorem decl_comp {E : Compile.Env} (hE : Keeps E) {d : Decl} (hd : d.Ok) (hs : E.slash d.name = false) {n : Nd} (h : IsDecl d n) :
    ∃ n', CDecl d n' ∧ ∀ s, Gives (fun f => compValue E f n) s (.ok (.into [n']) s) := by
  obtain ⟨p, k, rfl, hk⟩ := h
  obtain ⟨i, k, rfl, hi, hk⟩ := Read.word hk
  obtain ⟨g, k, rfl, hg, hk⟩ := Read.opt hk
  obtain ⟨c, k, rfl, hc, hk⟩ := Read.word hk
  obtain ⟨g', k, rfl, hg', hk⟩ := Read.opt hk
  have hsolid : Solid k := read_solid (valueItems_seg hd.2.1 hd.src.2.2) (valueItems_flat _) hk
  obtain ⟨⟨v, vs, ev, hw⟩, _⟩ := solid_ws hsolid
  have hdec : Compile.Declares ((i :: (g ++ c :: (g' ++ k))).map Nd.leaf) [] d.name (k.map Nd.leaf) := by
    have hn : Compile.Name [Nd.leaf i] (Nd.leaf i) [] := .plain (show i.ty = _ from congrArg Word.ty hi)
    have hc' : (Nd.leaf c).ty = .COLON := congrArg Word.ty hc
    have := Compile.Declares.mk (values := k.map Nd.leaf) hn (gap_comp hg) hc' (gap_comp hg') ev (fun _ e => by
      unfold isWs at hw; rw [e] at hw; cases hw)
    have e : (Nd.leaf i).tok.str = d.name := congrArg Word.str hi
    rw [e] at this
    simpa using this
  have hsep : Compile.separator E d.name = .COMMA := by unfold Compile.separator; rw [hs]; rfl
  obtain ⟨h1, h2⟩ := split_join (f := source) hd.2.1 (fun g hg ks hr => source_solid (hd.2.2 g hg).1 (hd.2.2 g hg).2 hr)
    (g := []) (.inl rfl) hk
  rw [List.nil_append] at h1 h2
  obtain ⟨args, h3, h4⟩ := computed hE (E.metrics d.name) hd.2.2 h2
  have hfilter : ¬ Compile.IeFilter d.name (k.map Nd.leaf) := by
    rintro ⟨_, v', vs', e, h⟩
    rcases h with ⟨h, _⟩ | ⟨h, h'⟩
    · exact (leafTy_ne (leaf_ty hsolid (c := v') (by rw [e]; simp))).2.2.2.2.2.2.2.1 h
    · -- the first value is not `progid`
      have : ∀ {l : List (List Val)}, l ≠ [] → (∀ g ∈ l, g ≠ [] ∧ ∀ v ∈ g, v.Ok) → ∀ {k : List Tok}, Read (valueItems l) k →
          ∀ {t : Tok} {r : List Tok}, k = t :: r → t.ty = .IDENTIFIER → t.str ≠ b!"progid" := by
        intro l hl hv k hk t r ek hty hs
        obtain ⟨g, l, rfl⟩ := List.exists_cons_of_ne_nil hl
        obtain ⟨v, g', eg⟩ := List.exists_cons_of_ne_nil (hv g (by simp)).1
        subst eg
        have hfirst : ∃ w r, valueItems ((v :: g') :: l) = .word w :: r ∧ (w.ty = .IDENTIFIER → v = .word w.str) := by
          have h1 : ∃ w r, v.items = .word w :: r ∧ (w.ty = .IDENTIFIER → v = .word w.str) := by
            cases v with
            | word s => exact ⟨_, _, rfl, fun _ => rfl⟩
            | int j u => exact ⟨_, _, rfl, fun h => by cases h⟩
            | str s => exact ⟨_, _, rfl, fun h => by cases h⟩
            | sum j more u => exact ⟨_, _, rfl, fun h => by cases h⟩
            | var n => exact ⟨_, _, rfl, fun h => by cases h⟩
          obtain ⟨w, r, e, h⟩ := h1
          unfold valueItems
          cases l <;> cases g' <;> simp only [join, e, List.cons_append] <;> exact ⟨_, _, rfl, h⟩
        obtain ⟨w, r', er, hw⟩ := hfirst
        rw [er] at hk
        obtain ⟨t', k', ek', et, _⟩ := Read.word hk
        rw [ek] at ek'
        obtain ⟨rfl, _⟩ := List.cons.inj ek'
        have hv := (hv (v :: g') (by simp)).2 v (by simp)
        have e1 : t.ty = w.ty := congrArg Word.ty et
        have e2 : t.str = w.str := congrArg Word.str et
        rw [hw (by rw [← e1]; exact hty)] at hv
        refine hv.2 (.inl ?_)
        rw [← e2, hs]
        decide
      obtain ⟨t, r, ek⟩ := List.exists_cons_of_ne_nil hsolid.ne
      rw [ek] at e
      obtain ⟨rfl, _⟩ := List.cons.inj e
      exact this hd.2.1 hd.2.2 hk ek h h'
  refine ⟨.mk { ty := .DECLARATION, pos := p, str := d.name } (args.map (Compile.argNode p .COMMA)), ⟨p, _, rfl, ?_⟩, fun s => ?_⟩
  · refine Each.map (fun g x h => ?_) h4
    obtain ⟨ks, rfl, e⟩ := h
    exact ⟨p, _, ks, rfl, e⟩
  · have h5 := Compile.C65_declaration (E := E) (t := { ty := .COMPONENT_VALUE, pos := p }) rfl hdec
      (fun c hc => ⟨(leafTy_ne (leaf_ty hsolid hc)).1, (leafTy_ne (leaf_ty hsolid hc)).2.1, (leafTy_ne (leaf_ty hsolid hc)).2.2.1, (leafTy_ne (leaf_ty hsolid hc)).2.2.2.1⟩)
      (solid_clean hsolid) hfilter (by rw [hsep]; exact complaint_none h1) (by rw [hsep]; exact h3) s
    rw [hsep] at h5
    exact h5

/-! ### A rule -/

theorem decls_comp {E : Compile.Env} (hE : Keeps E) {ds : List Decl} (hd : ∀ d ∈ ds, d.Ok) (hs : ∀ d ∈ ds, E.slash d.name = false)
    {ns : List Nd} (h : Each IsDecl ds ns) {loop : Nat → List Nd → Compile.M (List Nd)}
    (hl : loop = Compile.ruleLoop E ∨ loop = Compile.items E) :
    ∃ ns', Each CDecl ds ns' ∧ ∀ s, Gives (fun f => loop f ns) s (.ok ns' s) := by
  induction h with
  | nil =>
    refine ⟨[], .nil, fun s => ⟨1, fun g hg => ?_⟩⟩
    obtain ⟨g, rfl⟩ : ∃ k, g = k + 1 := ⟨g - 1, by omega⟩
    rcases hl with rfl | rfl
    · show Compile.ruleLoop E (g + 1) [] s = _; rw [Compile.ruleLoop]; rfl
    · show Compile.items E (g + 1) [] s = _; rw [Compile.items]; rfl
  | cons h1 h2 ih =>
    obtain ⟨ns', i1, i2⟩ := ih (fun d h => hd d (by simp [h])) (fun d h => hs d (by simp [h]))
    obtain ⟨n', j1, j2⟩ := decl_comp hE (hd _ (by simp)) (hs _ (by simp)) h1
    refine ⟨n' :: ns', .cons j1 i1, fun s => ?_⟩
    obtain ⟨p, k, rfl, _⟩ := h1
    have hty : n'.ty = .DECLARATION := by obtain ⟨_, _, rfl, _⟩ := j1; rfl
    exact Compile.C65_in_block (t := { ty := .COMPONENT_VALUE, pos := p }) rfl hty (j2 s)
      (by rcases hl with h | h; exact .inl h; exact .inr (.inl h)) (i2 s)

theorem body_comp {E : Compile.Env} (hE : Keeps E) {ds : List Decl} (hd : ∀ d ∈ ds, d.Ok) (hs : ∀ d ∈ ds, E.slash d.name = false)
    {l : List Nd} (h : IsBody1 ds l) : ∃ l', CBody ds l' ∧ ∀ s, Gives (fun f => Compile.ruleLoop E f l) s (.ok l' s) := by
  have hnil : ∀ s, Gives (fun f => Compile.ruleLoop E f []) s (.ok [] s) := fun s => ⟨1, fun g hg => by
    obtain ⟨g, rfl⟩ : ∃ k, g = k + 1 := ⟨g - 1, by omega⟩
    show Compile.ruleLoop E (g + 1) [] s = _; rw [Compile.ruleLoop]; rfl⟩
  rcases h with ⟨rfl, rfl⟩ | ⟨hne, p, ns, hn, rfl⟩
  · exact ⟨[], .inl ⟨rfl, rfl⟩, hnil⟩
  · by_cases h1 : ds.length = 1
    · obtain ⟨d, rfl⟩ := List.length_eq_one_iff.1 h1
      obtain ⟨ns', i1, i2⟩ := decls_comp hE hd hs hn (loop := Compile.ruleLoop E) (.inl rfl)
      refine ⟨ns', .inr ⟨hne, p, ns', i1, .inl ⟨rfl, h1⟩⟩, ?_⟩
      cases hn with
      | cons a b => cases b; exact i2
    · obtain ⟨ns', i1, i2⟩ := decls_comp hE hd hs hn (loop := Compile.items E) (.inr rfl)
      refine ⟨[.mk { ty := .LIST, pos := p } ns'], .inr ⟨hne, p, ns', i1, .inr rfl⟩, fun s => ?_⟩
      have e : finish { ty := .LIST, pos := p } ns = .mk { ty := .LIST, pos := p } ns := by
        cases hn with
        | nil => rfl
        | cons a b =>
          cases b with
          | nil => exact absurd rfl h1
          | cons => rfl
      rw [e]
      refine Compile.Gives.succ (Compile.Gives.bind (k := fun f k => do
        let ns ← Compile.ruleLoop E f []
        pure (Nd.mk { ty := .LIST, pos := p } k :: ns)) (i2 s) (Compile.Gives.map (hnil s))) (fun f => ?_)
      rw [Compile.ruleLoop]
      rfl

theorem take_sels {k : List Tok} (hk : Solid k) {b : Nd} (hb : b.ty = .OPEN_CURLYBRACKET) :
    Parse.body (k.map Nd.leaf ++ [b]) = k.map Nd.leaf ∧ block? (k.map Nd.leaf ++ [b]) = [b] := by
  have h : ∀ c ∈ k.map Nd.leaf, (c.ty != .OPEN_CURLYBRACKET) = true := fun c hc => by
    have := (leafTy_ne (leaf_ty hk hc)).2.2.1
    simpa using this
  unfold Parse.body block?
  constructor
  · rw [List.takeWhile_append_of_pos h, List.takeWhile_cons, if_neg (by rw [hb]; simp), List.append_nil]
  · rw [List.dropWhile_append_of_pos h, List.dropWhile_cons, if_neg (by rw [hb]; simp)]

theorem selectors_of {env : Sel.Env} {l : List Sel} (hl : ∀ s ∈ l, s.Ok) {a : List (List Nd)} (h : Each (Is' Sel.items) l a) :
    ∃ outs, Sel.Spec.Selectors env a outs ∧ outs.flatMap (Sel.hashErrors []) = [] ∧
      Each (fun s x => ∃ ks : List Tok, x = ks.map Nd.leaf ∧ ks.map face = (squeezed (Sel.items s)).map wface) l outs := by
  induction h with
  | nil => exact ⟨[], .nil, rfl, .nil⟩
  | cons h1 h2 ih =>
    obtain ⟨outs, i1, i2, i3⟩ := ih (fun s hs => hl s (by simp [hs]))
    obtain ⟨ks, rfl, hk⟩ := h1
    obtain ⟨k', j1, j2, j3⟩ := selector_of (env := env) (hl _ (by simp)) hk
    refine ⟨k'.map Nd.leaf :: outs, .cons j1 i1, by rw [List.flatMap_cons, j3, i2]; rfl, .cons ⟨k', rfl, ?_⟩ i3⟩
    rw [← j2, List.map_map]
    rfl

theorem rule_comp {E : Compile.Env} (hE : Keeps E) {r : Rule} (hr : r.Ok) (hs : ∀ d ∈ r.decls, E.slash d.name = false) {n : Nd}
    (h : IsRule1 r n) : ∃ n', CRule r n' ∧ ∀ s, Gives (fun f => compValue E f n) s (.ok (.keep n') s) := by
  obtain ⟨p, k, o, b, rfl, hk, ho, hb⟩ := h
  have hsol := sels_solid hr.src hk
  obtain ⟨b', hb1, hb2⟩ := body_comp hE hr.2.2 hs hb
  obtain ⟨h1, h2⟩ := split_join (f := Sel.items) hr.1 (fun s hs ks h => sel_solid (hr.2.1 s hs) h) (g := []) (.inl rfl) hk
  rw [List.nil_append] at h1 h2
  obtain ⟨outs, h3, h4, h5⟩ := selectors_of (env := E.sel) hr.2.1 h2
  have hot : (Nd.mk o b).ty = .OPEN_CURLYBRACKET := ho
  obtain ⟨et1, et2⟩ := take_sels hsol hot
  obtain ⟨t, k', ek⟩ := List.exists_cons_of_ne_nil hsol.ne
  have htl := leafTy_ne (hsol.leaf t (by rw [ek]; simp))
  generalize ekids : k.map Nd.leaf ++ [Nd.mk o b] = kids at *
  have ehead : kids = Nd.leaf t :: (k'.map Nd.leaf ++ [Nd.mk o b]) := by rw [← ekids, ek]; rfl
  have hsel : Sel.parseSelector E.sel (.mk { ty := .COMPONENT_VALUE, pos := p } kids) =
      .ok (outs.map (mkArg .COMMA p) ++ [.mk o b], []) := by
    refine (Sel.C50_rule E.sel (.mk { ty := .COMPONENT_VALUE, pos := p } kids) rfl ?_ ?_ ?_ ?_ ?_ _ _).2 ⟨outs, ?_, ?_, ?_⟩
    · show kids ≠ []; rw [ehead]; simp
    · show kids.head?.map Nd.ty ≠ _; rw [ehead]; show some t.ty ≠ _; intro e; exact htl.2.2.2.1 (by simpa using e)
    · show Clean kids
      refine clean_of (fun c hc => ?_) ?_
      · rw [← ekids] at hc
        rcases List.mem_append.1 hc with hc | hc
        · exact (leafTy_ne (leaf_ty hsol hc)).2.2.2.2.2.2.1
        · rw [List.mem_singleton.1 hc, hot]; simp
      · rw [← ekids, List.map_append, leaves_types]
        refine tidy_junction hsol.tidy rfl (.inr ?_)
        show some (Nd.mk o b).ty ≠ _
        rw [hot]; simp
    · show complaint (pieces .COMMA (Parse.body kids)) = none
      rw [et1]; exact complaint_none h1
    · show (block? kids).length ≤ 1
      rw [et2]; simp
    · show Sel.Spec.Selectors E.sel (arguments (pieces .COMMA (Parse.body kids))) outs
      rw [et1]; exact h3
    · show _ = outs.map (mkArg .COMMA p) ++ block? kids
      rw [et2]
    · exact h4.symm
  refine ⟨.mk { ty := .COMPONENT_VALUE, pos := p } (outs.map (mkArg .COMMA p) ++ [.mk o b']), ⟨p, _, o, b', rfl, ?_, ho, hb1⟩, fun s => ?_⟩
  · refine Each.map (fun g x h => ?_) h5
    obtain ⟨ks, rfl, e⟩ := h
    exact ⟨p, _, ks, rfl, e⟩
  · have hlast : kids.getLast?.map Nd.ty = some .OPEN_CURLYBRACKET := by
      rw [← ekids, List.getLast?_concat]; simp [hot]
    have hrule : Gives (fun f => Compile.rule E f { ty := .COMPONENT_VALUE, pos := p } kids) s
        (.ok (.mk { ty := .COMPONENT_VALUE, pos := p } (outs.map (mkArg .COMMA p) ++ [.mk o b'])) s) := by
      refine Compile.Gives.succ (Compile.Gives.map (k := fun bk => Nd.mk { ty := .COMPONENT_VALUE, pos := p }
        (outs.map (mkArg .COMMA p) ++ [.mk o bk])) (hb2 s)) (fun f => ?_)
      rw [Compile.rule, if_neg (by rw [ehead]; simp), hsel]
      dsimp only
      rw [show Compile.endBlock (outs.map (mkArg .COMMA p) ++ [Nd.mk o b]) = some (outs.map (mkArg .COMMA p), Nd.mk o b) by
        unfold Compile.endBlock
        rw [List.getLast?_concat]
        dsimp only
        rw [if_pos hot, List.dropLast_concat]]
      rfl
    refine Compile.Gives.succ (Compile.Gives.map (k := Act.keep) hrule) (fun f => ?_)
    have hset : Vars.isSet kids = false := by rw [← ekids]; exact sels_set hsol _ (no_colon hk) (no_variable hk)
    have hnest : Compile.isNested kids = false := by
      rw [Compile.isNested_eq]
      refine (not_set (fun x hx => ?_)).2.2
      obtain ⟨c, hc, rfl⟩ := List.mem_map.1 hx
      rw [← ekids] at hc
      rcases List.mem_append.1 hc with hc | hc
      · obtain ⟨t, ht, rfl⟩ := List.mem_map.1 hc
        exact no_colon hk t ht
      · rw [List.mem_singleton.1 hc, hot]; simp
    have hany : kids.any (fun c => decide (c.ty = .COMPONENT_VALUE)) = false := by
      rw [List.any_eq_false]
      intro c hc
      rw [decide_eq_true_iff]
      rw [← ekids] at hc
      rcases List.mem_append.1 hc with hc | hc
      · exact (leafTy_ne (leaf_ty hsol hc)).2.1
      · rw [List.mem_singleton.1 hc, hot]; simp
    have hall : kids.all (fun c => decide (c.ty = .COMPONENT_VALUE)) = false := by
      rw [ehead, List.all_cons, show decide ((Nd.leaf t).ty = .COMPONENT_VALUE) = false from decide_eq_false htl.2.1]
      rfl
    have htt : (Nd.leaf t).ty = t.ty := rfl
    rw [ehead] at hall hany hset hnest hlast ⊢
    rw [compValue, if_neg (by simp), if_neg (by simp [Node.supportsChildren]), htt, if_neg htl.2.2.2.2.1, if_neg htl.2.2.2.1, hall, if_neg (by simp), hany, if_neg (by simp), if_neg htl.2.2.2.2.2.1,
      if_neg (by unfold Vars.isSetBlock; rw [hset]; simp), hnest, if_neg (by simp), if_pos hlast]

theorem rules_comp {E : Compile.Env} (hE : Keeps E) {S : Sheet} (hS : S.Ok) (hs : ∀ r ∈ S, ∀ d ∈ r.decls, E.slash d.name = false)
    {ns : List Nd} (h : Each IsRule1 S ns) : ∃ ns', Each CRule S ns' ∧ ∀ s, Compile.OneByOne E ns ns' s s := by
  induction h with
  | nil => exact ⟨[], .nil, fun _ => .nil⟩
  | cons h1 h2 ih =>
    obtain ⟨ns', i1, i2⟩ := ih (fun r hr => hS r (by simp [hr])) (fun r hr => hs r (by simp [hr]))
    obtain ⟨n', j1, j2⟩ := rule_comp hE (hS _ (by simp)) (hs _ (by simp)) h1
    refine ⟨n' :: ns', .cons j1 i1, fun s => .keep ?_ (i2 s)⟩
    obtain ⟨p, k, o, b, rfl, _⟩ := h1
    refine Compile.Gives.succ (j2 s) (fun f => ?_)
    rw [comp, if_neg (by simp), if_neg (by simp), if_pos rfl]

/-- A plain style sheet is compiled without a message. -/
theorem sheet_comp {E : Compile.Env} (hE : Keeps E) {S : Sheet} (hS : S.Ok) (hs : ∀ r ∈ S, ∀ d ∈ r.decls, E.slash d.name = false)
    {ns : List Nd} (h : Each IsRule1 S ns) (p : Pos) : ∃ ns', Each CRule S ns' ∧
      ∀ s, s.ret = none → Gives (fun f => comp E f (.mk { ty := .LIST, pos := p } ns)) s
        (.ok (.keep (.mk { ty := .LIST, pos := p } ns')) s) := by
  obtain ⟨ns', h1, h2⟩ := rules_comp hE hS hs h
  refine ⟨ns', h1, fun s hr => ?_⟩
  refine Compile.Gives.succ (Compile.Gives.map (k := fun k => Act.keep (.mk { ty := .LIST, pos := p } k))
    (Compile.C70_in_order (h2 s) hr)) (fun f => ?_)
  rw [comp, if_pos (.inl rfl)]

end Csspp.Spec.Plain
