import Verif.Lemmas.PlainParse
import Verif.Spec.PlainVars
import Verif.Lemmas.VarsStep
import Verif.Props.Scopes

/-!
For C83: the preprocessor on the tree of a plain style sheet.
-/

namespace Csspp.Spec.Plain
open Csspp.Spec (Word)
open Csspp.Lex (Tok Pos)
open Csspp.Parse
open Csspp.Vars

/-- The inside of `{ }` after the preprocessor: an empty list is gone. -/
def IsBody1 (ds : List Decl) (l : List Nd) : Prop := ds = [] ∧ l = [] ∨ ds ≠ [] ∧ IsBody ds l

/-- The same of a rule. -/
def IsRule1 (r : Rule) (n : Nd) : Prop :=
  ∃ p k o b, n = .mk { ty := .COMPONENT_VALUE, pos := p } (k.map Nd.leaf ++ [.mk o b]) ∧
    Read (join Sel.items [.opt, mark .COMMA, .opt] r.sels) k ∧ o.ty = .OPEN_CURLYBRACKET ∧ IsBody1 r.decls b

theorem leaf_plain {t : Tok} (h : leafTy t.ty = true) (hv : t.ty ≠ .VARIABLE) : _root_.Csspp.Spec.Plain (Nd.leaf t) := by
  refine .mk t [] ?_ ?_ ?_ ?_ ?_ (fun c hc => by cases hc)
  · exact hv
  all_goals (intro e; rw [e] at h; cases h)

theorem leaf_mark {t : Tok} (h : leafTy t.ty = true) : Vars.mark false (Nd.leaf t) = Nd.leaf t := by
  have : Vars.marks t.ty = false := by revert h; cases t.ty <;> decide
  unfold Nd.leaf Vars.mark
  dsimp only
  rw [if_neg (show ¬ false = true by simp), if_neg (by rw [this]; simp)]

theorem leaves_mark {k : List Tok} (h : ∀ t ∈ k, leafTy t.ty = true) (rest : List Nd) (b : Bool) (hb : b = false ∨ rest ≠ []) :
    Vars.markAll b (k.map Nd.leaf ++ rest) = k.map Nd.leaf ++ Vars.markAll b rest := by
  induction k with
  | nil => rfl
  | cons t k ih =>
    show Vars.mark (b && (k.map Nd.leaf ++ rest).isEmpty) (Nd.leaf t) :: Vars.markAll b (k.map Nd.leaf ++ rest) = _
    have : (b && (k.map Nd.leaf ++ rest).isEmpty) = false := by
      rcases hb with rfl | hb
      · rfl
      · rw [Bool.and_eq_false_iff]; right
        cases k with
        | nil => cases rest with
          | nil => exact absurd rfl hb
          | cons => rfl
        | cons => rfl
    rw [this, leaf_mark (h t (by simp)), ih (fun t ht => h t (by simp [ht]))]
    rfl

theorem sels_seg {r : Rule} (hr : r.Src) : Seg SimpleStart NameEnd (join Sel.items [.opt, mark .COMMA, .opt] r.sels) := by
  refine seg_join (by simp) ?_ ?_ _ hr.1 fun s hs => Sel.seg (hr.2.1 s hs).1 (hr.2.1 s hs).2.1
  · intro x y hx hy
    unfold Is at hy
    rcases hx with ⟨hx, _⟩ | hx <;> simp [Glued, Word.wordy, hx, hy]
  · intro x y hx hy
    unfold Is at hx
    simp [Glued, hx]

theorem sels_solid {r : Rule} (hr : r.Src) {k : List Tok} (h : Read (join Sel.items [.opt, mark .COMMA, .opt] r.sels) k) :
    Solid k := read_solid (sels_seg hr) (sels_flat _) h

theorem decl_solid {d : Decl} (hd : d.Src) {k : List Tok} (h : Read d.items k) : Solid k :=
  read_solid (Decl.seg hd) (Decl.flat d) h

theorem leaves_last {k : List Tok} (h : ∀ t ∈ k, leafTy t.ty = true) : Vars.marksLast (k.map Nd.leaf) = false := by
  unfold Vars.marksLast
  rw [Bool.and_eq_false_iff]
  right
  rw [decide_eq_false_iff_not, List.getLast?_map]
  intro e
  cases hk : k.getLast? with
  | none => rw [hk] at e; cases e
  | some t =>
    rw [hk] at e
    have h := h t (List.mem_of_getLast? hk)
    have e : t.ty = .OPEN_CURLYBRACKET := by simpa [Nd.leaf, Nd.ty, Nd.tok] using e
    rw [e] at h
    cases h

theorem decl_mark {d : Decl} (hd : d.Src) {n : Nd} (h : IsDecl d n) : Vars.mark false n = n ∧ n.ty = .COMPONENT_VALUE := by
  obtain ⟨p, k, rfl, hk⟩ := h
  have hs := (decl_solid hd hk).leaf
  refine ⟨?_, rfl⟩
  unfold Vars.mark
  dsimp only
  rw [if_neg (show ¬ false = true by simp), if_pos (by rfl), leaves_last hs]
  have := leaves_mark hs [] false (.inl rfl)
  rw [List.append_nil] at this
  rw [this]
  simp [Vars.markAll]

theorem decls_mark {ds : List Decl} (hd : ∀ d ∈ ds, d.Src) {ns : List Nd} (h : Each IsDecl ds ns) :
    (∀ n ∈ ns, n.ty = .COMPONENT_VALUE) ∧ Vars.markAll false ns = ns := by
  induction h with
  | nil => exact ⟨fun n hn => (by cases hn), rfl⟩
  | cons h1 h2 ih =>
    obtain ⟨b, c⟩ := decl_mark (hd _ (by simp)) h1
    obtain ⟨i1, i2⟩ := ih (fun d h => hd d (by simp [h]))
    refine ⟨fun n hn => ?_, ?_⟩
    · rcases List.mem_cons.1 hn with rfl | hn
      · exact c
      · exact i1 n hn
    · show Vars.mark (false && _) _ :: Vars.markAll false _ = _
      rw [Bool.false_and, b, i2]

theorem body_mark {ds : List Decl} (hd : ∀ d ∈ ds, d.Src) {l : List Nd} (h : IsBody ds l) :
    Vars.markAll (Vars.marksLast l) l = l := by
  obtain ⟨p, ns, hn, rfl⟩ := h
  obtain ⟨h1, h2⟩ := decls_mark hd hn
  have hl : Vars.marksLast [finish { ty := .LIST, pos := p } ns] = false := by
    unfold Vars.marksLast
    rw [Bool.and_eq_false_iff]
    right
    rw [decide_eq_false_iff_not]
    rcases finish_ty hn (p := p) with e | e <;> simp [e]
  rw [hl]
  have hm : Vars.mark false (.mk { ty := .LIST, pos := p } ns) = .mk { ty := .LIST, pos := p } ns := by
    unfold Vars.mark
    dsimp only
    rw [if_neg (show ¬ false = true by simp), if_pos (by rfl)]
    have : Vars.marksLast ns = false := by
      unfold Vars.marksLast
      rw [Bool.and_eq_false_iff]
      right
      rw [decide_eq_false_iff_not]
      intro e
      cases hk : ns.getLast? with
      | none => rw [hk] at e; cases e
      | some t =>
        rw [hk] at e
        have := h1 t (List.mem_of_getLast? hk)
        have e : t.ty = .OPEN_CURLYBRACKET := by simpa using e
        rw [e] at this
        cases this
    rw [this, h2]
  show Vars.mark (false && _) _ :: [] = _
  rw [Bool.false_and]
  cases hn with
  | nil => rw [show finish { ty := .LIST, pos := p } [] = .mk { ty := .LIST, pos := p } [] from rfl, hm]
  | cons a b =>
    cases b with
    | nil => rw [show ∀ x, finish { ty := .LIST, pos := p } [x] = x from fun _ => rfl, (decl_mark (hd _ (by simp)) a).1]
    | cons => rw [show ∀ x y l, finish { ty := .LIST, pos := p } (x :: y :: l) = .mk { ty := .LIST, pos := p } (x :: y :: l) from fun _ _ _ => rfl, hm]

/-- The tree of a rule after the marks. -/
def Marked (r : Rule) (n : Nd) : Prop :=
  ∃ p k o b, n = .mk { ty := .COMPONENT_VALUE, pos := p } (k.map Nd.leaf ++ [.mk o b]) ∧
    Read (join Sel.items [.opt, mark .COMMA, .opt] r.sels) k ∧ o.ty = .OPEN_CURLYBRACKET ∧ IsBody r.decls b

theorem sels_set {k : List Tok} (hk : Solid k) (l : List Nd) (h : ∀ t ∈ k, t.ty ≠ .COLON) (hv : ∀ t ∈ k, t.ty ≠ .VARIABLE) : Vars.isSet (k.map Nd.leaf ++ l) = false := by
  obtain ⟨t, k', rfl⟩ := List.exists_cons_of_ne_nil hk.ne
  have hl := hk.leaf t (by simp)
  have h1 : t.ty ≠ .VARIABLE ∧ t.ty ≠ .VARIABLE_FUNCTION := by
    refine ⟨hv t (by simp), ?_⟩
    intro e; rw [e] at hl; cases hl
  unfold Vars.isSet
  split
  · rename_i c0 c1 c2 rest e
    obtain ⟨e1, _⟩ := List.cons.inj e
    rw [if_neg]
    rw [← e1]
    rintro (e | e)
    · exact h1.1 e
    · exact h1.2 e
  · rfl

theorem rule_mark {r : Rule} (hr : r.Src) {n : Nd} (h : IsRule r n) : Marked r (Vars.mark false n) := by
  obtain ⟨p, k, o, b, rfl, hk, ho, hb⟩ := h
  have ht : o.ty = .OPEN_CURLYBRACKET := congrArg Word.ty ho
  have hs := sels_solid hr hk
  have hset := sels_set hs [.mk o b] (no_colon hk) (no_variable hk)
  refine ⟨p, k, { o with bool := true }, b, ?_, hk, ht, hb⟩
  conv => lhs; unfold Vars.mark
  dsimp only
  rw [if_neg (show ¬ false = true by simp), if_pos (by rfl)]
  have hl : Vars.marksLast (k.map Nd.leaf ++ [.mk o b]) = true := by
    unfold Vars.marksLast Vars.isSetBlock
    rw [hset, List.getLast?_concat]
    simp [Nd.ty, Nd.tok, ht]
  rw [hl, leaves_mark hs.leaf _ _ (.inr (by simp))]
  congr 2
  show Vars.mark (true && true) (.mk o b) :: [] = _
  unfold Vars.mark
  dsimp only
  rw [if_pos (show (true && true) = true from rfl), if_pos (by show Vars.marks o.ty = true; rw [ht]; rfl), body_mark hr.2.2 hb]

/-! ### The references -/

/-- The value of the variable is one token. -/
def Has (val : Str → Tok) (s : Vars.St) (n : Str) : Prop := ∃ v, s.get n = some v ∧ v.name.ty = .VARIABLE ∧ v.value = .leaf (val n)

/-- The types of these values. -/
def OneTy (ty : NT) : Prop := ty = .IDENTIFIER ∨ ty = .INTEGER ∨ ty = .STRING

/-- A reference is replaced. -/
def stTok (val : Str → Tok) (t : Tok) : Tok := if t.ty = .VARIABLE then val t.str else t

theorem one_plain {t : Tok} (h : OneTy t.ty) : _root_.Csspp.Spec.Plain (Nd.leaf t) := by
  refine leaf_plain ?_ ?_ <;> rcases h with h | h | h <;> rw [h] <;> simp [leafTy]

theorem leaves_vars {E : Env} {p : NT} {val : Str → Tok} (post : List Nd) : ∀ {k : List Tok} (pre : List Nd) {s : Vars.St},
    (∀ t ∈ k, leafTy t.ty = true) → (∀ t ∈ k, t.ty = .VARIABLE → OneTy (val t.str).ty ∧ Has val s t.str) →
    To E p (pre ++ (k.map Nd.leaf ++ post)) pre.length s (pre ++ ((k.map (stTok val)).map Nd.leaf ++ post)) (pre.length + k.length) s
  | [], pre, s, _, _ => by simpa using To.refl
  | t :: k, pre, s, h1, h2 => by
    have ih := leaves_vars (E := E) (p := p) post (k := k) (pre ++ [Nd.leaf (stTok val t)]) (s := s)
      (fun x hx => h1 x (by simp [hx])) (fun x hx => h2 x (by simp [hx]))
    have hl : (pre ++ [Nd.leaf (stTok val t)]).length = pre.length + 1 := by simp
    rw [hl] at ih
    have step : To E p (pre ++ ((t :: k).map Nd.leaf ++ post)) pre.length s
        (pre ++ Nd.leaf (stTok val t) :: (k.map Nd.leaf ++ post)) (pre.length + 1) s := by
      unfold stTok
      split
      · rename_i hv
        obtain ⟨ho, v, hv1, hv2, hv3⟩ := h2 t (by simp) hv
        refine To.trans ?_ (to_plain pre (k.map Nd.leaf ++ post) (one_plain ho) s)
        intro r _ hg
        refine gives_succ (gives_bind (f := fun f kids => loop E f p kids pre.length)
          (m := fun f => replaceVariable E f p (pre ++ (k.map Nd.leaf ++ post)) (Nd.leaf t) pre.length) (s' := s)
          (v := pre ++ Nd.leaf (val t.str) :: (k.map Nd.leaf ++ post)) ⟨1, fun g hg => ?_⟩ hg) (fun g => ?_)
        · obtain ⟨g, rfl⟩ : ∃ k, g = k + 1 := ⟨g - 1, by omega⟩
          have ht : isFunction (Nd.leaf t) = false := by
            unfold isFunction; rw [show (Nd.leaf t).ty = .VARIABLE from hv]; rfl
          have hn : isFunction v.name = false := by
            unfold isFunction; rw [hv2]; rfl
          have hget : get (Nd.leaf t).tok.str s = .ok (some v) s := by
            show R.ok (s.get t.str) s = _
            rw [hv1]
          show replaceVariable E (g + 1) p _ _ _ s = _
          rw [replaceVariable, bind_apply, hget]
          dsimp only
          rw [hn, ht, hv3, if_neg (by simp), if_neg (by simp)]
          have hty : (Nd.leaf (val t.str)).ty = (val t.str).ty := rfl
          unfold insertValue
          rw [hty, if_neg (by rcases ho with h | h | h <;> rw [h] <;> simp), if_neg (by rcases ho with h | h | h <;> rw [h] <;> simp),
            if_neg (by rcases ho with h | h | h <;> rw [h] <;> simp)]
          have hins : insertChild (pre ++ (k.map Nd.leaf ++ post)) pre.length (Nd.leaf (val t.str)) =
              some (pre ++ Nd.leaf (val t.str) :: (k.map Nd.leaf ++ post)) := by
            unfold insertChild
            generalize k.map Nd.leaf ++ post = q
            by_cases hq : pre.length = (pre ++ q).length
            · have : q = [] := by
                cases q with
                | nil => rfl
                | cons x q => simp at hq
              subst this
              rw [if_pos hq, List.append_nil]
              unfold Parse.push
              rw [if_pos]
              rw [hty]
              refine ⟨?_, .inl ?_⟩ <;> rcases ho with h | h | h <;> rw [h] <;> simp
            · rw [if_neg hq, if_neg (by simp at hq ⊢; exact List.length_pos_iff.2 hq), if_pos (by
                rw [hty]; rcases ho with h | h | h <;> rw [h] <;> simp)]
              simp
          rw [hins]
          rfl
        · conv => lhs; rw [loop]
          have e1 : (pre ++ ((t :: k).map Nd.leaf ++ post))[pre.length]? = some (Nd.leaf t) := by simp
          have e2 : (pre ++ ((t :: k).map Nd.leaf ++ post)).eraseIdx pre.length = pre ++ (k.map Nd.leaf ++ post) :=
            to_variable.erase_mid
          rw [e1]
          dsimp only
          rw [if_pos (show (Nd.leaf t).ty = .VARIABLE from hv), e2]
      · rename_i hv
        exact to_plain pre (k.map Nd.leaf ++ post) (leaf_plain (h1 t (by simp)) hv) s
    refine To.trans step ?_
    have e1 : pre ++ Nd.leaf (stTok val t) :: (k.map Nd.leaf ++ post) =
        pre ++ [Nd.leaf (stTok val t)] ++ (k.map Nd.leaf ++ post) := by simp
    have e2 : pre ++ ((t :: k).map (stTok val)).map Nd.leaf ++ post =
        pre ++ [Nd.leaf (stTok val t)] ++ ((k.map (stTok val)).map Nd.leaf ++ post) := by simp
    rw [e1, ← List.append_assoc pre ((List.map (stTok val) (t :: k)).map Nd.leaf), e2, List.length_cons,
      show pre.length + (k.length + 1) = pre.length + 1 + k.length by omega]
    exact ih

/-- The references are replaced in the items. -/
def swItem (f : Word → Word) : Item → Item
  | .word w => .word (f w)
  | i => i

theorem toks_map {f : Word → Word} (h1 : f ws = ws) (h2 : f { ty := .SEMICOLON } = { ty := .SEMICOLON }) {l : List Item} {w : List Word}
    (h : Toks l w) : Toks (l.map (swItem f)) (w.map f) := by
  have hg : ∀ {g : List Word}, OptWs g → g.map f = g := by
    intro g hg
    cases hg with
    | none => rfl
    | one => simp [h1]
  induction h with
  | nil => exact .nil
  | word _ ih => exact .word ih
  | opt g _ ih => rw [List.map_append, hg g]; exact .opt g ih
  | must _ ih => rw [List.map_cons, List.map_cons, h1]; exact .must ih
  | noSemi g _ ih => rw [List.map_append, hg g]; exact .noSemi g ih
  | semi g g' _ ih =>
    simp only [List.map_append, List.map_cons, hg g, hg g', h2]; exact .semi g g' ih

/-- The reference in a word. -/
def sw (val : Str → Tok) (w : Word) : Word := if w.ty = .VARIABLE then Word.of (val w.str) else w

/-- The token is the value. -/
def Knows (σ : Str → Val) (val : Str → Tok) (n : Str) : Prop :=
  OneTy (val n).ty ∧ (σ n).items = [.word (Word.of (val n))]

theorem of_stTok (val : Str → Tok) (t : Tok) : Word.of (stTok val t) = sw val (Word.of t) := by
  unfold stTok sw
  by_cases h : t.ty = .VARIABLE
  · rw [if_pos h, if_pos (show (Word.of t).ty = .VARIABLE from h)]; rfl
  · rw [if_neg h, if_neg (show ¬ (Word.of t).ty = .VARIABLE from h)]

theorem read_map (val : Str → Tok) {l : List Item} {k : List Tok} (h : Read l k) :
    Read (l.map (swItem (sw val))) (k.map (stTok val)) := by
  have := toks_map (f := sw val) rfl rfl h
  unfold Read
  rw [List.map_map, show Word.of ∘ stTok val = sw val ∘ Word.of from funext fun t => of_stTok val t, ← List.map_map]
  exact this

theorem join_swap {α β : Type} {f : α → List Item} {f' : β → List Item} {g : α → β} {h : Item → Item} {sp : List Item}
    (hs : sp.map h = sp) : ∀ {l : List α}, (∀ x ∈ l, (f x).map h = f' (g x)) → (join f sp l).map h = join f' sp (l.map g)
  | [], _ => rfl
  | [x], hx => hx x (by simp)
  | x :: y :: l, hx => by
    have ih := join_swap hs (l := y :: l) (fun z hz => hx z (by simp at hz ⊢; right; exact hz))
    show (f x ++ sp ++ join f sp (y :: l)).map h = f' (g x) ++ sp ++ join f' sp ((y :: l).map g)
    rw [List.map_append, List.map_append, hx x (by simp), hs, ih]

theorem more_sw (val : Str → Tok) (u : Str) : ∀ more : List (Bool × Int), (moreItems u more).map (swItem (sw val)) = moreItems u more
  | [] => rfl
  | (m, j) :: l => by
    unfold moreItems
    rw [List.map_cons, List.map_cons, List.map_cons, List.map_cons, more_sw val u l]
    cases m <;> rfl

theorem val_sw {σ : Str → Val} {val : Str → Tok} {v : Val} (h : ∀ n, v = .var n → Knows σ val n) :
    v.items.map (swItem (sw val)) = (v.replace σ).items := by
  cases v with
  | var n => rw [show (Val.var n).replace σ = σ n from rfl, (h n rfl).2]; rfl
  | sum i more u =>
    show swItem _ _ :: (moreItems u more).map _ = _
    rw [more_sw]; rfl
  | word => rfl
  | int => rfl
  | str => rfl

theorem decl_sw {σ : Str → Val} {val : Str → Tok} {d : Decl} (h : ∀ g ∈ d.values, ∀ n, .var n ∈ g → Knows σ val n) :
    d.items.map (swItem (sw val)) = (d.replace σ).items := by
  show _ :: _ :: _ :: _ :: (valueItems d.values).map _ = ident d.name :: .opt :: mark .COLON :: .opt :: valueItems (d.values.map (·.map (Val.replace σ)))
  rw [show (valueItems d.values).map (swItem (sw val)) = valueItems (d.values.map (·.map (Val.replace σ))) from
    join_swap rfl fun g hg => join_swap rfl fun v hv => val_sw fun n e => h g hg n (e ▸ hv)]
  rfl

/-! ### The trees -/

theorem gives_walk {E : Env} {t : Tok} {kids kids' : List Nd} {s : Vars.St} (h1 : t.ty ≠ .COMMENT) (h2 : walks t.ty = true)
    (h3 : ¬ (t.ty = .LIST ∧ kids.isEmpty = true)) (h4 : isVarSet (.mk t kids) = false)
    (h : ∀ s', s' = s ∨ s' = { s with scopes := [] :: s.scopes } → Gives (fun f => loop E f t.ty kids 0) s' (.ok kids' s')) :
    Gives (fun f => replaceVars E f (.mk t kids)) s (.ok (some (.mk t kids')) s) := by
  have e2 : firstIdx (Nd.mk t kids) = 0 := by unfold firstIdx; rw [h4]; rfl
  have key : ∀ s' : Vars.St, ∀ g, loop E g t.ty kids 0 s' = .ok kids' s' → isScope (.mk t kids) = true → s' = { s with scopes := [] :: s.scopes } →
      replaceVars E (g + 1) (.mk t kids) s = .ok (some (.mk t kids')) s := by
    intro s' g e es e'
    subst e'
    rw [replaceVars, if_neg (show ¬ (Nd.mk t kids).ty = .COMMENT from h1), if_neg (show ¬ walks (Nd.mk t kids).ty = false by
      rw [show (Nd.mk t kids).ty = t.ty from rfl, h2]; simp), if_neg (show ¬ ((Nd.mk t kids).ty = .LIST ∧ (Nd.mk t kids).kids.isEmpty = true) from h3), es, h4, e2]
    simp only [bind_apply, enter, leave]
    rw [if_pos trivial, show (Nd.mk t kids).ty = t.ty from rfl, show (Nd.mk t kids).kids = kids from rfl, e]
    rfl
  have key' : ∀ g, loop E g t.ty kids 0 s = .ok kids' s → isScope (.mk t kids) = false →
      replaceVars E (g + 1) (.mk t kids) s = .ok (some (.mk t kids')) s := by
    intro g e es
    rw [replaceVars, if_neg (show ¬ (Nd.mk t kids).ty = .COMMENT from h1), if_neg (show ¬ walks (Nd.mk t kids).ty = false by
      rw [show (Nd.mk t kids).ty = t.ty from rfl, h2]; simp), if_neg (show ¬ ((Nd.mk t kids).ty = .LIST ∧ (Nd.mk t kids).kids.isEmpty = true) from h3), es, h4, e2]
    simp only [bind_apply, enter, leave]
    rw [show (Nd.mk t kids).ty = t.ty from rfl, show (Nd.mk t kids).kids = kids from rfl, if_neg (by simp), e]
    rfl
  cases hs : isScope (.mk t kids) with
  | true =>
    obtain ⟨a, ha⟩ := h _ (.inr rfl)
    refine ⟨a + 1, fun g hg => ?_⟩
    obtain ⟨g, rfl⟩ : ∃ k, g = k + 1 := ⟨g - 1, by omega⟩
    exact key _ g (ha g (by omega)) hs rfl
  | false =>
    obtain ⟨a, ha⟩ := h _ (.inl rfl)
    refine ⟨a + 1, fun g hg => ?_⟩
    obtain ⟨g, rfl⟩ : ∃ k, g = k + 1 := ⟨g - 1, by omega⟩
    exact key' g (ha g (by omega)) hs

theorem to_some {E : Env} {p : NT} (d : List Nd) {c c' : Nd} (l : List Nd) {s : Vars.St} (hc : recurses c.ty = true)
    (h : Gives (fun f => replaceVars E f c) s (.ok (some c') s)) :
    To E p (d ++ c :: l) d.length s (d ++ c' :: l) (d.length + 1) s := by
  intro r hr hg
  have e1 : (d ++ c :: l)[d.length]? = some c := by simp
  have e2 : (d ++ c :: l).set d.length c' = d ++ c' :: l := by simp
  have v1 : c.ty ≠ .VARIABLE := by intro e; rw [e] at hc; cases hc
  have v2 : c.ty ≠ .VARIABLE_FUNCTION := by intro e; rw [e] at hc; cases hc
  refine gives_succ (gives_bind (f := fun f x => match x with
      | some x => loop E f p ((d ++ c :: l).set d.length x) (d.length + 1)
      | none => loop E f p ((d ++ c :: l).eraseIdx d.length) d.length) h (by dsimp only; rw [e2]; exact hg)) (fun g => ?_)
  conv => lhs; rw [loop, e1]
  dsimp only
  rw [if_neg v1, if_neg v2, if_pos hc]
  rfl

theorem isSet_head {l : List Nd} (h : ∀ c, l.head? = some c → c.ty ≠ .VARIABLE ∧ c.ty ≠ .VARIABLE_FUNCTION) : Vars.isSet l = false := by
  unfold Vars.isSet
  split
  · rename_i c0 c1 c2 rest
    have := h c0 rfl
    rw [if_neg (by rintro (e | e); exact this.1 e; exact this.2 e)]
  · rfl

/-- The references of a declaration. -/
def Decl.refs (d : Decl) (n : Str) : Prop := ∃ g ∈ d.values, .var n ∈ g

theorem has_scope {val : Str → Tok} {s s' : Vars.St} (h : s' = s ∨ s' = { s with scopes := [] :: s.scopes }) {n : Str} (hn : Has val s n) :
    Has val s' n := by
  rcases h with rfl | rfl
  · exact hn
  · exact hn

theorem gives_of_to {E : Env} {p : NT} {k k' : List Nd} {s : Vars.St} {i : Nat} (h : To E p k i s k' k'.length s) :
    Gives (fun f => loop E f p k i) s (.ok k' s) := h _ (by simp) (loop_end E p k' s)

theorem more_novar {w : Word} {u : Str} : ∀ {more : List (Bool × Int)}, Item.word w ∈ moreItems u more → w.ty ≠ .VARIABLE
  | [], h => by cases h
  | (m, j) :: l, h => by
    have h : Item.word w ∈ .must :: mark (if m then .SUBTRACT else .ADD) :: .must :: .word (intWord j u) :: moreItems u l := h
    rcases List.mem_cons.1 h with h | h
    · cases h
    rcases List.mem_cons.1 h with h | h
    · injection h with h
      rw [h]; cases m <;> simp
    rcases List.mem_cons.1 h with h | h
    · cases h
    rcases List.mem_cons.1 h with h | h
    · injection h with h
      rw [h]; simp [intWord]
    exact more_novar h

theorem items_var {d : Decl} {w : Word} (h : .word w ∈ d.items) (hw : w.ty = .VARIABLE) : d.refs w.str := by
  have h : Item.word w ∈ ident d.name :: .opt :: mark .COLON :: .opt :: valueItems d.values := h
  have no : ∀ w' : Word, w'.ty ≠ .VARIABLE → Item.word w ≠ .word w' := by
    intro w' h1 e
    injection e with e
    exact h1 (e ▸ hw)
  rcases List.mem_cons.1 h with h | h
  · exact absurd h (no _ (by simp))
  rcases List.mem_cons.1 h with h | h
  · cases h
  rcases List.mem_cons.1 h with h | h
  · exact absurd h (no _ (by simp))
  rcases List.mem_cons.1 h with h | h
  · cases h
  rcases mem_join h with h | ⟨g, hg, h⟩
  · simp [mark] at h
    exact absurd (congrArg Item.word h) (no _ (by simp))
  rcases mem_join h with h | ⟨v, hv, h⟩
  · simp at h
  refine ⟨g, hg, ?_⟩
  cases v with
  | var n =>
    have h : Item.word w ∈ [Item.word { ty := .VARIABLE, str := n }] := h
    rw [List.mem_singleton] at h
    injection h with h
    rw [h]; exact hv
  | word x => exact absurd (List.mem_singleton.1 h) (no _ (by simp))
  | int i u => exact absurd (List.mem_singleton.1 h) (no _ (by simp [intWord]))
  | str x => exact absurd (List.mem_singleton.1 h) (no _ (by simp))
  | sum i more u =>
    exfalso
    have h : Item.word w ∈ .word (intWord i u) :: moreItems u more := h
    rcases List.mem_cons.1 h with h | h
    · exact no _ (by simp [intWord]) h
    · exact more_novar h hw

theorem decl_var {d : Decl} {k : List Tok} (h : Read d.items k) : ∀ t ∈ k, t.ty = .VARIABLE → d.refs t.str := by
  intro t ht hv
  rcases read_mem h t ht with h | h | h
  · have := congrArg Word.ty h
    rw [show (Word.of t).ty = t.ty from rfl, hv] at this
    cases this
  · rw [hv] at h; cases h
  · exact items_var h hv

theorem decl_vars {σ : Str → Val} {val : Str → Tok} {d : Decl} (hd : d.Src) {n : Nd} (h : IsDecl d n) (E : Env)
    (hk : ∀ x, d.refs x → Knows σ val x) :
    ∃ n', IsDecl (d.replace σ) n' ∧ ∀ s, (∀ x, d.refs x → Has val s x) → Gives (fun f => replaceVars E f n) s (.ok (some n') s) := by
  obtain ⟨p, k, rfl, hr⟩ := h
  have hs := decl_solid hd hr
  refine ⟨_, ⟨p, k.map (stTok val), rfl, ?_⟩, fun s hh => ?_⟩
  · rw [← decl_sw fun g hg n hn => hk n ⟨g, hg, hn⟩]
    exact read_map val hr
  · refine gives_walk (by simp) rfl (by simp) ?_ fun s' hs' => ?_
    · obtain ⟨t, k', rfl, e, _⟩ := hr.word
      unfold isVarSet
      rw [Bool.and_eq_false_iff]
      right
      have h1 : (Nd.leaf t).ty = .IDENTIFIER := congrArg Word.ty e
      refine isSet_head fun c hc => ?_
      have hc : some (Nd.leaf t) = some c := hc
      injection hc with hc
      rw [← hc, h1]
      simp
    · have := leaves_vars (E := E) (p := .COMPONENT_VALUE) (val := val) [] (k := k) [] (s := s') hs.leaf
        (fun t ht hv => ⟨(hk _ (decl_var hr t ht hv)).1, has_scope hs' (hh _ (decl_var hr t ht hv))⟩)
      simp only [List.nil_append, List.append_nil, List.length_nil, Nat.zero_add] at this
      refine gives_of_to ?_
      rw [List.length_map, List.length_map]
      exact this

theorem decls_vars {σ : Str → Val} {val : Str → Tok} (E : Env) (p : NT) (post : List Nd) : ∀ {ds : List Decl} {ns : List Nd},
    Each IsDecl ds ns → (∀ d ∈ ds, d.Src) → (∀ d ∈ ds, ∀ x, d.refs x → Knows σ val x) →
    ∃ ns', Each IsDecl (ds.map (Decl.replace σ)) ns' ∧ ns'.length = ns.length ∧ ∀ (pre : List Nd) s, (∀ d ∈ ds, ∀ x, d.refs x → Has val s x) →
      To E p (pre ++ (ns ++ post)) pre.length s (pre ++ (ns' ++ post)) (pre.length + ns.length) s := by
  intro ds ns h
  induction h with
  | nil => exact fun _ _ => ⟨[], .nil, rfl, fun pre s _ => .refl⟩
  | cons h1 h2 ih =>
    rename_i d n ds ns
    intro hd hk
    obtain ⟨ns', i1, i2, i3⟩ := ih (fun d h => hd d (by simp [h])) (fun d h => hk d (by simp [h]))
    obtain ⟨n', j1, j2⟩ := decl_vars (hd d (by simp)) h1 E (hk d (by simp))
    have hty : n.ty = .COMPONENT_VALUE := (decl_mark (hd d (by simp)) h1).2
    refine ⟨n' :: ns', .cons j1 i1, by simp [i2], fun pre s hh => ?_⟩
    have a := to_some (E := E) (p := p) pre (ns ++ post) (by rw [hty]; rfl) (j2 s (hh d (by simp)))
    have b := i3 (pre ++ [n']) s (fun d h => hh d (by simp [h]))
    have e : pre.length + (n :: ns).length = (pre ++ [n']).length + ns.length := by simp; omega
    rw [e]
    have l1 : (pre ++ [n']).length = pre.length + 1 := by simp
    rw [l1, List.append_assoc, List.append_assoc] at b
    rw [l1]
    exact a.trans b

theorem body_vars {σ : Str → Val} {val : Str → Tok} (E : Env) (p : NT) {ds : List Decl} {l : List Nd} (h : IsBody ds l) (hd : ∀ d ∈ ds, d.Src)
    (hk : ∀ d ∈ ds, ∀ x, d.refs x → Knows σ val x) :
    ∃ l', IsBody1 (ds.map (Decl.replace σ)) l' ∧ ∀ s, (∀ d ∈ ds, ∀ x, d.refs x → Has val s x) →
      Gives (fun f => loop E f p l 0) s (.ok l' s) := by
  obtain ⟨q, ns, hn, rfl⟩ := h
  have whole : ∀ (hne : ns ≠ []), ∀ s ns', (∀ pre : List Nd, To E .LIST (pre ++ (ns ++ [])) pre.length s (pre ++ (ns' ++ [])) (pre.length + ns.length) s) →
      ns'.length = ns.length → (∀ s', s' = s ∨ s' = { s with scopes := [] :: s.scopes } → To E .LIST ns 0 s' ns' ns'.length s') →
      Gives (fun f => loop E f p [.mk { ty := .LIST, pos := q } ns] 0) s (.ok [.mk { ty := .LIST, pos := q } ns'] s) := by
    intro hne s ns' _ _ h
    refine gives_of_to ?_
    refine to_some (E := E) (p := p) [] [] rfl (gives_walk (by simp) rfl ?_ rfl fun s' hs' => gives_of_to (h s' hs'))
    rintro ⟨_, h⟩
    exact hne (List.isEmpty_iff.1 h)
  obtain ⟨ns', i1, i2, i3⟩ := decls_vars E .LIST [] hn hd hk
  obtain ⟨ns2, k1, k2, k3⟩ := decls_vars E p [] hn hd hk
  have key : ∀ s', (∀ d ∈ ds, ∀ x, d.refs x → Has val s' x) → To E .LIST ns 0 s' ns' ns'.length s' := by
    intro s' hh
    have := i3 [] s' hh
    simpa [i2] using this
  cases hn with
  | nil =>
    refine ⟨[], .inl ⟨rfl, rfl⟩, fun s _ => ?_⟩
    have hb : Gives (fun f => replaceVars E f (.mk { ty := .LIST, pos := q } [])) s (.ok none s) := by
      refine ⟨1, fun g hg => ?_⟩
      obtain ⟨g, rfl⟩ : ∃ k, g = k + 1 := ⟨g - 1, by omega⟩
      show replaceVars E (g + 1) _ s = _
      rw [replaceVars]
      rfl
    exact to_gone (p := p) [] [] rfl hb _ (by simp) (loop_end E p [] s)
  | cons a b =>
    rename_i d n ds ns
    cases b with
    | nil =>
      cases k1 with
      | cons c1 c2 =>
      cases c2
      rename_i n'
      refine ⟨[n'], .inr ⟨by simp, q, [n'], .cons c1 .nil, rfl⟩, fun s hh => ?_⟩
      have := k3 [] s hh
      exact gives_of_to this
    | cons c cs =>
      cases i1 with
      | cons d1 d2 =>
      cases d2 with
      | cons d3 d4 =>
      rename_i n1 _ n2 ns'
      refine ⟨_, .inr ⟨by simp, q, _, .cons d1 (.cons d3 d4), rfl⟩, fun s hh => ?_⟩
      exact whole (by simp) s _ (fun pre => i3 pre s hh) i2 fun s' hs' => key s' fun d hd x hx => has_scope hs' (hh d hd x hx)

/-- The references of a rule. -/
def Rule.refs (r : Rule) (n : Str) : Prop := ∃ d ∈ r.decls, d.refs n

/-- The preprocessor on a rule with references. -/
theorem rule_refs {σ : Str → Val} {val : Str → Tok} {r : Rule} (hr : r.Src) {n : Nd} (h : Marked r n) (E : Env)
    (hk : ∀ x, r.refs x → Knows σ val x) :
    ∃ n', IsRule1 (r.replace σ) n' ∧ ∀ s, (∀ x, r.refs x → Has val s x) → Gives (fun f => replaceVars E f n) s (.ok (some n') s) := by
  obtain ⟨p, k, o, b, rfl, hr1, ho, hb⟩ := h
  have hs := sels_solid hr hr1
  obtain ⟨b', hb1, hb2⟩ := body_vars E o.ty hb hr.2.2 (fun d hd x hx => hk x ⟨d, hd, hx⟩)
  refine ⟨_, ⟨p, k, o, b', rfl, hr1, ho, hb1⟩, fun s hh => ?_⟩
  refine gives_walk (by simp) rfl (by simp) ?_ fun s' hs' => ?_
  · unfold isVarSet
    rw [show (Nd.mk { ty := .COMPONENT_VALUE, pos := p } (k.map Nd.leaf ++ [.mk o b])).kids = k.map Nd.leaf ++ [.mk o b] from rfl,
      sels_set hs [.mk o b] (no_colon hr1) (no_variable hr1)]
    rfl
  · have t1 := to_plains (E := E) (p := .COMPONENT_VALUE) [] (k.map Nd.leaf) [.mk o b]
      (by
        intro c hc
        obtain ⟨t, ht, e⟩ := List.mem_map.1 hc
        rw [← e]
        exact leaf_plain (hs.leaf t ht) (no_variable hr1 t ht)) s'
    rw [List.nil_append, List.length_nil, Nat.zero_add] at t1
    have hblock : Gives (fun f => replaceVars E f (.mk o b)) s' (.ok (some (.mk o b')) s') := by
      refine gives_walk (by rw [ho]; simp) (by rw [ho]; rfl) (by rw [ho]; simp) ?_ fun s2 hs2 => ?_
      · unfold isVarSet
        rw [show (Nd.mk o b).ty = .OPEN_CURLYBRACKET from ho]; rfl
      · exact hb2 s2 fun d hd x hx => has_scope hs2 (has_scope hs' (hh x ⟨d, hd, hx⟩))
    have t2 := to_some (E := E) (p := .COMPONENT_VALUE) (k.map Nd.leaf) [] (by rw [show (Nd.mk o b).ty = .OPEN_CURLYBRACKET from ho]; rfl) hblock
    refine gives_of_to ?_
    rw [List.length_append, List.length_singleton]
    exact t1.trans t2

theorem val_same {v : Val} (h : v.Ok) (σ : Str → Val) : v.replace σ = v := by
  cases v with
  | var => exact h.elim
  | _ => rfl

theorem decl_same {d : Decl} (h : d.Ok) (σ : Str → Val) : d.replace σ = d := by
  unfold Decl.replace
  have : d.values.map (·.map (Val.replace σ)) = d.values := by
    conv => rhs; rw [← List.map_id d.values]
    refine List.map_congr_left fun g hg => ?_
    conv => rhs; rw [id, ← List.map_id g]
    exact List.map_congr_left fun v hv => val_same ((h.2.2 g hg).2 v hv) σ
  rw [this]

theorem rule_same {r : Rule} (h : r.Ok) (σ : Str → Val) : r.replace σ = r := by
  unfold Rule.replace
  have : r.decls.map (Decl.replace σ) = r.decls := by
    conv => rhs; rw [← List.map_id r.decls]
    exact List.map_congr_left fun d hd => decl_same (h.2.2 d hd) σ
  rw [this]

theorem rule_norefs {r : Rule} (h : r.Ok) (x : Str) : ¬ r.refs x := by
  rintro ⟨d, hd, g, hg, hx⟩
  exact ((h.2.2 d hd).2.2 g hg).2 _ hx

/-- The preprocessor on a rule without references. -/
theorem rule_vars {r : Rule} (hr : r.Ok) {n : Nd} (h : Marked r n) (E : Env) :
    ∃ n', IsRule1 r n' ∧ ∀ s, Gives (fun f => replaceVars E f n) s (.ok (some n') s) := by
  obtain ⟨n', h1, h2⟩ := rule_refs (σ := Val.var) (val := fun _ => { ty := .EOF_TOKEN, pos := ⟨0, 0, 0⟩ }) hr.src h E (fun x hx => absurd hx (rule_norefs hr x))
  rw [rule_same hr] at h1
  exact ⟨n', h1, fun s => h2 s fun x hx => absurd hx (rule_norefs hr x)⟩

theorem sheet_mark {S : Sheet} (hok : S.Src) {ns : List Nd} (h : Each IsRule S ns) (p : Pos) :
    ∃ ns', Each Marked S ns' ∧ Vars.mark false (.mk { ty := .LIST, pos := p } ns) = .mk { ty := .LIST, pos := p } ns' := by
  have hall : ∀ {S : Sheet}, S.Src → ∀ {ns : List Nd}, Each IsRule S ns → Each Marked S (Vars.markAll false ns) ∧
      ∀ n ∈ ns, n.ty = .COMPONENT_VALUE := by
    intro S hok ns h
    induction h with
    | nil => exact ⟨.nil, fun n hn => by cases hn⟩
    | cons h1 h2 ih =>
      obtain ⟨i1, i2⟩ := ih (fun r hr => hok r (by simp [hr]))
      refine ⟨?_, fun n hn => ?_⟩
      · show Each Marked _ (Vars.mark (false && _) _ :: _)
        rw [Bool.false_and]
        exact .cons (rule_mark (hok _ (by simp)) h1) i1
      · rcases List.mem_cons.1 hn with rfl | hn
        · obtain ⟨p, k, o, b, rfl, _⟩ := h1; rfl
        · exact i2 n hn
  obtain ⟨h1, h2⟩ := hall hok h
  refine ⟨_, h1, ?_⟩
  unfold Vars.mark
  dsimp only
  rw [if_neg (show ¬ false = true by simp), if_pos (by rfl)]
  have : Vars.marksLast ns = false := by
    unfold Vars.marksLast
    rw [Bool.and_eq_false_iff]
    right
    rw [decide_eq_false_iff_not]
    intro e
    cases hk : ns.getLast? with
    | none => rw [hk] at e; cases e
    | some t =>
      rw [hk] at e
      have := h2 t (List.mem_of_getLast? hk)
      have e : t.ty = .OPEN_CURLYBRACKET := by simpa using e
      rw [e] at this
      cases this
  rw [this]

theorem rules_vars (E : Env) {S : Sheet} (hok : S.Ok) {ns : List Nd} (h : Each Marked S ns) :
    ∃ ns', Each IsRule1 S ns' ∧ ∀ d s, Gives (fun f => loop E f .LIST (d ++ ns) d.length) s (.ok (d ++ ns') s) := by
  induction h with
  | nil =>
    refine ⟨[], .nil, fun d s => ?_⟩
    rw [List.append_nil]
    exact loop_end E .LIST d s
  | cons h1 h2 ih =>
    rename_i r n S ns
    obtain ⟨ns', i1, i2⟩ := ih (fun r hr => hok r (by simp [hr]))
    obtain ⟨n', j1, j2⟩ := rule_vars (hok _ (by simp)) h1 E
    refine ⟨n' :: ns', .cons j1 i1, fun d s => ?_⟩
    have i3 := i2 (d ++ [n']) s
    rw [List.length_append, List.length_singleton, List.append_assoc, List.singleton_append, List.append_assoc,
      List.singleton_append] at i3
    have hty : n.ty = .COMPONENT_VALUE := by obtain ⟨p, k, o, b, rfl, _⟩ := h1; rfl
    refine gives_succ (gives_bind (f := fun f c => match c with
      | some c => loop E f .LIST ((d ++ n :: ns).set d.length c) (d.length + 1)
      | none => loop E f .LIST ((d ++ n :: ns).eraseIdx d.length) d.length) (j2 s) ?_) (fun g => ?_)
    · dsimp only
      rw [show (d ++ n :: ns).set d.length n' = d ++ n' :: ns by simp]
      exact i3
    · conv => lhs; rw [loop]
      rw [show (d ++ n :: ns)[d.length]? = some n by simp]
      dsimp only
      rw [hty, if_neg (by simp), if_neg (by simp), if_pos (by rfl)]
      rfl

/-- The preprocessor on a plain style sheet that is not empty. -/
theorem sheet_vars (E : Env) {S : Sheet} (hok : S.Ok) (hne : S ≠ []) {ns : List Nd} (h : Each IsRule S ns) (p : Pos) :
    ∃ ns', Each IsRule1 S ns' ∧ ∀ s, Gives (fun f => replaceRoot E f (Vars.mark false (.mk { ty := .LIST, pos := p } ns))) s
      (.ok (.mk { ty := .LIST, pos := p } ns') s) := by
  obtain ⟨m, hm, e⟩ := sheet_mark hok.src h p
  rw [e]
  obtain ⟨ns', h1, h2⟩ := rules_vars E hok hm
  refine ⟨ns', h1, fun s => ?_⟩
  have h3 := h2 [] s
  rw [List.nil_append, List.length_nil, List.nil_append] at h3
  have hmne : m ≠ [] := by
    cases hm with
    | nil => exact absurd rfl hne
    | cons => simp
  have h4 : Gives (fun f => replaceVars E f (.mk { ty := .LIST, pos := p } m)) s (.ok (some (.mk { ty := .LIST, pos := p } ns')) s) := by
    refine gives_succ (gives_bind (f := fun _ k => pure (some (Nd.mk { ty := .LIST, pos := p } k))) h3 (gives_pure _ s)) (fun g => ?_)
    have hty : (Nd.mk { ty := .LIST, pos := p } m).ty = .LIST := rfl
    have e0 : isScope (Nd.mk { ty := .LIST, pos := p } m) = false := rfl
    have e1 : isVarSet (Nd.mk { ty := .LIST, pos := p } m) = false := rfl
    have e2 : firstIdx (Nd.mk { ty := .LIST, pos := p } m) = 0 := by
      unfold firstIdx; rw [e1]; rfl
    conv => lhs; rw [replaceVars]
    rw [hty, if_neg (by simp), if_neg (by simp [walks]), if_neg (by
      rintro ⟨_, h⟩; exact hmne (List.isEmpty_iff.1 h)), e0, e1, e2]
    simp only [bind_apply, enter, leave]
    rfl
  exact gives_bind (f := fun _ r => orThrow r) h4 ⟨0, fun _ _ => rfl⟩

end Csspp.Spec.Plain
