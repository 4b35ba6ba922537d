import Verif.Lemmas.PlainVars
import Verif.Props.ToolRun

/-!
For C97: the text, the tree and the preprocessor of a plain style sheet with variables.
-/

namespace Csspp.Spec.Plain
open Csspp.Spec (Word setNode AnyFlag IsFlag assigned types Glued variableSet variableBlock nestedDeclaration afterColon)
open Csspp.Node (supportsChildren)
open Csspp.Lex (Tok Pos)
open Csspp.Parse
open Csspp.Vars (Env Gives To)

/-- A value of one word. -/
theorem Def.Ok.one {d : Def} (h : d.Ok) : ∃ w : Word, d.value.items = [.word w] ∧ (w.ty = .IDENTIFIER ∧ w.str ≠ b!"null" ∨ w.ty = .INTEGER ∨ w.ty = .STRING) := by
  obtain ⟨_, h2, h3⟩ := h
  cases hv : d.value with
  | word s =>
    rw [hv] at h2
    refine ⟨_, rfl, .inl ⟨rfl, ?_⟩⟩
    intro e
    exact h2.2 (.inl (by rw [show s = b!"null" from e]; simp))
  | int i u => exact ⟨_, rfl, .inr (.inl rfl)⟩
  | str s => exact ⟨_, rfl, .inr (.inr rfl)⟩
  | sum i more u => exact absurd hv (h3 i more u)
  | var n => rw [hv] at h2; exact h2.elim

theorem Def.seg {d : Def} (h : d.Ok) : Seg (Is .VARIABLE) IsVal d.items := by
  have a : Seg (Is .VARIABLE) (Is .VARIABLE) [.word { ty := .VARIABLE, str := d.name }] := seg_word (variable_writable h.1) rfl rfl
  refine a.around (ty := .COLON) (Val.seg h.2.1.src) (by simp) ?_ ?_
  · intro x y hx hy
    unfold Is at hx hy
    simp [Glued, Word.wordy, hx, hy]
  · intro x y hx hy
    unfold Is at hx
    rcases hy with hy | hy | hy | hy <;> simp [Glued, hx, hy]

theorem Def.flat (d : Def) : Flat d.items := by
  intro i hi
  have hi : i ∈ Item.word { ty := .VARIABLE, str := d.name } :: .opt :: mark .COLON :: .opt :: d.value.items := hi
  rcases List.mem_cons.1 hi with rfl | hi
  · exact Flat.of_word ⟨rfl, by simp⟩ rfl
  rcases List.mem_cons.1 hi with rfl | hi
  · exact ⟨by simp, by simp⟩
  rcases List.mem_cons.1 hi with rfl | hi
  · exact Flat.of_word ⟨rfl, by simp⟩ rfl
  rcases List.mem_cons.1 hi with rfl | hi
  · exact ⟨by simp, by simp⟩
  exact Val.flat _ i hi

/-- Segments with blanks between, if any. -/
theorem segs {F L : Word → Prop} (hg : ∀ x y, L x → F y → Glued x y = false) {xs : List (List Item)} (h : ∀ x ∈ xs, Seg F L x) :
    sep (.opt :: xs.flatMap (· ++ [.opt])) = true ∧ apart (tight (.opt :: xs.flatMap (· ++ [.opt]))) = true ∧
      ∀ w, Item.word w ∈ Item.opt :: xs.flatMap (· ++ [.opt]) → Writable w := by
  have key : xs = [] ∨ ∃ l, xs.flatMap (· ++ [.opt]) = l ++ [.opt] ∧ Seg F L l := by
    induction xs with
    | nil => exact .inl rfl
    | cons r S ih =>
      have hr := h r (by simp)
      right
      rcases ih (fun x hx => h x (by simp [hx])) with rfl | ⟨l, e, hl⟩
      · exact ⟨r, by simp, hr⟩
      · exact ⟨r ++ .opt :: l, by rw [List.flatMap_cons, e]; simp, hr.gap (g := .opt) hl (by simp) (.inr hg)⟩
  rcases key with rfl | ⟨l, e, hl⟩
  · exact ⟨rfl, rfl, by simp⟩
  · rw [e]
    obtain ⟨x, k, ex, _⟩ := hl.last
    obtain ⟨y, ky, ey, _⟩ := hl.first
    refine ⟨?_, ?_, ?_⟩
    · have h1 := hl.sep
      have h2 : sep (l ++ [.opt]) = true := by
        rw [ex] at h1 ⊢; exact sep_gap h1 rfl rfl
      rw [ey] at h2 ⊢
      exact h2
    · show apart (tight (l ++ [.opt])) = true
      rw [tight_append]
      simpa [tight] using hl.apart
    · intro w hw
      simp at hw
      exact hl.words w hw

/-- The segments. -/
def parts (ds : List Def) (S : Sheet) : List (List Item) := ds.map (fun d => d.items ++ [.opt, mark .SEMICOLON]) ++ S.map Rule.items

theorem parts_items (ds : List Def) (S : Sheet) : withVars ds S = .opt :: (parts ds S).flatMap (· ++ [.opt]) := by
  unfold withVars parts
  rw [List.flatMap_append, List.flatMap_map, List.flatMap_map]
  simp

theorem vars_tokens {ds : List Def} {S : Sheet} (hd : ∀ d ∈ ds, d.Ok) (h : S.Src) {src : Str} (hl : Lays (withVars ds S) src) {f : Nat}
    (hf : src.length < f) :
    Toks (withVars ds S) ((Lex.lexAll f (Lex.init src)).1.map Word.of) ∧ (Lex.lexAll f (Lex.init src)).2.err = [] ∧
      (Lex.lexAll f (Lex.init src)).2.exn = none ∧ (Lex.lexAll f (Lex.init src)).2.ub = false := by
  have hs : ∀ x ∈ parts ds S, Seg (fun w => SimpleStart w ∨ Is .VARIABLE w) (fun w => Is .CLOSE_CURLYBRACKET w ∨ Is .SEMICOLON w) x := by
    intro x hx
    rcases List.mem_append.1 hx with hx | hx
    · obtain ⟨d, hd', e⟩ := List.mem_map.1 hx
      rw [← e]
      have := (Def.seg (hd d hd')).gap (g := .opt) (seg_mark (ty := .SEMICOLON) (by simp)) (by simp) (.inr (by
        intro x y hx hy
        unfold Is at hy
        rcases hx with hx | hx | hx | hx <;> simp [Glued, Word.wordy, hx, hy]))
      exact this.mono (fun w h => .inr h) (fun w h => .inr h)
    · obtain ⟨r, hr, e⟩ := List.mem_map.1 hx
      rw [← e]
      exact (Rule.seg (h r hr)).mono (fun w h => .inl h) (fun w h => .inl h)
  obtain ⟨h1, h2, h3⟩ := segs (by
    rintro x y (hx | hx) hy <;> unfold Is at hx <;> simp [Glued, hx]) hs
  rw [← parts_items] at h1 h2 h3
  exact lays_tokens hl h1 h3 h2 hf

/-! ### The tree -/

/-- The tree of a definition. -/
def IsDef (d : Def) (n : Nd) : Prop :=
  ∃ tk v c w1 w2 x, n = setNode tk v c w1 w2 [.leaf x] ∧ tk.ty = .COMPONENT_VALUE ∧ v.str = d.name ∧ d.value.items = [.word (Word.of x)]

theorem with_ty {t : Tok} {ty : NT} (h : t.ty = ty) : { t with ty := ty } = t := by
  subst h; rfl

theorem def_node {d : Def} (hd : d.Ok) {k : List Tok} (h : Read d.items k) {p : Pos} :
    IsDef d (.mk { ty := .COMPONENT_VALUE, pos := p } (k.map Nd.leaf)) ∧
      variableSet (types (k.map Nd.leaf)) = true ∧ ∃ x k', k = k' ++ [x] ∧ ∃ v k2, k = v :: k2 ∧ v.ty = .VARIABLE := by
  obtain ⟨w, ew, hw⟩ := hd.one
  have h : Read (.word { ty := .VARIABLE, str := d.name } :: .opt :: mark .COLON :: .opt :: d.value.items) k := h
  rw [ew] at h
  obtain ⟨v, k, rfl, hv, h⟩ := h.word
  obtain ⟨g, k, rfl, hg, h⟩ := h.opt
  obtain ⟨c, k, rfl, hc, h⟩ := h.word
  obtain ⟨g', k, rfl, hg', h⟩ := h.opt
  obtain ⟨x, k, rfl, hx, h⟩ := h.word
  rw [h.nil]
  have hvt : v.ty = .VARIABLE := congrArg Word.ty hv
  have hct : c.ty = .COLON := congrArg Word.ty hc
  refine ⟨?_, ?_, x, v :: (g ++ c :: g'), by simp, v, _, rfl, hvt⟩
  · have gap : ∀ {g : List Tok}, Gap g → ∃ w : Option Tok, g.map Nd.leaf = w.toList.map (fun w => Nd.leaf { w with ty := .WHITESPACE }) := by
      intro g hg
      rcases hg.ty with rfl | ⟨t, rfl, e⟩
      · exact ⟨none, rfl⟩
      · exact ⟨some t, by show [Nd.leaf t] = [Nd.leaf { t with ty := .WHITESPACE }]; rw [with_ty e]⟩
    obtain ⟨w1, e1⟩ := gap hg
    obtain ⟨w2, e2⟩ := gap hg'
    refine ⟨{ ty := .COMPONENT_VALUE, pos := p }, v, c, w1, w2, x, ?_, rfl, congrArg Word.str hv, ?_⟩
    · unfold setNode
      rw [with_ty hvt, with_ty hct, ← e1, ← e2]
      simp
    · rw [ew, hx]
  · rw [types_leaves]
    rcases hg.ty with rfl | ⟨t, rfl, e⟩ <;> rcases hg'.ty with rfl | ⟨t', rfl, e'⟩ <;>
      simp [variableSet, afterColon, hvt, hct, *]

theorem def_run {d : Def} (hd : d.Ok) {ts rest : List Tok} {fin : Pos} {errs : List (Err × Pos)}
    (h : Read (d.items ++ [.opt, mark .SEMICOLON]) ts) {f : Nat} (hf : ts.length + 8 < f) :
    ∃ n, IsDef d n ∧ qualifiedRule f ⟨ts ++ rest, fin, errs⟩ = .ok n ⟨rest, fin, errs⟩ := by
  obtain ⟨k, a, rfl, hk, h⟩ := Read.append h
  obtain ⟨g, a, rfl, hg, h⟩ := h.opt
  obtain ⟨s, a, rfl, hs, h⟩ := Read.word h
  rw [h.nil] at hf ⊢
  have hst : s.ty = .SEMICOLON := congrArg Word.ty hs
  have hsol := read_solid (Def.seg hd) (Def.flat d) hk
  obtain ⟨hn, hset, x, k', ex, v, k2, ev, hv⟩ := def_node hd hk (p := (k.head hsol.ne).pos)
  refine ⟨_, hn, ?_⟩
  obtain ⟨f, rfl⟩ : ∃ f', f = f' + 1 + (k ++ g).length + 1 + 1 := ⟨f - ((k ++ g).length + 3), by simp at hf ⊢; omega⟩
  obtain ⟨l1, l2⟩ : (∀ x ∈ k ++ g, leafTy x.ty = true) ∧ tidy ((k ++ g).map (·.ty)) = true := by
    have := around_leaves (g := []) (.inl rfl) hsol hg
    simpa using this
  have e2 : k ++ (g ++ [s]) ++ rest = (k ++ g) ++ (s :: rest) := by simp
  have hlast : (⟨(k ++ g) ++ (s :: rest), fin, errs⟩ : St).last = v := by rw [ev]; rfl
  have hpos : (k.head hsol.ne).pos = v.pos := by simp [ev]
  rw [hpos]
  let ct : Tok := { ty := .COMPONENT_VALUE, pos := v.pos }
  have hcc : ∀ k, supportsChildren (Nd.mk ct k).ty = true := fun _ => rfl
  have hdrop : dropEnds (dropHeads ((k ++ g).map Nd.leaf)) = k.map Nd.leaf := by
    have a := trim_heads (g := []) (.inl rfl) hsol (g.map Nd.leaf)
    rw [List.map_nil, List.nil_append] at a
    rw [List.map_append, a]
    exact trim_ends hg hsol
  have hcv : componentValueList (f + 1 + (k ++ g).length + 1 + 1) ⟨false, true⟩ ⟨(k ++ g) ++ (s :: rest), fin, errs⟩ =
      .ok (.mk ct (k.map Nd.leaf)) ⟨rest, fin, errs⟩ := by
    unfold componentValueList
    rw [last_eq, hlast]
    refine Eq.trans (leaves_run (g := f + 1) (k := []) (lt := ct) rfl l1 l2) ?_
    rw [List.nil_append]
    conv => lhs; unfold cvLoop
    rw [last_run, if_neg (by rw [hst]; simp [stops]), if_neg (by rw [hst]; simp), if_pos hst, next_run,
      val_run _ (dropFirsts_eq (hcc _)), mk_kids, mk_tok, val_run _ (dropLasts_eq (hcc _)), mk_kids, mk_tok, hdrop,
      val_run (v := true) _ (by rw [endsVariable_eq (hcc _), mk_kids, hset]; rfl), if_pos rfl, listEnd_eq rfl rfl, mk_tok, mk_kids,
      lastValue_run (by simpa using hsol.ne) (by rw [types_leaves]; exact hsol.head) (by rw [types_leaves]; exact hsol.last)]
    rfl
  have hvl : leafTy v.ty = true := by rw [hv]; rfl
  unfold qualifiedRule
  rw [e2, last_eq, hlast, if_neg (by rw [hv]; simp), if_neg (by rw [hv]; simp), bind_run hcv,
    val_run (v := false) _ (by rw [isEmpty_ok (hcc _), mk_kids, ev]; rfl), if_neg (by simp),
    val_run _ (getLast_ok (c := .leaf x) (hcc _) (by rw [mk_kids, ex, List.map_append]; simp)),
    val_run (v := true) _ (by rw [isVariableSet_eq false (hcc _), mk_kids]; show (pure (variableSet _) : M Bool) = _; rw [hset]), if_neg (by simp)]
  rfl

theorem def_ty {d : Def} {n : Nd} (h : IsDef d n) : n.ty = .COMPONENT_VALUE := by
  obtain ⟨tk, v, c, w1, w2, x, rfl, _⟩ := h
  rfl

/-- The definitions and the rules. -/
theorem vars_run {fin : Pos} {S : Sheet} (hS : S.Src) : ∀ (ds : List Def), (∀ d ∈ ds, d.Ok) → ∀ (ts : List Tok) (result : Nd) (f : Nat),
    result.ty = .LIST → Read (withVars ds S) ts → ts.length + 10 < f →
    ∃ ms ns, Each IsDef ds ms ∧ Each IsRule S ns ∧
      stylesheetLoop f result ⟨ts, fin, []⟩ = .ok (.mk result.tok (result.kids ++ (ms ++ ns))) ⟨[], fin, []⟩ := by
  intro ds
  induction ds with
  | nil =>
    intro _ ts result f hr h hf
    obtain ⟨ns, h1, h2⟩ := rules_run S hS ts result f hr h hf
    exact ⟨[], ns, .nil, h1, h2⟩
  | cons r ds ih =>
    intro hok ts result f hr h hf
    have h : Read (.opt :: ((r.items ++ [.opt, mark .SEMICOLON]) ++ withVars ds S)) ts := by
      have e : withVars (r :: ds) S = .opt :: ((r.items ++ [.opt, mark .SEMICOLON]) ++ withVars ds S) := by
        unfold withVars
        simp
      rwa [e] at h
    obtain ⟨g, ts, rfl, hg, h⟩ := h.opt
    obtain ⟨k, ts, rfl, hk, h⟩ := Read.append h
    obtain ⟨f, rfl⟩ : ∃ f', f = f' + 2 := ⟨f - 2, by omega⟩
    have hcr : supportsChildren result.ty = true := by rw [hr]; rfl
    have key : ∀ f, k.length + ts.length + 9 < f → ∃ ms ns, Each IsDef (r :: ds) ms ∧ Each IsRule S ns ∧
      stylesheetLoop (f + 1) result ⟨k ++ ts, fin, []⟩ = .ok (.mk result.tok (result.kids ++ (ms ++ ns))) ⟨[], fin, []⟩ := by
      intro f hf
      obtain ⟨n, hn, e1⟩ := def_run (hok r (by simp)) hk (rest := ts) (fin := fin) (errs := []) (f := f) (by omega)
      obtain ⟨t, k', ek, htt⟩ : ∃ t k', k = t :: k' ∧ t.ty = .VARIABLE := by
        have hk : Read (.word { ty := .VARIABLE, str := r.name } :: (.opt :: mark .COLON :: .opt :: r.value.items ++ [.opt, mark .SEMICOLON])) k := hk
        obtain ⟨t, k', ek, et, _⟩ := hk.word
        exact ⟨t, k', ek, congrArg Word.ty et⟩
      have hlen : 0 < k.length := by rw [ek]; simp
      obtain ⟨ms, ns, h2, h3, e2⟩ := ih (fun x hx => hok x (by simp [hx])) ts (.mk result.tok (result.kids ++ [n])) f hr h (by omega)
      refine ⟨n :: ms, ns, .cons hn h2, h3, ?_⟩
      conv => lhs; unfold stylesheetLoop
      have el : (⟨k ++ ts, fin, []⟩ : St).last = t := by rw [ek]; rfl
      rw [last_eq, el]
      rw [if_neg (by rw [htt]; simp), if_neg (by rw [htt]; simp), if_neg (by rw [htt]; simp [isClose]), if_neg (by rw [htt]; simp),
        if_neg (by rw [htt]; simp),
        bind_run e1, val_run _ (addChild_ok hcr), push_group (.inr (def_ty hn)), e2, mk_tok, mk_kids]
      simp
    rcases hg.ty with rfl | ⟨t, rfl, et⟩
    · exact key (f + 1) (by simp at hf; omega)
    · obtain ⟨ms, ns, h2, h3, e2⟩ := key f (by simp at hf; omega)
      refine ⟨ms, ns, h2, h3, ?_⟩
      conv => lhs; unfold stylesheetLoop
      rw [List.singleton_append, last_run, if_neg (by rw [et]; simp), if_pos (by simp [et]), next_run]
      exact e2

theorem vars_tree {ds : List Def} (hd : ∀ d ∈ ds, d.Ok) {S : Sheet} (hS : S.Src) {ts : List Tok} (h : Read (withVars ds S) ts)
    {fin : Pos} {f : Nat} (hf : ts.length + 10 < f) : ∃ p ms ns, Each IsDef ds ms ∧ Each IsRule S ns ∧
      stylesheet f ⟨ts, fin, []⟩ = .ok (.mk { ty := .LIST, pos := p } (ms ++ ns)) ⟨[], fin, []⟩ := by
  obtain ⟨ms, ns, h1, h2, h3⟩ := vars_run (fin := fin) hS ds hd ts (newNode .LIST (⟨ts, fin, []⟩ : St).last) f rfl h hf
  exact ⟨_, ms, ns, h1, h2, h3⟩

/-! ### The preprocessor -/

theorem def_mark {d : Def} (hd : d.Ok) {n : Nd} (h : IsDef d n) : Vars.mark false n = n := by
  obtain ⟨w, ew, hw⟩ := hd.one
  obtain ⟨tk, v, c, w1, w2, x, rfl, h1, _, h3⟩ := h
  rw [ew] at h3
  have hx : w = Word.of x := by injection h3 with h3; injection h3
  have hxl : leafTy x.ty = true := by
    rw [show x.ty = w.ty from by rw [hx]; rfl]
    rcases hw with h | h | h
    · rw [h.1]; rfl
    · rw [h]; rfl
    · rw [h]; rfl
  obtain ⟨k, hk, ek⟩ : ∃ k : List Tok, (∀ t ∈ k, leafTy t.ty = true) ∧ setNode tk v c w1 w2 [.leaf x] = .mk { tk with ty := .COMPONENT_VALUE } (k.map Nd.leaf) := by
    refine ⟨{ v with ty := .VARIABLE } :: (w1.toList.map (fun w => { w with ty := .WHITESPACE }) ++
      { c with ty := .COLON } :: (w2.toList.map (fun w => { w with ty := .WHITESPACE }) ++ [x])), ?_, ?_⟩
    · intro t ht
      cases w1 <;> cases w2 <;> simp at ht <;> (first | (rcases ht with h | h | h | h | h <;> first | (rw [h]; rfl) | (rw [h]; exact hxl)) | (rcases ht with h | h | h | h <;> first | (rw [h]; rfl) | (rw [h]; exact hxl)) | (rcases ht with h | h | h <;> first | (rw [h]; rfl) | (rw [h]; exact hxl)))
    · unfold setNode
      simp [Function.comp_def]
  rw [ek]
  unfold Vars.mark
  dsimp only
  rw [if_neg (show ¬ false = true by simp), if_pos (by rfl), leaves_last hk]
  have := leaves_mark hk [] false (.inl rfl)
  rw [List.append_nil] at this
  rw [this]
  simp [Vars.markAll]

theorem get_put (s : Vars.St) (v : Vars.Var) (n : Str) : (s.put v false).get n = if v.key = n then some v else s.get n := by
  have e : ∀ l : List Vars.Var, Vars.findVar n (Vars.putVar v l) = if v.key = n then some v else Vars.findVar n l := by
    intro l
    induction l with
    | nil => rfl
    | cons w l ih =>
      unfold Vars.putVar
      by_cases hw : w.key = v.key
      · rw [if_pos hw]
        unfold Vars.findVar
        rw [hw]
        by_cases hn : v.key = n
        · rw [if_pos hn, if_pos hn]
        · rw [if_neg hn, if_neg hn, if_neg hn]
      · rw [if_neg hw]
        unfold Vars.findVar
        by_cases hn : w.key = n
        · rw [if_pos hn, if_pos hn, if_neg (fun h => hw (hn.trans h.symm))]
        · rw [if_neg hn, if_neg hn, ih]
  obtain ⟨scopes, root, errs⟩ := s
  unfold Vars.St.put Vars.St.get
  rw [if_neg (by simp)]
  cases scopes with
  | nil => exact e root
  | cons b bs =>
    show (match Vars.findVar n (Vars.putVar v b) with | some v => some v | none => Vars.findScopes n bs root) = _
    rw [e b]
    by_cases hn : v.key = n
    · rw [if_pos hn, if_pos hn]
    · rw [if_neg hn, if_neg hn]; rfl

theorem lookup_cons (d : Def) (ds : List Def) (n : Str) :
    lookup (d :: ds) n = match lookup ds n with | some v => some v | none => if d.name = n then some d.value else none := by
  unfold lookup
  rw [List.reverse_cons, List.find?_append]
  cases h : ds.reverse.find? (fun d => d.name == n) with
  | some x => rfl
  | none =>
    rw [Option.none_or, List.find?_cons]
    by_cases hn : d.name = n
    · simp [hn]
    · rw [if_neg hn, show (d.name == n) = false from by simpa using hn]
      rfl

/-- The variable in the state. -/
def Holds (s : Vars.St) (n : Str) (x : Tok) : Prop := ∃ v, s.get n = some v ∧ v.name.ty = .VARIABLE ∧ v.value = .leaf x

theorem def_vars {d : Def} (hd : d.Ok) {n : Nd} (h : IsDef d n) (E : Env) (s : Vars.St) :
    ∃ (v : Vars.Var) (x : Tok), v.key = d.name ∧ v.name.ty = .VARIABLE ∧ v.value = .leaf x ∧ OneTy x.ty ∧ d.value.items = [.word (Word.of x)] ∧
      Gives (fun f => Vars.replaceVars E f n) s (.ok none (s.put v false)) := by
  obtain ⟨w, ew, hw⟩ := hd.one
  obtain ⟨tk, v, c, w1, w2, x, rfl, h1, hk, h3⟩ := h
  have hx : w = Word.of x := by
    rw [ew] at h3
    injection h3 with h3; injection h3
  have hxt : x.ty = w.ty := by rw [hx]; rfl
  have hxs : x.str = w.str := by rw [hx]; rfl
  have hone : OneTy x.ty := by
    rw [hxt]
    rcases hw with h | h | h
    · exact .inl h.1
    · exact .inr (.inl h)
    · exact .inr (.inr h)
  have hnf : ∀ name, ¬ IsFlag name (.leaf x) := by
    rintro name ⟨h, _⟩
    have h : x.ty = .EXCLAMATION := h
    rcases hone with e | e | e <;> rw [e] at h <;> cases h
  have hany : ¬ AnyFlag (.leaf x) := by
    rintro (h | h)
    · exact hnf _ h
    · exact hnf _ h
  have hass : assigned tk.pos [.leaf x] = .leaf x := by
    unfold assigned
    rw [List.filter_cons, if_pos (by simp [hany]), List.filter_nil]
    dsimp only
    rw [if_neg]
    rintro ⟨e1, e2⟩
    have e1 : x.ty = .IDENTIFIER := e1
    have e2 : x.str = b!"null" := e2
    rw [hxt] at e1
    rw [hxs] at e2
    rcases hw with h | h | h
    · exact h.2 e2
    · rw [h] at e1; cases e1
    · rw [h] at e1; cases e1
  obtain ⟨s1, ⟨a1, a2, _, a3⟩, _, a4⟩ := Vars.C59_set E tk v c w1 w2 [.leaf x] s
    (fun c hc => by rw [List.mem_singleton.1 hc]; exact one_plain hone)
    (by
      show some x.ty ≠ _
      intro e
      injection e with e
      rcases hone with h | h | h <;> rw [h] at e <;> cases e) (.inr (.inr (by simp)))
  have hlate : ¬ Csspp.Spec.Late [Nd.leaf x] := by
    rintro ⟨a, f, b, c, e, hf, _⟩
    have : f ∈ [Nd.leaf x] := by rw [e]; simp
    rw [List.mem_singleton.1 this] at hf
    exact hany hf
  have hs : s1 = s := by
    have a3 := a3 hlate
    cases s1; cases s; cases a1; cases a2; cases a3; rfl
  subst hs
  have g := a4 (by
    rintro ⟨⟨c, hc, hf⟩, _⟩
    rw [List.mem_singleton.1 hc] at hf
    exact hnf _ hf) false ⟨fun h => (by cases h), fun h => (by
      obtain ⟨c, hc, hf⟩ := h
      rw [List.mem_singleton.1 hc] at hf
      exact absurd hf (hnf _))⟩
  rw [hass] at g
  exact ⟨⟨.leaf { v with ty := .VARIABLE }, .leaf x⟩, x, hk, rfl, rfl, hone, h3, g⟩

/-- What the definitions leave. -/
theorem defs_vars (E : Env) (p : NT) : ∀ {ds : List Def} {ms : List Nd}, Each IsDef ds ms → (∀ d ∈ ds, d.Ok) → ∀ s : Vars.St,
    ∃ s' : Vars.St, (∀ rest : List Nd, To E p (ms ++ rest) 0 s rest 0 s') ∧ s'.errs = s.errs ∧
      ∀ n, match lookup ds n with
        | none => s'.get n = s.get n
        | some v => ∃ x : Tok, OneTy x.ty ∧ v.items = [.word (Word.of x)] ∧ Holds s' n x := by
  intro ds ms h
  induction h with
  | nil => exact fun _ s => ⟨s, fun rest => To.refl, rfl, fun n => rfl⟩
  | cons h1 h2 ih =>
    rename_i d n ds ms
    intro hd s
    obtain ⟨v, x, b1, b2, b3, b4, b5, b6⟩ := def_vars (hd d (by simp)) h1 E s
    obtain ⟨s', i1, i2, i3⟩ := ih (fun d h => hd d (by simp [h])) (s.put v false)
    refine ⟨s', fun rest => ?_, i2.trans ?_, fun n => ?_⟩
    · exact (Vars.to_gone (p := p) [] (ms ++ rest) (by rw [def_ty h1]; rfl) b6).trans (i1 rest)
    · unfold Vars.St.put; split <;> (try split) <;> rfl
    · have := i3 n
      rw [lookup_cons]
      cases hl : lookup ds n with
      | some w => rw [hl] at this; exact this
      | none =>
        rw [hl] at this
        dsimp only at this ⊢
        rw [get_put, b1] at this
        by_cases hn : d.name = n
        · rw [if_pos hn]
          rw [if_pos hn] at this
          exact ⟨x, b4, b5, v, this, b2, b3⟩
        · rw [if_neg hn]
          rw [if_neg hn] at this
          exact this

theorem lookup_defined {ds : List Def} {n : Str} (h : ∃ d ∈ ds, d.name = n) : ∃ v, lookup ds n = some v ∧ ∃ d ∈ ds, d.name = n ∧ d.value = v := by
  unfold lookup
  cases e : ds.reverse.find? (fun d => d.name == n) with
  | none =>
    obtain ⟨d, hd, hn⟩ := h
    rw [List.find?_eq_none] at e
    exact absurd (by simpa using hn) (e d (by simpa using hd))
  | some d =>
    refine ⟨d.value, rfl, d, by simpa using List.mem_of_find?_eq_some e, by simpa using List.find?_some e, rfl⟩

/-- The values, as tokens. -/
theorem defs_known (E : Env) (p : NT) {ds : List Def} {ms : List Nd} (h : Each IsDef ds ms) (hd : ∀ d ∈ ds, d.Ok) (s : Vars.St) :
    ∃ (val : Str → Tok) (s' : Vars.St), (∀ rest : List Nd, To E p (ms ++ rest) 0 s rest 0 s') ∧ s'.errs = s.errs ∧
      ∀ n, (∃ d ∈ ds, d.name = n) → Knows (values ds) val n ∧ Has val s' n := by
  obtain ⟨s', h1, h2, h3⟩ := defs_vars E p h hd s
  have : ∀ n, ∃ x : Tok, (∃ d ∈ ds, d.name = n) → OneTy x.ty ∧ (values ds n).items = [.word (Word.of x)] ∧ Holds s' n x := by
    intro n
    by_cases hn : ∃ d ∈ ds, d.name = n
    · obtain ⟨v, hv, _⟩ := lookup_defined hn
      have := h3 n
      rw [hv] at this
      obtain ⟨x, a, b, c⟩ := this
      refine ⟨x, fun _ => ⟨a, ?_, c⟩⟩
      unfold values
      rw [hv]; exact b
    · exact ⟨{ ty := .EOF_TOKEN, pos := ⟨0, 0, 0⟩ }, fun h => absurd h hn⟩
  obtain ⟨val, hval⟩ := Classical.axiomOfChoice this
  refine ⟨val, s', h1, h2, fun n hn => ?_⟩
  obtain ⟨a, b, c⟩ := hval n hn
  exact ⟨⟨a, b⟩, c⟩

/-- The rules with references. -/
theorem rules_refs {σ : Str → Val} {val : Str → Tok} (E : Env) {S : Sheet} {ns : List Nd} (h : Each Marked S ns) (hS : S.Src)
    (hk : ∀ r ∈ S, ∀ x, r.refs x → Knows σ val x) :
    ∃ ns', Each IsRule1 (S.replace σ) ns' ∧ ∀ (pre : List Nd) s, (∀ r ∈ S, ∀ x, r.refs x → Has val s x) →
      Gives (fun f => Vars.loop E f .LIST (pre ++ ns) pre.length) s (.ok (pre ++ ns') s) := by
  induction h with
  | nil =>
    refine ⟨[], .nil, fun d s _ => ?_⟩
    rw [List.append_nil]
    exact Vars.loop_end E .LIST d s
  | cons h1 h2 ih =>
    rename_i r n S ns
    obtain ⟨ns', i1, i2⟩ := ih (fun r hr => hS r (by simp [hr])) (fun r hr => hk r (by simp [hr]))
    obtain ⟨n', j1, j2⟩ := rule_refs (hS r (by simp)) h1 E (hk r (by simp))
    refine ⟨n' :: ns', .cons j1 i1, fun d s hh => ?_⟩
    have i3 := i2 (d ++ [n']) s (fun r hr => hh r (by simp [hr]))
    rw [List.length_append, List.length_singleton, List.append_assoc, List.singleton_append, List.append_assoc,
      List.singleton_append] at i3
    have hty : n.ty = .COMPONENT_VALUE := by obtain ⟨p, k, o, b, rfl, _⟩ := h1; rfl
    exact to_some (E := E) (p := .LIST) d ns (by rw [hty]; rfl) (j2 s (hh r (by simp))) _ (by simp) i3

/-- The preprocessor on a style sheet with variables. -/
theorem sheet_refs (E : Env) {ds : List Def} (hd : ∀ d ∈ ds, d.Ok) {S : Sheet} (hS : S.Src) (hdef : Defined ds S) (hne : S ≠ [])
    {ms ns : List Nd} (hm : Each IsDef ds ms) (hn : Each IsRule S ns) (p : Pos) (s : Vars.St) :
    ∃ ns' s', Each IsRule1 (S.replace (values ds)) ns' ∧ s'.errs = s.errs ∧
      Gives (fun f => Vars.replaceRoot E f (Vars.mark false (.mk { ty := .LIST, pos := p } (ms ++ ns)))) s
        (.ok (.mk { ty := .LIST, pos := p } ns') s') := by
  obtain ⟨m, hmk, e⟩ := sheet_mark hS hn p
  obtain ⟨val, s', a1, a2, a3⟩ := defs_known E .LIST hm hd s
  have hrefs : ∀ r ∈ S, ∀ x, r.refs x → ∃ d ∈ ds, d.name = x := by
    rintro r hr x ⟨d, hd, g, hg, hx⟩
    exact hdef r hr d hd g hg x hx
  obtain ⟨ns', b1, b2⟩ := rules_refs (σ := values ds) (val := val) E hmk hS (fun r hr x hx => (a3 x (hrefs r hr x hx)).1)
  have b3 := b2 [] s' (fun r hr x hx => (a3 x (hrefs r hr x hx)).2)
  rw [List.nil_append, List.length_nil, List.nil_append] at b3
  have hall : Gives (fun f => Vars.loop E f .LIST (ms ++ m) 0) s (.ok ns' s') := a1 m _ (by simp) b3
  have hty : ∀ n ∈ ms ++ ns, n.ty = .COMPONENT_VALUE := by
    intro n hn'
    rcases List.mem_append.1 hn' with h | h
    · have : ∀ {ds : List Def} {ms : List Nd}, Each IsDef ds ms → ∀ n ∈ ms, n.ty = .COMPONENT_VALUE := by
        intro ds ms h
        induction h with
        | nil => intro n hn; cases hn
        | cons h1 _ ih =>
          intro n hn
          rcases List.mem_cons.1 hn with rfl | hn
          · exact def_ty h1
          · exact ih n hn
      exact this hm n h
    · have : ∀ {S : Sheet} {ms : List Nd}, Each IsRule S ms → ∀ n ∈ ms, n.ty = .COMPONENT_VALUE := by
        intro ds ms h
        induction h with
        | nil => intro n hn; cases hn
        | cons h1 _ ih =>
          intro n hn
          rcases List.mem_cons.1 hn with rfl | hn
          · obtain ⟨p, k, o, b, rfl, _⟩ := h1; rfl
          · exact ih n hn
      exact this hn n h
  have last : ∀ l : List Nd, (∀ n ∈ l, n.ty = .COMPONENT_VALUE) → Vars.marksLast l = false := by
    intro l hl
    unfold Vars.marksLast
    rw [Bool.and_eq_false_iff]
    right
    rw [decide_eq_false_iff_not]
    intro e
    cases hk : l.getLast? with
    | none => rw [hk] at e; cases e
    | some t =>
      rw [hk] at e
      have := hl t (List.mem_of_getLast? hk)
      have e : t.ty = .OPEN_CURLYBRACKET := by simpa using e
      rw [e] at this
      cases this
  have un : ∀ l : List Nd, (∀ n ∈ l, n.ty = .COMPONENT_VALUE) →
      Vars.mark false (.mk { ty := .LIST, pos := p } l) = .mk { ty := .LIST, pos := p } (Vars.markAll false l) := by
    intro l hl
    unfold Vars.mark
    dsimp only
    rw [if_neg (show ¬ false = true by simp), if_pos (by rfl), last l hl]
  have hmm : Vars.markAll false ns = m := by
    rw [un ns fun n h => hty n (by simp [h])] at e
    injection e
  have happ : ∀ {ds : List Def} {ms : List Nd}, Each IsDef ds ms → (∀ d ∈ ds, d.Ok) → Vars.markAll false (ms ++ ns) = ms ++ Vars.markAll false ns := by
    intro ds ms h
    induction h with
    | nil => intro _; rfl
    | cons h1 _ ih =>
      intro hd
      rw [List.cons_append]
      show Vars.mark (false && _) _ :: Vars.markAll false (_ ++ ns) = _
      rw [Bool.false_and, def_mark (hd _ (by simp)) h1, ih fun d h => hd d (by simp [h])]
      rfl
  refine ⟨ns', s', b1, a2, ?_⟩
  rw [un _ hty, happ hm hd, hmm]
  have hmne : ms ++ m ≠ [] := by
    cases hmk with
    | nil => exact absurd rfl hne
    | cons => simp
  have h4 : Gives (fun f => Vars.replaceVars E f (.mk { ty := .LIST, pos := p } (ms ++ m))) s (.ok (some (.mk { ty := .LIST, pos := p } ns')) s') := by
    generalize ms ++ m = l at hall hmne
    refine Vars.gives_succ (Vars.gives_bind (f := fun _ k => pure (some (Nd.mk { ty := .LIST, pos := p } k))) hall (Vars.gives_pure _ s')) (fun g => ?_)
    have hty : (Nd.mk { ty := .LIST, pos := p } l).ty = .LIST := rfl
    have e0 : Vars.isScope (Nd.mk { ty := .LIST, pos := p } l) = false := rfl
    have e1 : Vars.isVarSet (Nd.mk { ty := .LIST, pos := p } l) = false := rfl
    have e2 : Vars.firstIdx (Nd.mk { ty := .LIST, pos := p } l) = 0 := by
      unfold Vars.firstIdx; rw [e1]; rfl
    conv => lhs; rw [Vars.replaceVars]
    rw [hty, if_neg (by simp), if_neg (by simp [Vars.walks]), if_neg (by
      rintro ⟨_, h⟩; exact hmne (List.isEmpty_iff.1 h)), e0, e1, e2]
    simp only [Vars.bind_apply, Vars.enter, Vars.leave]
    rfl
  exact Vars.gives_bind (f := fun _ r => Vars.orThrow r) h4 ⟨0, fun _ _ => rfl⟩

end Csspp.Spec.Plain
