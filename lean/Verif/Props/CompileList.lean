import Verif.Props.ExprGrammar
import Verif.Model.CompileList

/-!
C82: the values of a declaration. Each expression is replaced by its value, one blank is kept between two expressions
when there was at least one, and `!important` is taken out and becomes a flag of the declaration.
-/

namespace Csspp.Expr
open Csspp.Flt

/-! ### Specification -/

/-- A part of the value of a declaration: an expression (its tokens, its value and its messages) or a flag. -/
inductive Part where
  | expr (ts : List Tok) (v : Val Ref) (es : List Err)
  | flag (name : Str)

/-- A part and the number of blanks after it. -/
structure Cell where
  part : Part
  blanks : Nat := 0

/-- What is written. -/
def Part.toks : Part → List Tok
  | .expr ts _ _ => ts
  | .flag name => [.lit (.other .EXCLAMATION name)]

/-- What is written, with the blanks. -/
def tokens : List Cell → List Tok
  | [] => []
  | c :: cs => c.part.toks ++ (List.replicate c.blanks (.sym .WHITESPACE) ++ tokens cs)

/-- The tokens are an expression of the grammar of C30, which has this value and reports these errors. -/
def Part.Means (env : Env) : Part → Prop
  | .expr ts v es => ts.head?.map Tok.isWs ≠ some true ∧ ts.getLast?.map Tok.isWs ≠ some true ∧
      ts.head?.bind Tok.flag = none ∧ ∃ e, G .cond (noWs ts) e ∧ den env e = some (v, es)
  | .flag _ => True

/-- The next token does not continue the expression. -/
def Part.Ends (next : Tok) : Part → Prop
  | .expr _ _ _ => Stop .cond next
  | .flag _ => True

/-- Every expression has a value, and what comes after it does not continue it. -/
def Apart (env : Env) : List Cell → Prop
  | [] => True
  | c :: cs => c.part.Means env ∧ c.part.Ends ((tokens cs).headD (.sym .EOF_TOKEN)) ∧ Apart env cs

/-- What is left in the declaration. -/
inductive Shown where
  | value (v : Val Ref)
  | blank

/-- What is left of the parts: the values, with one blank at most between two of them. A flag leaves nothing; the
blanks after the flags are left only when no value follows. -/
def shown (pend : Nat) : List Cell → List Shown
  | [] => List.replicate pend .blank
  | ⟨.flag _, n⟩ :: cs => shown (pend + n) cs
  | ⟨.expr _ v _, n⟩ :: cs =>
    .value v :: match cs with
      | [] => []
      | c :: cs => (if n = 0 then [] else [.blank]) ++ shown 0 (c :: cs)

/-- The flags. -/
def flagsOf : List Cell → List Str
  | [] => []
  | ⟨.flag name, _⟩ :: cs => name :: flagsOf cs
  | _ :: cs => flagsOf cs

/-- The flags with something after them. -/
def warned : List Cell → List Str
  | [] => []
  | ⟨.flag name, _⟩ :: cs => (if cs.isEmpty then [] else [name]) ++ warned cs
  | _ :: cs => warned cs

/-- The errors of the expressions. -/
def errsOf : List Cell → List Err
  | [] => []
  | ⟨.expr _ _ es, _⟩ :: cs => es ++ errsOf cs
  | _ :: cs => errsOf cs

/-- A child of the declaration as the one who reads the tree sees it. -/
def Child.view (heap : List (Val Ref)) : Child → Option Shown
  | .tok t => if t.isWs then some .blank else none
  | .node r => heap[r]?.map .value

/-! ### The proof -/

theorem g_head {lvl : Lvl} {ts : List Tok} {e : E} (h : G lvl ts e) :
    ∃ t r, ts = t :: r ∧ t.isSym .EOF_TOKEN = false := by
  have key : ∀ (a b : List Tok), (∃ t r, a = t :: r ∧ t.isSym .EOF_TOKEN = false) →
      ∃ t r, a ++ b = t :: r ∧ t.isSym .EOF_TOKEN = false := by
    rintro a b ⟨t, r, rfl, h⟩
    exact ⟨t, r ++ b, rfl, h⟩
  induction h with
  | lit v => exact ⟨_, _, rfl, rfl⟩
  | ident s => exact ⟨_, _, rfl, rfl⟩
  | hash s => exact ⟨_, _, rfl, rfl⟩
  | call name args => exact ⟨_, _, rfl, rfl⟩
  | paren l e _ _ _ => exact ⟨_, _, rfl, rfl⟩
  | prim ts e _ ih => exact ih
  | plus ts e _ _ => exact ⟨_, _, rfl, rfl⟩
  | minus ts e _ _ => exact ⟨_, _, rfl, rfl⟩
  | unary ts e _ ih => exact ih
  | power ts1 t ts2 a b _ ht _ ih1 _ => exact key _ _ ih1
  | up b ts e _ ih => exact ih
  | bin b op ts1 t ts2 x y _ ho _ ih1 _ => exact key _ _ ih1
  | or ts e _ ih => exact ih
  | cond ts1 ts2 ts3 c a b _ _ _ ih1 _ _ =>
    rw [List.append_assoc]
    exact key _ _ ih1

theorem noWs_append (a b : List Tok) : noWs (a ++ b) = noWs a ++ noWs b := List.filter_append ..
theorem noWs_blanks (n : Nat) : noWs (List.replicate n (.sym .WHITESPACE)) = [] := by
  unfold noWs
  rw [List.filter_eq_nil_iff]
  intro t ht
  rw [List.eq_of_mem_replicate ht]
  simp [Tok.isWs]

theorem count_noWs (l : List Tok) : countToks l = (noWs l).length := by
  unfold countToks noWs
  exact List.countP_eq_length_filter

/-- A part starts with a token. -/
theorem part_head {env : Env} {p : Part} (h : p.Means env) :
    ∃ t ts, p.toks = t :: ts ∧ t.isWs = false ∧ t.isSym .EOF_TOKEN = false := by
  cases p with
  | flag name => exact ⟨_, _, rfl, rfl, rfl⟩
  | expr ts v es =>
    obtain ⟨h1, h2, h3, e, hg, hd⟩ := h
    obtain ⟨t, r, h4, h5⟩ := g_head hg
    cases ts with
    | nil => cases h4
    | cons x xs =>
      have hx : x.isWs = false := by
        cases hb : x.isWs
        · rfl
        · exact absurd (by simp [hb]) h1
      have : noWs (x :: xs) = x :: noWs xs := by simp [noWs, hx]
      rw [this] at h4
      injection h4 with h4 _
      exact ⟨x, xs, rfl, hx, by rw [h4]; exact h5⟩

theorem tokens_head {env : Env} {c : Cell} {cs : List Cell} (h : Apart env (c :: cs)) :
    ∃ t ts, tokens (c :: cs) = t :: ts ∧ t.isWs = false ∧ t.isSym .EOF_TOKEN = false := by
  obtain ⟨t, ts, h1, h2, h3⟩ := part_head h.1
  exact ⟨t, _, by rw [tokens, h1]; rfl, h2, h3⟩

theorem split_append (a : List Tok) (u : Tok) (us : List Tok) (hu : u.isWs = false) :
    splitAtTok (countToks (u :: us)) (a ++ u :: us) = (a, u :: us) := by
  induction a with
  | nil =>
    show splitAtTok _ (u :: us) = _
    rw [splitAtTok, if_pos ⟨hu, rfl⟩]
  | cons x a ih =>
    rw [List.cons_append, splitAtTok, if_neg, ih]
    rintro ⟨h1, h2⟩
    have : countToks (x :: (a ++ u :: us)) = countToks a + countToks (u :: us) + 1 := by
      unfold countToks
      rw [List.countP_cons, List.countP_append]
      simp [h1]
    omega

theorem dropWs_blanks (n : Nat) (l : List Tok) : dropWs (List.replicate n (.sym .WHITESPACE) ++ l) = dropWs l := by
  induction n with
  | zero => rfl
  | succ n ih =>
    rw [List.replicate_succ, List.cons_append, dropWs, if_pos (show (Tok.sym .WHITESPACE).isWs = true from rfl), ih]

theorem dropWs_head {t : Tok} (h : t.isWs = false) (l : List Tok) : dropWs (t :: l) = t :: l := by
  rw [dropWs, if_neg (by simp [h])]

theorem takeWs_blanks (n : Nat) (l : List Tok) (h : l.head?.map Tok.isWs ≠ some true) :
    (List.replicate n (Tok.sym .WHITESPACE) ++ l).takeWhile Tok.isWs = List.replicate n (.sym .WHITESPACE) := by
  induction n with
  | zero =>
    cases l with
    | nil => rfl
    | cons t l =>
      have : t.isWs = false := by
        cases hb : t.isWs
        · rfl
        · exact absurd (by simp [hb]) h
      simp [this]
  | succ n ih =>
    rw [List.replicate_succ, List.cons_append, List.takeWhile_cons, if_pos (show (Tok.sym .WHITESPACE).isWs = true from rfl), ih]

theorem view_blanks (heap : List (Val Ref)) (n : Nat) :
    ((List.replicate n (Tok.sym .WHITESPACE)).map Child.tok).map (Child.view heap) =
      (List.replicate n Shown.blank).map some := by
  rw [List.map_replicate, List.map_replicate, List.map_replicate]
  rfl

/-- A child keeps its value. -/
theorem view_frame {h h' : List (Val Ref)} (hf : Frame h h') {kids : List Child} {l : List Shown}
    (hk : kids.map (Child.view h) = l.map some) : kids.map (Child.view h') = l.map some := by
  rw [← hk]
  apply List.map_congr_left
  intro c hc
  cases c with
  | tok t => rfl
  | node r =>
    have : Child.view h (.node r) ∈ l.map some := by rw [← hk]; exact List.mem_map_of_mem hc
    rw [List.mem_map] at this
    obtain ⟨x, _, hx⟩ := this
    have hr : r < h.length := by
      rcases Nat.lt_or_ge r h.length with h1 | h1
      · exact h1
      · unfold Child.view at hx
        dsimp only at hx
        rw [List.getElem?_eq_none h1] at hx
        cases hx
    show h'[r]?.map _ = h[r]?.map _
    rw [hf.2 r hr]

/-- What is left after an expression. -/
theorem leftOver_eq {p b : Nat} {ts : List Tok} {u : Tok} {us : List Tok} {s : St}
    (hne : ts ≠ []) (hl : ts.getLast?.map Tok.isWs ≠ some true)
    (hu : u.isWs = false) (he : u.isSym .EOF_TOKEN = false) (hs : At s (u :: noWs us)) :
    leftOver (List.replicate p (.sym .WHITESPACE) ++ (ts ++ (List.replicate b (.sym .WHITESPACE) ++ u :: us))) s =
      (if b = 0 then [] else [.sym .WHITESPACE]) ++ u :: us := by
  obtain ⟨h1, h2, h3⟩ := hs
  have h1 : s.cur = u := h1
  have h2 : noWs s.rest = noWs us := h2
  have hc : countToks s.rest + 1 = countToks (u :: us) := by
    rw [count_noWs, count_noWs, h2]
    simp [noWs, hu]
  have e : List.replicate p (Tok.sym .WHITESPACE) ++ (ts ++ (List.replicate b (.sym .WHITESPACE) ++ u :: us)) =
      (List.replicate p (Tok.sym .WHITESPACE) ++ ts ++ List.replicate b (.sym .WHITESPACE)) ++ u :: us := by
    simp only [List.append_assoc]
  unfold leftOver
  rw [h1, he, hc, e, split_append _ _ _ hu]
  dsimp only
  rw [if_neg (by simp)]
  congr 1
  cases b with
  | zero =>
    rw [if_pos rfl, if_neg]
    rw [List.replicate_zero, List.append_nil, List.getLast?_append]
    cases hg : ts.getLast? with
    | none => exact absurd (List.getLast?_eq_none_iff.mp hg) hne
    | some x => rw [hg] at hl; exact hl
  | succ b =>
    rw [if_neg (Nat.succ_ne_zero b), if_pos]
    rw [List.replicate_succ', ← List.append_assoc, List.getLast?_append]
    rfl

theorem loop_runs (env : Env) : ∀ (cells : List Cell) (t : Tok) (raw : List Tok), Apart env cells →
    tokens cells = t :: raw → ∀ (n p : Nat) (row : Row) (s : St), cells.length ≤ n → s.vars = [] →
    ∃ kids s', listLoop env n (List.replicate p (.sym .WHITESPACE)) t raw row s =
        .ok { kids := row.kids ++ kids, flags := row.flags ++ flagsOf cells, warns := row.warns ++ warned cells } s' ∧
      s'.errs = s.errs ++ errsOf cells ∧ Frame s.heap s'.heap ∧
      kids.map (Child.view s'.heap) = (shown p cells).map some := by
  intro cells
  induction cells with
  | nil => intro t raw _ h; cases h
  | cons c cs ih =>
    intro t raw ha ht n p row s hn hv
    obtain ⟨n, rfl⟩ : ∃ j, n = j + 1 := ⟨n - 1, by simp at hn; omega⟩
    replace hn : cs.length ≤ n := by simpa using hn
    obtain ⟨part, b⟩ := c
    obtain ⟨hm, hst, hap⟩ := ha
    have hhead : (tokens cs).head?.map Tok.isWs ≠ some true := by
      cases cs with
      | nil => simp [tokens]
      | cons d ds =>
        obtain ⟨u, us, h1, h2, _⟩ := tokens_head hap
        rw [h1]; simp [h2]
    cases part with
    | flag name =>
      have e : t = .lit (.other .EXCLAMATION name) ∧ raw = List.replicate b (.sym .WHITESPACE) ++ tokens cs := by
        injection ht with h1 h2
        exact ⟨h1.symm, h2.symm⟩
      obtain ⟨rfl, rfl⟩ := e
      rw [listLoop]
      have hflag : (Tok.lit (.other .EXCLAMATION name)).flag = some name := rfl
      rw [hflag]
      dsimp only
      rw [takeWs_blanks _ _ hhead, dropWs_blanks, List.replicate_append_replicate]
      cases cs with
      | nil =>
        refine ⟨(List.replicate (p + b) (Tok.sym .WHITESPACE)).map .tok, s, ?_, ?_, Frame.refl _, ?_⟩
        · simp only [flagsOf, warned, List.isEmpty_nil, if_true, List.append_nil]; rfl
        · simp [errsOf]
        · exact view_blanks _ _
      | cons d ds =>
        obtain ⟨u, us, h1, h2, _⟩ := tokens_head hap
        rw [h1, dropWs_head h2]
        dsimp only
        obtain ⟨kids, s', e1, e2, e3, e4⟩ := ih u us hap h1 n (p + b)
          { row with flags := row.flags ++ [name], warns := row.warns ++ [name] } s hn hv
        refine ⟨kids, s', ?_, e2, e3, e4⟩
        rw [e1]
        simp [flagsOf, warned]
    | expr ts v es =>
      obtain ⟨w1, w2, w3, e, hg, hd⟩ := hm
      have e0 : ts ++ (List.replicate b (.sym .WHITESPACE) ++ tokens cs) = t :: raw := ht
      have hne : ts ≠ [] := by
        intro h; subst h
        obtain ⟨_, _, h, _⟩ := g_head hg
        cases h
      have htw : t.isWs = false ∧ t.flag = none := by
        obtain ⟨x, xs, rfl⟩ := List.exists_cons_of_ne_nil hne
        injection e0 with e0 _
        subst e0
        refine ⟨?_, w3⟩
        cases hb : x.isWs
        · rfl
        · exact absurd (by simp [hb]) w1
      rw [listLoop, htw.2]
      dsimp only
      have hr : (read t raw : M Unit) s = .ok () { s with cur := t, rest := dropWs raw } := rfl
      rw [bind_ok hr]
      have hall : noWs (t :: raw) = noWs ts ++ noWs (tokens cs) := by
        rw [← e0, noWs_append, noWs_append, noWs_blanks, List.nil_append]
      have hat : At { s with cur := t, rest := dropWs raw } (noWs ts ++ noWs (tokens cs)) := by
        rw [← hall]
        have : noWs (t :: raw) = t :: noWs raw := by simp [noWs, htw.1]
        rw [this]
        exact ⟨rfl, noWs_dropWs raw, head_dropWs raw⟩
      have hk : (noWs (tokens cs)).headD (.sym .EOF_TOKEN) = (tokens cs).headD (.sym .EOF_TOKEN) := by
        cases cs with
        | nil => rfl
        | cons d ds =>
          obtain ⟨u, us, h1, h2, _⟩ := tokens_head hap
          rw [h1]; simp [noWs, h2]
      have hsz : 2 * sizeAll (noWs ts) + 1 ≤
          3 * sizeAll (List.replicate p (.sym .WHITESPACE) ++ t :: raw) + 4 := by
        have h1 := sizeAll_noWs ts
        rw [sizeAll_append, ← e0, sizeAll_append]
        omega
      obtain ⟨r, s1, e1, hp⟩ := good env hg v es hd _ _ hsz (by rw [hk]; exact hst) _ hat hv
      rw [bind_ok e1, bind_ok (show get' s1 = .ok s1 s1 from rfl)]
      dsimp only [Option.isSome]
      rw [if_pos rfl]
      have hfr : Frame s.heap s1.heap := hp.frame
      have herr : s1.errs = s.errs ++ es := hp.errs
      have hnode : Child.view s1.heap (.node r) = some (.value v) := by
        show s1.heap[r]?.map _ = _
        rw [hp.cell]; rfl
      cases cs with
      | nil =>
        have hl : leftOver (List.replicate p (.sym .WHITESPACE) ++ t :: raw) s1 = [] := by
          unfold leftOver
          rw [show s1.cur = .sym .EOF_TOKEN from hp.pos.1]
          rfl
        rw [hl]
        refine ⟨[.node r], s1, ?_, by rw [herr]; simp [errsOf], hfr, ?_⟩
        · simp only [flagsOf, warned, List.append_nil]; rfl
        · simp [shown, hnode]
      | cons d ds =>
        obtain ⟨u, us, h1, h2, h3⟩ := tokens_head hap
        have hpos : At s1 (u :: noWs us) := by
          have := hp.pos
          rw [h1] at this
          simpa [noWs, h2] using this
        have hl := leftOver_eq (p := p) (b := b) hne w2 h2 h3 hpos
        rw [← h1, e0] at hl
        rw [hl, h1]
        have hvars : s1.vars = [] := hp.vars
        by_cases hb : b = 0
        · rw [if_pos hb, List.nil_append]
          dsimp only
          rw [if_neg (by simp [h2])]
          obtain ⟨kids, s', f1, f2, f3, f4⟩ := ih u us hap h1 n 0 { row with kids := row.kids ++ [.node r] } s1 hn hvars
          refine ⟨.node r :: kids, s', ?_, ?_, hfr.trans f3, ?_⟩
          · rw [show ([] : List Tok) = List.replicate 0 (.sym .WHITESPACE) from rfl, f1]
            simp [flagsOf, warned]
          · rw [f2, herr]; simp [errsOf]
          · have := view_frame f3 (kids := [.node r]) (l := [.value v]) (by simp [hnode])
            simp only [List.map_cons, List.map_nil, List.cons.injEq, and_true] at this
            simp [shown, hb, f4, this]
        · rw [if_neg hb]
          dsimp only [List.cons_append, List.nil_append]
          rw [if_pos (show (Tok.sym .WHITESPACE).isWs = true from rfl), dropWs_head h2]
          dsimp only
          have htk : (Tok.sym .WHITESPACE :: u :: us).takeWhile Tok.isWs = [.sym .WHITESPACE] :=
            takeWs_blanks 1 (u :: us) (by simp [h2])
          rw [htk]
          obtain ⟨kids, s', f1, f2, f3, f4⟩ := ih u us hap h1 n 0
            { row with kids := row.kids ++ [.node r] ++ [Tok.sym .WHITESPACE].map .tok } s1 hn hvars
          refine ⟨.node r :: .tok (.sym .WHITESPACE) :: kids, s', ?_, ?_, hfr.trans f3, ?_⟩
          · refine Eq.trans f1 ?_
            simp [flagsOf, warned]
          · rw [f2, herr]; simp [errsOf]
          · have := view_frame f3 (kids := [.node r]) (l := [.value v]) (by simp [hnode])
            simp only [List.map_cons, List.map_nil, List.cons.injEq, and_true] at this
            have hw : Child.view s'.heap (.tok (.sym .WHITESPACE)) = some .blank := rfl
            simp [shown, hb, f4, this, hw]

theorem tokens_length (env : Env) (cells : List Cell) (h : Apart env cells) : cells.length ≤ (tokens cells).length := by
  induction cells with
  | nil => exact Nat.le_refl _
  | cons c cs ih =>
    obtain ⟨t, ts, h1, _⟩ := part_head h.1
    have := ih h.2.2
    rw [tokens, h1]
    simp only [List.length_cons, List.length_append]
    omega

/-- C82: compile_list() on the parts of a value: the children that are left are the values, in this order, with one
blank between two of them if there was at least one; the flags are set; a flag with something after it is a warning;
the errors are the ones of the expressions. The nodes that existed are unchanged. -/
theorem C82_list (env : Env) (heap : List (Val Ref)) (cells : List Cell) (hne : cells ≠ []) (h : Apart env cells) :
    ∃ kids s, compileList env heap (tokens cells) =
        .ok { kids := kids, flags := flagsOf cells, warns := warned cells } s ∧
      s.errs = errsOf cells ∧ (∀ i, i < heap.length → s.heap[i]? = heap[i]?) ∧
      kids.map (Child.view s.heap) = (shown 0 cells).map some := by
  obtain ⟨c, cs, rfl⟩ := List.exists_cons_of_ne_nil hne
  obtain ⟨t, ts, h1, _⟩ := tokens_head h
  have hl := tokens_length env _ h
  rw [h1] at hl ⊢
  obtain ⟨kids, s', e1, e2, e3, e4⟩ := loop_runs env (c :: cs) t ts h h1 ((t :: ts).length + 1) 0 { kids := [] }
    { heap := heap, errs := [], cur := .sym .EOF_TOKEN, rest := t :: ts, vars := [] } (by omega) rfl
  exact ⟨kids, s', e1, e2, e3.2, e4⟩

/-- The values of some expressions, with one blank between them. -/
def spaced : List (Val Ref) → List Shown
  | [] => []
  | [v] => [.value v]
  | v :: vs => .value v :: .blank :: spaced vs

/-- Expressions with blanks between them. -/
def exprs (l : List (List Tok × Val Ref × List Err × Nat)) : List Cell :=
  l.map fun x => ⟨.expr x.1 x.2.1 x.2.2.1, x.2.2.2 + 1⟩

/-- C82: without a flag: each expression gives its value, one blank between them whatever their number, none at the
end, no warning and no flag. -/
theorem C82_values (env : Env) (heap : List (Val Ref)) (l : List (List Tok × Val Ref × List Err × Nat)) (hne : l ≠ [])
    (h : Apart env (exprs l)) :
    ∃ kids s, compileList env heap (tokens (exprs l)) = .ok { kids := kids, flags := [], warns := [] } s ∧
      s.errs = (l.map (·.2.2.1)).flatten ∧ kids.map (Child.view s.heap) = (spaced (l.map (·.2.1))).map some := by
  obtain ⟨kids, s, h1, h2, _, h4⟩ := C82_list env heap (exprs l) (by simpa [exprs] using hne) h
  have f : ∀ l, flagsOf (exprs l) = [] ∧ warned (exprs l) = [] ∧ errsOf (exprs l) = (l.map (·.2.2.1)).flatten := by
    intro l
    induction l with
    | nil => exact ⟨rfl, rfl, rfl⟩
    | cons x l ih =>
      obtain ⟨i1, i2, i3⟩ := ih
      exact ⟨i1, i2, by show x.2.2.1 ++ errsOf (exprs l) = _; rw [i3]; rfl⟩
  have g : ∀ l, shown 0 (exprs l) = spaced (l.map (·.2.1)) := by
    intro l
    induction l with
    | nil => rfl
    | cons x l ih =>
      cases l with
      | nil => rfl
      | cons y l =>
        show .value x.2.1 :: ((if x.2.2.2 + 1 = 0 then [] else [Shown.blank]) ++ shown 0 (exprs (y :: l))) = _
        rw [if_neg (by omega), ih]
        rfl
  obtain ⟨f1, f2, f3⟩ := f l
  rw [f1, f2] at h1
  rw [f3] at h2
  rw [g] at h4
  exact ⟨kids, s, h1, h2, h4⟩

theorem stop_flag (name : Str) : Stop .cond (.lit (.other .EXCLAMATION name)) :=
  ⟨⟨by simp, by simp, rfl, rfl, fun _ => rfl, fun _ _ => rfl, fun _ => rfl, fun _ => rfl, fun _ => rfl⟩, by simp⟩

/-- C82: an expression followed by a flag, then the end: the value is left alone (with the blank, if there was one), the flag is set and
there is no warning. -/
theorem C82_flag (env : Env) (heap : List (Val Ref)) (ts : List Tok) (v : Val Ref) (es : List Err) (n : Nat) (name : Str)
    (h : (Part.expr ts v es).Means env) :
    ∃ kids s, compileList env heap (ts ++ (List.replicate n (.sym .WHITESPACE) ++ [.lit (.other .EXCLAMATION name)])) =
        .ok { kids := kids, flags := [name], warns := [] } s ∧
      s.errs = es ∧ kids.map (Child.view s.heap) = (.value v :: if n = 0 then [] else [.blank]).map some := by
  obtain ⟨kids, s, h1, h2, _, h4⟩ := C82_list env heap [⟨.expr ts v es, n⟩, ⟨.flag name, 0⟩] (by simp)
    ⟨h, stop_flag name, trivial, trivial, trivial⟩
  refine ⟨kids, s, h1, by rw [h2]; simp [errsOf], ?_⟩
  rw [h4]
  by_cases hn : n = 0
  · simp [shown, hn]
  · simp [shown, hn]

/-- C82: known defect: `a!x b` is a warning, but it also leaves `ab` without a blank: the blank after the flag
is removed with it. -/
theorem C82_glued (env : Env) (heap : List (Val Ref)) (ts us : List Tok) (v w : Val Ref) (es fs : List Err) (n m : Nat)
    (name : Str) (h : (Part.expr ts v es).Means env) (h' : (Part.expr us w fs).Means env) :
    ∃ kids s, compileList env heap (ts ++ (List.replicate m (.sym .WHITESPACE) ++ .lit (.other .EXCLAMATION name) ::
          (List.replicate n (.sym .WHITESPACE) ++ us))) =
        .ok { kids := kids, flags := [name], warns := [name] } s ∧
      s.errs = es ++ fs ∧ kids.map (Child.view s.heap) =
        (Shown.value v :: (if m = 0 then [] else [Shown.blank]) ++ [Shown.value w]).map some := by
  obtain ⟨kids, s, h1, h2, _, h4⟩ := C82_list env heap [⟨.expr ts v es, m⟩, ⟨.flag name, n⟩, ⟨.expr us w fs, 0⟩] (by simp)
    ⟨h, stop_flag name, trivial, trivial, h', stop_eof, trivial⟩
  refine ⟨kids, s, ?_, by rw [h2]; simp [errsOf], ?_⟩
  · refine Eq.trans ?_ h1
    simp [tokens, Part.toks]
  · rw [h4]
    by_cases hm : m = 0
    · simp [shown, hm]
    · simp [shown, hm]

/-! ### Examples -/

/-- An integer with a unit. -/
def px (n : Int) : Tok := .lit (.int n b!"px")

theorem px_means (env : Env) (n : Int) : (Part.expr [px n] (.int n b!"px") []).Means env :=
  ⟨by simp [px, Tok.isWs], by simp [px, Tok.isWs], rfl, .lit (.int n b!"px"),
    .or _ _ (.up _ _ _ (.up _ _ _ (.up _ _ _ (.up _ _ _ (.up _ _ _ (.up _ _ _ (.unary _ _ (.prim _ _ (.lit _))))))))), rfl⟩

/-- `1px + 2px 3px` : two expressions. -/
theorem sum_means (env : Env) : (Part.expr [px 1, .sym .WHITESPACE, .sym .ADD, .sym .WHITESPACE, px 2] (.int 3 b!"px") []).Means env := by
  refine ⟨by simp [px, Tok.isWs], by simp [px, Tok.isWs], rfl, .bin (.add false) (.lit (.int 1 b!"px")) (.lit (.int 2 b!"px")), ?_, by rfl⟩
  refine .or _ _ (.up _ _ _ (.up _ _ _ (.up _ _ _ (.up _ _ _ ?_))))
  exact .bin .add (.add false) [px 1] (.sym .ADD) [px 2] _ _
    (.up _ _ _ (.up _ _ _ (.unary _ _ (.prim _ _ (.lit _))))) rfl (.up _ _ _ (.unary _ _ (.prim _ _ (.lit _))))

theorem stop_px (n : Int) : Stop .cond (px n) :=
  ⟨⟨by simp [px], by simp [px], rfl, rfl, fun _ => rfl, fun _ _ => rfl, fun _ => rfl, fun _ => rfl, fun _ => rfl⟩, by simp [px]⟩

/-- The hypotheses of C82_values for `1px + 2px   3px`. -/
example (env : Env) : Apart env (exprs [([px 1, .sym .WHITESPACE, .sym .ADD, .sym .WHITESPACE, px 2], .int 3 b!"px", [], 2),
    ([px 3], .int 3 b!"px", [], 0)]) :=
  ⟨sum_means env, stop_px 3, px_means env 3, stop_eof, trivial⟩

end Csspp.Expr
