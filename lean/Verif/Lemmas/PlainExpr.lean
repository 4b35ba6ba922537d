import Verif.Lemmas.PlainComp
import Verif.Model.Pipeline
import Verif.Props.CompileList

/-!
For C83: compile_list() gives words, integers and strings back.
-/

namespace Csspp.Spec.Plain
open Csspp.Spec (Word)
open Csspp.Lex (Tok Pos)
open Csspp.Parse
open Csspp.Expr (Cell Part tokens Apart Shown shown)

/-- The integers of a sum after the first one, in an expression. -/
def moreToks (u : Str) : List (Bool × Int) → List Expr.Tok
  | [] => []
  | (minus, j) :: l => .sym .WHITESPACE :: .sym (if minus then .SUBTRACT else .ADD) :: .sym .WHITESPACE :: .lit (.int j u) :: moreToks u l

/-- The same without the blanks. -/
def bareToks (u : Str) : List (Bool × Int) → List Expr.Tok
  | [] => []
  | (minus, j) :: l => .sym (if minus then .SUBTRACT else .ADD) :: .lit (.int j u) :: bareToks u l

/-- A value, in an expression. -/
def Val.tok : Val → Expr.Tok
  | .word s => .ident s
  | .int i u => .lit (.int i u)
  | .str s => .lit (.str s)
  | .sum i _ u => .lit (.int i u)
  | .var n => .ident n
def Val.rest : Val → List Expr.Tok
  | .sum _ more u => moreToks u more
  | _ => []
def Val.val : Val → Expr.Val Nat
  | .word s => .ident s
  | .int i u => .int i u
  | .str s => .str s
  | .sum i more u => .int (total i more) u
  | .var n => .ident n

def cells : List Val → List Cell
  | [] => []
  | [v] => [⟨.expr (v.tok :: v.rest) v.val [], 0⟩]
  | v :: w :: l => ⟨.expr (v.tok :: v.rest) v.val [], 1⟩ :: cells (w :: l)

theorem not_special {s : Str} (h : ¬ Special s) : Expr.identVal s = .ident s ∧ Expr.Stop .cond (.ident s) := by
  unfold Special at h
  simp only [List.mem_cons, List.not_mem_nil, or_false, not_or] at h
  obtain ⟨⟨h1, h2, h3, h4, h5, h6, h7, _, h9, h10, h11⟩, hc⟩ := h
  refine ⟨?_, ⟨by simp, by simp, ?_, ?_, fun _ => rfl, fun _ _ => rfl, fun _ => ?_, fun _ => ?_, fun _ => ?_⟩, by simp⟩
  · unfold Expr.identVal
    rw [if_neg h9, if_neg h10, if_neg h11]
    cases e : Color.setName s true with
    | none => rfl
    | some c => rw [e] at hc; simp at hc
  · show (s == b!"pow") = false
    simpa using h4
  · unfold Expr.mulOf
    dsimp only
    rw [if_neg h1, if_neg h2, if_neg h3]
  · unfold Expr.equOf
    dsimp only
    rw [if_neg h7]
  · unfold Expr.andOf
    dsimp only
    rw [if_neg h5]
  · unfold Expr.orOf
    dsimp only
    rw [if_neg h6]

theorem val_stop {v : Val} (h : v.Ok) : Expr.Stop .cond v.tok := by
  cases v with
  | var => exact h.elim
  | word s => exact (not_special h.2).2
  | int i u =>
    exact ⟨⟨by simp [Val.tok], by simp [Val.tok], rfl, rfl, fun _ => rfl, fun _ _ => rfl, fun _ => rfl, fun _ => rfl, fun _ => rfl⟩, by simp [Val.tok]⟩
  | str s =>
    exact ⟨⟨by simp [Val.tok], by simp [Val.tok], rfl, rfl, fun _ => rfl, fun _ _ => rfl, fun _ => rfl, fun _ => rfl, fun _ => rfl⟩, by simp [Val.tok]⟩
  | sum i more u =>
    exact ⟨⟨by simp [Val.tok], by simp [Val.tok], rfl, rfl, fun _ => rfl, fun _ _ => rfl, fun _ => rfl, fun _ => rfl, fun _ => rfl⟩, by simp [Val.tok]⟩

theorem bare_toks (u : Str) : ∀ more, Expr.noWs (moreToks u more) = bareToks u more
  | [] => rfl
  | (minus, j) :: l => by
    have ih := bare_toks u l
    cases minus <;>
    · rw [moreToks, bareToks, ← ih]
      rfl

theorem sum_last {u : Str} : ∀ {more : List (Bool × Int)} {t : Expr.Tok}, t.isWs = false →
    (t :: moreToks u more).getLast?.map Expr.Tok.isWs ≠ some true
  | [], t, h => by rw [moreToks]; simp [h]
  | (minus, j) :: l, t, h => by
    rw [moreToks, List.getLast?_cons_cons, List.getLast?_cons_cons, List.getLast?_cons_cons, List.getLast?_cons_cons]
    exact sum_last rfl

/-- A sum, from left to right. -/
theorem sum_den (env : Expr.Env) (u : Str) : ∀ (more : List (Bool × Int)) (i : Int) (ts : List Expr.Tok) (e : Expr.E),
    (∀ x ∈ partials i more, InRange x) → Expr.G (.bin .add) ts e → Expr.den env e = some (.int i u, []) →
    ∃ e', Expr.G (.bin .add) (ts ++ bareToks u more) e' ∧ Expr.den env e' = some (.int (total i more) u, [])
  | [], i, ts, e, _, hg, hd => ⟨e, by rw [bareToks, List.append_nil]; exact hg, hd⟩
  | (minus, j) :: l, i, ts, e, h, hg, hd => by
    have hlit : Expr.G (Expr.below .add) [.lit (.int j u)] (.lit (.int j u)) :=
      .up .mul _ _ (.unary _ _ (.prim _ _ (.lit _)))
    have hin : InRange (if minus then i - j else i + j) := by
      refine h _ ?_
      rw [partials]
      refine List.mem_cons_of_mem _ ?_
      cases l <;> simp [partials]
    have hg' : Expr.G (.bin .add) (ts ++ .sym (if minus then .SUBTRACT else .ADD) :: [.lit (.int j u)]) (.bin (.add minus) e (.lit (.int j u))) :=
      .bin .add (.add minus) ts _ [.lit (.int j u)] _ _ hg (by cases minus <;> rfl) hlit
    have hd' : Expr.den env (.bin (.add minus) e (.lit (.int j u))) = some (.int (if minus then i - j else i + j) u, []) := by
      rw [Expr.den, hd, Expr.den]
      dsimp only
      show ((Expr.value (Expr.addOp minus (.int i u) (.int j u))).map _) = _
      unfold Expr.addOp
      dsimp only
      rw [if_neg (by simp)]
      unfold Expr.ofI64
      rw [if_pos (by unfold InRange at hin; unfold Csspp.IsI64; omega)]
      rfl
    obtain ⟨e', h1, h2⟩ := sum_den env u l _ _ _ (fun x hx => h x (by rw [partials]; exact List.mem_cons_of_mem _ hx)) hg' hd'
    refine ⟨e', ?_, h2⟩
    rw [bareToks]
    simpa using h1

theorem val_means (env : Expr.Env) {v : Val} (h : v.Ok) : (Part.expr (v.tok :: v.rest) v.val []).Means env := by
  have up : ∀ {ts e}, Expr.G .prim ts e → Expr.G .cond ts e := fun h =>
    .or _ _ (.up _ _ _ (.up _ _ _ (.up _ _ _ (.up _ _ _ (.up _ _ _ (.up _ _ _ (.unary _ _ (.prim _ _ h))))))))
  cases v with
  | var => exact h.elim
  | word s => exact ⟨by simp [Val.tok, Expr.Tok.isWs], by simp [Val.tok, Val.rest, Expr.Tok.isWs], rfl, .ident s, up (.ident s), by
      show some (Expr.identVal s, []) = _
      rw [(not_special h.2).1]; rfl⟩
  | int i u => exact ⟨by simp [Val.tok, Expr.Tok.isWs], by simp [Val.tok, Val.rest, Expr.Tok.isWs], rfl, .lit _, up (.lit _), rfl⟩
  | str s => exact ⟨by simp [Val.tok, Expr.Tok.isWs], by simp [Val.tok, Val.rest, Expr.Tok.isWs], rfl, .lit _, up (.lit _), rfl⟩
  | sum i more u =>
    obtain ⟨e, h1, h2⟩ := sum_den env u more i [.lit (.int i u)] (.lit (.int i u)) h.2.1
      (.up .add _ _ (.up .mul _ _ (.unary _ _ (.prim _ _ (.lit _))))) rfl
    refine ⟨by simp [Val.tok, Expr.Tok.isWs], sum_last rfl, rfl, e, ?_, h2⟩
    rw [show Expr.noWs ((Val.sum i more u).tok :: (Val.sum i more u).rest) = .lit (.int i u) :: Expr.noWs (moreToks u more) from rfl, bare_toks]
    exact .or _ _ (.up _ _ _ (.up _ _ _ (.up _ _ _ (.up _ _ _ h1))))

theorem cells_apart (env : Expr.Env) : ∀ {g : List Val}, (∀ v ∈ g, v.Ok) → Apart env (cells g)
  | [], _ => trivial
  | [v], h => ⟨val_means env (h v (by simp)), Expr.stop_eof, trivial⟩
  | v :: w :: l, h => by
    refine ⟨val_means env (h v (by simp)), ?_, cells_apart env (fun v hv => h v (List.mem_cons_of_mem _ hv))⟩
    cases l with
    | nil => exact val_stop (h w (by simp))
    | cons => exact val_stop (h w (by simp))

/-- The words, one by one. -/
inductive Row : List Val → List Tok → Prop where
  | one {v : Val} {t : List Tok} : t.map Word.of = squeezed v.items → Row [v] t
  | more {v w : Val} {l : List Val} {t : List Tok} {b : Tok} {ts : List Tok} : t.map Word.of = squeezed v.items → Word.of b = ws →
      Row (w :: l) ts → Row (v :: w :: l) (t ++ b :: ts)

theorem row_of : ∀ {g : List Val}, g ≠ [] → ∀ {ks : List Tok}, ks.map Word.of = squeezed (source g) → Row g ks
  | [], h, _, _ => absurd rfl h
  | [v], _, ks, e => .one e
  | v :: w :: l, _, ks, e => by
    rw [show source (v :: w :: l) = v.items ++ ([.must] ++ source (w :: l)) by unfold source; rw [join, List.append_assoc],
      squeezed_append, squeezed_append] at e
    obtain ⟨t, k, rfl, e1, e⟩ := List.map_eq_append_iff.1 e
    obtain ⟨b, k, rfl, e2, e⟩ := List.map_eq_cons_iff.1 (show k.map Word.of = ws :: squeezed (source (w :: l)) from e)
    exact .more e1 e2 (row_of (by simp) e)

theorem expr_append : ∀ {a b : List Nd} {x y : List Expr.Tok}, Pipeline.exprToks a = some x → Pipeline.exprToks b = some y →
    Pipeline.exprToks (a ++ b) = some (x ++ y)
  | [], _, _, _, ha, hb => by cases ha; exact hb
  | n :: ns, b, x, y, ha, hb => by
    rw [Pipeline.exprToks] at ha
    rw [List.cons_append, Pipeline.exprToks]
    split at ha
    · rename_i t ts h1 h2
      injection ha with ha
      rw [h1, expr_append h2 hb, ← ha]
      rfl
    · cases ha

/-- A word of a value, in an expression. -/
theorem word_tok {t : Tok} {w : Word} (h : Word.of t = w) : Pipeline.exprTok (.leaf t) =
    match w.ty with
    | .IDENTIFIER => some (.ident w.str)
    | .INTEGER => some (.lit (.int w.int w.str))
    | .STRING => some (.lit (.str w.str))
    | .WHITESPACE => some (.sym .WHITESPACE)
    | .ADD => some (.sym .ADD)
    | .SUBTRACT => some (.sym .SUBTRACT)
    | _ => none := by
  subst h
  rfl

theorem more_toks (u : Str) : ∀ {more : List (Bool × Int)} {ts : List Tok}, ts.map Word.of = squeezed (moreItems u more) →
    Pipeline.exprToks (ts.map Nd.leaf) = some (moreToks u more)
  | [], ts, h => by
    obtain rfl := List.map_eq_nil_iff.1 h
    rfl
  | (minus, j) :: l, ts, h => by
    obtain ⟨a, k, rfl, e1, e⟩ := List.map_eq_cons_iff.1 (show ts.map Word.of = ws :: { ty := if minus then .SUBTRACT else .ADD } ::
      ws :: intWord j u :: squeezed (moreItems u l) from h)
    obtain ⟨b, k, rfl, e2, e⟩ := List.map_eq_cons_iff.1 e
    obtain ⟨c, k, rfl, e3, e⟩ := List.map_eq_cons_iff.1 e
    obtain ⟨d, k, rfl, e4, e⟩ := List.map_eq_cons_iff.1 e
    rw [List.map_cons, List.map_cons, List.map_cons, List.map_cons, Pipeline.exprToks, Pipeline.exprToks, Pipeline.exprToks,
      Pipeline.exprToks, word_tok e1, word_tok e2, word_tok e3, word_tok e4, more_toks u e]
    cases minus <;> rfl

theorem val_toks {v : Val} (hv : v.Ok) {ts : List Tok} (h : ts.map Word.of = squeezed v.items) :
    Pipeline.exprToks (ts.map Nd.leaf) = some (v.tok :: v.rest) := by
  have one : ∀ {w : Word} {t : Expr.Tok}, squeezed v.items = [w] → v.tok :: v.rest = [t] →
      (match w.ty with
        | .IDENTIFIER => some (Expr.Tok.ident w.str)
        | .INTEGER => some (.lit (.int w.int w.str))
        | .STRING => some (.lit (.str w.str))
        | .WHITESPACE => some (.sym .WHITESPACE)
        | .ADD => some (.sym .ADD)
        | .SUBTRACT => some (.sym .SUBTRACT)
        | _ => none) = some t → Pipeline.exprToks (ts.map Nd.leaf) = some (v.tok :: v.rest) := by
    intro w t h1 h2 h3
    rw [h1] at h
    obtain ⟨a, k, rfl, e1, e⟩ := List.map_eq_cons_iff.1 h
    obtain rfl := List.map_eq_nil_iff.1 e
    rw [h2, List.map_cons, Pipeline.exprToks, word_tok e1, h3]
    rfl
  cases v with
  | var => exact hv.elim
  | word s => exact one (w := { ty := .IDENTIFIER, str := s }) rfl rfl rfl
  | int i u => exact one (w := intWord i u) rfl rfl rfl
  | str s => exact one (w := { ty := .STRING, str := s }) rfl rfl rfl
  | sum i more u =>
    obtain ⟨a, k, rfl, e1, e⟩ := List.map_eq_cons_iff.1 (show ts.map Word.of = intWord i u :: squeezed (moreItems u more) from h)
    rw [List.map_cons, Pipeline.exprToks, word_tok e1, more_toks u e]
    rfl

theorem ws_tok {t : Tok} (h : Word.of t = ws) : Pipeline.exprTok (.leaf t) = some (.sym .WHITESPACE) := by
  have hty : t.ty = ws.ty := congrArg Word.ty h
  unfold Pipeline.exprTok
  rw [show (Nd.leaf t).ty = t.ty from rfl, hty]
  rfl

theorem row_toks {g : List Val} {ks : List Tok} (h : Row g ks) (hg : ∀ v ∈ g, v.Ok) : Pipeline.exprToks (ks.map Nd.leaf) = some (tokens (cells g)) := by
  induction h with
  | one h =>
    rename_i v t
    rw [val_toks (hg _ (by simp)) h]
    show _ = some ((v.tok :: v.rest) ++ ([] ++ []))
    rw [List.append_nil, List.append_nil]
  | more h1 h2 _ ih =>
    rename_i v w l t b ts _
    rw [List.map_append, List.map_cons]
    refine expr_append (val_toks (hg _ (by simp)) h1) ?_
    rw [Pipeline.exprToks, ws_tok h2, ih fun v hv => hg v (by simp at hv ⊢; right; exact hv)]
    rfl

/-- What compile_list() leaves. -/
theorem row_back {heap : List (Expr.Val Nat)} : ∀ {g : List Val}, g ≠ [] → (∀ v ∈ g, v.Ok) →
    ∀ {kids : List Expr.Child}, kids.map (Expr.Child.view heap) = (shown 0 (cells g)).map some →
      ∃ ks' : List Tok, Pipeline.childNodes heap kids = some (ks'.map Nd.leaf) ∧ ks'.map face = (squeezed (group g)).map wface := by
  have val : ∀ {v : Val} {c : Expr.Child}, v.Ok → Expr.Child.view heap c = some (.value v.val) →
      ∃ t' : Tok, Pipeline.childNode heap c = some (.leaf t') ∧ face t' = wface v.word' := by
    intro v c hv hc
    cases c with
    | tok t =>
      unfold Expr.Child.view at hc
      dsimp only at hc
      split at hc <;> cases hc
    | node r =>
      unfold Expr.Child.view at hc
      dsimp only at hc
      unfold Pipeline.childNode
      dsimp only
      cases e : heap[r]? with
      | none => rw [e] at hc; cases hc
      | some x =>
        rw [e] at hc
        injection hc with hc
        injection hc with hc
        subst hc
        cases v with
        | var => exact hv.elim
        | word s => exact ⟨_, rfl, rfl⟩
        | int i u => exact ⟨_, rfl, rfl⟩
        | str s => exact ⟨_, rfl, rfl⟩
        | sum i more u => exact ⟨_, rfl, rfl⟩
  have blank : ∀ {c : Expr.Child}, Expr.Child.view heap c = some .blank →
      ∃ t' : Tok, Pipeline.childNode heap c = some (.leaf t') ∧ face t' = wface ws := by
    intro c hc
    cases c with
    | tok u =>
      unfold Expr.Child.view at hc
      dsimp only at hc
      unfold Pipeline.childNode
      dsimp only
      split at hc
      · rename_i hw
        rw [if_pos hw]
        exact ⟨_, rfl, rfl⟩
      · cases hc
    | node r =>
      unfold Expr.Child.view at hc
      dsimp only at hc
      cases e : heap[r]? with
      | none => rw [e] at hc; cases hc
      | some x => rw [e] at hc; cases hc
  intro g
  induction g with
  | nil => intro h; exact absurd rfl h
  | cons v g ih =>
    intro _ hg kids hk
    cases g with
    | nil =>
      obtain ⟨c, k, rfl, e1, e2⟩ := List.map_eq_cons_iff.1 (show kids.map _ = some (Shown.value v.val) :: [] from hk)
      obtain rfl := List.map_eq_nil_iff.1 e2
      obtain ⟨t', h1, h2⟩ := val (hg _ (by simp)) e1
      refine ⟨[t'], ?_, by rw [List.map_cons, h2]; rfl⟩
      rw [Pipeline.childNodes, h1]
      rfl
    | cons w l =>
      have e : shown 0 (cells (v :: w :: l)) = .value v.val :: .blank :: shown 0 (cells (w :: l)) := by
        cases l <;> rfl
      rw [e] at hk
      obtain ⟨c, k, rfl, hc, hk⟩ := List.map_eq_cons_iff.1 (show kids.map _ = some (Shown.value v.val) :: some Shown.blank :: (shown 0 (cells (w :: l))).map some from hk)
      obtain ⟨d, kids, rfl, hd, hk⟩ := List.map_eq_cons_iff.1 hk
      obtain ⟨ks', i1, i2⟩ := ih (by simp) (fun v hv => hg v (by simp at hv ⊢; right; exact hv)) hk
      obtain ⟨t', j1, j2⟩ := val (hg _ (by simp)) hc
      obtain ⟨b', j3, j4⟩ := blank hd
      refine ⟨t' :: b' :: ks', ?_, by rw [List.map_cons, List.map_cons, j2, j4, i2]; rfl⟩
      rw [Pipeline.childNodes, Pipeline.childNodes, j1, j3, i1]
      rfl

theorem cells_none : ∀ g : List Val, Expr.flagsOf (cells g) = [] ∧ Expr.warned (cells g) = [] ∧ Expr.errsOf (cells g) = []
  | [] => ⟨rfl, rfl, rfl⟩
  | [_] => ⟨rfl, rfl, rfl⟩
  | _ :: w :: l => cells_none (w :: l)

/-- compile_list() as it is modelled gives the values. -/
theorem keeps_expr (env : Expr.Env) (E : Compile.Env) (hE : E.arg = Pipeline.exprArg env) : Keeps E := by
  intro m g hne hg ks hk
  have hrow := row_of hne hk
  have hcells : cells g ≠ [] := by
    match g, hne with
    | [_], _ => simp [cells]
    | _ :: _ :: _, _ => simp [cells]
  obtain ⟨kids, s, h1, h2, _, h4⟩ := Expr.C82_list { env with font := m } [] (cells g) hcells (cells_apart _ hg)
  obtain ⟨ks', i1, i2⟩ := row_back hne hg h4
  obtain ⟨f1, f2, f3⟩ := cells_none g
  refine ⟨ks', ?_, i2⟩
  rw [hE]
  unfold Pipeline.exprArg
  rw [row_toks hrow hg]
  dsimp only
  rw [h1]
  dsimp only
  rw [i1, h2, f2, f3]
  rfl

end Csspp.Spec.Plain
