import Verif.Model.Validation
import Verif.Spec.Allowed
import Verif.Props.CompileList

/-!
The expressions of the validation scripts.
-/

namespace Csspp.Valid
open Csspp.Parse (Nd)
open Csspp.Expr

theorem stop_block : Stop .cond (.sym .OPEN_CURLYBRACKET) :=
  ⟨⟨by simp, by simp, by decide, by decide, fun _ => by decide, fun _ _ => by decide, fun _ => by decide,
    fun _ => by decide, fun _ => by decide⟩, by simp⟩

/-- An expression that is all of the children. -/
theorem evaluate_all {env : Env} {s : Vars.St} {kids : List Nd} {ts : List Tok} (hts : exprToks kids = some ts) {e : E}
    {v : Val Nat} {n : Nd} (hw : ts.head?.map Tok.isWs ≠ some true) (hg : G .cond (noWs ts) e) (hd : den env e = some (v, []))
    (hn : resultNode v = some n) : evaluate env s kids = some ⟨[n], some n, s⟩ := by
  obtain ⟨r, st, h1, h2, h3, h4, h5, h6⟩ := C30_precedence env [] ts e v [] hw hg hd
  unfold evaluate
  rw [hts]
  dsimp only
  rw [h1]
  dsimp only
  rw [h3, if_neg (by simp), h2]
  show (match resultNode v with | some n => _ | none => none) = _
  rw [hn]
  dsimp only
  have : leftOver ts st = [] := by
    unfold leftOver
    rw [h6]
    rfl
  rw [this]
  simp

theorem exprToks_append : ∀ (a b : List Nd) (ta tb : List Tok), exprToks a = some ta → exprToks b = some tb →
    exprToks (a ++ b) = some (ta ++ tb)
  | [], b, ta, tb, h1, h2 => by cases h1; exact h2
  | n :: ns, b, ta, tb, h1, h2 => by
    unfold exprToks at h1
    split at h1
    · rename_i t ts h3 h4
      cases h1
      rw [List.cons_append]
      unfold exprToks
      rw [h3, exprToks_append ns b ts tb h4 h2]
      rfl
    · cases h1

/-- An expression in front of a block. -/
theorem evaluate_block {env : Env} {s : Vars.St} {kids : List Nd} {block : Nd} (hb : block.ty = .OPEN_CURLYBRACKET)
    {ts : List Tok} (hts : exprToks kids = some ts) {e : E}
    {v : Val Nat} {n : Nd} (hne : ts ≠ []) (hw : ts.head?.map Tok.isWs ≠ some true) (hl : ts.getLast?.map Tok.isWs ≠ some true)
    (hg : G .cond (noWs ts) e) (hd : den env e = some (v, [])) (hn : resultNode v = some n) :
    evaluate env s (kids ++ [block]) = some ⟨[n, block], some n, s⟩ := by
  have htb : exprToks [block] = some [.sym .OPEN_CURLYBRACKET] := by
    unfold exprToks exprTok
    rw [hb]
    rfl
  have hall := exprToks_append kids [block] ts _ hts htb
  have hw' : (ts ++ [Tok.sym .OPEN_CURLYBRACKET]).head?.map Tok.isWs ≠ some true := by
    cases ts with
    | nil => exact absurd rfl hne
    | cons t ts => exact hw
  have hsz := sizeAll_noWs ts
  have a := at_noWs hw' { heap := [], errs := [], cur := .sym .EOF_TOKEN, rest := ts ++ [Tok.sym .OPEN_CURLYBRACKET], vars := [] }
  have hno : noWs (ts ++ [Tok.sym .OPEN_CURLYBRACKET]) = noWs ts ++ [Tok.sym .OPEN_CURLYBRACKET] := by
    unfold noWs
    rw [List.filter_append]
    rfl
  rw [hno] at a
  obtain ⟨r, st, e1, p⟩ := good env hg v [] hd (3 * sizeAll (ts ++ [Tok.sym .OPEN_CURLYBRACKET]) + 4) [Tok.sym .OPEN_CURLYBRACKET]
    (by rw [sizeAll_append]; omega) stop_block _ a (by rw [nextSt_vars])
  have hc : Expr.compile env [] (ts ++ [Tok.sym .OPEN_CURLYBRACKET]) = .ok (some r) st := by
    unfold Expr.compile
    rw [bind_ok (next_eq _)]
    exact e1
  have he : st.errs = [] := by rw [p.errs, nextSt_errs]; rfl
  unfold evaluate
  rw [hall]
  dsimp only
  rw [hc]
  dsimp only
  rw [he, if_neg (by simp), p.cell]
  show (match resultNode v with | some n => _ | none => none) = _
  rw [hn]
  dsimp only
  have hlo := leftOver_eq (p := 0) (b := 0) (us := []) hne hl (u := Tok.sym .OPEN_CURLYBRACKET) (by rfl) (by rfl) (s := st) p.pos
  simp only [List.replicate_zero, List.nil_append, if_pos] at hlo
  rw [hlo]
  simp

/-! ### The condition -/

/-- `and name != x ...` -/
def more (name : Str) : List Str → List Tok
  | [] => []
  | x :: xs => .ident b!"and" :: .lit (.str name) :: .sym .NOT_EQUAL :: .lit (.str x) :: more name xs

theorem differs_good (env : Env) (name x : Str) : ∃ e, G (.bin .equ) [.lit (.str name), .sym .NOT_EQUAL, .lit (.str x)] e ∧
    den env e = some (.bool (decide (name ≠ x)), []) := by
  have lit : ∀ v : Val Nat, G (.bin .rel) [.lit v] (.lit v) := fun v =>
    .up .rel _ _ (.up .add _ _ (.up .mul _ _ (.unary _ _ (.prim _ _ (.lit v)))))
  refine ⟨.bin (.cmp .ne) (.lit (.str name)) (.lit (.str x)),
    .bin .equ (.cmp .ne) [_] (.sym .NOT_EQUAL) [_] _ _ (.up .equ _ _ (lit _)) rfl (lit _), ?_⟩
  have hc : cmpOp (α := Nat) .ne (.str name) (.str x) = .ret (some (.bool (decide (name ≠ x)))) [] := by
    unfold cmpOp comparable compareVal
    by_cases h : name = x <;> simp [h, Cmp.not, isEqual]
  unfold den den opVal
  dsimp only
  rw [hc]
  rfl

theorem more_good (env : Env) (name : Str) (xs : List Str) : ∀ (acc : List Tok) (ex : E) (b : Bool), G (.bin .and) acc ex →
    den env ex = some (.bool b, []) →
    ∃ e, G (.bin .and) (acc ++ more name xs) e ∧ den env e = some (.bool (b && xs.all (fun x => decide (name ≠ x))), []) := by
  induction xs with
  | nil =>
    intro acc ex b h1 h2
    exact ⟨ex, by rw [more, List.append_nil]; exact h1, by rw [List.all_nil, Bool.and_true]; exact h2⟩
  | cons x xs ih =>
    intro acc ex b h1 h2
    obtain ⟨e, g1, g2⟩ := differs_good env name x
    obtain ⟨e', k1, k2⟩ := ih (acc ++ .ident b!"and" :: [.lit (.str name), .sym .NOT_EQUAL, .lit (.str x)]) (.bin (.logic false) ex e)
      (b && decide (name ≠ x)) (.bin .and (.logic false) acc (.ident b!"and") [.lit (.str name), .sym .NOT_EQUAL, .lit (.str x)] ex e h1 rfl g1) (by
        unfold den
        rw [h2, g2]
        rfl)
    refine ⟨e', ?_, ?_⟩
    · rw [List.append_assoc] at k1
      exact k1
    · rw [k2, List.all_cons, Bool.and_assoc]

/-- The condition says that the name is none of the list. -/
theorem chain_good (env : Env) (name x : Str) (xs : List Str) :
    ∃ e, G .cond (.lit (.str name) :: .sym .NOT_EQUAL :: .lit (.str x) :: more name xs) e ∧
      den env e = some (.bool (decide (name ∉ x :: xs)), []) := by
  obtain ⟨e, g1, g2⟩ := differs_good env name x
  obtain ⟨e', k1, k2⟩ := more_good env name xs _ e _ (.up .and _ _ g1) g2
  refine ⟨e', .or _ _ (.up .or _ _ k1), ?_⟩
  rw [k2]
  congr 3
  rw [Bool.eq_iff_iff]
  simp only [Bool.and_eq_true, decide_eq_true_eq, List.all_eq_true, List.mem_cons, not_or]
  constructor
  · rintro ⟨a, b⟩
    exact ⟨a, fun h => b _ h rfl⟩
  · rintro ⟨a, b⟩
    exact ⟨a, fun y hy h => b (h ▸ hy)⟩

/-- The text of the message. -/
theorem text_good (env : Env) (a b : Str) : ∃ e, G .cond [.lit (.str a), .sym .ADD, .lit (.str b)] e ∧
    den env e = some (.str (a ++ b), []) := by
  have lit : ∀ v : Val Nat, G (.bin .mul) [.lit v] (.lit v) := fun v => .up .mul _ _ (.unary _ _ (.prim _ _ (.lit v)))
  refine ⟨.bin (.add false) (.lit (.str a)) (.lit (.str b)), .or _ _ (.up .or _ _ (.up .and _ _ (.up .equ _ _ (.up .rel _ _
    (.bin .add (.add false) [_] (.sym .ADD) [_] _ _ (.up .add _ _ (lit _)) rfl (lit _)))))), ?_⟩
  rfl

theorem one_good (env : Env) (a : Str) : G .cond [.lit (.str a)] (.lit (.str a)) ∧ den env (.lit (.str a)) = some (.str a, []) :=
  ⟨.or _ _ (.up .or _ _ (.up .and _ _ (.up .equ _ _ (.up .rel _ _ (.up .add _ _ (.up .mul _ _ (.unary _ _ (.prim _ _ (.lit _))))))))), rfl⟩

end Csspp.Valid
