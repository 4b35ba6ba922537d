import Verif.Props.SetVar
import Verif.Props.Args
import Verif.Spec.Template

/-!
C60: functions and mixins.
-/

namespace Csspp.Vars
open Csspp.Parse (Nd)
open Csspp.Lex (Tok Pos)
open Csspp.Spec

mutual
theorem subst_plain (vals : Valuation) : ∀ n, Plain n → subst vals n = n
  | .mk t kids, h => by
    have hk : ∀ c ∈ kids, Plain c := by cases h; assumption
    unfold subst
    rw [substAll_plain vals t.ty kids hk]
theorem substAll_plain (vals : Valuation) (p : NT) : ∀ l, (∀ c ∈ l, Plain c) → substAll vals p l = l
  | [], _ => rfl
  | c :: cs, h => by
    have hc := h c (by simp)
    unfold substAll
    rw [if_neg, subst_plain vals c hc, substAll_plain vals p cs (fun c hc => h c (by simp [hc]))]
    cases hc
    assumption
end

/-- The variables hold the values. -/
def Agrees (vals : Valuation) (s : St) : Prop :=
  ∀ x v, vals x = some v → ∃ var, s.get x = some var ∧ var.value = v ∧ var.name.ty ≠ .FUNCTION ∧ var.name.ty ≠ .VARIABLE_FUNCTION

/-- One child that is not a variable. -/
theorem to_child {E : Env} {p : NT} (d : List Nd) {c c' : Nd} (l : List Nd) (h1 : recurses c.ty = true ∨ c.ty = .AT_KEYWORD)
    (h2 : c.ty = .AT_KEYWORD → c.tok.str ∉ directives) (htok : c'.tok = c.tok) {s s' : St}
    (hg : Gives (fun f => replaceVars E f c) s (.ok (some c') s')) :
    To E p (d ++ c :: l) d.length s (d ++ c' :: l) (d.length + 1) s' := by
  intro r hr hl
  have e1 : (d ++ c :: l)[d.length]? = some c := by simp
  have e2 : (d ++ c :: l).set d.length c' = d ++ c' :: l := by simp
  have hv : c.ty ≠ .VARIABLE ∧ c.ty ≠ .VARIABLE_FUNCTION := by
    constructor <;> intro e <;> rw [e] at h1 <;> rcases h1 with h | h <;> cases h
  by_cases hrec : recurses c.ty = true
  · refine gives_succ (gives_bind (f := fun f c' => match c' with
        | some c' => loop E f p ((d ++ c :: l).set d.length c') (d.length + 1)
        | none => loop E f p ((d ++ c :: l).eraseIdx d.length) d.length) hg (by dsimp only; rw [e2]; exact hl)) (fun g => ?_)
    conv => lhs; rw [loop, e1]
    dsimp only
    rw [if_neg hv.1, if_neg hv.2, if_pos hrec]
    rfl
  · have hat := h1.resolve_left hrec
    refine to_at e1 hat ?_ r hr hl
    have hn : ∀ s, s ∈ directives → c.tok.str ≠ s := fun s hs e => h2 hat (e ▸ hs)
    have hmix := hn b!"mixin" (by decide)
    rw [← htok] at hn
    have hm : isMessage c'.tok.str = false := by
      unfold isMessage
      rw [decide_eq_false_iff_not]
      rintro (h | h | h | h | h)
      · exact hn b!"error" (by decide) h
      · exact hn b!"warning" (by decide) h
      · exact hn b!"message" (by decide) h
      · exact hn b!"info" (by decide) h
      · exact hn b!"debug" (by decide) h
    obtain ⟨a, ha⟩ := hg
    refine ⟨a + 1, fun g hg => ?_⟩
    obtain ⟨g, rfl⟩ : ∃ k, g = k + 1 := ⟨g - 1, by omega⟩
    have e4 := ha g (by omega)
    dsimp only at e4 ⊢
    rw [atKeyword, if_neg hmix, bind_apply, e4]
    dsimp only [Option.getD]
    rw [if_neg (hn b!"import" (by decide)), if_neg (hn b!"if" (by decide)),
      if_neg (hn b!"else" (by decide)), if_neg (hn b!"include" (by decide)),
      if_neg (by rw [hm]; simp), e2]
    rfl

/-- Children that are inserted: at the end a space is only kept when it does not follow a space. -/
theorem insertAll_clean (d cs l : List Nd) (hc : Parse.Clean cs)
    (hd : d.getLast?.map Nd.ty ≠ some .WHITESPACE ∨ cs.head?.map Nd.ty ≠ some .WHITESPACE) :
    insertAll (d ++ l) d.length cs = some (d ++ (cs ++ l)) := by
  induction cs generalizing d with
  | nil => rfl
  | cons c cs ih =>
    have hne : c.ty ≠ .EOF_TOKEN := by cases cs with
      | nil => exact hc
      | cons a b => exact hc.1
    have e : insertChild (d ++ l) d.length c = some ((d ++ [c]) ++ l) := by
      unfold insertChild
      cases l with
      | nil =>
        rw [if_pos (by simp)]
        unfold Parse.push
        rw [if_pos]
        · simp
        · refine ⟨hne, ?_⟩
          by_cases hw : c.ty = .WHITESPACE
          · right; right
            rcases hd with h | h
            · simpa using h
            · exact absurd (by show some c.ty = _; rw [hw]) h
          · exact .inl hw
      | cons x l =>
        rw [if_neg (by simp), if_neg (by simp), if_pos hne]
        simp
    unfold insertAll
    rw [e]
    dsimp only
    have := ih (d ++ [c]) (by cases cs with
      | nil => trivial
      | cons a b => exact hc.2.2) (by
        cases cs with
        | nil => right; simp
        | cons a b =>
          by_cases hw : c.ty = .WHITESPACE
          · right; intro h; exact hc.2.1 hw (by simpa using h)
          · left; simpa using hw)
    rw [List.length_append, List.length_singleton] at this
    rw [this]
    simp

/-- A use of a variable with a good value. -/
theorem to_use {E : Env} {p : NT} {n : Nd} (hn : n.ty = .VARIABLE) {s : St} {v : Var} (hv : s.get n.tok.str = some v)
    (hf : v.name.ty ≠ .FUNCTION ∧ v.name.ty ≠ .VARIABLE_FUNCTION) (hg : GoodValue v.value) (d l : List Nd) :
    To E p (d ++ n :: l) d.length s (d ++ (spliced p v.value ++ l)) (d.length + (spliced p v.value).length) s := by
  refine (to_variable hn (fun g => ?_)).trans (to_plains d _ l (hg p).1 s)
  have e1 : isFunction v.name = false := by unfold isFunction; simp [hf]
  have e2 : isFunction n = false := by unfold isFunction; rw [hn]; rfl
  rw [replaceVariable, bind_apply]
  show (match s.get n.tok.str with | none => _ | some v => _ : M _) s = _
  rw [hv]
  dsimp only
  rw [e1, e2, if_neg (by simp), if_neg (by simp), insertValue_eq, insertAll_clean _ _ _ (hg p).2.1 (.inr (hg p).2.2)]
  rfl

theorem isContainer_recurses {ty : NT} (h : IsContainer ty) : recurses ty = true ∨ ty = .AT_KEYWORD := by
  unfold IsContainer at h
  simp only [List.mem_cons, List.not_mem_nil, or_false] at h
  rcases h with h | h | h | h | h | h | h | h | h <;> subst h <;> decide

/-- What the loop does on the children of a template. -/
theorem loop_template {E : Env} {vals : Valuation} {p : NT} (d l : List Nd) {s : St} (ha : Agrees vals s)
    (h1 : ∀ c ∈ l, c.ty = .VARIABLE → ∃ v, vals c.tok.str = some v ∧ GoodValue v)
    (h2 : ∀ c ∈ l, c.ty ≠ .VARIABLE → Template vals c)
    (ih : ∀ c ∈ l, c.ty ≠ .VARIABLE → Gives (fun f => replaceVars E f c) s (.ok (some (subst vals c)) s)) :
    Gives (fun f => loop E f p (d ++ l) d.length) s (.ok (d ++ substAll vals p l) s) := by
  induction l generalizing d with
  | nil => rw [substAll, List.append_nil]; exact loop_end E p d s
  | cons c l ihl =>
    have ihl' := fun d => ihl d (fun c hc => h1 c (by simp [hc])) (fun c hc => h2 c (by simp [hc])) (fun c hc => ih c (by simp [hc]))
    unfold substAll
    by_cases hc : c.ty = .VARIABLE
    · obtain ⟨v, hv, hgv⟩ := h1 c (by simp) hc
      obtain ⟨var, k1, k2, k3⟩ := ha _ _ hv
      rw [if_pos hc, hv]
      show Gives _ s (.ok (d ++ (spliced p v ++ substAll vals p l)) s)
      subst k2
      refine to_use hc k1 k3 hgv d l _ (by simp) ?_
      have := ihl' (d ++ spliced p var.value)
      rw [List.length_append, List.append_assoc, List.append_assoc] at this
      exact this
    · rw [if_neg hc]
      have hgc := ih c (by simp) hc
      have next := ihl' (d ++ [subst vals c])
      rw [List.length_append, List.append_assoc, List.append_assoc] at next
      have hto : To E p (d ++ c :: l) d.length s (d ++ subst vals c :: l) (d.length + 1) s := by
        cases h2 c (by simp) hc with
        | plain n hp => rw [subst_plain vals c hp]; exact to_plain d l hp s
        | node t kids k1 k2 k3 k4 k5 k6 =>
          exact to_child d l (isContainer_recurses (ty := (Nd.mk t kids).ty) k1) k2 (by rw [subst]; rfl) hgc
      exact hto _ (by simp) next

theorem gives_container {E : Env} {vals : Valuation} {t : Tok} {kids : List Nd} (hw : walks t.ty = true)
    (hl : t.ty = .LIST → kids ≠ []) (hset : isVarSet (.mk t kids) = false) {s : St} (ha : Agrees vals s)
    (k5 : ∀ c ∈ kids, c.ty = .VARIABLE → ∃ v, vals c.tok.str = some v ∧ GoodValue v)
    (k6 : ∀ c ∈ kids, c.ty ≠ .VARIABLE → Template vals c)
    (ih : ∀ c ∈ kids, c.ty ≠ .VARIABLE → ∀ s, Agrees vals s → Gives (fun f => replaceVars E f c) s (.ok (some (subst vals c)) s)) :
    Gives (fun f => replaceVars E f (.mk t kids)) s (.ok (some (.mk t (substAll vals t.ty kids))) s) := by
  have hcom : (Nd.mk t kids).ty ≠ .COMMENT := by
    intro e
    have e : t.ty = .COMMENT := e
    rw [e] at hw; cases hw
  have hw' : ¬ walks (Nd.mk t kids).ty = false := by rw [show (Nd.mk t kids).ty = t.ty from rfl, hw]; simp
  have hlist : ¬ ((Nd.mk t kids).ty = .LIST ∧ (Nd.mk t kids).kids.isEmpty = true) := by
    rintro ⟨a, b⟩
    exact hl a (List.isEmpty_iff.mp b)
  have ha' : Agrees vals (if isScope (.mk t kids) then { s with scopes := [] :: s.scopes } else s) := by
    cases isScope (.mk t kids)
    · exact ha
    · intro x v hx
      obtain ⟨var, q1, q2⟩ := ha x v hx
      exact ⟨var, q1, q2⟩
  obtain ⟨f, hf⟩ := loop_template (E := E) (p := t.ty) [] kids ha' k5 k6 (fun c hc hv => ih c hc hv _ ha')
  refine ⟨f + 1, fun g hg => ?_⟩
  obtain ⟨g, rfl⟩ : ∃ k, g = k + 1 := ⟨g - 1, by omega⟩
  have hi : firstIdx (.mk t kids) = 0 := by unfold firstIdx; rw [hset]; rfl
  dsimp only
  rw [replaceVars, if_neg hcom, if_neg hw', if_neg hlist, hset, hi]
  have e := hf g (by omega)
  dsimp only [List.nil_append] at e
  simp only [bind_apply, enter]
  rw [show (Nd.mk t kids).ty = t.ty from rfl, show (Nd.mk t kids).kids = kids from rfl]
  rw [show ([] : List Nd).length = 0 from rfl] at e
  rw [e]
  simp only [leave]
  cases isScope (.mk t kids) <;> rfl

/-- C60: in a tree with uses of variables each use is replaced by the value of the variable, everything else is kept. -/
theorem C60_subst (E : Env) (vals : Valuation) (n : Nd) (h : Template vals n) (s : St) (ha : Agrees vals s) :
    Gives (fun f => replaceVars E f n) s (.ok (some (subst vals n)) s) := by
  induction h generalizing s with
  | plain n hp => rw [subst_plain vals n hp]; exact C53_plain E n hp s
  | node t kids k1 k2 k3 k4 k5 k6 ih =>
    have hset : isVarSet (.mk t kids) = false := by
      unfold isVarSet
      by_cases hc : t.ty = .COMPONENT_VALUE
      · have : isSet kids = false := by
          unfold isSet
          split
          · rename_i c0 c1 c2 rest
            by_cases h0 : c0.ty = .VARIABLE ∨ c0.ty = .VARIABLE_FUNCTION
            · rw [if_pos h0]
              have h0 : c0.ty = .VARIABLE := by
                rcases h0 with h0 | h0
                · exact h0
                · exfalso
                  have := k6 c0 (by simp) (by rw [h0]; simp)
                  cases this with
                  | plain _ hp => cases hp; contradiction
                  | node t' kids' q1 => 
                    have h0 : t'.ty = .VARIABLE_FUNCTION := h0
                    rw [h0] at q1; revert q1; unfold IsContainer; decide
              by_cases hw : c1.ty = .WHITESPACE
              · rw [if_pos hw, decide_eq_false_iff_not]
                intro h2
                exact k4 hc ⟨c0, [c1], c2, rest, rfl, h0, by simpa using hw, h2⟩
              · rw [if_neg hw, decide_eq_false_iff_not]
                intro h2
                exact k4 hc ⟨c0, [], c1, c2 :: rest, rfl, h0, by simp, h2⟩
            · rw [if_neg h0]
          · rfl
        show (decide _ && isSet kids) = false
        rw [this, Bool.and_false]
      · show (decide (t.ty = _) && isSet kids) = false
        rw [decide_eq_false hc, Bool.false_and]
    rw [subst]
    exact gives_container (walks_of_isContainer k1) k3 hset ha k5 k6 (fun c hc hv s hs => ih c hc hv s hs)

/-! ### mark_selectors() does not change what a template is -/

theorem mark_ty (b : Bool) (n : Nd) : (mark b n).ty = n.ty := by
  cases n with
  | mk t kids =>
    unfold mark
    dsimp only
    cases b <;> simp only [Bool.false_eq_true, if_true, if_false] <;> split <;> rfl

theorem mark_str (b : Bool) (n : Nd) : (mark b n).tok.str = n.tok.str := by
  cases n with
  | mk t kids =>
    unfold mark
    dsimp only
    cases b <;> simp only [Bool.false_eq_true, if_true, if_false] <;> split <;> rfl

theorem markAll_ne {b : Bool} {l : List Nd} (h : l ≠ []) : markAll b l ≠ [] := by
  cases l with
  | nil => exact absurd rfl h
  | cons c cs => unfold markAll; simp

theorem mem_markAll {b : Bool} {l : List Nd} {c : Nd} (h : c ∈ markAll b l) : ∃ d ∈ l, ∃ b', c = mark b' d := by
  induction l with
  | nil => cases h
  | cons x l ih =>
    unfold markAll at h
    rcases List.mem_cons.1 h with rfl | h
    · exact ⟨x, by simp, _, rfl⟩
    · obtain ⟨d, hd, e⟩ := ih h
      exact ⟨d, by simp [hd], e⟩

theorem mark_plain {n : Nd} (h : Plain n) (b : Bool) : Plain (mark b n) := by
  induction h generalizing b with
  | mk t kids v1 v2 v3 v4 v5 v6 ih =>
    have hk : ∀ b, ∀ c ∈ markAll b kids, Plain c := by
      intro b c hc
      obtain ⟨d, hd, b', rfl⟩ := mem_markAll hc
      exact ih d hd b'
    unfold mark
    dsimp only
    have ht : ∀ t' : Tok, t'.ty = t.ty → t'.str = t.str → Plain (if marks t'.ty then .mk t' (markAll (marksLast kids) kids) else .mk t' kids) := by
      intro t' e1 e2
      rw [← e1] at v1 v2 v3 v4 v5
      rw [← e2] at v3 v5
      split
      · exact .mk _ _ v1 v2 v3 (fun h => markAll_ne (v4 h)) v5 (hk _)
      · exact .mk _ _ v1 v2 v3 v4 v5 v6
    cases b <;> exact ht _ rfl rfl

theorem markAll_shape {b : Bool} {l : List Nd} {c : Nd} {r : List Nd} (h : markAll b l = c :: r) :
    ∃ d k b', l = d :: k ∧ c = mark b' d ∧ r = markAll b k := by
  cases l with
  | nil => cases h
  | cons d k => unfold markAll at h; cases h; exact ⟨d, k, _, rfl, rfl, rfl⟩

theorem markAll_append_shape {b : Bool} {w r l : List Nd} {c : Nd} (h : markAll b l = w ++ c :: r)
    (hw : ∀ x ∈ w, x.ty = .WHITESPACE) : ∃ w' d k, l = w' ++ d :: k ∧ d.ty = c.ty ∧ ∀ x ∈ w', x.ty = .WHITESPACE := by
  induction w generalizing l with
  | nil =>
    obtain ⟨d, k, b', e1, e2, e3⟩ := markAll_shape h
    exact ⟨[], d, k, e1, by rw [e2, mark_ty], by simp⟩
  | cons x w ih =>
    obtain ⟨d, k, b', e1, e2, e3⟩ := markAll_shape h
    obtain ⟨w', d', k', q1, q2, q3⟩ := ih e3.symm (fun x hx => hw x (by simp [hx]))
    refine ⟨d :: w', d', k', by rw [e1, q1]; rfl, q2, ?_⟩
    intro y hy
    rcases List.mem_cons.1 hy with rfl | hy
    · rw [← mark_ty b' y, ← e2]; exact hw x (by simp)
    · exact q3 y hy

theorem sets_markAll {b : Bool} {l : List Nd} (h : Sets (markAll b l)) : Sets l := by
  obtain ⟨v, w, c, r, e, h1, h2, h3⟩ := h
  obtain ⟨d, k, b', e1, e2, e3⟩ := markAll_shape e
  obtain ⟨w', d', k', q1, q2, q3⟩ := markAll_append_shape e3.symm h2
  exact ⟨d, w', d', k', by rw [e1, q1], by rw [← mark_ty b' d, ← e2]; exact h1, q3, by rw [q2]; exact h3⟩

theorem mark_template {vals : Valuation} {n : Nd} (h : Template vals n) (b : Bool) : Template vals (mark b n) := by
  induction h generalizing b with
  | plain n hp => exact .plain _ (mark_plain hp b)
  | node t kids k1 k2 k3 k4 k5 k6 ih =>
    have h5 : ∀ b, ∀ c ∈ markAll b kids, c.ty = .VARIABLE → ∃ v, vals c.tok.str = some v ∧ GoodValue v := by
      intro b c hc hv
      obtain ⟨d, hd, b', rfl⟩ := mem_markAll hc
      rw [mark_ty] at hv
      rw [mark_str]
      exact k5 d hd hv
    have h6 : ∀ b, ∀ c ∈ markAll b kids, c.ty ≠ .VARIABLE → Template vals c := by
      intro b c hc hv
      obtain ⟨d, hd, b', rfl⟩ := mem_markAll hc
      rw [mark_ty] at hv
      exact ih d hd hv b'
    unfold mark
    dsimp only
    have ht : ∀ t' : Tok, t'.ty = t.ty → t'.str = t.str →
        Template vals (if marks t'.ty then .mk t' (markAll (marksLast kids) kids) else .mk t' kids) := by
      intro t' e1 e2
      rw [← e1] at k1 k2 k3 k4
      rw [← e2] at k2
      split
      · exact .node _ _ k1 k2 (fun h => markAll_ne (k3 h)) (fun h hs => k4 h (sets_markAll hs)) (h5 _) (h6 _)
      · exact .node _ _ k1 k2 k3 k4 k5 k6
    cases b <;> exact ht _ rfl rfl

/-! ### The parameters -/

theorem findVar_bindArgs (call : Pos) (es : St) : ∀ (ps : List Param) (as : List Argument) (vars : List Var),
    ¬ Missing ps as → ∃ r, bindArgs call (ps.map Param.node) (as.map Argument.node) vars es = .ok (some r) es ∧
      ∀ x, (match parameters ps as x with
        | some v => ∃ t : Tok, findVar x r = some ⟨.leaf { t with ty := .VARIABLE }, v⟩
        | none => findVar x r = findVar x vars)
  | [], as, vars, _ => ⟨vars, by cases as <;> rfl, fun x => by rw [parameters]⟩
  | p :: ps, as, vars, hm => by
    have hsingle : ∀ pos l, oneOrList pos l = single pos l := by
      intro pos l
      match l with
      | [] => rfl
      | [c] => rfl
      | a :: b :: l => rfl
    have step : ∀ (as' : List Argument) (val : Nd), ¬ Missing ps as' →
        (∃ r, bindArgs call (ps.map Param.node) (as'.map Argument.node) (putVar ⟨.leaf { p.name with ty := .VARIABLE }, val⟩ vars) es
            = .ok (some r) es ∧
          ∀ x, (match (match parameters ps as' x with
              | some v => some v
              | none => if p.name.str = x then some val else none) with
            | some v => ∃ t : Tok, findVar x r = some ⟨.leaf { t with ty := .VARIABLE }, v⟩
            | none => findVar x r = findVar x vars)) := by
      intro as' val hm'
      obtain ⟨r, h1, h2⟩ := findVar_bindArgs call es ps as' (putVar ⟨.leaf { p.name with ty := .VARIABLE }, val⟩ vars) hm'
      refine ⟨r, h1, fun x => ?_⟩
      have h2 := h2 x
      cases hp : parameters ps as' x with
      | some v => rw [hp] at h2; exact h2
      | none =>
        rw [hp] at h2
        dsimp only at h2 ⊢
        rw [findVar_put] at h2
        by_cases hx : p.name.str = x
        · rw [if_pos hx]
          rw [if_pos (show Var.key ⟨.leaf { p.name with ty := .VARIABLE }, val⟩ = x from hx)] at h2
          exact ⟨_, h2⟩
        · rw [if_neg hx]
          rw [if_neg (show ¬ Var.key ⟨.leaf { p.name with ty := .VARIABLE }, val⟩ = x from hx)] at h2
          exact h2
    cases as with
    | nil =>
      have hd : p.default_ ≠ [] := fun h => hm ⟨p, by simp, h⟩
      obtain ⟨r, h1, h2⟩ := step [] (single p.pos p.default_) (fun ⟨q, hq, e⟩ => hm ⟨q, by simp at hq ⊢; exact .inr hq, e⟩)
      refine ⟨r, ?_, fun x => ?_⟩
      · rw [← h1]
        conv => lhs; unfold bindArgs
        show (if p.default_.isEmpty = true then _ else _ : M _) es = _
        rw [if_neg (by simpa using hd), hsingle]
        rfl
      · have := h2 x
        unfold parameters
        exact this
    | cons a as =>
      obtain ⟨r, h1, h2⟩ := step as (single a.pos a.value) (fun ⟨q, hq, e⟩ => hm ⟨q, hq, e⟩)
      refine ⟨r, ?_, fun x => ?_⟩
      · rw [← h1, ← hsingle]
        rfl
      · have := h2 x
        unfold parameters
        exact this

theorem bindArgs_missing (call : Pos) (es : St) : ∀ (ps : List Param) (as : List Argument) (vars : List Var),
    Missing ps as → bindArgs call (ps.map Param.node) (as.map Argument.node) vars es =
      .ok none { es with errs := (.missing, call) :: es.errs }
  | [], as, vars, ⟨q, hq, _⟩ => by simp at hq
  | p :: ps, [], vars, hm => by
    by_cases hd : p.default_ = []
    · show (if p.default_.isEmpty = true then _ else _ : M _) es = _
      rw [if_pos (by simpa using hd)]
      rfl
    · show (if p.default_.isEmpty = true then _ else _ : M _) es = _
      rw [if_neg (by simpa using hd)]
      refine bindArgs_missing call es ps [] _ ?_
      obtain ⟨q, hq, e⟩ := hm
      rcases List.mem_cons.1 hq with rfl | hq
      · exact absurd e hd
      · exact ⟨q, hq, e⟩
  | p :: ps, a :: as, vars, hm => bindArgs_missing call es ps as _ hm

/-! ### The call of a function -/

theorem argify_args {t : Tok} (ht : t.ty = .FUNCTION ∨ t.ty = .VARIABLE_FUNCTION) {l : List Nd} {as : List Argument}
    (h : Arguments t.pos l as) : Parse.argify (.mk t l) .COMMA = .done (as.map Argument.node) none := by
  have hsup : Node.supportsChildren (Nd.mk t l).ty = true := by
    show Node.supportsChildren t.ty = true
    rcases ht with h | h <;> rw [h] <;> rfl
  rcases h with ⟨h1, h2⟩ | ⟨h1, h2, h3, h4, h5⟩
  · subst h1 h2
    exact Parse.C39_already _ _ (.inl rfl) hsup (.inl rfl)
  · have hb : Parse.body l = l := by
      unfold Parse.body
      clear h1 h2 h4 h5 hsup
      induction l with
      | nil => rfl
      | cons c l ih =>
        rw [List.takeWhile_cons, if_pos (by simpa using (h3 c (by simp)).2), ih (fun c hc => h3 c (by simp [hc]))]
    have hb' : Parse.block? l = [] := by
      unfold Parse.block?
      clear h1 h2 h4 h5 hb hsup
      induction l with
      | nil => rfl
      | cons c l ih =>
        rw [List.dropWhile_cons, if_pos (by simpa using (h3 c (by simp)).2), ih (fun c hc => h3 c (by simp [hc]))]
    have := Parse.C39_split (.mk t l) .COMMA (.inl rfl) hsup h1 (by
      show l.head?.map Nd.ty ≠ some .ARG
      cases l with
      | nil => exact absurd rfl h1
      | cons c l => simpa using (h3 c (by simp)).1) h2
    rw [show (Nd.mk t l).kids = l from rfl, hb, hb', h4] at this
    dsimp only at this
    rw [if_pos (by simp)] at this
    rw [this, h5, List.append_nil, List.map_map]
    rfl

/-- A function, its parameters, and its body. -/
def Function (v : Var) (ps : List Param) : Prop :=
  (v.name.ty = .FUNCTION ∨ v.name.ty = .VARIABLE_FUNCTION) ∧ v.name.kids = ps.map Param.node

theorem Function.is {v : Var} {ps : List Param} (h : Function v ps) : isFunction v.name = true := by
  unfold isFunction; simpa using h.1

/-- C60: the body of the function with the parameters in it. -/
def result (p : NT) (v : Var) (ps : List Param) (as : List Argument) : List Nd :=
  body p (subst (parameters ps as) (mark false (.mk { ty := .LIST, pos := v.value.tok.pos } [v.value])))

/-- What can be inserted after `d`. -/
def Fits (d r : List Nd) : Prop :=
  Parse.Clean r ∧ (d.getLast?.map Nd.ty ≠ some .WHITESPACE ∨ r.head?.map Nd.ty ≠ some .WHITESPACE)

theorem spliced_onlyBlock (p : NT) (root : Nd) : spliced p (onlyBlock root) = body p root := by
  unfold body onlyBlock
  match root.kids with
  | [] => rfl
  | [c] =>
    dsimp only
    by_cases h : c.ty = .OPEN_CURLYBRACKET
    · rw [if_pos h, if_pos h]
    · rw [if_neg h, if_neg h]
  | a :: b :: l => rfl

theorem gives_call {E : Env} {p : NT} {t : Tok} (ht : t.ty = .FUNCTION ∨ t.ty = .VARIABLE_FUNCTION) {l : List Nd} {as : List Argument}
    (hargs : Arguments t.pos l as) {s : St} {v : Var} (hv : s.get t.str = some v) {ps : List Param} (hf : Function v ps)
    (hm : ¬ Missing ps as)
    (hbody : (v.value.ty = .VARIABLE → ∃ x, parameters ps as v.value.tok.str = some x ∧ GoodValue x) ∧
      (v.value.ty ≠ .VARIABLE → Template (parameters ps as) v.value))
    (d rest : List Nd) (hfit : Fits d (result p v ps as)) :
    Gives (fun f => replaceVariable E f p (d ++ rest) (.mk t l) d.length) s (.ok (d ++ (result p v ps as ++ rest)) s) := by
  obtain ⟨vars, hb1, hb2⟩ := findVar_bindArgs t.pos s ps as [] hm
  have ha : Agrees (parameters ps as) { scopes := [], root := vars, errs := s.errs } := by
    intro x val hx
    have := hb2 x
    rw [hx] at this
    obtain ⟨tk, e⟩ := this
    exact ⟨_, e, rfl, by show NT.VARIABLE ≠ _; decide, by show NT.VARIABLE ≠ _; decide⟩
  have hroot : Template (parameters ps as) (.mk { ty := .LIST, pos := v.value.tok.pos } [v.value]) := by
    refine .node _ _ (by unfold IsContainer; simp) (by simp) (by simp) (by simp) ?_ ?_
    · intro c hc; rw [List.mem_singleton.1 hc]; exact hbody.1
    · intro c hc; rw [List.mem_singleton.1 hc]; exact hbody.2
  obtain ⟨a, hrun⟩ := C60_subst E _ _ (mark_template hroot false) _ ha
  refine ⟨a + 1, fun g hg => ?_⟩
  obtain ⟨g, rfl⟩ : ∃ k, g = k + 1 := ⟨g - 1, by omega⟩
  dsimp only
  rw [replaceVariable, bind_apply]
  show (match s.get t.str with | none => _ | some v => _ : M _) s = _
  rw [hv]
  dsimp only
  have e2 : isFunction (.mk t l) = true := by exact decide_eq_true ht
  rw [hf.is, e2, if_pos rfl, if_neg (by simp), bind_apply]
  have e3 : argifyM (.mk t l) s = .ok (.mk t (as.map Argument.node), true) s := by
    unfold argifyM
    rw [argify_args ht hargs]
    rfl
  rw [e3]
  dsimp only
  rw [bind_apply, hf.2, show (Nd.mk t (as.map Argument.node)).kids = as.map Argument.node from rfl,
    show (Nd.mk t (as.map Argument.node)).tok.pos = t.pos from rfl, hb1]
  dsimp only
  rw [bind_apply]
  have e4 := hrun g (by omega)
  dsimp only at e4
  unfold separately
  rw [e4]
  dsimp only
  have e5 : insertValue p (d ++ rest) d.length (onlyBlock (subst (parameters ps as) (mark false (.mk { ty := .LIST, pos := v.value.tok.pos } [v.value])))) =
      some (d ++ (result p v ps as ++ rest)) := by
    rw [insertValue_eq, ← insertAll_clean d _ rest hfit.1 hfit.2]
    congr 1
    unfold result
    exact spliced_onlyBlock p _
  rw [e5]
  rfl

theorem call_missing {E : Env} {p : NT} {t : Tok} (ht : t.ty = .FUNCTION ∨ t.ty = .VARIABLE_FUNCTION) {l : List Nd} {as : List Argument}
    (hargs : Arguments t.pos l as) {s : St} {v : Var} (hv : s.get t.str = some v) {ps : List Param} (hf : Function v ps)
    (hm : Missing ps as) (k : List Nd) {i : Nat} (g : Nat) :
    replaceVariable E (g + 1) p k (.mk t l) i s = .ok k { s with errs := (.missing, t.pos) :: s.errs } := by
  rw [replaceVariable, bind_apply]
  show (match s.get t.str with | none => _ | some v => _ : M _) s = _
  rw [hv]
  dsimp only
  have e2 : isFunction (.mk t l) = true := decide_eq_true ht
  rw [hf.is, e2, if_pos rfl, if_neg (by simp), bind_apply]
  have e3 : argifyM (.mk t l) s = .ok (.mk t (as.map Argument.node), true) s := by
    unfold argifyM
    rw [argify_args ht hargs]
    rfl
  rw [e3]
  dsimp only
  rw [bind_apply, hf.2, show (Nd.mk t (as.map Argument.node)).kids = as.map Argument.node from rfl,
    show (Nd.mk t (as.map Argument.node)).tok.pos = t.pos from rfl, bindArgs_missing _ _ _ _ _ hm]
  rfl

theorem to_call {E : Env} {p : NT} {t : Tok} (ht : t.ty = .VARIABLE_FUNCTION) {kids : List Nd} {s : St} {vals : Valuation} (ha : Agrees vals s)
    (hk : ∀ c ∈ kids, (c.ty = .VARIABLE → ∃ v, vals c.tok.str = some v ∧ GoodValue v) ∧ (c.ty ≠ .VARIABLE → Template vals c))
    (d rest : List Nd) {k' : List Nd} {s' : St}
    (h2 : Gives (fun f => replaceVariable E f p (d ++ rest) (.mk t (substAll vals t.ty kids)) d.length) s (.ok k' s')) :
    To E p (d ++ .mk t kids :: rest) d.length s k' d.length s' := by
  intro r hr hg
  have h1 : Gives (fun f => replaceVars E f (.mk t kids)) s (.ok (some (.mk t (substAll vals t.ty kids))) s) := by
    refine gives_container (by rw [ht]; rfl) (by rw [ht]; simp) ?_ ha (fun c hc => (hk c hc).1) (fun c hc => (hk c hc).2)
      (fun c hc hv s hs => C60_subst E vals c ((hk c hc).2 hv) s hs)
    show (decide (t.ty = .COMPONENT_VALUE) && isSet kids) = false
    rw [ht]
    rfl
  refine gives_succ (gives_bind (f := fun f c' => replaceVariable E f p ((d ++ .mk t kids :: rest).eraseIdx d.length) (c'.getD (.mk t kids)) d.length >>= fun k => loop E f p k d.length) h1
    (gives_bind (f := fun f k => loop E f p k d.length) ?_ hg)) (fun g => ?_)
  · dsimp only [Option.getD]
    rw [to_variable.erase_mid]
    exact h2
  · have e1 : (d ++ Nd.mk t kids :: rest)[d.length]? = some (.mk t kids) := by simp
    conv => lhs; rw [loop, e1]
    dsimp only
    rw [if_neg (by rw [show (Nd.mk t kids).ty = t.ty from rfl, ht]; simp), if_pos (by exact ht)]

/-- C60: `$f(arguments)`: the variables of the arguments are replaced, then the arguments are separated, and the call is
replaced by the body of the function in which the parameters have the values of the arguments; the variables of the
caller are not changed. -/
theorem C60_call {E : Env} {p : NT} {t : Tok} (ht : t.ty = .VARIABLE_FUNCTION) {kids : List Nd} {s : St} {vals : Valuation} (ha : Agrees vals s)
    (hk : ∀ c ∈ kids, (c.ty = .VARIABLE → ∃ v, vals c.tok.str = some v ∧ GoodValue v) ∧ (c.ty ≠ .VARIABLE → Template vals c))
    {as : List Argument} (hargs : Arguments t.pos (substAll vals t.ty kids) as)
    {v : Var} (hv : s.get t.str = some v) {ps : List Param} (hf : Function v ps) (hm : ¬ Missing ps as)
    (hbody : (v.value.ty = .VARIABLE → ∃ x, parameters ps as v.value.tok.str = some x ∧ GoodValue x) ∧
      (v.value.ty ≠ .VARIABLE → Template (parameters ps as) v.value))
    (d rest : List Nd) (hfit : Fits d (result p v ps as)) :
    To E p (d ++ .mk t kids :: rest) d.length s (d ++ (result p v ps as ++ rest)) d.length s :=
  to_call ht ha hk d rest (gives_call (.inr ht) hargs hv hf hm hbody d rest hfit)

/-- C60: a call with too few arguments is removed, with an error. -/
theorem C60_missing {E : Env} {p : NT} {t : Tok} (ht : t.ty = .VARIABLE_FUNCTION) {kids : List Nd} {s : St} {vals : Valuation} (ha : Agrees vals s)
    (hk : ∀ c ∈ kids, (c.ty = .VARIABLE → ∃ v, vals c.tok.str = some v ∧ GoodValue v) ∧ (c.ty ≠ .VARIABLE → Template vals c))
    {as : List Argument} (hargs : Arguments t.pos (substAll vals t.ty kids) as)
    {v : Var} (hv : s.get t.str = some v) {ps : List Param} (hf : Function v ps) (hm : Missing ps as) (d rest : List Nd) :
    To E p (d ++ .mk t kids :: rest) d.length s (d ++ rest) d.length { s with errs := (.missing, t.pos) :: s.errs } := by
  refine to_call ht ha hk d rest ⟨1, fun g hg => ?_⟩
  obtain ⟨g, rfl⟩ : ∃ k, g = k + 1 := ⟨g - 1, by omega⟩
  exact call_missing (.inr ht) hargs hv hf hm _ g

/-- C60: the call of a variable that is not a function is removed, with an error. -/
theorem C60_not_function {E : Env} {p : NT} {t : Tok} (ht : t.ty = .VARIABLE_FUNCTION) {kids : List Nd} {s : St} {vals : Valuation} (ha : Agrees vals s)
    (hk : ∀ c ∈ kids, (c.ty = .VARIABLE → ∃ v, vals c.tok.str = some v ∧ GoodValue v) ∧ (c.ty ≠ .VARIABLE → Template vals c))
    {v : Var} (hv : s.get t.str = some v) (hf : v.name.ty ≠ .FUNCTION ∧ v.name.ty ≠ .VARIABLE_FUNCTION) (d rest : List Nd) :
    To E p (d ++ .mk t kids :: rest) d.length s (d ++ rest) d.length { s with errs := (.notFunction, t.pos) :: s.errs } := by
  refine to_call ht ha hk d rest ⟨1, fun g hg => ?_⟩
  obtain ⟨g, rfl⟩ : ∃ k, g = k + 1 := ⟨g - 1, by omega⟩
  have e1 : isFunction v.name = false := by unfold isFunction; simp [hf]
  have e2 : isFunction (.mk t (substAll vals t.ty kids)) = true := decide_eq_true (.inr ht)
  dsimp only
  rw [replaceVariable, bind_apply]
  show (match s.get t.str with | none => _ | some v => _ : M _) s = _
  rw [hv]
  dsimp only
  rw [e1, e2, if_neg (by simp), if_pos rfl]
  rfl

/-! ### @include -/

theorem to_include {E : Env} {p : NT} {t : Tok} (ht : t.ty = .AT_KEYWORD) (hs : t.str = b!"include") {id : Nd} {more : List Nd}
    (hid : id.ty = .IDENTIFIER ∨ id.ty = .FUNCTION) {s : St} {vals : Valuation} (ha : Agrees vals s)
    (hk : ∀ c ∈ id :: more, (c.ty = .VARIABLE → ∃ v, vals c.tok.str = some v ∧ GoodValue v) ∧ (c.ty ≠ .VARIABLE → Template vals c))
    (d rest : List Nd) {k' : List Nd} {s' : St}
    (h : Gives (fun f => replaceVariable E f p (d ++ rest) (subst vals id) d.length) s (.ok k' s')) :
    To E p (d ++ .mk t (id :: more) :: rest) d.length s k' d.length s' := by
  have hidv : id.ty ≠ .VARIABLE := by rcases hid with h | h <;> rw [h] <;> simp
  have h1 : Gives (fun f => replaceVars E f (.mk t (id :: more))) s (.ok (some (.mk t (substAll vals t.ty (id :: more)))) s) := by
    refine gives_container (by rw [ht]; rfl) (by rw [ht]; simp) ?_ ha (fun c hc => (hk c hc).1) (fun c hc => (hk c hc).2)
      (fun c hc hv s hs => C60_subst E vals c ((hk c hc).2 hv) s hs)
    show (decide (t.ty = .COMPONENT_VALUE) && isSet (id :: more)) = false
    rw [ht]
    rfl
  have e1 : (d ++ Nd.mk t (id :: more) :: rest)[d.length]? = some (.mk t (id :: more)) := by simp
  refine to_at e1 ht ?_
  obtain ⟨a, ha⟩ := h1
  obtain ⟨b, hb⟩ := h
  refine ⟨max a b + 1, fun g hg => ?_⟩
  obtain ⟨g, rfl⟩ : ∃ k, g = k + 1 := ⟨g - 1, by omega⟩
  have q1 := ha g (by omega)
  have q2 := hb g (by omega)
  dsimp only at q1 q2 ⊢
  have hsub : substAll vals t.ty (id :: more) = subst vals id :: substAll vals t.ty more := by
    rw [substAll, if_neg hidv]
  have hty : (subst vals id).ty = id.ty := by cases id; rw [subst]; rfl
  rw [atKeyword, if_neg (by rw [show (Nd.mk t (id :: more)).tok = t from rfl, hs]; decide), bind_apply, q1]
  dsimp only [Option.getD]
  have hstr : (Nd.mk t (subst vals id :: substAll vals t.ty more)).tok.str = b!"include" := hs
  rw [hsub, if_neg (by rw [hstr]; decide), if_neg (by rw [hstr]; decide), if_neg (by rw [hstr]; decide), if_pos hstr]
  dsimp only [Parse.Nd.kids]
  rw [if_neg (by rw [hty]; rintro ⟨h1, h2⟩; exact hid.elim h1 h2), to_variable.erase_mid, bind_apply, q2]
  rfl

/-- C60: `@include f(arguments)` is the call of the mixin. -/
theorem C60_include {E : Env} {p : NT} {t ft : Tok} (ht : t.ty = .AT_KEYWORD) (hs : t.str = b!"include") {kids more : List Nd}
    (hid : ft.ty = .FUNCTION) {s : St} {vals : Valuation} (ha : Agrees vals s)
    (hk : ∀ c ∈ Nd.mk ft kids :: more, (c.ty = .VARIABLE → ∃ v, vals c.tok.str = some v ∧ GoodValue v) ∧ (c.ty ≠ .VARIABLE → Template vals c))
    {as : List Argument} (hargs : Arguments ft.pos (substAll vals .FUNCTION kids) as)
    {v : Var} (hv : s.get ft.str = some v) {ps : List Param} (hf : Function v ps) (d rest : List Nd) :
    (Missing ps as → To E p (d ++ .mk t (.mk ft kids :: more) :: rest) d.length s (d ++ rest) d.length
      { s with errs := (.missing, ft.pos) :: s.errs }) ∧
    (¬ Missing ps as →
      ((v.value.ty = .VARIABLE → ∃ x, parameters ps as v.value.tok.str = some x ∧ GoodValue x) ∧
        (v.value.ty ≠ .VARIABLE → Template (parameters ps as) v.value)) →
      Fits d (result p v ps as) →
      To E p (d ++ .mk t (.mk ft kids :: more) :: rest) d.length s (d ++ (result p v ps as ++ rest)) d.length s) := by
  have hargs' : Arguments ft.pos (substAll vals ft.ty kids) as := by rw [hid]; exact hargs
  refine ⟨fun hm => ?_, fun hm hbody hfit => ?_⟩
  · refine to_include ht hs (id := .mk ft kids) (.inr hid) ha hk d rest ?_
    rw [subst]
    refine ⟨1, fun g hg => ?_⟩
    obtain ⟨g, rfl⟩ : ∃ k, g = k + 1 := ⟨g - 1, by omega⟩
    exact call_missing (.inl hid) hargs' hv hf hm _ g
  · refine to_include ht hs (id := .mk ft kids) (.inr hid) ha hk d rest ?_
    rw [subst]
    exact gives_call (.inl hid) hargs' hv hf hm hbody d rest hfit

/-- C60: `@include name` is replaced by the value of the mixin (C59): the children of its block. -/
theorem C60_include_name {E : Env} {p : NT} {t : Tok} (ht : t.ty = .AT_KEYWORD) (hs : t.str = b!"include") {id : Nd} {more : List Nd}
    (hid : id.ty = .IDENTIFIER) {s : St} (hk : ∀ c ∈ id :: more, Plain c)
    {v : Var} (hv : s.get id.tok.str = some v) (hf : v.name.ty ≠ .FUNCTION ∧ v.name.ty ≠ .VARIABLE_FUNCTION)
    (d rest : List Nd) (hfit : Fits d (spliced p v.value)) :
    To E p (d ++ .mk t (id :: more) :: rest) d.length s (d ++ (spliced p v.value ++ rest)) d.length s := by
  refine to_include ht hs (.inl hid) (vals := fun _ => none) (fun _ _ h => by cases h) (fun c hc => ⟨fun h => ?_, fun _ => .plain _ (hk c hc)⟩) d rest ?_
  · have := hk c hc; cases this; contradiction
  · rw [subst_plain _ _ (hk id (by simp))]
    refine ⟨1, fun g hg => ?_⟩
    obtain ⟨g, rfl⟩ : ∃ k, g = k + 1 := ⟨g - 1, by omega⟩
    have e1 : isFunction v.name = false := by unfold isFunction; simp [hf]
    have e2 : isFunction id = false := by unfold isFunction; rw [hid]; rfl
    dsimp only
    rw [replaceVariable, bind_apply]
    show (match s.get id.tok.str with | none => _ | some v => _ : M _) s = _
    rw [hv]
    dsimp only
    rw [e1, e2, if_neg (by simp), if_neg (by simp), insertValue_eq, insertAll_clean _ _ _ hfit.1 hfit.2]
    rfl

/-! ### @mixin -/

theorem to_mixin {E : Env} {p : NT} {t : Tok} (ht : t.ty = .AT_KEYWORD) (hs : t.str = b!"mixin") {kids : List Nd} {s s' : St}
    (h : handleMixin (.mk t kids) s = .ok () s') (d rest : List Nd) :
    To E p (d ++ .mk t kids :: rest) d.length s (d ++ rest) d.length s' := by
  have e1 : (d ++ Nd.mk t kids :: rest)[d.length]? = some (.mk t kids) := by simp
  refine to_at e1 ht ⟨1, fun g hg => ?_⟩
  obtain ⟨g, rfl⟩ : ∃ k, g = k + 1 := ⟨g - 1, by omega⟩
  dsimp only
  rw [atKeyword, if_pos (by exact hs), bind_apply, h, to_variable.erase_mid]
  rfl

/-- C60: `@mixin name {block}` is removed and sets the variable `name`, at the root. -/
theorem C60_mixin {E : Env} {p : NT} {t : Tok} (ht : t.ty = .AT_KEYWORD) (hs : t.str = b!"mixin") {name block : Nd}
    (hn : name.ty = .IDENTIFIER) (hb : block.ty = .OPEN_CURLYBRACKET) (s : St) (d rest : List Nd) :
    To E p (d ++ .mk t [name, block] :: rest) d.length s (d ++ rest) d.length (s.put ⟨name, block⟩ true) := by
  refine to_mixin ht hs ?_ d rest
  unfold handleMixin
  dsimp only [Parse.Nd.kids]
  rw [if_neg (by rw [hb]; simp), if_neg (by rw [hn]; simp), if_pos hn]
  rfl

/-- C60: anything else than a name or a function and a block is removed with an error. -/
theorem C60_mixin_bad {E : Env} {p : NT} {t : Tok} (ht : t.ty = .AT_KEYWORD) (hs : t.str = b!"mixin") (kids : List Nd)
    (h : ¬ ∃ name block, kids = [name, block] ∧ (name.ty = .IDENTIFIER ∨ name.ty = .FUNCTION) ∧ block.ty = .OPEN_CURLYBRACKET)
    (s : St) (d rest : List Nd) :
    ∃ e, e ∈ [Err.mixinSize, .mixinBlock, .mixinVariable, .mixinName] ∧
    To E p (d ++ .mk t kids :: rest) d.length s (d ++ rest) d.length { s with errs := (e, t.pos) :: s.errs } := by
  have : ∃ e, e ∈ [Err.mixinSize, .mixinBlock, .mixinVariable, .mixinName] ∧
      handleMixin (.mk t kids) s = .ok () { s with errs := (e, t.pos) :: s.errs } := by
    unfold handleMixin
    dsimp only [Parse.Nd.kids]
    split
    · rename_i name block
      by_cases h1 : block.ty = .OPEN_CURLYBRACKET
      · rw [if_neg (by rw [h1]; simp)]
        by_cases h2 : name.ty = .VARIABLE ∨ name.ty = .VARIABLE_FUNCTION
        · rw [if_pos h2]
          exact ⟨.mixinVariable, by simp, rfl⟩
        · rw [if_neg h2, if_neg (fun h3 => h ⟨name, block, rfl, .inl h3, h1⟩), if_neg (fun h3 => h ⟨name, block, rfl, .inr h3, h1⟩)]
          exact ⟨.mixinName, by simp, rfl⟩
      · rw [if_pos h1]
        exact ⟨.mixinBlock, by simp, rfl⟩
    · exact ⟨.mixinSize, by simp, rfl⟩
  obtain ⟨e, h1, h2⟩ := this
  exact ⟨e, h1, to_mixin ht hs h2 d rest⟩

end Csspp.Vars
