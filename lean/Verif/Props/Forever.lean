import Verif.Props.Define

/-!
C61: what never ends.
-/

namespace Csspp.Vars
open Csspp.Parse (Nd)
open Csspp.Lex (Tok Pos)
open Csspp.Spec

theorem vars_or_fuel {E : Env} {n : Nd} {s : St} {r : R (Option Nd)} (h : Gives (fun f => replaceVars E f n) s r) (f : Nat) :
    replaceVars E f n s = .fuel ∨ replaceVars E f n s = r := by
  obtain ⟨a, ha⟩ := h
  rcases (leAt (E := E) (Nat.le_max_left f a)).1 n s with e | e
  · exact .inl e
  · exact .inr (e.trans (ha _ (Nat.le_max_right f a)))

theorem at_or_fuel {E : Env} {p : NT} {k : List Nd} {n : Nd} {i : Nat} {s : St} {r : R (List Nd × Nat)}
    (h : Gives (fun f => atKeyword E f p k n i) s r) (f : Nat) :
    atKeyword E f p k n i s = .fuel ∨ atKeyword E f p k n i s = r := by
  obtain ⟨a, ha⟩ := h
  rcases (leAt (E := E) (Nat.le_max_left f a)).2.2.1 p k n i s with e | e
  · exact .inl e
  · exact .inr (e.trans (ha _ (Nat.le_max_right f a)))

/-- A plain child costs some fuel, and is left as it is. -/
theorem plain_step {E : Env} {p : NT} (d : List Nd) {c : Nd} (l : List Nd) (hc : Plain c) (s : St) (f : Nat) :
    loop E (f + 1) p (d ++ c :: l) d.length s = .fuel ∨
    loop E (f + 1) p (d ++ c :: l) d.length s = loop E f p (d ++ c :: l) (d.length + 1) s := by
  have h1 := C53_plain E c hc s
  have e1 : (d ++ c :: l)[d.length]? = some c := by simp
  have e2 : (d ++ c :: l).set d.length c = d ++ c :: l := by simp
  cases hc with
  | mk t kids v1 v2 v3 v4 v5 v6 =>
  have v1' : (Nd.mk t kids).ty ≠ .VARIABLE := v1
  have v2' : (Nd.mk t kids).ty ≠ .VARIABLE_FUNCTION := v2
  by_cases hrec : recurses (Nd.mk t kids).ty = true
  · conv => arg 1; lhs; rw [loop, e1]
    conv => arg 2; lhs; rw [loop, e1]
    dsimp only
    rw [if_neg v1', if_neg v2', if_pos hrec, bind_apply]
    rcases vars_or_fuel h1 f with e | e
    · rw [e]; exact .inl rfl
    · rw [e]; dsimp only; rw [e2]; exact .inr rfl
  · by_cases hat : (Nd.mk t kids).ty = .AT_KEYWORD
    · have v3 := v3 hat
      have hn : ∀ s, s ∈ Spec.directives → (Nd.mk t kids).tok.str ≠ s := fun s hs e => v3 (e ▸ hs)
      have hm : isMessage t.str = false := by
        unfold isMessage
        rw [decide_eq_false_iff_not]
        rintro (h | h | h | h | h)
        · exact hn b!"error" (by decide) h
        · exact hn b!"warning" (by decide) h
        · exact hn b!"message" (by decide) h
        · exact hn b!"info" (by decide) h
        · exact hn b!"debug" (by decide) h
      have hg : Gives (fun f => atKeyword E f p (d ++ .mk t kids :: l) (.mk t kids) d.length) s (.ok (d ++ .mk t kids :: l, d.length + 1) s) := by
        obtain ⟨a, ha⟩ := h1
        refine ⟨a + 1, fun g hg => ?_⟩
        obtain ⟨g, rfl⟩ : ∃ k, g = k + 1 := ⟨g - 1, by omega⟩
        have e4 := ha g (by omega)
        dsimp only at e4 ⊢
        rw [atKeyword, if_neg (hn b!"mixin" (by decide)), bind_apply, e4]
        dsimp only [Option.getD]
        rw [if_neg (hn b!"import" (by decide)), if_neg (hn b!"if" (by decide)),
          if_neg (hn b!"else" (by decide)), if_neg (hn b!"include" (by decide)),
          if_neg (by show ¬ isMessage t.str = true; rw [hm]; simp), e2]
        rfl
      conv => arg 1; lhs; rw [loop, e1]
      conv => arg 2; lhs; rw [loop, e1]
      dsimp only
      rw [if_neg v1', if_neg v2', if_neg hrec, if_pos hat, bind_apply]
      rcases at_or_fuel hg f with e | e
      · rw [e]; exact .inl rfl
      · rw [e]; exact .inr rfl
    · conv => arg 2; lhs; rw [loop, e1]
      dsimp only
      rw [if_neg v1', if_neg v2', if_neg hrec, if_neg hat]
      exact .inr rfl

theorem plains_step {E : Env} {p : NT} (m : List Nd) (hm : ∀ c ∈ m, Plain c) (s : St) : ∀ (f : Nat) (d l : List Nd),
    loop E f p (d ++ (m ++ l)) d.length s = .fuel ∨
    ∃ g, g ≤ f ∧ loop E f p (d ++ (m ++ l)) d.length s = loop E g p (d ++ (m ++ l)) (d.length + m.length) s := by
  induction m with
  | nil => intro f d l; exact .inr ⟨f, Nat.le_refl _, rfl⟩
  | cons c m ih =>
    intro f d l
    cases f with
    | zero => left; rw [loop]; rfl
    | succ f =>
      rcases plain_step (E := E) (p := p) d (m ++ l) (hm c (by simp)) s f with e | e
      · exact .inl e
      · have := ih (fun c hc => hm c (by simp [hc])) f (d ++ [c]) l
        simp only [List.append_assoc, List.singleton_append, List.length_append, List.length_singleton] at this
        rw [List.cons_append, e]
        rcases this with h | ⟨g, hg, h⟩
        · exact .inl h
        · refine .inr ⟨g, by omega, ?_⟩
          rw [h, show d.length + (c :: m).length = d.length + 1 + m.length by simp; omega]

/-- A directive that is replaced by plain nodes and itself. -/
def Again (E : Env) (p : NT) (c : Nd) (s : St) : Prop :=
  ∀ d rest, ∃ pre post, (∀ x ∈ pre, Plain x) ∧
    Gives (fun f => atKeyword E f p (d ++ c :: rest) c d.length) s (.ok (d ++ (pre ++ c :: post), d.length) s)

theorem again_fuel {E : Env} {p : NT} {c : Nd} {s : St} (hc : c.ty = .AT_KEYWORD) (h : Again E p c s) :
    ∀ (f : Nat) (d rest : List Nd), loop E f p (d ++ c :: rest) d.length s = .fuel := by
  intro f
  induction f using Nat.strongRecOn with
  | ind f ih =>
  intro d rest
  cases f with
  | zero => rw [loop]; rfl
  | succ f =>
    obtain ⟨pre, post, hp, hg⟩ := h d rest
    have e1 : (d ++ c :: rest)[d.length]? = some c := by simp
    rw [loop, e1]
    dsimp only
    rw [if_neg (by rw [hc]; simp), if_neg (by rw [hc]; simp), if_neg (by rw [hc]; simp [recurses]), if_pos hc, bind_apply]
    rcases at_or_fuel hg f with e | e
    · rw [e]
    · rw [e]
      dsimp only
      rcases plains_step (E := E) (p := p) pre hp s f d (c :: post) with h | ⟨g, hg, h⟩
      · exact h
      · rw [h]
        have := ih g (by omega) (d ++ pre) post
        rw [List.append_assoc, List.length_append] at this
        exact this

theorem again_vars {E : Env} {t : Tok} {c : Nd} {pre post : List Nd} {s : St} (hw : walks t.ty = true) (hsc : isScope (.mk t (pre ++ c :: post)) = false)
    (hv : isVarSet (.mk t (pre ++ c :: post)) = false) (hp : ∀ x ∈ pre, Plain x) (hc : c.ty = .AT_KEYWORD) (h : Again E t.ty c s) (f : Nat) :
    replaceVars E f (.mk t (pre ++ c :: post)) s = .fuel := by
  cases f with
  | zero => rw [replaceVars]; rfl
  | succ f =>
    have ht : (Nd.mk t (pre ++ c :: post)).ty = t.ty := rfl
    have hcom : t.ty ≠ .COMMENT := by intro e; rw [e] at hw; cases hw
    have hi : firstIdx (.mk t (pre ++ c :: post)) = 0 := by unfold firstIdx; rw [hv]; rfl
    rw [replaceVars, ht, if_neg hcom, if_neg (by rw [hw]; simp), if_neg (by rintro ⟨_, h⟩; simp [Parse.Nd.kids] at h), hsc, hv, hi]
    have key : loop E f t.ty (pre ++ c :: post) 0 s = .fuel := by
      rcases plains_step (E := E) (p := t.ty) pre hp s f [] (c :: post) with h | ⟨g, hg, h'⟩
      · exact h
      · rw [List.nil_append, List.length_nil] at h'
        rw [h', Nat.zero_add]
        exact again_fuel hc h g pre post
    simp only [bind_apply, enter]
    rw [show (Nd.mk t (pre ++ c :: post)).kids = pre ++ c :: post from rfl]
    simp only [Bool.false_eq_true, if_false, key]

/-- C61: a mixin that includes itself, among other nodes, never ends: with any number of steps the pass is not
done. -/
theorem C61_mixin {E : Env} {p : NT} {t : Tok} (ht : t.ty = .AT_KEYWORD) (hs : t.str = b!"include") {id : Nd} {more : List Nd}
    (hid : id.ty = .IDENTIFIER) (hk : ∀ c ∈ id :: more, Plain c) {pre post : List Nd} {bt : Tok} (hb : bt.ty = .OPEN_CURLYBRACKET)
    (hp : ∀ x ∈ pre, Plain x) (hall : ∀ x ∈ pre ++ post, x.ty ≠ .EOF_TOKEN ∧ x.ty ≠ .WHITESPACE)
    {s : St} {v : Var} (hv : s.get id.tok.str = some v) (hf : v.name.ty ≠ .FUNCTION ∧ v.name.ty ≠ .VARIABLE_FUNCTION)
    (hval : v.value = .mk bt (pre ++ .mk t (id :: more) :: post)) (f : Nat) (d rest : List Nd) :
    loop E f p (d ++ .mk t (id :: more) :: rest) d.length s = .fuel := by
  refine again_fuel (c := .mk t (id :: more)) ht (fun d rest => ⟨pre, post ++ rest, hp, ?_⟩) f d rest
  have hsp : spliced p v.value = pre ++ .mk t (id :: more) :: post := by
    rw [hval]
    unfold spliced
    rw [if_pos (.inr hb)]
    dsimp only [Parse.Nd.kids]
    cases pre with
    | nil =>
      cases post with
      | nil =>
        dsimp only [List.nil_append]
        rw [if_neg]
        rintro ⟨h, _⟩
        have h : t.ty = .COMPONENT_VALUE := h
        rw [ht] at h; cases h
      | cons x l => rfl
    | cons y l =>
      cases l <;> rfl
  have hv' : id.ty ≠ .VARIABLE := by rw [hid]; simp
  obtain ⟨a, ha⟩ := gives_keyword (E := E) ht hk s
  have hrep : ∀ g, replaceVariable E (g + 1) p (d ++ rest) id d.length s = .ok (d ++ ((pre ++ .mk t (id :: more) :: post) ++ rest)) s := by
    intro g
    have e1 : isFunction v.name = false := by unfold isFunction; simp [hf]
    have e2 : isFunction id = false := by unfold isFunction; rw [hid]; rfl
    rw [replaceVariable, bind_apply]
    show (match s.get id.tok.str with | none => _ | some v => _ : M _) s = _
    rw [hv]
    dsimp only
    rw [e1, e2, if_neg (by simp), if_neg (by simp), insertValue_eq, hsp, insertAll_mid]
    · rfl
    · intro x hx
      rcases List.mem_append.1 hx with h | h
      · exact hall x (List.mem_append.2 (.inl h))
      · rcases List.mem_cons.1 h with rfl | h
        · exact ⟨by show t.ty ≠ _; rw [ht]; simp, by show t.ty ≠ _; rw [ht]; simp⟩
        · exact hall x (List.mem_append.2 (.inr h))
  refine ⟨a + 2, fun g hg => ?_⟩
  obtain ⟨g, rfl⟩ : ∃ k, g = k + 2 := ⟨g - 2, by omega⟩
  have q1 := ha (g + 1) (by omega)
  dsimp only at q1 ⊢
  have hstr : (Nd.mk t (id :: more)).tok.str = b!"include" := hs
  rw [atKeyword, if_neg (by rw [hstr]; decide), bind_apply, q1]
  dsimp only [Option.getD]
  rw [if_neg (by rw [hstr]; decide), if_neg (by rw [hstr]; decide), if_neg (by rw [hstr]; decide), if_pos hstr]
  dsimp only [Parse.Nd.kids]
  rw [if_neg (by rintro ⟨h1, h2⟩; exact h1 hid), to_variable.erase_mid, bind_apply, hrep]
  rw [List.append_assoc]
  rfl

/-- C61: a file that imports itself, among other nodes, never ends. -/
theorem C61_import {E : Env} {p : NT} {t : Tok} (ht : t.ty = .AT_KEYWORD) (hs : t.str = b!"import") {kids : List Nd}
    (hk : ∀ c ∈ kids, Plain c) {s : St} {e : Nd} (hne : kids.head?.map Nd.ty ≠ some .OPEN_CURLYBRACKET) (h0 : kids ≠ [])
    (hexpr : E.expr s kids = some ⟨kids, some e, s⟩) (hty : e.ty = .STRING ∨ e.ty = .URL)
    {pre post : List Nd} (hfile : E.file e = .loaded (pre ++ .mk t kids :: post)) (hp : ∀ x ∈ pre, Plain x)
    (hall : ∀ x ∈ pre ++ post, x.ty ≠ .EOF_TOKEN ∧ x.ty ≠ .WHITESPACE) (f : Nat) (d rest : List Nd) :
    loop E f p (d ++ .mk t kids :: rest) d.length s = .fuel := by
  refine again_fuel (c := .mk t kids) ht (fun d rest => ⟨pre, post ++ rest, hp, ?_⟩) f d rest
  obtain ⟨a, ha⟩ := gives_keyword (E := E) ht hk s
  refine ⟨a + 1, fun g hg => ?_⟩
  obtain ⟨g, rfl⟩ : ∃ k, g = k + 1 := ⟨g - 1, by omega⟩
  have q1 := ha g (by omega)
  dsimp only at q1 ⊢
  have hstr : (Nd.mk t kids).tok.str = b!"import" := hs
  have hat : atExpr E kids s = .ok (kids, some e) s := by
    unfold atExpr
    cases kids with
    | nil => exact absurd rfl h0
    | cons c cs =>
      dsimp only
      rw [if_neg (fun h => hne (by show some c.ty = _; rw [h])), hexpr]
  rw [atKeyword, if_neg (by rw [hstr]; decide), bind_apply, q1]
  dsimp only [Option.getD]
  rw [if_pos hstr, show (Nd.mk t kids).kids = kids from rfl, bind_apply, hat]
  dsimp only
  rw [if_pos hty, hfile]
  dsimp only
  rw [show (d ++ Nd.mk t kids :: rest).set d.length (.mk (Nd.mk t kids).tok kids) = d ++ .mk t kids :: rest by simp [Parse.Nd.tok],
    to_variable.erase_mid, insertAll_mid]
  · rw [List.append_assoc]; rfl
  · intro x hx
    rcases List.mem_append.1 hx with h | h
    · exact hall x (List.mem_append.2 (.inl h))
    · rcases List.mem_cons.1 h with rfl | h
      · exact ⟨by show t.ty ≠ _; rw [ht]; simp, by show t.ty ≠ _; rw [ht]; simp⟩
      · exact hall x (List.mem_append.2 (.inr h))

/-- C61, a whole style sheet: `@mixin foo { @include foo; } @include foo;` -/
def exForever : Nd :=
  let inc : Nd := .mk { ty := .AT_KEYWORD, pos := exPos, str := b!"include" } [exLeaf .IDENTIFIER b!"foo"]
  exNode .LIST [.mk { ty := .AT_KEYWORD, pos := exPos, str := b!"mixin" } [exLeaf .IDENTIFIER b!"foo", exNode .OPEN_CURLYBRACKET [inc]], inc]

theorem C61_example (E : Env) (f : Nat) : replaceRoot E f exForever {} = .fuel := by
  have hplain : ∀ c ∈ [exLeaf .IDENTIFIER b!"foo"], Plain c := by
    intro c hc
    rw [List.mem_singleton.1 hc]
    exact .mk _ _ (by simp) (by simp) (by simp) (by simp) (by simp) (by simp)
  unfold replaceRoot
  rw [bind_apply]
  have key : replaceVars E f exForever {} = .fuel := by
    match f with
    | 0 => rw [replaceVars]; rfl
    | 1 => rfl
    | 2 => rfl
    | f + 3 =>
      show (loop E (f + 2) .LIST exForever.kids 0 >>= fun k => pure (some (Nd.mk exForever.tok k)) : M (Option Nd)) {} = _
      have : loop E (f + 2) .LIST exForever.kids 0 {} = .fuel := by
        have h1 : exForever.kids[0]? = some (.mk { ty := .AT_KEYWORD, pos := exPos, str := b!"mixin" } [exLeaf .IDENTIFIER b!"foo",
            exNode .OPEN_CURLYBRACKET [.mk { ty := .AT_KEYWORD, pos := exPos, str := b!"include" } [exLeaf .IDENTIFIER b!"foo"]]]) := rfl
        rw [loop, h1]
        dsimp only
        rw [if_neg (by show ¬ NT.AT_KEYWORD = _; decide), if_neg (by show ¬ NT.AT_KEYWORD = _; decide),
          if_neg (by show ¬ recurses NT.AT_KEYWORD = _; decide), if_pos (by rfl), bind_apply, atKeyword, if_pos (by rfl)]
        exact C61_mixin (t := { ty := .AT_KEYWORD, pos := exPos, str := b!"include" }) rfl rfl (id := exLeaf .IDENTIFIER b!"foo") (more := [])
          rfl hplain (pre := []) (post := []) (bt := { ty := .OPEN_CURLYBRACKET, pos := exPos }) rfl (by simp) (by simp)
          (v := ⟨exLeaf .IDENTIFIER b!"foo", exNode .OPEN_CURLYBRACKET [.mk { ty := .AT_KEYWORD, pos := exPos, str := b!"include" } [exLeaf .IDENTIFIER b!"foo"]]⟩)
          rfl (by decide) rfl (f + 1) [] []
      rw [bind_apply, this]
  rw [key]

/-- A file which imports itself meets the hypotheses of C61_import. -/
def selfImport : Nd := .mk { ty := .AT_KEYWORD, pos := exPos, str := b!"import" } [exLeaf .STRING b!"a.scss"]
def selfEnv : Env where
  expr := fun s k => match k with
    | c :: _ => some ⟨k, some c, s⟩
    | [] => none
  truth := fun _ => (false, false)
  file := fun n => if n.tok.str = b!"a.scss" then .loaded [selfImport] else .failed
  toString := fun n => n.tok.str

example (f : Nat) (rest : List Nd) : loop selfEnv f .LIST (selfImport :: rest) 0 {} = .fuel :=
  C61_import (t := { ty := .AT_KEYWORD, pos := exPos, str := b!"import" }) rfl rfl (kids := [exLeaf .STRING b!"a.scss"])
    (by intro c hc; rw [List.mem_singleton.1 hc]; exact .mk _ _ (by simp) (by simp) (by simp) (by simp) (by simp) (by simp))
    (e := exLeaf .STRING b!"a.scss") (by decide) (by simp) rfl (.inl rfl) (pre := []) (post := []) rfl (by simp) (by simp) f [] rest

end Csspp.Vars
