import Verif.Lemmas.ValidExpr
import Verif.Props.If
import Verif.Props.Scopes
import Verif.Props.Call
import Verif.Props.CompileMessage

/-!
A validation script, pass by pass.
-/

namespace Csspp.Vars
open Csspp.Parse (Nd)
open Csspp.Lex (Tok Pos)
open Csspp.Spec

/-- A node that is not a block and sets no variable: its children. -/
theorem gives_inside {E : Env} {t : Tok} {kids kids' : List Nd} {s s' : St}
    (ht : t.ty = .AT_KEYWORD ∨ t.ty = .LIST ∧ kids ≠ [] ∨ t.ty = .COMPONENT_VALUE ∧ isSet kids = false)
    (h : Gives (fun f => loop E f t.ty kids 0) s (.ok kids' s')) :
    Gives (fun f => replaceVars E f (.mk t kids)) s (.ok (some (.mk t kids')) s') := by
  refine gives_succ (gives_bind (f := fun _ k => pure (some (.mk t k))) h (gives_pure _ s')) (fun g => ?_)
  have ht' : (Nd.mk t kids).ty = t.ty := rfl
  have e1 : isScope (.mk t kids) = false := by
    unfold isScope
    rw [ht']
    rcases ht with h | h | h
    · rw [h]; rfl
    · rw [h.1]; rfl
    · rw [h.1]; rfl
  have e2 : isVarSet (.mk t kids) = false := by
    unfold isVarSet
    rw [ht']
    rcases ht with h | h | h
    · rw [h]; rfl
    · rw [h.1]; rfl
    · show (_ && isSet kids) = false
      rw [h.2, Bool.and_false]
  have e3 : firstIdx (.mk t kids) = 0 := by unfold firstIdx; rw [e2]; rfl
  conv => lhs; rw [replaceVars]
  rw [ht', if_neg, if_neg, if_neg, e1, e2, e3]
  · simp only [bind_apply, enter, leave]
    rfl
  · rcases ht with h | h | h
    · rw [h]; simp
    · rintro ⟨_, h'⟩
      have : kids.isEmpty = true := h'
      rw [List.isEmpty_iff] at this
      exact h.2 this
    · rw [h.1]; simp
  · rcases ht with h | h | h
    · rw [h]; simp [walks]
    · rw [h.1]; simp [walks]
    · rw [h.1]; simp [walks]
  · rcases ht with h | h | h
    · rw [h]; simp
    · rw [h.1]; simp
    · rw [h.1]; simp

end Csspp.Vars

namespace Csspp.Valid
open Csspp.Parse (Nd)
open Csspp.Lex (Tok Pos)
open Csspp.Spec
open Csspp.Vars

/-- The type and the text of a node. -/
def key (n : Nd) : NT × Str := (n.ty, n.tok.str)
def space : NT × Str := (.WHITESPACE, [])

/-- `$var != "x" and ...` -/
def condKeys (var : Str) : Str → List Str → List (NT × Str)
  | x, [] => [(.VARIABLE, var), space, (.NOT_EQUAL, []), space, (.STRING, x)]
  | x, y :: ys => (.VARIABLE, var) :: space :: (.NOT_EQUAL, []) :: space :: (.STRING, x) :: space :: (.IDENTIFIER, b!"and") :: space ::
      condKeys var y ys

/-- `$var + "text"` -/
def textKeys (var text : Str) : List (NT × Str) := [(.VARIABLE, var), space, (.ADD, []), space, (.STRING, text)]

/-- `@if $var != "x" and ... { @error $var + "text"; }` -/
structure Check (var : Str) (x : Str) (xs : List Str) (text : Str) (lt it bt ct et : Tok) (ck ek : List Nd) : Prop where
  hlist : lt.ty = .LIST
  hat : it.ty = .AT_KEYWORD
  hif : it.str = b!"if"
  hblock : bt.ty = .OPEN_CURLYBRACKET
  hvalue : ct.ty = .COMPONENT_VALUE
  hat' : et.ty = .AT_KEYWORD
  herror : et.str = b!"error"
  hcond : ck.map key = condKeys var x xs
  htext : ek.map key = textKeys var text
  cleaf : ∀ c ∈ ck, c.kids = []
  eleaf : ∀ c ∈ ek, c.kids = []

def tree (lt it bt ct et : Tok) (ck ek : List Nd) : Nd := .mk lt [.mk it (ck ++ [.mk bt [.mk ct [.mk et ek]]])]

/-! ### The nodes of the expressions -/

/-- The types. -/
def Small (ty : NT) : Prop := ty = .WHITESPACE ∨ ty = .NOT_EQUAL ∨ ty = .ADD ∨ ty = .STRING ∨ ty = .IDENTIFIER

theorem cond_small (var : Str) : ∀ (x : Str) (xs : List Str), ∀ k ∈ condKeys var x xs, k = (.VARIABLE, var) ∨ Small k.1
  | x, [] => by
    intro k hk
    unfold condKeys space at hk
    simp only [List.mem_cons, List.not_mem_nil, or_false] at hk
    rcases hk with rfl | rfl | rfl | rfl | rfl <;> simp [Small]
  | x, y :: ys => by
    intro k hk
    unfold condKeys space at hk
    simp only [List.mem_cons] at hk
    rcases hk with rfl | rfl | rfl | rfl | rfl | rfl | rfl | rfl | hk
    · simp
    · simp [Small]
    · simp [Small]
    · simp [Small]
    · simp [Small]
    · simp [Small]
    · simp [Small]
    · simp [Small]
    · exact cond_small var y ys k hk

theorem text_small (var text : Str) : ∀ k ∈ textKeys var text, k = (.VARIABLE, var) ∨ Small k.1 := by
  intro k hk
  unfold textKeys space at hk
  simp only [List.mem_cons, List.not_mem_nil, or_false] at hk
  rcases hk with rfl | rfl | rfl | rfl | rfl <;> simp [Small]

/-- The nodes are leaves, uses of the variable or others that are left alone. -/
def Simple (var : Str) (l : List Nd) : Prop := ∀ c ∈ l, c.kids = [] ∧ ((c.ty = .VARIABLE ∧ c.tok.str = var) ∨ Small c.ty)

theorem simple_of {var : Str} {l : List Nd} {ks : List (NT × Str)} (h : l.map key = ks)
    (hk : ∀ k ∈ ks, k = (.VARIABLE, var) ∨ Small k.1) (hl : ∀ c ∈ l, c.kids = []) : Simple var l := by
  intro c hc
  refine ⟨hl c hc, ?_⟩
  have := hk (key c) (by rw [← h]; exact List.mem_map_of_mem hc)
  rcases this with h | h
  · left
    unfold key at h
    injection h with h1 h2
    exact ⟨h1, h2⟩
  · right
    exact h

/-- The value instead of the variable. -/
def put (v : Nd) (c : Nd) : Nd := if c.ty = .VARIABLE then v else c

/-- The value. -/
def named (pos : Pos) (name : Str) : Nd := .leaf { ty := .STRING, pos := pos, str := name }

theorem small_plain {c : Nd} (h1 : c.kids = []) (h2 : Small c.ty) : Plain c := by
  obtain ⟨t, k⟩ := c
  have h1 : k = [] := h1
  subst h1
  have h2 : Small t.ty := h2
  refine .mk t [] ?_ ?_ ?_ ?_ ?_ (by simp) <;> intro h <;> rw [h] at h2 <;> rcases h2 with h | h | h | h | h <;> cases h

theorem named_plain (pos : Pos) (name : Str) : Plain (named pos name) := small_plain rfl (.inr (.inr (.inr (.inl rfl))))

/-- The global variables of a script. -/
def Has (s : St) (var : Str) (pos : Pos) (name : Str) : Prop :=
  ∃ v, s.get var = some v ∧ v.name.ty = .VARIABLE ∧ v.value = named pos name

theorem to_put {E : Env} {p : NT} {var : Str} {pos : Pos} {name : Str} {s : St} (hs : Has s var pos name) :
    ∀ (l d post : List Nd), Simple var l →
      To E p (d ++ (l ++ post)) d.length s (d ++ (l.map (put (named pos name)) ++ post)) (d.length + l.length) s
  | [], d, post, _ => .refl
  | c :: l, d, post, h => by
    obtain ⟨h1, h2⟩ := h c List.mem_cons_self
    have ih := to_put hs l (d ++ [put (named pos name) c]) post (fun c hc => h c (List.mem_cons_of_mem _ hc)) (E := E) (p := p)
    have hlen : (d ++ [put (named pos name) c]).length = d.length + 1 := by simp
    rw [hlen, List.append_assoc, List.append_assoc] at ih
    have goal : To E p (d ++ (c :: l ++ post)) d.length s (d ++ ([put (named pos name) c] ++ (l ++ post))) (d.length + 1) s := by
      rcases h2 with ⟨h2, h3⟩ | h2
      · obtain ⟨v, g1, g2, g3⟩ := hs
        have hp : put (named pos name) c = named pos name := by unfold put; rw [if_pos h2]
        rw [hp]
        have hsp : spliced p v.value = [named pos name] := by rw [g3]; rfl
        have := C59_use_plain (E := E) (p := p) h2 (s := s) (v := v) (by rw [h3]; exact g1) (by rw [g2]; simp) d (l ++ post)
          (by rw [hsp]; intro c hc; simp only [List.mem_singleton] at hc; subst hc; exact ⟨by simp [named, Nd.ty, Nd.leaf, Nd.tok], by simp [named, Nd.ty, Nd.leaf, Nd.tok]⟩)
          (by rw [hsp]; intro c hc; simp only [List.mem_singleton] at hc; subst hc; exact named_plain _ _)
        rw [hsp] at this
        exact this
      · have hp : put (named pos name) c = c := by
          unfold put
          rw [if_neg]
          intro h
          rw [h] at h2
          rcases h2 with h | h | h | h | h <;> cases h
        rw [hp]
        exact to_plain d (l ++ post) (small_plain h1 h2) s
    have := goal.trans ih
    rw [show d.length + 1 + l.length = d.length + (c :: l).length from by rw [List.length_cons]; omega] at this
    exact this

/-- The token of a node, after the variable is replaced. -/
def tokOf (name : Str) (k : NT × Str) : Expr.Tok :=
  if k.1 = .VARIABLE then .lit (.str name)
  else if k.1 = .STRING then .lit (.str k.2)
  else if k.1 = .IDENTIFIER then .ident k.2
  else .sym k.1

theorem exprToks_put (pos : Pos) (name var : Str) : ∀ l : List Nd, Simple var l →
    exprToks (l.map (put (named pos name))) = some ((l.map key).map (tokOf name))
  | [], _ => rfl
  | c :: l, h => by
    have ih := exprToks_put pos name var l (fun c hc => h c (List.mem_cons_of_mem _ hc))
    obtain ⟨h1, h2⟩ := h c List.mem_cons_self
    have hc : exprTok (put (named pos name) c) = some (tokOf name (key c)) := by
      unfold put tokOf key
      rcases h2 with ⟨h2, _⟩ | h2
      · rw [if_pos h2, if_pos h2]
        rfl
      · rcases h2 with h | h | h | h | h <;> simp [h, exprTok, isSym]
    rw [List.map_cons, List.map_cons, List.map_cons]
    unfold exprToks
    rw [hc, ih]

theorem cond_toks (name var : Str) : ∀ (x : Str) (xs : List Str),
    Expr.noWs ((condKeys var x xs).map (tokOf name)) = .lit (.str name) :: .sym .NOT_EQUAL :: .lit (.str x) :: more name xs ∧
      ((condKeys var x xs).map (tokOf name)).getLast?.map Expr.Tok.isWs ≠ some true
  | x, [] => ⟨rfl, by
    rw [show ((condKeys var x []).map (tokOf name)).getLast? = some (.lit (.str x)) from rfl]
    simp [Expr.Tok.isWs]⟩
  | x, y :: ys => by
    obtain ⟨h1, h2⟩ := cond_toks name var y ys
    have e : (condKeys var x (y :: ys)).map (tokOf name) = [.lit (.str name), .sym .WHITESPACE, .sym .NOT_EQUAL, .sym .WHITESPACE,
        .lit (.str x), .sym .WHITESPACE, .ident b!"and", .sym .WHITESPACE] ++ (condKeys var y ys).map (tokOf name) := rfl
    rw [e]
    constructor
    · unfold Expr.noWs at h1 ⊢
      rw [List.filter_append, h1]
      rfl
    · have hne : (condKeys var y ys).map (tokOf name) ≠ [] := by
        cases ys <;> simp [condKeys]
      rw [List.getLast?_append, List.getLast?_eq_some_getLast hne] at *
      exact h2

theorem cond_head (name var x : Str) (xs : List Str) : ((condKeys var x xs).map (tokOf name)).head? = some (.lit (.str name)) := by
  cases xs <;> rfl

end Csspp.Valid
