import Verif.Props.If
import Verif.Props.Scopes
import Verif.Props.Import
import Verif.Props.Forever
import Verif.Lemmas.ValidRun

/-!
C92: the blocks of @if and @else are preprocessed before it is known whether they are chosen.
-/

namespace Csspp.Vars
open Csspp.Parse (Nd)
open Csspp.Lex (Tok Pos)
open Csspp.Spec

/-- A directive goes on as what is left of it once its children were looked at. -/
theorem walk_first {E : Env} {p : NT} {n n' : Nd} {s s1 : St} (ht : n.ty = .AT_KEYWORD) (ht' : n'.ty = .AT_KEYWORD)
    (hs : n.tok.str ≠ b!"mixin") (hs' : n'.tok.str ≠ b!"mixin") (h : Gives (fun f => replaceVars E f n) s (.ok (some n') s1))
    (h' : Gives (fun f => replaceVars E f n') s1 (.ok (some n') s1)) (d l : List Nd) :
    To E p (d ++ n :: l) d.length s (d ++ n' :: l) d.length s1 := by
  obtain ⟨a, ha⟩ := h
  obtain ⟨b, hb⟩ := h'
  have key : ∀ g, a + b + 1 ≤ g → atKeyword E g p (d ++ n :: l) n d.length s = atKeyword E g p (d ++ n' :: l) n' d.length s1 := by
    intro g hg
    obtain ⟨g, rfl⟩ : ∃ k, g = k + 1 := ⟨g - 1, by omega⟩
    have e1 := ha g (by omega)
    have e2 := hb g (by omega)
    dsimp only at e1 e2
    have e3 : (d ++ n :: l).eraseIdx d.length = (d ++ n' :: l).eraseIdx d.length := by rw [erase_mid, erase_mid]
    have e4 : ∀ x, (d ++ n :: l).set d.length x = (d ++ n' :: l).set d.length x := by intro x; simp
    rw [atKeyword, if_neg hs, bind_apply, e1]
    conv => rhs; rw [atKeyword, if_neg hs', bind_apply, e2]
    dsimp only [Option.getD]
    simp only [e3, e4]
  intro r hr ⟨c, hc⟩
  refine ⟨a + b + c + 2, fun g hg => ?_⟩
  obtain ⟨g, rfl⟩ : ∃ k, g = k + 1 := ⟨g - 1, by omega⟩
  have e5 := hc (g + 1) (by omega)
  dsimp only at e5 ⊢
  rw [← e5, loop, loop, show (d ++ n :: l)[d.length]? = some n by simp, show (d ++ n' :: l)[d.length]? = some n' by simp]
  dsimp only
  rw [if_neg (by rw [ht]; simp), if_neg (by rw [ht]; simp), if_neg (by rw [ht]; simp [recurses]), if_pos ht, bind_apply, key g (by omega)]
  rw [if_neg (by rw [ht']; simp), if_neg (by rw [ht']; simp), if_neg (by rw [ht']; simp [recurses]), if_pos ht', bind_apply]

/-- `@name cond {...}` when the block is looked at and becomes `b'`. -/
theorem gives_branch {E : Env} {t : Tok} (ht : t.ty = .AT_KEYWORD) {cond : List Nd} {b b' : Nd} (hc : ∀ c ∈ cond, Plain c)
    (hb : b.ty = .OPEN_CURLYBRACKET) {s s1 : St} (h : Gives (fun f => replaceVars E f b) s (.ok (some b') s1)) :
    Gives (fun f => replaceVars E f (.mk t (cond ++ [b]))) s (.ok (some (.mk t (cond ++ [b']))) s1) := by
  refine gives_inside (.inl ht) ?_
  have h1 := to_plains (E := E) (p := t.ty) [] cond [b] hc s
  have h2 := to_walked (E := E) (p := t.ty) cond (c := b) (c' := b') [] (by rw [hb]; rfl) h
  have h3 := loop_end E t.ty (cond ++ [b']) s1
  rw [List.length_append, List.length_singleton] at h3
  rw [List.nil_append, List.length_nil, Nat.zero_add] at h1
  exact h1 _ (by simp) (h2 _ (by simp) h3)

/-- The block of the branch is looked at, and becomes `block`, in the state `s1`. -/
def BlockGives (E : Env) (b : Branch) (block : Nd) (s s1 : St) : Prop :=
  b.block.ty = .OPEN_CURLYBRACKET ∧ Gives (fun f => replaceVars E f b.block) s (.ok (some block) s1) ∧
    GoodBranch E { b with block := block }

/-- C92: the block of an @if is preprocessed before the condition is known. Whatever that does (variables that are set,
messages, files that are read) is done whether the condition holds or not; the value of the condition only says whether the rest of the
block is kept. -/
theorem C92_if {E : Env} {p : NT} {b : Branch} {block : Nd} {s s1 : St} (h : BlockGives E b block s s1) (d : List Nd)
    {post : List Nd} (hp : Ends post) (hn : b.holds = true ∨ post = []) :
    To E p (d ++ b.ifNode :: post) d.length s (d ++ ((if b.holds then block.kids else []) ++ post))
      (d.length + (if b.holds then block.kids else []).length) s1 := by
  obtain ⟨h1, h2, h3⟩ := h
  have w := walk_first (E := E) (p := p) (n := b.ifNode) (n' := Branch.ifNode { b with block := block }) (s := s) (s1 := s1) rfl rfl
    (by show b!"if" ≠ _; decide) (by show b!"if" ≠ _; decide) (gives_branch rfl h3.plain h1 h2) (if_keyword h3 s1) d post
  refine w.trans ?_
  intro r hr hg
  exact C58_if h3 (l := []) trivial (by simp) hp (by rcases hn with h | h; exact .inl h; exact .inr (.inr h)) p d s1 r hr hg

/-- `@if cond {...} @else {...}` -/
theorem C92_else {E : Env} {p : NT} {b : Branch} {block : Nd} {t : Tok} {eb eb' : Nd} {s s1 s2 : St} (h : BlockGives E b block s s1)
    (he : eb.ty = .OPEN_CURLYBRACKET) (h2 : Gives (fun f => replaceVars E f eb) s1 (.ok (some eb') s2)) (h3 : GoodBlock eb') (d : List Nd)
    {post : List Nd} (hp : Ends post) :
    To E p (d ++ b.ifNode :: (Else.last t eb).node :: post) d.length s
      (d ++ ((if b.holds then block.kids else eb'.kids) ++ post))
      (d.length + (if b.holds then block.kids else eb'.kids).length) s2 := by
  obtain ⟨g1, g2, g3⟩ := h
  have w := walk_first (E := E) (p := p) (n := b.ifNode) (n' := Branch.ifNode { b with block := block }) (s := s) (s1 := s1) rfl rfl
    (by show b!"if" ≠ _; decide) (by show b!"if" ≠ _; decide) (gives_branch rfl g3.plain g1 g2) (if_keyword g3 s1) d
    ((Else.last t eb).node :: post)
  refine w.trans ?_
  -- the @if
  have hk : ∀ c ∈ block.kids, Plain c := by
    have : Plain block := g3.block.plain
    cases hbk : block with
    | mk t kids =>
      rw [hbk] at this
      cases this
      assumption
  obtain ⟨a, ha⟩ := gives_if g3 p d ((Else.last t eb).node :: post) s1
  have step : ∀ k', replaceIf E (d ++ (Else.last t eb).node :: post) (Branch.ifNode { b with block := block }) d.length s1 = .ok k' s1 →
      To E p (d ++ Branch.ifNode { b with block := block } :: (Else.last t eb).node :: post) d.length s1 k' d.length s1 := by
    intro k' e
    refine to_at (c := Branch.ifNode { b with block := block }) (by simp) rfl ⟨a, fun g hg => ?_⟩
    dsimp only
    rw [ha g hg, bind_apply, e]
    rfl
  have heq : replaceIf E (d ++ (Else.last t eb).node :: post) (Branch.ifNode { b with block := block }) d.length s1 =
      if b.holds then .ok (d ++ (block.kids ++ (restat 2 (Else.last t eb).node :: post))) s1
      else .ok (d ++ restat 1 (Else.last t eb).node :: post) s1 := by
    have := replaceIf_eq g3 d [Else.last t eb] post hp s1
    rw [show [Else.last t eb].map Else.node ++ post = (Else.last t eb).node :: post from rfl,
      show elses 2 [Else.last t eb] ++ post = restat 2 (Else.last t eb).node :: post from rfl] at this
    rw [this]
    by_cases hh : b.holds = true
    · rw [if_pos hh, if_pos hh]
    · rw [if_neg hh, if_neg hh, show decide (d.length < (d ++ restat 2 (Else.last t eb).node :: post).length) = true by simp,
        markNext_mid _ _ _ _ _ (int_node (Else.last t eb) 2), restat_restat]
  -- the @else
  have other : ∀ (v : Int) (d : List Nd), To E p (d ++ restat v (Else.last t eb).node :: post) d.length s1
      (d ++ restat v (Else.last t eb').node :: post) d.length s2 := by
    intro v d
    refine walk_first (by rfl) (by rfl) (by show b!"else" ≠ _; decide) (by show b!"else" ≠ _; decide) ?_
      (else_keyword (e := .last t eb') h3 v s2) d post
    exact gives_branch (cond := []) rfl (by simp) he h2
  rw [heq] at step
  by_cases hh : b.holds = true
  · rw [if_pos hh] at step
    rw [if_pos hh]
    have h5 := other 2 (d ++ block.kids)
    have h6 := to_done (E := E) hp p (d ++ block.kids) s2 [Else.last t eb'] trivial (by simpa [GoodElse] using h3)
    rw [show elses 2 [Else.last t eb'] ++ post = restat 2 (Else.last t eb').node :: post from rfl] at h6
    have h7 := h5.trans h6
    simp only [List.append_assoc, List.length_append] at h7
    exact (step _ rfl).trans ((to_plains d block.kids _ hk s1).trans h7)
  · rw [if_neg hh] at step
    rw [if_neg hh]
    have h6 := to_elses (E := E) hp p d s2 [Else.last t eb'] trivial (by simpa [GoodElse] using h3)
    rw [show elses 1 [Else.last t eb'] ++ post = restat 1 (Else.last t eb').node :: post from rfl,
      show chosen [Else.last t eb'] = eb'.kids from rfl] at h6
    exact (step _ rfl).trans ((other 1 d).trans h6)

/-! ### Variables -/

/-- `{ $x: value }`, without a flag. -/
structure SetBlock where
  block : Tok
  ct : Tok
  colon : Tok
  w1 : Option Tok
  w2 : Option Tok
  value : List Nd

def SetBlock.node (b : SetBlock) (var : Tok) : Nd := .mk b.block [setNode b.ct var b.colon b.w1 b.w2 b.value]
def SetBlock.var (b : SetBlock) (var : Tok) : Var := ⟨.leaf { var with ty := .VARIABLE }, assigned b.ct.pos b.value⟩

structure SetBlock.Ok (b : SetBlock) : Prop where
  ty : b.block.ty = .OPEN_CURLYBRACKET
  plain : ∀ c ∈ b.value, Plain c
  first : b.value.head?.map Nd.ty ≠ some .WHITESPACE
  long : b.w1.isSome ∨ b.w2.isSome ∨ b.value ≠ []
  notDefault : ¬ ∃ c ∈ b.value, IsFlag b!"default" c
  notGlobal : ¬ ∃ c ∈ b.value, IsFlag b!"global" c
  notLate : ¬ Late b.value

theorem empty_good {t : Tok} (h : t.ty = .OPEN_CURLYBRACKET) : GoodBlock (.mk t []) :=
  ⟨h, .mk t [] (by rw [h]; simp) (by rw [h]; simp) (by rw [h]; simp) (by rw [h]; simp) (by rw [h]; simp) (by simp), by
    intro c hc; cases hc⟩

/-- C92, the defect: `@if cond { $x: a } @else { $x: b }` in a file that was imported (see C91_scope: the blocks do not accept
variables) always sets the variable to `b`, and in the style sheet itself (the blocks accept variables) it never sets anything. -/
theorem C92_assign {E : Env} {p : NT} {b : Branch} {a e : SetBlock} {t var : Tok} (ha : a.Ok) (he : e.Ok) (hb : b.block = a.node var)
    (hg : GoodBranch E { b with block := .mk a.block [] }) (s : St) (d : List Nd) {post : List Nd} (hp : Ends post) :
    (a.block.bool = false → e.block.bool = false →
      To E p (d ++ b.ifNode :: (Else.last t (e.node var)).node :: post) d.length s (d ++ post) d.length
        ((s.put (a.var var) false).put (e.var var) false) ∧
      ((s.put (a.var var) false).put (e.var var) false).get var.str = some (e.var var)) ∧
    (a.block.bool = true → e.block.bool = true →
      To E p (d ++ b.ifNode :: (Else.last t (e.node var)).node :: post) d.length s (d ++ post) d.length s) := by
  have hty : b.block.ty = .OPEN_CURLYBRACKET := by rw [hb]; exact ha.ty
  have nil : ∀ (h : Bool) (x y : Tok), (if h then (Nd.mk x []).kids else (Nd.mk y []).kids) = [] := by intro h x y; cases h <;> rfl
  refine ⟨fun h1 h2 => ⟨?_, ?_⟩, fun h1 h2 => ?_⟩
  · have w1 := C59_other_block E a.block ha.ty h1 a.ct var a.colon a.w1 a.w2 a.value s ha.plain ha.first ha.long ha.notDefault ha.notGlobal ha.notLate
    have w2 := C59_other_block E e.block he.ty h2 e.ct var e.colon e.w1 e.w2 e.value (s.put (a.var var) false) he.plain he.first he.long
      he.notDefault he.notGlobal he.notLate
    have := C92_else (E := E) (p := p) (b := b) (t := t) (eb := e.node var) ⟨hty, by rw [hb]; exact w1, hg⟩ he.ty w2 (empty_good he.ty) d hp
    rwa [nil, List.nil_append, List.length_nil, Nat.add_zero] at this
  · rw [C59_get_local]
    exact if_pos rfl
  · have w1 := C59_block E a.block ha.ty h1 a.ct var a.colon a.w1 a.w2 a.value s ha.plain ha.first ha.long ha.notDefault ha.notGlobal ha.notLate
    have w2 := C59_block E e.block he.ty h2 e.ct var e.colon e.w1 e.w2 e.value s he.plain he.first he.long
      he.notDefault he.notGlobal he.notLate
    have := C92_else (E := E) (p := p) (b := b) (t := t) (eb := e.node var) ⟨hty, by rw [hb]; exact w1, hg⟩ he.ty w2 (empty_good he.ty) d hp
    rwa [nil, List.nil_append, List.length_nil, Nat.add_zero] at this

/-- C92, the defect: `@if cond { $x: value !global }` sets the global variable whether the condition holds or not. -/
theorem C92_global {E : Env} {p : NT} {b : Branch} {bt ct var colon : Tok} {w1 w2 : Option Tok} {vs : List Nd}
    (hb : b.block = .mk bt [setNode ct var colon w1 w2 vs]) (ht : bt.ty = .OPEN_CURLYBRACKET) (hv : ∀ c ∈ vs, Plain c)
    (hw : vs.head?.map Nd.ty ≠ some .WHITESPACE) (h3 : w1.isSome ∨ w2.isSome ∨ vs ≠ []) (hd : ¬ ∃ c ∈ vs, IsFlag b!"default" c)
    (hgl : ∃ c ∈ vs, IsFlag b!"global" c) (hl : ¬ Late vs) (hg : GoodBranch E { b with block := .mk bt [] }) (s : St) (d : List Nd)
    {post : List Nd} (hp : Ends post) (hn : b.holds = true ∨ post = []) :
    To E p (d ++ b.ifNode :: post) d.length s (d ++ post) d.length
      { s with root := putVar ⟨.leaf { var with ty := .VARIABLE }, assigned ct.pos vs⟩ s.root } := by
  have key : ∀ s : St, Gives (fun f => loop E f .OPEN_CURLYBRACKET [setNode ct var colon w1 w2 vs] 0) s
      (.ok [] { s with root := putVar ⟨.leaf { var with ty := .VARIABLE }, assigned ct.pos vs⟩ s.root }) := by
    intro s
    obtain ⟨s1, ⟨e1, e2, -, e4⟩, -, h⟩ := C59_set E ct var colon w1 w2 vs s hv hw h3
    have hs : s1 = s := by
      obtain ⟨a, b, c⟩ := s1
      obtain ⟨a', b', c'⟩ := s
      have e4' : c = c' := e4 hl
      have e1' : a = a' := e1
      have e2' : b = b' := e2
      rw [e1', e2', e4']
    subst hs
    have h := h (fun e => hd e.1) true ⟨(fun _ => hgl), fun _ => rfl⟩
    exact to_gone (E := E) (p := .OPEN_CURLYBRACKET) [] (c := setNode ct var colon w1 w2 vs) [] (by rfl) h _ (by simp)
      (loop_end E _ [] _)
  have walk : Gives (fun f => replaceVars E f b.block) s (.ok (some (.mk bt []))
      { s with root := putVar ⟨.leaf { var with ty := .VARIABLE }, assigned ct.pos vs⟩ s.root }) := by
    rw [hb]
    have := gives_block (E := E) (s := s) ht (key _)
    revert this
    cases bt.bool <;> exact fun h => h
  have := C92_if (E := E) (p := p) (b := b) ⟨by rw [hb]; exact ht, walk, hg⟩ d hp hn
  have nil : (if b.holds then (Nd.mk bt []).kids else []) = [] := by cases b.holds <;> rfl
  rwa [nil, List.nil_append, List.length_nil, Nat.add_zero] at this

/-- C92, the defect: a file imported in an @if that is false is read; when it has errors there is a message. -/
theorem C92_import {E : Env} {p : NT} {b : Branch} {bt ct it : Tok} {kids : List Nd}
    (hb : b.block = .mk bt [.mk ct [.mk it kids]]) (ht : bt.ty = .OPEN_CURLYBRACKET) (hc : ct.ty = .COMPONENT_VALUE)
    (hi : it.ty = .AT_KEYWORD) (hs : it.str = b!"import") (hk : ∀ c ∈ kids, Plain c)
    (hne : kids.head?.map Nd.ty ≠ some .OPEN_CURLYBRACKET) (h0 : kids ≠ []) {e : Nd}
    (hexpr : ∀ s, ∃ k, E.expr s kids = some ⟨k, some e, s⟩) (hty : e.ty = .STRING ∨ e.ty = .URL) (hfile : E.file e = .failed)
    (hg : GoodBranch E { b with block := .mk bt [.mk ct []] }) (hh : b.holds = false) (s : St) (d : List Nd) :
    To E p (d ++ [b.ifNode]) d.length s d d.length { s with errs := (.importErrors, it.pos) :: s.errs } := by
  have inner : ∀ s : St, Gives (fun f => replaceVars E f (.mk ct [.mk it kids])) s
      (.ok (some (.mk ct [])) { s with errs := (.importErrors, it.pos) :: s.errs }) := by
    intro s
    refine gives_inside (.inr (.inr ⟨hc, rfl⟩)) ?_
    obtain ⟨k, hx⟩ := hexpr s
    exact C62_import_failed (E := E) (p := ct.ty) hi hk hne h0 hx [] [] hs rfl hty hfile _ (by simp) (loop_end E ct.ty [] _)
  have key : ∀ s : St, Gives (fun f => loop E f .OPEN_CURLYBRACKET [.mk ct [.mk it kids]] 0) s
      (.ok [.mk ct []] { s with errs := (.importErrors, it.pos) :: s.errs }) := fun s =>
    to_walked (E := E) (p := .OPEN_CURLYBRACKET) [] (c := .mk ct [.mk it kids]) [] (by show recurses ct.ty = true; rw [hc]; rfl) (inner s) _ (by simp)
      (loop_end E _ [_] _)
  have walk : Gives (fun f => replaceVars E f b.block) s (.ok (some (.mk bt [.mk ct []])) { s with errs := (.importErrors, it.pos) :: s.errs }) := by
    rw [hb]
    have := gives_block (E := E) (s := s) ht (key _)
    revert this
    cases bt.bool <;> exact fun h => h
  have := C92_if (E := E) (p := p) (b := b) ⟨by rw [hb]; exact ht, walk, hg⟩ d (post := []) (by intro n hn; cases hn) (.inr rfl)
  rwa [hh, if_neg (by simp), List.nil_append, List.append_nil, List.length_nil, Nat.add_zero] at this

/-! ### Recursion -/

/-- The node is the first thing for the preprocessor in the tree: it is there, with only plain nodes before it. -/
inductive Reaches (inc : Nd) : Nd → Prop where
  | here : Reaches inc inc
  | inside {t : Tok} {pre post : List Nd} {c : Nd} : (recurses t.ty = true ∨ t.ty = .AT_KEYWORD ∧ t.str ≠ b!"mixin") → t.ty ≠ .COMMENT →
      isSet (pre ++ c :: post) = false → (∀ x ∈ pre, Plain x) → Reaches inc c → Reaches inc (.mk t (pre ++ c :: post))

theorem get_enter (s : St) (name : Str) : St.get { s with scopes := [] :: s.scopes } name = s.get name := rfl

/-- C92, the defect: a recursive mixin never ends, even when its @include is in the block of an @if whose condition does not hold: the
@include is reached before the condition. -/
theorem C92_forever {E : Env} {t : Tok} (ht : t.ty = .AT_KEYWORD) (hs : t.str = b!"include") {id : Nd} {more : List Nd}
    (hid : id.ty = .IDENTIFIER) (hk : ∀ c ∈ id :: more, Plain c) {v : Var} (hf : v.name.ty ≠ .FUNCTION ∧ v.name.ty ≠ .VARIABLE_FUNCTION)
    (hval : ∀ p, ∃ pre c post, spliced p v.value = pre ++ c :: post ∧ (∀ x ∈ pre, Plain x) ∧ Reaches (.mk t (id :: more)) c ∧
      ∀ x ∈ spliced p v.value, x.ty ≠ .EOF_TOKEN ∧ x.ty ≠ .WHITESPACE) :
    ∀ (f : Nat) (p : NT) (c : Nd) (d rest : List Nd) (s : St), Reaches (.mk t (id :: more)) c → s.get id.tok.str = some v →
      loop E f p (d ++ c :: rest) d.length s = .fuel := by
  intro f
  induction f using Nat.strongRecOn with
  | ind f ih =>
  intro p c d rest s hc hv
  cases f with
  | zero => rw [loop]; rfl
  | succ f =>
  have go : ∀ g ≤ f, ∀ (p : NT) (pre : List Nd) (c : Nd) (post : List Nd) (d : List Nd) (s : St), (∀ x ∈ pre, Plain x) →
      Reaches (.mk t (id :: more)) c → s.get id.tok.str = some v → loop E g p (d ++ (pre ++ c :: post)) d.length s = .fuel := by
    intro g hg p pre c post d s hp hc hv
    rcases plains_step (E := E) (p := p) pre hp s g d (c :: post) with h | ⟨g', hg', h⟩
    · exact h
    · rw [h]
      have := ih g' (by omega) p c (d ++ pre) post s hc hv
      rwa [List.append_assoc, List.length_append] at this
  have e1 : (d ++ c :: rest)[d.length]? = some c := by simp
  rw [loop, e1]
  dsimp only
  cases hc with
  | here =>
    have hc : (Nd.mk t (id :: more)).ty = .AT_KEYWORD := ht
    rw [if_neg (by rw [hc]; simp), if_neg (by rw [hc]; simp), if_neg (by rw [hc]; simp [recurses]), if_pos hc, bind_apply]
    obtain ⟨pre, c', post, h1, h2, h3, h4⟩ := hval p
    have hrep : ∀ g, replaceVariable E (g + 1) p (d ++ rest) id d.length s = .ok (d ++ (spliced p v.value ++ rest)) s := by
      intro g
      have e1 : isFunction v.name = false := by unfold isFunction; simp [hf]
      have e2 : isFunction id = false := by unfold isFunction; rw [hid]; rfl
      rw [replaceVariable, bind_apply]
      show (match s.get id.tok.str with | none => _ | some v => _ : M _) s = _
      rw [hv]
      dsimp only
      rw [e1, e2, if_neg (by simp), if_neg (by simp), insertValue_eq, insertAll_mid _ _ _ h4]
      rfl
    have hg : Gives (fun f => atKeyword E f p (d ++ .mk t (id :: more) :: rest) (.mk t (id :: more)) d.length) s
        (.ok (d ++ (spliced p v.value ++ rest), d.length) s) := by
      obtain ⟨a, ha⟩ := gives_keyword (E := E) ht hk s
      refine ⟨a + 2, fun g hg => ?_⟩
      obtain ⟨g, rfl⟩ : ∃ k, g = k + 2 := ⟨g - 2, by omega⟩
      have q1 := ha (g + 1) (by omega)
      dsimp only at q1 ⊢
      have hstr : (Nd.mk t (id :: more)).tok.str = b!"include" := hs
      rw [atKeyword, if_neg (by rw [hstr]; decide), bind_apply, q1]
      dsimp only [Option.getD]
      rw [if_neg (by rw [hstr]; decide), if_neg (by rw [hstr]; decide), if_neg (by rw [hstr]; decide), if_pos hstr]
      dsimp only [Parse.Nd.kids]
      rw [if_neg (by rintro ⟨h1, h2⟩; exact h1 hid), to_variable.erase_mid, bind_apply, hrep]
      rfl
    rcases at_or_fuel hg f with e | e
    · rw [e]
    · rw [e]
      dsimp only
      rw [h1, List.append_assoc]
      exact go f (Nat.le_refl _) p pre c' (post ++ rest) d s h2 h3 hv
  | inside hty hcom hset hp hc =>
    rename_i t' pre post c
    have ht' : (Nd.mk t' (pre ++ c :: post)).ty = t'.ty := rfl
    -- the node is looked at
    have key : replaceVars E f (.mk t' (pre ++ c :: post)) s = .fuel := by
      cases f with
      | zero => rw [replaceVars]; rfl
      | succ f =>
        have hw : walks t'.ty = true := by
          rcases hty with h | h
          · revert h hcom; cases t'.ty <;> simp [recurses, walks]
          · rw [h.1]; rfl
        have hvs : isVarSet (.mk t' (pre ++ c :: post)) = false := by
          unfold isVarSet
          rw [show (Nd.mk t' (pre ++ c :: post)).kids = pre ++ c :: post from rfl, hset, Bool.and_false]
        have hi : firstIdx (.mk t' (pre ++ c :: post)) = 0 := by unfold firstIdx; rw [hvs]; rfl
        rw [replaceVars, ht', if_neg hcom, if_neg (by rw [hw]; simp), if_neg (by rintro ⟨_, h⟩; simp [Parse.Nd.kids] at h), hvs, hi, bind_apply]
        unfold enter
        dsimp only
        rw [bind_apply, show (Nd.mk t' (pre ++ c :: post)).kids = [] ++ (pre ++ c :: post) from rfl]
        have : ∀ s : St, s.get id.tok.str = some v → loop E f t'.ty ([] ++ (pre ++ c :: post)) 0 s = .fuel := fun s hv =>
          go f (by omega) t'.ty pre c post [] s hp hc hv
        rw [this _ (by split; exact hv; exact hv)]
    rcases hty with h | ⟨h, hm⟩
    · have hne : t'.ty ≠ .VARIABLE ∧ t'.ty ≠ .VARIABLE_FUNCTION := by
        constructor <;> intro e <;> rw [e] at h <;> cases h
      rw [ht', if_neg hne.1, if_neg hne.2, if_pos h, bind_apply, key]
    · rw [ht', if_neg (by rw [h]; simp), if_neg (by rw [h]; simp), if_neg (by rw [h]; simp [recurses]), if_pos h, bind_apply]
      cases f with
      | zero => rw [atKeyword]; rfl
      | succ f =>
        rw [atKeyword, if_neg (show ¬ (Nd.mk t' (pre ++ c :: post)).tok.str = b!"mixin" from hm), bind_apply]
        have : replaceVars E f (.mk t' (pre ++ c :: post)) s = .fuel := by
          rcases (leAt (E := E) (Nat.le_succ f)).1 (.mk t' (pre ++ c :: post)) s with e | e
          · exact e
          · rw [e]; exact key
        rw [this]

/-! ### Examples -/

def exIfEnv : Env := { exEnv with expr := fun s k => some ⟨k, k.head?, s⟩, truth := fun n => (n.tok.bool, false), file := fun _ => .failed }

/-- `@if true` or `@if false` -/
def exIf (holds : Bool) (block : Nd) : Branch :=
  ⟨{ ty := .AT_KEYWORD, pos := exPos }, [.leaf { ty := .BOOLEAN, pos := exPos, bool := holds }], holds, block⟩

theorem exIf_good (holds : Bool) {block : Nd} (h : GoodBlock block) : GoodBranch exIfEnv (exIf holds block) where
  block := h
  plain := by
    intro c hc
    rw [show c = .leaf { ty := .BOOLEAN, pos := exPos, bool := holds } by simpa [exIf] using hc]
    exact .mk _ _ (by simp) (by simp) (by simp) (by simp) (by simp) (by simp)
  cond := by
    intro c hc
    rw [show c = .leaf { ty := .BOOLEAN, pos := exPos, bool := holds } by simpa [exIf] using hc.symm]
    simp [Nd.leaf, Nd.ty, Nd.tok]
  some := by simp [exIf]
  value := fun s => ⟨_, _, rfl, rfl⟩

def exSetTo (accepts : Bool) (s : Str) : SetBlock :=
  ⟨exBlockTok accepts, { ty := .COMPONENT_VALUE, pos := exPos }, { ty := .COLON, pos := exPos }, none, none, [exLeaf .IDENTIFIER s]⟩

theorem exSetTo_ok (accepts : Bool) (s : Str) : (exSetTo accepts s).Ok where
  ty := rfl
  plain := by
    intro c hc
    rw [show c = exLeaf .IDENTIFIER s by simpa [exSetTo] using hc]
    exact .mk _ _ (by simp) (by simp) (by simp) (by simp) (by simp) (by simp)
  first := by simp [exSetTo, exLeaf, Nd.leaf, Nd.ty, Nd.tok]
  long := .inr (.inr (by simp [exSetTo]))
  notDefault := by simp [exSetTo, IsFlag, exLeaf, Nd.leaf, Nd.ty, Nd.tok]
  notGlobal := by simp [exSetTo, IsFlag, exLeaf, Nd.leaf, Nd.ty, Nd.tok]
  notLate := by
    rintro ⟨a, f, b, c, h1, h2, h3, _⟩
    cases a with
    | nil =>
      have : b = [] := by
        have := (List.cons.inj h1).2
        exact this.symm
      rw [this] at h3; cases h3
    | cons x a =>
      have := (List.cons.inj h1).2
      cases a <;> cases this

/-- `@if true { $x: one } @else { $x: two }` in a file: `$x` is `two`. -/
example : let x : Tok := { ty := .VARIABLE, pos := exPos, str := b!"x" }
    (((({} : St).put ((exSetTo false b!"one").var x) false).put ((exSetTo false b!"two").var x) false).get b!"x").map (·.value.tok.str) = some b!"two" ∧
    To exIfEnv .LIST [(exIf true ((exSetTo false b!"one").node x)).ifNode, (Else.last { ty := .AT_KEYWORD, pos := exPos } ((exSetTo false b!"two").node x)).node]
      0 {} [] 0 ((({} : St).put ((exSetTo false b!"one").var x) false).put ((exSetTo false b!"two").var x) false) :=
  ⟨by decide, ((C92_assign (exSetTo_ok false b!"one") (exSetTo_ok false b!"two") rfl (exIf_good true (empty_good rfl)) {} []
    (post := []) (by intro n hn; cases hn)).1 rfl rfl).1⟩

/-- `@mixin foo { @if false { @include foo; } }` then `@include foo;` -/
def exInclude : Nd := .mk { ty := .AT_KEYWORD, pos := exPos, str := b!"include" } [exLeaf .IDENTIFIER b!"foo"]
def exRecursive : Nd := .mk (exBlockTok false) [exNode .COMPONENT_VALUE
  [(exIf false (.mk (exBlockTok false) [exNode .COMPONENT_VALUE [exInclude]])).ifNode]]

example (f : Nat) (p : NT) (rest : List Nd) :
    loop exIfEnv f p (exInclude :: rest) 0 { root := [⟨exLeaf .IDENTIFIER b!"foo", exRecursive⟩] } = .fuel := by
  have r1 : Reaches exInclude (exIf false (.mk (exBlockTok false) [exNode .COMPONENT_VALUE [exInclude]])).ifNode := by
    have h1 : Reaches exInclude (exNode .COMPONENT_VALUE [exInclude]) := .inside (pre := []) (post := []) (.inl rfl) (by simp) rfl (by simp) .here
    have h2 : Reaches exInclude (.mk (exBlockTok false) [exNode .COMPONENT_VALUE [exInclude]]) :=
      .inside (pre := []) (post := []) (.inl rfl) (by simp [exBlockTok]) rfl (by simp) h1
    exact .inside (pre := [.leaf { ty := .BOOLEAN, pos := exPos, bool := false }]) (post := []) (.inr ⟨rfl, by simp⟩) (by simp) rfl (by
      intro x hx
      rw [List.mem_singleton.1 hx]
      exact .mk _ _ (by simp) (by simp) (by simp) (by simp) (by simp) (by simp)) h2
  refine C92_forever (E := exIfEnv) (t := { ty := .AT_KEYWORD, pos := exPos, str := b!"include" }) rfl rfl (id := exLeaf .IDENTIFIER b!"foo") (more := []) rfl ?_
    (v := ⟨exLeaf .IDENTIFIER b!"foo", exRecursive⟩) ⟨by simp [exLeaf, Nd.leaf, Nd.ty, Nd.tok], by simp [exLeaf, Nd.leaf, Nd.ty, Nd.tok]⟩ ?_
    f p _ [] rest _ .here rfl
  · intro c hc
    rw [List.mem_singleton.1 hc]
    exact .mk _ _ (by simp) (by simp) (by simp) (by simp) (by simp) (by simp)
  · intro p
    by_cases hp : p = .COMPONENT_VALUE
    · subst hp
      refine ⟨[], _, [], rfl, by simp, r1, ?_⟩
      intro x hx
      rw [List.mem_singleton.1 hx]
      exact ⟨by decide, by decide⟩
    · have : spliced p exRecursive = [exNode .COMPONENT_VALUE [(exIf false (.mk (exBlockTok false) [exNode .COMPONENT_VALUE [exInclude]])).ifNode]] := by
        unfold spliced
        rw [if_pos (.inr rfl)]
        exact if_neg (fun h => hp h.2)
      refine ⟨[], _, [], this, by simp, .inside (pre := []) (post := []) (.inl rfl) (by simp) rfl (by simp) r1, ?_⟩
      rw [this]
      intro x hx
      rw [List.mem_singleton.1 hx]
      exact ⟨by decide, by decide⟩

end Csspp.Vars
