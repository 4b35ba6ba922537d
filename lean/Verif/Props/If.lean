import Verif.Lemmas.VarsStep
import Verif.Spec.Branches

/-!
C58: @if and @else.
-/

namespace Csspp.Vars
open Csspp.Parse (Nd)
open Csspp.Lex (Tok Pos)
open Csspp.Spec

/-- The condition of a branch is evaluated, without a side effect, to a value of the given truth. -/
structure GoodBranch (E : Env) (b : Branch) : Prop where
  block : GoodBlock b.block
  plain : ∀ c ∈ b.cond, Plain c
  cond : ∀ c, b.cond.head? = some c → c.ty ≠ .OPEN_CURLYBRACKET
  some : b.cond ≠ []
  value : ∀ s, ∃ x e, E.expr s (b.cond ++ [b.block]) = .some ⟨[x, b.block], .some e, s⟩ ∧ E.truth e = (b.holds, false)

def GoodElse (E : Env) : Else → Prop
  | .cond _ _ b => GoodBranch E b
  | .last _ block => GoodBlock block

/-- The same with another status. -/
def restat (v : Int) (n : Nd) : Nd := .mk { n.tok with int := v } n.kids
def restatFirst (v : Int) : List Nd → List Nd
  | [] => []
  | n :: l => restat v n :: l

theorem markNext_mid (d : List Nd) (n : Nd) (l : List Nd) (v : Int) (s : St) (h : Node.supportsInteger n.ty = true) :
    markNext (d ++ n :: l) d.length true v s = .ok (d ++ restat v n :: l) s := by
  unfold markNext setInt
  rw [if_pos rfl, show (d ++ n :: l)[d.length]? = some n by simp]
  dsimp only
  rw [if_pos h]
  show R.ok _ _ = _
  simp [restat]

theorem nextIsElse_mid (d : List Nd) (n : Nd) (l : List Nd) : nextIsElse (d ++ n :: l) d.length = isElse n := by
  unfold nextIsElse
  rw [show (d ++ n :: l)[d.length]? = some n by simp]

theorem erase_mid (d : List Nd) (n : Nd) (l : List Nd) : (d ++ n :: l).eraseIdx d.length = d ++ l := by
  rw [List.eraseIdx_append_of_length_le (Nat.le_refl _)]
  simp

theorem isElse_node (e : Else) : isElse e.node = true := by
  cases e <;> rfl
theorem isElse_restat (v : Int) (n : Nd) : isElse (restat v n) = isElse n := by cases n; rfl
theorem restat_restat (v w : Int) (n : Nd) : restat v (restat w n) = restat v n := by cases n; rfl
theorem int_node (e : Else) (v : Int) : Node.supportsInteger (restat v e.node).ty = true := by cases e <;> rfl
theorem int_node' (e : Else) : Node.supportsInteger e.node.ty = true := by cases e <;> rfl

/-- The nodes of the rest of a chain, with a status in the first one. -/
def elses (v : Int) (l : List Else) : List Nd := restatFirst v (l.map Else.node)

theorem atExpr_good {E : Env} {b : Branch} (h : GoodBranch E b) (s : St) : ∃ x e,
    atExpr E (b.cond ++ [b.block]) s = .ok ([x, b.block], some e) s ∧ E.truth e = (b.holds, false) := by
  obtain ⟨x, e, h1, h2⟩ := h.value s
  refine ⟨x, e, ?_, h2⟩
  cases hc : b.cond with
  | nil => exact absurd hc h.some
  | cons c cs =>
    have := h.cond c (by rw [hc]; rfl)
    rw [hc] at h1
    show atExpr E (c :: (cs ++ [b.block])) s = _
    unfold atExpr
    dsimp only
    rw [if_neg this, show c :: (cs ++ [b.block]) = c :: cs ++ [b.block] from rfl, h1]

theorem boolean_good {E : Env} {e : Nd} {v : Bool} (h : E.truth e = (v, false)) (s : St) : boolean E e s = .ok v s := by
  unfold boolean reportIf
  rw [h]
  rfl

theorem insertBlock_good {d l : List Nd} {b : Nd} (h : GoodBlock b) (s : St) :
    insertBlock (d ++ l) d.length b s = .ok (d ++ (b.kids ++ l)) s := by
  unfold insertBlock blockKids
  rw [h.ty, if_pos (show Node.supportsChildren .OPEN_CURLYBRACKET = true from rfl), bind_apply]
  show orThrow _ s = _
  rw [insertAll_mid _ _ _ h.kids]
  rfl

/-- What is after the chain is not an @else. -/
def Ends (post : List Nd) : Prop := ∀ n, post.head? = some n → isElse n = false

theorem nextIsElse_post {d post : List Nd} (h : Ends post) : nextIsElse (d ++ post) d.length = false := by
  cases post with
  | nil => unfold nextIsElse; rw [List.getElem?_eq_none (by simp)]
  | cons n l => rw [nextIsElse_mid]; exact h n rfl

/-- The node of an @else is itself when it is walked through. -/
theorem else_keyword {E : Env} {e : Else} (h : GoodElse E e) (v : Int) (s : St) :
    Gives (fun f => replaceVars E f (restat v e.node)) s (.ok (some (restat v e.node)) s) := by
  cases e with
  | cond i w b =>
    refine gives_keyword rfl ?_ s
    intro c hc
    have hb : GoodBranch E b := h
    have hc : c ∈ (Nd.leaf { i with ty := .IDENTIFIER, str := b!"if" } :: .leaf { w with ty := .WHITESPACE } :: (b.cond ++ [b.block])) := hc
    simp only [List.mem_cons, List.mem_append, List.not_mem_nil, or_false] at hc
    rcases hc with rfl | rfl | hc | rfl
    · exact .mk _ _ (by simp) (by simp) (by simp) (by simp) (by simp) (by simp)
    · exact .mk _ _ (by simp) (by simp) (by simp) (by simp) (by simp) (by simp)
    · exact hb.plain c hc
    · exact hb.block.plain
  | last t b =>
    refine gives_keyword rfl ?_ s
    intro c hc
    have hb : GoodBlock b := h
    have hc : c ∈ [b] := hc
    rw [List.mem_singleton] at hc
    subst hc
    exact hb.plain

/-- atKeyword() on an @else. -/
theorem at_else {E : Env} {e : Else} (h : GoodElse E e) (v : Int) (p : NT) (d l k' : List Nd) (s s' : St)
    (hr : replaceElse E (d ++ l) (restat v e.node) d.length s = .ok k' s') :
    To E p (d ++ restat v e.node :: l) d.length s k' d.length s' := by
  refine to_at (c := restat v e.node) (by simp) (by cases e <;> rfl) ?_
  have hs : (restat v e.node).tok.str = b!"else" := by cases e <;> rfl
  obtain ⟨a, ha⟩ := else_keyword h v s
  refine ⟨a + 1, fun g hg => ?_⟩
  obtain ⟨g, rfl⟩ : ∃ k, g = k + 1 := ⟨g - 1, by omega⟩
  have e4 := ha g (by omega)
  dsimp only at e4 ⊢
  rw [atKeyword, if_neg (by rw [hs]; decide), bind_apply, e4]
  dsimp only [Option.getD]
  rw [if_neg (by rw [hs]; decide), if_neg (by rw [hs]; decide), if_pos hs, erase_mid, bind_apply, hr]
  rfl

/-- The children of an @else once `if` is removed, and its condition. -/
theorem else_cond {E : Env} {e : Else} (h : GoodElse E e) (k : List Nd) (v : Int) (i : Nat) (s : St) (b : Bool)
    (hb : nextIsElse k i = b) (hl : b = true → e.isLast = false) (k1 : List Nd) (hm : markNext k i b 2 s = .ok k1 s) :
    ∃ nk c, replaceElse E k (restat v e.node) i s = elseEnd E k1 (restat v e.node) i b nk c s ∧
      ((e.isLast = true ∧ elseBlock nk c = some (e.block, none)) ∨
       e.isLast = false ∧ ∃ x, elseBlock nk c = some (e.block, some x) ∧ E.truth x = (e.holds, false)) := by
  unfold replaceElse
  dsimp only
  rw [hb]
  cases e with
  | last t blk =>
    refine ⟨[blk], none, ?_, .inl ⟨rfl, rfl⟩⟩
    have : b = false := by
      cases b
      · rfl
      · exact absurd (hl rfl) (by simp [Else.isLast])
    have hk : (restat v (Else.last t blk).node).kids = [blk] := rfl
    rw [hk, if_neg (by rw [this]; simp), bind_apply, hm]
    have hty : GoodBlock blk := h
    dsimp only
    rw [if_neg (by rw [hty.ty]; simp)]
  | cond j w br =>
    have hbr : GoodBranch E br := h
    obtain ⟨x, e, h1, h2⟩ := atExpr_good hbr s
    refine ⟨[x, br.block], some e, ?_, .inr ⟨rfl, e, rfl, h2⟩⟩
    have hk : (restat v (Else.cond j w br).node).kids = .leaf { j with ty := .IDENTIFIER, str := b!"if" } ::
        .leaf { w with ty := .WHITESPACE } :: (br.cond ++ [br.block]) := rfl
    rw [hk, if_neg (by simp), bind_apply, hm]
    dsimp only
    rw [if_pos ⟨rfl, rfl⟩]
    have hd : dropIf (.leaf { j with ty := .IDENTIFIER, str := b!"if" } ::
        .leaf { w with ty := .WHITESPACE } :: (br.cond ++ [br.block])) = br.cond ++ [br.block] := by
      unfold dropIf skipSpace
      exact if_pos rfl
    rw [hd, if_neg (by cases hc : br.cond with
      | nil => exact absurd hc hbr.some
      | cons a l => simp), bind_apply, h1]

/-- The block and the condition of an @else. -/
def Parts (E : Env) (e : Else) (nk : List Nd) (c : Option Nd) : Prop :=
  (e.isLast = true ∧ elseBlock nk c = some (e.block, none)) ∨
    e.isLast = false ∧ ∃ x, elseBlock nk c = some (e.block, some x) ∧ E.truth x = (e.holds, false)

theorem last_holds {e : Else} (h : e.isLast = true) : e.holds = true := by
  cases e
  · cases h
  · rfl

theorem parts_value {E : Env} {e : Else} {nk : List Nd} {c : Option Nd} (h : Parts E e nk c) (v : Int) (s : St) :
    ∃ x, elseBlock nk c = some (e.block, x) ∧ elseValue E v x s = .ok (decide (v = 1) && e.holds) s := by
  rcases h with ⟨h1, h2⟩ | ⟨_, x, h2, h3⟩
  · refine ⟨none, h2, ?_⟩
    rw [last_holds h1, Bool.and_true]
    rfl
  · refine ⟨some x, h2, ?_⟩
    unfold elseValue
    dsimp only
    by_cases hv : v = 1
    · rw [if_pos hv, boolean_good h3, decide_eq_true hv, Bool.true_and]
    · rw [if_neg hv, decide_eq_false hv]; rfl

theorem elseEnd_eq {E : Env} {e : Else} {nk : List Nd} {c : Option Nd} (h : Parts E e nk c) {v : Int} (hv : v ≠ 0)
    {n : Nd} (hn : n.tok.int = v) (k : List Nd) (i : Nat) (b : Bool) (s : St) :
    elseEnd E k n i b nk c s = (markNext k i b (if (decide (v = 1) && e.holds) then 2 else v) >>= fun k =>
      if (decide (v = 1) && e.holds) then insertBlock k i e.block else pure k) s := by
  obtain ⟨x, h1, h2⟩ := parts_value h v s
  unfold elseEnd
  rw [hn, if_neg hv, h1]
  dsimp only
  rw [bind_apply, h2]

theorem elses_cons (v : Int) (e : Else) (l : List Else) : elses v (e :: l) = restat v e.node :: l.map Else.node := rfl

theorem markNext_elses (d : List Nd) (l : List Else) (post : List Nd) (hp : Ends post) (v : Int) (s : St) :
    markNext (d ++ (l.map Else.node ++ post)) d.length (nextIsElse (d ++ (l.map Else.node ++ post)) d.length) v s =
      .ok (d ++ (elses v l ++ post)) s := by
  cases l with
  | nil =>
    show markNext (d ++ post) _ (nextIsElse (d ++ post) _) v s = .ok (d ++ post) s
    rw [nextIsElse_post hp]
    rfl
  | cons e l =>
    show markNext (d ++ e.node :: (l.map Else.node ++ post)) _ (nextIsElse (d ++ e.node :: (l.map Else.node ++ post)) _) v s = _
    rw [nextIsElse_mid, isElse_node, markNext_mid _ _ _ _ _ (int_node' e)]
    rfl

theorem markNext_elses' (d : List Nd) (l : List Else) (post : List Nd) (hp : Ends post) (v w : Int) (s : St) :
    markNext (d ++ (elses w l ++ post)) d.length (nextIsElse (d ++ (l.map Else.node ++ post)) d.length) v s =
      .ok (d ++ (elses v l ++ post)) s := by
  cases l with
  | nil =>
    show markNext (d ++ post) _ (nextIsElse (d ++ post) _) v s = .ok (d ++ post) s
    rw [nextIsElse_post hp]
    rfl
  | cons e l =>
    show markNext (d ++ restat w e.node :: (l.map Else.node ++ post)) _ (nextIsElse (d ++ e.node :: (l.map Else.node ++ post)) _) v s = _
    rw [nextIsElse_mid, isElse_node, markNext_mid _ _ _ _ _ (int_node e w), restat_restat]
    rfl

/-- One @else. -/
theorem to_else {E : Env} {e : Else} (h : GoodElse E e) {l : List Else} (hl : l ≠ [] → e.isLast = false) {post : List Nd}
    (hp : Ends post) {v : Int} (hv : v ≠ 0) (p : NT) (d : List Nd) (s : St) :
    To E p (d ++ (elses v (e :: l) ++ post)) d.length s
      (if (decide (v = 1) && e.holds) then d ++ (e.block.kids ++ (elses 2 l ++ post)) else d ++ (elses v l ++ post)) d.length s := by
  have hm := markNext_elses d l post hp 2 s
  obtain ⟨nk, c, h1, h2⟩ := else_cond h (d ++ (l.map Else.node ++ post)) v d.length s _ rfl (by
    intro hn
    apply hl
    rintro rfl
    rw [show ([] : List Else).map Else.node ++ post = post from rfl, nextIsElse_post hp] at hn
    cases hn) _ hm
  rw [elses_cons]
  refine at_else h v p d (l.map Else.node ++ post) _ s s ?_
  rw [h1, elseEnd_eq h2 hv (by cases e <;> rfl), bind_apply, markNext_elses' _ _ _ hp]
  dsimp only
  have hb : GoodBlock e.block := by
    cases e with
    | cond i w b => exact (h : GoodBranch E b).block
    | last t b => exact h
  by_cases hc : (decide (v = 1) && e.holds) = true
  · rw [if_pos hc, if_pos hc, if_pos hc]
    exact insertBlock_good hb s
  · rw [if_neg hc, if_neg hc, if_neg hc]; rfl

theorem Ordered_tail {e : Else} {l : List Else} (h : Ordered (e :: l)) : Ordered l ∧ (l ≠ [] → e.isLast = false) := by
  cases l with
  | nil => exact ⟨trivial, fun h => absurd rfl h⟩
  | cons a l => exact ⟨h.2, fun _ => h.1⟩

/-- Once a block was chosen the rest of the chain is removed. -/
theorem to_done {E : Env} {post : List Nd} (hp : Ends post) (p : NT) (d : List Nd) (s : St) : (l : List Else) →
    Ordered l → (∀ e ∈ l, GoodElse E e) → To E p (d ++ (elses 2 l ++ post)) d.length s (d ++ post) d.length s
  | [], _, _ => .refl
  | e :: l, ho, hg => by
    have h1 := to_else (hg e (by simp)) (Ordered_tail ho).2 hp (v := 2) (by decide) p d s
    rw [if_neg (by simp)] at h1
    exact h1.trans (to_done hp p d s l (Ordered_tail ho).1 (fun e he => hg e (by simp [he])))

/-- A chain of @else after conditions which were all false. -/
theorem to_elses {E : Env} {post : List Nd} (hp : Ends post) (p : NT) (d : List Nd) (s : St) : (l : List Else) →
    Ordered l → (∀ e ∈ l, GoodElse E e) →
    To E p (d ++ (elses 1 l ++ post)) d.length s (d ++ (chosen l ++ post)) (d.length + (chosen l).length) s
  | [], _, _ => .refl
  | e :: l, ho, hg => by
    have h1 := to_else (hg e (by simp)) (Ordered_tail ho).2 hp (v := 1) (by decide) p d s
    rw [show (decide ((1 : Int) = 1) && e.holds) = e.holds from Bool.true_and _] at h1
    unfold chosen
    by_cases hh : e.holds = true
    · rw [if_pos hh] at h1 ⊢
      have hb : GoodBlock e.block := by
        have := hg e (by simp)
        cases e with
        | cond i w b => exact (this : GoodBranch E b).block
        | last t b => exact this
      have hk : ∀ c ∈ e.block.kids, Plain c := by
        have := hb.plain
        cases hbk : e.block with
        | mk t kids =>
          rw [hbk] at this
          cases this
          assumption
      refine h1.trans ((to_plains d e.block.kids _ hk s).trans ?_)
      have := to_done hp p (d ++ e.block.kids) s l (Ordered_tail ho).1 (fun e he => hg e (by simp [he]))
      simp only [List.append_assoc, List.length_append] at this
      exact this
    · rw [if_neg hh] at h1 ⊢
      exact h1.trans (to_elses hp p d s l (Ordered_tail ho).1 (fun e he => hg e (by simp [he])))

theorem if_keyword {E : Env} {b : Branch} (h : GoodBranch E b) (s : St) :
    Gives (fun f => replaceVars E f b.ifNode) s (.ok (some b.ifNode) s) := by
  refine gives_keyword rfl ?_ s
  intro c hc
  rcases List.mem_append.1 hc with hc | hc
  · exact h.plain c hc
  · rw [List.mem_singleton] at hc; subst hc; exact h.block.plain

theorem replaceIf_eq {E : Env} {b : Branch} (h : GoodBranch E b) (d : List Nd) (l : List Else) (post : List Nd)
    (hp : Ends post) (s : St) :
    replaceIf E (d ++ (l.map Else.node ++ post)) b.ifNode d.length s =
      if b.holds then .ok (d ++ (b.block.kids ++ (elses 2 l ++ post))) s
      else markNext (d ++ (elses 2 l ++ post)) d.length (decide (d.length < (d ++ (elses 2 l ++ post)).length)) 1 s := by
  obtain ⟨x, e, h1, h2⟩ := atExpr_good h s
  unfold replaceIf
  rw [bind_apply, markNext_elses _ _ _ hp]
  dsimp only
  rw [show b.ifNode.kids = b.cond ++ [b.block] from rfl, bind_apply, h1]
  dsimp only
  rw [bind_apply, boolean_good h2]
  dsimp only
  by_cases hh : b.holds = true
  · rw [if_pos hh, if_pos hh]; exact insertBlock_good h.block s
  · rw [if_neg hh, if_neg hh]

theorem gives_if {E : Env} {b : Branch} (h : GoodBranch E b) (p : NT) (d l : List Nd) (s : St) :
    ∃ a, ∀ g, a ≤ g → atKeyword E g p (d ++ b.ifNode :: l) b.ifNode d.length s =
      (replaceIf E (d ++ l) b.ifNode d.length >>= fun k => pure (k, d.length)) s := by
  obtain ⟨a, ha⟩ := if_keyword h s
  refine ⟨a + 1, fun g hg => ?_⟩
  obtain ⟨g, rfl⟩ : ∃ k, g = k + 1 := ⟨g - 1, by omega⟩
  have e4 := ha g (by omega)
  have hs : b.ifNode.tok.str = b!"if" := rfl
  dsimp only at e4 ⊢
  rw [atKeyword, if_neg (by rw [hs]; decide), bind_apply, e4]
  dsimp only [Option.getD]
  rw [if_neg (by rw [hs]; decide), if_pos hs, erase_mid]

/-- C58: a chain `@if ... @else if ... @else ...` whose conditions have a value and whose blocks have nothing for the
preprocessor is replaced by the children of the first block whose condition holds (those of the last @else when
there is none), and the loop goes on after them; all the rest is removed. When the conditions are all false and there
is no @else the next node, if any, has to be able to hold an integer (see C58_throws). -/
theorem C58_if {E : Env} {b : Branch} (hb : GoodBranch E b) {l : List Else} (ho : Ordered l) (hl : ∀ e ∈ l, GoodElse E e)
    {post : List Nd} (hp : Ends post) (hn : b.holds = true ∨ l ≠ [] ∨ post = []) (p : NT) (d : List Nd) (s : St) (r : R (List Nd))
    (hr : r ≠ .fuel)
    (h : Gives (fun f => loop E f p (d ++ ((if b.holds then b.block.kids else chosen l) ++ post))
      (d.length + (if b.holds then b.block.kids else chosen l).length)) s r) :
    Gives (fun f => loop E f p (d ++ (b.ifNode :: l.map Else.node ++ post)) d.length) s r := by
  obtain ⟨a, ha⟩ := gives_if hb p d (l.map Else.node ++ post) s
  have hk : ∀ c ∈ b.block.kids, Plain c := by
    have := hb.block.plain
    cases hbk : b.block with
    | mk t kids =>
      rw [hbk] at this
      cases this
      assumption
  have step : ∀ k', replaceIf E (d ++ (l.map Else.node ++ post)) b.ifNode d.length s = .ok k' s →
      To E p (d ++ b.ifNode :: (l.map Else.node ++ post)) d.length s k' d.length s := by
    intro k' e
    refine to_at (c := b.ifNode) (by simp) rfl ⟨a, fun g hg => ?_⟩
    dsimp only
    rw [ha g hg, bind_apply, e]
    rfl
  rw [replaceIf_eq hb d l post hp s] at step
  by_cases hh : b.holds = true
  · rw [if_pos hh] at step h
    refine (step _ rfl).trans ((to_plains d b.block.kids _ hk s).trans ?_) r hr h
    have := to_done (E := E) hp p (d ++ b.block.kids) s l ho hl
    simp only [List.append_assoc, List.length_append] at this
    exact this
  · rw [if_neg hh] at step h
    refine (step (d ++ (elses 1 l ++ post)) ?_).trans (to_elses hp p d s l ho hl) r hr h
    cases l with
    | nil =>
      have : post = [] := by
        rcases hn with h | h | h
        · exact absurd h hh
        · exact absurd rfl h
        · exact h
      subst this
      show markNext (d ++ []) d.length (decide (d.length < (d ++ ([] : List Nd)).length)) 1 s = .ok (d ++ []) s
      rw [List.append_nil, decide_eq_false (Nat.lt_irrefl _)]
      rfl
    | cons e l =>
      rw [show decide (d.length < (d ++ (elses 2 (e :: l) ++ post)).length) = true by simp [elses, restatFirst]]
      show markNext (d ++ restat 2 e.node :: (l.map Else.node ++ post)) d.length true 1 s = _
      rw [markNext_mid _ _ _ _ _ (int_node e 2), restat_restat]
      rfl

/-- C58, the defect: an @if alone whose condition is false is followed by a node which has no integer (a rule, a variable):
an exception. A node which has one gets 1 as its integer. -/
theorem C58_throws {E : Env} {b : Branch} (hb : GoodBranch E b) (hf : b.holds = false) {n : Nd} {post : List Nd}
    (hp : isElse n = false) (p : NT) (d : List Nd) (s : St) :
    (Node.supportsInteger n.ty = false →
      Gives (fun f => loop E f p (d ++ b.ifNode :: n :: post) d.length) s .throws) ∧
    (Node.supportsInteger n.ty = true → ∀ r, r ≠ .fuel →
      Gives (fun f => loop E f p (d ++ .mk { n.tok with int := 1 } n.kids :: post) d.length) s r →
      Gives (fun f => loop E f p (d ++ b.ifNode :: n :: post) d.length) s r) := by
  obtain ⟨a, ha⟩ := gives_if hb p d (n :: post) s
  have he := replaceIf_eq hb d [] (n :: post) (by intro m hm; cases hm; exact hp) s
  rw [hf, if_neg (by simp), show decide (d.length < (d ++ (elses 2 [] ++ n :: post)).length) = true by simp; omega] at he
  have he : replaceIf E (d ++ n :: post) b.ifNode d.length s = markNext (d ++ n :: post) d.length true 1 s := he
  refine ⟨fun hi => ?_, fun hi => ?_⟩
  · refine throws_at (c := b.ifNode) (by simp) rfl ⟨a, fun g hg => ?_⟩
    dsimp only
    rw [ha g hg, bind_apply, he]
    unfold markNext setInt
    rw [if_pos rfl, show (d ++ n :: post)[d.length]? = some n by simp]
    dsimp only
    rw [if_neg (by rw [hi]; simp)]
    rfl
  · refine to_at (c := b.ifNode) (by simp) rfl ⟨a, fun g hg => ?_⟩
    dsimp only
    rw [ha g hg, bind_apply, he, markNext_mid _ _ _ _ _ hi]
    rfl

/-! ### Examples -/

/-- The condition is one node; it holds when it is `yes`. -/
def ifEnv : Env where
  expr := fun s k => match k with
    | [c, b] => some ⟨[c, b], some c, s⟩
    | k => some ⟨k, none, s⟩
  truth := fun n => (n.tok.str == b!"yes", false)
  file := fun _ => .alone
  toString := fun n => n.tok.str

def ifBlock (name : Str) : Nd := exNode .OPEN_CURLYBRACKET [exNode .COMPONENT_VALUE [exLeaf .IDENTIFIER name]]
def ifBranch (c name : Str) (v : Bool) : Branch := ⟨{ ty := .AT_KEYWORD, pos := exPos }, [exLeaf .IDENTIFIER c], v, ifBlock name⟩
def ifTok (ty : NT) : Tok := { ty := ty, pos := exPos }

theorem ifBlock_good (name : Str) : GoodBlock (ifBlock name) := by
  refine ⟨rfl, ?_, ?_⟩
  · refine .mk _ _ (by simp) (by simp) (by simp) (by simp) (by simp) ?_
    intro c hc
    rw [List.mem_singleton] at hc
    subst hc
    refine .mk _ _ (by simp) (by simp) (by simp) (by simp) (by simp) ?_
    intro c hc
    rw [List.mem_singleton] at hc
    subst hc
    exact .mk _ _ (by simp) (by simp) (by simp) (by simp) (by simp) (by simp)
  · intro c hc
    rw [show (ifBlock name).kids = [exNode .COMPONENT_VALUE [exLeaf .IDENTIFIER name]] from rfl, List.mem_singleton] at hc
    subst hc
    exact ⟨by show NT.COMPONENT_VALUE ≠ NT.EOF_TOKEN; decide, by show NT.COMPONENT_VALUE ≠ NT.WHITESPACE; decide⟩

theorem ifBranch_good (c name : Str) (v : Bool) (h : (c == b!"yes") = v) : GoodBranch ifEnv (ifBranch c name v) := by
  refine ⟨ifBlock_good name, ?_, ?_, by simp [ifBranch], fun s => ⟨exLeaf .IDENTIFIER c, exLeaf .IDENTIFIER c, rfl, ?_⟩⟩
  · intro x hx
    rw [show (ifBranch c name v).cond = [exLeaf .IDENTIFIER c] from rfl, List.mem_singleton] at hx
    subst hx
    exact .mk _ _ (by simp) (by simp) (by simp) (by simp) (by simp) (by simp)
  · intro x hx
    cases hx
    show NT.IDENTIFIER ≠ NT.OPEN_CURLYBRACKET
    decide
  · show (c == b!"yes", false) = (v, false)
    rw [h]

/-- `@if no {a} @else if yes {b} @else {c} d`, with the hypotheses of C58_if. -/
def exElses : List Else := [.cond (ifTok .IDENTIFIER) (ifTok .WHITESPACE) (ifBranch b!"yes" b!"b" true), .last (ifTok .AT_KEYWORD) (ifBlock b!"c")]
def exAfter : List Nd := [exNode .COMPONENT_VALUE [exLeaf .IDENTIFIER b!"d"]]

example : GoodBranch ifEnv (ifBranch b!"no" b!"a" false) ∧ Ordered exElses ∧ (∀ e ∈ exElses, GoodElse ifEnv e) ∧ Ends exAfter := by
  refine ⟨ifBranch_good _ _ _ (by decide), ⟨rfl, trivial⟩, ?_, ?_⟩
  · intro e he
    simp only [exElses, List.mem_cons, List.not_mem_nil, or_false] at he
    rcases he with rfl | rfl
    · exact ifBranch_good _ _ _ (by decide)
    · exact ifBlock_good _
  · intro n hn
    cases hn
    rfl

example : (match loop ifEnv 20 .LIST ((ifBranch b!"no" b!"a" false).ifNode :: exElses.map Else.node ++ exAfter) 0 {} with
    | .ok k s => some (k.map (fun n => n.kids.map (fun c => c.tok.str)), s.errs)
    | _ => none) = some ([[b!"b"], [b!"d"]], []) := by decide +kernel
/-- `@if no {a} d`: an exception. -/
example : loop ifEnv 12 .LIST ((ifBranch b!"no" b!"a" false).ifNode :: exAfter) 0 {} = .throws := rfl

end Csspp.Vars
