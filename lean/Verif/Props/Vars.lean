import Verif.Lemmas.VarsRun
import Verif.Spec.Preprocess

/-! C53, C54: what the pass on the variables leaves alone, and what it never leaves. -/

namespace Csspp.Vars
open Csspp.Parse (Nd)
open Csspp.Lex (Tok Pos)
open Csspp.Spec (Plain Settled IsContainer)

theorem commentLoop_plain (E : Env) (s : St) (f : Nat) (out rest : Str)
    (h : ∀ a b, rest ≠ a ++ 123 :: 36 :: b) : commentLoop E s f out rest = (out.reverse ++ rest, []) := by
  induction f generalizing out rest with
  | zero => rfl
  | succ f ih =>
    cases rest with
    | nil => simp [commentLoop]
    | cons c rest =>
      have ih' := ih (c :: out) rest (fun a b hab => h (c :: a) b (by rw [hab]; rfl))
      have e : (c :: out).reverse ++ rest = out.reverse ++ c :: rest := by simp
      rw [e] at ih'
      rw [commentLoop]
      split
      · exact ih'
      · rename_i hc
        have hc : c = 123 := by simpa using hc
        have : commentRef rest = none := by
          unfold commentRef
          split
          · rename_i d x more
            rw [if_neg]
            intro hd
            exact h [] (x :: more) (by rw [hc, hd]; rfl)
          · rfl
        rw [this]
        exact ih'

/-- A list of plain nodes is walked through without a change. -/
theorem loop_plain (E : Env) (p : NT) (d l : List Nd) (hl : ∀ c ∈ l, Plain c)
    (ih : ∀ c ∈ l, ∀ s, Gives (fun f => replaceVars E f c) s (.ok (some c) s)) (s : St) :
    Gives (fun f => loop E f p (d ++ l) d.length) s (.ok (d ++ l) s) := by
  induction l generalizing d with
  | nil =>
    refine ⟨1, fun g hg => ?_⟩
    obtain ⟨g, rfl⟩ : ∃ k, g = k + 1 := ⟨g - 1, by omega⟩
    simp [loop, pure_apply]
  | cons c l ihl =>
    obtain ⟨f1, h1⟩ := ih c (by simp) s
    obtain ⟨f2, h2⟩ := ihl (d ++ [c]) (fun c hc => hl c (by simp [hc])) (fun c hc => ih c (by simp [hc]))
    refine ⟨max f1 f2 + 2, fun g hg => ?_⟩
    obtain ⟨g, rfl⟩ : ∃ k, g = k + 2 := ⟨g - 2, by omega⟩
    have e1 : (d ++ c :: l)[d.length]? = some c := by simp
    have e2 : (d ++ c :: l).set d.length c = d ++ c :: l := by simp
    have e3 := h2 (g + 1) (by omega)
    simp only [List.append_assoc, List.singleton_append, List.length_append, List.length_singleton] at e3
    show loop E (g + 2) p (d ++ c :: l) d.length s = _
    rw [loop, e1]
    dsimp only
    have hc := hl c (by simp)
    cases hc with
    | mk t kids v1 v2 v3 v4 v5 v6 =>
    have v1' : (Nd.mk t kids).ty ≠ .VARIABLE := v1
    have v2' : (Nd.mk t kids).ty ≠ .VARIABLE_FUNCTION := v2
    rw [if_neg v1', if_neg v2']
    split
    · have e4 := h1 (g + 1) (by omega)
      dsimp only at e4
      rw [bind_apply, e4]
      dsimp only
      rw [e2]; exact e3
    · split
      · rename_i hat
        have hat : t.ty = .AT_KEYWORD := hat
        have v3 := v3 hat
        have hn : ∀ s, s ∈ Spec.directives → (Nd.mk t kids).tok.str ≠ s := fun s hs e => v3 (e ▸ hs)
        have hk : atKeyword E (g + 1) p (d ++ .mk t kids :: l) (.mk t kids) d.length s =
            .ok (d ++ .mk t kids :: l, d.length + 1) s := by
          rw [atKeyword]
          have e4 := h1 g (by omega)
          dsimp only at e4
          rw [if_neg (hn b!"mixin" (by decide)), bind_apply, e4]
          dsimp only [Option.getD]
          have hm : isMessage t.str = false := by
            unfold isMessage
            rw [decide_eq_false_iff_not]
            rintro (h | h | h | h | h)
            · exact hn b!"error" (by decide) h
            · exact hn b!"warning" (by decide) h
            · exact hn b!"message" (by decide) h
            · exact hn b!"info" (by decide) h
            · exact hn b!"debug" (by decide) h
          rw [if_neg (hn b!"import" (by decide)), if_neg (hn b!"if" (by decide)),
            if_neg (hn b!"else" (by decide)), if_neg (hn b!"include" (by decide)),
            if_neg (by show ¬ isMessage t.str = true; rw [hm]; simp), e2]
          rfl
        rw [bind_apply, hk]
        exact e3
      · exact e3

/-- C53: a tree with nothing for the preprocessor goes through it unchanged, in finite time and without a
message, whatever the variables that are set. -/
theorem C53_plain (E : Env) (n : Nd) (h : Plain n) (s : St) :
    Gives (fun f => replaceVars E f n) s (.ok (some n) s) := by
  induction h generalizing s with
  | mk t kids v1 v2 v3 v4 v5 v6 ih =>
    have hl : ∀ s, Gives (fun f => loop E f t.ty kids 0) s (.ok kids s) := by
      intro s
      exact loop_plain E t.ty [] kids v6 ih s
    by_cases hc : (Nd.mk t kids).ty = .COMMENT
    · refine ⟨1, fun g hg => ?_⟩
      obtain ⟨g, rfl⟩ : ∃ k, g = k + 1 := ⟨g - 1, by omega⟩
      show replaceVars E (g + 1) (.mk t kids) s = _
      rw [replaceVars, if_pos hc]
      have e : comment E (.mk t kids) s = .ok (.mk t kids) s := by
        unfold comment
        dsimp only [Parse.Nd.tok]
        rw [commentLoop_plain _ _ _ _ _ (v5 hc)]
        rfl
      rw [bind_apply, e]
      rfl
    · by_cases hw : walks (Nd.mk t kids).ty = false
      · refine ⟨1, fun g hg => ?_⟩
        obtain ⟨g, rfl⟩ : ∃ k, g = k + 1 := ⟨g - 1, by omega⟩
        show replaceVars E (g + 1) (.mk t kids) s = _
        rw [replaceVars, if_neg hc, if_pos hw]
        rfl
      · have hlist : ¬ ((Nd.mk t kids).ty = .LIST ∧ (Nd.mk t kids).kids.isEmpty = true) := by
          rintro ⟨a, b⟩
          exact v4 a (List.isEmpty_iff.mp b)
        have hset : isVarSet (.mk t kids) = false := by
          unfold isVarSet
          have : isSet kids = false := by
            unfold isSet
            split
            · rename_i c0 c1 c2 rest
              have h0 := v6 c0 (by simp)
              rw [if_neg]
              rintro (h | h)
              · cases h0; contradiction
              · cases h0; contradiction
            · rfl
          show (decide _ && isSet kids) = false
          rw [this, Bool.and_false]
        obtain ⟨f, hf⟩ := hl (if isScope (.mk t kids) then { s with scopes := [] :: s.scopes } else s)
        refine ⟨f + 1, fun g hg => ?_⟩
        obtain ⟨g, rfl⟩ : ∃ k, g = k + 1 := ⟨g - 1, by omega⟩
        show replaceVars E (g + 1) (.mk t kids) s = _
        have hi : firstIdx (.mk t kids) = 0 := by unfold firstIdx; rw [hset]; rfl
        rw [replaceVars, if_neg hc, if_neg hw, if_neg hlist, hset, hi]
        have e := hf g (by omega)
        dsimp only at e
        simp only [bind_apply, enter]
        rw [show (Nd.mk t kids).ty = t.ty from rfl, show (Nd.mk t kids).kids = kids from rfl, e]
        simp only [leave]
        cases isScope (.mk t kids) <;> rfl

/-! ### C54 -/

theorem _root_.Csspp.Spec.Settled.leaf {n : Nd} (h1 : n.ty ≠ .VARIABLE) (h2 : n.ty ≠ .VARIABLE_FUNCTION) (h3 : n.ty ≠ .AT_KEYWORD)
    (h4 : ¬ IsContainer n.ty) : Settled n := by
  cases n with
  | mk t k => exact .mk t k h1 h2 (fun h => absurd h h3) (fun h => absurd h h4)

theorem isContainer_of_walks {ty : NT} (h : walks ty = true) (hv : ty ≠ .VARIABLE_FUNCTION) : IsContainer ty := by
  unfold IsContainer
  cases ty <;> first | (cases h; done) | exact absurd rfl hv | decide

theorem walks_of_isContainer {ty : NT} (h : IsContainer ty) : walks ty = true := by
  revert h; unfold IsContainer
  cases ty <;> decide

/-- What the four functions do to the nodes. -/
structure Settles (E : Env) (f : Nat) : Prop where
  vars : ∀ n s n' s', replaceVars E f n s = .ok (some n') s' → n.ty ≠ .COMMENT →
    n'.tok = n.tok ∧ (walks n.ty = true → ∀ c ∈ n'.kids, Settled c)
  comment : ∀ n s n' s', replaceVars E f n s = .ok n' s' → n.ty = .COMMENT → ∃ c, n' = some c ∧ c.ty = .COMMENT
  loop : ∀ p k i s k' s', loop E f p k i s = .ok k' s' → (∀ c ∈ k.take i, Settled c) → ∀ c ∈ k', Settled c
  at_ : ∀ p k n i s k' i' s', atKeyword E f p k n i s = .ok (k', i') s' → k[i]? = some n → n.ty = .AT_KEYWORD →
    (∀ c ∈ k.take i, Settled c) → ∀ c ∈ k'.take i', Settled c
  variable_ : ∀ p k n i s k' s', replaceVariable E f p k n i s = .ok k' s' → k'.take i = k.take i

theorem take_set_succ (k : List Nd) (i : Nat) (c : Nd) (hc : Settled c) (h : ∀ c ∈ k.take i, Settled c) :
    ∀ x ∈ (k.set i c).take (i + 1), Settled x := by
  intro x hx
  by_cases hi : i < k.length
  · rw [List.take_add_one, List.getElem?_set_self hi, List.mem_append] at hx
    rcases hx with hx | hx
    · rw [List.take_set_of_le (Nat.le_refl _)] at hx; exact h x hx
    · simp at hx; rw [hx]; exact hc
  · rw [List.set_eq_of_length_le (by omega), List.take_of_length_le (by omega)] at hx
    rw [List.take_of_length_le (by omega)] at h
    exact h x hx

theorem markNext_take {k : List Nd} {i : Nat} {b : Bool} {v : Int} {s : St} {k' : List Nd} {s' : St}
    (h : markNext k i b v s = .ok k' s') : k'.take i = k.take i := by
  unfold markNext at h
  split at h
  · rw [orThrow_ok] at h; exact setInt_take h.1
  · rw [pure_ok] at h; rw [← h.1]

theorem insertBlock_take {k : List Nd} {i : Nat} {b : Nd} {s : St} {k' : List Nd} {s' : St}
    (h : insertBlock k i b s = .ok k' s') : k'.take i = k.take i := by
  unfold insertBlock at h
  rw [bind_ok] at h
  obtain ⟨_, _, _, h⟩ := h
  rw [orThrow_ok] at h; exact insertAll_take h.1

theorem replaceIf_take {E : Env} {k : List Nd} {n : Nd} {i : Nat} {s : St} {k' : List Nd} {s' : St}
    (h : replaceIf E k n i s = .ok k' s') : k'.take i = k.take i := by
  unfold replaceIf at h
  rw [bind_ok] at h
  obtain ⟨k1, s1, h1, h⟩ := h
  rw [← markNext_take h1]
  rw [bind_ok] at h
  obtain ⟨⟨nk, r⟩, s2, _, h⟩ := h
  dsimp only at h
  split at h
  · rw [bind_ok] at h
    obtain ⟨b, s3, _, h⟩ := h
    cases b with
    | true => exact insertBlock_take h
    | false => exact markNext_take h
  · rw [bind_ok] at h
    obtain ⟨_, _, _, h⟩ := h
    rw [pure_ok] at h; rw [← h.1]

theorem elseEnd_take {E : Env} {k : List Nd} {n : Nd} {i : Nat} {b : Bool} {nk : List Nd} {r : Option Nd} {s : St}
    {k' : List Nd} {s' : St} (h : elseEnd E k n i b nk r s = .ok k' s') : k'.take i = k.take i := by
  unfold elseEnd at h
  split at h
  · rw [bind_ok] at h
    obtain ⟨_, _, _, h⟩ := h
    rw [pure_ok] at h; rw [← h.1]
  · cases hb : elseBlock nk r with
    | none =>
      rw [hb] at h
      dsimp only at h
      rw [bind_ok] at h
      obtain ⟨_, _, _, h⟩ := h
      rw [pure_ok] at h; rw [← h.1]
    | some bc =>
      obtain ⟨block, cond⟩ := bc
      rw [hb] at h
      dsimp only at h
      rw [bind_ok] at h
      obtain ⟨v, s1, _, h⟩ := h
      rw [bind_ok] at h
      obtain ⟨k1, s2, h1, h⟩ := h
      rw [← markNext_take h1]
      cases v with
      | true => exact insertBlock_take h
      | false => rw [if_neg (by simp), pure_ok] at h; rw [← h.1]

theorem replaceElse_take {E : Env} {k : List Nd} {n : Nd} {i : Nat} {s : St} {k' : List Nd} {s' : St}
    (h : replaceElse E k n i s = .ok k' s') : k'.take i = k.take i := by
  unfold replaceElse at h
  dsimp only at h
  split at h
  · rw [bind_ok] at h
    obtain ⟨_, _, _, h⟩ := h
    rw [pure_ok] at h; rw [← h.1]
  · rw [bind_ok] at h
    obtain ⟨k1, s1, h1, h⟩ := h
    rw [← markNext_take h1]
    cases hk : n.kids with
    | nil => rw [hk] at h; cases h
    | cons c cs =>
      rw [hk] at h
      dsimp only at h
      split at h
      · split at h
        · rw [bind_ok] at h
          obtain ⟨_, _, _, h⟩ := h
          rw [pure_ok] at h; rw [← h.1]
        · rw [bind_ok] at h
          obtain ⟨⟨nk, r⟩, s2, _, h⟩ := h
          exact elseEnd_take h
      · exact elseEnd_take h

theorem settles (E : Env)
    (hE : ∀ s k r, E.expr s k = some r → (∀ c ∈ k, Settled c) → ∀ c ∈ r.kids, Settled c) (f : Nat) :
    Settles E f := by
  induction f with
  | zero =>
    constructor
    · intro n s n' s' h; rw [replaceVars] at h; cases h
    · intro n s n' s' h; rw [replaceVars] at h; cases h
    · intro p k i s k' s' h; rw [loop] at h; cases h
    · intro p k n i s k' i' s' h; rw [atKeyword] at h; cases h
    · intro p k n i s k' s' h; rw [replaceVariable] at h; cases h
  | succ f ih =>
    constructor
    · intro n s n' s' h hc
      rw [replaceVars, if_neg hc] at h
      split at h
      · rename_i hw
        rw [pure_ok] at h
        cases h.1
        exact ⟨rfl, fun h => absurd h (by simp [hw])⟩
      · split at h
        · rw [pure_ok] at h; cases h.1
        · rw [bind_ok] at h
          obtain ⟨_, s1, _, h⟩ := h
          rw [bind_ok] at h
          obtain ⟨kids, s2, hl, h⟩ := h
          rw [bind_ok] at h
          obtain ⟨_, s3, _, h⟩ := h
          by_cases hs : isVarSet n = true
          · rw [if_pos hs, bind_ok] at h
            obtain ⟨_, s4, _, h⟩ := h
            rw [pure_ok] at h; cases h.1
          · rw [if_neg hs, pure_ok] at h
            cases h.1
            refine ⟨rfl, fun _ => ?_⟩
            unfold firstIdx at hl
            rw [if_neg hs] at hl
            exact ih.loop _ _ _ _ _ _ hl (by simp)
    · intro n s n' s' h hc
      rw [replaceVars, if_pos hc, bind_ok] at h
      obtain ⟨c, s1, h1, h⟩ := h
      rw [pure_ok] at h
      refine ⟨c, h.1.symm, ?_⟩
      unfold comment at h1
      dsimp only at h1
      rw [bind_ok] at h1
      obtain ⟨_, _, _, h1⟩ := h1
      rw [pure_ok] at h1
      rw [← h1.1]
      exact hc
    · intro p k i s k' s' h ht
      rw [loop] at h
      cases hk : k[i]? with
      | none =>
        rw [hk] at h
        dsimp only at h
        rw [pure_ok] at h
        have : k.length ≤ i := by simpa using hk
        rw [List.take_of_length_le this] at ht
        rw [← h.1]; exact ht
      | some child =>
        rw [hk] at h
        dsimp only at h
        have hi : i < k.length := (List.getElem?_eq_some_iff.mp hk).1
        split at h
        · rw [bind_ok] at h
          obtain ⟨k1, s1, h1, h⟩ := h
          refine ih.loop _ _ _ _ _ _ h ?_
          rw [ih.variable_ _ _ _ _ _ _ _ h1, eraseIdx_take]; exact ht
        · split at h
          · rw [bind_ok] at h
            obtain ⟨c', s1, h1, h⟩ := h
            rw [bind_ok] at h
            obtain ⟨k1, s2, h2, h⟩ := h
            refine ih.loop _ _ _ _ _ _ h ?_
            rw [ih.variable_ _ _ _ _ _ _ _ h2, eraseIdx_take]; exact ht
          · rename_i hv hvf
            split at h
            · rename_i hr
              rw [bind_ok] at h
              obtain ⟨c', s1, h1, h⟩ := h
              cases c' with
              | none =>
                refine ih.loop _ _ _ _ _ _ h ?_
                rw [eraseIdx_take]; exact ht
              | some c =>
                refine ih.loop _ _ _ _ _ _ h ?_
                refine take_set_succ k i c ?_ ht
                by_cases hcm : child.ty = .COMMENT
                · obtain ⟨c2, e, hc2⟩ := ih.comment _ _ _ _ h1 hcm
                  cases e
                  exact .leaf (by simp [hc2]) (by simp [hc2]) (by simp [hc2]) (by rw [hc2]; unfold IsContainer; decide)
                · obtain ⟨e, hw⟩ := ih.vars _ _ _ _ h1 hcm
                  cases c with
                  | mk t kids =>
                  have e : t = child.tok := e
                  subst e
                  refine .mk _ _ hv hvf (fun hat => ?_) (fun hcn => hw (walks_of_isContainer hcn))
                  exfalso
                  have hat : child.ty = .AT_KEYWORD := hat
                  rw [hat] at hr; cases hr
            · split at h
              · rename_i hr hat
                rw [bind_ok] at h
                obtain ⟨⟨k1, i1⟩, s1, h1, h⟩ := h
                exact ih.loop _ _ _ _ _ _ h (ih.at_ _ _ _ _ _ _ _ _ h1 hk hat ht)
              · rename_i hr hat
                refine ih.loop _ _ _ _ _ _ h ?_
                intro x hx
                rw [List.take_add_one, hk, List.mem_append] at hx
                rcases hx with hx | hx
                · exact ht x hx
                · simp at hx
                  rw [hx]
                  refine .leaf hv hvf hat ?_
                  intro hcn
                  revert hcn hr hat; unfold IsContainer
                  generalize child.ty = ty
                  cases ty <;> simp [recurses]
    · intro p k n i s k' i' s' h hk hat ht
      have hi : i < k.length := (List.getElem?_eq_some_iff.mp hk).1
      rw [atKeyword] at h
      by_cases hm : n.tok.str = b!"mixin"
      · rw [if_pos hm, bind_ok] at h
        obtain ⟨_, s1, h1, h⟩ := h
        rw [pure_ok] at h
        cases h.1
        rw [eraseIdx_take]; exact ht
      · rw [if_neg hm, bind_ok] at h
        obtain ⟨n1, s1, h1, h⟩ := h
        have key : (n1.getD n).tok = n.tok ∧ ∀ c ∈ (n1.getD n).kids, Settled c := by
          cases n1 with
          | some n1 =>
            have := ih.vars _ _ _ _ h1 (by rw [hat]; decide)
            exact ⟨this.1, this.2 (by rw [hat]; rfl)⟩
          | none =>
            exfalso
            cases f with
            | zero => rw [replaceVars] at h1; cases h1
            | succ f =>
              rw [replaceVars, if_neg (by rw [hat]; decide), if_neg (by rw [hat]; decide),
                if_neg (by rw [hat]; simp), bind_ok] at h1
              obtain ⟨_, _, _, h1⟩ := h1
              rw [bind_ok] at h1
              obtain ⟨_, _, _, h1⟩ := h1
              rw [bind_ok] at h1
              obtain ⟨_, _, _, h1⟩ := h1
              rw [if_neg (by unfold isVarSet; rw [hat]; simp), pure_ok] at h1
              cases h1.1
        generalize n1.getD n = m at h key
        obtain ⟨kt, kk⟩ := key
        have hmm : m = .mk n.tok m.kids := by rw [← kt]; cases m; rfl
        rw [hmm] at h
        generalize m.kids = mk at h kk
        have atE : ∀ s nk r s', atExpr E mk s = .ok (nk, r) s' → ∀ c ∈ nk, Settled c := by
          intro s nk r s' h
          unfold atExpr at h
          cases mk with
          | nil => cases h; simp
          | cons c cs =>
            dsimp only at h
            split at h
            · cases h; exact kk
            · cases he : E.expr s (c :: cs) with
              | none => rw [he] at h; cases h
              | some r => rw [he] at h; cases h; exact hE _ _ _ he kk
        have keep : ∀ nk, (∀ c ∈ nk, Settled c) → (n.tok.str ∉ Spec.control) →
            ∀ x ∈ (k.set i (.mk n.tok nk)).take (i + 1), Settled x := by
          intro nk hnk hctl
          refine take_set_succ k i _ ?_ ht
          have hat : n.tok.ty = .AT_KEYWORD := hat
          exact .mk _ _ (by rw [hat]; decide) (by rw [hat]; decide) (fun _ => hctl) (fun _ => hnk)
        have e1 : (Nd.mk n.tok mk).tok = n.tok := rfl
        have e2 : (Nd.mk n.tok mk).kids = mk := rfl
        rw [e1, e2] at h
        by_cases himp : n.tok.str = b!"import"
        · rw [if_pos himp, bind_ok] at h
          obtain ⟨⟨nk, r⟩, s2, h2, h⟩ := h
          have hctl : n.tok.str ∉ Spec.control := by rw [himp]; decide
          have hkeep := keep nk (atE _ _ _ _ h2) hctl
          cases r with
          | none => rw [pure_ok] at h; cases h.1; exact hkeep
          | some e =>
            dsimp only at h
            split at h
            · cases hf : E.file e with
              | alone => rw [hf] at h; dsimp only at h; rw [pure_ok] at h; cases h.1; exact hkeep
              | failed =>
                rw [hf] at h
                dsimp only at h
                rw [bind_ok] at h
                obtain ⟨_, _, _, h⟩ := h
                rw [pure_ok] at h; cases h.1
                rw [eraseIdx_take, List.take_set_of_le (Nat.le_refl _)]; exact ht
              | loaded l =>
                rw [hf] at h
                dsimp only at h
                rw [bind_ok] at h
                obtain ⟨k2, s3, h3, h⟩ := h
                rw [pure_ok] at h; cases h.1
                rw [orThrow_ok] at h3
                rw [insertAll_take h3.1, eraseIdx_take, List.take_set_of_le (Nat.le_refl _)]; exact ht
            · rw [pure_ok] at h; cases h.1; exact hkeep
        · rw [if_neg himp] at h
          by_cases hif : n.tok.str = b!"if"
          · rw [if_pos hif, bind_ok] at h
            obtain ⟨k2, s2, h2, h⟩ := h
            rw [pure_ok] at h; cases h.1
            rw [replaceIf_take h2, eraseIdx_take]; exact ht
          · rw [if_neg hif] at h
            by_cases hel : n.tok.str = b!"else"
            · rw [if_pos hel, bind_ok] at h
              obtain ⟨k2, s2, h2, h⟩ := h
              rw [pure_ok] at h; cases h.1
              rw [replaceElse_take h2, eraseIdx_take]; exact ht
            · rw [if_neg hel] at h
              by_cases hin : n.tok.str = b!"include"
              · rw [if_pos hin] at h
                split at h
                · rw [bind_ok] at h
                  obtain ⟨_, _, _, h⟩ := h
                  rw [pure_ok] at h; cases h.1
                  rw [eraseIdx_take]; exact ht
                · split at h
                  · rw [bind_ok] at h
                    obtain ⟨_, _, _, h⟩ := h
                    rw [pure_ok] at h; cases h.1
                    rw [eraseIdx_take]; exact ht
                  · rw [bind_ok] at h
                    obtain ⟨k2, s2, h2, h⟩ := h
                    rw [pure_ok] at h; cases h.1
                    rw [ih.variable_ _ _ _ _ _ _ _ h2, eraseIdx_take]; exact ht
              · rw [if_neg hin] at h
                have hctl : n.tok.str ∉ Spec.control := by
                  intro hh
                  simp only [Spec.control, List.mem_cons, List.not_mem_nil, or_false] at hh
                  rcases hh with hh | hh | hh | hh
                  · exact hm hh
                  · exact hin hh
                  · exact hif hh
                  · exact hel hh
                split at h
                · rw [bind_ok] at h
                  obtain ⟨⟨nk, r⟩, s2, h2, h⟩ := h
                  rw [pure_ok] at h; cases h.1
                  exact keep nk (atE _ _ _ _ h2) hctl
                · rw [pure_ok] at h; cases h.1
                  exact keep mk kk hctl
    · intro p k n i s k' s' h
      rw [replaceVariable, bind_ok] at h
      obtain ⟨v, s1, _, h⟩ := h
      cases v with
      | none =>
        dsimp only at h
        rw [bind_ok] at h
        obtain ⟨_, _, _, h⟩ := h
        rw [pure_ok] at h; rw [← h.1]
      | some v =>
        dsimp only at h
        split at h
        · split at h
          · rw [bind_ok] at h
            obtain ⟨_, _, _, h⟩ := h
            rw [pure_ok] at h; rw [← h.1]
          · rw [bind_ok] at h
            obtain ⟨⟨n2, _⟩, _, _, h⟩ := h
            rw [bind_ok] at h
            obtain ⟨vars, _, _, h⟩ := h
            cases vars with
            | none => rw [pure_ok] at h; rw [← h.1]
            | some vars =>
              dsimp only at h
              rw [bind_ok] at h
              obtain ⟨root, _, _, h⟩ := h
              cases root with
              | none => cases h
              | some root => rw [orThrow_ok] at h; exact insertValue_take h.1
        · split at h
          · rw [bind_ok] at h
            obtain ⟨_, _, _, h⟩ := h
            rw [pure_ok] at h; rw [← h.1]
          · rw [orThrow_ok] at h; exact insertValue_take h.1

/-- C54: when the preprocessor returns, no variable, @mixin, @include, @if or @else is left anywhere in the tree,
whatever the variables, the mixins and the imported files; the expressions it evaluates are supposed not to
make new ones. -/
theorem C54_settled (E : Env)
    (hE : ∀ s k r, E.expr s k = some r → (∀ c ∈ k, Settled c) → ∀ c ∈ r.kids, Settled c)
    (f : Nat) (root root' : Nd) (s s' : St) (h : replaceRoot E f root s = .ok root' s')
    (ht : root.ty ≠ .VARIABLE ∧ root.ty ≠ .VARIABLE_FUNCTION ∧ root.ty ≠ .AT_KEYWORD) : Settled root' := by
  unfold replaceRoot at h
  rw [bind_ok] at h
  obtain ⟨r, s1, h1, h⟩ := h
  rw [orThrow_ok] at h
  rw [h.1] at h1
  have S := settles E hE f
  by_cases hc : root.ty = .COMMENT
  · obtain ⟨c, e, hc⟩ := S.comment _ _ _ _ h1 hc
    cases e
    exact .leaf (by simp [hc]) (by simp [hc]) (by simp [hc]) (by rw [hc]; unfold IsContainer; decide)
  · obtain ⟨e, hw⟩ := S.vars _ _ _ _ h1 hc
    cases root' with
    | mk t kids =>
    have e : t = root.tok := e
    subst e
    exact .mk _ _ ht.1 ht.2.1 (fun h => absurd h ht.2.2) (fun hcn => hw (walks_of_isContainer hcn))

/-! ### Examples -/

/-- A preprocessor without files, whose expressions are taken as they are and are true. -/
def exEnv : Env where
  expr := fun s k => some { kids := k, result := none, st := s }
  truth := fun _ => (true, false)
  file := fun _ => .alone
  toString := fun n => n.tok.str

def exPos : Pos := ⟨1, 1, 1⟩

def exLeaf (ty : NT) (str : Str) : Nd := .leaf { ty := ty, pos := exPos, str := str }
def exNode (ty : NT) (kids : List Nd) : Nd := .mk { ty := ty, pos := exPos } kids

/-- `p{color:red}` -/
def exPlain : Nd :=
  exNode .LIST [exNode .COMPONENT_VALUE [exLeaf .IDENTIFIER b!"p", exNode .OPEN_CURLYBRACKET
    [exNode .DECLARATION [exLeaf .IDENTIFIER b!"red"]]]]

/-- `$x : red; p{color:$x}` -/
def exSet : Nd :=
  exNode .LIST [
    exNode .COMPONENT_VALUE [exLeaf .VARIABLE b!"x", exLeaf .COLON [], exLeaf .IDENTIFIER b!"red"],
    exNode .COMPONENT_VALUE [exLeaf .IDENTIFIER b!"p", exNode .OPEN_CURLYBRACKET
      [exNode .DECLARATION [exLeaf .VARIABLE b!"x"]]]]

/-- C53 is not about nothing. -/
example : Plain exPlain := by
  have leaf : ∀ str, Plain (exLeaf .IDENTIFIER str) := fun str =>
    .mk _ _ (by simp) (by simp) (by simp) (by simp) (by simp) (by simp)
  have node : ∀ ty kids, ty ≠ .VARIABLE → ty ≠ .VARIABLE_FUNCTION → ty ≠ .AT_KEYWORD → ty ≠ .COMMENT → kids ≠ [] →
      (∀ c ∈ kids, Plain c) → Plain (exNode ty kids) := fun ty kids h1 h2 h3 h4 h5 h6 =>
    .mk _ _ h1 h2 (fun h => absurd h h3) (fun _ => h5) (fun h => absurd h h4) h6
  refine node _ _ (by simp) (by simp) (by simp) (by simp) (by simp) ?_
  simp only [List.mem_cons, List.not_mem_nil, or_false, forall_eq]
  refine node _ _ (by simp) (by simp) (by simp) (by simp) (by simp) ?_
  simp only [List.mem_cons, List.not_mem_nil, or_false, forall_eq, forall_eq_or_imp]
  refine ⟨leaf _, node _ _ (by simp) (by simp) (by simp) (by simp) (by simp) ?_⟩
  simp only [List.mem_cons, List.not_mem_nil, or_false, forall_eq]
  refine node _ _ (by simp) (by simp) (by simp) (by simp) (by simp) ?_
  simp only [List.mem_cons, List.not_mem_nil, or_false, forall_eq]
  exact leaf _

/-- C54 is not about nothing: the variable of the second rule is replaced by its value. -/
example : (∀ s k r, exEnv.expr s k = some r → (∀ c ∈ k, Settled c) → ∀ c ∈ r.kids, Settled c) ∧
    ∃ s', replaceRoot exEnv 20 exSet {} = .ok exPlain s' :=
  ⟨fun s k r h hk => by cases h; exact hk, _, rfl⟩

end Csspp.Vars
