import Verif.Props.Vars

/-! One step of the loop of Model/Vars.lean after the other. -/

namespace Csspp.Vars
open Csspp.Parse (Nd)
open Csspp.Lex (Tok Pos)
open Csspp.Spec (Plain)

/-- What the loop does on the children `k` from `i` is what it does on `k'` from `i'`. -/
def To (E : Env) (p : NT) (k : List Nd) (i : Nat) (s : St) (k' : List Nd) (i' : Nat) (s' : St) : Prop :=
  ∀ r, r ≠ .fuel → Gives (fun f => loop E f p k' i') s' r → Gives (fun f => loop E f p k i) s r

theorem To.refl {E : Env} {p : NT} {k : List Nd} {i : Nat} {s : St} : To E p k i s k i s := fun _ _ h => h

theorem To.trans {E : Env} {p : NT} {k k' k'' : List Nd} {i i' i'' : Nat} {s s' s'' : St} (h : To E p k i s k' i' s')
    (h' : To E p k' i' s' k'' i'' s'') : To E p k i s k'' i'' s'' := fun r hr hg => h r hr (h' r hr hg)

theorem gives_bind {α β : Type} {m : Nat → M α} {f : Nat → α → M β} {s s' : St} {v : α} {r : R β}
    (h : Gives m s (.ok v s')) (h' : Gives (fun g => f g v) s' r) : Gives (fun g => m g >>= f g) s r := by
  obtain ⟨a, ha⟩ := h
  obtain ⟨b, hb⟩ := h'
  refine ⟨max a b, fun g hg => ?_⟩
  show (m g >>= f g) s = r
  rw [bind_apply, ha g (by omega)]
  exact hb g (by omega)

theorem gives_throw {α β : Type} {m : Nat → M α} {f : Nat → α → M β} {s : St}
    (h : Gives m s .throws) : Gives (fun g => m g >>= f g) s .throws := by
  obtain ⟨a, ha⟩ := h
  refine ⟨a, fun g hg => ?_⟩
  show (m g >>= f g) s = .throws
  rw [bind_apply, ha g hg]

theorem gives_succ {α : Type} {m n : Nat → M α} {s : St} {r : R α} (h : Gives m s r) (e : ∀ g, n (g + 1) s = m g s) :
    Gives n s r := by
  obtain ⟨a, ha⟩ := h
  refine ⟨a + 1, fun g hg => ?_⟩
  obtain ⟨g, rfl⟩ : ∃ k, g = k + 1 := ⟨g - 1, by omega⟩
  rw [e, ha g (by omega)]

theorem gives_pure {α : Type} (v : α) (s : St) : Gives (fun _ => (pure v : M α)) s (.ok v s) := ⟨0, fun _ _ => rfl⟩

theorem loop_end (E : Env) (p : NT) (k : List Nd) (s : St) : Gives (fun f => loop E f p k k.length) s (.ok k s) := by
  refine gives_succ (gives_pure k s) (fun g => ?_)
  rw [loop, List.getElem?_eq_none (Nat.le_refl _)]

theorem to_at {E : Env} {p : NT} {k : List Nd} {i : Nat} {c : Nd} {s : St} {k' : List Nd} {i' : Nat} {s' : St}
    (hc : k[i]? = some c) (ht : c.ty = .AT_KEYWORD) (h : Gives (fun f => atKeyword E f p k c i) s (.ok (k', i') s')) :
    To E p k i s k' i' s' := by
  intro r _ hg
  refine gives_succ (gives_bind (f := fun f v => loop E f p v.1 v.2) h hg) (fun g => ?_)
  conv => lhs; rw [loop, hc]
  dsimp only
  rw [if_neg (by rw [ht]; simp), if_neg (by rw [ht]; simp), if_neg (by rw [ht]; simp [recurses]), if_pos ht]

theorem throws_at {E : Env} {p : NT} {k : List Nd} {i : Nat} {c : Nd} {s : St}
    (hc : k[i]? = some c) (ht : c.ty = .AT_KEYWORD) (h : Gives (fun f => atKeyword E f p k c i) s .throws) :
    Gives (fun f => loop E f p k i) s .throws := by
  refine gives_succ (gives_throw (f := fun f v => loop E f p v.1 v.2) h) (fun g => ?_)
  conv => lhs; rw [loop, hc]
  dsimp only
  rw [if_neg (by rw [ht]; simp), if_neg (by rw [ht]; simp), if_neg (by rw [ht]; simp [recurses]), if_pos ht]

/-- The children of a plain @-keyword. -/
theorem gives_keyword {E : Env} {t : Tok} {kids : List Nd} (ht : t.ty = .AT_KEYWORD) (hk : ∀ c ∈ kids, Plain c) (s : St) :
    Gives (fun f => replaceVars E f (.mk t kids)) s (.ok (some (.mk t kids)) s) := by
  have hl := loop_plain E .AT_KEYWORD [] kids hk (fun c hc s => C53_plain E c (hk c hc) s) s
  refine gives_succ (gives_bind (f := fun _ k => pure (some (.mk t k))) hl (gives_pure _ s)) (fun g => ?_)
  have ht' : (Nd.mk t kids).ty = .AT_KEYWORD := ht
  have e1 : isScope (.mk t kids) = false := by unfold isScope; rw [ht']; rfl
  have e2 : isVarSet (.mk t kids) = false := by unfold isVarSet; rw [ht']; rfl
  have e3 : firstIdx (.mk t kids) = 0 := by unfold firstIdx; rw [e2]; rfl
  conv => lhs; rw [replaceVars]
  rw [ht', if_neg (by simp), if_neg (by simp [walks]), if_neg (by simp), e1, e2, e3]
  simp only [bind_apply, enter, leave]
  rfl

/-- A plain child is left as it is. -/
theorem to_plain {E : Env} {p : NT} (d : List Nd) {c : Nd} (l : List Nd) (hc : Plain c) (s : St) :
    To E p (d ++ c :: l) d.length s (d ++ c :: l) (d.length + 1) s := by
  intro r hr hg
  have h1 := C53_plain E c hc s
  have e1 : (d ++ c :: l)[d.length]? = some c := by simp
  have e2 : (d ++ c :: l).set d.length c = d ++ c :: l := by simp
  cases hc with
  | mk t kids v1 v2 v3 v4 v5 v6 =>
  have v1' : (Nd.mk t kids).ty ≠ .VARIABLE := v1
  have v2' : (Nd.mk t kids).ty ≠ .VARIABLE_FUNCTION := v2
  by_cases hrec : recurses (Nd.mk t kids).ty = true
  · refine gives_succ (gives_bind (f := fun f c => match c with
        | some c => loop E f p ((d ++ Nd.mk t kids :: l).set d.length c) (d.length + 1)
        | none => loop E f p ((d ++ Nd.mk t kids :: l).eraseIdx d.length) d.length) h1 (by dsimp only; rw [e2]; exact hg)) (fun g => ?_)
    conv => lhs; rw [loop, e1]
    dsimp only
    rw [if_neg v1', if_neg v2', if_pos hrec]
    rfl
  · by_cases hat : (Nd.mk t kids).ty = .AT_KEYWORD
    · refine to_at e1 hat ?_ r hr hg
      have v3 := v3 hat
      have hn : ∀ s, s ∈ Spec.directives → (Nd.mk t kids).tok.str ≠ s := fun s hs e => v3 (e ▸ hs)
      have hm : isMessage t.str = false := by
        unfold isMessage
        rw [decide_eq_false_iff_not]
        rintro (h | h | h | h | h)
        · exact hn b!"error" (by decide) h
        · exact hn b!"warning" (by decide) h
        · exact hn b!"message" (by decide) h
        · exact hn b!"info" (by decide) h
        · exact hn b!"debug" (by decide) h
      obtain ⟨a, ha⟩ := h1
      refine ⟨a + 1, fun g hg => ?_⟩
      obtain ⟨g, rfl⟩ : ∃ k, g = k + 1 := ⟨g - 1, by omega⟩
      have e4 := ha g (by omega)
      dsimp only at e4 ⊢
      rw [atKeyword, if_neg (hn b!"mixin" (by decide)), bind_apply, e4]
      dsimp only [Option.getD]
      rw [if_neg (hn b!"import" (by decide)), if_neg (hn b!"if" (by decide)),
        if_neg (hn b!"else" (by decide)), if_neg (hn b!"include" (by decide)),
        if_neg (by show ¬ isMessage t.str = true; rw [hm]; simp), e2]
      rfl
    · refine gives_succ hg (fun g => ?_)
      conv => lhs; rw [loop, e1]
      dsimp only
      rw [if_neg v1', if_neg v2', if_neg hrec, if_neg hat]

/-- Plain children are left as they are. -/
theorem to_plains {E : Env} {p : NT} (d : List Nd) (m l : List Nd) (hm : ∀ c ∈ m, Plain c) (s : St) :
    To E p (d ++ (m ++ l)) d.length s (d ++ (m ++ l)) (d.length + m.length) s := by
  induction m generalizing d with
  | nil => exact .refl
  | cons c m ih =>
    refine (to_plain d (m ++ l) (hm c (by simp)) s).trans ?_
    have := ih (d ++ [c]) (fun c hc => hm c (by simp [hc]))
    simp only [List.append_assoc, List.singleton_append, List.length_append, List.length_singleton] at this
    rw [show d.length + (c :: m).length = d.length + 1 + m.length by simp; omega]
    exact this

/-- Children inserted in the middle of the others. -/
theorem insertAll_mid (d cs l : List Nd) (h : ∀ c ∈ cs, c.ty ≠ .EOF_TOKEN ∧ c.ty ≠ .WHITESPACE) :
    insertAll (d ++ l) d.length cs = some (d ++ (cs ++ l)) := by
  induction cs generalizing d with
  | nil => rfl
  | cons c cs ih =>
    have hc := h c (by simp)
    have e : insertChild (d ++ l) d.length c = some ((d ++ [c]) ++ l) := by
      unfold insertChild
      cases l with
      | nil =>
        rw [if_pos (by simp)]
        unfold Parse.push
        rw [if_pos ⟨hc.1, .inl hc.2⟩]
        simp
      | cons x l =>
        rw [if_neg (by simp), if_neg (by simp), if_pos hc.1]
        simp
    unfold insertAll
    rw [e]
    dsimp only
    have := ih (d ++ [c]) (fun c hc => h c (by simp [hc]))
    rw [List.length_append, List.length_singleton] at this
    rw [this]
    simp

end Csspp.Vars
