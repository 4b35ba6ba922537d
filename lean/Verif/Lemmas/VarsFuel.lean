import Verif.Model.Vars

/-! More fuel does not change a result of Model/Vars.lean. -/

namespace Csspp.Vars
open Csspp.Parse (Nd)

/-- `a` is `b`, or `a` ran out of fuel. -/
def R.Le {α : Type} (a b : R α) : Prop := a = .fuel ∨ a = b
def M.Le {α : Type} (a b : M α) : Prop := ∀ s, (a s).Le (b s)

theorem M.Le.refl {α : Type} (a : M α) : a.Le a := fun _ => .inr rfl

theorem M.Le.fuel {α : Type} (a : M α) : M.Le outOfFuel a := fun _ => .inl rfl

theorem M.Le.bind {α β : Type} {a b : M α} {f g : α → M β} (h : a.Le b) (hf : ∀ v, (f v).Le (g v)) :
    M.Le (a >>= f) (b >>= g) := by
  intro s
  rcases h s with h | h
  · left; show (match a s with | .ok v s => f v s | .throws => .throws | .fuel => .fuel) = _; rw [h]
  · show R.Le (match a s with | .ok v s => f v s | .throws => .throws | .fuel => .fuel)
      (match b s with | .ok v s => g v s | .throws => .throws | .fuel => .fuel)
    rw [h]
    cases b s with
    | ok v s => exact hf v s
    | throws => exact .inr rfl
    | fuel => exact .inr rfl

theorem M.Le.separately {α : Type} {a b : M α} (vars : List Var) (h : a.Le b) :
    M.Le (separately vars a) (separately vars b) := by
  intro s
  unfold Vars.separately
  rcases h { scopes := [], root := vars, errs := s.errs } with h | h
  · left; rw [h]
  · right; rw [h]

/-- The four functions at once. -/
def LeAt (E : Env) (f g : Nat) : Prop :=
  (∀ n, M.Le (replaceVars E f n) (replaceVars E g n)) ∧
  (∀ p k i, M.Le (loop E f p k i) (loop E g p k i)) ∧
  (∀ p k n i, M.Le (atKeyword E f p k n i) (atKeyword E g p k n i)) ∧
  (∀ p k n i, M.Le (replaceVariable E f p k n i) (replaceVariable E g p k n i))

theorem leAt_succ (E : Env) (f : Nat) : LeAt E f (f + 1) := by
  induction f with
  | zero =>
    refine ⟨fun n => ?_, fun p k i => ?_, fun p k n i => ?_, fun p k n i => ?_⟩
    · rw [replaceVars]; exact .fuel _
    · rw [loop]; exact .fuel _
    · rw [atKeyword]; exact .fuel _
    · rw [replaceVariable]; exact .fuel _
  | succ f ih =>
    obtain ⟨h1, h2, h3, h4⟩ := ih
    refine ⟨fun n => ?_, fun p k i => ?_, fun p k n i => ?_, fun p k n i => ?_⟩
    · rw [replaceVars, replaceVars]
      split
      · exact .refl _
      · split
        · exact .refl _
        · split
          · exact .refl _
          · exact .bind (.refl _) fun _ => .bind (h2 _ _ _) fun _ => .refl _
    · rw [loop, loop]
      split
      · exact .refl _
      · split
        · exact .bind (h4 _ _ _ _) fun _ => h2 _ _ _
        · split
          · exact .bind (h1 _) fun _ => .bind (h4 _ _ _ _) fun _ => h2 _ _ _
          · split
            · refine .bind (h1 _) fun c => ?_
              cases c
              · exact h2 _ _ _
              · exact h2 _ _ _
            · split
              · exact .bind (h3 _ _ _ _) fun _ => h2 _ _ _
              · exact h2 _ _ _
    · rw [atKeyword, atKeyword]
      split
      · exact .refl _
      · refine .bind (h1 _) fun n' => ?_
        dsimp only
        split
        · exact .refl _
        · split
          · exact .refl _
          · split
            · exact .refl _
            · split
              · split
                · exact .refl _
                · split
                  · exact .refl _
                  · exact .bind (h4 _ _ _ _) fun _ => .refl _
              · exact .refl _
    · rw [replaceVariable, replaceVariable]
      refine .bind (.refl _) fun v => ?_
      cases v with
      | none => exact .refl _
      | some v =>
        dsimp only
        split
        · split
          · exact .refl _
          · refine .bind (.refl _) fun x => .bind (.refl _) fun vars => ?_
            cases vars with
            | none => exact .refl _
            | some vars =>
              dsimp only
              exact .bind (M.Le.separately vars (h1 _)) fun _ => .refl _
        · exact .refl _

theorem LeAt.trans {E : Env} {f g h : Nat} (a : LeAt E f g) (b : LeAt E g h) : LeAt E f h := by
  have key : ∀ {α : Type} {x y z : M α}, x.Le y → y.Le z → x.Le z := by
    intro α x y z p q s
    rcases p s with p | p
    · exact .inl p
    · rcases q s with q | q
      · exact .inl (p.trans q)
      · exact .inr (p.trans q)
  exact ⟨fun n => key (a.1 n) (b.1 n), fun p k i => key (a.2.1 p k i) (b.2.1 p k i),
    fun p k n i => key (a.2.2.1 p k n i) (b.2.2.1 p k n i), fun p k n i => key (a.2.2.2 p k n i) (b.2.2.2 p k n i)⟩

theorem leAt {E : Env} {f g : Nat} (h : f ≤ g) : LeAt E f g := by
  induction h with
  | refl => exact ⟨fun _ => .refl _, fun _ _ _ => .refl _, fun _ _ _ _ => .refl _, fun _ _ _ _ => .refl _⟩
  | step _ ih => exact ih.trans (leAt_succ E _)

theorem R.Le.eq {α : Type} {a b : R α} (h : a.Le b) (hn : a ≠ .fuel) : b = a := by
  rcases h with h | h
  · exact absurd h hn
  · exact h.symm

theorem R.Le.ok {α : Type} {a b : R α} {v : α} {s : St} (h : a.Le b) (ha : a = .ok v s) : b = .ok v s := by
  rw [h.eq (by rw [ha]; simp), ha]

/-- What a call does when it is given enough fuel. -/
def Gives {α : Type} (m : Nat → M α) (s : St) (r : R α) : Prop := ∃ f, ∀ g, f ≤ g → m g s = r

theorem gives_vars {E : Env} {f : Nat} {n : Nd} {s : St} {r : R (Option Nd)} (h : replaceVars E f n s = r)
    (hr : r ≠ .fuel) : Gives (fun f => replaceVars E f n) s r :=
  ⟨f, fun g hg => by show replaceVars E g n s = r; rw [((leAt hg).1 n s).eq (by rw [h]; exact hr), h]⟩

theorem gives_loop {E : Env} {f : Nat} {p : NT} {k : List Nd} {i : Nat} {s : St} {r : R (List Nd)}
    (h : loop E f p k i s = r) (hr : r ≠ .fuel) : Gives (fun f => loop E f p k i) s r :=
  ⟨f, fun g hg => by show loop E g p k i s = r; rw [((leAt hg).2.1 p k i s).eq (by rw [h]; exact hr), h]⟩

end Csspp.Vars
