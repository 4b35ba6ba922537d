import Verif.Lemmas.VarsFuel

namespace Csspp.Vars
open Csspp.Parse (Nd)
open Csspp.Lex (Tok Pos)

theorem bind_apply {α β : Type} (m : M α) (f : α → M β) (s : St) :
    (m >>= f) s = match m s with | .ok v s => f v s | .throws => .throws | .fuel => .fuel := rfl

theorem pure_apply {α : Type} (v : α) (s : St) : (pure v : M α) s = .ok v s := rfl

theorem bind_ok {α β : Type} {m : M α} {f : α → M β} {s : St} {v : β} {s' : St} :
    (m >>= f) s = .ok v s' ↔ ∃ a s1, m s = .ok a s1 ∧ f a s1 = .ok v s' := by
  rw [bind_apply]
  cases m s with
  | ok a s1 =>
    dsimp only
    constructor
    · intro h; exact ⟨a, s1, rfl, h⟩
    · rintro ⟨_, _, h, h'⟩; cases h; exact h'
  | throws => simp
  | fuel => simp

theorem pure_ok {α : Type} {v w : α} {s s' : St} : (pure v : M α) s = .ok w s' ↔ v = w ∧ s = s' := by
  rw [pure_apply]; simp

theorem orThrow_ok {α : Type} {o : Option α} {w : α} {s s' : St} : orThrow o s = .ok w s' ↔ o = some w ∧ s = s' := by
  cases o with
  | none => simp [orThrow, throws]
  | some v => simp [orThrow, pure_ok]

/-- insert_child() leaves alone what is before. -/
theorem insertChild_take {kids : List Nd} {i : Nat} {c : Nd} {k : List Nd} (h : insertChild kids i c = some k) :
    k.take i = kids.take i ∧ i ≤ kids.length ∧ kids.length ≤ k.length := by
  unfold insertChild at h
  split at h
  · rename_i hi
    subst hi
    unfold Parse.push at h
    split at h <;> cases h <;> simp
  · split at h
    · cases h
    · split at h <;> cases h
      · have : i < kids.length := by omega
        refine ⟨?_, by omega, by simp; omega⟩
        rw [List.take_append_of_le_length (by simp; omega), List.take_take, Nat.min_self]
      · exact ⟨rfl, by omega, by omega⟩

theorem insertAll_take {kids : List Nd} {i : Nat} {cs k : List Nd} (h : insertAll kids i cs = some k) :
    k.take i = kids.take i := by
  induction cs generalizing kids i with
  | nil => cases h; rfl
  | cons c cs ih =>
    rw [insertAll] at h
    cases hc : insertChild kids i c with
    | none => rw [hc] at h; cases h
    | some k1 =>
      rw [hc] at h
      have h1 := ih h
      have h2 := (insertChild_take hc).1
      have h3 : k.take i = (k.take (i + 1)).take i := by rw [List.take_take]; congr 1; omega
      rw [h3, h1, List.take_take, ← h2]; congr 1; omega

theorem insertValue_take {p : NT} {kids : List Nd} {i : Nat} {v : Nd} {k : List Nd}
    (h : insertValue p kids i v = some k) : k.take i = kids.take i := by
  unfold insertValue at h
  split at h
  · split at h
    · split at h
      · exact insertAll_take h
      · exact insertAll_take h
    · exact insertAll_take h
  · split at h
    · exact insertAll_take h
    · split at h
      · cases h; rfl
      · exact (insertChild_take h).1

theorem setInt_take {kids : List Nd} {i : Nat} {v : Int} {k : List Nd} (h : setInt kids i v = some k) :
    k.take i = kids.take i := by
  unfold setInt at h
  split at h
  · cases h
  · split at h
    · cases h; rw [List.take_set_of_le (Nat.le_refl _)]
    · cases h

theorem eraseIdx_take (kids : List Nd) (i : Nat) : (kids.eraseIdx i).take i = kids.take i := by
  rw [List.eraseIdx_eq_take_drop_succ]
  by_cases h : i ≤ kids.length
  · rw [List.take_append_of_le_length (by simp; omega), List.take_take, Nat.min_self]
  · rw [List.drop_eq_nil_of_le (by omega), List.append_nil, List.take_take, Nat.min_self]

end Csspp.Vars
