import Verif.Lemmas.CompileRun

/-! Sizes and places of the nodes, for Model/Compile.lean. -/

namespace Csspp.Compile
open Csspp.Parse (Nd push argify ArgRes mkArg argLoop)
open Csspp.Lex (Tok Pos)
open Csspp.Spec.Compiled

mutual
/-- The number of nodes, without what is in the declarations. -/
def sz : Nd → Nat
  | .mk t kids => if t.ty = .DECLARATION then 1 else 1 + szAll kids
def szAll : List Nd → Nat
  | [] => 0
  | c :: cs => sz c + szAll cs
end

theorem sz_pos (n : Nd) : 1 ≤ sz n := by
  cases n; unfold sz; split <;> omega

theorem szAll_cons (c : Nd) (l : List Nd) : szAll (c :: l) = sz c + szAll l := by conv => lhs; unfold szAll

theorem szAll_nil : szAll [] = 0 := by unfold szAll; rfl

theorem szAll_append (a b : List Nd) : szAll (a ++ b) = szAll a + szAll b := by
  induction a with
  | nil => simp [szAll_nil]
  | cons c a ih => rw [List.cons_append, szAll_cons, szAll_cons, ih]; omega

theorem sz_mk {t : Tok} {kids : List Nd} (h : t.ty ≠ .DECLARATION) : sz (.mk t kids) = 1 + szAll kids := by
  unfold sz; rw [if_neg h]

theorem sz_kids {n : Nd} (h : n.ty ≠ .DECLARATION) : sz n = 1 + szAll n.kids := by
  cases n; exact sz_mk h

theorem szAll_kids_le {n : Nd} (h : n.ty ≠ .DECLARATION) : szAll n.kids < sz n := by rw [sz_kids h]; omega

theorem length_le (l : List Nd) : l.length ≤ szAll l := by
  induction l with
  | nil => simp
  | cons c l ih => rw [szAll_cons, List.length_cons]; have := sz_pos c; omega

/-- What compile_declaration_values() looks into. -/
def looked (ty : NT) : Bool := decide (ty = .LIST ∨ ty = .OPEN_CURLYBRACKET ∨ ty = .COMPONENT_VALUE)
/-- The size for compile_declaration_values(). -/
def vsz (n : Nd) : Nat := if looked n.ty then sz n else 1
def vszAll : List Nd → Nat
  | [] => 0
  | c :: cs => vsz c + vszAll cs

theorem vsz_le (n : Nd) : vsz n ≤ sz n := by unfold vsz; split; omega; exact sz_pos n
theorem vsz_pos (n : Nd) : 1 ≤ vsz n := by unfold vsz; split; exact sz_pos n; omega
theorem vszAll_le (l : List Nd) : vszAll l ≤ szAll l := by
  induction l with
  | nil => simp [vszAll, szAll_nil]
  | cons c l ih => rw [szAll_cons, vszAll]; have := vsz_le c; omega
theorem vszAll_append (a b : List Nd) : vszAll (a ++ b) = vszAll a + vszAll b := by
  induction a with
  | nil => simp [vszAll]
  | cons c a ih => rw [List.cons_append, vszAll, vszAll, ih]; omega
theorem vsz_of {n : Nd} (h : looked n.ty = true) : vsz n = sz n := by unfold vsz; rw [if_pos h]
theorem vsz_one {n : Nd} (h : looked n.ty = false) : vsz n = 1 := by unfold vsz; rw [h]; rfl

theorem push_cases (l : List Nd) (c : Nd) : push l c = l ++ [c] ∨ push l c = l := by
  unfold push; split <;> simp

theorem vszAll_push (l : List Nd) (c : Nd) : vszAll (push l c) ≤ vszAll l + vsz c := by
  rcases push_cases l c with h | h <;> rw [h]
  · rw [vszAll_append]; simp [vszAll]
  · omega

theorem vszAll_foldl (l acc : List Nd) : vszAll (l.foldl push acc) ≤ vszAll acc + vszAll l := by
  induction l generalizing acc with
  | nil => simp [vszAll]
  | cons c l ih => rw [List.foldl_cons]; have := ih (push acc c); have := vszAll_push acc c; rw [vszAll]; omega

theorem vszAll_argLoop (sep : NT) (pos : Pos) (cs : List Nd) :
    ∀ (done arg : List Nd) {kids : List Nd} {err : Option Parse.ArgErr},
      argLoop sep pos done arg cs = .done kids err → vszAll kids ≤ vszAll done + 1 + vszAll cs := by
  have harg : ∀ arg, vsz (mkArg sep pos arg) = 1 := fun arg => vsz_one (by rfl)
  induction cs with
  | nil =>
    intro done arg kids err h
    unfold argLoop at h
    cases h
    rw [vszAll_append]; simp [vszAll, harg]
  | cons c cs ih =>
    intro done arg kids err h
    have hp := vsz_pos c
    unfold argLoop at h
    split at h
    · split at h
      · cases h
      · cases h
        rw [vszAll_append, vszAll_append]; simp [vszAll, harg]
    · split at h
      · dsimp only at h
        split at h
        · cases h; rw [vszAll_append]; simp [vszAll, harg]
        · split at h
          · cases h; rw [vszAll_append]; simp [vszAll, harg]
          · have := ih _ _ h
            rw [vszAll_append] at this
            simp only [vszAll, harg] at this ⊢
            omega
      · split at h
        · have := ih _ _ h; rw [vszAll]; omega
        · have := ih _ _ h; rw [vszAll]; omega

theorem vszAll_argify {n : Nd} {sep : NT} {kids : List Nd} {err : Option Parse.ArgErr}
    (h : argify n sep = .done kids err) : vszAll kids ≤ vszAll n.kids + 1 := by
  unfold argify at h
  split at h
  · cases h
  · split at h
    · cases h
    · split at h
      · cases h; simp [vszAll]
      · rename_i c cs e
        rw [e]
        split at h
        · cases h; omega
        · have := vszAll_argLoop sep _ _ _ _ h
          simp only [vszAll] at this ⊢
          omega

/-! ### The start of a declaration -/

theorem headValues_good {pos : Pos} {warn w : Option (Err × Pos)} {id : Nd} {l values : List Nd} {name : Str}
    (h : headValues pos warn id l = .good w name values) : values <:+ l := by
  unfold headValues at h
  split at h
  · cases h
  · split at h
    · split at h
      · cases h
      · cases h; exact ⟨[_], rfl⟩
    · cases h; exact List.suffix_refl _

theorem headColon_good {pos : Pos} {warn w : Option (Err × Pos)} {id next : Nd} {l values : List Nd} {name : Str}
    (h : headColon pos warn id next l = .good w name values) : values <:+ l := by
  unfold headColon at h
  split at h
  · exact headValues_good h
  · cases h

theorem headSpace_good {pos : Pos} {warn w : Option (Err × Pos)} {id : Nd} {l values : List Nd} {name : Str}
    (h : headSpace pos warn id l = .good w name values) : ∃ c l', c :: l' <:+ l ∧ values <:+ l' := by
  unfold headSpace at h
  split at h
  · cases h
  · split at h
    · split at h
      · cases h
      · exact ⟨_, _, ⟨[_], rfl⟩, headColon_good h⟩
    · exact ⟨_, _, List.suffix_refl _, headColon_good h⟩

/-- The values of a declaration are at the end of its children, after the name and the ':'. -/
theorem declHead_good {pos : Pos} {w : Option (Err × Pos)} {kids values : List Nd} {name : Str}
    (h : declHead pos kids = .good w name values) : ∃ a b pre, kids = a :: b :: (pre ++ values) := by
  have key : ∀ {warn id l}, headSpace pos warn id l = .good w name values → ∃ b pre, l = b :: (pre ++ values) := by
    intro warn id l h
    obtain ⟨c, l', ⟨x, hx⟩, ⟨y, hy⟩⟩ := headSpace_good h
    subst hx hy
    cases x with
    | nil => exact ⟨c, y, rfl⟩
    | cons b x => exact ⟨b, x ++ c :: y, by simp⟩
  unfold declHead at h
  split at h
  · cases h
  · cases h
  · split at h
    · obtain ⟨b, pre, e⟩ := key h
      exact ⟨_, b, pre, by rw [e]⟩
    · split at h
      · obtain ⟨b, pre, e⟩ := key h
        exact ⟨_, _, b :: pre, by rw [e]; rfl⟩
      · split at h
        · obtain ⟨b, pre, e⟩ := key h
          exact ⟨_, b, pre, by rw [e]⟩
        · cases h

theorem szAll_values {pos : Pos} {w : Option (Err × Pos)} {kids values : List Nd} {name : Str}
    (h : declHead pos kids = .good w name values) : szAll values + 2 ≤ szAll kids := by
  obtain ⟨a, b, pre, rfl⟩ := declHead_good h
  rw [szAll_cons, szAll_cons, szAll_append]
  have := sz_pos a; have := sz_pos b; omega

end Csspp.Compile
