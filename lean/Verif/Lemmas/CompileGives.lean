import Verif.Lemmas.CompileRun

/-! Exact results of the functions of Model/Compile.lean: the result with enough fuel. -/

namespace Csspp.Compile
open Csspp.Parse (Nd)
open Csspp.Lex (Tok Pos)

/-- There is only one result. -/
theorem Gives.unique {α : Type} {m : Nat → M α} {s : St} {r r' : R α} (h : Gives m s r) (h' : Gives m s r') : r = r' := by
  obtain ⟨f, h⟩ := h
  obtain ⟨f', h'⟩ := h'
  rw [← h (max f f') (by omega), h' (max f f') (by omega)]

theorem Gives.const {α : Type} {m : M α} {s : St} : Gives (fun _ => m) s (m s) := ⟨0, fun _ _ => rfl⟩

theorem Gives.succ {α : Type} {m n : Nat → M α} {s : St} {r : R α} (h : Gives m s r)
    (e : ∀ f, n (f + 1) s = m f s) : Gives n s r := by
  obtain ⟨f, h⟩ := h
  refine ⟨f + 1, fun g hg => ?_⟩
  obtain ⟨g, rfl⟩ : ∃ k, g = k + 1 := ⟨g - 1, by omega⟩
  rw [e, h g (by omega)]

theorem Gives.bind {α β : Type} {m : Nat → M α} {k : Nat → α → M β} {s s' : St} {v : α} {r : R β}
    (h : Gives m s (.ok v s')) (h' : Gives (fun f => k f v) s' r) : Gives (fun f => m f >>= k f) s r := by
  obtain ⟨f, h⟩ := h
  obtain ⟨f', h'⟩ := h'
  refine ⟨max f f', fun g hg => ?_⟩
  show (m g >>= k g) s = _
  rw [bind_apply, h g (by omega)]
  exact h' g (by omega)

theorem Gives.bind_throws {α β : Type} {m : Nat → M α} {k : Nat → α → M β} {s : St}
    (h : Gives m s .throws) : Gives (fun f => m f >>= k f) s .throws := by
  obtain ⟨f, h⟩ := h
  refine ⟨f, fun g hg => ?_⟩
  show (m g >>= k g) s = _
  rw [bind_apply, h g (by omega)]

theorem Gives.map {α β : Type} {m : Nat → M α} {k : α → β} {s s' : St} {v : α}
    (h : Gives m s (.ok v s')) : Gives (fun f => m f >>= fun v => Pure.pure (k v)) s (.ok (k v) s') :=
  Gives.bind h ⟨0, fun _ _ => rfl⟩

/-- The messages of a call, the last one first. -/
def St.add (s : St) (l : List (Err × Pos)) : St := { s with errs := l ++ s.errs }

theorem St.add_nil (s : St) : s.add [] = s := rfl
theorem St.add_add (s : St) (l l' : List (Err × Pos)) : (s.add l).add l' = s.add (l' ++ l) := by
  unfold St.add; rw [List.append_assoc]

theorem report_apply (e : Err) (p : Pos) (s : St) : report e p s = .ok () (s.add [(e, p)]) := rfl

theorem reports_apply (l : List (Err × Pos)) (s : St) : reports l s = .ok () (s.add l.reverse) := by
  induction l generalizing s with
  | nil => rfl
  | cons e l ih =>
    show (report e.1 e.2 >>= fun _ => reports l) s = _
    rw [bind_apply, report_apply]
    show reports l _ = _
    rw [ih, St.add_add, List.reverse_cons]

end Csspp.Compile
