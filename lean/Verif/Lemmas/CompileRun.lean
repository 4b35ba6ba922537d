import Verif.Model.Compile
import Verif.Spec.Compiled

/-! How the functions of Model/Compile.lean run: they end, the messages are only added, and a result that holds when
there is no error. -/

namespace Csspp.Compile
open Csspp.Parse (Nd)
open Csspp.Lex (Tok Pos)

/-- With enough fuel the result is `r`. -/
def Gives {α : Type} (m : Nat → M α) (s : St) (r : R α) : Prop := ∃ f, ∀ g, f ≤ g → m g s = r

theorem bind_apply {α β : Type} (m : M α) (k : α → M β) (s : St) :
    (m >>= k) s = match m s with
      | .ok v s => k v s
      | .throws => .throws
      | .undef => .undef
      | .fuel => .fuel := rfl

theorem pure_apply {α : Type} (v : α) (s : St) : (pure v : M α) s = .ok v s := rfl

/-- There are only more messages, and an @return stays. -/
def Grows (s s' : St) : Prop := (∃ l, s'.errs = l ++ s.errs) ∧ (s.ret ≠ none → s'.ret ≠ none)

/-- No error and no @return. -/
def Clean (s : St) : Prop := (∀ e ∈ s.errs, e.1.level ≠ .error) ∧ s.ret = none

theorem Grows.refl (s : St) : Grows s s := ⟨⟨[], rfl⟩, fun h => h⟩

theorem Grows.trans {a b c : St} (h : Grows a b) (h' : Grows b c) : Grows a c := by
  obtain ⟨⟨l, hl⟩, hr⟩ := h
  obtain ⟨⟨l', hl'⟩, hr'⟩ := h'
  exact ⟨⟨l' ++ l, by rw [hl', hl, List.append_assoc]⟩, fun h => hr' (hr h)⟩

theorem Clean.of_grows {s s' : St} (h : Clean s') (g : Grows s s') : Clean s := by
  obtain ⟨⟨l, hl⟩, hr⟩ := g
  refine ⟨fun e he => h.1 e (by rw [hl]; simp [he]), ?_⟩
  by_cases e : s.ret = none
  · exact e
  · exact absurd h.2 (hr e)

/-- The call ends; when it returns `v`, `A v` holds and, when there was no error, `B v`. -/
def Runs {α : Type} (m : Nat → M α) (s : St) (A B : α → Prop) : Prop :=
  ∃ r, r ≠ .fuel ∧ Gives m s r ∧ ∀ v s', r = .ok v s' → Grows s s' ∧ A v ∧ (Clean s' → B v)

theorem Runs.pure {α : Type} {v : α} {s : St} {A B : α → Prop} (ha : A v) (hb : B v) :
    Runs (fun _ => (pure v : M α)) s A B :=
  ⟨.ok v s, by simp, ⟨0, fun _ _ => rfl⟩, fun v' s' e => by cases e; exact ⟨.refl _, ha, fun _ => hb⟩⟩

theorem Runs.throws {α : Type} {s : St} {A B : α → Prop} : Runs (fun _ => (throws : M α)) s A B :=
  ⟨.throws, by simp, ⟨0, fun _ _ => rfl⟩, fun v' s' e => by cases e⟩

theorem Runs.undef {α : Type} {s : St} {A B : α → Prop} : Runs (fun _ => (undef : M α)) s A B :=
  ⟨.undef, by simp, ⟨0, fun _ _ => rfl⟩, fun v' s' e => by cases e⟩

theorem Runs.mono {α : Type} {m : Nat → M α} {s : St} {A B A' B' : α → Prop} (h : Runs m s A B)
    (ha : ∀ v, A v → A' v) (hb : ∀ v, A v → B v → B' v) : Runs m s A' B' := by
  obtain ⟨r, h1, h2, h3⟩ := h
  refine ⟨r, h1, h2, fun v s' e => ?_⟩
  obtain ⟨g, a, b⟩ := h3 v s' e
  exact ⟨g, ha v a, fun c => hb v a (b c)⟩

theorem Runs.bind {α β : Type} {m : Nat → M α} {k : Nat → α → M β} {s : St} {A B : α → Prop} {A' B' : β → Prop}
    (h : Runs m s A B) (h' : ∀ v s', A v → Runs (fun f => k f v) s' A' (fun w => B v → B' w)) :
    Runs (fun f => m f >>= k f) s A' B' := by
  obtain ⟨r, h1, ⟨f, h2⟩, h3⟩ := h
  cases r with
  | fuel => exact absurd rfl h1
  | throws =>
    refine ⟨.throws, by simp, ⟨f, fun g hg => ?_⟩, fun v s' e => by cases e⟩
    show (m g >>= k g) s = _
    rw [bind_apply, h2 g hg]
  | undef =>
    refine ⟨.undef, by simp, ⟨f, fun g hg => ?_⟩, fun v s' e => by cases e⟩
    show (m g >>= k g) s = _
    rw [bind_apply, h2 g hg]
  | ok v s1 =>
    obtain ⟨g1, a, b⟩ := h3 v s1 rfl
    obtain ⟨r', k1, ⟨f', k2⟩, k3⟩ := h' v s1 a
    refine ⟨r', k1, ⟨max f f', fun g hg => ?_⟩, fun w s2 e => ?_⟩
    · show (m g >>= k g) s = _
      rw [bind_apply, h2 g (by omega)]
      exact k2 g (by omega)
    · obtain ⟨g2, a', b'⟩ := k3 w s2 e
      exact ⟨g1.trans g2, a', fun c => b' c (b (c.of_grows g2))⟩

/-- A function of the result. -/
theorem Runs.map {α β : Type} {m : Nat → M α} {k : α → β} {s : St} {A B : α → Prop} {A' B' : β → Prop}
    (h : Runs m s A B) (ha : ∀ v, A v → A' (k v)) (hb : ∀ v, A v → B v → B' (k v)) :
    Runs (fun f => m f >>= fun v => Pure.pure (k v)) s A' B' :=
  Runs.bind h (fun v _ a => Runs.pure (ha v a) (fun b => hb v a b))

theorem Runs.succ {α : Type} {m n : Nat → M α} {s : St} {A B : α → Prop} (h : Runs m s A B)
    (e : ∀ f, n (f + 1) s = m f s) : Runs n s A B := by
  obtain ⟨r, h1, ⟨f, h2⟩, h3⟩ := h
  refine ⟨r, h1, ⟨f + 1, fun g hg => ?_⟩, h3⟩
  obtain ⟨g, rfl⟩ : ∃ k, g = k + 1 := ⟨g - 1, by omega⟩
  rw [e, h2 g (by omega)]

/-- The messages `l`. -/
theorem Runs.reports (l : List (Err × Pos)) (s : St) :
    Runs (fun _ => reports l) s (fun _ => True) (fun _ => ∀ e ∈ l, e.1.level ≠ .error) := by
  induction l generalizing s with
  | nil => exact Runs.pure trivial (by simp)
  | cons e l ih =>
    have h1 : Runs (fun _ => report e.1 e.2) s (fun _ => True) (fun _ => e.1.level ≠ .error) := by
      refine ⟨.ok () { s with errs := (e.1, e.2) :: s.errs }, by simp, ⟨0, fun _ _ => rfl⟩, fun v s' h => ?_⟩
      cases h
      exact ⟨⟨⟨[(e.1, e.2)], rfl⟩, fun h => h⟩, trivial, fun c => c.1 (e.1, e.2) (by simp)⟩
    refine Runs.bind (k := fun _ _ => Compile.reports l) h1 (fun _ s' _ => ?_)
    refine (ih s').mono (fun _ h => h) (fun _ _ h h' x hx => ?_)
    rcases List.mem_cons.mp hx with rfl | hx
    · exact h'
    · exact h x hx

theorem Runs.report (e : Err) (p : Pos) (s : St) :
    Runs (fun _ => report e p) s (fun _ => True) (fun _ => e.level ≠ .error) := by
  refine ⟨.ok () { s with errs := (e, p) :: s.errs }, by simp, ⟨0, fun _ _ => rfl⟩, fun v s' h => ?_⟩
  cases h
  exact ⟨⟨⟨[(e, p)], rfl⟩, fun h => h⟩, trivial, fun c => c.1 (e, p) (by simp)⟩

/-- A message and then a result; when the message is an error nothing is known of the result. -/
theorem Runs.report_pure {α : Type} {e : Err} {p : Pos} {s : St} {v : α} {A B : α → Prop} (ha : A v)
    (hb : e.level ≠ .error → B v) : Runs (fun _ => do Compile.report e p; Pure.pure v) s A B :=
  Runs.map (k := fun _ => v) (Runs.report e p s) (fun _ _ => ha) (fun _ _ h => hb h)

theorem Runs.reports_pure {α : Type} {l : List (Err × Pos)} {s : St} {v : α} {A B : α → Prop} (ha : A v)
    (hb : (∀ e ∈ l, e.1.level ≠ .error) → B v) : Runs (fun _ => do Compile.reports l; Pure.pure v) s A B :=
  Runs.map (k := fun _ => v) (Runs.reports l s) (fun _ _ => ha) (fun _ _ h => hb h)

end Csspp.Compile
