import Verif.Lemmas.NthText
import Verif.Spec.AnBlank
import Verif.Props.Selector
import Verif.Lemmas.Written6

/-!
C89: an An+B in a style sheet, read by the lexer, written by node::to_string() and parsed by nth_child::parse(), keeps its A and B.
-/

namespace Csspp.NthText
open Csspp.Spec Csspp.Tree Csspp.Flt
open Csspp.Nth (ShortRuns)

theorem blanks_next {s y : List Nat} (hs : Blanks s) {P : Nat → Prop} (hP : ∀ c, Blank c → ¬ P c) (hy : ¬ NextIs P y) :
    ¬ NextIs P (s ++ y) := by
  rintro ⟨c, t, e, hc⟩
  cases s with
  | nil => exact hy ⟨c, t, e, hc⟩
  | cons x s => injection e with e _; exact hP c (e ▸ hs x (by simp)) hc

theorem next_nil (P : Nat → Prop) : ¬ NextIs P [] := by rintro ⟨c, t, e, _⟩; cases e

theorem blank_name {c : Nat} (h : Blank c) : ¬ (NameChar c ∨ c = 92 ∨ c = 37) := by
  unfold Blank at h; unfold NameChar VarChar Dec Letter; omega

theorem after_of {y : List Nat} (h : ¬ NextIs (fun c => Dec c ∨ c = 46 ∨ c = 101 ∨ c = 69) y) : After y := by
  refine ⟨?_, ?_, ?_⟩
  · rintro ⟨c, t, e, hc⟩; exact h ⟨c, t, e, .inl hc⟩
  · intro t e; exact h ⟨46, t, e, by simp⟩
  · rintro ⟨c, t, e, hc, _⟩; exact h ⟨c, t, e, .inr (.inr hc)⟩

theorem blank_after {s y : List Nat} (hs : Blanks s) (hy : ¬ NextIs (fun c => Dec c ∨ c = 46 ∨ c = 101 ∨ c = 69) y) : After (s ++ y) :=
  after_of (blanks_next hs (fun c hc => by unfold Blank at hc; unfold Dec; omega) hy)

theorem blank_dim {s y : List Nat} (hs : Blanks s) (hy : ¬ NextIs (fun c => NameChar c ∨ c = 92 ∨ c = 37) y) :
    Dimension (s ++ y) [] false (s ++ y) := .no (blanks_next hs (fun _ => blank_name) hy)

/-- Digits and blanks at the end, with a sign in front. -/
theorem run_b {g : Str} {σ : Int} (hg : OptSign g σ) {s d s' : List Nat} (hs : Blanks s) (hd : Digits d) (hl : d.length ≤ 18)
    (hs' : Blanks s') :
    ∃ g' σ' s1 d' s2, OptSign g' σ' ∧ Spaces s1 ∧ Digits d' ∧ d'.length ≤ 18 ∧ Spaces s2 ∧ σ' * decVal d' = σ * decVal d ∧
      (g ≠ [] → MustSign g' σ') ∧ Run (g ++ (s ++ (d ++ s'))) (g' ++ (s1 ++ (d' ++ s2))) := by
  obtain ⟨sp, h1, h2⟩ := run_end hs'
  have a1 := blank_after hs' (next_nil _)
  have a2 := blank_dim hs' (next_nil _)
  rw [List.append_nil] at a1 a2
  obtain ⟨g', σ', s1, d', k1, k2, k3, k4, k5, k6, k7⟩ := run_lead hg hs hd hl a1 a2 (by intro c hc; cases hc) h2
  exact ⟨g', σ', s1, d', sp, k1, k2, k3, k4, h1, k5, k6, by simpa using k7⟩

/-- The name that starts with `n`, and what follows. -/
theorem run_n {c : Nat} (hc : c = 110 ∨ c = 78) {s4 h s5 e s6 : List Nat} {τ : Int} (h4 : Blanks s4) (hh : MustSign h τ)
    (h5 : Blanks s5) (he : Digits e) (hl : e.length ≤ 18) (h6 : Blanks s6) :
    ∃ nt rest out s4' h' τ' s5' e' s6', NameTail (s4 ++ (h ++ (s5 ++ (e ++ s6)))) nt false rest ∧ Run rest out ∧
      (∀ x ∈ nt, x = 45 ∨ Dec x) ∧ nt ++ out = s4' ++ (h' ++ (s5' ++ (e' ++ s6'))) ∧ Spaces s4' ∧ MustSign h' τ' ∧ Spaces s5' ∧
      Digits e' ∧ e'.length ≤ 18 ∧ Spaces s6' ∧ τ' * decVal e' = τ * decVal e ∧ ∀ t, rest ≠ 40 :: t := by
  have nil : Spaces [] := by intro c hc; cases hc
  have nb : ∀ {s : List Nat} (t : List Nat), Blanks s → s ≠ 40 :: t := by
    intro s t hb e
    have := hb 40 (by rw [e]; simp)
    unfold Blank at this
    omega
  have fair : ∀ x, x = 45 ∨ Dec x → NameChar x ∧ Fair x := by
    intro x hx
    unfold Dec at hx
    refine ⟨?_, ?_⟩
    · unfold NameChar VarChar Dec Letter; omega
    · unfold Fair Valid Scalar Nonchar; omega
  have hopt : OptSign h τ := by cases hh; exact .plus; exact .minus
  have hne : h ≠ [] := by cases hh <;> simp
  by_cases h0 : s4 = [] ∧ h = [45]
  · obtain ⟨rfl, rfl⟩ := h0
    have ht : τ = -1 := by cases hh; rfl
    subst ht
    by_cases h50 : s5 = []
    · subst h50
      obtain ⟨sp, k1, k2⟩ := run_end h6
      have ha := blanks_next (y := []) h6 (P := fun c => NameChar c ∨ c = 92) (fun c h => fun h' => blank_name h (h'.elim .inl (fun x => .inr (.inl x))))
        (next_nil _)
      rw [List.append_nil] at ha
      refine ⟨45 :: e, s6, sp, [], [45], -1, [], e, sp, ?_, k2, ?_, ?_, nil, .minus, nil, he, hl, k1, rfl, fun t => nb t h6⟩
      · refine Written.nameTail_plain (cs := 45 :: e) ?_ ha
        intro x hx
        refine fair x ?_
        rcases List.mem_cons.1 hx with rfl | hx
        · exact .inl rfl
        · exact .inr (he.2 x hx)
      · intro x hx
        rcases List.mem_cons.1 hx with rfl | hx
        · exact .inl rfl
        · exact .inr (he.2 x hx)
      · simp
    · obtain ⟨x, t, rfl⟩ : ∃ x t, s5 = x :: t := by
        cases s5 with
        | nil => exact absurd rfl h50
        | cons c t => exact ⟨c, t, rfl⟩
      have hx := h5 x (by simp)
      obtain ⟨g', σ', s1, d', s2, k1, k2, k3, k4, k5, k6, _, k8⟩ := run_b (g := []) .none h5 he hl h6
      -- no sign: g' is empty or its value is positive
      have key : ∃ sp out', Spaces sp ∧ Spaces out' ∧
          Run (x :: t ++ (e ++ s6)) (sp ++ (natDigits (decVal e) ++ out')) := by
        obtain ⟨sp, j1, j2⟩ := run_end h6
        have a1 := blank_after h6 (next_nil _)
        have a2 := blank_dim h6 (next_nil _)
        rw [List.append_nil] at a1 a2
        have r := Run.tok (int_reads .none he hl a1 a2) (.int rfl (by intro c hc; cases hc) rfl) j2
        dsimp only at r
        have e0 : (if (false : Bool) = true ∧ (1 : Int) * decVal e ≥ 0 then b!"+" else []) ++ intDigits ((1 : Int) * decVal e) =
            natDigits (decVal e) := by
          unfold intDigits
          rw [if_neg (by simp), if_neg (by omega)]
          simp
        rw [e0, List.append_nil, List.nil_append] at r
        obtain ⟨sp', i1, i2⟩ := run_blanks h5 (digits_blank he) r
        exact ⟨sp', sp, i1, j1, i2⟩
      obtain ⟨sp, o, i1, i2, i3⟩ := key
      refine ⟨[45], x :: t ++ (e ++ s6), _, [], [45], -1, sp, natDigits (decVal e), o, ?_, i3, ?_, ?_, nil, .minus, i1,
        natDigits_digits _, ?_, i2, by rw [decVal_natDigits], ?_⟩
      · refine Written.nameTail_plain (cs := [45]) (fun y hy => fair y (.inl (by simpa using hy))) ?_
        rintro ⟨y, u, e1, hy⟩
        injection e1 with e1 _
        rw [← e1] at hy
        exact blank_name hx (hy.elim .inl (fun x => .inr (.inl x)))
      · intro y hy; exact .inl (by simpa using hy)
      · simp
      · exact natDigits_length (by omega) (by
          have h3 : (10 : Nat) ^ 18 = 1000000000000000000 := by decide
          have := small he hl
          omega)
      · intro u e1
        injection e1 with e1 _
        unfold Blank at hx; omega
  · obtain ⟨g', σ', s1, d', s2, k1, k2, k3, k4, k5, k6, k7, k8⟩ := run_b hopt h5 he hl h6
    have hb : ¬ NextIs Blank (h ++ (s5 ++ (e ++ s6))) := by
      rintro ⟨y, u, e1, hy⟩
      unfold Blank at hy
      cases hh <;> · injection e1 with e1 _; omega
    obtain ⟨sp, j1, j2⟩ := run_blanks h4 hb k8
    refine ⟨[], _, _, sp, g', σ', s1, d', s2, .stop _ ?_, j2, ?_, by simp, j1, k7 hne, k2, k3, k4, k5, k6, ?_⟩
    · by_cases h40 : s4 = []
      · subst h40
        rintro ⟨y, u, e1, hy⟩
        cases hh with
        | plus => injection e1 with e1 _; rw [← e1] at hy; unfold NameChar VarChar Dec Letter at hy; omega
        | minus => exact h0 ⟨rfl, rfl⟩
      · refine fun hn => ?_
        obtain ⟨x, t, rfl⟩ : ∃ x t, s4 = x :: t := by
          cases s4 with
          | nil => exact absurd rfl h40
          | cons c t => exact ⟨c, t, rfl⟩
        obtain ⟨y, u, e1, hy⟩ := hn
        injection e1 with e1 _
        rw [← e1] at hy
        exact blank_name (h4 x (by simp)) (hy.elim .inl (fun x => .inr (.inl x)))
    · intro x hx; cases hx
    · intro u e1
      cases s4 with
      | nil => cases hh <;> · injection e1 with e1 _; omega
      | cons x t =>
        injection e1 with e1 _
        have := h4 x (by simp)
        unfold Blank at this; omega

/-! ### The whole text -/

theorem un_spaces {x s : List Nat} (e : x.map spaced = s) (h : Spaces s) : Blanks x := by
  intro c hc
  have := h (spaced c) (by rw [← e]; exact List.mem_map_of_mem hc)
  unfold spaced at this
  unfold Blank
  split at this <;> omega

theorem un_plain : ∀ {x g : List Nat}, x.map spaced = g → (∀ c ∈ g, c ≠ 32) → x = g
  | [], g, e, _ => by simpa using e
  | c :: x, g, e, h => by
    cases g with
    | nil => cases e
    | cons d g =>
      injection e with e1 e2
      have hd := h d (by simp)
      rw [un_plain e2 (fun c hc => h c (by simp [hc]))]
      have : c = d := by
        unfold spaced at e1
        split at e1 <;> omega
      rw [this]

theorem run_word {w s : List Nat} {k : Str} (hw : lower w = k) (hk : ∀ x ∈ k, 97 ≤ x ∧ x ≤ 122) (hk0 : k ≠ [])
    (hu : k.head? ≠ some 117) (hs : Blanks s) : ∃ sp, Spaces sp ∧ Run (w ++ s) (w ++ sp) := by
  obtain ⟨sp, h1, h2⟩ := run_end hs
  have hl := lower_nd hw hk
  refine ⟨sp, h1, .tok (l := { ty := .IDENTIFIER, text := w, low := w.map lowerByte }) (.identifier (cut := false) ?_ ?_ (.inr ?_)) (.ident rfl ?_ rfl) h2⟩
  · rintro ⟨u, t, e, h3, _⟩
    cases w with
    | nil => exact hk0 (by rw [← hw]; rfl)
    | cons c w =>
      injection e with e1 _
      apply hu
      rw [← hw]
      show some (lowerByte c) = _
      unfold lowerByte
      subst e1
      rcases h3 with rfl | rfl <;> rfl
  · refine Written.name_plain ⟨?_, ?_⟩ ?_
    · intro c hc
      have := hl c hc
      unfold Letter at this
      unfold NameChar VarChar Dec Letter Fair Valid Scalar Nonchar
      omega
    · cases w with
      | nil => exact absurd (show k = [] by rw [← hw]; rfl) hk0
      | cons c w =>
        refine .inl ⟨c, w, rfl, ?_⟩
        unfold NameStart; exact .inl (hl c (by simp))
    · have := blanks_next (y := []) hs (P := fun c => NameChar c ∨ c = 92)
        (fun c h => fun h' => blank_name h (h'.elim .inl (fun x => .inr (.inl x)))) (next_nil _)
      rwa [List.append_nil] at this
  · intro t e
    have := hs 40 (by rw [e]; simp)
    unfold Blank at this; omega
  · intro c hc
    have := hl c hc
    unfold Letter at this; omega

theorem not_blank_cons {c : Nat} {t : List Nat} (h : ¬ Blank c) : ¬ NextIs Blank (c :: t) := by
  rintro ⟨x, u, e, hx⟩
  injection e with e _
  exact h (e ▸ hx)

theorem sign_ne {g : Str} {σ : Int} (h : OptSign g σ) : ∀ c ∈ g, c ≠ 32 := by cases h <;> decide
theorem must_ne {g : Str} {σ : Int} (h : MustSign g σ) : ∀ c ∈ g, c ≠ 32 := by cases h <;> decide
theorem digits_ne {d : Str} (h : Digits d) : ∀ c ∈ d, c ≠ 32 := fun c hc => by have := h.2 c hc; omega
theorem word_ne {w k : Str} (hw : lower w = k) (hk : ∀ x ∈ k, 97 ≤ x ∧ x ≤ 122) : ∀ c ∈ w, c ≠ 32 := fun c hc => by
  have := lower_nd hw hk c hc; unfold Letter at this; omega

/-- Blanks in front. -/
theorem run_front {s0 g : Str} {σ : Int} (hs0 : Blanks s0) (hg : OptSign g σ) {s d y dim rest : List Nat} {out : Str} (hs : Blanks s)
    (hd : Digits d) (hl : d.length ≤ 18) (ha : After y) (hy : Dimension y dim false rest) (hdim : ∀ c ∈ dim, c < 128)
    (h : Run rest out) :
    ∃ s0' g' σ' s' d', Spaces s0' ∧ OptSign g' σ' ∧ Spaces s' ∧ Digits d' ∧ d'.length ≤ 18 ∧ σ' * decVal d' = σ * decVal d ∧
      Run (s0 ++ (g ++ (s ++ (d ++ y)))) (s0' ++ (g' ++ (s' ++ (d' ++ (dim ++ out))))) := by
  by_cases h0 : g = []
  · -- the blanks are together
    subst h0
    have hx : Blanks (s0 ++ s) := by
      intro c hc
      rcases List.mem_append.1 hc with hc | hc
      · exact hs0 c hc
      · exact hs c hc
    obtain ⟨g', σ', s', d', k1, k2, k3, k4, k5, _, k7⟩ := run_lead (g := []) hg hx hd hl ha hy hdim h
    refine ⟨[], g', σ', s', d', (by intro c hc; cases hc), k1, k2, k3, k4, k5, ?_⟩
    simpa only [List.nil_append, List.append_assoc] using k7
  · have hb : ¬ NextIs Blank (g ++ (s ++ (d ++ y))) := by
      rintro ⟨x, u, e, hx⟩
      unfold Blank at hx
      cases hg with
      | none => exact h0 rfl
      | plus => injection e with e _; omega
      | minus => injection e with e _; omega
    obtain ⟨g', σ', s', d', k1, k2, k3, k4, k5, _, k7⟩ := run_lead hg hs hd hl ha hy hdim h
    obtain ⟨sp', j1, j2⟩ := run_blanks hs0 hb k7
    exact ⟨sp', g', σ', s', d', j1, k1, k2, k3, k4, k5, j2⟩

/-- The text of the tokens has the same A and B. -/
theorem run_anb {cs : List Nat} {a b : Int} (h : WrittenAnB cs a b) (hs : ShortRuns cs) : ∃ out, Run cs out ∧ Short out a b := by
  unfold WrittenAnB at h
  generalize e : cs.map spaced = t at h
  cases h with
  | @even s1 w s2 h1 h2 h3 =>
    obtain ⟨y, x3, rfl, e, e3⟩ := List.map_eq_append_iff.1 e
    obtain ⟨x1, x2, rfl, e1, e2⟩ := List.map_eq_append_iff.1 e
    have := un_plain e2 (word_ne h2 (by decide)); subst this
    obtain ⟨sp, k1, k2⟩ := run_word h2 (by decide) (by decide) (by decide) (un_spaces e3 h3)
    have hb : ¬ NextIs Blank (x2 ++ x3) := by
      cases x2 with
      | nil => cases h2
      | cons c w =>
        refine not_blank_cons ?_
        have := lower_nd h2 (by decide) c (by simp)
        unfold Letter at this; unfold Blank; omega
    obtain ⟨sp', j1, j2⟩ := run_blanks (un_spaces e1 h1) hb k2
    exact ⟨_, by rw [List.append_assoc]; exact j2, .even j1 h2 k1⟩
  | @odd s1 w s2 h1 h2 h3 =>
    obtain ⟨y, x3, rfl, e, e3⟩ := List.map_eq_append_iff.1 e
    obtain ⟨x1, x2, rfl, e1, e2⟩ := List.map_eq_append_iff.1 e
    have := un_plain e2 (word_ne h2 (by decide)); subst this
    obtain ⟨sp, k1, k2⟩ := run_word h2 (by decide) (by decide) (by decide) (un_spaces e3 h3)
    have hb : ¬ NextIs Blank (x2 ++ x3) := by
      cases x2 with
      | nil => cases h2
      | cons c w =>
        refine not_blank_cons ?_
        have := lower_nd h2 (by decide) c (by simp)
        unfold Letter at this; unfold Blank; omega
    obtain ⟨sp', j1, j2⟩ := run_blanks (un_spaces e1 h1) hb k2
    exact ⟨_, by rw [List.append_assoc]; exact j2, .odd j1 h2 k1⟩
  | @b s1 g σ s2 d s3 h1 h2 h3 h4 h5 =>
    obtain ⟨y, x5, rfl, e, e5⟩ := List.map_eq_append_iff.1 e
    obtain ⟨y, x4, rfl, e, e4⟩ := List.map_eq_append_iff.1 e
    obtain ⟨y, x3, rfl, e, e3⟩ := List.map_eq_append_iff.1 e
    obtain ⟨x1, x2, rfl, e1, e2⟩ := List.map_eq_append_iff.1 e
    have := un_plain e2 (sign_ne h2); subst this
    have := un_plain e4 (digits_ne h4); subst this
    have hl : x4.length ≤ 18 := hs x4 h4 ⟨_, x5, rfl⟩
    obtain ⟨sp, k1, k2⟩ := run_end (un_spaces e5 h5)
    have a1 := blank_after (un_spaces e5 h5) (next_nil _)
    have a2 := blank_dim (un_spaces e5 h5) (next_nil _)
    rw [List.append_nil] at a1 a2
    obtain ⟨s0', g', σ', s', d', j1, j2, j3, j4, j5, j6, j7⟩ :=
      run_front (un_spaces e1 h1) h2 (un_spaces e3 h3) h4 hl a1 a2 (by intro c hc; cases hc) k2
    refine ⟨_, by simpa only [List.append_assoc] using j7, ?_⟩
    rw [← j6]
    exact .b j1 j2 j3 j4 j5 k1
  | @anb s1 g σ s2 d s3 n s4 h τ s5 ee s6 h1 h2 h3 h4 h5 h6 h7 h8 h9 h10 h11 =>
    have e0 := e
    obtain ⟨y, x11, rfl, e0, e11⟩ := List.map_eq_append_iff.1 e0
    obtain ⟨y, x10, rfl, e0, e10⟩ := List.map_eq_append_iff.1 e0
    obtain ⟨y, x9, rfl, e0, e9⟩ := List.map_eq_append_iff.1 e0
    obtain ⟨y, x8, rfl, e0, e8⟩ := List.map_eq_append_iff.1 e0
    obtain ⟨y, x7, rfl, e0, e7⟩ := List.map_eq_append_iff.1 e0
    obtain ⟨y, x6, rfl, e0, e6⟩ := List.map_eq_append_iff.1 e0
    obtain ⟨y, x5, rfl, e0, e5⟩ := List.map_eq_append_iff.1 e0
    obtain ⟨y, x4, rfl, e0, e4⟩ := List.map_eq_append_iff.1 e0
    obtain ⟨y, x3, rfl, e0, e3⟩ := List.map_eq_append_iff.1 e0
    obtain ⟨x1, x2, rfl, e1, e2⟩ := List.map_eq_append_iff.1 e0
    have := un_plain e2 (sign_ne h2); subst this
    have := un_plain e4 (digits_ne h4); subst this
    have := un_plain e6 (word_ne h6 (by decide)); subst this
    have := un_plain e8 (must_ne h8); subst this
    have := un_plain e10 (digits_ne h10); subst this
    have hl : x4.length ≤ 18 := hs x4 h4 ⟨x1 ++ x2 ++ x3, x5 ++ x6 ++ x7 ++ x8 ++ x9 ++ x10 ++ x11, by simp only [List.append_assoc]⟩
    have hl' : x10.length ≤ 18 := hs x10 h10 ⟨_, x11, rfl⟩
    obtain ⟨c, hcx, hc⟩ := lower_n h6
    subst hcx
    obtain ⟨nt, rest, out, s4', h', τ', s5', e', s6', n1, n2, n3, n4, n5, n6, n7, n8, n9, n10, n11, n12⟩ :=
      run_n hc (un_spaces e7 h7) h8 (un_spaces e9 h9) h10 hl' (un_spaces e11 h11)
    have hv : NameChar c ∧ Valid c := by
      unfold NameChar VarChar Dec Letter Valid Scalar Nonchar; omega
    have htail := NameTail.char hv.1 hv.2 n1
    have hlow : nt.map lowerByte = nt := by
      conv => rhs; rw [← List.map_id nt]
      refine List.map_congr_left fun x hx => ?_
      have := n3 x hx
      unfold Dec at this
      unfold lowerByte
      rw [if_neg (by omega)]; rfl
    have hcl : lowerByte c = 110 := by rcases hc with rfl | rfl <;> rfl
    -- the part after the first digits: n, the sign and B
    obtain ⟨dim, r2, o2, q1, q2, q3, s3', n', q4, q5, q6, q7⟩ : ∃ dim r2 o2,
        Dimension (x5 ++ ([c] ++ (x7 ++ (x8 ++ (x9 ++ (x10 ++ x11)))))) dim false r2 ∧ Run r2 o2 ∧ (∀ x ∈ dim, x < 128) ∧
        ∃ s3' n', Spaces s3' ∧ lower n' = b!"n" ∧ dim ++ o2 = s3' ++ (n' ++ (s4' ++ (h' ++ (s5' ++ (e' ++ s6'))))) ∧
        After (x5 ++ ([c] ++ (x7 ++ (x8 ++ (x9 ++ (x10 ++ x11)))))) := by
      have haf : ¬ NextIs (fun c => Dec c ∨ c = 46 ∨ c = 101 ∨ c = 69) ([c] ++ (x7 ++ (x8 ++ (x9 ++ (x10 ++ x11))))) := by
        rintro ⟨x, u, e, hx⟩
        injection e with e _
        unfold Dec at hx
        omega
      by_cases h50 : x5 = []
      · subst h50
        have hd := Dimension.name (text := [c] ++ (x7 ++ (x8 ++ (x9 ++ (x10 ++ x11))))) ⟨c, _, rfl, .inl hv.1⟩ htail
          (by intro h; injection h with h _; omega)
        refine ⟨_, rest, out, hd, n2, ?_, [], [110], (by intro c hc; cases hc), rfl, ?_, blank_after (un_spaces e5 h5) haf⟩
        · intro x hx
          rw [List.map_cons, hlow, hcl] at hx
          rcases List.mem_cons.1 hx with rfl | hx
          · omega
          · have := n3 x hx
            unfold Dec at this; omega
        · rw [List.map_cons, hlow, hcl, List.cons_append, n4]; rfl
      · have hr : Reads ([c] ++ (x7 ++ (x8 ++ (x9 ++ (x10 ++ x11))))) { ty := .IDENTIFIER, text := c :: nt, low := (c :: nt).map lowerByte } rest := by
          refine .identifier (cut := false) ?_ (.plain (.char ?_ hv.2 n1) (by simp)) (.inr n12)
          · rintro ⟨u, t, e, h3, _⟩
            injection e with e _
            omega
          · unfold NameStart Letter; omega
        have r1 := Run.tok hr (.ident rfl (by
          intro x hx
          rcases List.mem_cons.1 hx with rfl | hx
          · omega
          · have := n3 x hx
            unfold Dec at this; omega) rfl) n2
        obtain ⟨sp, j1, j2⟩ := run_blanks (un_spaces e5 h5) (not_blank_cons (c := c) (by unfold Blank; omega)) r1
        refine ⟨[], _, _, .no ?_, j2, (by intro c hc; cases hc), sp, [c], j1, h6, ?_, blank_after (un_spaces e5 h5) haf⟩
        · rintro ⟨x, u, e, hx⟩
          cases x5 with
          | nil => exact h50 rfl
          | cons z x5 =>
            injection e with e _
            rw [← e] at hx
            exact blank_name (un_spaces e5 h5 z (by simp)) hx
        · simp only [List.nil_append, List.cons_append, n4]
    obtain ⟨s0', g', σ', s', d', j1, j2, j3, j4, j5, j6, j7⟩ :=
      run_front (un_spaces e1 h1) h2 (un_spaces e3 h3) h4 hl q7 q1 q3 q2
    rw [q6] at j7
    refine ⟨_, by simpa only [List.append_assoc] using j7, ?_⟩
    rw [← j6, ← n11]
    exact .anb j1 j2 j3 j4 j5 q4 q5 n5 n6 n7 n8 n9 n10

theorem anb_chars {s : Str} {a b : Int} (h : AnB s a b) : ∀ c ∈ s, 32 ≤ c ∧ c < 128 := by
  have sp : ∀ {s : Str}, Spaces s → ∀ c ∈ s, 32 ≤ c ∧ c < 128 := fun h c hc => by rw [h c hc]; omega
  have dg : ∀ {s : Str}, Digits s → ∀ c ∈ s, 32 ≤ c ∧ c < 128 := fun h c hc => by have := h.2 c hc; omega
  have os : ∀ {s : Str} {σ : Int}, OptSign s σ → ∀ c ∈ s, 32 ≤ c ∧ c < 128 := fun h => by cases h <;> decide
  have ms : ∀ {s : Str} {σ : Int}, MustSign s σ → ∀ c ∈ s, 32 ≤ c ∧ c < 128 := fun h => by cases h <;> decide
  have wd : ∀ {s k : Str}, lower s = k → (∀ x ∈ k, 97 ≤ x ∧ x ≤ 122) → ∀ c ∈ s, 32 ≤ c ∧ c < 128 := fun h hk c hc => by
    have := lower_nd h hk c hc
    unfold Letter at this; omega
  intro c hc
  cases h with
  | even h1 h2 h3 =>
    simp only [List.mem_append] at hc
    rcases hc with (hc | hc) | hc
    · exact sp h1 c hc
    · exact wd h2 (by decide) c hc
    · exact sp h3 c hc
  | odd h1 h2 h3 =>
    simp only [List.mem_append] at hc
    rcases hc with (hc | hc) | hc
    · exact sp h1 c hc
    · exact wd h2 (by decide) c hc
    · exact sp h3 c hc
  | b h1 h2 h3 h4 h5 =>
    simp only [List.mem_append] at hc
    rcases hc with (((hc | hc) | hc) | hc) | hc
    · exact sp h1 c hc
    · exact os h2 c hc
    · exact sp h3 c hc
    · exact dg h4 c hc
    · exact sp h5 c hc
  | anb h1 h2 h3 h4 h5 h6 h7 h8 h9 h10 h11 =>
    simp only [List.mem_append] at hc
    rcases hc with (((((((((hc | hc) | hc) | hc) | hc) | hc) | hc) | hc) | hc) | hc) | hc
    · exact sp h1 c hc
    · exact os h2 c hc
    · exact sp h3 c hc
    · exact dg h4 c hc
    · exact sp h5 c hc
    · exact wd h6 (by decide) c hc
    · exact sp h7 c hc
    · exact ms h8 c hc
    · exact sp h9 c hc
    · exact dg h10 c hc
    · exact sp h11 c hc

theorem written_chars {s : Str} {a b : Int} (h : WrittenAnB s a b) : ∀ c ∈ s, c = 9 ∨ c = 10 ∨ (32 ≤ c ∧ c < 128) := by
  intro c hc
  have := anb_chars h (spaced c) (List.mem_map_of_mem hc)
  unfold spaced at this
  split at this <;> omega

/-- C89: the tokens of an An+B are read without a message, and the concatenation of their texts (with quotes) stands for the
same A and B. -/
theorem C89_text (s : Str) (a b : Int) (h : WrittenAnB s a b) (hs : ∀ d, Digits d → d <:+: s → d.length ≤ 18) (f : Nat)
    (hf : s.length < f) :
    (Lex.lexAll f (Lex.init s)).2.err = [] ∧ (Lex.lexAll f (Lex.init s)).2.exn = none ∧ (Lex.lexAll f (Lex.init s)).2.ub = false ∧
    ∃ out, (∀ (E : Text.Env) (p : Int → Fp), Text.textAll E { quotes := true }
        (Pipeline.toTrees p ((Lex.lexAll f (Lex.init s)).1.map Parse.Nd.leaf)) = .ok out) ∧
      AnB out a b ∧ ∀ d, Digits d → d <:+: out → d.length ≤ 18 := by
  obtain ⟨out, h1, h2⟩ := run_anb h hs
  obtain ⟨ls, h3, h4, h5⟩ := run_tokens h1
  have hc := written_chars h
  have hn : newlines s = s := by
    have := Lex.newlines_plain (cs := s) (rest := []) (fun c hx => by have := hc c hx; omega)
    rw [List.append_nil] at this
    rw [this, newlines, List.append_nil]
  obtain ⟨k1, k2, k3, k4⟩ := Lex.C47_complete s s (Lex.utf8_ascii (fun c hx => by have := hc c hx; omega))
    (fun c hx => by have := hc c hx; omega) ls (by rw [hn]; exact h3) f hf
  rw [h4] at k2
  exact ⟨k2, k3, k4, out, fun E p => h5 E p _ k1, h2.anB, h2.runs⟩

/-- C89: so `:nth-child(An+B)` (and the other functions of the same kind) of a selector keeps this A and this B, in 32 bits. -/
theorem C89_selector (env : Sel.Env) (E : Text.Env) (p : Int → Fp) (ht : env.text = Text.joined E p) (name : Lex.Tok)
    (hn : env.nthFunction name.str = true) (s : Str) (a b : Int) (h : WrittenAnB s a b)
    (hs : ∀ d, Digits d → d <:+: s → d.length ≤ 18) (f : Nat) (hf : s.length < f) :
    ∃ i, Sel.pseudoFunction env (.mk name ((Lex.lexAll f (Lex.init s)).1.map Parse.Nd.leaf)) =
        .ok (.mk name [.mk { ty := .AN_PLUS_B, pos := name.pos, int := i } []]) ∧
      (Nth.Nth.ofPacked i).a = wrap32 a ∧ (Nth.Nth.ofPacked i).b = wrap32 b := by
  obtain ⟨_, _, _, out, h1, h2, h3⟩ := C89_text s a b h hs f hf
  have hj : env.text ((Lex.lexAll f (Lex.init s)).1.map Parse.Nd.leaf) = out := by
    rw [ht]; unfold Text.joined; rw [h1]
  have hub := Nth.C16_no_overflow {} out (fun x hx => by have := anb_chars h2 x hx; omega) h3
  have hp := Nth.parse_accepts {} out a b h2
  refine ⟨(Nth.Nth.parse {} out).nth.getNth, ?_, ?_⟩
  · unfold Sel.pseudoFunction
    rw [if_pos (show env.nthFunction (Parse.Nd.mk name _).tok.str = true from hn)]
    dsimp only [Parse.Nd.kids]
    rw [hj, hub, hp.1]
    rfl
  · have := Nth.C14_pack_unpack (Nth.Nth.parse {} out).nth (by rw [hp.2]; exact isI32_wrap32 _) (by rw [hp.2]; exact isI32_wrap32 _)
    rw [hp.2] at this ⊢
    exact this.2

/-! ### Examples -/

/-- `2n - 1` on two lines. -/
example : WrittenAnB b!"2n -\n\t1" 2 (-1) :=
  .anb (s1 := []) (g := []) (s2 := []) (d := b!"2") (s3 := []) (n := b!"n") (s4 := b!" ") (h := b!"-") (s5 := b!"  ") (e := b!"1") (s6 := [])
    (by simp [Spaces]) .none (by simp [Spaces]) (by simp [Digits]) (by simp [Spaces]) (by decide) (by simp [Spaces]) .minus
    (by simp [Spaces]) (by simp [Digits]) (by simp [Spaces])

/-- The lexer reads `2n-1` as a number with the unit `n-1`. -/
example : ((Lex.lexAll 9 (Lex.init b!"2n-1")).1.map (fun t => (t.ty, t.str, t.int))) = [(.INTEGER, b!"n-1", 2)] := by decide +kernel

end Csspp.NthText
