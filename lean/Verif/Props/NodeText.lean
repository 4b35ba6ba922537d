import Verif.Model.NodeText
import Verif.Spec.NodeText
import Verif.Spec.Layout
import Verif.Props.RoundTripRange

/-!
C88: the text of a node (node::to_string()).
-/

namespace Csspp.Text
open Csspp.Spec Csspp.Tree Csspp.Flt Csspp.URange
open Csspp.Asm (Stop All AllKids)

/-! ### Putting texts together -/

theorem cat_ok {a b : Out} {s : Str} : cat a b = .ok s ↔ ∃ x y, a = .ok x ∧ b = .ok y ∧ s = x ++ y := by
  unfold cat
  cases a with
  | error e => simp
  | ok x =>
    cases b with
    | error e => simp
    | ok y =>
      constructor
      · intro h; injection h with h; exact ⟨x, y, rfl, rfl, h.symm⟩
      · rintro ⟨x', y', h1, h2, h3⟩
        injection h1 with h1; injection h2 with h2
        rw [h1, h2, h3]

theorem cat_throws {a b : Out} (h : cat a b = .error .throws) : a = .error .throws ∨ b = .error .throws := by
  unfold cat at h
  cases a with
  | error e => exact .inl h
  | ok x =>
    cases b with
    | error e => exact .inr h
    | ok y => cases h

/-- An exception only with a reason, and a text only without one. -/
def Right (o : Out) (P : Prop) : Prop := (o = .error .throws → P) ∧ (P → ∀ s, o ≠ .ok s)

theorem Right.put (s : Str) : Right (put s) False := ⟨fun h => (by cases h), fun h => h.elim⟩

theorem Right.cat {a b : Out} {P Q : Prop} (ha : Right a P) (hb : Right b Q) : Right (a ⊕ b) (P ∨ Q) := by
  refine ⟨fun h => (cat_throws h).imp ha.1 hb.1, ?_⟩
  rintro h s hs
  obtain ⟨x, y, h1, h2, _⟩ := cat_ok.1 hs
  rcases h with h | h
  · exact ha.2 h x h1
  · exact hb.2 h y h2

theorem Right.of {o : Out} {P Q : Prop} (h : Right o P) (e : P ↔ Q) : Right o Q :=
  ⟨fun h1 => e.1 (h.1 h1), fun h1 => h.2 (e.2 h1)⟩

theorem decimal_right (E : Env) (x : Fp) : Right (decimal E x) False := by
  refine ⟨fun h => ?_, fun h => h.elim⟩
  unfold decimal at h
  split at h <;> cases h

/-! ### Ranges -/

theorem toHex_long {n : Nat} (h : 16777216 ≤ n) : 6 < (toHex n).length := by
  unfold toHex
  rw [toHexAux_step (by omega), toHexAux_step (by omega), toHexAux_step (by omega), toHexAux_step (by omega),
    toHexAux_step (by omega), toHexAux_step (by omega)]
  rw [toHexAux]
  split
  · simp
  · rw [toHexAux]
    split <;> simp [toHexAux]

theorem pad_long {n : Nat} (h : 16777216 ≤ n) : (padLeft 6 (toHex n)).length ≠ 6 := by
  have := toHex_long h
  unfold padLeft
  simp
  omega

theorem halves (i : Int) : rangeToStart (toU64 i) = wrap32 (i % 4294967296) ∧
    rangeToEnd (toU64 i) = wrap32 (i / 4294967296 % 4294967296) := by
  rw [rangeToStart_eq, rangeToEnd_eq]
  have e1 : ((toU64 i % 4294967296 : Nat) : Int) = i % 4294967296 := by unfold toU64; omega
  have e2 : ((toU64 i / 4294967296 % 4294967296 : Nat) : Int) = i / 4294967296 % 4294967296 := by unfold toU64; omega
  rw [e1]
  refine ⟨rfl, ?_⟩
  first | rw [e2] | (congr 1; unfold toU64; omega)

theorem range_right (i : Int) : Right (unicodeRange i) (¬ IsRange i) := by
  obtain ⟨h1, h2⟩ := halves i
  have b1 : 0 ≤ i % 4294967296 ∧ i % 4294967296 < 4294967296 := by omega
  have b2 : 0 ≤ i / 4294967296 % 4294967296 ∧ i / 4294967296 % 4294967296 < 4294967296 := by omega
  unfold IsRange
  revert b1 b2 h1 h2
  generalize i % 4294967296 = low
  generalize i / 4294967296 % 4294967296 = high
  intro h1 h2 b1 b2
  unfold unicodeRange UR.ofRange orThrow
  cases hv : verifyRange (toU64 i) with
  | some e =>
    refine ⟨fun _ hr => ?_, fun _ s h => by cases h⟩
    have : verifyRange (toU64 i) = none := by
      rw [verifyRange_none_iff, h1, h2]
      unfold wrap32
      omega
    rw [hv] at this
    cases this
  | none =>
    dsimp only
    rw [verifyRange_none_iff, h1, h2] at hv
    by_cases hn : low < 2147483648
    · -- the first character is not negative
      have e1 : rangeToStart (toU64 i) = (low.toNat : Int) := by rw [h1]; unfold wrap32; omega
      have e2 : rangeToEnd (toU64 i) = (high.toNat : Int) := by rw [h2]; unfold wrap32 at hv ⊢; omega
      obtain ⟨t, ht, _⟩ := toStr_written (n := low.toNat) (m := high.toNat) (u := ⟨toU64 i⟩)
        (by unfold wrap32 at hv; omega) (by unfold wrap32 at hv; omega) e1 e2
      rw [ht]
      refine ⟨fun h => (by cases h), fun h => absurd ?_ h⟩
      unfold wrap32 at hv
      omega
    · -- a negative one
      by_cases he : low = high
      · have : (UR.mk (toU64 i)).toStr = .ok (hexOfInt (wrap32 low)) := by
          unfold UR.toStr
          dsimp only
          rw [h1, h2, ← he, if_neg (by unfold wrap32; omega), if_pos rfl]
        rw [this]
        exact ⟨fun h => (by cases h), fun h => absurd (.inr ⟨he, by omega⟩) h⟩
      · have : (UR.mk (toU64 i)).toStr = .error .badLength := by
          unfold UR.toStr
          dsimp only
          rw [h1, h2, if_neg (by unfold wrap32; omega), if_neg (by unfold wrap32; omega), if_pos]
          left
          unfold hexOfInt
          apply pad_long
          unfold wrap32
          omega
        rw [this]
        refine ⟨fun _ hr => ?_, fun _ s h => by cases h⟩
        omega

/-! ### Exceptions -/

theorem separator_right (i : Int) : Right (separator i) (¬ IsSeparator i) := by
  unfold separator IsSeparator
  by_cases h1 : i = 0 ∨ i = 14
  · rw [if_pos h1]
    exact ⟨fun h => (by cases h), fun h => absurd (h1.elim .inl (fun h => .inr (.inl h))) h⟩
  · rw [if_neg h1]
    by_cases h2 : i = 19
    · rw [if_pos h2]
      exact ⟨fun h => (by cases h), fun h => absurd (.inr (.inr h2)) h⟩
    · rw [if_neg h2]
      exact ⟨fun _ h => by omega, fun _ s h => by cases h⟩

theorem frame_right (E : Env) (x : Fp) : Right (frame E x) False := by
  unfold frame
  split
  · exact .put _
  · split
    · exact .put _
    · exact ((decimal_right E _).cat (.put _)).of (by simp)

theorem leaf_right (E : Env) (fl : Flags) (d : Data) {o : Out} (h : leaf E fl d = some o) :
    Right o (d.ty = .UNICODE_RANGE ∧ ¬ IsRange d.int) ∧ d.ty ∉ withKids ∧ d.ty ∉ noText := by
  have no : ∀ {o : Out}, d.ty ≠ .UNICODE_RANGE → Right o False → Right o (d.ty = .UNICODE_RANGE ∧ ¬ IsRange d.int) :=
    fun h1 h2 => h2.of ⟨False.elim, fun h => absurd h.1 h1⟩
  unfold leaf at h
  cases hty : d.ty
  all_goals
    rw [hty] at h no
    simp only [symbol, reduceCtorEq, Option.some.injEq] at h
  all_goals
    subst h
    refine ⟨?_, by decide, by decide⟩
  case COLOR =>
    refine no (by decide) ⟨fun h => ?_, fun h => h.elim⟩
    split at h <;> cases h
  case FONT_METRICS =>
    unfold fontMetrics
    dsimp only
    generalize Asm.scaled d.dec _ = x
    generalize Asm.scaled d.height _ = y
    exact no (by decide) (Right.of ((decimal_right E _).cat ((Right.put _).cat ((Right.put _).cat
      ((decimal_right E _).cat (.put _))))) (by simp))
  case PERCENT =>
    generalize mul f64 d.dec (ofInt f64 100) = x
    exact no (by decide) (Right.of ((Right.put _).cat ((decimal_right E _).cat (.put _))) (by simp))
  case UNICODE_RANGE => exact (range_right d.int).of (by simp)
  all_goals exact no (by decide) (.put _)

theorem leaf_none {E : Env} {fl : Flags} {d : Data} (h : leaf E fl d = none) :
    d.ty ∈ withKids ∨ d.ty ∈ noText := by
  unfold leaf at h
  cases hty : d.ty
  all_goals
    rw [hty] at h
    simp only [symbol, reduceCtorEq] at h
  all_goals decide

theorem not_unwritable_leaf {d : Data} {kids : List Tree} (h1 : d.ty ∉ withKids) (h2 : d.ty ∉ noText) :
    Unwritable (.mk d kids) ↔ d.ty = .UNICODE_RANGE ∧ ¬ IsRange d.int := by
  constructor
  · intro h
    cases h with
    | type h => exact absurd h h2
    | range h h' => exact ⟨h, h'⟩
    | separator h => rw [h] at h1; exact absurd (by decide) h1
    | child h => exact absurd h h1
  · rintro ⟨h, h'⟩; exact .range h h'

/-- A node with children which is not a COMPONENT_VALUE. -/
theorem unwritable_kids {d : Data} {kids : List Tree} (h : d.ty ∈ withKids) (hc : d.ty ≠ .COMPONENT_VALUE) :
    (∃ c ∈ kids, Unwritable c) ↔ Unwritable (.mk d kids) := by
  have h0 : ∀ ty ∈ withKids, ty ∉ noText ∧ ty ≠ .UNICODE_RANGE := by decide
  constructor
  · rintro ⟨c, hm, hu⟩; exact .child h hm hu
  · intro h'
    cases h' with
    | type h' => exact absurd h' (h0 _ h).1
    | range h' => exact absurd h' (h0 _ h).2
    | separator h' => exact absurd h' hc
    | child _ hm hu => exact ⟨_, hm, hu⟩

/-- A COMPONENT_VALUE. -/
theorem unwritable_args {d : Data} {kids : List Tree} (hc : d.ty = .COMPONENT_VALUE) :
    ((∃ c ∈ kids, Unwritable c) ∨ ∃ l1 l2 a ak, kids = l1 ++ .mk a ak :: l2 ∧ a.ty = .ARG ∧
      (False ∨ ∃ b ∈ l1, b.ty = .ARG) ∧ ¬ IsSeparator a.int) ↔ Unwritable (.mk d kids) := by
  constructor
  · rintro (⟨c, hm, hu⟩ | ⟨l1, l2, a, ak, rfl, h1, h2, h3⟩)
    · exact .child (by rw [hc]; decide) hm hu
    · exact .separator hc h1 (h2.resolve_left id) h3
  · intro h'
    cases h' with
    | type h' => rw [hc] at h'; exact absurd h' (by decide)
    | range h' => rw [hc] at h'; cases h'
    | separator _ h1 h2 h3 => exact .inr ⟨_, _, _, _, rfl, h1, .inr h2, h3⟩
    | child _ hm hu => exact .inl ⟨_, hm, hu⟩

theorem mem_cons_or {c : Tree} {cs : List Tree} : (∃ x ∈ c :: cs, Unwritable x) ↔ Unwritable c ∨ ∃ x ∈ cs, Unwritable x := by
  simp

mutual
theorem text_right (E : Env) : (fl : Flags) → (t : Tree) → Right (text E fl t) (Unwritable t)
  | fl, .mk d kids => by
    rw [text]
    cases hl : leaf E fl d with
    | some o =>
      obtain ⟨h1, h2, h3⟩ := leaf_right E fl d hl
      exact h1.of (not_unwritable_leaf h2 h3).symm
    | none =>
      have all := fun fl => textAll_right E fl kids
      have sep := fun fl s => textSep_right E fl s true kids
      have args := textArgs_right E fl true kids
      have after := fun ty s => textAfter_right E fl ty s kids
      have map := fun fl => textMap_right E fl true true kids
      rcases leaf_none hl with h | h
      · have key := fun hc => unwritable_kids (kids := kids) h hc
        have key' := fun hc => unwritable_args (kids := kids) (d := d) hc
        dsimp only
        cases hty : d.ty
        all_goals
          rw [hty] at h key key'
          first
            | exact absurd h (by decide)
            | skip
        all_goals dsimp only
        case COMPONENT_VALUE => exact (args.of (by simp)).of (key' rfl)
        all_goals
          refine Right.of ?_ (key (by decide))
          first
            | exact (all fl)
            | exact ((Right.put _).cat ((all fl).cat (.put _))).of (by simp)
            | exact ((Right.put _).cat ((sep _ _).cat (.put _))).of (by simp)
            | exact ((Right.put _).cat ((map _).cat (.put _))).of (by simp)
            | exact ((Right.put _).cat (after _ _)).of (by simp)
            | exact (after _ _).of (by simp)
            | exact ((frame_right E _).cat ((Right.put _).cat ((all fl).cat (.put _)))).of (by simp)
      · have hu : Unwritable (.mk d kids) := .type h
        refine Right.of (P := True) ?_ ⟨fun _ => hu, fun _ => trivial⟩
        have : ∀ o : Out, o = .error .throws → Right o True :=
          fun o ho => ⟨fun _ => trivial, fun _ s hs => by rw [ho] at hs; cases hs⟩
        apply this
        dsimp only
        cases hty : d.ty
        all_goals first
          | rfl
          | exact absurd (hty ▸ h) (by decide)

theorem textAll_right (E : Env) : (fl : Flags) → (l : List Tree) → Right (textAll E fl l) (∃ c ∈ l, Unwritable c)
  | _, [] => by rw [textAll]; exact (Right.put []).of (by simp)
  | fl, c :: cs => by rw [textAll]; exact ((text_right E fl c).cat (textAll_right E fl cs)).of mem_cons_or.symm

theorem textSep_right (E : Env) : (fl : Flags) → (sep : Str) → (first : Bool) → (l : List Tree) →
    Right (textSep E fl sep first l) (∃ c ∈ l, Unwritable c)
  | _, _, _, [] => by rw [textSep]; exact (Right.put []).of (by simp)
  | fl, sep, first, c :: cs => by
    rw [textSep]
    exact ((Right.put _).cat ((text_right E fl c).cat (textSep_right E fl sep false cs))).of (by simp)

theorem textAfter_right (E : Env) : (fl : Flags) → (ty : NT) → (sep : Str) → (l : List Tree) →
    Right (textAfter E fl ty sep l) (∃ c ∈ l, Unwritable c)
  | _, _, _, [] => by rw [textAfter]; exact (Right.put []).of (by simp)
  | fl, ty, sep, c :: cs => by
    rw [textAfter]
    exact ((text_right E fl c).cat ((Right.put _).cat (textAfter_right E fl ty sep cs))).of (by simp)

theorem textArgs_right (E : Env) : (fl : Flags) → (first : Bool) → (l : List Tree) →
    Right (textArgs E fl first l) ((∃ c ∈ l, Unwritable c) ∨ ∃ l1 l2 a ak, l = l1 ++ .mk a ak :: l2 ∧ a.ty = .ARG ∧
      (first = false ∨ ∃ b ∈ l1, b.ty = .ARG) ∧ ¬ IsSeparator a.int)
  | _, _, [] => by rw [textArgs]; exact (Right.put []).of (by simp)
  | fl, first, .mk d kids :: cs => by
    rw [textArgs]
    have h1 := text_right E fl (.mk d kids)
    by_cases ha : d.ty = .ARG
    · rw [if_pos ha]
      have h2 := textArgs_right E fl false cs
      have h3 : Right (if first = true then put [] else separator d.int) (first = false ∧ ¬ IsSeparator d.int) := by
        cases first
        · exact (separator_right d.int).of (by simp)
        · exact (Right.put []).of (by simp)
      refine (h3.cat (h1.cat h2)).of ?_
      constructor
      · rintro (⟨h, h'⟩ | h | ⟨c, hm, hu⟩ | ⟨l1, l2, a, ak, rfl, h, h', h''⟩)
        · exact .inr ⟨[], cs, d, kids, rfl, ha, .inl h, h'⟩
        · exact .inl ⟨_, List.mem_cons_self, h⟩
        · exact .inl ⟨c, List.mem_cons_of_mem _ hm, hu⟩
        · exact .inr ⟨.mk d kids :: l1, l2, a, ak, rfl, h, .inr ⟨_, List.mem_cons_self, ha⟩, h''⟩
      · rintro (⟨c, hm, hu⟩ | ⟨l1, l2, a, ak, e, h, h', h''⟩)
        · rcases List.mem_cons.1 hm with rfl | hm
          · exact .inr (.inl hu)
          · exact .inr (.inr (.inl ⟨c, hm, hu⟩))
        · cases l1 with
          | nil =>
            injection e with e1 _
            injection e1 with e1 _
            subst e1
            rcases h' with h' | ⟨b, hb, _⟩
            · exact .inl ⟨h', h''⟩
            · cases hb
          | cons x l1 =>
            injection e with _ e2
            exact .inr (.inr (.inr ⟨l1, l2, a, ak, e2, h, .inl rfl, h''⟩))
    · rw [if_neg ha]
      have h2 := textArgs_right E fl first cs
      refine (h1.cat h2).of ?_
      constructor
      · rintro (h | ⟨c, hm, hu⟩ | ⟨l1, l2, a, ak, rfl, h, h', h''⟩)
        · exact .inl ⟨_, List.mem_cons_self, h⟩
        · exact .inl ⟨c, List.mem_cons_of_mem _ hm, hu⟩
        · refine .inr ⟨.mk d kids :: l1, l2, a, ak, rfl, h, ?_, h''⟩
          exact h'.imp id (fun ⟨b, hb, hb'⟩ => ⟨b, List.mem_cons_of_mem _ hb, hb'⟩)
      · rintro (⟨c, hm, hu⟩ | ⟨l1, l2, a, ak, e, h, h', h''⟩)
        · rcases List.mem_cons.1 hm with rfl | hm
          · exact .inl hu
          · exact .inr (.inl ⟨c, hm, hu⟩)
        · cases l1 with
          | nil =>
            injection e with e1 _
            injection e1 with e1 _
            subst e1
            exact absurd h ha
          | cons x l1 =>
            injection e with e1 e2
            refine .inr (.inr ⟨l1, l2, a, ak, e2, h, h'.imp id ?_, h''⟩)
            rintro ⟨b, hb, hb'⟩
            rcases List.mem_cons.1 hb with rfl | hb
            · rw [← e1] at hb'; exact absurd hb' ha
            · exact ⟨b, hb, hb'⟩

theorem textMap_right (E : Env) : (fl : Flags) → (first label : Bool) → (l : List Tree) →
    Right (textMap E fl first label l) (∃ c ∈ l, Unwritable c)
  | _, _, _, [] => by rw [textMap]; exact (Right.put []).of (by simp)
  | fl, first, label, c :: cs => by
    rw [textMap]
    split
    · exact ((Right.put _).cat ((text_right E fl c).cat ((Right.put _).cat (textMap_right E fl false false cs)))).of (by simp)
    · exact ((text_right E fl c).cat (textMap_right E fl first true cs)).of (by simp)
end

/-- C88: an exception is thrown only for a tree that has no text, and such a tree never gives a text. -/
theorem C88_throws (E : Env) (fl : Flags) (t : Tree) :
    (text E fl t = .error .throws → Unwritable t) ∧ (Unwritable t → ∀ s, text E fl t ≠ .ok s) := text_right E fl t

end Csspp.Text
