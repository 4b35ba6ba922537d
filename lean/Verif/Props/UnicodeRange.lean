import Verif.Lemmas.UnicodeRange

/-!
C11 and C13: unicode ranges.

Specification: a (start, end) pair is acceptable when
`0 ≤ start ≤ 0x10FFFF`, `end ≤ 0x1FFFFF` and `start ≤ end`; the pair stands for the set of
characters `start ≤ c ≤ end`.
-/

namespace Csspp.URange

/-- The pairs the documentation of unicode_range_t allows. -/
def ValidPair (start end_ : Int) : Prop :=
  0 ≤ start ∧ start ≤ 0x10FFFF ∧ end_ ≤ 0x1FFFFF ∧ start ≤ end_

/-- C11 (constructor): for a non negative start the constructor succeeds exactly on the valid
pairs, and the object then gives back the pair. -/
theorem C11_ctor_exact (start end_ : Int) (hs : IsI32 start) (he : IsI32 end_) (h0 : 0 ≤ start) :
    (ValidPair start end_ ↔ ∃ u, UR.ofStartEnd start end_ = .ok u) ∧
    (∀ u, UR.ofStartEnd start end_ = .ok u → u.getStart = start ∧ u.getEnd = end_) := by
  have h1 := start_startEnd_nonneg (e := end_) hs h0
  have h2 := end_startEnd_nonneg hs he h0
  have hv := verifyRange_none_iff (startEndToRange start end_)
  rw [h1, h2] at hv
  unfold UR.ofStartEnd ValidPair
  cases hc : verifyRange (startEndToRange start end_) with
  | none =>
    rw [hc] at hv
    have := hv.mp rfl
    refine ⟨⟨fun _ => ⟨_, rfl⟩, fun _ => by omega⟩, ?_⟩
    intro u hu
    cases hu
    exact ⟨h1, h2⟩
  | some x =>
    rw [hc] at hv
    refine ⟨⟨fun h => ?_, fun ⟨u, hu⟩ => by cases hu⟩, fun u hu => by cases hu⟩
    have := hv.mpr (by omega)
    cases this

/-- C11 (setters): `set_range` on a non negative start behaves the same way, and a rejected value
leaves the object unchanged. -/
theorem C11_set_exact (u : UR) (start end_ : Int) (hs : IsI32 start) (he : IsI32 end_)
    (h0 : 0 ≤ start) :
    (ValidPair start end_ →
      (u.setStartEnd start end_).2 = none ∧
      (u.setStartEnd start end_).1.getStart = start ∧
      (u.setStartEnd start end_).1.getEnd = end_) ∧
    (¬ ValidPair start end_ →
      (u.setStartEnd start end_).2 ≠ none ∧ (u.setStartEnd start end_).1 = u) := by
  have h1 := start_startEnd_nonneg (e := end_) hs h0
  have h2 := end_startEnd_nonneg hs he h0
  have hv := verifyRange_none_iff (startEndToRange start end_)
  rw [h1, h2] at hv
  unfold UR.setStartEnd ValidPair
  cases hc : verifyRange (startEndToRange start end_) with
  | none =>
    rw [hc] at hv
    have := hv.mp rfl
    exact ⟨fun _ => ⟨rfl, h1, h2⟩, fun h => absurd (by omega) h⟩
  | some x =>
    rw [hc] at hv
    refine ⟨fun h => ?_, fun _ => ⟨by simp [assignUnless], rfl⟩⟩
    have := hv.mpr (by omega)
    cases this

/-- C11 (64 bit form): `set_range(range)` and the 64 bit constructor keep the value as is, a
rejection leaves the object unchanged, and every accepted value with a non negative start is
valid. -/
theorem C11_range_value (u : UR) (range : Nat) :
    ((u.setRange range).2 = none → (u.setRange range).1.getRange = range) ∧
    ((u.setRange range).2 ≠ none → (u.setRange range).1 = u) ∧
    (∀ v, UR.ofRange range = .ok v → v.getRange = range ∧
      (0 ≤ v.getStart → ValidPair v.getStart v.getEnd)) := by
  unfold UR.setRange UR.ofRange
  cases hc : verifyRange range with
  | none =>
    refine ⟨fun _ => rfl, fun h => absurd rfl h, ?_⟩
    intro v hv
    cases hv
    refine ⟨rfl, fun h => ?_⟩
    have hb := (verifyRange_none_iff range).mp hc
    exact ⟨h, Int.le_of_lt_add_one hb.1, Int.le_of_lt_add_one hb.2.1, hb.2.2⟩
  | some x =>
    exact ⟨fun h => by simp [assignUnless] at h, fun _ => rfl, fun v hv => by simp [orThrow] at hv⟩

/-- Every history of setter calls (with the parameters the callers of the repository use, that is
non negative starts) on a valid object leaves a valid object. -/
inductive SetOp where
  | pair (start end_ : Int)
  | value (range : Nat)

/-- Applying a setter call, whether it throws or not. -/
def SetOp.apply (u : UR) : SetOp → UR
  | .pair s e => (u.setStartEnd s e).1
  | .value r => (u.setRange r).1

/-- The start given by a setter call. -/
def SetOp.NonNeg : SetOp → Prop
  | .pair s e => IsI32 s ∧ IsI32 e ∧ 0 ≤ s
  | .value r => r % 4294967296 < 2147483648

theorem C11_history (u : UR) (ops : List SetOp) (hops : ∀ o ∈ ops, o.NonNeg)
    (hu : ValidPair u.getStart u.getEnd) :
    ValidPair (ops.foldl SetOp.apply u).getStart (ops.foldl SetOp.apply u).getEnd := by
  have step : ∀ (u : UR) (o : SetOp), o.NonNeg → ValidPair u.getStart u.getEnd →
      ValidPair (o.apply u).getStart (o.apply u).getEnd := by
    intro u o ho hu
    cases o with
    | pair s e =>
      obtain ⟨hs, he, h0⟩ := ho
      have h := C11_set_exact u s e hs he h0
      rw [show SetOp.apply u (.pair s e) = (u.setStartEnd s e).1 from rfl]
      by_cases hv : ValidPair s e
      · have := h.1 hv
        rw [this.2.1, this.2.2]; exact hv
      · have := h.2 hv
        rw [this.2]; exact hu
    | value r =>
      rw [show SetOp.apply u (.value r) = (u.setRange r).1 from rfl]
      have h := C11_range_value u r
      cases hc : verifyRange r with
      | none =>
        have hb := (verifyRange_none_iff r).mp hc
        have ho' : r % 4294967296 < 2147483648 := ho
        have h2 : 0 ≤ rangeToStart r := by
          rw [rangeToStart_eq]; clear hb hc h ho hu hops; unfold wrap32; omega
        have e1 : (u.setRange r).1 = ⟨r⟩ := by unfold UR.setRange; rw [hc]; rfl
        rw [e1]
        exact ⟨h2, Int.le_of_lt_add_one hb.1, Int.le_of_lt_add_one hb.2.1, hb.2.2⟩
      | some x =>
        have e1 : (u.setRange r).1 = u := by unfold UR.setRange; rw [hc]; rfl
        rw [e1]; exact hu
  induction ops generalizing u with
  | nil => exact hu
  | cons o os ih =>
    exact ih _ (fun o' ho' => hops o' (List.mem_cons_of_mem _ ho'))
      (step u o (hops o List.mem_cons_self) hu)

/-- C11, the unrestricted claim is false: a negative start is accepted by the signed comparisons
of verify_range() whatever the end, and get_end() is then -1 and not what was given. -/
theorem C11_refuted_negative_start (start end_ : Int) (hs : IsI32 start) (h0 : start < 0) :
    ∃ u, UR.ofStartEnd start end_ = .ok u ∧ u.getStart = start ∧ u.getEnd = -1 := by
  have h1 := start_startEnd_neg (e := end_) hs h0
  have h2 := end_startEnd_neg (e := end_) hs h0
  have hv := verifyRange_none_iff (startEndToRange start end_)
  rw [h1, h2] at hv
  have hn := hv.mpr (by omega)
  unfold UR.ofStartEnd
  rw [hn]
  exact ⟨_, rfl, h1, h2⟩

/-- …and printing such a range throws the exception marked as never reached. -/
theorem C11_refuted_negative_prints : (UR.mk (startEndToRange (-5) 7)).toStr = .error .badLength := by
  decide +kernel

example : UR.ofStartEnd 0x26 0x1FFFFF = .ok ⟨0x1FFFFF00000026⟩ := by decide +kernel
example : UR.ofStartEnd 0x27 0x26 = .error .notOrdered := by decide +kernel
example : ValidPair 0x400 0x4FF ∧ IsI32 0x400 ∧ IsI32 0x4FF := by unfold ValidPair; decide +kernel
example : (SetOp.pair 3 9).NonNeg ∧ (SetOp.value 0x500000004).NonNeg := by
  unfold SetOp.NonNeg; decide +kernel

/-- The set of characters of a range value. -/
def Covers (range : Nat) (c : Int) : Prop := (UR.mk range).getStart ≤ c ∧ c ≤ (UR.mk range).getEnd

/-- C13: the product of two valid ranges never throws and is the intersection of the sets of
characters: null when they have no character in common, otherwise a valid range that covers
exactly the common characters. -/
theorem C13_mul_is_intersection (l r : Nat)
    (hl : ValidPair (UR.mk l).getStart (UR.mk l).getEnd)
    (hr : ValidPair (UR.mk r).getStart (UR.mk r).getEnd) :
    (mulRanges l r = .ok none ∧ ∀ c, ¬ (Covers l c ∧ Covers r c)) ∨
    (∃ m, mulRanges l r = .ok (some m) ∧ ValidPair (UR.mk m).getStart (UR.mk m).getEnd ∧
      (∃ c, Covers m c) ∧ ∀ c, Covers m c ↔ Covers l c ∧ Covers r c) := by
  have ofr : ∀ r, ValidPair (UR.mk r).getStart (UR.mk r).getEnd → UR.ofRange r = .ok ⟨r⟩ := by
    intro r hr
    have : verifyRange r = none := (verifyRange_none_iff r).mpr
      ⟨Int.lt_add_one_of_le hr.2.1, Int.lt_add_one_of_le hr.2.2.1, hr.2.2.2⟩
    unfold UR.ofRange
    rw [this]; rfl
  unfold mulRanges
  rw [ofr l hl, ofr r hr]
  simp only [bind, Except.bind]
  unfold ValidPair at hl hr
  unfold Covers
  generalize hls : (UR.mk l).getStart = ls at *
  generalize hle : (UR.mk l).getEnd = le at *
  generalize hrs : (UR.mk r).getStart = rs at *
  generalize hre : (UR.mk r).getEnd = re at *
  have hS : toU64 (max ls rs) = (max ls rs).toNat := by unfold toU64; omega
  have hE : toU64 (min le re) = (min le re).toNat := by unfold toU64; omega
  rw [hS, hE]
  have hS2 : wrap32 ((max ls rs).toNat : Int) = max ls rs := by unfold wrap32; omega
  have hE2 : wrap32 ((min le re).toNat : Int) = min le re := by unfold wrap32; omega
  rw [hS2, hE2]
  by_cases h : (max ls rs).toNat ≤ (min le re).toNat
  · right
    rw [if_pos h]
    have hc := C11_ctor_exact (max ls rs) (min le re) (by unfold IsI32; omega)
      (by unfold IsI32; omega) (by omega)
    have hvp : ValidPair (max ls rs) (min le re) := by unfold ValidPair; omega
    obtain ⟨u, hu⟩ := hc.1.mp hvp
    have hg := hc.2 u hu
    rw [hu]
    have hu1 : (UR.mk u.getRange) = u := rfl
    refine ⟨u.getRange, rfl, ?_, ⟨max ls rs, ?_⟩, ?_⟩
    · rw [hu1, hg.1, hg.2]; exact hvp
    · rw [hu1, hg.1, hg.2]; omega
    · intro c; rw [hu1, hg.1, hg.2]; omega
  · left
    rw [if_neg h]
    exact ⟨rfl, fun c => by omega⟩

example : ValidPair (UR.mk 0x00000500_00000400).getStart (UR.mk 0x00000500_00000400).getEnd := by
  unfold ValidPair; decide +kernel
example : mulRanges 0x00000500_00000400 0x00000600_00000480 = .ok (some 0x00000500_00000480) := by
  decide +kernel
example : mulRanges 0x00000500_00000400 0x00000600_00000501 = .ok none := by decide +kernel

end Csspp.URange
