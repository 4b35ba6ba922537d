import Verif.Lemmas.LexSpell6

/-! What was reported stays reported: no function of the lexer removes a message. -/

namespace Csspp.Lex
open Csspp.Utf8 Csspp.Spec

/-- The messages of a are still there in s. -/
def Grows (a s : LS) : Prop := a.err <:+ s.err

theorem Grows.refl (a : LS) : Grows a a := List.suffix_rfl
theorem Grows.trans {a b c : LS} (h1 : Grows a b) (h2 : Grows b c) : Grows a c := List.IsSuffix.trans h1 h2

variable {a : LS}

theorem report_g {s : LS} (r : Rpt) (h : Grows a s) : Grows a (s.report r) := h.trans (List.suffix_cons _ _)
theorem throw_g {s : LS} (e : Exn) (h : Grows a s) : Grows a (s.throw e) := h
theorem reportIf_g {s : LS} (b : Bool) (r : Rpt) (h : Grows a s) : Grows a (s.reportIf b r) := by
  cases b
  · exact h
  · exact report_g r h
theorem undefIf_g {s : LS} (b : Bool) (h : Grows a s) : Grows a (s.undefIf b) := by cases b <;> exact h
theorem reportMb_g {s : LS} (o : Option MbErr) (h : Grows a s) : Grows a (s.reportMb o) := by
  cases o
  · exact h
  · exact report_g _ h
theorem reportWc_g {s : LS} (o : Option WcErr) (h : Grows a s) : Grows a (s.reportWc o) := by
  cases o
  · exact h
  · exact report_g _ h
theorem put_g {s : LS} {str : Str} (c : Nat) (h : Grows a s) : Grows a (put c str s).2 := reportWc_g _ h
theorem strPut_g {s : LS} {str : Str} (c : Nat) (h : Grows a s) : Grows a (strPut c str s).2 := by
  unfold strPut
  split
  · exact h
  · exact put_g c h
theorem endOfLine_g {s : LS} (c : Nat) (h : Grows a s) : Grows a (endOfLine c s).2 := by
  unfold endOfLine
  repeat' split
  all_goals exact h
theorem getHigh_g {s : LS} (b : Nat) (h : Grows a s) : Grows a (getHigh b s).2 := by
  unfold getHigh
  dsimp only
  repeat' split
  · exact report_g _ h
  · exact endOfLine_g _ (reportMb_g _ h)
  · exact report_g _ h
theorem getc_g {s : LS} (h : Grows a s) : Grows a (getc s).2 := by
  unfold getc
  repeat' split
  all_goals first
    | exact h
    | (refine getHigh_g _ ?_; exact h)
    | (refine endOfLine_g _ ?_; exact h)
theorem ungetc_g {s : LS} (c : Nat) (h : Grows a s) : Grows a (ungetc c s) := by
  unfold ungetc
  repeat' split
  all_goals exact h

/-- Peel the operations off a state. -/
macro "grow" : tactic => `(tactic| repeat (first
  | assumption | exact Grows.refl _ | with_reducible apply report_g | with_reducible apply throw_g
  | with_reducible apply reportIf_g | with_reducible apply undefIf_g | with_reducible apply put_g
  | with_reducible apply strPut_g | with_reducible apply getc_g | with_reducible apply ungetc_g))

theorem escLoop_g : ∀ (k wc : Nat) (s : LS), Grows a s → Grows a (escLoop k wc s).2 := by
  intro k
  induction k with
  | zero => intro wc s h; exact h
  | succ k ih =>
    intro wc s h
    unfold escLoop
    dsimp only
    repeat' split
    · grow
    · exact ih _ _ (by grow)
    · grow
    · grow

theorem escape_g {s : LS} (h : Grows a s) : Grows a (escape s).2 := by
  unfold escape
  dsimp only
  repeat' split
  · grow
  · grow
  · grow
  · have := escLoop_g 5 (hexVal (getc s).1) (getc s).2 (getc_g h)
    rcases hh : escLoop 5 (hexVal (getc s).1) (getc s).2 with ⟨_ | wc, s1⟩
    · rw [hh] at this; exact this
    · rw [hh] at this
      unfold escEnd
      dsimp only
      split
      · exact report_g _ this
      · exact this
  · grow

theorem strEscape_g {s : LS} (h : Grows a s) : Grows a (strEscape s).2 := by
  unfold strEscape
  dsimp only
  repeat' split
  · grow
  · grow
  · grow
  · exact escape_g (by grow)

theorem lexString_g (q : Nat) : ∀ (f : Nat) (str : Str) (s : LS), Grows a s → Grows a (lexString q f str s).2 := by
  intro f
  induction f with
  | zero => intro str s h; exact h
  | succ f ih =>
    intro str s h
    unfold lexString
    dsimp only
    repeat' split
    · grow
    · grow
    · grow
    · exact ih _ _ (strPut_g _ (strEscape_g (getc_g h)))
    · exact ih _ _ (by grow)

theorem idLoop_g : ∀ (f : Nat) (id lo : Str) (s : LS), Grows a s → Grows a (idLoop f id lo s).2.2.2 := by
  intro f
  induction f with
  | zero => intro _ _ s h; exact h
  | succ f ih =>
    intro id lo s h
    unfold idLoop
    dsimp only
    repeat' split
    · exact escape_g (getc_g h)
    · exact ih _ _ _ (put_g _ (put_g _ (escape_g (getc_g h))))
    · exact ih _ _ _ (by grow)
    · grow

theorem skipSpaces_g : ∀ (f : Nat) (s : LS), Grows a s → Grows a (skipSpaces f s).2 := by
  intro f
  induction f with
  | zero => intro s h; exact h
  | succ f ih =>
    intro s h
    unfold skipSpaces
    dsimp only
    split
    · exact ih _ (by grow)
    · grow

theorem urlLoop_g : ∀ (f : Nat) (url : Str) (s : LS), Grows a s → Grows a (urlLoop f url s).2.2 := by
  intro f
  induction f with
  | zero => intro _ s h; exact h
  | succ f ih =>
    intro url s h
    unfold urlLoop
    dsimp only
    repeat' split
    · grow
    · grow
    · exact ih _ _ (by grow)

theorem urlClose_g : ∀ (f : Nat) (s : LS), Grows a s → Grows a (urlClose f s) := by
  intro f
  induction f with
  | zero => intro s h; exact h
  | succ f ih =>
    intro s h
    unfold urlClose
    dsimp only
    repeat' split
    · grow
    · exact ih _ (by grow)
    · grow

theorem urlText_g {s : LS} (c : Nat) (h : Grows a s) : Grows a (urlText c s).2.2 := by
  unfold urlText
  split
  · exact lexString_g _ _ _ _ h
  · exact urlLoop_g _ _ _ (put_g (str := []) c h)

theorem lexUrl_end_g (r : Str × Nat × LS) (h : Grows a r.2.2) :
    Grows a (if r.2.1 = 41 then r.2.2 else urlClose r.2.2.fuel r.2.2) := by
  split
  · exact h
  · exact urlClose_g _ _ h

theorem lexUrl_g {s : LS} (h : Grows a s) : Grows a (lexUrl s).2 := by
  unfold lexUrl
  exact lexUrl_end_g (urlText (skipSpaces s.fuel s).1 (skipSpaces s.fuel s).2)
    (urlText_g _ (skipSpaces_g _ _ h))

theorem idEnd_g (ty : NT) (r : Str × Str × Nat × LS) (h : Grows a r.2.2.2) : Grows a (idEnd ty r).2 := by
  obtain ⟨id, lo, c, s⟩ := r
  have h : Grows a s := h
  unfold idEnd
  dsimp only
  repeat' split
  · grow
  · exact lexUrl_g h
  · grow
  · grow

theorem hashLoop_g : ∀ (f : Nat) (str : Str) (s : LS), Grows a s → Grows a (hashLoop f str s).2 := by
  intro f
  induction f with
  | zero => intro _ s h; exact h
  | succ f ih =>
    intro str s h
    unfold hashLoop
    dsimp only
    repeat' split
    · exact escape_g (getc_g h)
    · exact ih _ _ (put_g _ (escape_g (getc_g h)))
    · exact ih _ _ (by grow)
    · grow

theorem intLoop_g : ∀ (f : Nat) (i : Int) (s : LS), Grows a s → Grows a (intLoop f i s).2.2 := by
  intro f
  induction f with
  | zero => intro _ s h; exact h
  | succ f ih =>
    intro i s h
    unfold intLoop
    dsimp only
    split
    · exact ih _ _ (by grow)
    · grow

theorem fracLoop_g : ∀ (f : Nat) (ds : List Nat) (s : LS), Grows a s → Grows a (fracLoop f ds s).2.2 := by
  intro f
  induction f with
  | zero => intro _ s h; exact h
  | succ f ih =>
    intro i s h
    unfold fracLoop
    dsimp only
    split
    · exact ih _ _ (by grow)
    · grow

theorem fracPart_g {s : LS} (c : Nat) (h : Grows a s) : Grows a (fracPart c s).2.2.2 := by
  unfold fracPart
  split
  · exact reportIf_g _ _ (fracLoop_g _ _ _ h)
  · exact h

theorem expLoop_g : ∀ (f : Nat) (e : Int) (c : Nat) (s : LS), Grows a s → Grows a (expLoop f e c s).2.2 := by
  intro f
  induction f with
  | zero => intro _ _ s h; exact h
  | succ f ih =>
    intro e c s h
    unfold expLoop
    dsimp only
    split
    · exact ih _ _ _ (by grow)
    · grow

theorem expDigits_g {s : LS} (neg : Bool) (c : Nat) (h : Grows a s) : Grows a (expDigits neg c s).2.2 := by
  unfold expDigits
  dsimp only
  cases neg
  · exact expLoop_g _ _ _ _ (by split <;> grow)
  · exact undefIf_g _ (expLoop_g _ _ _ _ (by split <;> grow))

theorem expSign_g {s : LS} (c : Nat) (h : Grows a s) : Grows a (expSign c s).2.2 := by
  unfold expSign
  dsimp only
  repeat' split
  · exact expDigits_g _ _ (getc_g h)
  · exact expDigits_g _ _ (getc_g h)
  · exact expDigits_g _ _ h

theorem isExponent_g {s : LS} (h : Grows a s) : Grows a (isExponent s).2 := by
  unfold isExponent
  dsimp only
  split <;> grow

theorem expPart_g {s : LS} (c : Nat) (h : Grows a s) : Grows a (expPart c s).2.2 := by
  unfold expPart
  split
  · have := isExponent_g h
    rcases hh : isExponent s with ⟨_ | _, s1⟩
    · rw [hh] at this; exact this
    · rw [hh] at this; exact expSign_g _ (getc_g this)
  · exact h

theorem dimLoop_g : ∀ (f : Nat) (dim : Str) (c : Nat) (s : LS), Grows a s → Grows a (dimLoop f dim c s).2.2 := by
  intro f
  induction f with
  | zero => intro _ _ s h; exact h
  | succ f ih =>
    intro dim c s h
    unfold dimLoop
    dsimp only
    repeat' split
    · exact escape_g h
    · exact ih _ _ _ (getc_g (put_g _ (escape_g h)))
    · exact ih _ _ _ (by grow)
    · grow

theorem dimDash_g (r : Str × Nat × LS) (h : Grows a r.2.2) : Grows a (dimDash r).2.2 := by
  unfold dimDash
  dsimp only
  split
  · exact ungetc_g _ h
  · exact h

theorem dimPart_g {s : LS} (c : Nat) (h : Grows a s) : Grows a (dimPart c s).2.2 := by
  unfold dimPart
  dsimp only
  repeat' split
  · exact dimDash_g _ (dimLoop_g _ _ _ _ h)
  · exact h
  · exact ungetc_g _ h

theorem numNode_g {s : LS} (hs ng : Bool) (i : Int) (fr : List Nat) (d : Bool) (e : Int) (dim : Str) (pc : Bool)
    (h : Grows a s) : Grows a (numNode hs ng i fr d e dim pc s).2 := by
  unfold numNode
  split
  · cases pc <;> exact h
  · cases ng
    · exact h
    · exact undefIf_g _ h

theorem skipLead_g (p : Nat → Bool) : ∀ (f : Nat) (s : LS), Grows a s → Grows a (skipLead p f s) := by
  intro f
  induction f with
  | zero => intro s h; exact h
  | succ f ih =>
    intro s h
    unfold skipLead
    dsimp only
    split
    · exact ih _ (by grow)
    · grow

theorem cLoop_g : ∀ (f : Nat) (str : Str) (s : LS), Grows a s → Grows a (cLoop f str s).2 := by
  intro f
  induction f with
  | zero => intro _ s h; exact h
  | succ f ih =>
    intro str s h
    unfold cLoop
    dsimp only
    repeat' split
    · grow
    · grow
    · exact ih _ _ (by grow)
    · exact ih _ _ (by grow)

theorem lineLoop_g : ∀ (f : Nat) (str : Str) (s : LS), Grows a s → Grows a (lineLoop f str s).2 := by
  intro f
  induction f with
  | zero => intro _ s h; exact h
  | succ f ih =>
    intro str s h
    unfold lineLoop
    dsimp only
    repeat' split
    · grow
    · refine ih _ _ ?_
      unfold skipOne
      dsimp only
      split <;> grow
    · grow
    · grow
    · exact ih _ _ (by grow)

theorem commentEnd_g (b : Bool) (r : Str × LS) (h : Grows a r.2) : Grows a (commentEnd b r).2 := by
  unfold commentEnd
  dsimp only
  split <;> exact h

theorem warnCpp_g (r : Option Tok × LS) (h : Grows a r.2) : Grows a (warnCpp r).2 := by
  rcases r with ⟨_ | t, s⟩
  · exact h
  · exact report_g _ h

/-! ### Errors -/

/-- An error was reported since s0. -/
def Fails (s0 s : LS) : Prop := ∃ es, s.err = es ++ s0.err ∧ ∃ r ∈ es, r.isError = true

theorem Fails.grow {s0 s s' : LS} (h : Fails s0 s) (g : Grows s s') : Fails s0 s' := by
  obtain ⟨es, e, r, hr, hb⟩ := h
  obtain ⟨es', e'⟩ := g
  exact ⟨es' ++ es, by rw [← e', e, List.append_assoc], r, by simp [hr], hb⟩

theorem Fails.report {s0 s : LS} (h : s.err = s0.err) (r : Rpt) (hr : r.isError = true) : Fails s0 (s.report r) :=
  ⟨[r], by show r :: s.err = _; rw [h]; rfl, r, by simp, hr⟩

theorem put_bad {s0 s : LS} {c : Nat} (h : s.err = s0.err) (hc : ¬ Encodable c) (str : Str) :
    Fails s0 (put c str s).2 := by
  obtain ⟨e, he⟩ := ((C02_exact c).2.1 hc).1
  show Fails s0 (s.reportWc (wctomb c).2)
  rw [he]
  exact Fails.report h _ rfl

theorem not_valid {c : Nat} (h0 : c ≠ 0) (h : ¬ Valid c) : ¬ Encodable c :=
  fun he => h ⟨he.1, he.2, h0⟩

end Csspp.Lex
