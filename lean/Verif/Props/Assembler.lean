import Verif.Spec.Layout

/-!
C40: the output modes. C41: the brackets of the output.
-/

namespace Csspp.Asm
open Csspp.Tree

/-! ### The text of a mode, as a function of the calls -/

/-- What is added by one call, and the new `f_started`. -/
def Mode.step (m : Mode) (started : Bool) (c : Call) : Str × Bool :=
  ((m.call ⟨[], started⟩ c).out, (m.call ⟨[], started⟩ c).started)

theorem put_put (w : W) (a b : Str) : (w.put a).put b = w.put (a ++ b) := by
  unfold W.put; rw [List.append_assoc]

theorem call_eq (m : Mode) (w : W) (c : Call) :
    m.call w c = ⟨w.out ++ (m.step w.started c).1, (m.step w.started c).2⟩ := by
  obtain ⟨o, st⟩ := w
  cases c with
  | raw s => simp [Mode.step, Mode.call, W.put]
  | token s =>
    simp only [Mode.step, Mode.call, W.string]
    split <;> simp [W.put, W.set]
  | op s f =>
    cases s <;> cases m <;> cases f <;>
      simp [Mode.step, Mode.call, opBase, opCompact, opExpanded, W.string, W.put, W.set]
  | newline => cases m <;> simp [Mode.step, Mode.call, W.put, W.set]
  | newlineIfNotEmpty => cases st <;> simp [Mode.step, Mode.call, W.put, W.set]
  | indent => cases m <;> simp [Mode.step, Mode.call, W.put]
  | report => simp [Mode.step, Mode.call]

/-- The text of the calls, from `f_started`. -/
def Mode.from (m : Mode) (started : Bool) : List Call → Str
  | [] => []
  | c :: l => (m.step started c).1 ++ m.from (m.step started c).2 l

theorem fold_eq (m : Mode) (l : List Call) (w : W) :
    (l.foldl m.call w).out = w.out ++ m.from w.started l := by
  induction l generalizing w with
  | nil => simp [Mode.from]
  | cons c l ih =>
    rw [List.foldl_cons, ih, call_eq]
    simp [Mode.from, List.append_assoc]

theorem text_eq (m : Mode) (l : List Call) : m.text l = m.from false l := by
  unfold Mode.text; rw [fold_eq]; rfl

/-! ### Spread -/

theorem Blank.append {a b : Str} (ha : Blank a) (hb : Blank b) : Blank (a ++ b) := by
  intro c h; rcases List.mem_append.1 h with h | h
  · exact ha c h
  · exact hb c h

theorem Lines.append {a b : Str} (ha : Lines a) (hb : Lines b) : Lines (a ++ b) := by
  intro c h; rcases List.mem_append.1 h with h | h
  · exact ha c h
  · exact hb c h

/-- A gap in front. -/
theorem Spread.front {gap : Str → Prop} (hg : ∀ a b, gap a → gap b → gap (a ++ b)) {g t : Str}
    {ps : List Str} (h : gap g) (hs : Spread gap ps t) : Spread gap ps (g ++ t) := by
  cases hs with
  | last h' => exact .last (hg _ _ h h')
  | piece h' hs => rw [← List.append_assoc]; exact .piece (hg _ _ h h') hs

theorem Mode.gap_append (m : Mode) (a b : Str) (ha : m.gap a) (hb : m.gap b) : m.gap (a ++ b) := by
  cases m
  · exact Blank.append ha hb
  · exact Lines.append ha hb
  · exact Blank.append ha hb
  · exact Lines.append ha hb

theorem Mode.gap_nil (m : Mode) : m.gap [] := by cases m <;> intro c h <;> cases h
theorem Mode.gap_line (m : Mode) : m.gap [10] := by
  cases m <;> intro c h <;> simp at h <;> subst h
  · exact .inr rfl
  · rfl
  · exact .inr rfl
  · rfl
theorem blank_space : Blank [32] := by intro c h; simp at h; exact .inl h
theorem blank_spaces : Blank [32, 32] := by intro c h; simp at h; exact .inl h

/-- A piece between two gaps. -/
def Mode.Around (m : Mode) (s t : Str) : Prop := ∃ g g', m.gap g ∧ m.gap g' ∧ t = g ++ (s ++ g')

theorem around_self (m : Mode) (s : Str) : m.Around s s := ⟨[], [], m.gap_nil, m.gap_nil, by simp⟩
theorem string_out (w : W) (s : Str) : (w.string s).out = w.out ++ s := by
  unfold W.string; split <;> rfl

/-- One call. -/
theorem step_piece (m : Mode) (st : Bool) (c : Call) :
    match c.piece m.opt with
    | none => m.gap (m.step st c).1
    | some s => m.Around s (m.step st c).1 := by
  have hc : Mode.gap .compact = Blank := rfl
  have he : Mode.gap .expanded = Blank := rfl
  have l1 := Mode.gap_line .compact
  have l2 := Mode.gap_line .expanded
  have n1 := Mode.gap_nil .compact
  have n2 := Mode.gap_nil .expanded
  cases c with
  | raw s => exact around_self m s
  | token s =>
    have : (m.step st (.token s)).1 = s := string_out _ _
    show m.Around s _
    rw [this]; exact around_self m s
  | op s f =>
    have hb : ∀ (m : Mode) (w : W), w.out = [] → m.opt = false →
        match Call.piece false (.op s f) with
        | none => m.gap (opBase w s f).out
        | some s => m.Around s (opBase w s f).out := by
      intro m w hw hm
      unfold Call.piece opBase
      by_cases h : f = .optionalOperator
      · subst h; simp [hw, m.gap_nil]
      · simp only [h, false_and, if_false, string_out, hw]
        exact around_self m s
    cases m with
    | compressed => cases f <;> exact hb .compressed ⟨[], st⟩ rfl rfl
    | tidy => cases f <;> exact hb .tidy ⟨[], st⟩ rfl rfl
    | compact =>
      cases f with
      | none => exact hb .compact (W.set ⟨[], st⟩ true) rfl rfl
      | optionalOperator => exact hb .compact (W.set ⟨[], st⟩ true) rfl rfl
      | spaces => exact ⟨[32], [32], blank_space, blank_space, rfl⟩
      | spacesOrNewlines => exact ⟨[32], [32], blank_space, blank_space, rfl⟩
      | spaceBefore => exact ⟨[32], [], blank_space, n1, by simp; rfl⟩
      | spaceBeforeOrNewline => exact ⟨[32], [], blank_space, n1, by simp; rfl⟩
      | spaceAfter => exact ⟨[], [32], n1, blank_space, rfl⟩
      | spaceAfterOrNewline => exact ⟨[], [32], n1, blank_space, rfl⟩
    | expanded =>
      cases f with
      | none =>
        show Mode.Around .expanded s (W.string (W.set ⟨[], st⟩ true) s).out
        rw [string_out]; exact around_self _ s
      | optionalOperator => exact ⟨[], [], n2, n2, by simp; rfl⟩
      | spaces => exact ⟨[32], [32], blank_space, blank_space, rfl⟩
      | spacesOrNewlines => exact ⟨[10], [10], l2, l2, rfl⟩
      | spaceBefore => exact ⟨[32], [], blank_space, n2, by simp; rfl⟩
      | spaceBeforeOrNewline => exact ⟨[10], [], l2, n2, by simp; rfl⟩
      | spaceAfter => exact ⟨[], [32], n2, blank_space, rfl⟩
      | spaceAfterOrNewline => exact ⟨[], [10], n2, l2, rfl⟩
  | newline => cases m <;> first | exact Mode.gap_nil _ | exact Mode.gap_line _
  | newlineIfNotEmpty => cases st <;> first | exact Mode.gap_nil _ | exact Mode.gap_line _
  | indent => cases m <;> first | exact Mode.gap_nil _ | exact blank_spaces
  | report => exact m.gap_nil

theorem spread_from (m : Mode) (st : Bool) (l : List Call) :
    Spread m.gap (pieces m.opt l) (m.from st l) := by
  induction l generalizing st with
  | nil => exact .last m.gap_nil
  | cons c l ih =>
    have hs := step_piece m st c
    unfold pieces Mode.from
    rw [List.filterMap_cons]
    cases hp : c.piece m.opt with
    | none =>
      rw [hp] at hs
      exact (ih _).front (m.gap_append) hs
    | some s =>
      rw [hp] at hs
      obtain ⟨g, g', h1, h2, h3⟩ := hs
      rw [h3]
      have : g ++ (s ++ g') ++ m.from (m.step st c).2 l = g ++ (s ++ (g' ++ m.from (m.step st c).2 l)) := by
        simp
      dsimp only
      rw [this]
      exact .piece h1 ((ih _).front m.gap_append h2)

/-! ### The shape of the calls -/

/-- The calls of a tree: anything without brackets, and brackets around such a list. -/
inductive Shape : List Call → Prop
  | nil : Shape []
  | append {a b : List Call} : Shape a → Shape b → Shape (a ++ b)
  | other {c : Call} (h : ∀ s f, c ≠ .op s f) : Shape [c]
  | op {s : Str} {f : Flag} (h : f ≠ .optionalOperator) (hs : Free s) : Shape [.op s f]
  | paren {l : List Call} {f g : Flag} (hf : f ≠ .optionalOperator) (hg : g ≠ .optionalOperator) :
      Shape l → Shape (.op b!"(" f :: (l ++ [.op b!")" g]))
  | square {l : List Call} {f g : Flag} (hf : f ≠ .optionalOperator) (hg : g ≠ .optionalOperator) :
      Shape l → Shape (.op b!"[" f :: (l ++ [.op b!"]" g]))
  | curly {l : List Call} {f g : Flag} (hf : f ≠ .optionalOperator) (hg : g ≠ .optionalOperator) :
      Shape l → Shape (.op b!"{" f :: (l ++ [.op b!"}" g]))
  | block {l : List Call} {f g : Flag} (hf : f ≠ .optionalOperator) (hg : g ≠ .optionalOperator) :
      Shape l → Shape (.op b!"{" f :: (l ++ [.op b!";" .optionalOperator, .op b!"}" g]))

/-- All the calls of an outcome have a shape. -/
def Shaped (o : Out) : Prop := ∀ calls, o = .ok calls → Shape calls

theorem andThen_ok {a b : Out} {c : List Call} (h : a ⊹ b = .ok c) :
    ∃ x y, a = .ok x ∧ b = .ok y ∧ c = x ++ y := by
  unfold andThen at h
  cases a with
  | error e => cases h
  | ok x =>
    cases b with
    | error e => cases h
    | ok y => injection h with h; exact ⟨x, y, rfl, rfl, h.symm⟩

theorem andThen_assoc (a b c : Out) : (a ⊹ b) ⊹ c = a ⊹ b ⊹ c := by
  unfold andThen
  cases a <;> cases b <;> cases c <;> simp

theorem Shaped.andThen {a b : Out} (ha : Shaped a) (hb : Shaped b) : Shaped (a ⊹ b) := by
  intro calls h
  obtain ⟨x, y, h1, h2, rfl⟩ := andThen_ok h
  exact .append (ha x h1) (hb y h2)

theorem Shaped.nil : Shaped (.ok []) := by intro c h; injection h with h; subst h; exact .nil
theorem Shaped.error (e : Stop) : Shaped (.error e) := by intro c h; cases h
theorem Shaped.single {c : Call} (h : ∀ s f, c ≠ .op s f) : Shaped (one c) := by
  intro l e; injection e with e; subst e; exact .other h
theorem Shaped.raw (s : Str) : Shaped (rawText s) := Shaped.single (fun _ _ => Call.noConfusion)
theorem Shaped.oper {s : Str} {f : Flag} (hf : f ≠ .optionalOperator) (hs : Free s) :
    Shaped (operator s f) := by
  intro l e; injection e with e; subst e; exact .op hf hs

theorem Shaped.paren {o r : Out} {f g : Flag} (hf : f ≠ .optionalOperator) (hg : g ≠ .optionalOperator)
    (ho : Shaped o) (hr : Shaped r) : Shaped (operator b!"(" f ⊹ o ⊹ operator b!")" g ⊹ r) := by
  intro calls h
  obtain ⟨x, y, h1, h2, rfl⟩ := andThen_ok h
  obtain ⟨z, w, h3, h4, rfl⟩ := andThen_ok h2
  obtain ⟨v, u, h5, h6, rfl⟩ := andThen_ok h4
  injection h1 with h1; injection h5 with h5
  subst h1 h5
  have := Shape.append (Shape.paren hf hg (ho z h3)) (hr u h6)
  simpa using this

theorem Shaped.square {o r : Out} {f g : Flag} (hf : f ≠ .optionalOperator) (hg : g ≠ .optionalOperator)
    (ho : Shaped o) (hr : Shaped r) : Shaped (operator b!"[" f ⊹ o ⊹ operator b!"]" g ⊹ r) := by
  intro calls h
  obtain ⟨x, y, h1, h2, rfl⟩ := andThen_ok h
  obtain ⟨z, w, h3, h4, rfl⟩ := andThen_ok h2
  obtain ⟨v, u, h5, h6, rfl⟩ := andThen_ok h4
  injection h1 with h1; injection h5 with h5
  subst h1 h5
  have := Shape.append (Shape.square hf hg (ho z h3)) (hr u h6)
  simpa using this

theorem Shaped.curly {o r : Out} {f g : Flag} (hf : f ≠ .optionalOperator) (hg : g ≠ .optionalOperator)
    (ho : Shaped o) (hr : Shaped r) : Shaped (operator b!"{" f ⊹ o ⊹ operator b!"}" g ⊹ r) := by
  intro calls h
  obtain ⟨x, y, h1, h2, rfl⟩ := andThen_ok h
  obtain ⟨z, w, h3, h4, rfl⟩ := andThen_ok h2
  obtain ⟨v, u, h5, h6, rfl⟩ := andThen_ok h4
  injection h1 with h1; injection h5 with h5
  subst h1 h5
  have := Shape.append (Shape.curly hf hg (ho z h3)) (hr u h6)
  simpa using this

theorem Shaped.block {o : Out} {f : Flag} (hf : f ≠ .optionalOperator) (ho : Shaped o) :
    Shaped (operator b!"{" f ⊹ o ⊹ closeCalls) := by
  intro calls h
  obtain ⟨x, y, h1, h2, rfl⟩ := andThen_ok h
  obtain ⟨z, w, h3, h4, rfl⟩ := andThen_ok h2
  injection h1 with h1; injection h4 with h4
  subst h1 h4
  have := Shape.append (Shape.block hf (g := .spaceBeforeOrNewline) (by simp) (ho z h3))
    (Shape.other (c := .newline) (fun _ _ => Call.noConfusion))
  simpa using this

theorem andThen_nil (a : Out) : a ⊹ .ok [] = a := by
  unfold andThen; cases a <;> simp

theorem ite_shaped {c : Prop} [Decidable c] {a b : Out} (ha : Shaped a) (hb : Shaped b) :
    Shaped (if c then a else b) := by split <;> assumption

theorem free_of {s : Str} (h : s.all (fun c => !isBracket c) = true) : Free s := by
  intro c hc; simpa using List.all_eq_true.1 h c hc

theorem decimal_shaped (p : Nat) (d : Flt.Fp) : Shaped (decimal p d) := by
  unfold decimal; split
  · exact .raw _
  · exact .error _

theorem verify_shaped (s : Str) : Shaped (verifyDimension s) := by
  unfold verifyDimension
  exact ite_shaped (.single (fun _ _ => Call.noConfusion)) .nil

theorem leaf_shaped {p : Nat} {d : Data} {o : Out} (h : leafCalls p d = some o) : Shaped o := by
  have op : ∀ (s : Str) (f : Flag), f ≠ .optionalOperator → s.all (fun c => !isBracket c) = true →
      Shaped (operator s f) := fun s f hf hs => .oper hf (free_of hs)
  unfold leafCalls at h
  split at h
  all_goals first | (replace h := Option.some.inj h; subst h) | (exact nomatch h)
  all_goals first
    | (with_reducible refine op _ _ ?_ ?_
       · simp
       · decide)
    | with_reducible exact .raw _
    | with_reducible exact (verify_shaped _).andThen (.raw _)
    | with_reducible exact (verify_shaped _).andThen ((decimal_shaped _ _).andThen (.raw _))
    | with_reducible exact (decimal_shaped _ _).andThen (.raw _)
    | (split
       · exact .single (fun _ _ => Call.noConfusion)
       · exact .error _)
    | (unfold comment; exact (Shaped.single (fun _ _ => Call.noConfusion)).andThen (.raw _))
    | (unfold fontMetrics
       exact (decimal_shaped _ _).andThen ((Shaped.raw _).andThen ((Shaped.raw _).andThen
        ((decimal_shaped _ _).andThen (.raw _)))))
    | (unfold unicodeRange
       split
       · exact .error _
       · split
         · exact .error _
         · exact .raw _)
    | skip
  · rename_i h0
    have := (Shaped.raw b!"url").andThen (Shaped.paren (f := .spaceAfter) (g := .spaceBefore) (by simp)
      (by simp) (Shaped.raw (urlArg d.str)) Shaped.nil)
    rw [andThen_nil] at this
    exact this

mutual
theorem output_shaped (p : Nat) : (t : Tree) → Shaped (output p t)
  | .mk d kids => by
    unfold output
    cases hl : leafCalls p d with
    | some o => exact leaf_shaped hl
    | none =>
      dsimp only
      split
      · exact outAll_shaped p kids
      · refine (Shaped.raw _).andThen (Shaped.andThen ?_ (.single (fun _ _ => Call.noConfusion)))
        cases kids with
        | nil => exact .raw _
        | cons c cs =>
          dsimp only
          split
          · refine (output_shaped p c).andThen ?_
            have := Shaped.curly (f := .spaceBefore) (g := .none) (by simp) (by simp)
              ((Shaped.single (c := .newline) (fun _ _ => Call.noConfusion)).andThen (outAll_shaped p cs)) Shaped.nil
            rw [andThen_nil, andThen_assoc] at this
            exact this
          · exact outAt_shaped p (c :: cs)
      · refine (Shaped.single (fun _ _ => Call.noConfusion)).andThen ((Shaped.raw _).andThen
          ((Shaped.oper (by simp) (free_of (by decide))).andThen
          ((outAfter_shaped p _ (by simp) (free_of (by decide)) kids).andThen (ite_shaped ?_ .nil))))
        exact (Shaped.oper (by simp) (free_of (by decide))).andThen (.raw _)
      · refine (Shaped.raw _).andThen ?_
        have := fun o ho => Shaped.paren (o := o) (f := .none) (g := .none) (by simp) (by simp) ho Shaped.nil
        simp only [andThen_nil] at this
        refine this _ ?_
        cases kids with
        | nil => exact .nil
        | cons c cs =>
          exact ite_shaped ((output_shaped p c).andThen (outCommas_shaped p cs))
            ((output_shaped p c).andThen (outAll_shaped p cs))
      · exact outAfter_shaped p _ (by simp) (free_of (by decide)) kids
      · exact Shaped.block (by simp) (outAfter_shaped p _ (by simp) (free_of (by decide)) kids)
      · refine (Shaped.raw _).andThen ?_
        have := Shaped.paren (f := .none) (g := .spaceAfter) (by simp) (by simp) (outParen_shaped p true kids) Shaped.nil
        rw [andThen_nil] at this
        exact this
      · have := Shaped.square (f := .none) (g := .none) (by simp) (by simp) (outAll_shaped p kids) Shaped.nil
        rw [andThen_nil] at this
        exact this
      · exact outCV_shaped p true kids
      · refine Shaped.andThen ?_ (Shaped.block (by simp) (outAfter_shaped p _ (by simp) (free_of (by decide)) kids))
        unfold framePosition
        exact ite_shaped (.raw _) ((decimal_shaped _ _).andThen (.raw _))
      · exact .error _

theorem outAll_shaped (p : Nat) : (l : List Tree) → Shaped (outAll p l)
  | [] => by unfold outAll; exact .nil
  | c :: cs => by unfold outAll; exact (output_shaped p c).andThen (outAll_shaped p cs)

theorem outAfter_shaped (p : Nat) (ty : NT) {s : Str} {f : Flag} (hf : f ≠ .optionalOperator) (hs : Free s) :
    (l : List Tree) → Shaped (outAfter p ty (.op s f) l)
  | [] => by unfold outAfter; exact .nil
  | c :: cs => by
    unfold outAfter
    exact (output_shaped p c).andThen ((ite_shaped (Shaped.oper hf hs) .nil).andThen
      (outAfter_shaped p ty hf hs cs))

theorem outCommas_shaped (p : Nat) : (l : List Tree) → Shaped (outCommas p l)
  | [] => by unfold outCommas; exact .nil
  | c :: cs => by
    unfold outCommas
    exact (Shaped.oper (by simp) (free_of (by decide))).andThen
      ((output_shaped p c).andThen (outCommas_shaped p cs))

theorem outParen_shaped (p : Nat) : (first : Bool) → (l : List Tree) → Shaped (outParen p first l)
  | _, [] => by unfold outParen; exact .nil
  | first, .mk d kids :: cs => by
    unfold outParen
    refine Shaped.andThen (ite_shaped ((ite_shaped .nil (.raw _)).andThen ?_) (output_shaped p (.mk d kids)))
      (outParen_shaped p false cs)
    have := Shaped.paren (f := .none) (g := .none) (by simp) (by simp) (outParen_shaped p true kids) Shaped.nil
    rw [andThen_nil] at this
    exact this

theorem outCV_shaped (p : Nat) : (first : Bool) → (l : List Tree) → Shaped (outCV p first l)
  | _, [] => by unfold outCV; exact .nil
  | first, .mk d kids :: cs => by
    unfold outCV
    refine ite_shaped ((ite_shaped .nil (output_shaped p (.mk d kids))).andThen (outCV_shaped p first cs))
      (ite_shaped (.error _) (ite_shaped (outCV_shaped p first cs) ?_))
    exact (ite_shaped .nil (Shaped.oper (by simp) (free_of (by decide)))).andThen
      ((output_shaped p (.mk d kids)).andThen (outCV_shaped p false cs))

theorem outAt_shaped (p : Nat) : (l : List Tree) → Shaped (outAt p l)
  | [] => by unfold outAt; exact .nil
  | .mk d kids :: cs => by
    have nl : Shaped (one .newline) := .single (fun _ _ => Call.noConfusion)
    unfold outAt
    refine Shaped.andThen (ite_shaped ((ite_shaped nl .nil).andThen ?_) (ite_shaped
      ((output_shaped p (.mk d kids)).andThen (ite_shaped (.oper (by simp) (free_of (by decide))) .nil))
      (output_shaped p (.mk d kids)))) ((ite_shaped (.raw _) .nil).andThen (outAt_shaped p cs))
    have := Shaped.curly (f := .none) (g := .none) (by simp) (by simp)
      (nl.andThen (outAll_shaped p kids)) nl
    rw [andThen_assoc] at this
    exact this
end

/-! ### C40 -/

theorem Semi.append {a b c d : List Str} (h : Semi a b) (h' : Semi c d) : Semi (a ++ c) (b ++ d) := by
  induction h with
  | nil => exact h'
  | same s _ ih => exact .same s ih
  | semi _ ih => exact .semi ih

theorem Semi.refl (a : List Str) : Semi a a := by
  induction a with
  | nil => exact .nil
  | cons s a ih => exact .same s ih

theorem pieces_append (o : Bool) (a b : List Call) : pieces o (a ++ b) = pieces o a ++ pieces o b := by
  unfold pieces; exact List.filterMap_append

theorem pieces_op {o : Bool} {s : Str} {f : Flag} (h : f ≠ .optionalOperator) (l : List Call) :
    pieces o (.op s f :: l) = s :: pieces o l := by
  unfold pieces; rw [List.filterMap_cons]
  simp [Call.piece, h]

theorem shape_semi {l : List Call} (h : Shape l) : Semi (pieces false l) (pieces true l) := by
  induction h with
  | nil => exact .nil
  | append _ _ h1 h2 => rw [pieces_append, pieces_append]; exact h1.append h2
  | @other c h =>
    have : pieces false [c] = pieces true [c] := by
      cases c with
      | op s f => exact absurd rfl (h s f)
      | _ => rfl
    rw [this]; exact .refl _
  | op h _ => rw [pieces_op h, pieces_op h]; exact .refl _
  | paren hf hg _ ih | square hf hg _ ih | curly hf hg _ ih =>
    rw [pieces_op hf, pieces_op hf, pieces_append, pieces_append, pieces_op hg, pieces_op hg]
    exact .same _ (ih.append (.refl _))
  | block hf hg _ ih =>
    rw [pieces_op hf, pieces_op hf, pieces_append, pieces_append]
    refine .same _ (ih.append ?_)
    rw [show ∀ l, pieces false (.op b!";" .optionalOperator :: l) = pieces false l from fun _ => rfl,
      show ∀ l, pieces true (.op b!";" .optionalOperator :: l) = b!";" :: pieces true l from fun _ => rfl,
      pieces_op hg, pieces_op hg]
    exact .semi .nil

/-- C40: in each mode, the text is the pieces with only gaps between them: line feeds (COMPRESSED,
TIDY), or line feeds and spaces (COMPACT, EXPANDED). The pieces are the same ones in all the modes;
only EXPANDED also writes the optional operators. -/
theorem C40_layout (m : Mode) (calls : List Call) :
    Spread m.gap (pieces m.opt calls) (m.text calls) := by
  rw [text_eq]; exact spread_from m false calls

/-- C40: the optional operators are `;`, each in front of a `}`. -/
theorem C40_semicolons (p : Nat) (t : Tree) (calls : List Call) (h : output p t = .ok calls) :
    Semi (pieces false calls) (pieces true calls) := shape_semi (output_shaped p t calls h)

theorem squeeze_append (a b : Str) : squeeze (a ++ b) = squeeze a ++ squeeze b := by
  unfold squeeze; exact List.filter_append ..

theorem squeeze_gap {m : Mode} {g : Str} (h : m.gap g) : squeeze g = [] := by
  unfold squeeze
  rw [List.filter_eq_nil_iff]
  intro c hc
  have : c = 32 ∨ c = 10 := by
    cases m
    · exact h c hc
    · exact .inr (h c hc)
    · exact h c hc
    · exact .inr (h c hc)
  rcases this with rfl | rfl <;> simp

theorem squeeze_spread {m : Mode} {ps : List Str} {t : Str} (h : Spread m.gap ps t) :
    squeeze t = squeeze ps.flatten := by
  induction h with
  | last h => rw [squeeze_gap h]; rfl
  | piece h _ ih => rw [squeeze_append, squeeze_append, squeeze_gap h, ih, List.flatten_cons, squeeze_append]; rfl

theorem semi_text {a b : List Str} (h : Semi a b) : SemiText (squeeze a.flatten) (squeeze b.flatten) := by
  have app : ∀ (s a b : Str), SemiText a b → SemiText (s ++ a) (s ++ b) := by
    intro s a b h
    induction s with
    | nil => exact h
    | cons c s ih => exact .same c ih
  induction h with
  | nil => exact .nil
  | same s _ ih =>
    rw [List.flatten_cons, List.flatten_cons, squeeze_append, squeeze_append]
    exact app _ _ _ ih
  | semi _ ih =>
    simp only [List.flatten_cons, squeeze_append]
    exact .semi ih

/-- C40: COMPRESSED, TIDY and COMPACT write the same text, up to spaces and line feeds. -/
theorem C40_same (m m' : Mode) (hm : m ≠ .expanded) (hm' : m' ≠ .expanded) (p : Nat) (t : Tree) {a b : Str}
    (ha : m.write p t = .ok a) (hb : m'.write p t = .ok b) : squeeze a = squeeze b := by
  unfold Mode.write at ha hb
  cases h : output p t with
  | error e => rw [h] at ha; cases ha
  | ok calls =>
    rw [h] at ha hb
    injection ha with ha; injection hb with hb
    subst ha hb
    rw [squeeze_spread (C40_layout m calls), squeeze_spread (C40_layout m' calls)]
    have e1 : m.opt = false := by cases m <;> first | rfl | exact absurd rfl hm
    have e2 : m'.opt = false := by cases m' <;> first | rfl | exact absurd rfl hm'
    rw [e1, e2]

/-- C40: EXPANDED writes the same text with, also, a `;` before some of the `}`. -/
theorem C40_expanded (m : Mode) (hm : m ≠ .expanded) (p : Nat) (t : Tree) {a b : Str}
    (ha : m.write p t = .ok a) (hb : Mode.write .expanded p t = .ok b) :
    SemiText (squeeze a) (squeeze b) := by
  unfold Mode.write at ha hb
  cases h : output p t with
  | error e => rw [h] at ha; cases ha
  | ok calls =>
    rw [h] at ha hb
    injection ha with ha; injection hb with hb
    subst ha hb
    rw [squeeze_spread (C40_layout m calls), squeeze_spread (C40_layout .expanded calls)]
    have e1 : m.opt = false := by cases m <;> first | rfl | exact absurd rfl hm
    rw [e1]
    exact semi_text (C40_semicolons p t calls h)

/-! ### What the calls hold -/

/-- All the calls of an outcome satisfy `Q`. -/
def Each (Q : Call → Prop) (o : Out) : Prop := ∀ calls, o = .ok calls → ∀ c ∈ calls, Q c

theorem Each.andThen {Q : Call → Prop} {a b : Out} (ha : Each Q a) (hb : Each Q b) : Each Q (a ⊹ b) := by
  intro calls h c hc
  obtain ⟨x, y, h1, h2, rfl⟩ := andThen_ok h
  rcases List.mem_append.1 hc with hc | hc
  · exact ha x h1 c hc
  · exact hb y h2 c hc

theorem Each.nil {Q : Call → Prop} : Each Q (.ok []) := by
  intro l h c hc; injection h with h; subst h; cases hc
theorem Each.error {Q : Call → Prop} (e : Stop) : Each Q (.error e) := by intro c h; cases h
theorem Each.single {Q : Call → Prop} {c : Call} (h : Q c) : Each Q (one c) := by
  intro l e; injection e with e; subst e
  intro d hd; simp at hd; subst hd; exact h
theorem ite_each {Q : Call → Prop} {c : Prop} [Decidable c] {a b : Out} (ha : Each Q a) (hb : Each Q b) :
    Each Q (if c then a else b) := by split <;> assumption

/-- What is needed of `Q` to hold of all the calls of the trees with data in `D`. -/
structure Holds (p : Nat) (D : Data → Prop) (Q : Call → Prop) : Prop where
  leaf : ∀ d o, D d → leafCalls p d = some o → Each Q o
  frame : ∀ d, D d → Each Q (framePosition p d.dec)
  keyword : ∀ d, D d → d.ty = .AT_KEYWORD → Q (.raw (64 :: (d.str ++ [32])))
  name : ∀ d, D d → d.ty = .DECLARATION ∨ d.ty = .FUNCTION → Q (.raw d.str)
  semi : Q (.raw [59])
  space : Q (.raw [32])
  important : Q (.raw b!"important")
  op : ∀ s f, s = b!"{" ∨ s = b!"}" ∨ s = b!"(" ∨ s = b!")" ∨ s = b!"[" ∨ s = b!"]" ∨ s = b!"," ∨ s = b!";" ∨
    s = b!":" ∨ s = b!"!" → Q (.op s f)
  newline : Q .newline
  indent : Q .indent

mutual
theorem output_each {p : Nat} {D : Data → Prop} {Q : Call → Prop} (H : Holds p D Q) :
    (t : Tree) → All D t → Each Q (output p t)
  | .mk d kids, hD => by
    unfold All at hD
    obtain ⟨hd, hk⟩ := hD
    have o : ∀ s f, s = b!"{" ∨ s = b!"}" ∨ s = b!"(" ∨ s = b!")" ∨ s = b!"[" ∨ s = b!"]" ∨ s = b!"," ∨ s = b!";" ∨
      s = b!":" ∨ s = b!"!" → Each Q (operator s f) := fun s f h => .single (H.op s f h)
    have nl : Each Q (one .newline) := .single H.newline
    have cc : Each Q closeCalls := (o _ _ (by simp)).andThen ((o _ _ (by simp)).andThen nl)
    unfold output
    cases hl : leafCalls p d with
    | some x => exact H.leaf d x hd hl
    | none =>
      dsimp only
      split
      · exact outAll_each H kids hk
      · rename_i ht
        refine (Each.single (H.keyword d hd ht)).andThen (Each.andThen ?_ nl)
        cases kids with
        | nil => exact .single H.semi
        | cons c cs =>
          unfold AllKids at hk
          exact ite_each ((output_each H c hk.1).andThen ((o _ _ (by simp)).andThen (nl.andThen
            ((outAll_each H cs hk.2).andThen (o _ _ (by simp))))))
            (outAt_each H (c :: cs) (by unfold AllKids; exact hk))
      · rename_i ht
        refine (Each.single H.indent).andThen ((Each.single (H.name d hd (.inl ht))).andThen
          ((o _ _ (by simp)).andThen ((outAfter_each H _ _ (H.op _ _ (by simp)) kids hk).andThen
          (ite_each ((o _ _ (by simp)).andThen (.single H.important)) .nil))))
      · rename_i ht
        refine (Each.single (H.name d hd (.inr ht))).andThen ((o _ _ (by simp)).andThen (Each.andThen ?_ (o _ _ (by simp))))
        cases kids with
        | nil => exact .nil
        | cons c cs =>
          unfold AllKids at hk
          exact ite_each ((output_each H c hk.1).andThen (outCommas_each H cs hk.2))
            ((output_each H c hk.1).andThen (outAll_each H cs hk.2))
      · exact outAfter_each H _ _ (H.op _ _ (by simp)) kids hk
      · exact (o _ _ (by simp)).andThen ((outAfter_each H _ _ (H.op _ _ (by simp)) kids hk).andThen cc)
      · exact (Each.single H.space).andThen ((o _ _ (by simp)).andThen ((outParen_each H true kids hk).andThen (o _ _ (by simp))))
      · exact (o _ _ (by simp)).andThen ((outAll_each H kids hk).andThen (o _ _ (by simp)))
      · exact outCV_each H true kids hk
      · exact (H.frame d hd).andThen ((o _ _ (by simp)).andThen
          ((outAfter_each H _ _ (H.op _ _ (by simp)) kids hk).andThen cc))
      · exact .error _

theorem outAll_each {p : Nat} {D : Data → Prop} {Q : Call → Prop} (H : Holds p D Q) :
    (l : List Tree) → AllKids D l → Each Q (outAll p l)
  | [], _ => by unfold outAll; exact .nil
  | c :: cs, h => by
    unfold AllKids at h
    unfold outAll; exact (output_each H c h.1).andThen (outAll_each H cs h.2)

theorem outAfter_each {p : Nat} {D : Data → Prop} {Q : Call → Prop} (H : Holds p D Q) (ty : NT) (sep : Call)
    (hs : Q sep) : (l : List Tree) → AllKids D l → Each Q (outAfter p ty sep l)
  | [], _ => by unfold outAfter; exact .nil
  | c :: cs, h => by
    unfold AllKids at h
    unfold outAfter
    exact (output_each H c h.1).andThen ((ite_each (.single hs) .nil).andThen (outAfter_each H ty sep hs cs h.2))

theorem outCommas_each {p : Nat} {D : Data → Prop} {Q : Call → Prop} (H : Holds p D Q) :
    (l : List Tree) → AllKids D l → Each Q (outCommas p l)
  | [], _ => by unfold outCommas; exact .nil
  | c :: cs, h => by
    unfold AllKids at h
    unfold outCommas
    exact (Each.single (H.op _ _ (by simp))).andThen ((output_each H c h.1).andThen (outCommas_each H cs h.2))

theorem outParen_each {p : Nat} {D : Data → Prop} {Q : Call → Prop} (H : Holds p D Q) :
    (first : Bool) → (l : List Tree) → AllKids D l → Each Q (outParen p first l)
  | _, [], _ => by unfold outParen; exact .nil
  | first, .mk d kids :: cs, h => by
    unfold AllKids at h
    have hk : AllKids D kids := by have := h.1; unfold All at this; exact this.2
    unfold outParen
    exact (ite_each ((ite_each .nil (.single H.space)).andThen ((Each.single (H.op _ _ (by simp))).andThen
      ((outParen_each H true kids hk).andThen (.single (H.op _ _ (by simp))))))
      (output_each H (.mk d kids) h.1)).andThen (outParen_each H false cs h.2)

theorem outCV_each {p : Nat} {D : Data → Prop} {Q : Call → Prop} (H : Holds p D Q) :
    (first : Bool) → (l : List Tree) → AllKids D l → Each Q (outCV p first l)
  | _, [], _ => by unfold outCV; exact .nil
  | first, .mk d kids :: cs, h => by
    unfold AllKids at h
    unfold outCV
    exact ite_each ((ite_each .nil (output_each H (.mk d kids) h.1)).andThen (outCV_each H first cs h.2))
      (ite_each (.error _) (ite_each (outCV_each H first cs h.2)
        ((ite_each .nil (.single (H.op _ _ (by simp)))).andThen
          ((output_each H (.mk d kids) h.1).andThen (outCV_each H false cs h.2)))))

theorem outAt_each {p : Nat} {D : Data → Prop} {Q : Call → Prop} (H : Holds p D Q) :
    (l : List Tree) → AllKids D l → Each Q (outAt p l)
  | [], _ => by unfold outAt; exact .nil
  | .mk d kids :: cs, h => by
    unfold AllKids at h
    have hk : AllKids D kids := by have := h.1; unfold All at this; exact this.2
    have nl : Each Q (one .newline) := .single H.newline
    have ho := output_each H (.mk d kids) h.1
    unfold outAt
    exact (ite_each ((ite_each nl .nil).andThen ((Each.single (H.op _ _ (by simp))).andThen (nl.andThen
      ((outAll_each H kids hk).andThen ((Each.single (H.op _ _ (by simp))).andThen nl)))))
      (ite_each (ho.andThen (ite_each (.single (H.op _ _ (by simp))) .nil)) ho)).andThen
      ((ite_each (.single H.semi) .nil).andThen (outAt_each H cs h.2))
end

end Csspp.Asm
