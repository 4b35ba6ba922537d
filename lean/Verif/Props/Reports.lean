import Verif.Lemmas.Written8
import Verif.Props.AssemblerText

/-!
C41: the dimensions that are reported when a tree is written.
-/

namespace Csspp.Spec
open Csspp.Tree

/-- A unit which is not a CSS dimension: it has a space, a `*` or a `/`. -/
def badUnit (d : Data) : Bool :=
  (d.ty == .INTEGER || d.ty == .DECIMAL_NUMBER) && d.str.any (fun c => c ∈ [32, 42, 47])

/-- A child: its type, whether it ends with a PLACEHOLDER, and how many bad units it shows. -/
structure Shown where
  ty : NT
  hidden : Bool
  bad : Nat

def total (l : List Shown) : Nat := (l.map (·.bad)).sum

/-- The selectors which end with a placeholder, and the blocks before the first selector that is
written, are not written. -/
def inRule (kids : List Shown) : List Shown :=
  (kids.filter (fun k => k.ty != .ARG || !k.hidden)).dropWhile (fun k => k.ty == .OPEN_CURLYBRACKET)

/-- The nodes whose children are written. -/
def hasKids (ty : NT) : Bool :=
  match ty with
  | .ARG | .AT_KEYWORD | .DECLARATION | .FUNCTION | .LIST | .OPEN_CURLYBRACKET | .OPEN_PARENTHESIS
  | .OPEN_SQUAREBRACKET | .FRAME | .COMPONENT_VALUE => true
  | _ => false

mutual
/-- How many bad units are written for a tree. -/
def shownOf : Tree → Shown
  | .mk d kids => ⟨d.ty, kids.getLast?.map Tree.ty == some .PLACEHOLDER,
      if hasKids d.ty then total (if d.ty = .COMPONENT_VALUE then inRule (shownAll kids) else shownAll kids)
      else if badUnit d then 1 else 0⟩
def shownAll : List Tree → List Shown
  | [] => []
  | t :: l => shownOf t :: shownAll l
end
end Csspp.Spec

namespace Csspp.Asm
open Csspp.Tree Csspp.Spec Csspp.Flt

def reports (l : List Call) : Nat := l.countP (· == .report)
def Cnt (o : Out) (n : Nat) : Prop := ∀ calls, o = .ok calls → reports calls = n

theorem Cnt.andThen {a b : Out} {x y : Nat} (ha : Cnt a x) (hb : Cnt b y) : Cnt (a ⊹ b) (x + y) := by
  intro calls h
  cases a with
  | error e => cases h
  | ok l =>
    cases b with
    | error e => cases h
    | ok r =>
      injection h with h; subst h
      unfold reports
      rw [List.countP_append]
      have h1 := ha l rfl
      have h2 := hb r rfl
      unfold reports at h1 h2
      rw [h1, h2]
theorem Cnt.eq {o : Out} {x y : Nat} (h : Cnt o x) (e : x = y) : Cnt o y := e ▸ h
theorem Cnt.nil : Cnt (.ok []) 0 := by intro c h; injection h with h; subst h; rfl
theorem Cnt.err {e : Stop} {n : Nat} : Cnt (.error e) n := by intro c h; cases h
theorem Cnt.raw (s : Str) : Cnt (rawText s) 0 := by intro c h; injection h with h; subst h; rfl
theorem Cnt.op (s : Str) (f : Flag) : Cnt (operator s f) 0 := by intro c h; injection h with h; subst h; rfl
theorem Cnt.token (s : Str) : Cnt (one (.token s)) 0 := by intro c h; injection h with h; subst h; rfl
theorem Cnt.newline : Cnt (one .newline) 0 := by intro c h; injection h with h; subst h; rfl
theorem Cnt.indent : Cnt (one .indent) 0 := by intro c h; injection h with h; subst h; rfl
theorem Cnt.nlne : Cnt (one .newlineIfNotEmpty) 0 := by intro c h; injection h with h; subst h; rfl
theorem Cnt.report : Cnt (one .report) 1 := by intro c h; injection h with h; subst h; rfl
theorem Cnt.decimal (p : Nat) (x : Fp) : Cnt (decimal p x) 0 := by
  unfold Asm.decimal; split
  · exact .raw _
  · exact .err
theorem Cnt.ite {c : Prop} [Decidable c] {a b : Out} {n : Nat} (ha : Cnt a n) (hb : Cnt b n) : Cnt (if c then a else b) n := by
  split <;> assumption
theorem Cnt.cat0 {a b : Out} {y : Nat} (ha : Cnt a 0) (hb : Cnt b y) : Cnt (a ⊹ b) y := (ha.andThen hb).eq (by omega)
theorem Cnt.cat0' {a b : Out} {y : Nat} (ha : Cnt a y) (hb : Cnt b 0) : Cnt (a ⊹ b) y := (ha.andThen hb).eq (by omega)

theorem cnt_verify (s : Str) : Cnt (verifyDimension s) (if s.any (fun c => c ∈ [32, 42, 47]) then 1 else 0) := by
  have e : s.any (fun c => c == 32 || c == 42 || c == 47) = s.any (fun c => c ∈ [32, 42, 47]) := by
    congr 1; funext c; rw [Bool.eq_iff_iff]; simp [or_assoc]
  unfold verifyDimension
  rw [e]
  by_cases h : (s.any (fun c => c ∈ [32, 42, 47])) = true
  · rw [if_pos h, if_pos h]; exact .report
  · rw [if_neg h, if_neg h]; exact .nil

theorem cnt_leaf (p : Nat) (d : Data) : (leafCalls p d = none ∧ badUnit d = false) ∨
    ∃ o, leafCalls p d = some o ∧ hasKids d.ty = false ∧ Cnt o (if badUnit d then 1 else 0) := by
  by_cases hi : d.ty = .INTEGER
  · refine .inr ⟨verifyDimension d.str ⊹ rawText (intDigits d.int ++ d.str), by unfold leafCalls; rw [hi], by rw [hi]; rfl, ?_⟩
    refine ((cnt_verify d.str).cat0' (.raw _)).eq ?_
    unfold badUnit; rw [hi]; rfl
  by_cases hd : d.ty = .DECIMAL_NUMBER
  · refine .inr ⟨verifyDimension d.str ⊹ decimal p d.dec ⊹ rawText d.str, by unfold leafCalls; rw [hd], by rw [hd]; rfl, ?_⟩
    refine ((cnt_verify d.str).cat0' ((Cnt.decimal _ _).cat0 (.raw _))).eq ?_
    unfold badUnit; rw [hd]; rfl
  have hb : badUnit d = false := by
    unfold badUnit
    rw [beq_eq_false_iff_ne.2 hi, beq_eq_false_iff_ne.2 hd]
    rfl
  rw [hb]
  cases h : leafCalls p d with
  | none => exact .inl ⟨rfl, rfl⟩
  | some o =>
    refine .inr ⟨o, rfl, ?_, ?_⟩
    · unfold leafCalls at h
      unfold hasKids
      split at h <;> first | contradiction | (rename_i e; rw [e])
    · rw [if_neg (by simp)]
      unfold leafCalls at h
      split at h <;> first
        | contradiction
        | (injection h with h; subst h
           first
            | with_reducible exact .op _ _
            | with_reducible exact .raw _
            | with_reducible exact (Cnt.decimal _ _).cat0 (.raw _)
            | (unfold comment; exact Cnt.nlne.cat0 (.raw _))
            | (unfold url; exact (Cnt.raw _).cat0 ((Cnt.op _ _).cat0 ((Cnt.raw _).cat0 (.op _ _))))
            | (unfold fontMetrics; dsimp only
               exact (Cnt.decimal _ _).cat0 ((Cnt.raw _).cat0 ((Cnt.raw _).cat0 ((Cnt.decimal _ _).cat0 (.raw _)))))
            | (split
               · first | with_reducible exact .raw _ | with_reducible exact .token _
               · exact .err)
            | (unfold unicodeRange; split
               · exact .err
               · split
                 · exact .err
                 · exact .raw _))

theorem shownAll_cons (d : Data) (kids l : List Tree) : shownAll (.mk d kids :: l) = shownOf (.mk d kids) :: shownAll l := by
  conv => lhs; unfold shownAll
theorem shownAll_nil : shownAll [] = [] := by unfold shownAll; rfl
theorem shown_ty (d : Data) (kids : List Tree) : (shownOf (.mk d kids)).ty = d.ty := by rw [shownOf]
theorem shown_hidden (d : Data) (kids : List Tree) :
    (shownOf (.mk d kids)).hidden = (kids.getLast?.map Tree.ty == some .PLACEHOLDER) := by rw [shownOf]
theorem shown_bad {d : Data} (kids : List Tree) (h : hasKids d.ty = true) (h' : d.ty ≠ .COMPONENT_VALUE) :
    (shownOf (.mk d kids)).bad = total (shownAll kids) := by
  rw [shownOf]; dsimp only; rw [if_pos h, if_neg h']
theorem total_cons (k : Shown) (l : List Shown) : total (k :: l) = k.bad + total l := rfl

theorem cnt_close : Cnt closeCalls 0 := (Cnt.op _ _).cat0 ((Cnt.op _ _).cat0 .newline)
theorem cnt_frame (p : Nat) (x : Fp) : Cnt (framePosition p x) 0 := by
  unfold framePosition
  exact .ite (.raw _) ((Cnt.decimal _ _).cat0 (.raw _))

mutual
theorem output_cnt (p : Nat) : (t : Tree) → Cnt (output p t) (shownOf t).bad
  | .mk d kids => by
    unfold output
    rcases cnt_leaf p d with ⟨h1, h2⟩ | ⟨o, h1, h2, h3⟩
    · rw [h1]
      dsimp only
      split
      · rename_i hty; rw [shown_bad kids (by rw [hty]; rfl) (by rw [hty]; simp)]
        exact outAll_cnt p kids
      · rename_i hty; rw [shown_bad kids (by rw [hty]; rfl) (by rw [hty]; simp)]
        refine (Cnt.raw _).cat0 (Cnt.cat0' ?_ .newline)
        split
        · rw [shownAll_nil]; exact .raw _
        · rename_i c cs
          split
          · cases c with
            | mk dc kc =>
            rw [shownAll_cons, total_cons]
            exact (output_cnt p _).andThen ((Cnt.op _ _).cat0 (Cnt.newline.cat0 ((outAll_cnt p cs).cat0' (.op _ _))))
          · exact outAt_cnt p _
      · rename_i hty; rw [shown_bad kids (by rw [hty]; rfl) (by rw [hty]; simp)]
        refine Cnt.indent.cat0 ((Cnt.raw _).cat0 ((Cnt.op _ _).cat0 (Cnt.cat0' (outAfter_cnt p _ _ (.op _ _) kids) ?_)))
        exact .ite ((Cnt.op _ _).cat0 (.raw _)) .nil
      · rename_i hty; rw [shown_bad kids (by rw [hty]; rfl) (by rw [hty]; simp)]
        refine (Cnt.raw _).cat0 ((Cnt.op _ _).cat0 (Cnt.cat0' ?_ (.op _ _)))
        split
        · rw [shownAll_nil]; exact .nil
        · rename_i c cs
          cases c with
          | mk dc kc =>
          rw [shownAll_cons, total_cons]
          exact .ite ((output_cnt p _).andThen (outCommas_cnt p cs)) ((output_cnt p _).andThen (outAll_cnt p cs))
      · rename_i hty; rw [shown_bad kids (by rw [hty]; rfl) (by rw [hty]; simp)]
        exact outAfter_cnt p _ _ (.op _ _) kids
      · rename_i hty; rw [shown_bad kids (by rw [hty]; rfl) (by rw [hty]; simp)]
        exact (Cnt.op _ _).cat0 ((outAfter_cnt p _ _ (.op _ _) kids).cat0' cnt_close)
      · rename_i hty; rw [shown_bad kids (by rw [hty]; rfl) (by rw [hty]; simp)]
        exact (Cnt.raw _).cat0 ((Cnt.op _ _).cat0 ((outParen_cnt p true kids).cat0' (.op _ _)))
      · rename_i hty; rw [shown_bad kids (by rw [hty]; rfl) (by rw [hty]; simp)]
        exact (Cnt.op _ _).cat0 ((outAll_cnt p kids).cat0' (.op _ _))
      · rename_i hty
        rw [shownOf]
        dsimp only
        rw [hty, if_pos (show hasKids .COMPONENT_VALUE = true from rfl), if_pos rfl]
        exact outCV_cnt p true kids
      · rename_i hty; rw [shown_bad kids (by rw [hty]; rfl) (by rw [hty]; simp)]
        exact (cnt_frame p _).cat0 ((Cnt.op _ _).cat0 ((outAfter_cnt p _ _ (.op _ _) kids).cat0' cnt_close))
      · exact .err
    · rw [h1]
      dsimp only
      rw [shownOf]
      dsimp only
      rw [h2]
      exact h3

theorem outAll_cnt (p : Nat) : (l : List Tree) → Cnt (outAll p l) (total (shownAll l))
  | [] => by unfold outAll; rw [shownAll_nil]; exact .nil
  | .mk d kids :: cs => by
    unfold outAll; rw [shownAll_cons, total_cons]
    exact (output_cnt p _).andThen (outAll_cnt p cs)

theorem outAfter_cnt (p : Nat) (ty : NT) (sep : Call) (hs : Cnt (one sep) 0) : (l : List Tree) →
    Cnt (outAfter p ty sep l) (total (shownAll l))
  | [] => by unfold outAfter; rw [shownAll_nil]; exact .nil
  | .mk d kids :: cs => by
    unfold outAfter; rw [shownAll_cons, total_cons]
    exact (output_cnt p _).andThen ((Cnt.ite hs .nil).cat0 (outAfter_cnt p ty sep hs cs))

theorem outCommas_cnt (p : Nat) : (l : List Tree) → Cnt (outCommas p l) (total (shownAll l))
  | [] => by unfold outCommas; rw [shownAll_nil]; exact .nil
  | .mk d kids :: cs => by
    unfold outCommas; rw [shownAll_cons, total_cons]
    exact (Cnt.op _ _).cat0 ((output_cnt p _).andThen (outCommas_cnt p cs))

theorem outParen_cnt (p : Nat) : (first : Bool) → (l : List Tree) → Cnt (outParen p first l) (total (shownAll l))
  | _, [] => by unfold outParen; rw [shownAll_nil]; exact .nil
  | first, .mk d kids :: cs => by
    unfold outParen; rw [shownAll_cons, total_cons]
    refine Cnt.andThen ?_ (outParen_cnt p false cs)
    by_cases hty : d.ty = .OPEN_PARENTHESIS
    · rw [if_pos hty, shown_bad kids (by rw [hty]; rfl) (by rw [hty]; simp)]
      exact (Cnt.ite .nil (.raw _)).cat0 ((Cnt.op _ _).cat0 ((outParen_cnt p true kids).cat0' (.op _ _)))
    · rw [if_neg hty]; exact output_cnt p _

theorem outCV_cnt (p : Nat) : (first : Bool) → (l : List Tree) →
    Cnt (outCV p first l) (total (if first then inRule (shownAll l) else (shownAll l).filter (fun k => k.ty != .ARG || !k.hidden)))
  | _, [] => by unfold outCV; rw [shownAll_nil]; refine Cnt.nil.eq ?_; split <;> rfl
  | first, .mk d kids :: cs => by
    unfold outCV; rw [shownAll_cons]
    have h1 := shown_ty d kids
    have h2 := shown_hidden d kids
    by_cases hty : d.ty = .OPEN_CURLYBRACKET
    · rw [if_pos hty]
      have ih := outCV_cnt p first cs
      unfold inRule at ih ⊢
      rw [List.filter_cons_of_pos (by rw [h1, hty]; rfl)]
      cases first with
      | true =>
        rw [if_pos rfl] at ih
        rw [if_pos rfl, if_pos rfl, List.dropWhile_cons_of_pos (by rw [h1, hty]; rfl)]
        exact Cnt.nil.cat0 ih
      | false =>
        rw [if_neg (by simp)] at ih
        rw [if_neg (by simp), if_neg (by simp), total_cons]
        exact (output_cnt p _).andThen ih
    · rw [if_neg hty]
      by_cases ha : d.ty = .ARG
      · rw [if_neg (by simp [ha]), Written.hidden_eq]
        by_cases hh : (kids.getLast?.map Tree.ty == some .PLACEHOLDER) = true
        · rw [if_pos hh]
          have ih := outCV_cnt p first cs
          unfold inRule at ih ⊢
          rw [List.filter_cons_of_neg (by rw [h1, h2, ha, hh]; simp)]
          exact ih
        · rw [if_neg hh]
          have ih := outCV_cnt p false cs
          rw [if_neg (by simp)] at ih
          unfold inRule
          rw [List.filter_cons_of_pos (by rw [h1, h2, ha]; simp [hh])]
          have e : ∀ l : List Shown, (if first = true then List.dropWhile (fun k => k.ty == .OPEN_CURLYBRACKET) (shownOf (.mk d kids) :: l)
              else (shownOf (.mk d kids) :: l)) = shownOf (.mk d kids) :: l := by
            intro l
            split
            · rw [List.dropWhile_cons_of_neg (by rw [h1]; simp [hty])]
            · rfl
          rw [e, total_cons]
          exact (Cnt.ite .nil (.op _ _)).cat0 ((output_cnt p _).andThen ih)
      · rw [if_pos ha]; exact .err

theorem outAt_cnt (p : Nat) : (l : List Tree) → Cnt (outAt p l) (total (shownAll l))
  | [] => by unfold outAt; rw [shownAll_nil]; exact .nil
  | .mk d kids :: cs => by
    unfold outAt; rw [shownAll_cons, total_cons]
    refine Cnt.andThen ?_ ((Cnt.ite (.raw _) .nil).cat0 (outAt_cnt p cs))
    by_cases hty : d.ty = .OPEN_CURLYBRACKET
    · rw [if_pos hty, shown_bad kids (by rw [hty]; rfl) (by rw [hty]; simp)]
      exact (Cnt.ite .newline .nil).cat0 ((Cnt.op _ _).cat0 (Cnt.newline.cat0 ((outAll_cnt p kids).cat0' ((Cnt.op _ _).cat0 .newline))))
    · rw [if_neg hty]
      exact .ite ((output_cnt p _).cat0' (.ite (.op _ _) .nil)) (output_cnt p _)
end

/-- C41: as many messages are sent as numbers with a unit which is not a CSS dimension are written. -/
theorem C41_report (p : Nat) (t : Tree) (calls : List Call) (h : output p t = .ok calls) :
    calls.count .report = (shownOf t).bad := output_cnt p t calls h

/-- `a,(hidden){width:1px * em}`: one message. -/
def badWidth : Tree :=
  .mk { ty := .COMPONENT_VALUE } [
    .mk { ty := .OPEN_CURLYBRACKET } [.leaf { ty := .INTEGER, int := 3, str := b!"a/b" }],
    .mk { ty := .ARG } [.leaf { ty := .INTEGER, int := 3, str := b!"a/b" }, .leaf { ty := .PLACEHOLDER }],
    .mk { ty := .ARG } [.leaf { ty := .HASH, str := b!"a" }],
    .mk { ty := .OPEN_CURLYBRACKET } [
      .mk { ty := .DECLARATION, str := b!"width" } [.leaf { ty := .INTEGER, int := 1, str := b!"px * em" }]]]
example : Mode.write .compressed 3 badWidth = .ok b!"#a{width:1px * em}" ∧ (shownOf badWidth).bad = 1 := by
  decide +kernel

end Csspp.Asm
