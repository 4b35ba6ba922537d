import Verif.Lemmas.Definitions
import Verif.Model.SystemScripts

/-!
The files of /repo/scripts/system, read by the kernel (for C94).
-/

namespace Csspp.Tool
open Csspp.Parse (Nd)
open Csspp.Lex (Tok Pos)
open Csspp.Spec
open Csspp.Spec.Tool
open Csspp.Vars (St Var)

theorem of_check {o : Option Nd} {P : Nd → Bool} (h : o.elim false P = true) : ∃ n, o = some n ∧ P n = true := by
  cases o with
  | none => cases h
  | some n => exact ⟨n, rfl, h⟩

def importOf : Nd → Option Str
  | .mk t [.mk x []] => if t.ty = .AT_KEYWORD ∧ t.str = b!"import" ∧ x.ty = .STRING then some x.str else none
  | _ => none

theorem importOf_ok {n : Nd} {p : Str} (h : importOf n = some p) : IsImport p n := by
  unfold importOf at h
  split at h
  · split at h
    · rename_i hc
      injection h with h
      exact ⟨hc.1, hc.2.1, _, rfl, hc.2.2, h, rfl⟩
    · cases h
  · cases h

theorem init_script : ∃ n a b c, Valid.script Scripts.initText = some n ∧ n.kids = [a, b, c] ∧ IsImport b!"system/version.scss" a ∧
    IsImport b!"system/constants.scss" b ∧ IsImport b!"system/functions.scss" c := by
  have h : (Valid.script Scripts.initText).elim false (fun n => decide (n.kids.map importOf =
      [some b!"system/version.scss", some b!"system/constants.scss", some b!"system/functions.scss"])) = true := by decide +kernel
  obtain ⟨n, h1, h2⟩ := of_check h
  have h2 := of_decide_eq_true h2
  obtain ⟨a, l, e1, ha, h2⟩ := List.map_eq_cons_iff.1 h2
  obtain ⟨b, l, e2, hb, h2⟩ := List.map_eq_cons_iff.1 h2
  obtain ⟨c, l, e3, hc, h2⟩ := List.map_eq_cons_iff.1 h2
  rw [List.map_eq_nil_iff.1 h2] at e3
  exact ⟨n, a, b, c, h1, by rw [e1, e2, e3], importOf_ok ha, importOf_ok hb, importOf_ok hc⟩

def footerOf : List Nd → Bool
  | [.mk i [.mk f [.mk v []], .mk b [.mk c [im]]]] =>
    decide (i.ty = .AT_KEYWORD) && decide (i.str = b!"if") && decide (f.ty = .FUNCTION) && decide (f.str = b!"not") &&
    decide (v.ty = .VARIABLE) && decide (v.str = b!"_csspp_no_logo") && decide (b.ty = .OPEN_CURLYBRACKET) && !b.bool &&
    decide (c.ty = .COMPONENT_VALUE) && decide (importOf im = some b!"system/logo.scss")
  | _ => false

theorem close_script : ∃ n, Valid.script Scripts.closeText = some n ∧ Footer n.kids := by
  have h : (Valid.script Scripts.closeText).elim false (fun n => footerOf n.kids) = true := by decide +kernel
  obtain ⟨n, h1, h2⟩ := of_check h
  refine ⟨n, h1, ?_⟩
  unfold footerOf at h2
  split at h2
  · rename_i i f v b c im e
    simp only [Bool.and_eq_true, decide_eq_true_eq, Bool.not_eq_true'] at h2
    obtain ⟨⟨⟨⟨⟨⟨⟨⟨⟨x1, x2⟩, x3⟩, x4⟩, x5⟩, x6⟩, x7⟩, x8⟩, x9⟩, x10⟩ := h2
    exact ⟨i, f, v, b, c, im, e, x1, x2, x3, x4, x5, x6, x7, x8, x9, importOf_ok x10⟩
  · cases h2

/-- The comment of the logo, before and after its references. -/
def logoStart : Str := b!"@preserve -- CSS file parsed by http://csspp.org/ v"

def logoBits : List Bit :=
  logoStart.map Bit.char ++ Bit.ref b!"_csspp_version" none :: (b!" on ".map Bit.char ++ [Bit.ref b!"_csspp_usdate" none])

theorem logo_script : ∃ n t, Valid.script Scripts.logoText = some n ∧ n.kids = [.leaf t] ∧ t.ty = .COMMENT ∧ t.int ≠ 0 ∧
    t.str = commentText logoBits := by
  have h : (Valid.script Scripts.logoText).elim false (fun n =>
      match n.kids with
      | [.mk t []] => decide (t.ty = .COMMENT) && decide (t.int ≠ 0) && decide (t.str = commentText logoBits)
      | _ => false) = true := by decide +kernel
  obtain ⟨n, h1, h2⟩ := of_check h
  split at h2
  · rename_i t e
    simp only [Bool.and_eq_true, decide_eq_true_eq] at h2
    exact ⟨n, t, h1, e, h2.1.1, h2.1.2, h2.2⟩
  · cases h2

/-- The functions of the scripts. -/
def shipped : List Str :=
  [b!"adjust_hue", b!"complement", b!"darken", b!"deg2rad", b!"desaturate", b!"fade_in", b!"fade_out", b!"grayscale", b!"invert",
   b!"lighten", b!"mix", b!"opacify", b!"opacity", b!"quote", b!"remove_unit", b!"saturate", b!"set_unit", b!"transparentize",
   b!"unitless", b!"unquote"]

/-- None of these names is defined. -/
def free (vs : List (Var × Bool)) (names : List Str) : Bool := names.all (fun n => (lastOf n vs).isNone)

theorem free_ok {vs : List (Var × Bool)} {names : List Str} (h : free vs names = true) : ∀ n ∈ names, lastOf n vs = none :=
  fun n hn => Option.isNone_iff_eq_none.1 (List.all_eq_true.1 h n hn)

theorem functions_script : ∃ n vs, Valid.script Scripts.functionsText = some n ∧ defs n.kids = some vs ∧
    free vs [b!"_csspp_no_logo", b!"_csspp_usdate", b!"_csspp_version"] = true ∧
    ∀ f ∈ shipped, ∃ v, lastOf f vs = some v ∧ v.name.ty = .FUNCTION := by
  have h : (Valid.script Scripts.functionsText).elim false (fun n =>
      match defs n.kids with
      | some vs => free vs [b!"_csspp_no_logo", b!"_csspp_usdate", b!"_csspp_version"] &&
        shipped.all (fun f => match lastOf f vs with | some v => decide (v.name.ty = .FUNCTION) | none => false)
      | none => false) = true := by decide +kernel
  obtain ⟨n, h1, h2⟩ := of_check h
  split at h2
  · rename_i vs e
    rw [Bool.and_eq_true] at h2
    refine ⟨n, vs, h1, e, h2.1, fun f hf => ?_⟩
    have := List.all_eq_true.1 h2.2 f hf
    split at this
    · rename_i v hv
      exact ⟨v, hv, of_decide_eq_true this⟩
    · cases this
  · cases h2

theorem constants_script : ∃ n vs, Valid.script Scripts.constantsText = some n ∧ defs n.kids = some vs ∧
    free vs ([b!"_csspp_no_logo", b!"_csspp_usdate", b!"_csspp_version"] ++ shipped) = true := by
  have h : (Valid.script Scripts.constantsText).elim false (fun n =>
      match defs n.kids with
      | some vs => free vs ([b!"_csspp_no_logo", b!"_csspp_usdate", b!"_csspp_version"] ++ shipped)
      | none => false) = true := by decide +kernel
  obtain ⟨n, h1, h2⟩ := of_check h
  split at h2
  · rename_i vs e
    exact ⟨n, vs, h1, e, h2⟩
  · cases h2

theorem version_script : ∃ n vs v t, Valid.script Scripts.versionText = some n ∧ defs n.kids = some vs ∧
    free vs [b!"_csspp_no_logo", b!"_csspp_usdate"] = true ∧ lastOf b!"_csspp_version" vs = some v ∧
    v.name.ty = .VARIABLE ∧ v.value = .leaf t ∧ t.ty = .STRING ∧ t.str = b!"1.0.33" := by
  have h : (Valid.script Scripts.versionText).elim false (fun n =>
      match defs n.kids with
      | some vs => free vs [b!"_csspp_no_logo", b!"_csspp_usdate"] &&
        (match lastOf b!"_csspp_version" vs with
        | some ⟨a, .mk t []⟩ => decide (a.ty = .VARIABLE) && decide (t.ty = .STRING) && decide (t.str = b!"1.0.33")
        | _ => false)
      | none => false) = true := by decide +kernel
  obtain ⟨n, h1, h2⟩ := of_check h
  split at h2
  · rename_i vs e
    rw [Bool.and_eq_true] at h2
    obtain ⟨h2, h3⟩ := h2
    split at h3
    · rename_i a t e'
      simp only [Bool.and_eq_true, decide_eq_true_eq] at h3
      exact ⟨n, vs, _, t, h1, e, h2, e', h3.1.1, rfl, h3.1.2, h3.2⟩
    · cases h3
  · cases h2

end Csspp.Tool
