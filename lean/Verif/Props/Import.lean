import Verif.Props.Marks

/-! C62: @import, @include with nothing to include, @error and the other messages in a tree. -/

namespace Csspp.Vars
open Csspp.Parse (Nd)
open Csspp.Lex (Tok Pos)
open Csspp.Spec

theorem atExpr_eq {E : Env} {kids : List Nd} {s : St} {r : ExprRes} (hne : kids.head?.map Nd.ty ≠ some .OPEN_CURLYBRACKET) (h0 : kids ≠ [])
    (hexpr : E.expr s kids = some r) : atExpr E kids s = .ok (r.kids, r.result) r.st := by
  unfold atExpr
  cases kids with
  | nil => exact absurd rfl h0
  | cons c cs =>
    dsimp only
    rw [if_neg (fun h => hne (by show some c.ty = _; rw [h])), hexpr]

/-- The children of the @-keyword have nothing to replace. -/
theorem gives_at {E : Env} {p : NT} {t : Tok} (ht : t.ty = .AT_KEYWORD) {kids : List Nd} (hk : ∀ c ∈ kids, Plain c) {s : St}
    (d rest : List Nd) {r : R (List Nd × Nat)}
    (h : ∀ g, replaceVars E g (.mk t kids) s = .ok (some (.mk t kids)) s →
      atKeyword E (g + 1) p (d ++ .mk t kids :: rest) (.mk t kids) d.length s = r) :
    Gives (fun f => atKeyword E f p (d ++ .mk t kids :: rest) (.mk t kids) d.length) s r := by
  obtain ⟨a, ha⟩ := gives_keyword (E := E) ht hk s
  refine ⟨a + 1, fun g hg => ?_⟩
  obtain ⟨g, rfl⟩ : ∃ k, g = k + 1 := ⟨g - 1, by omega⟩
  exact h g (ha g (by omega))

theorem set_mid (d : List Nd) (c c' : Nd) (l : List Nd) : (d ++ c :: l).set d.length c' = d ++ c' :: l := by simp

section
variable {E : Env} {p : NT} {t : Tok} (ht : t.ty = .AT_KEYWORD) {kids : List Nd} (hk : ∀ c ∈ kids, Plain c) {s : St} {r : ExprRes}
  (hne : kids.head?.map Nd.ty ≠ some .OPEN_CURLYBRACKET) (h0 : kids ≠ []) (hexpr : E.expr s kids = some r) (d rest : List Nd)
include ht hk hne h0 hexpr

/-- C62: @import of a string or url(), whose file was loaded: the nodes of the file replace it, and they are the next ones to be
looked at. -/
theorem C62_import_loaded (hs : t.str = b!"import") {e : Nd} (he : r.result = some e) (hty : e.ty = .STRING ∨ e.ty = .URL)
    {l : List Nd} (hfile : E.file e = .loaded l) (hl : ∀ c ∈ l, c.ty ≠ .EOF_TOKEN ∧ c.ty ≠ .WHITESPACE) :
    To E p (d ++ .mk t kids :: rest) d.length s (d ++ (l ++ rest)) d.length r.st := by
  refine to_at (c := .mk t kids) (by simp) ht (gives_at ht hk d rest (fun g hg => ?_))
  have hstr : (Nd.mk t kids).tok.str = b!"import" := hs
  rw [atKeyword, if_neg (by rw [hstr]; decide), bind_apply, hg]
  dsimp only [Option.getD]
  rw [if_pos hstr, show (Nd.mk t kids).kids = kids from rfl, bind_apply, atExpr_eq hne h0 hexpr]
  dsimp only
  rw [he]
  dsimp only
  rw [if_pos hty, hfile]
  dsimp only
  rw [set_mid, to_variable.erase_mid, insertAll_mid _ _ _ hl]
  rfl

/-- C62: a file that could not be read or parsed is reported, and the @import is removed. -/
theorem C62_import_failed (hs : t.str = b!"import") {e : Nd} (he : r.result = some e) (hty : e.ty = .STRING ∨ e.ty = .URL)
    (hfile : E.file e = .failed) :
    To E p (d ++ .mk t kids :: rest) d.length s (d ++ rest) d.length { r.st with errs := (.importErrors, t.pos) :: r.st.errs } := by
  refine to_at (c := .mk t kids) (by simp) ht (gives_at ht hk d rest (fun g hg => ?_))
  have hstr : (Nd.mk t kids).tok.str = b!"import" := hs
  rw [atKeyword, if_neg (by rw [hstr]; decide), bind_apply, hg]
  dsimp only [Option.getD]
  rw [if_pos hstr, show (Nd.mk t kids).kids = kids from rfl, bind_apply, atExpr_eq hne h0 hexpr]
  dsimp only
  rw [he]
  dsimp only
  rw [if_pos hty, hfile]
  dsimp only
  rw [set_mid, to_variable.erase_mid]
  rfl

/-- C62: any other @import stays in the style sheet, with its expression computed. -/
theorem C62_import_alone (hs : t.str = b!"import")
    (hr : r.result = none ∨ ∃ e, r.result = some e ∧ ((e.ty ≠ .STRING ∧ e.ty ≠ .URL) ∨ E.file e = .alone)) :
    To E p (d ++ .mk t kids :: rest) d.length s (d ++ .mk t r.kids :: rest) (d.length + 1) r.st := by
  refine to_at (c := .mk t kids) (by simp) ht (gives_at ht hk d rest (fun g hg => ?_))
  have hstr : (Nd.mk t kids).tok.str = b!"import" := hs
  rw [atKeyword, if_neg (by rw [hstr]; decide), bind_apply, hg]
  dsimp only [Option.getD]
  rw [if_pos hstr, show (Nd.mk t kids).kids = kids from rfl, bind_apply, atExpr_eq hne h0 hexpr]
  dsimp only
  rcases hr with hr | ⟨e, hr, h⟩
  · rw [hr, set_mid]; rfl
  · rw [hr]
    dsimp only
    rcases h with ⟨h1, h2⟩ | h
    · rw [if_neg (by simp [h1, h2]), set_mid]; rfl
    · by_cases hty : e.ty = .STRING ∨ e.ty = .URL
      · rw [if_pos hty, h, set_mid]; rfl
      · rw [if_neg hty, set_mid]; rfl

/-- C62: @error, @warning, @message, @info and @debug stay where they are, with their expression computed. -/
theorem C62_message (hs : t.str ∈ [b!"error", b!"warning", b!"message", b!"info", b!"debug"]) :
    To E p (d ++ .mk t kids :: rest) d.length s (d ++ .mk t r.kids :: rest) (d.length + 1) r.st := by
  refine to_at (c := .mk t kids) (by simp) ht (gives_at ht hk d rest (fun g hg => ?_))
  have hno : ∀ x ∈ [b!"mixin", b!"import", b!"if", b!"else", b!"include"], (Nd.mk t kids).tok.str ≠ x := by
    intro x hx e
    have e : t.str = x := e
    rw [e] at hs
    simp only [List.mem_cons, List.not_mem_nil, or_false] at hx
    rcases hx with rfl | rfl | rfl | rfl | rfl <;> revert hs <;> decide
  have hm : isMessage (Nd.mk t kids).tok.str = true := by
    unfold isMessage
    show decide (t.str = _ ∨ t.str = _ ∨ t.str = _ ∨ t.str = _ ∨ t.str = _) = true
    exact decide_eq_true (by simpa using hs)
  rw [atKeyword, if_neg (hno _ (by decide)), bind_apply, hg]
  dsimp only [Option.getD]
  rw [if_neg (hno _ (by decide)), if_neg (hno _ (by decide)), if_neg (hno _ (by decide)), if_neg (hno _ (by decide)),
    if_pos hm, show (Nd.mk t kids).kids = kids from rfl, bind_apply, atExpr_eq hne h0 hexpr]
  dsimp only
  rw [set_mid]
  rfl
end

/-- C62: without an expression (nothing, or a block first) they stay as they are. -/
theorem C62_bare {E : Env} {p : NT} {t : Tok} (ht : t.ty = .AT_KEYWORD) {kids : List Nd} (hk : ∀ c ∈ kids, Plain c) {s : St}
    (hb : kids = [] ∨ kids.head?.map Nd.ty = some .OPEN_CURLYBRACKET) (d rest : List Nd)
    (hs : t.str ∈ [b!"import", b!"error", b!"warning", b!"message", b!"info", b!"debug"]) :
    To E p (d ++ .mk t kids :: rest) d.length s (d ++ .mk t kids :: rest) (d.length + 1) s := by
  have hat : atExpr E kids s = .ok (kids, none) s := by
    unfold atExpr
    rcases hb with rfl | hb
    · rfl
    · cases kids with
      | nil => cases hb
      | cons c cs =>
        dsimp only
        rw [if_pos (by simpa using hb)]
  refine to_at (c := .mk t kids) (by simp) ht (gives_at ht hk d rest (fun g hg => ?_))
  have hno : ∀ x ∈ [b!"mixin", b!"if", b!"else", b!"include"], (Nd.mk t kids).tok.str ≠ x := by
    intro x hx e
    have e : t.str = x := e
    rw [e] at hs
    simp only [List.mem_cons, List.not_mem_nil, or_false] at hx
    rcases hx with rfl | rfl | rfl | rfl <;> revert hs <;> decide
  rw [atKeyword, if_neg (hno _ (by decide)), bind_apply, hg]
  dsimp only [Option.getD]
  by_cases hi : (Nd.mk t kids).tok.str = b!"import"
  · rw [if_pos hi, show (Nd.mk t kids).kids = kids from rfl, bind_apply, hat]
    dsimp only
    rw [set_mid]; rfl
  · have hm : isMessage (Nd.mk t kids).tok.str = true := by
      unfold isMessage
      have hi : t.str ≠ b!"import" := hi
      simp only [List.mem_cons, hi, false_or] at hs
      show decide (t.str = _ ∨ t.str = _ ∨ t.str = _ ∨ t.str = _ ∨ t.str = _) = true
      exact decide_eq_true (by simpa using hs)
    rw [if_neg hi, if_neg (hno _ (by decide)), if_neg (hno _ (by decide)), if_neg (hno _ (by decide)),
      if_pos hm, show (Nd.mk t kids).kids = kids from rfl, bind_apply, hat]
    dsimp only
    rw [set_mid]
    rfl

/-- C62: @include of something that is neither a name nor a function is removed with an error. -/
theorem C62_include_bad {E : Env} {p : NT} {t : Tok} (ht : t.ty = .AT_KEYWORD) {kids : List Nd} (hk : ∀ c ∈ kids, Plain c) {s : St}
    (hs : t.str = b!"include") (hb : ∀ c, kids.head? = some c → c.ty ≠ .IDENTIFIER ∧ c.ty ≠ .FUNCTION) (d rest : List Nd) :
    To E p (d ++ .mk t kids :: rest) d.length s (d ++ rest) d.length { s with errs := (.includeName, t.pos) :: s.errs } := by
  refine to_at (c := .mk t kids) (by simp) ht (gives_at ht hk d rest (fun g hg => ?_))
  have hstr : (Nd.mk t kids).tok.str = b!"include" := hs
  rw [atKeyword, if_neg (by rw [hstr]; decide), bind_apply, hg]
  dsimp only [Option.getD]
  rw [if_neg (by rw [hstr]; decide), if_neg (by rw [hstr]; decide), if_neg (by rw [hstr]; decide), if_pos hstr, to_variable.erase_mid]
  cases kids with
  | nil => rfl
  | cons c cs =>
    dsimp only [Parse.Nd.kids]
    rw [if_pos (hb c rfl)]
    rfl

/-! ### They are not about nothing -/

/-- `@import "a"` with a file that has one rule. -/
def impEnv : Env := { exEnv with expr := fun s k => some ⟨k, k.head?, s⟩, file := fun _ => .loaded exPlain.kids }
def impAt (name : Str) : Nd := .mk { ty := .AT_KEYWORD, pos := exPos, str := name } [exLeaf .STRING b!"a"]

theorem impPlain : ∀ c ∈ [exLeaf .STRING b!"a"], Plain c := by
  intro c hc
  rw [List.mem_singleton.1 hc]
  exact .mk _ _ (by simp) (by simp) (by simp) (by simp) (by simp) (by simp)

example : To impEnv .LIST [impAt b!"import"] 0 {} exPlain.kids 0 {} :=
  C62_import_loaded (r := ⟨_, _, _⟩) rfl impPlain (by decide) (by simp) rfl [] [] rfl (e := exLeaf .STRING b!"a") rfl (.inl rfl) (l := exPlain.kids) rfl
    (by decide)

example : (match replaceRoot impEnv 20 (exNode .LIST [impAt b!"import"]) {} with
    | .ok n s => n.kids.length == 1 && n.kids.all (fun c => c.ty == .COMPONENT_VALUE) && s.errs.isEmpty | _ => false) = true := by
  decide +kernel

example : To impEnv .LIST [impAt b!"debug"] 0 {} [impAt b!"debug"] 1 {} :=
  C62_message (r := ⟨_, _, _⟩) rfl impPlain (by decide) (by simp) rfl [] [] (by decide)

example : To impEnv .LIST [impAt b!"include"] 0 {} [] 0 { errs := [(.includeName, exPos)] } :=
  C62_include_bad (s := {}) rfl impPlain rfl (by intro c hc; cases hc; exact ⟨by decide, by decide⟩) [] []

/-- A comment with a variable, one with a '#', and one that is not set. -/
example : Bits [.char 42, .ref b!"x" none, .char 35, .ref b!"x" (some b!"1)"), .ref b!"y" none] ∧
    filled (usable exEnv exSt) [] [.char 42, .ref b!"x" none, .char 35, .ref b!"x" (some b!"1)"), .ref b!"y" none] = b!"*redred{$y}" ∧
    [Bit.char 42, .ref b!"x" none, .char 35, .ref b!"x" (some b!"1)"), .ref b!"y" none].flatMap (warning exEnv exSt) =
      [.commentCall, .commentNotSet] := by
  refine ⟨?_, by decide +kernel, by decide +kernel⟩
  refine ⟨fun h => by simp at h, ⟨by decide, by decide, by decide⟩, by simp, fun h => by simp at h, ⟨by decide, by decide, by decide⟩,
    fun a h => by cases h; exact ⟨by decide, by decide⟩, ⟨by decide, by decide, by decide⟩, by simp, trivial⟩

/-- `a{b{}}`: the block of `a` accepts variables; once the empty rule is gone `a{}` is left. -/
def exEmpty : Nd := exNode .COMPONENT_VALUE [exLeaf .IDENTIFIER b!"a", exNode .OPEN_CURLYBRACKET
  [exNode .COMPONENT_VALUE [exLeaf .IDENTIFIER b!"b", exNode .OPEN_CURLYBRACKET []]]]

example : BlockOfRule (exNode .LIST [exEmpty]) [0, 1] ∧ BlockOfRule (exNode .LIST [exEmpty]) [0, 1, 0, 1] := by
  constructor
  · exact (blockOfRule_cons _ [exEmpty] 0 exEmpty rfl [1] (by simp)).2
      ⟨by decide, (blockOfRule_one _ _ _).2 ⟨by decide, by decide⟩⟩
  · refine (blockOfRule_cons _ [exEmpty] 0 exEmpty rfl [1, 0, 1] (by simp)).2
      ⟨by decide, (blockOfRule_cons _ _ 1 _ rfl [0, 1] (by simp)).2 ⟨by decide, (blockOfRule_cons _ _ 0 _ rfl [1] (by simp)).2
      ⟨by decide, (blockOfRule_one _ _ _).2 ⟨by decide, by decide⟩⟩⟩⟩

example : EmptyRule (removeEmptyIn exEmpty) :=
  (C62_left { ty := .COMPONENT_VALUE, pos := exPos } { ty := .OPEN_CURLYBRACKET, pos := exPos } [exLeaf .IDENTIFIER b!"a"] _ rfl rfl (by simp)).2.2
    (by intro k hk; rw [List.mem_singleton.1 hk]; exact ⟨rfl, [exLeaf .IDENTIFIER b!"b"], _, rfl, rfl⟩)

end Csspp.Vars
