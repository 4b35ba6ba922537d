import Verif.Lemmas.ParserBack
import Verif.Props.Parser

/-!
C55 and C56: the shape of the trees of the parser, and reading back the tokens of a tree.
-/

namespace Csspp.Parse
open Csspp.Lex (Tok Pos)
open Csspp.Node (supportsChildren)
open Csspp.Spec (types variableSet variableBlock nestedDeclaration endsRule TreeShape Sheet SheetChild unparse
  unparseSheet unparseChild strip stripL plainTok)

/-- C55: is_variable_set(n, false) says whether the children of n are `$name : ...` (or
`$name(...) : ...`); is_variable_set(n, true) whether they start with `$name : {...}`. -/
theorem C55_variable_set (n : Nd) (hn : supportsChildren n.ty = true) (s : St) :
    isVariableSet n false s = .ok (variableSet (types n.kids)) s ∧
    isVariableSet n true s = .ok (variableBlock (types n.kids)) s := by
  rw [isVariableSet_eq false hn, isVariableSet_eq true hn]
  exact ⟨rfl, rfl⟩

/-- C55: is_nested_declaration(n) says whether the children of n are `name : ... {...}` and not a
selector. -/
theorem C55_nested_declaration (n : Nd) (hn : supportsChildren n.ty = true) (s : St) :
    isNestedDeclaration n s = .ok (nestedDeclaration (types n.kids)) s := by
  rw [isNestedDeclaration_eq hn]
  rfl

/-- C55: a style sheet parsed without message is a list of comments, @-rules, rules and definitions
of variables, and all the nodes below have the shape of `Spec.TreeShape`. -/
theorem C55_sheet (s : St) (hp : ∀ t ∈ s.toks, Plain t) {v : Nd} {s' : St}
    (h : call .stylesheet s = .ok v s') (hn : s'.errs = s.errs) : Sheet v :=
  stylesheetLoop_shape (fuelFor s) s (newNode .LIST s.last) hp rfl (fun _ h => (by cases h)) v s' h
    (by rw [hn])

/-- C55: so is a list of component values: at most one value as the list ends at the first `;`. -/
theorem C55_values (s : St) (hp : ∀ t ∈ s.toks, Plain t) {v : Nd} {s' : St}
    (h : call .componentValueList s = .ok v s') (hn : s'.errs = s.errs) :
    TreeShape v ∧ (v.ty = .COMPONENT_VALUE ∨ v.ty = .LIST ∧ v.kids = []) := by
  have := (shapes (fuelFor s)).list ⟨true, false⟩ s hp v s' h (by rw [hn])
  refine ⟨this.shape, ?_⟩
  rcases this.ty with hl | hl
  · exact .inr ⟨hl, this.one rfl hl⟩
  · exact .inl hl

/-- C55: any text parsed as a style sheet without message. -/
theorem C55_text (inp : Str) (fin : Pos) {v : Nd} {s' : St}
    (h : call .stylesheet (start (tokens inp) fin) = .ok v s') (hn : s'.errs = []) : Sheet v :=
  C55_sheet _ (tokens_plain inp) h hn

/-- C56: the tokens of a style sheet are parsed without message, to the end, and give the same tree
(up to the positions of the groups). -/
theorem C56_reads_back (v : Nd) (hv : Sheet v) (fin : Pos) (errs : List (Err × Pos)) :
    ∃ v', call .stylesheet ⟨unparseSheet v, fin, errs⟩ = .ok v' ⟨[], fin, errs⟩ ∧ strip v' = strip v := by
  obtain ⟨l', h1, h2⟩ := stylesheet_run v.kids (fuelFor ⟨unparseSheet v, fin, errs⟩)
    (newNode .LIST (St.last ⟨unparseSheet v, fin, errs⟩)) fin errs rfl hv.2
    (by show 5 * (unparseSheet v).length + 5 ≤ 5 * (unparseSheet v).length + 10; omega)
  refine ⟨_, h1, ?_⟩
  obtain ⟨t, k⟩ := v
  exact strip_group hv.1.symm (.inl rfl) h2

/-- C56: what was parsed without message can be written as tokens again, and parsed again. -/
theorem C56_parse_again (s : St) (hp : ∀ t ∈ s.toks, Plain t) {v : Nd} {s' : St}
    (h : call .stylesheet s = .ok v s') (hn : s'.errs = s.errs) (fin : Pos) :
    ∃ v', call .stylesheet (start (unparseSheet v) fin) = .ok v' ⟨[], fin, []⟩ ∧ strip v' = strip v :=
  C56_reads_back v (C55_sheet s hp h hn) fin []

/-- C56: two trees with the same tokens are the same. -/
theorem C56_unambiguous (v w : Nd) (hv : Sheet v) (hw : Sheet w) (h : unparseSheet v = unparseSheet w) :
    strip v = strip w := by
  obtain ⟨v', h1, h2⟩ := C56_reads_back v hv ⟨1, 1, 1⟩ []
  obtain ⟨w', h3, h4⟩ := C56_reads_back w hw ⟨1, 1, 1⟩ []
  rw [h, h3] at h1
  injection h1 with h1 _
  rw [← h2, ← h4, h1]

/-- C56: an @-rule or a part of a value is read back from its tokens, whatever follows. -/
theorem C56_part (n : Nd) (hs : TreeShape n) (hp : Spec.isPart n.ty) (hx : n.ty ≠ .EXCLAMATION)
    (ha : n.ty ≠ .AT_KEYWORD) (rest : List Tok) (fin : Pos) (errs : List (Err × Pos)) :
    ∃ n', call .componentValue ⟨unparse n ++ rest, fin, errs⟩ = .ok n' ⟨rest, fin, errs⟩ ∧ strip n' = strip n :=
  (core _).value n rest fin errs hs hp ha hx (by
    show 5 * (unparse n ++ rest).length + 1 ≤ 5 * (unparse n ++ rest).length + 10; omega)

/-! ### Examples -/

/-- Parse a text, write the tree as tokens, parse these: the messages, what is left, and whether the
trees have the same tokens. -/
def again (inp : Str) : Option (List Err × List Err × Nat × Bool × Nat) :=
  match call .stylesheet (start (Lex.lexAll 1000 (Lex.init inp)).1 ⟨1, 1, 1⟩) with
  | .ok v s =>
    match call .stylesheet (start (unparseSheet v) ⟨1, 1, 1⟩) with
    | .ok v' s' => some (s.errs.map (·.1), s'.errs.map (·.1), s'.toks.length,
        decide ((flat v).map Sym.ty = (flat v').map Sym.ty), v.kids.length)
    | _ => none
  | _ => none

example : again b!"$a: 3; @media b{c{d:e !f;g{}}} h:hover{i:{j:k};l(m;n)} o: p{q:r}; <!-- s{}" =
    some ([], [], 0, true, 5) := by decide +kernel

/-- The hypotheses of `C55_sheet`: a text with no message (this one is parsed as above). -/
example : ∃ v s', call .stylesheet (start (tokens b!"a{b:c}") ⟨1, 1, 1⟩) = .ok v s' ∧ s'.errs = [] ∧
    v.kids.length = 1 := by
  have h : (match call .stylesheet (start (tokens b!"a{b:c}") ⟨1, 1, 1⟩) with
    | .ok v s' => decide (s'.errs.length = 0 ∧ v.kids.length = 1)
    | _ => false) = true := by decide +kernel
  revert h
  split
  · rename_i v s' heq
    intro h
    have h := of_decide_eq_true h
    exact ⟨v, s', heq, List.length_eq_zero_iff.1 h.1, h.2⟩
  · intro h; cases h

/-- A value that ends with `;` and is followed by a rule is an error at the top level: the two are
in one list, which does not end with a block. -/
example : (again b!"a;b{}").map (·.1) = some [.ruleEnd] := by decide +kernel
example : (again b!"a:{b:c};d{}").map (·.1) = some [.ruleEnd] := by decide +kernel

example : variableSet [.VARIABLE, .WHITESPACE, .COLON, .INTEGER] = true ∧
    variableSet [.VARIABLE, .WHITESPACE, .EQUAL, .INTEGER] = false ∧
    variableBlock [.VARIABLE, .COLON, .WHITESPACE, .OPEN_CURLYBRACKET] = true ∧
    nestedDeclaration [.IDENTIFIER, .COLON, .IDENTIFIER, .COLON, .IDENTIFIER, .OPEN_CURLYBRACKET] = false ∧
    nestedDeclaration [.IDENTIFIER, .COLON, .INTEGER, .OPEN_CURLYBRACKET] = true ∧
    nestedDeclaration [.IDENTIFIER, .COLON, .WHITESPACE, .IDENTIFIER, .OPEN_CURLYBRACKET] = true := by
  decide

end Csspp.Parse
