import Verif.Model.ExprEval

/-!
Model of expression::compile_list() (csspp/expr_unary.cpp:54-101) and of replace_with_result()
(csspp/expression.cpp:92-132): the values of a declaration that are separated by blanks, each one an expression, with
the flags (`!important`).

* The children of the node are `done` (before f_start) followed by the ones from f_start.
* Simplifications: the variables of an expression are not set by conditional(), so there are none; the warnings are
  kept apart from the errors; the children that an expression with an error went through are left as they were (an
  operator may have modified the value of one of them).
-/

namespace Csspp.Expr

/-- A child of the node: as it was read, or the result of an expression. -/
inductive Child where
  | tok (t : Tok)
  | node (r : Ref)

/-- What compile_list() does. -/
structure Row where
  kids : List Child
  /-- parent->set_flag(name, true), in this order -/
  flags : List Str := []
  /-- the warnings of expr_unary.cpp:69-76, each one with the name of the flag -/
  warns : List Str := []

/-- The name, if the type is EXCLAMATION. -/
def Tok.flag : Tok → Option Str
  | .lit (.other .EXCLAMATION s) => some s
  | _ => none

/-- The number of tokens that are not WHITESPACE. -/
def countToks (l : List Tok) : Nat := l.countP (fun t => !t.isWs)

/-- The children before and from the last but `k`-th token that is not WHITESPACE. -/
def splitAtTok (k : Nat) : List Tok → List Tok × List Tok
  | [] => ([], [])
  | t :: ts =>
    if t.isWs = false ∧ countToks (t :: ts) = k then ([], t :: ts)
    else
      let p := splitAtTok k ts
      (t :: p.1, p.2)

/-- expression.cpp:92-132 replace_with_result() with a result: the children that are left after it. `l` are the
children from f_start and `s` is the state: f_current is the last token read (it is found by the number of the
tokens after it), and one WHITESPACE in front of it is kept. -/
def leftOver (l : List Tok) (s : St) : List Tok :=
  if s.cur.isSym .EOF_TOKEN then []
  else
    let p := splitAtTok (countToks s.rest + 1) l
    (if p.1.getLast?.map Tok.isWs = some true then [.sym .WHITESPACE] else []) ++ p.2

/-- f_current is `t` and f_pos is after the WHITESPACE that follows. -/
def read (t : Tok) (raw : List Tok) : M Unit := fun s => .ok () { s with cur := t, rest := dropWs raw }

/-- expr_unary.cpp:61-97: the loop. The children from f_start are `pend`, then `t` which becomes f_current, then
`raw`. -/
def listLoop (env : Env) : Nat → List Tok → Tok → List Tok → Row → M Row
  | 0, _, _, _, _ => outOfFuel
  | n + 1, pend, t, raw, row =>
    match t.flag with
    | some name =>
      -- 63-83; `next` at 93 reads the child after the WHITESPACE
      let row := { row with flags := row.flags ++ [name] }
      let pend := pend ++ raw.takeWhile Tok.isWs
      match dropWs raw with
      | [] => pure { row with kids := row.kids ++ pend.map .tok }
      | u :: us => listLoop env n pend u us { row with warns := row.warns ++ [name] }
    | none => do
      -- 86-87
      let l := pend ++ t :: raw
      read t raw
      let r ← conditional env (3 * sizeAll l + 4)
      let s ← get'
      let row' := match r with
        | some r => { row with kids := row.kids ++ [.node r] }
        | none => { row with kids := row.kids ++ (l.take (l.length - s.rest.length)).map .tok }
      -- 89-97
      match (if r.isSome then leftOver l s else s.rest) with
      | [] => pure row'
      | t :: ts =>
        if t.isWs then
          match dropWs ts with
          | [] => pure { row' with kids := row'.kids ++ (t :: ts).map .tok }
          | u :: us => listLoop env n [] u us { row' with kids := row'.kids ++ ((t :: ts).takeWhile Tok.isWs).map .tok }
        else listLoop env n [] t ts row'

/-- expr_unary.cpp:54-101 `compile_list()`. -/
def compileList (env : Env) (heap : List (Val Ref)) (toks : List Tok) : R Row :=
  (match toks with
    | [] => do
      next
      let _ ← conditional env 4
      pure { kids := [] }
    | t :: ts => listLoop env (toks.length + 1) [] t ts { kids := [] } : M Row)
    { heap := heap, errs := [], cur := .sym .EOF_TOKEN, rest := toks, vars := [] }

end Csspp.Expr
