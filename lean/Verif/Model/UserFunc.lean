import Verif.Model.Pipeline

/-!
Model of the call of a function of the style sheet in an expression: compiler_state_t::execute_user_function()
(csspp/compiler.cpp:217-361), which expression::execute_function() calls when the function is not one of its own
(csspp/internal_functions.cpp:2211-2217).

Simplifications:
* The function is given with its arguments already separated (compiler.cpp:248-249).
* compile(true) is the one of Model/Pipeline.lean without the assembler; its tree is lost, only the result of @return is
  kept (compiler.cpp:429-432).
* A variable is a pair (Model/Vars.lean), so that the test of lines 229-234 never fails.
-/

namespace Csspp.UserFn
open Csspp.Parse (Nd)
open Csspp.Pipeline (Msg)

/-- What execute_user_function() returns. -/
inductive Out where
  /-- the node it was given -/
  | call (msgs : List Msg)
  /-- what the @return of the function gives, `none` for a null pointer (no @return) -/
  | value (v : Option Nd) (msgs : List Msg)
  | throws
  | undef
  | fuel

/-- compiler.cpp:528-583 compile(true) and 429-432 get_result(), on a tree whose global variables are `vars`. -/
def result (E : Pipeline.Env) (f : Nat) (n : Nd) (vars : List Vars.Var) : Out :=
  match Vars.replaceRoot E.vars f (Vars.mark false n) { root := vars } with
  | .throws => .throws
  | .fuel => .fuel
  | .ok n s =>
    match Compile.comp E.comp f n {} with
    | .throws => .throws
    | .undef => .undef
    | .fuel => .fuel
    | .ok (.into _) _ => .throws
    | .ok (.keep n) c =>
      match Vars.removeEmptyRules n with
      | none => .throws
      | some n =>
        match Expand.comps f n with
        | .throws => .throws
        | .fuel => .fuel
        | .ok _ ps => .value c.ret (s.errs.reverse.map (fun e => .variables e.1 e.2) ++
            c.errs.reverse.map (fun e => .compiler e.1 e.2) ++ ps.map .nestedRule)

/-- compiler.cpp:217-361; `s` are the variables where the expression is, `func` the call. The parameters are set by the same
lines as those of replace_variable() (264-349 and 2134-2210), but over a copy of the global variables (258) and with the
position of the body in the message (316-323). -/
def execute (E : Pipeline.Env) (f : Nat) (s : Vars.St) (func : Nd) : Out :=
  match s.get func.tok.str with
  | none => .call []
  | some v =>
    if v.name.ty ≠ .FUNCTION then .call []
    else if v.value.ty ≠ .OPEN_CURLYBRACKET then .throws
    else
      match Vars.bindArgs v.value.tok.pos v.name.kids func.kids s.root {} with
      | .throws => .throws
      | .fuel => .fuel
      | .ok none st => .call (st.errs.reverse.map fun e => .variables e.1 e.2)
      | .ok (some vars) _ => result E f (.mk { ty := .LIST, pos := v.value.tok.pos } v.value.kids) vars

end Csspp.UserFn
