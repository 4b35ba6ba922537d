import Verif.Model.Pipeline
import Verif.Model.ErrorMod
import Verif.Model.Scripts

/-!
Model of the validation scripts: set_validation_script(), add_validation_variable() and run_validation()
(csspp/compiler.cpp:3729-3859).

Simplifications:
* The name of a script is found by find_file() (C45); here a script is the contents of the file (Model/Scripts.lean).
* Model/Vars.lean takes the evaluation of an expression as a parameter and Model/ExprEval.lean has it on tokens. `evaluate`
  goes from one to the other for the expressions made of words, integers, strings, booleans and operators that give a word, an
  integer, a string or a boolean without a message; for anything else it gives `none`, which stands for an exception (the
  theorems show that it does not happen). The nodes of the results have no position.
* compile(true) is the one of Model/Pipeline.lean without the assembler.
-/

namespace Csspp.Valid
open Csspp.Parse (Nd)
open Csspp.Pipeline (Msg)

/-! ### Expressions on nodes -/

/-- The types that an expression reads as themselves. -/
def isSym : NT → Bool
  | .WHITESPACE | .ADD | .SUBTRACT | .MULTIPLY | .DIVIDE | .MODULO | .EQUAL | .NOT_EQUAL | .LESS_THAN | .LESS_EQUAL
  | .GREATER_THAN | .GREATER_EQUAL | .AND | .COMMA | .COLON | .CONDITIONAL | .OPEN_CURLYBRACKET => true
  | _ => false

/-- A child of the node given to the expression. -/
def exprTok (n : Nd) : Option Expr.Tok :=
  match n.ty with
  | .IDENTIFIER => some (.ident n.tok.str)
  | .INTEGER => some (.lit (.int n.tok.int n.tok.str))
  | .STRING => some (.lit (.str n.tok.str))
  | .BOOLEAN => some (.lit (.bool n.tok.bool))
  | ty => if isSym ty then some (.sym ty) else none

def exprToks : List Nd → Option (List Expr.Tok)
  | [] => some []
  | n :: ns =>
    match exprTok n, exprToks ns with
    | some t, some ts => some (t :: ts)
    | _, _ => none

/-- The node of a value. -/
def resultNode : Expr.Val Nat → Option Nd
  | .ident s => some (.leaf { ty := .IDENTIFIER, pos := ⟨1, 1, 1⟩, str := s })
  | .int i u => some (.leaf { ty := .INTEGER, pos := ⟨1, 1, 1⟩, int := i, str := u })
  | .str s => some (.leaf { ty := .STRING, pos := ⟨1, 1, 1⟩, str := s })
  | .bool b => some (.leaf { ty := .BOOLEAN, pos := ⟨1, 1, 1⟩, bool := b })
  | _ => none

/-- expression.cpp:73-78 compile() and 92-132 replace_with_result(), on the children of a node. -/
def evaluate (env : Expr.Env) (s : Vars.St) (kids : List Nd) : Option Vars.ExprRes :=
  match exprToks kids with
  | none => none
  | some ts =>
    match Expr.compile env [] ts with
    | .ok (some r) st =>
      if st.errs ≠ [] then none
      else
        match st.heap[r]?.bind resultNode with
        | some n => some ⟨n :: kids.drop (kids.length - (Expr.leftOver ts st).length), some n, s⟩
        | none => none
    | _ => none

/-- expr_logical_and.cpp:54-64 boolean(): the value, and whether there is a message. -/
def truth (n : Nd) : Bool × Bool :=
  match exprTok n with
  | some (.lit v) =>
    match Expr.boolVal v with
    | .ret b es => (b, !es.isEmpty)
    | _ => (false, true)
  | _ => (false, true)

/-! ### The scripts -/

/-- compiler.cpp:3785-3797: the script is read and parsed, `none` when that throws or gives a message. -/
def script (src : Str) : Option Nd :=
  match Lex.lexAll (src.length + 1) (Lex.init src) with
  | (ts, s) =>
    match s.exn with
    | some _ => none
    | none =>
      if s.ub ∨ s.err ≠ [] then none
      else
        match Parse.stylesheet (5 * ts.length + 11) ⟨ts, s.pos, []⟩ with
        | .ok n st => if st.errs ≠ [] then none else some n
        | _ => none

/-- compiler.cpp:3802-3816 -/
def addVariable (name : Str) (value : Nd) (vars : List Vars.Var) : List Vars.Var :=
  Vars.putVar ⟨.leaf { ty := .VARIABLE, pos := value.tok.pos, str := name }, value⟩ vars

/-- What compile(true) does. -/
inductive Out where
  | ok (tree : Nd) (msgs : List Msg)
  | throws
  | undef
  | fuel

/-- compiler.cpp:528-583 compile(true) on a tree whose global variables are `vars`. -/
def compile (E : Pipeline.Env) (f : Nat) (n : Nd) (vars : List Vars.Var) : Out :=
  match Vars.replaceRoot E.vars f (Vars.mark false n) { root := vars } with
  | .throws => .throws
  | .fuel => .fuel
  | .ok n s =>
    match Compile.comp E.comp f n {} with
    | .throws => .throws
    | .undef => .undef
    | .fuel => .fuel
    | .ok (.into _) _ => .throws
    | .ok (.keep n) c =>
      match Vars.removeEmptyRules n with
      | none => .throws
      | some n =>
        match Expand.comps f n with
        | .throws => .throws
        | .fuel => .fuel
        | .ok r ps => .ok r.1 (s.errs.reverse.map (fun e => .variables e.1 e.2) ++
            c.errs.reverse.map (fun e => .compiler e.1 e.2) ++ ps.map .nestedRule)

/-- The mode of a message (error_mode_t). Those of the lexer and of the parser do not happen in compile(). -/
def mode : Msg → Err.Mode
  | .compiler e _ =>
    match e.level with
    | .error => .error
    | .warning => .warning
    | .info => .info
    | .debug => .debug
  | .variables .flagNotAtEnd _ | .variables .commentFunction _ | .variables .commentCall _
  | .variables .commentNotSet _ => .warning
  | _ => .error

/-- compiler.cpp:3818-3859 run_validation(), when compile(true) gives these messages: what it returns and the state of the
error module after it. `k` is the memory buffer. -/
def runValidation (checkOnly : Bool) (k : Nat) (msgs : List Msg) (s : Err.St) : Bool × Err.St :=
  let body := msgs.map fun m => Err.Prog.emit (mode m)
  if checkOnly then
    (!(Err.Happened.ofSt s).error (Err.run { s with stream := some k } body).1,
      (Err.run1 s (.safeError [.safeStream k body])).1)
  else
    (!(Err.Happened.ofSt s).error (Err.run s body).1, (Err.run s body).1)

/-- compiler.cpp:3087-3090 and so on: the script is set with one variable, a STRING, and run. -/
def validate (E : Pipeline.Env) (f : Nat) (src var name : Str) (pos : Lex.Pos) : Out :=
  match script src with
  | none => .throws
  | some n => compile E f n (addVariable var (.leaf { ty := .STRING, pos := pos, str := name }) [])

end Csspp.Valid
