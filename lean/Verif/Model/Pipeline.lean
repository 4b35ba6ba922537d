import Verif.Model.Lexer
import Verif.Model.NumValue
import Verif.Model.Parser
import Verif.Model.Vars
import Verif.Model.Compile
import Verif.Model.Expand
import Verif.Model.Assembler
import Verif.Model.CompileList

/-!
Model of the whole program: lexer, parser::stylesheet(), compiler::compile(true) (compiler.cpp:528-583) and
assembler::output(), one after the other as in tools/csspp.cpp:484-600.

Simplifications:
* compile(true): the header and the footer (compiler.cpp:545-548, 585-615) are not imported.
* The parser asks the lexer for one token at a time; here all the tokens are read first. The messages of the lexer come
  before the ones of the parser.
* The test that the stack of parents is empty (compiler.cpp:551-582) is C62 and is not repeated.
* The flags of a declaration (`!important`), the colors and the font metrics are not in the trees of Model/Parser.lean:
  see the headers of Model/Compile.lean and Model/Vars.lean.
-/

namespace Csspp.Pipeline
open Csspp.Parse (Nd)
open Csspp.Flt (Fp)

/-- What is outside of the model: the files and the functions (Model/Vars.lean), the validation scripts and the
expressions (Model/Compile.lean), pow() and the precision. -/
structure Env where
  vars : Vars.Env
  comp : Compile.Env
  pow10 : Int → Fp
  precision : Nat

/-- A message. -/
inductive Msg where
  | lexer (r : Lex.Rpt)
  | parser (e : Parse.Err) (p : Lex.Pos)
  | variables (e : Vars.Err) (p : Lex.Pos)
  | compiler (e : Compile.Err) (p : Lex.Pos)
  /-- compiler.cpp:4165-4167 -/
  | nestedRule (p : Lex.Pos)
  /-- assembler.cpp:72-77 -/
  | dimension

/-- What the program does. -/
inductive R where
  | ok (text : Str) (msgs : List Msg)
  /-- an exception goes out of the library -/
  | throws
  /-- undefined behaviour -/
  | undef
  /-- not enough fuel -/
  | fuel
  | unmodelled

mutual
/-- The node the assembler gets (node.h:192-203): the same one. -/
def toTree (pow10 : Int → Fp) : Nd → Tree.Tree
  | .mk t kids => .mk (t.data pow10) (toTrees pow10 kids)
def toTrees (pow10 : Int → Fp) : List Nd → List Tree.Tree
  | [] => []
  | n :: ns => toTree pow10 n :: toTrees pow10 ns
end

/-- assembler.cpp:339-368 output(): the text and the messages of verify_dimension(). -/
def write (E : Env) (m : Asm.Mode) (n : Nd) (msgs : List Msg) : R :=
  match Asm.output E.precision (toTree E.pow10 n) with
  | .error .throws => .throws
  | .error .unmodelled => .unmodelled
  | .ok calls => .ok (m.text calls) (msgs ++ (calls.filter (· = .report)).map fun _ => .dimension)

/-- compiler.cpp:573-577 -/
def expand (E : Env) (f : Nat) (m : Asm.Mode) (n : Nd) (msgs : List Msg) : R :=
  match Expand.comps f n with
  | .throws => .throws
  | .fuel => .fuel
  | .ok r ps => write E m r.1 (msgs ++ ps.map .nestedRule)

/-- compiler.cpp:561-571: a root that is removed has no parent (compiler.cpp:143-152). -/
def compile (E : Env) (f : Nat) (m : Asm.Mode) (n : Nd) (msgs : List Msg) : R :=
  match Compile.comp E.comp f n {} with
  | .throws => .throws
  | .undef => .undef
  | .fuel => .fuel
  | .ok (.into _) _ => .throws
  | .ok (.keep n) s =>
    match Vars.removeEmptyRules n with
    | none => .throws
    | some n => expand E f m n (msgs ++ s.errs.reverse.map fun e => .compiler e.1 e.2)

/-- compiler.cpp:549-559 -/
def variables (E : Env) (f : Nat) (m : Asm.Mode) (n : Nd) (msgs : List Msg) : R :=
  match Vars.replaceRoot E.vars f (Vars.mark false n) {} with
  | .throws => .throws
  | .fuel => .fuel
  | .ok n s => compile E f m n (msgs ++ s.errs.reverse.map fun e => .variables e.1 e.2)

/-- tools/csspp.cpp:484-487, 541-546 (with `true`) and 600. The lexer and the parser have a fuel that is enough (C03 and
C36), so `f` is for the compiler only. -/
def run (E : Env) (f : Nat) (m : Asm.Mode) (src : Str) : R :=
  match Lex.lexAll (src.length + 1) (Lex.init src) with
  | (ts, s) =>
    match s.exn with
    | some .hang => .fuel
    | some _ => .throws
    | none =>
      if s.ub then .undef
      else
        match Parse.stylesheet (5 * ts.length + 11) ⟨ts, s.pos, []⟩ with
        | .throws => .throws
        | .fuel => .fuel
        | .ok n st => variables E f m n (s.err.reverse.map .lexer ++ st.errs.reverse.map fun e => .parser e.1 e.2)

/-! ### compile_list() on the nodes of the parser

Model/Compile.lean takes compile_list() as a parameter, Model/CompileList.lean has it on the tokens of an expression. These
functions go from one to the other, for the arguments made of words, integers, strings, blanks, `+` and `-` only (`none` for the
other ones). The positions are not in Model/CompileList.lean, so the result has none. -/

/-- A child of the argument. -/
def exprTok (n : Nd) : Option Expr.Tok :=
  match n.ty with
  | .IDENTIFIER => some (.ident n.tok.str)
  | .INTEGER => some (.lit (.int n.tok.int n.tok.str))
  | .STRING => some (.lit (.str n.tok.str))
  | .WHITESPACE => some (.sym .WHITESPACE)
  | .ADD => some (.sym .ADD)
  | .SUBTRACT => some (.sym .SUBTRACT)
  | _ => none

def exprToks : List Nd → Option (List Expr.Tok)
  | [] => some []
  | n :: ns =>
    match exprTok n, exprToks ns with
    | some t, some ts => some (t :: ts)
    | _, _ => none

/-- A value. -/
def valueNode : Expr.Val Nat → Option Nd
  | .ident s => some (.leaf { ty := .IDENTIFIER, pos := ⟨1, 1, 1⟩, str := s })
  | .int i u => some (.leaf { ty := .INTEGER, pos := ⟨1, 1, 1⟩, int := i, str := u })
  | .str s => some (.leaf { ty := .STRING, pos := ⟨1, 1, 1⟩, str := s })
  | _ => none

/-- A child of the argument, after compile_list(). -/
def childNode (heap : List (Expr.Val Nat)) : Expr.Child → Option Nd
  | .tok t => if t.isWs then some (.leaf { ty := .WHITESPACE, pos := ⟨1, 1, 1⟩ }) else none
  | .node r =>
    match heap[r]? with
    | some v => valueNode v
    | none => none

def childNodes (heap : List (Expr.Val Nat)) : List Expr.Child → Option (List Nd)
  | [] => some []
  | c :: cs =>
    match childNode heap c, childNodes heap cs with
    | some n, some ns => some (n :: ns)
    | _, _ => none

/-- compiler.cpp:1086-1090: compile_list() on the children of an argument. -/
def exprArg (env : Expr.Env) (metrics : Bool) (kids : List Nd) : Option (List Nd × List (Compile.Level × Lex.Pos)) :=
  match exprToks kids with
  | none => none
  | some toks =>
    match Expr.compileList { env with font := metrics } [] toks with
    | .ok row s =>
      match childNodes s.heap row.kids with
      | some l => some (l, s.errs.map (fun _ => (.error, ⟨1, 1, 1⟩)) ++ row.warns.map (fun _ => (.warning, ⟨1, 1, 1⟩)))
      | none => none
    | _ => none

end Csspp.Pipeline
