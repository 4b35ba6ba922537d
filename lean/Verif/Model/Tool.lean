import Verif.Model.Validation
import Verif.Model.Dates

/-!
Model of the command line tool, tools/csspp.cpp:397-670 (pp::pp(), pp::compile() and main()), of compile(false) and
add_header_and_footer() (compiler.cpp:528-616) and of set_no_logo() (compiler.cpp:512-515).

Simplifications:
* The options were already read by advgetopt (`Options`); `--version`, `--help`, its own errors and the debug output are
  left out.
* --include, --empty-on-undefined-variable and the files are in the environment (`Env`, see Model/Vars.lean and C45).
* The messages are kept with their mode only (Model/ErrorMod.lean). As in Model/Pipeline.lean the messages of the lexer come
  before those of the parser.
* What an exception of the assembler leaves in the output file is not modelled.
* The positions of the header and of the footer are in files named "header.scss", "footer.scss" and "close.scss"; the names of
  files are not in the positions of the model.
-/

namespace Csspp.Tool
open Csspp.Parse (Nd)
open Csspp.Pipeline (Msg)

/-- The options that are modelled, tools/csspp.cpp:274-353. -/
structure Options where
  /-- `none` when there is no file name at all -/
  files : Option (List Str) := none
  args : List Str := []
  noLogo : Bool := false
  style : Option Str := none
  output : Option Str := none
  /-- a `long` -/
  precision : Option Int := none
  quiet : Bool := false
  debug : Bool := false
  werror : Bool := false

/-- What the tool gets from the system: the working directory, the standard input and the date variables (see C73). -/
structure World where
  cwd : Str
  stdin : Str
  dates : List (Str × Str)

/-- tools/csspp.cpp:445-473: the lines `@import "...";`, `none` when a name is refused. -/
def imports (cwd : Str) : List Str → Option Str
  | [] => some []
  | name :: names =>
    if name = [] then none
    else if name = b!"-" then none
    else
      match imports cwd names with
      | none => none
      | some rest =>
        if name.head? = some 47 then some (b!"@import \"" ++ name ++ b!"\";\n" ++ rest)
        else some (b!"@import \"" ++ cwd ++ b!"/" ++ name ++ b!"\";\n" ++ rest)

/-- tools/csspp.cpp:429-482: the text that is compiled. -/
def source (w : World) : Option (List Str) → Option Str
  | none => some w.stdin
  | some names => if names = [b!"-"] then some w.stdin else imports w.cwd names

/-- `f_precision = f_opt.get_long("precision")`, tools/csspp.cpp:417: a long in an int. -/
def toInt32 (n : Int) : Int := (2147483648 + n) % 4294967296 - 2147483648

/-- The mode of a message, with the ones of the lexer (lexer.cpp:78, 379). -/
def mode : Msg → Err.Mode
  | .lexer r => if r.isError then .error else .warning
  | m => Valid.mode m

/-- tools/csspp.cpp:493-511: the variable `$_csspp_args`. -/
def argsVar (pos : Lex.Pos) (args : List Str) : Vars.Var :=
  ⟨.leaf { ty := .VARIABLE, pos := pos, str := b!"_csspp_args" },
   .mk { ty := .LIST, pos := pos } [.mk { ty := .ARRAY, pos := pos }
     (args.map fun a => .leaf { ty := .STRING, pos := pos, str := a })]⟩

/-- compiler.cpp:447-505, on the variables of the root. -/
def addDates (pos : Lex.Pos) : List (Str × Str) → List Vars.Var → List Vars.Var
  | [], vars => vars
  | (name, text) :: l, vars =>
    addDates pos l (Valid.addVariable name (.leaf { ty := .STRING, pos := pos, str := text }) vars)

/-- compiler.cpp:608-615 -/
def logoVar (noLogo : Bool) : Vars.Var :=
  ⟨.leaf { ty := .VARIABLE, pos := ⟨1, 1, 1⟩, str := b!"_csspp_no_logo" }, .leaf { ty := .BOOLEAN, pos := ⟨1, 1, 1⟩, bool := noLogo }⟩

/-- compiler.cpp:585-590, 597-602 -/
def importNode (name : Str) : Nd :=
  .mk { ty := .AT_KEYWORD, pos := ⟨1, 1, 1⟩, str := b!"import" } [.leaf { ty := .STRING, pos := ⟨1, 1, 1⟩, str := name }]

/-- compiler.cpp:580-604, the tree; `none` is the exception of a node without children. -/
def headerFooter (n : Nd) : Option Nd :=
  if Node.supportsChildren n.ty then
    (Vars.insertChild n.kids 0 (importNode b!"system/init.scss")).map fun k =>
      .mk n.tok (Parse.push k (importNode b!"system/close.scss"))
  else none

/-- tools/csspp.cpp:493-539: the global variables of the compiler. -/
def variables (w : World) (o : Options) (pos : Lex.Pos) : List Vars.Var :=
  Vars.putVar (logoVar o.noLogo) (addDates pos w.dates [argsVar pos o.args])

/-- tools/csspp.cpp:493-546 with compiler.cpp:528-616: the tree of the parser is compiled. -/
def compile (E : Pipeline.Env) (f : Nat) (w : World) (o : Options) (n : Nd) : Valid.Out :=
  match headerFooter n with
  | none => .throws
  | some r => Valid.compile E f r (variables w o n.tok.pos)

/-- tools/csspp.cpp:552-581 -/
def style : Option Str → Option Asm.Mode
  | none => some .compressed
  | some s =>
    if s = b!"compressed" then some .compressed
    else if s = b!"tidy" then some .tidy
    else if s = b!"compact" then some .compact
    else if s = b!"expanded" then some .expanded
    else none

/-- tools/csspp.cpp:400-413 -/
def errors (o : Options) : Err.St :=
  { hideAll := o.quiet, showDebug := o.debug, warningsAsErrors := o.werror }

/-- error_tracker.error_happened() (tools/csspp.cpp:485, 488, 547, 605) after these messages. -/
def failed (o : Options) (msgs : List Msg) : Bool :=
  (Err.Happened.ofSt (errors o)).error (Err.run (errors o) (msgs.map fun m => .emit (mode m))).1

/-- tools/csspp.cpp:583-598: the name of the file, `none` for the standard output. -/
def target (o : Options) : Option Str :=
  match o.output with
  | none => none
  | some name => if name = b!"-" then none else some name

/-- What the tool does: its exit status, what it wrote (the file and the text) and the messages that were issued. -/
inductive End where
  | exit (status : Nat) (out : Option (Option Str × Str)) (msgs : List Msg)
  | undef
  | fuel
  | unmodelled

/-- tools/csspp.cpp:552-612 -/
def write (E : Pipeline.Env) (p : Nat) (o : Options) (n : Nd) (msgs : List Msg) : End :=
  match style o.style with
  | none => .exit 1 none msgs
  | some m =>
    match Pipeline.write { E with precision := p } m n msgs with
    | .throws => .exit 1 none msgs
    | .undef => .undef
    | .fuel => .fuel
    | .unmodelled => .unmodelled
    | .ok text msgs => .exit (if failed o msgs then 1 else 0) (some (target o, text)) msgs

/-- tools/csspp.cpp:484-550. The messages issued before an exception are left out. -/
def process (E : Pipeline.Env) (f p : Nat) (w : World) (o : Options) (src : Str) : End :=
  match Lex.lexAll (src.length + 1) (Lex.init src) with
  | (ts, s) =>
    match s.exn with
    | some .hang => .fuel
    | some _ => .exit 1 none []
    | none =>
      if s.ub then .undef
      else
        match Parse.stylesheet (5 * ts.length + 11) ⟨ts, s.pos, []⟩ with
        | .throws => .exit 1 none []
        | .fuel => .fuel
        | .ok n st =>
          let msgs := s.err.reverse.map .lexer ++ st.errs.reverse.map fun e => .parser e.1 e.2
          if failed o msgs then .exit 1 none msgs
          else
            match compile E f w o n with
            | .throws => .exit 1 none msgs
            | .undef => .undef
            | .fuel => .fuel
            | .ok n more =>
              if failed o (msgs ++ more) then .exit 1 none (msgs ++ more)
              else write E p o n (msgs ++ more)

/-- tools/csspp.cpp:421-670: the precision (csspp.h.in:101-105, an exception when it is out of range), the text and all the
rest. The exceptions are caught by main(), which then exits with 1. -/
def run (E : Pipeline.Env) (f : Nat) (w : World) (o : Options) : End :=
  match o.precision.elim 3 toInt32 with
  | .negSucc _ => .exit 1 none []
  | .ofNat p =>
    if p > 10 then .exit 1 none []
    else
      match source w o.files with
      | none => .exit 1 none []
      | some src => process E f p w o src

end Csspp.Tool
