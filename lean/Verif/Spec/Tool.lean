import Verif.Model.Tool
import Verif.Spec.Lexemes

/-! Specification of the command line tool (C91). -/

namespace Csspp.Spec.Tool
open Csspp.Parse (Nd)
open Csspp.Pipeline (Msg)

/-- The characters of a file name that stand for themselves between double quotes. -/
def FileChar (c : Nat) : Prop := Valid c ∧ c ≠ 0xFFFD ∧ c ≠ 34 ∧ c ≠ 92 ∧ c ≠ 10 ∧ c ≠ 12 ∧ c ≠ 13

def FileText (s : Str) : Prop := ∃ cs, Utf8 cs s ∧ ∀ c ∈ cs, FileChar c

/-- The path of a file: a name that starts with a slash is absolute. -/
def path (cwd name : Str) : Str :=
  match name with
  | 47 :: _ => name
  | _ => cwd ++ b!"/" ++ name

/-- The node of `@import "path";`. -/
def IsImport (path : Str) (n : Nd) : Prop :=
  n.ty = .AT_KEYWORD ∧ n.tok.str = b!"import" ∧
    ∃ s, n.kids = [s] ∧ s.ty = .STRING ∧ s.tok.str = path ∧ s.kids = []

/-- The nodes of these files, in this order. -/
inductive Imports : List Str → List Nd → Prop
  | nil : Imports [] []
  | cons {p : Str} {n : Nd} {ps : List Str} {ns : List Nd} : IsImport p n → Imports ps ns → Imports (p :: ps) (n :: ns)

/-- A warning: `==` instead of `=`, a comment `// @preserve`, a flag that is not at the end of the value of a variable, a
reference in a comment that has no value, and those that the compiler issues as such. -/
def Warning : Msg → Prop
  | .lexer .doubleEqual | .lexer .cppComment => True
  | .variables .flagNotAtEnd _ | .variables .commentFunction _ | .variables .commentCall _ | .variables .commentNotSet _ => True
  | .compiler e _ => e.level = .warning
  | _ => False

/-- An error: everything but the warnings, the informations and the debug messages. -/
def Error : Msg → Prop
  | .compiler e _ => e.level = .error
  | m => ¬ Warning m

instance : DecidablePred Warning := fun m => by unfold Warning; split <;> infer_instance
instance : DecidablePred Error := fun m => by unfold Error; split <;> infer_instance

/-- The number of messages that make the tool fail. -/
def errors (werror : Bool) (msgs : List Msg) : Nat :=
  msgs.countP fun m => decide (Error m) || (werror && decide (Warning m))

/-- The tool counts the errors modulo 2^32. -/
def Fails (werror : Bool) (msgs : List Msg) : Prop := ¬ 4294967296 ∣ errors werror msgs

/-- The text is read as this tree, with these messages (those of the lexer first). -/
def Parsed (src : Str) (tree : Nd) (msgs : List Msg) : Prop :=
  ∃ ts s st, Lex.lexAll (src.length + 1) (Lex.init src) = (ts, s) ∧ s.exn = none ∧ s.ub = false ∧
    Parse.stylesheet (5 * ts.length + 11) ⟨ts, s.pos, []⟩ = .ok tree st ∧
    msgs = s.err.reverse.map .lexer ++ st.errs.reverse.map fun e => .parser e.1 e.2

/-- The styles. -/
def styles : List (Option Str × Asm.Mode) :=
  [(none, .compressed), (some b!"compressed", .compressed), (some b!"tidy", .tidy), (some b!"compact", .compact),
   (some b!"expanded", .expanded)]

end Csspp.Spec.Tool
