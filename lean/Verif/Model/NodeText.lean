import Verif.Model.Pipeline

/-!
Model of node::to_string(): csspp/node.cpp:765-1300.

Simplifications: the fields are those of Model/Tree.lean; `operator <<` on a double with the default precision of a stream is a
parameter (`Env.stream`); infinities, NaN and colors with such a component are `unmodelled` where decimal_number_to_string() and
color::to_string() are used, as in Model/Assembler.lean; the integer of an ARG is not reduced to 32 bits before it is compared.
-/

namespace Csspp.Text
open Csspp.Flt Csspp.Tree
open Csspp.Asm (Stop)

structure Env where
  /-- `out << f_decimal_number` -/
  stream : Fp → Str
  precision : Nat

/-- node.h:135-136 -/
structure Flags where
  quotes : Bool := false
  spaces : Bool := false

abbrev Out := Except Stop Str

/-- `out << a << b` -/
def cat (a b : Out) : Out :=
  match a with
  | .error e => .error e
  | .ok x =>
    match b with
    | .error e => .error e
    | .ok y => .ok (x ++ y)

infixr:65 " ⊕ " => cat

def put (s : Str) : Out := .ok s

/-- decimal_number_to_string(d, false) -/
def decimal (E : Env) (d : Fp) : Out :=
  match Color.decText E.precision d false with
  | some s => .ok s
  | none => .error .unmodelled

/-- node.cpp:819-830: the lines of a `//` comment; `cur` is the current one. -/
def lineComment (cur : Str) : Str → Str
  | [] => if cur = [] then [] else b!"// " ++ cur ++ [10]
  | c :: s => if c = 10 then b!"// " ++ cur ++ [10] ++ lineComment [] s else lineComment (cur ++ [c]) s

/-- `f_boolean && f_integer >= 0 ? "+" : ""` -/
def plus (d : Data) : Str := if d.bool = true ∧ d.int ≥ 0 then b!"+" else []

/-- node.cpp:1030: the characters of f_string.c_str(). -/
def cstr (s : Str) : Str := s.takeWhile (· ≠ 0)

/-- node.cpp:1047-1050 and 1064-1067: the quote with a backslash. -/
def escapeQuote (q : Nat) : Str → Str
  | [] => []
  | c :: s => if c = q then 92 :: q :: escapeQuote q s else c :: escapeQuote q s

/-- node.cpp:1028-1074: between quotes. -/
def quoted (s : Str) : Str :=
  let t := cstr s
  let sq := t.countP (· == 39)
  let dq := t.countP (· == 34)
  if sq ≥ dq then 34 :: escapeQuote 34 t ++ [34] else 39 :: escapeQuote 39 t ++ [39]

/-- node.cpp:874-878 -/
def fontMetrics (E : Env) (d : Data) : Out :=
  let dim1 := (Node.cutSlash d.str).1
  let dim2 := (Node.cutSlash d.str).2.getD []
  decimal E (Asm.scaled d.dec dim1) ⊕ put dim1 ⊕ put b!"/" ⊕ decimal E (Asm.scaled d.height dim2) ⊕ put dim2

/-- node.cpp:1098-1103 -/
def unicodeRange (i : Int) : Out :=
  match URange.UR.ofRange (toU64 i) with
  | .error _ => .error .throws
  | .ok r =>
    match r.toStr with
    | .error _ => .error .throws
    | .ok s => put (b!"U+" ++ s)

/-- The nodes whose text is always the same. -/
def symbol : NT → Option Str
  | .ADD => some b!"+"
  | .AND => some b!"&&"
  | .ASSIGNMENT => some b!":="
  | .COLON => some b!":"
  | .COLUMN => some b!"||"
  | .COMMA => some b!","
  | .CONDITIONAL => some b!"?"
  | .DASH_MATCH => some b!"|="
  | .DOLLAR => some b!"$"
  | .EQUAL => some b!"="
  | .EXCLAMATION => some b!"!"
  | .GREATER_EQUAL => some b!">="
  | .GREATER_THAN => some b!">"
  | .INCLUDE_MATCH => some b!"~="
  | .LESS_EQUAL => some b!"<="
  | .LESS_THAN => some b!"<"
  | .MULTIPLY => some b!"*"
  | .NOT_EQUAL => some b!"!="
  | .NULL_TOKEN => some []
  | .PERIOD => some b!"."
  | .POWER => some b!"**"
  | .PRECEDED => some b!"~"
  | .PREFIX_MATCH => some b!"^="
  | .REFERENCE => some b!"&"
  | .SCOPE => some b!"|"
  | .SEMICOLON => some b!";"
  | .SUBSTRING_MATCH => some b!"*="
  | .SUBTRACT => some b!"-"
  | .SUFFIX_MATCH => some b!"$="
  | .WHITESPACE => some b!" "
  | _ => none

/-- node.cpp:769-1165: the nodes whose children are not written. -/
def leaf (E : Env) (fl : Flags) (d : Data) : Option Out :=
  match symbol d.ty with
  | some s => some (put s)
  | none =>
    match d.ty with
    | .AT_KEYWORD => some (put (64 :: d.str))
    | .BOOLEAN => some (put (if d.bool then b!"true" else b!"false"))
    | .COLOR => some (match Color.toString d.color with | some s => .ok s | none => .error .unmodelled)
    | .COMMENT => some (put (if d.int = 0 then lineComment [] d.str else b!"/* " ++ d.str ++ b!" */"))
    | .DECIMAL_NUMBER => some (put (plus d ++ E.stream d.dec ++ d.str))
    | .DIVIDE => some (put (if fl.spaces then b!" / " else b!"/"))
    | .FONT_METRICS => some (fontMetrics E d)
    | .HASH => some (put (35 :: d.str))
    | .IDENTIFIER => some (put d.str)
    | .INTEGER => some (put (plus d ++ intDigits d.int ++ d.str))
    | .MODULO => some (put (if fl.spaces then b!" % " else b!"%"))
    | .PERCENT => some (put (plus d) ⊕ decimal E (mul f64 d.dec (ofInt f64 100)) ⊕ put b!"%")
    | .PLACEHOLDER => some (put (37 :: d.str))
    | .STRING => some (put (if fl.quotes then quoted d.str else cstr d.str))
    | .UNICODE_RANGE => some (unicodeRange d.int)
    | .URL => some (put (b!"url(" ++ d.str ++ b!")"))
    | .VARIABLE => some (put (36 :: d.str))
    | .AN_PLUS_B => some (put (Nth.Nth.ofPacked d.int).toStr)
    | _ => none

/-- node.cpp:1137-1150: the separator in front of an ARG; the values of node_type_t (node.h:41-115) are 0 for UNKNOWN, 14 for
COMMA and 19 for DIVIDE. -/
def separator (i : Int) : Out :=
  if i = 0 ∨ i = 14 then put b!","
  else if i = 19 then put b!"/"
  else .error .throws

/-- node.cpp:1280-1294: the position of a FRAME. -/
def frame (E : Env) (d : Fp) : Out :=
  if le d (ofInt f64 0) then put b!"from"
  else if le (ofInt f64 1) d then put b!"to"
  else decimal E (mul f64 d (ofInt f64 100)) ⊕ put b!"%"

mutual
/-- node.cpp:765-1300 to_string() -/
def text (E : Env) (fl : Flags) : Tree → Out
  | .mk d kids =>
    match leaf E fl d with
    | some o => o
    | none =>
      match d.ty with
      | .VARIABLE_FUNCTION => put (36 :: d.str ++ b!"(") ⊕ textSep E fl b!"," true kids ⊕ put b!")"
      | .FUNCTION => put (d.str ++ b!"(") ⊕ textSep E fl b!"," true kids ⊕ put b!")"
      | .OPEN_CURLYBRACKET => put b!"{" ⊕ textAll E fl kids ⊕ put b!"}"
      | .OPEN_PARENTHESIS => put b!"(" ⊕ textAll E fl kids ⊕ put b!")"
      | .OPEN_SQUAREBRACKET => put b!"[" ⊕ textAll E fl kids ⊕ put b!"]"
      | .COMPONENT_VALUE => textArgs E fl true kids
      | .ARG => textAll E fl kids
      | .DECLARATION => put (if d.str = [] then [] else d.str ++ b!": ") ⊕ textAfter E fl .ARG b!"," kids
      | .LIST => textAfter E fl .DECLARATION b!";" kids
      | .ARRAY => put b!"(" ⊕ textSep E { fl with quotes := true } b!", " true kids ⊕ put b!")"
      | .MAP => put b!"(" ⊕ textMap E { fl with quotes := true } true true kids ⊕ put b!")"
      | .FRAME => frame E d.dec ⊕ put b!"{" ⊕ textAll E fl kids ⊕ put b!"}"
      | _ => .error .throws

/-- The children one after the other. -/
def textAll (E : Env) (fl : Flags) : List Tree → Out
  | [] => .ok []
  | c :: cs => text E fl c ⊕ textAll E fl cs

/-- node.cpp:888-900 and 1216-1232: a separator in front of the children but the first one. -/
def textSep (E : Env) (fl : Flags) (sep : Str) (first : Bool) : List Tree → Out
  | [] => .ok []
  | c :: cs => put (if first then [] else sep) ⊕ text E fl c ⊕ textSep E fl sep false cs

/-- node.cpp:1179-1194 and 1198-1213: a separator after the children of a type, except the last child. -/
def textAfter (E : Env) (fl : Flags) (ty : NT) (sep : Str) : List Tree → Out
  | [] => .ok []
  | c :: cs => text E fl c ⊕ put (if c.ty = ty ∧ cs ≠ [] then sep else []) ⊕ textAfter E fl ty sep cs

/-- node.cpp:1121-1157 -/
def textArgs (E : Env) (fl : Flags) (first : Bool) : List Tree → Out
  | [] => .ok []
  | .mk d kids :: cs =>
    if d.ty = .ARG then
      (if first then put [] else separator d.int) ⊕ text E fl (.mk d kids) ⊕ textArgs E fl false cs
    else text E fl (.mk d kids) ⊕ textArgs E fl first cs

/-- node.cpp:1236-1260 -/
def textMap (E : Env) (fl : Flags) (first label : Bool) : List Tree → Out
  | [] => .ok []
  | c :: cs =>
    if label then put (if first then [] else b!", ") ⊕ text E fl c ⊕ put b!": " ⊕ textMap E fl false false cs
    else text E fl c ⊕ textMap E fl first true cs
end

/-- to_string(0) of a node of Model/Parser.lean, for the `toString` of Model/Compile.lean. -/
def nodeText (E : Env) (pow10 : Int → Fp) (n : Parse.Nd) : Str :=
  match text E {} (Pipeline.toTree pow10 n) with
  | .ok s => s
  | .error _ => []

/-- compiler.cpp:3233-3237: the texts of the parameters of a function, with quotes, one after the other. Simplification: the
result is empty when one of them throws. -/
def joined (E : Env) (pow10 : Int → Fp) (l : List Parse.Nd) : Str :=
  match textAll E { quotes := true } (Pipeline.toTrees pow10 l) with
  | .ok s => s
  | .error _ => []

end Csspp.Text
