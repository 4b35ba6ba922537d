import Verif.Model.Tree
import Verif.Model.AsmText
import Verif.Model.NthChild
import Verif.Model.UnicodeRange

/-!
Model of csspp/assembler.cpp: what assembler::output() writes for a tree, in the four modes.

`assembler::output()` never reads anything back from `f_impl` or from the stream, and does not know
the mode. So it is modelled as the list of the calls it makes (`Call`), and the four classes derived
from assembler_impl as the text that such a list of calls writes (`Mode.text`).

Simplifications: the text written before an exception is not kept; the file does not fail; the mode
is one of the four (assembler.cpp:362-365); infinities and NaN, and colors with such a component,
are `unmodelled`.
-/

namespace Csspp.Asm
open Csspp.Flt Csspp.Tree

/-- assembler.cpp:59-65: every call uses at most one of these flags. -/
inductive Flag where
  | none
  | optionalOperator
  | spaces
  | spaceBefore
  | spaceAfter
  | spacesOrNewlines
  | spaceBeforeOrNewline
  | spaceAfterOrNewline
  deriving DecidableEq, Repr

/-- The calls: `f_out << s`, the virtual functions of assembler_impl, and the message of
verify_dimension(). -/
inductive Call where
  | raw (s : Str)
  | op (s : Str) (f : Flag)
  | token (s : Str)
  | newline
  | newlineIfNotEmpty
  | indent
  | report
  deriving DecidableEq, Repr

/-! ### assembler.cpp:84-256: the four implementations -/

/-- assembler.h:33-39. -/
inductive Mode where
  | compact | compressed | expanded | tidy
  deriving DecidableEq, Repr

/-- The stream and `f_started`. -/
structure W where
  out : Str
  started : Bool
  deriving DecidableEq, Repr

/-- `f_out << s`. -/
def W.put (w : W) (s : Str) : W := { w with out := w.out ++ s }
def W.set (w : W) (b : Bool) : W := { w with started := b }

/-- assembler.cpp:96-103 `assembler_impl::output_string`. -/
def W.string (w : W) (s : Str) : W :=
  (if s.isEmpty then w else w.set (s.getLast? != some 10)).put s

/-- assembler.cpp:105-114 `assembler_impl::output_operator`. -/
def opBase (w : W) (s : Str) (f : Flag) : W :=
  if f = .optionalOperator then w else w.string s

/-- assembler.cpp:190-209 `assembler_compact::output_operator`. -/
def opCompact (w : W) (s : Str) (f : Flag) : W :=
  match f with
  | .spaces | .spacesOrNewlines => (w.set true).put (32 :: (s ++ [32]))
  | .spaceBefore | .spaceBeforeOrNewline => (w.set true).put (32 :: s)
  | .spaceAfter | .spaceAfterOrNewline => (w.set true).put (s ++ [32])
  | _ => opBase (w.set true) s f

/-- assembler.cpp:224-250 `assembler_expanded::output_operator`. -/
def opExpanded (w : W) (s : Str) (f : Flag) : W :=
  match f with
  | .spacesOrNewlines => (w.set false).put (10 :: (s ++ [10]))
  | .spaceBeforeOrNewline => (w.set false).put (10 :: s)
  | .spaceAfterOrNewline => (w.set false).put (s ++ [10])
  | .optionalOperator => (w.set true).put s
  | _ => opCompact w s f

/-- One call, in a mode. newline() is assembler.cpp:122-125 and 171-175, newline_if_not_empty()
127-134, output_identation() 136-139 and 252-255, output_token() 116-120. -/
def Mode.call (m : Mode) (w : W) : Call → W
  | .raw s => w.put s
  | .op s f =>
    match m with
    | .compressed | .tidy => opBase w s f
    | .compact => opCompact w s f
    | .expanded => opExpanded w s f
  | .token s => w.string s
  | .newline =>
    match m with
    | .compressed => w
    | _ => (w.set false).put [10]
  | .newlineIfNotEmpty => if w.started then (w.set false).put [10] else w
  | .indent =>
    match m with
    | .expanded => w.put [32, 32]
    | _ => w
  | .report => w

/-- The text of a list of calls. -/
def Mode.text (m : Mode) (calls : List Call) : Str := (calls.foldl m.call ⟨[], false⟩).out

/-! ### assembler.cpp:370-1045: the calls made for a tree -/

/-- Why output() does not return. -/
inductive Stop where
  | throws
  | unmodelled
  deriving DecidableEq, Repr

abbrev Out := Except Stop (List Call)

/-- One after the other. -/
def andThen (a b : Out) : Out :=
  match a with
  | .error e => .error e
  | .ok x =>
    match b with
    | .error e => .error e
    | .ok y => .ok (x ++ y)

infixr:65 " ⊹ " => andThen

def one (c : Call) : Out := .ok [c]
def rawText (s : Str) : Out := one (.raw s)
def operator (s : Str) (f : Flag) : Out := one (.op s f)

/-- decimal_number_to_string(d, true), with the current precision. -/
def decimal (p : Nat) (d : Fp) : Out :=
  match Color.decText p d true with
  | some s => rawText s
  | none => .error .unmodelled

/-- assembler.cpp:67-79 `verify_dimension`. -/
def verifyDimension (s : Str) : Out :=
  if s.any (fun c => c == 32 || c == 42 || c == 47) then one .report else .ok []

/-- `* (n->get_dim1() == "%" ? 100.0 : 1.0)`. -/
def scaled (d : Fp) (dim : Str) : Fp :=
  mul f64 d (ofInt f64 (if dim = b!"%" then 100 else 1))

/-- assembler.cpp:456-460: the font size and the line height. -/
def fontMetrics (p : Nat) (d : Data) : Out :=
  let dim1 := (Node.cutSlash d.str).1
  let dim2 := (Node.cutSlash d.str).2.getD []
  decimal p (scaled d.dec dim1) ⊹ rawText dim1 ⊹ rawText [47] ⊹ decimal p (scaled d.height dim2) ⊹ rawText dim2

/-- assembler.cpp:902-938: a `//` comment becomes one line, or several; `cur` is the current
line. -/
def cppComment (first : Bool) (cur : Str) : Str → Str
  | [] =>
    if cur = [] then []
    else if first then b!"/* " ++ cur ++ b!" */" ++ [10]
    else b!" * " ++ cur ++ [10] ++ b!" */" ++ [10]
  | c :: s =>
    if c = 10 then (if first then b!"/* " else b!" * ") ++ cur ++ [10] ++ cppComment false [] s
    else cppComment first (cur ++ [c]) s

/-- assembler.cpp:894-950 `output_comment`. -/
def comment (d : Data) : Out :=
  one .newlineIfNotEmpty ⊹ rawText (if d.int = 0 then cppComment true [] d.str else outputCComment d.str)

/-- assembler.cpp:1006-1045 `output_url`. -/
def url (s : Str) : Out :=
  rawText b!"url" ⊹ operator [40] .spaceAfter ⊹ rawText (urlArg s) ⊹ operator [41] .spaceBefore

/-- assembler.cpp:645-662: the position of a frame. -/
def framePosition (p : Nat) (d : Fp) : Out :=
  if le (ofInt f64 1) d then rawText b!"to"
  else
    decimal p (mul f64 (if lt d (ofInt f64 0) then ofInt f64 0 else d) (ofInt f64 100)) ⊹ rawText b!"%"

/-- assembler.cpp:614-619: the conversion of the integer of a UNICODE_RANGE. -/
def unicodeRange (i : Int) : Out :=
  match URange.UR.ofRange (toU64 i) with
  | .error _ => .error .throws
  | .ok r =>
    match r.toStr with
    | .error _ => .error .throws
    | .ok s => rawText (b!"U+" ++ s)

/-- assembler.cpp:370-641: the nodes without children. `none` when the node is not one of those. -/
def leafCalls (p : Nat) (d : Data) : Option Out :=
  match d.ty with
  | .ADD => some (operator b!"+" .spaces)
  | .COLON => some (operator b!":" .none)
  | .COLOR => some (match Color.toString d.color with | some s => one (.token s) | none => .error .unmodelled)
  | .COMMENT => some (comment d)
  | .DASH_MATCH => some (operator b!"|=" .spaces)
  | .DECIMAL_NUMBER => some (verifyDimension d.str ⊹ decimal p d.dec ⊹ rawText d.str)
  | .DIVIDE => some (operator b!"/" .none)
  | .EQUAL => some (operator b!"=" .spaces)
  | .FONT_METRICS => some (fontMetrics p d)
  | .GREATER_THAN => some (operator b!">" .spaces)
  | .HASH => some (rawText (35 :: d.str))
  | .IDENTIFIER => some (match escapeId d.str with | some s => rawText s | none => .error .throws)
  | .INCLUDE_MATCH => some (operator b!"~=" .spaces)
  | .INTEGER => some (verifyDimension d.str ⊹ rawText (intDigits d.int ++ d.str))
  | .MULTIPLY => some (operator b!"*" .none)
  | .PERCENT => some (decimal p (mul f64 d.dec (ofInt f64 100)) ⊹ rawText b!"%")
  | .PERIOD => some (operator b!"." .none)
  | .PRECEDED => some (operator b!"~" .spaces)
  | .PREFIX_MATCH => some (operator b!"^=" .spaces)
  | .SCOPE => some (operator b!"|" .none)
  | .STRING => some (rawText (outputString d.str))
  | .SUBSTRING_MATCH => some (operator b!"*=" .spaces)
  | .SUBTRACT => some (operator b!"-" .none)
  | .SUFFIX_MATCH => some (operator b!"$=" .spaces)
  | .UNICODE_RANGE => some (unicodeRange d.int)
  | .URL => some (url d.str)
  | .WHITESPACE => some (rawText [32])
  | .AN_PLUS_B => some (rawText (Nth.Nth.ofPacked d.int).toStr)
  | _ => none

/-- assembler.cpp:817-819. -/
def isKeyframes (s : Str) : Bool :=
  s == b!"-o-keyframes" || s == b!"-webkit-keyframes" || s == b!"keyframes"

/-- The `}` of a block: assembler.cpp:556-558 and 677-679. -/
def closeCalls : Out :=
  operator b!";" .optionalOperator ⊹ operator b!"}" .spaceBeforeOrNewline ⊹ one .newline

/-- assembler.cpp:759: a component value not to be written. -/
def endsWithPlaceholder : List Tree → Bool
  | [] => false
  | [c] => c.ty == .PLACEHOLDER
  | _ :: c :: l => endsWithPlaceholder (c :: l)

mutual
/-- assembler.cpp:370-724 `output(n)`, at `p` digits of precision. -/
def output (p : Nat) : Tree → Out
  | .mk d kids =>
    match leafCalls p d with
    | some o => o
    | none =>
      match d.ty with
      | .ARG => outAll p kids
      | .AT_KEYWORD =>
        rawText (64 :: (d.str ++ [32])) ⊹
          (match kids with
           | [] => rawText [59]
           | c :: cs =>
             if isKeyframes d.str then
               output p c ⊹ operator b!"{" .spaceBefore ⊹ one .newline ⊹ outAll p cs ⊹ operator b!"}" .none
             else outAt p (c :: cs)) ⊹
          one .newline
      | .DECLARATION =>
        one .indent ⊹ rawText d.str ⊹ operator b!":" .spaceAfter ⊹
          outAfter p .ARG (.op b!"," .spaceAfter) kids ⊹
          (if b!"important" ∈ d.flags then operator b!"!" .spaceBefore ⊹ rawText b!"important" else .ok [])
      | .FUNCTION =>
        rawText d.str ⊹ operator b!"(" .none ⊹
          (match kids with
           | [] => .ok []
           | c :: cs => if c.ty = .ARG then output p c ⊹ outCommas p cs else output p c ⊹ outAll p cs) ⊹
          operator b!")" .none
      | .LIST => outAfter p .DECLARATION (.op b!";" .spaceAfterOrNewline) kids
      | .OPEN_CURLYBRACKET =>
        operator b!"{" .spacesOrNewlines ⊹
          outAfter p .DECLARATION (.op b!";" .spaceAfterOrNewline) kids ⊹ closeCalls
      | .OPEN_PARENTHESIS =>
        rawText [32] ⊹ operator b!"(" .none ⊹ outParen p true kids ⊹ operator b!")" .spaceAfter
      | .OPEN_SQUAREBRACKET => operator b!"[" .none ⊹ outAll p kids ⊹ operator b!"]" .none
      | .COMPONENT_VALUE => outCV p true kids
      | .FRAME =>
        framePosition p d.dec ⊹ operator b!"{" .spacesOrNewlines ⊹
          outAfter p .DECLARATION (.op b!";" .spaceAfterOrNewline) kids ⊹ closeCalls
      | _ => .error .throws

/-- One child after the other. -/
def outAll (p : Nat) : List Tree → Out
  | [] => .ok []
  | c :: cs => output p c ⊹ outAll p cs

/-- assembler.cpp:428-439, 524-534, 545-555 and 666-676: a separator after the children of a type, except the
last child. -/
def outAfter (p : Nat) (ty : NT) (sep : Call) : List Tree → Out
  | [] => .ok []
  | c :: cs => output p c ⊹ (if c.ty = ty ∧ cs ≠ [] then one sep else .ok []) ⊹ outAfter p ty sep cs

/-- assembler.cpp:470-484: the arguments after the first one. -/
def outCommas (p : Nat) : List Tree → Out
  | [] => .ok []
  | c :: cs => operator b!"," .spaceAfter ⊹ output p c ⊹ outCommas p cs

/-- assembler.cpp:790-806 in `output_parenthesis`; `first` is `idx == 0`. -/
def outParen (p : Nat) (first : Bool) : List Tree → Out
  | [] => .ok []
  | .mk d kids :: cs =>
    (if d.ty = .OPEN_PARENTHESIS then
      (if first then .ok [] else rawText [32]) ⊹
        operator b!"(" .none ⊹ outParen p true kids ⊹ operator b!")" .none
    else output p (.mk d kids)) ⊹ outParen p false cs

/-- assembler.cpp:726-775 `output_component_value`; `first` is also `!has_arg`. -/
def outCV (p : Nat) (first : Bool) : List Tree → Out
  | [] => .ok []
  | .mk d kids :: cs =>
    if d.ty = .OPEN_CURLYBRACKET then
      (if first then .ok [] else output p (.mk d kids)) ⊹ outCV p first cs
    else if d.ty ≠ .ARG then .error .throws
    else if endsWithPlaceholder kids then outCV p first cs
    else (if first then .ok [] else operator b!"," .spaceAfter) ⊹ output p (.mk d kids) ⊹ outCV p false cs

/-- assembler.cpp:836-882 in `output_at_keyword`, with the `;` of 885-888 when the last child is not
a block. -/
def outAt (p : Nat) : List Tree → Out
  | [] => .ok []
  | .mk d kids :: cs =>
    (if d.ty = .OPEN_CURLYBRACKET then
      (if cs.isEmpty then one .newline else .ok []) ⊹
        operator b!"{" .none ⊹ one .newline ⊹ outAll p kids ⊹ operator b!"}" .none ⊹ one .newline
    else if d.ty = .ARG then
      output p (.mk d kids) ⊹ (if cs.head?.map Tree.ty = some .ARG then operator b!"," .spaceAfter else .ok [])
    else output p (.mk d kids)) ⊹
      (if cs.isEmpty ∧ d.ty ≠ .OPEN_CURLYBRACKET then rawText [59] else .ok []) ⊹ outAt p cs
end

/-- What `assembler::output(n, mode)` writes. -/
def Mode.write (m : Mode) (p : Nat) (t : Tree) : Except Stop Str :=
  match output p t with
  | .error e => .error e
  | .ok calls => .ok (m.text calls)

end Csspp.Asm
