import Verif.Model.Lexer
import Verif.Model.Color
import Verif.Model.Tree

/-!
Model of csspp/lexer.cpp:1036-1049 and 1183-1203: the double kept in the node of a number. The rest of the model keeps
the parts of the number (`Lex.Num`); this is the double they stand for.
-/

namespace Csspp.Lex
open Csspp.Flt

/-- lexer.cpp:1039-1049, the loop over the digits after the period; `part` is decimal_part, `frac` is decimal_frac:
`decimal_frac *= 10.0; decimal_part += (c - '0') / decimal_frac;`. -/
def fracValue : List Nat → Fp → Fp → Fp
  | [], part, _ => part
  | c :: cs, part, frac =>
    let frac := mul f64 frac (ofInt f64 10)
    fracValue cs (add f64 part (div f64 (ofInt f64 ((c : Int) - 48)) frac)) frac

/-- lexer.cpp:1191-1192: `sign * (integer + decimal_part) * pow(10.0, exponent)`. `pow10 e` is `pow(10.0, e)`: the C
library is not modelled. -/
def Num.value (pow10 : Int → Fp) (n : Num) : Fp :=
  mul f64
    (mul f64 (ofInt f64 (if n.neg then -1 else 1))
      (add f64 (ofInt f64 n.int) (fracValue n.frac (ofInt f64 0) (ofInt f64 1))))
    (pow10 n.exp)

/-- lexer.cpp:1183-1210: the fields of the node of a number which the assembler writes. A percentage is divided by 100
(lines 1193-1197). The position of a FRAME (compiler.cpp:1561-1589) is kept in the model as the number which was
written in front of the `%` sign (0 for `from` and 100 for `to`), so that it gets divided here. -/
def Tok.data (pow10 : Int → Fp) (t : Tok) : Tree.Data :=
  { ty := t.ty, pos := t.pos, bool := t.bool, int := t.int, str := t.str, lower := t.lower,
    dec :=
      match t.made with
      | some v => v.dec
      | none =>
        match t.num with
        | none => .fin false 0
        | some n => if t.ty = .PERCENT ∨ t.ty = .FRAME then div f64 (n.value pow10) (ofInt f64 100) else n.value pow10
    height := match t.made with
      | some v => v.height
      | none => .fin false 0
    color := match t.made with
      | some v => ⟨v.red, v.green, v.blue, v.alpha⟩
      | none => ⟨.fin false 0, .fin false 0, .fin false 0, .fin false 0⟩ }

end Csspp.Lex
