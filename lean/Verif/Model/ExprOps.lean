import Verif.Model.NodeType
import Verif.Model.Color
import Verif.Model.Dimension
import Verif.Model.UnicodeRange

/-!
Model of the operators of the expressions: what add(), multiply(), apply_power(), match(),
is_comparable(), is_equal(), is_less_than(), boolean() and the loops around them compute
(csspp/expr_additive.cpp, expr_multiplicative.cpp, expr_power.cpp, expr_equality.cpp,
expr_relational.cpp, expr_logical_and.cpp, expr_logical_or.cpp and node.cpp:282-336).

* `Val α` is a node as the operators see it; `α` is what stands for the children of an ARRAY or
  of a MAP. The position of the nodes is left out.
* An error message is reduced to its kind (`Err`).
* A `double` is a `Flt.Fp`. `pow()` is a parameter: IEEE 754 says nothing about it.
-/

namespace Csspp.Expr
open Csspp.Flt

/-- The messages (all of them are ERROR_ERROR). -/
inductive Err where
  /-- expr_additive.cpp:254-266 -/
  | addTypes
  /-- expr_additive.cpp:277-286 -/
  | addDims
  /-- expr_additive.cpp:189-197 -/
  | offsetUnit
  /-- expr_multiplicative.cpp:316-322 -/
  | strOp
  /-- expr_multiplicative.cpp:330-335 -/
  | strCount
  /-- expr_multiplicative.cpp:394-396, 404-406 and 430-432 -/
  | rangeOp
  /-- expr_multiplicative.cpp:438-440 and 455-457 -/
  | numOverColor
  /-- expr_multiplicative.cpp:507-512 -/
  | factorUnit
  /-- expr_multiplicative.cpp:545-547 and 565-567 -/
  | colorZero
  /-- expr_multiplicative.cpp:588-594 -/
  | mulTypes
  /-- expr_multiplicative.cpp:668-675 -/
  | modDims
  /-- expr_multiplicative.cpp:706-708 and 742-744 -/
  | divZero
  /-- expr_multiplicative.cpp:717-719 and 757-759 -/
  | modZero
  /-- expr_multiplicative.cpp:143, 174 and 190 -/
  | dim (e : Dim.DimErr)
  /-- expr_power.cpp:48-52 -/
  | powUnit
  /-- expr_power.cpp:96-102 -/
  | powTypes
  /-- expr_power.cpp:128-130 -/
  | powFraction
  /-- expr_power.cpp:137-139 -/
  | powZero
  /-- expr_power.cpp:146-148 -/
  | powLarge
  /-- expr_equality.cpp:56-62 -/
  | matchTypes
  /-- expr_equality.cpp:155-161 -/
  | compare
  /-- expr_relational.cpp:74-80 -/
  | less
  /-- expr_logical_and.cpp:59-61 -/
  | boolean
  /-- expr_unary.cpp:206-210 -/
  | negType
  /-- expr_unary.cpp:241-245 -/
  | badColor
  /-- expr_unary.cpp:310-314 -/
  | badUnary
  /-- expr_list.cpp:215-221 and 249-255 -/
  | indexRange
  /-- expr_list.cpp:262-266 -/
  | indexType
  /-- expr_list.cpp:279-283 -/
  | indexKind
  /-- expr_list.cpp:294-296 -/
  | fieldName
  /-- expr_list.cpp:334-338 -/
  | fieldUnset
  /-- expr_list.cpp:344-348 -/
  | fieldType
  /-- expr_conditional.cpp:78-80 -/
  | noColon
  deriving DecidableEq, Repr

/-- A node, as the operators see it. -/
inductive Val (α : Type) where
  /-- STRING -/
  | str (s : Str)
  /-- INTEGER and its dimension -/
  | int (i : Int) (dim : Str)
  /-- DECIMAL_NUMBER and its dimension -/
  | dec (d : Fp) (dim : Str)
  /-- PERCENT (50% is 0.5) -/
  | pct (d : Fp)
  /-- COLOR -/
  | color (c : Color.Color)
  /-- BOOLEAN -/
  | bool (b : Bool)
  /-- NULL_TOKEN -/
  | null
  /-- UNICODE_RANGE -/
  | range (i : Int)
  /-- IDENTIFIER -/
  | ident (s : Str)
  /-- ARRAY -/
  | array (items : List α)
  /-- MAP: the children are name, value, name, value... and a name is always an IDENTIFIER -/
  | map (items : List (Str × α))
  /-- FONT_METRICS -/
  | font (size height : Fp) (dim1 dim2 : Str)
  /-- EXCLAMATION and URL, or anything a function returns -/
  | other (ty : NT) (s : Str)
  deriving Repr

/-- What a function gives: a node or a null pointer, and the errors reported; or undefined
behaviour; or an exception. -/
inductive Out (β : Type) where
  | ret (v : Option β) (errs : List Err)
  | undef
  | throws
  deriving Repr

variable {α : Type}

/-- The C++ computes in `integer_t`: overflow is undefined. -/
def ofI64 (x : Int) (k : Int → Out (Val α)) : Out (Val α) := if IsI64 x then k x else .undef

/-- `static_cast<decimal_number_t>(integer)`. -/
def toDouble (i : Int) : Fp := ofInt f64 i

/-! ### expr_additive.cpp -/

/-- A compound assignment of a `color_component_t` with a `double`: computed as doubles and
converted back to float. -/
def compD (op : Fp → Fp → Fp) (c d : Fp) : Fp := convert f64 f32 (op (convert f32 f64 c) d)

/-- The four components. -/
def mapColor (f : Fp → Fp) (c : Color.Color) : Color.Color := ⟨f c.red, f c.green, f c.blue, f c.alpha⟩
/-- The four components of two colors. -/
def zipColor (f : Fp → Fp → Fp) (l r : Color.Color) : Color.Color :=
  ⟨f l.red r.red, f l.green r.green, f l.blue r.blue, f l.alpha r.alpha⟩

/-- expr_additive.cpp:139-198, `swapped` when the number is on the left. -/
def addOffset (c : Color.Color) (offset : Fp) (dim : Str) (subtract swapped : Bool) : Out (Val α) :=
  if dim = [] then
    .ret (some (.color (mapColor (fun x =>
      if subtract then
        if swapped then compD (fun x d => sub f64 d x) x offset else compD (sub f64) x offset
      else compD (add f64) x offset) c))) []
  else .ret none [.offsetUnit]

/-- expr_additive.cpp:269-322: two numbers of type DECIMAL_NUMBER with their dimensions. -/
def addDec (a : Fp) (ldim : Str) (b : Fp) (rdim : Str) (subtract : Bool) : Out (Val α) :=
  if ldim ≠ rdim then .ret none [.addDims]
  else .ret (some (.dec (if subtract then sub f64 a b else add f64 a b) ldim)) []

/-- expr_additive.cpp:68-323 `add()`. -/
def addOp (subtract : Bool) (lhs rhs : Val α) : Out (Val α) :=
  match lhs, rhs with
  | .str a, .str b => if subtract then .ret none [.addTypes] else .ret (some (.str (a ++ b))) []
  | .int a ldim, .int b rdim =>
    if ldim ≠ rdim then .ret none [.addDims]
    else ofI64 (if subtract then a - b else a + b) fun v => .ret (some (.int v ldim)) []
  | .dec a ldim, .dec b rdim => addDec a ldim b rdim subtract
  | .dec a ldim, .int b rdim => addDec a ldim (toDouble b) rdim subtract
  | .int a ldim, .dec b rdim => addDec (toDouble a) ldim b rdim subtract
  | .pct a, .pct b => .ret (some (.pct (if subtract then sub f64 a b else add f64 a b))) []
  | .int a ldim, .color c => addOffset c (toDouble a) ldim subtract true
  | .dec a ldim, .color c => addOffset c a ldim subtract true
  | .color c, .int b rdim => addOffset c (toDouble b) rdim subtract false
  | .color c, .dec b rdim => addOffset c b rdim subtract false
  | .color l, .color r =>
    .ret (some (.color (zipColor (if subtract then sub f32 else add f32) l r))) []
  | _, _ => .ret none [.addTypes]

/-! ### expr_multiplicative.cpp -/

/-- The operator of multiply(). -/
inductive MulOp where
  | mul | div | mod
  deriving DecidableEq, Repr

/-- `fmod()`: exact, with the sign of the dividend. -/
def fmod : Fp → Fp → Fp
  | .fin a x, .fin _ y => if y = 0 then .nan else .fin a (x % y)
  | .nan, _ | _, .nan => .nan
  | .inf _, _ => .nan
  | .fin a x, .inf _ => .fin a x

/-- `d == 0.0`. -/
def isZero (d : Fp) : Bool := eq d (.fin false 0)

/-- expr_multiplicative.cpp:337-342: `count` copies. -/
def repeatStr (s : Str) : Nat → Str
  | 0 => []
  | n + 1 => s ++ repeatStr s n

/-- expr_multiplicative.cpp:313-344. -/
def mulStr (op : MulOp) (s : Str) (count : Int) : Out (Val α) :=
  if op ≠ .mul then .ret none [.strOp]
  else if count < 0 then .ret none [.strCount]
  else .ret (some (.str (repeatStr s count.toNat))) []

/-- expr_multiplicative.cpp:468-513; `bf` is the factor. The compound assignments and fmod()
compute with doubles. -/
def mulColor (op : MulOp) (c : Color.Color) (bf : Fp) (dim : Str) : Out (Val α) :=
  if dim = [] then
    .ret (some (.color (mapColor (fun x =>
      match op with
      | .mul => compD (mul f64) x bf
      | .div => compD (div f64) x bf
      | .mod => compD fmod x bf) c))) []
  else .ret none [.factorUnit]

/-- expr_multiplicative.cpp:515-584. -/
def mulColors (op : MulOp) (l r : Color.Color) : Out (Val α) :=
  if op ≠ .mul ∧ (isZero r.red || isZero r.green || isZero r.blue || isZero r.alpha) then
    .ret none [.colorZero]
  else
    .ret (some (.color (zipColor (match op with | .mul => mul f32 | .div => div f32 | .mod => fmod) l r))) []

/-- expr_multiplicative.cpp:400-433. -/
def mulRange (op : MulOp) (l r : Int) : Out (Val α) :=
  if op ≠ .mul then .ret none [.rangeOp]
  else
    match URange.mulRanges (toU64 l) (toU64 r) with
    | .error _ => .throws
    | .ok none => .ret (some .null) []
    | .ok (some m) => .ret (some (.range (wrap64 m))) []

/-- expr_multiplicative.cpp:658-688: the dimension of the result (`none` when it is refused) and
the errors. -/
def mulDim (op : MulOp) (ldim rdim : Str) : Option Str × List Err :=
  match op with
  | .mod => if ldim ≠ rdim then (none, [.modDims]) else (some ldim, [])
  | .mul =>
    match Dim.combine ldim true rdim with
    | (d, es) => (some d, es.map .dim)
  | .div =>
    match Dim.combine ldim false rdim with
    | (d, es) => (some d, es.map .dim)

/-- expr_multiplicative.cpp:692-727: the integers. -/
def mulInt (op : MulOp) (a : Int) (ldim : Str) (b : Int) (rdim : Str) : Out (Val α) :=
  match mulDim op ldim rdim with
  | (none, es) => .ret none es
  | (some dim, es) =>
    match op with
    | .mul => ofI64 (a * b) fun v => .ret (some (.int v dim)) es
    | .div =>
      if b = 0 then .ret none (es ++ [.divZero])
      else ofI64 (a.tdiv b) fun v => .ret (some (.int v dim)) es
    | .mod =>
      if b = 0 then .ret none (es ++ [.modZero])
      -- INT64_MIN % -1 overflows too: the quotient has to be representable
      else ofI64 (a.tdiv b) fun _ => .ret (some (.int (a.tmod b) dim)) es

/-- expr_multiplicative.cpp:729-769: the value of a product of doubles, or the error. -/
def mulFp (op : MulOp) (a b : Fp) : Except Err Fp :=
  match op with
  | .mul => .ok (mul f64 a b)
  | .div => if isZero b then .error .divZero else .ok (div f64 a b)
  | .mod => if isZero b then .error .modZero else .ok (fmod a b)

/-- expr_multiplicative.cpp:658-769 for the results of type DECIMAL_NUMBER. -/
def mulDec (op : MulOp) (a : Fp) (ldim : Str) (b : Fp) (rdim : Str) : Out (Val α) :=
  match mulDim op ldim rdim with
  | (none, es) => .ret none es
  | (some dim, es) =>
    match mulFp op a b with
    | .error e => .ret none (es ++ [e])
    | .ok v => .ret (some (.dec v dim)) es

/-- expr_multiplicative.cpp:690-769 for the results of type PERCENT. -/
def mulPct (op : MulOp) (a b : Fp) : Out (Val α) :=
  match mulFp op a b with
  | .error e => .ret none [e]
  | .ok v => .ret (some (.pct v)) []

/-- expr_multiplicative.cpp:598-629: the FONT_METRICS instead of a division. `ldim` and `rdim` are
"%" for a percentage. -/
def orFont (op : MulOp) (font : Bool) (a : Fp) (ldim : Str) (b : Fp) (rdim : Str)
    (els : Out (Val α)) : Out (Val α) :=
  if op = .div ∧ font = true then .ret (some (.font a b ldim rdim)) [] else els

/-- expr_multiplicative.cpp:287-779 `multiply()`; `font` is f_divide_font_metrics. -/
def mulOp (font : Bool) (op : MulOp) (lhs rhs : Val α) : Out (Val α) :=
  match lhs, rhs with
  | .int n _, .str s => mulStr op s n
  | .str s, .int n _ => mulStr op s n
  | .int a ldim, .int b rdim =>
    orFont op font (toDouble a) ldim (toDouble b) rdim (mulInt op a ldim b rdim)
  | .int a ldim, .dec b rdim => orFont op font (toDouble a) ldim b rdim (mulDec op (toDouble a) ldim b rdim)
  | .dec a ldim, .int b rdim => orFont op font a ldim (toDouble b) rdim (mulDec op a ldim (toDouble b) rdim)
  | .dec a ldim, .pct b => orFont op font a ldim b b!"%" (mulDec op a ldim b [])
  | .pct a, .dec b rdim => orFont op font a b!"%" b rdim (mulDec op a [] b rdim)
  | .dec a ldim, .dec b rdim => orFont op font a ldim b rdim (mulDec op a ldim b rdim)
  | .int a ldim, .pct b => orFont op font (toDouble a) ldim b b!"%" (mulDec op (toDouble a) ldim b [])
  | .pct a, .int b rdim => orFont op font a b!"%" (toDouble b) rdim (mulDec op a [] (toDouble b) rdim)
  | .pct a, .pct b => orFont op font a b!"%" b b!"%" (mulPct op a b)
  | .null, .null => if op = .mul then .ret (some .null) [] else .ret none [.rangeOp]
  | .null, .range _ => if op = .mul then .ret (some .null) [] else .ret none [.rangeOp]
  | .range _, .null => if op = .mul then .ret (some .null) [] else .ret none [.rangeOp]
  | .range a, .range b => mulRange op a b
  | .int a ldim, .color c =>
    if op ≠ .mul then .ret none [.numOverColor] else mulColor op c (toDouble a) ldim
  | .dec a ldim, .color c => if op ≠ .mul then .ret none [.numOverColor] else mulColor op c a ldim
  | .pct a, .color c => if op ≠ .mul then .ret none [.numOverColor] else mulColor op c a []
  | .color c, .int b rdim => mulColor op c (toDouble b) rdim
  | .color c, .dec b rdim => mulColor op c b rdim
  | .color c, .pct b => mulColor op c b []
  | .color a, .color b => mulColors op a b
  | _, _ => .ret none [.mulTypes]

/-- The node multiply() returns on success: a new one (`none`), the left operand (`some false`) or
the right one (`some true`). A string is modified in place (expr_multiplicative.cpp:307-344), and
so is nothing else: `null` is returned as is (lines 388-408). -/
def mulNode (lhs rhs : Val α) : Option Bool :=
  match lhs, rhs with
  | .int _ _, .str _ => some true
  | .str _, .int _ _ => some false
  | .null, .null => some false
  | .null, .range _ => some false
  | .range _, .null => some true
  | _, _ => none

/-! ### expr_power.cpp -/

/-- `modf()`: the integer part if there is no fraction. `none` for an infinity or NaN: the
fractional part of an infinity is zero and its conversion to an integer undefined, the one of NaN is
NaN. -/
inductive Modf where
  | fraction | whole (i : Int) | infinite

/-- expr_power.cpp:118-121. -/
def modf : Fp → Modf
  | .nan => .fraction
  | .inf _ => .infinite
  | .fin a x => if x % 2 ^ 1074 ≠ 0 then .fraction else .whole (signed a (x / 2 ^ 1074))

/-- expr_power.cpp:163-184: the vectors of `n` copies. -/
def repeatUnits (units : List Str) : Nat → List Str
  | 0 => []
  | n + 1 => units ++ repeatUnits units n

/-- expr_power.cpp:135-187: the dimension of the result for a given power. -/
def powDim (dim : Str) (p : Int) : Except Err Str × List Err :=
  if p = 0 then (.error .powZero, [])
  else if 100 < p.natAbs then (.error .powLarge, [])
  else
    match (if 0 ≤ p then Dim.toVectors dim [] []
      else
        match Dim.toVectors dim [] [] with
        | (a, b, e) => (b, a, e)) with
    | (num, den, e) =>
      (.ok (Dim.rebuild (repeatUnits num p.natAbs) (repeatUnits den p.natAbs)), (e.toList).map .dim)

/-- expr_power.cpp:106-187: `mk` is the result without its dimension. -/
def withPowDim (dim : Str) (p : Modf) (mk : Str → Val α) : Out (Val α) :=
  if dim = [] then .ret (some (mk [])) []
  else
    match p with
    | .fraction => .ret none [.powFraction]
    | .infinite => .undef
    | .whole i =>
      -- static_cast<integer_t>(integral_part)
      if ¬ IsI64 i then .undef
      -- labs(INT64_MIN)
      else if i = -9223372036854775808 then .undef
      else
        match powDim dim i with
        | (.error e, es) => .ret none (es ++ [e])
        | (.ok d, es) => .ret (some (mk d)) es

/-- expr_power.cpp:38-190 `apply_power()`. -/
def powOp (pow : Fp → Fp → Fp) (lhs rhs : Val α) : Out (Val α) :=
  match lhs, rhs with
  | .int a ldim, .int b rdim =>
    if rdim ≠ [] then .ret none [.powUnit]
    else
      match toInt f64 (-9223372036854775808) 9223372036854775807 (pow (toDouble a) (toDouble b)) with
      | none => .undef
      | some v => withPowDim ldim (.whole b) (.int v)
  | .int a ldim, .dec b rdim =>
    if rdim ≠ [] then .ret none [.powUnit]
    else withPowDim ldim (modf b) (.dec (pow (toDouble a) b))
  | .dec a ldim, .int b rdim =>
    if rdim ≠ [] then .ret none [.powUnit]
    else withPowDim ldim (.whole b) (.dec (pow a (toDouble b)))
  | .dec a ldim, .dec b rdim =>
    if rdim ≠ [] then .ret none [.powUnit]
    else withPowDim ldim (modf b) (.dec (pow a b))
  | .pct a, .int b rdim =>
    if rdim ≠ [] then .ret none [.powUnit] else .ret (some (.pct (pow a (toDouble b)))) []
  | .pct a, .dec b rdim =>
    if rdim ≠ [] then .ret none [.powUnit] else .ret (some (.pct (pow a b))) []
  | _, .int _ rdim => if rdim ≠ [] then .ret none [.powUnit] else .ret none [.powTypes]
  | _, .dec _ rdim => if rdim ≠ [] then .ret none [.powUnit] else .ret none [.powTypes]
  | _, _ => .ret none [.powTypes]

/-! ### expr_equality.cpp and expr_relational.cpp -/

/-- expr_equality.cpp:134-164 `is_comparable()`; false comes with the error `compare`. -/
def comparable (lhs rhs : Val α) : Bool :=
  match lhs, rhs with
  | .bool _, .bool _ | .color _, .color _ | .pct _, .pct _ | .str _, .str _ => true
  | .dec _ l, .dec _ r | .dec _ l, .int _ r | .int _ l, .dec _ r | .int _ l, .int _ r => l == r
  | _, _ => false

/-- The result of a comparison: a boolean and the errors; or undefined behaviour (a color with NaN);
or an exception. -/
inductive Cmp where
  | ret (b : Bool) (errs : List Err)
  | undef
  | throws
  deriving DecidableEq, Repr

/-- expr_equality.cpp:205-211: the comparison of two colors, on the results of get_color(). -/
def colorEq : Option Nat → Option Nat → Cmp
  | some x, some y => .ret (x == y) []
  | _, _ => .undef

/-- expr_equality.cpp:166-217 `is_equal()`. -/
def isEqual (lhs rhs : Val α) : Cmp :=
  match lhs, rhs with
  | .bool a, .bool b => .ret (a == b) []
  | .int a _, .int b _ => .ret (a == b) []
  | .int a _, .dec b _ => .ret (eq (toDouble a) b) []
  | .dec a _, .int b _ => .ret (eq a (toDouble b)) []
  | .dec a _, .dec b _ => .ret (eq a b) []
  | .pct a, .pct b => .ret (eq a b) []
  | .str a, .str b => .ret (a == b) []
  | .color a, .color b =>
    colorEq (Color.getColor a) (Color.getColor b)
  | _, _ => .throws

/-- expr_relational.cpp:38-83 `is_less_than()`. -/
def isLess (lhs rhs : Val α) : Cmp :=
  match lhs, rhs with
  | .bool a, .bool b => .ret (!a && b) []
  | .int a _, .int b _ => .ret (decide (a < b)) []
  | .int a _, .dec b _ => .ret (lt (toDouble a) b) []
  | .dec a _, .int b _ => .ret (lt a (toDouble b)) []
  | .dec a _, .dec b _ => .ret (lt a b) []
  | .pct a, .pct b => .ret (lt a b) []
  | .str a, .str b => .ret (Color.strLt a b) []
  | _, _ => .ret false [.less]

/-- The operators of equality(). -/
inductive MatchOp where
  | include | prefix | suffix | substring | dash
  deriving DecidableEq, Repr

/-- `l.find(s) != npos`. -/
def isIn (s : Str) : Str → Bool
  | [] => s.isEmpty
  | c :: l => s.isPrefixOf (c :: l) || isIn s l

/-- expr_equality.cpp:65-99 of `match()`: is `s` in `l`. -/
def matchStr (op : MatchOp) (s l : Str) : Bool :=
  match op with
  | .include => isIn (32 :: (s ++ [32])) (32 :: (l ++ [32]))
  | .prefix => if l.length < s.length then false else s == l.take s.length
  | .suffix => if l.length < s.length then false else s == l.drop (l.length - s.length)
  | .substring => isIn s l
  | .dash => isIn (45 :: (s ++ [45])) (45 :: (l ++ [45]))

/-- `get_string()` as match() calls it on operands of the same comparable types: a type without a
string throws. -/
def getStr : Val α → Option Str
  | .str s => some s
  | .int _ d => some d
  | .dec _ d => some d
  | .ident s => some s
  | .other _ s => some s
  | _ => none

/-- expr_equality.cpp:41-100 `match()`. -/
def matchVal (op : MatchOp) (lhs rhs : Val α) : Cmp :=
  match lhs, rhs with
  | .str s, .str l => .ret (matchStr op s l) []
  | l, r =>
    match getStr l, getStr r with
    | some a, some b => .ret (a == b) [.matchTypes]
    | _, _ => .throws

/-- The operators of equality() and relational(). -/
inductive CmpOp where
  | eq | ne | lt | le | gt | ge | mat (m : MatchOp)
  deriving DecidableEq, Repr

/-- `!b`. -/
def Cmp.not : Cmp → Cmp
  | .ret b es => .ret (!b) es
  | c => c

/-- `a || b`: b is not evaluated when a is true. -/
def Cmp.or : Cmp → Cmp → Cmp
  | .ret true es, _ => .ret true es
  | .ret false es, .ret b fs => .ret b (es ++ fs)
  | .ret false _, c => c
  | c, _ => c

/-- `a && b`: b is not evaluated when a is false. -/
def Cmp.and : Cmp → Cmp → Cmp
  | .ret false es, _ => .ret false es
  | .ret true es, .ret b fs => .ret b (es ++ fs)
  | .ret true _, c => c
  | c, _ => c

/-- expr_equality.cpp:252-273 and expr_relational.cpp:131-153: the boolean of an operator. -/
def compareVal (op : CmpOp) (lhs rhs : Val α) : Cmp :=
  match op with
  | .eq => isEqual lhs rhs
  | .ne => (isEqual lhs rhs).not
  | .lt => isLess lhs rhs
  | .le => (isLess lhs rhs).or (isEqual lhs rhs)
  | .gt => (isLess lhs rhs).not.and (isEqual lhs rhs).not
  | .ge => (isLess lhs rhs).not
  | .mat m => matchVal m lhs rhs

/-- expr_equality.cpp:248-278 and expr_relational.cpp:125-157: when the values are not comparable
the result stays what it was, the left hand side. -/
def cmpOp (op : CmpOp) (lhs rhs : Val α) : Out (Val α) :=
  if comparable lhs rhs then
    match compareVal op lhs rhs with
    | .ret b es => .ret (some (.bool b)) es
    | .undef => .undef
    | .throws => .throws
  else .ret (some lhs) [.compare]

/-! ### node.cpp:282-336, expr_logical_and.cpp and expr_logical_or.cpp -/

/-- node.cpp:282-336 `to_boolean()`. `none` is BOOLEAN_INVALID. -/
def toBoolean : Val α → Option (Option Bool)
  | .bool b => some (some b)
  | .ident s =>
    if s = b!"true" then some (some true)
    else if s = b!"false" ∨ s = b!"null" then some (some false)
    else some none
  | .int i _ => some (some (i != 0))
  | .dec d _ => some (some (!isZero d))
  | .pct d => some (some (!isZero d))
  | .str s => some (some (!s.isEmpty))
  | .array l => some (some (!l.isEmpty))
  | .map l => some (some (!l.isEmpty))
  | .color c => (Color.getColor c).map (fun rgba => some (rgba % 16777216 != 0))
  | .null => some (some false)
  | _ => some none

/-- expr_logical_and.cpp:54-64 `boolean()`. -/
def boolVal (v : Val α) : Cmp :=
  match toBoolean v with
  | none => .undef
  | some none => .ret false [.boolean]
  | some (some b) => .ret b []

/-- expr_logical_and.cpp:91-95 and expr_logical_or.cpp:63-67: both sides are always evaluated. -/
def logicOp (isOr : Bool) (lhs rhs : Val α) : Out (Val α) :=
  match boolVal lhs, boolVal rhs with
  | .ret l es, .ret r fs => .ret (some (.bool (if isOr then l || r else l && r))) (es ++ fs)
  | _, _ => .undef

/-- expr_unary.cpp:184-212: unary minus. -/
def negOp : Val α → Out (Val α)
  | .int i d => ofI64 (-i) fun v => .ret (some (.int v d)) []
  | .dec d dim => .ret (some (.dec (neg d) dim)) []
  | .pct d => .ret (some (.pct (neg d))) []
  | _ => .ret none [.negType]

end Csspp.Expr
