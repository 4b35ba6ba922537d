import Verif.Model.ExprOps
import Verif.Model.NumValue

/-!
Model of csspp/internal_functions.cpp, the internal functions, and of the HSL functions of csspp/color.cpp:354-465.

* The arguments are what compile_args() left in the ARG nodes: each argument is a list of nodes (`Val`).
* A function that modifies its argument in place and returns it gives the modified value.
* The functions of the C library that IEEE 754 does not define, rand(), node::to_string() and the variables are
  parameters (`Env`). floor(), ceil(), round(), fabs() and fmod() are exact, so they are defined here.
* A message is reduced to its kind; all of them are ERROR_ERROR.
-/

namespace Csspp.Func
open Csspp.Flt Csspp.Expr

/-- The messages. -/
inductive Msg where
  /-- lines 2186-2209: wrong number of parameters -/
  | count (name : Str)
  /-- the message at the end of each function: "name() expects ..." -/
  | expects (name : Str)
  /-- lines 68-70 -/
  | angle
  /-- lines 498-500, 968-970 and 1254-1256 -/
  | numText (name : Str)
  /-- lines 1019-1021 -/
  | logUnit
  /-- lines 1027-1029 -/
  | logPositive
  /-- lines 1509-1511 -/
  | sqrtNegative
  /-- lines 1584-1586 -/
  | sqrtUnit
  /-- the messages of dimensions_to_vectors() -/
  | dim (e : Dim.DimErr)
  /-- lines 1089-1091 and 1151-1153 -/
  | sameUnit (name : Str)
  /-- expr_logical_and.cpp:59-61 -/
  | boolean
  /-- a message of the lexer on the text of a string -/
  | lexer (r : Lex.Rpt)
  deriving DecidableEq, Repr

variable {α : Type}

/-- What a function returns: a null pointer, a node, a LIST of nodes, or what the variable handler gives. -/
inductive Ret (α : Type) where
  | null
  | node (v : Val α)
  | list (l : List (Val α))
  | user
  deriving Repr

/-- The end of a call: a result and messages; undefined behaviour; an exception of the lexer. -/
inductive Res (α : Type) where
  | ok (r : Ret α) (errs : List Msg)
  | undef
  | throws
  deriving Repr

/-- What is outside of internal_functions.cpp. -/
structure Env (α : Type) where
  acos : Fp → Fp
  asin : Fp → Fp
  atan : Fp → Fp
  cos : Fp → Fp
  sin : Fp → Fp
  tan : Fp → Fp
  log : Fp → Fp
  sqrt : Fp → Fp
  /-- `pow(10.0, e)`, used by the lexer -/
  pow10 : Int → Fp
  /-- rand() -/
  rand : Nat
  /-- node::to_string(0) -/
  text : Val α → Str
  /-- node::to_string(g_to_string_flag_show_quotes) of an argument -/
  inspect : List (Val α) → Str
  /-- get_variable(name, global_only): the type of the node found and of its first child -/
  lookup : Str → Bool → Option (NT × Option NT)

/-- The arguments. -/
abbrev Args (α : Type) := List (List (Val α))

/-- A value without message. -/
def val (v : Val α) : Res α := .ok (.node v) []
/-- A null pointer and a message. -/
def fail (m : Msg) : Res α := .ok .null [m]

/-! ### Getting the arguments -/

/-- internal_functions.cpp:89-103 `get_any`. -/
def getAny (args : Args α) (n : Nat) : Option (Val α) :=
  match args[n]? with
  | some [v] => some v
  | _ => none

/-- internal_functions.cpp:105-126 `get_color`. -/
def getColor (args : Args α) (n : Nat) : Option Color.Color :=
  match getAny args n with
  | some (.color c) => some c
  | _ => none

/-- internal_functions.cpp:128-155 `get_number`: the node and its number. -/
def getNumber (args : Args α) (n : Nat) : Option (Val α × Fp) :=
  match getAny args n with
  | some (.int i d) => some (.int i d, toDouble i)
  | some (.dec x d) => some (.dec x d, x)
  | _ => none

/-- internal_functions.cpp:157-190 `get_number_or_percent`. -/
def getNumberPct (args : Args α) (n : Nat) : Option (Val α × Fp) :=
  match getAny args n with
  | some (.int i d) => some (.int i d, toDouble i)
  | some (.dec x d) => some (.dec x d, x)
  | some (.pct x) => some (.pct x, x)
  | _ => none

/-- internal_functions.cpp:192-213 `get_string`. -/
def getString (args : Args α) (n : Nat) : Option Str :=
  match getAny args n with
  | some (.str s) => some s
  | _ => none

/-- internal_functions.cpp:215-237 `get_string_or_identifier`. -/
def getName (args : Args α) (n : Nat) : Option Str :=
  match getAny args n with
  | some (.str s) => some s
  | some (.ident s) => some s
  | _ => none

/-- node::get_string() of a number. -/
def unitOf : Val α → Str
  | .int _ d => d
  | .dec _ d => d
  | _ => []

/-! ### The C library -/

/-- `M_PI`: 7074237752028440 / 2^51. -/
def pi : Fp := .fin false (7074237752028440 * 2 ^ 1023)

/-- `fabs()`. -/
def fabs : Fp → Fp
  | .fin _ m => .fin false m
  | .inf _ => .inf false
  | .nan => .nan

/-- An integer of `n` units of 2^scale. -/
def whole (f : Fmt) (neg : Bool) (n : Nat) : Fp := .fin neg (n * 2 ^ f.scale)

/-- `floor()` (exact). -/
def floor (f : Fmt) : Fp → Fp
  | .fin false m => whole f false (m / 2 ^ f.scale)
  | .fin true m => whole f true ((m + (2 ^ f.scale - 1)) / 2 ^ f.scale)
  | v => v

/-- `ceil()` (exact). -/
def ceil (f : Fmt) : Fp → Fp
  | .fin false m => whole f false ((m + (2 ^ f.scale - 1)) / 2 ^ f.scale)
  | .fin true m => whole f true (m / 2 ^ f.scale)
  | v => v

/-- `round()` (exact): halfway cases away from zero. -/
def round' (f : Fmt) : Fp → Fp
  | .fin neg m => whole f neg ((2 * m + 2 ^ f.scale) / (2 * 2 ^ f.scale))
  | v => v

/-- A floating point literal. -/
def lit (i : Int) : Fp := ofInt f64 i
/-- `0.5` -/
def half : Fp := div f64 (lit 1) (lit 2)

/-- internal_functions.cpp:43-74 `dimension_to_radians`. -/
def toRadians (n : Fp) (dim : Str) : Fp × List Msg :=
  if dim = b!"rad" then (n, [])
  else if dim = b!"deg" ∨ dim = [] then (div f64 (mul f64 n pi) (lit 180), [])
  else if dim = b!"grad" then (div f64 (mul f64 n pi) (lit 200), [])
  else if dim = b!"turn" then (mul f64 (mul f64 n pi) (lit 2), [])
  else (n, [.angle])

/-! ### Numbers -/

/-- internal_functions.cpp:239-262 `abs`; labs(INT64_MIN) is undefined. -/
def fAbs (args : Args α) : Res α :=
  match getNumber args 0 with
  | some (.int i d, _) => if IsI64 (i.natAbs : Int) then val (.int i.natAbs d) else .undef
  | some (.dec x d, _) => val (.dec (fabs x) d)
  | _ => fail (.expects b!"abs")

/-- internal_functions.cpp:264-286 `acos`, 312-334 `asin` and 336-358 `atan`. -/
def fArc (name : Str) (g : Fp → Fp) (args : Args α) : Res α :=
  match getNumber args 0 with
  | some (_, n) => val (.dec (g n) b!"rad")
  | none => fail (.expects name)

/-- internal_functions.cpp:384-403 `ceil`, 516-535 `floor` and 1400-1419 `round`. -/
def fRound (name : Str) (g : Fp → Fp) (args : Args α) : Res α :=
  match getNumber args 0 with
  | some (.dec x d, _) => val (.dec (g x) d)
  | some (v, _) => val v
  | none => fail (.expects name)

/-- internal_functions.cpp:405-432 `cos`, 1470-1497 `sin` and 1679-1706 `tan`. -/
def fTrig (name : Str) (g : Fp → Fp) (args : Args α) : Res α :=
  match getNumber args 0 with
  | some (v, n) =>
    match toRadians n (unitOf v) with
    | (r, es) => .ok (.node (.dec (g r) [])) es
  | none => fail (.expects name)

/-- internal_functions.cpp:1010-1046 `log`. -/
def fLog (env : Env α) (args : Args α) : Res α :=
  match getNumber args 0 with
  | some (v, n) =>
    if unitOf v ≠ [] then fail .logUnit
    else if le n (lit 0) then fail .logPositive
    else val (.dec (env.log n) [])
  | none => fail (.expects b!"log")

/-- internal_functions.cpp:1445-1468 `sign`. -/
def fSign (args : Args α) : Res α :=
  match getNumberPct args 0 with
  | some (.int _ d, n) => val (.int (if lt n (lit 0) then -1 else if lt (lit 0) n then 1 else 0) d)
  | some (.dec _ d, n) => val (.dec (if lt n (lit 0) then lit (-1) else if lt (lit 0) n then lit 1 else lit 0) d)
  | some (.pct _, n) => val (.pct (if lt n (lit 0) then lit (-1) else if lt (lit 0) n then lit 1 else lit 0))
  | _ => fail (.expects b!"sign")

/-- internal_functions.cpp:1529-1546 and 1551-1568: each unit, from the last one, is removed with another one which is
the same. The length of the list is enough fuel. -/
def pairs : Nat → List Str → List Str → Option (List Str)
  | 0, _, acc => some acc
  | fuel + 1, l, acc =>
    match l.getLast? with
    | none => some acc
    | some d => if d ∈ l.dropLast then pairs fuel (l.dropLast.erase d) (acc ++ [d]) else none

/-- internal_functions.cpp:1516-1581: the unit of the square root, empty when there is none, and the messages. -/
def sqrtUnit (dim : Str) : Str × List Msg :=
  match Dim.toVectors dim [] [] with
  | (num, den, e) =>
    (if num.length % 2 = 0 ∧ den.length % 2 = 0 then
      match pairs num.length num [], pairs den.length den [] with
      | some n, some d => Dim.rebuild n d
      | _, _ => []
     else [], (e.toList.map Msg.dim))

/-- internal_functions.cpp:1499-1605 `sqrt`. -/
def fSqrt (env : Env α) (args : Args α) : Res α :=
  match getNumber args 0 with
  | some (v, n) =>
    if lt n (lit 0) then fail .sqrtNegative
    else if unitOf v = [] then val (.dec (env.sqrt n) [])
    else
      match sqrtUnit (unitOf v) with
      | (u, es) => if u = [] then .ok .null (es ++ [.sqrtUnit]) else .ok (.node (.dec (env.sqrt n) u)) es
  | none => fail (.expects b!"sqrt")

/-- The unit that max() and min() compare: "%" for a percentage. -/
def unitPct : Val α → Str
  | .pct _ => b!"%"
  | v => unitOf v

/-- internal_functions.cpp:1055-1106 and 1117-1168: the loop, from the argument `idx`. `first` is `idx == 0`,
`better r m` is `r > maximum` or `r < minimum`. -/
def extremum (name : Str) (better : Fp → Fp → Bool) :
    Args α → Bool → Option (Val α) → Fp → Str → Option (Val α) × List Msg
  | [], _, number, _, _ => (number, [])
  | a :: args, first, number, m, dim =>
    match getNumberPct [a] 0 with
    | some (v, r) =>
      let dim' := if first then unitPct v else dim
      let es := if first ∨ dim = unitPct v then [] else [Msg.sameUnit name]
      match (if first ∨ better r m then extremum name better args false (some v) r dim'
        else extremum name better args false number m dim') with
      | (x, fs) => (x, es ++ fs)
    | none =>
      match extremum name better args false number m dim with
      | (x, fs) => (x, Msg.expects name :: fs)

/-- internal_functions.cpp:1048-1108 `max` and 1110-1170 `min`. -/
def fExtremum (name : Str) (better : Fp → Fp → Bool) (args : Args α) : Res α :=
  match extremum name better args true none (lit 0) [] with
  | (some v, es) => .ok (.node v) es
  | (none, es) => .ok .null es

/-- RAND_MAX of the GNU C library. -/
def randMax : Int := 2147483647

/-- internal_functions.cpp:1389-1398 `random`. -/
def fRandom (env : Env α) : Res α :=
  val (.dec (div f64 (ofInt f64 env.rand) (add f64 (ofInt f64 randMax) (lit 1))) [])

/-! ### Conversions -/

/-- A number read by the lexer: its type, the integer, the double and the unit. -/
structure Lexed where
  ty : NT
  int : Int
  dec : Fp
  unit : Str

/-- internal_functions.cpp:465-472 (also 935-942 and 1222-1229): the first token of the text which is not a space,
and the messages; `none` when the lexer throws. -/
def lexText (env : Env α) (s : Str) : Option (Lexed × List Msg) :=
  match Lex.nextToken (Lex.init s) with
  | (t, ls) =>
    match (if t.ty = .WHITESPACE then Lex.nextToken ls else (t, ls)) with
    | (t, ls) =>
      match ls.exn with
      | some _ => none
      | none => some (⟨t.ty, t.int, (t.data env.pow10).dec, t.str⟩, ls.err.map .lexer)

/-- `set_integer(decimal number)`: undefined when the number is not in the range of integer_t. -/
def ofDouble (x : Fp) (k : Int → Res α) : Res α :=
  match toInt f64 (-9223372036854775808) 9223372036854775807 x with
  | some i => k i
  | none => .undef

/-- The end of the conversions of a text: a node, or the message at the end of the case. -/
def fromText (env : Env α) (s : Str) (name : Str) (g : Lexed → Option (Res α)) : Res α :=
  match lexText env s with
  | none => .throws
  | some (t, es) =>
    match g t with
    | some (.ok r fs) => .ok r (es ++ fs)
    | some r => r
    | none => .ok .null (es ++ [.numText name])

/-- internal_functions.cpp:434-514 `decimal_number`. -/
def fDecimal (env : Env α) (args : Args α) : Res α :=
  let text (s : Str) : Res α := fromText env s b!"decimal_number" fun t =>
    match t.ty with
    | .DECIMAL_NUMBER => some (val (.dec t.dec t.unit))
    | .PERCENT => some (val (.dec t.dec []))
    | .INTEGER => some (val (.dec (toDouble t.int) t.unit))
    | _ => none
  match getAny args 0 with
  | some (.dec x d) => val (.dec x d)
  | some (.pct x) => val (.dec x [])
  | some (.int i d) => val (.dec (toDouble i) d)
  | some (.ident s) => text s
  | some (.str s) => text s
  | some (.other .URL s) => text s
  | _ => fail (.expects b!"decimal_number")

/-- internal_functions.cpp:904-984 `integer` (the message of lines 968-970 names decimal_number()). -/
def fInteger (env : Env α) (args : Args α) : Res α :=
  let text (s : Str) : Res α := fromText env s b!"decimal_number" fun t =>
    match t.ty with
    | .INTEGER => some (val (.int t.int t.unit))
    | .DECIMAL_NUMBER => some (ofDouble t.dec fun i => val (.int i t.unit))
    | .PERCENT => some (ofDouble t.dec fun i => val (.int i []))
    | _ => none
  match getAny args 0 with
  | some (.int i d) => val (.int i d)
  | some (.dec x d) => ofDouble x fun i => val (.int i d)
  | some (.pct x) => ofDouble x fun i => val (.int i [])
  | some (.ident s) => text s
  | some (.str s) => text s
  | some (.other .URL s) => text s
  | _ => fail (.expects b!"integer")

/-- internal_functions.cpp:1192-1270 `percentage`. -/
def fPercentage (env : Env α) (args : Args α) : Res α :=
  let text (s : Str) : Res α := fromText env s b!"percentage" fun t =>
    match t.ty with
    | .DECIMAL_NUMBER => some (val (.pct t.dec))
    | .PERCENT => some (val (.pct t.dec))
    | .INTEGER => some (val (.pct (toDouble t.int)))
    | _ => none
  match getAny args 0 with
  | some (.dec x _) => val (.pct x)
  | some (.pct x) => val (.pct x)
  | some (.int i _) => val (.pct (toDouble i))
  | some (.ident s) => text s
  | some (.str s) => text s
  | some (.other .URL s) => text s
  | _ => fail (.expects b!"percentage")

/-- internal_functions.cpp:815-856 `identifier` and 1607-1648 `string`. -/
def fText (env : Env α) (name : Str) (mk : Str → Val α) (args : Args α) : Res α :=
  match getAny args 0 with
  | some (.ident s) => val (mk s)
  | some (.str s) => val (mk s)
  | some (.other .URL s) => val (mk s)
  | some (.color c) => val (mk (env.text (.color c)))
  | some (.dec x d) => val (mk (env.text (.dec x d)))
  | some (.int i d) => val (mk (env.text (.int i d)))
  | some (.pct x) => val (mk (env.text (.pct x)))
  | _ => fail (.expects name)

/-- internal_functions.cpp:1650-1677 `str_length`: the bytes up to the first '\0' which do not continue a character. -/
def strLength (s : Str) : Nat :=
  ((s.takeWhile (· != 0)).filter (fun c => decide (c < 128) || decide (192 ≤ c))).length

/-- internal_functions.cpp:1650-1677 `str_length`. -/
def fStrLength (args : Args α) : Res α :=
  match getString args 0 with
  | some s => val (.int (strLength s) [])
  | none => fail (.expects b!"str_length")

/-- internal_functions.cpp:1749-1794 `type_of`. -/
def typeName : Val α → Str
  | .array _ => b!"list"
  | .other .LIST _ => b!"list"
  | .bool _ => b!"bool"
  | .color _ => b!"color"
  | .dec _ _ => b!"number"
  | .pct _ => b!"number"
  | .ident _ => b!"identifier"
  | .int _ _ => b!"integer"
  | .map _ => b!"map"
  | .str _ => b!"string"
  | .range _ => b!"unicode-range"
  | _ => b!"undefined"

/-- internal_functions.cpp:1742-1803 `type_of`. -/
def fTypeOf (args : Args α) : Res α :=
  match getAny args 0 with
  | some v => val (.str (typeName v))
  | none => fail (.expects b!"type_of")

/-- internal_functions.cpp:1805-1829 `unit`. -/
def fUnit (args : Args α) : Res α :=
  match getNumberPct args 0 with
  | some (v, _) => val (.str (unitPct v))
  | none => fail (.expects b!"unit")

/-- internal_functions.cpp:1708-1740 `unique_id`; `n` is g_unique_id_counter, an int: to increment INT_MAX is
undefined. -/
def fUniqueId (args : Args α) (n : Int) : Res α × Int :=
  let make (id : Str) : Res α × Int :=
    if n < 2147483647 then
      (val (.ident ((if id = [] then b!"_csspp_unique" else id) ++ intDigits (n + 1))), n + 1)
    else (.undef, n)
  if args.length = 1 then
    match getName args 0 with
    | none => (fail (.expects b!"unique_id"), n)
    | some id => make id
  else make []

/-! ### Conditions -/

/-- internal_functions.cpp:858-889 `if`. -/
def fIf (args : Args α) : Res α :=
  match args with
  | [[c], t, e] =>
    match boolVal c with
    | .ret r es =>
      match (if r then t else e) with
      | [v] => .ok (.node v) (es.map fun _ => .boolean)
      | l => .ok (.list l) (es.map fun _ => .boolean)
    | .undef => .undef
    | .throws => .throws
  | _ => fail (.expects b!"if")

/-- internal_functions.cpp:1172-1190 `not`. -/
def fNot (args : Args α) : Res α :=
  match args with
  | [[c]] =>
    match boolVal c with
    | .ret r es => .ok (.node (.bool (!r))) (es.map fun _ => .boolean)
    | .undef => .undef
    | .throws => .throws
  | _ => fail (.expects b!"not")

/-- internal_functions.cpp:891-902 `inspect`. -/
def fInspect (env : Env α) (args : Args α) : Res α :=
  match args with
  | a :: _ => val (.str (env.inspect a))
  | [] => .undef

/-- internal_functions.cpp:630-663 `function_exists`, 689-722 `global_variable_exists` and 1831-1864
`variable_exists`: a LIST whose first child has one of the two types. -/
def fExists (env : Env α) (name : Str) (global : Bool) (t1 t2 : NT) (args : Args α) : Res α :=
  match getName args 0 with
  | some (c :: s) =>
    val (.bool (match env.lookup (c :: s) global with
      | some (.LIST, some t) => t == t1 || t == t2
      | _ => false))
  | _ => fail (.expects name)

/-! ### Colors -/

/-- color.cpp:268-274: four doubles become floats. -/
def ofDoubles (r g b a : Fp) : Color.Color :=
  ⟨convert f64 f32 r, convert f64 f32 g, convert f64 f32 b, convert f64 f32 a⟩

/-- internal_functions.cpp:288-310 `alpha`. -/
def fAlpha (args : Args α) : Res α :=
  match getColor args 0 with
  | some c => val (.dec (convert f32 f64 c.alpha) [])
  | none => fail (.expects b!"alpha")

/-- internal_functions.cpp:360-382 `blue`, 1272-1294 `red` and 665-687 `green`:
`static_cast<integer_t>(c * 255.0 + 0.5)`, computed with doubles. -/
def fComponent (name : Str) (g : Color.Color → Fp) (args : Args α) : Res α :=
  match getColor args 0 with
  | some c => ofDouble (add f64 (mul f64 (convert f32 f64 (g c)) (lit 255)) half) fun i => val (.int i [])
  | none => fail (.expects name)

/-- internal_functions.cpp:537-580 `frgb` (`scale` is the identity) and 1296-1339 `rgb` (`scale` divides by 255.0). -/
def fRgb (name : Str) (scale : Fp → Fp) (args : Args α) : Res α :=
  match getColor args 0 with
  | some c => val (.color { c with alpha := ofInt f32 1 })
  | none =>
    match getNumber args 0, getNumber args 1, getNumber args 2 with
    | some (_, r), some (_, g), some (_, b) => val (.color (ofDoubles (scale r) (scale g) (scale b) (lit 1)))
    | _, _, _ => fail (.expects name)

/-- internal_functions.cpp:582-628 `frgba` and 1341-1387 `rgba`. -/
def fRgba (name : Str) (scale : Fp → Fp) (args : Args α) : Res α :=
  match getColor args 0, getNumber args 1 with
  | some c, some (_, a) => val (.color { c with alpha := convert f64 f32 a })
  | _, _ =>
    match getNumber args 0, getNumber args 1, getNumber args 2, getNumber args 3 with
    | some (_, r), some (_, g), some (_, b), some (_, a) =>
      val (.color (ofDoubles (scale r) (scale g) (scale b) a))
    | _, _, _, _ => fail (.expects name)

/-- color.cpp:357: `(1.0 - fabs(2.0 * lightness - 1.0)) * saturation`; the arguments are floats. -/
def chroma (s l : Fp) : Fp :=
  mul f64 (sub f64 (lit 1) (fabs (sub f64 (mul f64 (lit 2) (convert f32 f64 l)) (lit 1)))) (convert f32 f64 s)

/-- color.cpp:358: `6.0 * fmod(hue, M_PI * 2.0) / (M_PI * 2.0)`. -/
def sextant (h : Fp) : Fp :=
  div f64 (mul f64 (lit 6) (fmod (convert f32 f64 h) (mul f64 pi (lit 2)))) (mul f64 pi (lit 2))

/-- color.cpp:360-404: red, green and blue. -/
def hslRgb (c x h1 : Fp) : Fp × Fp × Fp :=
  if le (lit 0) h1 && lt h1 (lit 1) then (c, x, lit 0)
  else if le (lit 1) h1 && lt h1 (lit 2) then (x, c, lit 0)
  else if le (lit 2) h1 && lt h1 (lit 3) then (lit 0, c, x)
  else if le (lit 3) h1 && lt h1 (lit 4) then (lit 0, x, c)
  else if le (lit 4) h1 && lt h1 (lit 5) then (x, lit 0, c)
  else if le (lit 5) h1 && lt h1 (lit 6) then (c, lit 0, x)
  else (lit 0, lit 0, lit 0)

/-- color.cpp:359: `chroma * (1.0 - fabs(fmod(h1, 2) - 1.0))`. -/
def second (c h1 : Fp) : Fp :=
  mul f64 c (sub f64 (lit 1) (fabs (sub f64 (fmod h1 (lit 2)) (lit 1))))

/-- color.cpp:354-413 `set_hsl`; the arguments are floats. -/
def setHsl (h s l a : Fp) : Color.Color :=
  match hslRgb (chroma s l) (second (chroma s l) (sextant h)) (sextant h) with
  | (r, g, b) =>
    let m := sub f64 (convert f32 f64 l) (mul f64 half (chroma s l))
    ⟨convert f64 f32 (add f64 r m), convert f64 f32 (add f64 g m), convert f64 f32 (add f64 b m), a⟩

/-- `std::max(a, b)`. -/
def max2 (a b : Fp) : Fp := if lt a b then b else a
/-- `std::min(a, b)`. -/
def min2 (a b : Fp) : Fp := if lt b a then b else a

/-- color.cpp:415-465 `get_hsl`: the hue (in radians), the saturation and the lightness, as floats. -/
def getHsl (c : Color.Color) : Fp × Fp × Fp :=
  let d (x : Fp) : Fp := convert f32 f64 x
  let f (x : Fp) : Fp := convert f64 f32 x
  let maximum := d (max2 c.red (max2 c.green c.blue))
  let minimum := d (min2 c.red (min2 c.green c.blue))
  let chroma := sub f64 maximum minimum
  let h1 :=
    if eq chroma (lit 0) then ofInt f32 0
    else if eq maximum (d c.red) then f (div f64 (d (sub f32 c.green c.blue)) chroma)
    else if eq maximum (d c.green) then f (add f64 (div f64 (d (sub f32 c.blue c.red)) chroma) (lit 2))
    else f (add f64 (div f64 (d (sub f32 c.red c.green)) chroma) (lit 4))
  let h2 := if lt h1 (ofInt f32 0) then f (add f64 (d h1) (lit 6)) else h1
  let hue := f (mul f64 (mul f64 (div f64 (fmod (d h2) (lit 6)) (lit 6)) pi) (lit 2))
  let lightness := f (div f64 (add f64 minimum maximum) (lit 2))
  let saturation :=
    if eq (d lightness) (lit 0) || eq (d lightness) (lit 1) then ofInt f32 0
    else f (div f64 chroma (sub f64 (lit 1) (fabs (sub f64 (mul f64 (d lightness) (lit 2)) (lit 1)))))
  (hue, saturation, lightness)

/-- internal_functions.cpp:724-754 `hsl` and 756-788 `hsla`; `alpha` is the alpha channel. -/
def fHsl (name : Str) (alpha : Option Fp) (args : Args α) : Res α :=
  match getNumber args 0, getNumberPct args 1, getNumberPct args 2, alpha with
  | some (v, h), some (_, s), some (_, l), some a =>
    match toRadians h (unitOf v) with
    | (r, es) =>
      .ok (.node (.color (setHsl (convert f64 f32 r) (convert f64 f32 s) (convert f64 f32 l) (convert f64 f32 a)))) es
  | _, _, _, _ => fail (.expects name)

/-- internal_functions.cpp:790-813 `hue`. -/
def fHue (args : Args α) : Res α :=
  match getColor args 0 with
  | some c => val (.dec (div f64 (mul f64 (convert f32 f64 (getHsl c).1) (lit 180)) pi) b!"deg")
  | none => fail (.expects b!"hue")

/-- internal_functions.cpp:986-1008 `lightness` and 1421-1443 `saturation`. -/
def fPart (name : Str) (g : Fp × Fp × Fp → Fp) (args : Args α) : Res α :=
  match getColor args 0 with
  | some c => val (.pct (convert f32 f64 (g (getHsl c))))
  | none => fail (.expects name)

/-! ### The table -/

/-- f_func of function_table_t (internal_functions.cpp:1873-1879). -/
inductive Fn where
  | abs | acos | alpha | asin | atan | blue | ceil | cos | decimalNumber | floor | frgb | frgba
  | functionExists | globalVariableExists | green | hsl | hsla | hue | identifier | if_ | integer
  | inspect | lightness | log | max | min | not | percentage | random | red | rgb | rgba | round
  | saturation | sign | sin | sqrt | string | strLength | tan | typeOf | uniqueId | unit | variableExists
  deriving DecidableEq, Repr

/-- function_table_t, internal_functions.cpp:1873-1879. -/
structure Entry where
  name : Str
  min : Nat
  max : Nat
  fn : Fn

/-- internal_functions.cpp:1881-2147 `g_functions`. -/
def table : List Entry := [
  ⟨b!"abs", 1, 1, .abs⟩,
  ⟨b!"acos", 1, 1, .acos⟩,
  ⟨b!"alpha", 1, 1, .alpha⟩,
  ⟨b!"asin", 1, 1, .asin⟩,
  ⟨b!"atan", 1, 1, .atan⟩,
  ⟨b!"blue", 1, 1, .blue⟩,
  ⟨b!"ceil", 1, 1, .ceil⟩,
  ⟨b!"cos", 1, 1, .cos⟩,
  ⟨b!"decimal_number", 1, 1, .decimalNumber⟩,
  ⟨b!"floor", 1, 1, .floor⟩,
  ⟨b!"frgb", 1, 3, .frgb⟩,
  ⟨b!"frgba", 2, 4, .frgba⟩,
  ⟨b!"function_exists", 1, 1, .functionExists⟩,
  ⟨b!"global_variable_exists", 1, 1, .globalVariableExists⟩,
  ⟨b!"green", 1, 1, .green⟩,
  ⟨b!"hsl", 3, 3, .hsl⟩,
  ⟨b!"hsla", 4, 4, .hsla⟩,
  ⟨b!"hue", 1, 1, .hue⟩,
  ⟨b!"identifier", 1, 1, .identifier⟩,
  ⟨b!"if", 3, 3, .if_⟩,
  ⟨b!"integer", 1, 1, .integer⟩,
  ⟨b!"inspect", 1, 1, .inspect⟩,
  ⟨b!"lightness", 1, 1, .lightness⟩,
  ⟨b!"log", 1, 1, .log⟩,
  ⟨b!"max", 1, 2147483647, .max⟩,
  ⟨b!"min", 1, 2147483647, .min⟩,
  ⟨b!"not", 1, 1, .not⟩,
  ⟨b!"percentage", 1, 1, .percentage⟩,
  ⟨b!"random", 0, 0, .random⟩,
  ⟨b!"red", 1, 1, .red⟩,
  ⟨b!"rgb", 1, 3, .rgb⟩,
  ⟨b!"rgba", 2, 4, .rgba⟩,
  ⟨b!"round", 1, 1, .round⟩,
  ⟨b!"saturation", 1, 1, .saturation⟩,
  ⟨b!"sign", 1, 1, .sign⟩,
  ⟨b!"sin", 1, 1, .sin⟩,
  ⟨b!"sqrt", 1, 1, .sqrt⟩,
  ⟨b!"string", 1, 1, .string⟩,
  ⟨b!"str_length", 1, 1, .strLength⟩,
  ⟨b!"tan", 1, 1, .tan⟩,
  ⟨b!"type_of", 1, 1, .typeOf⟩,
  ⟨b!"unique_id", 0, 1, .uniqueId⟩,
  ⟨b!"unit", 1, 1, .unit⟩,
  ⟨b!"variable_exists", 1, 1, .variableExists⟩]

/-- `/ 255.0` -/
def by255 (x : Fp) : Fp := div f64 x (lit 255)

/-- `(this->*f_func)(func)`; `n` is g_unique_id_counter. -/
def exec (env : Env α) (n : Int) (args : Args α) : Fn → Res α × Int
  | .abs => (fAbs args, n)
  | .acos => (fArc b!"acos" env.acos args, n)
  | .alpha => (fAlpha args, n)
  | .asin => (fArc b!"asin" env.asin args, n)
  | .atan => (fArc b!"atan" env.atan args, n)
  | .blue => (fComponent b!"blue" (·.blue) args, n)
  | .ceil => (fRound b!"ceil" (ceil f64) args, n)
  | .cos => (fTrig b!"cos" env.cos args, n)
  | .decimalNumber => (fDecimal env args, n)
  | .floor => (fRound b!"floor" (floor f64) args, n)
  | .frgb => (fRgb b!"frgb" id args, n)
  | .frgba => (fRgba b!"frgba" id args, n)
  | .functionExists => (fExists env b!"function_exists" true .VARIABLE_FUNCTION .FUNCTION args, n)
  | .globalVariableExists => (fExists env b!"global_variable_exists" true .VARIABLE .IDENTIFIER args, n)
  | .green => (fComponent b!"green" (·.green) args, n)
  | .hsl => (fHsl b!"hsl" (some (lit 1)) args, n)
  | .hsla => (fHsl b!"hsla" ((getNumber args 3).map (·.2)) args, n)
  | .hue => (fHue args, n)
  | .identifier => (fText env b!"identifier" .ident args, n)
  | .if_ => (fIf args, n)
  | .integer => (fInteger env args, n)
  | .inspect => (fInspect env args, n)
  | .lightness => (fPart b!"lightness" (·.2.2) args, n)
  | .log => (fLog env args, n)
  | .max => (fExtremum b!"max" (fun r m => lt m r) args, n)
  | .min => (fExtremum b!"min" (fun r m => lt r m) args, n)
  | .not => (fNot args, n)
  | .percentage => (fPercentage env args, n)
  | .random => (fRandom env, n)
  | .red => (fComponent b!"red" (·.red) args, n)
  | .rgb => (fRgb b!"rgb" by255 args, n)
  | .rgba => (fRgba b!"rgba" by255 args, n)
  | .round => (fRound b!"round" (round' f64) args, n)
  | .saturation => (fPart b!"saturation" (·.2.1) args, n)
  | .sign => (fSign args, n)
  | .sin => (fTrig b!"sin" env.sin args, n)
  | .sqrt => (fSqrt env args, n)
  | .string => (fText env b!"string" .str args, n)
  | .strLength => (fStrLength args, n)
  | .tan => (fTrig b!"tan" env.tan args, n)
  | .typeOf => (fTypeOf args, n)
  | .uniqueId => fUniqueId args n
  | .unit => (fUnit args, n)
  | .variableExists => (fExists env b!"variable_exists" false .VARIABLE .IDENTIFIER args, n)

/-- internal_functions.cpp:2163-2182: function_exists() of an internal function. -/
def asksInternal (name : Str) (args : Args α) : Bool :=
  name == b!"function_exists" &&
    (match getName args 0 with
     | some s => table.any (fun e => e.name == s)
     | none => false)

/-- internal_functions.cpp:1866-2226 `excecute_function()`; `n` is g_unique_id_counter. A function that is not in the
table is given to the variable handler (`Ret.user`). -/
def call (env : Env α) (n : Int) (name : Str) (args : Args α) : Res α × Int :=
  match table.find? (fun e => e.name == name) with
  | some e =>
    if e.min ≤ args.length ∧ args.length ≤ e.max then
      if asksInternal name args then (val (.bool true), n) else exec env n args e.fn
    else (fail (.count name), n)
  | none => (.ok .user [], n)

end Csspp.Func
