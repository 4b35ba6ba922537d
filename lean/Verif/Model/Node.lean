import Verif.Model.Lexer

/-!
Model of csspp/node.cpp (the data of a node, its children, variables and flags, clone()).

* A node lives in a heap; a `pointer_t` is its index. Pointers are compared by address
  (std::find on shared pointers), so two nodes with the same content are different children.
* A `double` is its 64 bit pattern, a `float` its 32 bit pattern: the accessors only copy them
  (the unions of node.cpp:65-69, 407-412 and 428-433).
* `f_variables` and `f_flags` (std::map) are association lists without duplicates.
* The limit on the number of nodes (node.cpp:227-243, a test facility) is not modelled.
-/

namespace Csspp.Node

/-- A `pointer_t`. -/
abbrev Ref := Nat

/-- node.h:192-203. -/
structure Node where
  ty : NT
  pos : Lex.Pos
  bool : Bool := false
  int : Int := 0
  dec : Nat := 0
  str : Str := []
  lower : Str := []
  children : List Ref := []
  vars : List (Str × Ref) := []
  flags : List Str := []
  deriving DecidableEq, Repr

/-- csspp_exception_logic and csspp_exception_overflow. -/
inductive Exn where
  | logic | overflow
  deriving DecidableEq, Repr

/-- node.cpp:71-91. -/
def supportsInteger : NT → Bool
  | .AN_PLUS_B | .ARG | .AT_KEYWORD | .COMMENT | .INTEGER | .UNICODE_RANGE => true
  | _ => false

/-- node.cpp:93-112. -/
def supportsBoolean : NT → Bool
  | .BOOLEAN | .DECIMAL_NUMBER | .INTEGER | .OPEN_CURLYBRACKET | .PERCENT => true
  | _ => false

/-- node.cpp:114-131. -/
def supportsDecimal : NT → Bool
  | .DECIMAL_NUMBER | .PERCENT | .FRAME => true
  | _ => false

/-- node.cpp:133-161. -/
def supportsString : NT → Bool
  | .AT_KEYWORD | .COMMENT | .DECIMAL_NUMBER | .DECLARATION | .EXCLAMATION | .FUNCTION | .HASH
  | .IDENTIFIER | .INTEGER | .PLACEHOLDER | .STRING | .URL | .VARIABLE | .VARIABLE_FUNCTION => true
  | _ => false

/-- node.cpp:163-178. -/
def supportsColor : NT → Bool
  | .COLOR => true
  | _ => false

/-- node.cpp:180-194. -/
def supportsFont : NT → Bool
  | .FONT_METRICS => true
  | _ => false

/-- node.cpp:196-223. -/
def supportsChildren : NT → Bool
  | .ARG | .ARRAY | .AT_KEYWORD | .COMPONENT_VALUE | .DECLARATION | .FUNCTION | .LIST | .MAP
  | .OPEN_CURLYBRACKET | .OPEN_PARENTHESIS | .OPEN_SQUAREBRACKET | .VARIABLE_FUNCTION | .FRAME => true
  | _ => false

/-- `type_supports_xxx(f_type)` followed by the rest of the accessor. -/
def guarded {α : Type} (ok : Bool) (x : α) : Except Exn α := if ok then .ok x else .error .logic

/-! ### node.cpp:343-557: the typed accessors -/

/-- node.cpp:343-401. -/
def Node.getString (n : Node) : Except Exn Str := guarded (supportsString n.ty) n.str
def Node.setString (n : Node) (v : Str) : Except Exn Node :=
  guarded (supportsString n.ty) { n with str := v }
def Node.getLower (n : Node) : Except Exn Str := guarded (supportsString n.ty) n.lower
def Node.setLower (n : Node) (v : Str) : Except Exn Node :=
  guarded (supportsString n.ty) { n with lower := v }
def Node.getInteger (n : Node) : Except Exn Int := guarded (supportsInteger n.ty) n.int
def Node.setInteger (n : Node) (v : Int) : Except Exn Node :=
  guarded (supportsInteger n.ty) { n with int := v }
def Node.getBoolean (n : Node) : Except Exn Bool := guarded (supportsBoolean n.ty) n.bool
def Node.setBoolean (n : Node) (v : Bool) : Except Exn Node :=
  guarded (supportsBoolean n.ty) { n with bool := v }
def Node.getDecimal (n : Node) : Except Exn Nat := guarded (supportsDecimal n.ty) n.dec
def Node.setDecimal (n : Node) (v : Nat) : Except Exn Node :=
  guarded (supportsDecimal n.ty) { n with dec := v }

/-- The four floats of a color, as bit patterns (red, green, blue, alpha). -/
structure Floats where
  r : Nat
  g : Nat
  b : Nat
  a : Nat
  deriving DecidableEq, Repr

/-- node.cpp:403-422: `f_integer` holds red and green, `f_decimal_number` blue and alpha. -/
def Node.getColor (n : Node) : Except Exn Floats :=
  guarded (supportsColor n.ty)
    ⟨toU64 n.int % 4294967296, toU64 n.int / 4294967296, n.dec % 4294967296, n.dec / 4294967296⟩

/-- node.cpp:424-440. -/
def Node.setColor (n : Node) (c : Floats) : Except Exn Node :=
  guarded (supportsColor n.ty)
    { n with
      int := wrap64 ((4294967296 * c.g + c.r : Nat) : Int),
      dec := 4294967296 * c.a + c.b }

/-- node.cpp:442-454. -/
def Node.getFontSize (n : Node) : Except Exn Nat := guarded (supportsFont n.ty) n.dec
def Node.setFontSize (n : Node) (v : Nat) : Except Exn Node :=
  guarded (supportsFont n.ty) { n with dec := v }
/-- node.cpp:456-463: the bits of f_integer. -/
def Node.getLineHeight (n : Node) : Except Exn Nat := guarded (supportsFont n.ty) (toU64 n.int)
/-- node.cpp:465-472. -/
def Node.setLineHeight (n : Node) (v : Nat) : Except Exn Node :=
  guarded (supportsFont n.ty) { n with int := wrap64 v }

/-- `f_string.find('/')`: what is before the slash and, if there is one, what is after. -/
def cutSlash : Str → Str × Option Str
  | [] => ([], none)
  | c :: s =>
    if c = 47 then ([], some s)
    else
      match cutSlash s with
      | (a, b) => (c :: a, b)

/-- node.cpp:474-487. -/
def Node.getDim1 (n : Node) : Except Exn Str := guarded (supportsFont n.ty) (cutSlash n.str).1

/-- node.cpp:493-509 on the string. -/
def putDim1 (s dim : Str) : Str :=
  if s = [] then dim
  else
    match cutSlash s with
    | (_, none) => dim
    | (_, some t) => dim ++ 47 :: t

/-- node.cpp:489-509. -/
def Node.setDim1 (n : Node) (dim : Str) : Except Exn Node :=
  guarded (supportsFont n.ty) { n with str := putDim1 n.str dim }

/-- node.cpp:511-524. -/
def Node.getDim2 (n : Node) : Except Exn Str :=
  guarded (supportsFont n.ty) ((cutSlash n.str).2.getD [])

/-- node.cpp:530-557 on the string. -/
def putDim2 (s dim : Str) : Str :=
  if dim = [] then
    match cutSlash s with
    | (_, none) => s
    | (a, some _) => a
  else if s = [] then 47 :: dim
  else
    match cutSlash s with
    | (_, none) => s ++ 47 :: dim
    | (a, some _) => a ++ 47 :: dim

/-- node.cpp:526-557. -/
def Node.setDim2 (n : Node) (dim : Str) : Except Exn Node :=
  guarded (supportsFont n.ty) { n with str := putDim2 n.str dim }

/-! ### node.cpp:559-705: the children

`ty` gives the type of every node: f_type never changes. -/

/-- node.cpp:559-564. -/
def Node.empty (n : Node) : Except Exn Bool := guarded (supportsChildren n.ty) n.children.isEmpty
/-- node.cpp:566-571. -/
def Node.clear (n : Node) : Except Exn Node :=
  guarded (supportsChildren n.ty) { n with children := [] }
/-- node.cpp:573-578. -/
def Node.size (n : Node) : Except Exn Nat := guarded (supportsChildren n.ty) n.children.length

/-- `std::find(f_children.begin(), f_children.end(), child)`; `none` is `end()`. -/
def find (child : Ref) : List Ref → Option Nat
  | [] => none
  | c :: cs => if c = child then some 0 else (find child cs).map (· + 1)

/-- node.cpp:580-591; `none` is npos. -/
def Node.childPosition (n : Node) (child : Ref) : Except Exn (Option Nat) :=
  guarded (supportsChildren n.ty) (find child n.children)

/-- node.cpp:593-610. -/
def Node.addChild (ty : Ref → NT) (n : Node) (child : Ref) : Except Exn Node :=
  guarded (supportsChildren n.ty)
    (if ty child ≠ .EOF_TOKEN ∧
        (ty child ≠ .WHITESPACE ∨ n.children = [] ∨
          n.children.getLast?.map ty ≠ some .WHITESPACE) then
      { n with children := n.children ++ [child] }
    else n)

/-- node.cpp:612-633. -/
def Node.insertChild (ty : Ref → NT) (n : Node) (idx : Nat) (child : Ref) : Except Exn Node :=
  if idx = n.children.length then n.addChild ty child
  else if supportsChildren n.ty = false then .error .logic
  else if idx ≥ n.children.length then .error .overflow
  else if ty child ≠ .EOF_TOKEN then
    .ok { n with children := n.children.take idx ++ child :: n.children.drop idx }
  else .ok n

/-- node.cpp:635-646: remove the first occurrence of a pointer. -/
def Node.removeChild (n : Node) (child : Ref) : Except Exn Node :=
  if supportsChildren n.ty = false then .error .logic
  else
    match find child n.children with
    | none => .error .logic
    | some i => .ok { n with children := n.children.eraseIdx i }

/-- node.cpp:648-658. -/
def Node.removeAt (n : Node) (idx : Nat) : Except Exn Node :=
  if supportsChildren n.ty = false then .error .logic
  else if idx ≥ n.children.length then .error .overflow
  else .ok { n with children := n.children.eraseIdx idx }

/-- node.cpp:660-670. -/
def Node.getChild (n : Node) (idx : Nat) : Except Exn Ref :=
  if supportsChildren n.ty = false then .error .logic
  else
    match n.children[idx]? with
    | none => .error .overflow
    | some c => .ok c

/-- node.cpp:672-676: `size() - 1` is npos on an empty list, an index out of range. -/
def Node.getLastChild (n : Node) : Except Exn Ref :=
  n.getChild (if n.children.length = 0 then 18446744073709551615 else n.children.length - 1)

/-- node.cpp:690-705: the first occurrence of `o`; no type check. -/
def Node.replaceChild (n : Node) (o c : Ref) : Except Exn Node :=
  match find o n.children with
  | none => .error .logic
  | some i => .ok { n with children := n.children.take i ++ c :: n.children.drop (i + 1) }

/-! ### node.cpp:707-763: variables and flags -/

/-- `f_variables[name] = value`. -/
def setKey (name : Str) (v : Ref) : List (Str × Ref) → List (Str × Ref)
  | [] => [(name, v)]
  | (k, x) :: t => if k = name then (k, v) :: t else (k, x) :: setKey name v t

/-- node.cpp:712-715. -/
def Node.setVariable (n : Node) (name : Str) (v : Ref) : Node := { n with vars := setKey name v n.vars }
/-- node.cpp:728-736. -/
def Node.getVariable (n : Node) (name : Str) : Option Ref := n.vars.lookup name
/-- node.cpp:707-710. -/
def Node.clearVariables (n : Node) : Node := { n with vars := [] }

/-- node.cpp:743-757. -/
def Node.setFlag (n : Node) (name : Str) (value : Bool) : Node :=
  { n with flags := if value then (if name ∈ n.flags then n.flags else name :: n.flags)
                    else n.flags.filter (· ≠ name) }
/-- node.cpp:759-763. -/
def Node.getFlag (n : Node) (name : Str) : Bool := decide (name ∈ n.flags)
/-- node.cpp:738-741. -/
def Node.clearFlags (n : Node) : Node := { n with flags := [] }

/-! ### The heap -/

/-- All the nodes, by address. -/
abbrev Heap := List Node

/-- node.cpp:678-688 `this->take_over_children_of(n)`. -/
def takeOver (h : Heap) (this n : Ref) : Except Exn Heap :=
  match h[this]?, h[n]? with
  | some a, some b =>
    if supportsChildren a.ty = false then .error .logic
    else if supportsChildren b.ty = false then .error .logic
    else
      -- f_children.clear(): also clears b when this = n
      let h := h.set this { a with children := [] }
      match h[n]? with
      | some b =>
        let h := h.set n { b with children := [] }
        .ok (h.modify this (fun a => { a with children := b.children }))
      | none => .ok h
  | _, _ => .error .logic

/-- Running `f` on a list of nodes one after the other, each allocating in the heap. -/
def mapHeap (f : Heap → Ref → Option (Ref × Heap)) : Heap → List Ref → Option (List Ref × Heap)
  | h, [] => some ([], h)
  | h, r :: rs =>
    match f h r with
    | none => none
    | some (r', h) =>
      match mapHeap f h rs with
      | none => none
      | some (rs', h) => some (r' :: rs', h)

/-- node.cpp:250-270 `clone()` and 717-726 `copy_variable()`. The recursion is on `fuel`, the depth
of the recursion of the C++ code; `none` when it is exhausted (a cyclic tree never returns).
Note that f_lowercase_string is not copied. -/
def clone : Nat → Heap → Ref → Option (Ref × Heap)
  | 0, _, _ => none
  | fuel + 1, h, r =>
    match h[r]? with
    | none => none
    | some n =>
      -- new node(f_type, f_position)
      let new := h.length
      let h := h ++ [{ ty := n.ty, pos := n.pos, bool := n.bool, int := n.int, dec := n.dec,
                       str := n.str, flags := n.flags }]
      match mapHeap (clone fuel) h n.children with
      | none => none
      | some (cs, h) =>
        match mapHeap (clone fuel) h (n.vars.map (·.2)) with
        | none => none
        | some (vs, h) =>
          some (new, h.modify new (fun m =>
            { m with children := cs, vars := (n.vars.map (·.1)).zip vs }))

end Csspp.Node
