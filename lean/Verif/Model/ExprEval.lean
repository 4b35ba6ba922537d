import Verif.Model.ExprOps

/-!
Model of the evaluation of an expression (csspp/expression.cpp and the grammar of the expr_*.cpp
files).

* Nodes with a value live in a heap of `Val Ref`: the evaluation shares them by pointers and two
  operators modify a node in place (expr_unary.cpp:193-203, expr_multiplicative.cpp:342), so
  identity matters.
* A token is a child of the node given to the expression. The node of a literal is put in the heap
  when the token is read: a token is read only once, so nobody sees the difference.
* Calls of functions (expr_unary.cpp:140-161) are given by the environment: the value or null and
  the errors, as a function of the name and of the tokens between the parentheses.
* The positions are left out, so the NULL_TOKEN and BOOLEAN nodes only hold their value.
* The recursion is bounded by `fuel`; `R.fuel` is what is returned when there is not enough of it.
-/

namespace Csspp.Expr
open Csspp.Flt

/-- A `pointer_t`: the index of a node in the heap. -/
scoped notation "Ref" => Nat

/-- A child of an expression node. -/
inductive Tok where
  /-- the types of expr_unary.cpp:121-138 -/
  | lit (v : Val Ref)
  /-- IDENTIFIER -/
  | ident (s : Str)
  /-- HASH -/
  | hash (s : Str)
  /-- FUNCTION -/
  | func (name : Str) (args : List Tok)
  /-- OPEN_PARENTHESIS -/
  | paren (l : List Tok)
  /-- OPEN_SQUAREBRACKET -/
  | square (l : List Tok)
  /-- any other type: operators, COMMA, COLON, WHITESPACE, EOF_TOKEN... -/
  | sym (ty : NT)

/-- The type is WHITESPACE. -/
def Tok.isWs : Tok → Bool
  | .sym .WHITESPACE => true
  | _ => false

/-- f_current->is(ty) for the types that are not values. -/
def Tok.isSym (ty : NT) : Tok → Bool
  | .sym t => t == ty
  | _ => false

/-- What is outside of the evaluation: pow() and the functions. -/
structure Env where
  pow : Fp → Fp → Fp
  call : Str → List Tok → Option (Val Ref) × List Err
  /-- f_divide_font_metrics -/
  font : Bool := false

/-- expression.h:145-152: `cur` is f_current, `rest` the children from f_pos. -/
structure St where
  heap : List (Val Ref)
  errs : List Err
  cur : Tok
  rest : List Tok
  /-- f_variables; a null pointer may be stored -/
  vars : List (Str × Option Ref)

/-- The end of a function: a value, undefined behaviour, an exception. -/
inductive R (β : Type) where
  | ok (v : β) (s : St)
  | undef
  | throws
  | fuel

/-- A function working on the state. -/
abbrev M (β : Type) := St → R β

instance : Monad M where
  pure v := fun s => .ok v s
  bind m f := fun s =>
    match m s with
    | .ok v s' => f v s'
    | .undef => .undef
    | .throws => .throws
    | .fuel => .fuel

/-- Access to the state. -/
def get' : M St := fun s => .ok s s
def outOfFuel {β : Type} : M β := fun _ => .fuel
def err (e : List Err) : M Unit := fun s => .ok () { s with errs := s.errs ++ e }
/-- A new node. -/
def alloc (v : Val Ref) : M Ref := fun s =>
  .ok s.heap.length { s with heap := s.heap ++ [v] }
/-- Changing a node in place. -/
def store (r : Ref) (v : Val Ref) : M Unit := fun s => .ok () { s with heap := s.heap.set r v }
/-- The node of a pointer (`null` if it does not exist, which does not happen). -/
def load (r : Ref) : M (Val Ref) := fun s => .ok (s.heap[r]?.getD .null) s

/-- The children after the WHITESPACE ones. -/
def dropWs : List Tok → List Tok
  | [] => []
  | t :: ts => if t.isWs then dropWs ts else t :: ts

/-- expression.cpp:127-149 `next()`. -/
def next : M Unit := fun s =>
  match s.rest with
  | [] => .ok () { s with cur := .sym .EOF_TOKEN }
  | t :: ts => .ok () { s with cur := t, rest := dropWs ts }

/-- The end of an operator: `place` says in which node the value goes. -/
def finish (place : Option Ref) : Out (Val Ref) → M (Option Ref)
  | .undef => fun _ => .undef
  | .throws => fun _ => .throws
  | .ret none es => do err es; pure none
  | .ret (some v) es => do
    err es
    match place with
    | none => do
      let r ← alloc v
      pure (some r)
    | some r => do
      store r v
      pure (some r)

/-- The binary operators of the left associative levels. -/
inductive BinOp where
  | mul (op : MulOp)
  | add (subtract : Bool)
  | cmp (op : CmpOp)
  | logic (isOr : Bool)

/-- The left associative levels: expr_logical_or.cpp:44-70, expr_logical_and.cpp:73-98,
expr_equality.cpp:230-283, expr_relational.cpp:108-162, expr_additive.cpp:332-363 and
expr_multiplicative.cpp:788-815, from the second line on. `opOf` recognizes the operator, `sub` is the
next level. Each turn reads a token, so `n` = the number of tokens + 1 is enough. -/
def binLoop (opOf : Tok → Option BinOp) (sub : M (Option Ref))
    (apply : BinOp → Ref → Ref → M (Option Ref)) : Nat → Ref → M (Option Ref)
  | 0, _ => outOfFuel
  | n + 1, r => do
    match opOf (← get').cur with
    | none => pure (some r)
    | some op => do
      next
      match ← sub with
      | none => pure none
      | some rhs => do
        match ← apply op r rhs with
        | none => pure none
        | some r => binLoop opOf sub apply n r

/-- The first operand, then the loop. -/
def binLevel (opOf : Tok → Option BinOp) (apply : BinOp → Ref → Ref → M (Option Ref))
    (sub : M (Option Ref)) : M (Option Ref) := do
  match ← sub with
  | none => pure none
  | some r => do
    binLoop opOf sub apply ((← get').rest.length + 2) r

/-- expr_multiplicative.cpp:52-81. -/
def mulOf : Tok → Option BinOp
  | .ident s =>
    if s = b!"mul" then some (.mul .mul) else if s = b!"div" then some (.mul .div)
    else if s = b!"mod" then some (.mul .mod) else none
  | .sym .MULTIPLY => some (.mul .mul)
  | .sym .DIVIDE => some (.mul .div)
  | .sym .MODULO => some (.mul .mod)
  | _ => none

/-- expr_additive.cpp:54-66. -/
def addOf : Tok → Option BinOp
  | .sym .ADD => some (.add false)
  | .sym .SUBTRACT => some (.add true)
  | _ => none

/-- expr_relational.cpp:85-99. -/
def relOf : Tok → Option BinOp
  | .sym .LESS_THAN => some (.cmp .lt)
  | .sym .LESS_EQUAL => some (.cmp .le)
  | .sym .GREATER_THAN => some (.cmp .gt)
  | .sym .GREATER_EQUAL => some (.cmp .ge)
  | _ => none

/-- expr_equality.cpp:102-130. -/
def equOf : Tok → Option BinOp
  | .sym .EQUAL => some (.cmp .eq)
  | .sym .NOT_EQUAL => some (.cmp .ne)
  | .sym .INCLUDE_MATCH => some (.cmp (.mat .include))
  | .sym .PREFIX_MATCH => some (.cmp (.mat .prefix))
  | .sym .SUFFIX_MATCH => some (.cmp (.mat .suffix))
  | .sym .SUBSTRING_MATCH => some (.cmp (.mat .substring))
  | .sym .DASH_MATCH => some (.cmp (.mat .dash))
  | .ident s => if s = b!"not-equal" then some (.cmp .ne) else none
  | _ => none

/-- expr_logical_and.cpp:78-79. -/
def andOf : Tok → Option BinOp
  | .ident s => if s = b!"and" then some (.logic false) else none
  | .sym .AND => some (.logic false)
  | _ => none

/-- expr_logical_or.cpp:50-51. -/
def orOf : Tok → Option BinOp
  | .ident s => if s = b!"or" then some (.logic true) else none
  | .sym .COLUMN => some (.logic true)
  | _ => none

/-- expr_power.cpp:199-201. -/
def powOf : Tok → Bool
  | .ident s => s == b!"pow"
  | .sym .POWER => true
  | _ => false

/-- The operator on two nodes: expr_multiplicative.cpp:806, expr_additive.cpp:353,
expr_equality.cpp:248-278 and expr_relational.cpp:125-157 (`result` is replaced only when the values
can be compared), expr_logical_and.cpp:91-95, expr_logical_or.cpp:63-67. -/
def apply (env : Env) (op : BinOp) (l r : Ref) : M (Option Ref) := do
  let a ← load l
  let b ← load r
  match op with
  | .mul op => finish ((mulNode a b).map (fun right => if right then r else l)) (mulOp env.font op a b)
  | .add subtract => finish none (addOp subtract a b)
  | .cmp op =>
    if comparable a b then finish none (cmpOp op a b)
    else do
      err [.compare]
      pure (some l)
  | .logic isOr => finish none (logicOp isOr a b)

/-- expr_power.cpp:192-216. -/
def powerF (env : Env) (post : M (Option Ref)) : M (Option Ref) := do
  match ← post with
  | none => pure none
  | some l => do
    if powOf (← get').cur then do
      next
      match ← post with
      | none => pure none
      | some r => do
        let a ← load l
        let b ← load r
        finish none (powOp env.pow a b)
    else pure (some l)

/-- The six levels of binary operators above power(): multiplicative(), additive(), relational(),
equality(), logical_and() and logical_or(). -/
inductive Bin where
  | mul | add | rel | equ | and | or
  deriving DecidableEq, Repr

/-- The operators of a level. -/
def opOf : Bin → Tok → Option BinOp
  | .mul => mulOf
  | .add => addOf
  | .rel => relOf
  | .equ => equOf
  | .and => andOf
  | .or => orOf

/-- expr_multiplicative.cpp:781-816 `multiplicative()`. -/
def multiplicative (env : Env) (power : M (Option Ref)) : M (Option Ref) :=
  binLevel mulOf (apply env) power
/-- expr_additive.cpp:325-365 `additive()`. -/
def additive (env : Env) (power : M (Option Ref)) : M (Option Ref) :=
  binLevel addOf (apply env) (multiplicative env power)
/-- expr_relational.cpp:101-164 `relational()`. -/
def relational (env : Env) (power : M (Option Ref)) : M (Option Ref) :=
  binLevel relOf (apply env) (additive env power)
/-- expr_equality.cpp:219-285 `equality()`. -/
def equality (env : Env) (power : M (Option Ref)) : M (Option Ref) :=
  binLevel equOf (apply env) (relational env power)
/-- expr_logical_and.cpp:66-99 `logical_and()`. -/
def logicalAnd (env : Env) (power : M (Option Ref)) : M (Option Ref) :=
  binLevel andOf (apply env) (equality env power)
/-- expr_logical_or.cpp:38-71 `logical_or()`. -/
def logicalOr (env : Env) (power : M (Option Ref)) : M (Option Ref) :=
  binLevel orOf (apply env) (logicalAnd env power)

/-- The function of a level. -/
def level (env : Env) (power : M (Option Ref)) : Bin → M (Option Ref)
  | .mul => multiplicative env power
  | .add => additive env power
  | .rel => relational env power
  | .equ => equality env power
  | .and => logicalAnd env power
  | .or => logicalOr env power

/-- `safe_error_t` and `safe_error_stream_t`: the errors of `m` are forgotten. -/
def silent (m : M (Option Ref)) : M Unit := do
  let before ← get'
  let _ ← m
  fun s => .ok () { s with errs := before.errs }

/-- expression.h:56 `boolean()` on a node. -/
def boolean (r : Ref) : M Bool := do
  let v ← load r
  match boolVal v with
  | .undef => fun _ => .undef
  | .throws => fun _ => .throws
  | .ret b es => do
    err es
    pure b

/-- expr_conditional.cpp:51-105: the loop. -/
def condLoop (cond : M (Option Ref)) : Nat → Ref → M (Option Ref)
  | 0, _ => outOfFuel
  | n + 1, r => do
    if (← get').cur.isSym .CONDITIONAL then do
      let b ← boolean r
      next
      if b then do
        match ← cond with
        | none => pure none
        | some r => do
          if (← get').cur.isSym .COLON then do
            next
            silent cond
            condLoop cond n r
          else do
            err [.noColon]
            pure none
      else do
        silent cond
        if (← get').cur.isSym .COLON then do
          next
          match ← cond with
          | none => pure none
          | some r => condLoop cond n r
        else do
          err [.noColon]
          pure none
    else pure (some r)

/-- expr_conditional.cpp:37-108 `conditional()`. -/
def condF (cond lor : M (Option Ref)) : M (Option Ref) := do
  match ← lor with
  | none => pure none
  | some r => do
    condLoop cond ((← get').rest.length + 2) r

/-- expr_list.cpp:151-179 `assignment()`. -/
def assignment (cond : M (Option Ref)) : M (Option Ref) := do
  match ← cond with
  | none => pure none
  | some r => do
    match ← load r with
    | .ident name =>
      if (← get').cur.isSym .ASSIGNMENT then do
        next
        let value ← cond
        (fun s => .ok () { s with vars := (name, value) :: s.vars } : M Unit)
        pure value
      else pure (some r)
    | _ => pure (some r)

/-- expr_list.cpp:38-50 `is_label()`. -/
def isLabel (s : St) : Option Str :=
  match s.cur, s.rest with
  | .ident name, .sym .COLON :: _ => some name
  | _, _ => none

/-- expr_list.cpp:73-122: the entries of a map. -/
def mapLoop (cond : M (Option Ref)) : Nat → List (Str × Ref) → M (List (Str × Ref))
  | 0, _ => outOfFuel
  | n + 1, items => do
    match isLabel (← get') with
    | none => pure items
    | some name => do
      next
      next
      if (← get').cur.isSym .COMMA then do
        next
        let v ← alloc .null
        mapLoop cond n (items ++ [(name, v)])
      else if (← get').cur.isSym .EOF_TOKEN then do
        let v ← alloc .null
        mapLoop cond n (items ++ [(name, v)])
      else do
        let result ← assignment cond
        let more ← (do
          if (← get').cur.isSym .COMMA then do
            next
            pure true
          else pure false : M Bool)
        let v ← (match result with
          | some r => pure r
          | none => alloc .null : M Ref)
        if more then mapLoop cond n (items ++ [(name, v)]) else pure (items ++ [(name, v)])

/-- expr_list.cpp:134-143: the items of an array after the first one. -/
def arrayLoop (cond : M (Option Ref)) : Nat → List Ref → M (List Ref)
  | 0, _ => outOfFuel
  | n + 1, items => do
    if (← get').cur.isSym .COMMA then do
      next
      match ← assignment cond with
      | none => pure items
      | some r => arrayLoop cond n (items ++ [r])
    else pure items

/-- expr_list.cpp:53-149 `expression_list()`. -/
def exprList (cond : M (Option Ref)) : M (Option Ref) := do
  let s ← get'
  match isLabel s with
  | some _ => do
    let items ← mapLoop cond (s.rest.length + 2) []
    let r ← alloc (.map items)
    pure (some r)
  | none => do
    match ← assignment cond with
    | none => pure none
    | some r => do
      if (← get').cur.isSym .COMMA then do
        let items ← arrayLoop cond ((← get').rest.length + 2) [r]
        let a ← alloc (.array items)
        pure (some a)
      else pure (some r)

/-- A new `expression` object on the children of a node (expr_unary.cpp:165-173 and
expr_list.cpp:199-206): its own tokens and its own, empty, variables. -/
def group (cond : M (Option Ref)) (toks : List Tok) : M (Option Ref) := do
  let outer ← get'
  (fun s => .ok () { s with cur := .sym .EOF_TOKEN, rest := toks, vars := [] } : M Unit)
  next
  let r ← exprList cond
  (fun s => .ok () { s with cur := outer.cur, rest := outer.rest, vars := outer.vars } : M Unit)
  pure r

/-- expr_list.cpp:209-259: `array[i]` and `map[i]`, the child to return. -/
def indexInt (v : Val Ref) (i : Int) : Out Ref :=
  match v with
  | .array items =>
    let idx := if i < 0 then (items.length : Int) + i else i - 1
    if items.length ≤ toU64 idx then .ret none [.indexRange]
    else .ret items[toU64 idx]? []
  | .map items =>
    let idx := if i < 0 then (items.length : Int) + i else i - 1
    if ¬ IsI64 (idx * 2) then .undef
    else if 2 * items.length ≤ toU64 (idx * 2 + 1) then .ret none [.indexRange]
    else .ret ((items[toU64 (idx * 2 + 1) / 2]?).map (·.2)) []
  | _ => .ret none [.indexType]

/-- expr_list.cpp:306-349: `map.name` and `map["name"]`. -/
def indexName (v : Val Ref) (name : Str) : Out Ref :=
  match v with
  | .map items =>
    match items.find? (fun p => p.1 == name) with
    | some p => .ret (some p.2) []
    | none => .ret none [.fieldUnset]
  | _ => .ret none [.fieldType]

/-- expr_list.cpp:207-287: the index of `[ ... ]`. -/
def indexVal (v i : Val Ref) : Out Ref :=
  match i with
  | .int n _ => indexInt v n
  | .str s => indexName v s
  | .ident s => indexName v s
  | _ => .ret none [.indexKind]

/-- The end of an access: the pointer of a child. -/
def finishRef : Out Ref → M (Option Ref)
  | .undef => fun _ => .undef
  | .throws => fun _ => .throws
  | .ret v es => do
    err es
    pure v

/-- expr_list.cpp:195-356: the loop of `post()`. -/
def postLoop (grp : List Tok → M (Option Ref)) : Nat → Ref → M (Option Ref)
  | 0, _ => outOfFuel
  | n + 1, r => do
    match (← get').cur with
    | .square toks => do
      match ← grp toks with
      | none => pure none
      | some i => do
        next
        let iv ← load i
        let v ← load r
        match ← finishRef (indexVal v iv) with
        | none => pure none
        | some r => postLoop grp n r
    | .sym .PERIOD => do
      next
      match (← get').cur with
      | .ident name => do
        next
        let v ← load r
        match ← finishRef (indexName v name) with
        | none => pure none
        | some r => postLoop grp n r
      | _ => do
        err [.fieldName]
        pure none
    | _ => pure (some r)

/-- expr_list.cpp:181-359 `post()`. -/
def postF (grp : List Tok → M (Option Ref)) (unary : M (Option Ref)) : M (Option Ref) := do
  match ← unary with
  | none => pure none
  | some r => do
    postLoop grp ((← get').rest.length + 2) r

/-- expr_unary.cpp:259-306: the value of an identifier. -/
def identVal (s : Str) : Val Ref :=
  if s = b!"null" then .null
  else if s = b!"true" then .bool true
  else if s = b!"false" then .bool false
  else
    match Color.setName s true with
    | some c => .color c
    | none => .ident s

/-- The identifier is one of the predefined values. -/
def isKnown (s : Str) : Bool :=
  match identVal s with
  | .ident _ => false
  | _ => true

/-- expr_unary.cpp:103-319 `unary()`. -/
def unaryF (env : Env) (power : M (Option Ref)) (grp : List Tok → M (Option Ref)) :
    M (Option Ref) := do
  let s ← get'
  match s.cur with
  | .lit v => do
    next
    let r ← alloc v
    pure (some r)
  | .func name args => do
    next
    match env.call name args with
    | (v, es) => finish none (.ret v es)
  | .paren toks => do
    next
    grp toks
  | .sym .ADD => do
    next
    power
  | .sym .SUBTRACT => do
    next
    match ← power with
    | none => pure none
    | some r => do
      let v ← load r
      finish (some r) (negOp v)
  | .hash name => do
    next
    match Color.setName name false with
    | none => do
      err [.badColor]
      pure none
    | some c => do
      let r ← alloc (.color c)
      pure (some r)
  | .ident name => do
    next
    if isKnown name then do
      let r ← alloc (identVal name)
      pure (some r)
    else
      match s.vars.lookup name with
      | some r => pure r
      | none => do
        let r ← alloc (.ident name)
        pure (some r)
  | _ => do
    err [.badUnary]
    pure none

mutual
/-- power() down to unary(), `fuel` bounding the nesting. -/
def power (env : Env) : Nat → M (Option Ref)
  | 0 => outOfFuel
  | n + 1 =>
    powerF env (postF (fun ts => group (conditional env n) ts)
      (unaryF env (power env n) (fun ts => group (conditional env n) ts)))
/-- conditional(). -/
def conditional (env : Env) : Nat → M (Option Ref)
  | 0 => outOfFuel
  | n + 1 => condF (conditional env n) (logicalOr env (power env n))
end

mutual
/-- The number of tokens, at any depth. -/
def Tok.size : Tok → Nat
  | .paren l => 1 + sizeAll l
  | .square l => 1 + sizeAll l
  | .func _ l => 1 + sizeAll l
  | _ => 1
/-- The number of tokens of a list. -/
def sizeAll : List Tok → Nat
  | [] => 0
  | t :: ts => t.size + sizeAll ts
end

/-- expression.cpp:73-78 `compile()`: mark_start(), next(), conditional(); the replacement of the
children by the result is not modelled. -/
def compile (env : Env) (heap : List (Val Ref)) (toks : List Tok) : R (Option Ref) :=
  (do
    next
    conditional env (3 * sizeAll toks + 4) : M (Option Ref))
    { heap := heap, errs := [], cur := .sym .EOF_TOKEN, rest := toks, vars := [] }

end Csspp.Expr
