import Verif.Model.Parser

/-!
Model of the passes of csspp/compiler.cpp on the tree of the parser: mark_selectors()
(1867-1913), remove_empty_rules() (1915-1960) and the one that replaces the variables and runs @mixin,
@include, @if and @else (1805-1865, 1962-2964).

* A node is a tree of Model/Parser.lean. No node has two parents here: the compiler only inserts clones of the values
  and nodes that it just took out of another node. clone() is the identity on these trees (C34; f_lowercase_string,
  which it does not copy, is read nowhere in compiler.cpp).
* A test `child == n->get_child(idx)` after a call on `child` (1938-1939, 2033-2034) asks whether the call
  removed `child` from its parent: the functions return `none` when they do.
* `scopes` are the variables of the '{' blocks that accept variables in f_parents, the innermost
  first (compiler.cpp:154-215). Simplification: the variables of a block are forgotten when the block is left. In
  the C++ code they stay in the node, where they could only be seen again by a comment of that same block when it is
  processed a second time, after it is inserted somewhere else.
* A variable is the pair of the node with its name and of its value (compiler.cpp:160-164).
* Parameters (`Env`): the evaluation of expressions (Model/ExprEval.lean), their truth value, the search and the
  parsing of an imported file (C45, C46, Model/Parser.lean) and node::to_string().
* The recursion and the loops are bounded by `fuel`; `R.fuel` is returned when there is not enough of it.
-/

namespace Csspp.Vars
open Csspp.Parse (Nd ArgRes argify)
open Csspp.Lex (Tok Pos)
open Csspp.Node (supportsChildren supportsInteger)

/-- compiler.cpp:160-164: the name and the value of a variable. -/
structure Var where
  name : Nd
  value : Nd

/-- The key of a variable. -/
def Var.key (v : Var) : Str := v.name.tok.str

/-- The messages; the first ones are errors. -/
inductive Err where
  /-- compiler.cpp:2093-2097 -/
  | notSet
  /-- compiler.cpp:2119-2123 (the messages of 2119 and 2220 are exchanged in the source) -/
  | needsCall
  /-- compiler.cpp:2220-2227 -/
  | notFunction
  /-- compiler.cpp:2177-2185 -/
  | missing
  /-- parser.cpp:838-853 -/
  | args
  /-- compiler.cpp:2534-2536 -/
  | optionalColon
  /-- compiler.cpp:2544-2546 -/
  | optionalOrder
  /-- compiler.cpp:2552-2556 -/
  | paramName
  /-- compiler.cpp:1809-1811 -/
  | mixinSize
  /-- compiler.cpp:1818-1820 -/
  | mixinBlock
  /-- compiler.cpp:1831-1833 -/
  | mixinVariable
  /-- compiler.cpp:1861-1863 -/
  | mixinName
  /-- compiler.cpp:2636-2638, 2646-2648 -/
  | includeName
  /-- compiler.cpp:2708-2712 -/
  | ifSyntax
  /-- compiler.cpp:2752-2754 -/
  | elseElse
  /-- compiler.cpp:2792-2794 -/
  | elseIf
  /-- compiler.cpp:2807-2809 -/
  | elseAlone
  /-- compiler.cpp:2823-2827 -/
  | elseSyntax
  /-- the message of expression::boolean() -/
  | boolean
  /-- the messages of an @import that is removed and replaced by nothing -/
  | importErrors
  /-- a warning, compiler.cpp:2437-2441 -/
  | flagNotAtEnd
  /-- a warning, compiler.cpp:2911-2915 -/
  | commentFunction
  /-- a warning, compiler.cpp:2921-2925 -/
  | commentCall
  /-- a warning, compiler.cpp:2949-2953 -/
  | commentNotSet
  deriving DecidableEq, Repr

/-- compiler_state_t: the variables in reach and the messages (the last one first). -/
structure St where
  scopes : List (List Var) := []
  root : List Var := []
  errs : List (Err × Pos) := []

/-- What a call does. -/
inductive R (α : Type) where
  | ok (v : α) (s : St)
  | throws
  | fuel

abbrev M (α : Type) := St → R α

instance : Monad M where
  pure v := fun s => .ok v s
  bind m f := fun s =>
    match m s with
    | .ok v s => f v s
    | .throws => .throws
    | .fuel => .fuel

def throws {α : Type} : M α := fun _ => .throws
def outOfFuel {α : Type} : M α := fun _ => .fuel
/-- error::instance() << position << ... -/
def report (e : Err) (p : Pos) : M Unit := fun s => .ok () { s with errs := (e, p) :: s.errs }
/-- `if(b) error::instance() ...` -/
def reportIf (b : Bool) (e : Err) (p : Pos) : M Unit := if b then report e p else pure ()

/-! ### The variables: compiler.cpp:154-215 (see Model/CompilerState.lean for the same on a heap) -/

/-- node.cpp:728-736. -/
def findVar (name : Str) : List Var → Option Var
  | [] => none
  | v :: vs => if v.key = name then some v else findVar name vs

/-- node.cpp:712-715. -/
def putVar (v : Var) : List Var → List Var
  | [] => [v]
  | w :: ws => if w.key = v.key then v :: ws else w :: putVar v ws

/-- compiler.cpp:185-215: the innermost block first, the root last. -/
def findScopes (name : Str) : List (List Var) → List Var → Option Var
  | [], root => findVar name root
  | b :: bs, root =>
    match findVar name b with
    | some v => some v
    | none => findScopes name bs root

def St.get (s : St) (name : Str) : Option Var := findScopes name s.scopes s.root

/-- compiler.cpp:154-183. -/
def St.put (s : St) (v : Var) (global : Bool) : St :=
  if global then { s with root := putVar v s.root }
  else
    match s.scopes with
    | [] => { s with root := putVar v s.root }
    | b :: bs => { s with scopes := putVar v b :: bs }

def get (name : Str) : M (Option Var) := fun s => .ok (s.get name) s
def put (v : Var) (global : Bool) : M Unit := fun s => .ok () (s.put v global)

/-- compiler.cpp:1964 safe_parents, when the node is a '{' that accepts variables. -/
def enter (scope : Bool) : M Unit := fun s =>
  .ok () (if scope then { s with scopes := [] :: s.scopes } else s)
def leave (scope : Bool) : M Unit := fun s =>
  .ok () (if scope then { s with scopes := s.scopes.tail } else s)

/-! ### What is outside of these functions -/

/-- expression::compile() on the children of an @-keyword: the children after the call and the result. -/
structure ExprRes where
  kids : List Nd
  result : Option Nd
  st : St

/-- compiler.cpp:1647-1799. -/
inductive ImportRes where
  /-- left alone: 1668, 1694, 1766-1800 (the messages of 1781-1799 are left out) -/
  | alone
  /-- removed, with an error: 1745-1749, 1760 -/
  | failed
  /-- removed, replaced by the children of the style sheet -/
  | loaded (kids : List Nd)

structure Env where
  emptyOnUndefined : Bool := false
  /-- `none` for an exception -/
  expr : St → List Nd → Option ExprRes
  /-- expression::boolean(): the value, and whether there is a message -/
  truth : Nd → Bool × Bool
  /-- the file named by a STRING or a URL -/
  file : Nd → ImportRes
  /-- node::to_string() -/
  toString : Nd → Str

/-! ### node.cpp on the list of children -/

/-- node.cpp:612-633; the type of the node is known to support children. -/
def insertChild (kids : List Nd) (idx : Nat) (c : Nd) : Option (List Nd) :=
  if idx = kids.length then some (Parse.push kids c)
  else if idx ≥ kids.length then none
  else if c.ty ≠ .EOF_TOKEN then some (kids.take idx ++ c :: kids.drop idx)
  else some kids

/-- compiler.cpp:2245-2249, 2308-2312, 2723-2726, 2851-2854, 1776-1779: the children one after the other, at idx,
idx + 1, ... -/
def insertAll (kids : List Nd) (idx : Nat) : List Nd → Option (List Nd)
  | [] => some kids
  | c :: cs =>
    match insertChild kids idx c with
    | some kids => insertAll kids (idx + 1) cs
    | none => none

/-- An exception when there is no value. -/
def orThrow {α : Type} : Option α → M α
  | some v => pure v
  | none => throws

/-- `n->set_integer(v)` on a child. -/
def setInt (kids : List Nd) (i : Nat) (v : Int) : Option (List Nd) :=
  match kids[i]? with
  | none => none
  | some n => if supportsInteger n.ty then some (kids.set i (.mk { n.tok with int := v } n.kids)) else none

/-- parser.cpp:667-701 is_variable_set(n, false) on the children of n. -/
def isSet (kids : List Nd) : Bool :=
  match kids with
  | c0 :: c1 :: c2 :: _ =>
    if c0.ty = .VARIABLE ∨ c0.ty = .VARIABLE_FUNCTION then
      if c1.ty = .WHITESPACE then decide (c2.ty = .COLON) else decide (c1.ty = .COLON)
    else false
  | _ => false

/-- parser.cpp:694-700: an optional WHITESPACE and a '{'. -/
def startsBlock (kids : List Nd) : Bool :=
  match kids with
  | c :: cs =>
    if c.ty = .WHITESPACE then
      match cs with
      | d :: _ => decide (d.ty = .OPEN_CURLYBRACKET)
      | [] => false
    else decide (c.ty = .OPEN_CURLYBRACKET)
  | [] => false

/-- parser.cpp:667-701 is_variable_set(n, true) on the children of n. -/
def isSetBlock (kids : List Nd) : Bool :=
  isSet kids &&
    match kids with
    | _ :: c1 :: cs => startsBlock (if c1.ty = .WHITESPACE then cs.tail else cs)
    | _ => false

/-! ### compiler.cpp:1867-1913 mark_selectors() -/

/-- compiler.cpp:1873-1878. -/
def marks : NT → Bool
  | .AT_KEYWORD | .COMPONENT_VALUE | .DECLARATION | .LIST | .OPEN_CURLYBRACKET => true
  | _ => false

/-- compiler.cpp:1889-1895: is the last child made to accept variables? -/
def marksLast (kids : List Nd) : Bool :=
  !isSetBlock kids && decide (kids.getLast?.map Nd.ty = some .OPEN_CURLYBRACKET)

mutual
/-- compiler.cpp:1867-1913; `accept` when the caller just did set_boolean(true) on the node. -/
def mark (accept : Bool) : Nd → Nd
  | .mk t kids =>
    let t := if accept then { t with bool := true } else t
    if marks t.ty then .mk t (markAll (marksLast kids) kids) else .mk t kids
/-- compiler.cpp:1899-1904; `last` when the last one of the nodes gets set_boolean(true). -/
def markAll (last : Bool) : List Nd → List Nd
  | [] => []
  | c :: cs => mark (last && cs.isEmpty) c :: markAll last cs
end

/-! ### compiler.cpp:1915-1960 remove_empty_rules() -/

/-- compiler.cpp:1922-1924. -/
def isEmptyRule (n : Nd) : Bool :=
  decide (n.ty = .COMPONENT_VALUE) &&
    match n.kids.getLast? with
    | some l => decide (l.ty = .OPEN_CURLYBRACKET) && l.kids.isEmpty
    | none => false

mutual
/-- compiler.cpp:1935-1953, on a node that stays. -/
def removeEmptyIn : Nd → Nd
  | .mk t kids => if marks t.ty then .mk t (removeEmptyAll kids) else .mk t kids
/-- compiler.cpp:1941-1953: the loop and the removal of lines 1922-1932. -/
def removeEmptyAll : List Nd → List Nd
  | [] => []
  | c :: cs => if isEmptyRule c then removeEmptyAll cs else removeEmptyIn c :: removeEmptyAll cs
end

/-- compiler.cpp:1915-1960 on the root: get_previous_parent() throws when the root is an empty rule. -/
def removeEmptyRules (n : Nd) : Option Nd := if isEmptyRule n then none else some (removeEmptyIn n)

/-! ### compiler.cpp:2491-2562 prepare_function_arguments() -/

/-- A WHITESPACE at the beginning is removed. -/
def skipSpace (kids : List Nd) : List Nd :=
  match kids with
  | c :: cs => if c.ty = .WHITESPACE then cs else c :: cs
  | [] => []

/-- compiler.cpp:2507-2559 on one argument: the new argument and `optional`. -/
def prepareArg (arg : Nd) (optional : Bool) : M (Nd × Bool) :=
  if arg.ty ≠ .ARG then throws
  else
    match arg.kids with
    | [] => throws
    | p :: rest =>
      if p.ty = .VARIABLE then
        if rest.isEmpty then do
          reportIf optional .optionalOrder arg.tok.pos
          pure (arg, optional)
        else
          match skipSpace rest with
          | c :: cs =>
            if c.ty = .COLON then pure (.mk arg.tok (p :: skipSpace cs), true)
            else do
              report .optionalColon arg.tok.pos
              pure (.mk arg.tok (p :: c :: cs), optional)
          | [] => do
            report .optionalColon arg.tok.pos
            pure (.mk arg.tok [p], optional)
      else do
        report .paramName arg.tok.pos
        pure (arg, optional)

/-- compiler.cpp:2504-2561. -/
def prepareArgs : List Nd → Bool → M (List Nd)
  | [], _ => pure []
  | a :: as, optional => do
    let (a, optional) ← prepareArg a optional
    let as ← prepareArgs as optional
    pure (a :: as)

/-- parser::argify(n): the children of n and whether it returned true. -/
def argifyM (n : Nd) : M (Nd × Bool) :=
  match argify n .COMMA with
  | .throws => throws
  | .done kids none => pure (.mk n.tok kids, true)
  | .done kids (some _) => do
    report .args n.tok.pos
    pure (.mk n.tok kids, false)

/-- compiler.cpp:2491-2562. -/
def prepareFunctionArguments (var : Nd) : M Nd := do
  let (var, ok) ← argifyM var
  if ok then do
    let kids ← prepareArgs var.kids false
    pure (.mk var.tok kids)
  else pure var

/-! ### compiler.cpp:2370-2489 set_variable() -/

/-- The C strings "global", "default" and "null". -/
def strGlobal : Str := b!"global"
def strDefault : Str := b!"default"
def strNull : Str := b!"null"

/-- What compiler.cpp:2400-2436 computes, from the last child to the first one: the children that are
kept, `global`, `set_if_unset` and `!not_at_the_end.empty()`. -/
structure Flags where
  kids : List Nd := []
  global : Bool := false
  default_ : Bool := false
  notAtEnd : Bool := false

/-- compiler.cpp:2411-2434. -/
def flagStep (c : Nd) (f : Flags) : Flags :=
  if c.ty = .EXCLAMATION ∧ c.tok.str = strGlobal then
    { f with global := true, notAtEnd := f.notAtEnd || !f.kids.isEmpty }
  else if c.ty = .EXCLAMATION ∧ c.tok.str = strDefault then
    { f with default_ := true, notAtEnd := f.notAtEnd || !f.kids.isEmpty }
  else { f with kids := c :: f.kids }

/-- compiler.cpp:2408-2436. -/
def flags : List Nd → Flags
  | [] => {}
  | c :: cs => flagStep c (flags cs)

/-- compiler.cpp:2386-2399: what follows the name, the colon and the white space around it; an exception
when there is no colon or get_child(0) does not exist. -/
def afterColon (kids : List Nd) : Option (List Nd) :=
  match skipSpace kids with
  | [] => none
  | d :: ds => if d.ty = .COLON then some (skipSpace ds) else none

/-- compiler.cpp:2455-2472: the value of the variable. -/
def valueOf (pos : Pos) (kids : List Nd) : Nd :=
  let list := match kids with
    | [c] => c
    | _ => .mk { ty := .LIST, pos := pos } kids
  if list.ty = .IDENTIFIER ∧ list.tok.str = strNull then .leaf { ty := .NULL_TOKEN, pos := list.tok.pos }
  else list

/-- compiler.cpp:2478-2484. -/
def prepareName (var : Nd) : M Nd :=
  if var.ty = .VARIABLE_FUNCTION then prepareFunctionArguments var else pure var

/-- compiler.cpp:2370-2489, after remove_child(n). -/
def setVariable (n : Nd) : M Unit :=
  match n.kids with
  | [] => throws
  | var :: rest => do
    let rest ← orThrow (afterColon rest)
    let f := flags rest
    reportIf f.notAtEnd .flagNotAtEnd n.tok.pos
    let old ← get var.tok.str
    if f.default_ = true ∧ old.isSome = true then pure ()
    else do
      let value := valueOf n.tok.pos f.kids
      let var ← prepareName var
      put ⟨var, value⟩ f.global

/-! ### compiler.cpp:1805-1865 handle_mixin() -/

def handleMixin (n : Nd) : M Unit :=
  match n.kids with
  | [name, block] =>
    if block.ty ≠ .OPEN_CURLYBRACKET then report .mixinBlock n.tok.pos
    else if name.ty = .VARIABLE ∨ name.ty = .VARIABLE_FUNCTION then report .mixinVariable n.tok.pos
    else if name.ty = .IDENTIFIER then put ⟨name, block⟩ true
    else if name.ty = .FUNCTION then do
      let name ← prepareFunctionArguments name
      put ⟨name, block⟩ true
    else report .mixinName n.tok.pos
  | _ => report .mixinSize n.tok.pos

/-! ### compiler.cpp:2082-2368 replace_variable() -/

/-- compiler.cpp:2157-2166 and 2195-2206: one child, or a LIST with the children. -/
def oneOrList (pos : Pos) (kids : List Nd) : Nd :=
  match kids with
  | [c] => c
  | _ => .mk { ty := .LIST, pos := pos } kids

/-- compiler.cpp:2134-2210: the variables of the function. `none` for the two `return`s (2150 and 2186). -/
def bindArgs (call : Pos) : List Nd → List Nd → List Var → M (Option (List Var))
  | [], _, vars => pure (some vars)
  | arg :: params, inputs, vars =>
    if arg.ty ≠ .ARG then throws
    else
      match arg.kids with
      | [] => throws
      | name :: dflt =>
        if name.ty ≠ .VARIABLE then pure none
        else
          match inputs with
          | [] =>
            if dflt.isEmpty then do
              report .missing call
              pure none
            else bindArgs call params [] (putVar ⟨name, oneOrList arg.tok.pos dflt⟩ vars)
          | u :: us =>
            if u.ty ≠ .ARG then throws
            else bindArgs call params us (putVar ⟨name, oneOrList u.tok.pos u.kids⟩ vars)

/-- compiler.cpp:2116-2117, 2214-2215. -/
def isFunction (n : Nd) : Bool := decide (n.ty = .FUNCTION ∨ n.ty = .VARIABLE_FUNCTION)

/-- compiler.cpp:2234-2367: insert the value. -/
def insertValue (parent : NT) (kids : List Nd) (idx : Nat) (val : Nd) : Option (List Nd) :=
  if val.ty = .LIST ∨ val.ty = .OPEN_CURLYBRACKET then
    match val.kids with
    | [cv] =>
      if cv.ty = .COMPONENT_VALUE ∧ parent = .COMPONENT_VALUE then insertAll kids idx cv.kids
      else insertAll kids idx [cv]
    | vs => insertAll kids idx vs
  else if val.ty = .OPEN_PARENTHESIS ∨ val.ty = .OPEN_SQUAREBRACKET then insertAll kids idx val.kids
  else if val.ty = .NULL_TOKEN ∨ val.ty = .WHITESPACE then some kids
  else insertChild kids idx val

/-- Run `m` with its own variables, those of the caller untouched (compiler.cpp:2212-2217: another compiler). -/
def separately {α : Type} (vars : List Var) (m : M α) : M α := fun s =>
  match m { scopes := [], root := vars, errs := s.errs } with
  | .ok v s' => .ok v { s with errs := s'.errs }
  | .throws => .throws
  | .fuel => .fuel

/-- compiler.cpp:2222-2227. -/
def onlyBlock (root : Nd) : Nd :=
  match root.kids with
  | [c] => if c.ty = .OPEN_CURLYBRACKET then c else root
  | _ => root

/-! ### compiler.cpp:2864-2964 replace_variables_in_comment() -/

/-- `substr(0, find(c))` and what follows the character, `none` when it is not there. -/
def cutAt (c : Nat) : Str → Option (Str × Str)
  | [] => none
  | x :: s =>
    if x = c then some ([], s)
    else
      match cutAt c s with
      | some (a, b) => some (x :: a, b)
      | none => none

/-- compiler.cpp:2871-2900, what follows a '{': a '$', at least one character and a '}'. The result is the
name (up to a parenthesis), whether there is a parenthesis, and what follows the '}'. -/
def commentRef (rest : Str) : Option (Str × Bool × Str) :=
  match rest with
  | d :: x :: more =>
    if d = 36 then
      match cutAt 125 (x :: more) with
      | none => none
      | some (full, after) =>
        match cutAt 40 full with
        | some (name, _) => some (name, true, after)
        | none => some (full, false, after)
    else none
  | _ => none

/-- compiler.cpp:2877-2881, on the text before the '{', reversed. -/
def dropHash (out : Str) : Str :=
  match out with
  | c :: o => if c = 35 then o else c :: o
  | [] => []

/-- A message before the others. -/
def withErr (b : Bool) (e : Err) (r : Str × List Err) : Str × List Err := (r.1, if b then e :: r.2 else r.2)

/-- compiler.cpp:2864-2961, from the position `pos`: `out` is what is before `pos`, reversed. The result
is the comment and the messages in order. The recursion is on the number of characters after `pos`. -/
def commentLoop (E : Env) (s : St) : Nat → Str → Str → Str × List Err
  | 0, out, rest => (out.reverse ++ rest, [])
  | _ + 1, out, [] => (out.reverse, [])
  | f + 1, out, c :: rest =>
    if c ≠ 123 then commentLoop E s f (c :: out) rest
    else
      match commentRef rest with
      | none => commentLoop E s f (c :: out) rest
      | some (name, call, after) =>
        match s.get name with
        | none =>
          withErr (!E.emptyOnUndefined) .commentNotSet (commentLoop E s f (c :: out) rest)
        | some v =>
          if isFunction v.name then
            withErr true .commentFunction (commentLoop E s f (c :: out) rest)
          else
            withErr call .commentCall
              (commentLoop E s f ((E.toString v.value).reverse ++ dropHash out) after)

/-- Several messages at the same place. -/
def reports (pos : Pos) : List Err → M Unit
  | [] => pure ()
  | e :: es => do
    report e pos
    reports pos es

/-- compiler.cpp:2864-2964. -/
def comment (E : Env) (n : Nd) : M Nd := fun s =>
  match commentLoop E s (n.tok.str.length) [] n.tok.str with
  | (str, es) => (reports n.tok.pos es >>= fun _ => pure (.mk { n.tok with str := str } n.kids)) s

/-! ### compiler.cpp:2672-2862 @if and @else -/

/-- compiler.cpp:2672-2683: the children of n and the result of the expression. -/
def atExpr (E : Env) (kids : List Nd) : M (List Nd × Option Nd) := fun s =>
  match kids with
  | [] => .ok ([], none) s
  | c :: cs =>
    if c.ty = .OPEN_CURLYBRACKET then .ok (c :: cs, none) s
    else
      match E.expr s (c :: cs) with
      | none => .throws
      | some r => .ok (r.kids, r.result) r.st

/-- expression::boolean(). -/
def boolean (E : Env) (n : Nd) : M Bool := do
  let r := E.truth n
  reportIf r.2 .boolean n.tok.pos
  pure r.1

/-- `next->is(AT_KEYWORD) && next->get_string() == "else"` -/
def isElse (n : Nd) : Bool := decide (n.ty = .AT_KEYWORD ∧ n.tok.str = b!"else")

/-- The children of a block; an exception for a node that cannot have any (block->size()). -/
def blockKids (n : Nd) : M (List Nd) := if supportsChildren n.ty then pure n.kids else throws

/-- compiler.cpp:2692-2697, 2746-2749. -/
def nextIsElse (kids : List Nd) (idx : Nat) : Bool :=
  match kids[idx]? with
  | some next => isElse next
  | none => false

/-- `if(next) next->set_integer(v)` -/
def markNext (kids : List Nd) (idx : Nat) (next : Bool) (v : Int) : M (List Nd) :=
  if next then orThrow (setInt kids idx v) else pure kids

/-- compiler.cpp:2718-2726: the children of the block are inserted. -/
def insertBlock (kids : List Nd) (idx : Nat) (block : Nd) : M (List Nd) := do
  let b ← blockKids block
  orThrow (insertAll kids idx b)

/-- compiler.cpp:2685-2734; `kids` are the children of the parent without the @if. -/
def replaceIf (E : Env) (kids : List Nd) (n : Nd) (idx : Nat) : M (List Nd) := do
  let kids ← markNext kids idx (nextIsElse kids idx) 2
  let (nk, expr) ← atExpr E n.kids
  match nk, expr with
  | [_, block], some e => do
    let r ← boolean E e
    if r then insertBlock kids idx block
    else markNext kids idx (decide (idx < kids.length)) 1
  | _, _ => do
    report .ifSyntax n.tok.pos
    pure kids

/-- compiler.cpp:2779-2788: the children of the @else without `if` and the white space after it. -/
def dropIf (kids : List Nd) : List Nd := skipSpace kids.tail

/-- compiler.cpp:2819-2829, 2850: the block and the expression to test. -/
def elseBlock (nk : List Nd) (expr : Option Nd) : Option (Nd × Option Nd) :=
  match nk, expr with
  | [block], _ => some (block, none)
  | [_, block], some e => some (block, some e)
  | _, _ => none

/-- compiler.cpp:2818, 2838-2841. -/
def elseValue (E : Env) (status : Int) (cond : Option Nd) : M Bool :=
  match cond with
  | none => pure (decide (status = 1))
  | some e => if status = 1 then boolean E e else pure false

/-- compiler.cpp:2798-2861, once the expression (if any) is known: `nk` are the children of the @else. -/
def elseEnd (E : Env) (kids : List Nd) (n : Nd) (idx : Nat) (hasNext : Bool) (nk : List Nd)
    (expr : Option Nd) : M (List Nd) :=
  let status := n.tok.int
  if status = 0 then do
    report .elseAlone n.tok.pos
    pure kids
  else
    match elseBlock nk expr with
    | none => do
      report .elseSyntax n.tok.pos
      pure kids
    | some (block, cond) => do
      let r ← elseValue E status cond
      let kids ← markNext kids idx hasNext (if r then 2 else status)
      if r then insertBlock kids idx block else pure kids

/-- compiler.cpp:2736-2862; `kids` are the children of the parent without the @else. -/
def replaceElse (E : Env) (kids : List Nd) (n : Nd) (idx : Nat) : M (List Nd) :=
  let hasNext := nextIsElse kids idx
  if hasNext = true ∧ n.kids.length = 1 then do
    report .elseElse n.tok.pos
    pure kids
  else do
    let kids ← markNext kids idx hasNext 2
    match n.kids with
    | [] => throws
    | c :: _ =>
      if c.ty = .IDENTIFIER ∧ c.tok.str = b!"if" then
        let nk := dropIf n.kids
        if nk.length = 1 then do
          report .elseIf n.tok.pos
          pure kids
        else do
          let (nk, expr) ← atExpr E nk
          elseEnd E kids n idx hasNext nk expr
      else elseEnd E kids n idx hasNext n.kids none

/-! ### compiler.cpp:1962-2080 replace_variables(), 2564-2670 replace_at_keyword() -/

/-- compiler.cpp:1968-1991: the nodes with children that are looked at. -/
def walks : NT → Bool
  | .LIST | .AT_KEYWORD | .ARG | .COMPONENT_VALUE | .DECLARATION | .FUNCTION | .OPEN_CURLYBRACKET
  | .OPEN_PARENTHESIS | .OPEN_SQUAREBRACKET | .VARIABLE_FUNCTION => true
  | _ => false

/-- compiler.cpp:2020-2030: the children replace_variables() is called on. -/
def recurses : NT → Bool
  | .ARG | .COMMENT | .COMPONENT_VALUE | .DECLARATION | .FUNCTION | .LIST | .OPEN_CURLYBRACKET
  | .OPEN_PARENTHESIS | .OPEN_SQUAREBRACKET => true
  | _ => false

/-- compiler.cpp:2653-2657. -/
def isMessage (s : Str) : Bool :=
  decide (s = b!"error" ∨ s = b!"warning" ∨ s = b!"message" ∨ s = b!"info" ∨ s = b!"debug")

/-- compiler.cpp:1995-1996. -/
def isVarSet (n : Nd) : Bool := decide (n.ty = .COMPONENT_VALUE) && isSet n.kids

/-- compiler.cpp:170-171, 197-199: a '{' that accepts variables. -/
def isScope (n : Nd) : Bool := decide (n.ty = .OPEN_CURLYBRACKET) && n.tok.bool

/-- compiler.cpp:1999-2003: where the loop starts. -/
def firstIdx (n : Nd) : Nat :=
  if isVarSet n then
    (if n.kids.head?.map Nd.ty = some .VARIABLE_FUNCTION then n.kids.length else 1)
  else 0

mutual
/-- compiler.cpp:1962-2080; `none` when the node removes itself from its parent. -/
def replaceVars (E : Env) : Nat → Nd → M (Option Nd)
  | 0, _ => outOfFuel
  | f + 1, n =>
    if n.ty = .COMMENT then do
      let n ← comment E n
      pure (some n)
    else if walks n.ty = false then pure (some n)
    else if n.ty = .LIST ∧ n.kids.isEmpty = true then pure none
    else do
      enter (isScope n)
      let kids ← loop E f n.ty n.kids (firstIdx n)
      leave (isScope n)
      if isVarSet n then do
        setVariable (.mk n.tok kids)
        pure none
      else pure (some (.mk n.tok kids))

/-- compiler.cpp:2000-2062: the loop on the children of a node of type `parent`. -/
def loop (E : Env) : Nat → NT → List Nd → Nat → M (List Nd)
  | 0, _, _, _ => outOfFuel
  | f + 1, parent, kids, idx =>
    match kids[idx]? with
    | none => pure kids
    | some child =>
      if child.ty = .VARIABLE then do
        let kids ← replaceVariable E f parent (kids.eraseIdx idx) child idx
        loop E f parent kids idx
      else if child.ty = .VARIABLE_FUNCTION then do
        let child' ← replaceVars E f child
        let kids ← replaceVariable E f parent (kids.eraseIdx idx) (child'.getD child) idx
        loop E f parent kids idx
      else if recurses child.ty then do
        let child' ← replaceVars E f child
        match child' with
        | some c => loop E f parent (kids.set idx c) (idx + 1)
        | none => loop E f parent (kids.eraseIdx idx) idx
      else if child.ty = .AT_KEYWORD then do
        let (kids, idx) ← atKeyword E f parent kids child idx
        loop E f parent kids idx
      else loop E f parent kids (idx + 1)

/-- compiler.cpp:2564-2670 and 1629-1803. -/
def atKeyword (E : Env) : Nat → NT → List Nd → Nd → Nat → M (List Nd × Nat)
  | 0, _, _, _, _ => outOfFuel
  | f + 1, parent, kids, n, idx =>
    if n.tok.str = b!"mixin" then do
      handleMixin n
      pure (kids.eraseIdx idx, idx)
    else do
      let n' ← replaceVars E f n
      let n := n'.getD n
      if n.tok.str = b!"import" then do
        let (nk, expr) ← atExpr E n.kids
        let kids := kids.set idx (.mk n.tok nk)
        match expr with
        | none => pure (kids, idx + 1)
        | some e =>
          if e.ty = .STRING ∨ e.ty = .URL then
            match E.file e with
            | .alone => pure (kids, idx + 1)
            | .failed => do
              report .importErrors n.tok.pos
              pure (kids.eraseIdx idx, idx)
            | .loaded l => do
              let kids ← orThrow (insertAll (kids.eraseIdx idx) idx l)
              pure (kids, idx)
          else pure (kids, idx + 1)
      else if n.tok.str = b!"if" then do
        let kids ← replaceIf E (kids.eraseIdx idx) n idx
        pure (kids, idx)
      else if n.tok.str = b!"else" then do
        let kids ← replaceElse E (kids.eraseIdx idx) n idx
        pure (kids, idx)
      else if n.tok.str = b!"include" then
        match n.kids with
        | [] => do
          report .includeName n.tok.pos
          pure (kids.eraseIdx idx, idx)
        | id :: _ =>
          if id.ty ≠ .IDENTIFIER ∧ id.ty ≠ .FUNCTION then do
            report .includeName n.tok.pos
            pure (kids.eraseIdx idx, idx)
          else do
            let kids ← replaceVariable E f parent (kids.eraseIdx idx) id idx
            pure (kids, idx)
      else if isMessage n.tok.str then do
        let (nk, _) ← atExpr E n.kids
        pure (kids.set idx (.mk n.tok nk), idx + 1)
      else pure (kids.set idx n, idx + 1)

/-- compiler.cpp:2082-2368: the children of the parent (the reference is already removed) with the
value at `idx`. -/
def replaceVariable (E : Env) : Nat → NT → List Nd → Nd → Nat → M (List Nd)
  | 0, _, _, _, _ => outOfFuel
  | f + 1, parent, kids, n, idx => do
    let v ← get n.tok.str
    match v with
    | none => do
      reportIf (!E.emptyOnUndefined) .notSet n.tok.pos
      pure kids
    | some v =>
      if isFunction v.name then
        if isFunction n = false then do
          report .needsCall n.tok.pos
          pure kids
        else do
          let (n, _) ← argifyM n
          let vars ← bindArgs n.tok.pos v.name.kids n.kids []
          match vars with
          | none => pure kids
          | some vars => do
            let root := mark false (.mk { ty := .LIST, pos := v.value.tok.pos } [v.value])
            let root ← separately vars (replaceVars E f root)
            match root with
            | none => throws
            | some root => orThrow (insertValue parent kids idx (onlyBlock root))
      else if isFunction n then do
        report .notFunction n.tok.pos
        pure kids
      else orThrow (insertValue parent kids idx v.value)
end

/-- compiler.cpp:556 replace_variables(root): get_previous_parent() throws (compiler.cpp:143-152) when the
root would remove itself from its parent. -/
def replaceRoot (E : Env) (f : Nat) (root : Nd) : M Nd := do
  let r ← replaceVars E f root
  orThrow r

end Csspp.Vars
