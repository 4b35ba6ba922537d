import Verif.Model.Parser
import Verif.Model.NthChild

/-!
Model of the selectors: csspp/compiler.cpp:2966-3722.

* A node is a tree of Model/Parser.lean. A function that gets a node and a position gets the list
  of its children and the position, and returns the new children and the new position.
* The validation scripts (compiler.cpp:3729-3859 and scripts/validation) are parameters: `run_validation()` is a
  function of the script and of the name given to it. The messages a script may write are one
  message (`Err.validation`).
* `to_string()` (compiler.cpp:3232-3237) is a parameter.
* What is left of the children after `return false` is not kept: the caller
  (compile_qualified_rule, compiler.cpp:820-886) stops there and there is an error.
-/

namespace Csspp.Sel
open Csspp.Parse (Nd)
open Csspp.Lex (Tok Pos)

/-- The messages. -/
inductive Err where
  /-- compiler.cpp:2987-2989 -/
  | attrIdent
  /-- compiler.cpp:3024-3026 -/
  | attrOp
  /-- compiler.cpp:3056-3059 -/
  | attrValue
  /-- compiler.cpp:3066-3069 -/
  | attrMore
  /-- compiler.cpp:3109 -/
  | attrForm
  /-- compiler.cpp:3142-3144, 3173-3175 -/
  | scopeEnd
  /-- compiler.cpp:3152-3154, 3182-3184 -/
  | scopeRhs
  /-- compiler.cpp:3195-3197, 3430-3432, 3481-3483 -/
  | colonEnd
  /-- compiler.cpp:3338-3340, 3515-3517 -/
  | colonRhs
  /-- a message of a validation script -/
  | validation
  /-- compiler.cpp:3251-3254: the message of nth_child -/
  | nth
  /-- compiler.cpp:3269-3271 -/
  | innerNot
  /-- compiler.cpp:3279-3281, 3326-3328 -/
  | lang
  /-- compiler.cpp:3351-3353 -/
  | periodEnd
  /-- compiler.cpp:3359-3361 -/
  | className
  /-- compiler.cpp:3373-3375, 3534-3536 -/
  | start
  /-- compiler.cpp:3379-3381, 3542-3544 -/
  | function
  /-- compiler.cpp:3385-3387, 3548-3550 -/
  | token
  /-- compiler.cpp:3416-3418 -/
  | reference
  /-- compiler.cpp:3462-3464 -/
  | notOne
  /-- compiler.cpp:3489-3491 -/
  | elementName
  /-- compiler.cpp:3505-3507 -/
  | elementLast
  /-- compiler.cpp:3613-3615 -/
  | combinatorEnd
  /-- parser.cpp:838-853 -/
  | args
  deriving DecidableEq, Repr

/-- What is outside of these functions: does the script accept the name? -/
structure Env where
  /-- validation/pseudo-classes -/
  pseudoClass : Str → Bool
  /-- validation/pseudo-nth-functions -/
  nthFunction : Str → Bool
  /-- validation/pseudo-functions -/
  pseudoFunction : Str → Bool
  /-- validation/pseudo-elements -/
  pseudoElement : Str → Bool
  /-- validation/languages -/
  language : Str → Bool
  /-- validation/countries -/
  country : Str → Bool
  /-- the concatenation of the to_string() of nodes -/
  text : List Nd → Str

/-- `true` and what was changed; `false` and the message; an exception; undefined behaviour (an
overflow in nth_child::parse()). -/
inductive Res (α : Type) where
  | ok (v : α)
  | refused (e : Err)
  | throws
  | undef
  deriving Repr

/-- The children and the position. -/
abbrev At := List Nd × Nat

/-- `is(node_type_t::WHITESPACE)` -/
def isWs (n : Nd) : Bool := n.ty == .WHITESPACE

/-- `if(term->is(WHITESPACE)) n->remove_child(...)`, when `t` is the first of the children left. -/
def dropWs (t : Nd) (k : List Nd) : List Nd := if isWs t then k else t :: k

/-- compiler.cpp:3016-3022. -/
def isAttrOp : NT → Bool
  | .EQUAL | .NOT_EQUAL | .INCLUDE_MATCH | .PREFIX_MATCH | .SUFFIX_MATCH | .SUBSTRING_MATCH
  | .DASH_MATCH => true
  | _ => false

/-- compiler.cpp:3051-3054. -/
def isAttrValue : NT → Bool
  | .IDENTIFIER | .STRING | .INTEGER | .DECIMAL_NUMBER => true
  | _ => false

/-- A new node. -/
def node (ty : NT) (pos : Pos) (str : Str) (kids : List Nd) : Nd :=
  .mk { ty := ty, pos := pos, str := str } kids

/-- compiler.cpp:3073-3105: the end of selector_attribute_check(), the children of `n` being
`name`, `op` and `value`. -/
def attrDone (parent : List Nd) (pos : Nat) (n name op value : Nd) : Res At :=
  if op.ty = .NOT_EQUAL then
    let k := parent.eraseIdx pos
    let k := k.take pos ++ node .COLON n.tok.pos [] [] :: k.drop pos
    let inner := .mk n.tok [name, node .EQUAL n.tok.pos [] [], value]
    let f := node .FUNCTION n.tok.pos b!"not" [inner]
    .ok (k.take (pos + 1) ++ f :: k.drop (pos + 1), pos + 2)
  else .ok (parent.set pos (.mk n.tok [name, op, value]), pos + 1)

/-- compiler.cpp:2966-3112 `selector_attribute_check(parent, parent_pos, n)`, n being the child of
the parent at parent_pos. -/
def attrCheck (parent : List Nd) (pos : Nat) (n : Nd) : Res At :=
  match n.kids with
  | [] => .throws
  | t :: k =>
    match dropWs t k with
    | [] => .refused .attrForm
    | name :: k =>
      if name.ty ≠ .IDENTIFIER then .refused .attrIdent
      else
        match k with
        | [] => .ok (parent.set pos (.mk n.tok [name]), pos + 1)
        | t :: k =>
          match dropWs t k with
          | [] => .ok (parent.set pos (.mk n.tok [name]), pos + 1)
          | op :: k =>
            if isAttrOp op.ty = false then .refused .attrOp
            else
              match k with
              | [] => .refused .attrForm
              | t :: k =>
                match dropWs t k with
                | [] => .refused .attrForm
                | value :: k =>
                  if isAttrValue value.ty = false then .refused .attrValue
                  else if k ≠ [] then .refused .attrMore
                  else attrDone parent pos n name op value

/-- An identifier or '*'. -/
def isName (ty : NT) : Bool := ty == .IDENTIFIER || ty == .MULTIPLY

/-- `s.substr(0, s.find('-'))`: the text before the first dash. -/
def beforeDash (s : Str) : Str := s.takeWhile (· != 45)
/-- What follows the first dash, "" if there is none. -/
def afterDash (s : Str) : Str := (s.dropWhile (· != 45)).drop 1

/-- compiler.cpp:3274-3330: the parameter of `:lang()`. -/
def langCheck (env : Env) (f : Nd) : Option Err :=
  match f.kids with
  | [t] =>
    if t.ty ≠ .IDENTIFIER then some .lang
    else if env.language (beforeDash t.tok.str) = false then some .validation
    else
      let country := beforeDash (afterDash t.tok.str)
      if country ≠ [] ∧ env.country country = false then some .validation else none
  | _ => some .lang

/-- compiler.cpp:3218-3333: ':' FUNCTION. `none` when the function is accepted, and its new
children. -/
def pseudoFunction (env : Env) (f : Nd) : Res Nd :=
  if env.nthFunction f.tok.str then
    let r := ({} : Nth.Nth).parse (env.text f.kids)
    if r.ub then .undef
    else if r.ok then
      .ok (.mk f.tok [.mk { ty := .AN_PLUS_B, pos := f.tok.pos, int := r.nth.getNth } []])
    else .refused .nth
  else if env.pseudoFunction f.tok.str = false then .refused .validation
  else if f.tok.str = b!"not" then .refused .innerNot
  else if f.tok.str = b!"lang" then
    match langCheck env f with
    | some e => .refused e
    | none => .ok f
  else .ok f

/-- compiler.cpp:3114-3396 `selector_simple_term(n, pos)`. -/
def simpleTerm (env : Env) (k : List Nd) (pos : Nat) : Res At :=
  match k[pos]? with
  | none => .throws
  | some term =>
    match term.ty with
    | .HASH => .ok (k, pos + 1)
    | .IDENTIFIER =>
      match k[pos + 1]? with
      | none => .ok (k, pos + 1)
      | some s =>
        if s.ty = .SCOPE then
          match k[pos + 2]? with
          | none => .refused .scopeEnd
          | some t => if isName t.ty then .ok (k, pos + 3) else .refused .scopeRhs
        else .ok (k, pos + 1)
    | .MULTIPLY =>
      match k[pos + 1]? with
      | none => .ok (k, pos + 1)
      | some s =>
        if s.ty = .SCOPE then
          match k[pos + 2]? with
          | none => .refused .scopeEnd
          | some t => if isName t.ty then .ok (k, pos + 3) else .refused .scopeRhs
        else if s.ty = .OPEN_SQUAREBRACKET ∨ s.ty = .PERIOD then .ok (k.eraseIdx pos, pos)
        else .ok (k, pos + 1)
    | .SCOPE =>
      match k[pos + 1]? with
      | none => .refused .scopeEnd
      | some t => if isName t.ty then .ok (k, pos + 2) else .refused .scopeRhs
    | .COLON =>
      match k[pos + 1]? with
      | none => .refused .colonEnd
      | some t =>
        if t.ty = .IDENTIFIER then
          if env.pseudoClass t.tok.str then .ok (k, pos + 2) else .refused .validation
        else if t.ty = .FUNCTION then
          match pseudoFunction env t with
          | .ok f => .ok (k.set (pos + 1) f, pos + 2)
          | .refused e => .refused e
          | .throws => .throws
          | .undef => .undef
        else .refused .colonRhs
    | .PERIOD =>
      match k[pos + 1]? with
      | none => .refused .periodEnd
      | some t => if t.ty = .IDENTIFIER then .ok (k, pos + 2) else .refused .className
    | .OPEN_SQUAREBRACKET => attrCheck k pos term
    | .GREATER_THAN | .ADD | .PRECEDED => .refused .start
    | .FUNCTION => .refused .function
    | _ => .refused .token

/-- compiler.cpp:3442-3470: ':' 'not(' ... ')': the children of the function. -/
def notTerm (env : Env) (kids : List Nd) : Res (List Nd) :=
  match simpleTerm env kids 0 with
  | .ok (kids, sub) => if sub < kids.length then .refused .notOne else .ok kids
  | .refused e => .refused e
  | .throws => .throws
  | .undef => .undef

/-- compiler.cpp:3398-3559 `selector_term(n, pos)`. -/
def term (env : Env) (k : List Nd) (pos : Nat) : Res At :=
  match k[pos]? with
  | none => .throws
  | some t =>
    match t.ty with
    | .PLACEHOLDER => .ok (k, pos + 1)
    | .REFERENCE => if pos ≠ 0 then .refused .reference else .ok (k, pos + 1)
    | .COLON =>
      match k[pos + 1]? with
      | none => .refused .colonEnd
      | some t =>
        if t.ty = .IDENTIFIER then simpleTerm env k pos
        else if t.ty = .FUNCTION then
          if t.tok.str = b!"not" then
            match notTerm env t.kids with
            | .ok kids => .ok (k.set (pos + 1) (.mk t.tok kids), pos + 2)
            | .refused e => .refused e
            | .throws => .throws
            | .undef => .undef
          else simpleTerm env k pos
        else if t.ty = .COLON then
          match k[pos + 2]? with
          | none => .refused .colonEnd
          | some t =>
            if t.ty ≠ .IDENTIFIER then .refused .elementName
            else if env.pseudoElement t.tok.str = false then .refused .validation
            else if pos + 3 < k.length then .refused .elementLast
            else .ok (k, pos + 3)
        else .refused .colonRhs
    | .HASH | .IDENTIFIER | .MULTIPLY | .OPEN_SQUAREBRACKET | .PERIOD | .SCOPE => simpleTerm env k pos
    | .GREATER_THAN | .ADD | .PRECEDED => .refused .start
    | .FUNCTION => .refused .function
    | _ => .refused .token

/-- compiler.cpp:3592-3594. -/
def isCombinator (ty : NT) : Bool := ty == .GREATER_THAN || ty == .ADD || ty == .PRECEDED

/-- compiler.cpp:3607-3632: after a binary operator, the position being right after it. -/
def afterCombinator (k : List Nd) (pos : Nat) : Res At :=
  match k[pos]? with
  | none => .refused .combinatorEnd
  | some t =>
    if isWs t then
      if pos < (k.eraseIdx pos).length then .ok (k.eraseIdx pos, pos) else .throws
    else .ok (k, pos)

/-- compiler.cpp:3592-3633: a possible binary operator at `pos`. -/
def combinator (k : List Nd) (pos : Nat) (t : Nd) : Res At :=
  if isCombinator t.ty then
    if (k[pos - 1]?).any isWs then afterCombinator (k.eraseIdx (pos - 1)) pos
    else afterCombinator k (pos + 1)
  else .ok (k, pos)

/-- compiler.cpp:3576-3590: skip a WHITESPACE before the next term or operator. -/
def between (k : List Nd) (pos : Nat) (t : Nd) : Res At :=
  if isWs t then
    match k[pos + 1]? with
    | none => .throws
    | some t => combinator k (pos + 1) t
  else combinator k pos t

/-- compiler.cpp:3561-3641 `selector_list(n, pos)`; returns the children (the position is then
their number). Each turn of the loop reads a term, so the number of children + 1 is enough fuel
(proved). -/
def list (env : Env) : Nat → List Nd → Nat → Res (List Nd)
  | 0, _, _ => .undef
  | fuel + 1, k, pos =>
    match term env k pos with
    | .refused e => .refused e
    | .throws => .throws
    | .undef => .undef
    | .ok (k, pos) =>
      match k[pos]? with
      | none => .ok k
      | some t =>
        match between k pos t with
        | .refused e => .refused e
        | .throws => .throws
        | .undef => .undef
        | .ok (k, pos) => list env fuel k pos

/-- selector_list(arg, 0). -/
def selectorList (env : Env) (k : List Nd) : Res (List Nd) := list env (k.length + 1) k 0

/-- compiler.cpp:3672-3696: the messages for the #id found twice; `seen` is the map. -/
def hashErrors (seen : List Str) : List Nd → List Str
  | [] => []
  | c :: cs =>
    if c.ty = .HASH then
      if c.tok.str ∈ seen then c.tok.str :: hashErrors seen cs
      else hashErrors (c.tok.str :: seen) cs
    else hashErrors seen cs

/-- compiler.cpp:3650-3719: the loop over the arguments; the new children and the #id found twice in
an argument. -/
def selectors (env : Env) : List Nd → Res (List Nd × List Str)
  | [] => .ok ([], [])
  | arg :: rest =>
    if arg.ty = .OPEN_CURLYBRACKET then .ok (arg :: rest, [])
    else if arg.ty ≠ .ARG then .throws
    else
      match selectorList env arg.kids with
      | .refused e => .refused e
      | .throws => .throws
      | .undef => .undef
      | .ok k =>
        match selectors env rest with
        | .refused e => .refused e
        | .throws => .throws
        | .undef => .undef
        | .ok (rest, ids) => .ok (.mk arg.tok k :: rest, hashErrors [] k ++ ids)

/-- compiler.cpp:3643-3722 `parse_selector(n)`: the children of n and the errors about #id (the message
about several #id, compiler.cpp:3701, is only an information). -/
def parseSelector (env : Env) (n : Nd) : Res (List Nd × List Str) :=
  match Parse.argify n .COMMA with
  | .throws => .throws
  | .done _ (some _) => .refused .args
  | .done kids none => selectors env kids

end Csspp.Sel
