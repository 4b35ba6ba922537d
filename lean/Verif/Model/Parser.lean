import Verif.Model.Node

/-!
Model of csspp/parser.cpp.

* The lexer is the list of the tokens it returns (`Lex.Tok`, the nodes made by Model/Lexer.lean);
  the head of the list is f_last_token. After the last token the lexer returns EOF_TOKEN for ever
  (proved of the lexer: C03). A token of type EOF_TOKEN may also be inside of the list: the lexer
  can do that, see C03.
* A node is a tree. The parser never shares a node between two parents, and it only modifies a
  node that it has a local pointer to: those are given as values and returned.
* The functions `f(n)` of the C++ code are always called with n == f_last_token (checked at each
  call: parser.cpp:69-97, 143, 148, 164, 200-204, 210, 261, 298, 315, 364, 393, 501, 535,
  567, 573, 581, 592, 624): n is the head of the list.
* Every access that throws when the type of the node has no children or no string, or when an index
  is out of range, is modelled with its exception.
* The recursion and the loops are bounded by `fuel`; `R.fuel` is what is returned when there is not
  enough of it. The depth of the C++ stack is not modelled.
* The messages are kept as a kind and a position (the text of the message is left out).
-/

namespace Csspp.Parse
open Csspp.Lex (Tok Pos)
open Csspp.Node (supportsChildren supportsString)

/-- A node: the fields and the children. -/
inductive Nd where
  | mk (tok : Tok) (kids : List Nd)

def Nd.tok : Nd → Tok
  | .mk t _ => t
def Nd.kids : Nd → List Nd
  | .mk _ k => k
/-- n->get_type() -/
def Nd.ty (n : Nd) : NT := n.tok.ty
/-- A token, as made by the lexer. -/
def Nd.leaf (t : Tok) : Nd := .mk t []

/-- The messages of the parser, all of them errors. -/
inductive Err where
  /-- parser.cpp:130, 186 -/
  | unexpectedClose
  /-- parser.cpp:176 -/
  | htmlComment
  /-- parser.cpp:214 -/
  | emptyAt
  /-- parser.cpp:229 -/
  | atEnd
  /-- parser.cpp:253 -/
  | semicolonRule
  /-- parser.cpp:266 -/
  | emptyRule
  /-- parser.cpp:276 -/
  | ruleEnd
  /-- parser.cpp:325 -/
  | notAtEnd
  /-- parser.cpp:356 -/
  | colonMissing
  /-- parser.cpp:464 -/
  | exclamation
  /-- parser.cpp:528 -/
  | blockSemicolon
  /-- parser.cpp:605, 637, 652 -/
  | blockEnd
  deriving DecidableEq, Repr

/-- The lexer, f_last_token and the messages (the last one first). -/
structure St where
  toks : List Tok
  /-- position of the end of the stream -/
  fin : Pos
  errs : List (Err × Pos)
  deriving Repr

/-- What a call does. -/
inductive R (α : Type) where
  | ok (v : α) (s : St)
  | throws
  | fuel

abbrev M (α : Type) := St → R α

instance : Monad M where
  pure v := fun s => .ok v s
  bind m f := fun s =>
    match m s with
    | .ok v s => f v s
    | .throws => .throws
    | .fuel => .fuel

def throws {α : Type} : M α := fun _ => .throws
def outOfFuel {α : Type} : M α := fun _ => .fuel

/-- f_last_token -/
def St.last (s : St) : Tok := s.toks.headD { ty := .EOF_TOKEN, pos := s.fin }

/-- f_last_token -/
def last : M Tok := fun s => .ok s.last s

/-- parser.cpp:99-104 next_token() -/
def next : M Unit := fun s => .ok () { s with toks := s.toks.tail }

/-- error::instance() << position << ... -/
def report (e : Err) (p : Pos) : M Unit := fun s => .ok () { s with errs := (e, p) :: s.errs }

/-! ### node.cpp: what the parser uses, on trees (the same as Model/Node.lean on a heap) -/

/-- `if(type_supports_children(f_type)) ... else throw` -/
def guard' {α : Type} (n : Nd) (m : M α) : M α := if supportsChildren n.ty then m else throws

/-- node.cpp:559-564. -/
def isEmpty (n : Nd) : M Bool := guard' n (pure n.kids.isEmpty)
/-- node.cpp:573-578. -/
def size (n : Nd) : M Nat := guard' n (pure n.kids.length)
/-- node.cpp:660-670. -/
def getChild (n : Nd) (i : Nat) : M Nd :=
  guard' n (match n.kids[i]? with | some c => pure c | none => throws)
/-- node.cpp:672-676. -/
def getLast (n : Nd) : M Nd :=
  guard' n (match n.kids.getLast? with | some c => pure c | none => throws)

/-- A list of children after add_child(c): an EOF_TOKEN is not added, nor a WHITESPACE after a
WHITESPACE. -/
def push (l : List Nd) (c : Nd) : List Nd :=
  if c.ty ≠ .EOF_TOKEN ∧ (c.ty ≠ .WHITESPACE ∨ l.isEmpty ∨ l.getLast?.map Nd.ty ≠ some .WHITESPACE) then
    l ++ [c]
  else l

/-- node.cpp:593-610. -/
def addChild (n c : Nd) : M Nd := guard' n (pure (.mk n.tok (push n.kids c)))

/-- node.cpp:648-658. -/
def removeAt (n : Nd) (i : Nat) : M Nd :=
  guard' n (if i < n.kids.length then pure (.mk n.tok (n.kids.eraseIdx i)) else throws)

/-- node.cpp:678-688; `c` is left without children and is not used any more. -/
def takeOver (n c : Nd) : M Nd := guard' n (guard' c (pure (.mk n.tok c.kids)))

/-- node.cpp:343-365. -/
def setString (n : Nd) (v : Str) : M Nd :=
  if supportsString n.ty then pure (.mk { n.tok with str := v } n.kids) else throws
def getString (t : Tok) : M Str := if supportsString t.ty then pure t.str else throws

/-- `!n->empty() && n->get_child(0)->is(WHITESPACE)`: remove it. -/
def dropFirst (n : Nd) : M Nd := do
  if ← isEmpty n then return n
  let c ← getChild n 0
  if c.ty = .WHITESPACE then removeAt n 0 else return n

/-- `!n->empty() && n->get_last_child()->is(WHITESPACE)`: remove it. -/
def dropLast (n : Nd) : M Nd := do
  if ← isEmpty n then return n
  let c ← getLast n
  if c.ty = .WHITESPACE then removeAt n (n.kids.length - 1) else return n

/-- The same with `while`, for the children of `list`, on the list of its children (that has no
other use of the node: list is always a COMPONENT_VALUE, which has children). -/
def dropFirsts (n : Nd) : M Nd := guard' n (pure (.mk n.tok (n.kids.dropWhile (fun c => c.ty = .WHITESPACE))))
def dropLasts (n : Nd) : M Nd :=
  guard' n (pure (.mk n.tok (n.kids.reverse.dropWhile (fun c => c.ty = .WHITESPACE)).reverse))

/-! ### parser.cpp:667-787: recognizing a list of component values -/

/-- `pos < n->size() && n->get_child(pos)->is(ty)` -/
def isAt (n : Nd) (pos : Nat) (ty : NT) : M Bool := do
  let sz ← size n
  if pos < sz then do
    let c ← getChild n pos
    return decide (c.ty = ty)
  else return false

/-- parser.cpp:693-698: the position after a possible WHITESPACE. -/
def skipAt (n : Nd) (pos : Nat) : M Nat := do
  let b ← isAt n pos .WHITESPACE
  if b then return pos + 1 else return pos

/-- parser.cpp:667-701. -/
def isVariableSet (n : Nd) (withBlock : Bool) : M Bool := do
  let sz ← size n
  if sz < 3 then return false
  let c0 ← getChild n 0
  if c0.ty ≠ .VARIABLE ∧ c0.ty ≠ .VARIABLE_FUNCTION then return false
  let c1 ← getChild n 1
  let pos := if c1.ty = .WHITESPACE then 2 else 1
  let c ← getChild n pos
  if c.ty ≠ .COLON then return false
  if withBlock = false then return true
  let pos ← skipAt n (pos + 1)
  isAt n pos .OPEN_CURLYBRACKET

/-- The three groups of parser.cpp:750-779: `some` result to return, `none` to go on. -/
def selectorPart : NT → Option Bool
  | .COLON | .PLACEHOLDER | .PRECEDED | .REFERENCE | .SCOPE => some false
  | .ADD | .COMMA | .GREATER_THAN | .HASH | .IDENTIFIER | .MULTIPLY | .OPEN_SQUAREBRACKET
  | .OPEN_CURLYBRACKET | .PERIOD | .WHITESPACE => none
  | _ => some true

/-- parser.cpp:748-786: the loop, on the children from `pos`. -/
def selectorLoop : List Nd → Bool
  | [] => false
  | c :: cs =>
    match selectorPart c.ty with
    | some b => b
    | none => selectorLoop cs

/-- parser.cpp:703-787. -/
def isNestedDeclaration (n : Nd) : M Bool := do
  let sz ← size n
  if sz < 3 then return false
  let c0 ← getChild n 0
  if c0.ty ≠ .IDENTIFIER then return false
  let l ← getLast n
  if l.ty ≠ .OPEN_CURLYBRACKET then return false
  let c1 ← getChild n 1
  let pos := if c1.ty = .WHITESPACE then 2 else 1
  let c ← getChild n pos
  if c.ty ≠ .COLON then return false
  let pos := pos + 1
  if pos ≥ sz then return false
  let c ← getChild n pos
  if c.ty = .WHITESPACE ∨ c.ty = .OPEN_CURLYBRACKET then return true
  let pos := if c.ty = .FUNCTION then pos + 1 else pos
  if pos ≥ sz then return false
  return selectorLoop (n.kids.drop pos)

/-! ### parser.cpp:369-665: component values and blocks -/

/-- The flags of parser.cpp:58-59. -/
structure Flags where
  onSemicolon : Bool
  onVariable : Bool

/-- The types that end a list: parser.cpp:380-389. -/
def stops (fl : Flags) (ty : NT) : Bool :=
  match ty with
  | .EOF_TOKEN | .CLOSE_PARENTHESIS | .CLOSE_SQUAREBRACKET | .CLOSE_CURLYBRACKET | .CDO | .CDC => true
  | .SEMICOLON => fl.onSemicolon
  | _ => false

/-- A new LIST or COMPONENT_VALUE at the position of a token. -/
def newNode (ty : NT) (t : Tok) : Nd := .mk { ty := ty, pos := t.pos } []

/-- `while(f_last_token->is(WHITESPACE)) next_token();` -/
def skipSpaces : Nat → M Unit
  | 0 => outOfFuel
  | f + 1 => do
    let t ← last
    if t.ty = .WHITESPACE then do next; skipSpaces f else return ()

/-- `if(f_last_token->is(WHITESPACE)) next_token();` -/
def skipSpace : M Unit := do
  let t ← last
  if t.ty = .WHITESPACE then next else return ()

/-- parser.cpp:549-552: keep `list` unless it is empty. -/
def addUnless (e : Bool) (result list : Nd) : M Nd :=
  if e then pure result else addChild result list

/-- parser.cpp:539-559, after the loop: `result` is the LIST without its last child `list`. -/
def listEnd (result list : Nd) : M Nd := do
  let list ← dropFirst list
  let list ← dropLast list
  let e ← isEmpty list
  let result ← addUnless e result list
  let sz ← size result
  if sz = 1 then getLast result else return result

/-- parser.cpp:430-472: an EXCLAMATION is the last token. -/
def exclamation (list : Nd) : M Nd := do
  let n ← last
  next
  skipSpace
  let ex ← last
  if ex.ty = .IDENTIFIER then do
    let list ← dropLast list
    let str ← getString ex
    let n ← setString (.leaf n) str
    let list ← addChild list n
    next
    skipSpace
    return list
  else do
    report .exclamation ex.pos
    return list

/-- parser.cpp:411-419: the end of a variable definition, when asked for. -/
def endsVariable (fl : Flags) (list : Nd) : M Bool :=
  if fl.onVariable then isVariableSet list false else pure false

/-- parser.cpp:474-482: no whitespace before a block. -/
def beforeBlock (ty : NT) (list : Nd) : M Nd :=
  if ty = .OPEN_CURLYBRACKET ∨ ty = .OPEN_SQUAREBRACKET ∨ ty = .OPEN_PARENTHESIS then dropLast list
  else pure list

/-- parser.cpp:511-517: the block just read is the value of a variable or of a declaration. -/
def isBlockValue (list : Nd) : M Bool := do
  let v ← isVariableSet list true
  if v then return true else isNestedDeclaration list

/-- parser.cpp:524-531 -/
def wantSemicolon (list : Nd) : M Unit := do
  let t ← last
  if t.ty = .SEMICOLON then return ()
  else do
    let c0 ← getChild list 0
    report .blockSemicolon c0.tok.pos

/-- parser.cpp:221-233: the end of an @-rule whose last child is `l`. -/
def atRuleEnd (at' : Tok) (l : Nd) : M Unit := do
  let t ← last
  if t.ty = .SEMICOLON then next
  else if l.ty ≠ .OPEN_CURLYBRACKET then report .atEnd at'.pos
  else return ()

/-- parser.cpp:598-612: the end of a block. -/
def closeBlock (b : Tok) (closing : NT) : M Unit := do
  let t ← last
  if t.ty = closing then next else report .blockEnd b.pos

/-- parser.cpp:628-645: the end of a turn of the loop of block_list(). -/
def betweenLists (b : Tok) : M Unit := do
  let t ← last
  if t.ty = .WHITESPACE ∨ t.ty = .CDO ∨ t.ty = .CDC then next
  else if t.ty = .CLOSE_PARENTHESIS ∨ t.ty = .CLOSE_SQUAREBRACKET then do
    report .blockEnd b.pos
    next
  else return ()

/-- parser.cpp:650-662: the end of block_list(). -/
def closeList (b : Tok) : M Unit := do
  let t ← last
  if t.ty ≠ .CLOSE_CURLYBRACKET then do
    report .blockEnd b.pos
    next
  else next

mutual

/-- parser.cpp:375-537: the loop `for(;; n = f_last_token)`; `result` is the LIST without its last
child, which is `list`. -/
def cvLoop : Nat → Flags → Nd → Nd → M Nd
  | 0, _, _, _ => outOfFuel
  | f + 1, fl, result, list => do
    let n ← last
    if stops fl n.ty then listEnd result list
    else if n.ty = .AT_KEYWORD then do
      let c ← atRule f
      let list ← addChild list c
      cvLoop f fl result list
    else if n.ty = .SEMICOLON then do
      next
      let list ← dropFirsts list
      let list ← dropLasts list
      let v ← endsVariable fl list
      if v then listEnd result list
      else do
        if ← isEmpty list then cvLoop f fl result list
        else do
          let result ← addChild result list
          cvLoop f fl result (newNode .COMPONENT_VALUE n)
    else if n.ty = .EXCLAMATION then do
      let list ← exclamation list
      cvLoop f fl result list
    else do
      let list ← beforeBlock n.ty list
      let c ← componentValue f
      let list ← addChild list c
      if n.ty = .OPEN_CURLYBRACKET then do
        let list ← dropFirsts list
        let d ← isBlockValue list
        if d = false then listEnd result list
        else do
          skipSpaces f
          wantSemicolon list
          cvLoop f fl result list
      else cvLoop f fl result list

/-- parser.cpp:369-374 component_value_list(f_last_token, flags) -/
def componentValueList : Nat → Flags → M Nd
  | 0, _ => outOfFuel
  | f + 1, fl => do
    let n ← last
    cvLoop f fl (newNode .LIST n) (newNode .COMPONENT_VALUE n)

/-- parser.cpp:207-237 at_rule(f_last_token) -/
def atRule : Nat → M Nd
  | 0 => outOfFuel
  | f + 1 => do
    let at' ← last
    next
    let n ← componentValueList f ⟨true, false⟩
    if ← isEmpty n then do
      report .emptyAt at'.pos
      return .leaf at'
    else do
      let l ← getLast n
      atRuleEnd at' l
      takeOver (.leaf at') n

/-- parser.cpp:562-588 component_value(f_last_token) -/
def componentValue : Nat → M Nd
  | 0 => outOfFuel
  | f + 1 => do
    let n ← last
    if n.ty = .OPEN_CURLYBRACKET then blockList f
    else if n.ty = .OPEN_SQUAREBRACKET then block f .CLOSE_SQUAREBRACKET
    else if n.ty = .OPEN_PARENTHESIS ∨ n.ty = .FUNCTION ∨ n.ty = .VARIABLE_FUNCTION then
      block f .CLOSE_PARENTHESIS
    else do
      next
      return .leaf n

/-- parser.cpp:590-615 block(f_last_token, closing_token) -/
def block : Nat → NT → M Nd
  | 0, _ => outOfFuel
  | f + 1, closing => do
    let b ← last
    next
    let children ← componentValueList f ⟨false, false⟩
    let r ← takeOver (.leaf b) children
    skipSpace
    closeBlock b closing
    return r

/-- parser.cpp:622-648: the loop of block_list(); `b` is the block so far. -/
def blockLoop : Nat → Nd → M Nd
  | 0, _ => outOfFuel
  | f + 1, b => do
    let children ← componentValueList f ⟨false, false⟩
    let b ← addChild b children
    betweenLists b.tok
    let t ← last
    if t.ty = .CLOSE_CURLYBRACKET ∨ t.ty = .EOF_TOKEN then return b
    else blockLoop f b

/-- parser.cpp:617-665 block_list(f_last_token) -/
def blockList : Nat → M Nd
  | 0 => outOfFuel
  | f + 1 => do
    let b ← last
    next
    let r ← blockLoop f (.leaf b)
    closeList b
    return r

end

/-! ### parser.cpp:106-367: rules and declarations -/

/-- A new EOF_TOKEN node. -/
def eofNode (t : Tok) : Nd := .leaf { ty := .EOF_TOKEN, pos := t.pos }

/-- parser.cpp:239-283 qualified_rule(f_last_token) -/
def qualifiedRule (f : Nat) : M Nd := do
  let n ← last
  if n.ty = .EOF_TOKEN then return .leaf n
  else if n.ty = .SEMICOLON then do
    next
    report .semicolonRule n.pos
    return eofNode n
  else do
    let result ← componentValueList f ⟨false, true⟩
    if ← isEmpty result then do
      report .emptyRule n.pos
      return result
    else do
      let l ← getLast result
      let v ← isVariableSet result false
      if v = false ∧ l.ty ≠ .OPEN_CURLYBRACKET then do
        report .ruleEnd n.pos
        return result
      else return result

/-- The closing brackets. -/
def isClose (ty : NT) : Bool :=
  match ty with
  | .CLOSE_CURLYBRACKET | .CLOSE_SQUAREBRACKET | .CLOSE_PARENTHESIS => true
  | _ => false

/-- parser.cpp:110-149: the loop of stylesheet(). -/
def stylesheetLoop : Nat → Nd → M Nd
  | 0, _ => outOfFuel
  | f + 1, result => do
    let n ← last
    if n.ty = .EOF_TOKEN then return result
    else if n.ty = .CDO ∨ n.ty = .CDC ∨ n.ty = .WHITESPACE then do
      next
      stylesheetLoop f result
    else if isClose n.ty then do
      report .unexpectedClose n.pos
      return result
    else if n.ty = .COMMENT then do
      let result ← addChild result (.leaf n)
      next
      stylesheetLoop f result
    else if n.ty = .AT_KEYWORD then do
      let c ← atRule f
      let result ← addChild result c
      stylesheetLoop f result
    else do
      let c ← qualifiedRule f
      let result ← addChild result c
      stylesheetLoop f result

/-- parser.cpp:106-156 stylesheet() -/
def stylesheet (f : Nat) : M Nd := do
  let n ← last
  stylesheetLoop f (newNode .LIST n)

/-- parser.cpp:171-205 rule() -/
def rule (f : Nat) : M Nd := do
  let n ← last
  if n.ty = .CDO ∨ n.ty = .CDC then do
    report .htmlComment n.pos
    return eofNode n
  else if isClose n.ty then do
    report .unexpectedClose n.pos
    return eofNode n
  else do
    skipSpace
    let n ← last
    if n.ty = .AT_KEYWORD then atRule f else qualifiedRule f

/-- parser.cpp:162-166: the loop of rule_list(). -/
def ruleLoop : Nat → Nd → M Nd
  | 0, _ => outOfFuel
  | f + 1, result => do
    let n ← last
    if n.ty = .EOF_TOKEN then return result
    else do
      let q ← rule f
      let result ← addChild result q
      if q.ty = .EOF_TOKEN then return result else ruleLoop f result

/-- parser.cpp:158-169 rule_list() -/
def ruleList (f : Nat) : M Nd := do
  let n ← last
  ruleLoop f (newNode .LIST n)

/-- parser.cpp:348-361 -/
def wantColon : M Unit := do
  let n ← last
  if n.ty = .COLON then next else report .colonMissing n.pos

/-- parser.cpp:335-367 declaration(f_last_token), an IDENTIFIER -/
def declaration (f : Nat) : M Nd := do
  let id ← last
  let str ← getString id
  let result ← setString (newNode .DECLARATION id) str
  next
  skipSpace
  wantColon
  let c ← componentValueList f ⟨true, false⟩
  addChild result c

/-- parser.cpp:289-321: the loop of declaration_list(). -/
def declarationLoop : Nat → Nd → M Nd
  | 0, _ => outOfFuel
  | f + 1, result => do
    skipSpace
    let n ← last
    if n.ty = .IDENTIFIER then do
      let c ← declaration f
      let result ← addChild result c
      let t ← last
      if t.ty = .SEMICOLON then do
        next
        declarationLoop f result
      else do
        skipSpace
        return result
    else if n.ty = .AT_KEYWORD then do
      let c ← atRule f
      let result ← addChild result c
      declarationLoop f result
    else return result

/-- parser.cpp:285-333 declaration_list() -/
def declarationList (f : Nat) : M Nd := do
  let n ← last
  let result ← declarationLoop f (newNode .LIST n)
  let t ← last
  if t.ty ≠ .EOF_TOKEN then do
    report .notAtEnd t.pos
    return result
  else return result

/-! ### parser.cpp:63-97: the public functions -/

/-- The public functions of parser.h:41-46. -/
inductive Entry where
  | stylesheet | ruleList | rule | declarationList | componentValueList | componentValue
  deriving DecidableEq, Repr

/-- parser.cpp:69-97. -/
def Entry.run (f : Nat) : Entry → M Nd
  | .stylesheet => Parse.stylesheet f
  | .ruleList => Parse.ruleList f
  | .rule => Parse.rule f
  | .declarationList => Parse.declarationList f
  | .componentValueList => Parse.componentValueList f ⟨true, false⟩
  | .componentValue => Parse.componentValue f

/-- The fuel given to the parser: proved to be enough for any list of tokens (C36). -/
def fuelFor (s : St) : Nat := 5 * s.toks.length + 10

/-- A call of a public function in a given state. -/
def call (e : Entry) (s : St) : R Nd := e.run (fuelFor s) s

/-- parser.cpp:63-67: a new parser on the tokens `ts`, which end at `fin`. -/
def start (ts : List Tok) (fin : Pos) : St := ⟨ts, fin, []⟩

/-! ### parser.cpp:789-871 argify() -/

/-- The messages of argify(): parser.cpp:838, 844, 853. -/
inductive ArgErr where
  | leading | doubled | trailing
  deriving DecidableEq, Repr

/-- What argify(n) does: the children of n after the call and the message when it returns false. -/
inductive ArgRes where
  | done (kids : List Nd) (err : Option ArgErr)
  | throws

/-- The values of the enumeration node_type_t (node.h:41-115) for the two separators. -/
def sepCode (sep : NT) : Int := if sep = .COMMA then 14 else 19

/-- parser.cpp:810-811: an ARG with its separator, at the position of n. -/
def mkArg (sep : NT) (pos : Pos) (kids : List Nd) : Nd :=
  .mk { ty := .ARG, pos := pos, int := sepCode sep } kids

/-- parser.cpp:814-867: the loop over the children of `temp`; n has the children `done` (finished
arguments) and, as its last child, the argument with the children `arg`. -/
def argLoop (sep : NT) (pos : Pos) (done : List Nd) (arg : List Nd) : List Nd → ArgRes
  | [] => .done (done ++ [mkArg sep pos arg]) none
  | c :: cs =>
    if c.ty = .OPEN_CURLYBRACKET then
      if cs.isEmpty = false then .throws else .done (done ++ [mkArg sep pos arg] ++ [c]) none
    else if c.ty = sep then
      let arg := (arg.reverse.dropWhile (fun c => c.ty = .WHITESPACE)).reverse
      if arg.isEmpty then
        .done (done ++ [mkArg sep pos arg]) (some (if done.isEmpty then .leading else .doubled))
      else if cs.isEmpty ∨ cs.head?.map Nd.ty = some .OPEN_CURLYBRACKET then
        .done (done ++ [mkArg sep pos arg]) (some .trailing)
      else argLoop sep pos (done ++ [mkArg sep pos arg]) [] cs
    else if c.ty ≠ .WHITESPACE ∨ arg.isEmpty = false then argLoop sep pos done (push arg c) cs
    else argLoop sep pos done arg cs

/-- parser.cpp:789-871 argify(n, separator); it returns true when there is no message. -/
def argify (n : Nd) (sep : NT) : ArgRes :=
  if sep ≠ .COMMA ∧ sep ≠ .DIVIDE then .throws
  else if supportsChildren n.ty = false then .throws
  else
    match n.kids with
    | [] => .done [] none
    | c :: cs =>
      if c.ty = .ARG then .done (c :: cs) none
      else argLoop sep n.tok.pos [] [] (c :: cs)

end Csspp.Parse
