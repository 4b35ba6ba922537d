import Verif.Model.Vars
import Verif.Model.Selector

/-!
Model of the pass of csspp/compiler.cpp that turns the component values into rules and declarations: compile(n),
compile_component_value(), compile_qualified_rule(), compile_declaration(), compile_declaration_values() and
compile_at_keyword() (616-1627). It runs after the variables were replaced (Model/Vars.lean) and before the nested
rules are taken out (Model/Expand.lean).

* A node is a tree of Model/Parser.lean.
* A test `child == n->get_child(idx)` after a call on `child` asks whether the call left `child` in its parent. Here
  the functions return an action: `keep n` (the same node, with other children) or `into l` (the node is
  replaced by the nodes `l`, which are then walked in their turn).
* Parameters (`Env`): the validation scripts of the selectors (Model/Selector.lean) and of the declarations,
  expression::compile_list() on an argument, expression::compile() on an @return (Model/ExprEval.lean), the comparison
  of a percentage with 0 and 1, and node::to_string().
* The messages of the selectors, of argify() and of the expressions have the position of the rule, of the
  declaration or one given by the parameter.
* Simplifications: what is left of the children of a rule with a wrong selector and of an @keyframes with an error is
  not kept (the node is left as it was); the flags of a declaration (!important) are not in the tree.
* The recursion and the loops are bounded by `fuel`; C67 gives the fuel that is enough.
-/

namespace Csspp.Compile
open Csspp.Parse (Nd ArgRes argify push)
open Csspp.Lex (Tok Pos Num Made)
open Csspp.Node (supportsChildren)

/-- The level of a message. -/
inductive Level where
  | error | warning | info | debug
  deriving DecidableEq, Repr

/-- The messages. -/
inductive Err where
  /-- compiler.cpp:1184-1186, 1194-1196, 1205-1207, 1215-1217: @error, @warning, @info and @debug -/
  | user (l : Level) (text : Str)
  /-- compiler.cpp:831-833 -/
  | noSelector
  /-- a message of parse_selector() -/
  | selector (e : Sel.Err)
  /-- compiler.cpp:3684-3690: an #id found twice -/
  | twice (id : Str)
  /-- compiler.cpp:905-907 -/
  | declSize
  /-- compiler.cpp:925-927, a warning -/
  | declTrick
  /-- compiler.cpp:937-939, a warning -/
  | declHash
  /-- compiler.cpp:943-945 -/
  | declName
  /-- compiler.cpp:961-963 -/
  | declColon
  /-- compiler.cpp:970-972, 986-988 -/
  | declEmpty
  /-- compiler.cpp:1074-1076, a warning -/
  | declFilter
  /-- parser.cpp:838-853 -/
  | args
  /-- a message of an expression -/
  | expr (l : Level)
  /-- compiler.cpp:1230-1232 -/
  | charsetString
  /-- compiler.cpp:1251-1253 -/
  | charsetName
  /-- compiler.cpp:1353-1355 -/
  | returnExpr
  /-- compiler.cpp:1453-1455, 1477-1479 -/
  | framesForm
  /-- compiler.cpp:1466-1468 -/
  | framesName
  /-- compiler.cpp:1493-1495 -/
  | framesItem
  /-- compiler.cpp:1501-1503, 1510-1512, 1518-1520 -/
  | frameForm
  /-- compiler.cpp:1535-1537 -/
  | frameList
  /-- compiler.cpp:1559-1561 -/
  | frameName
  /-- compiler.cpp:1571-1573 -/
  | framePercent
  /-- compiler.cpp:1580-1582 -/
  | framePosition
  deriving DecidableEq, Repr

/-- The level of each message (error_mode_t). -/
def Err.level : Err → Level
  | .user l _ => l
  | .expr l => l
  | .declTrick | .declHash | .declFilter => .warning
  | _ => .error

/-- f_return_result and the messages (the last one first). -/
structure St where
  ret : Option Nd := none
  errs : List (Err × Pos) := []

/-- What a call does; `undef` is the undefined behaviour of nth_child::parse(). -/
inductive R (α : Type) where
  | ok (v : α) (s : St)
  | throws
  | undef
  | fuel

abbrev M (α : Type) := St → R α

instance : Monad M where
  pure v := fun s => .ok v s
  bind m f := fun s =>
    match m s with
    | .ok v s => f v s
    | .throws => .throws
    | .undef => .undef
    | .fuel => .fuel

def throws {α : Type} : M α := fun _ => .throws
def undef {α : Type} : M α := fun _ => .undef
def outOfFuel {α : Type} : M α := fun _ => .fuel
/-- error::instance() << position << ... -/
def report (e : Err) (p : Pos) : M Unit := fun s => .ok () { s with errs := (e, p) :: s.errs }
/-- Several messages, in this order. -/
def reports : List (Err × Pos) → M Unit
  | [] => pure ()
  | e :: es => do
    report e.1 e.2
    reports es

/-- What a call did to its node in the children of its parent. -/
inductive Act where
  | keep (n : Nd)
  | into (l : List Nd)

/-- expression::compile() on the children of an @return. -/
structure RetRes where
  kids : List Nd
  result : Option Nd
  errs : List (Level × Pos)

/-- What is outside of these functions. -/
structure Env where
  /-- the validation scripts of the selectors -/
  sel : Sel.Env
  /-- validation/has-font-metrics: does the script accept the name of the field? -/
  metrics : Str → Bool
  /-- validation/slash-separator -/
  slash : Str → Bool
  /-- expression::compile_list() on the children of an argument: the new children and the messages; `none` for an
  exception -/
  arg : Bool → List Nd → Option (List Nd × List (Level × Pos))
  /-- expression::compile() on the children of an @return; `none` for an exception -/
  ret : List Nd → Option RetRes
  /-- is this percentage at least 0% and at most 100%? -/
  inUnit : Tok → Bool
  /-- node::to_string() -/
  toString : Nd → Str

/-! ### parser.cpp:703-787 is_nested_declaration() on the children (Model/Parser.lean has it on a node) -/

/-- parser.cpp:733-786: after the ':'. -/
def nestedAfter (kids : List Nd) : Bool :=
  match kids with
  | [] => false
  | c :: cs =>
    if c.ty = .WHITESPACE ∨ c.ty = .OPEN_CURLYBRACKET then true
    else if c.ty = .FUNCTION then Parse.selectorLoop cs
    else Parse.selectorLoop (c :: cs)

/-- parser.cpp:703-787. -/
def isNested (kids : List Nd) : Bool :=
  match kids with
  | c0 :: c1 :: c2 :: cs =>
    if c0.ty ≠ .IDENTIFIER then false
    else if (kids.getLast?.map Nd.ty) ≠ some .OPEN_CURLYBRACKET then false
    else if c1.ty = .WHITESPACE then
      if c2.ty = .COLON then nestedAfter cs else false
    else if c1.ty = .COLON then nestedAfter (c2 :: cs)
    else false
  | _ => false

/-! ### compiler.cpp:888-1012: the start of a declaration -/

/-- What compile_declaration() makes of the children. -/
inductive Head where
  /-- an error: the children that are left, a warning and the error -/
  | bad (kids : List Nd) (warn : Option (Err × Pos)) (err : Err) (pos : Pos)
  /-- a warning, the name and the values of the declaration -/
  | good (warn : Option (Err × Pos)) (name : Str) (values : List Nd)
  /-- get_child() past the end -/
  | throws

/-- compiler.cpp:966-989, after the ':' was removed: the optional WHITESPACE and the values. -/
def headValues (pos : Pos) (warn : Option (Err × Pos)) (id : Nd) : List Nd → Head
  | [] => .bad [id] warn .declEmpty pos
  | v :: vs =>
    if v.ty = .WHITESPACE then
      match vs with
      | [] => .bad [id] warn .declEmpty pos
      | v' :: vs => .good warn id.tok.str (v' :: vs)
    else .good warn id.tok.str (v :: vs)

/-- compiler.cpp:957-966: the ':'. -/
def headColon (pos : Pos) (warn : Option (Err × Pos)) (id next : Nd) (rest : List Nd) : Head :=
  if next.ty = .COLON then headValues pos warn id rest else .bad (id :: next :: rest) warn .declColon pos

/-- compiler.cpp:949-966: after the identifier. -/
def headSpace (pos : Pos) (warn : Option (Err × Pos)) (id : Nd) : List Nd → Head
  | [] => .throws
  | c :: cs =>
    if c.ty = .WHITESPACE then
      match cs with
      | [] => .throws
      | d :: ds => headColon pos warn id d ds
    else headColon pos warn id c cs

/-- compiler.cpp:901-989. `pos` is the position of the node. -/
def declHead (pos : Pos) : List Nd → Head
  | [] => .bad [] none .declSize pos
  | [c] => .bad [c] none .declSize pos
  | c0 :: c1 :: cs =>
    if c0.ty = .IDENTIFIER then headSpace pos none c0 (c1 :: cs)
    else if (c0.ty = .MULTIPLY ∨ c0.ty = .PERIOD) ∧ c1.ty = .IDENTIFIER then
      headSpace pos (some (.declTrick, c1.tok.pos)) c1 cs
    else if c0.ty = .HASH ∨ c0.ty = .EXCLAMATION then
      headSpace pos (some (.declHash, c0.tok.pos)) c0 (c1 :: cs)
    else .bad (c0 :: c1 :: cs) none .declName c0.tok.pos

/-- compiler.cpp:992-1004: the new node; its children are added one after the other. -/
def declNode (pos : Pos) (name : Str) (values : List Nd) : Nd :=
  .mk { ty := .DECLARATION, pos := pos, str := name } (values.foldl push [])

/-- compiler.cpp:1025-1047: are the values an expression? -/
def isExpr (kids : List Nd) : Bool :=
  match kids with
  | [] => false
  | c :: cs => decide (c.ty ≠ .OPEN_CURLYBRACKET) &&
      (c :: cs).all (fun c => decide (c.ty ≠ .LIST ∧ c.ty ≠ .COMPONENT_VALUE))

/-- compiler.cpp:1054-1062. -/
def ieFilter (name : Str) (c : Nd) : Bool :=
  decide (name = b!"filter" ∨ name = b!"-filter") &&
    (decide (c.ty = .FUNCTION) &&
        decide (c.tok.str = b!"alpha" ∨ c.tok.str = b!"chroma" ∨ c.tok.str = b!"gray" ∨ c.tok.str = b!"opacity") ||
      decide (c.ty = .IDENTIFIER) && decide (c.tok.str = b!"progid"))

/-- expr_unary.cpp:38-52 compile_args(). Simplification: what is not an ARG throws (argify() gives only ARG, unless
the first one is already an ARG, and the parser makes none; a node without children does throw). -/
def evalArgs (E : Env) (metrics : Bool) : List Nd → M (List Nd)
  | [] => pure []
  | c :: cs =>
    if cs.isEmpty = true ∧ c.ty = .OPEN_CURLYBRACKET then pure [c]
    else if c.ty ≠ .ARG then throws
    else
      match E.arg metrics c.kids with
      | none => throws
      | some (kids, errs) => do
        reports (errs.map fun e => (.expr e.1, e.2))
        let cs ← evalArgs E metrics cs
        pure (.mk c.tok kids :: cs)

/-- compiler.cpp:1096-1101: the values of a declaration that is an expression. The position of the message of
argify() is the one of the declaration. -/
def declArgs (E : Env) (n : Nd) : M Nd :=
  match argify n (if E.slash n.tok.str then .DIVIDE else .COMMA) with
  | .throws => throws
  | .done kids err => do
    reports (if err.isSome then [(.args, n.tok.pos)] else [])
    let kids ← evalArgs E (E.metrics n.tok.str) kids
    pure (.mk n.tok kids)

/-- compiler.cpp:1049-1103. -/
def declExpr (E : Env) (n : Nd) : M Nd :=
  match n.kids with
  | [] => pure n
  | c :: cs =>
    if isExpr (c :: cs) then
      if ieFilter n.tok.str c then do
        report .declFilter c.tok.pos
        pure n
      else declArgs E n
    else pure n

/-! ### compiler.cpp:1173-1256, 1341-1375 -/

/-- compiler.cpp:1178: the first child, unless it is a '{'. -/
def exprOf (kids : List Nd) : Option Nd :=
  match kids with
  | [] => none
  | c :: _ => if c.ty = .OPEN_CURLYBRACKET then none else some c

/-- compiler.cpp:1180-1219: the level of a message and the text when there is no expression. -/
def messageOf (at' : Str) : Option (Level × Str) :=
  if at' = b!"error" then some (.error, b!"@error reached")
  else if at' = b!"warning" then some (.warning, b!"@warning reached")
  else if at' = b!"info" ∨ at' = b!"message" then some (.info, b!"@message reached")
  else if at' = b!"debug" then some (.debug, b!"@debug reached")
  else none

/-- `std::isspace`, "C" locale. -/
def isSpaceC (c : Nat) : Bool := c == 32 || (9 ≤ c && c ≤ 13)

/-- compiler.cpp:1236-1248. -/
def charsetKey (s : Str) : Str :=
  (((s.dropWhile isSpaceC).reverse.dropWhile isSpaceC).reverse).map Lex.toLower

/-- compiler.cpp:1227-1255: the message about an @charset with these children. -/
def charsetError (kids : List Nd) : Option Err :=
  match kids with
  | [c] =>
    if c.ty = .STRING then (if charsetKey c.tok.str = b!"utf-8" then none else some .charsetName)
    else some .charsetString
  | _ => some .charsetString

/-- compiler.cpp:1350-1374. -/
def doReturn (E : Env) (t : Tok) (kids : List Nd) : M Nd :=
  match exprOf kids with
  | none => do
    report .returnExpr t.pos
    pure (.mk t kids)
  | some _ =>
    match E.ret kids with
    | none => throws
    | some r => do
      reports (r.errs.map fun e => (.expr e.1, e.2))
      (fun s => .ok () { s with ret := some (r.result.getD (.leaf { ty := .NULL_TOKEN, pos := t.pos })) } : M Unit)
      pure (.mk t r.kids)

/-! ### compiler.cpp:1451-1583: the form of @keyframes -/

/-- compiler.cpp:1543-1583: the position of a frame, as a percentage. -/
def framePos (E : Env) (c : Nd) : Except Err (Option Num × Option Made) :=
  if c.ty = .IDENTIFIER then
    if c.tok.str = b!"from" then .ok (some ⟨false, 0, [], 0⟩, none)
    else if c.tok.str = b!"to" then .ok (some ⟨false, 100, [], 0⟩, none)
    else .error .frameName
  else if c.ty = .PERCENT then
    if E.inUnit c.tok then .ok (c.tok.num, c.tok.made) else .error .framePercent
  else .error .framePosition

/-- compiler.cpp:1490-1592: one frame, before it is compiled. -/
def frameOf (E : Env) (n : Nd) : Except Err Nd :=
  if n.ty ≠ .COMPONENT_VALUE then .error .framesItem
  else
    match n.kids with
    | [pos, block] =>
      if block.ty ≠ .OPEN_CURLYBRACKET then .error .frameForm
      else
        match block.kids with
        | [c] =>
          if c.ty ≠ .COMPONENT_VALUE ∧ c.ty ≠ .LIST then .error .frameList
          else
            match framePos E pos with
            | .error e => .error e
            | .ok p =>
              .ok (.mk { ty := .FRAME, pos := pos.tok.pos, num := p.1, made := p.2 }
                (if c.ty = .COMPONENT_VALUE then [c] else c.kids))
        | _ => .error .frameForm
    | _ => .error .frameForm

/-- compiler.cpp:1451-1481: the name and the frames. -/
def framesOf (kids : List Nd) : Except Err (Nd × List Nd) :=
  match kids with
  | [id, block] =>
    if id.ty ≠ .IDENTIFIER then .error .framesName
    else if block.ty ≠ .OPEN_CURLYBRACKET then .error .framesForm
    else .ok (id, block.kids)
  | _ => .error .framesForm

/-- compiler.cpp:1261-1263. -/
def isMediaLike (s : Str) : Bool := decide (s = b!"document" ∨ s = b!"media" ∨ s = b!"supports")
/-- compiler.cpp:1302-1305. -/
def isFaceLike (s : Str) : Bool :=
  decide (s = b!"font-face" ∨ s = b!"page" ∨ s = b!"viewport" ∨ s = b!"-ms-viewport")
/-- compiler.cpp:1377-1379. -/
def isFrames (s : Str) : Bool := decide (s = b!"keyframes" ∨ s = b!"-o-keyframes" ∨ s = b!"-webkit-keyframes")

/-- The other children and the last one, when it is a '{'. -/
def endBlock (kids : List Nd) : Option (List Nd × Nd) :=
  match kids.getLast? with
  | some b => if b.ty = .OPEN_CURLYBRACKET then some (kids.dropLast, b) else none
  | none => none

/-- compiler.cpp:1270-1273 parser::argify(n); the children before the '{' after the call. -/
def mediaArgs (n : Nd) : M (List Nd) :=
  if n.kids.length > 1 then
    match argify n .COMMA with
    | .throws => throws
    | .done kids err => do
      reports (if err.isSome then [(.args, n.tok.pos)] else [])
      pure kids
  else pure n.kids

mutual
/-- compiler.cpp:677-818 compile_component_value(). -/
def compValue (E : Env) : Nat → Nd → M Act
  | 0, _ => outOfFuel
  | f + 1, .mk t kids =>
    if t.ty = .DECLARATION then pure (.keep (.mk t kids))
    else if supportsChildren t.ty = false then throws
    else
      match kids with
      | [] => pure (.keep (.mk t []))
      | c :: cs =>
        if c.ty = .COMMENT then pure (.into [c])
        else if c.ty = .ARG then throws
        else if (c :: cs).all (fun c => decide (c.ty = .COMPONENT_VALUE)) then pure (.into (c :: cs))
        else if (c :: cs).any (fun c => decide (c.ty = .COMPONENT_VALUE)) then throws
        else if c.ty = .AT_KEYWORD then do
          let r ← atKeyword E f c
          match r with
          | some c => pure (.keep (.mk t (c :: cs)))
          | none => if cs.isEmpty then pure (.into []) else pure (.keep (.mk t cs))
        else if Vars.isSetBlock (c :: cs) then throws
        else if isNested (c :: cs) then declaration E f t (c :: cs)
        else if (c :: cs).getLast?.map Nd.ty = some .OPEN_CURLYBRACKET then do
          let n ← rule E f t (c :: cs)
          pure (.keep n)
        else if Vars.isSet (c :: cs) then throws
        else declaration E f t (c :: cs)
/-- compiler.cpp:820-886 compile_qualified_rule(). -/
def rule (E : Env) : Nat → Tok → List Nd → M Nd
  | 0, _, _ => outOfFuel
  | f + 1, t, kids =>
    if kids.length ≤ 1 then do
      report .noSelector t.pos
      pure (.mk t kids)
    else
      match Sel.parseSelector E.sel (.mk t kids) with
      | .throws => throws
      | .undef => undef
      | .refused e => do
        report (.selector e) t.pos
        pure (.mk t kids)
      | .ok (kids, ids) => do
        reports (ids.map fun i => (.twice i, t.pos))
        match endBlock kids with
        | none => throws
        | some (sel, b) => do
          let bk ← ruleLoop E f b.kids
          pure (.mk t (sel ++ [.mk b.tok bk]))
/-- compiler.cpp:857-885: the children of the '{'. -/
def ruleLoop (E : Env) : Nat → List Nd → M (List Nd)
  | 0, _ => outOfFuel
  | _ + 1, [] => pure []
  | f + 1, c :: cs =>
    if c.ty = .LIST then do
      let k ← items E f c.kids
      let ns ← ruleLoop E f cs
      pure (.mk c.tok k :: ns)
    else if c.ty = .COMPONENT_VALUE then do
      let a ← compValue E f c
      match a with
      | .keep n => do
        let ns ← ruleLoop E f cs
        pure (n :: ns)
      | .into l => ruleLoop E f (l ++ cs)
    else do
      let ns ← ruleLoop E f cs
      pure (c :: ns)
/-- compiler.cpp:863-873: the children of a LIST. -/
def items (E : Env) : Nat → List Nd → M (List Nd)
  | 0, _ => outOfFuel
  | _ + 1, [] => pure []
  | f + 1, c :: cs => do
    let a ← compValue E f c
    match a with
    | .keep n => do
      let ns ← items E f cs
      pure (n :: ns)
    | .into l => items E f (l ++ cs)
/-- compiler.cpp:888-1106 compile_declaration(). -/
def declaration (E : Env) : Nat → Tok → List Nd → M Act
  | 0, _, _ => outOfFuel
  | f + 1, t, kids =>
    match declHead t.pos kids with
    | .throws => throws
    | .bad kids warn err pos => do
      reports (warn.toList ++ [(err, pos)])
      pure (.keep (.mk t kids))
    | .good warn name values =>
      if t.ty = .COMPONENT_VALUE then do
        reports warn.toList
        let n ← declExpr E (declNode t.pos name values)
        let k ← declValues E f n.kids
        pure (.into [.mk n.tok k])
      else throws
/-- compiler.cpp:1108-1171 compile_declaration_values(). After a COMPONENT_VALUE that replaced itself the index is
incremented all the same. -/
def declValues (E : Env) : Nat → List Nd → M (List Nd)
  | 0, _ => outOfFuel
  | _ + 1, [] => pure []
  | f + 1, c :: cs =>
    if c.ty = .LIST then do
      let k ← declValues E f c.kids
      let ns ← declValues E f cs
      pure (.mk c.tok k :: ns)
    else if c.ty = .OPEN_CURLYBRACKET then do
      let k ← declBlock E f c.kids
      let ns ← declValues E f cs
      pure (.mk c.tok k :: ns)
    else if c.ty = .COMPONENT_VALUE then do
      let a ← compValue E f c
      match a with
      | .keep n => do
        let ns ← declValues E f cs
        pure (n :: ns)
      | .into l =>
        match l ++ cs with
        | [] => pure []
        | x :: xs => do
          let ns ← declValues E f xs
          pure (x :: ns)
    else do
      let ns ← declValues E f cs
      pure (c :: ns)
/-- compiler.cpp:1126-1156: the children of a '{'. -/
def declBlock (E : Env) : Nat → List Nd → M (List Nd)
  | 0, _ => outOfFuel
  | _ + 1, [] => pure []
  | f + 1, c :: cs =>
    if c.ty = .LIST then do
      let k ← declValues E f c.kids
      let ns ← declBlock E f cs
      pure (.mk c.tok k :: ns)
    else if c.ty = .COMPONENT_VALUE then do
      let a ← compValue E f c
      match a with
      | .keep n => do
        let ns ← declBlock E f cs
        pure (n :: ns)
      | .into l => declBlock E f (l ++ cs)
    else if c.ty = .DECLARATION then do
      let ns ← declBlock E f cs
      pure (c :: ns)
    else throws
/-- compiler.cpp:1173-1627 compile_at_keyword(): `none` when the node was removed. -/
def atKeyword (E : Env) : Nat → Nd → M (Option Nd)
  | 0, _ => outOfFuel
  | f + 1, .mk t kids =>
    match messageOf t.str with
    | some (l, d) => do
      report (.user l (match exprOf kids with | some e => E.toString e | none => d)) t.pos
      pure none
    | none =>
      if t.str = b!"charset" then do
        reports ((charsetError kids).toList.map fun e => (e, t.pos))
        pure none
      else if isMediaLike t.str then
        match endBlock kids with
        | none => pure (some (.mk t kids))
        | some (_, b) => do
          let k ← mediaArgs (.mk t kids)
          let bk ← mediaLoop E f b.kids
          pure (some (.mk t ((if k.getLast?.map Nd.ty = some .OPEN_CURLYBRACKET then k.dropLast ++ [.mk b.tok bk] else k))))
      else if isFaceLike t.str then
        match endBlock kids with
        | none => pure (some (.mk t kids))
        | some (before, b) =>
          match b.kids with
          | [] => pure (some (.mk t kids))
          | c :: cs =>
            if c.ty = .LIST then do
              let k ← faceLoop E f c.kids
              pure (some (.mk t (before ++ [.mk b.tok (.mk c.tok k :: cs)])))
            else do
              let k ← faceLoop E f (c :: cs)
              pure (some (.mk t (before ++ [.mk b.tok k])))
      else if t.str = b!"return" then do
        let n ← doReturn E t kids
        pure (some n)
      else if isFrames t.str then
        match framesOf kids with
        | .error e => do
          report e t.pos
          pure (some (.mk t kids))
        | .ok (id, l) => do
          let r ← frames E f t.pos l
          match r with
          | none => pure (some (.mk t kids))
          | some fs => pure (some (.mk t (id :: fs)))
      else pure (some (.mk t kids))
/-- compiler.cpp:1275-1295: the children of the '{' of @media. -/
def mediaLoop (E : Env) : Nat → List Nd → M (List Nd)
  | 0, _ => outOfFuel
  | _ + 1, [] => pure []
  | f + 1, c :: cs =>
    if c.ty = .AT_KEYWORD then do
      let r ← atKeyword E f c
      match r with
      | some n => do
        let ns ← mediaLoop E f cs
        pure (n :: ns)
      | none => mediaLoop E f cs
    else do
      let a ← compValue E f c
      match a with
      | .keep n => do
        let ns ← mediaLoop E f cs
        pure (n :: ns)
      | .into l => mediaLoop E f (l ++ cs)
/-- compiler.cpp:1320-1336: the children of the '{' of @font-face, or of the LIST it starts with. -/
def faceLoop (E : Env) : Nat → List Nd → M (List Nd)
  | 0, _ => outOfFuel
  | _ + 1, [] => pure []
  | f + 1, c :: cs =>
    if c.ty = .COMPONENT_VALUE then do
      let a ← compValue E f c
      match a with
      | .keep n => do
        let ns ← faceLoop E f cs
        pure (n :: ns)
      | .into l => faceLoop E f (l ++ cs)
    else do
      let ns ← faceLoop E f cs
      pure (c :: ns)
/-- compiler.cpp:1487-1612: the frames one after the other, up to the first error; `pos` is the position of the
@keyframes. -/
def frames (E : Env) : Nat → Pos → List Nd → M (Option (List Nd))
  | 0, _, _ => outOfFuel
  | _ + 1, _, [] => pure (some [])
  | f + 1, pos, c :: cs =>
    match frameOf E c with
    | .error e => do
      report e pos
      pure none
    | .ok (.mk ft fk) => do
      let k ← compLoop E f fk
      let r ← frames E f pos cs
      match r with
      | none => pure none
      | some fs => pure (some (.mk ft k :: fs))
/-- compiler.cpp:616-675 compile(n). -/
def comp (E : Env) : Nat → Nd → M Act
  | 0, _ => outOfFuel
  | f + 1, .mk t kids =>
    if t.ty = .LIST ∨ t.ty = .FRAME then do
      let k ← compLoop E f kids
      pure (.keep (.mk t k))
    else if t.ty = .DECLARATION ∨ t.ty = .COMMENT then pure (.keep (.mk t kids))
    else if t.ty = .COMPONENT_VALUE then compValue E f (.mk t kids)
    else if t.ty = .AT_KEYWORD then do
      let r ← atKeyword E f (.mk t kids)
      match r with
      | some n => pure (.keep n)
      | none => pure (.into [])
    else throws
/-- compiler.cpp:628-641: the loop over the children of a LIST or of a FRAME; it ends at an @return. -/
def compLoop (E : Env) : Nat → List Nd → M (List Nd)
  | 0, _ => outOfFuel
  | _ + 1, [] => pure []
  | f + 1, c :: cs => fun s =>
    if s.ret.isSome then .ok (c :: cs) s
    else
      ((do
        let a ← comp E f c
        match a with
        | .keep n => do
          let ns ← compLoop E f cs
          pure (n :: ns)
        | .into l => compLoop E f (l ++ cs)) : M (List Nd)) s
end

end Csspp.Compile
