import Verif.Model.Parser

/-!
What a style sheet looks like before and after it is compiled: the trees that the parser and the replacement of
the variables give, and the trees in which there is nothing left to compile.
-/

namespace Csspp.Spec.Compiled
open Csspp.Parse (Nd)

/-- @media, @document and @supports: their block is a list of rules. -/
def mediaNames : List Str := [b!"document", b!"media", b!"supports"]
/-- @font-face, @page, @viewport: their block is a list of declarations. -/
def faceNames : List Str := [b!"font-face", b!"page", b!"viewport", b!"-ms-viewport"]
/-- @keyframes. -/
def frameNames : List Str := [b!"keyframes", b!"-o-keyframes", b!"-webkit-keyframes"]

/-- The nodes that may have something to compile inside. -/
def holds : NT → Bool
  | .COMPONENT_VALUE | .LIST | .FRAME | .OPEN_CURLYBRACKET | .DECLARATION | .AT_KEYWORD => true
  | _ => false

/-- A component value that was compiled starts with its selectors (ARG) or is an @-rule. -/
def compiledCv (kids : List Nd) : Bool :=
  match kids with
  | [] => true
  | c :: _ => decide (c.ty = .ARG ∨ c.ty = .AT_KEYWORD)

mutual
/-- Nothing is left to compile: a component value is a rule with its selectors or an @-rule, everywhere but inside of
the expressions, of the selectors and of the @-rules that the compiler does not know. -/
def finished : Nd → Bool
  | .mk t kids =>
    if holds t.ty = false then true
    else if t.ty = .AT_KEYWORD ∧ t.str ∉ mediaNames ++ faceNames ++ frameNames then true
    else if t.ty = .COMPONENT_VALUE then compiledCv kids && finishedAll kids
    else finishedAll kids
def finishedAll : List Nd → Bool
  | [] => true
  | c :: cs => finished c && finishedAll cs
end

/-- The children look like `name : ...`. -/
def named (kids : List Nd) : Bool :=
  match kids with
  | c0 :: c1 :: c2 :: _ =>
    decide (c0.ty = .IDENTIFIER ∧ (c1.ty = .COLON ∨ c1.ty = .WHITESPACE ∧ c2.ty = .COLON))
  | _ => false

/-- A component value that stands for a declaration or a rule, and not for a comment, an @-rule or a list. -/
def single (n : Nd) : Bool :=
  match n.kids with
  | [] => true
  | c :: _ => decide (c.ty ≠ .COMMENT ∧ c.ty ≠ .AT_KEYWORD ∧ c.ty ≠ .COMPONENT_VALUE)

/-- The place of a node, or of the children of a node. -/
inductive Place where
  /-- in a style sheet -/
  | top
  /-- a component value in a list of component values -/
  | value
  /-- in a list in a rule -/
  | item
  /-- in the '{' of a rule -/
  | inRule
  /-- in the '{' of a declaration -/
  | inDecl
  /-- in a LIST in the '{' of a declaration -/
  | declItem
  /-- in the '{' of @media -/
  | media
  /-- the children of the '{' of @font-face: a LIST is looked into only when it comes first -/
  | face
  /-- in that LIST, or after the first one when it is not a LIST -/
  | faceItem
  /-- in the '{' of @keyframes -/
  | keyframe
  /-- in the '{' of one frame -/
  | frame
  /-- an @-rule -/
  | at
  /-- nothing to compile -/
  | done
  /-- a token with nothing to compile inside -/
  | token
  /-- the children of a component value or of an @-rule: tokens, then a token or a '{' block with its children
  in `block` -/
  | body (block : Place)
  /-- the last one of these -/
  | last (block : Place)

/-- What is expected inside of a node. -/
inductive Inside where
  | known (b : Bool)
  | kids (p : Place)

/-- The children of a component value: component values, one @-rule, or a declaration or a rule. -/
def insideCv (kids : List Nd) : Inside :=
  if kids.all (fun c => decide (c.ty = .COMPONENT_VALUE)) then .kids .value
  else if kids.head?.map Nd.ty = some .AT_KEYWORD then (if kids.length = 1 then .kids .at else .known false)
  else .kids (.body (if named kids then .inDecl else .inRule))

/-- The children of an @-rule. -/
def insideAt (name : Str) : Inside :=
  if name ∈ mediaNames then .kids (.body .media)
  else if name ∈ faceNames then .kids (.body .face)
  else if name ∈ frameNames then .kids (.body .keyframe)
  else .known true

/-- A node at a place. -/
def inside (p : Place) (n : Nd) : Inside :=
  match p with
  | .top =>
    if n.ty = .LIST ∨ n.ty = .FRAME then .kids .top
    else if n.ty = .COMPONENT_VALUE then insideCv n.kids
    else if n.ty = .AT_KEYWORD then insideAt n.tok.str
    else .known (finished n)
  | .value => if n.ty = .COMPONENT_VALUE then insideCv n.kids else .known false
  | .item =>
    if n.ty = .COMPONENT_VALUE then insideCv n.kids
    else .known (decide (n.ty = .DECLARATION ∨ n.ty = .COMMENT) && finished n)
  | .inRule =>
    if n.ty = .LIST then .kids .item
    else if n.ty = .COMPONENT_VALUE then insideCv n.kids
    else .known (finished n)
  | .inDecl =>
    if n.ty = .LIST then .kids .declItem
    else if n.ty = .COMPONENT_VALUE then insideCv n.kids
    else .known (finished n)
  | .declItem =>
    if n.ty = .COMPONENT_VALUE then (if single n then insideCv n.kids else .known false)
    else .known (decide (n.ty = .DECLARATION) && finished n)
  | .media =>
    if n.ty = .LIST then .kids .value
    else if n.ty = .COMPONENT_VALUE then insideCv n.kids
    else if n.ty = .AT_KEYWORD then insideAt n.tok.str
    else .known (decide (n.ty = .DECLARATION ∨ n.ty = .COMMENT) && finished n)
  | .face =>
    if n.ty = .LIST then .kids .faceItem
    else if n.ty = .COMPONENT_VALUE then insideCv n.kids
    else .known (finished n)
  | .faceItem => if n.ty = .COMPONENT_VALUE then insideCv n.kids else .known (finished n)
  | .keyframe => if n.ty = .COMPONENT_VALUE then .kids (.body .frame) else .known false
  | .frame =>
    if n.ty = .LIST then .kids .top
    else if n.ty = .COMPONENT_VALUE then insideCv n.kids
    else .known false
  | .at => if n.ty = .AT_KEYWORD then insideAt n.tok.str else .known false
  | .done => .known (finished n)
  | .token => .known (!holds n.ty)
  | .body _ => .known false
  | .last block => if n.ty = .OPEN_CURLYBRACKET then .kids block else .known (!holds n.ty)

/-- The place of the first one of some children, and of the others. -/
def firstPlace (p : Place) (alone : Bool) : Place :=
  match p with
  | .body block => if alone then .last block else .token
  | p => p
def nextPlace (p : Place) (first : NT) : Place :=
  match p with
  | .face => if first = .LIST then .done else .faceItem
  | p => p

mutual
/-- The tree is one that the compiler is given: the component values are component values, or an @-rule, or tokens
that may end with a block; and the lists in the blocks of the declarations have no comments, no @-rules and no
lists of component values. -/
def ready (p : Place) : Nd → Bool
  | .mk t kids =>
    match inside p (.mk t kids) with
    | .known b => b
    | .kids q => readyAll q kids
def readyAll (p : Place) : List Nd → Bool
  | [] => true
  | c :: cs => ready (firstPlace p cs.isEmpty) c && readyAll (nextPlace p c.ty) cs
end

end Csspp.Spec.Compiled
