import Verif.Model.Parser

/-!
Model of the last pass of csspp/compiler.cpp: expand_nested_components(), expand_nested_rules() and
expand_nested_declarations() (3861-4176), which take the nested rules out of the rules and the nested declarations out
of the declarations.

* A node is a tree of Model/Parser.lean; clone() is the identity on these trees (C34).
* The code moves nodes to a place of the tree that its caller is walking. Here a function returns what is left in
  place of its node (`none` when it removed it) and the nodes it inserted, and the caller puts
  them where the C++ code inserts them. A test `child == n->get_child(idx)` asks whether `child` was left
  in place; what was inserted right after `child` is then walked in its turn.
* `last`, `declaration_root`: the node after which the next one is inserted is the last one inserted, so that the nodes
  follow one another in the order in which they were found.
* Simplification: a COMPONENT_VALUE or a DECLARATION that is the root of the whole tree (get_previous_parent() throws)
  is not considered, the root is a LIST.
* The loops are bounded by `fuel`.
-/

namespace Csspp.Expand
open Csspp.Parse (Nd push)
open Csspp.Lex (Tok Pos)

/-- What a call does. The only message is "a nested declaration cannot include a rule.", at a position. -/
inductive R (α : Type) where
  | ok (a : α) (errs : List Pos)
  /-- csspp_exception_logic (compiler.cpp:4136) -/
  | throws
  /-- not enough fuel -/
  | fuel
deriving DecidableEq

def R.bind {α β : Type} : R α → (α → R β) → R β
  | .ok a e, f => match f a with
    | .ok b e' => .ok b (e ++ e')
    | .throws => .throws
    | .fuel => .fuel
  | .throws, _ => .throws
  | .fuel, _ => .fuel

instance : Monad R where
  pure a := .ok a []
  bind := R.bind

/-- compiler.cpp:4104: the name of a declaration found in a declaration called `name`. -/
def subName (name sub : Str) : Str := (if name = b!"-csspp-null" then [] else name ++ b!"-") ++ sub

mutual
/-- compiler.cpp:4076-4176, expand_nested_declarations(): what is left in place of the node, and the declarations
that were inserted after the ones that were already taken out. -/
def nested (name : Str) : Nd → R (Option Nd × List Nd)
  | .mk t kids =>
    if t.ty = .DECLARATION then
      (nestedAll (subName name t.str) kids).bind fun r =>
        .ok (none, .mk { t with str := subName name t.str } r.1 :: r.2) []
    else if t.ty = .AT_KEYWORD then .throws
    else if t.ty = .LIST ∨ t.ty = .OPEN_CURLYBRACKET then
      (nestedAll name kids).bind fun r => .ok (if r.1.isEmpty then none else some (.mk t r.1), r.2) []
    else if t.ty = .COMPONENT_VALUE then .ok (some (.mk t kids), []) [t.pos]
    else .ok (some (.mk t kids), []) []
/-- compiler.cpp:4112-4121, 4148-4157: the loop on the children. -/
def nestedAll (name : Str) : List Nd → R (List Nd × List Nd)
  | [] => .ok ([], []) []
  | n :: ns =>
    (nested name n).bind fun r => (nestedAll name ns).bind fun rs =>
      .ok (r.1.toList ++ rs.1, r.2 ++ rs.2) []
end

/-- compiler.cpp:3890-3900, 4026-4036: the loop on the children of a declaration. declaration_root is the declaration
itself again for each child, so that what is taken out of a child comes before what was taken out of the children
before it. -/
def declAll (name : Str) : List Nd → R (List Nd × List Nd)
  | [] => .ok ([], []) []
  | n :: ns =>
    (nested name n).bind fun r => (declAll name ns).bind fun rs =>
      .ok (r.1.toList ++ rs.1, rs.2 ++ r.2) []

/-- compiler.cpp:3975-3985, 3990-3993: the ARG at the start of a rule. -/
def args (kids : List Nd) : List Nd := kids.takeWhile (fun c => c.ty = .ARG)
def afterArgs (kids : List Nd) : List Nd := kids.dropWhile (fun c => c.ty = .ARG)

/-- compiler.cpp:4000-4012: `first` tells whether the item is the first one of its ARG. -/
def joinItems (pos : Pos) : Bool → List Nd → List Nd → List Nd
  | _, clone, [] => clone
  | first, clone, item :: items =>
    if item.ty = .REFERENCE then joinItems pos false clone items
    else joinItems pos false
      (push (if first then push clone (.leaf { ty := .WHITESPACE, pos := pos }) else clone) item) items

/-- compiler.cpp:3995-4013: the ARG `arg` of the outer rule followed by all the ARG `l` of the inner rule. -/
def join (arg : Nd) (l : List Nd) : Nd :=
  .mk arg.tok (l.foldl (fun clone a => joinItems arg.tok.pos true clone a.kids) arg.kids)

/-- compiler.cpp:3974-4015: the children of the inner rule; `root` are the ARG of the outer rule. -/
def joinKids (root : List Nd) (kids : List Nd) : List Nd :=
  root.map (fun a => join a (args kids)) ++ afterArgs kids

mutual
/-- compiler.cpp:3928-4074, expand_nested_rules(). `root` are the ARG of the rule that contains the node. Returns what
is left in place of the node, what was inserted right after it in its parent and the rules that were
inserted after the outermost rule. -/
def rules : Nat → List Nd → Nd → R (Option Nd × List Nd × List Nd)
  | 0, _, _ => .fuel
  | f + 1, root, .mk t kids =>
    if t.ty = .COMPONENT_VALUE then
      let kids' := joinKids root kids
      (rulesLoop f (args kids') kids').bind fun r => .ok (none, [], .mk t r.1 :: r.2) []
    else if t.ty = .DECLARATION then
      (declAll t.str kids).bind fun r => .ok (if r.1.isEmpty then none else some (.mk t r.1), r.2, []) []
    else if t.ty = .AT_KEYWORD then
      (compsLoop f kids).bind fun ks => .ok (some (.mk t ks), [], []) []
    else if t.ty = .LIST ∨ t.ty = .OPEN_CURLYBRACKET then
      (rulesLoop f root kids).bind fun r => .ok (some (.mk t r.1), [], r.2) []
    else .ok (some (.mk t kids), [], []) []
/-- compiler.cpp:3870-3878, 4019-4028, 4056-4065: the loop on the children: what they become and the rules taken out of
them. -/
def rulesLoop : Nat → List Nd → List Nd → R (List Nd × List Nd)
  | 0, _, _ => .fuel
  | _ + 1, _, [] => .ok ([], []) []
  | f + 1, root, n :: ns =>
    (rules f root n).bind fun r => (rulesLoop f root (r.2.1 ++ ns)).bind fun rs =>
      .ok (r.1.toList ++ rs.1, r.2.2 ++ rs.2) []
/-- compiler.cpp:3861-3926, expand_nested_components(): what the node becomes and what was inserted right after it. -/
def comps : Nat → Nd → R (Nd × List Nd)
  | 0, _ => .fuel
  | f + 1, .mk t kids =>
    if t.ty = .COMPONENT_VALUE then
      (rulesLoop f (args kids) kids).bind fun r => .ok (.mk t r.1, r.2) []
    else if t.ty = .DECLARATION then
      (declAll t.str kids).bind fun r => .ok (.mk t r.1, r.2) []
    else if t.ty = .LIST ∨ t.ty = .AT_KEYWORD ∨ t.ty = .OPEN_CURLYBRACKET then
      (compsLoop f kids).bind fun ks => .ok (.mk t ks, []) []
    else .ok (.mk t kids, []) []
/-- compiler.cpp:3908-3917, 4045-4054 -/
def compsLoop : Nat → List Nd → R (List Nd)
  | 0, _ => .fuel
  | _ + 1, [] => .ok [] []
  | f + 1, n :: ns =>
    (comps f n).bind fun r => (compsLoop f (r.2 ++ ns)).bind fun rs => .ok (r.1 :: rs) []
end

end Csspp.Expand
