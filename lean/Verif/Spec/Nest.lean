import Verif.Model.Parser

/-!
What the expansion of the nested rules and declarations must give, read on the tree by structural recursion.

* The pass looks into the rules (COMPONENT_VALUE), the declarations, the @-rules, the LIST and the '{'.
* `pulled name n`: the declarations nested in the node `n` of a declaration called `name`, outer ones first, each of them
  with its full name and with its own values; `kept n`: the values that are left.
* `inRule n`: what the node `n` of a rule becomes in that rule. `lifted sel n`: the rules nested in `n`, outer ones
  first, each with the whole selector; `sel` are the selectors of the rule that contains `n`.
* `expanded n`: what a node of the stylesheet, or of an @-rule, becomes.
-/

namespace Csspp.Spec.Nest
open Csspp.Parse (Nd)
open Csspp.Lex (Tok Pos)

/-- The full name of a declaration nested in the declaration `outer`: `outer-name`. The pseudo property
`-csspp-null` adds nothing. -/
def full (outer name : Str) : Str := if outer = b!"-csspp-null" then name else outer ++ (b!"-" ++ name)

mutual
/-- The values of a declaration: its children without the nested declarations, and without the blocks where nothing
else was. -/
def kept : Nd → List Nd
  | .mk t kids => match t.ty with
    | .DECLARATION => []
    | .LIST | .OPEN_CURLYBRACKET => if keptAll kids = [] then [] else [.mk t (keptAll kids)]
    | _ => [.mk t kids]
def keptAll : List Nd → List Nd
  | [] => []
  | n :: ns => kept n ++ keptAll ns
end

mutual
/-- The declarations nested in a declaration, one after another, the outer one first. -/
def pulled (outer : Str) : Nd → List Nd
  | .mk t kids => match t.ty with
    | .DECLARATION => .mk { t with str := full outer t.str } (keptAll kids) :: pulledAll (full outer t.str) kids
    | .LIST | .OPEN_CURLYBRACKET => pulledAll outer kids
    | _ => []
def pulledAll (outer : Str) : List Nd → List Nd
  | [] => []
  | n :: ns => pulled outer n ++ pulledAll outer ns
end

/-- The declarations nested in the children of a declaration that is not itself nested. What comes from the last
child is first; a declaration written `name: values { … }` has one block and the order is that of the source. -/
def declarations (outer : Str) : List Nd → List Nd
  | [] => []
  | n :: ns => declarations outer ns ++ pulled outer n

/-- A declaration and the ones that were nested in it. -/
def flatDecl (t : Tok) (kids : List Nd) : List Nd := .mk t (keptAll kids) :: declarations t.str kids

/-- The selectors of a rule: the ARG it starts with. -/
def selectors : List Nd → List Nd
  | [] => []
  | c :: cs => if c.tok.ty = .ARG then c :: selectors cs else []

/-- One more item at the end of a selector: two spaces in a row are one, an end of file is nothing. -/
def item (l : List Nd) (i : Nd) : List Nd :=
  match i.tok.ty with
  | .EOF_TOKEN => l
  | .WHITESPACE => match l.getLast? with
    | none => l ++ [i]
    | some x => if x.tok.ty = .WHITESPACE then l else l ++ [i]
  | _ => l ++ [i]

/-- The selector `l` followed by an inner selector: after a space (found at `pos`), unless the inner one starts
with `&`. The `&` are dropped, wherever they are. -/
def under (pos : Pos) (l : List Nd) (inner : List Nd) : List Nd :=
  match inner with
  | [] => l
  | first :: _ =>
    (inner.filter (fun i => i.tok.ty ≠ .REFERENCE)).foldl item
      (if first.tok.ty = .REFERENCE then l else item l (.mk { ty := .WHITESPACE, pos := pos } []))

/-- The items of a selector never have two spaces in a row nor an end of file; `sp`: a space comes before. -/
def spaced (sp : Bool) : List Nd → Bool
  | [] => true
  | i :: is => i.tok.ty ≠ .EOF_TOKEN && !(sp && i.tok.ty = .WHITESPACE) && spaced (i.tok.ty = .WHITESPACE) is

/-- Does it end with a space? -/
def endsInSpace (l : List Nd) : Bool := l.getLast?.any (fun x => x.tok.ty = .WHITESPACE)

/-- The selector of the outer rule followed by all the selectors of the inner rule. -/
def below (inner : List Nd) (outer : Nd) : Nd :=
  .mk outer.tok (inner.foldl (fun l a => under outer.tok.pos l a.kids) outer.kids)

mutual
/-- What a node of a rule becomes: the nested rules go away, the nested declarations are next to the one that contained
them and a declaration that has no value is dropped. -/
def inRule : Nd → List Nd
  | .mk t kids => match t.ty with
    | .COMPONENT_VALUE => []
    | .DECLARATION => (flatDecl t kids).filter (fun d => !d.kids.isEmpty)
    | .AT_KEYWORD => [.mk t (expandedAll kids)]
    | .LIST | .OPEN_CURLYBRACKET => [.mk t (inRuleAll kids)]
    | _ => [.mk t kids]
def inRuleAll : List Nd → List Nd
  | [] => []
  | n :: ns => inRule n ++ inRuleAll ns
/-- The same, for what follows the selectors of a rule. -/
def afterSelectors : List Nd → List Nd
  | [] => []
  | n :: ns => if n.tok.ty = .ARG then afterSelectors ns else inRule n ++ inRuleAll ns
/-- The rules nested in a node of the rule that has the selectors `sel`. -/
def lifted (sel : List Nd) : Nd → List Nd
  | .mk t kids => match t.ty with
    | .COMPONENT_VALUE =>
      .mk t (sel.map (below (selectors kids)) ++ afterSelectors kids) ::
        liftedAll (sel.map (below (selectors kids))) kids
    | .LIST | .OPEN_CURLYBRACKET => liftedAll sel kids
    | _ => []
def liftedAll (sel : List Nd) : List Nd → List Nd
  | [] => []
  | n :: ns => lifted sel n ++ liftedAll sel ns
/-- What a node of the stylesheet becomes. -/
def expanded : Nd → List Nd
  | .mk t kids => match t.ty with
    | .COMPONENT_VALUE => .mk t (inRuleAll kids) :: liftedAll (selectors kids) kids
    | .DECLARATION => flatDecl t kids
    | .LIST | .OPEN_CURLYBRACKET | .AT_KEYWORD => [.mk t (expandedAll kids)]
    | _ => [.mk t kids]
def expandedAll : List Nd → List Nd
  | [] => []
  | n :: ns => expanded n ++ expandedAll ns
end

mutual
/-- No node of type `bad` in this node of a declaration (a rule in a declaration is not looked into). -/
def noneIn (bad : NT) : Nd → Bool
  | .mk t kids =>
    if t.ty = bad then false
    else match t.ty with
      | .DECLARATION | .LIST | .OPEN_CURLYBRACKET => noneInAll bad kids
      | _ => true
def noneInAll (bad : NT) : List Nd → Bool
  | [] => true
  | n :: ns => noneIn bad n && noneInAll bad ns
end

mutual
/-- No declaration contains a node of type `bad`. -/
def without (bad : NT) : Nd → Bool
  | .mk t kids => match t.ty with
    | .DECLARATION => noneInAll bad kids
    | .COMPONENT_VALUE | .AT_KEYWORD | .LIST | .OPEN_CURLYBRACKET => withoutAll bad kids
    | _ => true
def withoutAll (bad : NT) : List Nd → Bool
  | [] => true
  | n :: ns => without bad n && withoutAll bad ns
end

/-! ### What a stylesheet says -/

/-- A property has these values, for these selectors (`none`: out of any rule), inside these @-rules. -/
structure Fact where
  atRules : List Tok
  sel : Option (List Nd)
  name : Str
  values : List Nd

/-- A declaration without a value says nothing. -/
def says (at' : List Tok) (sel : Option (List Nd)) (name : Str) (values : List Nd) : List Fact :=
  if values = [] then [] else [⟨at', sel, name, values⟩]

mutual
/-- What the declarations nested in a node of the declaration `outer` say. -/
def declFacts (at' : List Tok) (sel : Option (List Nd)) (outer : Str) : Nd → List Fact
  | .mk t kids => match t.ty with
    | .DECLARATION =>
      says at' sel (full outer t.str) (keptAll kids) ++ declFactsAll at' sel (full outer t.str) kids
    | .LIST | .OPEN_CURLYBRACKET => declFactsAll at' sel outer kids
    | _ => []
def declFactsAll (at' : List Tok) (sel : Option (List Nd)) (outer : Str) : List Nd → List Fact
  | [] => []
  | n :: ns => declFacts at' sel outer n ++ declFactsAll at' sel outer ns
end

mutual
/-- What a node says, nested rules and declarations included: the selectors of a rule follow those of the rule it is
nested in. The rules of an @-rule start anew. -/
def facts (at' : List Tok) (sel : Option (List Nd)) : Nd → List Fact
  | .mk t kids => match t.ty with
    | .COMPONENT_VALUE => match sel with
      | none => factsAll at' (some (selectors kids)) kids
      | some s => factsAll at' (some (s.map (below (selectors kids)))) kids
    | .DECLARATION => says at' sel t.str (keptAll kids) ++ declFactsAll at' sel t.str kids
    | .AT_KEYWORD => factsAll (at' ++ [t]) none kids
    | .LIST | .OPEN_CURLYBRACKET => factsAll at' sel kids
    | _ => []
def factsAll (at' : List Tok) (sel : Option (List Nd)) : List Nd → List Fact
  | [] => []
  | n :: ns => facts at' sel n ++ factsAll at' sel ns
end

mutual
/-- In a rule the ARG are the first children. -/
def shaped : Nd → Bool
  | .mk t kids => match t.ty with
    | .COMPONENT_VALUE => argsFirst kids && shapedAll kids
    | .AT_KEYWORD | .LIST | .OPEN_CURLYBRACKET => shapedAll kids
    | _ => true
def shapedAll : List Nd → Bool
  | [] => true
  | n :: ns => shaped n && shapedAll ns
/-- ARG, then nodes that are not. -/
def argsFirst : List Nd → Bool
  | [] => true
  | n :: ns => if n.tok.ty = .ARG then argsFirst ns else noArg ns
def noArg : List Nd → Bool
  | [] => true
  | n :: ns => n.tok.ty ≠ .ARG && noArg ns
end

/-! ### Being flat -/

/-- `x` is in `n`, directly or through LIST and '{'. -/
inductive Within (x : Nd) : Nd → Prop
  | child {n : Nd} : x ∈ n.kids → Within x n
  | block {n b : Nd} : b ∈ n.kids → b.tok.ty = .LIST ∨ b.tok.ty = .OPEN_CURLYBRACKET → Within x b → Within x n

/-- `x` is `n` or a node of the rules, of the @-rules and of the blocks of `n`. -/
inductive Part (x : Nd) : Nd → Prop
  | self {n : Nd} : x = n → Part x n
  | child {n b : Nd} : b ∈ n.kids → n.tok.ty = .COMPONENT_VALUE ∨ n.tok.ty = .AT_KEYWORD ∨ n.tok.ty = .LIST ∨
      n.tok.ty = .OPEN_CURLYBRACKET → Part x b → Part x n

/-- No rule in a rule, no declaration in a declaration. -/
def Flat (n : Nd) : Prop := ∀ x, Part x n →
  (x.tok.ty = .COMPONENT_VALUE → ∀ y, Within y x → y.tok.ty ≠ .COMPONENT_VALUE) ∧
  (x.tok.ty = .DECLARATION → ∀ y, Within y x → y.tok.ty ≠ .DECLARATION)

end Csspp.Spec.Nest
