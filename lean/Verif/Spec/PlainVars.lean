import Verif.Spec.Plain

/-!
Plain style sheets with variables: definitions `$name: value;` first, and rules with `$name` in the values of their
declarations. For the property that the references are replaced by the values.
-/

namespace Csspp.Spec.Plain

/-- `$name: value` -/
structure Def where
  name : Str
  value : Val

def Def.items (d : Def) : List Item := .word { ty := .VARIABLE, str := d.name } :: .opt :: mark .COLON :: .opt :: d.value.items

/-- The whole text. -/
def withVars (ds : List Def) (s : Sheet) : List Item :=
  .opt :: (ds.flatMap (fun d => d.items ++ [.opt, mark .SEMICOLON, .opt]) ++ s.flatMap (fun r => r.items ++ [.opt]))

/-- A word, an integer or a string. -/
def Def.Ok (d : Def) : Prop := VarName d.name ∧ d.value.Ok ∧ ∀ i more u, d.value ≠ .sum i more u

/-- The last definition of the name. -/
def lookup (ds : List Def) (name : Str) : Option Val := (ds.reverse.find? (fun d => d.name == name)).map Def.value

/-- The value of a reference; the other ones are left as they are. -/
def Val.replace (σ : Str → Val) : Val → Val
  | .var n => σ n
  | v => v

def Decl.replace (σ : Str → Val) (d : Decl) : Decl := { d with values := d.values.map (·.map (Val.replace σ)) }
def Rule.replace (σ : Str → Val) (r : Rule) : Rule := { r with decls := r.decls.map (Decl.replace σ) }
/-- The style sheet without its references. -/
def Sheet.replace (σ : Str → Val) (s : Sheet) : Sheet := s.map (Rule.replace σ)

/-- What the definitions say. -/
def values (ds : List Def) (name : Str) : Val := (lookup ds name).getD (.var name)

/-- Every reference is to a variable with a definition. -/
def Defined (ds : List Def) (s : Sheet) : Prop :=
  ∀ r ∈ s, ∀ d ∈ r.decls, ∀ g ∈ d.values, ∀ n, .var n ∈ g → ∃ d ∈ ds, d.name = n

end Csspp.Spec.Plain
