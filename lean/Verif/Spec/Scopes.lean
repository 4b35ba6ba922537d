import Verif.Model.Basic

/-!
Lexical scoping, without the heap: what has been assigned, where, and which assignment a name
designates.
-/

namespace Csspp.Spec.Scopes

/-- One assignment: the block it went in, the name, the node of the name and the value. -/
structure Assign where
  block : Nat
  name : Str
  var : Nat
  value : Nat

/-- The blocks a name is searched in: the open blocks that accept variables, the innermost first,
then the root of the document. -/
def chain (accepts : Nat → Bool) (opened : List Nat) (root : Nat) : List Nat :=
  opened.filter accepts ++ [root]

/-- The block an assignment goes in: the innermost of the chain, or the root for `!global`. -/
def block (accepts : Nat → Bool) (opened : List Nat) (root : Nat) (global : Bool) : Nat :=
  if global then root else ((chain accepts opened root).head?).getD root

/-- The last assignment of a name in a block (the log has the newest first). -/
def latest (log : List Assign) (b : Nat) (name : Str) : Option (Nat × Nat) :=
  (log.find? (fun a => a.block == b && a.name == name)).map (fun a => (a.var, a.value))

/-- What a name designates: its last assignment in the first block of the list that has one. -/
def lookup (log : List Assign) (blocks : List Nat) (name : Str) : Option (Nat × Nat) :=
  blocks.findSome? (fun b => latest log b name)

end Csspp.Spec.Scopes
