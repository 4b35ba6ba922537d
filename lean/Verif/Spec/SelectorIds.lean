import Verif.Spec.Selectors
import Verif.Spec.Args

/-!
The #id of a selector, and the selectors of a rule.
-/

namespace Csspp.Sel.Spec
open Csspp.Parse (Nd)
open Csspp.Sel (Env)

/-- The names after '#', in order. -/
def ids (l : List Nd) : List Str := (l.filter (fun n => n.ty = .HASH)).map (fun n => n.tok.str)

/-- Every selector of a list is accepted. -/
inductive Selectors (env : Env) : List (List Nd) → List (List Nd) → Prop where
  | nil : Selectors env [] []
  | cons {ts out : List Nd} {l outs : List (List Nd)} : Selector env true ts out → Selectors env l outs →
      Selectors env (ts :: l) (out :: outs)

end Csspp.Sel.Spec
