import Verif.Model.Node

/-!
Model of compiler::compiler_state_t (csspp/compiler.cpp:100-410): the stack of parents, the
variables and the search of a file.

* Nodes live in the heap of Model/Node.lean.
* `f_parents` is a list with the innermost parent first (the C++ vector has it last).
* `access(name, R_OK) == 0` is a parameter: the file system is not modelled.
-/

namespace Csspp.Comp

open Csspp.Node

/-- compiler.h:64-112 (the members used here). -/
structure State where
  root : Ref
  parents : List Ref := []
  paths : List Str := []
  emptyOnUndefined : Bool := false
  deriving DecidableEq, Repr

/-- compiler.cpp:101-105. -/
def State.setRoot (s : State) (root : Ref) : State := { s with root := root, parents := [] }

/-- compiler.cpp:128-131. -/
def State.pushParent (s : State) (r : Ref) : State := { s with parents := r :: s.parents }

/-- compiler.cpp:133-136 (`pop_back()` of an empty vector is undefined: `none`). -/
def State.popParent (s : State) : Option State :=
  match s.parents with
  | [] => none
  | _ :: t => some { s with parents := t }

/-- compiler.cpp:143-152. -/
def State.previousParent (s : State) : Except Exn Ref :=
  match s.parents with
  | _ :: p :: _ => .ok p
  | _ => .error .logic

/-- compiler.cpp:170-171 and 197-199: a '{' block marked as accepting variables. -/
def isScope (h : Heap) (r : Ref) : Bool :=
  match h[r]? with
  | some n => decide (n.ty = .OPEN_CURLYBRACKET) && n.bool
  | none => false

/-- compiler.cpp:166-182: the node in which a variable is saved. -/
def target (h : Heap) (s : State) (global : Bool) : Ref :=
  if global then s.root
  else
    match s.parents.find? (isScope h) with
    | some r => r
    | none => s.root

/-- compiler.cpp:154-183. -/
def setVariable (h : Heap) (s : State) (name value : Ref) (global : Bool) : Except Exn Heap :=
  match h[name]?, h[value]? with
  | some n, some v =>
    match n.getString with
    | .error e => .error e
    | .ok variableName =>
      let ty : Ref → NT := fun r => match h[r]? with | some m => m.ty | none => .UNKNOWN
      match Node.addChild ty { ty := .LIST, pos := v.pos } name with
      | .error e => .error e
      | .ok l =>
        match Node.addChild ty l value with
        | .error e => .error e
        | .ok l =>
          let h := h ++ [l]
          .ok (h.modify (target h s global) (fun m => m.setVariable variableName (h.length - 1)))
  | _, _ => .error .logic

/-- `f_variables` of a node by its address. -/
def varOf (h : Heap) (r : Ref) (name : Str) : Option Ref :=
  h[r]?.bind (fun n => n.getVariable name)

/-- compiler.cpp:189-212: the loop on the parents, innermost first. -/
def searchParents (h : Heap) (name : Str) : List Ref → Option Ref
  | [] => none
  | r :: rs =>
    match h[r]? with
    | none => searchParents h name rs
    | some n =>
      if n.ty = .OPEN_CURLYBRACKET then
        if n.bool then
          match n.getVariable name with
          | some v => some v
          | none => searchParents h name rs
        else searchParents h name rs
      else searchParents h name rs

/-- compiler.cpp:185-215. -/
def getVariable (h : Heap) (s : State) (name : Str) (globalOnly : Bool) : Option Ref :=
  if globalOnly then varOf h s.root name
  else
    match searchParents h name s.parents with
    | some v => some v
    | none => varOf h s.root name

/-- "/usr/lib/csspp/scripts" (compiler.cpp:395). -/
def defaultPath : Str := "/usr/lib/csspp/scripts".toUTF8.toList.map (·.toNat)

/-- compiler.cpp:399-406. -/
def searchPaths (access : Str → Bool) (script : Str) : List Str → Str
  | [] => []
  | it :: ps =>
    let name := if it = [] then script else it ++ 47 :: script
    if access name then name else searchPaths access script ps

/-- compiler.cpp:373-410: the name found ("" when none) and the new paths. -/
def findFile (access : Str → Bool) (s : State) (script : Str) : Str × State :=
  match script with
  | [] => ([], s)
  | c :: _ =>
    if c = 47 then (if access script then script else [], s)
    else
      let s := if s.paths = [] then { s with paths := [defaultPath] } else s
      (searchPaths access script s.paths, s)

/-- ".scss" -/
def scss : Str := [46, 115, 99, 115, 115]

/-- compiler.cpp:1713-1722: the file of an @import, looked up with and without the extension. -/
def importFile (access : Str → Bool) (s : State) (script : Str) : Str × State :=
  let (f, s) := findFile access s script
  if f = [] ∧ script.length > 5 then
    if script.drop (script.length - 5) ≠ scss then findFile access s (script ++ scss) else (f, s)
  else (f, s)

/-- What compiler.cpp:3729-3753 can do. -/
inductive ScriptResult where
  | found (name : Str)
  /-- the fatal error and csspp_exception_exit -/
  | notFound
  /-- `script_name.substr(script_name.size() - 5)` with a position out of range: std::out_of_range -/
  | outOfRange
  deriving DecidableEq, Repr

/-- compiler.cpp:3729-3753: the file of a validation script; `size() - 5` wraps around for a short
name and substr() throws std::out_of_range. -/
def validationFile (access : Str → Bool) (s : State) (script : Str) : ScriptResult × State :=
  let (f, s) := findFile access s script
  if f ≠ [] then (.found f, s)
  else if script.length < 5 then (.outOfRange, s)
  else if script.drop (script.length - 5) ≠ scss then
    let (f, s) := findFile access s (script ++ scss)
    (if f = [] then .notFound else .found f, s)
  else (.notFound, s)

/-- "://" and "file://" -/
def colonSlashes : Str := [58, 47, 47]
def fileScheme : Str := [102, 105, 108, 101, 58, 47, 47]

/-- compiler.cpp:1658-1663 and 1703-1708. -/
def absolute (s : Str) : Str :=
  match s with
  | [] => [47]
  | c :: t => if c ≠ 47 then 47 :: c :: t else c :: t

/-- compiler.cpp:1680-1687: the loop on the C string stops at a NUL. -/
def isProtocol : Str → Bool
  | [] => true
  | c :: s =>
    if c = 0 then true
    else if (c < 97 ∨ c > 122) ∧ (c < 65 ∨ c > 90) then false
    else isProtocol s

/-- compiler.cpp:1647-1711: the name of the script of an @import; `none` when the @import is left
alone. `url` tells a URL from a STRING. -/
def importName (url : Bool) (s : Str) : Option Str :=
  if url then
    if s.take 7 = fileScheme then some (absolute (s.drop 7)) else none
  else
    match s.findIdx? (· = 58) with
    | none => some s
    | some p =>
      if (s.drop p).take 3 = colonSlashes then
        if isProtocol (s.take p) then
          if s.take p ≠ [102, 105, 108, 101] then none else some (absolute (s.drop 7))
        else some s
      else some s

end Csspp.Comp
