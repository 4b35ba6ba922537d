import Verif.Spec.Tool
import Verif.Spec.Assign
import Verif.Spec.Template
import Verif.Spec.Marks
import Verif.Spec.Plain
import Verif.Model.SystemScripts

/-! Specification of a whole run of the command line tool (C93). -/

namespace Csspp.Spec.Tool
open Csspp.Parse (Nd)
open Csspp.Lex (Tok Pos)
open Csspp.Vars (St Var)

/-- The file of this path is read and is these nodes. -/
def Loads (E : Vars.Env) (path : Str) (kids : List Nd) : Prop :=
  ∀ e : Nd, e.ty = .STRING → e.tok.str = path → E.file e = .loaded kids

/-- The file of this path has this text, which is read without a message. -/
def OnDisk (E : Vars.Env) (path text : Str) : Prop :=
  ∃ n, _root_.Csspp.Valid.script text = some n ∧ Loads E path n.kids

/-- What the preprocessor asks of expressions: a string is itself, and `not(boolean)` before a block is computed. -/
structure Computes (E : Vars.Env) : Prop where
  string : ∀ (s : St) (t : Tok), t.ty = .STRING →
    ∃ k e, E.expr s [.leaf t] = some ⟨k, some e, s⟩ ∧ e.ty = .STRING ∧ e.tok.str = t.str
  not : ∀ (s : St) (f x : Tok) (block : Nd), f.ty = .FUNCTION → f.str = b!"not" → x.ty = .BOOLEAN → block.ty = .OPEN_CURLYBRACKET →
    ∃ k e, E.expr s [.mk f [.leaf x], block] = some ⟨[k, block], some e, s⟩ ∧ E.truth e = (!x.bool, false)

/-- A file of definitions, imported with the variables `s`, which become `s'`: variables without a flag, mixins, and other
files of definitions. -/
inductive Defines (E : Vars.Env) : List Nd → St → St → Prop
  | nil (s : St) : Defines E [] s s
  | set {s s' : St} {l : List Nd} (t var colon : Tok) (w1 w2 : Option Tok) (vs : List Nd) :
      (∀ c ∈ vs, Spec.Plain c ∧ ¬ AnyFlag c) → vs ≠ [] → vs.head?.map Nd.ty ≠ some .WHITESPACE →
      Defines E l (s.put ⟨.leaf { var with ty := .VARIABLE }, assigned t.pos vs⟩ false) s' →
      Defines E (setNode t var colon w1 w2 vs :: l) s s'
  | mixin {s s' : St} {l : List Nd} (t : Tok) (name block : Nd) : t.ty = .AT_KEYWORD → t.str = b!"mixin" → name.ty = .IDENTIFIER →
      block.ty = .OPEN_CURLYBRACKET → Defines E l (s.put ⟨name, block⟩ true) s' → Defines E (.mk t [name, block] :: l) s s'
  | function {s s' : St} {l args : List Nd} (t ft : Tok) (block : Nd) (ws : List Written) : t.ty = .AT_KEYWORD → t.str = b!"mixin" →
      ft.ty = .FUNCTION → block.ty = .OPEN_CURLYBRACKET → Arguments ft.pos args (ws.map (fun w => ⟨ft.pos, w.nodes⟩)) →
      (∀ w ∈ ws, w.Good) → disorder ws = 0 →
      Defines E l (s.put ⟨.mk ft (ws.map (fun w => (w.param ft.pos).node)), block⟩ true) s' →
      Defines E (.mk t [.mk ft args, block] :: l) s s'
  | import {s s1 s' : St} {l kids : List Nd} {path : Str} {n : Nd} : IsImport path n → Loads E path kids →
      Defines E kids s s1 → Defines E l s1 s' → Defines E (n :: l) s s'

/-- The file `system/close.scss`: `@if not($_csspp_no_logo) { @import "system/logo.scss"; }` -/
def Footer (l : List Nd) : Prop :=
  ∃ (i f v b c : Tok) (im : Nd), l = [.mk i [.mk f [.leaf v], .mk b [.mk c [im]]]] ∧
    i.ty = .AT_KEYWORD ∧ i.str = b!"if" ∧ f.ty = .FUNCTION ∧ f.str = b!"not" ∧ v.ty = .VARIABLE ∧ v.str = b!"_csspp_no_logo" ∧
    b.ty = .OPEN_CURLYBRACKET ∧ b.bool = false ∧ c.ty = .COMPONENT_VALUE ∧ IsImport b!"system/logo.scss" im

/-- What a reference in a comment is replaced by. -/
def Shows (E : Vars.Env) (s : St) (name : Str) (text : Str) : Prop :=
  ∃ v, s.get name = some v ∧ v.name.ty ≠ .FUNCTION ∧ v.name.ty ≠ .VARIABLE_FUNCTION ∧ text = E.toString v.value

/-- The comment of the logo: its references are to variables with a value, and there is no `{$` once they are replaced. -/
def Logo (E : Vars.Env) (s : St) (ps : List Bit) (text : Str) : Prop :=
  Bits ps ∧ (∀ name args, Bit.ref name args ∈ ps → args = none ∧ ∃ t, Shows E s name t) ∧
    (∀ value, (∀ name, ∀ t, Shows E s name t → value name = some t) → filled value [] ps = text) ∧ ∀ a b, text ≠ a ++ 123 :: 36 :: b

/-- The scripts that come with the tool: init.scss has definitions only, and leaves `$_csspp_no_logo` as it is. -/
structure System (E : Vars.Env) (w : Tool.World) (o : Tool.Options) (logo : Str) : Prop where
  init : ∃ kids, Loads E b!"system/init.scss" kids ∧ ∀ pos, ∃ s, Defines E kids { root := Tool.variables w o pos } s ∧
    s.get b!"_csspp_no_logo" = some (Tool.logoVar o.noLogo) ∧
    ∃ t ps, Loads E b!"system/logo.scss" [.leaf t] ∧ t.ty = .COMMENT ∧ t.int ≠ 0 ∧ t.str = commentText ps ∧ Logo E s ps logo
  close : ∃ kids, Loads E b!"system/close.scss" kids ∧ Footer kids

/-- The files of the command line: plain style sheets (see C83); `S` are all their rules, in order. -/
inductive Files (E : Vars.Env) (cwd : Str) : List Str → Plain.Sheet → Prop
  | nil : Files E cwd [] []
  | cons {name text : Str} {names : List Str} {S T : Plain.Sheet} : S.Ok → Plain.Lays (Plain.items S) text →
      OnDisk E (path cwd name) text → Files E cwd names T → Files E cwd (name :: names) (S ++ T)

/-- What is written, in the compressed style: the rules that have a declaration, in their shortest form, and the logo, on its own
line, unless --no-logo is used. -/
def written (S : Plain.Sheet) (noLogo : Bool) (logo : Str) : Str :=
  Plain.shortest (Plain.items S.active.computed) ++
    (if noLogo then [] else (if S.active = [] then [] else b!"\n") ++ (b!"/* " ++ logo ++ b!" */\n"))

/-- The system scripts are the ones that come with csspp 1.0.33. -/
structure Shipped (E : Vars.Env) : Prop where
  init : OnDisk E b!"system/init.scss" Scripts.initText
  version : OnDisk E b!"system/version.scss" Scripts.versionText
  constants : OnDisk E b!"system/constants.scss" Scripts.constantsText
  functions : OnDisk E b!"system/functions.scss" Scripts.functionsText
  close : OnDisk E b!"system/close.scss" Scripts.closeText
  logo : OnDisk E b!"system/logo.scss" Scripts.logoText

/-- The comment that csspp adds, for a date (month/day/year). -/
def logoText (usdate : Str) : Str := b!"@preserve -- CSS file parsed by http://csspp.org/ v1.0.33 on " ++ usdate

end Csspp.Spec.Tool
