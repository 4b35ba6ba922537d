import Verif.Model.Pipeline
import Verif.Model.NthChild
import Verif.Model.Decimal
import Verif.Model.Tool
import Verif.Model.UserFunc
import Verif.Model.CompileList
import Verif.Model.Functions
import Verif.Model.NodeText
import Verif.Model.SystemScripts
import Verif.Spec.Allowed
open Csspp
def bs (l : Str) : ByteArray := ⟨(l.map (fun c => UInt8.ofNat c)).toArray⟩
def st (s : String) : Str := s.toUTF8.toList.map UInt8.toNat
def tyName (t : NT) : String := ((toString (repr t)).splitOn ".").getLast!
def withStr : List NT := [.AT_KEYWORD, .COMMENT, .DECIMAL_NUMBER, .DECLARATION, .EXCLAMATION, .FUNCTION, .HASH, .IDENTIFIER, .INTEGER, .PLACEHOLDER, .STRING, .URL, .VARIABLE, .VARIABLE_FUNCTION]
def withInt : List NT := [.AT_KEYWORD, .COMMENT, .INTEGER, .UNICODE_RANGE]
def withKids : List NT := [.ARG, .ARRAY, .AT_KEYWORD, .COMPONENT_VALUE, .DECLARATION, .EXCLAMATION, .FUNCTION, .LIST, .MAP, .OPEN_SQUAREBRACKET, .OPEN_CURLYBRACKET, .OPEN_PARENTHESIS, .VARIABLE_FUNCTION, .FRAME]
def ten (e : Int) : Flt.Fp := Flt.Fp.nan
partial def disp (dec : Parse.Nd → Str) (n : Parse.Nd) (ind : Nat) : Str :=
  let t := n.tok
  List.replicate ind 32 ++ st (tyName t.ty) ++
  (if withStr.contains t.ty then st " \"" ++ t.str ++ st "\"" else []) ++
  (if t.ty == .BOOLEAN || t.ty == .OPEN_CURLYBRACKET then st (" B:" ++ toString t.bool) else []) ++
  (if withInt.contains t.ty then st (" I:" ++ toString t.int) else []) ++
  (if t.ty == .DECIMAL_NUMBER || t.ty == .PERCENT then st " D:" ++ dec n else []) ++
  st "\n" ++
  (if withKids.contains t.ty then n.kids.flatMap (fun k => disp dec k (ind+2)) else [])
open Csspp.Parse (Nd)
open Csspp.Flt
instance : Inhabited NT := ⟨.UNKNOWN⟩
instance : Inhabited Expr.Tok := ⟨.ident []⟩
instance : Inhabited Expr.Env := ⟨{ pow := fun x _ => x, call := fun _ _ => (none, []) }⟩
instance : Inhabited Tree.Tree := ⟨.mk { ty := .UNKNOWN } []⟩
instance : Inhabited Pipeline.Env := ⟨⟨{expr := fun _ _ => none, truth := fun _ => (true, true), file := fun _ => .alone, toString := fun _ => []}, {sel := ⟨fun _ => true,fun _ => true,fun _ => true,fun _ => true,fun _ => true,fun _ => true,fun _ => []⟩, metrics := fun _ => true, slash := fun _ => true, arg := fun _ _ => none, ret := fun _ => none, inUnit := fun _ => true, toString := fun _ => []}, fun _ => .nan, 3⟩⟩
def P0 : Lex.Pos := ⟨1,1,1⟩
def tyList : List NT := [.UNKNOWN, .ADD]
/-- serialisation -/
def fpl (x : Fp) : List Nat := match x with | .fin n m => [cond n 1 0, m] | .inf n => [cond n 4 3, 0] | _ => [2, 0]
def lfp : List Nat → Fp | [n, m] => if n = 2 then .nan else if n ≥ 3 then .inf (n = 4) else .fin (n = 1) m | _ => .nan
partial def ser (n : Nd) : Str :=
  let t := n.tok
  let num : Str := match t.num with
    | none => [0]
    | some m => [1, cond m.neg 1 0, m.int.toNat, m.frac.length] ++ m.frac ++ [cond (m.exp < 0) 1 0, m.exp.natAbs]
  [NT.ctorIdx t.ty, t.str.length] ++ t.str ++ [t.lower.length] ++ t.lower ++ [cond (t.int<0) 1 0, t.int.natAbs, cond t.bool 1 0] ++ num ++ (match t.made with | none => [0] | some v => [1] ++ fpl v.dec ++ fpl v.height ++ fpl v.red ++ fpl v.green ++ fpl v.blue ++ fpl v.alpha) ++ [n.kids.length] ++ n.kids.flatMap ser
def tys : Array NT := #[.UNKNOWN, .ADD, .AND, .ASSIGNMENT, .AT_KEYWORD, .BOOLEAN, .CDC, .CDO, .CLOSE_CURLYBRACKET, .CLOSE_PARENTHESIS, .CLOSE_SQUAREBRACKET, .COLON, .COLOR, .COLUMN, .COMMA, .COMMENT, .CONDITIONAL, .DASH_MATCH, .DECIMAL_NUMBER, .DIVIDE, .DOLLAR, .EOF_TOKEN, .EQUAL, .EXCLAMATION, .FONT_METRICS, .FUNCTION, .GREATER_EQUAL, .GREATER_THAN, .HASH, .IDENTIFIER, .INCLUDE_MATCH, .INTEGER, .LESS_EQUAL, .LESS_THAN, .MODULO, .MULTIPLY, .NOT_EQUAL, .NULL_TOKEN, .OPEN_CURLYBRACKET, .OPEN_PARENTHESIS, .OPEN_SQUAREBRACKET, .PERCENT, .PERIOD, .PLACEHOLDER, .POWER, .PRECEDED, .PREFIX_MATCH, .REFERENCE, .SCOPE, .SEMICOLON, .STRING, .SUBSTRING_MATCH, .SUBTRACT, .SUFFIX_MATCH, .UNICODE_RANGE, .URL, .VARIABLE, .VARIABLE_FUNCTION, .WHITESPACE, .AN_PLUS_B, .ARG, .ARRAY, .COMPONENT_VALUE, .DECLARATION, .LIST, .MAP, .FRAME]
mutual
partial def des (s : Str) : Option (Nd × Str) :=
  match s with
  | ty :: n :: r =>
    let str := r.take n; let r := r.drop n
    match r with
    | m :: r =>
      let lower := r.take m; let r := r.drop m
      match r with
      | sg :: i :: b :: r =>
        let int : Int := if sg = 1 then -(i:Int) else i
        let p : Option Lex.Num × Str := match r with
          | 0 :: r => (none, r)
          | 1 :: ng :: i :: fl :: r => (let f := r.take fl; match r.drop fl with
             | es :: e :: r => (some ⟨ng = 1, i, f, if es = 1 then -(e:Int) else e⟩, r)
             | _ => (none, []))
          | _ => (none, [])
        let q : Option Lex.Made × Str := match p.2 with
          | 1 :: r => (let g (i : Nat) := lfp ((r.drop (2*i)).take 2); (some ⟨g 0, g 1, g 2, g 3, g 4, g 5⟩, r.drop 12))
          | _ => (none, p.2.drop 1)
        match q.2 with
        | k :: r => match desN k r with
          | some (ks, r) => some (.mk { ty := tys[ty]!, pos := P0, str := str, lower := lower, int := int, bool := b = 1, num := p.1, made := q.1 } ks, r)
          | none => none
        | _ => none
      | _ => none
    | _ => none
  | _ => none
partial def desN (k : Nat) (s : Str) : Option (List Nd × Str) :=
  if k = 0 then some ([], s) else
  match des s with
  | some (n, s) => match desN (k-1) s with | some (ns, s) => some (n :: ns, s) | none => none
  | none => none
end
instance : Inhabited Nd := ⟨.leaf { ty := .UNKNOWN, pos := P0 }⟩
def pow10 (e : Int) : Fp :=
  if e ≤ -100000 then (let k := e + 200000 -- 2^k, k in -1074..1023
     .fin false (2 ^ (k + 1074).toNat))
  else if e ≥ 0 then ofInt f64 (10^e.toNat) else div f64 (ofInt f64 1) (ofInt f64 (10^(-e).toNat))
def fpNum (d : Fp) : Option Lex.Num := match d with
  | .fin ng m =>
    if m = 0 then some ⟨false, 0, [], 0⟩ else
    let l := Nat.log2 m
    let k := if l > 52 then l - 52 else 0
    some ⟨ng, (m >>> k : Nat), [], -200000 + (k : Int) - 1074⟩
  | _ => none
def decOf (n : Nd) : Fp := (n.tok.data pow10).dec
def leafN (ty : NT) (s : Str) (i : Int := 0) (num : Option Lex.Num := none) (b : Bool := false) : Nd := .leaf { ty := ty, pos := P0, str := s, int := i, num := num, bool := b }
def colorN (c : Color.Color) : Nd := .leaf { ty := .COLOR, pos := P0, made := some { red := c.red, green := c.green, blue := c.blue, alpha := c.alpha } }
def nColor (n : Nd) : Color.Color := (n.tok.data pow10).color
def madeN (ty : NT) (s : Str) (d : Fp) : Nd := .leaf { ty := ty, pos := P0, str := s, made := some { dec := d } }
partial def toNd (heap : List (Expr.Val Nat)) (v : Expr.Val Nat) : Nd := match v with
  | .str s => leafN .STRING s
  | .int i u => leafN .INTEGER u i
  | .dec d u => madeN .DECIMAL_NUMBER u d
  | .pct d => madeN .PERCENT [] d
  | .color c => colorN c
  | .bool b => leafN .BOOLEAN [] 0 none b
  | .null => leafN .NULL_TOKEN []
  | .range i => leafN .UNICODE_RANGE [] i
  | .ident s => leafN .IDENTIFIER s
  | .array l => .mk { ty := .ARRAY, pos := P0 } (l.map fun r => match heap[r]? with | some v => toNd heap v | none => default)
  | .map l => .mk { ty := .MAP, pos := P0 } (l.flatMap fun (s, r) => [leafN .IDENTIFIER s, match heap[r]? with | some v => toNd heap v | none => default])
  | .font a b c d => .leaf { ty := .FONT_METRICS, pos := P0, str := if d = [] then c else c ++ b!"/" ++ d, made := some { dec := a, height := b } }
  | .other ty s => if ty = .EXCLAMATION || ty = .URL then leafN ty s else match des s with | some (n, _) => n | none => leafN ty s
def toVal (n : Nd) : Expr.Val Nat := match n.ty with
  | .STRING => .str n.tok.str
  | .INTEGER => .int n.tok.int n.tok.str
  | .DECIMAL_NUMBER => .dec (decOf n) n.tok.str
  | .PERCENT => .pct (decOf n)
  | .COLOR => .color (nColor n)
  | .BOOLEAN => .bool n.tok.bool
  | .NULL_TOKEN => .null
  | .UNICODE_RANGE => .range n.tok.int
  | .IDENTIFIER => .ident n.tok.str
  | .EXCLAMATION => .other .EXCLAMATION n.tok.str
  | .URL => .other .URL n.tok.str
  | ty => .other ty (ser n)
partial def toTok (n : Nd) : Expr.Tok := match n.ty with
  | .IDENTIFIER => .ident n.tok.str
  | .HASH => .hash n.tok.str
  | .FUNCTION => .func (ser n) []
  | .OPEN_PARENTHESIS => .paren (n.kids.map toTok)
  | .OPEN_SQUAREBRACKET => .square (n.kids.map toTok)
  | .STRING | .INTEGER | .DECIMAL_NUMBER | .PERCENT | .COLOR | .BOOLEAN | .NULL_TOKEN | .UNICODE_RANGE | .EXCLAMATION | .URL
  | .ARRAY | .MAP | .FONT_METRICS | .FRAME => .lit (toVal n)
  | ty => .sym ty
partial def tokNd : Expr.Tok → Nd
  | .lit v => toNd [] v
  | .ident s => leafN .IDENTIFIER s
  | .hash s => leafN .HASH s
  | .func n _ => match des n with | some (n, _) => n | none => default
  | .paren l => .mk { ty := .OPEN_PARENTHESIS, pos := P0 } (l.map tokNd)
  | .square l => .mk { ty := .OPEN_SQUAREBRACKET, pos := P0 } (l.map tokNd)
  | .sym t => leafN t []
def fpToFloat (x : Fp) : Float := match x with
  | .nan => 0.0/0.0
  | .inf n => if n then -1.0/0.0 else 1.0/0.0
  | .fin n m =>
    let b : Nat := if m < 2^52 then m else (let e := Nat.log2 m - 52; ((e+1) <<< 52) + ((m >>> e) - 2^52))
    let f := Float.ofBits (UInt64.ofNat b)
    if n then -f else f
def floatToFp (x : Float) : Fp := if x.isNaN then .nan else if x.isInf then .inf (x < 0) else
  let b := x.toBits.toNat
  let n := b >>> 63 = 1
  let e := (b >>> 52) &&& 2047
  let m := b &&& (2^52-1)
  .fin n (if e = 0 then m else (m + 2^52) <<< (e-1))
def l1 (f : Float → Float) (x : Fp) : Fp := floatToFp (f (fpToFloat x))
def trees (n : Nd) : Tree.Tree := Pipeline.toTree pow10 n
def ntext (q : Bool) (n : Nd) : Str :=
  match Text.text { stream := fun x => (Color.decText 6 x false).getD [], precision := 3 } { quotes := q } (trees n) with | .ok s => s | _ => st "?"
def selEnv : Sel.Env where
  pseudoClass s := Spec.pseudoClasses.names.contains s
  nthFunction s := Spec.pseudoNthFunctions.names.contains s
  pseudoFunction s := Spec.pseudoFunctions.names.contains s
  pseudoElement s := Spec.pseudoElements.names.contains s
  language s := Spec.languages.names.contains s
  country s := Spec.countries.names.contains s
  text l := l.flatMap (ntext false)
def findFile (n : Nd) : Vars.ImportRes :=
  match [(b!"system/init.scss", Scripts.initText), (b!"system/version.scss", Scripts.versionText),
        (b!"system/constants.scss", Scripts.constantsText), (b!"system/functions.scss", Scripts.functionsText),
        (b!"system/close.scss", Scripts.closeText), (b!"system/logo.scss", Scripts.logoText)].find? (fun x => x.1 = n.tok.str) with
    | some x => .loaded (((Valid.script x.2).map Nd.kids).getD [])
    | none => .alone
def funcEnv (s : Vars.St) : Func.Env Nat where
  acos := l1 Float.acos
  asin := l1 Float.asin
  atan := l1 Float.atan
  cos := l1 Float.cos
  sin := l1 Float.sin
  tan := l1 Float.tan
  log := l1 Float.log
  sqrt := l1 Float.sqrt
  pow10 := pow10
  rand := 12345
  text v := ntext false (toNd [] v)
  inspect l := l.flatMap fun v => ntext true (toNd [] v)
  lookup name g := let f := if g then Vars.findVar name s.root else s.get name
    match f with | some v => some (v.name.ty, v.name.kids.head?.map Nd.ty) | none => none
mutual
partial def fcall (s : Vars.St) (name : Str) : Option (Expr.Val Nat) × List Expr.Err :=
  match des name with
  | none => (none, [])
  | some (nd, _) =>
    let kids := match (if nd.kids.any (fun c => c.ty = .ARG) then .done nd.kids none else Parse.argify nd .COMMA) with | .done k _ => k | .throws => nd.kids
    let kids := if nd.tok.str = b!"calc" || nd.tok.str = b!"expression" then kids else kids.map fun a => match a with
      | .mk t k => .mk t (row s false k)
    let nd' := Nd.mk nd.tok kids
    match (Func.call (funcEnv s) 1 nd.tok.str (kids.map fun a => a.kids.map toVal)).1 with
    | .ok .null _ => (none, [])
    | .ok (.node v) _ => (some v, [])
    | .ok (.list l) _ => (some (.other .LIST (ser (.mk { ty := .LIST, pos := P0 } (l.map (toNd []))))), [])
    | .ok .user _ =>
      match UserFn.execute (penv s) 200 s nd' with
      | .call _ => (some (.other .FUNCTION (ser nd')), [])
      | .value none _ => (none, [])
      | .value (some v) _ => (some (toVal v), [])
      | _ => (none, [])
    | _ => (none, [])
partial def eenv (s : Vars.St) (font : Bool) : Expr.Env where
  pow x y := floatToFp (Float.pow (fpToFloat x) (fpToFloat y))
  call name _ := fcall s name
  font := font
partial def row (s : Vars.St) (font : Bool) (kids : List Nd) : List Nd :=
  match Expr.compileList (eenv s font) [] (kids.map toTok) with
  | .ok r st => r.kids.map fun c => match c with
    | .tok t => tokNd t
    | .node r => match st.heap[r]? with | some v => toNd st.heap v | none => default
  | _ => kids
partial def evalK (s : Vars.St) (kids : List Nd) : Option (List Nd × Option Nd) :=
  let ts := kids.map toTok
  match Expr.compile (eenv s false) [] ts with
  | .ok (some r) st =>
    match st.heap[r]? with
    | some v => let n := toNd st.heap v
      some (n :: kids.drop (kids.length - (Expr.leftOver ts st).length), some n)
    | none => none
  | .ok none _ => some (kids, none)
  | _ => none
partial def penv (s0 : Vars.St) : Pipeline.Env where
  vars := { expr := fun s kids => (evalK s kids).map fun (k, r) => ⟨k, r, s⟩
            truth := Valid.truth
            file := findFile
            toString := ntext false }
  comp := { sel := selEnv, metrics := fun s => s = b!"font", slash := fun s => s = b!"border-radius"
            arg := fun font kids => some (row s0 font kids, [])
            ret := fun kids => (evalK s0 kids).map fun (k, r) => ⟨k, r, []⟩
            inUnit := fun _ => true
            toString := ntext false }
  pow10 := pow10
  precision := 3
end
def dec (n : Nd) : Str := match Color.decText 3 (n.tok.data pow10).dec false with | some s => s | none => st "?"
def hexs (n : Nat) : String := String.ofList (Nat.toDigits 16 n)
partial def disp2 (n : Nd) (ind : Nat) : Str :=
  let t := n.tok
  List.replicate ind 32 ++ st (tyName t.ty) ++
  (if withStr.contains t.ty then st " \"" ++ t.str ++ st "\"" else []) ++
  (if t.ty == .BOOLEAN || t.ty == .OPEN_CURLYBRACKET then st (" B:" ++ toString t.bool) else []) ++
  (if withInt.contains t.ty then st (" I:" ++ toString t.int) else []) ++
  (if t.ty == .COLOR then st (" H:" ++ match Color.getColor (nColor n) with | some c => hexs c | none => "?") else []) ++
  (if t.ty == .FONT_METRICS then let d := t.data pow10; let p := t.str.splitOnP (· = 47); let dm (x : Fp) (u : Str) : Str := (if u = b!"%" then (Color.decText 3 (mul f64 x (ofInt f64 100)) false).getD [] else (Color.decText 3 x false).getD []); st " FM:" ++ dm d.dec (p.head!) ++ p.head! ++ st "/" ++ dm d.height (p.getLast!) ++ (if p.length = 1 then [] else p.getLast!) else []) ++
  (if t.ty == .DECIMAL_NUMBER || t.ty == .PERCENT || t.ty == .FRAME then st " D:" ++ dec n else []) ++
  st "\n" ++
  (if withKids.contains t.ty then n.kids.flatMap (fun k => disp2 k (ind+2)) else [])
def dates : List (Str × Str) := [(b!"_csspp_usdate", b!"07/20/2025")]
def compileAll (bare : Bool) (src : Str) : String × ByteArray :=
  match Lex.lexAll (src.length + 1) (Lex.init src) with
  | (ts, s) => if s.exn.isSome then ("lexthrow", .empty) else
    match Parse.stylesheet (5 * ts.length + 11) ⟨ts, s.pos, []⟩ with
    | .ok n e =>
      let n' := if bare then some n else Tool.headerFooter n
      let vars := if bare then [] else Tool.variables ⟨[], [], dates⟩ {} n.tok.pos
      match n' with
      | none => ("hf", .empty)
      | some n =>
      match Vars.replaceRoot (penv { root := vars }).vars 3000 (Vars.mark false n) { root := vars } with
      | .throws => ("vthrows", .empty)
      | .fuel => ("vfuel", .empty)
      | .ok n vs =>
        match Compile.comp (penv { root := vs.root }).comp 3000 n {} with
        | .throws => ("cthrows", .empty)
        | .fuel => ("cfuel", .empty)
        | .undef => ("cundef", .empty)
        | .ok (.into _) _ => ("into", .empty)
        | .ok (.keep n) c =>
          match Vars.removeEmptyRules n with
          | none => ("rthrows", .empty)
          | some n => match Expand.comps 3000 n with
            | .ok r ps => (s!"ok {s.err.length} {e.errs.length} {vs.errs.length} {c.errs.length} {ps.length}", bs (disp2 r.1 0))
            | .throws => ("ethrows", .empty)
            | .fuel => ("efuel", .empty)
    | .throws => ("throws", .empty)
    | .fuel => ("fuel", .empty)
def main (a : List String) : IO Unit := do
  let d := a.head!
  let n := a[1]!.toNat!
  for i in [0:n] do
    let f := s!"{d}/{i}.in"
    if ← System.FilePath.pathExists f then
      let b ← IO.FS.readBinFile f
      let bare ← System.FilePath.pathExists s!"{d}/{i}.bare"
      let (m, o) := compileAll bare (b.toList.map UInt8.toNat)
      IO.FS.writeBinFile s!"{d}/{i}.out" o
      IO.FS.writeFile s!"{d}/{i}.st" m
