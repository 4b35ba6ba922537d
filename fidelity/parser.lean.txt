import Verif.Model.Pipeline
import Verif.Model.NthChild
import Verif.Model.Decimal
open Csspp
def bs (l : Str) : ByteArray := ⟨(l.map (fun c => UInt8.ofNat c)).toArray⟩
def st (s : String) : Str := s.toUTF8.toList.map UInt8.toNat
def tyName (t : NT) : String := ((toString (repr t)).splitOn ".").getLast!
def withStr : List NT := [.AT_KEYWORD, .COMMENT, .DECIMAL_NUMBER, .DECLARATION, .EXCLAMATION, .FUNCTION, .HASH, .IDENTIFIER, .INTEGER, .PLACEHOLDER, .STRING, .URL, .VARIABLE, .VARIABLE_FUNCTION]
def withInt : List NT := [.AT_KEYWORD, .COMMENT, .INTEGER, .UNICODE_RANGE]
def withKids : List NT := [.ARG, .ARRAY, .AT_KEYWORD, .COMPONENT_VALUE, .DECLARATION, .EXCLAMATION, .FUNCTION, .LIST, .MAP, .OPEN_SQUAREBRACKET, .OPEN_CURLYBRACKET, .OPEN_PARENTHESIS, .VARIABLE_FUNCTION, .FRAME]
def ten (e : Int) : Flt.Fp := Flt.Fp.nan
partial def disp (dec : Parse.Nd → Str) (n : Parse.Nd) (ind : Nat) : Str :=
  let t := n.tok
  List.replicate ind 32 ++ st (tyName t.ty) ++
  (if withStr.contains t.ty then st " \"" ++ t.str ++ st "\"" else []) ++
  (if t.ty == .BOOLEAN || t.ty == .OPEN_CURLYBRACKET then st (" B:" ++ toString t.bool) else []) ++
  (if withInt.contains t.ty then st (" I:" ++ toString t.int) else []) ++
  (if t.ty == .DECIMAL_NUMBER || t.ty == .PERCENT then st " D:" ++ dec n else []) ++
  st "\n" ++
  (if withKids.contains t.ty then n.kids.flatMap (fun k => disp dec k (ind+2)) else [])
def pow10 (e : Int) : Flt.Fp := if e ≥ 0 then Flt.ofInt Flt.f64 (10^e.toNat) else Flt.div Flt.f64 (Flt.ofInt Flt.f64 1) (Flt.ofInt Flt.f64 (10^(-e).toNat))
def dec (n : Parse.Nd) : Str := match Color.decText 3 (n.tok.data pow10).dec false with | some s => s | none => st "?"
def parseAll (s : Str) : String × ByteArray :=
  match Lex.lexAll (s.length + 1) (Lex.init s) with
  | (ts, s) => if s.exn.isSome then ("lexthrow", .empty) else
    match Parse.stylesheet (5 * ts.length + 11) ⟨ts, s.pos, []⟩ with
    | .ok n e => (s!"ok {s.err.length} {e.errs.length}", bs (disp dec n 0))
    | .throws => ("throws", .empty)
    | .fuel => ("fuel", .empty)
def main (a : List String) : IO Unit := do
  let d := a.head!
  let n := a[1]!.toNat!
  for i in [0:n] do
    let f := s!"{d}/{i}.in"
    if ← System.FilePath.pathExists f then
      let b ← IO.FS.readBinFile f
      let (m, o) := parseAll (b.toList.map UInt8.toNat)
      IO.FS.writeBinFile s!"{d}/{i}.out" o
      IO.FS.writeFile s!"{d}/{i}.st" m
