import Verif.Model.Selector

/-!
The selectors accepted by csspp, as a grammar on the nodes read, with what each part becomes. It
does not use the functions of Model/Selector.lean (only `Env`, the outcome of the validation
scripts, and `node`, a node made by the compiler).

`Simple env ts out rest`: the nodes `ts` start with a simple term, written `out`, followed by `rest`.
-/

namespace Csspp.Sel.Spec
open Csspp.Parse (Nd)
open Csspp.Sel (Env node)

/-- Nothing, or one WHITESPACE. -/
inductive Ws : List Nd → Prop where
  | none : Ws []
  | one (w : Nd) : w.ty = .WHITESPACE → Ws [w]

/-- `=`, `!=`, `~=`, `^=`, `$=`, `*=` and `|=`. -/
def AttrOp (t : NT) : Prop :=
  t ∈ [NT.EQUAL, .NOT_EQUAL, .INCLUDE_MATCH, .PREFIX_MATCH, .SUFFIX_MATCH, .SUBSTRING_MATCH, .DASH_MATCH]

/-- The values of an attribute. -/
def AttrValue (t : NT) : Prop := t ∈ [NT.IDENTIFIER, .STRING, .INTEGER, .DECIMAL_NUMBER]

/-- The inside of `[...]`: a name alone. -/
inductive AttrBare : List Nd → Nd → Prop where
  | mk {w1 w2 : List Nd} {name : Nd} : Ws w1 → Ws w2 → name.ty = .IDENTIFIER →
      AttrBare (w1 ++ [name] ++ w2) name

/-- The inside of `[...]`: a name, an operator and a value. -/
inductive AttrTest : List Nd → Nd → Nd → Nd → Prop where
  | mk {w1 w2 w3 : List Nd} {name op value : Nd} : Ws w1 → Ws w2 → Ws w3 →
      name.ty = .IDENTIFIER → AttrOp op.ty → AttrValue value.ty →
      AttrTest (w1 ++ [name] ++ w2 ++ [op] ++ w3 ++ [value]) name op value

/-- An identifier or `*`. -/
def Name (t : NT) : Prop := t = .IDENTIFIER ∨ t = .MULTIPLY

/-- The type of the first node of a list. -/
def first (l : List Nd) : Option NT := l.head?.map Nd.ty

/-- The language and the country of `:lang(ll-cc-...)`: the text before the first dash, and between
the first and the second one. -/
inductive Lang (env : Env) : Str → Prop where
  | language {l : Str} : 45 ∉ l → env.language l = true → Lang env l
  | noCountry {l rest : Str} : 45 ∉ l → env.language l = true → (rest = [] ∨ rest.head? = some 45) →
      Lang env (l ++ 45 :: rest)
  | country {l c : Str} : 45 ∉ l → 45 ∉ c → c ≠ [] → env.language l = true → env.country c = true →
      Lang env (l ++ 45 :: c)
  | more {l c rest : Str} : 45 ∉ l → 45 ∉ c → c ≠ [] → env.language l = true → env.country c = true →
      Lang env (l ++ 45 :: (c ++ 45 :: rest))

/-- An An+B node. -/
def anPlusB (pos : Lex.Pos) (i : Int) : Nd := .mk { ty := .AN_PLUS_B, pos := pos, int := i } []

/-- A function after ':' other than `:not()`, and what it becomes. -/
inductive Function (env : Env) : Nd → Nd → Prop where
  /-- the parameters of the `nth` functions are read as An+B -/
  | nth {f : Nd} : env.nthFunction f.tok.str = true →
      (({} : Nth.Nth).parse (env.text f.kids)).ok = true →
      (({} : Nth.Nth).parse (env.text f.kids)).ub = false →
      Function env f
        (.mk f.tok [anPlusB f.tok.pos (({} : Nth.Nth).parse (env.text f.kids)).nth.getNth])
  | lang {f t : Nd} : env.nthFunction f.tok.str = false → env.pseudoFunction f.tok.str = true →
      f.tok.str = b!"lang" → f.kids = [t] → t.ty = .IDENTIFIER → Lang env t.tok.str → Function env f f
  | other {f : Nd} : env.nthFunction f.tok.str = false → env.pseudoFunction f.tok.str = true →
      f.tok.str ≠ b!"lang" → f.tok.str ≠ b!"not" → Function env f f

/-- A simple term. -/
inductive Simple (env : Env) : List Nd → List Nd → List Nd → Prop where
  /-- `#id` -/
  | id {h : Nd} {r : List Nd} : h.ty = .HASH → Simple env (h :: r) [h] r
  /-- `name` -/
  | name {t : Nd} {r : List Nd} : t.ty = .IDENTIFIER → first r ≠ some .SCOPE → Simple env (t :: r) [t] r
  /-- `*` -/
  | any {t : Nd} {r : List Nd} : t.ty = .MULTIPLY → first r ≠ some .SCOPE →
      first r ≠ some .OPEN_SQUAREBRACKET → first r ≠ some .PERIOD → Simple env (t :: r) [t] r
  /-- `*` in front of `[` or `.` is not written -/
  | useless {t : Nd} {r : List Nd} : t.ty = .MULTIPLY →
      (first r = some .OPEN_SQUAREBRACKET ∨ first r = some .PERIOD) → Simple env (t :: r) [] r
  /-- `a|b` -/
  | inScope {t s u : Nd} {r : List Nd} : Name t.ty → s.ty = .SCOPE → Name u.ty →
      Simple env (t :: s :: u :: r) [t, s, u] r
  /-- `|b` -/
  | scope {s u : Nd} {r : List Nd} : s.ty = .SCOPE → Name u.ty → Simple env (s :: u :: r) [s, u] r
  /-- `:hover` -/
  | pseudo {c t : Nd} {r : List Nd} : c.ty = .COLON → t.ty = .IDENTIFIER →
      env.pseudoClass t.tok.str = true → Simple env (c :: t :: r) [c, t] r
  /-- `:nth-child(2n)` -/
  | function {c f f' : Nd} {r : List Nd} : c.ty = .COLON → f.ty = .FUNCTION → Function env f f' →
      Simple env (c :: f :: r) [c, f'] r
  /-- `.class` -/
  | cls {p t : Nd} {r : List Nd} : p.ty = .PERIOD → t.ty = .IDENTIFIER → Simple env (p :: t :: r) [p, t] r
  /-- `[a]` -/
  | attr {b name : Nd} {r : List Nd} : b.ty = .OPEN_SQUAREBRACKET → AttrBare b.kids name →
      Simple env (b :: r) [.mk b.tok [name]] r
  /-- `[a=b]` -/
  | test {b name op value : Nd} {r : List Nd} : b.ty = .OPEN_SQUAREBRACKET →
      AttrTest b.kids name op value → op.ty ≠ .NOT_EQUAL →
      Simple env (b :: r) [.mk b.tok [name, op, value]] r
  /-- `[a!=b]` is written `:not([a=b])` -/
  | differs {b name op value : Nd} {r : List Nd} : b.ty = .OPEN_SQUAREBRACKET →
      AttrTest b.kids name op value → op.ty = .NOT_EQUAL →
      Simple env (b :: r)
        [node .COLON b.tok.pos [] [], node .FUNCTION b.tok.pos b!"not"
          [.mk b.tok [name, node .EQUAL b.tok.pos [] [], value]]] r

/-- A term; `first` when nothing was written before it. -/
inductive Term (env : Env) : Bool → List Nd → List Nd → List Nd → Prop where
  | simple {first : Bool} {ts out r : List Nd} : Simple env ts out r →
      (∀ c f r', ts = c :: f :: r' → c.ty = .COLON → f.ty = .FUNCTION → f.tok.str ≠ b!"not") →
      Term env first ts out r
  /-- `%placeholder` -/
  | placeholder {first : Bool} {p : Nd} {r : List Nd} : p.ty = .PLACEHOLDER → Term env first (p :: r) [p] r
  /-- `&`, only at the start -/
  | reference {p : Nd} {r : List Nd} : p.ty = .REFERENCE → Term env true (p :: r) [p] r
  /-- `:not(...)`: one simple term, unless it is a `*` that is not written -/
  | not {first : Bool} {c f : Nd} {r out : List Nd} : c.ty = .COLON → f.ty = .FUNCTION →
      f.tok.str = b!"not" → Simple env f.kids out [] → Term env first (c :: f :: r) [c, .mk f.tok out] r
  /-- `::before`, only at the end -/
  | element {first : Bool} {c d t : Nd} : c.ty = .COLON → d.ty = .COLON → t.ty = .IDENTIFIER →
      env.pseudoElement t.tok.str = true → Term env first [c, d, t] [c, d, t] []

/-- `>`, `+` and `~`. -/
def Combinator (t : NT) : Prop := t = .GREATER_THAN ∨ t = .ADD ∨ t = .PRECEDED

/-- What is between two terms: nothing, a WHITESPACE, or an operator, written without the WHITESPACE
around it. -/
inductive Sep : List Nd → List Nd → Prop where
  | none : Sep [] []
  | space {w : Nd} : w.ty = .WHITESPACE → Sep [w] [w]
  | op {w1 w2 : List Nd} {c : Nd} : Ws w1 → Ws w2 → Combinator c.ty → Sep (w1 ++ [c] ++ w2) [c]

/-- A selector and how it is written. -/
inductive Selector (env : Env) : Bool → List Nd → List Nd → Prop where
  | last {b : Bool} {ts out : List Nd} : Term env b ts out [] → Selector env b ts out
  | more {b : Bool} {ts out s s' r out' : List Nd} : Term env b ts out (s ++ r) → Sep s s' →
      Selector env false r out' → Selector env b ts (out ++ s' ++ out')

/-- The nodes on which the compiler throws an exception: a term is expected and there is no node
left, or it is an empty `[]`; or there is a WHITESPACE at the end. -/
inductive Broken (env : Env) : Bool → List Nd → Prop where
  | missing {b : Bool} : Broken env b []
  | brackets {b : Bool} {n : Nd} {r : List Nd} : n.ty = .OPEN_SQUAREBRACKET → n.kids = [] →
      Broken env b (n :: r)
  /-- `:not()` and `:not([])` -/
  | not {b : Bool} {c f : Nd} {r : List Nd} : c.ty = .COLON → f.ty = .FUNCTION → f.tok.str = b!"not" →
      (f.kids = [] ∨ ∃ n r', f.kids = n :: r' ∧ n.ty = .OPEN_SQUAREBRACKET ∧ n.kids = []) →
      Broken env b (c :: f :: r)
  | space {b : Bool} {ts out : List Nd} {w : Nd} : Term env b ts out [w] → w.ty = .WHITESPACE →
      Broken env b ts
  | opSpace {b : Bool} {ts out w1 : List Nd} {c w : Nd} : Ws w1 → Combinator c.ty →
      w.ty = .WHITESPACE → Term env b ts out (w1 ++ [c, w]) → Broken env b ts
  | later {b : Bool} {ts out s s' r : List Nd} : Term env b ts out (s ++ r) → r ≠ [] → Sep s s' →
      Broken env false r → Broken env b ts

end Csspp.Sel.Spec
