import Verif.Props.CompileMessage
import Verif.Props.Args
import Verif.Lemmas.ParserTree
import Verif.Lemmas.CompileLoops

/-!
C65: declarations. `name: values` becomes a declaration of that name, whose values are split at the commas and
computed; anything else is refused with exactly one error.
-/

namespace Csspp.Compile
open Csspp.Parse (Nd ArgRes argify push pieces arguments complaint separatorCode)
open Csspp.Spec (types nestedDeclaration afterColon looksLikeValue)
open Csspp.Lex (Tok Pos)

/-- An optional space. -/
def Gap (l : List Nd) : Prop := l = [] ∨ ∃ w, l = [w] ∧ w.ty = .WHITESPACE

/-- The start of a declaration: the node that names it, and the message about the tricks for old browsers. -/
inductive Name : List Nd → Nd → List (Err × Pos) → Prop
  /-- `name` -/
  | plain {id : Nd} (h : id.ty = .IDENTIFIER) : Name [id] id []
  /-- `*name` or `.name` -/
  | trick {h id : Nd} (hh : h.ty = .MULTIPLY ∨ h.ty = .PERIOD) (hi : id.ty = .IDENTIFIER) :
      Name [h, id] id [(.declTrick, id.tok.pos)]
  /-- `#name` or `!name` -/
  | hash {id : Nd} (h : id.ty = .HASH ∨ id.ty = .EXCLAMATION) : Name [id] id [(.declHash, id.tok.pos)]

/-- The children of a component value are `name : values`. -/
inductive Declares : List Nd → List (Err × Pos) → Str → List Nd → Prop
  | mk {pre sp sp' values : List Nd} {id c v : Nd} {vs : List Nd} {warn : List (Err × Pos)} (hn : Name pre id warn)
      (h1 : Gap sp) (hc : c.ty = .COLON) (h2 : Gap sp') (hv : values = v :: vs) (hw : sp' = [] → v.ty ≠ .WHITESPACE) :
      Declares (pre ++ sp ++ c :: sp' ++ values) warn id.tok.str values

/-- A name with nothing after it but a space: `.name`, `*name`, and `name` or `#name` before a space. -/
inductive NameOnly : List Nd → Prop
  | trick {h id : Nd} (hh : h.ty = .MULTIPLY ∨ h.ty = .PERIOD) (hi : id.ty = .IDENTIFIER) : NameOnly [h, id]
  | space {pre : List Nd} {id w : Nd} {warn : List (Err × Pos)} (hn : Name pre id warn) (hw : w.ty = .WHITESPACE) :
      NameOnly (pre ++ [w])

/-- Not a declaration: `Refused pos kids left warn e p`, where `left` is what is left of the children, `warn` the message
about the name, `e` the error and p its position. -/
inductive Refused (pos : Pos) : List Nd → List Nd → List (Err × Pos) → Err → Pos → Prop
  /-- less than two nodes -/
  | short {kids : List Nd} (h : kids.length < 2) : Refused pos kids kids [] .declSize pos
  /-- it does not start with a name -/
  | name {c d : Nd} {cs : List Nd} (h1 : c.ty ≠ .IDENTIFIER) (h2 : c.ty ≠ .HASH) (h3 : c.ty ≠ .EXCLAMATION)
      (h4 : (c.ty = .MULTIPLY ∨ c.ty = .PERIOD) → d.ty ≠ .IDENTIFIER) :
      Refused pos (c :: d :: cs) (c :: d :: cs) [] .declName c.tok.pos
  /-- no `:` after the name: the trick and the space after the name are lost -/
  | colon {pre sp rest : List Nd} {id c : Nd} {warn : List (Err × Pos)} (hn : Name pre id warn) (h1 : Gap sp)
      (hc : c.ty ≠ .COLON) (hw : sp = [] → c.ty ≠ .WHITESPACE) :
      Refused pos (pre ++ (sp ++ c :: rest)) (id :: c :: rest) warn .declColon pos
  /-- nothing after the `:`: the name is left -/
  | empty {pre sp sp' : List Nd} {id c : Nd} {warn : List (Err × Pos)} (hn : Name pre id warn) (h1 : Gap sp)
      (hc : c.ty = .COLON) (h2 : Gap sp') : Refused pos (pre ++ (sp ++ c :: sp')) [id] warn .declEmpty pos

/-- After the name. -/
inductive Left (id : Nd) : List Nd → List Nd → Err → Prop
  | colon {sp rest : List Nd} {c : Nd} (h1 : Gap sp) (hc : c.ty ≠ .COLON) (hw : sp = [] → c.ty ≠ .WHITESPACE) :
      Left id (sp ++ c :: rest) (id :: c :: rest) .declColon
  | empty {sp sp' : List Nd} {c : Nd} (h1 : Gap sp) (hc : c.ty = .COLON) (h2 : Gap sp') : Left id (sp ++ c :: sp') [id] .declEmpty

theorem Left.refused {id : Nd} {l left : List Nd} {e : Err} (h : Left id l left e) {pre : List Nd} {warn : List (Err × Pos)}
    (hn : Name pre id warn) (pos : Pos) : Refused pos (pre ++ l) left warn e pos := by
  cases h with
  | colon h1 hc hw => exact .colon hn h1 hc hw
  | empty h1 hc h2 => exact .empty hn h1 hc h2

theorem Refused.error {pos : Pos} {kids left : List Nd} {warn : List (Err × Pos)} {e : Err} {p : Pos}
    (h : Refused pos kids left warn e p) : e.level = .error := by cases h <;> rfl

theorem headValues_form {pos : Pos} {warn : Option (Err × Pos)} {id : Nd} {sp vs : List Nd} {v : Nd} (h : Gap sp)
    (hw : sp = [] → v.ty ≠ .WHITESPACE) :
    headValues pos warn id (sp ++ v :: vs) = .good warn id.tok.str (v :: vs) := by
  rcases h with rfl | ⟨w, rfl, hty⟩
  · show headValues pos warn id (v :: vs) = _
    exact if_neg (hw rfl)
  · show headValues pos warn id (w :: v :: vs) = _
    exact if_pos hty

theorem headSpace_form {pos : Pos} {warn : Option (Err × Pos)} {id : Nd} {sp sp' vs : List Nd} {c v : Nd} (h : Gap sp)
    (hc : c.ty = .COLON) (h' : Gap sp') (hw : sp' = [] → v.ty ≠ .WHITESPACE) :
    headSpace pos warn id (sp ++ c :: (sp' ++ v :: vs)) = .good warn id.tok.str (v :: vs) := by
  rcases h with rfl | ⟨w, rfl, hty⟩
  · show headSpace pos warn id (c :: (sp' ++ v :: vs)) = _
    refine (if_neg (by rw [hc]; simp)).trans ?_
    unfold headColon
    rw [if_pos hc]
    exact headValues_form h' hw
  · show headSpace pos warn id (w :: c :: (sp' ++ v :: vs)) = _
    refine (if_pos hty).trans ?_
    show headColon pos warn id c _ = _
    unfold headColon
    rw [if_pos hc]
    exact headValues_form h' hw

theorem declHead_declares {pos : Pos} {kids : List Nd} {warn : List (Err × Pos)} {name : Str} {values : List Nd}
    (h : Declares kids warn name values) : ∃ w, declHead pos kids = .good w name values ∧ w.toList = warn := by
  cases h with
  | mk hn h1 hc h2 hv hw =>
    rename_i pre sp sp' id c v vs
    subst hv
    have key := fun (w : Option (Err × Pos)) (id : Nd) => headSpace_form (pos := pos) (warn := w) (id := id) (vs := vs) h1 hc h2 hw
    have two : ∃ x xs, sp ++ c :: (sp' ++ v :: vs) = x :: xs := by
      cases sp with
      | nil => exact ⟨_, _, rfl⟩
      | cons a l => exact ⟨_, _, rfl⟩
    obtain ⟨x, xs, hx⟩ := two
    cases hn with
    | plain h =>
      refine ⟨none, ?_, rfl⟩
      have := key none id
      rw [hx] at this
      rw [show [id] ++ sp ++ c :: sp' ++ v :: vs = id :: x :: xs by rw [← hx]; simp]
      exact (if_pos h).trans this
    | hash h =>
      refine ⟨some (.declHash, id.tok.pos), ?_, rfl⟩
      have := key (some (.declHash, id.tok.pos)) id
      rw [hx] at this
      rw [show [id] ++ sp ++ c :: sp' ++ v :: vs = id :: x :: xs by rw [← hx]; simp]
      have n1 : ¬ id.ty = .IDENTIFIER := by rcases h with h | h <;> rw [h] <;> simp
      have n2 : ¬ ((id.ty = .MULTIPLY ∨ id.ty = .PERIOD) ∧ x.ty = .IDENTIFIER) := by rcases h with h | h <;> rw [h] <;> simp
      exact (if_neg n1).trans ((if_neg n2).trans ((if_pos h).trans this))
    | trick hh hi =>
      rename_i a
      refine ⟨some (.declTrick, id.tok.pos), ?_, rfl⟩
      have := key (some (.declTrick, id.tok.pos)) id
      rw [show [a, id] ++ sp ++ c :: sp' ++ v :: vs = a :: id :: (sp ++ c :: (sp' ++ v :: vs)) by simp]
      have n1 : ¬ a.ty = .IDENTIFIER := by rcases hh with h | h <;> rw [h] <;> simp
      exact (if_neg n1).trans ((if_pos ⟨hh, hi⟩).trans this)

theorem headValues_cases (pos : Pos) (warn : Option (Err × Pos)) (id : Nd) (l : List Nd) :
    (∃ sp v vs, l = sp ++ v :: vs ∧ Gap sp ∧ (sp = [] → v.ty ≠ .WHITESPACE)) ∨
    (Gap l ∧ headValues pos warn id l = .bad [id] warn .declEmpty pos) := by
  unfold headValues
  match l with
  | [] => exact .inr ⟨.inl rfl, rfl⟩
  | v :: vs =>
    by_cases hw : v.ty = .WHITESPACE
    · simp only [if_pos hw]
      match vs with
      | [] => exact .inr ⟨.inr ⟨v, rfl, hw⟩, rfl⟩
      | v' :: vs => exact .inl ⟨[v], v', vs, rfl, .inr ⟨v, rfl, hw⟩, fun h => by cases h⟩
    · exact .inl ⟨[], v, vs, rfl, .inl rfl, fun _ => hw⟩

theorem headSpace_cases (pos : Pos) (warn : Option (Err × Pos)) (id : Nd) (l : List Nd) :
    (∃ sp c sp' v vs, l = sp ++ c :: (sp' ++ v :: vs) ∧ Gap sp ∧ c.ty = .COLON ∧ Gap sp' ∧ (sp' = [] → v.ty ≠ .WHITESPACE)) ∨
    (∃ left e, headSpace pos warn id l = .bad left warn e pos ∧ Left id l left e) ∨
    ((l = [] ∨ ∃ w, l = [w] ∧ w.ty = .WHITESPACE) ∧ headSpace pos warn id l = .throws) := by
  have colon : ∀ sp c rest, Gap sp → (sp = [] → c.ty ≠ .WHITESPACE) → l = sp ++ c :: rest → headSpace pos warn id l = headColon pos warn id c rest →
    (∃ sp c sp' v vs, l = sp ++ c :: (sp' ++ v :: vs) ∧ Gap sp ∧ c.ty = .COLON ∧ Gap sp' ∧ (sp' = [] → v.ty ≠ .WHITESPACE)) ∨
    (∃ left e, headSpace pos warn id l = .bad left warn e pos ∧ Left id l left e) := by
    intro sp c rest hsp hnw hl he
    rw [he]
    unfold headColon
    by_cases hc : c.ty = .COLON
    · rw [if_pos hc]
      rcases headValues_cases pos warn id rest with ⟨sp', v, vs, e, h1, h2⟩ | ⟨hg, e⟩
      · exact .inl ⟨sp, c, sp', v, vs, by rw [hl, e], hsp, hc, h1, h2⟩
      · exact .inr ⟨_, _, e, by rw [hl]; exact .empty hsp hc hg⟩
    · rw [if_neg hc]
      exact .inr ⟨_, _, rfl, by rw [hl]; exact .colon hsp hc hnw⟩
  match l with
  | [] => exact .inr (.inr ⟨.inl rfl, rfl⟩)
  | c :: cs =>
    by_cases hw : c.ty = .WHITESPACE
    · match cs with
      | [] =>
        refine .inr (.inr ⟨.inr ⟨c, rfl, hw⟩, ?_⟩)
        exact if_pos hw
      | d :: ds =>
        rcases colon [c] d ds (.inr ⟨c, rfl, hw⟩) (by simp) rfl (if_pos hw) with h | h
        · exact .inl h
        · exact .inr (.inl h)
    · rcases colon [] c cs (.inl rfl) (fun _ => hw) rfl (if_neg hw) with h | h
      · exact .inl h
      · exact .inr (.inl h)

theorem headSpace_name {pre : List Nd} {id : Nd} {warn : List (Err × Pos)} (hn : Name pre id warn) {w : Option (Err × Pos)}
    (hw : w.toList = warn) {pos : Pos} {l : List Nd} :
    (∃ name values, Declares (pre ++ l) warn name values) ∨
    (∃ left e, headSpace pos w id l = .bad left w e pos ∧ Refused pos (pre ++ l) left warn e pos) ∨
    (((pre = [id] ∧ l = []) ∨ NameOnly (pre ++ l)) ∧ headSpace pos w id l = .throws) := by
  rcases headSpace_cases pos w id l with ⟨sp, c, sp', v, vs, e, h1, h2, h3, h4⟩ | h | ⟨h, e⟩
  · refine .inl ⟨id.tok.str, v :: vs, ?_⟩
    rw [show pre ++ l = pre ++ sp ++ c :: sp' ++ v :: vs by rw [e]; simp]
    exact .mk hn h1 h2 h3 rfl h4
  · obtain ⟨left, e, h, hl⟩ := h
    exact .inr (.inl ⟨left, e, h, hl.refused hn pos⟩)
  · refine .inr (.inr ⟨?_, e⟩)
    rcases h with rfl | ⟨x, rfl, hx⟩
    · cases hn with
      | plain h => exact .inl ⟨rfl, rfl⟩
      | hash h => exact .inl ⟨rfl, rfl⟩
      | trick hh hi => exact .inr (.trick hh hi)
    · exact .inr (.space hn hx)

/-- What compile_declaration() makes of any children. -/
theorem declHead_cases (pos : Pos) (kids : List Nd) :
    (∃ warn name values, Declares kids warn name values) ∨
    (∃ left w e p, declHead pos kids = .bad left w e p ∧ Refused pos kids left w.toList e p ∧
      ∀ x ∈ w.toList, x.1 = Err.declTrick ∨ x.1 = Err.declHash) ∨
    (NameOnly kids ∧ declHead pos kids = .throws) := by
  match kids with
  | [] => exact .inr (.inl ⟨_, _, _, _, rfl, .short (by simp), by simp⟩)
  | [c] => exact .inr (.inl ⟨_, _, _, _, rfl, .short (by simp), by simp⟩)
  | c0 :: c1 :: cs =>
    unfold declHead
    by_cases h0 : c0.ty = .IDENTIFIER
    · simp only [if_pos h0]
      rcases headSpace_name (pos := pos) (l := c1 :: cs) (.plain h0) (w := none) rfl with ⟨n, v, h⟩ | ⟨l, e, h, he⟩ | ⟨h, e⟩
      · exact .inl ⟨_, n, v, h⟩
      · exact .inr (.inl ⟨_, _, _, _, h, he, by simp⟩)
      · refine .inr (.inr ⟨?_, e⟩)
        rcases h with ⟨_, h⟩ | h
        · cases h
        · exact h
    · simp only [if_neg h0]
      by_cases h1 : (c0.ty = .MULTIPLY ∨ c0.ty = .PERIOD) ∧ c1.ty = .IDENTIFIER
      · simp only [if_pos h1]
        rcases headSpace_name (pos := pos) (l := cs) (.trick h1.1 h1.2) (w := some (.declTrick, c1.tok.pos)) rfl with
          ⟨n, v, h⟩ | ⟨l, e, h, he⟩ | ⟨h, e⟩
        · exact .inl ⟨_, n, v, h⟩
        · exact .inr (.inl ⟨_, _, _, _, h, he, by simp⟩)
        · refine .inr (.inr ⟨?_, e⟩)
          rcases h with ⟨h, _⟩ | h
          · cases h
          · exact h
      · simp only [if_neg h1]
        by_cases h2 : c0.ty = .HASH ∨ c0.ty = .EXCLAMATION
        · simp only [if_pos h2]
          rcases headSpace_name (pos := pos) (l := c1 :: cs) (.hash h2) (w := some (.declHash, c0.tok.pos)) rfl with
            ⟨n, v, h⟩ | ⟨l, e, h, he⟩ | ⟨h, e⟩
          · exact .inl ⟨_, n, v, h⟩
          · exact .inr (.inl ⟨_, _, _, _, h, he, by simp⟩)
          · refine .inr (.inr ⟨?_, e⟩)
            rcases h with ⟨_, h⟩ | h
            · cases h
            · exact h
        · simp only [if_neg h2]
          exact .inr (.inl ⟨_, _, _, _, rfl, .name h0 (fun h => h2 (.inl h)) (fun h => h2 (.inr h)) (fun h h' => h1 ⟨h, h'⟩), by simp⟩)

/-- The arguments are computed one after the other: what becomes of them, and the messages. -/
inductive Computed (E : Env) (metrics : Bool) : List (List Nd) → List (List Nd) → List (Err × Pos) → Prop
  | nil : Computed E metrics [] [] []
  | cons {a a' : List Nd} {l l' : List (List Nd)} {errs : List (Level × Pos)} {m : List (Err × Pos)}
      (h : E.arg metrics a = some (a', errs)) (hl : Computed E metrics l l' m) :
      Computed E metrics (a :: l) (a' :: l') (errs.map (fun e => (.expr e.1, e.2)) ++ m)

/-- An argument. -/
def argNode (pos : Pos) (sep : NT) (l : List Nd) : Nd := .mk { ty := .ARG, pos := pos, int := separatorCode sep } l

theorem evalArgs_computed {E : Env} {metrics : Bool} {l l' : List (List Nd)} {m : List (Err × Pos)}
    (h : Computed E metrics l l' m) (pos : Pos) (sep : NT) {tail : List Nd}
    (ht : tail = [] ∨ ∃ b, tail = [b] ∧ b.ty = .OPEN_CURLYBRACKET) (s : St) :
    evalArgs E metrics (l.map (argNode pos sep) ++ tail) s = .ok (l'.map (argNode pos sep) ++ tail) (s.add m.reverse) := by
  induction h generalizing s with
  | nil =>
    rcases ht with rfl | ⟨b, rfl, hb⟩
    · rfl
    · show evalArgs E metrics [b] s = _
      unfold evalArgs
      rw [if_pos ⟨rfl, hb⟩]
      rfl
  | cons h hl ih =>
    rename_i a a' l l' errs m
    show evalArgs E metrics (argNode pos sep a :: (l.map (argNode pos sep) ++ tail)) s = _
    unfold evalArgs
    rw [if_neg (fun x => by have := x.2; simp [argNode, Parse.Nd.ty, Parse.Nd.tok] at this),
      if_neg (show ¬ (argNode pos sep a).ty ≠ .ARG from fun x => x rfl)]
    rw [show (argNode pos sep a).kids = a from rfl, h]
    dsimp only
    rw [bind_apply, reports_apply]
    dsimp only
    rw [bind_apply, ih]
    dsimp only
    rw [St.add_add, List.reverse_append]
    rfl

theorem push_clean {l : List Nd} (h : Parse.Clean l) : l.foldl push [] = l := by
  have key : ∀ (l acc : List Nd), Parse.Clean l → (acc.getLast?.map Nd.ty = some .WHITESPACE →
      l.head?.map Nd.ty ≠ some .WHITESPACE) → l.foldl push acc = acc ++ l := by
    intro l
    induction l with
    | nil => intro acc _ _; simp
    | cons c l ih =>
      intro acc h ha
      have hc : c.ty ≠ .EOF_TOKEN := by
        cases l with
        | nil => exact h
        | cons d l => exact h.1
      have hl : Parse.Clean l := by
        cases l with
        | nil => trivial
        | cons d l => exact h.2.2
      have hp : push acc c = acc ++ [c] := by
        unfold push
        rw [if_pos]
        refine ⟨hc, ?_⟩
        by_cases hw : c.ty = .WHITESPACE
        · right; right
          intro hx
          exact ha hx (by simp [hw])
        · exact .inl hw
      rw [List.foldl_cons, hp, ih (acc ++ [c]) hl ?_]
      · simp
      · intro hx
        rw [List.getLast?_append] at hx
        simp at hx
        cases l with
        | nil => simp
        | cons d l => simpa using h.2.1 hx
  simpa using key l [] h (by simp)

/-- The values of the properties of Internet Explorer which are not CSS. -/
def IeFilter (name : Str) (values : List Nd) : Prop :=
  (name = b!"filter" ∨ name = b!"-filter") ∧ ∃ v vs, values = v :: vs ∧
    (v.ty = .FUNCTION ∧ v.tok.str ∈ [b!"alpha", b!"chroma", b!"gray", b!"opacity"] ∨
      v.ty = .IDENTIFIER ∧ v.tok.str = b!"progid")

theorem ieFilter_iff (name : Str) (v : Nd) (vs : List Nd) : ieFilter name v = true ↔ IeFilter name (v :: vs) := by
  unfold ieFilter IeFilter
  constructor
  · intro h
    simp only [Bool.and_eq_true, Bool.or_eq_true, decide_eq_true_eq] at h
    refine ⟨h.1, v, vs, rfl, ?_⟩
    rcases h.2 with h | h
    · exact .inl ⟨h.1, by simp only [List.mem_cons, List.not_mem_nil, or_false]; exact h.2⟩
    · exact .inr h
  · rintro ⟨h1, _, _, e, h⟩
    cases e
    simp only [Bool.and_eq_true, Bool.or_eq_true, decide_eq_true_eq]
    refine ⟨h1, ?_⟩
    rcases h with h | h
    · refine .inl ⟨h.1, ?_⟩
      have := h.2
      simpa only [List.mem_cons, List.not_mem_nil, or_false] using this
    · exact .inr h

/-- The separator of the arguments of a property. -/
def separator (E : Env) (name : Str) : NT := if E.slash name then .DIVIDE else .COMMA

theorem separator_or (E : Env) (name : Str) : separator E name = .COMMA ∨ separator E name = .DIVIDE := by
  unfold separator; split <;> simp

/-- The start of a component value that is not a rule. -/
theorem compValue_decl {E : Env} {t : Tok} (ht : t.ty = .COMPONENT_VALUE) {kids : List Nd} {warn : List (Err × Pos)}
    {name : Str} {values : List Nd} (h : Declares kids warn name values) (hcv : ∀ c ∈ values, c.ty ≠ .COMPONENT_VALUE)
    (hl : (values.getLast?.map Nd.ty = some .OPEN_CURLYBRACKET → isNested kids = true)) (f : Nat) :
    compValue E (f + 1) (.mk t kids) = declaration E f t kids := by
  cases h with
  | mk hn h1 hc h2 hv hw =>
    rename_i pre sp sp' id c v vs
    subst hv
    have hcv' : ∀ x ∈ pre ++ sp ++ c :: sp' ++ v :: vs, x.ty ≠ .COMPONENT_VALUE := by
      intro x hx
      simp only [List.mem_append, List.mem_cons] at hx
      have gap : ∀ g : List Nd, Gap g → x ∈ g → x.ty ≠ .COMPONENT_VALUE := by
        intro g hg hx
        rcases hg with rfl | ⟨w, rfl, hw⟩
        · cases hx
        · simp at hx; rw [hx, hw]; simp
      rcases hx with ((hx | hx) | hx | hx) | hx
      · cases hn with
        | plain h => simp at hx; rw [hx, h]; simp
        | hash h => simp at hx; rw [hx]; rcases h with h | h <;> rw [h] <;> simp
        | trick hh hi =>
          simp at hx
          rcases hx with rfl | rfl
          · rcases hh with h | h <;> rw [h] <;> simp
          · rw [hi]; simp
      · exact gap sp h1 hx
      · rw [hx, hc]; simp
      · exact gap sp' h2 hx
      · exact hcv x (by simpa using hx)
    have hlast : (pre ++ sp ++ c :: sp' ++ v :: vs).getLast? = (v :: vs).getLast? := by
      rw [List.getLast?_append]
      cases h : (v :: vs).getLast? with
      | none => simp at h
      | some x => rfl
    have first : ∃ c0 cs, pre ++ sp ++ c :: sp' ++ v :: vs = c0 :: cs ∧ (c0.ty = .IDENTIFIER ∨ c0.ty = .MULTIPLY ∨ c0.ty = .PERIOD ∨
        c0.ty = .HASH ∨ c0.ty = .EXCLAMATION) := by
      cases hn with
      | plain h => exact ⟨id, _, rfl, .inl h⟩
      | hash h => exact ⟨id, _, rfl, by rcases h with h | h <;> simp [h]⟩
      | trick hh hi => rename_i a; exact ⟨a, _, rfl, by rcases hh with h | h <;> simp [h]⟩
    obtain ⟨c0, cs, e, hf⟩ := first
    rw [e] at hcv' hlast hl ⊢
    have hset : Vars.isSet (c0 :: cs) = false := by
      unfold Vars.isSet
      split
      · rename_i e
        cases e
        rw [if_neg]
        rcases hf with h | h | h | h | h <;> rw [h] <;> simp
      · rfl
    have hsb : Vars.isSetBlock (c0 :: cs) = false := by
      unfold Vars.isSetBlock
      rw [hset]; rfl
    rw [compValue_succ, if_neg (by rw [ht]; simp), if_neg (by rw [ht]; simp [Node.supportsChildren])]
    dsimp only
    rw [if_neg (by rcases hf with h | h | h | h | h <;> rw [h] <;> simp), if_neg (by rcases hf with h | h | h | h | h <;> rw [h] <;> simp),
      if_neg (by
        intro hx
        rw [List.all_eq_true] at hx
        exact hcv' c0 (by simp) (by simpa using hx c0 (by simp))),
      if_neg (by
        intro hx
        rw [List.any_eq_true] at hx
        obtain ⟨x, h1, h2⟩ := hx
        exact hcv' x h1 (by simpa using h2)),
      if_neg (by rcases hf with h | h | h | h | h <;> rw [h] <;> simp), if_neg (by rw [hsb]; simp)]
    by_cases hnest : isNested (c0 :: cs) = true
    · rw [if_pos hnest]
    · rw [if_neg hnest, if_neg (by rw [hlast]; exact fun x => hnest (hl x)), if_neg (by rw [hset]; simp)]

theorem declValues_skip {E : Env} {l : List Nd} (h : ∀ c ∈ l, c.ty ≠ .LIST ∧ c.ty ≠ .OPEN_CURLYBRACKET ∧ c.ty ≠ .COMPONENT_VALUE)
    {tail tail' : List Nd} {s s' : St} (ht : Gives (fun f => declValues E f tail) s (.ok tail' s')) :
    Gives (fun f => declValues E f (l ++ tail)) s (.ok (l ++ tail') s') := by
  induction l with
  | nil => exact ht
  | cons c l ih =>
    have hc := h c (by simp)
    refine Gives.succ (m := fun f => declValues E f (l ++ tail) >>= fun ns => pure (c :: ns))
      (Gives.map (k := fun ns => c :: ns) (ih (fun x hx => h x (List.mem_cons_of_mem _ hx)))) (fun f => ?_)
    show declValues E (f + 1) (c :: (l ++ tail)) s = _
    rw [declValues, if_neg hc.1, if_neg hc.2.1, if_neg hc.2.2]

theorem declValues_nil {E : Env} {s : St} : Gives (fun f => declValues E f []) s (.ok [] s) :=
  Gives.succ (m := fun _ => pure []) Gives.const (fun f => by rw [declValues])

theorem declaration_gives {E : Env} {t : Tok} (ht : t.ty = .COMPONENT_VALUE) {kids : List Nd} {warn : List (Err × Pos)}
    {name : Str} {values : List Nd} (h : Declares kids warn name values) {n : Nd} {s s1 s2 : St} {k : List Nd}
    (h1 : declExpr E (declNode t.pos name values) (s.add warn.reverse) = .ok n s1)
    (h2 : Gives (fun f => declValues E f n.kids) s1 (.ok k s2)) :
    Gives (fun f => declaration E f t kids) s (.ok (.into [.mk n.tok k]) s2) := by
  obtain ⟨w, hw, rfl⟩ := declHead_declares (pos := t.pos) h
  refine Gives.succ (m := fun f => do
        reports w.toList
        let n ← declExpr E (declNode t.pos name values)
        let k ← declValues E f n.kids
        pure (Act.into [Nd.mk n.tok k])) ?_ (fun f => by
          rw [declaration, hw]
          dsimp only
          rw [if_pos ht])
  refine Gives.bind (m := fun _ => reports w.toList) (s' := s.add w.toList.reverse) (v := ())
    (k := fun f _ => do
        let n ← declExpr E (declNode t.pos name values)
        let k ← declValues E f n.kids
        pure (Act.into [Nd.mk n.tok k])) ⟨0, fun _ _ => reports_apply _ _⟩ ?_
  refine Gives.bind (m := fun _ => declExpr E (declNode t.pos name values)) (v := n) (s' := s1)
    (k := fun f n => do
        let k ← declValues E f n.kids
        pure (Act.into [Nd.mk n.tok k])) ⟨0, fun _ _ => h1⟩ ?_
  exact Gives.map (k := fun k => Act.into [.mk n.tok k]) h2

theorem gives_compValue {E : Env} {t : Tok} (ht : t.ty = .COMPONENT_VALUE) {kids : List Nd} {warn : List (Err × Pos)}
    {name : Str} {values : List Nd} (h : Declares kids warn name values) (hcv : ∀ c ∈ values, c.ty ≠ .COMPONENT_VALUE)
    (hl : (values.getLast?.map Nd.ty = some .OPEN_CURLYBRACKET → isNested kids = true)) {s : St} {r : R Act}
    (hd : Gives (fun f => declaration E f t kids) s r) : Gives (fun f => compValue E f (.mk t kids)) s r :=
  Gives.succ hd (fun f => by rw [compValue_decl ht h hcv hl])

theorem values_ne {kids : List Nd} {warn : List (Err × Pos)} {name : Str} {values : List Nd}
    (h : Declares kids warn name values) : ∃ v vs, values = v :: vs := by
  cases h with
  | mk hn h1 hc h2 hv hw => exact ⟨_, _, hv⟩

theorem isExpr_iff {v : Nd} {vs : List Nd} : isExpr (v :: vs) = true ↔
    v.ty ≠ .OPEN_CURLYBRACKET ∧ ∀ c ∈ v :: vs, c.ty ≠ .LIST ∧ c.ty ≠ .COMPONENT_VALUE := by
  unfold isExpr
  rw [Bool.and_eq_true, List.all_eq_true]
  simp

theorem body_all {l : List Nd} (h : ∀ c ∈ l, c.ty ≠ .OPEN_CURLYBRACKET) {tail : List Nd}
    (ht : tail = [] ∨ ∃ b, tail = [b] ∧ b.ty = .OPEN_CURLYBRACKET) :
    Parse.body (l ++ tail) = l ∧ Parse.block? (l ++ tail) = tail := by
  induction l with
  | nil =>
    rcases ht with rfl | ⟨b, rfl, hb⟩
    · exact ⟨rfl, rfl⟩
    · unfold Parse.body Parse.block?
      constructor <;> simp [hb]
  | cons c l ih =>
    have hc := h c (by simp)
    obtain ⟨h1, h2⟩ := ih (fun x hx => h x (List.mem_cons_of_mem _ hx))
    unfold Parse.body at h1 ⊢
    unfold Parse.block? at h2 ⊢
    rw [List.cons_append, List.takeWhile_cons, List.dropWhile_cons, if_pos (by simpa using hc), if_pos (by simpa using hc), h1, h2]
    exact ⟨rfl, rfl⟩

theorem declExpr_expr {E : Env} {n v : Nd} {vs : List Nd} (hk : n.kids = v :: vs) (hex : isExpr (v :: vs) = true)
    (hie : ieFilter n.tok.str v = false) : declExpr E n = declArgs E n := by
  unfold declExpr
  rw [hk]
  dsimp only
  rw [if_pos hex, if_neg (by rw [hie]; simp)]

theorem argify_values {n : Nd} {sep : NT} (hsep : sep = .COMMA ∨ sep = .DIVIDE) (hn : n.ty = .DECLARATION) {l tail : List Nd}
    (hk : n.kids = l ++ tail) (hne : l ≠ []) (hv : ∀ c ∈ l, c.ty ≠ .OPEN_CURLYBRACKET ∧ c.ty ≠ .ARG)
    (ht : tail = [] ∨ ∃ b, tail = [b] ∧ b.ty = .OPEN_CURLYBRACKET) (hc : Parse.Clean (l ++ tail))
    (hs : complaint (pieces sep l) = none) :
    argify n sep = .done ((arguments (pieces sep l)).map (argNode n.tok.pos sep) ++ tail) none := by
  have h39 := Parse.C39_split n sep hsep (by rw [hn]; rfl) (by rw [hk]; simp [hne]) (by
    rw [hk]
    cases l with
    | nil => exact absurd rfl hne
    | cons v vs => simpa using (hv v (by simp)).2) (by rw [hk]; exact hc)
  obtain ⟨hb1, hb2⟩ := body_all (l := l) (fun c hc => (hv c hc).1) ht
  rw [hk, hb1, hb2, hs] at h39
  dsimp only at h39
  rw [if_pos (by rcases ht with rfl | ⟨b, rfl, _⟩ <;> simp)] at h39
  exact h39

/-- The values, computed. -/
theorem declExpr_values {E : Env} {pos : Pos} {name : Str} {l tail : List Nd} (hne : l ≠ [])
    (hv : ∀ c ∈ l, c.ty ≠ .LIST ∧ c.ty ≠ .COMPONENT_VALUE ∧ c.ty ≠ .OPEN_CURLYBRACKET ∧ c.ty ≠ .ARG)
    (ht : tail = [] ∨ ∃ b, tail = [b] ∧ b.ty = .OPEN_CURLYBRACKET) (hc : Parse.Clean (l ++ tail)) (hf : ¬ IeFilter name (l ++ tail))
    (hs : complaint (pieces (separator E name) l) = none) {args : List (List Nd)} {m : List (Err × Pos)}
    (ha : Computed E (E.metrics name) (arguments (pieces (separator E name) l)) args m) (s : St) :
    declExpr E (declNode pos name (l ++ tail)) s =
      .ok (.mk { ty := .DECLARATION, pos := pos, str := name } (args.map (argNode pos (separator E name)) ++ tail))
        (s.add m.reverse) := by
  obtain ⟨v, vs, rfl⟩ : ∃ v vs, l = v :: vs := by
    cases l with
    | nil => exact absurd rfl hne
    | cons v vs => exact ⟨v, vs, rfl⟩
  have hex : isExpr (v :: (vs ++ tail)) = true := by
    rw [isExpr_iff]
    refine ⟨(hv v (by simp)).2.2.1, fun c hcm => ?_⟩
    rw [← List.cons_append, List.mem_append] at hcm
    rcases hcm with h | h
    · exact ⟨(hv c h).1, (hv c h).2.1⟩
    · rcases ht with rfl | ⟨b, rfl, hb⟩
      · cases h
      · simp at h; rw [h, hb]; simp
  unfold declNode
  rw [push_clean hc]
  rw [declExpr_expr (v := v) (vs := vs ++ tail) rfl hex (by
    cases hx : ieFilter name v with
    | false => exact hx
    | true => exact absurd ((ieFilter_iff name v (vs ++ tail)).mp hx) hf)]
  unfold declArgs
  dsimp only [Parse.Nd.tok]
  have h39 := argify_values (n := .mk { ty := .DECLARATION, pos := pos, str := name } (v :: vs ++ tail)) (separator_or E name)
    rfl rfl (by simp) (fun c hc => (hv c hc).2.2) ht hc hs
  show (match argify _ (separator E name) with | .throws => throws | .done kids err => _ : M Nd) s = _
  rw [h39]
  dsimp only
  show (reports [] >>= fun _ => _) s = _
  rw [bind_apply, reports_apply]
  dsimp only
  rw [bind_apply]
  rw [show (s.add ([] : List (Err × Pos)).reverse) = s.add [] from rfl,
    show (Nd.mk { ty := .DECLARATION, pos := pos, str := name } (v :: vs ++ tail)).tok.pos = pos from rfl,
    evalArgs_computed ha pos (separator E name) ht (s.add [])]
  rfl

/-- C65: `name: values;` becomes the declaration of that name. Its values are split at the commas (at the '/' for the
properties that want it), without the spaces around them, and each of them is computed; the messages are the
warning about the name and those of the values. -/
theorem C65_declaration {E : Env} {t : Tok} (ht : t.ty = .COMPONENT_VALUE) {kids : List Nd} {warn : List (Err × Pos)}
    {name : Str} {values : List Nd} (h : Declares kids warn name values)
    (hv : ∀ c ∈ values, c.ty ≠ .LIST ∧ c.ty ≠ .COMPONENT_VALUE ∧ c.ty ≠ .OPEN_CURLYBRACKET ∧ c.ty ≠ .ARG)
    (hc : Parse.Clean values) (hf : ¬ IeFilter name values)
    (hs : complaint (pieces (separator E name) values) = none) {args : List (List Nd)} {m : List (Err × Pos)}
    (ha : Computed E (E.metrics name) (arguments (pieces (separator E name) values)) args m) (s : St) :
    Gives (fun f => compValue E f (.mk t kids)) s
      (.ok (.into [.mk { ty := .DECLARATION, pos := t.pos, str := name } (args.map (argNode t.pos (separator E name)))])
        (s.add (m.reverse ++ warn.reverse))) := by
  obtain ⟨v, vs, e⟩ := values_ne h
  refine gives_compValue ht h (fun c hc => (hv c hc).2.1) ?_ ?_
  · intro hx
    cases hl : values.getLast? with
    | none => rw [hl] at hx; cases hx
    | some x =>
      rw [hl] at hx
      have hm := List.mem_of_getLast? hl
      exact absurd (by simpa using hx) (hv x hm).2.2.1
  · have h1 := declExpr_values (pos := t.pos) (tail := []) (by rw [e]; simp) hv (.inl rfl) (by simpa using hc) (by simpa using hf) hs ha
      (s.add warn.reverse)
    rw [List.append_nil, List.append_nil, St.add_add] at h1
    refine declaration_gives ht h h1 ?_
    have := declValues_skip (E := E) (l := args.map (argNode t.pos (separator E name))) (fun c hc => by
      obtain ⟨a, _, rfl⟩ := List.mem_map.mp hc
      simp [argNode, Parse.Nd.ty, Parse.Nd.tok]) (declValues_nil (s := s.add (m.reverse ++ warn.reverse)))
    rwa [List.append_nil] at this

/-- The model's test is the one of C55, on the types of the children. -/
theorem isNested_eq (kids : List Nd) : isNested kids = nestedDeclaration (types kids) := by
  have after : ∀ l : List Nd, nestedAfter l = (match types l with
      | .WHITESPACE :: _ | .OPEN_CURLYBRACKET :: _ => true
      | .FUNCTION :: r => looksLikeValue r
      | r => looksLikeValue r) := by
    intro l
    cases l with
    | nil => rfl
    | cons c cs =>
      show (if c.ty = .WHITESPACE ∨ c.ty = .OPEN_CURLYBRACKET then true
        else if c.ty = .FUNCTION then Parse.selectorLoop cs
        else Parse.selectorLoop (c :: cs)) = (match c.ty :: types cs with
      | .WHITESPACE :: _ | .OPEN_CURLYBRACKET :: _ => true
      | .FUNCTION :: r => looksLikeValue r
      | r => looksLikeValue r)
      rw [Parse.selectorLoop_eq, Parse.selectorLoop_eq]
      show _ = (match c.ty :: types cs with
      | .WHITESPACE :: _ | .OPEN_CURLYBRACKET :: _ => true
      | .FUNCTION :: r => looksLikeValue r
      | r => looksLikeValue r)
      rw [show types (c :: cs) = c.ty :: types cs from rfl]
      generalize c.ty = ty
      cases ty <;> simp
  have last : ∀ l : List Nd, (types l).getLast? = l.getLast?.map Nd.ty := fun l => by
    unfold types; rw [List.getLast?_map]
  match kids with
  | [] => rfl
  | [a] =>
    show false = nestedDeclaration [a.ty]
    cases a.ty <;> rfl
  | [a, b] =>
    show false = nestedDeclaration [a.ty, b.ty]
    cases a.ty <;> first | rfl | (cases b.ty <;> rfl)
  | a :: b :: c :: cs =>
    unfold isNested
    dsimp only
    by_cases ha : a.ty = .IDENTIFIER
    · rw [if_neg (fun x => x ha)]
      have hnd : nestedDeclaration (types (a :: b :: c :: cs)) =
          (decide ((types (a :: b :: c :: cs)).getLast? = some .OPEN_CURLYBRACKET) &&
            (match afterColon (types (b :: c :: cs)) with
             | some (.WHITESPACE :: _) | some (.OPEN_CURLYBRACKET :: _) => true
             | some (.FUNCTION :: r) => looksLikeValue r
             | some r => looksLikeValue r
             | none => false)) := by
        rw [show types (a :: b :: c :: cs) = a.ty :: types (b :: c :: cs) from rfl, ha]
        rfl
      rw [hnd, last]
      by_cases hl : (a :: b :: c :: cs).getLast?.map Nd.ty = some .OPEN_CURLYBRACKET
      · rw [if_neg (fun x => x hl), hl]
        rw [show decide (some NT.OPEN_CURLYBRACKET = some NT.OPEN_CURLYBRACKET) = true from rfl, Bool.true_and]
        have some_case : ∀ l : List Nd, nestedAfter l = (match some (types l) with
             | some (.WHITESPACE :: _) | some (.OPEN_CURLYBRACKET :: _) => true
             | some (.FUNCTION :: r) => looksLikeValue r
             | some r => looksLikeValue r
             | none => false) := by
          intro l
          rw [after]
          cases types l with
          | nil => rfl
          | cons x xs => cases x <;> rfl
        by_cases hb : b.ty = .WHITESPACE
        · rw [if_pos hb]
          rw [show types (b :: c :: cs) = b.ty :: c.ty :: types cs from rfl, hb]
          by_cases hc : c.ty = .COLON
          · rw [if_pos hc, hc, some_case]
            rfl
          · rw [if_neg hc]
            have : afterColon (.WHITESPACE :: c.ty :: types cs) = none := by
              unfold afterColon
              split
              · rename_i e; injection e with _ e; injection e with e; exact absurd e hc
              · rename_i e; injection e with e; cases e
              · rfl
            rw [this]
        · rw [if_neg hb]
          by_cases hc : b.ty = .COLON
          · rw [if_pos hc, some_case]
            rw [show types (b :: c :: cs) = b.ty :: types (c :: cs) from rfl, hc]
            rfl
          · rw [if_neg hc]
            have : afterColon (types (b :: c :: cs)) = none := by
              rw [show types (b :: c :: cs) = b.ty :: c.ty :: types cs from rfl]
              unfold afterColon
              split
              · rename_i e; injection e with e; exact absurd e hb
              · rename_i e; injection e with e; exact absurd e hc
              · rfl
            rw [this]
      · rw [if_pos hl]
        rw [decide_eq_false hl, Bool.false_and]
    · rw [if_pos ha]
      rw [show types (a :: b :: c :: cs) = a.ty :: types (b :: c :: cs) from rfl]
      revert ha
      cases a.ty <;> intro ha <;> first | rfl | exact absurd rfl ha

theorem declValues_block {E : Env} {b : Nd} (hb : b.ty = .OPEN_CURLYBRACKET) {k : List Nd} {s s' : St}
    (h : Gives (fun f => declBlock E f b.kids) s (.ok k s')) :
    Gives (fun f => declValues E f [b]) s (.ok [.mk b.tok k] s') := by
  refine Gives.succ (m := fun f => do
      let k ← declBlock E f b.kids
      let ns ← declValues E f []
      pure (Nd.mk b.tok k :: ns)) ?_ (fun f => by
        rw [declValues, if_neg (by rw [hb]; simp), if_pos hb])
  refine Gives.bind (k := fun f k => do
      let ns ← declValues E f []
      pure (Nd.mk b.tok k :: ns)) h ?_
  exact Gives.map (k := fun ns => Nd.mk b.tok k :: ns) declValues_nil

theorem last_block {l : List Nd} {b : Nd} (hv : ∀ c ∈ l, c.ty ≠ .COMPONENT_VALUE) (hb : b.ty = .OPEN_CURLYBRACKET) :
    ∀ c ∈ l ++ [b], c.ty ≠ .COMPONENT_VALUE := by
  intro c hc
  rcases List.mem_append.mp hc with h | h
  · exact hv c h
  · simp at h; rw [h, hb]; simp

/-- C65: `name: { ... }` becomes the declaration of that name, and its block is compiled; `name: values { ... }`, when it
is not a selector (C55), has both. -/
theorem C65_block {E : Env} {t : Tok} (ht : t.ty = .COMPONENT_VALUE) {kids : List Nd} {warn : List (Err × Pos)}
    {name : Str} {l : List Nd} {b : Nd} (h : Declares kids warn name (l ++ [b])) (hn : nestedDeclaration (types kids) = true)
    (hv : ∀ c ∈ l, c.ty ≠ .LIST ∧ c.ty ≠ .COMPONENT_VALUE ∧ c.ty ≠ .OPEN_CURLYBRACKET ∧ c.ty ≠ .ARG)
    (hb : b.ty = .OPEN_CURLYBRACKET) (hc : Parse.Clean (l ++ [b])) (hf : ¬ IeFilter name (l ++ [b]))
    {args : List (List Nd)} {m : List (Err × Pos)}
    (ha : l = [] ∧ args = [] ∧ m = [] ∨
      l ≠ [] ∧ complaint (pieces (separator E name) l) = none ∧
        Computed E (E.metrics name) (arguments (pieces (separator E name) l)) args m)
    {s s' : St} {k : List Nd}
    (hk : Gives (fun f => declBlock E f b.kids) (s.add (m.reverse ++ warn.reverse)) (.ok k s')) :
    Gives (fun f => compValue E f (.mk t kids)) s
      (.ok (.into [.mk { ty := .DECLARATION, pos := t.pos, str := name }
        (args.map (argNode t.pos (separator E name)) ++ [.mk b.tok k])]) s') := by
  refine gives_compValue ht h (last_block (fun c hc => (hv c hc).2.1) hb) (fun _ => by rw [isNested_eq]; exact hn) ?_
  have skip := declValues_skip (E := E) (l := args.map (argNode t.pos (separator E name))) (fun c hc => by
      obtain ⟨a, _, rfl⟩ := List.mem_map.mp hc
      simp [argNode, Parse.Nd.ty, Parse.Nd.tok]) (declValues_block hb hk)
  rcases ha with ⟨rfl, rfl, rfl⟩ | ⟨hne, hs, ha⟩
  · have h1 : declExpr E (declNode t.pos name ([] ++ [b])) (s.add warn.reverse) =
        .ok (.mk { ty := .DECLARATION, pos := t.pos, str := name } [b]) (s.add warn.reverse) := by
      unfold declNode
      rw [push_clean hc]
      unfold declExpr
      have : isExpr [b] = false := by unfold isExpr; simp [hb]
      simp only [Parse.Nd.kids, List.nil_append]
      rw [this]
      rfl
    exact declaration_gives ht h h1 skip
  · have h1 := declExpr_values (pos := t.pos) (tail := [b]) hne hv (.inr ⟨b, rfl, hb⟩) hc hf hs ha (s.add warn.reverse)
    rw [St.add_add] at h1
    exact declaration_gives ht h h1 skip

/-- C65: the values of the `filter` of Internet Explorer are left as they are, with a warning. -/
theorem C65_filter {E : Env} {t : Tok} (ht : t.ty = .COMPONENT_VALUE) {kids : List Nd} {warn : List (Err × Pos)}
    {name : Str} {v : Nd} {vs : List Nd} (h : Declares kids warn name (v :: vs))
    (hv : ∀ c ∈ v :: vs, c.ty ≠ .LIST ∧ c.ty ≠ .COMPONENT_VALUE ∧ c.ty ≠ .OPEN_CURLYBRACKET)
    (hc : Parse.Clean (v :: vs)) (hf : IeFilter name (v :: vs)) (s : St) :
    Gives (fun f => compValue E f (.mk t kids)) s
      (.ok (.into [.mk { ty := .DECLARATION, pos := t.pos, str := name } (v :: vs)])
        (s.add ((.declFilter, v.tok.pos) :: warn.reverse))) := by
  refine gives_compValue ht h (fun c hc => (hv c hc).2.1) ?_ ?_
  · intro hx
    cases hl : (v :: vs).getLast? with
    | none => rw [hl] at hx; cases hx
    | some x =>
      rw [hl] at hx
      have hm := List.mem_of_getLast? hl
      exact absurd (by simpa using hx) (hv x hm).2.2
  · have hex : isExpr (v :: vs) = true :=
      isExpr_iff.mpr ⟨(hv v (by simp)).2.2, fun c hc => ⟨(hv c hc).1, (hv c hc).2.1⟩⟩
    have h1 : declExpr E (declNode t.pos name (v :: vs)) (s.add warn.reverse) =
        .ok (.mk { ty := .DECLARATION, pos := t.pos, str := name } (v :: vs)) (s.add ((.declFilter, v.tok.pos) :: warn.reverse)) := by
      unfold declNode
      rw [push_clean hc]
      have hie := (ieFilter_iff name v vs).mpr hf
      unfold declExpr
      simp only [Parse.Nd.kids]
      rw [if_pos hex]
      refine (congrFun (if_pos hie) _).trans ?_
      rfl
    refine declaration_gives ht h h1 ?_
    have := declValues_skip (E := E) (l := v :: vs) (fun c hc => ⟨(hv c hc).1, (hv c hc).2.2, (hv c hc).2.1⟩)
      (declValues_nil (s := s.add ((.declFilter, v.tok.pos) :: warn.reverse)))
    rwa [List.append_nil] at this

/-- A component value that can only be a declaration: it is not empty, it does not start with a comment, an @-rule or a
variable, it is not a list of component values and does not end with a block. -/
structure OnlyDecl (kids : List Nd) : Prop where
  first : ∃ c cs, kids = c :: cs ∧ c.ty ≠ .COMMENT ∧ c.ty ≠ .ARG ∧ c.ty ≠ .AT_KEYWORD ∧ c.ty ≠ .VARIABLE ∧
    c.ty ≠ .VARIABLE_FUNCTION
  values : ∀ c ∈ kids, c.ty ≠ .COMPONENT_VALUE
  last : kids.getLast?.map Nd.ty ≠ some .OPEN_CURLYBRACKET

theorem compValue_only {E : Env} {t : Tok} (ht : t.ty = .COMPONENT_VALUE) {kids : List Nd} (h : OnlyDecl kids) (f : Nat) :
    compValue E (f + 1) (.mk t kids) = declaration E f t kids := by
  obtain ⟨⟨c0, cs, rfl, h1, h2, h3, h4, h5⟩, hcv, hl⟩ := h
  have hset : Vars.isSet (c0 :: cs) = false := by
    unfold Vars.isSet
    split
    · rename_i e
      cases e
      rw [if_neg (by simp [h4, h5])]
    · rfl
  have hsb : Vars.isSetBlock (c0 :: cs) = false := by
    unfold Vars.isSetBlock
    rw [hset]; rfl
  have hnest : isNested (c0 :: cs) = false := by
    unfold isNested
    split
    · split <;> rfl
    · rfl
  rw [compValue_succ, if_neg (by rw [ht]; simp), if_neg (by rw [ht]; simp [Node.supportsChildren])]
  dsimp only
  rw [if_neg h1, if_neg h2,
    if_neg (by
      intro hx
      rw [List.all_eq_true] at hx
      exact hcv c0 (by simp) (by simpa using hx c0 (by simp))),
    if_neg (by
      intro hx
      rw [List.any_eq_true] at hx
      obtain ⟨x, h1, h2⟩ := hx
      exact hcv x h1 (by simpa using h2)),
    if_neg h3, if_neg (by rw [hsb]; simp), if_neg (by rw [hnest]; simp), if_neg hl, if_neg (by rw [hset]; simp)]

/-- C65: what is not `name: values` is not a declaration. It stays a component value, with exactly one error (and at
most the warning about the name before it); or it is a name with nothing after it, and that is an exception. -/
theorem C65_refused {E : Env} {t : Tok} (ht : t.ty = .COMPONENT_VALUE) {kids : List Nd} (h : OnlyDecl kids)
    (hd : ∀ warn name values, ¬ Declares kids warn name values) :
    (∃ left warn e p, Refused t.pos kids left warn e p ∧ e.level = .error ∧ warn.length ≤ 1 ∧ (∀ x ∈ warn, x.1 = Err.declTrick ∨ x.1 = Err.declHash) ∧
      ∀ s, Gives (fun f => compValue E f (.mk t kids)) s (.ok (.keep (.mk t left)) (s.add ((e, p) :: warn)))) ∨
    (NameOnly kids ∧ ∀ s, Gives (fun f => compValue E f (.mk t kids)) s .throws) := by
  rcases declHead_cases t.pos kids with ⟨w, n, v, h'⟩ | ⟨left, w, e, p, h1, h2, h3⟩ | ⟨h1, h2⟩
  · exact absurd h' (hd w n v)
  · refine .inl ⟨left, w.toList, e, p, h2, h2.error, ?_, h3, fun s => ⟨2, fun g hg => ?_⟩⟩
    · cases w <;> simp
    · obtain ⟨g, rfl⟩ : ∃ k, g = k + 2 := ⟨g - 2, by omega⟩
      show compValue E (g + 1 + 1) (.mk t kids) s = _
      rw [compValue_only ht h, declaration, h1]
      show (reports (w.toList ++ [(e, p)]) >>= fun _ => _) s = _
      rw [bind_apply, reports_apply]
      cases w <;> rfl
  · refine .inr ⟨h1, fun s => ⟨2, fun g hg => ?_⟩⟩
    obtain ⟨g, rfl⟩ : ∃ k, g = k + 2 := ⟨g - 2, by omega⟩
    show compValue E (g + 1 + 1) (.mk t kids) s = _
    rw [compValue_only ht h, declaration, h2]
    rfl

/-- C65: what is never a declaration: the four cases exclude each other and the declarations. -/
theorem C65_refused_only {pos : Pos} {kids left : List Nd} {warn : List (Err × Pos)} {e : Err} {p : Pos}
    (h : Refused pos kids left warn e p) {left' : List Nd} {warn' : List (Err × Pos)} {e' : Err} {p' : Pos}
    (h' : Refused pos kids left' warn' e' p') : left = left' ∧ warn = warn' ∧ e = e' ∧ p = p' := by
  have key : ∀ {left warn e p}, Refused pos kids left warn e p → ∃ w, declHead pos kids = .bad left w e p ∧ w.toList = warn := by
    intro left warn e p h
    have name : ∀ {pre id warn l left e}, Name pre id warn → (l ≠ []) →
        (∀ w, headSpace pos w id l = .bad left w e pos) → ∃ w, declHead pos (pre ++ l) = .bad left w e pos ∧ w.toList = warn := by
      intro pre id warn l left e hn hl hs
      obtain ⟨x, xs, rfl⟩ : ∃ x xs, l = x :: xs := by
        cases l with
        | nil => exact absurd rfl hl
        | cons x xs => exact ⟨x, xs, rfl⟩
      cases hn with
      | plain h => exact ⟨none, (if_pos h).trans (hs none), rfl⟩
      | hash h =>
        refine ⟨some (.declHash, id.tok.pos), ?_, rfl⟩
        have n1 : ¬ id.ty = .IDENTIFIER := by rcases h with h | h <;> rw [h] <;> simp
        have n2 : ¬ ((id.ty = .MULTIPLY ∨ id.ty = .PERIOD) ∧ x.ty = .IDENTIFIER) := by rcases h with h | h <;> rw [h] <;> simp
        exact (if_neg n1).trans ((if_neg n2).trans ((if_pos h).trans (hs _)))
      | trick hh hi =>
        rename_i a
        refine ⟨some (.declTrick, id.tok.pos), ?_, rfl⟩
        have n1 : ¬ a.ty = .IDENTIFIER := by rcases hh with h | h <;> rw [h] <;> simp
        exact (if_neg n1).trans ((if_pos ⟨hh, hi⟩).trans (hs _))
    cases h with
    | short h =>
      refine ⟨none, ?_, rfl⟩
      match kids, h with
      | [], _ => rfl
      | [c], _ => rfl
      | _ :: _ :: _, h => simp at h; omega
    | name h1 h2 h3 h4 =>
      refine ⟨none, ?_, rfl⟩
      exact (if_neg h1).trans ((if_neg (fun h => h4 h.1 h.2)).trans (if_neg (fun h => h.elim h2 h3)))
    | colon hn h1 hc hw =>
      refine name hn (by simp) fun w => ?_
      rcases h1 with rfl | ⟨x, rfl, hx⟩
      · exact (if_neg (hw rfl)).trans (if_neg hc)
      · exact (if_pos hx).trans (if_neg hc)
    | empty hn h1 hc h2 =>
      refine name hn (by simp) fun w => ?_
      rename_i pre sp sp' id c
      have hv : headValues pos w id sp' = .bad [id] w .declEmpty pos := by
        rcases h2 with rfl | ⟨y, rfl, hy⟩
        · rfl
        · exact if_pos hy
      rcases h1 with rfl | ⟨x, rfl, hx⟩
      · exact (if_neg (by rw [hc]; simp)).trans ((if_pos hc).trans hv)
      · exact (if_pos hx).trans ((if_pos hc).trans hv)
  obtain ⟨w, e1, rfl⟩ := key h
  obtain ⟨w', e2, rfl⟩ := key h'
  rw [e1] at e2
  cases e2
  exact ⟨rfl, rfl, rfl, rfl⟩

/-- C65: only the messages about the tricks for old browsers are warnings; all the others of the compiler are errors,
unless they are those of the user or of an expression, which have their own level. -/
theorem C65_levels (e : Err) : e.level =
    (match e with
     | .user l _ => l
     | .expr l => l
     | e => if e = .declTrick ∨ e = .declHash ∨ e = .declFilter then .warning else .error) := by
  cases e <;> first | rfl | (unfold Err.level; simp)

/-- C65: known defect: a name alone (`.name;` or `*name;` in a block) is never reported, it is an exception. -/
theorem C65_name_only {E : Env} {t : Tok} (ht : t.ty = .COMPONENT_VALUE) {kids : List Nd} (h : NameOnly kids) (s : St) :
    Gives (fun f => compValue E f (.mk t kids)) s .throws := by
  have ho : OnlyDecl kids := by
    cases h with
    | trick hh hi =>
      rename_i a id
      refine ⟨⟨a, _, rfl, ?_⟩, ?_, ?_⟩
      · rcases hh with h | h <;> rw [h] <;> simp
      · intro c hc
        simp at hc
        rcases hc with rfl | rfl
        · rcases hh with h | h <;> rw [h] <;> simp
        · rw [hi]; simp
      · simp [hi]
    | space hn hw =>
      rename_i pre id w warn
      refine ⟨?_, ?_, by simp [hw]⟩
      · cases hn with
        | plain h => exact ⟨id, _, rfl, by rw [h]; simp⟩
        | hash h => exact ⟨id, _, rfl, by rcases h with h | h <;> rw [h] <;> simp⟩
        | trick hh hi => rename_i a; exact ⟨a, _, rfl, by rcases hh with h | h <;> rw [h] <;> simp⟩
      · intro c hc
        rcases List.mem_append.mp hc with hc | hc
        · cases hn with
          | plain h => simp at hc; rw [hc, h]; simp
          | hash h => simp at hc; rw [hc]; rcases h with h | h <;> rw [h] <;> simp
          | trick hh hi =>
            simp at hc
            rcases hc with rfl | rfl
            · rcases hh with h | h <;> rw [h] <;> simp
            · rw [hi]; simp
        · simp at hc; rw [hc, hw]; simp
  have hthrow : declHead t.pos kids = .throws := by
    cases h with
    | trick hh hi =>
      have n1 : ∀ a : Nd, a.ty = .MULTIPLY ∨ a.ty = .PERIOD → ¬ a.ty = .IDENTIFIER := fun a h => by
        rcases h with h | h <;> rw [h] <;> simp
      exact (if_neg (n1 _ hh)).trans (if_pos ⟨hh, hi⟩)
    | space hn hw =>
      rename_i pre id w warn
      have hs : ∀ x, headSpace t.pos x id [w] = .throws := fun x => if_pos hw
      cases hn with
      | plain h => exact (if_pos h).trans (hs _)
      | hash h =>
        have n1 : ¬ id.ty = .IDENTIFIER := by rcases h with h | h <;> rw [h] <;> simp
        have n2 : ¬ ((id.ty = .MULTIPLY ∨ id.ty = .PERIOD) ∧ w.ty = .IDENTIFIER) := by rw [hw]; simp
        exact (if_neg n1).trans ((if_neg n2).trans ((if_pos h).trans (hs _)))
      | trick hh hi =>
        rename_i a
        have n1 : ¬ a.ty = .IDENTIFIER := by rcases hh with h | h <;> rw [h] <;> simp
        exact (if_neg n1).trans ((if_pos ⟨hh, hi⟩).trans (hs _))
  refine ⟨2, fun g hg => ?_⟩
  obtain ⟨g, rfl⟩ : ∃ k, g = k + 2 := ⟨g - 2, by omega⟩
  show compValue E (g + 1 + 1) (.mk t kids) s = _
  rw [compValue_only ht ho, declaration, hthrow]
  rfl

/-- C65: in a block, or in a list in a block, the component value is replaced by its declaration, and the rest is
compiled after it. -/
theorem C65_in_block {E : Env} {t : Tok} (ht : t.ty = .COMPONENT_VALUE) {kids : List Nd} {d : Nd} (hd : d.ty = .DECLARATION)
    {s s' s'' : St} (h : Gives (fun f => compValue E f (.mk t kids)) s (.ok (.into [d]) s'))
    {loop : Nat → List Nd → M (List Nd)}
    (hl : loop = ruleLoop E ∨ loop = items E ∨ loop = declBlock E ∨ loop = mediaLoop E ∨ loop = faceLoop E)
    {rest out : List Nd} (hr : Gives (fun f => loop f rest) s' (.ok out s'')) :
    Gives (fun f => loop f (.mk t kids :: rest)) s (.ok (d :: out) s'') := by
  obtain ⟨f, h⟩ := h
  obtain ⟨f', hr⟩ := hr
  refine ⟨f + f' + 4, fun g hg => ?_⟩
  obtain ⟨g, rfl⟩ : ∃ k, g = k + 3 := ⟨g - 3, by omega⟩
  have hc : compValue E (g + 2) (Nd.mk t kids) s = _ := h (g + 2) (by omega)
  have hf : loop (g + 1) rest s' = _ := hr (g + 1) (by omega)
  have hty : (Nd.mk t kids).ty = .COMPONENT_VALUE := ht
  have hdv : ∀ s, compValue E (g + 1) d s = .ok (.keep d) s := by
    intro s
    obtain ⟨dt, dk⟩ := d
    have hd : dt.ty = .DECLARATION := hd
    rw [compValue_succ, if_pos hd]
    rfl
  show loop (g + 2 + 1) (.mk t kids :: rest) s = _
  rcases hl with rfl | rfl | rfl | rfl | rfl
  · rw [ruleLoop, hty]
    show (compValue E (g + 2) (Nd.mk t kids) >>= _) s = _
    rw [bind_apply, hc]
    show ruleLoop E (g + 1 + 1) (d :: rest) s' = _
    rw [ruleLoop, hd]
    show (ruleLoop E (g + 1) rest >>= _) s' = _
    rw [bind_apply, hf]
    rfl
  · rw [items]
    show (compValue E (g + 2) (Nd.mk t kids) >>= _) s = _
    rw [bind_apply, hc]
    show items E (g + 1 + 1) (d :: rest) s' = _
    rw [items]
    show (compValue E (g + 1) d >>= _) s' = _
    rw [bind_apply, hdv]
    show (items E (g + 1) rest >>= _) s' = _
    rw [bind_apply, hf]
    rfl
  · rw [declBlock, hty]
    show (compValue E (g + 2) (Nd.mk t kids) >>= _) s = _
    rw [bind_apply, hc]
    show declBlock E (g + 1 + 1) (d :: rest) s' = _
    rw [declBlock, hd]
    show (declBlock E (g + 1) rest >>= _) s' = _
    rw [bind_apply, hf]
    rfl
  · rw [mediaLoop, hty]
    show (compValue E (g + 2) (Nd.mk t kids) >>= _) s = _
    rw [bind_apply, hc]
    show mediaLoop E (g + 1 + 1) (d :: rest) s' = _
    rw [mediaLoop, hd]
    show (compValue E (g + 1) d >>= _) s' = _
    rw [bind_apply, hdv]
    show (mediaLoop E (g + 1) rest >>= _) s' = _
    rw [bind_apply, hf]
    rfl
  · rw [faceLoop, hty]
    show (compValue E (g + 2) (Nd.mk t kids) >>= _) s = _
    rw [bind_apply, hc]
    show faceLoop E (g + 1 + 1) (d :: rest) s' = _
    rw [faceLoop, hd]
    show (faceLoop E (g + 1) rest >>= _) s' = _
    rw [bind_apply, hf]
    rfl

/-! ### Examples -/

/-- `color : red, blue` -/
def exColor : List Nd :=
  [exNode .IDENTIFIER b!"color" [], exNode .WHITESPACE [] [], exNode .COLON [] [], exNode .WHITESPACE [] [],
   exNode .IDENTIFIER b!"red" [], exNode .COMMA [] [], exNode .WHITESPACE [] [], exNode .IDENTIFIER b!"blue" []]

example : Declares exColor [] b!"color"
    [exNode .IDENTIFIER b!"red" [], exNode .COMMA [] [], exNode .WHITESPACE [] [], exNode .IDENTIFIER b!"blue" []] :=
  .mk (pre := [exNode .IDENTIFIER b!"color" []]) (sp := [exNode .WHITESPACE [] []]) (sp' := [exNode .WHITESPACE [] []])
    (.plain rfl) (.inr ⟨_, rfl, rfl⟩) rfl (.inr ⟨_, rfl, rfl⟩) rfl (fun h => by cases h)

example (s : St) : ∃ d, Gives (fun f => compValue exEnv f (exNode .COMPONENT_VALUE [] exColor)) s (.ok (.into [d]) s) ∧
    d.tok.str = b!"color" ∧ d.kids.map (fun a => a.kids.map (fun c => c.tok.str)) = [[b!"red"], [b!"blue"]] := by
  refine ⟨_, C65_declaration (E := exEnv) (t := { ty := .COMPONENT_VALUE, pos := exPos, str := [] }) rfl
    (kids := exColor) (warn := []) (name := b!"color") (values := [exNode .IDENTIFIER b!"red" [], exNode .COMMA [] [],
      exNode .WHITESPACE [] [], exNode .IDENTIFIER b!"blue" []])
    (args := [[exNode .IDENTIFIER b!"red" []], [exNode .IDENTIFIER b!"blue" []]]) (m := [])
    (.mk (pre := [exNode .IDENTIFIER b!"color" []]) (sp := [exNode .WHITESPACE [] []]) (sp' := [exNode .WHITESPACE [] []])
      (.plain rfl) (.inr ⟨_, rfl, rfl⟩) rfl (.inr ⟨_, rfl, rfl⟩) rfl (fun h => by cases h))
    ?_ ?_ ?_ ?_ ?_ s, rfl, rfl⟩
  · intro c hc
    simp only [List.mem_cons, List.not_mem_nil, or_false] at hc
    rcases hc with rfl | rfl | rfl | rfl <;> decide
  · simp [Parse.Clean, exNode, Parse.Nd.ty, Parse.Nd.tok]
  · rintro ⟨h, _⟩
    revert h; decide
  · rfl
  · exact Computed.cons (E := exEnv) (metrics := false) (a := [exNode .IDENTIFIER b!"red" []]) (errs := []) rfl
      (Computed.cons (a := [exNode .IDENTIFIER b!"blue" []]) (errs := []) rfl .nil)

/-- `.name` -/
example : NameOnly [exNode .PERIOD [] [], exNode .IDENTIFIER b!"name" []] := .trick (.inr rfl) rfl
/-- `name value` -/
example : ∀ warn name values, ¬ Declares [exNode .IDENTIFIER b!"name" [], exNode .INTEGER [] []] warn name values := by
  intro warn name values h
  obtain ⟨w, h, _⟩ := declHead_declares (pos := exPos) h
  revert h
  show Head.bad _ _ _ _ = _ → _
  intro h; cases h

end Csspp.Compile
