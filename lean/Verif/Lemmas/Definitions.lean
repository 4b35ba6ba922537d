import Verif.Spec.ToolRun
import Verif.Props.ToolMore

/-! A test that a file is a list of definitions, `defs`, with the variables it defines (for C94). -/

namespace Csspp.Tool
open Csspp.Parse (Nd)
open Csspp.Lex (Tok Pos)
open Csspp.Spec
open Csspp.Spec.Tool
open Csspp.Vars (St Var)

/-- A parameter. -/
def toWritten : List Nd → Option Written
  | [.mk v []] => if v.ty = .VARIABLE then some ⟨v, none⟩ else none
  | [.mk v [], .mk c [], .mk w [], x] =>
    if v.ty = .VARIABLE ∧ c.ty = .COLON ∧ w.ty = .WHITESPACE ∧ x.ty ≠ .WHITESPACE then some ⟨v, some (none, c, some w, [x])⟩ else none
  | _ => none

theorem same {t : Tok} {ty : NT} (h : t.ty = ty) : { t with ty := ty } = t := by
  cases t; cases h; rfl

theorem toWritten_nodes {l : List Nd} {w : Written} (h : toWritten l = some w) : w.nodes = l ∧ w.Good := by
  unfold toWritten at h
  split at h
  · rename_i v
    split at h
    · rename_i hv
      injection h with h
      subst h
      refine ⟨?_, fun _ _ _ _ h => by cases h⟩
      show [Nd.leaf _] = _
      dsimp only
      rw [same hv]
      rfl
    · cases h
  · rename_i v c w x
    split at h
    · rename_i hv
      obtain ⟨h1, h2, h3, h4⟩ := hv
      injection h with h
      subst h
      constructor
      · show Nd.leaf _ :: ([] ++ Nd.leaf _ :: ([Nd.leaf _] ++ [x])) = _
        dsimp only
        rw [same h1, same h2, same h3]
        rfl
      · intro a b c' l e
        injection e with e
        injection e with _ e
        injection e with _ e
        injection e with _ e
        subst e
        simpa using h4
    · cases h
  · cases h

def allWritten : List (List Nd) → Option (List Written)
  | [] => some []
  | l :: ls =>
    match toWritten l, allWritten ls with
    | some w, some ws => some (w :: ws)
    | _, _ => none

theorem allWritten_nodes : ∀ {ls : List (List Nd)} {ws : List Written}, allWritten ls = some ws →
    ws.map Written.nodes = ls ∧ ∀ w ∈ ws, w.Good
  | [], ws, h => by
    injection h with h
    subst h
    exact ⟨rfl, by simp⟩
  | l :: ls, ws, h => by
    unfold allWritten at h
    split at h
    · rename_i w ws' h1 h2
      injection h with h
      subst h
      obtain ⟨a, b⟩ := toWritten_nodes h1
      obtain ⟨c, d⟩ := allWritten_nodes h2
      refine ⟨by rw [List.map_cons, a, c], ?_⟩
      intro x hx
      rcases List.mem_cons.1 hx with rfl | hx
      · exact b
      · exact d x hx
    · cases h

def clean : List Nd → Bool
  | [] => true
  | [c] => c.ty ≠ .EOF_TOKEN
  | c :: d :: l => decide (c.ty ≠ .EOF_TOKEN) && (!decide (c.ty = .WHITESPACE) || decide (d.ty ≠ .WHITESPACE)) && clean (d :: l)

theorem clean_ok : ∀ {l : List Nd}, clean l = true → Parse.Clean l
  | [], _ => trivial
  | [c], h => by
    show c.ty ≠ .EOF_TOKEN
    simpa [clean] using h
  | c :: d :: l, h => by
    simp only [clean, Bool.and_eq_true, decide_eq_true_eq, Bool.or_eq_true, Bool.not_eq_true', decide_eq_false_iff_not] at h
    refine ⟨h.1.1, fun e => ?_, clean_ok h.2⟩
    rcases h.1.2 with h | h
    · exact absurd e h
    · exact h

/-- The parameters of a function. -/
def params (args : List Nd) : Option (List Written) :=
  if args ≠ [] ∧ clean args = true ∧ (args.all fun c => decide (c.ty ≠ .ARG ∧ c.ty ≠ .OPEN_CURLYBRACKET)) = true ∧
      (Parse.complaint (Parse.pieces .COMMA args)).isNone = true then
    match allWritten (Parse.arguments (Parse.pieces .COMMA args)) with
    | some ws => if disorder ws = 0 then some ws else none
    | none => none
  else none

theorem params_ok {args : List Nd} {ws : List Written} (h : params args = some ws) (pos : Pos) :
    Arguments pos args (ws.map (fun w => ⟨pos, w.nodes⟩)) ∧ (∀ w ∈ ws, w.Good) ∧ disorder ws = 0 := by
  unfold params at h
  split at h
  · rename_i hc
    obtain ⟨h1, h2, h3, h4⟩ := hc
    split at h
    · rename_i ws' hw
      split at h
      · rename_i hd
        injection h with h
        subst h
        obtain ⟨a, b⟩ := allWritten_nodes hw
        refine ⟨.inr ⟨h1, clean_ok h2, ?_, ?_, ?_⟩, b, hd⟩
        · intro c hc
          have := List.all_eq_true.1 h3 c hc
          exact of_decide_eq_true this
        · exact Option.isNone_iff_eq_none.1 h4
        · rw [← a, List.map_map]; rfl
      · cases h
    · cases h
  · cases h

/-- A definition that is the node itself, and the variable. -/
def def1 : Nd → Option (Var × Bool)
  | .mk t [.mk v [], .mk c [], .mk w [], .mk x []] =>
    if t.ty = .COMPONENT_VALUE ∧ v.ty = .VARIABLE ∧ c.ty = .COLON ∧ w.ty = .WHITESPACE ∧
        (x.ty = .STRING ∨ x.ty = .INTEGER ∨ x.ty = .DECIMAL_NUMBER) then some (⟨.leaf v, .leaf x⟩, false) else none
  | .mk t [.mk ft args, b] =>
    if t.ty = .AT_KEYWORD ∧ t.str = b!"mixin" ∧ ft.ty = .FUNCTION ∧ b.ty = .OPEN_CURLYBRACKET then
      match params args with
      | some ws => some (⟨.mk ft (ws.map (fun w => (w.param ft.pos).node)), b⟩, true)
      | none => none
    else none
  | _ => none

def defs : List Nd → Option (List (Var × Bool))
  | [] => some []
  | n :: l =>
    match def1 n, defs l with
    | some v, some vs => some (v :: vs)
    | _, _ => none

def puts (s : St) : List (Var × Bool) → St
  | [] => s
  | (v, g) :: l => puts (s.put v g) l

theorem def1_ok (E : Vars.Env) {n : Nd} {v : Var} {g : Bool} (h : def1 n = some (v, g)) {l : List Nd} {s s' : St}
    (hl : Defines E l (s.put v g) s') : Defines E (n :: l) s s' := by
  unfold def1 at h
  split at h
  · rename_i t v c w x
    split at h
    · rename_i hc
      obtain ⟨h1, h2, h3, h4, h5⟩ := hc
      injection h with h
      injection h with e1 e2
      subst e1; subst e2
      have hn : Nd.mk t [.mk v [], .mk c [], .mk w [], .mk x []] = setNode t v c none (some w) [.leaf x] := by
        unfold setNode
        rw [same h1, same h2, same h3]
        show _ = Nd.mk t (.leaf v :: ([] ++ .leaf c :: ([.leaf { w with ty := .WHITESPACE }] ++ [.leaf x])))
        rw [same h4]
        rfl
      have hf : ¬ AnyFlag (.leaf x) := by
        have : x.ty ≠ .EXCLAMATION := by rcases h5 with h | h | h <;> rw [h] <;> simp
        rintro (hf | hf) <;> exact this hf.1
      have hp : Spec.Plain (.leaf x) := by
        refine .mk x [] ?_ ?_ ?_ ?_ ?_ (by simp)
        all_goals rcases h5 with h | h | h <;> rw [h] <;> simp
      rw [hn]
      refine .set t v c none (some w) [.leaf x] ?_ (by simp) ?_ ?_
      · intro y hy
        rw [List.mem_singleton.1 hy]
        exact ⟨hp, hf⟩
      · show some x.ty ≠ _
        rcases h5 with h | h | h <;> rw [h] <;> simp
      · have ha : assigned t.pos [.leaf x] = .leaf x := by
          have hi : x.ty ≠ .IDENTIFIER := by rcases h5 with h | h | h <;> rw [h] <;> simp
          unfold assigned
          rw [List.filter_cons_of_pos (by simpa using hf), List.filter_nil]
          dsimp only
          rw [if_neg]
          intro e
          exact hi e.1
        rw [ha, same h2]
        exact hl
    · cases h
  · rename_i t ft args b
    split at h
    · rename_i hc
      obtain ⟨h1, h2, h3, h4⟩ := hc
      split at h
      · rename_i ws hw
        injection h with h
        injection h with e1 e2
        subst e1; subst e2
        obtain ⟨a, b', c⟩ := params_ok hw ft.pos
        exact .function t ft b ws h1 h2 h3 h4 a b' c hl
      · cases h
    · cases h
  · cases h

theorem defs_ok (E : Vars.Env) : ∀ {l : List Nd} {vs : List (Var × Bool)}, defs l = some vs → ∀ s, Defines E l s (puts s vs)
  | [], vs, h, s => by
    injection h with h
    subst h
    exact .nil s
  | n :: l, vs, h, s => by
    unfold defs at h
    split at h
    · rename_i v vs' h1 h2
      injection h with h
      subst h
      obtain ⟨v, g⟩ := v
      exact def1_ok E h1 (defs_ok E h2 _)
    · cases h

/-- The last variable of a name. -/
def lastOf (name : Str) : List (Var × Bool) → Option Var
  | [] => none
  | (v, _) :: l =>
    match lastOf name l with
    | some v => some v
    | none => if v.key = name then some v else none

theorem puts_get (name : Str) : ∀ (vs : List (Var × Bool)) (s : St), s.scopes = [] →
    (puts s vs).scopes = [] ∧ (puts s vs).get name = (lastOf name vs).or (s.get name)
  | [], s, h => ⟨h, rfl⟩
  | (v, g) :: vs, s, h => by
    have h1 : (s.put v g).scopes = [] ∧ (s.put v g).get name = if v.key = name then some v else s.get name := by
      have e : s.put v g = { s with root := Vars.putVar v s.root } := by
        unfold St.put
        cases g with
        | true => rfl
        | false => rw [h]; rfl
      rw [e]
      refine ⟨h, ?_⟩
      unfold St.get
      dsimp only
      rw [h]
      exact find_put v name s.root
    obtain ⟨a, b⟩ := puts_get name vs (s.put v g) h1.1
    refine ⟨a, ?_⟩
    show (puts (s.put v g) vs).get name = _
    rw [b, h1.2]
    have e : lastOf name ((v, g) :: vs) = match lastOf name vs with
      | some v => some v
      | none => if v.key = name then some v else none := rfl
    rw [e]
    cases lastOf name vs with
    | some x => rfl
    | none => by_cases hk : v.key = name <;> simp [hk]

theorem puts_errs : ∀ (vs : List (Var × Bool)) (s : St), (puts s vs).errs = s.errs
  | [], _ => rfl
  | (v, g) :: vs, s => by
    show (puts (s.put v g) vs).errs = _
    rw [puts_errs vs]
    unfold St.put
    cases g with
    | true => rfl
    | false =>
      cases h : s.scopes with
      | nil => rfl
      | cons b bs => rfl

theorem append_defines {E : Vars.Env} {a b : List Nd} {s s1 s2 : St} (h : Defines E a s s1) (h' : Defines E b s1 s2) :
    Defines E (a ++ b) s s2 := by
  induction h with
  | nil => exact h'
  | set t var colon w1 w2 vs a1 a2 a3 _ ih => exact .set t var colon w1 w2 vs a1 a2 a3 (ih h')
  | mixin t name block a1 a2 a3 a4 _ ih => exact .mixin t name block a1 a2 a3 a4 (ih h')
  | function t ft block ws a1 a2 a3 a4 a5 a6 a7 _ ih => exact .function t ft block ws a1 a2 a3 a4 a5 a6 a7 (ih h')
  | «import» a1 a2 a3 _ _ ih => exact .import a1 a2 a3 (ih h')

end Csspp.Tool
