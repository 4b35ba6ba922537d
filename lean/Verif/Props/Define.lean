import Verif.Props.Call

/-!
C60: the definition of functions and mixins, and what a call depends on.
-/

namespace Csspp.Vars
open Csspp.Parse (Nd)
open Csspp.Lex (Tok Pos)
open Csspp.Spec

/-- Errors are added to the state. -/
def addErrs (n : Nat) (e : Err) (pos : Pos) (s : St) : St := { s with errs := List.replicate n (e, pos) ++ s.errs }

theorem skip_opt (w : Option Tok) (l : List Nd) (h : l.head?.map Nd.ty ≠ some .WHITESPACE) :
    skipSpace (w.toList.map (fun t => Nd.leaf { t with ty := .WHITESPACE }) ++ l) = l := by
  cases w with
  | some w => rfl
  | none =>
    unfold skipSpace
    cases l with
    | nil => rfl
    | cons c cs => exact if_neg (fun e => h (by show some c.ty = _; rw [e]))

theorem prepareArg_eq (pos : Pos) (w : Written) (hw : w.Good) (opt : Bool) (s : St) :
    prepareArg (Argument.node ⟨pos, w.nodes⟩) opt s =
      .ok (Param.node (w.param pos), opt || w.default_.isSome)
        (addErrs (if opt = true ∧ w.default_.isNone then 1 else 0) .optionalOrder pos s) := by
  obtain ⟨name, dflt⟩ := w
  cases dflt with
  | none =>
    cases opt <;> rfl
  | some x =>
    obtain ⟨w1, colon, w2, l⟩ := x
    have hl := hw _ _ _ _ rfl
    have key : prepareArg (Argument.node ⟨pos, Written.nodes ⟨name, some (w1, colon, w2, l)⟩⟩) opt s =
        .ok (.mk { ty := .ARG, pos := pos, int := Parse.separatorCode .COMMA } (.leaf { name with ty := .VARIABLE } ::
          skipSpace (w2.toList.map (fun t => .leaf { t with ty := .WHITESPACE }) ++ l)), true) s := by
      cases w1 <;> rfl
    rw [key, skip_opt w2 l hl]
    cases opt <;> rfl

theorem prepareArgs_eq (pos : Pos) : ∀ (ws : List Written) (opt : Bool) (s : St), (∀ w ∈ ws, w.Good) →
    prepareArgs (ws.map (fun w => Argument.node ⟨pos, w.nodes⟩)) opt s =
      .ok (ws.map (fun w => Param.node (w.param pos)))
        (addErrs (if opt then (ws.filter (·.default_.isNone)).length else disorder ws) .optionalOrder pos s)
  | [], opt, s, _ => by cases opt <;> rfl
  | w :: ws, opt, s, h => by
    simp only [List.map_cons]
    unfold prepareArgs
    rw [bind_apply, prepareArg_eq pos w (h w (by simp))]
    dsimp only
    rw [bind_apply, prepareArgs_eq pos ws _ _ (fun w hw => h w (by simp [hw]))]
    dsimp only
    rw [pure_apply]
    congr 1
    unfold addErrs disorder
    cases hd : w.default_ with
    | none =>
      cases opt
      · simp [hd]
      · simp [hd, List.replicate_succ']
    | some x =>
      cases opt
      · simp [hd]
      · simp [hd]

theorem prepareFunctionArguments_eq {t : Tok} (ht : t.ty = .FUNCTION ∨ t.ty = .VARIABLE_FUNCTION) {l : List Nd} {ws : List Written}
    (hl : Arguments t.pos l (ws.map (fun w => ⟨t.pos, w.nodes⟩))) (hg : ∀ w ∈ ws, w.Good) (s : St) :
    prepareFunctionArguments (.mk t l) s =
      .ok (.mk t (ws.map (fun w => (w.param t.pos).node))) (addErrs (disorder ws) .optionalOrder t.pos s) := by
  unfold prepareFunctionArguments
  have e3 : argifyM (.mk t l) s = .ok (.mk t (ws.map (fun w => Argument.node ⟨t.pos, w.nodes⟩)), true) s := by
    unfold argifyM
    rw [argify_args ht hl, List.map_map]
    rfl
  rw [bind_apply, e3]
  dsimp only
  rw [if_pos rfl, bind_apply, show (Nd.mk t (ws.map (fun w => Argument.node ⟨t.pos, w.nodes⟩))).kids = ws.map (fun w => Argument.node ⟨t.pos, w.nodes⟩) from rfl, prepareArgs_eq _ _ _ _ hg]
  rfl

/-- The function that is defined. -/
theorem function_defined {t : Tok} (ht : t.ty = .FUNCTION ∨ t.ty = .VARIABLE_FUNCTION) (ws : List Written) (value : Nd) :
    Function ⟨.mk t (ws.map (fun w => (w.param t.pos).node)), value⟩ (ws.map (Written.param t.pos)) :=
  ⟨ht, by show _ = _; rw [List.map_map]; rfl⟩

/-- C60: `@mixin f(parameters) {block}` is removed and defines the function, at the root; an error for each
parameter without a default after one with a default. -/
theorem C60_mixin_function {E : Env} {p : NT} {t ft : Tok} (ht : t.ty = .AT_KEYWORD) (hs : t.str = b!"mixin") {l : List Nd} {block : Nd}
    (hf : ft.ty = .FUNCTION) (hb : block.ty = .OPEN_CURLYBRACKET) {ws : List Written}
    (hl : Arguments ft.pos l (ws.map (fun w => ⟨ft.pos, w.nodes⟩))) (hg : ∀ w ∈ ws, w.Good) (s : St) (d rest : List Nd) :
    ∃ v, v.key = ft.str ∧ v.value = block ∧ Function v (ws.map (Written.param ft.pos)) ∧
      To E p (d ++ .mk t [.mk ft l, block] :: rest) d.length s (d ++ rest) d.length
        ((addErrs (disorder ws) .optionalOrder ft.pos s).put v true) := by
  refine ⟨⟨.mk ft (ws.map (fun w => (w.param ft.pos).node)), block⟩, rfl, rfl, function_defined (.inl hf) ws block, to_mixin ht hs ?_ d rest⟩
  have hty : (Nd.mk ft l).ty = .FUNCTION := hf
  unfold handleMixin
  dsimp only [Parse.Nd.kids]
  rw [if_neg (by rw [hb]; simp), if_neg (by rw [hty]; simp), if_neg (by rw [hty]; simp), if_pos hty, bind_apply,
    prepareFunctionArguments_eq (.inl hf) hl hg]
  rfl

/-- C60: `$f(parameters): value` is removed and defines the function, where C59_set puts a variable. The value is kept as it
is: the variables in it are those of the call. -/
theorem C60_define (E : Env) (t ft colon : Tok) (w1 w2 : Option Tok) (l vs : List Nd) (s : St) (hf : ft.ty = .VARIABLE_FUNCTION)
    (hw : vs.head?.map Nd.ty ≠ some .WHITESPACE) (h3 : w1.isSome ∨ w2.isSome ∨ vs ≠ []) {ws : List Written}
    (hl : Arguments ft.pos l (ws.map (fun w => ⟨ft.pos, w.nodes⟩))) (hg : ∀ w ∈ ws, w.Good)
    (hd : ¬ ((∃ c ∈ vs, IsFlag b!"default" c) ∧ (s.get ft.str).isSome = true)) (g : Bool)
    (hglobal : g = true ↔ ∃ c ∈ vs, IsFlag b!"global" c) :
    ∃ (v : Var) (s1 : St), v.key = ft.str ∧ v.value = assigned t.pos vs ∧ Function v (ws.map (Written.param ft.pos)) ∧
      s1.scopes = s.scopes ∧ s1.root = s.root ∧
      (¬ Late vs → s1.errs = List.replicate (disorder ws) (.optionalOrder, ft.pos) ++ s.errs) ∧
      (Late vs → s1.errs = List.replicate (disorder ws) (.optionalOrder, ft.pos) ++ (.flagNotAtEnd, t.pos) :: s.errs) ∧
      Gives (fun f => replaceVars E f (.mk { t with ty := .COMPONENT_VALUE } (.mk ft l ::
          (w1.toList.map (fun w => .leaf { w with ty := .WHITESPACE }) ++
            .leaf { colon with ty := .COLON } :: (w2.toList.map (fun w => .leaf { w with ty := .WHITESPACE }) ++ vs))))) s
        (.ok none (s1.put v g)) := by
  obtain ⟨f1, f2, f3, f4⟩ := flags_eq vs
  let tl := w1.toList.map (fun w => Nd.leaf { w with ty := .WHITESPACE }) ++
    .leaf { colon with ty := .COLON } :: (w2.toList.map (fun w => .leaf { w with ty := .WHITESPACE }) ++ vs)
  let n : Nd := .mk { t with ty := .COMPONENT_VALUE } (.mk ft l :: tl)
  have hafter : afterColon tl = some vs := by
    unfold afterColon
    rw [skip_opt w1 _ (by show some NT.COLON ≠ _; simp)]
    dsimp only
    rw [if_pos (by rfl), skip_opt w2 vs hw]
  have hset : isVarSet n = true := by
    have hty : (Nd.mk ft l).ty = .VARIABLE_FUNCTION := hf
    have : isSet (.mk ft l :: tl) = true := by
      unfold isSet
      cases w1 with
      | none =>
        cases w2 with
        | none =>
          cases vs with
          | nil => simp at h3
          | cons c cs => simp only [tl]; dsimp only [Option.toList, List.map, List.nil_append]; rw [hty]; rfl
        | some w => simp only [tl]; dsimp only [Option.toList, List.map, List.nil_append, List.cons_append]; rw [hty]; rfl
      | some w => simp only [tl]; dsimp only [Option.toList, List.map, List.nil_append, List.cons_append]; rw [hty]; rfl
    show (decide (NT.COMPONENT_VALUE = NT.COMPONENT_VALUE) && isSet (.mk ft l :: tl)) = true
    rw [this]
    rfl
  have hfirst : firstIdx n = n.kids.length := by
    have hty : (Nd.mk ft l).ty = .VARIABLE_FUNCTION := hf
    unfold firstIdx
    rw [hset, if_pos rfl, if_pos (show n.kids.head?.map Nd.ty = some .VARIABLE_FUNCTION from congrArg some hty)]
  let s0 : St := { s with errs := if (flags vs).notAtEnd then (.flagNotAtEnd, t.pos) :: s.errs else s.errs }
  let v : Var := ⟨.mk ft (ws.map (fun w => (w.param ft.pos).node)), assigned t.pos vs⟩
  have hrun : setVariable n s = .ok () ((addErrs (disorder ws) .optionalOrder ft.pos s0).put v g) := by
    have hrep : reportIf (flags vs).notAtEnd .flagNotAtEnd t.pos s = .ok () s0 := by
      unfold reportIf
      cases hn : (flags vs).notAtEnd
      · show R.ok () s = .ok () _
        simp only [s0, hn]
        rfl
      · simp only [s0, hn]
        rfl
    have e : (flags vs).global = g := by rw [Bool.eq_iff_iff, f2, hglobal]
    unfold setVariable
    dsimp only [n, Parse.Nd.kids, Parse.Nd.tok]
    rw [hafter]
    show (reportIf (flags vs).notAtEnd .flagNotAtEnd t.pos >>= fun _ => _) s = _
    rw [bind_apply, hrep]
    dsimp only
    show (get ft.str >>= fun old => _) s0 = _
    rw [bind_apply]
    show (if (flags vs).default_ = true ∧ (s.get ft.str).isSome = true then pure () else _ : M Unit) s0 = _
    rw [if_neg (fun h' => hd ⟨f3.1 h'.1, h'.2⟩), valueOf_eq, bind_apply]
    have hp : prepareName (.mk ft l) s0 = .ok (.mk ft (ws.map (fun w => (w.param ft.pos).node))) (addErrs (disorder ws) .optionalOrder ft.pos s0) := by
      unfold prepareName
      rw [if_pos (show (Nd.mk ft l).ty = .VARIABLE_FUNCTION from hf)]
      exact prepareFunctionArguments_eq (.inr hf) hl hg s0
    rw [hp, e]
    rfl
  refine ⟨v, addErrs (disorder ws) .optionalOrder ft.pos s0, rfl, rfl, function_defined (.inr hf) ws _, rfl, rfl, ?_, ?_, ?_⟩
  · intro h
    have : (flags vs).notAtEnd = false := by
      cases hn : (flags vs).notAtEnd
      · rfl
      · exact absurd (f4.1 hn) h
    simp only [addErrs, s0, this]
    rfl
  · intro h
    simp only [addErrs, s0, f4.2 h, if_true]
  · have hl := loop_end E .COMPONENT_VALUE n.kids s
    refine gives_succ (gives_bind (f := fun _ k => setVariable (.mk { t with ty := .COMPONENT_VALUE } k) >>= fun _ => pure none) hl
      ⟨0, fun g _ => ?_⟩) (fun g => ?_)
    · show (setVariable n >>= fun _ => pure none) s = _
      rw [bind_apply, hrun]
      rfl
    · have e1 : isScope n = false := rfl
      have ht' : n.ty = .COMPONENT_VALUE := rfl
      show replaceVars E (g + 1) n s = _
      conv => lhs; rw [replaceVars]
      rw [ht', if_neg (by simp), if_neg (by simp [walks]), if_neg (by simp), e1, hset, hfirst]
      simp only [bind_apply, enter, leave]
      rfl

/-! ### What a use or a call depends on -/

/-- A value and the messages. -/
inductive Out (α : Type) where
  | ok (v : α) (errs : List (Err × Pos))
  | throws
  | fuel

/-- The same with the state of the caller. -/
def Out.at_ {α : Type} (s : St) : Out α → R α
  | .ok v errs => .ok v { s with errs := errs }
  | .throws => .throws
  | .fuel => .fuel

/-- It reads no variable and changes none. -/
def Closed {α : Type} (m : M α) : Prop := ∃ g : List (Err × Pos) → Out α, ∀ s : St, m s = (g s.errs).at_ s

theorem Closed.pure {α : Type} (v : α) : Closed (pure v : M α) := ⟨fun e => .ok v e, fun _ => rfl⟩
theorem Closed.throws {α : Type} : Closed (throws : M α) := ⟨fun _ => .throws, fun _ => rfl⟩
theorem Closed.report (e : Err) (p : Pos) : Closed (report e p) := ⟨fun l => .ok () ((e, p) :: l), fun _ => rfl⟩
theorem Closed.reportIf (b : Bool) (e : Err) (p : Pos) : Closed (reportIf b e p) := by
  unfold Vars.reportIf
  cases b
  · exact .pure ()
  · exact .report e p
theorem Closed.orThrow {α : Type} (o : Option α) : Closed (orThrow o) := by
  cases o
  · exact .throws
  · exact .pure _
theorem Closed.bind {α β : Type} {m : M α} {f : α → M β} (h : Closed m) (hf : ∀ v, Closed (f v)) : Closed (m >>= f) := by
  obtain ⟨g, hg⟩ := h
  refine ⟨fun e => match g e with
    | .ok v e' => (Classical.choose (hf v)) e'
    | .throws => .throws
    | .fuel => .fuel, fun s => ?_⟩
  rw [bind_apply, hg s]
  dsimp only
  generalize g s.errs = o
  cases o with
  | throws => rfl
  | fuel => rfl
  | ok v e' =>
    show f v { s with errs := e' } = Out.at_ s (Classical.choose (hf v) e')
    rw [Classical.choose_spec (hf v) { s with errs := e' }]
    dsimp only
    cases Classical.choose (hf v) e' <;> rfl
theorem Closed.separately {α : Type} (vars : List Var) (m : M α) : Closed (separately vars m) := by
  refine ⟨fun e => match m { scopes := [], root := vars, errs := e } with
    | .ok v s => .ok v s.errs
    | .throws => .throws
    | .fuel => .fuel, fun s => ?_⟩
  unfold Vars.separately
  dsimp only
  generalize m { scopes := [], root := vars, errs := s.errs } = o
  cases o <;> rfl

theorem Closed.argifyM (n : Nd) : Closed (argifyM n) := by
  unfold Vars.argifyM
  split
  · exact .throws
  · exact .pure _
  · exact .bind (.report _ _) (fun _ => .pure _)

theorem Closed.bindArgs (call : Pos) : ∀ (ps us : List Nd) (vars : List Var), Closed (bindArgs call ps us vars)
  | [], us, vars => by cases us <;> exact .pure _
  | p :: ps, us, vars => by
    unfold Vars.bindArgs
    split
    · exact .throws
    · split
      · exact .throws
      · split
        · exact .pure _
        · split
          · split
            · exact .bind (.report _ _) (fun _ => .pure _)
            · exact Closed.bindArgs call ps [] _
          · split
            · exact .throws
            · exact Closed.bindArgs call ps _ _

/-- C60: what a use or a call is replaced by depends on the variable that it names and on the arguments, and on nothing else:
not on the other variables of the caller; and it changes no variable. -/
theorem C60_closed (E : Env) (f : Nat) (p : NT) (k : List Nd) (n : Nd) (i : Nat) (v : Option Var) :
    ∃ g : List (Err × Pos) → Out (List Nd), ∀ s : St, s.get n.tok.str = v → replaceVariable E f p k n i s = (g s.errs).at_ s := by
  cases f with
  | zero => exact ⟨fun _ => .fuel, fun s _ => by rw [replaceVariable]; rfl⟩
  | succ f =>
    cases v with
    | none =>
      obtain ⟨g, hg⟩ : Closed (reportIf (!E.emptyOnUndefined) .notSet n.tok.pos >>= fun _ => (pure k : M (List Nd))) :=
        .bind (.reportIf _ _ _) (fun _ => .pure _)
      refine ⟨g, fun s hs => ?_⟩
      rw [← hg s, replaceVariable, bind_apply]
      show (match s.get n.tok.str with | none => _ | some v => _ : M _) s = _
      rw [hs]
    | some v =>
      have hc : Closed (if isFunction v.name then
        if isFunction n = false then do
          report .needsCall n.tok.pos
          pure k
        else do
          let (n, _) ← argifyM n
          let vars ← bindArgs n.tok.pos v.name.kids n.kids []
          match vars with
          | none => pure k
          | some vars => do
            let root := mark false (.mk { ty := .LIST, pos := v.value.tok.pos } [v.value])
            let root ← separately vars (replaceVars E f root)
            match root with
            | none => throws
            | some root => orThrow (insertValue p k i (onlyBlock root))
      else if isFunction n then do
        report .notFunction n.tok.pos
        pure k
      else orThrow (insertValue p k i v.value) : M (List Nd)) := by
        split
        · split
          · exact .bind (.report _ _) (fun _ => .pure _)
          · refine .bind (.argifyM n) (fun a => .bind (.bindArgs _ _ _ _) (fun vars => ?_))
            cases vars with
            | none => exact .pure _
            | some vars =>
              refine .bind (.separately _ _) (fun root => ?_)
              cases root with
              | none => exact .throws
              | some root => exact .orThrow _
        · split
          · exact .bind (.report _ _) (fun _ => .pure _)
          · exact .orThrow _
      obtain ⟨g, hg⟩ := hc
      refine ⟨g, fun s hs => ?_⟩
      rw [← hg s, replaceVariable, bind_apply]
      show (match s.get n.tok.str with | none => _ | some v => _ : M _) s = _
      rw [hs]
      rfl

/-- C60: the body of a function does not see the variables of the style sheet: a body `$x`, where x is not a parameter,
is an error even when $x is set. -/
theorem C60_hidden {E : Env} {p : NT} {t : Tok} (ht : t.ty = .VARIABLE_FUNCTION) {kids : List Nd} {s : St} {vals : Valuation} (ha : Agrees vals s)
    (hk : ∀ c ∈ kids, (c.ty = .VARIABLE → ∃ v, vals c.tok.str = some v ∧ GoodValue v) ∧ (c.ty ≠ .VARIABLE → Template vals c))
    {as : List Argument} (hargs : Arguments t.pos (substAll vals t.ty kids) as)
    {v : Var} (hv : s.get t.str = some v) {ps : List Param} (hf : Function v ps) (hm : ¬ Missing ps as)
    (hbody : v.value.ty = .VARIABLE) (hx : parameters ps as v.value.tok.str = none) (hE : E.emptyOnUndefined = false)
    (d rest : List Nd) :
    To E p (d ++ .mk t kids :: rest) d.length s (d ++ rest) d.length { s with errs := (.notSet, v.value.tok.pos) :: s.errs } := by
  refine to_call ht ha hk d rest ?_
  obtain ⟨vars, hb1, hb2⟩ := findVar_bindArgs t.pos s ps as [] hm
  have hb2 := hb2 v.value.tok.str
  rw [hx] at hb2
  have hget : ({ scopes := [], root := vars, errs := s.errs } : St).get v.value.tok.str = none := hb2
  let root : Nd := .mk { ty := .LIST, pos := v.value.tok.pos } [v.value]
  have hmark : mark false root = root := by
    have hty : marks v.value.ty = false := by rw [hbody]; rfl
    have hml : marksLast [v.value] = false := by
      unfold marksLast
      have : decide ((some v.value).map Nd.ty = some .OPEN_CURLYBRACKET) = false := by
        rw [show (some v.value).map Nd.ty = some v.value.ty from rfl, hbody]; rfl
      show (_ && decide ((some v.value).map Nd.ty = some .OPEN_CURLYBRACKET)) = false
      rw [this, Bool.and_false]
    have hval : mark false v.value = v.value := by
      cases hq : v.value with
      | mk tk ks =>
        rw [hq] at hty
        have hty : marks tk.ty = false := hty
        unfold mark
        simp only [Bool.false_eq_true, if_false, hty]
    show mark false (.mk { ty := .LIST, pos := v.value.tok.pos } [v.value]) = _
    unfold mark
    rw [hml]
    dsimp only [markAll]
    rw [Bool.false_and, hval]
    rfl
  have hin : Gives (fun f => replaceVars E f root) { scopes := [], root := vars, errs := s.errs }
      (.ok (some (.mk { ty := .LIST, pos := v.value.tok.pos } [])) { scopes := [], root := vars, errs := (.notSet, v.value.tok.pos) :: s.errs }) := by
    have h1 := C59_unset (E := E) (p := .LIST) hbody hget [] [] (.ok [] _) (by simp) (loop_end E .LIST [] _)
    rw [hE] at h1
    refine gives_succ (gives_bind (f := fun _ k => pure (some (.mk { ty := .LIST, pos := v.value.tok.pos } k))) h1 (gives_pure _ _)) (fun g => ?_)
    have e1 : isScope root = false := rfl
    have e2 : isVarSet root = false := rfl
    have e3 : firstIdx root = 0 := rfl
    have ht' : root.ty = .LIST := rfl
    have e4 : root.kids = [v.value] := rfl
    conv => lhs; rw [replaceVars]
    rw [ht', if_neg (by simp), if_neg (by simp [walks]), if_neg (by rw [e4]; simp), e1, e2, e3]
    simp only [bind_apply, enter, leave]
    rfl
  obtain ⟨a, hin⟩ := hin
  refine ⟨a + 1, fun g hg => ?_⟩
  obtain ⟨g, rfl⟩ : ∃ k, g = k + 1 := ⟨g - 1, by omega⟩
  dsimp only
  rw [replaceVariable, bind_apply]
  show (match s.get t.str with | none => _ | some v => _ : M _) s = _
  rw [hv]
  dsimp only
  have e2 : isFunction (.mk t (substAll vals t.ty kids)) = true := decide_eq_true (.inr ht)
  rw [hf.is, e2, if_pos rfl, if_neg (by simp), bind_apply]
  have e3 : argifyM (.mk t (substAll vals t.ty kids)) s = .ok (.mk t (as.map Argument.node), true) s := by
    unfold argifyM
    rw [argify_args (.inr ht) hargs]
    rfl
  rw [e3]
  dsimp only
  rw [bind_apply, hf.2, show (Nd.mk t (as.map Argument.node)).kids = as.map Argument.node from rfl,
    show (Nd.mk t (as.map Argument.node)).tok.pos = t.pos from rfl, hb1]
  dsimp only
  rw [bind_apply]
  have e4 := hin g (by omega)
  dsimp only at e4
  unfold separately
  rw [show (Nd.mk { ty := .LIST, pos := v.value.tok.pos } [v.value]) = root from rfl, hmark, e4]
  dsimp only
  rfl

/-! ### Concrete cases -/

/-- `@mixin f($a, $b: z) { w $a $b }` -/
def exParams : List Written := [⟨{ ty := .VARIABLE, pos := exPos, str := b!"a" }, none⟩,
  ⟨{ ty := .VARIABLE, pos := exPos, str := b!"b" }, some (none, { ty := .COLON, pos := exPos }, some { ty := .WHITESPACE, pos := exPos }, [exLeaf .IDENTIFIER b!"z"])⟩]
def exFn : Tok := { ty := .FUNCTION, pos := exPos, str := b!"f" }
def exParamNodes : List Nd := [exLeaf .VARIABLE b!"a", exLeaf .COMMA [], exLeaf .WHITESPACE [], exLeaf .VARIABLE b!"b", exLeaf .COLON [],
  exLeaf .WHITESPACE [], exLeaf .IDENTIFIER b!"z"]
def exBlock : Nd := exNode .OPEN_CURLYBRACKET [exNode .COMPONENT_VALUE
  [exLeaf .IDENTIFIER b!"w", exLeaf .WHITESPACE [], exLeaf .VARIABLE b!"a", exLeaf .WHITESPACE [], exLeaf .VARIABLE b!"b"]]

/-- The hypotheses of C60_mixin_function. -/
example : Arguments exPos exParamNodes (exParams.map (fun w => ⟨exPos, w.nodes⟩)) ∧ (∀ w ∈ exParams, w.Good) ∧ disorder exParams = 0 := by
  refine ⟨.inr ⟨by decide, ?_, ?_, ?_, ?_⟩, ?_, by decide⟩
  · exact ⟨by decide, by decide, by decide, by decide, by decide, by decide, by decide, by decide, by decide, by decide, by decide, by decide, by show NT.IDENTIFIER ≠ _; decide⟩
  · intro c hc
    simp only [exParamNodes, List.mem_cons, List.not_mem_nil, or_false] at hc
    rcases hc with rfl | rfl | rfl | rfl | rfl | rfl | rfl <;> decide
  · decide +kernel
  · rfl
  · intro w hw a b c l h
    simp only [exParams, List.mem_cons, List.not_mem_nil, or_false] at hw
    rcases hw with rfl | rfl
    · cases h
    · cases h; decide

def exArgs : List Argument := [⟨exPos, [exLeaf .IDENTIFIER b!"x"]⟩]
def exFnVar : Var := ⟨.mk exFn (exParams.map (fun w => (w.param exPos).node)), exBlock⟩

theorem good_leaf (str : Str) : GoodValue (exLeaf .IDENTIFIER str) := by
  intro p
  have : spliced p (exLeaf .IDENTIFIER str) = [exLeaf .IDENTIFIER str] := rfl
  rw [this]
  refine ⟨?_, by show NT.IDENTIFIER ≠ _; decide, by show some NT.IDENTIFIER ≠ _; decide⟩
  intro c hc
  rw [List.mem_singleton.1 hc]
  exact .mk _ _ (by simp) (by simp) (by simp) (by simp) (by simp) (by simp)

/-- `@include f(x)`: the hypotheses of C60_include. -/
example : ¬ Missing (exParams.map (Written.param exPos)) exArgs ∧ Function exFnVar (exParams.map (Written.param exPos)) ∧
    Arguments exPos [exLeaf .IDENTIFIER b!"x"] exArgs ∧
    Template (parameters (exParams.map (Written.param exPos)) exArgs) exBlock ∧
    (result .LIST exFnVar (exParams.map (Written.param exPos)) exArgs).map (fun c => c.kids.map (·.tok.str)) =
      [[b!"w", [], b!"x", [], b!"z"]] ∧
    Fits [] (result .LIST exFnVar (exParams.map (Written.param exPos)) exArgs) := by
  refine ⟨?_, ⟨.inl rfl, rfl⟩, ?_, ?_, by decide +kernel, ?_⟩
  · rintro ⟨q, hq, e⟩
    have : q = Written.param exPos (exParams[1]) := by simpa [exParams, exArgs] using hq
    subst this
    cases e
  · refine .inr ⟨by decide, by show NT.IDENTIFIER ≠ _; decide, ?_, by decide +kernel, rfl⟩
    intro c hc
    rw [List.mem_singleton.1 hc]
    decide
  · refine .node _ _ (by unfold IsContainer; simp) (by simp) (by simp) (by simp) ?_ ?_
    · intro c hc
      rw [List.mem_singleton.1 hc]
      intro h; cases h
    · intro c hc _
      rw [List.mem_singleton.1 hc]
      refine .node _ _ (by unfold IsContainer; simp) (by simp) (by simp) ?_ ?_ ?_
      · rintro _ ⟨a, w, c, l, h, h1, _⟩
        have : a = exLeaf .IDENTIFIER b!"w" := (List.cons.inj h).1.symm
        subst this
        cases h1
      · intro c hc hv
        simp only [List.mem_cons, List.not_mem_nil, or_false] at hc
        rcases hc with rfl | rfl | rfl | rfl | rfl
        · cases hv
        · cases hv
        · exact ⟨_, rfl, good_leaf _⟩
        · cases hv
        · exact ⟨_, rfl, good_leaf _⟩
      · intro c hc hv
        simp only [List.mem_cons, List.not_mem_nil, or_false] at hc
        rcases hc with rfl | rfl | rfl | rfl | rfl
        · exact .plain _ (.mk _ _ (by simp) (by simp) (by simp) (by simp) (by simp) (by simp))
        · exact .plain _ (.mk _ _ (by simp) (by simp) (by simp) (by simp) (by simp) (by simp))
        · exact absurd rfl hv
        · exact .plain _ (.mk _ _ (by simp) (by simp) (by simp) (by simp) (by simp) (by simp))
        · exact absurd rfl hv
  · exact ⟨by show NT.COMPONENT_VALUE ≠ _; decide, .inl (by simp)⟩

/-- The same through the model. -/
example : (match replaceRoot exEnv 30 (exNode .LIST [
      .mk { ty := .AT_KEYWORD, pos := exPos, str := b!"mixin" } [.mk exFn exParamNodes, exBlock],
      .mk { ty := .AT_KEYWORD, pos := exPos, str := b!"include" } [.mk exFn [exLeaf .IDENTIFIER b!"x"]]]) {} with
    | .ok n s => some (n.kids.map (fun c => c.kids.map (·.tok.str)), s.errs)
    | _ => none) = some ([[b!"w", [], b!"x", [], b!"z"]], []) := by decide +kernel

end Csspp.Vars
