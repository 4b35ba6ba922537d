import Verif.Model.Functions
import Verif.Spec.FunctionTable

/-!
C72: the table of the internal functions, the number of parameters, and the messages.
-/

namespace Csspp.Func
open Csspp.Flt Csspp.Expr Csspp.Spec

variable {α : Type}

/-- The entry found for a name. -/
theorem find_none {name : Str} (h : name ∉ internalNames) : table.find? (fun e => e.name == name) = none := by
  rw [List.find?_eq_none]
  intro e he hn
  have hn := eq_of_beq hn
  subst hn
  exact h ((show ∀ e ∈ table, e.name ∈ internalNames by decide) e he)

theorem find_some {name : Str} (h : name ∈ internalNames) :
    ∃ e, table.find? (fun e => e.name == name) = some e ∧ e.name = name ∧ e ∈ table := by
  cases h' : table.find? (fun e => e.name == name) with
  | none =>
    rw [List.find?_eq_none] at h'
    obtain ⟨e, he, hn⟩ := (show ∀ n ∈ internalNames, ∃ e ∈ table, e.name = n by decide) name h
    exact absurd (by rw [hn]; exact beq_self_eq_true name) (h' e he)
  | some e => exact ⟨e, rfl, eq_of_beq (List.find?_some (p := fun e : Entry => e.name == name) h'), List.mem_of_find?_eq_some h'⟩

theorem takes_iff {e : Entry} (he : e ∈ table) (n : Nat) : Takes e.name n ↔ e.min ≤ n ∧ n ≤ e.max := by
  simp only [table, List.mem_cons, List.not_mem_nil, or_false] at he
  unfold Takes
  rcases he with rfl | rfl | rfl | rfl | rfl | rfl | rfl | rfl | rfl | rfl | rfl | rfl | rfl | rfl | rfl | rfl | rfl | rfl | rfl | rfl | rfl | rfl | rfl | rfl | rfl | rfl | rfl | rfl | rfl | rfl | rfl | rfl | rfl | rfl | rfl | rfl | rfl | rfl | rfl | rfl | rfl | rfl | rfl | rfl
  all_goals dsimp only
  all_goals simp (decide := true) only [true_and, false_and, or_false, false_or]
  all_goals omega

/-- Not the message about the number of parameters. -/
def Other : Msg → Prop
  | .count _ => False
  | _ => True

/-- What every function gives: a null pointer only with a message, never the message about the number of parameters. -/
def Good : Res α → Prop
  | .ok .null es => es ≠ [] ∧ ∀ m ∈ es, Other m
  | .ok .user _ => False
  | .ok _ es => ∀ m ∈ es, Other m
  | _ => True

theorem good_val (v : Val α) : Good (val v) := by
  intro m hm
  cases hm

theorem good_fail {m : Msg} (h : Other m) : Good (fail m : Res α) := by
  refine ⟨by simp, ?_⟩
  intro x hx
  cases hx with
  | head => exact h
  | tail _ h => cases h

theorem good_abs (args : Args α) : Good (fAbs args) := by
  unfold fAbs
  split
  · split
    · exact good_val _
    · trivial
  · exact good_val _
  · exact good_fail trivial

theorem good_arc (name : Str) (g : Fp → Fp) (args : Args α) : Good (fArc name g args) := by
  unfold fArc
  split
  · exact good_val _
  · exact good_fail trivial

theorem good_round (name : Str) (g : Fp → Fp) (args : Args α) : Good (fRound name g args) := by
  unfold fRound
  split
  · exact good_val _
  · exact good_val _
  · exact good_fail trivial

theorem radians_other (n : Fp) (dim : Str) : ∀ m ∈ (toRadians n dim).2, Other m := by
  unfold toRadians
  intro m hm
  split at hm
  · cases hm
  split at hm
  · cases hm
  split at hm
  · cases hm
  split at hm
  · cases hm
  cases hm with
  | head => trivial
  | tail _ h => cases h

theorem good_trig (name : Str) (g : Fp → Fp) (args : Args α) : Good (fTrig name g args) := by
  unfold fTrig
  split
  · exact radians_other _ _
  · exact good_fail trivial

theorem good_log (env : Env α) (args : Args α) : Good (fLog env args) := by
  unfold fLog
  split
  · split
    · exact good_fail trivial
    split
    · exact good_fail trivial
    · exact good_val _
  · exact good_fail trivial

theorem good_sign (args : Args α) : Good (fSign args) := by
  unfold fSign
  split
  · exact good_val _
  · exact good_val _
  · exact good_val _
  · exact good_fail trivial

theorem good_sqrt (env : Env α) (args : Args α) : Good (fSqrt env args) := by
  unfold fSqrt
  split
  · split
    · exact good_fail trivial
    split
    · exact good_val _
    rename_i v _ _ _ _
    have h : ∀ m ∈ (sqrtUnit (unitOf v)).2, Other m := by
      unfold sqrtUnit
      intro m hm
      obtain ⟨e, _, rfl⟩ := List.mem_map.mp hm
      trivial
    dsimp only
    split
    · refine ⟨by simp, ?_⟩
      intro m hm
      rcases List.mem_append.mp hm with hm | hm
      · exact h m hm
      · cases hm with
        | head => trivial
        | tail _ h => cases h
    · exact h
  · exact good_fail trivial

theorem extremum_other (name : Str) (better : Fp → Fp → Bool) :
    ∀ (args : Args α) (first : Bool) (v : Option (Val α)) (m : Fp) (dim : Str),
    (∀ x ∈ (extremum name better args first v m dim).2, Other x) ∧
    ((extremum name better args first v m dim).1 = none → v = none ∧ (first = true → args ≠ [] →
      (extremum name better args first v m dim).2 ≠ []))
  | [], _, v, _, _ => by
    unfold extremum
    exact ⟨fun x hx => (nomatch hx), fun h => ⟨h, fun _ h => absurd rfl h⟩⟩
  | a :: args, first, v, m, dim => by
    unfold extremum
    split
    · rename_i w r _
      have hes : ∀ x ∈ (if first = true ∨ dim = unitPct w then [] else [Msg.sameUnit name]), Other x := by
        intro x hx
        split at hx
        · cases hx
        · cases hx with
          | head => trivial
          | tail _ h => cases h
      dsimp only
      by_cases hb : first = true ∨ better r m = true
      · rw [if_pos hb]
        have ih := extremum_other name better args false (some w) r (if first = true then unitPct w else dim)
        refine ⟨?_, ?_⟩
        · intro x hx
          rcases List.mem_append.mp hx with hx | hx
          · exact hes x hx
          · exact ih.1 x hx
        · intro h
          exact absurd (ih.2 h).1 (by simp)
      · rw [if_neg hb]
        have ih := extremum_other name better args false v m (if first = true then unitPct w else dim)
        refine ⟨?_, ?_⟩
        · intro x hx
          rcases List.mem_append.mp hx with hx | hx
          · exact hes x hx
          · exact ih.1 x hx
        · intro h
          refine ⟨(ih.2 h).1, fun hf => absurd (.inl hf) hb⟩
    · have ih := extremum_other name better args false v m dim
      refine ⟨?_, fun h => ⟨(ih.2 h).1, fun _ _ => by simp⟩⟩
      intro x hx
      cases hx with
      | head => trivial
      | tail _ h => exact ih.1 x h

theorem good_extremum (name : Str) (better : Fp → Fp → Bool) {args : Args α} (h : args ≠ []) :
    Good (fExtremum name better args) := by
  have := extremum_other name better args true none (lit 0) []
  unfold fExtremum
  split
  · rename_i v es e
    rw [e] at this
    exact this.1
  · rename_i es e
    rw [e] at this
    exact ⟨(this.2 rfl).2 rfl h, this.1⟩

theorem good_double (x : Fp) {k : Int → Res α} (h : ∀ i, Good (k i)) : Good (ofDouble x k) := by
  unfold ofDouble
  split
  · exact h _
  · trivial

theorem good_fromText (env : Env α) (s name : Str) (g : Lexed → Option (Res α)) (h : ∀ t r, g t = some r → Good r) :
    Good (fromText env s name g) := by
  unfold fromText
  split
  · trivial
  rename_i t es e
  have hes : ∀ m ∈ es, Other m := by
    unfold lexText at e
    dsimp only at e
    split at e
    · cases e
    · injection e with e
      injection e with _ e
      subst e
      intro m hm
      obtain ⟨r, _, rfl⟩ := List.mem_map.mp hm
      trivial
  have happ : ∀ {fs : List Msg}, (∀ m ∈ fs, Other m) → ∀ m ∈ es ++ fs, Other m := by
    intro fs hf m hm
    rcases List.mem_append.mp hm with hm | hm
    · exact hes m hm
    · exact hf m hm
  split
  · rename_i r fs hg
    have := h _ _ hg
    cases r with
    | null =>
      refine ⟨?_, happ this.2⟩
      intro h0
      exact this.1 (List.append_eq_nil_iff.mp h0).2
    | node v => exact happ this
    | list l => exact happ this
    | user => exact this
  · rename_i r _ hg
    exact h _ _ hg
  · refine ⟨by simp, happ ?_⟩
    intro m hm
    cases hm with
    | head => trivial
    | tail _ h => cases h

theorem good_decimal (env : Env α) (args : Args α) : Good (fDecimal env args) := by
  have ht : ∀ s, Good (fromText env s b!"decimal_number" fun t =>
    match t.ty with
    | .DECIMAL_NUMBER => some (val (.dec t.dec t.unit))
    | .PERCENT => some (val (.dec t.dec []))
    | .INTEGER => some (val (.dec (toDouble t.int) t.unit))
    | _ => (none : Option (Res α))) := by
    intro s
    apply good_fromText
    intro t r h
    split at h
    · injection h with h; subst h; exact good_val _
    · injection h with h; subst h; exact good_val _
    · injection h with h; subst h; exact good_val _
    · cases h
  unfold fDecimal
  dsimp only
  split
  · exact good_val _
  · exact good_val _
  · exact good_val _
  · exact ht _
  · exact ht _
  · exact ht _
  · exact good_fail trivial

theorem good_percentage (env : Env α) (args : Args α) : Good (fPercentage env args) := by
  have ht : ∀ s, Good (fromText env s b!"percentage" fun t =>
    match t.ty with
    | .DECIMAL_NUMBER => some (val (.pct t.dec))
    | .PERCENT => some (val (.pct t.dec))
    | .INTEGER => some (val (.pct (toDouble t.int)))
    | _ => (none : Option (Res α))) := by
    intro s
    apply good_fromText
    intro t r h
    split at h
    · injection h with h; subst h; exact good_val _
    · injection h with h; subst h; exact good_val _
    · injection h with h; subst h; exact good_val _
    · cases h
  unfold fPercentage
  dsimp only
  split
  · exact good_val _
  · exact good_val _
  · exact good_val _
  · exact ht _
  · exact ht _
  · exact ht _
  · exact good_fail trivial

theorem good_integer (env : Env α) (args : Args α) : Good (fInteger env args) := by
  have ht : ∀ s, Good (fromText env s b!"decimal_number" fun t =>
    match t.ty with
    | .INTEGER => some (val (.int t.int t.unit))
    | .DECIMAL_NUMBER => some (ofDouble t.dec fun i => val (.int i t.unit))
    | .PERCENT => some (ofDouble t.dec fun i => val (.int i []))
    | _ => (none : Option (Res α))) := by
    intro s
    apply good_fromText
    intro t r h
    split at h
    · injection h with h; subst h; exact good_val _
    · injection h with h; subst h; exact good_double _ fun _ => good_val _
    · injection h with h; subst h; exact good_double _ fun _ => good_val _
    · cases h
  unfold fInteger
  dsimp only
  split
  · exact good_val _
  · exact good_double _ fun _ => good_val _
  · exact good_double _ fun _ => good_val _
  · exact ht _
  · exact ht _
  · exact ht _
  · exact good_fail trivial

theorem good_text (env : Env α) (name : Str) (mk : Str → Val α) (args : Args α) : Good (fText env name mk args) := by
  unfold fText
  split
  all_goals first | exact good_val _ | exact good_fail trivial

theorem good_unique (args : Args α) (n : Int) : Good (fUniqueId args n).1 := by
  unfold fUniqueId
  dsimp only
  split
  · split
    · exact good_fail trivial
    · split
      · exact good_val _
      · trivial
  · split
    · exact good_val _
    · trivial

theorem good_bool (es : List Err) : ∀ m ∈ es.map (fun _ => Msg.boolean), Other m := by
  intro m hm
  obtain ⟨_, _, rfl⟩ := List.mem_map.mp hm
  trivial

theorem good_if (args : Args α) : Good (fIf args) := by
  unfold fIf
  split
  · split
    · split
      · exact good_bool _
      · exact good_bool _
    · trivial
    · trivial
  · exact good_fail trivial

theorem good_not (args : Args α) : Good (fNot args) := by
  unfold fNot
  split
  · split
    · exact good_bool _
    · trivial
    · trivial
  · exact good_fail trivial

theorem good_hsl (name : Str) (a : Option Fp) (args : Args α) : Good (fHsl name a args) := by
  unfold fHsl
  split
  · exact radians_other _ _
  · exact good_fail trivial

theorem good_exec (env : Env α) (n : Int) {args : Args α} {e : Entry} (he : e ∈ table) (hl : e.min ≤ args.length) :
    Good (exec env n args e.fn).1 := by
  have hx : ∀ f : Fn, ((f = .max ∨ f = .min) → args ≠ []) → Good (exec env n args f).1 := by
    intro f hf
    cases f with
    | abs => exact good_abs _
    | acos => exact good_arc _ _ _
    | asin => exact good_arc _ _ _
    | atan => exact good_arc _ _ _
    | ceil => exact good_round _ _ _
    | floor => exact good_round _ _ _
    | round => exact good_round _ _ _
    | cos => exact good_trig _ _ _
    | sin => exact good_trig _ _ _
    | tan => exact good_trig _ _ _
    | log => exact good_log _ _
    | sign => exact good_sign _
    | sqrt => exact good_sqrt _ _
    | max => exact good_extremum _ _ (hf (.inl rfl))
    | min => exact good_extremum _ _ (hf (.inr rfl))
    | decimalNumber => exact good_decimal _ _
    | integer => exact good_integer _ _
    | percentage => exact good_percentage _ _
    | identifier => exact good_text _ _ _ _
    | string => exact good_text _ _ _ _
    | uniqueId => exact good_unique _ _
    | if_ => exact good_if _
    | not => exact good_not _
    | hsl => exact good_hsl _ _ _
    | hsla => exact good_hsl _ _ _
    | random => exact good_val _
    | inspect =>
      show Good (fInspect env args)
      unfold fInspect
      split
      · exact good_val _
      · trivial
    | strLength =>
      show Good (fStrLength args)
      unfold fStrLength
      split
      · exact good_val _
      · exact good_fail trivial
    | typeOf =>
      show Good (fTypeOf args)
      unfold fTypeOf
      split
      · exact good_val _
      · exact good_fail trivial
    | unit =>
      show Good (fUnit args)
      unfold fUnit
      split
      · exact good_val _
      · exact good_fail trivial
    | functionExists =>
      show Good (fExists _ _ _ _ _ args)
      unfold fExists
      split
      · exact good_val _
      · exact good_fail trivial
    | globalVariableExists =>
      show Good (fExists _ _ _ _ _ args)
      unfold fExists
      split
      · exact good_val _
      · exact good_fail trivial
    | variableExists =>
      show Good (fExists _ _ _ _ _ args)
      unfold fExists
      split
      · exact good_val _
      · exact good_fail trivial
    | alpha =>
      show Good (fAlpha args)
      unfold fAlpha
      split
      · exact good_val _
      · exact good_fail trivial
    | hue =>
      show Good (fHue args)
      unfold fHue
      split
      · exact good_val _
      · exact good_fail trivial
    | lightness =>
      show Good (fPart b!"lightness" (·.2.2) args)
      unfold fPart
      split
      · exact good_val _
      · exact good_fail trivial
    | saturation =>
      show Good (fPart b!"saturation" (·.2.1) args)
      unfold fPart
      split
      · exact good_val _
      · exact good_fail trivial
    | red =>
      show Good (fComponent _ _ args)
      unfold fComponent
      split
      · exact good_double _ fun _ => good_val _
      · exact good_fail trivial
    | green =>
      show Good (fComponent _ _ args)
      unfold fComponent
      split
      · exact good_double _ fun _ => good_val _
      · exact good_fail trivial
    | blue =>
      show Good (fComponent _ _ args)
      unfold fComponent
      split
      · exact good_double _ fun _ => good_val _
      · exact good_fail trivial
    | rgb =>
      show Good (fRgb _ _ args)
      unfold fRgb
      split
      · exact good_val _
      split
      · exact good_val _
      · exact good_fail trivial
    | frgb =>
      show Good (fRgb _ _ args)
      unfold fRgb
      split
      · exact good_val _
      split
      · exact good_val _
      · exact good_fail trivial
    | rgba =>
      show Good (fRgba _ _ args)
      unfold fRgba
      split
      · exact good_val _
      split
      · exact good_val _
      · exact good_fail trivial
    | frgba =>
      show Good (fRgba _ _ args)
      unfold fRgba
      split
      · exact good_val _
      split
      · exact good_val _
      · exact good_fail trivial
  refine hx e.fn fun h => ?_
  have h1 : e.min = 1 := by
    have := (show ∀ e ∈ table, (e.fn = .max ∨ e.fn = .min) → e.min = 1 by decide) e he h
    exact this
  intro h0
  rw [h0, h1] at hl
  exact absurd hl (by simp)

/-- C72: an internal function called with a wrong number of parameters gives nothing and exactly one message, and nothing
else changes. -/
theorem C72_wrong_count (env : Env α) (n : Int) (name : Str) (args : Args α) (h : name ∈ internalNames)
    (hn : ¬ Takes name args.length) : call env n name args = (.ok .null [.count name], n) := by
  obtain ⟨e, h1, rfl, he⟩ := find_some h
  rw [takes_iff he] at hn
  unfold call
  rw [h1]
  exact if_neg hn

/-- C72: with a number of parameters it takes, an internal function runs: it never asks the variable handler, it gives a null
pointer only with a message, and it does not complain about the number of parameters. -/
theorem C72_right_count (env : Env α) (n : Int) (name : Str) (args : Args α) (h : name ∈ internalNames)
    (hn : Takes name args.length) (r : Ret α) (es : List Msg) (n' : Int)
    (hc : call env n name args = (.ok r es, n')) :
    r ≠ .user ∧ (r = .null → es ≠ []) ∧ ∀ f, .count f ∉ es := by
  obtain ⟨e, h1, rfl, he⟩ := find_some h
  rw [takes_iff he] at hn
  have hg : Good (call env n e.name args).1 := by
    unfold call
    rw [h1]
    dsimp only
    rw [if_pos hn]
    split
    · exact good_val _
    · exact good_exec _ _ he hn.1
  rw [hc] at hg
  have hes : (∀ m ∈ es, Other m) → ∀ f, .count f ∉ es := fun h f hf => h _ hf
  cases r with
  | null => exact ⟨by simp, fun _ => hg.1, hes hg.2⟩
  | node v => exact ⟨by simp, by simp, hes hg⟩
  | list l => exact ⟨by simp, by simp, hes hg⟩
  | user => exact absurd hg id

/-- C72: any other name is left, without a message, to the functions of the user and to CSS. -/
theorem C72_other_names (env : Env α) (n : Int) (name : Str) (args : Args α) (h : name ∉ internalNames) :
    call env n name args = (.ok .user [], n) := by
  unfold call
  rw [find_none h]

/-- C72: only unique_id() changes the counter of the unique identifiers. -/
theorem C72_counter (env : Env α) (n : Int) (name : Str) (args : Args α) (h : name ≠ b!"unique_id") :
    (call env n name args).2 = n := by
  unfold call
  split
  · rename_i e he
    have hn : e.name = name := eq_of_beq (List.find?_some (p := fun e : Entry => e.name == name) he)
    have hf : e.fn ≠ .uniqueId := by
      intro hf
      have := (show ∀ e ∈ table, e.fn = .uniqueId → e.name = b!"unique_id" by decide) e (List.mem_of_find?_eq_some he) hf
      exact h (hn ▸ this)
    split
    · split
      · rfl
      · generalize e.fn = f at hf
        cases f
        all_goals first | rfl | exact absurd rfl hf
    · rfl
  · rfl

theorem exists_bool (env : Env α) (name : Str) (global : Bool) (t1 t2 : NT) {args : Args α} {s : Str} (hs : s ≠ [])
    (hg : getName args 0 = some s) :
    ∃ b, fExists env name global t1 t2 args = .ok (.node (.bool b)) [] ∧
      (b = true ↔ ∃ t, env.lookup s global = some (.LIST, some t) ∧ (t = t1 ∨ t = t2)) := by
  obtain ⟨c, s, rfl⟩ := List.exists_cons_of_ne_nil hs
  unfold fExists
  rw [hg]
  dsimp only
  refine ⟨_, rfl, ?_⟩
  constructor
  · intro hb
    split at hb
    · rename_i t' e
      refine ⟨t', e, ?_⟩
      rcases Bool.or_eq_true_iff.mp hb with h | h
      · exact .inl (eq_of_beq h)
      · exact .inr (eq_of_beq h)
    · cases hb
  · rintro ⟨t', e, h'⟩
    rw [e]
    dsimp only
    rcases h' with rfl | rfl
    · rw [beq_self_eq_true, Bool.true_or]
    · rw [beq_self_eq_true, Bool.or_true]

/-- C72: function_exists() is true of every internal function; of another name, when the global variable of that name is a
function (`lookup` gives the type of the variable and of its first child). -/
theorem C72_function_exists (env : Env α) (n : Int) (name : Str) (hn : name ≠ []) (v : Val α)
    (hv : v = .str name ∨ v = .ident name) :
    ∃ b, call env n b!"function_exists" [[v]] = (.ok (.node (.bool b)) [], n) ∧
      (b = true ↔ name ∈ internalNames ∨ ∃ t, env.lookup name true = some (.LIST, some t) ∧
        (t = .VARIABLE_FUNCTION ∨ t = .FUNCTION)) := by
  have hg : getName [[v]] 0 = some name := by rcases hv with rfl | rfl <;> rfl
  have hf : table.find? (fun e => e.name == b!"function_exists") =
    some ⟨b!"function_exists", 1, 1, .functionExists⟩ := rfl
  unfold call
  rw [hf]
  dsimp only
  rw [if_pos (by exact ⟨Nat.le_refl _, Nat.le_refl _⟩)]
  by_cases h : name ∈ internalNames
  · obtain ⟨e, _, h2, he⟩ := find_some h
    refine ⟨true, ?_, fun _ => .inl h, fun _ => rfl⟩
    have ha : asksInternal b!"function_exists" [[v]] = true := by
      unfold asksInternal
      rw [hg]
      dsimp only
      rw [Bool.and_eq_true]
      exact ⟨by decide, List.any_eq_true.mpr ⟨e, he, by rw [h2]; exact beq_self_eq_true _⟩⟩
    rw [if_pos ha]
    rfl
  · have ha : asksInternal b!"function_exists" [[v]] ≠ true := by
      unfold asksInternal
      rw [hg]
      dsimp only
      intro ha
      rw [Bool.and_eq_true] at ha
      obtain ⟨_, ha⟩ := ha
      obtain ⟨e, he, hn⟩ := List.any_eq_true.mp ha
      have hn := eq_of_beq hn
      subst hn
      exact h ((show ∀ e ∈ table, e.name ∈ internalNames by decide) e he)
    rw [if_neg ha]
    obtain ⟨b, e, hb⟩ := exists_bool env b!"function_exists" true .VARIABLE_FUNCTION .FUNCTION hn hg
    refine ⟨b, congrArg (fun r => (r, n)) e, hb.trans ⟨.inr, fun h' => h'.resolve_left h⟩⟩

/-- C72: variable_exists() and global_variable_exists() are true exactly when the variable (the global variable) of that name
is a value and not a function. -/
theorem C72_variable_exists (env : Env α) (n : Int) (name : Str) (hn : name ≠ []) (v : Val α)
    (hv : v = .str name ∨ v = .ident name) :
    (∃ b, call env n b!"variable_exists" [[v]] = (.ok (.node (.bool b)) [], n) ∧
      (b = true ↔ ∃ t, env.lookup name false = some (.LIST, some t) ∧ (t = .VARIABLE ∨ t = .IDENTIFIER))) ∧
    (∃ b, call env n b!"global_variable_exists" [[v]] = (.ok (.node (.bool b)) [], n) ∧
      (b = true ↔ ∃ t, env.lookup name true = some (.LIST, some t) ∧ (t = .VARIABLE ∨ t = .IDENTIFIER))) := by
  have hg : getName [[v]] 0 = some name := by rcases hv with rfl | rfl <;> rfl
  constructor
  · obtain ⟨b, e, hb⟩ := exists_bool env b!"variable_exists" false .VARIABLE .IDENTIFIER hn hg
    exact ⟨b, congrArg (fun r => (r, n)) e, hb⟩
  · obtain ⟨b, e, hb⟩ := exists_bool env b!"global_variable_exists" true .VARIABLE .IDENTIFIER hn hg
    exact ⟨b, congrArg (fun r => (r, n)) e, hb⟩

example : b!"sqrt" ∈ internalNames ∧ ¬ Takes b!"sqrt" 2 ∧ Takes b!"rgb" 3 ∧ Takes b!"max" 7 ∧ b!"calc" ∉ internalNames := by
  refine ⟨by decide, ?_, ?_, ?_, by decide⟩
  · unfold Takes
    decide
  · unfold Takes
    decide
  · unfold Takes
    decide

end Csspp.Func
