import Verif.Lemmas.Selector3
import Verif.Spec.SelectorIds
import Verif.Props.Args

/-!
C49: the selectors accepted by the compiler are exactly those of a grammar, and what they become.
C50: a rule with several selectors, and the #id found twice.
-/

namespace Csspp.Sel
open Csspp.Parse (Nd)

/-- C49: a selector is accepted, and becomes `out`, exactly when the grammar says so. -/
theorem C49_accepts (env : Env) (k out : List Nd) :
    selectorList env k = .ok out ↔ Spec.Selector env true k out := by
  rw [selectorList_eq]
  exact ⟨selS_ok env _ _ _ _, fun h => selS_of h _ (by omega)⟩

/-- C49: the compiler throws exactly when a term is missing, is an empty `[]` or is a `:not()` of one
of those, or when there is a WHITESPACE at the end. -/
theorem C49_throws (env : Env) (k : List Nd) : selectorList env k = .throws ↔ Spec.Broken env true k := by
  rw [selectorList_eq]
  exact ⟨selS_throws env _ _ _, fun h => selS_of_broken h _ (by omega)⟩

/-- C49: every other selector is refused with a message (or is undefined behaviour, see C49_defined). -/
theorem C49_refuses (env : Env) (k : List Nd) (h1 : ¬ ∃ out, Spec.Selector env true k out)
    (h2 : ¬ Spec.Broken env true k) :
    (∃ e, selectorList env k = .refused e) ∨ selectorList env k = .undef := by
  cases h : selectorList env k with
  | ok out => exact absurd ⟨out, (C49_accepts env k out).1 h⟩ h1
  | throws => exact absurd ((C49_throws env k).1 h) h2
  | refused e => exact .inl ⟨e, rfl⟩
  | undef => exact .inr rfl

/-- A function whose An+B parameter overflows. -/
def Overflows (env : Env) (f : Nd) : Prop :=
  f.ty = .FUNCTION ∧ env.nthFunction f.tok.str = true ∧ (({} : Nth.Nth).parse (env.text f.kids)).ub = true

theorem pseudoFunction_undef {env : Env} {f : Nd} (h : pseudoFunction env f = .undef) :
    env.nthFunction f.tok.str = true ∧ (({} : Nth.Nth).parse (env.text f.kids)).ub = true := by
  unfold pseudoFunction at h
  by_cases h1 : env.nthFunction f.tok.str = true
  · rw [if_pos h1] at h
    dsimp only at h
    by_cases h2 : (({} : Nth.Nth).parse (env.text f.kids)).ub = true
    · exact ⟨h1, h2⟩
    · rw [if_neg h2] at h
      split at h <;> cases h
  · rw [if_neg h1] at h
    split at h
    · cases h
    · split at h
      · cases h
      · split at h
        · split at h <;> cases h
        · cases h

theorem attrS_undef (n : Nd) (r : List Nd) : attrS n r ≠ .undef := by
  intro h
  unfold attrS at h
  cases hk : n.kids with
  | nil => rw [hk] at h; cases h
  | cons t k =>
    rw [hk] at h
    dsimp only at h
    cases hd : dropWs t k with
    | nil => rw [hd] at h; cases h
    | cons name k =>
      rw [hd] at h
      dsimp only at h
      split at h
      · cases h
      · cases k with
        | nil => cases h
        | cons t k =>
          dsimp only at h
          cases hd : dropWs t k with
          | nil => rw [hd] at h; cases h
          | cons op k =>
            rw [hd] at h
            dsimp only at h
            split at h
            · cases h
            · cases k with
              | nil => cases h
              | cons t k =>
                dsimp only at h
                cases hd : dropWs t k with
                | nil => rw [hd] at h; cases h
                | cons value k =>
                  rw [hd] at h
                  dsimp only at h
                  split at h
                  · cases h
                  · split at h <;> cases h

theorem simpleS_undef {env : Env} {ts : List Nd} (h : simpleS env ts = .undef) :
    ∃ f ∈ ts, Overflows env f := by
  unfold simpleS at h
  cases ts with
  | nil => cases h
  | cons t l =>
    dsimp only at h
    cases hty : t.ty <;> rw [hty] at h <;> dsimp only at h
    case OPEN_SQUAREBRACKET => exact absurd h (attrS_undef t l)
    case COLON =>
      cases l with
      | nil => cases h
      | cons u l =>
        dsimp only at h
        by_cases hi : u.ty = .IDENTIFIER
        · rw [if_pos hi] at h
          split at h <;> cases h
        · rw [if_neg hi] at h
          by_cases hf : u.ty = .FUNCTION
          · rw [if_pos hf] at h
            refine ⟨u, by simp, hf, pseudoFunction_undef ?_⟩
            cases hp : pseudoFunction env u with
            | ok f => rw [hp] at h; cases h
            | refused e => rw [hp] at h; cases h
            | throws => rw [hp] at h; cases h
            | undef => rfl
          · rw [if_neg hf] at h; cases h
    case IDENTIFIER =>
      cases l with
      | nil => cases h
      | cons s l =>
        dsimp only at h
        split at h
        · cases l with
          | nil => cases h
          | cons u l => dsimp only at h; split at h <;> cases h
        · cases h
    case MULTIPLY =>
      cases l with
      | nil => cases h
      | cons s l =>
        dsimp only at h
        split at h
        · cases l with
          | nil => cases h
          | cons u l => dsimp only at h; split at h <;> cases h
        · split at h <;> cases h
    case SCOPE =>
      cases l with
      | nil => cases h
      | cons u l => dsimp only at h; split at h <;> cases h
    case PERIOD =>
      cases l with
      | nil => cases h
      | cons u l => dsimp only at h; split at h <;> cases h
    all_goals cases h

theorem notTerm_undef {env : Env} {k : List Nd} (h : notTerm env k = .undef) :
    ∃ f ∈ k, Overflows env f := by
  refine simpleS_undef ?_
  have hs := simpleTerm_eq env [] k
  simp only [List.nil_append, List.length_nil] at hs
  unfold notTerm at h
  rw [hs] at h
  cases hk : simpleS env k with
  | ok p => rw [hk] at h; simp only [Res.map] at h; split at h <;> cases h
  | refused e => rw [hk] at h; cases h
  | throws => rw [hk] at h; cases h
  | undef => rfl

theorem termS_undef {env : Env} {b : Bool} {ts : List Nd} (h : termS env b ts = .undef) :
    ∃ f ∈ ts, Overflows env f ∨ ∃ g ∈ f.kids, Overflows env g := by
  have hsimple : simpleS env ts = .undef → ∃ f ∈ ts, Overflows env f ∨ ∃ g ∈ f.kids, Overflows env g :=
    fun h => by obtain ⟨f, h1, h2⟩ := simpleS_undef h; exact ⟨f, h1, .inl h2⟩
  unfold termS at h
  cases ts with
  | nil => cases h
  | cons t l =>
    dsimp only at h
    cases hty : t.ty <;> rw [hty] at h <;> dsimp only at h
    case REFERENCE => cases b <;> cases h
    case COLON =>
      cases l with
      | nil => cases h
      | cons f l =>
        dsimp only at h
        split at h
        · exact hsimple h
        · split at h
          · split at h
            · cases hk : notTerm env f.kids with
              | ok k => rw [hk] at h; cases h
              | refused e => rw [hk] at h; cases h
              | throws => rw [hk] at h; cases h
              | undef => exact ⟨f, by simp, .inr (notTerm_undef hk)⟩
            · exact hsimple h
          · split at h
            · cases l with
              | nil => cases h
              | cons u l =>
                dsimp only at h
                split at h
                · cases h
                · split at h
                  · cases h
                  · split at h <;> cases h
            · cases h
    case HASH | IDENTIFIER | MULTIPLY | OPEN_SQUAREBRACKET | PERIOD | SCOPE => exact hsimple h
    all_goals cases h

theorem betweenS_undef (ts : List Nd) : betweenS ts ≠ .undef := by
  have after : ∀ l : List Nd, afterS l ≠ .undef := by
    intro l h
    unfold afterS at h
    cases l with
    | nil => cases h
    | cons t l =>
      dsimp only at h
      split at h
      · split at h <;> cases h
      · cases h
  intro h
  unfold betweenS at h
  cases ts with
  | nil => cases h
  | cons t l =>
    dsimp only at h
    split at h
    · cases l with
      | nil => cases h
      | cons u l =>
        dsimp only at h
        split at h
        · cases ha : afterS l with
          | undef => exact after l ha
          | ok v => rw [ha] at h; cases h
          | refused e => rw [ha] at h; cases h
          | throws => rw [ha] at h; cases h
        · cases h
    · unfold combS at h
      dsimp only at h
      split at h
      · cases ha : afterS l with
        | undef => exact after l ha
        | ok v => rw [ha] at h; cases h
        | refused e => rw [ha] at h; cases h
        | throws => rw [ha] at h; cases h
      · cases h

theorem term_sub {env : Env} {b : Bool} {ts o r : List Nd} (h : Spec.Term env b ts o r) : r ⊆ ts := by
  cases h with
  | simple h _ => cases h <;> intro x hx <;> simp [hx]
  | element => intro x hx; cases hx
  | _ => intro x hx; simp [hx]

theorem selS_undef (env : Env) : ∀ (fuel : Nat) (b : Bool) (ts : List Nd), ts.length < fuel →
    selS env fuel b ts = .undef → ∃ f ∈ ts, Overflows env f ∨ ∃ g ∈ f.kids, Overflows env g := by
  intro fuel
  induction fuel with
  | zero => intro b ts hf; omega
  | succ fuel ih =>
    intro b ts hf h
    unfold selS at h
    cases ht : termS env b ts with
    | refused e => rw [ht] at h; cases h
    | throws => rw [ht] at h; cases h
    | undef => exact termS_undef ht
    | ok p =>
      obtain ⟨o, r⟩ := p
      rw [ht] at h
      have hT := termS_ok ht
      dsimp only at h
      cases r with
      | nil => cases h
      | cons t r =>
        dsimp only at h
        cases hb : betweenS (t :: r) with
        | refused e => rw [hb] at h; cases h
        | throws => rw [hb] at h; cases h
        | undef => exact absurd hb (betweenS_undef _)
        | ok q =>
          obtain ⟨s, r'⟩ := q
          rw [hb] at h
          obtain ⟨s0, e, hs, _⟩ := betweenS_ok hb
          dsimp only at h
          have hl := (term_out hT).1
          have hr : r'.length ≤ (t :: r).length := by rw [e, List.length_append]; omega
          cases hr' : selS env fuel false r' with
          | refused e => rw [hr'] at h; cases h
          | throws => rw [hr'] at h; cases h
          | ok o' => rw [hr'] at h; cases h
          | undef =>
            obtain ⟨f, h1, h2⟩ := ih false r' (by omega) hr'
            refine ⟨f, term_sub hT ?_, h2⟩
            rw [e]
            exact List.mem_append_right _ h1

/-- C49: the only undefined behaviour is the overflow of an An+B (C16) in the parameter of a function
of the selector. In particular the loop always ends. -/
theorem C49_defined (env : Env) (k : List Nd)
    (h : ∀ f ∈ k, ¬ Overflows env f ∧ ∀ g ∈ f.kids, ¬ Overflows env g) : selectorList env k ≠ .undef := by
  rw [selectorList_eq]
  intro hu
  obtain ⟨f, h1, h2⟩ := selS_undef env _ _ _ (by omega) hu
  rcases h2 with h2 | ⟨g, h3, h4⟩
  · exact (h f h1).1 h2
  · exact (h f h1).2 g h3 h4

/-! ### Examples -/

def demo : Env where
  pseudoClass s := s = b!"hover"
  nthFunction s := s = b!"nth-child"
  pseudoFunction s := s = b!"lang" ∨ s = b!"not"
  pseudoElement s := s = b!"before"
  language s := s = b!"fr"
  country s := s = b!"ca"
  text _ := b!"2n + 1"

def leaf (ty : NT) (str : Str) : Nd := .mk { ty := ty, pos := ⟨1, 1, 1⟩, str := str } []
def group (ty : NT) (str : Str) (k : List Nd) : Nd := .mk { ty := ty, pos := ⟨1, 1, 1⟩, str := str } k
def sp : Nd := leaf .WHITESPACE []
def idn (s : Str) : Nd := leaf .IDENTIFIER s

/-- The types of the nodes, and their number of children. -/
def outline : Res (List Nd) → Option (List (NT × Nat))
  | .ok k => some (k.map fun n => (n.ty, n.kids.length))
  | _ => none

/-- The message, or `none` for an exception. -/
def problem : Res (List Nd) → Option (Option Err)
  | .refused e => some (some e)
  | .throws => some none
  | _ => none

/-- `a > *[b != c]:hover` -/
def sample : List Nd :=
  [idn b!"a", sp, leaf .GREATER_THAN [], sp, leaf .MULTIPLY [],
    group .OPEN_SQUAREBRACKET [] [idn b!"b", sp, leaf .NOT_EQUAL [], sp, idn b!"c"],
    leaf .COLON [], idn b!"hover"]

example : outline (selectorList demo sample) = some [(.IDENTIFIER, 0), (.GREATER_THAN, 0), (.COLON, 0),
    (.FUNCTION, 1), (.COLON, 0), (.IDENTIFIER, 0)] := by decide +kernel

/-- It meets the hypothesis of C49_defined. -/
example : ∀ f ∈ sample, ¬ Overflows demo f ∧ ∀ g ∈ f.kids, ¬ Overflows demo g := by
  intro f hf
  simp only [sample, List.mem_cons, List.not_mem_nil, or_false] at hf
  refine ⟨fun h => ?_, fun g hg h => ?_⟩
  · rcases hf with e | e | e | e | e | e | e | e <;> (rw [e] at h; exact absurd h.1 (by decide))
  · rcases hf with e | e | e | e | e | e | e | e <;> rw [e] at hg <;>
      simp only [group, leaf, idn, sp, Parse.Nd.kids, List.mem_cons, List.not_mem_nil, or_false] at hg
    rcases hg with e | e | e | e | e <;> (rw [e] at h; exact absurd h.1 (by decide))

/-- `a >` is refused, `a > ` and `:not()` throw. -/
example : problem (selectorList demo [idn b!"a", sp, leaf .GREATER_THAN []]) =
    some (some .combinatorEnd) := by decide +kernel
example : problem (selectorList demo [idn b!"a", leaf .GREATER_THAN [], sp]) = some none := by decide +kernel
example : problem (selectorList demo [leaf .COLON [], group .FUNCTION b!"not" []]) = some none := by
  decide +kernel
/-- `a &` is refused. -/
example : problem (selectorList demo [idn b!"a", sp, leaf .REFERENCE b!"&"]) = some (some .reference) := by
  decide +kernel
/-- `:lang(fr-ca)` is accepted, `:lang(fr-xx)` is not. -/
example : outline (selectorList demo [leaf .COLON [], group .FUNCTION b!"lang" [idn b!"fr-ca"]]) =
    some [(.COLON, 0), (.FUNCTION, 1)] := by decide +kernel
example : outline (selectorList demo [leaf .COLON [], group .FUNCTION b!"lang" [idn b!"fr-xx"]]) =
    none := by decide +kernel

/-- C49: `:not([a != b])` is accepted by every set of validation scripts and becomes
`:not(:not([a = b]))`... -/
theorem C49_double_not (env : Env) (c f n name op value : Nd) (hc : c.ty = .COLON) (hf : f.ty = .FUNCTION)
    (hs : f.tok.str = b!"not") (hk : f.kids = [n]) (hn : n.ty = .OPEN_SQUAREBRACKET)
    (hnk : n.kids = [name, op, value]) (h1 : name.ty = .IDENTIFIER) (h2 : op.ty = .NOT_EQUAL)
    (h3 : value.ty = .IDENTIFIER) :
    selectorList env [c, f] = .ok [c, .mk f.tok [node .COLON n.tok.pos [] [],
      node .FUNCTION n.tok.pos b!"not" [.mk n.tok [name, node .EQUAL n.tok.pos [] [], value]]]] := by
  refine (C49_accepts env _ _).2 (.last (.not hc hf hs ?_))
  rw [hk]
  refine .differs hn ?_ h2
  rw [hnk]
  exact Spec.AttrTest.mk .none .none .none h1 (by simp [h2, Spec.AttrOp]) (by simp [h3, Spec.AttrValue])

/-- C49: ... which is itself refused: the output of the compiler is not accepted by the compiler. -/
theorem C49_not_not_refused (env : Env) (c f c2 f2 : Nd) (hc : c.ty = .COLON) (hf : f.ty = .FUNCTION)
    (hs : f.tok.str = b!"not") (hk : f.kids = [c2, f2]) (hc2 : c2.ty = .COLON) (hf2 : f2.ty = .FUNCTION)
    (hs2 : f2.tok.str = b!"not") (hnth : env.nthFunction b!"not" = false) :
    ¬ ∃ out, selectorList env [c, f] = .ok out := by
  have hp : ∃ e, pseudoFunction env f2 = .refused e := by
    unfold pseudoFunction
    rw [hs2, if_neg (by simp [hnth])]
    by_cases h : env.pseudoFunction b!"not" = false
    · exact ⟨_, if_pos h⟩
    · exact ⟨_, by rw [if_neg h, if_pos rfl]⟩
  obtain ⟨e, hp⟩ := hp
  have hs : simpleS env [c2, f2] = .refused e := by
    unfold simpleS
    dsimp only
    rw [hc2]
    dsimp only
    rw [if_neg (by rw [hf2]; decide), if_pos hf2, hp]
  have hnt : notTerm env f.kids = .refused e := by
    have h := simpleTerm_eq env [] [c2, f2]
    simp only [List.nil_append, List.length_nil] at h
    unfold notTerm
    rw [hk, h, hs]
    rfl
  rintro ⟨out, h⟩
  rw [selectorList_eq] at h
  unfold selS termS at h
  dsimp only at h
  rw [hc] at h
  dsimp only at h
  rw [if_neg (by rw [hf]; decide), if_pos hf, if_pos ‹_›, hnt] at h
  cases h

/-! ### C50 -/

theorem hashErrors_count (x : Str) : ∀ (k : List Nd) (seen : List Str),
    (hashErrors seen k).count x =
      if x ∈ seen then (Spec.ids k).count x else (Spec.ids k).count x - 1 := by
  intro k
  induction k with
  | nil => intro seen; simp [hashErrors, Spec.ids]
  | cons c cs ih =>
    intro seen
    unfold hashErrors
    by_cases hc : c.ty = .HASH
    · have hi : Spec.ids (c :: cs) = c.tok.str :: Spec.ids cs := by simp [Spec.ids, hc]
      rw [if_pos hc, hi]
      by_cases hm : c.tok.str ∈ seen
      · rw [if_pos hm, List.count_cons, ih, List.count_cons]
        by_cases hx : c.tok.str = x
        · subst hx; simp [hm]
        · simp [hx]
      · rw [if_neg hm, ih, List.count_cons]
        by_cases hx : c.tok.str = x
        · subst hx; simp [hm]
        · have hx' : ¬ x = c.tok.str := fun e => hx e.symm
          simp [hx, hx']
    · have hi : Spec.ids (c :: cs) = Spec.ids cs := by simp [Spec.ids, hc]
      rw [if_neg hc, hi, ih]

theorem ids_append (a b : List Nd) : Spec.ids (a ++ b) = Spec.ids a ++ Spec.ids b := by
  simp [Spec.ids]
theorem ids_cons_ne {a : Nd} (h : a.ty ≠ .HASH) (b : List Nd) : Spec.ids (a :: b) = Spec.ids b := by
  simp [Spec.ids, h]
theorem name_ne {ty : NT} (h : Spec.Name ty) : ty ≠ .HASH := by
  rcases h with h | h <;> rw [h] <;> decide

theorem simple_ids {env : Env} {ts o r : List Nd} (h : Spec.Simple env ts o r) :
    Spec.ids ts = Spec.ids o ++ Spec.ids r := by
  rw [← ids_append]
  cases h with
  | id h => simp
  | name h => simp
  | any h => simp
  | useless h =>
    rw [ids_cons_ne (by rw [h]; decide)]; simp
  | inScope => simp
  | scope => simp
  | pseudo => simp
  | function h1 h2 h3 =>
    rename_i c f f' 
    have h4 : f.ty ≠ .HASH := by rw [h2]; decide
    have h5 : f'.ty ≠ .HASH := by rw [function_ty h3]; exact h4
    have h1' : c.ty ≠ .HASH := by rw [h1]; decide
    simp only [List.cons_append, List.nil_append]
    rw [ids_cons_ne h1', ids_cons_ne h4, ids_cons_ne h1', ids_cons_ne h5]
  | cls => simp
  | attr h1 h2 =>
    rename_i b name
    have h4 : b.ty ≠ .HASH := by rw [h1]; decide
    have h5 : (Nd.mk b.tok [name]).ty ≠ .HASH := h4
    simp only [List.cons_append, List.nil_append]
    rw [ids_cons_ne h4, ids_cons_ne h5]
  | test h1 h2 h3 =>
    rename_i b name op value
    have h4 : b.ty ≠ .HASH := by rw [h1]; decide
    have h5 : (Nd.mk b.tok [name, op, value]).ty ≠ .HASH := h4
    simp only [List.cons_append, List.nil_append]
    rw [ids_cons_ne h4, ids_cons_ne h5]
  | differs h1 h2 h3 =>
    rename_i b name op value
    have h4 : b.ty ≠ .HASH := by rw [h1]; decide
    simp only [List.cons_append, List.nil_append]
    rw [ids_cons_ne h4, ids_cons_ne (by simp [node, Nd.ty, Nd.tok]), ids_cons_ne (by simp [node, Nd.ty, Nd.tok])]

theorem term_ids {env : Env} {b : Bool} {ts o r : List Nd} (h : Spec.Term env b ts o r) :
    Spec.ids ts = Spec.ids o ++ Spec.ids r := by
  cases h with
  | simple h _ => exact simple_ids h
  | placeholder h => rw [← ids_append]; simp
  | reference h => rw [← ids_append]; simp
  | not h1 h2 h3 h4 =>
    rename_i c f out
    have hf : f.ty ≠ .HASH := by rw [h2]; decide
    have hf' : (Nd.mk f.tok out).ty ≠ .HASH := hf
    have hc : c.ty ≠ .HASH := by rw [h1]; decide
    rw [← ids_append]
    simp only [List.cons_append, List.nil_append]
    rw [ids_cons_ne hc, ids_cons_ne hf, ids_cons_ne hc, ids_cons_ne hf']
  | element h => rw [← ids_append]; simp

theorem ws_ids {w : List Nd} (h : Spec.Ws w) : Spec.ids w = [] := by
  cases h with
  | none => rfl
  | one w h => rw [ids_cons_ne (by rw [h]; decide)]; rfl

theorem sep_ids {s s' : List Nd} (h : Spec.Sep s s') : Spec.ids s = [] ∧ Spec.ids s' = [] := by
  cases h with
  | none => exact ⟨rfl, rfl⟩
  | space h => exact ⟨ws_ids (.one _ h), ws_ids (.one _ h)⟩
  | op h1 h2 h3 =>
    have : ∀ {c : Nd}, Spec.Combinator c.ty → Spec.ids [c] = [] := by
      intro c h; rw [ids_cons_ne (by rcases h with h | h | h <;> rw [h] <;> decide)]; rfl
    rw [ids_append, ids_append, ws_ids h1, ws_ids h2, this h3]
    exact ⟨rfl, rfl⟩

/-- C50: a selector keeps its #id, in the order of the text (outside of `:not()`). -/
theorem C50_ids_kept {env : Env} {b : Bool} {ts out : List Nd} (h : Spec.Selector env b ts out) :
    Spec.ids out = Spec.ids ts := by
  induction h with
  | last h => rw [term_ids h]; simp [Spec.ids]
  | more h hs _ ih =>
    rw [term_ids h, ids_append, ids_append, ids_append, (sep_ids hs).1, (sep_ids hs).2, ih]
    simp

/-- C50: an #id found n times in a selector is reported n - 1 times (and the selector is kept). -/
theorem C50_id_twice (k : List Nd) (x : Str) :
    (hashErrors [] k).count x = (Spec.ids k).count x - 1 := by
  rw [hashErrors_count]; simp

example : hashErrors [] [leaf .HASH b!"a", sp, leaf .HASH b!"b", sp, leaf .HASH b!"a"] = [b!"a"] := by
  decide +kernel

open Csspp.Parse (mkArg arguments pieces body block? complaint argify)

theorem selectors_args (env : Env) (pos : Lex.Pos) (tail : List Nd)
    (ht : tail = [] ∨ ∃ c, tail = [c] ∧ c.ty = .OPEN_CURLYBRACKET) :
    ∀ (l : List (List Nd)) (kids : List Nd) (errs : List Str),
      selectors env (l.map (mkArg .COMMA pos) ++ tail) = .ok (kids, errs) ↔
        ∃ outs, Spec.Selectors env l outs ∧ kids = outs.map (mkArg .COMMA pos) ++ tail ∧
          errs = outs.flatMap (hashErrors []) := by
  intro l
  induction l with
  | nil =>
    intro kids errs
    have : selectors env tail = .ok (tail, []) := by
      rcases ht with h | ⟨c, h, hc⟩
      · subst h; rfl
      · subst h; unfold selectors; rw [if_pos hc]
    simp only [List.map_nil, List.nil_append]
    rw [this]
    constructor
    · intro h; cases h; exact ⟨[], .nil, rfl, rfl⟩
    · rintro ⟨outs, h, e1, e2⟩
      cases h
      rw [e1, e2]; rfl
  | cons a l ih =>
    intro kids errs
    simp only [List.map_cons, List.cons_append]
    unfold selectors
    rw [if_neg (by simp [mkArg, Nd.ty, Nd.tok]), if_neg (by simp [mkArg, Nd.ty, Nd.tok])]
    have hk : (mkArg .COMMA pos a).kids = a := rfl
    rw [hk]
    constructor
    · intro h
      cases hs : selectorList env a with
      | refused e => rw [hs] at h; cases h
      | throws => rw [hs] at h; cases h
      | undef => rw [hs] at h; cases h
      | ok k =>
        rw [hs] at h
        dsimp only at h
        cases hr : selectors env (l.map (mkArg .COMMA pos) ++ tail) with
        | refused e => rw [hr] at h; cases h
        | throws => rw [hr] at h; cases h
        | undef => rw [hr] at h; cases h
        | ok p =>
          obtain ⟨rest, ids⟩ := p
          rw [hr] at h
          cases h
          obtain ⟨outs, h1, h2, h3⟩ := (ih rest ids).1 hr
          exact ⟨k :: outs, .cons ((C49_accepts _ _ _).1 hs) h1, by rw [h2]; rfl, by rw [h3]; rfl⟩
    · rintro ⟨outs, h, e1, e2⟩
      cases h with
      | cons h1 h2 =>
        rename_i out outs
        rw [(C49_accepts _ _ _).2 h1]
        dsimp only
        rw [(ih _ _).2 ⟨outs, h2, rfl, rfl⟩]
        dsimp only
        rw [e1, e2]
        rfl

/-- C50: the selectors of a rule, `a, b, c {...}`. When the commas are right (C39), the rule is accepted
exactly when every selector between the commas is in the grammar, each one is transformed on its own,
the block is kept, and the #id found twice in one selector are reported. -/
theorem C50_rule (env : Env) (n : Nd) (hn : Node.supportsChildren n.ty = true) (h0 : n.kids ≠ [])
    (h1 : n.kids.head?.map Nd.ty ≠ some .ARG) (hc : Parse.Clean n.kids)
    (hg : complaint (pieces .COMMA (body n.kids)) = none)
    (hb : (block? n.kids).length ≤ 1) (kids : List Nd) (errs : List Str) :
    parseSelector env n = .ok (kids, errs) ↔
      ∃ outs, Spec.Selectors env (arguments (pieces .COMMA (body n.kids))) outs ∧
        kids = outs.map (mkArg .COMMA n.tok.pos) ++ block? n.kids ∧
        errs = outs.flatMap (hashErrors []) := by
  have h := Parse.C39_split n .COMMA (.inl rfl) hn h0 h1 hc
  rw [hg] at h
  dsimp only at h
  rw [if_pos hb] at h
  unfold parseSelector
  rw [h]
  dsimp only
  refine selectors_args env n.tok.pos _ ?_ _ kids errs
  cases hk : block? n.kids with
  | nil => exact .inl rfl
  | cons c l =>
    right
    rw [hk] at hb
    have hl : l = [] := by cases l with
      | nil => rfl
      | cons _ _ => simp at hb
    subst hl
    refine ⟨c, rfl, ?_⟩
    unfold block? at hk
    have := List.head_dropWhile_not (fun c : Nd => c.ty != .OPEN_CURLYBRACKET) (l := n.kids) (by rw [hk]; simp)
    simp only [hk, List.head_cons] at this
    simpa using this

/-- C50: with a comma too many, the rule is refused. -/
theorem C50_commas (env : Env) (n : Nd) (hn : Node.supportsChildren n.ty = true) (h0 : n.kids ≠ [])
    (h1 : n.kids.head?.map Nd.ty ≠ some .ARG) (hc : Parse.Clean n.kids) (e : Parse.ArgErr)
    (hg : complaint (pieces .COMMA (body n.kids)) = some e) : parseSelector env n = .refused .args := by
  have h := Parse.C39_split n .COMMA (.inl rfl) hn h0 h1 hc
  rw [hg] at h
  obtain ⟨kids, h⟩ := h
  unfold parseSelector
  rw [h]

/-- `#a #a, :hover {}` meets the hypotheses. -/
def ruleSample : Nd := group .COMPONENT_VALUE [] [leaf .HASH b!"a", sp, leaf .HASH b!"a", leaf .COMMA [],
  sp, leaf .COLON [], idn b!"hover", leaf .OPEN_CURLYBRACKET []]

example : Node.supportsChildren ruleSample.ty = true ∧ ruleSample.kids ≠ [] ∧
    ruleSample.kids.head?.map Nd.ty ≠ some .ARG ∧ Parse.Clean ruleSample.kids ∧
    complaint (pieces .COMMA (body ruleSample.kids)) = none ∧ (block? ruleSample.kids).length ≤ 1 := by
  refine ⟨by decide, by simp [ruleSample, group, Nd.kids], by decide, ?_, by decide +kernel, by decide⟩
  simp [ruleSample, group, Nd.kids, Parse.Clean, leaf, sp, idn, Nd.ty, Nd.tok]

example : (match parseSelector demo ruleSample with
    | .ok (k, e) => some (k.map (fun n => (n.ty, n.kids.map Nd.ty)), e)
    | _ => none) = some ([(.ARG, [.HASH, .WHITESPACE, .HASH]), (.ARG, [.COLON, .IDENTIFIER]),
      (.OPEN_CURLYBRACKET, [])], [b!"a"]) := by decide +kernel

end Csspp.Sel
