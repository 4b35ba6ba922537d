import Verif.Props.Tool
import Verif.Props.CompileMessage
import Verif.Props.Scopes
import Verif.Props.LexGrammar
import Verif.Lemmas.ValidRun

/-! C91: the options of the command line tool, the tree and the variables of the compiler, and the scopes of the files. -/

namespace Csspp.Tool
open Csspp.Parse
open Csspp.Lex (Tok Pos)
open Csspp.Pipeline (Msg)
open Csspp.Spec.Tool

theorem failed_flags (o : Options) (a b : Bool) (l : List Msg) : failed { o with quiet := a, debug := b } l = failed o l := by
  rw [Bool.eq_iff_iff, failed_iff, failed_iff]

/-- C91: --quiet and --debug change neither the exit status nor what is written. -/
theorem C91_quiet (E : Pipeline.Env) (f : Nat) (w : World) (o : Options) (a b : Bool) :
    run E f w { o with quiet := a, debug := b } = run E f w o := by
  unfold run process write
  simp only [failed_flags]
  rfl

theorem failed_werror (o : Options) {l : List Msg} (h : ∀ m ∈ l, ¬ Warning m) : failed { o with werror := true } l = failed o l := by
  rw [Bool.eq_iff_iff, failed_iff, failed_iff]
  unfold Fails Spec.Tool.errors
  have : ∀ b : Bool, l.countP (fun m => decide (Error m) || (b && decide (Warning m))) = l.countP (fun m => decide (Error m)) := by
    intro b
    refine List.countP_congr (fun m hm => ?_)
    simp [h m hm]
  rw [this, this]

theorem write_werror {E : Pipeline.Env} {p : Nat} {o : Options} {n : Nd} {l msgs : List Msg} {st : Nat} {out : Option (Option Str × Str)}
    (h : write E p o n l = .exit st out msgs) (hw : ∀ m ∈ msgs, ¬ Warning m) :
    write E p { o with werror := true } n l = .exit st out msgs := by
  unfold write at h ⊢
  cases hs : style o.style with
  | none =>
    rw [hs] at h
    exact h
  | some m =>
    rw [hs] at h
    dsimp only at h ⊢
    generalize Pipeline.write { E with precision := p } m n l = r at h ⊢
    cases r with
    | ok text ms =>
      dsimp only at h ⊢
      injection h with h1 h2 h3
      subst h3
      rw [failed_werror o hw, h1]
      show End.exit st (some (target o, _)) _ = _
      rw [h2]
    | throws => exact h
    | undef => cases h
    | fuel => cases h
    | unmodelled => cases h

/-- C91: --Werror changes nothing when there is no warning. -/
theorem C91_werror {E : Pipeline.Env} {f : Nat} {w : World} {o : Options} {st : Nat} {out : Option (Option Str × Str)} {msgs : List Msg}
    (h : run E f w o = .exit st out msgs) (hw : ∀ m ∈ msgs, ¬ Warning m) : run E f w { o with werror := true } = .exit st out msgs := by
  unfold run at h ⊢
  dsimp only
  split at h
  · exact h
  split at h
  · rename_i hp
    rw [if_pos hp]
    exact h
  rename_i hp
  rw [if_neg hp]
  split at h
  · exact h
  unfold process at h ⊢
  split at h
  rename_i ts s hl
  split at h
  · exact h
  · exact h
  split at h
  · cases h
  rename_i hub
  rw [if_neg hub]
  split at h
  · exact h
  · cases h
  dsimp only at h ⊢
  split at h
  · rename_i hf
    injection h with h1 h2 h3
    rw [← h3] at hw
    rw [if_pos (by rw [failed_werror o hw]; exact hf), h1, h2, h3]
  rename_i hf0
  have key : ∀ {l l' : List Msg}, l ++ l' = msgs → failed { o with werror := true } l = failed o l := by
    intro l l' e
    refine failed_werror o (fun m hm => hw m ?_)
    rw [← e]
    exact List.mem_append_left _ hm
  rename_i n pst _
  split at h
  · rename_i hc
    injection h with h1 h2 h3
    rw [if_neg (by rw [key (l' := []) (by rw [List.append_nil]; exact h3)]; exact hf0)]
    rw [show compile E f w { o with werror := true } n = compile E f w o n from rfl, hc, h1, h2, h3]
  · cases h
  · cases h
  rename_i n' more hc
  split at h
  · rename_i hf
    injection h with h1 h2 h3
    rw [if_neg (by rw [key h3]; exact hf0), show compile E f w { o with werror := true } n = compile E f w o n from rfl, hc]
    dsimp only
    rw [if_pos (by rw [key (l' := []) (by rw [List.append_nil]; exact h3)]; exact hf), h1, h2, h3]
  rename_i hf
  have hend : ∃ d, (s.err.reverse.map Msg.lexer ++ pst.errs.reverse.map (fun e => Msg.parser e.1 e.2)) ++ more ++ d = msgs := by
    unfold write at h
    split at h
    · injection h with h1 h2 h3
      exact ⟨[], by rw [List.append_nil]; exact h3⟩
    · unfold Pipeline.write at h
      split at h
      · injection h with h1 h2 h3
        exact ⟨[], by rw [List.append_nil]; exact h3⟩
      · cases h
      · cases h
      · cases h
      · rename_i hx
        injection h with h1 h2 h3
        split at hx
        · cases hx
        · cases hx
        · injection hx with hx1 hx2
          exact ⟨_, by rw [hx2]; exact h3⟩
  obtain ⟨d, hd⟩ := hend
  rw [if_neg (by rw [key (l' := more ++ d) (by rw [← List.append_assoc]; exact hd)]; exact hf0),
    show compile E f w { o with werror := true } n = compile E f w o n from rfl, hc]
  dsimp only
  rw [if_neg (by rw [key hd]; exact hf)]
  exact write_werror h hw

/-- C91: only the last 32 bits of a precision count: 4294967299 is 3. -/
theorem C91_precision_wraps (E : Pipeline.Env) (f : Nat) (w : World) (o : Options) (p k : Int) :
    run E f w { o with precision := some (p + 4294967296 * k) } = run E f w { o with precision := some p } := by
  have e : toInt32 (p + 4294967296 * k) = toInt32 p := by unfold toInt32; omega
  unfold run
  dsimp only [Option.elim]
  rw [e]
  rfl

/-- C91: a precision out of 0 to 10 is refused before anything else. -/
theorem C91_precision (E : Pipeline.Env) (f : Nat) (w : World) (o : Options) (p : Int) (h : o.precision = some p)
    (hp : -2147483648 ≤ p ∧ p ≤ 2147483647) (hr : p < 0 ∨ 10 < p) : run E f w o = .exit 1 none [] := by
  have e : toInt32 p = p := by unfold toInt32; omega
  unfold run
  rw [h]
  show (match toInt32 p with | .negSucc _ => _ | .ofNat p => _) = _
  rw [e]
  cases p with
  | negSucc k => rfl
  | ofNat k =>
    clear e h hp
    have hk : k > 10 := by
      have : Int.ofNat k = (k : Int) := rfl
      omega
    dsimp only
    rw [if_pos hk]

/-- C91: with the header and the footer. -/
theorem C91_tree (t : Tok) (ht : t.ty = .LIST) (kids : List Nd) : ∃ n, headerFooter (.mk t kids) = some n ∧ n.tok = t ∧
    ∃ init close, n.kids = init :: (kids ++ [close]) ∧ IsImport b!"system/init.scss" init ∧ IsImport b!"system/close.scss" close := by
  unfold headerFooter
  rw [if_pos (by rw [mk_ty, ht]; rfl)]
  have h1 : ∀ s, (importNode s).ty = .AT_KEYWORD := fun _ => rfl
  have h2 : Vars.insertChild kids 0 (importNode b!"system/init.scss") = some (importNode b!"system/init.scss" :: kids) := by
    unfold Vars.insertChild
    cases kids with
    | nil => rfl
    | cons c k =>
      rw [if_neg (by simp), if_neg (by simp), if_pos (by rw [h1]; simp)]
      rfl
  rw [mk_kids, h2]
  refine ⟨_, rfl, rfl, importNode b!"system/init.scss", importNode b!"system/close.scss", ?_, ⟨rfl, rfl, _, rfl, rfl, rfl, rfl⟩,
    ⟨rfl, rfl, _, rfl, rfl, rfl, rfl⟩⟩
  rw [mk_kids, push_ne (by rw [h1]; simp) (by rw [h1]; simp)]
  rfl

theorem find_put (v : Vars.Var) (name : Str) : ∀ l : List Vars.Var,
    Vars.findVar name (Vars.putVar v l) = if v.key = name then some v else Vars.findVar name l
  | [] => rfl
  | x :: l => by
    unfold Vars.putVar
    by_cases h : x.key = v.key
    · rw [if_pos h]
      show (if v.key = name then some v else Vars.findVar name l) = if v.key = name then some v else (if x.key = name then some x else _)
      by_cases h' : v.key = name
      · rw [if_pos h', if_pos h']
      · rw [if_neg h', if_neg h', if_neg (by rw [h]; exact h')]
    · rw [if_neg h]
      show (if x.key = name then some x else Vars.findVar name (Vars.putVar v l)) =
        if v.key = name then some v else (if x.key = name then some x else Vars.findVar name l)
      rw [find_put v name l]
      by_cases h' : x.key = name
      · rw [if_pos h', if_pos h', if_neg (by intro e; exact h (h'.trans e.symm))]
      · rw [if_neg h', if_neg h']

theorem find_dates (pos : Pos) : ∀ (l : List (Str × Str)) (vars : List Vars.Var) (name : Str), name ∉ l.map Prod.fst →
    Vars.findVar name (addDates pos l vars) = Vars.findVar name vars
  | [], _, _, _ => rfl
  | (x, t) :: l, vars, name, h => by
    simp only [List.map_cons, List.mem_cons, not_or] at h
    unfold addDates
    rw [find_dates pos l _ name h.2]
    unfold Valid.addVariable
    rw [find_put, if_neg]
    intro e
    exact h.1 e.symm

theorem find_date (pos : Pos) : ∀ (l : List (Str × Str)) (vars : List Vars.Var) (name text : Str), (l.map Prod.fst).Nodup →
    (name, text) ∈ l → ∃ v, Vars.findVar name (addDates pos l vars) = some v ∧ v.value = .leaf { ty := .STRING, pos := pos, str := text }
  | (x, t) :: l, vars, name, text, hd, h => by
    simp only [List.map_cons, List.nodup_cons] at hd
    unfold addDates
    rcases List.mem_cons.1 h with e | h
    · injection e with e1 e2
      subst e1; subst e2
      rw [find_dates pos l _ name hd.1]
      unfold Valid.addVariable
      rw [find_put]
      exact ⟨_, if_pos rfl, rfl⟩
    · exact find_date pos l _ name text hd.2 h

/-- C91: the global variables of the compiler: the arguments of --args in `$_csspp_args`, the date, and `$_csspp_no_logo`. -/
theorem C91_variables (w : World) (o : Options) (pos : Pos) (hd : (w.dates.map Prod.fst).Nodup)
    (h1 : b!"_csspp_args" ∉ w.dates.map Prod.fst) (h2 : b!"_csspp_no_logo" ∉ w.dates.map Prod.fst) :
    (∃ v, Vars.findVar b!"_csspp_no_logo" (variables w o pos) = some v ∧ v.value.ty = .BOOLEAN ∧ v.value.tok.bool = o.noLogo) ∧
    (∃ v lt at', Vars.findVar b!"_csspp_args" (variables w o pos) = some v ∧ v.value = .mk lt [.mk at' (o.args.map fun a => .leaf { ty := .STRING, pos := pos, str := a })] ∧
      lt.ty = .LIST ∧ at'.ty = .ARRAY) ∧
    ∀ name text, (name, text) ∈ w.dates → ∃ v, Vars.findVar name (variables w o pos) = some v ∧
      v.value = .leaf { ty := .STRING, pos := pos, str := text } := by
  have hk : (logoVar o.noLogo).key = b!"_csspp_no_logo" := rfl
  unfold variables
  refine ⟨⟨logoVar o.noLogo, by rw [find_put, if_pos hk], rfl, rfl⟩, ?_, ?_⟩
  · rw [find_put, if_neg (by rw [hk]; decide), find_dates _ _ _ _ h1]
    exact ⟨_, _, _, rfl, rfl, rfl, rfl⟩
  · intro name text hm
    rw [find_put, if_neg]
    · exact find_date pos w.dates _ name text hd hm
    · rw [hk]
      rintro rfl
      exact h2 (List.mem_map.2 ⟨_, hm, rfl⟩)

end Csspp.Tool

namespace Csspp.Vars
open Csspp.Parse (Nd mk_kids mk_ty)
open Csspp.Lex (Tok Pos)
open Csspp.Spec

/-! ### The scopes of a file -/

/-- `selector { $x: value }`; the `{` accepts variables or not. -/
def ruleSet (ct bt : Tok) (accepts : Bool) (sel : List Nd) (set : List Nd) : Nd :=
  .mk ct (sel ++ [.mk { bt with bool := accepts } set])

theorem isSet_rule {sel : List Nd} (hs : ∀ c ∈ sel, Plain c) (hne : sel ≠ []) (l : List Nd) : isSet (sel ++ l) = false := by
  cases sel with
  | nil => exact absurd rfl hne
  | cons c sel =>
    have hp := hs c (by simp)
    cases hp with
    | mk t kids v1 v2 =>
      show isSet (_ :: _) = false
      unfold isSet
      split
      · rename_i e
        injection e with e _
        rw [if_neg]
        subst e
        rintro (e | e)
        · exact v1 e
        · exact v2 e
      · rfl

theorem gives_ruleSet {E : Env} {ct bt : Tok} {accepts : Bool} {sel set : List Nd} (hc : ct.ty = .COMPONENT_VALUE)
    (hb : bt.ty = .OPEN_CURLYBRACKET) (hs : ∀ c ∈ sel, Plain c) (hne : sel ≠ []) {s s' : St}
    (h : Gives (fun f => replaceVars E f (.mk { bt with bool := accepts } set)) s (.ok (some (.mk { bt with bool := accepts } [])) s')) :
    Gives (fun f => replaceVars E f (ruleSet ct bt accepts sel set)) s (.ok (some (ruleSet ct bt accepts sel [])) s') := by
  refine gives_inside (.inr (.inr ⟨hc, isSet_rule hs hne _⟩)) ?_
  rw [hc]
  have h1 := to_plains (E := E) (p := .COMPONENT_VALUE) [] sel [.mk { bt with bool := accepts } set] hs s
  have h2 := to_walked (E := E) (p := .COMPONENT_VALUE) sel (c := .mk { bt with bool := accepts } set) (c' := .mk { bt with bool := accepts } []) [] (by
    show recurses bt.ty = true
    rw [hb]; rfl) h
  have h3 := loop_end E .COMPONENT_VALUE (sel ++ [.mk { bt with bool := accepts } []]) s'
  rw [List.length_append, List.length_singleton] at h3
  have h4 := h2 _ (by simp) h3
  rw [List.nil_append, List.length_nil, Nat.zero_add] at h1
  exact h1 _ (by simp) h4

theorem mark_leaf {c : Nd} (h : c.kids = []) : mark false c = c := by
  cases c with
  | mk t kids =>
    replace h : kids = [] := h
    subst h
    unfold mark
    dsimp only
    rw [if_neg (show ¬ false = true by simp)]
    split <;> rfl

theorem markAll_leaves : ∀ {l : List Nd}, (∀ c ∈ l, c.kids = []) → markAll false l = l
  | [], _ => rfl
  | c :: l, h => by
    unfold markAll
    rw [Bool.false_and, mark_leaf (h c (by simp)), markAll_leaves (fun c hc => h c (by simp [hc]))]

theorem markAll_last (b : Nd) : ∀ {l : List Nd}, (∀ c ∈ l, c.kids = []) → markAll true (l ++ [b]) = l ++ [mark true b]
  | [], _ => rfl
  | c :: l, h => by
    show markAll true (c :: (l ++ [b])) = _
    unfold markAll
    rw [show (l ++ [b]).isEmpty = false by simp, Bool.and_false, mark_leaf (h c (by simp)), markAll_last b (fun c hc => h c (by simp [hc]))]
    rfl

theorem mark_inner {t : Tok} {kids : List Nd} (ht : t.ty = .COMPONENT_VALUE) (hk : ∀ c ∈ kids, c.kids = [])
    (hl : ∀ c ∈ kids, c.ty ≠ .OPEN_CURLYBRACKET) : mark false (.mk t kids) = .mk t kids := by
  have : marksLast kids = false := by
    unfold marksLast
    rw [Bool.and_eq_false_iff]
    right
    rw [decide_eq_false_iff_not]
    intro e
    cases hg : kids.getLast? with
    | none => rw [hg] at e; cases e
    | some c =>
      rw [hg] at e
      exact hl c (List.mem_of_getLast? hg) (by simpa using e)
  unfold mark
  dsimp only
  rw [if_neg (show ¬ false = true by simp), if_pos (by rw [ht]; rfl), this, markAll_leaves hk]

theorem mark_ruleSet {ct bt : Tok} {sel : List Nd} {set : Nd} (hc : ct.ty = .COMPONENT_VALUE) (hb : bt.ty = .OPEN_CURLYBRACKET)
    (hs : ∀ c ∈ sel, Plain c ∧ c.kids = []) (hne : sel ≠ []) (hset : mark false set = set) (hty : set.ty = .COMPONENT_VALUE) :
    mark false (ruleSet ct bt false sel [set]) = ruleSet ct bt true sel [set] := by
  unfold ruleSet
  have h1 : marksLast (sel ++ [.mk { bt with bool := false } [set]]) = true := by
    unfold marksLast isSetBlock
    rw [isSet_rule (fun c hc => (hs c hc).1) hne, Bool.false_and]
    rw [Bool.not_false, Bool.true_and, List.getLast?_concat]
    exact decide_eq_true (congrArg some hb)
  have h2 : mark true (.mk { bt with bool := false } [set]) = .mk { bt with bool := true } [set] := by
    unfold mark
    dsimp only
    rw [if_pos (show true = true from rfl), if_pos (by show marks bt.ty = true; rw [hb]; rfl)]
    have : marksLast [set] = false := by
      unfold marksLast
      simp [hty]
    rw [this]
    show Nd.mk _ [mark (false && _) set] = _
    rw [Bool.false_and, hset]
  rw [mark]
  rw [if_neg (show ¬ false = true by simp), if_pos (by rw [hc]; rfl), h1, markAll_last _ (fun c hc => (hs c hc).2), h2]

/-- C91, the defect: a variable set in a rule is local when the rule is in the style sheet itself, as it comes from the standard
input; when the same rule is in an imported file (all the files of the command line are), the variable is not: it is put in the
block around the @import, the global variables for a file of the command line. mark_selectors() is called before the files are
loaded. -/
theorem C91_scope (E : Env) (lt ct bt vt var colon : Tok) (w1 w2 : Option Tok) (sel vs : List Nd) (s : St) (hl : lt.ty = .LIST)
    (hc : ct.ty = .COMPONENT_VALUE) (hb : bt.ty = .OPEN_CURLYBRACKET) (hs : ∀ c ∈ sel, Plain c ∧ c.kids = []) (hne : sel ≠ [])
    (hp : ∀ c ∈ vs, Plain c ∧ c.kids = [] ∧ c.ty ≠ .OPEN_CURLYBRACKET) (hw : vs.head?.map Nd.ty ≠ some .WHITESPACE)
    (h3 : w1.isSome ∨ w2.isSome ∨ vs ≠ []) (hd : ¬ ∃ c ∈ vs, IsFlag b!"default" c) (hg : ¬ ∃ c ∈ vs, IsFlag b!"global" c)
    (hla : ¬ Late vs) :
    Gives (fun f => replaceRoot E f (mark false (.mk lt [ruleSet ct bt false sel [setNode vt var colon w1 w2 vs]]))) s
      (.ok (.mk lt [ruleSet ct bt true sel []]) s) ∧
    ∀ (it : Tok) (name e : Nd) (r : ExprRes), it.ty = .AT_KEYWORD → it.str = b!"import" → Plain name → name.kids = [] →
      name.ty ≠ .OPEN_CURLYBRACKET → E.expr s [name] = some r → r.result = some e → r.st = s → e.ty = .STRING →
      E.file e = .loaded [ruleSet ct bt false sel [setNode vt var colon w1 w2 vs]] →
      Gives (fun f => replaceRoot E f (mark false (.mk lt [.mk it [name]]))) s
        (.ok (.mk lt [ruleSet ct bt false sel []]) (s.put ⟨.leaf { var with ty := .VARIABLE }, assigned vt.pos vs⟩ false)) := by
  have hset : mark false (setNode vt var colon w1 w2 vs) = setNode vt var colon w1 w2 vs := by
    unfold setNode
    refine mark_inner rfl ?_ ?_
    · intro c hc
      simp only [List.mem_cons, List.mem_append, List.mem_map] at hc
      rcases hc with rfl | ⟨_, _, rfl⟩ | rfl | ⟨_, _, rfl⟩ | hc
      · rfl
      · rfl
      · rfl
      · rfl
      · exact (hp c hc).2.1
    · intro c hc
      simp only [List.mem_cons, List.mem_append, List.mem_map] at hc
      rcases hc with rfl | ⟨_, _, rfl⟩ | rfl | ⟨_, _, rfl⟩ | hc
      · simp [Nd.leaf, mk_ty]
      · simp [Nd.leaf, mk_ty]
      · simp [Nd.leaf, mk_ty]
      · simp [Nd.leaf, mk_ty]
      · exact (hp c hc).2.2
  have hrec : ∀ b k, recurses (ruleSet ct bt b sel k).ty = true := fun b k => by
    show recurses ct.ty = true
    rw [hc]; rfl
  have root : ∀ {n n' : Nd} {s s' : St}, Gives (fun f => loop E f .LIST [n] 0) s (.ok [n'] s') →
      Gives (fun f => replaceRoot E f (.mk lt [n])) s (.ok (.mk lt [n']) s') := by
    intro n n' s s' h
    have := gives_inside (E := E) (t := lt) (kids := [n]) (kids' := [n']) (s := s) (s' := s') (.inr (.inl ⟨hl, by simp⟩)) (by rw [hl]; exact h)
    exact gives_bind (f := fun _ r => orThrow r) this ⟨0, fun _ _ => rfl⟩
  have one : ∀ {n n' : Nd} {s s' : St}, recurses n.ty = true → Gives (fun f => replaceVars E f n) s (.ok (some n') s') →
      Gives (fun f => loop E f .LIST [n] 0) s (.ok [n'] s') := fun hr h =>
    to_walked (E := E) (p := .LIST) [] [] hr h _ (by simp) (loop_end E .LIST [_] _)
  have mlist : ∀ n : Nd, n.ty ≠ .OPEN_CURLYBRACKET → mark false (.mk lt [n]) = .mk lt [mark false n] := by
    intro n hn
    rw [mark]
    rw [if_neg (show ¬ false = true by simp), if_pos (by rw [hl]; rfl)]
    have : marksLast [n] = false := by
      unfold marksLast
      simp [hn]
    rw [this]
    rfl
  refine ⟨?_, ?_⟩
  · rw [mlist _ (by show ct.ty ≠ _; rw [hc]; simp), mark_ruleSet hc hb hs hne hset rfl]
    refine root (one (hrec _ _) (gives_ruleSet hc hb (fun c hc => (hs c hc).1) hne ?_))
    exact C59_block E { bt with bool := true } hb rfl vt var colon w1 w2 vs s (fun c hc => (hp c hc).1) hw h3 hd hg hla
  · intro it name e r i1 i2 i3 i4 i5 i6 i7 i8 i9 i10
    have hm : mark false (.mk it [name]) = .mk it [name] := by
      rw [mark]
      rw [if_neg (show ¬ false = true by simp), if_pos (by rw [i1]; rfl)]
      have : marksLast [name] = false := by
        unfold marksLast
        simp [i5]
      rw [this, markAll_leaves (by simpa using i4)]
    rw [mlist _ (by show it.ty ≠ _; rw [i1]; simp), hm]
    refine root ?_
    have h1 := C62_import_loaded (E := E) (p := .LIST) i1 (kids := [name]) (by simpa using i3) (s := s) (by simpa using i5) (by simp) i6 [] []
      i2 i7 (.inl i9) i10 (by
        intro c hcm
        rw [List.mem_singleton] at hcm
        subst hcm
        show ct.ty ≠ _ ∧ ct.ty ≠ _
        rw [hc]
        simp)
    rw [i8] at h1
    refine h1 _ (by simp) (one (hrec _ _) (gives_ruleSet hc hb (fun c hc => (hs c hc).1) hne ?_))
    exact C59_other_block E { bt with bool := false } hb rfl vt var colon w1 w2 vs s (fun c hc => (hp c hc).1) hw h3 hd hg hla

end Csspp.Vars

namespace Csspp.Tool
open Csspp.Spec.Tool
open Csspp.Spec (IsFlag Late Plain)

/-! ### Examples -/

theorem fileText {s : Str} (h : ∀ c ∈ s, 32 ≤ c ∧ c < 128 ∧ c ≠ 34 ∧ c ≠ 92) : FileText s :=
  ⟨s, Lex.ascii_text s (fun c hc => (h c hc).2.1), fun c hc => by
    obtain ⟨h1, h2, h3, h4⟩ := h c hc
    refine ⟨?_, ?_, h3, h4, ?_, ?_, ?_⟩
    · refine ⟨?_, ?_, by omega⟩ <;> simp only [Spec.Scalar, Spec.Nonchar] <;> omega
    all_goals omega⟩

/-- `csspp /a.css b.css` in `/home/me`. -/
example : FileText b!"/home/me" ∧ (∀ n ∈ [b!"/a.css", b!"b.css"], n ≠ [] ∧ n ≠ b!"-" ∧ FileText n) ∧
    [b!"/a.css", b!"b.css"].map (path b!"/home/me") = [b!"/a.css", b!"/home/me/b.css"] := by
  refine ⟨fileText (by decide), ?_, by decide⟩
  intro n hn
  simp only [List.mem_cons, List.not_mem_nil, or_false] at hn
  rcases hn with rfl | rfl
  · exact ⟨by decide, by decide, fileText (by decide)⟩
  · exact ⟨by decide, by decide, fileText (by decide)⟩

/-- An environment where `system/init.scss` and `system/close.scss` are empty and `/a.css` is `p{color:red}`. -/
def exTool : Pipeline.Env where
  vars := { Vars.exEnv with
    expr := fun s k => some ⟨k, k.getLast?, s⟩
    file := fun n => if n.tok.str = b!"system/init.scss" ∨ n.tok.str = b!"system/close.scss" then .loaded []
      else if n.tok.str = b!"/a.css" then .loaded (((Valid.script b!"p { color: red }").map Parse.Nd.kids).getD [])
      else .alone }
  comp := Compile.exEnv
  pow10 := fun _ => .nan
  precision := 3

def exWorld : World := ⟨b!"/home/me", b!"a { b: c } d { }", [(b!"_csspp_year", b!"2026")]⟩

/-- The end of a run, for the examples. -/
def exEnd (r : End) (status : Nat) (out : Option (Option Str × Str)) (msgs : Nat) : Bool :=
  match r with
  | .exit st o m => decide (st = status) && decide (o.map Prod.fst = out.map Prod.fst) && decide (o.map Prod.snd = out.map Prod.snd) &&
      decide (m.length = msgs)
  | _ => false

/-- The standard input, in the compressed style. -/
example : exEnd (run exTool 60 exWorld {}) 0 (some (none, b!"a{b:c}")) 0 = true := by decide +kernel
/-- A file, to another one. -/
example : exEnd (run exTool 60 exWorld { files := some [b!"/a.css"], output := some b!"x.css", style := some b!"tidy" }) 0
    (some (some b!"x.css", b!"p{color:red}\n")) 0 = true := by decide +kernel
/-- Refused. -/
example : exEnd (run exTool 60 exWorld { files := some [b!"/a.css", b!"-"] }) 1 none 0 = true := by decide +kernel
/-- An unknown style is found at the end. -/
example : exEnd (run exTool 60 exWorld { style := some b!"pretty" }) 1 none 0 = true := by decide +kernel
example : ∀ m, (some b!"pretty", m) ∉ styles := by intro m; cases m <;> decide
/-- Errors stop everything. -/
example : exEnd (run exTool 60 { exWorld with stdin := b!"a { b: $c }" } {}) 1 none 2 = true := by decide +kernel

/-- A message which is a warning and one that is an error. -/
example : Warning (.lexer .doubleEqual) ∧ ¬ Warning (.variables .notSet ⟨1, 1, 1⟩) ∧ Error (.variables .notSet ⟨1, 1, 1⟩) ∧
    Spec.Tool.errors true [.lexer .doubleEqual, .variables .notSet ⟨1, 1, 1⟩] = 2 ∧
    Spec.Tool.errors false [.lexer .doubleEqual] = 0 ∧ Fails true [.lexer .doubleEqual] ∧ ¬ Fails false [.lexer .doubleEqual] := by
  refine ⟨trivial, by decide, by decide, by decide, by decide, ?_, ?_⟩ <;> unfold Fails <;> decide

/-- `a{$x:red}` in the style sheet and in a file. -/
example : (∀ c ∈ [Vars.exLeaf .IDENTIFIER b!"a"], Plain c ∧ c.kids = []) ∧
    (∀ c ∈ [Vars.exLeaf .IDENTIFIER b!"red"], Plain c ∧ c.kids = [] ∧ c.ty ≠ .OPEN_CURLYBRACKET) ∧
    (¬ ∃ c ∈ [Vars.exLeaf .IDENTIFIER b!"red"], IsFlag b!"default" c) ∧ (¬ ∃ c ∈ [Vars.exLeaf .IDENTIFIER b!"red"], IsFlag b!"global" c) ∧
    ¬ Late [Vars.exLeaf .IDENTIFIER b!"red"] ∧ exTool.vars.expr {} [Vars.exLeaf .STRING b!"a"] = some ⟨[Vars.exLeaf .STRING b!"a"], some (Vars.exLeaf .STRING b!"a"), {}⟩ := by
  have hp : ∀ s, Plain (Vars.exLeaf .IDENTIFIER s) := fun s => .mk _ _ (by simp) (by simp) (by simp) (by simp) (by simp) (by simp)
  refine ⟨?_, ?_, by decide, by decide, ?_, rfl⟩
  · simp [hp]; rfl
  · simp [hp]; exact ⟨rfl, by decide⟩
  · rw [← (Vars.flags_eq _).2.2.2]; decide

end Csspp.Tool
