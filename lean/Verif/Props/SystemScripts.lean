import Verif.Lemmas.SystemRead
import Verif.Props.ToolRun

/-!
C94: the scripts that come with csspp. The files of /repo/scripts/system are what C93 asks for.
-/

namespace Csspp.Tool
open Csspp.Parse (Nd)
open Csspp.Lex (Tok Pos)
open Csspp.Spec
open Csspp.Spec.Tool
open Csspp.Vars (St Var)

theorem disk {E : Vars.Env} {path text : Str} {n : Nd} (h : OnDisk E path text) (hn : Valid.script text = some n) : Loads E path n.kids := by
  obtain ⟨m, h1, h2⟩ := h
  rw [hn] at h1
  injection h1 with h1
  rw [h1]; exact h2

/-- C94: what init.scss of csspp does: it defines the functions of the documentation and the version, and leaves the other
variables of the logo. -/
theorem C94_init (E : Vars.Env) (h : Shipped E) : ∃ kids, Loads E b!"system/init.scss" kids ∧ ∀ s : St, s.scopes = [] →
    ∃ s', Defines E kids s s' ∧ s'.scopes = [] ∧ s'.errs = s.errs ∧
      s'.get b!"_csspp_no_logo" = s.get b!"_csspp_no_logo" ∧ s'.get b!"_csspp_usdate" = s.get b!"_csspp_usdate" ∧
      (∃ v t, s'.get b!"_csspp_version" = some v ∧ v.name.ty = .VARIABLE ∧ v.value = .leaf t ∧ t.ty = .STRING ∧ t.str = b!"1.0.33") ∧
      ∀ f ∈ shipped, ∃ v, s'.get f = some v ∧ v.name.ty = .FUNCTION := by
  obtain ⟨n, a, b, c, i1, i2, ia, ib, ic⟩ := init_script
  obtain ⟨nv, vv, v, t, v1, v2, v3, v4, v5, v6, v7, v8⟩ := version_script
  obtain ⟨nc, vc, c1, c2, c3⟩ := constants_script
  obtain ⟨nf, vf, f1, f2, f3, f4⟩ := functions_script
  have fv := free_ok v3
  have fc := free_ok c3
  have ff := free_ok f3
  refine ⟨n.kids, disk h.init i1, fun s hs => ⟨puts (puts (puts s vv) vc) vf, ?_, ?_⟩⟩
  · rw [i2]
    exact .import ia (disk h.version v1) (defs_ok E v2 s) (.import ib (disk h.constants c1) (defs_ok E c2 _)
      (.import ic (disk h.functions f1) (defs_ok E f2 _) (.nil _)))
  · have g1 := (puts_get [] vv s hs).1
    have g2 := (puts_get [] vc _ g1).1
    have g3 := (puts_get [] vf _ g2).1
    have key : ∀ name, (puts (puts (puts s vv) vc) vf).get name = (lastOf name vf).or ((lastOf name vc).or ((lastOf name vv).or (s.get name))) := by
      intro name
      rw [(puts_get name vf _ g2).2, (puts_get name vc _ g1).2, (puts_get name vv _ hs).2]
    refine ⟨g3, by rw [puts_errs, puts_errs, puts_errs], ?_, ?_, ⟨v, t, ?_, v5, v6, v7, v8⟩, ?_⟩
    · rw [key, ff _ (by simp), fc _ (by simp), fv _ (by simp)]; rfl
    · rw [key, ff _ (by simp), fc _ (by simp), fv _ (by simp)]; rfl
    · rw [key, ff _ (by simp), fc _ (by simp), v4]; rfl
    · intro f hf
      obtain ⟨x, x1, x2⟩ := f4 f hf
      exact ⟨x, by rw [key, x1]; rfl, x2⟩

theorem chars_bits {l : Str} (h : ∀ c ∈ l, c ≠ 123) {ps : List Bit} (hp : Bits ps) : Bits (l.map Bit.char ++ ps) := by
  induction l with
  | nil => exact hp
  | cons c l ih => exact ⟨fun e => absurd e (h c (by simp)), ih (fun d hd => h d (by simp [hd]))⟩

theorem chars_filled (value : Str → Option Str) (l : Str) (done : Str) (ps : List Bit) :
    filled value done (l.map Bit.char ++ ps) = filled value (done ++ l) ps := by
  induction l generalizing done with
  | nil => simp
  | cons c l ih =>
    show filled value (done ++ [c]) (l.map Bit.char ++ ps) = _
    rw [ih]; simp

theorem find_date_name (pos : Pos) : ∀ (l : List (Str × Str)) (vars : List Vars.Var) (name text : Str), (l.map Prod.fst).Nodup →
    (name, text) ∈ l → ∃ v, Vars.findVar name (addDates pos l vars) = some v ∧ v.name.ty = .VARIABLE ∧
      v.value = .leaf { ty := .STRING, pos := pos, str := text }
  | (x, t) :: l, vars, name, text, hd, h => by
    simp only [List.map_cons, List.nodup_cons] at hd
    unfold addDates
    rcases List.mem_cons.1 h with e | h
    · injection e with e1 e2
      subst e1; subst e2
      rw [find_dates pos l _ name hd.1]
      unfold Valid.addVariable
      rw [find_put]
      exact ⟨_, if_pos rfl, rfl, rfl⟩
    · exact find_date_name pos l _ name text hd.2 h

/-- C94: the scripts that come with csspp are ones that C93 is about; the logo has the version and the date. -/
theorem C94_scripts (E : Vars.Env) (h : Shipped E) (hstr : ∀ t : Tok, t.ty = .STRING → E.toString (.leaf t) = t.str) (w : World) (o : Options)
    (usdate : Str) (hd : (w.dates.map Prod.fst).Nodup) (hu : (b!"_csspp_usdate", usdate) ∈ w.dates) (hb : 123 ∉ usdate) :
    System E w o (logoText usdate) := by
  obtain ⟨kids, l1, l2⟩ := C94_init E h
  obtain ⟨n, t, g1, g2, g3, g4, g5⟩ := logo_script
  obtain ⟨m, c1, c2⟩ := close_script
  refine ⟨⟨kids, l1, fun pos => ?_⟩, ⟨m.kids, disk h.close c1, c2⟩⟩
  obtain ⟨s, s1, _, _, s2, s3, ⟨v, vt, s4, s5, s6, s7, s8⟩, _⟩ := l2 { root := variables w o pos } rfl
  have hlogo : ∀ b, (logoVar b).key = b!"_csspp_no_logo" := fun _ => rfl
  have sv : Shows E s b!"_csspp_version" b!"1.0.33" := by
    refine ⟨v, s4, by rw [s5]; simp, by rw [s5]; simp, ?_⟩
    rw [s6, hstr vt s7, s8]
  have su : Shows E s b!"_csspp_usdate" usdate := by
    obtain ⟨x, x1, x2, x3⟩ := find_date_name pos w.dates [argsVar pos o.args] _ _ hd hu
    refine ⟨x, ?_, by rw [x2]; simp, by rw [x2]; simp, ?_⟩
    · rw [s3]
      show Vars.findVar _ (Vars.putVar (logoVar o.noLogo) _) = _
      rw [find_put]
      exact (if_neg (by rw [hlogo]; decide)).trans x1
    · rw [x3, hstr _ rfl]
  refine ⟨s, s1, ?_, t, logoBits, ?_, g3, g4, g5, ?_, ?_, ?_, ?_⟩
  · rw [s2]
    show Vars.findVar _ (Vars.putVar (logoVar o.noLogo) _) = _
    rw [find_put]
    exact if_pos rfl
  · have := disk h.logo g1
    rwa [g2] at this
  · refine chars_bits (by decide) ⟨by decide, by simp, chars_bits (by decide) ⟨by decide, by simp, trivial⟩⟩
  · intro name args hm
    have hm : (name = b!"_csspp_version" ∨ name = b!"_csspp_usdate") ∧ args = none := by
      unfold logoBits at hm
      simp only [List.mem_append, List.mem_map, List.mem_cons, List.not_mem_nil, or_false] at hm
      rcases hm with ⟨_, _, e⟩ | e | ⟨_, _, e⟩ | e
      · cases e
      · injection e with e1 e2; exact ⟨.inl e1, e2⟩
      · cases e
      · injection e with e1 e2; exact ⟨.inr e1, e2⟩
    refine ⟨hm.2, ?_⟩
    rcases hm.1 with rfl | rfl
    · exact ⟨_, sv⟩
    · exact ⟨_, su⟩
  · intro value hval
    have e1 := hval _ _ sv
    have e2 := hval _ _ su
    unfold logoBits
    rw [chars_filled]
    show (match value b!"_csspp_version" with | some v => filled value (withoutHash ([] ++ logoStart) ++ v) _ | none => _) = _
    rw [e1]
    dsimp only
    rw [chars_filled]
    show (match value b!"_csspp_usdate" with | some v => filled value (withoutHash _ ++ v) [] | none => _) = _
    rw [e2]
    dsimp only
    show withoutHash ((withoutHash ([] ++ logoStart) ++ b!"1.0.33") ++ b!" on ") ++ usdate = _
    unfold logoText
    congr 1
  · intro a b e
    have : 123 ∈ logoText usdate := by rw [e]; simp
    unfold logoText at this
    rcases List.mem_append.1 this with h | h
    · revert h; decide
    · exact hb h

/-- C94: csspp on its standard input, with the scripts that come with it. -/
theorem C94_stdin (env : Expr.Env) (E : Pipeline.Env) (hE : E.comp.arg = Pipeline.exprArg env) (hv : Computes E.vars) (h : Shipped E.vars)
    (hstr : ∀ t : Tok, t.ty = .STRING → E.vars.toString (.leaf t) = t.str) (w : World) (o : Options) (ho : o.files = none ∨ o.files = some [b!"-"])
    (usdate : Str) (hd : (w.dates.map Prod.fst).Nodup) (hu : (b!"_csspp_usdate", usdate) ∈ w.dates) (hb : 123 ∉ usdate)
    (S : Plain.Sheet) (hS : S.Ok) (hl : Plain.Lays (Plain.items S) w.stdin) (hsl : ∀ r ∈ S, ∀ d ∈ r.decls, E.comp.slash d.name = false)
    (hp : ∀ p, o.precision = some p → 0 ≤ p ∧ p ≤ 10) (hst : o.style = none ∨ o.style = some b!"compressed") :
    ∃ k, ∀ f ≥ k, run E f w o = .exit 0 (some (target o, written S o.noLogo (logoText usdate))) [] :=
  C93_stdin env E hE hv w o _ (C94_scripts E.vars h hstr w o usdate hd hu hb) ho S hS hl hsl hp hst

/-- C94: csspp on files, with the scripts that come with it. -/
theorem C94_files (env : Expr.Env) (E : Pipeline.Env) (hE : E.comp.arg = Pipeline.exprArg env) (hv : Computes E.vars) (h : Shipped E.vars)
    (hstr : ∀ t : Tok, t.ty = .STRING → E.vars.toString (.leaf t) = t.str) (w : World) (o : Options) (names : List Str)
    (ho : o.files = some names) (hc : FileText w.cwd) (hn : ∀ n ∈ names, n ≠ [] ∧ n ≠ b!"-" ∧ FileText n)
    (usdate : Str) (hd : (w.dates.map Prod.fst).Nodup) (hu : (b!"_csspp_usdate", usdate) ∈ w.dates) (hb : 123 ∉ usdate)
    (S : Plain.Sheet) (hf : Files E.vars w.cwd names S) (hsl : ∀ r ∈ S, ∀ d ∈ r.decls, E.comp.slash d.name = false)
    (hp : ∀ p, o.precision = some p → 0 ≤ p ∧ p ≤ 10) (hst : o.style = none ∨ o.style = some b!"compressed") :
    ∃ k, ∀ f ≥ k, run E f w o = .exit 0 (some (target o, written S o.noLogo (logoText usdate))) [] :=
  C93_files env E hE hv w o _ (C94_scripts E.vars h hstr w o usdate hd hu hb) names ho hc hn S hf hsl hp hst

/-! ### Examples -/

/-- The scripts, on the disk. -/
def exDisk : Vars.Env := { exRunVars [] [] [] with
  toString := fun n => n.tok.str
  file := fun n =>
    match [(b!"system/init.scss", Scripts.initText), (b!"system/version.scss", Scripts.versionText),
        (b!"system/constants.scss", Scripts.constantsText), (b!"system/functions.scss", Scripts.functionsText),
        (b!"system/close.scss", Scripts.closeText), (b!"system/logo.scss", Scripts.logoText)].find? (fun x => x.1 = n.tok.str) with
    | some x => .loaded (((Valid.script x.2).map Nd.kids).getD [])
    | none => .alone }

theorem exOnDisk {path text : Str} {n : Nd} (hn : Valid.script text = some n)
    (h : ∀ e : Nd, e.ty = .STRING → e.tok.str = path → exDisk.file e = .loaded (((Valid.script text).map Nd.kids).getD [])) : OnDisk exDisk path text :=
  ⟨n, hn, fun e h1 h2 => by rw [h e h1 h2, hn]; rfl⟩

theorem exShipped : Shipped exDisk := by
  obtain ⟨_, _, _, _, a, _⟩ := init_script
  obtain ⟨_, _, _, _, b, _⟩ := version_script
  obtain ⟨_, _, c, _⟩ := constants_script
  obtain ⟨_, _, d, _⟩ := functions_script
  obtain ⟨_, e, _⟩ := close_script
  obtain ⟨_, _, g, _⟩ := logo_script
  constructor
  · exact exOnDisk a (fun e _ h => by unfold exDisk; dsimp only; rw [h]; rfl)
  · exact exOnDisk b (fun e _ h => by unfold exDisk; dsimp only; rw [h]; rfl)
  · exact exOnDisk c (fun e _ h => by unfold exDisk; dsimp only; rw [h]; rfl)
  · exact exOnDisk d (fun e _ h => by unfold exDisk; dsimp only; rw [h]; rfl)
  · exact exOnDisk e (fun e _ h => by unfold exDisk; dsimp only; rw [h]; rfl)
  · exact exOnDisk g (fun e _ h => by unfold exDisk; dsimp only; rw [h]; rfl)

/-- `csspp` on the 18th of November 2026. -/
example (env : Expr.Env) (E : Pipeline.Env) (hE : E.comp.arg = Pipeline.exprArg env) (hs : ∀ s, E.comp.slash s = false) (hv : E.vars = exDisk) :
    ∃ k, ∀ f ≥ k, run E f ⟨b!"/home/me", b!" a.b > c , #d { margin : 0 auto ; x : \"y\" , -2px + 5px - 1px } e { } ", [(b!"_csspp_usdate", b!"11/18/2026")]⟩ {} =
      .exit 0 (some (none, b!"a.b>c,#d{margin:0 auto;x:\"y\",2px}\n/* @preserve -- CSS file parsed by http://csspp.org/ v1.0.33 on 11/18/2026 */\n")) [] := by
  have hl := Plain.lays_fill (g := [32]) (by intro c hc; simp at hc; exact .inl hc) (by simp) (Plain.items Plain.sample)
  have e1 : Plain.fill [32] (Plain.items Plain.sample) = b!" a.b > c , #d { margin : 0 auto ; x : \"y\" , -2px + 5px - 1px } e { } " := by decide
  rw [e1] at hl
  have a := C94_stdin env E hE (by rw [hv]; exact ⟨(exComputes [] [] []).string, (exComputes [] [] []).not⟩) (by rw [hv]; exact exShipped) (by rw [hv]; exact fun _ _ => rfl)
    ⟨b!"/home/me", b!" a.b > c , #d { margin : 0 auto ; x : \"y\" , -2px + 5px - 1px } e { } ", [(b!"_csspp_usdate", b!"11/18/2026")]⟩ {} (.inl rfl)
    b!"11/18/2026" (by simp) (by simp) (by decide) Plain.sample Plain.sample_ok hl (fun _ _ _ _ => hs _) (by simp) (.inl rfl)
  have e2 : written Plain.sample false (logoText b!"11/18/2026") =
    b!"a.b>c,#d{margin:0 auto;x:\"y\",2px}\n/* @preserve -- CSS file parsed by http://csspp.org/ v1.0.33 on 11/18/2026 */\n" := by decide
  rw [e2] at a
  exact a

end Csspp.Tool
