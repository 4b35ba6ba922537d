import Verif.Spec.Tool
import Verif.Lemmas.ScriptTree
import Verif.Props.ErrorMod
import Verif.Props.Scopes
import Verif.Props.Import

/-! C91: the command line tool. -/

namespace Csspp.Tool
open Csspp.Parse
open Csspp.Lex (Tok Pos)
open Csspp.Pipeline (Msg)
open Csspp.Spec (Utf8 Lexeme Tokens Reads Quoted HoldAll Holds NextIs)
open Csspp.Spec.Tool
open Csspp.Valid (error_run blanks_run)

/-! ### The file names -/

/-- The characters of a line. -/
def line (cs rest : List Nat) : List Nat := b!"@import \"" ++ (cs ++ (b!"\";\n" ++ rest))

def lineLexemes (cs : List Nat) : List Lexeme :=
  [{ ty := .AT_KEYWORD, text := b!"import", low := b!"import" }, { ty := .WHITESPACE }, { ty := .STRING, text := cs },
   { ty := .SEMICOLON }, { ty := .WHITESPACE }]

theorem quoted_file {cs rest : List Nat} (h : ∀ c ∈ cs, FileChar c) : Quoted 34 (cs ++ 34 :: rest) cs rest := by
  induction cs with
  | nil => exact .close rest
  | cons c cs ih =>
    obtain ⟨h1, _, h3, h4, h5, _⟩ := h c (by simp)
    exact .char h3 h5 h4 h1 (ih (fun c hc => h c (by simp [hc])))

theorem line_tokens {cs rest : List Nat} {ls : List Lexeme} (h : ∀ c ∈ cs, FileChar c) (hr : Tokens rest ls)
    (hb : ¬ NextIs Spec.Blank rest) : Tokens (line cs rest) (lineLexemes cs ++ ls) := by
  have e1 : Reads (line cs rest) { ty := .AT_KEYWORD, text := b!"import", low := b!"import" }
      (32 :: 34 :: (cs ++ 34 :: 59 :: 10 :: rest)) := by
    have hp := (Written.letters_plain (t := b!"import") (by simp) (by simp)).1
    have hn := Written.name_plain (rest := 32 :: 34 :: (cs ++ 34 :: 59 :: 10 :: rest)) hp (by
      rintro ⟨c, t, e, hc⟩
      injection e with e _
      subst e
      revert hc
      unfold Spec.NameChar Spec.VarChar Spec.Dec Spec.Letter
      omega)
    exact .atKeyword hn
  have e2 : Reads (32 :: 34 :: (cs ++ 34 :: 59 :: 10 :: rest)) { ty := .WHITESPACE } (34 :: (cs ++ 34 :: 59 :: 10 :: rest)) :=
    .spaces (sp := [32]) (by simp [Spec.Blank]) (by simp) (by
      rintro ⟨c, t, e, hc⟩
      injection e with e _
      subst e
      revert hc
      unfold Spec.Blank
      omega)
  have e3 : Reads (34 :: (cs ++ 34 :: 59 :: 10 :: rest)) { ty := .STRING, text := cs } (59 :: 10 :: rest) :=
    .string (.inl rfl) (quoted_file h)
  have e4 : Reads (59 :: 10 :: rest) { ty := .SEMICOLON } (10 :: rest) := by
    refine .punctuation (p := [59]) (rest := 10 :: rest) (by decide) (Written.longest (bad := []) (by decide) (by simp)) ?_ ?_
      (by rintro ⟨t, e | e⟩ <;> cases e) (by rintro ⟨t, e, _⟩; cases e)
    · rintro (⟨c, t, e, hc⟩ | ⟨t, e, _⟩ | ⟨c, t, e, hc, _⟩)
      · injection e with e _
        subst e
        revert hc
        unfold Spec.Dec
        omega
      · cases e
      · injection e with e _
        omega
    · rintro (⟨c, t, e, hc⟩ | ⟨t, e, _⟩)
      · injection e with e _
        subst e
        revert hc
        unfold Spec.NameStart Spec.Letter
        omega
      · cases e
  have e5 : Reads (10 :: rest) { ty := .WHITESPACE } rest := .spaces (sp := [10]) (by simp [Spec.Blank]) (by simp) hb
  exact .token e1 (by simp) (.token e2 (by simp) (.token e3 (by simp) (.token e4 (by simp) (.token e5 (by simp) hr))))

/-- The text of the lines. -/
def lines : List (List Nat) → List Nat
  | [] => []
  | cs :: l => line cs (lines l)

theorem lines_next (l : List (List Nat)) : ¬ NextIs Spec.Blank (lines l) := by
  rintro ⟨c, t, e, hc⟩
  cases l with
  | nil => cases e
  | cons cs l =>
    have e : (64 :: _ : List Nat) = c :: t := e
    injection e with e _
    subst e
    revert hc
    unfold Spec.Blank
    omega

theorem lines_tokens : ∀ {l : List (List Nat)}, (∀ cs ∈ l, ∀ c ∈ cs, FileChar c) → Tokens (lines l) (l.flatMap lineLexemes)
  | [], _ => .eof
  | cs :: l, h => by
    rw [List.flatMap_cons]
    exact line_tokens (h cs (by simp)) (lines_tokens (fun x hx => h x (by simp [hx]))) (lines_next l)

theorem lines_clean {l : List (List Nat)} (h : ∀ cs ∈ l, ∀ c ∈ cs, FileChar c) : Written.Clean (lines l) := by
  induction l with
  | nil => intro c hc; cases hc
  | cons cs l ih =>
    have h1 : Written.Clean cs := fun c hc => by
      obtain ⟨⟨_, _, h0⟩, h2, _, _, _, h12, h13⟩ := h cs (by simp) c hc
      exact ⟨h0, h2, h12, h13⟩
    have h2 : Written.Clean b!"@import \"" := by intro c hc; simp at hc; omega
    have h3 : Written.Clean b!"\";\n" := by intro c hc; simp at hc; omega
    exact h2.append (h1.append (h3.append (ih (fun x hx => h x (by simp [hx])))))

/-- The texts of the lines. -/
inductive Text : List (List Nat) → List Str → Prop
  | nil : Text [] []
  | cons {cs : List Nat} {p : Str} {l : List (List Nat)} {ps : List Str} : Utf8 cs p → Text l ps → Text (cs :: l) (p :: ps)

/-- The tokens of the lines. -/
inductive LineToks : List Str → List Tok → Prop
  | nil : LineToks [] []
  | cons {p : Str} {ps : List Str} {k w s e v : Tok} {ts : List Tok} (h1 : k.ty = .AT_KEYWORD) (h2 : k.str = b!"import")
      (h3 : w.ty = .WHITESPACE) (h4 : s.ty = .STRING) (h5 : s.str = p) (h6 : e.ty = .SEMICOLON) (h7 : v.ty = .WHITESPACE) :
      LineToks ps ts → LineToks (p :: ps) (k :: w :: s :: e :: v :: ts)

theorem line_toks : ∀ {l : List (List Nat)} {ps : List Str} {ts : List Tok}, HoldAll ts (l.flatMap lineLexemes) →
    Text l ps → LineToks ps ts
  | _, _, _, h, .nil => by cases h; exact .nil
  | _, _, _, h, .cons h1 h2 => by
    cases h with
    | cons k h =>
      cases h with
      | cons w h =>
        cases h with
        | cons s h =>
          cases h with
          | cons e h =>
            cases h with
            | cons v h =>
              exact .cons k.ty (Written.utf8_unique k.text (Lex.utf8_ascii (by decide))) w.ty s.ty (Written.utf8_unique s.text h1) e.ty v.ty
                (line_toks h h2)

theorem lines_run {fin : Pos} {errs : List (Err × Pos)} : ∀ {ps : List Str} {ts : List Tok}, LineToks ps ts → ∃ ns, Imports ps ns ∧
    ∀ (g : Nat) (lt : Tok) (k : List Nd), lt.ty = .LIST → stylesheetLoop (g + 4 * ts.length + 6) (.mk lt k) ⟨ts, fin, errs⟩ =
      .ok (.mk lt (k ++ ns)) ⟨[], fin, errs⟩
  | _, _, .nil => by
    refine ⟨[], .nil, fun g lt k hl => ?_⟩
    conv => lhs; unfold stylesheetLoop
    rw [List.append_nil]
    rfl
  | _, _, .cons (k := kt) (w := w) (s := st) (e := et) (v := v) (ts := ts) h1 h2 h3 h4 h5 h6 h7 h8 => by
    obtain ⟨ns, i1, i2⟩ := lines_run (fin := fin) (errs := errs) h8
    refine ⟨.mk kt [.leaf st] :: ns, .cons ⟨h1, h2, .leaf st, rfl, h4, h5, rfl⟩ i1, fun g lt k hl => ?_⟩
    have hrun : atRule (g + 4 * ts.length + 25) ⟨kt :: w :: st :: et :: v :: ts, fin, errs⟩ = .ok (.mk kt [.leaf st]) ⟨v :: ts, fin, errs⟩ :=
      error_run (et := kt) (semi := et) h6 h1 (b := [w, st]) (rest := v :: ts) (fin := fin) (errs := errs)
      (by intro t ht; simp at ht; rcases ht with rfl | rfl <;> simp [*, Valid.leafTy]) (ek := [.leaf st]) (w := .leaf w) h3
      (by
        show Parse.push (Parse.push [] (.leaf w)) (.leaf st) = _
        rw [Valid.push_leaf _ (t := st) (by rw [h4]; simp), if_neg (by rw [h4]; simp), Valid.push_leaf _ (t := w) (by rw [h3]; simp),
          if_neg (by simp)]
        rfl) (by simp)
      (by show some st.ty ≠ _; rw [h4]; simp) (f := g + 4 * ts.length + 25) (by simp)
    rw [show g + 4 * (kt :: w :: st :: et :: v :: ts).length + 6 = g + 4 * ts.length + 25 + 1 by simp only [List.length_cons]; omega]
    conv => lhs; unfold stylesheetLoop
    rw [last_run, if_neg (by rw [h1]; simp), if_neg (by rw [h1]; simp), if_neg (by rw [h1]; simp [isClose]), if_neg (by rw [h1]; simp),
      if_pos h1, bind_run hrun, val_run _ (addChild_ok (by show Node.supportsChildren lt.ty = true; rw [hl]; rfl)),
      push_ne (by rw [mk_ty, h1]; simp) (by rw [mk_ty, h1]; simp)]
    have := blanks_run (result := .mk lt (k ++ [.mk kt [.leaf st]])) (fin := fin) (errs := errs) [v] ts (g + 4 * ts.length + 24) (by simp [h7])
    refine Eq.trans this ?_
    rw [show g + 4 * ts.length + 24 = (g + 18) + 4 * ts.length + 6 by omega, i2 (g + 18) lt _ hl]
    simp

theorem lines_script {l : List (List Nat)} {ps : List Str} (h : ∀ cs ∈ l, ∀ c ∈ cs, FileChar c) (ht : Text l ps) {src : Str}
    (hs : Utf8 (lines l) src) : ∃ p ns, Imports ps ns ∧ Valid.script src = some (.mk { ty := .LIST, pos := p } ns) := by
  have hc := lines_clean h
  obtain ⟨h1, h2, h3, h4⟩ := Lex.C47_complete _ src hs (fun c hm => ⟨(hc c hm).1, (hc c hm).2.1⟩) _
    (by rw [Written.clean_newlines hc]; exact lines_tokens h) (src.length + 1) (by omega)
  unfold Valid.script
  generalize Lex.lexAll (src.length + 1) (Lex.init src) = r at h1 h2 h3 h4 ⊢
  obtain ⟨ts, s⟩ := r
  dsimp only at h1 h2 h3 h4 ⊢
  have hw : ((l.flatMap lineLexemes).filterMap (·.warn)) = [] := by
    rw [List.filterMap_eq_nil_iff]
    intro a ha
    obtain ⟨cs, _, ha⟩ := List.mem_flatMap.1 ha
    simp only [lineLexemes, List.mem_cons, List.not_mem_nil, or_false] at ha
    rcases ha with rfl | rfl | rfl | rfl | rfl <;> rfl
  rw [hw] at h2
  obtain ⟨ns, i1, i2⟩ := lines_run (fin := s.pos) (errs := []) (line_toks h1 ht)
  have := i2 (ts.length + 5) (newNode .LIST (⟨ts, s.pos, []⟩ : St).last).tok [] rfl
  rw [show ts.length + 5 + 4 * ts.length + 6 = 5 * ts.length + 11 by omega] at this
  rw [h3]
  dsimp only
  rw [if_neg (by rw [h4, h2]; simp)]
  have e : stylesheet (5 * ts.length + 11) ⟨ts, s.pos, []⟩ = _ := this
  rw [e]
  exact ⟨_, [] ++ ns, (by rw [List.nil_append]; exact i1), rfl⟩

theorem imports_text (cwd : Str) (hc : FileText cwd) : ∀ (names : List Str), (∀ n ∈ names, n ≠ [] ∧ n ≠ b!"-" ∧ FileText n) →
    ∃ l src, imports cwd names = some src ∧ (∀ cs ∈ l, ∀ c ∈ cs, FileChar c) ∧ Text l (names.map (path cwd)) ∧ Utf8 (lines l) src
  | [], _ => ⟨[], [], rfl, by simp, .nil, .nil⟩
  | name :: names, h => by
    obtain ⟨l, src, i1, i2, i3, i4⟩ := imports_text cwd hc names (fun n hn => h n (by simp [hn]))
    obtain ⟨h1, h2, cs, h3, h4⟩ := h name (by simp)
    obtain ⟨ds, h5, h6⟩ := hc
    have a1 : Utf8 b!"@import \"" b!"@import \"" := Lex.utf8_ascii (by decide)
    have a2 : Utf8 b!"\";\n" b!"\";\n" := Lex.utf8_ascii (by decide)
    have a3 : Utf8 b!"/" b!"/" := Lex.utf8_ascii (by decide)
    unfold imports
    rw [if_neg h1, if_neg h2, i1]
    dsimp only
    by_cases hs : name.head? = some 47
    · rw [if_pos hs]
      have hp : path cwd name = name := by
        cases name with
        | nil => cases hs
        | cons c t =>
          have e : c = 47 := by simpa using hs
          subst e
          rfl
      refine ⟨cs :: l, _, rfl, ?_, ?_, ?_⟩
      · intro x hx
        rcases List.mem_cons.1 hx with rfl | hx
        · exact h4
        · exact i2 x hx
      · rw [List.map_cons, hp]
        exact .cons h3 i3
      · rw [List.append_assoc, List.append_assoc]
        exact Lex.utf8_append a1 (Lex.utf8_append h3 (Lex.utf8_append a2 i4))
    · rw [if_neg hs]
      have hp : path cwd name = cwd ++ b!"/" ++ name := by
        unfold path
        split
        · rename_i t; exact absurd rfl hs
        · rfl
      refine ⟨(ds ++ b!"/" ++ cs) :: l, _, rfl, ?_, ?_, ?_⟩
      · intro x hx
        rcases List.mem_cons.1 hx with rfl | hx
        · intro c hc
          rcases List.mem_append.1 hc with hc | hc
          · rcases List.mem_append.1 hc with hc | hc
            · exact h6 c hc
            · have e : c = 47 := by simpa using hc
              subst e
              unfold FileChar Spec.Valid Spec.Scalar Spec.Nonchar
              omega
          · exact h4 c hc
        · exact i2 x hx
      · rw [List.map_cons, hp]
        exact .cons (Lex.utf8_append (Lex.utf8_append h5 a3) h3) i3
      · have := Lex.utf8_append a1 (Lex.utf8_append (Lex.utf8_append (Lex.utf8_append h5 a3) h3) (Lex.utf8_append a2 i4))
        rw [show b!"@import \"" ++ cwd ++ b!"/" ++ name ++ b!"\";\n" ++ src =
          b!"@import \"" ++ (cwd ++ b!"/" ++ name ++ (b!"\";\n" ++ src)) by simp only [List.append_assoc]]
        exact this

/-- C91: the files of the command line are imported, in their order, with their absolute path: the tree that is compiled is the
list of the nodes `@import "path"`, and nothing is reported. This needs names (and a working directory) made of characters that
stand for themselves in a string: no quote, no backslash, no line feed. -/
theorem C91_files (w : World) (names : List Str) (hc : FileText w.cwd)
    (h : ∀ n ∈ names, n ≠ [] ∧ n ≠ b!"-" ∧ FileText n) :
    ∃ src n, source w (some names) = some src ∧ Valid.script src = some n ∧ n.ty = .LIST ∧
      Imports (names.map (path w.cwd)) n.kids := by
  obtain ⟨l, src, h1, h2, h3, h4⟩ := imports_text w.cwd hc names h
  obtain ⟨p, ns, h6, h7⟩ := lines_script h2 h3 h4
  refine ⟨src, _, ?_, h7, rfl, h6⟩
  unfold source
  dsimp only
  rw [if_neg ?_, h1]
  rintro rfl
  exact (h b!"-" (by simp)).2.1 rfl

/-- C91: the standard input is used without a file name, or when the only name is `-`. -/
theorem C91_stdin (w : World) : source w none = some w.stdin ∧ source w (some [b!"-"]) = some w.stdin := ⟨rfl, rfl⟩

theorem imports_none (cwd : Str) : ∀ names : List Str, imports cwd names = none ↔ ([] ∈ names ∨ b!"-" ∈ names)
  | [] => by simp [imports]
  | name :: names => by
    have ih := imports_none cwd names
    unfold imports
    by_cases h1 : name = []
    · rw [if_pos h1]; simp [h1]
    · rw [if_neg h1]
      by_cases h2 : name = b!"-"
      · rw [if_pos h2]; simp [h2]
      · rw [if_neg h2]
        cases hi : imports cwd names with
        | none =>
          have := ih.1 hi
          simp only [true_iff]
          rcases this with h | h
          · exact .inl (by simp [h])
          · exact .inr (by simp only [List.mem_cons]; exact .inr h)
        | some r =>
          have : ¬ ([] ∈ names ∨ b!"-" ∈ names) := fun h => by rw [ih.2 h] at hi; cases hi
          dsimp only
          constructor
          · intro h; split at h <;> cases h
          · rintro (h | h)
            · rcases List.mem_cons.1 h with h | h
              · exact absurd h.symm h1
              · exact absurd (.inl h) this
            · rcases List.mem_cons.1 h with h | h
              · exact absurd h.symm h2
              · exact absurd (.inr h) this

/-- C91: an empty name, or `-` among other names, is refused: the tool fails and writes nothing, whatever the other options
are. -/
theorem C91_refused (E : Pipeline.Env) (f : Nat) (w : World) (o : Options) (names : List Str) (hf : o.files = some names)
    (hn : names ≠ [b!"-"]) : ([] ∈ names ∨ b!"-" ∈ names → run E f w o = .exit 1 none []) ∧
      (source w o.files = none ↔ ([] ∈ names ∨ b!"-" ∈ names)) := by
  have hs : source w o.files = none ↔ ([] ∈ names ∨ b!"-" ∈ names) := by
    rw [hf]
    unfold source
    dsimp only
    rw [if_neg hn]
    exact imports_none _ _
  refine ⟨fun h => ?_, hs⟩
  unfold run
  rw [hs.2 h]
  split
  · rfl
  · dsimp only
    split <;> rfl

/-! ### The exit status -/

theorem mode_iff (m : Msg) : (mode m = .error ↔ Error m) ∧ (mode m = .warning ↔ Warning m) ∧ mode m ≠ .fatal := by
  cases m with
  | lexer r => cases r <;> simp [mode, Error, Warning, Lex.Rpt.isError]
  | variables e p => cases e <;> simp [mode, Valid.mode, Error, Warning]
  | compiler e p =>
    show (Valid.mode (.compiler e p) = .error ↔ e.level = .error) ∧ (Valid.mode (.compiler e p) = .warning ↔ e.level = .warning) ∧
      Valid.mode (.compiler e p) ≠ .fatal
    unfold Valid.mode
    dsimp only
    generalize e.level = l
    cases l <;> simp
  | parser e p => simp [mode, Valid.mode, Error, Warning]
  | nestedRule p => simp [mode, Valid.mode, Error, Warning]
  | dimension => simp [mode, Valid.mode, Error, Warning]

theorem counts_mode (wae : Bool) (m : Msg) : Err.CountsError wae (mode m) = (decide (Error m) || (wae && decide (Warning m))) := by
  obtain ⟨h1, h2, h3⟩ := mode_iff m
  rw [Bool.eq_iff_iff]
  unfold Err.CountsError
  simp only [Bool.or_eq_true, Bool.and_eq_true, beq_iff_eq, decide_eq_true_eq, h1, h2, h3, or_false]
  constructor
  · rintro (h | ⟨h, h'⟩)
    · exact .inl h
    · exact .inr ⟨h', h⟩
  · rintro (h | ⟨h, h'⟩)
    · exact .inl h
    · exact .inr ⟨h', h⟩

theorem failed_iff (o : Options) (msgs : List Msg) : failed o msgs = true ↔ Fails o.werror msgs := by
  unfold failed Fails Spec.Tool.errors
  have h := (Err.C17_error_happened (errors o) (msgs.map mode) (by simp [errors]) (by simp [errors])).1
  rw [List.map_map] at h
  refine Iff.trans h ?_
  rw [List.countP_map]
  have : (Err.CountsError (errors o).warningsAsErrors ∘ mode) = fun m => decide (Error m) || (o.werror && decide (Warning m)) := by
    funext m
    exact counts_mode _ m
  rw [this]

/-- The messages of a part of the compilation, then only those of the assembler. -/
theorem write_out {E : Pipeline.Env} {p : Nat} {o : Options} {n : Nd} {msgs all : List Msg} {st : Nat} {out : Option (Option Str × Str)}
    (h : write E p o n msgs = .exit st out all) :
    (out = none ∧ st = 1) ∨ ∃ m calls, style o.style = some m ∧ Asm.output p (Pipeline.toTree E.pow10 n) = .ok calls ∧
      out = some (target o, m.text calls) ∧ all = msgs ++ (calls.filter (· = .report)).map (fun _ => .dimension) ∧
      st = if failed o all then 1 else 0 := by
  unfold write at h
  split at h
  · injection h with h1 h2 h3
    exact .inl ⟨h2.symm, h1.symm⟩
  · rename_i m hm
    unfold Pipeline.write at h
    cases hc : Asm.output p (Pipeline.toTree E.pow10 n) with
    | error e =>
      rw [show Asm.output ({ E with precision := p } : Pipeline.Env).precision (Pipeline.toTree ({ E with precision := p } : Pipeline.Env).pow10 n) = _ from hc] at h
      cases e with
      | throws =>
        dsimp only at h
        injection h with h1 h2 h3
        exact .inl ⟨h2.symm, h1.symm⟩
      | unmodelled => cases h
    | ok calls =>
      rw [show Asm.output ({ E with precision := p } : Pipeline.Env).precision (Pipeline.toTree ({ E with precision := p } : Pipeline.Env).pow10 n) = _ from hc] at h
      dsimp only at h
      injection h with h1 h2 h3
      exact .inr ⟨m, calls, hm, rfl, h2.symm, h3.symm, by rw [← h3]; exact h1.symm⟩

/-- All the ways the tool ends by itself. -/
theorem run_out {E : Pipeline.Env} {f : Nat} {w : World} {o : Options} {all : List Msg} {st : Nat} {out : Option (Option Str × Str)}
    (h : run E f w o = .exit st out all) :
    (out = none ∧ st = 1) ∨ ∃ (p : Nat) (src : Str) (tree n : Nd) (pm more msgs : List Msg) (m : Asm.Mode) (calls : List Asm.Call),
      o.precision.elim 3 toInt32 = (p : Int) ∧ p ≤ 10 ∧ source w o.files = some src ∧ Parsed src tree pm ∧ failed o pm = false ∧
      compile E f w o tree = .ok n more ∧ msgs = pm ++ more ∧ failed o msgs = false ∧
      style o.style = some m ∧ Asm.output p (Pipeline.toTree E.pow10 n) = .ok calls ∧
      out = some (target o, m.text calls) ∧ all = msgs ++ (calls.filter (· = .report)).map (fun _ => .dimension) ∧
      st = if failed o all then 1 else 0 := by
  have one : ∀ {l : List Msg}, End.exit 1 none l = .exit st out all → (out = none ∧ st = 1) := by
    intro l h
    injection h with h1 h2 h3
    exact ⟨h2.symm, h1.symm⟩
  unfold run at h
  split at h
  · exact .inl (one h)
  rename_i p hp
  split at h
  · exact .inl (one h)
  rename_i hle
  split at h
  · exact .inl (one h)
  rename_i src hsrc
  unfold process at h
  split at h
  rename_i ts s hlex
  split at h
  · cases h
  · exact .inl (one h)
  rename_i hexn
  split at h
  · cases h
  rename_i hub
  split at h
  · exact .inl (one h)
  · cases h
  rename_i n pst hpar
  dsimp only at h
  split at h
  · exact .inl (one h)
  rename_i hf0
  split at h
  · exact .inl (one h)
  · cases h
  · cases h
  rename_i n' more hcomp
  split at h
  · exact .inl (one h)
  rename_i hf
  rcases write_out h with h | ⟨m, calls, h1, h2, h3, h4, h5⟩
  · exact .inl h
  · exact .inr ⟨p, src, n, n', _, more, _, m, calls, hp, by omega, hsrc, ⟨ts, s, pst, hlex, hexn, by simpa using hub, hpar, rfl⟩,
      by simpa using hf0, hcomp, rfl, by simpa using hf, h1, h2, h3, h4, h5⟩

/-- C91: the exit status is 0 or 1. It is 0 exactly when something was written and the messages have no error (or warning, with
--Werror); more exactly, when their number is a multiple of 2^32. -/
theorem C91_status {E : Pipeline.Env} {f : Nat} {w : World} {o : Options} {msgs : List Msg} {st : Nat} {out : Option (Option Str × Str)}
    (h : run E f w o = .exit st out msgs) :
    (st = 0 ∨ st = 1) ∧ (st = 0 ↔ out ≠ none ∧ ¬ Fails o.werror msgs) := by
  rcases run_out h with ⟨rfl, rfl⟩ | ⟨p, src, tree, n, pm, more, ms, m, calls, h1, h2, -, -, -, -, -, h3, h4, h5, rfl, h7, h8⟩
  · simp
  · by_cases hf : failed o msgs = true
    · rw [if_pos hf] at h8
      have := (failed_iff _ _).1 hf
      subst h8
      simp [this]
    · rw [if_neg hf] at h8
      have := mt (failed_iff _ _).2 hf
      subst h8
      simp [this]

/-- C91: something is written only when the style and the precision are valid and nothing failed before the assembler; it goes
to the file of --output (the standard output without it, or for `-`) in the asked style, compressed by default. -/
theorem C91_written {E : Pipeline.Env} {f : Nat} {w : World} {o : Options} {msgs : List Msg} {st : Nat} {file : Option Str} {text : Str}
    (h : run E f w o = .exit st (some (file, text)) msgs) :
    (file = none ↔ o.output = none ∨ o.output = some b!"-") ∧ (∀ x, file = some x → o.output = some x) ∧
    ∃ (p : Nat) (src : Str) (tree n : Nd) (pm more : List Msg) (m : Asm.Mode) (calls : List Asm.Call),
      o.precision.elim 3 toInt32 = (p : Int) ∧ p ≤ 10 ∧ source w o.files = some src ∧ Parsed src tree pm ∧ ¬ Fails o.werror pm ∧
      compile E f w o tree = .ok n more ∧ ¬ Fails o.werror (pm ++ more) ∧
      msgs = pm ++ more ++ (calls.filter (· = .report)).map (fun _ => .dimension) ∧ (o.style, m) ∈ styles ∧
      Asm.output p (Pipeline.toTree E.pow10 n) = .ok calls ∧ text = m.text calls := by
  rcases run_out h with ⟨h, _⟩ | ⟨p, src, tree, n, pm, more, first, m, calls, h1, h2, g1, g2, g3, g4, rfl, h3, h4, h5, h6, h7, h8⟩
  · cases h
  injection h6 with h6
  injection h6 with h6 h9
  subst h6
  have nf : ∀ l, failed o l = false → ¬ Fails o.werror l := fun l h hf => by
    rw [(failed_iff _ _).2 hf] at h
    cases h
  refine ⟨?_, ?_, p, src, tree, n, pm, more, m, calls, h1, h2, g1, g2, nf _ g3, g4, nf _ h3, h7, ?_, h5, h9⟩
  · unfold target
    cases ho : o.output with
    | none => simp
    | some x =>
      dsimp only
      by_cases hx : x = b!"-"
      · rw [if_pos hx]; simp [hx]
      · rw [if_neg hx]
        simp only [Option.some.injEq, reduceCtorEq, false_or, false_iff]
        exact hx
  · intro x hx
    unfold target at hx
    cases ho : o.output with
    | none => rw [ho] at hx; cases hx
    | some y =>
      rw [ho] at hx
      dsimp only at hx
      split at hx
      · cases hx
      · exact hx
  · unfold styles
    unfold style at h4
    cases ho : o.style with
    | none =>
      rw [ho] at h4
      injection h4 with h4
      subst h4
      simp
    | some y =>
      rw [ho] at h4
      dsimp only at h4
      split at h4
      · injection h4 with h4; subst h4; subst y; simp
      split at h4
      · injection h4 with h4; subst h4; subst y; simp
      split at h4
      · injection h4 with h4; subst h4; subst y; simp
      split at h4
      · injection h4 with h4; subst h4; subst y; simp
      · cases h4

theorem style_eq {x : Option Str} {m : Asm.Mode} (h : (x, m) ∈ styles) : style x = some m := by
  simp only [styles, List.mem_cons, List.not_mem_nil, or_false, Prod.mk.injEq] at h
  rcases h with ⟨rfl, rfl⟩ | ⟨rfl, rfl⟩ | ⟨rfl, rfl⟩ | ⟨rfl, rfl⟩ | ⟨rfl, rfl⟩ <;> rfl

/-- C91: the other way: when nothing fails the text is written, in this style. -/
theorem C91_success {E : Pipeline.Env} {f : Nat} {w : World} {o : Options} {p : Nat} {src : Str} {tree n : Nd} {pm more : List Msg}
    {m : Asm.Mode} {calls : List Asm.Call} (h1 : o.precision.elim 3 toInt32 = (p : Int)) (h2 : p ≤ 10)
    (h3 : source w o.files = some src) (h4 : Parsed src tree pm) (h5 : ¬ Fails o.werror pm) (h6 : compile E f w o tree = .ok n more)
    (h7 : ¬ Fails o.werror (pm ++ more)) (h8 : (o.style, m) ∈ styles)
    (h9 : Asm.output p (Pipeline.toTree E.pow10 n) = .ok calls) :
    ∃ st, run E f w o = .exit st (some (target o, m.text calls))
        (pm ++ more ++ (calls.filter (· = .report)).map fun _ => .dimension) ∧
      (Asm.Call.report ∉ calls → st = 0) := by
  have nf : ∀ l, ¬ Fails o.werror l → ¬ failed o l = true := fun l h hf => h ((failed_iff _ _).1 hf)
  obtain ⟨ts, s, st, l1, l2, l3, l4, rfl⟩ := h4
  unfold run
  rw [h1]
  show ∃ st, (if p > 10 then _ else _) = _ ∧ _
  rw [if_neg (by omega), h3]
  dsimp only
  unfold process
  rw [l1]
  dsimp only
  rw [l2]
  dsimp only
  rw [if_neg (by rw [l3]; simp), l4]
  dsimp only
  rw [if_neg (nf _ h5), h6]
  dsimp only
  rw [if_neg (nf _ h7)]
  unfold write Pipeline.write
  rw [style_eq h8]
  dsimp only
  rw [h9]
  dsimp only
  refine ⟨_, rfl, fun hr => ?_⟩
  have : calls.filter (· = .report) = [] := by
    rw [List.filter_eq_nil_iff]
    intro c hc e
    rw [decide_eq_true_iff] at e
    exact hr (e ▸ hc)
  rw [this, List.map_nil, List.append_nil, if_neg (nf _ h7)]

/-- C91: an unknown style is found only after the compilation: the tool fails and nothing is written. -/
theorem C91_unknown_style {E : Pipeline.Env} {f : Nat} {w : World} {o : Options} (h : ∀ m, (o.style, m) ∉ styles) {msgs : List Msg}
    {st : Nat} {out : Option (Option Str × Str)} (hr : run E f w o = .exit st out msgs) : st = 1 ∧ out = none := by
  rcases C91_status hr with ⟨h1, h2⟩
  cases out with
  | none =>
    refine ⟨?_, rfl⟩
    rcases h1 with rfl | rfl
    · exact absurd rfl (h2.1 rfl).1
    · rfl
  | some x =>
    obtain ⟨a, b⟩ := x
    obtain ⟨_, _, _, _, _, _, _, _, m, _, _, _, _, _, _, _, _, _, hm, _⟩ := C91_written hr
    exact absurd hm (h m)

end Csspp.Tool
