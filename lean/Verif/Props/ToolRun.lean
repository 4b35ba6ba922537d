import Verif.Props.ToolMore
import Verif.Props.Branches
import Verif.Props.Define
import Verif.Props.Pipeline
import Verif.Lemmas.PlainEnd
import Verif.Props.CompileWhole
import Verif.Spec.ToolRun

/-! C93: the command line tool, from the files to the text that is written. -/

namespace Csspp.Vars
open Csspp.Parse (Nd)
open Csspp.Lex (Tok Pos)
open Csspp.Spec Csspp.Spec.Tool

theorem string_leaf {t : Tok} (h : t.ty = .STRING) : Spec.Plain (Nd.leaf t) := by
  refine .mk _ _ ?_ ?_ ?_ ?_ ?_ (by simp) <;> rw [h] <;> simp

/-- @import of a file. -/
theorem to_import {E : Env} {p : NT} (hE : Computes E) {path : Str} {n : Nd} (hn : IsImport path n) {kids : List Nd}
    (hl : Loads E path kids) (hk : ∀ c ∈ kids, c.ty ≠ .EOF_TOKEN ∧ c.ty ≠ .WHITESPACE) (d rest : List Nd) (s : St) :
    To E p (d ++ n :: rest) d.length s (d ++ (kids ++ rest)) d.length s := by
  obtain ⟨h1, h2, x, h3, h4, h5, h6⟩ := hn
  cases n with
  | mk t k =>
  cases x with
  | mk u j =>
  have h6 : j = [] := h6
  have h3 : k = [.mk u j] := h3
  subst h6; subst h3
  obtain ⟨k', e, e1, e2, e3⟩ := hE.string s u h4
  refine C62_import_loaded (E := E) (p := p) (t := t) h1 (kids := [.mk u []]) (fun c hc => ?_) (r := ⟨k', some e, s⟩) ?_ (by simp) e1 d rest h2
    rfl (.inl e2) (hl e e2 (e3.trans h5)) hk
  · rw [List.mem_singleton.1 hc]; exact string_leaf h4
  · show some u.ty ≠ _
    rw [show u.ty = .STRING from h4]; simp

/-- The nodes of a file of definitions have a type that insert_child() accepts. -/
theorem defines_kids {E : Env} {kids : List Nd} {s s' : St} (h : Defines E kids s s') :
    ∀ c ∈ kids, c.ty ≠ .EOF_TOKEN ∧ c.ty ≠ .WHITESPACE := by
  induction h with
  | nil => simp
  | set t var colon w1 w2 vs _ _ _ _ ih =>
    intro c hc
    rcases List.mem_cons.1 hc with rfl | hc
    · exact ⟨by show NT.COMPONENT_VALUE ≠ _; simp, by show NT.COMPONENT_VALUE ≠ _; simp⟩
    · exact ih c hc
  | mixin t name block h1 _ _ _ _ ih =>
    intro c hc
    rcases List.mem_cons.1 hc with rfl | hc
    · exact ⟨by show t.ty ≠ _; rw [h1]; simp, by show t.ty ≠ _; rw [h1]; simp⟩
    · exact ih c hc
  | function t ft block ws h1 _ _ _ _ _ _ _ ih =>
    intro c hc
    rcases List.mem_cons.1 hc with rfl | hc
    · exact ⟨by show t.ty ≠ _; rw [h1]; simp, by show t.ty ≠ _; rw [h1]; simp⟩
    · exact ih c hc
  | «import» h1 _ _ _ _ ih =>
    intro c hc
    rcases List.mem_cons.1 hc with rfl | hc
    · rw [h1.1]; simp
    · exact ih c hc

theorem late_none {vs : List Nd} (h : ∀ c ∈ vs, ¬ AnyFlag c) : ¬ Late vs := by
  rintro ⟨a, f, b, c, rfl, h1, _⟩
  exact h f (by simp) h1

/-- A file of definitions leaves no node and no message. -/
theorem defines_to {E : Env} (hE : Computes E) {kids : List Nd} {s s' : St} (h : Defines E kids s s') (p : NT) :
    (∀ d rest, To E p (d ++ (kids ++ rest)) d.length s (d ++ rest) d.length s') ∧ s'.errs = s.errs := by
  induction h with
  | nil => exact ⟨fun d rest => To.refl, rfl⟩
  | set t var colon w1 w2 vs h1 h2 h3 _ ih =>
    rename_i s s' l h4
    obtain ⟨s1, ⟨a1, a2, _, a3⟩, _, a4⟩ := C59_set E t var colon w1 w2 vs s (fun c hc => (h1 c hc).1) h3 (.inr (.inr h2))
    replace a3 := a3 (late_none (fun c hc => (h1 c hc).2))
    have hs : s1 = s := same_state a1 a2 a3
    subst hs
    have hno : ∀ name, (name = b!"global" ∨ name = b!"default") → ¬ ∃ c ∈ vs, IsFlag name c := by
      rintro name hn ⟨c, hc, hf⟩
      refine (h1 c hc).2 ?_
      rcases hn with rfl | rfl
      · exact .inl hf
      · exact .inr hf
    have g := a4 (fun hx => hno _ (.inr rfl) hx.1) false ⟨fun h => (by cases h), fun h => absurd h (hno _ (.inl rfl))⟩
    refine ⟨fun d rest => To.trans (to_gone d (l ++ rest) (c := setNode t var colon w1 w2 vs) rfl g) (ih.1 d rest), ?_⟩
    rw [ih.2]
    exact put_errs _ _ _
  | mixin t name block h1 h2 h3 h4 _ ih =>
    exact ⟨fun d rest => To.trans (C60_mixin h1 h2 h3 h4 _ d _) (ih.1 d rest), ih.2.trans (put_errs _ _ _)⟩
  | function t ft block ws h1 h2 h3 h4 h5 h6 h7 _ ih =>
    rename_i s s' l args h8
    refine ⟨fun d rest => To.trans ?_ (ih.1 d rest), ih.2.trans (put_errs _ _ _)⟩
    refine to_mixin h1 h2 ?_ d (l ++ rest)
    have hty : (Nd.mk ft args).ty = .FUNCTION := h3
    unfold handleMixin
    dsimp only [Parse.Nd.kids]
    rw [if_neg (by rw [h4]; simp), if_neg (by rw [hty]; simp), if_neg (by rw [hty]; simp), if_pos hty, bind_apply,
      prepareFunctionArguments_eq (.inl h3) h5 h6, h7]
    rfl
  | «import» h1 h2 h3 _ ih1 ih2 =>
    rename_i s s1 s' l kids path n h4
    refine ⟨fun d rest => ?_, ih2.2.trans ih1.2⟩
    refine To.trans (to_import hE h1 h2 (defines_kids h3) d (l ++ rest) s) ?_
    exact To.trans (ih1.1 d (l ++ rest)) (ih2.1 d rest)
where
  same_state : ∀ {s s' : St}, s'.scopes = s.scopes → s'.root = s.root → s'.errs = s.errs → s' = s := by
    rintro ⟨⟩ ⟨⟩ rfl rfl rfl; rfl
  put_errs (s : St) (v : Var) (g : Bool) : (s.put v g).errs = s.errs := by
    unfold St.put; split <;> (try split) <;> rfl

/-- The comment of the logo, once its references are replaced. -/
theorem logo_comment {E : Env} {s : St} {ps : List Bit} {text : Str} (h : Logo E s ps text) {t : Tok} (ht : t.ty = .COMMENT)
    (hs : t.str = commentText ps) : Gives (fun f => replaceVars E f (.leaf t)) s (.ok (some (.leaf { t with str := text })) s) := by
  obtain ⟨h1, h2, h3, h4⟩ := h
  have g := C62_comment E t ht [] ps h1 hs s
  have e1 : filled (usable E s) [] ps = text := by
    refine h3 _ ?_
    rintro name x ⟨v, a1, a2, a3, rfl⟩
    unfold usable
    rw [a1]
    exact if_neg (by rintro (h | h); exact a2 h; exact a3 h)
  have e2 : ps.flatMap (warning E s) = [] := by
    rw [List.flatMap_eq_nil_iff]
    intro b hb
    cases b with
    | char c => rfl
    | ref name args =>
      obtain ⟨rfl, x, v, a1, a2, a3, _⟩ := h2 name args hb
      unfold warning
      dsimp only
      rw [a1]
      dsimp only
      rw [if_neg (by rintro (h | h); exact a2 h; exact a3 h)]
      rfl
  rw [e1, e2] at g
  exact g

/-- The footer: the comment of the logo is left unless `$_csspp_no_logo` is true. -/
theorem footer_to {E : Env} (hE : Computes E) {l : List Nd} (hl : Footer l) {t : Tok} {ps : List Bit} {text : Str}
    (hf : Loads E b!"system/logo.scss" [.leaf t]) (ht : t.ty = .COMMENT) (hs : t.str = commentText ps) {s : St} (h : Logo E s ps text)
    {b : Bool} (hb : s.get b!"_csspp_no_logo" = some (Tool.logoVar b)) : ∃ c, c.ty = .COMPONENT_VALUE ∧
      ∀ d, To E .LIST (d ++ l) d.length s (d ++ if b then [] else [.mk c [.leaf { t with str := text }]])
        (d.length + if b then 0 else 1) s := by
  obtain ⟨i, f, v, bt, c, im, rfl, h1, h2, h3, h4, h5, h6, h7, h8, h9, h10⟩ := hl
  let x : Tok := { ty := .BOOLEAN, pos := ⟨1, 1, 1⟩, bool := b }
  let cm : Nd := .leaf { t with str := text }
  let block : Nd := .mk bt [.mk c [cm]]
  have pcm : Spec.Plain cm := by
    refine .mk _ _ ?_ ?_ ?_ ?_ (fun _ => h.2.2.2) (by simp) <;> dsimp only <;> rw [ht] <;> simp
  have pcv : Spec.Plain (.mk c [cm]) := by
    refine .mk _ _ ?_ ?_ ?_ ?_ ?_ ?_
    case refine_6 => intro y hy; rw [List.mem_singleton.1 hy]; exact pcm
    all_goals rw [h9]; simp
  have pb : Spec.Plain block := by
    refine .mk _ _ ?_ ?_ ?_ ?_ ?_ ?_
    case refine_6 => intro y hy; rw [List.mem_singleton.1 hy]; exact pcv
    all_goals rw [h7]; simp
  have pf : Spec.Plain (.mk f [.leaf x]) := by
    refine .mk _ _ ?_ ?_ ?_ ?_ ?_ ?_
    case refine_6 =>
      intro y hy
      rw [List.mem_singleton.1 hy]
      exact .mk _ _ (by simp [x]) (by simp [x]) (by simp [x]) (by simp [x]) (by simp [x]) (by simp)
    all_goals rw [h3]; simp
  -- the condition
  have gf : Gives (fun g => replaceVars E g (.mk f [.leaf v])) s (.ok (some (.mk f [.leaf x])) s) := by
    let vals : Valuation := fun y => if y = b!"_csspp_no_logo" then some (.leaf x) else none
    have hx : ∀ p, spliced p (.leaf x) = [.leaf x] := by intro p; rfl
    have g := C60_subst E vals (.mk f [.leaf v]) (.node f [.leaf v] (by rw [h3]; unfold IsContainer; decide) (by rw [h3]; simp) (by rw [h3]; simp)
      (by rw [h3]; simp) (by
        intro y hy _
        rw [List.mem_singleton.1 hy]
        refine ⟨.leaf x, if_pos h6, fun p => ?_⟩
        rw [hx]
        refine ⟨?_, ?_, ?_⟩
        · intro z hz
          rw [List.mem_singleton.1 hz]
          exact .mk _ _ (by simp [x]) (by simp [x]) (by simp [x]) (by simp [x]) (by simp [x]) (by simp)
        · show NT.BOOLEAN ≠ _; simp
        · show some NT.BOOLEAN ≠ _; simp) (by
        intro y hy hn
        rw [List.mem_singleton.1 hy] at hn
        exact absurd h5 hn)) s (by
      intro y u hu
      by_cases hy : y = b!"_csspp_no_logo"
      · subst hy
        have : u = .leaf x := by
          have e : vals b!"_csspp_no_logo" = some (.leaf x) := if_pos rfl
          rw [e] at hu
          exact (Option.some.inj hu).symm
        exact ⟨_, hb, this.symm, by show NT.VARIABLE ≠ _; simp, by show NT.VARIABLE ≠ _; simp⟩
      · exact absurd ((show vals y = none from if_neg hy).symm.trans hu) (by simp))
    have e : subst vals (.mk f [.leaf v]) = .mk f [.leaf x] := by
      rw [subst, substAll, if_pos (show (Nd.leaf v).ty = .VARIABLE from h5), show vals (Nd.leaf v).tok.str = some (.leaf x) from if_pos h6, substAll]
      rfl
    rw [e] at g
    exact g
  -- the block
  have gb : Gives (fun g => replaceVars E g (.mk bt [.mk c [im]])) s (.ok (some block) s) := by
    have w0 : Gives (fun g => loop E g c.ty [im] 0) s (.ok [cm] s) := by
      have a1 := to_import (p := c.ty) hE h10 hf (by
        intro y hy; rw [List.mem_singleton.1 hy]; exact ⟨by show t.ty ≠ _; rw [ht]; simp, by show t.ty ≠ _; rw [ht]; simp⟩) [] [] s
      have a2 := to_walked (E := E) (p := c.ty) [] (c := .leaf t) (c' := cm) [] (by show recurses t.ty = true; rw [ht]; rfl)
        (logo_comment h ht hs)
      exact a1 _ (by simp) (a2 _ (by simp) (loop_end E c.ty [cm] s))
    have w1 : Gives (fun g => replaceVars E g (.mk c [im])) s (.ok (some (.mk c [cm])) s) :=
      gives_inside (.inr (.inr ⟨h9, by unfold isSet; rfl⟩)) w0
    have w2 := to_walked (E := E) (p := .OPEN_CURLYBRACKET) [] (c := .mk c [im]) (c' := .mk c [cm]) []
      (by show recurses c.ty = true; rw [h9]; rfl) w1
    have w3 := gives_block (E := E) (t := bt) h7 (kids := [.mk c [im]]) (kids' := [.mk c [cm]]) (s := s) (s' := s) (by
      rw [h8]
      exact w2 _ (by simp) (loop_end E .OPEN_CURLYBRACKET [.mk c [cm]] s))
    rw [h8] at w3
    exact w3
  obtain ⟨k, e, e1, e2⟩ : ∃ k e, (∀ s, ∃ k e, E.expr s [.mk f [.leaf x], block] = some ⟨[k, block], some e, s⟩ ∧ E.truth e = (!b, false)) ∧
      k = e := ⟨Nd.leaf x, Nd.leaf x, fun s => hE.not s f x block h3 h4 rfl h7, rfl⟩
  have good : GoodBranch E ⟨i, [.mk f [.leaf x]], !b, block⟩ := by
    refine ⟨⟨h7, pb, ?_⟩, ?_, ?_, by simp, e1⟩
    · intro y hy
      have hy : y ∈ [Nd.mk c [cm]] := hy
      rw [List.mem_singleton.1 hy]
      exact ⟨by show c.ty ≠ _; rw [h9]; simp, by show c.ty ≠ _; rw [h9]; simp⟩
    · intro y hy; rw [List.mem_singleton.1 hy]; exact pf
    · intro y hy
      have hy : some (Nd.mk f [.leaf x]) = some y := hy
      rw [← Option.some.inj hy]
      show f.ty ≠ _
      rw [h3]; simp
  have hi : ∀ k, Branch.ifNode ⟨i, [.mk f [.leaf x]], !b, k⟩ = .mk i [.mk f [.leaf x], k] := by
    intro k
    have : ({ i with ty := .AT_KEYWORD, str := b!"if", int := i.int } : Tok) = i := by
      rw [← h1, ← h2]
    show Nd.mk { i with ty := .AT_KEYWORD, str := b!"if", int := i.int } _ = _
    rw [this]; rfl
  have gi : Gives (fun g => replaceVars E g (.mk i [.mk f [.leaf v], .mk bt [.mk c [im]]])) s
      (.ok (some (.mk i [.mk f [.leaf x], block])) s) := by
    refine gives_inside (.inl h1) ?_
    have a1 := to_walked (E := E) (p := i.ty) [] (c := .mk f [.leaf v]) (c' := .mk f [.leaf x]) [.mk bt [.mk c [im]]]
      (by show recurses f.ty = true; rw [h3]; rfl) gf
    have a2 := to_walked (E := E) (p := i.ty) [.mk f [.leaf x]] (c := .mk bt [.mk c [im]]) (c' := block) []
      (by show recurses bt.ty = true; rw [h7]; rfl) gb
    exact a1 _ (by simp) (a2 _ (by simp) (loop_end E i.ty [.mk f [.leaf x], block] s))
  refine ⟨c, h9, fun d => ?_⟩
  have w := walk_first (E := E) (p := .LIST) (n := .mk i [.mk f [.leaf v], .mk bt [.mk c [im]]]) (n' := .mk i [.mk f [.leaf x], block])
    (s := s) (s1 := s) h1 h1 (by show i.str ≠ _; rw [h2]; decide) (by show i.str ≠ _; rw [h2]; decide) gi
    (by have := if_keyword good s; rw [hi] at this; exact this) d []
  refine w.trans ?_
  intro r hr hg
  have := C58_if good (l := []) trivial (by simp) (post := []) (by intro n hn; cases hn) (.inr (.inr rfl)) .LIST d s r hr
  rw [hi] at this
  refine this ?_
  dsimp only
  cases b with
  | true => exact hg
  | false => exact hg

end Csspp.Vars

namespace Csspp.Spec.Plain
open Csspp.Lex (Tok Pos)
open Csspp.Parse
open Csspp.Vars

/-- The text of a plain style sheet is read without a message. -/
theorem sheet_script {S : Sheet} (hS : S.Ok) {src : Str} (h : Lays (items S) src) :
    ∃ p ns, Each IsRule S ns ∧ Valid.script src = some (.mk { ty := .LIST, pos := p } ns) := by
  obtain ⟨h1, e1, e2, e3⟩ := sheet_tokens hS.src h (f := src.length + 1) (by omega)
  unfold Valid.script
  generalize Lex.lexAll (src.length + 1) (Lex.init src) = r at h1 e1 e2 e3 ⊢
  obtain ⟨ts, s⟩ := r
  dsimp only at h1 e1 e2 e3 ⊢
  obtain ⟨p, ns, h2, e4⟩ := sheet_tree hS.src h1 (fin := s.pos) (f := 5 * ts.length + 11) (by omega)
  refine ⟨p, ns, h2, ?_⟩
  rw [e2]
  dsimp only
  rw [if_neg (by rw [e1, e3]; simp), e4]
  rfl

/-- These nodes become the rules of `S`, and nothing else happens. -/
def Gets (E : Env) (S : Sheet) (kids : List Nd) : Prop :=
  ∃ ns, Each IsRule1 S ns ∧ ∀ d rest s, To E .LIST (d ++ (kids ++ rest)) d.length s (d ++ (ns ++ rest)) (d.length + ns.length) s

theorem gets_rules (E : Env) {S : Sheet} (hok : S.Ok) {kids : List Nd} (h : Each Marked S kids) : Gets E S kids := by
  induction h with
  | nil => exact ⟨[], .nil, fun d rest s => To.refl⟩
  | cons h1 h2 ih =>
    rename_i r n S ns
    obtain ⟨ns', i1, i2⟩ := ih (fun r hr => hok r (by simp [hr]))
    obtain ⟨n', j1, j2⟩ := rule_vars (hok _ (by simp)) h1 E
    refine ⟨n' :: ns', .cons j1 i1, fun d rest s => ?_⟩
    have hty : n.ty = .COMPONENT_VALUE := by obtain ⟨p, k, o, b, rfl, _⟩ := h1; rfl
    have a := to_walked (E := E) (p := .LIST) d (c := n) (c' := n') (ns ++ rest) (by rw [hty]; rfl) (j2 s)
    have b := i2 (d ++ [n']) rest s
    rw [List.length_append, List.length_singleton, List.append_assoc, List.append_assoc] at b
    have c := a.trans b
    rw [List.length_cons, show d.length + (ns'.length + 1) = d.length + 1 + ns'.length by omega]
    exact c

theorem Each.append {α β : Type} {R : α → β → Prop} {a b : List α} {c d : List β} (h : Each R a c) (h' : Each R b d) :
    Each R (a ++ b) (c ++ d) := by
  induction h with
  | nil => exact h'
  | cons h1 _ ih => exact .cons h1 ih

theorem gets_append {E : Env} {S T : Sheet} {a b : List Nd} (h : Gets E S a) (h' : Gets E T b) : Gets E (S ++ T) (a ++ b) := by
  obtain ⟨n, h1, h2⟩ := h
  obtain ⟨m, h3, h4⟩ := h'
  refine ⟨n ++ m, h1.append h3, fun d rest s => ?_⟩
  have x := h2 d (b ++ rest) s
  have y := h4 (d ++ n) rest s
  rw [List.length_append, List.append_assoc, List.append_assoc] at y
  rw [List.append_assoc, List.append_assoc, List.length_append, ← Nat.add_assoc]
  exact x.trans y

theorem rule_marked {r : Rule} {n : Nd} (h : IsRule r n) : Marked r n := by
  obtain ⟨p, k, o, b, rfl, hk, ho, hb⟩ := h
  exact ⟨p, k, o, b, rfl, hk, congrArg Word.ty ho, hb⟩

theorem Each.imp {α β : Type} {R R' : α → β → Prop} (hi : ∀ a b, R a b → R' a b) {a : List α} {c : List β} (h : Each R a c) : Each R' a c := by
  induction h with
  | nil => exact .nil
  | cons h1 _ ih => exact .cons (hi _ _ h1) ih

theorem rule_ty {r : Rule} {n : Nd} (h : IsRule r n) : n.ty = .COMPONENT_VALUE := by obtain ⟨p, k, o, b, rfl, _⟩ := h; rfl

/-- The files of the command line. -/
theorem gets_files {E : Env} (hE : Spec.Tool.Computes E) {cwd : Str} {names : List Str} {S : Sheet} (h : Spec.Tool.Files E cwd names S) :
    S.Ok ∧ ∀ {kids : List Nd}, Spec.Tool.Imports (names.map (Spec.Tool.path cwd)) kids → Gets E S kids := by
  induction h with
  | nil =>
    refine ⟨fun r hr => (by cases hr), fun hi => ?_⟩
    cases hi
    exact ⟨[], .nil, fun d rest s => To.refl⟩
  | cons h1 h2 h3 _ ih =>
    rename_i name text names S T h4
    refine ⟨fun r hr => ?_, fun hi => ?_⟩
    · rcases List.mem_append.1 hr with hr | hr
      · exact h1 r hr
      · exact ih.1 r hr
    · cases hi with
      | cons i1 i2 =>
        rename_i n ns
        obtain ⟨p, rs, j1, j2⟩ := sheet_script h1 h2
        obtain ⟨t, k1, k2⟩ := h3
        rw [j2] at k1
        injection k1 with k1
        subst k1
        have k2 : Spec.Tool.Loads E (Spec.Tool.path cwd name) rs := k2
        have hk : ∀ c ∈ rs, c.ty ≠ .EOF_TOKEN ∧ c.ty ≠ .WHITESPACE := by
          refine Each.all j1 (fun a b h => ?_)
          rw [rule_ty h]; simp
        obtain ⟨ms, m1, m2⟩ := gets_append (gets_rules E h1 (j1.imp fun _ _ => rule_marked)) (ih.2 i2)
        refine ⟨ms, m1, fun d rest s => ?_⟩
        have x := to_import (p := .LIST) hE i1 k2 hk d (ns ++ rest) s
        have y := m2 d rest s
        rw [List.append_assoc] at y
        exact x.trans y

end Csspp.Spec.Plain

namespace Csspp.Tool
open Csspp.Parse
open Csspp.Lex (Tok Pos)
open Csspp.Pipeline (Msg)
open Csspp.Spec.Tool
open Csspp.Spec.Plain

theorem mark_import {path : Str} {n : Nd} (h : IsImport path n) : Vars.mark false n = n := by
  obtain ⟨h1, h2, x, h3, h4, h5, h6⟩ := h
  cases n with
  | mk t k =>
  cases x with
  | mk u j =>
  have h6 : j = [] := h6
  have h3 : k = [.mk u j] := h3
  subst h6; subst h3
  replace h1 : t.ty = .AT_KEYWORD := h1
  replace h4 : u.ty = .STRING := h4
  have hl : Vars.marksLast [.mk u []] = false := by
    unfold Vars.marksLast
    rw [Bool.and_eq_false_iff]
    right
    rw [decide_eq_false_iff_not]
    show ¬ some u.ty = _
    rw [h4]; simp
  unfold Vars.mark
  dsimp only
  rw [if_neg (show ¬ false = true by simp), if_pos (by rw [h1]; rfl), hl, Vars.markAll_leaves (by intro c hc; rw [List.mem_singleton.1 hc]; rfl)]

theorem markAll_append (a b : List Nd) : Vars.markAll false (a ++ b) = Vars.markAll false a ++ Vars.markAll false b := by
  induction a with
  | nil => rfl
  | cons c a ih =>
    show Vars.mark (false && _) c :: Vars.markAll false (a ++ b) = Vars.mark (false && _) c :: (Vars.markAll false a ++ Vars.markAll false b)
    rw [ih, Bool.false_and, Bool.false_and]

theorem one_append {E : Compile.Env} {a a' b b' : List Nd} {s s1 s2 : Compile.St} (h : Compile.OneByOne E a a' s s1)
    (h' : Compile.OneByOne E b b' s1 s2) : Compile.OneByOne E (a ++ b) (a' ++ b') s s2 := by
  induction h with
  | nil => exact h'
  | keep h _ ih => exact .keep h (ih h')
  | into h hl _ _ ih =>
    rw [List.append_assoc]
    exact .into h hl (ih h')

/-- The component value of the logo is replaced by the comment. -/
theorem comp_comment (E : Compile.Env) {c t : Tok} (hc : c.ty = .COMPONENT_VALUE) (ht : t.ty = .COMMENT) (s : Compile.St) :
    Compile.OneByOne E [.mk c [.leaf t]] [.leaf t] s s := by
  have h1 : Compile.Gives (fun f => Compile.comp E f (.mk c [.leaf t])) s (.ok (.into [.leaf t]) s) := by
    refine ⟨3, fun g hg => ?_⟩
    obtain ⟨g, rfl⟩ : ∃ k, g = k + 3 := ⟨g - 3, by omega⟩
    dsimp only
    rw [Compile.comp, if_neg (by rw [hc]; simp), if_neg (by rw [hc]; simp), if_pos hc]
    rw [Compile.compValue_succ, if_neg (by rw [hc]; simp), if_neg (by rw [hc]; simp [Node.supportsChildren])]
    dsimp only
    rw [if_pos (show (Nd.leaf t).ty = .COMMENT from ht)]
    rfl
  have h2 : Compile.Gives (fun f => Compile.comp E f (.leaf t)) s (.ok (.keep (.leaf t)) s) := by
    refine ⟨1, fun g hg => ?_⟩
    obtain ⟨g, rfl⟩ : ∃ k, g = k + 1 := ⟨g - 1, by omega⟩
    unfold Nd.leaf
    dsimp only
    rw [Compile.comp, if_neg (by rw [ht]; simp), if_pos (.inr ht)]
    rfl
  exact .into (out := [.leaf t]) (out' := []) h1 (.keep h2 .nil) .nil

/-- What the compiler makes of the tree. -/
theorem compiled {E : Pipeline.Env} (hE : Keeps E.comp) (hv : Computes E.vars) {w : World} {o : Options} {logo : Str}
    (hs : System E.vars w o logo) {S : Sheet} (hS : S.Ok) (hsl : ∀ r ∈ S, ∀ d ∈ r.decls, E.comp.slash d.name = false) {p : Pos}
    {kids : List Nd} (hg : Gets E.vars S (Vars.markAll false kids)) :
    ∃ ns k t, Each CRule S.active ns ∧ t.ty = .COMMENT ∧ t.int ≠ 0 ∧ t.str = logo ∧
      ∀ f ≥ k, compile E f w o (.mk { ty := .LIST, pos := p } kids) =
        .ok (.mk { ty := .LIST, pos := p } (ns ++ if o.noLogo then [] else [.leaf t])) [] := by
  obtain ⟨⟨ik, i1, i2⟩, ck, c1, c2⟩ := hs
  obtain ⟨s, d1, d2, t, ps, l1, l2, l3, l4, l5⟩ := i2 p
  obtain ⟨ct, f1, f2⟩ := Vars.footer_to hv c2 l1 l2 l4 l5 d2
  obtain ⟨ns, g1, g2⟩ := hg
  obtain ⟨d3, d4⟩ := Vars.defines_to hv d1 .LIST
  obtain ⟨n, e1, e2, init, close, e3, e4, e5⟩ := C91_tree { ty := .LIST, pos := p } rfl kids
  have hn : n = .mk { ty := .LIST, pos := p } (init :: (kids ++ [close])) := by
    cases n with
    | mk a b => exact congr (congrArg Nd.mk e2) e3
  subst hn
  -- the marks
  have hm : Vars.mark false (.mk { ty := .LIST, pos := p } (init :: (kids ++ [close]))) =
      .mk { ty := .LIST, pos := p } (init :: (Vars.markAll false kids ++ [close])) := by
    have hl : Vars.marksLast (init :: (kids ++ [close])) = false := by
      unfold Vars.marksLast
      rw [Bool.and_eq_false_iff]
      right
      rw [decide_eq_false_iff_not, ← List.cons_append, List.getLast?_concat]
      show ¬ some close.ty = _
      rw [e5.1]; simp
    unfold Vars.mark
    dsimp only
    rw [if_neg (show ¬ false = true by simp), if_pos (by rfl), hl]
    show Nd.mk _ (Vars.mark (false && _) init :: Vars.markAll false (kids ++ [close])) = _
    rw [Bool.false_and, mark_import e4, markAll_append]
    show Nd.mk _ (init :: (_ ++ Vars.mark (false && _) close :: [])) = _
    rw [Bool.false_and, mark_import e5]
  -- the preprocessor
  let s0 : Vars.St := { root := variables w o p }
  let logoNodes : List Nd := if o.noLogo then [] else [.mk ct [.leaf { t with str := logo }]]
  have footKids : ∀ c ∈ ck, c.ty ≠ .EOF_TOKEN ∧ c.ty ≠ .WHITESPACE := by
    obtain ⟨i, f, v, b, c, im, rfl, h1, _⟩ := c2
    intro x hx
    rw [List.mem_singleton.1 hx]
    exact ⟨by show i.ty ≠ _; rw [h1]; simp, by show i.ty ≠ _; rw [h1]; simp⟩
  have hvars : Vars.Gives (fun f => Vars.replaceRoot E.vars f (.mk { ty := .LIST, pos := p } (init :: (Vars.markAll false kids ++ [close])))) s0
      (.ok (.mk { ty := .LIST, pos := p } (ns ++ logoNodes)) s) := by
    have a1 := Vars.to_import (p := .LIST) hv e4 i1 (Vars.defines_kids d1) [] (Vars.markAll false kids ++ [close]) s0
    have a2 := d3 [] (Vars.markAll false kids ++ [close])
    have a3 := g2 [] [close] s
    have a4 := Vars.to_import (p := .LIST) hv e5 c1 footKids ns [] s
    have a5 := f2 ns
    rw [List.append_nil] at a4
    rw [List.nil_append, List.length_nil, Nat.zero_add] at a3
    have a6 := a1.trans (a2.trans (a3.trans (a4.trans a5)))
    have hend := Vars.loop_end E.vars .LIST (ns ++ logoNodes) s
    have hlen : (ns ++ logoNodes).length = ns.length + if o.noLogo then 0 else 1 := by
      rw [List.length_append]
      show _ + (if o.noLogo then [] else [Nd.mk ct [.leaf { t with str := logo }]]).length = _
      cases o.noLogo <;> rfl
    rw [hlen] at hend
    have g := Vars.gives_inside (E := E.vars) (t := { ty := .LIST, pos := p }) (kids := init :: (Vars.markAll false kids ++ [close]))
      (.inr (.inl ⟨rfl, by simp⟩)) (a6 _ (by simp) hend)
    exact Vars.gives_bind (f := fun _ r => Vars.orThrow r) g ⟨0, fun _ _ => rfl⟩
  obtain ⟨k1, hk1⟩ := hvars
  have herr : s.errs = [] := d4
  -- compile()
  obtain ⟨cs, j1, j2⟩ := rules_comp hE hS hsl g1
  let outNodes : List Nd := if o.noLogo then [] else [.leaf { t with str := logo }]
  have hlogo : ∀ st, Compile.OneByOne E.comp logoNodes outNodes st st := by
    intro st
    show Compile.OneByOne E.comp (if o.noLogo then [] else _) (if o.noLogo then [] else _) st st
    cases o.noLogo with
    | true => exact .nil
    | false => exact comp_comment E.comp (t := { t with str := logo }) f1 l2 st
  obtain ⟨k2, hk2⟩ : Compile.Gives (fun f => Compile.comp E.comp f (.mk { ty := .LIST, pos := p } (ns ++ logoNodes))) {}
      (.ok (.keep (.mk { ty := .LIST, pos := p } (cs ++ outNodes))) {}) := by
    refine Compile.Gives.succ (Compile.Gives.map (k := fun k => Compile.Act.keep (.mk { ty := .LIST, pos := p } k))
      (Compile.C70_in_order (one_append (j2 {}) (hlogo {})) rfl)) (fun f => ?_)
    rw [Compile.comp, if_pos (.inl rfl)]
  -- remove_empty_rules() and expand_nested_components()
  obtain ⟨rs, r1, r2, k3, r3⟩ : ∃ rs, Each CRule S.active rs ∧
      Vars.removeEmptyRules (.mk { ty := .LIST, pos := p } (cs ++ outNodes)) = some (.mk { ty := .LIST, pos := p } (rs ++ outNodes)) ∧
      ∃ k, ∀ g ≥ k, Expand.comps g (.mk { ty := .LIST, pos := p } (rs ++ outNodes)) =
        .ok (.mk { ty := .LIST, pos := p } (rs ++ outNodes), []) [] := by
    show ∃ rs, _ ∧ Vars.removeEmptyRules (.mk _ (cs ++ if o.noLogo then [] else _)) = some (.mk _ (rs ++ if o.noLogo then [] else _)) ∧
      ∃ k, ∀ g ≥ k, Expand.comps g (.mk _ (rs ++ if o.noLogo then [] else _)) = .ok (.mk _ (rs ++ if o.noLogo then [] else _), []) []
    cases o.noLogo with
    | true =>
      obtain ⟨rs, x1, x2⟩ := sheet_kept j1 p
      refine ⟨rs, x1, ?_, ?_⟩
      · simpa using x2
      · simpa using sheet_still (active_ok hS) x1 p
    | false =>
      obtain ⟨rs, x1, x2⟩ := kept_comment j1 p (t := { t with str := logo }) l2
      exact ⟨rs, x1, x2, comps_comment (active_ok hS) x1 p (t := { t with str := logo }) l2⟩
  refine ⟨rs, k1 + k2 + k3, { t with str := logo }, r1, l2, l3, rfl, fun f hf => ?_⟩
  unfold compile
  rw [e1]
  dsimp only
  unfold Valid.compile
  rw [hm, show Vars.replaceRoot E.vars f (.mk { ty := .LIST, pos := p } (init :: (Vars.markAll false kids ++ [close])))
    { root := variables w o (Nd.mk { ty := .LIST, pos := p } kids).tok.pos } = _ from hk1 f (by omega)]
  dsimp only
  rw [show Compile.comp E.comp f (.mk { ty := .LIST, pos := p } (ns ++ logoNodes)) {} = _ from hk2 f (by omega)]
  dsimp only
  rw [r2]
  dsimp only
  rw [r3 f (by omega)]
  dsimp only
  rw [herr]
  rfl

theorem parsed_script {src : Str} {n : Nd} (h : Valid.script src = some n) : Parsed src n [] := by
  unfold Valid.script at h
  generalize hl : Lex.lexAll (src.length + 1) (Lex.init src) = r at h
  obtain ⟨ts, s⟩ := r
  dsimp only at h
  split at h
  · cases h
  · rename_i hx
    split at h
    · cases h
    · rename_i hub
      split at h
      · rename_i n' st hst
        split at h
        · cases h
        · rename_i he
          injection h with h
          subst h
          refine ⟨ts, s, st, hl, hx, ?_, hst, ?_⟩
          · cases hb : s.ub with
            | false => rfl
            | true => exact absurd (.inl hb) hub
          · have h1 : s.err = [] := Classical.byContradiction fun hne => hub (.inr hne)
            have h2 : st.errs = [] := Classical.byContradiction he
            rw [h1, h2]; rfl
      · cases h

/-- The end of a run. -/
theorem run_end {E : Pipeline.Env} (hE : Keeps E.comp) (hv : Computes E.vars) {w : World} {o : Options} {logo : Str}
    (hs : System E.vars w o logo) {S : Sheet} (hS : S.Ok) (hsl : ∀ r ∈ S, ∀ d ∈ r.decls, E.comp.slash d.name = false) {p : Pos}
    {kids : List Nd} (hg : Gets E.vars S (Vars.markAll false kids)) {q : Nat} (h1 : o.precision.elim 3 toInt32 = (q : Int)) (h2 : q ≤ 10)
    (hst : o.style = none ∨ o.style = some b!"compressed") {src : Str} (h3 : source w o.files = some src)
    (h4 : Valid.script src = some (.mk { ty := .LIST, pos := p } kids)) :
    ∃ k, ∀ f ≥ k, run E f w o = .exit 0 (some (target o, written S o.noLogo logo)) [] := by
  obtain ⟨ns, k, t, c1, c2, c3, c4, c5⟩ := compiled hE hv hs hS hsl hg (p := p)
  refine ⟨k, fun f hf => ?_⟩
  have hm : (o.style, Asm.Mode.compressed) ∈ styles := by
    rcases hst with h | h <;> rw [h] <;> simp [styles]
  have hf0 : ¬ Fails o.werror [] := fun h => h ⟨0, rfl⟩
  obtain ⟨calls, a1, a2, a3⟩ : ∃ calls, Asm.output q (Pipeline.toTree E.pow10
      (.mk { ty := .LIST, pos := p } (ns ++ if o.noLogo then [] else [.leaf t]))) = .ok calls ∧ Asm.Call.report ∉ calls ∧
      Asm.Mode.compressed.text calls = written S o.noLogo logo := by
    unfold written
    cases o.noLogo with
    | true =>
      obtain ⟨calls, b1, b2, b3⟩ := sheet_out (p := q) (pow := E.pow10) (active_ok hS) c1 p
      refine ⟨calls, ?_, b2, ?_⟩
      · simpa using b1
      · unfold Asm.Mode.text
        rw [b3]
        simp
    | false =>
      obtain ⟨calls, b1, b2, b3⟩ := sheet_comment_out (p := q) (pow := E.pow10) (active_ok hS) c1 p c2 c3
      refine ⟨calls, b1, b2, ?_⟩
      rw [b3, c4]
      rfl
  obtain ⟨st, r1, r2⟩ := C91_success h1 h2 h3 (parsed_script h4) hf0 (c5 f hf) hf0 hm a1
  rw [r1, r2 a2, a3]
  have : calls.filter (· = .report) = [] := by
    rw [List.filter_eq_nil_iff]
    intro c hc e
    rw [decide_eq_true_iff] at e
    exact a2 (e ▸ hc)
  rw [this]
  rfl

/-- C93: the files of the command line, when they are plain style sheets, give one style sheet: all their rules, in the order of the
files, in their shortest form, and the logo. -/
theorem C93_files (env : Expr.Env) (E : Pipeline.Env) (hE : E.comp.arg = Pipeline.exprArg env) (hv : Computes E.vars) (w : World) (o : Options) (logo : Str)
    (hs : System E.vars w o logo) (names : List Str) (ho : o.files = some names) (hc : FileText w.cwd)
    (hn : ∀ n ∈ names, n ≠ [] ∧ n ≠ b!"-" ∧ FileText n) (S : Sheet) (hf : Files E.vars w.cwd names S)
    (hsl : ∀ r ∈ S, ∀ d ∈ r.decls, E.comp.slash d.name = false) (hp : ∀ p, o.precision = some p → 0 ≤ p ∧ p ≤ 10)
    (hst : o.style = none ∨ o.style = some b!"compressed") :
    ∃ k, ∀ f ≥ k, run E f w o = .exit 0 (some (target o, written S o.noLogo logo)) [] := by
  obtain ⟨l, src, h1, h2, h3, h4⟩ := imports_text w.cwd hc names hn
  obtain ⟨p, ns, h6, h7⟩ := lines_script h2 h3 h4
  obtain ⟨g1, g2⟩ := gets_files hv hf
  have hm : Vars.markAll false ns = ns := by
    clear h7
    generalize names.map (path w.cwd) = ps at h6
    induction h6 with
    | nil => rfl
    | cons a _ ih =>
      show Vars.mark (false && _) _ :: Vars.markAll false _ = _
      rw [Bool.false_and, mark_import a, ih]
  obtain ⟨q, hq, hq'⟩ := precision_ok hp
  refine run_end (C83_values env _ hE) hv hs g1 hsl (p := p) (kids := ns) (by rw [hm]; exact g2 h6) hq hq' hst (src := src) ?_ h7
  rw [ho]
  unfold source
  dsimp only
  rw [if_neg ?_, h1]
  rintro rfl
  exact (hn b!"-" (by simp)).2.1 rfl
where
  precision_ok {o : Options} (hp : ∀ p, o.precision = some p → 0 ≤ p ∧ p ≤ 10) : ∃ q : Nat, o.precision.elim 3 toInt32 = (q : Int) ∧ q ≤ 10 := by
    cases h : o.precision with
    | none => exact ⟨3, rfl, by omega⟩
    | some p =>
      have := hp p h
      refine ⟨p.toNat, ?_, by omega⟩
      show toInt32 p = _
      unfold toInt32; omega

/-- C93: the standard input. -/
theorem C93_stdin (env : Expr.Env) (E : Pipeline.Env) (hE : E.comp.arg = Pipeline.exprArg env) (hv : Computes E.vars) (w : World) (o : Options) (logo : Str)
    (hs : System E.vars w o logo) (ho : o.files = none ∨ o.files = some [b!"-"]) (S : Sheet) (hS : S.Ok) (hl : Lays (items S) w.stdin)
    (hsl : ∀ r ∈ S, ∀ d ∈ r.decls, E.comp.slash d.name = false) (hp : ∀ p, o.precision = some p → 0 ≤ p ∧ p ≤ 10)
    (hst : o.style = none ∨ o.style = some b!"compressed") :
    ∃ k, ∀ f ≥ k, run E f w o = .exit 0 (some (target o, written S o.noLogo logo)) [] := by
  obtain ⟨p, ns, h1, h2⟩ := sheet_script hS hl
  obtain ⟨q, hq, hq'⟩ := C93_files.precision_ok hp
  obtain ⟨m, m1, m2⟩ := sheet_mark hS.src h1 p
  have hm : Vars.markAll false ns = m := by
    have hl : Vars.marksLast ns = false := by
      unfold Vars.marksLast
      rw [Bool.and_eq_false_iff]
      right
      rw [decide_eq_false_iff_not]
      intro e
      cases hk : ns.getLast? with
      | none => rw [hk] at e; cases e
      | some t =>
        rw [hk] at e
        have := Each.all h1 (P := fun n => n.ty = .COMPONENT_VALUE) (fun a b h => rule_ty h) t (List.mem_of_getLast? hk)
        have e : t.ty = .OPEN_CURLYBRACKET := by simpa using e
        rw [e] at this
        cases this
    unfold Vars.mark at m2
    dsimp only at m2
    rw [if_neg (show ¬ false = true by simp), if_pos (by rfl), hl] at m2
    injection m2
  refine run_end (C83_values env _ hE) hv hs hS hsl (p := p) (kids := ns) (by rw [hm]; exact gets_rules _ hS m1) hq hq' hst (src := w.stdin) ?_ h2
  rcases ho with h | h <;> rw [h] <;> rfl

/-! ### Examples -/

/-- An environment for the examples: `not()` is computed, and the scripts are given. -/
def exRunVars (init close logo : List Nd) : Vars.Env := { exTool.vars with
  truth := fun n => (n.tok.bool, false)
  expr := fun s k =>
    match k with
    | [.mk _ [x], b] => some ⟨[.leaf { ty := .BOOLEAN, pos := ⟨1, 1, 1⟩, bool := !x.tok.bool }, b],
        some (.leaf { ty := .BOOLEAN, pos := ⟨1, 1, 1⟩, bool := !x.tok.bool }), s⟩
    | k => some ⟨k, k.getLast?, s⟩
  file := fun n =>
    if n.tok.str = b!"system/init.scss" then .loaded init
    else if n.tok.str = b!"system/close.scss" then .loaded close
    else if n.tok.str = b!"system/logo.scss" then .loaded logo
    else exTool.vars.file n }

theorem exComputes (a b c : List Nd) : Computes (exRunVars a b c) where
  string s t h := ⟨_, _, rfl, h, rfl⟩
  not _ _ _ _ _ _ _ _ := ⟨_, _, rfl, rfl⟩

/-- `@if not($_csspp_no_logo) { @import "system/logo.scss"; }` -/
def exFooter : List Nd :=
  [.mk { ty := .AT_KEYWORD, pos := ⟨1, 1, 1⟩, str := b!"if" }
    [.mk { ty := .FUNCTION, pos := ⟨1, 1, 1⟩, str := b!"not" } [Vars.exLeaf .VARIABLE b!"_csspp_no_logo"],
     .mk { ty := .OPEN_CURLYBRACKET, pos := ⟨1, 1, 1⟩ }
      [.mk { ty := .COMPONENT_VALUE, pos := ⟨1, 1, 1⟩ } [importNode b!"system/logo.scss"]]]]

def exLogo : Tok := { ty := .COMMENT, pos := ⟨1, 1, 1⟩, int := 1, str := b!"by csspp" }

theorem exSystem (w : World) (o : Options) : System (exRunVars [] exFooter [.leaf exLogo]) w o b!"by csspp" := by
  have hps : Spec.commentText (b!"by csspp".map Spec.Bit.char) = b!"by csspp" := by decide
  refine ⟨⟨[], fun e _ h => by simp [exRunVars, h], fun pos => ⟨_, .nil _, ?_, exLogo, b!"by csspp".map Spec.Bit.char, ?_, rfl, by decide, hps.symm, ?_⟩⟩,
    ⟨exFooter, fun e _ h => by simp [exRunVars, h], ?_⟩⟩
  · show Vars.findVar _ (Vars.putVar (logoVar o.noLogo) _) = _
    rw [find_put]
    exact if_pos rfl
  · intro e _ h
    simp [exRunVars, h]
  · refine ⟨?_, ?_, ?_, ?_⟩
    · have : ∀ l : Str, (∀ c ∈ l, c ≠ 123) → Spec.Bits (l.map Spec.Bit.char) := by
        intro l
        induction l with
        | nil => intro _; trivial
        | cons c l ih => exact fun h => ⟨fun e => absurd e (h c (by simp)), ih (fun d hd => h d (by simp [hd]))⟩
      exact this _ (by decide)
    · intro name args h
      simp at h
    · intro v _
      rfl
    · intro a b h
      have : 123 ∈ b!"by csspp" := by rw [h]; simp
      revert this
      decide
  · exact ⟨_, _, _, _, _, _, rfl, rfl, rfl, rfl, rfl, rfl, rfl, rfl, rfl, rfl, ⟨rfl, rfl, _, rfl, rfl, rfl, rfl⟩⟩

/-- `csspp --no-logo` and `csspp`, with `a.b > c, #d {...} e {}` on the standard input. -/
example (env : Expr.Env) (E : Pipeline.Env) (hE : E.comp.arg = Pipeline.exprArg env) (hs : ∀ s, E.comp.slash s = false)
    (hv : E.vars = exRunVars [] exFooter [.leaf exLogo]) :
    (∃ k, ∀ f ≥ k, run E f { exWorld with stdin := b!" a.b > c , #d { margin : 0 auto ; x : \"y\" , -2px + 5px - 1px } e { } " } { noLogo := true } =
      .exit 0 (some (none, b!"a.b>c,#d{margin:0 auto;x:\"y\",2px}")) []) ∧
    ∃ k, ∀ f ≥ k, run E f { exWorld with stdin := b!" a.b > c , #d { margin : 0 auto ; x : \"y\" , -2px + 5px - 1px } e { } " } {} =
      .exit 0 (some (none, b!"a.b>c,#d{margin:0 auto;x:\"y\",2px}\n/* by csspp */\n")) [] := by
  have hl := lays_fill (g := [32]) (by intro c hc; simp at hc; exact .inl hc) (by simp) (items sample)
  have e1 : fill [32] (items sample) = b!" a.b > c , #d { margin : 0 auto ; x : \"y\" , -2px + 5px - 1px } e { } " := by decide
  rw [e1] at hl
  have h : ∀ o : Options, o.files = none → o.precision = none → o.style = none → _ := fun o h1 h2 h3 =>
    C93_stdin env E hE (by rw [hv]; exact exComputes _ _ _)
      { exWorld with stdin := b!" a.b > c , #d { margin : 0 auto ; x : \"y\" , -2px + 5px - 1px } e { } " } o b!"by csspp"
      (by rw [hv]; exact exSystem _ o) (.inl h1) sample sample_ok hl (fun _ _ _ _ => hs _) (by rw [h2]; simp) (.inl h3)
  have e2 : written sample true b!"by csspp" = b!"a.b>c,#d{margin:0 auto;x:\"y\",2px}" := by decide
  have e3 : written sample false b!"by csspp" = b!"a.b>c,#d{margin:0 auto;x:\"y\",2px}\n/* by csspp */\n" := by decide
  have a := h { noLogo := true } rfl rfl rfl
  have b := h {} rfl rfl rfl
  rw [e2] at a
  rw [e3] at b
  exact ⟨a, b⟩

/-- `csspp a.css b.css` in `/home/me`. -/
example : ∃ S : Sheet, ∃ E : Vars.Env, Files E b!"/home/me" [b!"a.css", b!"b.css"] S ∧ S.length = 4 := by
  have hl := lays_fill (g := [32]) (by intro c hc; simp at hc; exact .inl hc) (by simp) (items sample)
  obtain ⟨p, ns, _, h⟩ := sheet_script sample_ok hl
  refine ⟨sample ++ (sample ++ []), { exTool.vars with file := fun _ => .loaded ns }, ?_, rfl⟩
  exact .cons sample_ok hl ⟨_, h, fun _ _ _ => rfl⟩ (.cons sample_ok hl ⟨_, h, fun _ _ _ => rfl⟩ .nil)

end Csspp.Tool
