import Verif.Lemmas.ValidRun

/-!
A validation script in replace_variables().
-/

namespace Csspp.Valid
open Csspp.Parse (Nd)
open Csspp.Lex (Tok Pos)
open Csspp.Spec
open Csspp.Vars

/-- An `@error` whose expression has a value. -/
theorem to_message {E : Env} {p : NT} {et : Tok} {ek : List Nd} {c m : Nd} {cs : List Nd} {r : Option Nd} {s : St}
    (h1 : et.ty = .AT_KEYWORD) (h2 : et.str = b!"error")
    (h3 : Gives (fun f => replaceVars E f (.mk et ek)) s (.ok (some (.mk et (c :: cs))) s))
    (h4 : c.ty ≠ .OPEN_CURLYBRACKET) (h5 : E.expr s (c :: cs) = some ⟨[m], r, s⟩) (d post : List Nd) :
    To E p (d ++ .mk et ek :: post) d.length s (d ++ .mk et [m] :: post) (d.length + 1) s := by
  refine to_at (c := .mk et ek) (by simp) h1 ?_
  obtain ⟨a, ha⟩ := h3
  refine ⟨a + 1, fun g hg => ?_⟩
  obtain ⟨g, rfl⟩ : ∃ k, g = k + 1 := ⟨g - 1, by omega⟩
  have e4 := ha g (by omega)
  dsimp only at e4 ⊢
  have hs : ∀ k, (Nd.mk et k).tok.str = b!"error" := fun _ => h2
  have hat : atExpr E (Nd.mk et (c :: cs)).kids s = .ok ([m], r) s := by
    show atExpr E (c :: cs) s = _
    unfold atExpr
    dsimp only
    rw [if_neg h4, h5]
  rw [atKeyword, if_neg (by rw [hs]; decide), bind_apply, e4]
  dsimp only [Option.getD]
  rw [if_neg (by rw [hs]; decide), if_neg (by rw [hs]; decide), if_neg (by rw [hs]; decide), if_neg (by rw [hs]; decide),
    if_pos (by rw [hs]; decide), bind_apply, hat]
  show R.ok _ _ = _
  simp [Nd.tok]

/-- An `@if` that is the only child. -/
theorem to_if {E : Env} {p : NT} {it : Tok} {ik : List Nd} {c x e block : Nd} {cs : List Nd} {b : Bool} {s : St}
    (h1 : it.ty = .AT_KEYWORD) (h2 : it.str = b!"if")
    (h3 : Gives (fun f => replaceVars E f (.mk it ik)) s (.ok (some (.mk it (c :: cs))) s))
    (h4 : c.ty ≠ .OPEN_CURLYBRACKET) (h5 : E.expr s (c :: cs) = some ⟨[x, block], some e, s⟩) (h6 : E.truth e = (b, false))
    (h7 : block.ty = .OPEN_CURLYBRACKET) (h8 : ∀ c ∈ block.kids, c.ty ≠ .EOF_TOKEN ∧ c.ty ≠ .WHITESPACE) :
    To E p [.mk it ik] 0 s (if b then block.kids else []) 0 s := by
  refine to_at (c := .mk it ik) (by simp) h1 ?_
  obtain ⟨a, ha⟩ := h3
  refine ⟨a + 1, fun g hg => ?_⟩
  obtain ⟨g, rfl⟩ : ∃ k, g = k + 1 := ⟨g - 1, by omega⟩
  have e4 := ha g (by omega)
  dsimp only at e4 ⊢
  have hs : ∀ k, (Nd.mk it k).tok.str = b!"if" := fun _ => h2
  have hat : atExpr E (Nd.mk it (c :: cs)).kids s = .ok ([x, block], some e) s := by
    show atExpr E (c :: cs) s = _
    unfold atExpr
    dsimp only
    rw [if_neg h4, h5]
  have hr : replaceIf E (List.eraseIdx [Nd.mk it ik] 0) (.mk it (c :: cs)) 0 s = .ok (if b then block.kids else []) s := by
    unfold replaceIf
    rw [bind_apply]
    rw [show markNext (List.eraseIdx [Nd.mk it ik] 0) 0 (nextIsElse (List.eraseIdx [Nd.mk it ik] 0) 0) 2 s = .ok [] s from rfl]
    dsimp only
    rw [bind_apply, hat]
    dsimp only
    rw [bind_apply, boolean_good h6]
    dsimp only
    cases b with
    | true =>
      show insertBlock [] 0 block s = .ok block.kids s
      have := insertAll_mid [] block.kids [] h8
      unfold insertBlock blockKids
      rw [h7, if_pos (show Node.supportsChildren .OPEN_CURLYBRACKET = true from rfl), bind_apply]
      show orThrow _ s = _
      rw [List.append_nil, List.append_nil, List.length_nil] at this
      rw [this]
      rfl
    | false => rfl
  rw [atKeyword, if_neg (by rw [hs]; decide), bind_apply, e4]
  dsimp only [Option.getD]
  rw [if_neg (by rw [hs]; decide), if_pos (by rw [hs]), bind_apply, hr]
  rfl

/-! ### The nodes of a script -/

variable {E : Env} {env : Expr.Env} {a : Str} {x : Str} {xs : List Str} {text : Str} {lt it bt ct et : Tok} {ck ek : List Nd}

/-- The message of the script. -/
def said (name text : Str) : Nd := named ⟨1, 1, 1⟩ (name ++ text)

theorem gives_error (hE : E.expr = evaluate env) (h : Check a x xs text lt it bt ct et ck ek) {s : St} {pos : Pos} {name : Str}
    (hs : Has s a pos name) (p : NT) : Gives (fun f => loop E f p [.mk et ek] 0) s (.ok [.mk et [said name text]] s) := by
  have hsim := simple_of h.htext (text_small a text) h.eleaf
  have h3 : Gives (fun f => replaceVars E f (.mk et ek)) s (.ok (some (.mk et (ek.map (put (named pos name))))) s) := by
    refine gives_inside (.inl h.hat') ?_
    have := to_put (E := E) (p := et.ty) hs ek [] [] hsim
    rw [List.nil_append, List.append_nil, List.nil_append, List.append_nil, List.length_nil, Nat.zero_add] at this
    refine this _ (by simp) ?_
    have := loop_end E et.ty (ek.map (put (named pos name))) s
    rw [List.length_map] at this
    exact this
  have hts := exprToks_put pos name a ek hsim
  rw [h.htext] at hts
  obtain ⟨e, g1, g2⟩ := text_good env name text
  have hev : evaluate env s (ek.map (put (named pos name))) = some ⟨[said name text], some (said name text), s⟩ :=
    evaluate_all hts (by show some false ≠ some true; simp) g1 g2 rfl
  have hne : ∃ c cs, ek.map (put (named pos name)) = c :: cs ∧ c.ty ≠ .OPEN_CURLYBRACKET := by
    have hk := h.htext
    unfold textKeys at hk
    obtain ⟨c, l, rfl, hc, -⟩ := List.map_eq_cons_iff.1 hk
    refine ⟨put (named pos name) c, l.map (put (named pos name)), rfl, ?_⟩
    unfold key at hc
    injection hc with hc _
    unfold put
    rw [if_pos hc]
    simp [named, Nd.leaf, Nd.ty, Nd.tok]
  obtain ⟨c, cs, hc, hcty⟩ := hne
  rw [hc] at h3 hev
  have := to_message (E := E) (p := p) h.hat' h.herror h3 hcty (by rw [hE]; exact hev) [] []
  rw [List.nil_append, List.nil_append, List.length_nil] at this
  exact this _ (by simp) (loop_end E p [.mk et [said name text]] s)

theorem gives_said (hE : E.expr = evaluate env) (h : Check a x xs text lt it bt ct et ck ek) (s : St) (name : Str)
    (p : NT) : Gives (fun f => loop E f p [.mk et [said name text]] 0) s (.ok [.mk et [said name text]] s) := by
  have h3 : Gives (fun f => replaceVars E f (.mk et [said name text])) s (.ok (some (.mk et [said name text])) s) :=
    gives_keyword h.hat' (by intro c hc; rw [List.mem_singleton] at hc; subst hc; exact named_plain _ _) s
  have hev : evaluate env s [said name text] = some ⟨[said name text], some (said name text), s⟩ := by
    obtain ⟨g1, g2⟩ := one_good env (name ++ text)
    exact evaluate_all (ts := [.lit (.str (name ++ text))]) rfl (by show some false ≠ some true; simp) g1 g2 rfl
  have := to_message (E := E) (p := p) h.hat' h.herror h3 (by simp [said, named, Nd.leaf, Nd.ty, Nd.tok]) (by rw [hE]; exact hev) [] []
  exact this _ (by simp) (loop_end E p [.mk et [said name text]] s)

/-- The block. -/
theorem gives_body (hE : E.expr = evaluate env) (h : Check a x xs text lt it bt ct et ck ek) {s : St} {pos : Pos} {name : Str}
    (hs : Has s a pos name) : Gives (fun f => replaceVars E f (.mk { bt with bool := true } [.mk ct [.mk et ek]])) s
      (.ok (some (.mk { bt with bool := true } [.mk ct [.mk et [said name text]]])) s) := by
  have := gives_block (E := E) (t := { bt with bool := true }) h.hblock (kids := [.mk ct [.mk et ek]])
    (kids' := [.mk ct [.mk et [said name text]]]) (s := s) (s' := { s with scopes := [] :: s.scopes }) (by
      rw [if_pos rfl]
      have hs' : Has { s with scopes := [] :: s.scopes } a pos name := hs
      have h1 := gives_inside (E := E) (t := ct) (.inr (.inr ⟨h.hvalue, rfl⟩)) (gives_error hE h hs' ct.ty)
      have := to_walked (p := .OPEN_CURLYBRACKET) [] [] (by rw [show (Nd.mk ct [.mk et ek]).ty = _ from h.hvalue]; rfl) h1
      exact this _ (by simp) (loop_end E _ [.mk ct [.mk et [said name text]]] _))
  rw [if_pos rfl] at this
  exact this

/-- The whole script, after mark_selectors(). -/
theorem gives_script (hE : E.expr = evaluate env) (hT : E.truth = truth) (h : Check a x xs text lt it bt ct et ck ek) {s : St}
    {pos : Pos} {name : Str} (hs : Has s a pos name) :
    Gives (fun f => replaceVars E f (tree lt it { bt with bool := true } ct et ck ek)) s
      (.ok (some (.mk lt (if name ∈ x :: xs then [] else [.mk ct [.mk et [said name text]]]))) s) := by
  have hsim := simple_of h.hcond (cond_small a x xs) h.cleaf
  unfold tree
  refine gives_inside (.inr (.inl ⟨h.hlist, by simp⟩)) ?_
  have h3 : Gives (fun f => replaceVars E f (.mk it (ck ++ [.mk { bt with bool := true } [.mk ct [.mk et ek]]]))) s
      (.ok (some (.mk it (ck.map (put (named pos name)) ++ [.mk { bt with bool := true } [.mk ct [.mk et [said name text]]]]))) s) := by
    refine gives_inside (.inl h.hat) ?_
    have t1 := to_put (E := E) (p := it.ty) hs ck [] [.mk { bt with bool := true } [.mk ct [.mk et ek]]] hsim
    rw [List.nil_append, List.nil_append, List.length_nil, Nat.zero_add] at t1
    have t2 := to_walked (p := it.ty) (ck.map (put (named pos name))) [] (by rw [show (Nd.mk { bt with bool := true } [.mk ct [.mk et ek]]).ty = _ from h.hblock]; rfl) (gives_body hE h hs)
    rw [List.length_map] at t2
    refine (t1.trans t2) _ (by simp) ?_
    have := loop_end E it.ty (ck.map (put (named pos name)) ++ [.mk { bt with bool := true } [.mk ct [.mk et [said name text]]]]) s
    rw [List.length_append, List.length_map] at this
    exact this
  have hts := exprToks_put pos name a ck hsim
  rw [h.hcond] at hts
  obtain ⟨e, g1, g2⟩ := chain_good env name x xs
  obtain ⟨k1, k2⟩ := cond_toks name a x xs
  have hh := cond_head name a x xs
  have hev : evaluate env s (ck.map (put (named pos name)) ++ [.mk { bt with bool := true } [.mk ct [.mk et [said name text]]]]) =
      some ⟨[.leaf { ty := .BOOLEAN, pos := ⟨1, 1, 1⟩, bool := decide (name ∉ x :: xs) }, .mk { bt with bool := true } [.mk ct [.mk et [said name text]]]],
        some (.leaf { ty := .BOOLEAN, pos := ⟨1, 1, 1⟩, bool := decide (name ∉ x :: xs) }), s⟩ :=
    evaluate_block (block := .mk { bt with bool := true } [.mk ct [.mk et [said name text]]]) h.hblock hts (by intro h; rw [h] at hh; cases hh) (by rw [hh]; show some false ≠ some true; simp) k2 (by rw [k1]; exact g1) g2 rfl
  have hne : ∃ c cs, ck.map (put (named pos name)) = c :: cs ∧ c.ty ≠ .OPEN_CURLYBRACKET := by
    have hk := h.hcond
    have : ∃ l, condKeys a x xs = (.VARIABLE, a) :: l := by cases xs <;> exact ⟨_, rfl⟩
    obtain ⟨l, hl⟩ := this
    rw [hl] at hk
    obtain ⟨c, l, rfl, hc, -⟩ := List.map_eq_cons_iff.1 hk
    refine ⟨put (named pos name) c, l.map (put (named pos name)), rfl, ?_⟩
    unfold key at hc
    injection hc with hc _
    unfold put
    rw [if_pos hc]
    simp [named, Nd.leaf, Nd.ty, Nd.tok]
  obtain ⟨c, cs, hc, hcty⟩ := hne
  rw [hc, List.cons_append] at h3 hev
  have := to_if (E := E) (p := lt.ty) (block := .mk { bt with bool := true } [.mk ct [.mk et [said name text]]]) h.hat h.hif h3 hcty (by rw [hE]; exact hev) (b := decide (name ∉ x :: xs)) (by rw [hT]; rfl) h.hblock
    (by intro c hc; have hc : c ∈ [Nd.mk ct [.mk et [said name text]]] := hc; rw [List.mem_singleton] at hc; subst hc
        rw [show (Nd.mk ct [.mk et [said name text]]).ty = _ from h.hvalue]; simp)
  refine this _ (by simp) ?_
  by_cases hn : name ∈ x :: xs
  · rw [if_pos hn, if_neg (by rw [decide_eq_true_eq]; exact fun h => h hn)]
    exact loop_end E _ [] s
  · rw [if_neg hn, if_pos (by rw [decide_eq_true_eq]; exact hn)]
    have h1 := gives_inside (E := E) (t := ct) (.inr (.inr ⟨h.hvalue, rfl⟩)) (gives_said hE h s name ct.ty)
    have := to_walked (p := lt.ty) [] [] (by rw [show (Nd.mk ct [.mk et [said name text]]).ty = _ from h.hvalue]; rfl) h1
    exact this _ (by simp) (loop_end E _ [.mk ct [.mk et [said name text]]] _)

end Csspp.Valid
