import Verif.Lemmas.ScriptParse

/-!
The tree of a validation script, from its text.
-/

namespace Csspp.Valid
open Csspp.Spec (Word types Allowed)
open Csspp.Lex (Tok Pos lexAll init)
open Csspp.Parse
open Csspp.Node (supportsChildren)

theorem tkeys_of {ts : List Tok} {ks : List (NT × Str)} (h : ts.map Word.of = ks.map wordOf) : ts.map tkey = ks := by
  have := congrArg (List.map (fun w : Word => (w.ty, w.str))) h
  rw [List.map_map, List.map_map] at this
  exact this.trans (List.map_id _)

theorem blank_toks {ts : List Tok} {ks : List (NT × Str)} (h : ts.map tkey = ks) (hk : ∀ k ∈ ks, blankKey k = true) :
    ∀ t ∈ ts, t.ty = .WHITESPACE := fun t ht => (blankKey_iff (tkey t)).1 (hk _ (by rw [← h]; exact List.mem_map_of_mem ht))

theorem leaf_toks {ts : List Tok} {ks : List (NT × Str)} (h : ts.map tkey = ks) (hk : ∀ k ∈ ks, leafTy k.1 = true) :
    ∀ t ∈ ts, leafTy t.ty = true := fun t ht => hk (tkey t) (by rw [← h]; exact List.mem_map_of_mem ht)

theorem cond_ends (var x : Str) (xs : List Str) : (∃ l, condKeys var x xs = (.VARIABLE, var) :: l) := by
  cases xs <;> exact ⟨_, rfl⟩

/-- The tokens of a script give its tree. -/
theorem parse_check {ts : List Tok} {ks : List (NT × Str)} (hts : ts.map tkey = ks) {a : Allowed} {x : Str} {xs : List Str}
    (hs : shape ks = some (space :: (condKeys a.var x xs ++ [space]), space :: textKeys a.var a.refused)) (fin : Pos) {f : Nat}
    (hf : ts.length + 20 < f) : ∃ lt it bt ct et ck ek, Check a.var x xs a.refused lt it bt ct et ck ek ∧
      stylesheet f ⟨ts, fin, []⟩ = .ok (tree lt it bt ct et ck ek) ⟨[], fin, []⟩ := by
  obtain ⟨w1, ka, o, w2, kb, s, w3, c, w4, rfl, q1, q2, q3, q4, qa, qb, hA, hB⟩ := shape_parts hs
  obtain ⟨t1, ts, rfl, k1, hts⟩ := List.map_eq_append_iff.1 hts
  obtain ⟨it, ts, rfl, k2, hts⟩ := List.map_eq_cons_iff.1 hts
  obtain ⟨ta, ts, rfl, k3, hts⟩ := List.map_eq_append_iff.1 hts
  obtain ⟨ot, ts, rfl, k4, hts⟩ := List.map_eq_cons_iff.1 hts
  obtain ⟨t2, ts, rfl, k5, hts⟩ := List.map_eq_append_iff.1 hts
  obtain ⟨et, ts, rfl, k6, hts⟩ := List.map_eq_cons_iff.1 hts
  obtain ⟨tb, ts, rfl, k7, hts⟩ := List.map_eq_append_iff.1 hts
  obtain ⟨st, ts, rfl, k8, hts⟩ := List.map_eq_cons_iff.1 hts
  obtain ⟨t3, ts, rfl, k9, hts⟩ := List.map_eq_append_iff.1 hts
  obtain ⟨ct, t4, rfl, k10, k11⟩ := List.map_eq_cons_iff.1 hts
  have la := leaf_toks k3 qa
  have lb := leaf_toks k7 qb
  obtain ⟨pa, ca⟩ := pushes_keys ta [] la
  obtain ⟨pb, cb⟩ := pushes_keys tb [] lb
  rw [k3, show decide (([] : List Nd).getLast?.map Nd.ty = some .WHITESPACE) = false from rfl, hA, List.map_nil, List.nil_append] at pa
  rw [k7, show decide (([] : List Nd).getLast?.map Nd.ty = some .WHITESPACE) = false from rfl, hB, List.map_nil, List.nil_append] at pb
  obtain ⟨w', l, ea, hw', pa⟩ := simple_ends pa
  obtain ⟨w, ek, eb, hw, pb⟩ := simple_ends pb
  obtain ⟨ck, l', rfl, pc, pa⟩ := List.map_eq_append_iff.1 pa
  obtain ⟨w'', l'', rfl, hw'', pa⟩ := simple_ends pa
  rw [List.map_eq_nil_iff.1 pa] at ea
  have ca := ca (by simp)
  have cb := cb (by simp)
  rw [ea] at ca
  rw [eb] at cb
  have sc := simple_of pc (cond_small a.var x xs) (fun n hn => ca n (by simp [hn]))
  have hf' : t1.length + ta.length + t2.length + tb.length + t3.length + t4.length + 25 < f := by
    simp only [List.length_append, List.length_cons] at hf
    omega
  obtain ⟨vt, hvt, hrun⟩ := if_run (it := it) (o := ot) (close := ct) (et := et) (semi := st) (congrArg Prod.fst k2) (congrArg Prod.fst k4)
    (congrArg Prod.fst k10) (congrArg Prod.fst k8) (congrArg Prod.fst k6) (blank_toks k5 q2) (blank_toks k9 q3) la lb hw' hw'' ea (by
      obtain ⟨l, hl⟩ := cond_ends a.var x xs
      rw [hl] at pc
      rintro rfl
      cases pc) (by
      obtain ⟨l, hl⟩ := cond_ends a.var x xs
      rw [hl] at pc
      obtain ⟨n, r, rfl, hn, _⟩ := simple_ends pc
      simp [types, hn]) (fun n hn => by
      rcases (sc n hn).2 with h | h
      · rw [h.1]; simp
      · intro e
        rw [e] at h
        rcases h with h | h | h | h | h <;> cases h) hw eb (by
      rintro rfl
      cases pb) (by
      have : (types ek) = (textKeys a.var a.refused).map Prod.fst := by
        rw [← pb, List.map_map]
        rfl
      rw [this]
      simp [textKeys]) (blank_toks k11 q4) (fin := fin) (errs := []) (f := f - t1.length - 1) (by omega)
  refine ⟨{ ty := .LIST, pos := (⟨t1 ++ it :: (ta ++ ot :: (t2 ++ et :: (tb ++ st :: (t3 ++ ct :: t4)))), fin, []⟩ : St).last.pos }, it, ot, vt, et, ck, ek, ⟨rfl, congrArg Prod.fst k2, congrArg Prod.snd k2, congrArg Prod.fst k4, hvt,
    congrArg Prod.fst k6, congrArg Prod.snd k6, pc, pb, fun n hn => ca n (by simp [hn]), fun n hn => cb n (by simp [hn])⟩, ?_⟩
  unfold stylesheet
  rw [last_eq]
  obtain ⟨g, rfl⟩ : ∃ g, f = g + t4.length + 1 + 1 + t1.length := ⟨f - t1.length - t4.length - 2, by omega⟩
  rw [blanks_run t1 _ _ (blank_toks k1 q1)]
  conv => lhs; unfold stylesheetLoop
  have hit : it.ty = .AT_KEYWORD := congrArg Prod.fst k2
  rw [show g + t4.length + 1 + 1 + t1.length - t1.length - 1 = g + t4.length + 1 from by omega] at hrun
  rw [last_run, if_neg (by rw [hit]; simp), if_neg (by rw [hit]; simp), if_neg (by rw [hit]; simp [isClose]), if_neg (by rw [hit]; simp),
    if_pos hit, bind_run hrun, val_run _ (addChild_ok (by rfl)), push_ne (by rw [mk_ty, hit]; simp) (by rw [mk_ty, hit]; simp)]
  rw [show g + t4.length + 1 = (g + 1) + t4.length from by omega]
  have e := fun r => blanks_run (result := r) (fin := fin) (errs := []) t4 [] (g + 1) (blank_toks k11 q4)
  rw [List.append_nil] at e
  rw [e]
  rfl

/-- The text of a script is what it has to be. -/
def good (g : Nat) (src : Str) (a : Allowed) : Bool :=
  match a.names with
  | [] => false
  | x :: xs => src.all okChar && decide ((fast g src).bind shape =
      some (space :: (condKeys a.var x xs ++ [space]), space :: textKeys a.var a.refused))

theorem good_script {g : Nat} {src : Str} {a : Allowed} (h : good g src a = true) : ∃ x xs lt it bt ct et ck ek, a.names = x :: xs ∧
    Check a.var x xs a.refused lt it bt ct et ck ek ∧ script src = some (tree lt it bt ct et ck ek) := by
  unfold good at h
  split at h
  · cases h
  · rename_i x xs hn
    rw [Bool.and_eq_true, decide_eq_true_eq, Option.bind_eq_some_iff] at h
    obtain ⟨h1, ks, h2, h3⟩ := h
    obtain ⟨e1, e2, e3, e4⟩ := fast_lex h1 h2 (f := src.length + 1) (by omega)
    obtain ⟨lt, it, bt, ct, et, ck, ek, p1, p2⟩ := parse_check (tkeys_of e1) h3 (lexAll (src.length + 1) (init src)).2.pos
      (f := 5 * (lexAll (src.length + 1) (init src)).1.length + 11) (by
        have : 3 ≤ (lexAll (src.length + 1) (init src)).1.length := by
          have := congrArg List.length (tkeys_of e1)
          rw [List.length_map] at this
          rw [this]
          obtain ⟨w1, ka, o, w2, kb, s, w3, c, w4, rfl, _⟩ := shape_parts h3
          simp only [List.length_append, List.length_cons]
          omega
        omega)
    refine ⟨x, xs, lt, it, bt, ct, et, ck, ek, hn, p1, ?_⟩
    unfold script
    dsimp only
    rw [e3]
    dsimp only
    rw [if_neg (by simp [e2, e4]), p2]
    dsimp only
    rw [if_neg (by simp)]

end Csspp.Valid
