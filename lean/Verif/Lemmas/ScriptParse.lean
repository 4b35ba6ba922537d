import Verif.Lemmas.ScriptLex
import Verif.Lemmas.PlainParse
import Verif.Lemmas.ValidRun

/-!
The tree of a validation script, from its tokens.
-/

namespace Csspp.Valid
open Csspp.Spec (Word types Allowed)
open Csspp.Lex (Tok Pos lexAll init)
open Csspp.Parse
open Csspp.Node (supportsChildren)
open Csspp.Spec.Plain (not_set)

/-! ### The parts of the tokens -/

/-- One of the tokens that are only added to the list. -/
def leafTy (ty : NT) : Bool :=
  match ty with
  | .IDENTIFIER | .STRING | .ADD | .NOT_EQUAL | .VARIABLE | .WHITESPACE => true
  | _ => false

def blankKey (k : NT × Str) : Bool :=
  match k.1 with
  | .WHITESPACE => true
  | _ => false

/-- One blank instead of several. -/
def sq : Bool → List (NT × Str) → List (NT × Str)
  | _, [] => []
  | b, k :: l => if blankKey k then if b then sq true l else k :: sq true l else k :: sq false l

/-- The condition and the expression of the error. -/
def shape (ks : List (NT × Str)) : Option (List (NT × Str) × List (NT × Str)) :=
  match ks.dropWhile blankKey with
  | (.AT_KEYWORD, s) :: r =>
    if s = b!"if" then
      match r.dropWhile (fun k => leafTy k.1) with
      | (.OPEN_CURLYBRACKET, _) :: u =>
        match u.dropWhile blankKey with
        | (.AT_KEYWORD, s) :: v =>
          if s = b!"error" then
            match v.dropWhile (fun k => leafTy k.1) with
            | (.SEMICOLON, _) :: w =>
              match w.dropWhile blankKey with
              | (.CLOSE_CURLYBRACKET, _) :: z =>
                if z.all blankKey then
                  some (sq false (r.takeWhile (fun k => leafTy k.1)), sq false (v.takeWhile (fun k => leafTy k.1)))
                else none
              | _ => none
            | _ => none
          else none
        | _ => none
      | _ => none
    else none
  | _ => none

theorem while_parts {p : NT × Str → Bool} (l : List (NT × Str)) : ∃ a, a = l.takeWhile p ∧ l = a ++ l.dropWhile p ∧
    ∀ k ∈ a, p k = true := by
  refine ⟨_, rfl, List.takeWhile_append_dropWhile.symm, ?_⟩
  induction l with
  | nil => simp
  | cons d l ih =>
    intro c hc
    rw [List.takeWhile_cons] at hc
    split at hc
    · rcases List.mem_cons.mp hc with rfl | hc
      · assumption
      · exact ih c hc
    · simp at hc

theorem shape_parts {ks A B : List (NT × Str)} (h : shape ks = some (A, B)) :
    ∃ w1 a o w2 b s w3 c w4, ks = w1 ++ (.AT_KEYWORD, b!"if") :: (a ++ (.OPEN_CURLYBRACKET, o) :: (w2 ++ (.AT_KEYWORD, b!"error") ::
      (b ++ (.SEMICOLON, s) :: (w3 ++ (.CLOSE_CURLYBRACKET, c) :: w4)))) ∧ (∀ k ∈ w1, blankKey k = true) ∧
      (∀ k ∈ w2, blankKey k = true) ∧ (∀ k ∈ w3, blankKey k = true) ∧ (∀ k ∈ w4, blankKey k = true) ∧
      (∀ k ∈ a, leafTy k.1 = true) ∧ (∀ k ∈ b, leafTy k.1 = true) ∧ sq false a = A ∧ sq false b = B := by
  unfold shape at h
  split at h
  · rename_i s1 r e1
    split at h
    · rename_i h1
      split at h
      · rename_i o u e2
        split at h
        · rename_i s2 v e3
          split at h
          · rename_i h2
            split at h
            · rename_i s w e4
              split at h
              · rename_i c z e5
                split at h
                · rename_i hz
                  injection h with h
                  injection h with hA hB
                  obtain ⟨w1, _, p1, q1⟩ := while_parts (p := blankKey) ks
                  obtain ⟨a, ea, p2, q2⟩ := while_parts (p := fun k => leafTy k.1) r
                  obtain ⟨w2, _, p3, q3⟩ := while_parts (p := blankKey) u
                  obtain ⟨b, eb, p4, q4⟩ := while_parts (p := fun k => leafTy k.1) v
                  obtain ⟨w3, _, p5, q5⟩ := while_parts (p := blankKey) w
                  rw [e1] at p1
                  rw [e2] at p2
                  rw [e3] at p3
                  rw [e4] at p4
                  rw [e5] at p5
                  refine ⟨w1, a, o, w2, b, s, w3, c, z, ?_, q1, q3, q5, fun k hk => List.all_eq_true.1 hz k hk, q2, q4,
                    by rw [ea]; exact hA, by rw [eb]; exact hB⟩
                  rw [p1, p2, p3, p4, p5, h1, h2]
                · cases h
              · cases h
            · cases h
          · cases h
        · cases h
      · cases h
    · cases h
  · cases h

/-! ### Nodes added one by one -/

/-- The type and the text of a token. -/
def tkey (t : Tok) : NT × Str := (t.ty, t.str)

def pushes (k : List Nd) (ts : List Tok) : List Nd := ts.foldl (fun k t => push k (.leaf t)) k

theorem blankKey_iff (k : NT × Str) : blankKey k = true ↔ k.1 = .WHITESPACE := by
  unfold blankKey
  cases k.1 <;> simp

theorem push_leaf (k : List Nd) {t : Tok} (h : t.ty ≠ .EOF_TOKEN) :
    push k (.leaf t) = if t.ty = .WHITESPACE ∧ k.getLast?.map Nd.ty = some .WHITESPACE then k else k ++ [.leaf t] := by
  have ht : (Nd.leaf t).ty = t.ty := rfl
  unfold push
  rw [ht]
  by_cases h1 : t.ty = .WHITESPACE
  · by_cases h2 : k.getLast?.map Nd.ty = some .WHITESPACE
    · rw [if_neg, if_pos ⟨h1, h2⟩]
      rintro ⟨_, h3⟩
      rcases h3 with h3 | h3 | h3
      · exact h3 h1
      · rw [List.isEmpty_iff] at h3
        rw [h3] at h2
        cases h2
      · exact h3 h2
    · rw [if_pos ⟨h, .inr (.inr h2)⟩, if_neg (fun h => h2 h.2)]
  · rw [if_pos ⟨h, .inl h1⟩, if_neg (fun h => h1 h.1)]

theorem leafTy_eof {t : Tok} (h : leafTy t.ty = true) : t.ty ≠ .EOF_TOKEN := by
  intro e
  rw [e] at h
  cases h

theorem pushes_keys : ∀ (ts : List Tok) (k : List Nd), (∀ t ∈ ts, leafTy t.ty = true) →
    (pushes k ts).map key = k.map key ++ sq (decide (k.getLast?.map Nd.ty = some .WHITESPACE)) (ts.map tkey) ∧
      ((∀ c ∈ k, c.kids = []) → ∀ c ∈ pushes k ts, c.kids = [])
  | [], k, _ => ⟨by simp [pushes, sq], fun h => h⟩
  | t :: ts, k, h => by
    have ht := h t (by simp)
    obtain ⟨ih1, ih2⟩ := pushes_keys ts (push k (.leaf t)) (fun t ht => h t (by simp [ht]))
    have e : pushes k (t :: ts) = pushes (push k (.leaf t)) ts := rfl
    rw [e, ih1]
    refine ⟨?_, fun hk => ih2 ?_⟩
    · rw [push_leaf k (leafTy_eof ht), List.map_cons, sq]
      have hb : blankKey (tkey t) = decide (t.ty = .WHITESPACE) := by
        rw [Bool.eq_iff_iff, blankKey_iff]
        simp [tkey]
      rw [hb]
      by_cases h1 : t.ty = .WHITESPACE
      · by_cases h2 : k.getLast?.map Nd.ty = some .WHITESPACE
        · rw [if_pos ⟨h1, h2⟩]
          simp [h1, h2]
        · rw [if_neg (fun h => h2 h.2)]
          simp [h1, h2, key, tkey, Nd.leaf, Nd.ty, Nd.tok]
      · rw [if_neg (fun h => h1 h.1)]
        simp [h1, key, tkey, Nd.leaf, Nd.ty, Nd.tok]
    · rw [push_leaf k (leafTy_eof ht)]
      split
      · exact hk
      · intro c hc
        rcases List.mem_append.1 hc with hc | hc
        · exact hk c hc
        · rw [List.mem_singleton.1 hc]; rfl

theorem pushes_blank : ∀ (ts : List Tok) (k : List Nd), (∀ t ∈ ts, t.ty = .WHITESPACE) →
    k.getLast?.map Nd.ty = some .WHITESPACE → pushes k ts = k
  | [], _, _, _ => rfl
  | t :: ts, k, h, hk => by
    have ht := h t (by simp)
    have e : pushes k (t :: ts) = pushes (push k (.leaf t)) ts := rfl
    rw [e, push_leaf k (by rw [ht]; simp), if_pos ⟨ht, hk⟩]
    exact pushes_blank ts k (fun t ht => h t (by simp [ht])) hk

theorem pushes_blanks (ts : List Tok) (k : List Nd) (h : ∀ t ∈ ts, t.ty = .WHITESPACE) :
    pushes k ts = k ∨ ∃ n, pushes k ts = k ++ [n] ∧ n.ty = .WHITESPACE := by
  cases ts with
  | nil => exact .inl rfl
  | cons t ts =>
    have ht := h t (by simp)
    have e : pushes k (t :: ts) = pushes (push k (.leaf t)) ts := rfl
    by_cases hk : k.getLast?.map Nd.ty = some .WHITESPACE
    · exact .inl (pushes_blank _ k h hk)
    · right
      refine ⟨.leaf t, ?_, ht⟩
      rw [e, push_leaf k (by rw [ht]; simp), if_neg (fun h => hk h.2)]
      refine pushes_blank ts _ (fun t ht => h t (by simp [ht])) ?_
      rw [List.getLast?_concat]
      exact congrArg some ht

/-! ### The loop -/

theorem leaf_facts {ty : NT} (h : leafTy ty = true) (fl : Flags) : stops fl ty = false ∧ ty ≠ .AT_KEYWORD ∧ ty ≠ .SEMICOLON ∧
    ty ≠ .EXCLAMATION ∧ ty ≠ .OPEN_CURLYBRACKET ∧ ty ≠ .OPEN_SQUAREBRACKET ∧ ty ≠ .OPEN_PARENTHESIS ∧ ty ≠ .FUNCTION ∧
    ty ≠ .VARIABLE_FUNCTION ∧ ty ≠ .EOF_TOKEN ∧ ty ≠ .COLON := by
  revert h
  cases ty <;> simp [leafTy, stops]

theorem leaf_run {t : Tok} (h : leafTy t.ty = true) {g : Nat} {fl : Flags} {result : Nd} {lt : Tok} {k : List Nd} {rest : List Tok}
    {fin : Pos} {errs : List (Err × Pos)} (hl : lt.ty = .COMPONENT_VALUE) :
    cvLoop (g + 2) fl result (.mk lt k) ⟨t :: rest, fin, errs⟩ =
      cvLoop (g + 1) fl result (.mk lt (push k (.leaf t))) ⟨rest, fin, errs⟩ := by
  obtain ⟨h1, h2, h3, h4, h5, h6, h7, h8, h9, h10, _⟩ := leaf_facts h fl
  have hc : supportsChildren (Nd.mk lt k).ty = true := by rw [mk_ty, hl]; rfl
  have hcv : componentValue (g + 1) ⟨t :: rest, fin, errs⟩ = .ok (.leaf t) ⟨rest, fin, errs⟩ := by
    unfold componentValue
    rw [last_run, if_neg h5, if_neg h6, if_neg (by simp [h7, h8, h9]), next_run]
    rfl
  conv => lhs; unfold cvLoop
  rw [last_run, if_neg (by rw [h1]; simp), if_neg h2, if_neg h3, if_neg h4, val_run _ (beforeBlock_eq hc),
    if_neg (by simp [h5, h6, h7]), bind_run hcv, mk_tok, mk_kids, val_run _ (addChild_ok hc), if_neg h5]
  rfl

theorem leaves_run {g : Nat} {fl : Flags} {result : Nd} {lt : Tok} {rest : List Tok} {fin : Pos}
    {errs : List (Err × Pos)} (hl : lt.ty = .COMPONENT_VALUE) : ∀ {ts : List Tok} {k : List Nd}, (∀ t ∈ ts, leafTy t.ty = true) →
    cvLoop (g + ts.length + 1) fl result (.mk lt k) ⟨ts ++ rest, fin, errs⟩ =
      cvLoop (g + 1) fl result (.mk lt (pushes k ts)) ⟨rest, fin, errs⟩ := by
  intro ts
  induction ts with
  | nil => intro k _; rfl
  | cons t ts ih =>
    intro k h
    have := leaf_run (t := t) (h t (by simp)) (g := g + ts.length) (fl := fl) (result := result) (lt := lt) (k := k)
      (rest := ts ++ rest) (fin := fin) (errs := errs) hl
    rw [List.length_cons, List.cons_append]
    refine Eq.trans this ?_
    rw [ih (fun x hx => h x (by simp [hx]))]
    rfl

/-- A list of tokens with the same keys. -/
theorem simple_ends {l : List Nd} {k : NT × Str} {m : List (NT × Str)} (h : l.map key = k :: m) :
    ∃ c r, l = c :: r ∧ c.ty = k.1 ∧ r.map key = m := by
  obtain ⟨c, r, rfl, h1, h2⟩ := List.map_eq_cons_iff.1 h
  exact ⟨c, r, rfl, congrArg Prod.fst h1, h2⟩

/-- `@error ...;` -/
theorem error_run {et semi : Tok} (hs : semi.ty = .SEMICOLON) (he : et.ty = .AT_KEYWORD) {b rest : List Tok}
    {fin : Pos} {errs : List (Err × Pos)} (hb : ∀ t ∈ b, leafTy t.ty = true) {ek : List Nd} {w : Nd} (hw : w.ty = .WHITESPACE)
    (hk : pushes [] b = w :: ek) (hne : ek ≠ []) (h2 : (types ek).getLast? ≠ some .WHITESPACE)
    {f : Nat} (hf : b.length + 2 < f) :
    atRule f ⟨et :: (b ++ semi :: rest), fin, errs⟩ = .ok (.mk et ek) ⟨rest, fin, errs⟩ := by
  obtain ⟨f, rfl⟩ : ∃ f', f = f' + b.length + 1 + 1 + 1 := ⟨f - (b.length + 3), by omega⟩
  have hc : ∀ (t : Tok) (k : List Nd), t.ty = .COMPONENT_VALUE → supportsChildren (Nd.mk t k).ty = true := fun t k h => by
    rw [mk_ty, h]; rfl
  have hcv : componentValueList (f + b.length + 1 + 1) ⟨true, false⟩ ⟨b ++ semi :: rest, fin, errs⟩ =
      .ok (.mk { ty := .COMPONENT_VALUE, pos := (⟨b ++ semi :: rest, fin, errs⟩ : St).last.pos } ek) ⟨semi :: rest, fin, errs⟩ := by
    unfold componentValueList
    rw [last_eq]
    refine Eq.trans (leaves_run (g := f) (k := []) rfl hb) ?_
    conv => lhs; unfold cvLoop
    rw [last_run, if_pos (by rw [hs]; rfl), hk, listEnd_eq rfl rfl, mk_tok, mk_kids]
    have : lastValue { ty := .COMPONENT_VALUE, pos := (⟨b ++ semi :: rest, fin, errs⟩ : St).last.pos } (w :: ek) =
        [.mk { ty := .COMPONENT_VALUE, pos := (⟨b ++ semi :: rest, fin, errs⟩ : St).last.pos } ek] := by
      unfold lastValue
      have e : dropHead (w :: ek) = ek := by unfold dropHead; simp [types, hw]
      rw [e, dropEnd_id h2]
      cases ek with
      | nil => exact absurd rfl hne
      | cons c k => rfl
    rw [this]
    rfl
  unfold atRule
  rw [last_run, next_run, bind_run hcv, val_run (v := false) _ (by
    rw [isEmpty_ok (hc _ _ rfl), mk_kids]
    cases ek with
    | nil => exact absurd rfl hne
    | cons c k => rfl), if_neg (by simp)]
  obtain ⟨c, hcl⟩ := getLast_of_ne hne
  rw [val_run _ (getLast_ok (c := c) (hc _ _ rfl) (by rw [mk_kids]; exact hcl))]
  have hend : atRuleEnd et c ⟨semi :: rest, fin, errs⟩ = .ok () ⟨rest, fin, errs⟩ := by
    unfold atRuleEnd
    rw [last_run, if_pos hs]
    rfl
  rw [bind_run hend, takeOver_ok (by show supportsChildren et.ty = true; rw [he]; rfl) (hc _ _ rfl)]
  rfl

theorem value_only {t et : Tok} {ek x y : List Nd} (he : et.ty = .AT_KEYWORD) (hx : x = [] ∨ ∃ n, x = [n] ∧ n.ty = .WHITESPACE)
    (hy : y = x ++ [.mk et ek] ∨ ∃ n, y = x ++ [.mk et ek] ++ [n] ∧ n.ty = .WHITESPACE) :
    lastValue t y = [.mk t [.mk et ek]] := by
  have he' : (Nd.mk et ek).ty ≠ .WHITESPACE := by rw [mk_ty, he]; simp
  rcases hx with rfl | ⟨n, rfl, hn⟩ <;> rcases hy with rfl | ⟨m, rfl, hm⟩ <;>
    simp [lastValue, dropHead, dropEnd, types, *]

/-- `{ @error ...; }` -/
theorem block_run {o close et semi : Tok} (ho : o.ty = .OPEN_CURLYBRACKET) (hcl : close.ty = .CLOSE_CURLYBRACKET)
    (hs : semi.ty = .SEMICOLON) (he : et.ty = .AT_KEYWORD) {w2 b w3 rest : List Tok} (h2 : ∀ t ∈ w2, t.ty = .WHITESPACE)
    (h3 : ∀ t ∈ w3, t.ty = .WHITESPACE) {fin : Pos} {errs : List (Err × Pos)} (hb : ∀ t ∈ b, leafTy t.ty = true) {ek : List Nd} {w : Nd}
    (hw : w.ty = .WHITESPACE) (hk : pushes [] b = w :: ek) (hne : ek ≠ []) (hl : (types ek).getLast? ≠ some .WHITESPACE)
    {f : Nat} (hf : w2.length + b.length + w3.length + 10 < f) :
    ∃ ct, ct.ty = .COMPONENT_VALUE ∧
      componentValue f ⟨o :: (w2 ++ et :: (b ++ semi :: (w3 ++ close :: rest))), fin, errs⟩ =
        .ok (.mk o [.mk ct [.mk et ek]]) ⟨rest, fin, errs⟩ := by
  obtain ⟨f, rfl⟩ : ∃ f', f = f' + w3.length + 1 + w2.length + 1 + 1 + 1 + 1 + 1 := ⟨f - (w2.length + w3.length + 6), by omega⟩
  have hc : ∀ (t : Tok) (k : List Nd), t.ty = .COMPONENT_VALUE → supportsChildren (Nd.mk t k).ty = true := fun t k h => by
    rw [mk_ty, h]; rfl
  have hlf : ∀ {l : List Tok}, (∀ t ∈ l, t.ty = .WHITESPACE) → ∀ t ∈ l, leafTy t.ty = true := fun h t ht => by rw [h t ht]; rfl
  let ct : Tok := { ty := .COMPONENT_VALUE, pos := (⟨w2 ++ et :: (b ++ semi :: (w3 ++ close :: rest)), fin, errs⟩ : St).last.pos }
  have het : ∀ {k : List Nd}, push k (.mk et ek) = k ++ [.mk et ek] := fun {k} => push_ne (by rw [mk_ty, he]; simp) (by rw [mk_ty, he]; simp)
  refine ⟨ct, rfl, ?_⟩
  have hcv : componentValueList (f + w3.length + 1 + w2.length + 1 + 1) ⟨false, false⟩
      ⟨w2 ++ et :: (b ++ semi :: (w3 ++ close :: rest)), fin, errs⟩ =
        .ok (.mk ct [.mk et ek]) ⟨close :: rest, fin, errs⟩ := by
    unfold componentValueList
    rw [last_eq]
    refine Eq.trans (leaves_run (g := f + w3.length + 1) (k := []) rfl (hlf h2)) ?_
    conv => lhs; unfold cvLoop
    rw [last_run, if_neg (by rw [he]; simp [stops]), if_pos he,
      bind_run (error_run hs he hb hw hk hne hl (f := f + w3.length + 1) (by omega)), val_run _ (addChild_ok (hc _ _ rfl)), mk_tok,
      mk_kids, het]
    have e9 := leaves_run (g := f) (fl := ⟨false, false⟩) (result := newNode .LIST (⟨w2 ++ et :: (b ++ semi :: (w3 ++ close :: rest)), fin, errs⟩ : St).last) (lt := ct) (rest := close :: rest) (fin := fin) (errs := errs) (k := pushes [] w2 ++ [.mk et ek]) rfl (hlf h3)
    refine Eq.trans e9 ?_
    conv => lhs; unfold cvLoop
    rw [last_run, if_pos (by rw [hcl]; rfl), listEnd_eq rfl rfl, mk_tok, mk_kids]
    have := value_only (t := ct) (et := et) (ek := ek) he (x := pushes [] w2) (y := pushes (pushes [] w2 ++ [.mk et ek]) w3)
      (by
        rcases pushes_blanks w2 [] h2 with h | ⟨n, h, hn⟩
        · exact .inl h
        · exact .inr ⟨n, h, hn⟩) (pushes_blanks w3 _ h3)
    rw [show lastValue _ _ = _ from this]
    rfl
  have hbl : blockLoop (f + w3.length + 1 + w2.length + 1 + 1 + 1) (.leaf o)
      ⟨w2 ++ et :: (b ++ semi :: (w3 ++ close :: rest)), fin, errs⟩ =
      .ok (.mk o [.mk ct [.mk et ek]]) ⟨close :: rest, fin, errs⟩ := by
    unfold blockLoop
    rw [bind_run hcv, val_run _ (addChild_ok (n := .leaf o) (by show supportsChildren o.ty = true; rw [ho]; rfl)),
      push_group (.inr rfl)]
    have hbt : betweenLists o ⟨close :: rest, fin, errs⟩ = .ok () ⟨close :: rest, fin, errs⟩ := by
      unfold betweenLists
      rw [last_run, if_neg (by rw [hcl]; simp), if_neg (by rw [hcl]; simp)]
      rfl
    refine Eq.trans (bind_run hbt) ?_
    rw [last_run, if_pos (.inl hcl)]
    rfl
  unfold componentValue
  rw [last_run, if_pos ho]
  unfold blockList
  rw [last_run, next_run, bind_run hbl]
  have hcl' : closeList o ⟨close :: rest, fin, errs⟩ = .ok () ⟨rest, fin, errs⟩ := by
    unfold closeList
    rw [last_run, if_neg (by rw [hcl]; simp)]
    rfl
  rw [bind_run hcl']
  rfl

/-- `@if ... { @error ...; }` -/
theorem if_run {it o close et semi : Tok} (hi : it.ty = .AT_KEYWORD) (ho : o.ty = .OPEN_CURLYBRACKET) (hcl : close.ty = .CLOSE_CURLYBRACKET)
    (hs : semi.ty = .SEMICOLON) (he : et.ty = .AT_KEYWORD) {a w2 b w3 rest : List Tok} (h2 : ∀ t ∈ w2, t.ty = .WHITESPACE)
    (h3 : ∀ t ∈ w3, t.ty = .WHITESPACE) {fin : Pos} {errs : List (Err × Pos)} (ha : ∀ t ∈ a, leafTy t.ty = true)
    (hb : ∀ t ∈ b, leafTy t.ty = true) {ck ek : List Nd} {w w' w'' : Nd} (hw' : w'.ty = .WHITESPACE) (hw'' : w''.ty = .WHITESPACE)
    (hka : pushes [] a = w' :: (ck ++ [w''])) (hne' : ck ≠ []) (hh' : (types ck).head? ≠ some .WHITESPACE)
    (hnc : ∀ c ∈ ck, c.ty ≠ .COLON)
    (hw : w.ty = .WHITESPACE) (hk : pushes [] b = w :: ek) (hne : ek ≠ []) (hl : (types ek).getLast? ≠ some .WHITESPACE)
    (hrest : ∀ t ∈ rest, t.ty = .WHITESPACE)
    {f : Nat} (hf : a.length + w2.length + b.length + w3.length + 15 < f) :
    ∃ ct, ct.ty = .COMPONENT_VALUE ∧
      atRule f ⟨it :: (a ++ o :: (w2 ++ et :: (b ++ semi :: (w3 ++ close :: rest)))), fin, errs⟩ =
        .ok (.mk it (ck ++ [.mk o [.mk ct [.mk et ek]]])) ⟨rest, fin, errs⟩ := by
  obtain ⟨f, rfl⟩ : ∃ f', f = f' + a.length + 1 + 1 + 1 := ⟨f - (a.length + 3), by omega⟩
  have hc : ∀ (t : Tok) (k : List Nd), t.ty = .COMPONENT_VALUE → supportsChildren (Nd.mk t k).ty = true := fun t k h => by
    rw [mk_ty, h]; rfl
  obtain ⟨ct, hct, hblk⟩ := block_run ho hcl hs he h2 h3 hb hw hk hne hl (rest := rest) (fin := fin) (errs := errs) (f := f) (by omega)
  refine ⟨ct, hct, ?_⟩
  generalize hB : [Nd.mk ct [.mk et ek]] = B at hblk ⊢
  have hbt : (Nd.mk o B).ty = .OPEN_CURLYBRACKET := ho
  let vt : Tok := { ty := .COMPONENT_VALUE, pos := (⟨a ++ o :: (w2 ++ et :: (b ++ semi :: (w3 ++ close :: rest))), fin, errs⟩ : St).last.pos }
  have hfirst : (types (ck ++ [Nd.mk o B])).head? ≠ some .WHITESPACE := by
    cases ck with
    | nil => exact absurd rfl hne'
    | cons c l => simpa [types] using hh'
  have hlst : (types (ck ++ [Nd.mk o B])).getLast? ≠ some .WHITESPACE := by
    unfold types
    rw [List.map_append, List.map_cons, List.map_nil, List.getLast?_concat, hbt]
    simp
  have hns := not_set (ts := types (ck ++ [Nd.mk o B])) (by
    intro x hx
    unfold types at hx
    obtain ⟨y, hy, rfl⟩ := List.mem_map.1 hx
    rcases List.mem_append.1 hy with hy | hy
    · exact hnc y hy
    · rw [List.mem_singleton.1 hy, hbt]; simp)
  have hcv : componentValueList (f + a.length + 1 + 1) ⟨true, false⟩
      ⟨a ++ o :: (w2 ++ et :: (b ++ semi :: (w3 ++ close :: rest))), fin, errs⟩ =
        .ok (.mk vt (ck ++ [.mk o B])) ⟨rest, fin, errs⟩ := by
    unfold componentValueList
    rw [last_eq]
    refine Eq.trans (leaves_run (g := f) (k := []) rfl ha) ?_
    conv => lhs; unfold cvLoop
    have e3 : dropEnd (w' :: (ck ++ [w''])) = w' :: ck := by
      unfold dropEnd
      rw [if_pos (by
        unfold types
        rw [List.map_cons, List.map_append, List.map_cons, List.map_nil, ← List.cons_append, List.getLast?_concat, hw'']),
        ← List.cons_append, List.dropLast_concat]
    have e4 : dropHeads (w' :: ck ++ [.mk o B]) = ck ++ [.mk o B] := by
      have := dropHeads_id hfirst
      unfold dropHeads at this ⊢
      rw [List.cons_append, List.dropWhile_cons, if_pos (by simpa using hw')]
      exact this
    rw [last_run, if_neg (by rw [ho]; simp [stops]), if_neg (by rw [ho]; simp), if_neg (by rw [ho]; simp),
      if_neg (by rw [ho]; simp), val_run _ (beforeBlock_eq (hc _ _ rfl)), mk_kids, mk_tok, if_pos (.inl ho), hka, e3, bind_run hblk,
      val_run _ (addChild_ok (hc _ _ rfl)), mk_kids, mk_tok, if_pos ho, push_ne (by rw [hbt]; simp) (by rw [hbt]; simp),
      val_run _ (dropFirsts_eq (hc _ _ rfl)), mk_kids, mk_tok, e4,
      val_run (v := false) _ (by rw [isBlockValue_eq (hc _ _ rfl), mk_kids, hns.2.1, hns.2.2]; rfl), if_pos rfl, listEnd_eq rfl rfl,
      mk_tok, mk_kids, lastValue_run (by simp) hfirst hlst]
    rfl
  unfold atRule
  rw [last_run, next_run, bind_run hcv, val_run (v := false) _ (by
    rw [isEmpty_ok (hc _ _ rfl), mk_kids]
    cases ck <;> rfl), if_neg (by simp), val_run _ (getLast_ok (c := .mk o B) (hc _ _ rfl) (by rw [mk_kids, List.getLast?_concat]))]
  have hend : atRuleEnd it (.mk o B) ⟨rest, fin, errs⟩ = .ok () ⟨rest, fin, errs⟩ := by
    unfold atRuleEnd
    rw [last_eq, if_neg, if_neg (by rw [hbt]; simp)]
    · rfl
    · cases rest with
      | nil => show NT.EOF_TOKEN ≠ _; simp
      | cons t l => show t.ty ≠ _; rw [hrest t (by simp)]; simp
  rw [bind_run hend, takeOver_ok (by show supportsChildren it.ty = true; rw [hi]; rfl) (hc _ _ rfl)]
  rfl

/-- Blanks between the rules. -/
theorem blanks_run {result : Nd} {fin : Pos} {errs : List (Err × Pos)} : ∀ (w rest : List Tok) (g : Nat), (∀ t ∈ w, t.ty = .WHITESPACE) →
    stylesheetLoop (g + w.length) result ⟨w ++ rest, fin, errs⟩ = stylesheetLoop g result ⟨rest, fin, errs⟩
  | [], _, _, _ => rfl
  | t :: w, rest, g, h => by
    have ht := h t (by simp)
    rw [show g + (t :: w).length = g + w.length + 1 from by rw [List.length_cons]; omega, List.cons_append]
    conv => lhs; unfold stylesheetLoop
    rw [last_run, if_neg (by rw [ht]; simp), if_pos (by simp [ht]), next_run]
    exact blanks_run w rest g (fun t ht => h t (by simp [ht]))

end Csspp.Valid
