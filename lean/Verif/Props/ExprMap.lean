import Verif.Props.ExprIndex

/-! C29: the value of a literal map. -/

namespace Csspp.Expr

/-- An entry of a map: its name and its value. -/
structure Entry where
  name : Str
  item : Item

/-- `name: value` -/
def Entry.toks (x : Entry) : List Tok := .ident x.name :: .sym .COLON :: x.item.ts

/-- The entries after the first one, each with its comma. -/
def entries (l : List Entry) : List Tok := l.flatMap (fun x => .sym .COMMA :: x.toks)

theorem stop_entries (l : List Entry) : Stop .cond ((entries l).headD (.sym .EOF_TOKEN)) := by
  cases l with
  | nil => exact stop_eof
  | cons x l => exact stop_comma

theorem entries_noAssign (l : List Entry) :
    ((entries l).headD (.sym .EOF_TOKEN)).isSym .ASSIGNMENT = false := by
  cases l <;> rfl

/-- An expression does not start with a comma or at the end. -/
theorem g_first {lvl : Lvl} {ts : List Tok} {e : E} (h : G lvl ts e) :
    ∃ t r, ts = t :: r ∧ t.isSym .COMMA = false ∧ t.isSym .EOF_TOKEN = false := by
  induction h with
  | lit v => exact ⟨_, _, rfl, rfl, rfl⟩
  | ident s => exact ⟨_, _, rfl, rfl, rfl⟩
  | hash s => exact ⟨_, _, rfl, rfl, rfl⟩
  | call name args => exact ⟨_, _, rfl, rfl, rfl⟩
  | paren l e _ _ _ => exact ⟨_, _, rfl, rfl, rfl⟩
  | prim ts e _ ih => exact ih
  | plus ts e _ _ => exact ⟨_, _, rfl, rfl, rfl⟩
  | minus ts e _ _ => exact ⟨_, _, rfl, rfl, rfl⟩
  | unary ts e _ ih => exact ih
  | power ts1 t ts2 a b _ ht _ ih1 _ => obtain ⟨t, r, rfl, h⟩ := ih1; exact ⟨t, _, rfl, h⟩
  | up b ts e _ ih => exact ih
  | bin b op ts1 t ts2 x y _ ho _ ih1 _ => obtain ⟨t, r, rfl, h⟩ := ih1; exact ⟨t, _, rfl, h⟩
  | or ts e _ ih => exact ih
  | cond ts1 ts2 ts3 c a b _ _ _ ih1 _ _ => obtain ⟨t, r, rfl, h⟩ := ih1; exact ⟨t, _, rfl, h⟩

theorem isLabel_some {s : St} {name : Str} {k : List Tok} (h : At s (.ident name :: .sym .COLON :: k)) :
    isLabel s = some name := by
  obtain ⟨h1, h2, h3⟩ := h
  cases hr : s.rest with
  | nil => rw [hr] at h2; cases h2
  | cons u us =>
    rw [hr] at h2 h3
    have hu : u.isWs = false := by
      cases hb : u.isWs
      · rfl
      · exact absurd (by simp [hb]) h3
    have : noWs (u :: us) = u :: noWs us := by simp [noWs, hu]
    rw [this] at h2
    simp only [List.tail_cons, List.cons.injEq] at h2
    unfold isLabel
    rw [h1, hr, h2.1]
    rfl

/-- The loop on the entries of a map, in front of the first one. -/
theorem mapLoop_runs (cond : M (Option Ref)) (l : List Entry) (hl : l ≠ [])
    (h : ∀ x ∈ l, (∃ t r, x.item.ts = t :: r ∧ t.isSym .COMMA = false ∧ t.isSym .EOF_TOKEN = false) ∧
      ∀ k, Stop .cond (k.headD (.sym .EOF_TOKEN)) → Runs cond x.item.ts k x.item.v x.item.es) :
    ∀ (m : Nat) (acc : List (Str × Ref)) (s : St), l.length ≤ m → At s (entries l).tail → s.vars = [] →
      ∃ rs s', mapLoop cond m acc s = .ok (acc ++ rs) s' ∧ At s' [] ∧ s'.vars = [] ∧
        s'.errs = s.errs ++ l.flatMap (·.item.es) ∧ Frame s.heap s'.heap ∧
        rs.map (fun p => (p.1, s'.heap[p.2]?)) = l.map (fun x => (x.name, some x.item.v)) := by
  induction l with
  | nil => exact absurd rfl hl
  | cons x l ih =>
    intro m acc s hm hs hv
    obtain ⟨m, rfl⟩ : ∃ j, m = j + 1 := ⟨m - 1, by simp only [List.length_cons] at hm; omega⟩
    have hs' : At s (.ident x.name :: .sym .COLON :: (x.item.ts ++ entries l)) := hs
    obtain ⟨⟨t, tr, ht, hc, he⟩, hx⟩ := h x (by simp)
    have a2 := nextSt_at (nextSt_at hs')
    obtain ⟨r, s1, e1, p⟩ := assignment_runs cond x.item.ts (entries l) x.item.v x.item.es
      (hx _ (stop_entries l)) (entries_noAssign l) (nextSt (nextSt s)) a2
      (by rw [nextSt_vars, nextSt_vars]; exact hv)
    have hcur : (nextSt (nextSt s)).cur = t := by rw [a2.1, ht]; rfl
    have p := p.next.next
    cases l with
    | nil =>
      have hend : s1.cur = .sym .EOF_TOKEN := p.pos.1
      refine ⟨[(x.name, r)], s1, ?_, p.pos, p.vars, by rw [p.errs]; simp, p.frame, by simp [p.cell]⟩
      rw [mapLoop, bind_ok (show get' s = .ok s s from rfl), isLabel_some hs']
      dsimp only
      rw [bind_ok (next_eq s), bind_ok (next_eq _), bind_ok (show get' _ = .ok _ _ from rfl), hcur,
        if_neg (by rw [hc]; simp), bind_ok (show get' _ = .ok _ _ from rfl), hcur, if_neg (by rw [he]; simp),
        bind_ok e1]
      have : (do
          if (← get').cur.isSym .COMMA then do
            next
            pure true
          else pure false : M Bool) s1 = .ok false s1 := by
        rw [bind_ok (show get' s1 = .ok s1 s1 from rfl), hend]
        rfl
      rw [bind_ok this]
      rfl
    | cons y l =>
      have hcom : s1.cur = .sym .COMMA := p.pos.1
      obtain ⟨rs, s2, e2, b2, v2, er2, f2, c2⟩ := ih (by simp) (fun z hz => h z (by simp only [List.mem_cons] at hz ⊢; exact .inr hz)) m
        (acc ++ [(x.name, r)]) (nextSt s1)
        (by simp only [List.length_cons] at hm ⊢; omega) (nextSt_at p.pos) (by rw [nextSt_vars]; exact p.vars)
      rw [nextSt_heap] at f2
      rw [nextSt_errs] at er2
      refine ⟨(x.name, r) :: rs, s2, ?_, b2, v2, ?_, p.frame.trans f2, ?_⟩
      · rw [mapLoop, bind_ok (show get' s = .ok s s from rfl), isLabel_some hs']
        dsimp only
        rw [bind_ok (next_eq s), bind_ok (next_eq _), bind_ok (show get' _ = .ok _ _ from rfl), hcur,
          if_neg (by rw [hc]; simp), bind_ok (show get' _ = .ok _ _ from rfl), hcur, if_neg (by rw [he]; simp),
          bind_ok e1]
        have : (do
            if (← get').cur.isSym .COMMA then do
              next
              pure true
            else pure false : M Bool) s1 = .ok true (nextSt s1) := by
          rw [bind_ok (show get' s1 = .ok s1 s1 from rfl), hcom]
          rw [if_pos (show Tok.isSym .COMMA (.sym .COMMA) = true from rfl), bind_ok (next_eq s1)]
          rfl
        rw [bind_ok this]
        dsimp only
        rw [bind_ok (show (pure r : M Ref) (nextSt s1) = .ok r (nextSt s1) from rfl), if_pos rfl, e2]
        simp [List.append_assoc]
      · rw [er2, p.errs]
        simp [List.append_assoc]
      · simp only [List.map_cons, c2, p.other f2]

theorem sizeAll_entries (l : List Entry) : ∀ x ∈ l, sizeAll x.item.ts ≤ sizeAll (entries l) := by
  induction l with
  | nil => intro x hx; cases hx
  | cons a q ih =>
    intro x hx
    have e : entries (a :: q) = .sym .COMMA :: .ident a.name :: .sym .COLON :: (a.item.ts ++ entries q) := rfl
    rw [e]
    simp only [sizeAll, sizeAll_append]
    rcases List.mem_cons.mp hx with rfl | hx
    · omega
    · have := ih x hx; omega

theorem entries_length (l : List Entry) : 3 * l.length ≤ (entries l).length := by
  induction l with
  | nil => simp [entries]
  | cons x l ih =>
    have e : entries (x :: l) = .sym .COMMA :: .ident x.name :: .sym .COLON :: (x.item.ts ++ entries l) := rfl
    rw [e]
    simp only [List.length_cons, List.length_append]
    omega

/-- C29: a map in parentheses, `(a: x, b: y)`, is a map with one entry for each name, in the same order and
with the value of the expression, whatever the expressions. -/
theorem C29_literal_map (env : Env) (heap : List (Val Ref)) (l : List Entry) (hl : l ≠ []) (p : List Tok)
    (hitems : ∀ z ∈ l, G .cond z.item.ts z.item.e ∧ den env z.item.e = some (z.item.v, z.item.es))
    (hp : p.head?.map Tok.isWs ≠ some true) (hno : .sym .COMMA :: noWs p = entries l) :
    ∃ r items s, compile env heap [.paren p] = .ok (some r) s ∧
      s.heap[r]? = some (.map items) ∧
      items.map (fun e => (e.1, s.heap[e.2]?)) = l.map (fun x => (x.name, some x.item.v)) ∧
      s.errs = l.flatMap (·.item.es) ∧ (∀ j, j < heap.length → s.heap[j]? = heap[j]?) := by
  obtain ⟨m, hm⟩ : ∃ m, 3 * sizeAll [.paren p] + 4 = m + 2 := ⟨_, rfl⟩
  have hs0 := sizeAll_noWs p
  have hm' := hm
  simp only [sizeAll, Tok.size] at hm'
  have hsz : sizeAll (entries l) = 1 + sizeAll (noWs p) := by rw [← hno]; simp [sizeAll, Tok.size]
  have hrun : ∀ z ∈ l, (∃ t r, z.item.ts = t :: r ∧ t.isSym .COMMA = false ∧ t.isSym .EOF_TOKEN = false) ∧
      ∀ k, Stop .cond (k.headD (.sym .EOF_TOKEN)) → Runs (conditional env m) z.item.ts k z.item.v z.item.es := by
    intro z hz
    refine ⟨g_first (hitems z hz).1, fun k hk => ?_⟩
    have := sizeAll_entries l z hz
    exact good env (hitems z hz).1 z.item.v z.item.es (hitems z hz).2 m k (by omega) hk
  have hw' : [Tok.paren p].head?.map Tok.isWs ≠ some true := by simp [Tok.isWs]
  have a := at_noWs hw' { heap := heap, errs := [], cur := .sym .EOF_TOKEN, rest := [.paren p], vars := [] }
  have hno2 : noWs [Tok.paren p] = [.paren p] := by simp [noWs, Tok.isWs]
  rw [hno2] at a
  -- the parenthesis
  have a1 := nextSt_at a
  generalize hs : nextSt (nextSt { heap := heap, errs := [], cur := .sym .EOF_TOKEN, rest := [.paren p], vars := [] }) = s at a1
  have hheap : s.heap = heap := by rw [← hs, nextSt_heap, nextSt_heap]
  have herrs : s.errs = [] := by rw [← hs, nextSt_errs, nextSt_errs]
  have hvars : s.vars = [] := by rw [← hs, nextSt_vars, nextSt_vars]
  have a2 := at_noWs hp s
  have a3 : At (nextSt { s with cur := .sym .EOF_TOKEN, rest := p, vars := [] }) (entries l).tail := by
    rw [← hno]; exact a2
  have hlab : ∃ name, isLabel (nextSt { s with cur := .sym .EOF_TOKEN, rest := p, vars := [] }) = some name := by
    cases l with
    | nil => exact absurd rfl hl
    | cons x l => exact ⟨x.name, isLabel_some a3⟩
  obtain ⟨rs, s2, e2, b2, v2, er2, f2, c2⟩ := mapLoop_runs (conditional env m) l hl hrun
    ((nextSt { s with cur := .sym .EOF_TOKEN, rest := p, vars := [] }).rest.length + 2) [] _
    (by
      have h1 := at_length a3
      have h2 := entries_length l
      simp only [List.length_tail] at h1
      omega) a3 (by rw [nextSt_vars])
  rw [nextSt_heap] at f2
  rw [nextSt_errs] at er2
  have hx : exprList (conditional env m) (nextSt { s with cur := .sym .EOF_TOKEN, rest := p, vars := [] }) =
      .ok (some s2.heap.length) { s2 with heap := s2.heap ++ [.map rs] } := by
    obtain ⟨name, hlab⟩ := hlab
    unfold exprList
    rw [bind_ok (show get' _ = .ok _ _ from rfl), hlab]
    dsimp only
    rw [bind_ok e2]
    rfl
  have hg : group (conditional env m) p s =
      .ok (some s2.heap.length) { s2 with heap := s2.heap ++ [.map rs], cur := s.cur, rest := s.rest, vars := s.vars } := by
    unfold group
    rw [bind_ok (show get' s = .ok s s from rfl)]
    rw [bind_ok (m := fun s => R.ok () { s with cur := Tok.sym .EOF_TOKEN, rest := p, vars := [] })
      (s := s) (s' := { s with cur := Tok.sym .EOF_TOKEN, rest := p, vars := [] }) (v := ()) rfl]
    rw [bind_ok (next_eq _), bind_ok hx]
    rfl
  have hun : unaryE env m (nextSt { heap := heap, errs := [], cur := .sym .EOF_TOKEN, rest := [.paren p], vars := [] })
      = group (conditional env m) p s := by
    unfold unaryE unaryF
    rw [bind_ok (show get' _ = .ok _ _ from rfl), a.1, List.headD_cons]
    dsimp only
    rw [bind_ok (next_eq _), hs]
  rw [hg] at hun
  have hpost : postE env m (nextSt { heap := heap, errs := [], cur := .sym .EOF_TOKEN, rest := [.paren p], vars := [] })
      = .ok (some s2.heap.length) { s2 with heap := s2.heap ++ [.map rs], cur := s.cur, rest := s.rest, vars := s.vars } := by
    unfold postE postF
    rw [bind_ok hun]
    dsimp only
    have hc : s.cur = .sym .EOF_TOKEN := a1.1
    rw [bind_ok (show get' _ = .ok _ _ from rfl)]
    exact postLoop_stop _ _ _ _ (by show ∀ l, s.cur ≠ _; rw [hc]; simp) (by show s.cur ≠ _; rw [hc]; simp)
  have lt : ∀ (q : Ref) (w : Val Ref), s2.heap[q]? = some w → (s2.heap ++ [Val.map rs])[q]? = some w := by
    intro q w hq
    have : q < s2.heap.length := (List.getElem?_eq_some_iff.mp hq).1
    rw [List.getElem?_append_left this, hq]
  refine ⟨s2.heap.length, rs, { s2 with heap := s2.heap ++ [.map rs], cur := s.cur, rest := s.rest, vars := s.vars }, ?_, by simp, ?_, ?_, ?_⟩
  · unfold compile
    rw [bind_ok (next_eq _), hm]
    exact compile_post env m _ _ _ hpost a1 (by omega)
  · have hmap : ∀ (q : List (Str × Ref)) (w : List Entry),
        q.map (fun e => (e.1, s2.heap[e.2]?)) = w.map (fun x => (x.name, some x.item.v)) →
        q.map (fun e => (e.1, (s2.heap ++ [Val.map rs])[e.2]?)) = w.map (fun x => (x.name, some x.item.v)) := by
      intro q
      induction q with
      | nil => intro w h; exact h
      | cons a q ih =>
        intro w h
        cases w with
        | nil => cases h
        | cons b w =>
          simp only [List.map_cons, List.cons.injEq, Prod.mk.injEq] at h ⊢
          exact ⟨⟨h.1.1, lt _ _ h.1.2⟩, ih w h.2⟩
    exact hmap rs l c2
  · show s2.errs = _
    rw [er2]
    show s.errs ++ _ = _
    rw [herrs]; rfl
  · intro j hj
    show (s2.heap ++ [_])[j]? = _
    have hl2 : s.heap.length ≤ s2.heap.length := f2.1
    have hj' : j < s.heap.length := by rw [hheap]; exact hj
    rw [List.getElem?_append_left (by omega), f2.2 j hj', ← hheap]

/-- The hypotheses of C29_literal_map: `(a: 4, b: 5)`. -/
example : ∃ l : List Entry, l ≠ [] ∧
    (∀ z ∈ l, G .cond z.item.ts z.item.e ∧ den demoEnv z.item.e = some (z.item.v, z.item.es)) ∧
    .sym .COMMA :: noWs [.ident b!"a", .sym .COLON, .sym .WHITESPACE, litInt 4, .sym .COMMA, .ident b!"b", .sym .COLON, litInt 5]
      = entries l := by
  refine ⟨[⟨b!"a", [litInt 4], .lit (.int 4 []), .int 4 [], []⟩, ⟨b!"b", [litInt 5], .lit (.int 5 []), .int 5 [], []⟩], by simp, ?_, rfl⟩
  intro z hz
  simp only [List.mem_cons, List.not_mem_nil, or_false] at hz
  rcases hz with rfl | rfl
  · exact ⟨.or _ _ (g_mul .or (.up _ _ _ (g_int 4))), rfl⟩
  · exact ⟨.or _ _ (g_mul .or (.up _ _ _ (g_int 5))), rfl⟩

end Csspp.Expr
