import Verif.Props.ExprGrammar

/-!
C29: the accesses `array[i]`, `map[i]`, `map[name]` and `map.name`.
-/

namespace Csspp.Expr
open Csspp.Flt

/-! ### Specification -/

/-- The position (from 0) of the item a user means by the index `i` in a list of `n` items: 1 is the
first one, -1 the last one, and anything else (0 included) is not in the list. -/
def position (n : Nat) (i : Int) : Option Nat :=
  if 1 ≤ i ∧ i ≤ n then some (i - 1).toNat
  else if -(n : Int) ≤ i ∧ i ≤ -1 then some (n + i).toNat
  else none

theorem position_lt {n : Nat} {i : Int} {p : Nat} (h : position n i = some p) : p < n := by
  unfold position at h
  split at h
  · cases h; omega
  · split at h
    · cases h; omega
    · cases h

theorem position_cases (n : Nat) (i : Int) :
    (1 ≤ i ∧ i ≤ n ∧ position n i = some (i - 1).toNat) ∨
    (-(n : Int) ≤ i ∧ i ≤ -1 ∧ position n i = some (n + i).toNat) ∨
    ((i < 0 → i < -(n : Int)) ∧ (0 < i → (n : Int) < i) ∧ position n i = none) := by
  unfold position
  by_cases h1 : 1 ≤ i ∧ i ≤ n
  · left; exact ⟨h1.1, h1.2, if_pos h1⟩
  · rw [if_neg h1]
    by_cases h2 : -(n : Int) ≤ i ∧ i ≤ -1
    · right; left; exact ⟨h2.1, h2.2, if_pos h2⟩
    · right; right; exact ⟨by omega, by omega, if_neg h2⟩

theorem toU64_neg {x : Int} (h : -9223372036854775808 ≤ x) (h2 : x < 0) : 9223372036854775808 ≤ toU64 x := by
  unfold toU64; omega

theorem toU64_pos {x : Int} (h : 0 ≤ x) (h2 : x ≤ 9223372036854775807) : (toU64 x : Int) = x := by
  unfold toU64; omega

/-- C29, arrays: exactly the item meant, else one error and no result. A vector never holds 2^62
pointers. -/
theorem C29_array (items : List Ref) (i : Int) (hi : IsI64 i) (hn : items.length < 4611686018427387904) :
    indexVal (.array items) (.int i []) =
      match position items.length i with
      | some p => .ret items[p]? []
      | none => .ret none [.indexRange] := by
  show indexInt (.array items) i = _
  unfold IsI64 at hi
  unfold indexInt
  dsimp only
  rcases position_cases items.length i with ⟨h1, h2, hp⟩ | ⟨h1, h2, hp⟩ | ⟨h1, h2, hp⟩
  · have := toU64_pos (x := i - 1) (by omega) (by omega)
    rw [if_neg (c := i < 0) (by omega), hp]
    have hc : ¬ items.length ≤ toU64 (i - 1) := by omega
    have e : toU64 (i - 1) = (i - 1).toNat := by omega
    rw [if_neg hc, e]
  · have := toU64_pos (x := (items.length : Int) + i) (by omega) (by omega)
    rw [if_pos (c := i < 0) (by omega), hp]
    have hc : ¬ items.length ≤ toU64 ((items.length : Int) + i) := by omega
    have e : toU64 ((items.length : Int) + i) = ((items.length : Int) + i).toNat := by omega
    rw [if_neg hc, e]
  · rw [hp]
    by_cases h0 : i < 0
    · have := toU64_neg (x := (items.length : Int) + i) (by omega) (by omega)
      rw [if_pos h0]
      have hc : items.length ≤ toU64 ((items.length : Int) + i) := by omega
      rw [if_pos hc]
    · rw [if_neg h0]
      have hc : items.length ≤ toU64 (i - 1) := by
        by_cases hz : i = 0
        · have := toU64_neg (x := i - 1) (by omega) (by omega)
          omega
        · have := toU64_pos (x := i - 1) (by omega) (by omega)
          omega
      rw [if_pos hc]

/-- C29, maps: the value of the entry meant, else one error and no result; the multiplication of the
index overflows (undefined behaviour) when it is more than 2^62 away from the map. -/
theorem C29_map (items : List (Str × Ref)) (i : Int) (hi : IsI64 i)
    (hn : items.length < 4611686018427387904) :
    indexVal (.map items) (.int i []) =
      if 4611686018427387904 < i ∨ i + items.length < -4611686018427387904 then .undef
      else
        match position items.length i with
        | some p => .ret (items[p]?.map (·.2)) []
        | none => .ret none [.indexRange] := by
  show indexInt (.map items) i = _
  unfold IsI64 at hi
  unfold indexInt
  dsimp only
  by_cases hu : 4611686018427387904 < i ∨ i + items.length < -4611686018427387904
  · rw [if_pos hu]
    by_cases h0 : i < 0
    · rw [if_pos h0]
      have hc : ¬ IsI64 (((items.length : Int) + i) * 2) := by unfold IsI64; omega
      rw [if_pos hc]
    · rw [if_neg h0]
      have hc : ¬ IsI64 ((i - 1) * 2) := by unfold IsI64; omega
      rw [if_pos hc]
  rw [if_neg hu]
  rcases position_cases items.length i with ⟨h1, h2, hp⟩ | ⟨h1, h2, hp⟩ | ⟨h1, h2, hp⟩
  · have := toU64_pos (x := (i - 1) * 2 + 1) (by omega) (by omega)
    rw [if_neg (c := i < 0) (by omega), hp]
    have hd : ¬ ¬ IsI64 ((i - 1) * 2) := by unfold IsI64; omega
    have hc : ¬ 2 * items.length ≤ toU64 ((i - 1) * 2 + 1) := by omega
    have e : toU64 ((i - 1) * 2 + 1) / 2 = (i - 1).toNat := by omega
    rw [if_neg hd, if_neg hc, e]
  · have := toU64_pos (x := ((items.length : Int) + i) * 2 + 1) (by omega) (by omega)
    rw [if_pos (c := i < 0) (by omega), hp]
    have hd : ¬ ¬ IsI64 (((items.length : Int) + i) * 2) := by unfold IsI64; omega
    have hc : ¬ 2 * items.length ≤ toU64 (((items.length : Int) + i) * 2 + 1) := by omega
    have e : toU64 (((items.length : Int) + i) * 2 + 1) / 2 = ((items.length : Int) + i).toNat := by omega
    rw [if_neg hd, if_neg hc, e]
  · rw [hp]
    by_cases h0 : i < 0
    · have := toU64_neg (x := ((items.length : Int) + i) * 2 + 1) (by omega) (by omega)
      rw [if_pos h0]
      have hd : ¬ ¬ IsI64 (((items.length : Int) + i) * 2) := by unfold IsI64; omega
      have hc : 2 * items.length ≤ toU64 (((items.length : Int) + i) * 2 + 1) := by omega
      rw [if_neg hd, if_pos hc]
    · rw [if_neg h0]
      have hd : ¬ ¬ IsI64 ((i - 1) * 2) := by unfold IsI64; omega
      have hc : 2 * items.length ≤ toU64 ((i - 1) * 2 + 1) := by
        by_cases hz : i = 0
        · have := toU64_neg (x := (i - 1) * 2 + 1) (by omega) (by omega)
          omega
        · have := toU64_pos (x := (i - 1) * 2 + 1) (by omega) (by omega)
          omega
      rw [if_neg hd, if_pos hc]

/-- C29: a name gives the value of the first entry of the map with that name. -/
theorem C29_name (pre post : List (Str × Ref)) (name : Str) (r : Ref) (h : ∀ p ∈ pre, p.1 ≠ name) :
    indexVal (.map (pre ++ (name, r) :: post)) (.str name) = .ret (some r) [] ∧
    indexVal (.map (pre ++ (name, r) :: post)) (.ident name) = .ret (some r) [] := by
  have e : (pre ++ (name, r) :: post).find? (fun p => p.1 == name) = some (name, r) := by
    rw [List.find?_append]
    have : pre.find? (fun p => p.1 == name) = none := by
      rw [List.find?_eq_none]
      intro x hx
      simpa using h x hx
    rw [this]
    simp
  constructor <;> simp [indexVal, indexName, e]

/-- C29: a name that is not in the map is an error. -/
theorem C29_name_unset (items : List (Str × Ref)) (name : Str) (h : ∀ p ∈ items, p.1 ≠ name) :
    indexVal (.map items) (.str name) = .ret none [.fieldUnset] ∧
    indexVal (.map items) (.ident name) = .ret none [.fieldUnset] := by
  have e : items.find? (fun p => p.1 == name) = none := by
    rw [List.find?_eq_none]
    intro x hx
    simpa using h x hx
  constructor <;> simp [indexVal, indexName, e]

/-! ### The whole expression -/

/-- The dimension of the index is not looked at. -/
theorem index_dim (v : Val Ref) (i : Int) (d : Str) : indexVal v (.int i d) = indexVal v (.int i []) := rfl

/-- `e[i]` on any primary expression. -/
theorem index_runs (env : Env) (n : Nat) (ts l k : List Tok) (e i : E) (v iv : Val Ref)
    (es fs gs : List Err) (r : Option Ref)
    (hv : Runs (unaryE env n) ts (.square l :: k) v es)
    (hl : l.head?.map Tok.isWs ≠ some true) (hg : G .cond (noWs l) i)
    (hi : Runs (conditional env n) (noWs l) [] iv fs) (hx : indexVal v iv = .ret r gs)
    (hk : Stop .prim (k.headD (.sym .EOF_TOKEN))) (s : St) (hs : At s (ts ++ .square l :: k))
    (hvars : s.vars = []) :
    ∃ s', postE env n s = .ok r s' ∧ At s' k ∧ s'.vars = [] ∧
      s'.errs = s.errs ++ es ++ fs ++ gs ∧ Frame s.heap s'.heap ∧
      (∀ q s1, unaryE env n s = .ok q s1 → Frame s1.heap s'.heap) := by
  obtain ⟨r1, s1, e1, p1⟩ := hv s hs hvars
  obtain ⟨r2, s2, e2, p2⟩ := group_runs _ l i (.square l :: k) iv fs hl hg hi s1 p1.pos p1.vars
  have hr1 := p1.other p2.frame
  have a3 := nextSt_at p2.pos
  have hf : Frame s.heap s2.heap := p1.frame.trans p2.frame
  refine ⟨{ nextSt s2 with errs := (nextSt s2).errs ++ gs }, ?_, a3, ?_, ?_, ?_, ?_⟩
  · unfold postE postF
    rw [bind_ok e1]
    dsimp only
    rw [bind_ok (show get' s1 = .ok s1 s1 from rfl), postLoop,
      bind_ok (show get' s1 = .ok s1 s1 from rfl), p1.pos.1, getHead]
    dsimp only
    rw [bind_ok e2]
    dsimp only
    have l1 : load r2 (nextSt s2) = .ok iv (nextSt s2) := by simp [load, nextSt_heap, p2.cell]
    have l2 : load r1 (nextSt s2) = .ok v (nextSt s2) := by simp [load, nextSt_heap, hr1]
    rw [bind_ok (next_eq s2), bind_ok l1, bind_ok l2, hx]
    have hfin : finishRef (.ret r gs) (nextSt s2) =
      .ok r { nextSt s2 with errs := (nextSt s2).errs ++ gs } := rfl
    rw [bind_ok hfin]
    cases r with
    | none => rfl
    | some r =>
      dsimp only
      have ha : At { nextSt s2 with errs := (nextSt s2).errs ++ gs } k := a3
      have hlen : s1.rest.length + 1 = (s1.rest.length) + 1 := rfl
      exact postLoop_stop _ _ _ _ (by rw [ha.1]; exact hk.1) (by rw [ha.1]; exact hk.2)
  · show (nextSt s2).vars = []
    rw [nextSt_vars]; exact p2.vars
  · show (nextSt s2).errs ++ gs = _
    rw [nextSt_errs, p2.errs, p1.errs]
  · show Frame _ (nextSt s2).heap
    rw [nextSt_heap]; exact hf
  · intro q s1' h
    rw [e1] at h
    cases h
    show Frame _ (nextSt s2).heap
    rw [nextSt_heap]; exact p2.frame

/-- Nothing follows: all the levels above post() return what it returns. -/
theorem compile_post (env : Env) (n : Nat) (s s' : St) (r : Option Ref)
    (h : postE env n s = .ok r s') (hs : At s' []) (hn : 2 ≤ n + 1) :
    conditional env (n + 2) s = .ok r s' := by
  have hcur : s'.cur = .sym .EOF_TOKEN := hs.1
  have lev : ∀ (op : Tok → Option BinOp) (sub : M (Option Ref)), op (.sym .EOF_TOKEN) = none →
      sub s = .ok r s' → binLevel op (apply env) sub s = .ok r s' := by
    intro op sub ho hsub
    unfold binLevel
    rw [bind_ok hsub]
    cases r with
    | none => rfl
    | some r =>
      dsimp only
      rw [bind_ok (show get' s' = .ok s' s' from rfl), binLoop,
        bind_ok (show get' s' = .ok s' s' from rfl), hcur, ho]
      rfl
  have hp : power env (n + 1) s = .ok r s' := by
    rw [power]
    unfold powerF
    have h' : postF (fun ts => group (conditional env n) ts) (unaryF env (power env n)
      (fun ts => group (conditional env n) ts)) s = .ok r s' := h
    rw [bind_ok h']
    cases r with
    | none => rfl
    | some r =>
      dsimp only
      rw [bind_ok (show get' s' = .ok s' s' from rfl), hcur]
      rfl
  have hl : logicalOr env (power env (n + 1)) s = .ok r s' :=
    lev _ _ rfl (lev _ _ rfl (lev _ _ rfl (lev _ _ rfl (lev _ _ rfl (lev _ _ rfl hp)))))
  rw [conditional]
  unfold condF
  rw [bind_ok hl]
  cases r with
  | none => rfl
  | some r =>
    dsimp only
    rw [bind_ok (show get' s' = .ok s' s' from rfl)]
    exact condLoop_stop _ _ _ _ (by rw [hcur]; simp)

/-- C29: `e[i]`, where `e` is a primary expression (a literal array or map, a variable replaced by its
value, a parenthesis...) and `i` any expression: the compilation returns the child said by
C29_array, C29_map and C29_name. -/
theorem C29_index (env : Env) (heap : List (Val Ref)) (ts l : List Tok) (e i : E) (v iv : Val Ref)
    (es fs gs : List Err) (r : Option Ref) (hw : ts.head?.map Tok.isWs ≠ some true)
    (hg : G .prim (noWs ts) e) (he : den env e = some (v, es))
    (hl : l.head?.map Tok.isWs ≠ some true) (hgi : G .cond (noWs l) i)
    (hi : den env i = some (iv, fs)) (hx : indexVal v iv = .ret r gs) :
    ∃ s, compile env heap (ts ++ [.square l]) = .ok r s ∧ s.errs = es ++ fs ++ gs ∧
      ∀ j, j < heap.length → s.heap[j]? = heap[j]? := by
  have hts : ts ≠ [] := by
    intro h
    subst h
    exact (g_shape hg).1 rfl
  have hw' : (ts ++ [Tok.square l]).head?.map Tok.isWs ≠ some true := by
    cases ts with
    | nil => exact absurd rfl hts
    | cons t ts => exact hw
  have hno : noWs (ts ++ [Tok.square l]) = noWs ts ++ .square l :: [] := by
    simp [noWs, Tok.isWs]
  have a := at_noWs hw' { heap := heap, errs := [], cur := .sym .EOF_TOKEN, rest := ts ++ [.square l], vars := [] }
  rw [hno] at a
  have hn1 := sizeAll_noWs ts
  have hn2 := sizeAll_noWs l
  obtain ⟨n, hn⟩ : ∃ n, 3 * sizeAll (ts ++ [.square l]) + 4 = n + 2 := ⟨_, rfl⟩
  simp only [sizeAll_append, sizeAll, Tok.size] at hn
  have h1 := good env hg v es he n [.square l] (by omega)
  have h2 := good env hgi iv fs hi n [] (by omega) stop_eof
  obtain ⟨s', e1, a', _, herr, hf, _⟩ := index_runs env n (noWs ts) l [] e i v iv es fs gs r h1 hl hgi h2 hx
    ⟨by simp, by simp⟩ _ a (by rw [nextSt_vars])
  refine ⟨s', ?_, ?_, ?_⟩
  · unfold compile
    rw [bind_ok (next_eq _)]
    have hn' : 3 * sizeAll (ts ++ [.square l]) + 4 = n + 2 := by
      simp only [sizeAll_append, sizeAll, Tok.size]; exact hn
    rw [hn']
    exact compile_post env n _ s' r e1 a' (by omega)
  · rw [herr, nextSt_errs]; simp
  · have := hf.2
    rw [nextSt_heap] at this
    exact this

/-! ### `(a, b, c)[i]` -/

/-- An item of a list: its tokens, its tree, its value and its errors. -/
structure Item where
  ts : List Tok
  e : E
  v : Val Ref
  es : List Err

/-- The items after the first one, each with its comma. -/
def commas (l : List Item) : List Tok := l.flatMap (fun x => .sym .COMMA :: x.ts)

theorem stop_comma : Stop .cond (.sym .COMMA) :=
  ⟨⟨by simp, by simp, by decide, by decide, fun _ => by decide, fun _ _ => by decide, fun _ => by decide,
    fun _ => by decide, fun _ => by decide⟩, by simp⟩

theorem stop_commas (l : List Item) : Stop .cond ((commas l).headD (.sym .EOF_TOKEN)) := by
  cases l with
  | nil => exact stop_eof
  | cons x l => exact stop_comma

theorem assignment_runs (cond : M (Option Ref)) (ts k : List Tok) (v : Val Ref) (es : List Err)
    (h : Runs cond ts k v es) (hk : (k.headD (.sym .EOF_TOKEN)).isSym .ASSIGNMENT = false) :
    Runs (assignment cond) ts k v es := by
  intro s hs hv
  obtain ⟨r, s1, e1, p⟩ := h s hs hv
  refine ⟨r, s1, ?_, p⟩
  unfold assignment
  rw [bind_ok e1]
  dsimp only
  rw [bind_ok (show load r s1 = .ok v s1 by simp [load, p.cell])]
  split
  · rw [bind_ok (show get' s1 = .ok s1 s1 from rfl), p.pos.1, if_neg (by rw [hk]; simp)]
    rfl
  · rfl

theorem commas_noAssign (l : List Item) :
    ((commas l).headD (.sym .EOF_TOKEN)).isSym .ASSIGNMENT = false := by
  cases l <;> rfl

theorem arrayLoop_runs (cond : M (Option Ref)) (l : List Item)
    (h : ∀ x ∈ l, ∀ k, Stop .cond (k.headD (.sym .EOF_TOKEN)) → Runs cond x.ts k x.v x.es) :
    ∀ (m : Nat) (acc : List Ref) (s : St), l.length + 1 ≤ m → At s (commas l) → s.vars = [] →
      ∃ rs s', arrayLoop cond m acc s = .ok (acc ++ rs) s' ∧ At s' [] ∧ s'.vars = [] ∧
        s'.errs = s.errs ++ l.flatMap (·.es) ∧ Frame s.heap s'.heap ∧
        rs.map (fun r => s'.heap[r]?) = l.map (fun x => some x.v) := by
  induction l with
  | nil =>
    intro m acc s hm hs hv
    obtain ⟨m, rfl⟩ : ∃ j, m = j + 1 := ⟨m - 1, by omega⟩
    refine ⟨[], s, ?_, hs, hv, by simp, Frame.refl _, rfl⟩
    have hcur : s.cur = .sym .EOF_TOKEN := hs.1
    rw [arrayLoop, bind_ok (show get' s = .ok s s from rfl), hcur, List.append_nil]
    rfl
  | cons x l ih =>
    intro m acc s hm hs hv
    obtain ⟨m, rfl⟩ : ∃ j, m = j + 1 := ⟨m - 1, by omega⟩
    have hs' : At s (.sym .COMMA :: (x.ts ++ commas l)) := hs
    obtain ⟨r, s1, e1, p⟩ := assignment_runs cond x.ts (commas l) x.v x.es
      (h x (by simp) _ (stop_commas l)) (commas_noAssign l) (nextSt s) (nextSt_at hs')
      (by rw [nextSt_vars]; exact hv)
    have p := p.next
    obtain ⟨rs, s2, e2, a2, v2, er2, f2, c2⟩ := ih (fun y hy => h y (by simp [hy])) m (acc ++ [r]) s1
      (by simp only [List.length_cons] at hm; omega) p.pos p.vars
    refine ⟨r :: rs, s2, ?_, a2, v2, ?_, p.frame.trans f2, ?_⟩
    · rw [arrayLoop, bind_ok (show get' s = .ok s s from rfl), hs'.1, getHead,
        if_pos (show Tok.isSym .COMMA (.sym .COMMA) = true from rfl), bind_ok (next_eq s), bind_ok e1]
      dsimp only
      rw [e2]
      simp [List.append_assoc]
    · rw [er2, p.errs]
      simp [List.append_assoc]
    · simp only [List.map_cons, c2, p.other f2]

theorem commas_length (l : List Item) : l.length ≤ (commas l).length := by
  induction l with
  | nil => simp [commas]
  | cons x l ih =>
    have : commas (x :: l) = .sym .COMMA :: (x.ts ++ commas l) := rfl
    rw [this]
    simp only [List.length_cons, List.length_append]
    omega

/-- C29: a list in parentheses, of two items or more, and an index: `(a, b, c)[i]` is the item meant,
with its value, whatever the expressions, or one more error and no result. -/
theorem C29_list (env : Env) (heap : List (Val Ref)) (x y : Item) (xs : List Item) (p l : List Tok) (i : E)
    (n : Int) (d : Str) (fs : List Err)
    (hitems : ∀ z ∈ x :: y :: xs, G .cond z.ts z.e ∧ den env z.e = some (z.v, z.es))
    (hp : p.head?.map Tok.isWs ≠ some true) (hno : noWs p = x.ts ++ commas (y :: xs))
    (hl : l.head?.map Tok.isWs ≠ some true) (hgi : G .cond (noWs l) i)
    (hi : den env i = some (.int n d, fs)) (hn : IsI64 n)
    (hlen : (x :: y :: xs).length < 4611686018427387904) :
    ∃ r s, compile env heap [.paren p, .square l] = .ok r s ∧
      (∀ j, j < heap.length → s.heap[j]? = heap[j]?) ∧
      match position (x :: y :: xs).length n with
      | some j => s.errs = (x :: y :: xs).flatMap (·.es) ++ fs ∧
          r.bind (fun r => s.heap[r]?) = ((x :: y :: xs)[j]?).map (·.v) ∧ r.isSome
      | none => s.errs = (x :: y :: xs).flatMap (·.es) ++ fs ++ [.indexRange] ∧ r = none := by
  obtain ⟨m, hm⟩ : ∃ m, 3 * sizeAll [.paren p, .square l] + 4 = m + 2 := ⟨_, rfl⟩
  have hs0 := sizeAll_noWs p
  have hs1 := sizeAll_noWs l
  have hm' := hm
  simp only [sizeAll, Tok.size] at hm'
  -- the items
  have hsize : ∀ z ∈ x :: y :: xs, sizeAll z.ts ≤ sizeAll p := by
    intro z hz
    refine Nat.le_trans ?_ hs0
    rw [hno]
    rcases List.mem_cons.mp hz with rfl | hz
    · rw [sizeAll_append]; omega
    · rw [sizeAll_append]
      have : ∀ (q : List Item), z ∈ q → sizeAll z.ts ≤ sizeAll (commas q) := by
        intro q
        induction q with
        | nil => intro h; cases h
        | cons a q ih =>
          intro h
          have e : commas (a :: q) = .sym .COMMA :: (a.ts ++ commas q) := rfl
          rw [e]
          simp only [sizeAll, sizeAll_append]
          rcases List.mem_cons.mp h with rfl | h
          · omega
          · have := ih h; omega
      have := this _ hz
      omega
  have hrun : ∀ z ∈ x :: y :: xs, ∀ k, Stop .cond (k.headD (.sym .EOF_TOKEN)) →
      Runs (conditional env m) z.ts k z.v z.es := by
    intro z hz k hk
    have := hsize z hz
    exact good env (hitems z hz).1 z.v z.es (hitems z hz).2 m k (by omega) hk
  -- the parenthesis
  have hgrp : ∀ (k : List Tok) (s : St), At s k → s.vars = [] →
      ∃ a rs s', group (conditional env m) p s = .ok (some a) s' ∧
        Post s s' k a (.array rs) ((x :: y :: xs).flatMap (·.es)) ∧
        rs.map (fun r => s'.heap[r]?) = (x :: y :: xs).map (fun x => some x.v) := by
    intro k s hs hv
    have a0 := at_noWs hp s
    rw [hno] at a0
    obtain ⟨r, s1, e1, p1⟩ := assignment_runs _ x.ts (commas (y :: xs)) x.v x.es
      (hrun x (by simp) _ (stop_commas _)) (commas_noAssign _) _ a0 (by rw [nextSt_vars])
    obtain ⟨rs, s2, e2, a2, v2, er2, f2, c2⟩ := arrayLoop_runs (conditional env m) (y :: xs)
      (fun z hz => hrun z (by simp only [List.mem_cons] at hz ⊢; right; exact hz)) (s1.rest.length + 2) [r] s1
      (by
        have := at_length p1.pos
        have := commas_length (y :: xs)
        omega) p1.pos p1.vars
    have hlab : isLabel (nextSt { s with cur := .sym .EOF_TOKEN, rest := p, vars := [] }) = none := by
      apply isLabel_none a0
      have hg := g_shape (hitems x (by simp)).1
      refine ⟨by simp [commas], ?_⟩
      intro name rest e
      rcases hx : x.ts with _ | ⟨t, _ | ⟨u, w⟩⟩
      · exact hg.1 hx
      · rw [hx] at e
        simp [commas] at e
      · rw [hx] at e
        simp only [List.cons_append, List.cons.injEq] at e
        exact hg.2 name w (by rw [hx, e.1, e.2.1])
    have hx : exprList (conditional env m) (nextSt { s with cur := .sym .EOF_TOKEN, rest := p, vars := [] }) =
        .ok (some s2.heap.length) { s2 with heap := s2.heap ++ [.array (r :: rs)] } := by
      unfold exprList
      rw [bind_ok (show get' _ = .ok _ _ from rfl), hlab]
      dsimp only
      rw [bind_ok e1]
      dsimp only
      have hcur : s1.cur = .sym .COMMA := p1.pos.1
      rw [bind_ok (show get' s1 = .ok s1 s1 from rfl), hcur,
        if_pos (show Tok.isSym .COMMA (.sym .COMMA) = true from rfl),
        bind_ok (show get' s1 = .ok s1 s1 from rfl), bind_ok e2]
      rfl
    have l1 := p1.frame.1
    have fr1 := p1.frame.2
    rw [nextSt_heap] at l1 fr1
    have l2 := f2.1
    simp only at l1
    refine ⟨s2.heap.length, r :: rs, { s2 with heap := s2.heap ++ [.array (r :: rs)], cur := s.cur, rest := s.rest, vars := s.vars }, ?_, ?_, ?_⟩
    · unfold group
      rw [bind_ok (show get' s = .ok s s from rfl)]
      rw [bind_ok (m := fun s => R.ok () { s with cur := Tok.sym .EOF_TOKEN, rest := p, vars := [] })
        (s := s) (s' := { s with cur := Tok.sym .EOF_TOKEN, rest := p, vars := [] }) (v := ()) rfl]
      rw [bind_ok (next_eq _), bind_ok hx]
      rfl
    · refine ⟨hs, hv, ?_, by omega, by simp, ?_, ?_⟩
      · show s2.errs = _
        rw [er2, p1.errs, nextSt_errs]
        simp [List.append_assoc]
      · show _ ≤ (s2.heap ++ [_]).length
        simp only [List.length_append]
        omega
      · intro j hj
        show (s2.heap ++ [_])[j]? = _
        rw [List.getElem?_append_left (by omega), f2.2 j (by omega), fr1 j hj]
    · have fz : ∀ (q : Ref) (w : Val Ref), s2.heap[q]? = some w → (s2.heap ++ [Val.array (r :: rs)])[q]? = some w := by
        intro q w hq
        have : q < s2.heap.length := (List.getElem?_eq_some_iff.mp hq).1
        rw [List.getElem?_append_left this, hq]
      show (r :: rs).map (fun r => (s2.heap ++ [Val.array (_ :: rs)])[r]?) = _
      have hmap : ∀ (q : List Ref) (w : List (Val Ref)), q.map (fun r => s2.heap[r]?) = w.map some →
          q.map (fun q => (s2.heap ++ [Val.array (r :: rs)])[q]?) = w.map some := by
        intro q
        induction q with
        | nil => intro w h; exact h
        | cons a q ih =>
          intro w h
          cases w with
          | nil => cases h
          | cons b w =>
            simp only [List.map_cons, List.cons.injEq] at h ⊢
            exact ⟨fz a b h.1, ih w h.2⟩
      have := hmap (r :: rs) ((x :: y :: xs).map (·.v)) (by
        simp only [List.map_cons, p1.other f2]
        rw [c2]
        simp [List.map_map, Function.comp_def])
      rw [this]
      simp [List.map_map, Function.comp_def]
  -- the whole
  have hw' : [Tok.paren p, Tok.square l].head?.map Tok.isWs ≠ some true := by simp [Tok.isWs]
  have a := at_noWs hw' { heap := heap, errs := [], cur := .sym .EOF_TOKEN, rest := [.paren p, .square l], vars := [] }
  have hno2 : noWs [Tok.paren p, Tok.square l] = [.paren p, .square l] := by simp [noWs, Tok.isWs]
  rw [hno2] at a
  obtain ⟨ar, rs, s1, e1, p1, c1⟩ := hgrp [.square l] (nextSt (nextSt _)) (nextSt_at a)
    (by rw [nextSt_vars, nextSt_vars])
  have hun : unaryE env m (nextSt { heap := heap, errs := [], cur := .sym .EOF_TOKEN, rest := [.paren p, .square l], vars := [] })
      = .ok (some ar) s1 := by
    unfold unaryE unaryF
    rw [bind_ok (show get' _ = .ok _ _ from rfl), a.1, getHead]
    dsimp only
    rw [bind_ok (next_eq _)]
    exact e1
  obtain ⟨r2, s2, e2, p2⟩ := group_runs _ l i [.square l] (.int n d) fs hl hgi
    (good env hgi _ fs hi m [] (by omega) stop_eof) s1 p1.pos p1.vars
  have hlenrs : rs.length = (x :: y :: xs).length := by
    have := congrArg List.length c1
    simpa using this
  have hidx : indexVal (.array rs) (.int n d) = _ := (index_dim _ _ _).trans (C29_array rs n hn (by omega))
  have hpost : ∀ q gs, indexVal (.array rs) (.int n d) = .ret q gs →
      postE env m (nextSt { heap := heap, errs := [], cur := .sym .EOF_TOKEN, rest := [.paren p, .square l], vars := [] })
        = .ok q { nextSt s2 with errs := (nextSt s2).errs ++ gs } := by
    intro q gs hq
    unfold postE postF
    rw [bind_ok hun]
    dsimp only
    rw [bind_ok (show get' s1 = .ok s1 s1 from rfl), postLoop,
      bind_ok (show get' s1 = .ok s1 s1 from rfl), p1.pos.1, getHead]
    dsimp only
    rw [bind_ok e2]
    dsimp only
    have l1 : load r2 (nextSt s2) = .ok (.int n d) (nextSt s2) := by simp [load, nextSt_heap, p2.cell]
    have l2 : load ar (nextSt s2) = .ok (.array rs) (nextSt s2) := by
      simp [load, nextSt_heap, p1.other p2.frame]
    rw [bind_ok (next_eq s2), bind_ok l1, bind_ok l2, hq]
    have hfin : finishRef (.ret q gs) (nextSt s2) =
      .ok q { nextSt s2 with errs := (nextSt s2).errs ++ gs } := rfl
    rw [bind_ok hfin]
    cases q with
    | none => rfl
    | some q =>
      dsimp only
      have hc : (nextSt s2).cur = .sym .EOF_TOKEN := (nextSt_at p2.pos).1
      exact postLoop_stop _ _ _ _ (by show ∀ l, (nextSt s2).cur ≠ _; rw [hc]; simp)
        (by show (nextSt s2).cur ≠ _; rw [hc]; simp)
  have hcomp : ∀ q gs, indexVal (.array rs) (.int n d) = .ret q gs →
      compile env heap [.paren p, .square l] = .ok q { nextSt s2 with errs := (nextSt s2).errs ++ gs } := by
    intro q gs hq
    unfold compile
    rw [bind_ok (next_eq _), hm]
    exact compile_post env m _ _ q (hpost q gs hq) (nextSt_at p2.pos) (by omega)
  have herr : (nextSt s2).errs = (x :: y :: xs).flatMap (·.es) ++ fs := by
    rw [nextSt_errs, p2.errs, p1.errs, nextSt_errs, nextSt_errs]
    simp
  have hfr : ∀ j, j < heap.length → s2.heap[j]? = heap[j]? := by
    intro j hj
    have f1 := p1.frame.2 j (by rw [nextSt_heap, nextSt_heap]; exact hj)
    have l1 := p1.frame.1
    rw [nextSt_heap, nextSt_heap] at f1 l1
    rw [p2.frame.2 j (by simp only at l1; omega), f1]
  rw [hlenrs] at hidx
  cases hpos : position (x :: y :: xs).length n with
  | none =>
    rw [hpos] at hidx
    refine ⟨none, _, hcomp _ _ hidx, ?_, ?_, rfl⟩
    · intro j hj
      show (nextSt s2).heap[j]? = _
      rw [nextSt_heap, hfr j hj]
    · show (nextSt s2).errs ++ _ = _
      rw [herr]
  | some j =>
    rw [hpos] at hidx
    have hj := position_lt hpos
    refine ⟨rs[j]?, _, hcomp _ _ hidx, ?_, ?_, ?_, ?_⟩
    · intro j hj
      show (nextSt s2).heap[j]? = _
      rw [nextSt_heap, hfr j hj]
    · show (nextSt s2).errs ++ _ = _
      rw [herr, List.append_nil]
    · show rs[j]?.bind (fun r => (nextSt s2).heap[r]?) = _
      rw [nextSt_heap]
      have hjr : j < rs.length := by omega
      have hc := congrArg (fun l => l[j]?) c1
      simp only [List.getElem?_map] at hc
      rw [List.getElem?_eq_getElem hjr] at hc ⊢
      rw [List.getElem?_eq_getElem hj] at hc ⊢
      simp only [Option.map_some, Option.some.injEq] at hc
      simp only [Option.bind_some, Option.map_some]
      have : rs[j] < s1.heap.length := (List.getElem?_eq_some_iff.mp hc).1
      rw [p2.frame.2 _ this, hc]
    · rw [List.getElem?_eq_getElem (by omega)]
      rfl

/-! ### Examples -/

example : position 3 1 = some 0 ∧ position 3 3 = some 2 ∧ position 3 (-1) = some 2 ∧ position 3 (-3) = some 0 ∧
    position 3 0 = none ∧ position 3 4 = none ∧ position 3 (-4) = none := by decide

/-- `(4, 5, 6)[2]`, `(4, 5, 6)[-1]` and `(4, 5, 6)[0]`. -/
example : intResult (compile demoEnv [] [.paren [litInt 4, .sym .COMMA, litInt 5, .sym .COMMA, litInt 6],
    .square [litInt 2]]) = some 5 := by decide +kernel
example : intResult (compile demoEnv [] [.paren [litInt 4, .sym .COMMA, litInt 5, .sym .COMMA, litInt 6],
    .square [.sym .SUBTRACT, litInt 1]]) = some 6 := by decide +kernel
example : intResult (compile demoEnv [] [.paren [litInt 4, .sym .COMMA, litInt 5, .sym .COMMA, litInt 6],
    .square [litInt 0]]) = none := by decide +kernel
/-- The hypotheses of C29_list: `(4, 5)[2]`. -/
example : ∀ z ∈ [Item.mk [litInt 4] (.lit (.int 4 [])) (.int 4 []) [], Item.mk [litInt 5] (.lit (.int 5 [])) (.int 5 []) []],
    G .cond z.ts z.e ∧ den demoEnv z.e = some (z.v, z.es) := by
  intro z hz
  simp only [List.mem_cons, List.not_mem_nil, or_false] at hz
  rcases hz with rfl | rfl
  · exact ⟨.or _ _ (g_mul .or (.up _ _ _ (g_int 4))), rfl⟩
  · exact ⟨.or _ _ (g_mul .or (.up _ _ _ (g_int 5))), rfl⟩

end Csspp.Expr
