import Verif.Model.ExprEval

/-!
C30: operator precedence and associativity.

The grammar of expressions is given as an inductive relation between the tokens, the tree of the
operators and a level; the value of a tree is given by the operators alone. The theorem says that
compiling the tokens gives the value of the tree.
-/

namespace Csspp.Expr
open Csspp.Flt

/-- The operators of an expression. -/
inductive E where
  | lit (v : Val Ref)
  | ident (s : Str)
  | hash (s : Str)
  | call (name : Str) (args : List Tok)
  | neg (e : E)
  | pow (a b : E)
  | bin (op : BinOp) (a b : E)
  | cond (c a b : E)

/-- The levels of the grammar, from the tightest one. -/
inductive Lvl where
  | prim | unary | power | bin (b : Bin) | cond

/-- The level of the right operands of a level of binary operators (and of its first operand). -/
def below : Bin → Lvl
  | .mul => .power
  | .add => .bin .mul
  | .rel => .bin .add
  | .equ => .bin .rel
  | .and => .bin .equ
  | .or => .bin .and

/-- The tokens that are not WHITESPACE. -/
def noWs (l : List Tok) : List Tok := l.filter (fun t => !t.isWs)

/-- The grammar. `G lvl ts e`: the tokens `ts` are an expression of that level and mean `e`. -/
inductive G : Lvl → List Tok → E → Prop where
  | lit (v) : G .prim [.lit v] (.lit v)
  | ident (s) : G .prim [.ident s] (.ident s)
  | hash (s) : G .prim [.hash s] (.hash s)
  | call (name args) : G .prim [.func name args] (.call name args)
  | paren (l e) : l.head?.map Tok.isWs ≠ some true → G .cond (noWs l) e → G .prim [.paren l] e
  | prim (ts e) : G .prim ts e → G .unary ts e
  | plus (ts e) : G .power ts e → G .unary (.sym .ADD :: ts) e
  | minus (ts e) : G .power ts e → G .unary (.sym .SUBTRACT :: ts) (.neg e)
  | unary (ts e) : G .unary ts e → G .power ts e
  | power (ts1 t ts2 a b) : G .prim ts1 a → powOf t = true → G .unary ts2 b →
      G .power (ts1 ++ t :: ts2) (.pow a b)
  | up (b ts e) : G (below b) ts e → G (.bin b) ts e
  /-- left associative -/
  | bin (b op ts1 t ts2 x y) : G (.bin b) ts1 x → opOf b t = some op → G (below b) ts2 y →
      G (.bin b) (ts1 ++ t :: ts2) (.bin op x y)
  | or (ts e) : G (.bin .or) ts e → G .cond ts e
  | cond (ts1 ts2 ts3 c a b) : G (.bin .or) ts1 c → G .cond ts2 a → G .cond ts3 b →
      G .cond (ts1 ++ .sym .CONDITIONAL :: ts2 ++ .sym .COLON :: ts3) (.cond c a b)

/-- A value and the errors reported, when there is a value. -/
def value : Out (Val Ref) → Option (Val Ref × List Err)
  | .ret (some v) es => some (v, es)
  | _ => none

/-- A binary operator on values. -/
def opVal (env : Env) : BinOp → Val Ref → Val Ref → Out (Val Ref)
  | .mul op, a, b => mulOp env.font op a b
  | .add s, a, b => addOp s a b
  | .cmp op, a, b => cmpOp op a b
  | .logic o, a, b => logicOp o a b

/-- The value of a tree and the errors reported, in the order of the evaluation. `none` when a part
of it has no value (including the branch of ?: that is not chosen). -/
def den (env : Env) : E → Option (Val Ref × List Err)
  | .lit v => some (v, [])
  | .ident s => some (identVal s, [])
  | .hash s => (Color.setName s false).map (fun c => (.color c, []))
  | .call name args =>
    match env.call name args with
    | (some v, es) => some (v, es)
    | (none, _) => none
  | .neg e =>
    match den env e with
    | none => none
    | some (v, es) => (value (negOp v)).map (fun p => (p.1, es ++ p.2))
  | .pow a b =>
    match den env a, den env b with
    | some (x, es), some (y, fs) => (value (powOp env.pow x y)).map (fun p => (p.1, es ++ fs ++ p.2))
    | _, _ => none
  | .bin op a b =>
    match den env a, den env b with
    | some (x, es), some (y, fs) => (value (opVal env op x y)).map (fun p => (p.1, es ++ fs ++ p.2))
    | _, _ => none
  | .cond c a b =>
    match den env c, den env a, den env b with
    | some (x, es), some (y, fs), some (z, gs) =>
      match boolVal x with
      | .ret true hs => some (y, es ++ hs ++ fs)
      | .ret false hs => some (z, es ++ hs ++ gs)
      | _ => none
    | _, _, _ => none

/-! ### The proof -/

theorem bind_ok {β γ : Type} {m : M β} {f : β → M γ} {s s' : St} {v : β} (h : m s = .ok v s') :
    (m >>= f) s = f v s' := by
  show (match m s with
    | .ok v s' => f v s'
    | .undef => .undef
    | .throws => .throws
    | .fuel => .fuel) = _
  rw [h]

/-- The tokens left to read, without the WHITESPACE ones. -/
def At (s : St) (k : List Tok) : Prop :=
  s.cur = k.headD (.sym .EOF_TOKEN) ∧ noWs s.rest = k.tail ∧ s.rest.head?.map Tok.isWs ≠ some true

theorem noWs_dropWs (l : List Tok) : noWs (dropWs l) = noWs l := by
  induction l with
  | nil => rfl
  | cons t l ih =>
    unfold dropWs
    cases h : t.isWs
    · rw [if_neg (by simp)]
    · rw [if_pos rfl, ih]
      simp [noWs, h]

theorem head_dropWs (l : List Tok) : (dropWs l).head?.map Tok.isWs ≠ some true := by
  induction l with
  | nil => exact fun h => by cases h
  | cons t l ih =>
    unfold dropWs
    cases h : t.isWs
    · rw [if_neg (by simp)]
      simp [h]
    · rw [if_pos rfl]
      exact ih

/-- The state after next(). -/
def nextSt (s : St) : St :=
  match s.rest with
  | [] => { s with cur := .sym .EOF_TOKEN }
  | t :: ts => { s with cur := t, rest := dropWs ts }

theorem next_eq (s : St) : next s = .ok () (nextSt s) := by
  unfold next nextSt
  split <;> simp_all

theorem nextSt_at {s : St} {t : Tok} {k : List Tok} (h : At s (t :: k)) : At (nextSt s) k := by
  obtain ⟨h1, h2, h3⟩ := h
  simp only [List.tail_cons] at h2
  unfold nextSt
  cases hr : s.rest with
  | nil =>
    rw [hr] at h2
    subst h2
    refine ⟨rfl, rfl, fun h => by cases h⟩
  | cons u us =>
    rw [hr] at h2 h3
    have hu : u.isWs = false := by
      cases hb : u.isWs
      · rfl
      · exact absurd (by simp [hb]) h3
    have e : k = u :: noWs us := by
      rw [← h2]
      simp [noWs, hu]
    subst e
    exact ⟨rfl, noWs_dropWs us, head_dropWs us⟩

theorem nextSt_heap (s : St) : (nextSt s).heap = s.heap := by unfold nextSt; split <;> rfl
theorem nextSt_errs (s : St) : (nextSt s).errs = s.errs := by unfold nextSt; split <;> rfl
theorem nextSt_vars (s : St) : (nextSt s).vars = s.vars := by unfold nextSt; split <;> rfl

/-- Only new nodes. -/
def Frame (h h' : List (Val Ref)) : Prop :=
  h.length ≤ h'.length ∧ ∀ i, i < h.length → h'[i]? = h[i]?

theorem Frame.refl (h : List (Val Ref)) : Frame h h := ⟨Nat.le_refl _, fun _ _ => rfl⟩
theorem Frame.trans {a b c : List (Val Ref)} (h1 : Frame a b) (h2 : Frame b c) : Frame a c :=
  ⟨Nat.le_trans h1.1 h2.1, fun i hi => by rw [h2.2 i (Nat.lt_of_lt_of_le hi h1.1), h1.2 i hi]⟩

/-- The state `s'` after an evaluation that started in `s` and returned the node `r`. -/
structure Post (s s' : St) (k : List Tok) (r : Ref) (v : Val Ref) (es : List Err) : Prop where
  pos : At s' k
  vars : s'.vars = []
  errs : s'.errs = s.errs ++ es
  fresh : s.heap.length ≤ r
  cell : s'.heap[r]? = some v
  frame : Frame s.heap s'.heap

/-- The function evaluates the tokens `ts` in front of `k`. -/
def Runs (m : M (Option Ref)) (ts k : List Tok) (v : Val Ref) (es : List Err) : Prop :=
  ∀ s, At s (ts ++ k) → s.vars = [] → ∃ r s', m s = .ok (some r) s' ∧ Post s s' k r v es

/-- The function evaluates the tokens `ts`, then is in its loop. -/
def Cont (op : Tok → Option BinOp) (ap : BinOp → Ref → Ref → M (Option Ref)) (sub : M (Option Ref))
    (ts k : List Tok) (v : Val Ref) (es : List Err) : Prop :=
  ∀ s, At s (ts ++ k) → s.vars = [] → ∃ r s' m, binLevel op ap sub s = binLoop op sub ap m r s' ∧
    k.length + 1 ≤ m ∧ Post s s' k r v es

theorem at_length {s : St} {k : List Tok} (h : At s k) : k.length ≤ s.rest.length + 1 := by
  have : k.tail.length ≤ s.rest.length := by
    rw [← h.2.1]
    exact List.length_filter_le _ _
  cases k with
  | nil => simp
  | cons t k => simpa using this

theorem Post.mono {s s1 s2 : St} {k1 k : List Tok} {r1 r : Ref} {v1 v : Val Ref} {es1 es : List Err}
    (h1 : Post s s1 k1 r1 v1 es1) (h2 : Post s1 s2 k r v es) : Post s s2 k r v (es1 ++ es) :=
  ⟨h2.pos, h2.vars, by rw [h2.errs, h1.errs, List.append_assoc],
    Nat.le_trans h1.frame.1 h2.fresh, h2.cell, h1.frame.trans h2.frame⟩

theorem Post.other {s s1 : St} {k1 : List Tok} {r1 : Ref} {v1 : Val Ref} {es1 : List Err}
    (h1 : Post s s1 k1 r1 v1 es1) {h' : List (Val Ref)} (hf : Frame s1.heap h') : h'[r1]? = some v1 := by
  have hr : r1 < s1.heap.length := by
    have := h1.cell
    rw [List.getElem?_eq_some_iff] at this
    exact this.1
  rw [hf.2 r1 hr]
  exact h1.cell

/-- next() in front of an evaluation. -/
theorem Post.next {s s' : St} {k : List Tok} {r : Ref} {v : Val Ref} {es : List Err}
    (h : Post (nextSt s) s' k r v es) : Post s s' k r v es :=
  ⟨h.pos, h.vars, by rw [h.errs, nextSt_errs], by rw [← nextSt_heap s]; exact h.fresh, h.cell,
    by rw [← nextSt_heap s]; exact h.frame⟩

/-- An operator applied to two nodes: `s1` is the state when it is called. -/
theorem apply_spec (env : Env) (op : BinOp) (s : St) (l r : Ref) (a b v : Val Ref) (es : List Err)
    (hl : s.heap[l]? = some a) (hr : s.heap[r]? = some b)
    (hv : opVal env op a b = .ret (some v) es) :
    ∃ r' h', apply env op l r s = .ok (some r') { s with heap := h', errs := s.errs ++ es } ∧
      h'[r']? = some v ∧ min l r ≤ r' ∧ (∀ n, n ≤ l → n ≤ r → n ≤ s.heap.length → n ≤ r') ∧
      s.heap.length ≤ h'.length ∧ ∀ i, i < l → i < r → h'[i]? = s.heap[i]? := by
  have hfin : ∀ (place : Option Ref), (∀ p, place = some p → p = l ∨ p = r) →
      ∃ r' h', finish place (.ret (some v) es) s =
        .ok (some r') { s with heap := h', errs := s.errs ++ es } ∧
      h'[r']? = some v ∧ min l r ≤ r' ∧ (∀ n, n ≤ l → n ≤ r → n ≤ s.heap.length → n ≤ r') ∧
      s.heap.length ≤ h'.length ∧ ∀ i, i < l → i < r → h'[i]? = s.heap[i]? := by
    intro place hp
    have hll : l < s.heap.length := (List.getElem?_eq_some_iff.mp hl).1
    have hrl : r < s.heap.length := (List.getElem?_eq_some_iff.mp hr).1
    cases place with
    | none =>
      refine ⟨s.heap.length, s.heap ++ [v], rfl, by simp, by omega, fun n _ _ h => h, by simp, ?_⟩
      intro i hi _
      rw [List.getElem?_append_left (by omega)]
    | some p =>
      have hpl : p < s.heap.length := by
        rcases hp p rfl with rfl | rfl
        · exact hll
        · exact hrl
      refine ⟨p, s.heap.set p v, rfl, by simp [hpl], ?_, ?_, by simp, ?_⟩
      · rcases hp p rfl with rfl | rfl <;> omega
      · intro n h1 h2 _
        rcases hp p rfl with rfl | rfl <;> omega
      · intro i h1 h2
        rw [List.getElem?_set_ne]
        rcases hp p rfl with rfl | rfl <;> omega
  have e1 : load l s = .ok a s := by simp [load, hl]
  have e2 : load r s = .ok b s := by simp [load, hr]
  unfold apply
  rw [bind_ok e1, bind_ok e2]
  cases op with
  | mul op =>
    dsimp only [opVal] at hv ⊢
    rw [hv]
    apply hfin
    intro p hp
    cases hm : mulNode a b with
    | none => rw [hm] at hp; cases hp
    | some x =>
      rw [hm] at hp
      cases x
      · left; cases hp; rfl
      · right; cases hp; rfl
  | add x =>
    dsimp only [opVal] at hv ⊢
    rw [hv]
    exact hfin none (fun p h => by cases h)
  | logic x =>
    dsimp only [opVal] at hv ⊢
    rw [hv]
    exact hfin none (fun p h => by cases h)
  | cmp op =>
    dsimp only [opVal] at hv ⊢
    by_cases hc : comparable a b = true
    · rw [if_pos hc, hv]
      exact hfin none (fun p h => by cases h)
    · rw [if_neg hc]
      rw [cmpOp, if_neg hc] at hv
      cases hv
      have hll : l < s.heap.length := (List.getElem?_eq_some_iff.mp hl).1
      exact ⟨l, s.heap, rfl, hl, by omega, fun n h _ _ => h, Nat.le_refl _, fun _ _ _ => rfl⟩

/-- The first operand alone. -/
theorem cont_base (op : Tok → Option BinOp) (ap : BinOp → Ref → Ref → M (Option Ref))
    (sub : M (Option Ref)) (ts k : List Tok) (v : Val Ref) (es : List Err)
    (h : Runs sub ts k v es) : Cont op ap sub ts k v es := by
  intro s hs hv
  obtain ⟨r, s', h1, h2⟩ := h s hs hv
  refine ⟨r, s', s'.rest.length + 2, ?_, ?_, h2⟩
  · unfold binLevel
    rw [bind_ok h1]
    rfl
  · have := at_length h2.pos
    omega

/-- One more operator. -/
theorem cont_step (env : Env) (op : Tok → Option BinOp) (sub : M (Option Ref))
    (ts1 ts2 k : List Tok) (t : Tok) (o : BinOp) (x y v : Val Ref) (es fs gs : List Err)
    (h1 : Cont op (apply env) sub ts1 (t :: (ts2 ++ k)) x es) (ho : op t = some o)
    (h2 : Runs sub ts2 k y fs) (hv : opVal env o x y = .ret (some v) gs) :
    Cont op (apply env) sub (ts1 ++ t :: ts2) k v (es ++ fs ++ gs) := by
  intro s hs hvars
  rw [List.append_assoc, List.cons_append] at hs
  obtain ⟨r1, s1, m, e1, hm, p1⟩ := h1 s hs hvars
  obtain ⟨m, rfl⟩ : ∃ j, m = j + 1 := ⟨m - 1, by omega⟩
  have hcur : s1.cur = t := p1.pos.1
  obtain ⟨r2, s2, e2, p2⟩ := h2 (nextSt s1) (nextSt_at p1.pos) (by rw [nextSt_vars]; exact p1.vars)
  have p2 := p2.next
  have hx := p1.other p2.frame
  obtain ⟨r3, h3, e3, c3, b3, b4, l3, f3⟩ := apply_spec env o s2 r1 r2 x y v gs hx p2.cell hv
  refine ⟨r3, { s2 with heap := h3, errs := s2.errs ++ gs }, m, ?_, ?_, ?_⟩
  · rw [e1, binLoop]
    rw [bind_ok (show get' s1 = .ok s1 s1 from rfl)]
    rw [hcur, ho]
    dsimp only
    rw [bind_ok (next_eq s1), bind_ok e2]
    dsimp only
    rw [bind_ok e3]
  · simp only [List.length_cons, List.length_append] at hm
    omega
  · have hr1 : s.heap.length ≤ r1 := p1.fresh
    have hr2 : s1.heap.length ≤ r2 := p2.fresh
    have hf1 := p1.frame.1
    have hf2 := p2.frame.1
    refine ⟨p2.pos, p2.vars, ?_, ?_, c3, ?_, ?_⟩
    · show s2.errs ++ gs = _
      rw [p2.errs, p1.errs]
      simp [List.append_assoc]
    · exact b4 _ hr1 (by omega) (by omega)
    · show _ ≤ h3.length
      omega
    · intro i hi
      show h3[i]? = _
      rw [f3 i (by omega) (by omega), p2.frame.2 i (by omega), p1.frame.2 i hi]

/-- The end of the loop. -/
theorem cont_runs (op : Tok → Option BinOp) (ap : BinOp → Ref → Ref → M (Option Ref))
    (sub : M (Option Ref)) (ts k : List Tok) (v : Val Ref) (es : List Err)
    (h : Cont op ap sub ts k v es) (hk : op (k.headD (.sym .EOF_TOKEN)) = none) :
    Runs (binLevel op ap sub) ts k v es := by
  intro s hs hvars
  obtain ⟨r, s', m, e, hm, p⟩ := h s hs hvars
  obtain ⟨m, rfl⟩ : ∃ j, m = j + 1 := ⟨m - 1, by omega⟩
  refine ⟨r, s', ?_, p⟩
  rw [e, binLoop, bind_ok (show get' s' = .ok s' s' from rfl)]
  rw [p.pos.1, hk]
  rfl

/-- The token after the operands of the binary operators does not continue them. -/
def StopBin (b : Bin) (t : Tok) : Prop :=
  (∀ l, t ≠ .square l) ∧ t ≠ .sym .PERIOD ∧ powOf t = false ∧
    mulOf t = none ∧ (b ≠ .mul → addOf t = none) ∧
    (b ≠ .mul → b ≠ .add → relOf t = none) ∧
    (b = .equ ∨ b = .and ∨ b = .or → equOf t = none) ∧
    (b = .and ∨ b = .or → andOf t = none) ∧ (b = .or → orOf t = none)

/-- The token after an expression of a level does not continue it. -/
def Stop : Lvl → Tok → Prop
  | .prim, t => (∀ l, t ≠ .square l) ∧ t ≠ .sym .PERIOD
  | .unary, t => (∀ l, t ≠ .square l) ∧ t ≠ .sym .PERIOD ∧ powOf t = false
  | .power, t => (∀ l, t ≠ .square l) ∧ t ≠ .sym .PERIOD ∧ powOf t = false
  | .bin b, t => StopBin b t
  | .cond, t => StopBin .or t ∧ t ≠ .sym .CONDITIONAL

theorem Stop.of_bin {b : Bin} {t : Tok} (h : Stop (.bin b) t) : Stop (below b) t ∧ opOf b t = none := by
  obtain ⟨h1, h2, h3, h4, h5, h6, h7, h8, h9⟩ := h
  cases b <;> simp_all [below, Stop, StopBin, opOf]

/-- An operator of a level stops the tighter levels. -/
theorem stop_op (b : Bin) (t : Tok) (op : BinOp) (h : opOf b t = some op) : Stop (below b) t := by
  cases b
  · simp only [opOf] at h
    unfold mulOf at h
    split at h <;> first | cases h | skip
    · split at h
      · subst_vars; exact ⟨by simp, by simp, by decide⟩
      · split at h
        · subst_vars; exact ⟨by simp, by simp, by decide⟩
        · split at h
          · subst_vars; exact ⟨by simp, by simp, by decide⟩
          · cases h
    all_goals exact ⟨by simp, by simp, by decide⟩
  · simp only [opOf] at h
    unfold addOf at h
    split at h <;> cases h
    all_goals exact ⟨by simp, by simp, by decide, by decide, by simp, by simp, by simp, by simp, by simp⟩
  · simp only [opOf] at h
    unfold relOf at h
    split at h <;> cases h
    all_goals exact ⟨by simp, by simp, by decide, by decide, fun _ => by decide, by simp, by simp, by simp, by simp⟩
  · simp only [opOf] at h
    unfold equOf at h
    split at h <;> first | cases h | skip
    case h_8 =>
      split at h
      · subst_vars
        exact ⟨by simp, by simp, by decide, by decide, fun _ => by decide, fun _ _ => by decide, by simp, by simp, by simp⟩
      · cases h
    all_goals exact ⟨by simp, by simp, by decide, by decide, fun _ => by decide, fun _ _ => by decide, by simp, by simp, by simp⟩
  · simp only [opOf] at h
    unfold andOf at h
    split at h <;> first | cases h | skip
    · split at h
      · subst_vars
        exact ⟨by simp, by simp, by decide, by decide, fun _ => by decide, fun _ _ => by decide, fun _ => by decide, by simp, by simp⟩
      · cases h
    all_goals exact ⟨by simp, by simp, by decide, by decide, fun _ => by decide, fun _ _ => by decide, fun _ => by decide, by simp, by simp⟩
  · simp only [opOf] at h
    unfold orOf at h
    split at h <;> first | cases h | skip
    · split at h
      · subst_vars
        exact ⟨by simp, by simp, by decide, by decide, fun _ => by decide, fun _ _ => by decide, fun _ => by decide, fun _ => by decide, by simp⟩
      · cases h
    all_goals exact ⟨by simp, by simp, by decide, by decide, fun _ => by decide, fun _ _ => by decide, fun _ => by decide, fun _ => by decide, by simp⟩

theorem stop_pow (t : Tok) (h : powOf t = true) : Stop .prim t := by
  unfold powOf at h
  split at h <;> first | cases h | skip
  all_goals exact ⟨by simp, by simp⟩

theorem stop_question : Stop (.bin .or) (.sym .CONDITIONAL) :=
  ⟨by simp, by simp, by decide, by decide, fun _ => by decide, fun _ _ => by decide, fun _ => by decide,
    fun _ => by decide, fun _ => by decide⟩
theorem stop_colon : Stop .cond (.sym .COLON) :=
  ⟨⟨by simp, by simp, by decide, by decide, fun _ => by decide, fun _ _ => by decide, fun _ => by decide,
    fun _ => by decide, fun _ => by decide⟩, by simp⟩
theorem stop_eof : Stop .cond (.sym .EOF_TOKEN) :=
  ⟨⟨by simp, by simp, by decide, by decide, fun _ => by decide, fun _ _ => by decide, fun _ => by decide,
    fun _ => by decide, fun _ => by decide⟩, by simp⟩

/-- unary(). -/
def unaryE (env : Env) (n : Nat) : M (Option Ref) :=
  unaryF env (power env n) (fun ts => group (conditional env n) ts)

/-- unary() with the accesses after it. -/
def postE (env : Env) (n : Nat) : M (Option Ref) :=
  postF (fun ts => group (conditional env n) ts) (unaryE env n)

/-- The function under a level. -/
def levelSub (env : Env) (p : M (Option Ref)) : Bin → M (Option Ref)
  | .mul => p
  | .add => level env p .mul
  | .rel => level env p .add
  | .equ => level env p .rel
  | .and => level env p .equ
  | .or => level env p .and

theorem level_eq (env : Env) (p : M (Option Ref)) (b : Bin) :
    level env p b = binLevel (opOf b) (apply env) (levelSub env p b) := by
  cases b <;> rfl

/-- What is proved for the tokens of a level. -/
def Good (env : Env) : Lvl → List Tok → Val Ref → List Err → Prop
  | .prim, ts, v, es => ∀ n k, 2 * sizeAll ts ≤ n + 1 → Runs (unaryE env n) ts k v es
  | .unary, ts, v, es => ∀ n k, 2 * sizeAll ts ≤ n + 1 → Stop .unary (k.headD (.sym .EOF_TOKEN)) →
      Runs (postE env n) ts k v es
  | .power, ts, v, es => ∀ n k, 2 * sizeAll ts ≤ n → Stop .power (k.headD (.sym .EOF_TOKEN)) →
      Runs (power env n) ts k v es
  | .bin b, ts, v, es => ∀ n k, 2 * sizeAll ts ≤ n → Stop (below b) (k.headD (.sym .EOF_TOKEN)) →
      Cont (opOf b) (apply env) (levelSub env (power env n) b) ts k v es
  | .cond, ts, v, es => ∀ n k, 2 * sizeAll ts + 1 ≤ n → Stop .cond (k.headD (.sym .EOF_TOKEN)) →
      Runs (conditional env n) ts k v es

theorem sizeAll_append (a b : List Tok) : sizeAll (a ++ b) = sizeAll a + sizeAll b := by
  induction a with
  | nil => simp [sizeAll]
  | cons t a ih => simp only [List.cons_append, sizeAll, ih]; omega

theorem size_pos (t : Tok) : 1 ≤ t.size := by
  cases t <;> simp only [Tok.size] <;> omega

theorem sizeAll_noWs (l : List Tok) : sizeAll (noWs l) ≤ sizeAll l := by
  induction l with
  | nil => exact Nat.le_refl _
  | cons t l ih =>
    unfold noWs at *
    cases h : t.isWs
    · rw [List.filter_cons_of_pos (by simp [h])]
      simp only [sizeAll]
      omega
    · rw [List.filter_cons_of_neg (by simp [h])]
      simp only [sizeAll]
      omega

theorem good_bin (env : Env) (b : Bin) (ts : List Tok) (v : Val Ref) (es : List Err)
    (h : Good env (.bin b) ts v es) (n : Nat) (k : List Tok) (hn : 2 * sizeAll ts ≤ n)
    (hk : Stop (.bin b) (k.headD (.sym .EOF_TOKEN))) :
    Runs (level env (power env n) b) ts k v es := by
  rw [level_eq]
  exact cont_runs _ _ _ _ _ _ _ (h n k hn hk.of_bin.1) hk.of_bin.2

/-- The operands of a level of binary operators. -/
theorem good_below (env : Env) (b : Bin) (ts : List Tok) (v : Val Ref) (es : List Err)
    (h : Good env (below b) ts v es) (n : Nat) (k : List Tok) (hn : 2 * sizeAll ts ≤ n)
    (hk : Stop (below b) (k.headD (.sym .EOF_TOKEN))) :
    Runs (levelSub env (power env n) b) ts k v es := by
  cases b with
  | mul => exact h n k hn hk
  | add => exact good_bin env _ _ _ _ h n k hn hk
  | rel => exact good_bin env _ _ _ _ h n k hn hk
  | equ => exact good_bin env _ _ _ _ h n k hn hk
  | and => exact good_bin env _ _ _ _ h n k hn hk
  | or => exact good_bin env _ _ _ _ h n k hn hk

/-- An expression is not empty and does not look like the label of a map. -/
theorem g_shape {lvl : Lvl} {ts : List Tok} {e : E} (h : G lvl ts e) :
    ts ≠ [] ∧ ∀ name rest, ts ≠ .ident name :: .sym .COLON :: rest := by
  have key : ∀ (ts1 : List Tok) (t : Tok) (r : List Tok), t ≠ .sym .COLON →
      (ts1 ≠ [] ∧ ∀ name rest, ts1 ≠ .ident name :: .sym .COLON :: rest) →
      (ts1 ++ t :: r) ≠ [] ∧ ∀ name rest, ts1 ++ t :: r ≠ .ident name :: .sym .COLON :: rest := by
    intro ts1 t r ht ⟨h1, h2⟩
    refine ⟨by simp, ?_⟩
    intro name rest e
    cases ts1 with
    | nil => exact h1 rfl
    | cons a ts1 =>
      cases ts1 with
      | nil =>
        simp only [List.cons_append, List.nil_append, List.cons.injEq] at e
        exact ht e.2.1
      | cons b ts1 =>
        simp only [List.cons_append, List.cons.injEq] at e
        exact h2 name ts1 (by rw [e.1, e.2.1])
  induction h with
  | lit v => exact ⟨by simp, by simp⟩
  | ident s => exact ⟨by simp, by simp⟩
  | hash s => exact ⟨by simp, by simp⟩
  | call name args => exact ⟨by simp, by simp⟩
  | paren l e _ _ _ => exact ⟨by simp, by simp⟩
  | prim ts e _ ih => exact ih
  | plus ts e _ _ => exact ⟨by simp, by simp⟩
  | minus ts e _ _ => exact ⟨by simp, by simp⟩
  | unary ts e _ ih => exact ih
  | power ts1 t ts2 a b _ ht _ ih1 _ =>
    exact key _ _ _ (fun e => by rw [e] at ht; cases ht) ih1
  | up b ts e _ ih => exact ih
  | bin b op ts1 t ts2 x y _ ho _ ih1 _ =>
    exact key _ _ _ (fun e => by rw [e] at ho; cases b <;> cases ho) ih1
  | or ts e _ ih => exact ih
  | cond ts1 ts2 ts3 c a b _ _ _ ih1 _ _ =>
    rw [List.append_assoc, List.cons_append]
    exact key _ _ _ (by simp) ih1

/-! ### The levels -/

theorem postLoop_stop (grp : List Tok → M (Option Ref)) (n : Nat) (r : Ref) (s : St)
    (h1 : ∀ l, s.cur ≠ .square l) (h2 : s.cur ≠ .sym .PERIOD) :
    postLoop grp (n + 1) r s = .ok (some r) s := by
  rw [postLoop, bind_ok (show get' s = .ok s s from rfl)]
  generalize s.cur = c at h1 h2 ⊢
  cases c with
  | square l => exact absurd rfl (h1 l)
  | sym ty => cases ty <;> first | exact absurd rfl h2 | rfl
  | _ => rfl

/-- unary() followed by no access. -/
theorem post_runs (grp : List Tok → M (Option Ref)) (u : M (Option Ref)) (ts k : List Tok)
    (v : Val Ref) (es : List Err) (h : Runs u ts k v es)
    (hk : Stop .prim (k.headD (.sym .EOF_TOKEN))) : Runs (postF grp u) ts k v es := by
  intro s hs hv
  obtain ⟨r, s', e, p⟩ := h s hs hv
  refine ⟨r, s', ?_, p⟩
  unfold postF
  rw [bind_ok e]
  dsimp only
  rw [bind_ok (show get' s' = .ok s' s' from rfl)]
  exact postLoop_stop _ _ _ _ (by rw [p.pos.1]; exact hk.1) (by rw [p.pos.1]; exact hk.2)

theorem runs_alloc (s : St) (t : Tok) (k : List Tok) (hs : At s (t :: k)) (hv : s.vars = [])
    (v : Val Ref) (es : List Err) :
    Post s { nextSt s with
      heap := (nextSt s).heap ++ [v]
      errs := (nextSt s).errs ++ es } k (nextSt s).heap.length v es := by
  refine ⟨nextSt_at hs, by show (nextSt s).vars = []; rw [nextSt_vars, hv], ?_, ?_, ?_, ?_, ?_⟩
  · show (nextSt s).errs ++ es = _
    rw [nextSt_errs]
  · rw [nextSt_heap]; exact Nat.le_refl _
  · simp
  · show _ ≤ ((nextSt s).heap ++ [v]).length
    rw [nextSt_heap]; simp
  · intro i hi
    show ((nextSt s).heap ++ [v])[i]? = _
    rw [nextSt_heap, List.getElem?_append_left hi]

theorem at_noWs {l : List Tok} (h : l.head?.map Tok.isWs ≠ some true) (s : St) :
    At (nextSt { s with cur := .sym .EOF_TOKEN, rest := l, vars := [] }) (noWs l) := by
  unfold nextSt
  cases l with
  | nil => exact ⟨rfl, rfl, fun h => by cases h⟩
  | cons t l =>
    have ht : t.isWs = false := by
      cases hb : t.isWs
      · rfl
      · exact absurd (by simp [hb]) h
    have e : noWs (t :: l) = t :: noWs l := by simp [noWs, ht]
    rw [e]
    exact ⟨rfl, noWs_dropWs l, head_dropWs l⟩

theorem isLabel_none {s : St} {ts : List Tok} (h : At s ts)
    (hg : ts ≠ [] ∧ ∀ name rest, ts ≠ .ident name :: .sym .COLON :: rest) : isLabel s = none := by
  unfold isLabel
  split
  · rename_i name rest h1 h2
    exfalso
    obtain ⟨a1, a2, a3⟩ := h
    cases ts with
    | nil => exact hg.1 rfl
    | cons t ts =>
      rw [h2] at a2
      rw [h1] at a1
      simp only [List.headD_cons, List.tail_cons] at a1 a2
      have e : noWs (Tok.sym .COLON :: rest) = .sym .COLON :: noWs rest := rfl
      rw [e] at a2
      exact hg.2 name _ (by rw [← a1, ← a2])
  · rfl

/-- A parenthesis. -/
theorem group_runs (cond : M (Option Ref)) (l : List Tok) (e : E) (k : List Tok) (v : Val Ref)
    (es : List Err) (hl : l.head?.map Tok.isWs ≠ some true) (hg : G .cond (noWs l) e)
    (h : Runs cond (noWs l) [] v es) (s : St) (hs : At s k) (hv : s.vars = []) :
    ∃ r s', group cond l s = .ok (some r) s' ∧ Post s s' k r v es := by
  have a0 := at_noWs hl s
  obtain ⟨r, s1, e1, p⟩ := h (nextSt { s with cur := .sym .EOF_TOKEN, rest := l, vars := [] })
    (by rw [List.append_nil]; exact a0) (by rw [nextSt_vars])
  have hx : exprList cond (nextSt { s with cur := .sym .EOF_TOKEN, rest := l, vars := [] }) =
      .ok (some r) s1 := by
    unfold exprList
    rw [bind_ok (show get' _ = .ok _ _ from rfl), isLabel_none a0 (g_shape hg)]
    dsimp only
    have hcur : s1.cur = .sym .EOF_TOKEN := p.pos.1
    have ha : assignment cond (nextSt { s with cur := .sym .EOF_TOKEN, rest := l, vars := [] }) =
        .ok (some r) s1 := by
      unfold assignment
      rw [bind_ok e1]
      dsimp only
      rw [bind_ok (show load r s1 = .ok v s1 by simp [load, p.cell])]
      split
      · rw [bind_ok (show get' s1 = .ok s1 s1 from rfl), hcur]
        rfl
      · rfl
    rw [bind_ok ha]
    dsimp only
    rw [bind_ok (show get' s1 = .ok s1 s1 from rfl), hcur]
    rfl
  refine ⟨r, { s1 with cur := s.cur, rest := s.rest, vars := s.vars }, ?_, ?_⟩
  · unfold group
    rw [bind_ok (show get' s = .ok s s from rfl)]
    rw [bind_ok (m := fun s => R.ok () { s with cur := Tok.sym .EOF_TOKEN, rest := l, vars := [] })
      (s := s) (s' := { s with cur := Tok.sym .EOF_TOKEN, rest := l, vars := [] }) (v := ()) rfl]
    rw [bind_ok (next_eq _), bind_ok hx]
    rfl
  · refine ⟨hs, hv, ?_, ?_, p.cell, ?_⟩
    · show s1.errs = _
      rw [p.errs, nextSt_errs]
    · have := p.fresh
      rw [nextSt_heap] at this
      exact this
    · have := p.frame
      rw [nextSt_heap] at this
      exact this

theorem value_some {o : Out (Val Ref)} {v : Val Ref} {es : List Err} (h : value o = some (v, es)) :
    o = .ret (some v) es := by
  unfold value at h
  split at h
  · cases h; rfl
  · cases h

theorem getHead (t : Tok) (k : List Tok) (d : Tok) : (t :: k).headD d = t := rfl

/-- A base and its exponent. -/
theorem power_runs (env : Env) (post : M (Option Ref)) (ts1 ts2 k : List Tok) (t : Tok)
    (x y v : Val Ref) (es fs gs : List Err) (h1 : Runs post ts1 (t :: (ts2 ++ k)) x es)
    (ht : powOf t = true) (h2 : Runs post ts2 k y fs)
    (hv : powOp env.pow x y = .ret (some v) gs) :
    Runs (powerF env post) (ts1 ++ t :: ts2) k v (es ++ fs ++ gs) := by
  intro s hs hvars
  rw [List.append_assoc, List.cons_append] at hs
  obtain ⟨r1, s1, e1, p1⟩ := h1 s hs hvars
  obtain ⟨r2, s2, e2, p2⟩ := h2 (nextSt s1) (nextSt_at p1.pos) (by rw [nextSt_vars]; exact p1.vars)
  have p2 := p2.next
  have hx := p1.other p2.frame
  refine ⟨s2.heap.length, { s2 with heap := s2.heap ++ [v], errs := s2.errs ++ gs }, ?_, ?_⟩
  · unfold powerF
    rw [bind_ok e1]
    dsimp only
    rw [bind_ok (show get' s1 = .ok s1 s1 from rfl), p1.pos.1, getHead, if_pos ht]
    rw [bind_ok (next_eq s1), bind_ok e2]
    dsimp only
    rw [bind_ok (show load r1 s2 = .ok x s2 by simp [load, hx]),
      bind_ok (show load r2 s2 = .ok y s2 by simp [load, p2.cell]), hv]
    rfl
  · refine ⟨p2.pos, p2.vars, ?_, ?_, by simp, ?_, ?_⟩
    · show s2.errs ++ gs = _
      rw [p2.errs, p1.errs]
      simp [List.append_assoc]
    · exact Nat.le_trans p1.frame.1 p2.frame.1
    · show _ ≤ (s2.heap ++ [v]).length
      have := p1.frame.1
      have := p2.frame.1
      simp only [List.length_append]
      omega
    · intro i hi
      show (s2.heap ++ [v])[i]? = _
      have := p1.frame.1
      have := p2.frame.1
      rw [List.getElem?_append_left (by omega), p2.frame.2 i (by omega), p1.frame.2 i hi]

/-- No operator. -/
theorem power_alone (env : Env) (post : M (Option Ref)) (ts k : List Tok) (v : Val Ref)
    (es : List Err) (h : Runs post ts k v es) (hk : powOf (k.headD (.sym .EOF_TOKEN)) = false) :
    Runs (powerF env post) ts k v es := by
  intro s hs hvars
  obtain ⟨r, s', e, p⟩ := h s hs hvars
  refine ⟨r, s', ?_, p⟩
  unfold powerF
  rw [bind_ok e]
  dsimp only
  rw [bind_ok (show get' s' = .ok s' s' from rfl), p.pos.1, if_neg (by rw [hk]; simp)]
  rfl

/-- A minus sign. -/
theorem minus_runs (env : Env) (pw : M (Option Ref)) (grp : List Tok → M (Option Ref))
    (ts k : List Tok) (x v : Val Ref) (es fs : List Err) (h : Runs pw ts k x es)
    (hv : negOp x = .ret (some v) fs) :
    Runs (unaryF env pw grp) (.sym .SUBTRACT :: ts) k v (es ++ fs) := by
  intro s hs hvars
  rw [List.cons_append] at hs
  obtain ⟨r, s', e, p⟩ := h (nextSt s) (nextSt_at hs) (by rw [nextSt_vars]; exact hvars)
  have p := p.next
  have hr : r < s'.heap.length := (List.getElem?_eq_some_iff.mp p.cell).1
  refine ⟨r, { s' with heap := s'.heap.set r v, errs := s'.errs ++ fs }, ?_, ?_⟩
  · unfold unaryF
    rw [bind_ok (show get' s = .ok s s from rfl), hs.1, getHead]
    dsimp only
    rw [bind_ok (next_eq s), bind_ok e]
    dsimp only
    rw [bind_ok (show load r s' = .ok x s' by simp [load, p.cell]), hv]
    rfl
  · refine ⟨p.pos, p.vars, ?_, p.fresh, by simp [hr], ?_, ?_⟩
    · show s'.errs ++ fs = _
      rw [p.errs, List.append_assoc]
    · show _ ≤ (s'.heap.set r v).length
      rw [List.length_set]
      exact p.frame.1
    · intro i hi
      show (s'.heap.set r v)[i]? = _
      have := p.fresh
      rw [List.getElem?_set_ne (by omega), p.frame.2 i hi]

theorem silent_ok (m : M (Option Ref)) (s s' : St) (r : Option Ref) (h : m s = .ok r s') :
    silent m s = .ok () { s' with errs := s.errs } := by
  unfold silent
  rw [bind_ok (show get' s = .ok s s from rfl), bind_ok h]

theorem condLoop_stop (cond : M (Option Ref)) (n : Nat) (r : Ref) (s : St)
    (h : s.cur ≠ .sym .CONDITIONAL) : condLoop cond (n + 1) r s = .ok (some r) s := by
  rw [condLoop, bind_ok (show get' s = .ok s s from rfl), if_neg]
  · rfl
  · intro e
    apply h
    unfold Tok.isSym at e
    split at e
    · rename_i t _
      rw [beq_iff_eq] at e
      simp_all
    · cases e

/-- A condition alone. -/
theorem cond_alone (cond lor : M (Option Ref)) (ts k : List Tok) (v : Val Ref) (es : List Err)
    (h : Runs lor ts k v es) (hk : k.headD (.sym .EOF_TOKEN) ≠ .sym .CONDITIONAL) :
    Runs (condF cond lor) ts k v es := by
  intro s hs hvars
  obtain ⟨r, s', e, p⟩ := h s hs hvars
  refine ⟨r, s', ?_, p⟩
  unfold condF
  rw [bind_ok e]
  dsimp only
  rw [bind_ok (show get' s' = .ok s' s' from rfl)]
  exact condLoop_stop _ _ _ _ (by rw [p.pos.1]; exact hk)

/-- `c ? a : b`. -/
theorem cond_runs (cond lor : M (Option Ref)) (ts1 ts2 ts3 k : List Tok) (x y z : Val Ref) (b : Bool)
    (es fs gs hs : List Err) (h1 : Runs lor ts1 (.sym .CONDITIONAL :: (ts2 ++ .sym .COLON :: (ts3 ++ k))) x es)
    (h2 : Runs cond ts2 (.sym .COLON :: (ts3 ++ k)) y fs) (h3 : Runs cond ts3 k z gs)
    (hb : boolVal x = .ret b hs) (hk : k.headD (.sym .EOF_TOKEN) ≠ .sym .CONDITIONAL) :
    Runs (condF cond lor) (ts1 ++ .sym .CONDITIONAL :: ts2 ++ .sym .COLON :: ts3) k
      (if b then y else z) (es ++ hs ++ (if b then fs else gs)) := by
  intro s hat hvars
  simp only [List.append_assoc, List.cons_append] at hat
  obtain ⟨r1, s1, e1, p1⟩ := h1 s hat hvars
  have hbool : boolean r1 s1 = .ok b { s1 with errs := s1.errs ++ hs } := by
    unfold boolean
    rw [bind_ok (show load r1 s1 = .ok x s1 by simp [load, p1.cell]), hb]
    rfl
  have a1 : At { s1 with errs := s1.errs ++ hs } (.sym .CONDITIONAL :: (ts2 ++ .sym .COLON :: (ts3 ++ k))) :=
    p1.pos
  obtain ⟨r2, s2, e2, p2⟩ := h2 (nextSt { s1 with errs := s1.errs ++ hs }) (nextSt_at a1)
    (by rw [nextSt_vars]; exact p1.vars)
  have p2 := p2.next
  cases b with
  | true =>
    obtain ⟨r3, s3, e3, p3⟩ := h3 (nextSt s2) (nextSt_at p2.pos) (by rw [nextSt_vars]; exact p2.vars)
    have p3n := p3.next
    refine ⟨r2, { s3 with errs := (nextSt s2).errs }, ?_, ?_⟩
    · unfold condF
      rw [bind_ok e1]
      dsimp only
      rw [bind_ok (show get' s1 = .ok s1 s1 from rfl), condLoop,
        bind_ok (show get' s1 = .ok s1 s1 from rfl), p1.pos.1, getHead,
        if_pos (show Tok.isSym .CONDITIONAL (.sym .CONDITIONAL) = true from rfl),
        bind_ok hbool, bind_ok (next_eq _), if_pos (show true = true from rfl), bind_ok e2]
      dsimp only
      rw [bind_ok (show get' s2 = .ok s2 s2 from rfl), p2.pos.1, getHead,
        if_pos (show Tok.isSym .COLON (.sym .COLON) = true from rfl),
        bind_ok (next_eq _), bind_ok (silent_ok _ _ _ _ e3)]
      exact condLoop_stop _ _ _ _ (by show s3.cur ≠ _; rw [p3.pos.1]; exact hk)
    · have l1 := p1.frame.1
      have l2 : s1.heap.length ≤ s2.heap.length := p2.frame.1
      have l3 := p3n.frame.1
      refine ⟨p3.pos, p3.vars, ?_, ?_, ?_, ?_, ?_⟩
      · show (nextSt s2).errs = _
        rw [nextSt_errs, p2.errs]
        show s1.errs ++ hs ++ fs = _
        rw [p1.errs]
        simp [List.append_assoc]
      · have : s1.heap.length ≤ r2 := p2.fresh
        omega
      · exact p2.other p3n.frame
      · show _ ≤ s3.heap.length
        omega
      · intro i hi
        show s3.heap[i]? = _
        rw [p3n.frame.2 i (by omega), p2.frame.2 i (by show i < s1.heap.length; omega)]
        exact p1.frame.2 i hi
  | false =>
    have hsil := silent_ok _ _ _ _ e2
    have a2 : At { s2 with errs := (nextSt { s1 with errs := s1.errs ++ hs }).errs }
      (.sym .COLON :: (ts3 ++ k)) := p2.pos
    obtain ⟨q, hq⟩ : ∃ q : St, q = { s2 with errs := (nextSt { s1 with errs := s1.errs ++ hs }).errs } := ⟨_, rfl⟩
    have hqv : q.vars = [] := by rw [hq]; exact p2.vars
    rw [← hq] at hsil a2
    obtain ⟨r3, s3, e3, p3⟩ := h3 (nextSt q) (nextSt_at a2) (by rw [nextSt_vars]; exact hqv)
    have p3 := p3.next
    refine ⟨r3, s3, ?_, ?_⟩
    · unfold condF
      rw [bind_ok e1]
      dsimp only
      rw [bind_ok (show get' s1 = .ok s1 s1 from rfl), condLoop,
        bind_ok (show get' s1 = .ok s1 s1 from rfl), p1.pos.1, getHead,
        if_pos (show Tok.isSym .CONDITIONAL (.sym .CONDITIONAL) = true from rfl),
        bind_ok hbool, bind_ok (next_eq _), if_neg (by simp), bind_ok hsil,
        bind_ok (show get' _ = .ok _ _ from rfl), a2.1, getHead,
        if_pos (show Tok.isSym .COLON (.sym .COLON) = true from rfl),
        bind_ok (next_eq _), bind_ok e3]
      exact condLoop_stop _ _ _ _ (by rw [p3.pos.1]; exact hk)
    · subst hq
      have l1 := p1.frame.1
      have l2 : s1.heap.length ≤ s2.heap.length := p2.frame.1
      have l3 : s2.heap.length ≤ s3.heap.length := p3.frame.1
      refine ⟨p3.pos, p3.vars, ?_, ?_, p3.cell, by omega, ?_⟩
      · rw [p3.errs]
        show (nextSt { s1 with errs := s1.errs ++ hs }).errs ++ gs = _
        rw [nextSt_errs]
        show s1.errs ++ hs ++ gs = _
        rw [p1.errs]
        simp [List.append_assoc]
      · have : s2.heap.length ≤ r3 := p3.fresh
        omega
      · intro i hi
        rw [p3.frame.2 i (by show i < s2.heap.length; omega)]
        show s2.heap[i]? = _
        rw [p2.frame.2 i (by show i < s1.heap.length; omega)]
        exact p1.frame.2 i hi

theorem ident_unknown (x : Str) (hx : ¬ isKnown x = true) : identVal x = .ident x := by
  unfold isKnown at hx
  have : identVal x = .null ∨ (∃ b, identVal x = .bool b) ∨ (∃ c, identVal x = .color c) ∨
      identVal x = .ident x := by
    unfold identVal
    by_cases h1 : x = b!"null"
    · left; rw [if_pos h1]
    · rw [if_neg h1]
      by_cases h2 : x = b!"true"
      · right; left; exact ⟨_, if_pos h2⟩
      · rw [if_neg h2]
        by_cases h3 : x = b!"false"
        · right; left; exact ⟨_, if_pos h3⟩
        · rw [if_neg h3]
          cases Color.setName x true with
          | none => right; right; right; rfl
          | some c => right; right; left; exact ⟨c, rfl⟩
  rcases this with h | ⟨b, h⟩ | ⟨c, h⟩ | h
  · rw [h] at hx; exact absurd rfl hx
  · rw [h] at hx; exact absurd rfl hx
  · rw [h] at hx; exact absurd rfl hx
  · exact h

/-- Everything. -/
theorem good (env : Env) {lvl : Lvl} {ts : List Tok} {e : E} (h : G lvl ts e) :
    ∀ v es, den env e = some (v, es) → Good env lvl ts v es := by
  induction h with
  | lit x =>
    intro v es hd n k _
    cases hd
    intro s hs hv
    refine ⟨_, _, ?_, runs_alloc s _ _ hs hv x []⟩
    unfold unaryE unaryF
    rw [bind_ok (show get' s = .ok s s from rfl), hs.1]
    show (next >>= _) s = _
    rw [bind_ok (next_eq s), List.append_nil]
    rfl
  | ident x =>
    intro v es hd n k _
    cases hd
    intro s hs hv
    refine ⟨_, _, ?_, runs_alloc s _ _ hs hv (identVal x) []⟩
    unfold unaryE unaryF
    rw [bind_ok (show get' s = .ok s s from rfl), hs.1]
    show (next >>= _) s = _
    rw [bind_ok (next_eq s), List.append_nil]
    by_cases hx : isKnown x = true
    · rw [if_pos hx]; rfl
    · rw [if_neg hx, hv]
      have e : identVal x = .ident x := ident_unknown x hx
      rw [e]
      rfl
  | hash x =>
    intro v es hd n k _
    simp only [den] at hd
    cases hc : Color.setName x false with
    | none => rw [hc] at hd; cases hd
    | some c =>
      rw [hc] at hd
      cases hd
      intro s hs hv
      refine ⟨_, _, ?_, runs_alloc s _ _ hs hv (.color c) []⟩
      unfold unaryE unaryF
      rw [bind_ok (show get' s = .ok s s from rfl), hs.1]
      show (next >>= _) s = _
      rw [bind_ok (next_eq s), List.append_nil, hc]
      rfl
  | call name args =>
    intro v es hd n k _
    simp only [den] at hd
    intro s hs hv
    rcases hc : env.call name args with ⟨x, fs⟩
    rw [hc] at hd
    cases x with
    | none => cases hd
    | some x =>
      cases hd
      refine ⟨_, _, ?_, runs_alloc s _ _ hs hv v es⟩
      unfold unaryE unaryF
      rw [bind_ok (show get' s = .ok s s from rfl), hs.1]
      show (next >>= _) s = _
      rw [bind_ok (next_eq s), hc]
      rfl
  | paren l e hl hg ih =>
    intro v es hd n k hn
    intro s hs hv
    have hn2 : 2 * sizeAll (noWs l) + 1 ≤ n := by
      have := sizeAll_noWs l
      simp only [sizeAll, Tok.size] at hn
      omega
    have hr := ih v es hd n [] hn2 stop_eof
    obtain ⟨r, s', e1, p⟩ := group_runs _ l e k v es hl hg hr (nextSt s) (nextSt_at hs)
      (by rw [nextSt_vars]; exact hv)
    refine ⟨r, s', ?_, p.next⟩
    unfold unaryE unaryF
    rw [bind_ok (show get' s = .ok s s from rfl), hs.1]
    show (next >>= _) s = _
    rw [bind_ok (next_eq s)]
    exact e1
  | prim ts e _ ih =>
    intro v es hd n k hn hk
    exact post_runs _ _ _ _ _ _ (ih v es hd n k hn) ⟨hk.1, hk.2.1⟩
  | plus ts e _ ih =>
    intro v es hd n k hn hk
    have hr := ih v es hd n k (by simp only [sizeAll, Tok.size] at hn; omega) hk
    apply post_runs _ _ _ _ _ _ _ ⟨hk.1, hk.2.1⟩
    intro s hs hv
    obtain ⟨r, s', e1, p⟩ := hr (nextSt s) (nextSt_at hs) (by rw [nextSt_vars]; exact hv)
    refine ⟨r, s', ?_, p.next⟩
    unfold unaryE unaryF
    rw [bind_ok (show get' s = .ok s s from rfl), hs.1]
    show (next >>= _) s = _
    rw [bind_ok (next_eq s)]
    exact e1
  | minus ts e _ ih =>
    intro v es hd n k hn hk
    simp only [den] at hd
    cases hx : den env e with
    | none => rw [hx] at hd; cases hd
    | some p =>
      obtain ⟨x, fs⟩ := p
      rw [hx] at hd
      simp only [Option.map_eq_some_iff] at hd
      obtain ⟨⟨w, gs⟩, h1, h2⟩ := hd
      cases h2
      have hr := ih x fs hx n k (by simp only [sizeAll, Tok.size] at hn; omega) hk
      exact post_runs _ _ _ _ _ _ (minus_runs env _ _ _ _ _ _ _ _ hr (value_some h1)) ⟨hk.1, hk.2.1⟩
  | unary ts e hg ih =>
    intro v es hd n k hn hk
    have : ts ≠ [] := (g_shape hg).1
    have hpos : 1 ≤ sizeAll ts := by
      cases ts with
      | nil => exact absurd rfl this
      | cons t ts => have := size_pos t; simp only [sizeAll]; omega
    obtain ⟨n, rfl⟩ : ∃ j, n = j + 1 := ⟨n - 1, by omega⟩
    rw [power]
    exact power_alone env _ _ _ _ _ (ih v es hd n k hn hk) hk.2.2
  | power ts1 t ts2 a b hg ht _ ih1 ih2 =>
    intro v es hd n k hn hk
    simp only [den] at hd
    cases hx : den env a with
    | none => rw [hx] at hd; cases hd
    | some p =>
      obtain ⟨x, fs⟩ := p
      cases hy : den env b with
      | none => rw [hx, hy] at hd; cases hd
      | some p =>
        obtain ⟨y, gs⟩ := p
        rw [hx, hy] at hd
        simp only [Option.map_eq_some_iff] at hd
        obtain ⟨⟨w, hs⟩, h1, h2⟩ := hd
        cases h2
        have := size_pos t
        simp only [sizeAll_append, sizeAll] at hn
        obtain ⟨n, rfl⟩ : ∃ j, n = j + 1 := ⟨n - 1, by omega⟩
        rw [power]
        exact power_runs env _ _ _ _ _ _ _ _ _ _ _ 
          (post_runs _ _ _ _ _ _ (ih1 x fs hx n _ (by omega)) (stop_pow t ht)) ht
          (ih2 y gs hy n k (by omega) hk) (value_some h1)
  | up b ts e _ ih =>
    intro v es hd n k hn hk
    exact cont_base _ _ _ _ _ _ _ (good_below env b ts v es (ih v es hd) n k hn hk)
  | bin b op ts1 t ts2 e1 e2 _ ho _ ih1 ih2 =>
    intro v es hd n k hn hk
    simp only [den] at hd
    cases hx : den env e1 with
    | none => rw [hx] at hd; cases hd
    | some p =>
      obtain ⟨x, fs⟩ := p
      cases hy : den env e2 with
      | none => rw [hx, hy] at hd; cases hd
      | some p =>
        obtain ⟨y, gs⟩ := p
        rw [hx, hy] at hd
        simp only [Option.map_eq_some_iff] at hd
        obtain ⟨⟨w, hs⟩, h1, h2⟩ := hd
        cases h2
        simp only [sizeAll_append, sizeAll] at hn
        exact cont_step env _ _ _ _ _ _ _ _ _ _ _ _ _ (ih1 x fs hx n _ (by omega) (stop_op b t op ho)) ho
          (good_below env b ts2 y gs (ih2 y gs hy) n k (by omega) hk) (value_some h1)
  | or ts e _ ih =>
    intro v es hd n k hn hk
    obtain ⟨n, rfl⟩ : ∃ j, n = j + 1 := ⟨n - 1, by omega⟩
    rw [conditional]
    exact cond_alone _ _ _ _ _ _ (good_bin env .or ts v es (ih v es hd) n k (by omega) hk.1) hk.2
  | cond ts1 ts2 ts3 c a b _ _ _ ih1 ih2 ih3 =>
    intro v es hd n k hn hk
    simp only [den] at hd
    cases hx : den env c with
    | none => rw [hx] at hd; cases hd
    | some p =>
      obtain ⟨x, fs⟩ := p
      cases hy : den env a with
      | none => rw [hx, hy] at hd; cases hd
      | some p =>
        obtain ⟨y, gs⟩ := p
        cases hz : den env b with
        | none => rw [hx, hy, hz] at hd; cases hd
        | some p =>
          obtain ⟨z, hs⟩ := p
          rw [hx, hy, hz] at hd
          simp only [sizeAll_append, sizeAll, Tok.size] at hn
          obtain ⟨n, rfl⟩ : ∃ j, n = j + 1 := ⟨n - 1, by omega⟩
          rw [conditional]
          have r1 := good_bin env .or ts1 x fs (ih1 x fs hx) n
            (.sym .CONDITIONAL :: (ts2 ++ .sym .COLON :: (ts3 ++ k))) (by omega) stop_question
          have r2 := ih2 y gs hy n (.sym .COLON :: (ts3 ++ k)) (by omega) stop_colon
          have r3 := ih3 z hs hz n k (by omega) hk
          dsimp only at hd
          cases hb : boolVal x with
          | undef => rw [hb] at hd; cases hd
          | throws => rw [hb] at hd; cases hd
          | ret bb us =>
            have := cond_runs _ _ _ _ _ _ _ _ _ _ _ _ _ _ r1 r2 r3 hb hk.2
            rw [hb] at hd
            cases bb <;> (cases hd; exact this)

/-- C30: compiling the tokens of an expression gives the value of its tree: the tree is the one of the
grammar (precedence, associativity, parentheses, ?:), whatever the WHITESPACE between the tokens. The
errors are the ones of the operators (the branch of ?: that is not chosen reports none), the node
returned is a new one and the nodes that existed are unchanged. -/
theorem C30_precedence (env : Env) (heap : List (Val Ref)) (toks : List Tok) (e : E) (v : Val Ref)
    (es : List Err) (hw : toks.head?.map Tok.isWs ≠ some true) (hg : G .cond (noWs toks) e)
    (hd : den env e = some (v, es)) :
    ∃ r s, compile env heap toks = .ok (some r) s ∧ s.heap[r]? = some v ∧ s.errs = es ∧
      heap.length ≤ r ∧ (∀ i, i < heap.length → s.heap[i]? = heap[i]?) ∧ s.cur = .sym .EOF_TOKEN := by
  have hn := sizeAll_noWs toks
  have a := at_noWs hw { heap := heap, errs := [], cur := .sym .EOF_TOKEN, rest := toks, vars := [] }
  obtain ⟨r, s, e1, p⟩ := good env hg v es hd (3 * sizeAll toks + 4) [] (by omega) stop_eof _
    (by rw [List.append_nil]; exact a) (by rw [nextSt_vars])
  have hf := p.fresh
  have hfr := p.frame.2
  rw [nextSt_heap] at hf hfr
  refine ⟨r, s, ?_, p.cell, ?_, hf, hfr, p.pos.1⟩
  · unfold compile
    rw [bind_ok (next_eq _)]
    exact e1
  · rw [p.errs, nextSt_errs]
    rfl

/-! ### Examples -/

/-- The integer `n`. -/
def litInt (n : Int) : Tok := .lit (.int n [])

theorem g_int (n : Int) : G .power [litInt n] (.lit (.int n [])) := .unary _ _ (.prim _ _ (.lit _))
theorem g_mul (b : Bin) {ts : List Tok} {e : E} (h : G (.bin .mul) ts e) : G (.bin b) ts e := by
  cases b
  · exact h
  · exact .up _ _ _ h
  · exact .up _ _ _ (.up _ _ _ h)
  · exact .up _ _ _ (.up _ _ _ (.up _ _ _ h))
  · exact .up _ _ _ (.up _ _ _ (.up _ _ _ (.up _ _ _ h)))
  · exact .up _ _ _ (.up _ _ _ (.up _ _ _ (.up _ _ _ (.up _ _ _ h))))

/-- `1 + 2 * 3` is `1 + (2 * 3)`. -/
example : G .cond [litInt 1, .sym .ADD, litInt 2, .sym .MULTIPLY, litInt 3]
    (.bin (.add false) (.lit (.int 1 [])) (.bin (.mul .mul) (.lit (.int 2 [])) (.lit (.int 3 [])))) := by
  refine .or _ _ (.up _ _ _ (.up _ _ _ (.up _ _ _ (.up _ _ _ ?_))))
  exact .bin .add (.add false) [litInt 1] (.sym .ADD) [litInt 2, .sym .MULTIPLY, litInt 3] _ _
    (g_mul .add (.up _ _ _ (g_int 1))) rfl
    (.bin .mul (.mul .mul) [litInt 2] (.sym .MULTIPLY) [litInt 3] _ _ (.up _ _ _ (g_int 2)) rfl (g_int 3))

/-- `9 - 4 - 3` is `(9 - 4) - 3`. -/
example : G .cond [litInt 9, .sym .SUBTRACT, litInt 4, .sym .SUBTRACT, litInt 3]
    (.bin (.add true) (.bin (.add true) (.lit (.int 9 [])) (.lit (.int 4 []))) (.lit (.int 3 []))) := by
  refine .or _ _ (.up _ _ _ (.up _ _ _ (.up _ _ _ (.up _ _ _ ?_))))
  exact .bin .add (.add true) [litInt 9, .sym .SUBTRACT, litInt 4] (.sym .SUBTRACT) [litInt 3] _ _
    (.bin .add (.add true) [litInt 9] (.sym .SUBTRACT) [litInt 4] _ _
      (g_mul .add (.up _ _ _ (g_int 9))) rfl (.up _ _ _ (g_int 4))) rfl
    (.up _ _ _ (g_int 3))

def demoEnv : Env where
  pow := fun x _ => x
  call := fun _ _ => (none, [])

/-- The integer of a result. -/
def intResult : R (Option Ref) → Option Int
  | .ok (some r) s =>
    match s.heap[r]? with
    | some (.int i _) => some i
    | _ => none
  | _ => none

example : den demoEnv (.bin (.add true) (.bin (.add true) (.lit (.int 9 [])) (.lit (.int 4 [])))
    (.lit (.int 3 []))) = some (.int 2 [], []) := by rfl
example : intResult (compile demoEnv [] [litInt 9, .sym .WHITESPACE, .sym .SUBTRACT, litInt 4, .sym .SUBTRACT,
    litInt 3]) = some 2 := by decide +kernel
example : intResult (compile demoEnv [] [litInt 1, .sym .ADD, litInt 2, .sym .MULTIPLY, litInt 3]) = some 7 := by
  decide +kernel
example : intResult (compile demoEnv [] [.sym .SUBTRACT, .paren [litInt 1, .sym .ADD, litInt 2], .sym .MULTIPLY,
    litInt 3]) = some (-9) := by decide +kernel
example : intResult (compile demoEnv [] [litInt 1, .sym .LESS_THAN, litInt 2, .sym .CONDITIONAL, litInt 5,
    .sym .COLON, litInt 6, .sym .ADD, litInt 1]) = some 5 := by decide +kernel

end Csspp.Expr
