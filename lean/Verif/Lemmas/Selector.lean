import Verif.Spec.Selectors

/-!
The functions of Model/Selector.lean on the nodes from the position on.
-/

namespace Csspp.Sel
open Csspp.Parse (Nd)

/-- The end of a call, at the front of a list. -/
def Res.map {α β : Type} (f : α → β) : Res α → Res β
  | .ok v => .ok (f v)
  | .refused e => .refused e
  | .throws => .throws
  | .undef => .undef

/-- What is written and what is left, put back after `pre`. -/
def shift (pre : List Nd) (p : List Nd × List Nd) : At := (pre ++ p.1 ++ p.2, pre.length + p.1.length)

/-- The nodes written for `[...]`. -/
def attrOut (n name op value : Nd) : List Nd :=
  if op.ty = .NOT_EQUAL then
    [node .COLON n.tok.pos [] [], node .FUNCTION n.tok.pos b!"not"
          [.mk n.tok [name, node .EQUAL n.tok.pos [] [], value]]]
  else [.mk n.tok [name, op, value]]

def attrS (n : Nd) (r : List Nd) : Res (List Nd × List Nd) :=
  match n.kids with
  | [] => .throws
  | t :: k =>
    match dropWs t k with
    | [] => .refused .attrForm
    | name :: k =>
      if name.ty ≠ .IDENTIFIER then .refused .attrIdent
      else
        match k with
        | [] => .ok ([.mk n.tok [name]], r)
        | t :: k =>
          match dropWs t k with
          | [] => .ok ([.mk n.tok [name]], r)
          | op :: k =>
            if isAttrOp op.ty = false then .refused .attrOp
            else
              match k with
              | [] => .refused .attrForm
              | t :: k =>
                match dropWs t k with
                | [] => .refused .attrForm
                | value :: k =>
                  if isAttrValue value.ty = false then .refused .attrValue
                  else if k ≠ [] then .refused .attrMore
                  else .ok (attrOut n name op value, r)

theorem attrDone_eq (pre r : List Nd) (n name op value : Nd) :
    attrDone (pre ++ n :: r) pre.length n name op value =
      .ok (shift pre (attrOut n name op value, r)) := by
  unfold attrDone attrOut shift
  split
  · have h : (pre ++ n :: r).eraseIdx pre.length = pre ++ r := by
      simp [List.eraseIdx_append_of_length_le]
    dsimp only
    rw [h]
    have h2 : List.take pre.length (pre ++ r) ++ node .COLON n.tok.pos [] [] :: List.drop pre.length (pre ++ r)
        = (pre ++ [node .COLON n.tok.pos [] []]) ++ r := by simp
    rw [h2]
    have h3 : pre.length + 1 = (pre ++ [node .COLON n.tok.pos [] []]).length := by simp
    rw [h3, List.take_left, List.drop_left]
    simp
  · simp

theorem attrCheck_eq (pre r : List Nd) (n : Nd) :
    attrCheck (pre ++ n :: r) pre.length n = (attrS n r).map (shift pre) := by
  have h1 : ∀ name, (pre ++ n :: r).set pre.length (Nd.mk n.tok [name]) =
      pre ++ Nd.mk n.tok [name] :: r := by intro name; simp [List.set_append]
  unfold attrCheck attrS
  cases n.kids with
  | nil => rfl
  | cons t k =>
    dsimp only
    cases dropWs t k with
    | nil => rfl
    | cons name k =>
      dsimp only
      split
      · rfl
      · cases k with
        | nil => simp [Res.map, shift, h1]
        | cons t k =>
          dsimp only
          cases dropWs t k with
          | nil => simp [Res.map, shift, h1]
          | cons op k =>
            dsimp only
            split
            · rfl
            · cases k with
              | nil => rfl
              | cons t k =>
                dsimp only
                cases dropWs t k with
                | nil => rfl
                | cons value k =>
                  dsimp only
                  split
                  · rfl
                  · split
                    · rfl
                    · rw [attrDone_eq]; rfl

/-- selector_simple_term() at the front of a list. -/
def simpleS (env : Env) : List Nd → Res (List Nd × List Nd)
  | [] => .throws
  | term :: r =>
    match term.ty with
    | .HASH => .ok ([term], r)
    | .IDENTIFIER =>
      match r with
      | [] => .ok ([term], r)
      | s :: r' =>
        if s.ty = .SCOPE then
          match r' with
          | [] => .refused .scopeEnd
          | t :: r'' => if isName t.ty then .ok ([term, s, t], r'') else .refused .scopeRhs
        else .ok ([term], r)
    | .MULTIPLY =>
      match r with
      | [] => .ok ([term], r)
      | s :: r' =>
        if s.ty = .SCOPE then
          match r' with
          | [] => .refused .scopeEnd
          | t :: r'' => if isName t.ty then .ok ([term, s, t], r'') else .refused .scopeRhs
        else if s.ty = .OPEN_SQUAREBRACKET ∨ s.ty = .PERIOD then .ok ([], r)
        else .ok ([term], r)
    | .SCOPE =>
      match r with
      | [] => .refused .scopeEnd
      | t :: r' => if isName t.ty then .ok ([term, t], r') else .refused .scopeRhs
    | .COLON =>
      match r with
      | [] => .refused .colonEnd
      | t :: r' =>
        if t.ty = .IDENTIFIER then
          if env.pseudoClass t.tok.str then .ok ([term, t], r') else .refused .validation
        else if t.ty = .FUNCTION then
          match pseudoFunction env t with
          | .ok f => .ok ([term, f], r')
          | .refused e => .refused e
          | .throws => .throws
          | .undef => .undef
        else .refused .colonRhs
    | .PERIOD =>
      match r with
      | [] => .refused .periodEnd
      | t :: r' => if t.ty = .IDENTIFIER then .ok ([term, t], r') else .refused .className
    | .OPEN_SQUAREBRACKET => attrS term r
    | .GREATER_THAN | .ADD | .PRECEDED => .refused .start
    | .FUNCTION => .refused .function
    | _ => .refused .token

theorem get0 (pre ts : List Nd) : (pre ++ ts)[pre.length]? = ts[0]? := by
  rw [List.getElem?_append_right (by omega)]; congr 1; omega
theorem get1 (pre ts : List Nd) : (pre ++ ts)[pre.length + 1]? = ts[1]? := by
  rw [List.getElem?_append_right (by omega)]; congr 1; omega
theorem get2 (pre ts : List Nd) : (pre ++ ts)[pre.length + 2]? = ts[2]? := by
  rw [List.getElem?_append_right (by omega)]; congr 1; omega

theorem set1 (pre r : List Nd) (a b c : Nd) :
    (pre ++ a :: b :: r).set (pre.length + 1) c = pre ++ a :: c :: r := by
  rw [List.set_append_right _ _ (by omega)]; simp

theorem simpleTerm_eq (env : Env) (pre ts : List Nd) :
    simpleTerm env (pre ++ ts) pre.length = (simpleS env ts).map (shift pre) := by
  unfold simpleTerm simpleS
  cases ts with
  | nil => rw [get0]; rfl
  | cons term r =>
    rw [get0, get1, get2]
    simp only [List.getElem?_cons_zero, List.getElem?_cons_succ]
    cases hty : term.ty
    case IDENTIFIER =>
      dsimp only
      rcases r with _ | ⟨s, r'⟩
      · simp [Res.map, shift]
      · simp only [List.getElem?_cons_zero, List.getElem?_cons_succ]
        by_cases h : s.ty = .SCOPE
        · rw [if_pos h, if_pos h]
          rcases r' with _ | ⟨t, r''⟩
          · rfl
          · simp only [List.getElem?_cons_zero]
            split <;> simp [Res.map, shift]
        · rw [if_neg h, if_neg h]; simp [Res.map, shift]
    case MULTIPLY =>
      dsimp only
      rcases r with _ | ⟨s, r'⟩
      · simp [Res.map, shift]
      · simp only [List.getElem?_cons_zero, List.getElem?_cons_succ]
        by_cases h : s.ty = .SCOPE
        · rw [if_pos h, if_pos h]
          rcases r' with _ | ⟨t, r''⟩
          · rfl
          · simp only [List.getElem?_cons_zero]
            split <;> simp [Res.map, shift]
        · rw [if_neg h, if_neg h]
          split <;> simp [Res.map, shift, List.eraseIdx_append_of_length_le]
    case SCOPE =>
      dsimp only
      rcases r with _ | ⟨s, r'⟩
      · rfl
      · simp only [List.getElem?_cons_zero]
        split <;> simp [Res.map, shift]
    case COLON =>
      dsimp only
      rcases r with _ | ⟨s, r'⟩
      · rfl
      · simp only [List.getElem?_cons_zero]
        split
        · split <;> simp [Res.map, shift]
        · split
          · cases pseudoFunction env s <;> simp [Res.map, shift, set1]
          · rfl
    case PERIOD =>
      dsimp only
      rcases r with _ | ⟨s, r'⟩
      · rfl
      · simp only [List.getElem?_cons_zero]
        split <;> simp [Res.map, shift]
    case OPEN_SQUAREBRACKET =>
      dsimp only
      exact attrCheck_eq pre r term
    all_goals first | rfl | simp [Res.map, shift]

/-- selector_term() at the front of a list. -/
def termS (env : Env) (b : Bool) : List Nd → Res (List Nd × List Nd)
  | [] => .throws
  | t :: r =>
    match t.ty with
    | .PLACEHOLDER => .ok ([t], r)
    | .REFERENCE => if b = false then .refused .reference else .ok ([t], r)
    | .COLON =>
      match r with
      | [] => .refused .colonEnd
      | f :: r' =>
        if f.ty = .IDENTIFIER then simpleS env (t :: r)
        else if f.ty = .FUNCTION then
          if f.tok.str = b!"not" then
            match notTerm env f.kids with
            | .ok kids => .ok ([t, .mk f.tok kids], r')
            | .refused e => .refused e
            | .throws => .throws
            | .undef => .undef
          else simpleS env (t :: r)
        else if f.ty = .COLON then
          match r' with
          | [] => .refused .colonEnd
          | u :: r'' =>
            if u.ty ≠ .IDENTIFIER then .refused .elementName
            else if env.pseudoElement u.tok.str = false then .refused .validation
            else if r'' ≠ [] then .refused .elementLast
            else .ok ([t, f, u], [])
        else .refused .colonRhs
    | .HASH | .IDENTIFIER | .MULTIPLY | .OPEN_SQUAREBRACKET | .PERIOD | .SCOPE => simpleS env (t :: r)
    | .GREATER_THAN | .ADD | .PRECEDED => .refused .start
    | .FUNCTION => .refused .function
    | _ => .refused .token

theorem term_eq (env : Env) (pre ts : List Nd) :
    term env (pre ++ ts) pre.length = (termS env (pre.isEmpty) ts).map (shift pre) := by
  unfold term termS
  cases ts with
  | nil => simp [Res.map]
  | cons t r =>
    have hs := simpleTerm_eq env pre (t :: r)
    rw [get0, get1, get2]
    simp only [List.getElem?_cons_zero, List.getElem?_cons_succ]
    cases hty : t.ty
    case REFERENCE =>
      dsimp only
      cases pre <;> simp [Res.map, shift]
    case COLON =>
      dsimp only
      rcases r with _ | ⟨f, r'⟩
      · rfl
      · simp only [List.getElem?_cons_zero, List.getElem?_cons_succ]
        split
        · exact hs
        · split
          · split
            · cases notTerm env f.kids <;> simp [Res.map, shift, set1]
            · exact hs
          · split
            · rcases r' with _ | ⟨u, r''⟩
              · rfl
              · simp only [List.getElem?_cons_zero]
                split
                · rfl
                · split
                  · rfl
                  · cases r'' <;> simp [Res.map, shift]
            · rfl
    all_goals first | exact hs | rfl | simp [Res.map, shift]

/-- What is between two terms, at the front of a list: what is written and what is left. -/
def afterS : List Nd → Res (List Nd)
  | [] => .refused .combinatorEnd
  | t :: r => if isWs t then (if r = [] then .throws else .ok r) else .ok (t :: r)

def combS (ts : List Nd) : Res (List Nd × List Nd) :=
  match ts with
  | [] => .throws
  | t :: r => if isCombinator t.ty then (afterS r).map (fun r => ([t], r)) else .ok ([], t :: r)

def betweenS (ts : List Nd) : Res (List Nd × List Nd) :=
  match ts with
  | [] => .throws
  | t :: r =>
    if isWs t then
      match r with
      | [] => .throws
      | u :: r' =>
        if isCombinator u.ty then (afterS r').map (fun r => ([u], r)) else .ok ([t], u :: r')
    else combS (t :: r)

theorem afterCombinator_eq (pre ts : List Nd) :
    afterCombinator (pre ++ ts) pre.length = (afterS ts).map (fun r => (pre ++ r, pre.length)) := by
  unfold afterCombinator afterS
  rcases ts with _ | ⟨t, r⟩
  · simp [Res.map]
  · rw [get0]
    simp only [List.getElem?_cons_zero]
    split
    · cases r <;> simp [Res.map, List.eraseIdx_append_of_length_le]
    · rfl

theorem between_eq (pre r : List Nd) (t : Nd)
    (h : isCombinator t.ty = true → (pre.getLast?).any isWs = false) :
    between (pre ++ t :: r) pre.length t = (betweenS (t :: r)).map (shift pre) := by
  unfold between betweenS
  dsimp only
  by_cases hw : isWs t = true
  · rw [if_pos hw, if_pos hw, get1]
    rcases r with _ | ⟨u, r'⟩
    · rfl
    · simp only [List.getElem?_cons_succ, List.getElem?_cons_zero]
      unfold combinator
      by_cases hc : isCombinator u.ty = true
      · rw [if_pos hc, if_pos hc]
        have h1 : (pre ++ t :: u :: r')[pre.length + 1 - 1]? = some t := by simp
        rw [h1, if_pos (by simpa using hw)]
        have h2 : (pre ++ t :: u :: r').eraseIdx (pre.length + 1 - 1) = (pre ++ [u]) ++ r' := by
          simp [List.eraseIdx_append_of_length_le]
        rw [h2]
        have h3 := afterCombinator_eq (pre ++ [u]) r'
        rw [List.length_append] at h3
        simp only [List.length_cons, List.length_nil] at h3
        rw [h3]
        cases afterS r' <;> simp [Res.map, shift]
      · rw [if_neg hc, if_neg hc]; simp [Res.map, shift]
  · rw [if_neg hw, if_neg hw]
    unfold combinator combS
    dsimp only
    by_cases hc : isCombinator t.ty = true
    · rw [if_pos hc, if_pos hc]
      have h1 : ((pre ++ t :: r)[pre.length - 1]?).any isWs = false := by
        rcases List.eq_nil_or_concat pre with e | ⟨p, x, e⟩
        · subst e; simpa using hw
        · have := h hc
          subst e
          simpa using this
      rw [h1, if_neg (by simp)]
      have h3 := afterCombinator_eq (pre ++ [t]) r
      rw [List.length_append] at h3
      simp only [List.length_cons, List.length_nil] at h3
      rw [show pre ++ t :: r = pre ++ [t] ++ r by simp, h3]
      cases afterS r <;> simp [Res.map, shift]
    · rw [if_neg hc, if_neg hc]; simp [Res.map, shift]

end Csspp.Sel
