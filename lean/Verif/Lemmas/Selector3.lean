import Verif.Lemmas.Selector2

/-!
Terms, what is between them, and whole selectors.
-/

namespace Csspp.Sel
open Csspp.Parse (Nd)

theorem notTerm_ok (env : Env) (k o : List Nd) : notTerm env k = .ok o ↔ Spec.Simple env k o [] := by
  have h := simpleTerm_eq env [] k
  simp only [List.nil_append, List.length_nil] at h
  unfold notTerm
  rw [h]
  constructor
  · intro h
    cases hs : simpleS env k with
    | ok p =>
      obtain ⟨o', r⟩ := p
      rw [hs] at h
      simp only [Res.map, shift, List.nil_append, List.length_nil, List.length_append] at h
      split at h
      · cases h
      · rename_i hl
        have : r = [] := by cases r with
          | nil => rfl
          | cons a l => simp only [List.length_cons] at hl; omega
        subst this
        simp only [List.append_nil] at h
        cases h
        exact simpleS_ok hs
    | refused e => rw [hs] at h; cases h
    | throws => rw [hs] at h; cases h
    | undef => rw [hs] at h; cases h
  · intro h
    rw [simpleS_of h]
    simp [Res.map, shift]

theorem notTerm_throws (env : Env) (k : List Nd) : notTerm env k = .throws ↔
    k = [] ∨ ∃ n r, k = n :: r ∧ n.ty = .OPEN_SQUAREBRACKET ∧ n.kids = [] := by
  rw [← simpleS_throws env k]
  have h := simpleTerm_eq env [] k
  simp only [List.nil_append, List.length_nil] at h
  unfold notTerm
  rw [h]
  cases simpleS env k with
  | ok p => 
    simp only [Res.map, reduceCtorEq, iff_false]
    split <;> simp
  | refused e => simp [Res.map]
  | throws => simp [Res.map]
  | undef => simp [Res.map]

theorem termS_ok {env : Env} {b : Bool} {ts o r : List Nd} (h : termS env b ts = .ok (o, r)) :
    Spec.Term env b ts o r := by
  cases ts with
  | nil => cases h
  | cons t l =>
    unfold termS at h
    dsimp only at h
    cases hty : t.ty <;> rw [hty] at h <;> dsimp only at h
    case PLACEHOLDER => cases h; exact .placeholder hty
    case REFERENCE =>
      cases b with
      | false => cases h
      | true => cases h; exact .reference hty
    case COLON =>
      cases l with
      | nil => cases h
      | cons f l =>
        dsimp only at h
        by_cases hi : f.ty = .IDENTIFIER
        · rw [if_pos hi] at h
          refine .simple (simpleS_ok h) ?_
          intro c f' r' e _ hf
          cases e
          rw [hi] at hf; cases hf
        · rw [if_neg hi] at h
          by_cases hf : f.ty = .FUNCTION
          · rw [if_pos hf] at h
            by_cases hn : f.tok.str = b!"not"
            · rw [if_pos hn] at h
              cases hk : notTerm env f.kids with
              | ok k => rw [hk] at h; cases h; exact .not hty hf hn ((notTerm_ok _ _ _).1 hk)
              | refused e => rw [hk] at h; cases h
              | throws => rw [hk] at h; cases h
              | undef => rw [hk] at h; cases h
            · rw [if_neg hn] at h
              refine .simple (simpleS_ok h) ?_
              intro c f' r' e _ _
              cases e
              exact hn
          · rw [if_neg hf] at h
            by_cases hc : f.ty = .COLON
            · rw [if_pos hc] at h
              cases l with
              | nil => cases h
              | cons u l =>
                dsimp only at h
                by_cases hu : u.ty = .IDENTIFIER
                · rw [if_neg (by simpa using hu)] at h
                  by_cases hp : env.pseudoElement u.tok.str = true
                  · rw [if_neg (by simp [hp])] at h
                    cases l with
                    | nil => rw [if_neg (by simp)] at h; cases h; exact .element hty hc hu hp
                    | cons x l => rw [if_pos (by simp)] at h; cases h
                  · rw [if_pos (by simpa using hp)] at h; cases h
                · rw [if_pos hu] at h; cases h
            · rw [if_neg hc] at h; cases h
    case HASH | IDENTIFIER | MULTIPLY | OPEN_SQUAREBRACKET | PERIOD | SCOPE =>
      refine .simple (simpleS_ok h) ?_
      intro c f' r' e hc _
      cases e
      rw [hty] at hc; cases hc
    all_goals cases h

/-- The type of the first node of a simple term. -/
theorem simple_first {env : Env} {ts o r : List Nd} (h : Spec.Simple env ts o r) :
    ∃ t l, ts = t :: l ∧ (t.ty = .HASH ∨ t.ty = .IDENTIFIER ∨ t.ty = .MULTIPLY ∨
      t.ty = .OPEN_SQUAREBRACKET ∨ t.ty = .PERIOD ∨ t.ty = .SCOPE ∨
      (t.ty = .COLON ∧ ∃ f l', l = f :: l' ∧ (f.ty = .IDENTIFIER ∨ f.ty = .FUNCTION))) := by
  cases h with
  | inScope h1 h2 h3 => exact ⟨_, _, rfl, by rcases h1 with h | h <;> simp [h]⟩
  | pseudo h1 h2 h3 => exact ⟨_, _, rfl, by simp [h1, h2]⟩
  | function h1 h2 h3 => exact ⟨_, _, rfl, by simp [h1, h2]⟩
  | _ => exact ⟨_, _, rfl, by simp [*]⟩

theorem termS_of {env : Env} {b : Bool} {ts o r : List Nd} (h : Spec.Term env b ts o r) :
    termS env b ts = .ok (o, r) := by
  cases h with
  | simple h hn =>
    have hs := simpleS_of h
    obtain ⟨t, l, e, hf⟩ := simple_first h
    subst e
    unfold termS
    dsimp only
    rcases hf with hf | hf | hf | hf | hf | hf | ⟨hf, f, l', e, hf'⟩
    · rw [hf]; exact hs
    · rw [hf]; exact hs
    · rw [hf]; exact hs
    · rw [hf]; exact hs
    · rw [hf]; exact hs
    · rw [hf]; exact hs
    · rw [hf, e]
      subst e
      dsimp only
      rcases hf' with hf' | hf'
      · rw [if_pos hf']; exact hs
      · rw [if_neg (by rw [hf']; decide), if_pos hf', if_neg (hn _ _ _ rfl hf hf')]; exact hs
  | placeholder h => unfold termS; dsimp only; rw [h]
  | reference h => unfold termS; dsimp only; rw [h]; rfl
  | not h1 h2 h3 h4 =>
    unfold termS; dsimp only; rw [h1]; dsimp only
    rw [if_neg (by rw [h2]; decide), if_pos h2, if_pos h3, (notTerm_ok _ _ _).2 h4]
  | element h1 h2 h3 h4 =>
    unfold termS; dsimp only; rw [h1]; dsimp only
    rw [if_neg (by rw [h2]; decide), if_neg (by rw [h2]; decide), if_pos h2, if_neg (by simpa using h3),
      if_neg (by simp [h4]), if_neg (by simp)]

/-- When reading a term throws. -/
def TermThrows (ts : List Nd) : Prop :=
  ts = [] ∨ (∃ n r, ts = n :: r ∧ n.ty = .OPEN_SQUAREBRACKET ∧ n.kids = []) ∨
    ∃ c f r, ts = c :: f :: r ∧ c.ty = .COLON ∧ f.ty = .FUNCTION ∧ f.tok.str = b!"not" ∧
      (f.kids = [] ∨ ∃ n r', f.kids = n :: r' ∧ n.ty = .OPEN_SQUAREBRACKET ∧ n.kids = [])

theorem simpleS_not_throws {env : Env} {t : Nd} {l : List Nd} (h : t.ty ≠ .OPEN_SQUAREBRACKET) :
    simpleS env (t :: l) ≠ .throws := by
  intro e
  rcases (simpleS_throws env _).1 e with e | ⟨n, r, e, h1, _⟩
  · cases e
  · cases e; exact h h1

theorem termS_throws (env : Env) (b : Bool) (ts : List Nd) :
    termS env b ts = .throws ↔ TermThrows ts := by
  cases ts with
  | nil => simp [termS, TermThrows]
  | cons t l =>
    constructor
    · intro h
      unfold termS at h
      dsimp only at h
      cases hty : t.ty <;> rw [hty] at h <;> dsimp only at h
      case REFERENCE => cases b <;> cases h
      case COLON =>
        have hns : simpleS env (t :: l) ≠ .throws := simpleS_not_throws (by rw [hty]; decide)
        cases l with
        | nil => cases h
        | cons f l =>
          dsimp only at h
          by_cases hi : f.ty = .IDENTIFIER
          · rw [if_pos hi] at h; exact absurd h hns
          · rw [if_neg hi] at h
            by_cases hf : f.ty = .FUNCTION
            · rw [if_pos hf] at h
              by_cases hn : f.tok.str = b!"not"
              · rw [if_pos hn] at h
                cases hk : notTerm env f.kids with
                | ok k => rw [hk] at h; cases h
                | refused e => rw [hk] at h; cases h
                | throws => exact .inr (.inr ⟨t, f, l, rfl, hty, hf, hn, (notTerm_throws _ _).1 hk⟩)
                | undef => rw [hk] at h; cases h
              · rw [if_neg hn] at h; exact absurd h hns
            · rw [if_neg hf] at h
              by_cases hc : f.ty = .COLON
              · rw [if_pos hc] at h
                cases l with
                | nil => cases h
                | cons u l =>
                  dsimp only at h
                  split at h
                  · cases h
                  · split at h
                    · cases h
                    · split at h <;> cases h
              · rw [if_neg hc] at h; cases h
      case HASH | IDENTIFIER | MULTIPLY | PERIOD | SCOPE =>
        exact absurd h (simpleS_not_throws (by rw [hty]; decide))
      case OPEN_SQUAREBRACKET =>
        rcases (simpleS_throws env _).1 h with e | ⟨n, r, e, h1, h2⟩
        · cases e
        · exact .inr (.inl ⟨n, r, e, h1, h2⟩)
      all_goals cases h
    · rintro (h | ⟨n, r, e, h1, h2⟩ | ⟨c, f, r, e, h1, h2, h3, h4⟩)
      · cases h
      · cases e
        unfold termS
        dsimp only
        rw [h1]
        exact (simpleS_throws env _).2 (.inr ⟨_, _, rfl, h1, h2⟩)
      · cases e
        unfold termS
        dsimp only
        rw [h1]
        dsimp only
        rw [if_neg (by rw [h2]; decide), if_pos h2, if_pos h3, (notTerm_throws _ _).2 h4]

/-! ### What a term leaves -/

theorem function_ty {env : Env} {f f' : Nd} (h : Spec.Function env f f') : f'.ty = f.ty := by
  cases h <;> rfl

theorem simple_out {env : Env} {ts o r : List Nd} (h : Spec.Simple env ts o r) :
    r.length < ts.length ∧
      ((o = [] ∧ (Spec.first r = some .OPEN_SQUAREBRACKET ∨ Spec.first r = some .PERIOD)) ∨
        (o ≠ [] ∧ (o.getLast?).any isWs = false)) := by
  cases h with
  | inScope h1 h2 h3 =>
    refine ⟨by simp only [List.length_cons]; omega, .inr ⟨by simp, ?_⟩⟩
    rcases h3 with h | h <;> simp [isWs, h]
  | scope h1 h2 =>
    refine ⟨by simp only [List.length_cons]; omega, .inr ⟨by simp, ?_⟩⟩
    rcases h2 with h | h <;> simp [isWs, h]
  | useless h1 h2 => exact ⟨by simp, .inl ⟨rfl, h2⟩⟩
  | function h1 h2 h3 =>
    refine ⟨by simp only [List.length_cons]; omega, .inr ⟨by simp, ?_⟩⟩
    simp [isWs, function_ty h3, h2]
  | attr h1 h2 => 
    refine ⟨by simp, .inr ⟨by simp, ?_⟩⟩
    rename_i bb name
    have : (Nd.mk bb.tok [name]).ty = _ := h1
    simp only [List.getLast?_singleton, Option.any_some, isWs, this]; rfl
  | test h1 h2 h3 => 
    refine ⟨by simp, .inr ⟨by simp, ?_⟩⟩
    rename_i bb name op value 
    have : (Nd.mk bb.tok [name, op, value]).ty = _ := h1
    simp only [List.getLast?_singleton, Option.any_some, isWs, this]; rfl
  | differs h1 h2 h3 => exact ⟨by simp, .inr ⟨by simp, rfl⟩⟩
  | _ =>
    refine ⟨by simp only [List.length_cons]; omega, .inr ⟨by simp, ?_⟩⟩
    simp [isWs, *]

theorem term_out {env : Env} {b : Bool} {ts o r : List Nd} (h : Spec.Term env b ts o r) :
    r.length < ts.length ∧
      ((o = [] ∧ (Spec.first r = some .OPEN_SQUAREBRACKET ∨ Spec.first r = some .PERIOD)) ∨
        (o ≠ [] ∧ (o.getLast?).any isWs = false)) := by
  cases h with
  | simple h _ => exact simple_out h
  | placeholder h => exact ⟨by simp, .inr ⟨by simp, by simp [isWs, h]⟩⟩
  | reference h => exact ⟨by simp, .inr ⟨by simp, by simp [isWs, h]⟩⟩
  | not h1 h2 h3 h4 =>
    refine ⟨by simp only [List.length_cons]; omega, .inr ⟨by simp, ?_⟩⟩
    rename_i c f out
    have : (Nd.mk f.tok out).ty = _ := h2
    simp only [List.getLast?_cons_cons, List.getLast?_singleton, Option.any_some, isWs, this]; rfl
  | element h1 h2 h3 h4 => exact ⟨by simp, .inr ⟨by simp, by simp [isWs, h3]⟩⟩

/-- Nothing but `&` depends on the position. -/
theorem termS_free {env : Env} {ts : List Nd}
    (h : Spec.first ts = some .OPEN_SQUAREBRACKET ∨ Spec.first ts = some .PERIOD) (b b' : Bool) :
    termS env b ts = termS env b' ts := by
  cases ts with
  | nil => rfl
  | cons t l =>
    simp only [first_cons, Option.some.injEq] at h
    unfold termS
    dsimp only
    rcases h with h | h <;> rw [h]

/-- selector_list() at the front of a list. -/
def selS (env : Env) : Nat → Bool → List Nd → Res (List Nd)
  | 0, _, _ => .undef
  | fuel + 1, b, ts =>
    match termS env b ts with
    | .refused e => .refused e
    | .throws => .throws
    | .undef => .undef
    | .ok (o, r) =>
      match r with
      | [] => .ok o
      | t :: r =>
        match betweenS (t :: r) with
        | .refused e => .refused e
        | .throws => .throws
        | .undef => .undef
        | .ok (s, r) => (selS env fuel false r).map (fun o' => o ++ s ++ o')

theorem map_map {α β γ : Type} (f : α → β) (g : β → γ) (x : Res α) : (x.map f).map g = x.map (fun a => g (f a)) := by
  cases x <;> rfl

theorem list_eq (env : Env) : ∀ (fuel : Nat) (b : Bool) (pre ts : List Nd),
    (b = pre.isEmpty ∨ Spec.first ts = some .OPEN_SQUAREBRACKET ∨ Spec.first ts = some .PERIOD) →
    list env fuel (pre ++ ts) pre.length = (selS env fuel b ts).map (fun o => pre ++ o) := by
  intro fuel
  induction fuel with
  | zero => intro b pre ts _; rfl
  | succ fuel ih =>
    intro b pre ts hb
    unfold list selS
    rw [term_eq]
    have : termS env pre.isEmpty ts = termS env b ts := by
      rcases hb with h | h
      · rw [h]
      · exact termS_free h _ _
    rw [this]
    cases ht : termS env b ts with
    | refused e => rfl
    | throws => rfl
    | undef => rfl
    | ok p =>
      obtain ⟨o, r⟩ := p
      obtain ⟨_, ho⟩ := term_out (termS_ok ht)
      simp only [Res.map, shift]
      have hl : pre.length + o.length = (pre ++ o).length := by simp
      rw [hl, get0]
      cases r with
      | nil => simp
      | cons t r =>
        simp only [List.getElem?_cons_zero]
        rw [between_eq]
        · cases hbt : betweenS (t :: r) with
          | refused e => rfl
          | throws => rfl
          | undef => rfl
          | ok q =>
            obtain ⟨s, r'⟩ := q
            simp only [Res.map, shift]
            have hl : (pre ++ o).length + s.length = (pre ++ o ++ s).length := by simp; omega
            rw [hl, ih false]
            · cases selS env fuel false r' <;> simp [Res.map]
            · rcases ho with ⟨e, hf⟩ | ⟨hne, _⟩
              · right
                simp only [first_cons, Option.some.injEq] at hf
                unfold betweenS combS at hbt
                dsimp only at hbt
                rw [if_neg, if_neg] at hbt
                · cases hbt
                  simpa [first_cons] using hf
                · rcases hf with h | h <;> rw [h] <;> decide
                · unfold isWs; rcases hf with h | h <;> rw [h] <;> decide
              · left
                cases o with
                | nil => exact absurd rfl hne
                | cons x y => simp
        · intro hc
          rcases ho with ⟨e, hf⟩ | ⟨hne, hl⟩
          · simp only [first_cons, Option.some.injEq] at hf
            exfalso
            rcases hf with h | h <;> rw [h] at hc <;> cases hc
          · cases o with
            | nil => exact absurd rfl hne
            | cons x y =>
              rw [List.getLast?_append]
              cases hg : (x :: y).getLast? with
              | none => simp at hg
              | some z => rw [hg] at hl; exact hl

theorem selectorList_eq (env : Env) (k : List Nd) :
    selectorList env k = selS env (k.length + 1) true k := by
  have h := list_eq env (k.length + 1) true [] k (.inl rfl)
  simp only [List.nil_append, List.length_nil] at h
  unfold selectorList
  rw [h]
  cases selS env (k.length + 1) true k <;> rfl

/-! ### Between two terms -/

theorem betweenS_ok {ts s r : List Nd} (h : betweenS ts = .ok (s, r)) :
    ∃ s0, ts = s0 ++ r ∧ Spec.Sep s0 s ∧ r ≠ [] := by
  have after : ∀ {l r : List Nd}, afterS l = .ok r → ∃ w, Spec.Ws w ∧ l = w ++ r ∧ r ≠ [] := by
    intro l r h
    unfold afterS at h
    cases l with
    | nil => cases h
    | cons t l =>
      dsimp only at h
      by_cases hw : isWs t = true
      · rw [if_pos hw] at h
        split at h
        · cases h
        · rename_i hl
          cases h
          exact ⟨[t], .one t ((isWs_iff t).1 hw), rfl, hl⟩
      · rw [if_neg hw] at h
        cases h
        exact ⟨[], .none, rfl, by simp⟩
  unfold betweenS at h
  cases ts with
  | nil => cases h
  | cons t l =>
    dsimp only at h
    by_cases hw : isWs t = true
    · rw [if_pos hw] at h
      cases l with
      | nil => cases h
      | cons u l =>
        dsimp only at h
        by_cases hc : isCombinator u.ty = true
        · rw [if_pos hc] at h
          cases ha : afterS l with
          | ok r' =>
            rw [ha] at h
            cases h
            obtain ⟨w, h1, h2, h3⟩ := after ha
            exact ⟨[t] ++ [u] ++ w, by simp [h2], .op (.one t ((isWs_iff t).1 hw)) h1 ((isCombinator_iff _).1 hc), h3⟩
          | refused e => rw [ha] at h; cases h
          | throws => rw [ha] at h; cases h
          | undef => rw [ha] at h; cases h
        · rw [if_neg hc] at h
          cases h
          exact ⟨[t], rfl, .space ((isWs_iff t).1 hw), by simp⟩
    · rw [if_neg hw] at h
      unfold combS at h
      dsimp only at h
      by_cases hc : isCombinator t.ty = true
      · rw [if_pos hc] at h
        cases ha : afterS l with
        | ok r' =>
          rw [ha] at h
          cases h
          obtain ⟨w, h1, h2, h3⟩ := after ha
          exact ⟨[] ++ [t] ++ w, by simp [h2], .op .none h1 ((isCombinator_iff _).1 hc), h3⟩
        | refused e => rw [ha] at h; cases h
        | throws => rw [ha] at h; cases h
        | undef => rw [ha] at h; cases h
      · rw [if_neg hc] at h
        cases h
        exact ⟨[], rfl, .none, by simp⟩

/-- The first node of a term, or of what throws. -/
def Starts (r : List Nd) : Prop := ∃ t l, r = t :: l ∧ t.ty ≠ .WHITESPACE ∧ isCombinator t.ty = false

theorem betweenS_of {s s' r : List Nd} (h : Spec.Sep s s') (hr : Starts r) :
    betweenS (s ++ r) = .ok (s', r) := by
  obtain ⟨t, l, e, h1, h2⟩ := hr
  subst e
  have hws : ¬ isWs t = true := by rw [isWs_iff]; exact h1
  have hwf : isWs t = false := by simpa using hws
  have hcomb : ∀ {c : Nd}, Spec.Combinator c.ty → isWs c = false := by
    intro c h; unfold isWs; rcases h with h | h | h <;> rw [h] <;> rfl
  cases h with
  | none => simp [betweenS, combS, hwf, h2]
  | @space w hw => simp [betweenS, (isWs_iff w).2 hw, h2]
  | @op w1 w2 c hw1 hw2 hc =>
    have hc' := (isCombinator_iff _).2 hc
    have ha : afterS (w2 ++ t :: l) = .ok (t :: l) := by
      cases hw2 with
      | none => simp [afterS, hwf]
      | one w hw => simp [afterS, (isWs_iff w).2 hw]
    cases hw1 with
    | none =>
      simp [betweenS, combS, hc', hcomb hc, ha, Res.map]
    | one w hw =>
      simp [betweenS, hc', (isWs_iff w).2 hw, ha, Res.map]

theorem betweenS_throws {ts : List Nd} (hne : ts ≠ []) : betweenS ts = .throws ↔
    ∃ w, w.ty = .WHITESPACE ∧ (ts = [w] ∨ ∃ w1 c, Spec.Ws w1 ∧ Spec.Combinator c.ty ∧ ts = w1 ++ [c, w]) := by
  have after : ∀ l : List Nd, afterS l = .throws ↔ ∃ w, w.ty = .WHITESPACE ∧ l = [w] := by
    intro l
    unfold afterS
    cases l with
    | nil => simp
    | cons t l =>
      dsimp only
      by_cases hw : isWs t = true
      · rw [if_pos hw]
        have := (isWs_iff t).1 hw
        by_cases hl : l = []
        · rw [if_pos hl]; simp [hl, this]
        · rw [if_neg hl]
          simp only [reduceCtorEq, List.cons.injEq, false_iff]
          rintro ⟨w, _, _, e⟩; exact hl e
      · rw [if_neg hw]
        simp only [reduceCtorEq, List.cons.injEq, false_iff]
        rintro ⟨w, h, e, _⟩
        subst e
        exact hw ((isWs_iff _).2 h)
  have hcomb : ∀ {c : Nd}, Spec.Combinator c.ty → isWs c = false := by
    intro c h; unfold isWs; rcases h with h | h | h <;> rw [h] <;> rfl
  constructor
  · intro h
    unfold betweenS at h
    cases ts with
    | nil => exact absurd rfl hne
    | cons t l =>
      dsimp only at h
      by_cases hw : isWs t = true
      · rw [if_pos hw] at h
        have hw := (isWs_iff t).1 hw
        cases l with
        | nil => exact ⟨t, hw, .inl rfl⟩
        | cons u l =>
          dsimp only at h
          by_cases hc : isCombinator u.ty = true
          · rw [if_pos hc] at h
            cases ha : afterS l with
            | throws =>
              obtain ⟨w, h1, h2⟩ := (after l).1 ha
              exact ⟨w, h1, .inr ⟨[t], u, .one t hw, (isCombinator_iff _).1 hc, by simp [h2]⟩⟩
            | ok r' => rw [ha] at h; cases h
            | refused e => rw [ha] at h; cases h
            | undef => rw [ha] at h; cases h
          · rw [if_neg hc] at h; cases h
      · rw [if_neg hw] at h
        unfold combS at h
        dsimp only at h
        by_cases hc : isCombinator t.ty = true
        · rw [if_pos hc] at h
          cases ha : afterS l with
          | throws =>
            obtain ⟨w, h1, h2⟩ := (after l).1 ha
            exact ⟨w, h1, .inr ⟨[], t, .none, (isCombinator_iff _).1 hc, by simp [h2]⟩⟩
          | ok r' => rw [ha] at h; cases h
          | refused e => rw [ha] at h; cases h
          | undef => rw [ha] at h; cases h
        · rw [if_neg hc] at h; cases h
  · rintro ⟨w, hw, h | ⟨w1, c, h1, hc, e⟩⟩
    · subst h; simp [betweenS, (isWs_iff w).2 hw]
    · have hc' := (isCombinator_iff _).2 hc
      have ha := (after [w]).2 ⟨w, hw, rfl⟩
      subst e
      cases h1 with
      | none =>
        simp only [List.nil_append, betweenS, combS, hc', hcomb hc, if_true, ha]
        rfl
      | one w' hw' =>
        simp only [List.singleton_append, betweenS, hc', (isWs_iff w').2 hw', if_true, ha]
        rfl

/-! ### Selectors -/

theorem term_starts {env : Env} {b : Bool} {ts o r : List Nd} (h : Spec.Term env b ts o r) : Starts ts := by
  cases h with
  | simple h _ =>
    obtain ⟨t, l, e, h⟩ := simple_first h
    refine ⟨t, l, e, ?_⟩
    rcases h with h | h | h | h | h | h | ⟨h, _⟩ <;> rw [h] <;> exact ⟨by decide, by decide⟩
  | placeholder h => exact ⟨_, _, rfl, by rw [h]; decide, by rw [h]; decide⟩
  | reference h => exact ⟨_, _, rfl, by rw [h]; decide, by rw [h]; decide⟩
  | not h => exact ⟨_, _, rfl, by rw [h]; decide, by rw [h]; decide⟩
  | element h => exact ⟨_, _, rfl, by rw [h]; decide, by rw [h]; decide⟩

theorem selector_starts {env : Env} {b : Bool} {ts o : List Nd} (h : Spec.Selector env b ts o) : Starts ts := by
  cases h with
  | last h => exact term_starts h
  | more h _ _ => exact term_starts h

theorem broken_starts {env : Env} {b : Bool} {ts : List Nd} (h : Spec.Broken env b ts) (hne : ts ≠ []) :
    Starts ts := by
  cases h with
  | missing => exact absurd rfl hne
  | brackets h => exact ⟨_, _, rfl, by rw [h]; decide, by rw [h]; decide⟩
  | not h => exact ⟨_, _, rfl, by rw [h]; decide, by rw [h]; decide⟩
  | space h _ => exact term_starts h
  | opSpace _ _ _ h => exact term_starts h
  | later h _ _ _ => exact term_starts h

theorem selS_ok (env : Env) : ∀ (fuel : Nat) (b : Bool) (ts o : List Nd),
    selS env fuel b ts = .ok o → Spec.Selector env b ts o := by
  intro fuel
  induction fuel with
  | zero => intro b ts o h; cases h
  | succ fuel ih =>
    intro b ts o h
    unfold selS at h
    cases ht : termS env b ts with
    | refused e => rw [ht] at h; cases h
    | throws => rw [ht] at h; cases h
    | undef => rw [ht] at h; cases h
    | ok p =>
      obtain ⟨o1, r⟩ := p
      rw [ht] at h
      have hT := termS_ok ht
      dsimp only at h
      cases r with
      | nil => cases h; exact .last hT
      | cons t r =>
        dsimp only at h
        cases hb : betweenS (t :: r) with
        | refused e => rw [hb] at h; cases h
        | throws => rw [hb] at h; cases h
        | undef => rw [hb] at h; cases h
        | ok q =>
          obtain ⟨s, r'⟩ := q
          rw [hb] at h
          obtain ⟨s0, e, hs, _⟩ := betweenS_ok hb
          dsimp only at h
          cases hr : selS env fuel false r' with
          | refused e => rw [hr] at h; cases h
          | throws => rw [hr] at h; cases h
          | undef => rw [hr] at h; cases h
          | ok o' =>
            rw [hr] at h
            cases h
            rw [e] at hT
            exact .more hT hs (ih _ _ _ hr)

theorem selS_of {env : Env} {b : Bool} {ts o : List Nd} (h : Spec.Selector env b ts o) :
    ∀ fuel, ts.length < fuel → selS env fuel b ts = .ok o := by
  induction h with
  | last h =>
    intro fuel hf
    obtain ⟨f, e⟩ : ∃ f, fuel = f + 1 := ⟨fuel - 1, by omega⟩
    subst e
    unfold selS
    rw [termS_of h]
  | @more b ts out s s' r out' h hs hsel ih =>
    intro fuel hf
    obtain ⟨f, e⟩ : ∃ f, fuel = f + 1 := ⟨fuel - 1, by omega⟩
    subst e
    have hl := (term_out h).1
    rw [List.length_append] at hl
    have hst := selector_starts hsel
    have hb := betweenS_of hs hst
    unfold selS
    rw [termS_of h]
    dsimp only
    cases hsr : s ++ r with
    | nil =>
      obtain ⟨t, l, e, _⟩ := hst
      rw [e] at hsr
      simp at hsr
    | cons x y =>
      rw [hsr] at hb
      dsimp only
      rw [hb]
      dsimp only
      rw [ih f (by omega)]
      rfl

theorem selS_throws (env : Env) : ∀ (fuel : Nat) (b : Bool) (ts : List Nd),
    selS env fuel b ts = .throws → Spec.Broken env b ts := by
  intro fuel
  induction fuel with
  | zero => intro b ts h; cases h
  | succ fuel ih =>
    intro b ts h
    unfold selS at h
    cases ht : termS env b ts with
    | refused e => rw [ht] at h; cases h
    | undef => rw [ht] at h; cases h
    | throws =>
      rcases (termS_throws _ _ _).1 ht with e | ⟨n, r, e, h1, h2⟩ | ⟨c, f, r, e, h1, h2, h3, h4⟩
      · subst e; exact .missing
      · subst e; exact .brackets h1 h2
      · subst e; exact .not h1 h2 h3 h4
    | ok p =>
      obtain ⟨o1, r⟩ := p
      rw [ht] at h
      have hT := termS_ok ht
      dsimp only at h
      cases r with
      | nil => cases h
      | cons t r =>
        dsimp only at h
        cases hb : betweenS (t :: r) with
        | refused e => rw [hb] at h; cases h
        | undef => rw [hb] at h; cases h
        | throws =>
          obtain ⟨w, hw, e | ⟨w1, c, h1, h2, e⟩⟩ := (betweenS_throws (by simp)).1 hb
          · rw [e] at hT; exact .space hT hw
          · rw [e] at hT; exact .opSpace h1 h2 hw hT
        | ok q =>
          obtain ⟨s, r'⟩ := q
          rw [hb] at h
          obtain ⟨s0, e, hs, hne⟩ := betweenS_ok hb
          dsimp only at h
          cases hr : selS env fuel false r' with
          | refused e => rw [hr] at h; cases h
          | undef => rw [hr] at h; cases h
          | ok o' => rw [hr] at h; cases h
          | throws =>
            rw [e] at hT
            exact .later hT hne hs (ih _ _ hr)

theorem selS_of_broken {env : Env} {b : Bool} {ts : List Nd} (h : Spec.Broken env b ts) :
    ∀ fuel, ts.length < fuel → selS env fuel b ts = .throws := by
  have one : ∀ {b : Bool} {ts : List Nd}, TermThrows ts → ∀ fuel, ts.length < fuel →
      selS env fuel b ts = .throws := by
    intro b ts h fuel hf
    obtain ⟨f, e⟩ : ∃ f, fuel = f + 1 := ⟨fuel - 1, by omega⟩
    subst e
    unfold selS
    rw [(termS_throws env b ts).2 h]
  have two : ∀ {b : Bool} {ts o r : List Nd}, Spec.Term env b ts o r → r ≠ [] → betweenS r = .throws →
      ∀ fuel, ts.length < fuel → selS env fuel b ts = .throws := by
    intro b ts o r h hne hb fuel hf
    obtain ⟨f, e⟩ : ∃ f, fuel = f + 1 := ⟨fuel - 1, by omega⟩
    subst e
    unfold selS
    rw [termS_of h]
    dsimp only
    cases r with
    | nil => exact absurd rfl hne
    | cons x y => dsimp only; rw [hb]
  induction h with
  | missing => exact one (.inl rfl)
  | brackets h1 h2 => exact one (.inr (.inl ⟨_, _, rfl, h1, h2⟩))
  | not h1 h2 h3 h4 => exact one (.inr (.inr ⟨_, _, _, rfl, h1, h2, h3, h4⟩))
  | space h hw => exact two h (by simp) ((betweenS_throws (by simp)).2 ⟨_, hw, .inl rfl⟩)
  | opSpace h1 h2 h3 h =>
    exact two h (by simp) ((betweenS_throws (by simp)).2 ⟨_, h3, .inr ⟨_, _, h1, h2, rfl⟩⟩)
  | @later b ts out s s' r h hne hs hbr ih =>
    intro fuel hf
    obtain ⟨f, e⟩ : ∃ f, fuel = f + 1 := ⟨fuel - 1, by omega⟩
    subst e
    have hl := (term_out h).1
    rw [List.length_append] at hl
    have hst := broken_starts hbr hne
    have hb := betweenS_of hs hst
    unfold selS
    rw [termS_of h]
    dsimp only
    cases hsr : s ++ r with
    | nil => simp at hsr; exact absurd hsr.2 hne
    | cons x y =>
      rw [hsr] at hb
      dsimp only
      rw [hb]
      dsimp only
      rw [ih f (by omega)]
      rfl

end Csspp.Sel
