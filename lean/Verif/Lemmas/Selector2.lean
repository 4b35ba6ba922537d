import Verif.Lemmas.Selector

/-!
The functions of Lemmas/Selector.lean and the grammar of Spec/Selectors.lean.
-/

namespace Csspp.Sel
open Csspp.Parse (Nd)

theorem isWs_iff (t : Nd) : isWs t = true ↔ t.ty = .WHITESPACE := by unfold isWs; simp
theorem isCombinator_iff (ty : NT) : isCombinator ty = true ↔ Spec.Combinator ty := by
  unfold isCombinator Spec.Combinator; simp [or_assoc]
theorem isName_iff (ty : NT) : isName ty = true ↔ Spec.Name ty := by
  unfold isName Spec.Name; simp
theorem isAttrOp_iff (ty : NT) : isAttrOp ty = true ↔ Spec.AttrOp ty := by
  cases ty <;> simp [isAttrOp, Spec.AttrOp]
theorem isAttrValue_iff (ty : NT) : isAttrValue ty = true ↔ Spec.AttrValue ty := by
  cases ty <;> simp [isAttrValue, Spec.AttrValue]

/-- A WHITESPACE or nothing, in front of something else. -/
theorem dropWs_eq {t x : Nd} {k l : List Nd} (h : dropWs t k = x :: l) :
    ∃ w, Spec.Ws w ∧ t :: k = w ++ x :: l := by
  unfold dropWs at h
  split at h
  · rename_i hw
    exact ⟨[t], .one t ((isWs_iff t).1 hw), by simp [h]⟩
  · exact ⟨[], .none, by simpa using h⟩

theorem dropWs_ws {w : List Nd} {x : Nd} {l : List Nd} (hw : Spec.Ws w) (hx : x.ty ≠ .WHITESPACE) :
    ∃ t k, w ++ x :: l = t :: k ∧ dropWs t k = x :: l := by
  cases hw with
  | none =>
    refine ⟨x, l, rfl, ?_⟩
    unfold dropWs
    rw [if_neg]
    rw [isWs_iff]; exact hx
  | one w hw =>
    refine ⟨w, x :: l, rfl, ?_⟩
    unfold dropWs
    rw [if_pos ((isWs_iff w).2 hw)]

theorem ws_of_dropWs_nil {t : Nd} {k : List Nd} (h : dropWs t k = []) : Spec.Ws (t :: k) := by
  unfold dropWs at h
  split at h
  · rename_i hw
    subst h
    exact .one t ((isWs_iff t).1 hw)
  · cases h

/-! ### Attributes -/

theorem attrS_ok {n : Nd} {r : List Nd} {p : List Nd × List Nd} (h : attrS n r = .ok p) :
    p.2 = r ∧ ((∃ name, Spec.AttrBare n.kids name ∧ p.1 = [.mk n.tok [name]]) ∨
      ∃ name op value, Spec.AttrTest n.kids name op value ∧ p.1 = attrOut n name op value) := by
  unfold attrS at h
  cases hk : n.kids with
  | nil => rw [hk] at h; cases h
  | cons t k =>
    rw [hk] at h
    dsimp only at h
    cases hd : dropWs t k with
    | nil => rw [hd] at h; cases h
    | cons name k1 =>
      rw [hd] at h
      dsimp only at h
      obtain ⟨w1, hw1, e1⟩ := dropWs_eq hd
      by_cases hn : name.ty = .IDENTIFIER
      · rw [if_neg (by simpa using hn)] at h
        cases k1 with
        | nil =>
          cases h
          refine ⟨rfl, .inl ⟨name, ?_, rfl⟩⟩
          rw [e1]
          simpa using Spec.AttrBare.mk hw1 .none hn
        | cons t k2 =>
          dsimp only at h
          cases hd : dropWs t k2 with
          | nil =>
            rw [hd] at h
            cases h
            refine ⟨rfl, .inl ⟨name, ?_, rfl⟩⟩
            rw [e1]
            simpa using Spec.AttrBare.mk hw1 (ws_of_dropWs_nil hd) hn
          | cons op k3 =>
            rw [hd] at h
            obtain ⟨w2, hw2, e2⟩ := dropWs_eq hd
            dsimp only at h
            by_cases ho : isAttrOp op.ty = true
            · rw [if_neg (by simp [ho])] at h
              cases k3 with
              | nil => cases h
              | cons t k4 =>
                dsimp only at h
                cases hd : dropWs t k4 with
                | nil => rw [hd] at h; cases h
                | cons value k5 =>
                  rw [hd] at h
                  obtain ⟨w3, hw3, e3⟩ := dropWs_eq hd
                  dsimp only at h
                  by_cases hv : isAttrValue value.ty = true
                  · rw [if_neg (by simp [hv])] at h
                    by_cases h5 : k5 = []
                    · rw [if_neg (by simp [h5])] at h
                      cases h
                      refine ⟨rfl, .inr ⟨name, op, value, ?_, rfl⟩⟩
                      rw [e1, e2, e3, h5]
                      simpa using Spec.AttrTest.mk hw1 hw2 hw3 hn ((isAttrOp_iff _).1 ho)
                        ((isAttrValue_iff _).1 hv)
                    · rw [if_pos h5] at h; cases h
                  · rw [if_pos (by simpa using hv)] at h; cases h
            · rw [if_pos (by simpa using ho)] at h; cases h
      · rw [if_pos hn] at h; cases h

theorem op_not_ws {t : NT} (h : Spec.AttrOp t) : t ≠ .WHITESPACE := by
  intro e; subst e; exact absurd h (by simp [Spec.AttrOp, Spec.AttrValue])
theorem value_not_ws {t : NT} (h : Spec.AttrValue t) : t ≠ .WHITESPACE := by
  intro e; subst e; exact absurd h (by simp [Spec.AttrOp, Spec.AttrValue])

theorem attrS_bare {n name : Nd} {r : List Nd} (h : Spec.AttrBare n.kids name) :
    attrS n r = .ok ([.mk n.tok [name]], r) := by
  unfold attrS
  generalize n.kids = l at h
  cases h with
  | mk hw1 hw2 hn =>
    rename_i w1 w2
    obtain ⟨t, k, e, hd⟩ := dropWs_ws (l := w2) hw1 (by rw [hn]; decide : name.ty ≠ .WHITESPACE)
    rw [show w1 ++ [name] ++ w2 = w1 ++ name :: w2 by simp, e]
    dsimp only
    rw [hd]
    dsimp only
    rw [if_neg (by simpa using hn)]
    cases hw2 with
    | none => rfl
    | one w hw =>
      dsimp only
      unfold dropWs
      rw [if_pos ((isWs_iff w).2 hw)]

theorem attrS_test {n name op value : Nd} {r : List Nd} (h : Spec.AttrTest n.kids name op value) :
    attrS n r = .ok (attrOut n name op value, r) := by
  unfold attrS
  generalize n.kids = l at h
  cases h with
  | mk hw1 hw2 hw3 hn ho hv =>
    rename_i w1 w2 w3
    obtain ⟨t, k, e, hd⟩ := dropWs_ws (l := w2 ++ op :: (w3 ++ [value])) hw1
      (by rw [hn]; decide : name.ty ≠ .WHITESPACE)
    rw [show w1 ++ [name] ++ w2 ++ [op] ++ w3 ++ [value] = w1 ++ name :: (w2 ++ op :: (w3 ++ [value])) by simp, e]
    dsimp only
    rw [hd]
    dsimp only
    rw [if_neg (by simpa using hn)]
    obtain ⟨t, k, e, hd⟩ := dropWs_ws (l := w3 ++ [value]) hw2 (op_not_ws ho)
    rw [e]
    dsimp only
    rw [hd]
    dsimp only
    rw [if_neg (by rw [(isAttrOp_iff _).2 ho]; simp)]
    obtain ⟨t, k, e, hd⟩ := dropWs_ws (l := []) hw3 (value_not_ws hv)
    rw [e]
    dsimp only
    rw [hd]
    dsimp only
    rw [if_neg (by rw [(isAttrValue_iff _).2 hv]; simp), if_neg (by simp)]

theorem attrS_throws (n : Nd) (r : List Nd) : attrS n r = .throws ↔ n.kids = [] := by
  constructor
  · intro h
    unfold attrS at h
    cases hk : n.kids with
    | nil => rfl
    | cons t k =>
      exfalso
      rw [hk] at h
      dsimp only at h
      cases hd : dropWs t k with
      | nil => rw [hd] at h; cases h
      | cons name k =>
        rw [hd] at h
        dsimp only at h
        split at h
        · cases h
        · cases k with
          | nil => cases h
          | cons t k =>
            dsimp only at h
            cases hd : dropWs t k with
            | nil => rw [hd] at h; cases h
            | cons op k =>
              rw [hd] at h
              dsimp only at h
              split at h
              · cases h
              · cases k with
                | nil => cases h
                | cons t k =>
                  dsimp only at h
                  cases hd : dropWs t k with
                  | nil => rw [hd] at h; cases h
                  | cons value k =>
                    rw [hd] at h
                    dsimp only at h
                    split at h
                    · cases h
                    · split at h <;> cases h
  · intro h
    unfold attrS
    rw [h]

/-! ### `:lang()` and the other functions -/

theorem before_after (s : Str) : 45 ∉ beforeDash s ∧ ((s = beforeDash s ∧ afterDash s = []) ∨
    s = beforeDash s ++ 45 :: afterDash s) := by
  unfold beforeDash afterDash
  induction s with
  | nil => simp
  | cons c s ih =>
    by_cases hc : c = 45
    · subst hc; simp
    · have h1 : (c != 45) = true := by simpa using hc
      simp only [List.takeWhile_cons, List.dropWhile_cons, h1, if_true]
      refine ⟨by simp only [List.mem_cons]; rintro (e | e); exact hc e.symm; exact ih.1 e, ?_⟩
      rcases ih.2 with ⟨e1, e2⟩ | e
      · left; exact ⟨by rw [← e1], e2⟩
      · right; rw [List.cons_append, ← e]

theorem before_of_not_mem {s : Str} (h : 45 ∉ s) : beforeDash s = s ∧ afterDash s = [] := by
  unfold beforeDash afterDash
  induction s with
  | nil => simp
  | cons c s ih =>
    simp only [List.mem_cons, not_or] at h
    have h1 : (c != 45) = true := by simpa using fun e => h.1 e.symm
    simp only [List.takeWhile_cons, List.dropWhile_cons, h1, if_true]
    exact ⟨by rw [(ih h.2).1], (ih h.2).2⟩

theorem before_append {s r : Str} (h : 45 ∉ s) :
    beforeDash (s ++ 45 :: r) = s ∧ afterDash (s ++ 45 :: r) = r := by
  unfold beforeDash afterDash
  induction s with
  | nil => simp
  | cons c s ih =>
    simp only [List.mem_cons, not_or] at h
    have h1 : (c != 45) = true := by simpa using fun e => h.1 e.symm
    simp only [List.cons_append, List.takeWhile_cons, List.dropWhile_cons, h1, if_true]
    exact ⟨by rw [(ih h.2).1], (ih h.2).2⟩

/-- The test on the text of the parameter. -/
theorem lang_iff (env : Env) (s : Str) : Spec.Lang env s ↔
    env.language (beforeDash s) = true ∧
      (beforeDash (afterDash s) = [] ∨ env.country (beforeDash (afterDash s)) = true) := by
  constructor
  · intro h
    cases h with
    | language h1 h2 =>
      obtain ⟨e1, e2⟩ := before_of_not_mem h1
      rw [e1, e2]
      exact ⟨h2, .inl rfl⟩
    | @noCountry l rest h1 h2 h3 =>
      obtain ⟨e1, e2⟩ := before_append (r := rest) h1
      rw [e1, e2]
      refine ⟨h2, .inl ?_⟩
      rcases h3 with h3 | h3
      · subst h3; rfl
      · cases rest with
        | nil => rfl
        | cons c r => simp at h3; subst h3; simp [beforeDash]
    | @country l c h1 h2 h3 h4 h5 =>
      obtain ⟨e1, e2⟩ := before_append (r := c) h1
      rw [e1, e2, (before_of_not_mem h2).1]
      exact ⟨h4, .inr h5⟩
    | @more l c rest h1 h2 h3 h4 h5 =>
      obtain ⟨e1, e2⟩ := before_append (r := c ++ 45 :: rest) h1
      rw [e1, e2, (before_append h2).1]
      exact ⟨h4, .inr h5⟩
  · rintro ⟨h1, h2⟩
    obtain ⟨n1, c1⟩ := before_after s
    generalize beforeDash s = l at *
    rcases c1 with ⟨e1, e2⟩ | e1
    · rw [e1]; exact .language n1 h1
    · generalize afterDash s = a at *
      obtain ⟨n2, c2⟩ := before_after a
      by_cases hb : beforeDash a = []
      · rw [e1]
        refine .noCountry n1 h1 ?_
        rcases c2 with ⟨e2, _⟩ | e2
        · left; rw [e2, hb]
        · right; rw [e2, hb]; rfl
      · have h2 := h2.resolve_left hb
        rw [e1]
        rcases c2 with ⟨e2, _⟩ | e2
        · rw [← e2] at h2 n2 hb
          exact .country n1 n2 hb h1 h2
        · rw [e2]
          exact .more n1 n2 hb h1 h2

theorem langCheck_none (env : Env) (f : Nd) : langCheck env f = none ↔
    ∃ t, f.kids = [t] ∧ t.ty = .IDENTIFIER ∧ Spec.Lang env t.tok.str := by
  unfold langCheck
  split
  · rename_i t ht
    rw [ht]
    by_cases hi : t.ty = .IDENTIFIER
    · rw [if_neg (by simpa using hi)]
      constructor
      · intro h
        refine ⟨t, rfl, hi, (lang_iff env _).2 ?_⟩
        by_cases hl : env.language (beforeDash t.tok.str) = true
        · rw [if_neg (by simp [hl])] at h
          refine ⟨hl, ?_⟩
          dsimp only at h
          split at h
          · cases h
          · rename_i hh
            simp only [not_and, Bool.not_eq_false] at hh
            exact (Decidable.em _).imp_right hh
        · rw [if_pos (by simpa using hl)] at h; cases h
      · rintro ⟨t', e, _, hl⟩
        cases e
        obtain ⟨h1, h2⟩ := (lang_iff env _).1 hl
        rw [if_neg (by simp [h1])]
        dsimp only
        rw [if_neg]
        rintro ⟨a, b⟩
        rcases h2 with h2 | h2
        · exact a h2
        · rw [h2] at b; cases b
    · rw [if_pos hi]
      constructor
      · intro h; cases h
      · rintro ⟨t', e, h, _⟩; cases e; exact absurd h hi
  · rename_i hn
    constructor
    · intro h; cases h
    · rintro ⟨t, e, _⟩; exact absurd e (hn t)

theorem pseudoFunction_ok (env : Env) (f f' : Nd) : pseudoFunction env f = .ok f' ↔ Spec.Function env f f' := by
  unfold pseudoFunction
  constructor
  · intro h
    by_cases h1 : env.nthFunction f.tok.str = true
    · rw [if_pos h1] at h
      dsimp only at h
      split at h
      · cases h
      · rename_i hub
        split at h
        · rename_i hok
          cases h
          exact .nth h1 hok (by simpa using hub)
        · cases h
    · rw [if_neg h1] at h
      have h1 : env.nthFunction f.tok.str = false := by simpa using h1
      by_cases h2 : env.pseudoFunction f.tok.str = true
      · rw [if_neg (by simp [h2])] at h
        by_cases h3 : f.tok.str = b!"not"
        · rw [if_pos h3] at h; cases h
        · rw [if_neg h3] at h
          by_cases h4 : f.tok.str = b!"lang"
          · rw [if_pos h4] at h
            cases hl : langCheck env f with
            | some e => rw [hl] at h; cases h
            | none =>
              rw [hl] at h
              cases h
              obtain ⟨t, e1, e2, e3⟩ := (langCheck_none env f).1 hl
              exact .lang h1 h2 h4 e1 e2 e3
          · rw [if_neg h4] at h
            cases h
            exact .other h1 h2 h4 h3
      · rw [if_pos (by simpa using h2)] at h; cases h
  · intro h
    cases h with
    | nth h1 h2 h3 =>
      rw [if_pos h1]
      dsimp only
      rw [if_neg (by simp [h3]), if_pos h2]
      rfl
    | lang h1 h2 h3 h4 h5 h6 =>
      rw [if_neg (by simp [h1]), if_neg (by simp [h2]), if_neg (by rw [h3]; decide), if_pos h3,
        (langCheck_none env f).2 ⟨_, h4, h5, h6⟩]
    | other h1 h2 h3 h4 =>
      rw [if_neg (by simp [h1]), if_neg (by simp [h2]), if_neg h4, if_neg h3]

theorem pseudoFunction_throws (env : Env) (f : Nd) : pseudoFunction env f ≠ .throws := by
  unfold pseudoFunction
  intro h
  split at h
  · dsimp only at h
    split at h
    · cases h
    · split at h <;> cases h
  · split at h
    · cases h
    · split at h
      · cases h
      · split at h
        · split at h <;> cases h
        · cases h

/-! ### Simple terms -/

theorem first_nil : Spec.first ([] : List Nd) = none := rfl
theorem first_cons (t : Nd) (l : List Nd) : Spec.first (t :: l) = some t.ty := rfl

theorem simpleS_ok {env : Env} {ts o r : List Nd} (h : simpleS env ts = .ok (o, r)) :
    Spec.Simple env ts o r := by
  unfold simpleS at h
  cases ts with
  | nil => cases h
  | cons t l =>
    dsimp only at h
    cases hty : t.ty <;> rw [hty] at h <;> dsimp only at h
    case HASH => cases h; exact .id hty
    case IDENTIFIER =>
      cases l with
      | nil => cases h; exact .name hty (by simp [first_nil])
      | cons s l =>
        dsimp only at h
        by_cases hs : s.ty = .SCOPE
        · rw [if_pos hs] at h
          cases l with
          | nil => cases h
          | cons u l =>
            dsimp only at h
            split at h
            · rename_i hu
              cases h
              exact .inScope (.inl hty) hs ((isName_iff _).1 hu)
            · cases h
        · rw [if_neg hs] at h
          cases h
          exact .name hty (by simpa [first_cons] using hs)
    case MULTIPLY =>
      cases l with
      | nil => cases h; exact .any hty (by simp [first_nil]) (by simp [first_nil]) (by simp [first_nil])
      | cons s l =>
        dsimp only at h
        by_cases hs : s.ty = .SCOPE
        · rw [if_pos hs] at h
          cases l with
          | nil => cases h
          | cons u l =>
            dsimp only at h
            split at h
            · rename_i hu
              cases h
              exact .inScope (.inr hty) hs ((isName_iff _).1 hu)
            · cases h
        · rw [if_neg hs] at h
          by_cases hb : s.ty = .OPEN_SQUAREBRACKET ∨ s.ty = .PERIOD
          · rw [if_pos hb] at h
            cases h
            exact .useless hty (by simpa [first_cons] using hb)
          · rw [if_neg hb] at h
            cases h
            simp only [not_or] at hb
            exact .any hty (by simpa [first_cons] using hs) (by simpa [first_cons] using hb.1)
              (by simpa [first_cons] using hb.2)
    case SCOPE =>
      cases l with
      | nil => cases h
      | cons u l =>
        dsimp only at h
        split at h
        · rename_i hu
          cases h
          exact .scope hty ((isName_iff _).1 hu)
        · cases h
    case COLON =>
      cases l with
      | nil => cases h
      | cons u l =>
        dsimp only at h
        by_cases hi : u.ty = .IDENTIFIER
        · rw [if_pos hi] at h
          split at h
          · rename_i hp
            cases h
            exact .pseudo hty hi hp
          · cases h
        · rw [if_neg hi] at h
          by_cases hf : u.ty = .FUNCTION
          · rw [if_pos hf] at h
            cases hp : pseudoFunction env u with
            | ok f => rw [hp] at h; cases h; exact .function hty hf ((pseudoFunction_ok _ _ _).1 hp)
            | refused e => rw [hp] at h; cases h
            | throws => rw [hp] at h; cases h
            | undef => rw [hp] at h; cases h
          · rw [if_neg hf] at h; cases h
    case PERIOD =>
      cases l with
      | nil => cases h
      | cons u l =>
        dsimp only at h
        split at h
        · rename_i hu
          cases h
          exact .cls hty hu
        · cases h
    case OPEN_SQUAREBRACKET =>
      obtain ⟨e, hh⟩ := attrS_ok h
      clear h
      dsimp only at e hh
      subst e
      rcases hh with ⟨name, h1, h2⟩ | ⟨name, op, value, h1, h2⟩
      · rw [h2]; exact .attr hty h1
      · rw [h2]
        unfold attrOut
        by_cases hop : op.ty = .NOT_EQUAL
        · rw [if_pos hop]; exact .differs hty h1 hop
        · rw [if_neg hop]; exact .test hty h1 hop
    all_goals cases h

theorem simpleS_of {env : Env} {ts o r : List Nd} (h : Spec.Simple env ts o r) :
    simpleS env ts = .ok (o, r) := by
  unfold simpleS
  cases h with
  | id h => dsimp only; rw [h]
  | @name t r h h1 =>
    dsimp only
    rw [h]
    cases r with
    | nil => rfl
    | cons s l => dsimp only; rw [if_neg (by simpa [first_cons] using h1)]
  | @any t r h h1 h2 h3 =>
    dsimp only
    rw [h]
    cases r with
    | nil => rfl
    | cons s l =>
      dsimp only
      rw [if_neg (by simpa [first_cons] using h1), if_neg]
      simp only [first_cons, ne_eq, Option.some.injEq] at h2 h3
      rintro (e | e)
      · exact h2 e
      · exact h3 e
  | @useless t r h h1 =>
    dsimp only
    rw [h]
    cases r with
    | nil => simp [first_nil] at h1
    | cons s l =>
      simp only [first_cons, Option.some.injEq] at h1
      dsimp only
      rw [if_neg (by rcases h1 with e | e <;> rw [e] <;> decide), if_pos h1]
  | inScope h1 h2 h3 =>
    dsimp only
    rcases h1 with h1 | h1 <;> rw [h1] <;> dsimp only <;> rw [if_pos h2, if_pos ((isName_iff _).2 h3)]
  | scope h1 h2 => dsimp only; rw [h1]; dsimp only; rw [if_pos ((isName_iff _).2 h2)]
  | pseudo h1 h2 h3 => dsimp only; rw [h1]; dsimp only; rw [if_pos h2, if_pos h3]
  | function h1 h2 h3 =>
    dsimp only; rw [h1]; dsimp only
    rw [if_neg (by rw [h2]; decide), if_pos h2, (pseudoFunction_ok _ _ _).2 h3]
  | cls h1 h2 => dsimp only; rw [h1]; dsimp only; rw [if_pos h2]
  | attr h1 h2 => dsimp only; rw [h1]; exact attrS_bare h2
  | test h1 h2 h3 => dsimp only; rw [h1]; dsimp only; rw [attrS_test h2]; unfold attrOut; rw [if_neg h3]
  | differs h1 h2 h3 => dsimp only; rw [h1]; dsimp only; rw [attrS_test h2]; unfold attrOut; rw [if_pos h3]

theorem simpleS_throws (env : Env) (ts : List Nd) : simpleS env ts = .throws ↔
    ts = [] ∨ ∃ n r, ts = n :: r ∧ n.ty = .OPEN_SQUAREBRACKET ∧ n.kids = [] := by
  unfold simpleS
  cases ts with
  | nil => simp
  | cons t l =>
    have hr : (t :: l = [] ∨ ∃ n r, t :: l = n :: r ∧ n.ty = .OPEN_SQUAREBRACKET ∧ n.kids = []) ↔
        (t.ty = .OPEN_SQUAREBRACKET ∧ t.kids = []) := by
      constructor
      · rintro (h | ⟨n, r, e, h⟩)
        · cases h
        · cases e; exact h
      · intro h; exact .inr ⟨t, l, rfl, h⟩
    rw [hr]
    dsimp only
    cases hty : t.ty <;> dsimp only
    case OPEN_SQUAREBRACKET => rw [attrS_throws]; simp
    case COLON =>
      simp only [reduceCtorEq, false_and, iff_false]
      cases l with
      | nil => simp
      | cons u l =>
        dsimp only
        split
        · split <;> simp
        · split
          · have := pseudoFunction_throws env u
            cases hp : pseudoFunction env u <;> simp_all
          · simp
    all_goals
      simp only [reduceCtorEq, false_and, iff_false]
      try (cases l <;> dsimp only)
      try simp
      try (split <;> simp_all)
      try (rename_i tl _ ; cases tl <;> simp_all)
      try (split <;> simp_all)
      try (split <;> simp_all)

end Csspp.Sel
