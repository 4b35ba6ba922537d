import Verif.Spec.Args

/-!
C39: argify() splits the children at the separators, exactly.
-/

namespace Csspp.Parse
open Csspp.Lex (Tok Pos)
open Csspp.Node (supportsChildren)

theorem pieces_ne (sep : NT) (l : List Nd) : pieces sep l ≠ [] := by
  cases l with
  | nil => simp [pieces]
  | cons c cs =>
    unfold pieces
    split
    · simp
    · split <;> simp

theorem pieces_cons (sep : NT) (l : List Nd) : ∃ p ps, pieces sep l = p :: ps := by
  cases h : pieces sep l with
  | nil => exact absurd h (pieces_ne sep l)
  | cons p ps => exact ⟨p, ps, rfl⟩

theorem pieces_nil_iff {sep : NT} {l : List Nd} : pieces sep l = [[]] ↔ l = [] := by
  constructor
  · intro h
    cases l with
    | nil => rfl
    | cons c cs =>
      unfold pieces at h
      obtain ⟨p, ps, hp⟩ := pieces_cons sep cs
      rw [hp] at h
      split at h
      · simp at h
      · simp at h
  · rintro rfl; rfl

/-- The message found from left to right. -/
def cmp (first : Bool) : List (List Nd) → Option ArgErr
  | [] => none
  | [_] => none
  | p :: q :: ps =>
    if blank p then some (if first then .leading else .doubled)
    else if ps.isEmpty && q.isEmpty then some .trailing
    else cmp false (q :: ps)

theorem cmp_false (q : List Nd) (ps : List (List Nd)) : cmp false (q :: ps) =
    if (q :: ps).dropLast.any blank then some .doubled
    else if ps.isEmpty = false ∧ (ps.getLastD []).isEmpty = true then some .trailing else none := by
  induction ps generalizing q with
  | nil => simp [cmp]
  | cons x ps ih =>
    unfold cmp
    rw [List.dropLast_cons_cons, List.any_cons]
    by_cases h : blank q = true
    · rw [if_pos h]; simp [h]
    · rw [if_neg h, ih]
      have h : blank q = false := by simpa using h
      rw [h, Bool.false_or]
      cases ps with
      | nil => cases x <;> simp
      | cons y ps => simp

theorem complaint_eq (l : List (List Nd)) : complaint l = cmp true l := by
  cases l with
  | nil => rfl
  | cons p ps =>
    cases ps with
    | nil => rfl
    | cons q ps =>
      rw [show complaint (p :: q :: ps) = (if blank p then some .leading
        else if (q :: ps).dropLast.any blank then some .doubled
        else if ((q :: ps).getLastD []).isEmpty then some .trailing else none) from rfl]
      unfold cmp
      by_cases h : blank p = true
      · rw [if_pos h, if_pos h]; rfl
      · rw [if_neg h, if_neg h, cmp_false]
        cases ps with
        | nil => cases q <;> simp
        | cons y ps => simp

theorem body_nil_iff {l : List Nd} :
    body l = [] ↔ (l.isEmpty = true ∨ l.head?.map Nd.ty = some .OPEN_CURLYBRACKET) := by
  cases l with
  | nil => simp [body]
  | cons c l =>
    unfold body
    rw [List.takeWhile_cons]
    by_cases h : c.ty = .OPEN_CURLYBRACKET <;> simp [h]

/-- The argument read so far starts with something. -/
def Lead (arg : List Nd) : Prop := lead arg = arg

theorem lead_append {arg : List Nd} (h : Lead arg) (p : List Nd) :
    lead (arg ++ p) = if arg.isEmpty then lead p else arg ++ p := by
  cases arg with
  | nil => rfl
  | cons c arg =>
    unfold Lead lead at h
    rw [List.dropWhile_cons] at h
    split at h
    · have h1 := congrArg List.length h
      have h2 := (List.dropWhile_sublist (l := arg) isWs).length_le
      rw [List.length_cons] at h1
      omega
    · rename_i hc
      show List.dropWhile isWs (c :: (arg ++ p)) = _
      rw [List.dropWhile_cons, if_neg hc]
      rfl

theorem isWs_iff {c : Nd} : isWs c = true ↔ c.ty = .WHITESPACE := by unfold isWs; simp

theorem trim_of_lead {arg : List Nd} (h : Lead arg) :
    trim arg = (arg.reverse.dropWhile (fun c => c.ty = .WHITESPACE)).reverse := by
  unfold trim
  rw [show lead arg = arg from h]
  congr 2

theorem trim_nil_iff {arg : List Nd} : trim arg = [] ↔ blank arg = true := by
  have key : ∀ l : List Nd, l.dropWhile isWs = [] ↔ l.all isWs = true := by
    intro l
    induction l with
    | nil => simp
    | cons c l ih =>
      rw [List.dropWhile_cons, List.all_cons]
      by_cases h : isWs c = true
      · rw [if_pos h, ih]; simp [h]
      · rw [if_neg h]; simp [h]
  unfold trim blank lead
  rw [List.reverse_eq_nil_iff, key, List.all_reverse, ← key, ← key]
  constructor
  · intro h
    cases hd : arg.dropWhile isWs with
    | nil => rfl
    | cons c l =>
      rw [hd, List.dropWhile_cons] at h
      split at h
      · rename_i hc
        have : ∀ l : List Nd, ∀ c l', l.dropWhile isWs = c :: l' → isWs c = false := by
          intro l
          induction l with
          | nil => intro c l' h; cases h
          | cons a l ih =>
            intro c l' h
            rw [List.dropWhile_cons] at h
            split at h
            · exact ih c l' h
            · rename_i ha
              injection h with h1 _
              rw [← h1]; simpa using ha
        rw [this arg c l hd] at hc
        cases hc
      · cases h
  · intro h; rw [h]; rfl

theorem clean_tail {c : Nd} {l : List Nd} (h : Clean (c :: l)) : Clean l := by
  cases l with
  | nil => trivial
  | cons d l => exact h.2.2

theorem clean_head {c : Nd} {l : List Nd} (h : Clean (c :: l)) : c.ty ≠ .EOF_TOKEN := by
  cases l with
  | nil => exact h
  | cons d l => exact h.1

theorem clean_append {a b : List Nd} (h : Clean (a ++ b)) : Clean b := by
  induction a with
  | nil => exact h
  | cons c a ih => exact ih (clean_tail h)

/-- In a clean list every child is really added. -/
theorem push_clean {a l : List Nd} {c : Nd} (h : Clean (a ++ c :: l)) : push a c = a ++ [c] := by
  have hc := clean_head (clean_append h)
  unfold push
  rw [if_pos]
  refine ⟨hc, ?_⟩
  by_cases hw : c.ty = .WHITESPACE
  · right
    cases ha : a.getLast? with
    | none => left; simpa using ha
    | some d =>
      right
      obtain ⟨a', rfl⟩ := List.getLast?_eq_some_iff.1 ha
      rw [List.append_assoc] at h
      have h := clean_append h
      intro hd
      have hd : d.ty = .WHITESPACE := by simpa using hd
      exact h.2.1 hd hw
  · exact .inl hw

theorem body_block (l : List Nd) : l = body l ++ block? l := (List.takeWhile_append_dropWhile).symm

theorem argLoop_eq {sep : NT} (_hs : sep ≠ .OPEN_CURLYBRACKET) (_hw : sep ≠ .WHITESPACE) (pos : Pos) :
    ∀ (l done arg p : List Nd) (ps : List (List Nd)), Lead arg → Clean (arg ++ l) →
    pieces sep (body l) = p :: ps →
    (∀ e, cmp done.isEmpty ((arg ++ p) :: ps) = some e →
      ∃ kids, argLoop sep pos done arg l = .done kids (some e)) ∧
    (cmp done.isEmpty ((arg ++ p) :: ps) = none →
      argLoop sep pos done arg l =
        if (block? l).length ≤ 1 then
          .done (done ++ (arguments ((arg ++ p) :: ps)).map (mkArg sep pos) ++ block? l) none
        else .throws) := by
  intro l
  induction l with
  | nil =>
    intro done arg p ps hl hc hp
    have hp : p = [] ∧ ps = [] := by
      have : pieces sep (body []) = [[]] := rfl
      rw [this] at hp
      injection hp with h1 h2
      exact ⟨h1.symm, h2.symm⟩
    obtain ⟨rfl, rfl⟩ := hp
    refine ⟨fun e h => (by cases h), fun _ => ?_⟩
    unfold argLoop block?
    simp [arguments, show lead arg = arg from hl]
  | cons c l ih =>
    intro done arg p ps hl hc hp
    by_cases hb : c.ty = .OPEN_CURLYBRACKET
    · have e1 : body (c :: l) = [] := by unfold body; rw [List.takeWhile_cons]; simp [hb]
      have e2 : block? (c :: l) = c :: l := by unfold block?; rw [List.dropWhile_cons]; simp [hb]
      rw [e1] at hp
      have hp : p = [] ∧ ps = [] := by
        injection hp with h1 h2
        exact ⟨h1.symm, h2.symm⟩
      obtain ⟨rfl, rfl⟩ := hp
      refine ⟨fun e h => (by cases h), fun _ => ?_⟩
      unfold argLoop
      rw [if_pos hb, e2]
      cases l with
      | nil => simp [arguments, show lead arg = arg from hl]
      | cons d l => simp
    have e1 : body (c :: l) = c :: body l := by
      unfold body; rw [List.takeWhile_cons]; simp [hb]
    have e2 : block? (c :: l) = block? l := by
      unfold block?; rw [List.dropWhile_cons]; simp [hb]
    rw [e1] at hp
    rw [e2]
    obtain ⟨q, qs, hq⟩ := pieces_cons sep (body l)
    unfold argLoop
    rw [if_neg hb]
    by_cases hsep : c.ty = sep
    · rw [if_pos hsep]
      unfold pieces at hp
      rw [if_pos hsep, hq] at hp
      have hp : p = [] ∧ ps = q :: qs := by
        injection hp with h1 h2
        exact ⟨h1.symm, h2.symm⟩
      obtain ⟨rfl, rfl⟩ := hp
      rw [List.append_nil, ← trim_of_lead hl]
      unfold cmp
      dsimp only
      by_cases hbl : blank arg = true
      · rw [if_pos hbl]
        have : (trim arg).isEmpty = true := by rw [trim_nil_iff.2 hbl]; rfl
        rw [if_pos this]
        refine ⟨fun e he => ?_, fun he => by cases he⟩
        injection he with he
        subst he
        exact ⟨_, rfl⟩
      · rw [if_neg hbl]
        have : ¬ (trim arg).isEmpty = true := by
          intro h; exact hbl (trim_nil_iff.1 (List.isEmpty_iff.1 h))
        rw [if_neg this]
        by_cases hend : body l = []
        · rw [if_pos (body_nil_iff.1 hend)]
          rw [hend] at hq
          have hq : q = [] ∧ qs = [] := by
            injection hq with h1 h2
            exact ⟨h1.symm, h2.symm⟩
          obtain ⟨rfl, rfl⟩ := hq
          refine ⟨fun e he => ?_, fun he => by cases he⟩
          injection he with he
          subst he
          exact ⟨_, rfl⟩
        · rw [if_neg (fun h => hend (body_nil_iff.2 h))]
          have hne : (qs.isEmpty && q.isEmpty) = false := by
            cases qs with
            | cons => rfl
            | nil =>
              cases q with
              | cons => rfl
              | nil => exact absurd (pieces_nil_iff.1 hq) hend
          rw [hne, if_neg (by simp)]
          have hd : (done ++ [mkArg sep pos (trim arg)]).isEmpty = false := by simp
          have := ih (done ++ [mkArg sep pos (trim arg)]) [] q qs rfl (clean_tail (clean_append hc)) hq
          rw [hd, List.nil_append] at this
          refine ⟨this.1, fun h => ?_⟩
          rw [this.2 h]
          simp [arguments]
    · rw [if_neg hsep]
      unfold pieces at hp
      rw [if_neg hsep, hq] at hp
      have hp : p = c :: q ∧ ps = qs := by
        injection hp with h1 h2
        exact ⟨h1.symm, h2.symm⟩
      obtain ⟨rfl, rfl⟩ := hp
      by_cases hadd : c.ty ≠ .WHITESPACE ∨ arg.isEmpty = false
      · rw [if_pos hadd, push_clean hc]
        have hlead : Lead (arg ++ [c]) := by
          unfold Lead
          rw [lead_append hl]
          cases arg with
          | nil =>
            have hcw : c.ty ≠ .WHITESPACE := by simpa using hadd
            show lead [c] = [c]
            unfold lead
            rw [List.dropWhile_cons, if_neg (by rw [isWs_iff]; exact hcw)]
          | cons d arg => rfl
        have := ih done (arg ++ [c]) q ps hlead (by rw [List.append_assoc]; exact hc) hq
        rw [List.append_assoc] at this
        exact this
      · rw [if_neg hadd]
        have hcw : c.ty = .WHITESPACE := Classical.byContradiction (fun h => hadd (.inl h))
        have hae : arg = [] := by
          cases arg with
          | nil => rfl
          | cons d arg => exact absurd (.inr rfl) hadd
        subst hae
        have := ih done [] q ps rfl (clean_tail hc) hq
        rw [List.nil_append] at this ⊢
        have hbk : blank (c :: q) = blank q := by
          unfold blank; rw [List.all_cons, isWs_iff.2 hcw, Bool.true_and]
        have hld : lead (c :: q) = lead q := by
          unfold lead; rw [List.dropWhile_cons, if_pos (isWs_iff.2 hcw)]
        have hcmp : cmp done.isEmpty ((c :: q) :: ps) = cmp done.isEmpty (q :: ps) := by
          cases ps with
          | nil => rfl
          | cons r ps => unfold cmp; rw [hbk]
        have harg : arguments ((c :: q) :: ps) = arguments (q :: ps) := by
          cases ps with
          | nil => unfold arguments; rw [hld]
          | cons r ps => unfold arguments trim; rw [hld]
        rw [hcmp, harg]
        exact this

/-- C39: argify() on a list that is not split yet. With no empty argument in front of a separator and
something after the last separator (`complaint`), the children become the arguments, followed by the
`{` block if there is one; a `{` block before the end is an exception. Otherwise it fails with the
message that the pieces deserve. Each argument has the code of its separator as its integer. -/
theorem C39_split (n : Nd) (sep : NT) (hs : sep = .COMMA ∨ sep = .DIVIDE)
    (hn : supportsChildren n.ty = true) (h0 : n.kids ≠ []) (h1 : n.kids.head?.map Nd.ty ≠ some .ARG)
    (hc : Clean n.kids) :
    match complaint (pieces sep (body n.kids)) with
    | some e => ∃ kids, argify n sep = .done kids (some e)
    | none =>
      argify n sep =
        if (block? n.kids).length ≤ 1 then
          .done ((arguments (pieces sep (body n.kids))).map (fun a =>
            .mk { ty := .ARG, pos := n.tok.pos, int := separatorCode sep } a) ++ block? n.kids) none
        else .throws := by
  have hs1 : ¬ (sep ≠ .COMMA ∧ sep ≠ .DIVIDE) := by rcases hs with h | h <;> rw [h] <;> simp
  have hs2 : sep ≠ .OPEN_CURLYBRACKET := by rcases hs with h | h <;> rw [h] <;> simp
  have hs3 : sep ≠ .WHITESPACE := by rcases hs with h | h <;> rw [h] <;> simp
  have harg : argify n sep = argLoop sep n.tok.pos [] [] n.kids := by
    unfold argify
    rw [if_neg hs1, if_neg (by rw [hn]; simp)]
    cases hk : n.kids with
    | nil => exact absurd hk h0
    | cons c cs =>
      rw [hk] at h1
      dsimp only
      rw [if_neg (by simpa using h1)]
  obtain ⟨p, ps, hp⟩ := pieces_cons sep (body n.kids)
  have := argLoop_eq hs2 hs3 n.tok.pos n.kids [] [] p ps rfl hc hp
  rw [harg, hp, complaint_eq]
  cases he : cmp true (p :: ps) with
  | some e => exact this.1 e he
  | none =>
    have hcode : sepCode sep = separatorCode sep := by rcases hs with h | h <;> subst h <;> decide
    have hmk : mkArg sep n.tok.pos = fun a => .mk { ty := .ARG, pos := n.tok.pos, int := separatorCode sep } a := by
      funext a; unfold mkArg; rw [hcode]
    have := this.2 he
    rw [hmk] at this
    exact this

/-- C39: an empty list, or one that is split already, is left as it is. -/
theorem C39_already (n : Nd) (sep : NT) (hs : sep = .COMMA ∨ sep = .DIVIDE)
    (hn : supportsChildren n.ty = true) (h : n.kids = [] ∨ n.kids.head?.map Nd.ty = some .ARG) :
    argify n sep = .done n.kids none := by
  have hs1 : ¬ (sep ≠ .COMMA ∧ sep ≠ .DIVIDE) := by rcases hs with h | h <;> rw [h] <;> simp
  unfold argify
  rw [if_neg hs1, if_neg (by rw [hn]; simp)]
  cases hk : n.kids with
  | nil => rfl
  | cons c cs =>
    rw [hk] at h
    dsimp only
    rw [if_pos (by simpa using h)]

/-- C39: the pieces have no separator, and with one separator between them they are the list. -/
theorem C39_pieces (sep : NT) (l : List Nd) :
    (∀ p ∈ pieces sep l, ∀ c ∈ p, c.ty ≠ sep) ∧
    (pieces sep l).length = (l.filter (fun c => c.ty == sep)).length + 1 ∧
    (pieces sep l).flatten = l.filter (fun c => c.ty != sep) := by
  induction l with
  | nil => refine ⟨?_, rfl, rfl⟩; intro p hp c hc; simp [pieces] at hp; subst hp; cases hc
  | cons d l ih =>
    obtain ⟨i1, i2, i3⟩ := ih
    obtain ⟨q, qs, hq⟩ := pieces_cons sep l
    unfold pieces
    by_cases hd : d.ty = sep
    · rw [if_pos hd]
      refine ⟨?_, ?_, ?_⟩
      · intro p hp c hc
        rcases List.mem_cons.1 hp with rfl | hp
        · cases hc
        · exact i1 p hp c hc
      · rw [List.length_cons, i2, List.filter_cons, if_pos (by simpa using hd)]; simp
      · rw [List.flatten_cons, i3, List.filter_cons, if_neg (by simpa using hd)]; simp
    · rw [if_neg hd, hq]
      rw [hq] at i1 i2 i3
      refine ⟨?_, ?_, ?_⟩
      · intro p hp c hc
        rcases List.mem_cons.1 hp with rfl | hp
        · rcases List.mem_cons.1 hc with rfl | hc
          · exact hd
          · exact i1 q List.mem_cons_self c hc
        · exact i1 p (List.mem_cons_of_mem _ hp) c hc
      · rw [List.filter_cons, if_neg (by simpa using hd), ← i2]; simp
      · rw [List.filter_cons, if_pos (by simpa using hd), ← i3]; simp

/-- C39: only `,` and `/` are accepted. -/
theorem C39_separators (n : Nd) (sep : NT) (hs : sep ≠ .COMMA ∧ sep ≠ .DIVIDE) :
    argify n sep = .throws := by
  unfold argify
  rw [if_pos hs]

/-! ### Examples -/

/-- A leaf of a given type. -/
def leafOf (ty : NT) : Nd := .leaf { ty := ty, pos := ⟨1, 1, 1⟩ }

/-- The types of the children of the arguments. -/
def shape : ArgRes → Option (List (NT × List NT) × Option ArgErr)
  | .done k e => some (k.map (fun n => (n.ty, n.kids.map Nd.ty)), e)
  | .throws => none

def argTest (l : List NT) : Option (List (NT × List NT) × Option ArgErr) :=
  shape (argify (.mk { ty := .LIST, pos := ⟨1, 1, 1⟩ } (l.map leafOf)) .COMMA)

example : argTest [.IDENTIFIER, .WHITESPACE, .COMMA, .WHITESPACE, .INTEGER, .WHITESPACE, .OPEN_CURLYBRACKET] =
    some ([(.ARG, [.IDENTIFIER]), (.ARG, [.INTEGER, .WHITESPACE]), (.OPEN_CURLYBRACKET, [])], none) := by
  decide +kernel
example : (argTest [.WHITESPACE, .COMMA, .INTEGER]).map (·.2) = some (some .leading) := by decide +kernel
example : (argTest [.INTEGER, .COMMA, .WHITESPACE, .COMMA, .INTEGER]).map (·.2) = some (some .doubled) := by
  decide +kernel
example : (argTest [.INTEGER, .COMMA]).map (·.2) = some (some .trailing) := by decide +kernel
/-- A whitespace after the last comma hides it: the last argument is empty and there is no message. -/
theorem C39_defect : argTest [.INTEGER, .COMMA, .WHITESPACE] =
    some ([(.ARG, [.INTEGER]), (.ARG, [])], none) := by decide +kernel
example : argTest [.INTEGER, .OPEN_CURLYBRACKET, .INTEGER] = none := by decide +kernel

end Csspp.Parse
