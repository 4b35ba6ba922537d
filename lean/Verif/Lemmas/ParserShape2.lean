import Verif.Lemmas.ParserShape
import Verif.Lemmas.ParserSpecs

/-!
The shape of the trees: the mutually recursive functions, by induction on the fuel.
-/

namespace Csspp.Parse
open Csspp.Lex (Tok Pos)
open Csspp.Node (supportsChildren supportsString)
open Csspp.Spec (types variableSet variableBlock nestedDeclaration endsRule isPart mayFollow Value TreeShape
  TreeShapes notInTrees SheetChild Sheet)

theorem plain_sub {s s' : St} (hp : AllPlain s) (h : ∀ t ∈ s'.toks, t ∈ s.toks) : AllPlain s' :=
  fun t ht => hp t (h t ht)

theorem part_of {s : St} {fl : Flags} (hp : AllPlain s) (hs : stops fl s.last.ty = false)
    (hn : s.last.ty ≠ .SEMICOLON) : isPart s.last.ty := by
  have h := last_plain hp
  unfold Plain at h
  unfold isPart notInTrees
  revert hs hn h
  generalize s.last.ty = ty
  cases ty <;> simp [stops]

/-- A part of a value. -/
structure PartShape (s : St) (v : Nd) : Prop where
  shape : TreeShape v
  ty : v.ty = s.last.ty

structure Shapes (f : Nat) : Prop where
  loop : ∀ fl result list s, AllPlain s → result.ty = .LIST → list.ty = .COMPONENT_VALUE →
    Done result.kids → Cur list.kids s → (fl.onSemicolon = true → result.kids = []) →
    Tri (cvLoop f fl result list) s (fun v _ => ListShape fl v)
  list : ∀ fl s, AllPlain s → Tri (componentValueList f fl) s (fun v _ => ListShape fl v)
  atr : ∀ s, AllPlain s → s.last.ty = .AT_KEYWORD → Tri (atRule f) s (fun v _ => PartShape s v)
  value : ∀ s, AllPlain s → isPart s.last.ty → s.last.ty ≠ .AT_KEYWORD →
    Tri (componentValue f) s (fun v _ => PartShape s v)
  block : ∀ c s, AllPlain s → (s.last.ty = .OPEN_SQUAREBRACKET ∨ s.last.ty = .OPEN_PARENTHESIS ∨
    s.last.ty = .FUNCTION ∨ s.last.ty = .VARIABLE_FUNCTION) →
    Tri (block f c) s (fun v _ => PartShape s v)
  bloop : ∀ b s, AllPlain s → supportsChildren b.ty = true →
    (∀ n ∈ b.kids, (n.ty = .LIST ∨ n.ty = .COMPONENT_VALUE) ∧ TreeShape n) →
    Tri (blockLoop f b) s (fun v _ => v.tok = b.tok ∧ v.kids ≠ [] ∧
      ∀ n ∈ v.kids, (n.ty = .LIST ∨ n.ty = .COMPONENT_VALUE) ∧ TreeShape n)
  blist : ∀ s, AllPlain s → s.last.ty = .OPEN_CURLYBRACKET → Tri (blockList f) s (fun v _ => PartShape s v)

/-- The value being read, after one more part that is not a `{ }` block. -/
theorem Cur.push {l : List Nd} {s s' : St} {c : Nd} (h : Cur l s) (hs : s.last.ty ≠ .SEMICOLON)
    (hp : isPart c.ty) (hsh : TreeShape c) (hb : c.ty ≠ .OPEN_CURLYBRACKET)
    (hw : (types l).getLast? = some .WHITESPACE → c.ty ∉ [NT.OPEN_CURLYBRACKET, .OPEN_PARENTHESIS,
      .OPEN_SQUAREBRACKET, .EXCLAMATION]) : Cur (push l c) s' := by
  have hne : (types l).getLast? ≠ some .OPEN_CURLYBRACKET := fun h' => hs (h.block h').2.2
  have heof : c.ty ≠ .EOF_TOKEN := by intro h'; rw [h'] at hp; exact hp.1 (by simp [notInTrees])
  unfold Parse.push
  split
  · rename_i hc
    refine .open (h.parts.snoc hp hsh ?_) ?_
    · intro a ha
      refine ⟨fun h' => hne (by rw [ha, h']), fun h' => ?_⟩
      rw [h'] at ha
      have h1 := hw ha
      have h2 : c.ty ≠ .WHITESPACE := by
        intro h2
        rcases hc.2 with h3 | h3 | h3
        · exact h3 h2
        · rw [List.isEmpty_iff.1 h3] at ha; cases ha
        · rw [types_last] at ha; exact h3 ha
      simp only [List.mem_cons, List.not_mem_nil, or_false, not_or] at h1 ⊢
      exact ⟨h2, h1⟩
    · rw [types_append]
      simpa [types] using hb
  · exact .open h.parts hne

theorem shapes_loop {f : Nat} (ih : Shapes f) (fl : Flags) (result list : Nd) (s : St) (hp : AllPlain s)
    (hr : result.ty = .LIST) (hl : list.ty = .COMPONENT_VALUE) (hd : Done result.kids)
    (hc : Cur list.kids s) (h1 : fl.onSemicolon = true → result.kids = []) :
    Tri (cvLoop (f + 1) fl result list) s (fun v _ => ListShape fl v) := by
  have hcl : supportsChildren list.ty = true := by rw [hl]; rfl
  have hcr : supportsChildren result.ty = true := by rw [hr]; rfl
  have hm := monos f
  unfold cvLoop
  refine Tri.last ?_
  split
  · rw [listEnd_eq hr hl]
    exact Tri.pure (finish_shape hr hl hd hc.parts h1)
  rename_i hs
  have hs : stops fl s.last.ty = false := by simpa using hs
  split
  · -- AT_KEYWORD
    rename_i hk
    refine Tri.bind (ih.atr s hp hk) hm.atr (fun _ => Mono.bind (addChild_mono _ _) (fun _ => hm.loop _ _ _))
      (fun c s1 h2 hsub => ?_)
    refine Tri.val (addChild_ok hcl) ?_
    have hct : c.ty = .AT_KEYWORD := by rw [h2.ty]; exact hk
    refine ih.loop _ _ _ _ (plain_sub hp hsub) hr hl hd ?_ h1
    exact hc.push (by rw [hk]; simp) (by rw [hct]; simp [isPart, notInTrees]) h2.shape (by rw [hct]; simp)
      (fun _ => by rw [hct]; simp)
  rename_i hat
  split
  · -- SEMICOLON
    rename_i hk
    have hos : fl.onSemicolon = false := by
      rw [hk] at hs; exact hs
    refine Tri.next ?_
    refine Tri.val (dropFirsts_eq hcl) ?_
    refine Tri.val (dropLasts_eq (n := .mk list.tok (dropHeads list.kids)) hcl) ?_
    simp only [mk_kids, mk_tok]
    have hi : dropEnds (dropHeads list.kids) <:+: list.kids :=
      (dropEnds_prefix _).isInfix.trans (dropHeads_suffix _).isInfix
    have hpl := hc.parts.infix hi
    have hnr : endsRule (types (dropEnds (dropHeads list.kids))) = false := by
      by_cases hb : (types list.kids).getLast? = some .OPEN_CURLYBRACKET
      · have := hc.block hb
        rw [dropHeads_id this.1, dropEnds_id (by rw [hb]; simp)]
        exact this.2.1
      · unfold endsRule
        rw [decide_eq_false]
        · rfl
        · intro h'
          exact hb (hc.parts.adj.block_last ((types_infix hi).subset (List.mem_of_getLast? h')))
    refine Tri.val (endsVariable_eq (n := .mk list.tok (dropEnds (dropHeads list.kids))) hcl) ?_
    split
    · rw [listEnd_eq (list := .mk list.tok (dropEnds (dropHeads list.kids))) hr hl]
      exact Tri.pure (finish_shape hr hl hd hpl h1)
    · refine Tri.val (isEmpty_ok (n := .mk list.tok (dropEnds (dropHeads list.kids))) hcl) ?_
      split
      · rename_i he
        refine ih.loop _ _ _ _ (adv_plain hp) hr hl hd ?_ h1
        rw [mk_kids] at he ⊢
        rw [List.isEmpty_iff.1 he]
        exact .open Parts.nil (by simp [types])
      · rename_i he
        refine Tri.val (addChild_ok hcr) ?_
        refine ih.loop _ _ _ _ (adv_plain hp) hr rfl ?_ ?_ (fun h => by rw [hos] at h; cases h)
        · rw [mk_kids, push_group (c := .mk list.tok (dropEnds (dropHeads list.kids))) (.inr hl)]
          have hne : dropEnds (dropHeads list.kids) ≠ [] := by
            intro h; rw [mk_kids, h] at he; exact he rfl
          have hval := shape_value hl hpl hne (by
            have : types (dropEnds (dropHeads list.kids)) <+: types (dropHeads list.kids) := by
              obtain ⟨y, hy⟩ := dropEnds_prefix (dropHeads list.kids)
              exact ⟨types y, by rw [← types_append, hy]⟩
            rw [head_of_prefix this (types_ne.2 hne)]
            exact dropHeads_head _) (dropEnds_last _)
          refine ⟨?_, ?_, ?_⟩
          · intro n hn
            rcases List.mem_append.1 hn with hn | hn
            · exact hd.ty n hn
            · rw [List.mem_singleton.1 hn]; exact hl
          · intro n hn
            rcases List.mem_append.1 hn with hn | hn
            · exact hd.shape n hn
            · rw [List.mem_singleton.1 hn]; exact hval.2
          · intro n hn
            rcases List.mem_append.1 hn with hn | hn
            · exact hd.noRule n hn
            · rw [List.mem_singleton.1 hn]; exact hnr
        · exact .open Parts.nil (by simp [types, newNode, mk_kids])
  rename_i hsemi
  have hns : s.last.ty ≠ .SEMICOLON := hsemi
  split
  · -- EXCLAMATION
    rename_i hk
    refine Tri.bind (P := fun v s' => v.tok = list.tok ∧ ∃ e : Nd, e.ty = .EXCLAMATION ∧ e.kids = [] ∧
        v.kids = push (dropEnd list.kids) e) ?_ (exclamation_mono _) (fun _ => hm.loop _ _ _)
      (fun v s1 h2 hsub => ?_)
    · unfold exclamation
      refine Tri.last (Tri.next ?_)
      refine Tri.bind (P := fun _ _ => True) (fun _ _ _ _ => trivial) skipSpace_mono ?_ (fun _ s1 _ _ => ?_)
      · intro _
        refine Mono.bind .last (fun _ => ?_)
        split
        · exact Mono.bind (dropLast_mono _) (fun _ => Mono.bind (getString_mono _) (fun _ =>
            Mono.bind (setString_mono _ _) (fun _ => Mono.bind (addChild_mono _ _) (fun _ =>
              Mono.bind .next (fun _ => Mono.bind skipSpace_mono (fun _ => .pure _))))))
        · exact Mono.bind (.report _ _) (fun _ => .pure _)
      · refine Tri.last ?_
        split
        · rename_i hi
          refine Tri.val (dropLast_eq hcl) ?_
          refine Tri.val (m := getString s1.last) (v := s1.last.str) (by unfold getString; rw [hi]; rfl) ?_
          refine Tri.val (m := setString (.leaf s.last) s1.last.str)
            (v := .mk { s.last with str := s1.last.str } []) ?_ ?_
          · unfold setString
            rw [show (Nd.leaf s.last).ty = .EXCLAMATION from hk]
            rfl
          refine Tri.val (addChild_ok (n := .mk list.tok (dropEnd list.kids)) hcl) (Tri.next ?_)
          refine Tri.bind (P := fun _ _ => True) (fun _ _ _ _ => trivial) skipSpace_mono
            (fun _ => .pure _) (fun _ s2 _ _ => ?_)
          exact Tri.pure ⟨rfl, .mk { s.last with str := s1.last.str } [], hk, rfl, rfl⟩
        · exact Tri.report (Mono.pure _)
    · obtain ⟨ht, e, he, hek, hv⟩ := h2
      have hvt : v.ty = .COMPONENT_VALUE := by unfold Nd.ty; rw [ht]; exact hl
      refine ih.loop _ _ _ _ (plain_sub hp hsub) hr hvt hd ?_ h1
      rw [hv]
      have hcd : Cur (dropEnd list.kids) s := by
        refine .open (hc.parts.infix (dropEnd_prefix _).isInfix) (fun h' => ?_)
        have hm := List.mem_of_getLast? h'
        have := hc.parts.adj.block_last ((types_infix (dropEnd_prefix list.kids).isInfix).subset hm)
        exact hns (hc.block this).2.2
      refine hcd.push hns (by rw [he]; simp [isPart, notInTrees]) ?_ (by rw [he]; simp)
        (fun h' => absurd h' (adj_dropEnd hc.parts.adj))
      obtain ⟨t, k⟩ := e
      have ht : t.ty = .EXCLAMATION := he
      unfold TreeShape
      rw [ht]
      exact ⟨by simp [isPart, notInTrees], hek⟩
  rename_i hx
  have hpart := part_of (fl := fl) hp hs hns
  refine Tri.val (beforeBlock_eq hcl) ?_
  refine Tri.bind (ih.value s hp hpart hat) hm.value ?_ (fun c s1 h2 hsub => ?_)
  · intro _
    refine Mono.bind (addChild_mono _ _) (fun _ => ?_)
    split
    · refine Mono.bind (dropFirsts_mono _) (fun _ => Mono.bind (isBlockValue_mono _) (fun _ => ?_))
      split
      · exact listEnd_mono _ _
      · exact Mono.bind (skipSpaces_mono _) (fun _ => Mono.bind (wantSemicolon_mono _) (fun _ =>
          hm.loop _ _ _))
    · exact hm.loop _ _ _
  -- the parts before this one
  obtain ⟨l1, hl1⟩ : ∃ l1, l1 = (if s.last.ty = .OPEN_CURLYBRACKET ∨ s.last.ty = .OPEN_SQUAREBRACKET ∨
    s.last.ty = .OPEN_PARENTHESIS then dropEnd list.kids else list.kids) := ⟨_, rfl⟩
  rw [← hl1]
  have hpre : l1 <+: list.kids := by
    rw [hl1]; split
    · exact dropEnd_prefix _
    · exact List.prefix_refl _
  have hc1 : Cur l1 s := by
    refine .open (hc.parts.infix hpre.isInfix) (fun h' => ?_)
    have hm := List.mem_of_getLast? h'
    have := hc.parts.adj.block_last ((types_infix hpre.isInfix).subset hm)
    exact hns (hc.block this).2.2
  have hw : (types l1).getLast? = some .WHITESPACE → c.ty ∉ [NT.OPEN_CURLYBRACKET, .OPEN_PARENTHESIS,
      .OPEN_SQUAREBRACKET, .EXCLAMATION] := by
    intro h'
    rw [h2.ty]
    rw [hl1] at h'
    split at h'
    · exact absurd h' (adj_dropEnd hc.parts.adj)
    · rename_i hno
      simp only [not_or] at hno
      simp only [List.mem_cons, List.not_mem_nil, or_false, not_or]
      exact ⟨hno.1, hno.2.2, hno.2.1, hx⟩
  refine Tri.val (addChild_ok (n := .mk list.tok l1) hcl) ?_
  simp only [mk_kids, mk_tok]
  split
  · rename_i hk
    have hct : c.ty = .OPEN_CURLYBRACKET := by rw [h2.ty]; exact hk
    have hlw : (types l1).getLast? ≠ some .WHITESPACE := by
      intro h'; exact hw h' (by rw [hct]; simp)
    have hps : Parts (l1 ++ [c]) := by
      refine hc1.parts.snoc (by rw [h2.ty]; exact hpart) h2.shape (fun a ha => ⟨fun h' => ?_, fun h' => ?_⟩)
      · rw [h'] at ha; exact hns (hc1.block ha).2.2
      · rw [h'] at ha; exact absurd ha hlw
    rw [push_ne (by rw [hct]; simp) (by rw [hct]; simp)]
    refine Tri.val (dropFirsts_eq (n := .mk list.tok (l1 ++ [c])) hcl) ?_
    simp only [mk_kids, mk_tok]
    have hps2 := hps.infix (dropHeads_suffix (l1 ++ [c])).isInfix
    have hne : dropHeads (l1 ++ [c]) ≠ [] := by
      intro h'
      have := dropWhile_nil h' c (by simp)
      rw [hct] at this; cases this
    have hlast : (types (dropHeads (l1 ++ [c]))).getLast? = some .OPEN_CURLYBRACKET := by
      rw [types_last, last_of_suffix (dropHeads_suffix _) hne]
      simp [hct]
    obtain ⟨d, hbv⟩ : ∃ d, (variableBlock (types (dropHeads (l1 ++ [c]))) ||
      nestedDeclaration (types (dropHeads (l1 ++ [c])))) = d := ⟨_, rfl⟩
    refine Tri.val (v := d) (by rw [← hbv]; exact isBlockValue_eq (n := .mk list.tok (dropHeads (l1 ++ [c]))) hcl) ?_
    cases d with
    | false =>
      rw [if_pos rfl]
      rw [listEnd_eq (list := .mk list.tok (dropHeads (l1 ++ [c]))) hr hl]
      exact Tri.pure (finish_shape hr hl hd hps2 h1)
    | true =>
      rw [if_neg (by simp)]
      refine Tri.bind (P := fun _ _ => True) (fun _ _ _ _ => trivial) (skipSpaces_mono _)
        (fun _ => Mono.bind (wantSemicolon_mono _) (fun _ => hm.loop _ _ _)) (fun _ s2 _ hsub2 => ?_)
      refine Tri.bind (P := fun _ s3 => s3.last.ty = .SEMICOLON) ?_ (wantSemicolon_mono _)
        (fun _ => hm.loop _ _ _) (fun _ s3 h3 hsub3 => ?_)
      · unfold wantSemicolon
        refine Tri.last ?_
        split
        · rename_i h; exact Tri.pure h
        · cases hk0 : (Nd.mk list.tok (dropHeads (l1 ++ [c]))).kids with
          | nil => exact absurd hk0 hne
          | cons c0 k0 =>
            refine Tri.val (getChild_ok (i := 0) (c := c0) hcl (by rw [hk0]; rfl)) ?_
            exact Tri.report (g := fun _ => Pure.pure ()) (Mono.pure _)
      · refine ih.loop _ _ _ _ (plain_sub (plain_sub (plain_sub hp hsub) hsub2) hsub3) hr hl hd ?_ h1
        refine ⟨hps2, fun _ => ⟨dropHeads_head _, ?_, h3⟩⟩
        unfold endsRule
        rw [show (Nd.mk list.tok (dropHeads (l1 ++ [c]))).kids = dropHeads (l1 ++ [c]) from rfl, hbv]
        simp
  · rename_i hk
    refine ih.loop _ _ _ _ (plain_sub hp hsub) hr hl hd ?_ h1
    exact hc1.push hns (by rw [h2.ty]; exact hpart) h2.shape (by rw [h2.ty]; exact hk) hw


theorem shapes_at {f : Nat} (ih : Shapes f) (s : St) (hp : AllPlain s) (hk : s.last.ty = .AT_KEYWORD) :
    Tri (atRule (f + 1)) s (fun v _ => PartShape s v) := by
  have hm := monos f
  have hcs : supportsChildren s.last.ty = true := by rw [hk]; rfl
  unfold atRule
  refine Tri.last (Tri.next ?_)
  refine Tri.bind (ih.list ⟨true, false⟩ s.adv (adv_plain hp)) (hm.list _) ?_ (fun n s1 h1 _ => ?_)
  · intro _
    refine Mono.bind (isEmpty_mono _) (fun _ => ?_)
    split
    · exact Mono.bind (.report _ _) (fun _ => .pure _)
    · exact Mono.bind (getLast_mono _) (fun _ => Mono.bind (atRuleEnd_mono _ _) (fun _ => takeOver_mono _ _))
  have hcn : supportsChildren n.ty = true := by rcases h1.ty with h | h <;> rw [h] <;> rfl
  refine Tri.val (isEmpty_ok hcn) ?_
  split
  · exact Tri.report (Mono.pure _)
  · rename_i he
    have hne : n.kids ≠ [] := by intro h; rw [h] at he; simp at he
    obtain ⟨l, hl⟩ := getLast_of_ne hne
    refine Tri.val (getLast_ok hcn hl) ?_
    refine Tri.bind (P := fun _ _ => True) (fun _ _ _ _ => trivial) (atRuleEnd_mono _ _)
      (fun _ => takeOver_mono _ _) (fun _ s2 _ _ => ?_)
    rw [takeOver_ok (n := .leaf s.last) hcs hcn]
    refine Tri.pure ⟨?_, rfl⟩
    have hty : n.ty = .COMPONENT_VALUE := by
      rcases h1.ty with h | h
      · exact absurd (h1.one rfl h) hne
      · exact h
    obtain ⟨t, k⟩ := n
    have hty : t.ty = .COMPONENT_VALUE := hty
    have hsh := h1.shape
    unfold TreeShape at hsh
    rw [hty] at hsh
    show TreeShape (.mk s.last k)
    unfold TreeShape
    rw [hk]
    exact hsh

theorem shapes_block {f : Nat} (ih : Shapes f) (c : NT) (s : St) (hp : AllPlain s)
    (hk : s.last.ty = .OPEN_SQUAREBRACKET ∨ s.last.ty = .OPEN_PARENTHESIS ∨ s.last.ty = .FUNCTION ∨
      s.last.ty = .VARIABLE_FUNCTION) : Tri (block (f + 1) c) s (fun v _ => PartShape s v) := by
  have hm := monos f
  have hcs : supportsChildren s.last.ty = true := by rcases hk with h | h | h | h <;> rw [h] <;> rfl
  unfold block
  refine Tri.last (Tri.next ?_)
  refine Tri.bind (ih.list ⟨false, false⟩ s.adv (adv_plain hp)) (hm.list _) ?_ (fun n s1 h1 _ => ?_)
  · intro _
    exact Mono.bind (takeOver_mono _ _) (fun _ => Mono.bind skipSpace_mono (fun _ =>
          Mono.bind (closeBlock_mono _ _) (fun _ => .pure _)))
  have hcn : supportsChildren n.ty = true := by rcases h1.ty with h | h <;> rw [h] <;> rfl
  refine Tri.val (takeOver_ok (n := .leaf s.last) hcs hcn) ?_
  refine Tri.bind (P := fun _ _ => True) (fun _ _ _ _ => trivial) skipSpace_mono
    (fun _ => Mono.bind (closeBlock_mono _ _) (fun _ => .pure _)) (fun _ s2 _ _ => ?_)
  refine Tri.bind (P := fun _ _ => True) (fun _ _ _ _ => trivial) (closeBlock_mono _ _)
    (fun _ => .pure _) (fun _ s3 _ _ => ?_)
  refine Tri.pure ⟨?_, rfl⟩
  show TreeShape (.mk s.last n.kids)
  obtain ⟨t, k⟩ := n
  have hsh := h1.shape
  unfold TreeShape at hsh
  have : (k = [] ∨ Value k ∨ Spec.Values k) ∧ TreeShapes k := by
    rcases h1.ty with h | h
    · rw [show t.ty = .LIST from h] at hsh
      exact ⟨hsh.1.imp id .inr, hsh.2⟩
    · rw [show t.ty = .COMPONENT_VALUE from h] at hsh
      exact ⟨.inr (.inl hsh.1), hsh.2⟩
  unfold TreeShape
  rcases hk with h | h | h | h <;> rw [h] <;> exact this

theorem shapes_value {f : Nat} (ih : Shapes f) (s : St) (hp : AllPlain s) (hpart : isPart s.last.ty)
    (hat : s.last.ty ≠ .AT_KEYWORD) : Tri (componentValue (f + 1)) s (fun v _ => PartShape s v) := by
  unfold componentValue
  refine Tri.last ?_
  split
  · rename_i h; exact ih.blist s hp h
  rename_i h1
  split
  · rename_i h; exact ih.block _ s hp (.inl h)
  rename_i h2
  split
  · rename_i h; exact ih.block _ s hp (.inr h)
  rename_i h3
  refine Tri.next (Tri.pure ⟨?_, rfl⟩)
  show TreeShape (.mk s.last [])
  unfold TreeShape
  have hb := hpart
  unfold isPart at hb
  revert hpart hat h1 h2 h3 hb
  generalize s.last.ty = ty
  cases ty <;> simp +contextual

theorem shapes_bloop {f : Nat} (ih : Shapes f) (b : Nd) (s : St) (hp : AllPlain s)
    (hb : supportsChildren b.ty = true)
    (hk : ∀ n ∈ b.kids, (n.ty = .LIST ∨ n.ty = .COMPONENT_VALUE) ∧ TreeShape n) :
    Tri (blockLoop (f + 1) b) s (fun v _ => v.tok = b.tok ∧ v.kids ≠ [] ∧
      ∀ n ∈ v.kids, (n.ty = .LIST ∨ n.ty = .COMPONENT_VALUE) ∧ TreeShape n) := by
  have hm := monos f
  unfold blockLoop
  refine Tri.bind (ih.list ⟨false, false⟩ s hp) (hm.list _) ?_ (fun n s1 h1 hsub => ?_)
  · intro _
    refine Mono.bind (addChild_mono _ _) (fun _ => Mono.bind (betweenLists_mono _) (fun _ =>
      Mono.bind .last (fun _ => ?_)))
    split
    · exact .pure _
    · exact hm.bloop _
  refine Tri.val (addChild_ok hb) ?_
  refine Tri.bind (P := fun _ _ => True) (fun _ _ _ _ => trivial) (betweenLists_mono _) ?_
    (fun _ s2 _ hsub2 => ?_)
  · intro _
    refine Mono.bind .last (fun _ => ?_)
    split
    · exact .pure _
    · exact hm.bloop _
  have hk2 : ∀ c ∈ b.kids ++ [n], (c.ty = .LIST ∨ c.ty = .COMPONENT_VALUE) ∧ TreeShape c := by
    intro c hc
    rcases List.mem_append.1 hc with hc | hc
    · exact hk c hc
    · rw [List.mem_singleton.1 hc]; exact ⟨h1.ty, h1.shape⟩
  rw [push_group h1.ty]
  refine Tri.last ?_
  split
  · exact Tri.pure ⟨rfl, by simp [mk_kids], hk2⟩
  · exact ih.bloop (.mk b.tok (b.kids ++ [n])) s2 (plain_sub (plain_sub hp hsub) hsub2) hb hk2

theorem shapes_blist {f : Nat} (ih : Shapes f) (s : St) (hp : AllPlain s)
    (hk : s.last.ty = .OPEN_CURLYBRACKET) : Tri (blockList (f + 1)) s (fun v _ => PartShape s v) := by
  have hm := monos f
  have hcs : supportsChildren s.last.ty = true := by rw [hk]; rfl
  unfold blockList
  refine Tri.last (Tri.next ?_)
  refine Tri.bind (ih.bloop (.leaf s.last) s.adv (adv_plain hp) hcs (fun n hn => by cases hn)) (hm.bloop _)
    (fun _ => Mono.bind (closeList_mono _) (fun _ => .pure _)) (fun v s1 h1 _ => ?_)
  refine Tri.bind (P := fun _ _ => True) (fun _ _ _ _ => trivial) (closeList_mono _)
    (fun _ => .pure _) (fun _ s2 _ _ => ?_)
  obtain ⟨t, k⟩ := v
  obtain ⟨ht, hne, hks⟩ := h1
  have ht : t = s.last := ht
  subst ht
  refine Tri.pure ⟨?_, rfl⟩
  unfold TreeShape
  rw [hk]
  exact ⟨hne, fun n hn => (hks n hn).1, shapeL_iff.2 (fun n hn => (hks n hn).2)⟩

theorem shapes (f : Nat) : Shapes f := by
  induction f with
  | zero =>
    refine ⟨?_, ?_, ?_, ?_, ?_, ?_, ?_⟩
    · intros; unfold cvLoop; intro v s' h; cases h
    · intros; unfold componentValueList; intro v s' h; cases h
    · intros; unfold atRule; intro v s' h; cases h
    · intros; unfold componentValue; intro v s' h; cases h
    · intros; unfold block; intro v s' h; cases h
    · intros; unfold blockLoop; intro v s' h; cases h
    · intros; unfold blockList; intro v s' h; cases h
  | succ f ih =>
    refine ⟨shapes_loop ih, ?_, shapes_at ih, shapes_value ih, shapes_block ih, shapes_bloop ih, shapes_blist ih⟩
    intro fl s hp
    unfold componentValueList
    refine Tri.last ?_
    exact ih.loop fl _ _ s hp rfl rfl ⟨fun _ h => (by cases h), fun _ h => (by cases h), fun _ h => (by cases h)⟩
      (.open Parts.nil (by simp [newNode, mk_kids, types])) (fun _ => rfl)

/-! ### The first part of the first value -/

theorem head_dropEnd {l : List Nd} {c : NT} (hc : c ≠ .WHITESPACE) (h : (types l).head? = some c) :
    (types (dropEnd l)).head? = some c := by
  unfold dropEnd
  split
  · rename_i hw
    match l with
    | [] => cases h
    | [x] =>
      injection h with h
      have hw : x.ty = .WHITESPACE := by injection hw
      exact absurd (h.symm.trans hw) hc
    | x :: y :: l => exact h
  · exact h

theorem head_dropEnds {l : List Nd} {c : NT} (hc : c ≠ .WHITESPACE) (h : (types l).head? = some c) :
    (types (dropEnds l)).head? = some c := by
  have hp := dropEnds_prefix l
  cases l with
  | nil => cases h
  | cons x l =>
    injection h with h
    have hne : dropEnds (x :: l) ≠ [] := by
      intro h'
      unfold dropEnds at h'
      have := dropWhile_nil (List.reverse_eq_nil_iff.1 h') x (by simp)
      have this : x.ty = .WHITESPACE := by simpa using this
      exact hc (h.symm.trans this)
    have hq : types (dropEnds (x :: l)) <+: types (x :: l) := by
      obtain ⟨y, hy⟩ := hp
      exact ⟨types y, by rw [← types_append, hy]⟩
    rw [head_of_prefix hq (types_ne.2 hne), types_cons, h]
    rfl

theorem head_push {l : List Nd} {n : Nd} {c : NT} (h : (types l).head? = some c) :
    (types (push l n)).head? = some c := by
  unfold push
  split
  · rw [types_append]
    cases l with
    | nil => cases h
    | cons x l => exact h
  · exact h

theorem head_dropHead {l : List Nd} {c : NT} (hc : c ≠ .WHITESPACE) (h : (types l).head? = some c) :
    dropHead l = l := dropHead_id (by rw [h]; simp [hc])
theorem head_dropHeads {l : List Nd} {c : NT} (hc : c ≠ .WHITESPACE) (h : (types l).head? = some c) :
    dropHeads l = l := dropHeads_id (by rw [h]; simp [hc])

/-- The first part read is `c`. -/
def First (c : NT) (result list : Nd) : Prop :=
  (result.kids = [] ∧ (types list.kids).head? = some c) ∨
    ∃ n, result.kids.head? = some n ∧ (types n.kids).head? = some c

theorem first_finish {c : NT} {result list : Nd} (hr : result.ty = .LIST) (hc : c ≠ .WHITESPACE)
    (h : First c result list) : (finish result.tok (result.kids ++ lastValue list.tok list.kids)).ty = .COMPONENT_VALUE →
      (types (finish result.tok (result.kids ++ lastValue list.tok list.kids)).kids).head? = some c := by
  have hlist : ∀ l : List Nd, l.length ≠ 1 → (finish result.tok l).ty = .LIST := by
    intro l hl
    match l, hl with
    | [], _ => exact hr
    | [x], hl => exact absurd rfl hl
    | x :: y :: l, _ => exact hr
  rcases h with ⟨h1, h2⟩ | ⟨n, h1, h2⟩
  · intro _
    rw [h1, List.nil_append]
    unfold lastValue
    rw [head_dropHead hc h2]
    have := head_dropEnd hc h2
    cases hd : dropEnd list.kids with
    | nil => rw [hd] at this; cases this
    | cons x k => rw [hd] at this; exact this
  · cases hk : result.kids with
    | nil => rw [hk] at h1; cases h1
    | cons m k =>
      rw [hk] at h1
      injection h1 with h1
      subst h1
      by_cases hlen : (m :: k ++ lastValue list.tok list.kids).length = 1
      · intro _
        have : k ++ lastValue list.tok list.kids = [] := by
          rw [List.cons_append, List.length_cons] at hlen
          exact List.length_eq_zero_iff.1 (by omega)
        rw [List.cons_append, this]
        exact h2
      · intro h; rw [hlist _ hlen] at h; cases h

theorem first_loop (f : Nat) : ∀ (fl : Flags) (result list : Nd) (s : St) (c : NT), result.ty = .LIST →
    list.ty = .COMPONENT_VALUE → c ≠ .WHITESPACE → First c result list →
    Tri (cvLoop f fl result list) s (fun v _ => v.ty = .COMPONENT_VALUE → (types v.kids).head? = some c) := by
  induction f with
  | zero => intros; unfold cvLoop; intro v s' h; cases h
  | succ f ih =>
    intro fl result list s c hr hl hcw hf
    have hcl : supportsChildren list.ty = true := by rw [hl]; rfl
    have hcr : supportsChildren result.ty = true := by rw [hr]; rfl
    have hm := monos f
    have hend : ∀ (list' : Nd) (s : St), list'.ty = .COMPONENT_VALUE → First c result list' →
        Tri (listEnd result list') s (fun v _ => v.ty = .COMPONENT_VALUE → (types v.kids).head? = some c) := by
      intro list' s hl' hf'
      rw [listEnd_eq hr hl']
      exact Tri.pure (first_finish hr hcw hf')
    have hmap : ∀ (t : Tok) (k : List Nd), ((types list.kids).head? = some c → (types k).head? = some c) →
        First c result (.mk t k) := by
      intro t k hk
      rcases hf with ⟨h1, h2⟩ | h
      · exact .inl ⟨h1, hk h2⟩
      · exact .inr h
    unfold cvLoop
    refine Tri.last ?_
    split
    · exact hend _ _ hl hf
    split
    · refine Tri.bind (P := fun _ _ => True) (fun _ _ _ _ => trivial) hm.atr
        (fun _ => Mono.bind (addChild_mono _ _) (fun _ => hm.loop _ _ _)) (fun x s1 _ _ => ?_)
      refine Tri.val (addChild_ok hcl) ?_
      exact ih _ _ _ _ _ hr hl hcw (hmap _ _ head_push)
    split
    · refine Tri.next ?_
      refine Tri.val (dropFirsts_eq hcl) ?_
      refine Tri.val (dropLasts_eq (n := .mk list.tok (dropHeads list.kids)) hcl) ?_
      simp only [mk_kids, mk_tok]
      have hd : (types list.kids).head? = some c →
          (types (dropEnds (dropHeads list.kids))).head? = some c := by
        intro h
        rw [head_dropHeads hcw h]
        exact head_dropEnds hcw h
      refine Tri.val (endsVariable_eq (n := .mk list.tok (dropEnds (dropHeads list.kids))) hcl) ?_
      split
      · exact hend _ _ hl (hmap _ _ hd)
      · refine Tri.val (isEmpty_ok (n := .mk list.tok (dropEnds (dropHeads list.kids))) hcl) ?_
        split
        · exact ih _ _ _ _ _ hr hl hcw (hmap _ _ hd)
        · refine Tri.val (addChild_ok hcr) ?_
          refine ih _ _ _ _ _ hr rfl hcw ?_
          rw [push_group (c := .mk list.tok (dropEnds (dropHeads list.kids))) (.inr hl)]
          right
          rcases hf with ⟨h1, h2⟩ | ⟨n, h1, h2⟩
          · rw [mk_kids, h1]
            exact ⟨_, rfl, hd h2⟩
          · rw [mk_kids]
            refine ⟨n, ?_, h2⟩
            cases hk : result.kids with
            | nil => rw [hk] at h1; cases h1
            | cons m k => rw [hk] at h1; exact h1
    rename_i hsemi
    split
    · refine Tri.bind (P := fun v s' => v.tok = list.tok ∧ ((types list.kids).head? = some c →
        (types v.kids).head? = some c)) ?_ (exclamation_mono _) (fun _ => hm.loop _ _ _)
        (fun v s1 h2 _ => ?_)
      · unfold exclamation
        refine Tri.last (Tri.next ?_)
        refine Tri.bind (P := fun _ _ => True) (fun _ _ _ _ => trivial) skipSpace_mono ?_ (fun _ s1 _ _ => ?_)
        · intro _
          refine Mono.bind .last (fun _ => ?_)
          split
          · exact Mono.bind (dropLast_mono _) (fun _ => Mono.bind (getString_mono _) (fun _ =>
              Mono.bind (setString_mono _ _) (fun _ => Mono.bind (addChild_mono _ _) (fun _ =>
                Mono.bind .next (fun _ => Mono.bind skipSpace_mono (fun _ => .pure _))))))
          · exact Mono.bind (.report _ _) (fun _ => .pure _)
        · refine Tri.last ?_
          split
          · refine Tri.val (dropLast_eq hcl) ?_
            refine Tri.bind (P := fun _ _ => True) (fun _ _ _ _ => trivial) (getString_mono _)
              (fun _ => Mono.bind (setString_mono _ _) (fun _ => Mono.bind (addChild_mono _ _) (fun _ =>
                Mono.bind .next (fun _ => Mono.bind skipSpace_mono (fun _ => .pure _))))) (fun str s2 _ _ => ?_)
            refine Tri.bind (P := fun _ _ => True) (fun _ _ _ _ => trivial) (setString_mono _ _)
              (fun _ => Mono.bind (addChild_mono _ _) (fun _ =>
                Mono.bind .next (fun _ => Mono.bind skipSpace_mono (fun _ => .pure _)))) (fun e s3 _ _ => ?_)
            refine Tri.val (addChild_ok (n := .mk list.tok (dropEnd list.kids)) hcl) (Tri.next ?_)
            refine Tri.bind (P := fun _ _ => True) (fun _ _ _ _ => trivial) skipSpace_mono
              (fun _ => .pure _) (fun _ s4 _ _ => ?_)
            exact Tri.pure ⟨rfl, fun h => head_push (head_dropEnd hcw h)⟩
          · exact Tri.report (Mono.pure _)
      · obtain ⟨t, k⟩ := v
        obtain ⟨ht, hk⟩ := h2
        have ht : t = list.tok := ht
        subst ht
        exact ih _ _ _ _ _ hr hl hcw (hmap _ _ hk)
    · refine Tri.val (beforeBlock_eq hcl) ?_
      have hb : ∀ p : Prop, ∀ [Decidable p], (types list.kids).head? = some c →
          (types (if p then dropEnd list.kids else list.kids)).head? = some c := by
        intro p _ h
        split
        · exact head_dropEnd hcw h
        · exact h
      refine Tri.bind (P := fun _ _ => True) (fun _ _ _ _ => trivial) hm.value ?_ (fun x s1 _ _ => ?_)
      · intro _
        refine Mono.bind (addChild_mono _ _) (fun _ => ?_)
        split
        · refine Mono.bind (dropFirsts_mono _) (fun _ => Mono.bind (isBlockValue_mono _) (fun _ => ?_))
          split
          · exact listEnd_mono _ _
          · exact Mono.bind (skipSpaces_mono _) (fun _ => Mono.bind (wantSemicolon_mono _) (fun _ =>
              hm.loop _ _ _))
        · exact hm.loop _ _ _
      refine Tri.val (addChild_ok (n := .mk list.tok _) hcl) ?_
      split
      · refine Tri.val (dropFirsts_eq (n := .mk list.tok _) hcl) ?_
        refine Tri.bind (P := fun _ _ => True) (fun _ _ _ _ => trivial) (isBlockValue_mono _) ?_
          (fun d s2 _ _ => ?_)
        · intro _
          split
          · exact listEnd_mono _ _
          · exact Mono.bind (skipSpaces_mono _) (fun _ => Mono.bind (wantSemicolon_mono _) (fun _ =>
              hm.loop _ _ _))
        have hk : (types list.kids).head? = some c →
            (types (dropHeads (push (if s.last.ty = .OPEN_CURLYBRACKET ∨ s.last.ty = .OPEN_SQUAREBRACKET ∨
              s.last.ty = .OPEN_PARENTHESIS then dropEnd list.kids else list.kids) x))).head? = some c := by
          intro h
          have := head_push (n := x) (hb (s.last.ty = .OPEN_CURLYBRACKET ∨ s.last.ty = .OPEN_SQUAREBRACKET ∨
            s.last.ty = .OPEN_PARENTHESIS) h)
          rw [head_dropHeads hcw this]
          exact this
        split
        · exact hend _ _ hl (hmap _ _ hk)
        · refine Tri.bind (P := fun _ _ => True) (fun _ _ _ _ => trivial) (skipSpaces_mono _)
            (fun _ => Mono.bind (wantSemicolon_mono _) (fun _ => hm.loop _ _ _)) (fun _ s3 _ _ => ?_)
          refine Tri.bind (P := fun _ _ => True) (fun _ _ _ _ => trivial) (wantSemicolon_mono _)
            (fun _ => hm.loop _ _ _) (fun _ s4 _ _ => ?_)
          exact ih _ _ _ _ _ hr hl hcw (hmap _ _ hk)
      · exact ih _ _ _ _ _ hr hl hcw (hmap _ _ (fun h => head_push (hb _ h)))

/-- The first part of the value read has the type of the first token. -/
theorem first_list (f : Nat) (fl : Flags) (s : St) (hp : AllPlain s) (hst : stops fl s.last.ty = false)
    (hns : s.last.ty ≠ .SEMICOLON) (hw : s.last.ty ≠ .WHITESPACE) :
    Tri (componentValueList f fl) s
      (fun v _ => v.ty = .COMPONENT_VALUE → (types v.kids).head? = some s.last.ty) := by
  cases f with
  | zero => unfold componentValueList; intro v s' h; cases h
  | succ f =>
  unfold componentValueList
  refine Tri.last ?_
  cases f with
  | zero => unfold cvLoop; intro v s' h; cases h
  | succ f =>
  have hm := monos f
  unfold cvLoop
  refine Tri.last ?_
  rw [if_neg (by rw [hst]; simp)]
  have hnk : (newNode .COMPONENT_VALUE s.last).kids = [] := rfl
  have hcl : supportsChildren (newNode .COMPONENT_VALUE s.last).ty = true := rfl
  have hpart := part_of hp hst hns
  have hne : s.last.ty ≠ .EOF_TOKEN := by
    intro h; rw [h] at hpart; exact hpart.1 (by simp [notInTrees])
  split
  · rename_i hat
    refine Tri.bind ((shapes f).atr s hp hat) hm.atr
      (fun _ => Mono.bind (addChild_mono _ _) (fun _ => hm.loop _ _ _)) (fun x s1 h2 _ => ?_)
    refine Tri.val (addChild_ok hcl) ?_
    refine first_loop f _ _ _ _ _ rfl rfl hw (.inl ⟨rfl, ?_⟩)
    rw [hnk, mk_kids, push_ne (by rw [h2.ty]; exact hw) (by rw [h2.ty]; exact hne)]
    simp [types, h2.ty]
  rename_i hat
  split
  · rename_i hk
    refine Tri.bind (P := fun v s' => v.tok = (newNode .COMPONENT_VALUE s.last).tok ∧
        (types v.kids).head? = some s.last.ty) ?_ (exclamation_mono _) (fun _ => hm.loop _ _ _)
      (fun v s1 h2 hsub => ?_)
    · unfold exclamation
      refine Tri.last (Tri.next ?_)
      refine Tri.bind (P := fun _ _ => True) (fun _ _ _ _ => trivial) skipSpace_mono ?_ (fun _ s1 _ _ => ?_)
      · intro _
        refine Mono.bind .last (fun _ => ?_)
        split
        · exact Mono.bind (dropLast_mono _) (fun _ => Mono.bind (getString_mono _) (fun _ =>
            Mono.bind (setString_mono _ _) (fun _ => Mono.bind (addChild_mono _ _) (fun _ =>
              Mono.bind .next (fun _ => Mono.bind skipSpace_mono (fun _ => .pure _))))))
        · exact Mono.bind (.report _ _) (fun _ => .pure _)
      · refine Tri.last ?_
        split
        · rename_i hi
          refine Tri.val (dropLast_eq hcl) ?_
          refine Tri.val (m := getString s1.last) (v := s1.last.str) (by unfold getString; rw [hi]; rfl) ?_
          refine Tri.val (m := setString (.leaf s.last) s1.last.str)
            (v := .mk { s.last with str := s1.last.str } []) ?_ ?_
          · unfold setString
            rw [show (Nd.leaf s.last).ty = .EXCLAMATION from hk]
            rfl
          refine Tri.val (addChild_ok (n := .mk _ (dropEnd [])) hcl) (Tri.next ?_)
          refine Tri.bind (P := fun _ _ => True) (fun _ _ _ _ => trivial) skipSpace_mono
            (fun _ => .pure _) (fun _ s2 _ _ => ?_)
          refine Tri.pure ⟨rfl, ?_⟩
          show (types (push [] (.mk { s.last with str := s1.last.str } []))).head? = _
          rw [push_ne (c := .mk { s.last with str := s1.last.str } []) hw hne]
          rfl
        · exact Tri.report (Mono.pure _)
    · obtain ⟨t, k⟩ := v
      obtain ⟨ht, hk⟩ := h2
      have ht : t = _ := ht
      subst ht
      exact first_loop f _ _ _ _ _ rfl rfl hw (.inl ⟨rfl, hk⟩)
  · refine Tri.val (beforeBlock_eq hcl) ?_
    rw [hnk]
    have : ∀ p : Prop, ∀ [Decidable p], (if p then dropEnd [] else ([] : List Nd)) = [] := by
      intro p _; split <;> rfl
    rw [this]
    refine Tri.bind ((shapes f).value s hp hpart hat) hm.value ?_ (fun x s1 h2 _ => ?_)
    · intro _
      refine Mono.bind (addChild_mono _ _) (fun _ => ?_)
      split
      · refine Mono.bind (dropFirsts_mono _) (fun _ => Mono.bind (isBlockValue_mono _) (fun _ => ?_))
        split
        · exact listEnd_mono _ _
        · exact Mono.bind (skipSpaces_mono _) (fun _ => Mono.bind (wantSemicolon_mono _) (fun _ =>
            hm.loop _ _ _))
      · exact hm.loop _ _ _
    refine Tri.val (addChild_ok (n := .mk _ []) hcl) ?_
    rw [mk_kids, push_ne (by rw [h2.ty]; exact hw) (by rw [h2.ty]; exact hne), List.nil_append]
    have hk : (types [x]).head? = some s.last.ty := by simp [types, h2.ty]
    split
    · refine Tri.val (dropFirsts_eq (n := .mk _ [x]) hcl) ?_
      rw [mk_kids, head_dropHeads hw hk]
      refine Tri.bind (P := fun _ _ => True) (fun _ _ _ _ => trivial) (isBlockValue_mono _) ?_
        (fun d s2 _ _ => ?_)
      · intro _
        split
        · exact listEnd_mono _ _
        · exact Mono.bind (skipSpaces_mono _) (fun _ => Mono.bind (wantSemicolon_mono _) (fun _ =>
            hm.loop _ _ _))
      split
      · rw [listEnd_eq (list := .mk _ [x]) rfl rfl]
        exact Tri.pure (first_finish rfl hw (.inl ⟨rfl, hk⟩))
      · refine Tri.bind (P := fun _ _ => True) (fun _ _ _ _ => trivial) (skipSpaces_mono _)
          (fun _ => Mono.bind (wantSemicolon_mono _) (fun _ => hm.loop _ _ _)) (fun _ s3 _ _ => ?_)
        refine Tri.bind (P := fun _ _ => True) (fun _ _ _ _ => trivial) (wantSemicolon_mono _)
          (fun _ => hm.loop _ _ _) (fun _ s4 _ _ => ?_)
        exact first_loop f _ _ _ _ _ rfl rfl hw (.inl ⟨rfl, hk⟩)
    · exact first_loop f _ _ _ _ _ rfl rfl hw (.inl ⟨rfl, hk⟩)

/-! ### The style sheet -/

theorem Tri.and {α : Type} {m : M α} {s : St} {P Q : α → St → Prop} (h : Tri m s P) (h' : Tri m s Q) :
    Tri m s (fun v s' => P v s' ∧ Q v s') := fun v s' hv he => ⟨h v s' hv he, h' v s' hv he⟩

theorem qualifiedRule_shape (f : Nat) (s : St) (hp : AllPlain s) (he : s.last.ty ≠ .EOF_TOKEN)
    (hcm : s.last.ty ≠ .COMMENT) (hka : s.last.ty ≠ .AT_KEYWORD) (hst : stops ⟨false, true⟩ s.last.ty = false)
    (hw : s.last.ty ≠ .WHITESPACE) :
    Tri (qualifiedRule f) s (fun v _ => SheetChild v ∧ v.ty = .COMPONENT_VALUE) := by
  unfold qualifiedRule
  refine Tri.last ?_
  rw [if_neg he]
  split
  · exact Tri.next (Tri.report (Mono.pure _))
  · rename_i hns
    refine Tri.bind (((shapes f).list ⟨false, true⟩ s hp).and (first_list f _ s hp hst hns hw))
      ((monos f).list _) ?_ (fun n s1 h1 _ => ?_)
    · intro _
      refine Mono.bind (isEmpty_mono _) (fun _ => ?_)
      split
      · exact Mono.bind (.report _ _) (fun _ => .pure _)
      · refine Mono.bind (getLast_mono _) (fun _ => Mono.bind (isVariableSet_mono _ _) (fun _ => ?_))
        split
        · exact Mono.bind (.report _ _) (fun _ => .pure _)
        · exact .pure _
    obtain ⟨h1, hfst⟩ := h1
    have hcn : supportsChildren n.ty = true := by rcases h1.ty with h | h <;> rw [h] <;> rfl
    refine Tri.val (isEmpty_ok hcn) ?_
    split
    · exact Tri.report (Mono.pure _)
    · rename_i hem
      have hne : n.kids ≠ [] := by intro h; rw [h] at hem; simp at hem
      obtain ⟨l, hl⟩ := getLast_of_ne hne
      refine Tri.val (getLast_ok hcn hl) ?_
      refine Tri.val (v := variableSet (types n.kids)) (isVariableSet_eq false hcn) ?_
      split
      · exact Tri.report (Mono.pure _)
      · rename_i hv
        have hv : variableSet (types n.kids) = true ∨ l.ty = .OPEN_CURLYBRACKET := by
          cases hvs : variableSet (types n.kids) with
          | true => exact .inl rfl
          | false =>
            rw [hvs] at hv
            exact .inr (Classical.byContradiction (fun h' => hv ⟨rfl, h'⟩))
        have hcv : n.ty = .COMPONENT_VALUE := by
          rcases h1.ty with h | h
          · exfalso
            obtain ⟨t, k⟩ := n
            have hsh := h1.shape
            unfold TreeShape at hsh
            rw [show t.ty = .LIST from h] at hsh
            rcases hsh.1 with h0 | h0
            · exact hne h0
            · have hall := h0.2.1
              rcases hv with hv | hv
              · rw [mk_kids] at hv
                cases k with
                | nil => exact hne rfl
                | cons a k =>
                  rw [types_cons, hall a (by simp)] at hv
                  cases hv
              · rw [hall l (List.mem_of_getLast? hl)] at hv
                cases hv
          · exact h
        refine Tri.pure ⟨⟨h1.shape, .inr (.inr ⟨hcv, by rw [hfst hcv]; simp [hcm], by rw [hfst hcv]; simp [hka], ?_⟩)⟩, hcv⟩
        rcases hv with hv | hv
        · exact .inr hv
        · left; rw [types_last, hl, Option.map_some, hv]

theorem stylesheetLoop_shape (f : Nat) : ∀ (s : St) (result : Nd), AllPlain s → result.ty = .LIST →
    (∀ c ∈ result.kids, SheetChild c) → Tri (stylesheetLoop f result) s (fun v _ => Sheet v) := by
  induction f with
  | zero => intro s r _ _ _; unfold stylesheetLoop; intro v s' h; cases h
  | succ f ih =>
    intro s result hp hr hk
    have hcr : supportsChildren result.ty = true := by rw [hr]; rfl
    have hadd : ∀ c : Nd, SheetChild c → ∀ x ∈ push result.kids c, SheetChild x := by
      intro c hc x hx
      unfold push at hx
      split at hx
      · rcases List.mem_append.1 hx with hx | hx
        · exact hk x hx
        · rw [List.mem_singleton.1 hx]; exact hc
      · exact hk x hx
    unfold stylesheetLoop
    refine Tri.last ?_
    split
    · exact Tri.pure ⟨hr, hk⟩
    rename_i he
    split
    · exact Tri.next (ih _ _ (adv_plain hp) hr hk)
    rename_i hcd
    split
    · exact Tri.report (Mono.pure _)
    rename_i hcls
    split
    · rename_i hc
      refine Tri.val (addChild_ok hcr) (Tri.next ?_)
      refine ih s.adv _ (adv_plain hp) hr (hadd _ ⟨?_, .inl hc⟩)
      show TreeShape (.mk s.last [])
      unfold TreeShape
      rw [hc]
      exact ⟨by simp [isPart, notInTrees], rfl⟩
    split
    · rename_i ha
      refine Tri.bind ((shapes f).atr s hp ha) (monos f).atr
        (fun _ => Mono.bind (addChild_mono _ _) (fun _ => stylesheetLoop_mono f _)) (fun c s1 h1 hsub => ?_)
      refine Tri.val (addChild_ok hcr) ?_
      refine ih s1 _ (plain_sub hp hsub) hr (hadd _ ⟨h1.shape, .inr (.inl (by rw [h1.ty]; exact ha))⟩)
    · rename_i hcm hka
      have hst : stops ⟨false, true⟩ s.last.ty = false := by
        revert he hcd hcls
        generalize s.last.ty = ty
        cases ty <;> simp [stops, isClose]
      refine Tri.bind (qualifiedRule_shape f s hp he hcm hka hst (fun h => hcd (.inr (.inr h)))) (qualifiedRule_mono f)
        (fun _ => Mono.bind (addChild_mono _ _) (fun _ => stylesheetLoop_mono f _)) (fun c s1 h1 hsub => ?_)
      refine Tri.val (addChild_ok hcr) ?_
      exact ih s1 _ (plain_sub hp hsub) hr (hadd _ h1.1)

end Csspp.Parse
