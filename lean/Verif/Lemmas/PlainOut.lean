import Verif.Lemmas.PlainComp
import Verif.Model.Pipeline
import Verif.Lemmas.Written5
import Verif.Props.RoundTrip

/-!
For C83: the compiled rules of a plain style sheet go through the last passes of the compiler, and what is written.
-/

namespace Csspp.Spec.Plain
open Csspp.Spec (Word types)
open Csspp.Lex (Tok Pos)
open Csspp.Parse
open Csspp.Flt (Fp)

/-! ### remove_empty_rules() -/

/-- Nothing to remove. -/
def Kept (n : Nd) : Prop := Vars.isEmptyRule n = false ∧ Vars.removeEmptyIn n = n

theorem kept_all {l : List Nd} (h : ∀ n ∈ l, Kept n) : Vars.removeEmptyAll l = l := by
  induction l with
  | nil => rw [Vars.removeEmptyAll]
  | cons n l ih =>
    rw [Vars.removeEmptyAll, if_neg (by rw [(h n (by simp)).1]; simp), (h n (by simp)).2, ih (fun n hn => h n (by simp [hn]))]

theorem kept_of {t : Tok} {kids : List Nd} (ht : t.ty ≠ .COMPONENT_VALUE) (h : ∀ n ∈ kids, Kept n) : Kept (.mk t kids) := by
  refine ⟨?_, ?_⟩
  · unfold Vars.isEmptyRule
    rw [show decide ((Nd.mk t kids).ty = .COMPONENT_VALUE) = false from decide_eq_false ht, Bool.false_and]
  · rw [Vars.removeEmptyIn, kept_all h]
    split <;> rfl

theorem Each.all {α β : Type} {R : α → β → Prop} {P : β → Prop} {l : List α} {m : List β} (h : Each R l m)
    (hR : ∀ a b, R a b → P b) : ∀ b ∈ m, P b := by
  induction h with
  | nil => intro b hb; cases hb
  | cons h _ ih =>
    intro b hb
    rcases List.mem_cons.1 hb with rfl | hb
    · exact hR _ _ h
    · exact ih b hb

theorem Each.len {α β : Type} {R : α → β → Prop} {l : List α} {m : List β} (h : Each R l m) : l.length = m.length := by
  induction h with
  | nil => rfl
  | cons _ _ ih => simp [ih]

theorem arg_kept {l : List Item} {n : Nd} (h : IsArg l n) : Kept n := by
  obtain ⟨p, i, ks, rfl, _⟩ := h
  refine ⟨rfl, ?_⟩
  rw [Vars.removeEmptyIn, if_neg (by simp [Vars.marks])]

theorem decl_kept {d : Decl} {n : Nd} (h : CDecl d n) : Kept n := by
  obtain ⟨p, args, rfl, ha⟩ := h
  exact kept_of (by simp) (ha.all fun _ _ h => arg_kept h)

theorem body_kept {ds : List Decl} {l : List Nd} (h : CBody ds l) : ∀ n ∈ l, Kept n := by
  rcases h with ⟨_, rfl⟩ | ⟨_, p, ns, hn, ⟨rfl, _⟩ | rfl⟩
  · intro n hn; cases hn
  · exact hn.all (fun _ _ h => decl_kept h)
  · intro n h
    rw [List.mem_singleton.1 h]
    exact kept_of (by simp) (hn.all fun _ _ h => decl_kept h)

theorem body_nil {ds : List Decl} {l : List Nd} (h : CBody ds l) : l.isEmpty = ds.isEmpty := by
  rcases h with ⟨rfl, rfl⟩ | ⟨h, p, ns, hn, ⟨rfl, _⟩ | rfl⟩
  · rfl
  · cases hn with
    | nil => exact absurd rfl h
    | cons => rfl
  · cases ds with
    | nil => exact absurd rfl h
    | cons => rfl

theorem rule_kept {r : Rule} {n : Nd} (h : CRule r n) : Vars.isEmptyRule n = r.decls.isEmpty ∧ Vars.removeEmptyIn n = n := by
  obtain ⟨p, args, o, b, rfl, ha, ho, hb⟩ := h
  constructor
  · unfold Vars.isEmptyRule
    rw [show (Nd.mk { ty := .COMPONENT_VALUE, pos := p } (args ++ [Nd.mk o b])).kids = args ++ [Nd.mk o b] from rfl,
      List.getLast?_concat]
    show (true && (decide (o.ty = .OPEN_CURLYBRACKET) && b.isEmpty)) = _
    rw [ho, body_nil hb]; simp
  · rw [Vars.removeEmptyIn, if_pos (by simp [Vars.marks]), kept_all]
    intro n hn
    rcases List.mem_append.1 hn with hn | hn
    · exact ha.all (P := Kept) (fun _ _ h => arg_kept h) n hn
    · rw [List.mem_singleton.1 hn]
      exact kept_of (by rw [ho]; simp) (body_kept hb)

theorem rules_kept {S : Sheet} {ns : List Nd} (h : Each CRule S ns) : Each CRule S.active (Vars.removeEmptyAll ns) := by
  induction h with
  | nil => rw [Vars.removeEmptyAll]; exact .nil
  | cons h1 h2 ih =>
    rename_i r n S ns
    rw [Vars.removeEmptyAll, (rule_kept h1).1, (rule_kept h1).2]
    unfold Sheet.active
    rw [List.filter_cons]
    by_cases e : r.decls.isEmpty = true
    · rw [if_pos e, if_neg (by rw [e]; simp)]; exact ih
    · rw [if_neg e, if_pos (by simpa using e)]; exact .cons h1 ih

theorem sheet_kept {S : Sheet} {ns : List Nd} (h : Each CRule S ns) (p : Pos) :
    ∃ ns', Each CRule S.active ns' ∧ Vars.removeEmptyRules (.mk { ty := .LIST, pos := p } ns) = some (.mk { ty := .LIST, pos := p } ns') := by
  refine ⟨_, rules_kept h, ?_⟩
  unfold Vars.removeEmptyRules
  rw [if_neg (by simp [Vars.isEmptyRule, Nd.ty, Nd.tok]), Vars.removeEmptyIn, if_pos (by simp [Vars.marks])]

/-! ### expand_nested_components() -/

/-- Nothing is taken out. -/
def Still (n : Nd) : Prop := ∃ k, ∀ g ≥ k, ∀ root, Expand.rules g root n = .ok (some n, [], []) []

theorem still_loop {l : List Nd} (h : ∀ n ∈ l, Still n) : ∃ k, ∀ g ≥ k, ∀ root, Expand.rulesLoop g root l = .ok (l, []) [] := by
  induction l with
  | nil =>
    refine ⟨1, fun g hg root => ?_⟩
    obtain ⟨g, rfl⟩ : ∃ k, g = k + 1 := ⟨g - 1, by omega⟩
    rw [Expand.rulesLoop]
  | cons n l ih =>
    obtain ⟨k, hk⟩ := ih (fun n hn => h n (by simp [hn]))
    obtain ⟨k', hk'⟩ := h n (by simp)
    refine ⟨k + k' + 1, fun g hg root => ?_⟩
    obtain ⟨g, rfl⟩ : ∃ k, g = k + 1 := ⟨g - 1, by omega⟩
    rw [Expand.rulesLoop, hk' g (by omega)]
    show (Expand.R.bind (.ok (some n, [], []) []) _) = _
    unfold Expand.R.bind
    dsimp only
    rw [List.nil_append, hk g (by omega)]
    rfl

theorem arg_still {l : List Item} {n : Nd} (h : IsArg l n) : Still n ∧ ∀ name, Expand.nested name n = .ok (some n, []) [] := by
  obtain ⟨p, i, ks, rfl, _⟩ := h
  refine ⟨⟨1, fun g hg root => ?_⟩, fun name => ?_⟩
  · obtain ⟨g, rfl⟩ : ∃ k, g = k + 1 := ⟨g - 1, by omega⟩
    rw [Expand.rules, if_neg (by simp), if_neg (by simp), if_neg (by simp), if_neg (by simp)]
  · rw [Expand.nested, if_neg (by simp), if_neg (by simp), if_neg (by simp), if_neg (by simp)]

theorem args_decl {name : Str} {l : List Nd} (h : ∀ n ∈ l, ∀ name, Expand.nested name n = .ok (some n, []) []) :
    Expand.declAll name l = .ok (l, []) [] := by
  induction l with
  | nil => rw [Expand.declAll]
  | cons n l ih =>
    rw [Expand.declAll, h n (by simp), ih (fun n hn => h n (by simp [hn]))]
    rfl

theorem decl_still {d : Decl} (hd : d.Ok) {n : Nd} (h : CDecl d n) : Still n := by
  obtain ⟨p, args, rfl, ha⟩ := h
  refine ⟨1, fun g hg root => ?_⟩
  obtain ⟨g, rfl⟩ : ∃ k, g = k + 1 := ⟨g - 1, by omega⟩
  rw [Expand.rules, if_neg (by simp), if_pos rfl, args_decl (ha.all fun _ _ h => (arg_still h).2)]
  have : args ≠ [] := by
    rintro rfl
    have := ha.len
    exact hd.2.1 (List.eq_nil_of_length_eq_zero this)
  cases args with
  | nil => exact absurd rfl this
  | cons => rfl

theorem decls_still {ds : List Decl} (hd : ∀ d ∈ ds, d.Ok) {ns : List Nd} (h : Each CDecl ds ns) : ∀ n ∈ ns, Still n := by
  induction h with
  | nil => intro n hn; cases hn
  | cons h1 h2 ih =>
    intro n hn
    rcases List.mem_cons.1 hn with rfl | hn
    · exact decl_still (hd _ (by simp)) h1
    · exact ih (fun d h => hd d (by simp [h])) n hn

theorem still_block {t : Tok} {kids : List Nd} (ht : t.ty = .LIST ∨ t.ty = .OPEN_CURLYBRACKET) (h : ∀ n ∈ kids, Still n) :
    Still (.mk t kids) := by
  obtain ⟨k, hk⟩ := still_loop h
  refine ⟨k + 1, fun g hg root => ?_⟩
  obtain ⟨g, rfl⟩ : ∃ k, g = k + 1 := ⟨g - 1, by omega⟩
  rw [Expand.rules, if_neg (by rcases ht with e | e <;> rw [e] <;> simp), if_neg (by rcases ht with e | e <;> rw [e] <;> simp),
    if_neg (by rcases ht with e | e <;> rw [e] <;> simp), if_pos ht, hk g (by omega)]
  rfl

theorem rule_still {r : Rule} (hr : r.Ok) {n : Nd} (h : CRule r n) : ∃ k, ∀ g ≥ k, Expand.comps g n = .ok (n, []) [] := by
  obtain ⟨p, args, o, b, rfl, ha, ho, hb⟩ := h
  obtain ⟨k, hk⟩ := still_loop (l := args ++ [Nd.mk o b]) (fun n hn => by
    rcases List.mem_append.1 hn with hn | hn
    · exact ha.all (P := Still) (fun _ _ h => (arg_still h).1) n hn
    · rw [List.mem_singleton.1 hn]
      refine still_block (.inr ho) ?_
      rcases hb with ⟨_, rfl⟩ | ⟨_, p, ns, hd, ⟨rfl, _⟩ | rfl⟩
      · intro n hn; cases hn
      · exact decls_still hr.2.2 hd
      · intro n h
        rw [List.mem_singleton.1 h]
        exact still_block (.inl rfl) (decls_still hr.2.2 hd))
  refine ⟨k + 1, fun g hg => ?_⟩
  obtain ⟨g, rfl⟩ : ∃ k, g = k + 1 := ⟨g - 1, by omega⟩
  rw [Expand.comps, if_pos rfl, hk g (by omega)]
  rfl

theorem rules_still {S : Sheet} (hS : S.Ok) {ns : List Nd} (h : Each CRule S ns) :
    ∃ k, ∀ g ≥ k, Expand.compsLoop g ns = .ok ns [] := by
  induction h with
  | nil =>
    refine ⟨1, fun g hg => ?_⟩
    obtain ⟨g, rfl⟩ : ∃ k, g = k + 1 := ⟨g - 1, by omega⟩
    rw [Expand.compsLoop]
  | cons h1 h2 ih =>
    obtain ⟨k, hk⟩ := ih (fun r hr => hS r (by simp [hr]))
    obtain ⟨k', hk'⟩ := rule_still (hS _ (by simp)) h1
    refine ⟨k + k' + 1, fun g hg => ?_⟩
    obtain ⟨g, rfl⟩ : ∃ k, g = k + 1 := ⟨g - 1, by omega⟩
    rw [Expand.compsLoop, hk' g (by omega)]
    show (Expand.R.bind (.ok (_, []) []) _) = _
    unfold Expand.R.bind
    dsimp only
    rw [List.nil_append, hk g (by omega)]
    rfl

theorem sheet_still {S : Sheet} (hS : S.Ok) {ns : List Nd} (h : Each CRule S ns) (p : Pos) :
    ∃ k, ∀ g ≥ k, Expand.comps g (.mk { ty := .LIST, pos := p } ns) = .ok (.mk { ty := .LIST, pos := p } ns, []) [] := by
  obtain ⟨k, hk⟩ := rules_still hS h
  refine ⟨k + 1, fun g hg => ?_⟩
  obtain ⟨g, rfl⟩ : ∃ k, g = k + 1 := ⟨g - 1, by omega⟩
  rw [Expand.comps, if_neg (by simp), if_neg (by simp), if_pos (.inl rfl), hk g (by omega)]
  rfl

/-! ### The text -/

/-- These calls write a text, in the COMPRESSED mode, and there is no message. -/
def Wr (o : Asm.Out) (t : Str) : Prop :=
  ∃ calls, o = .ok calls ∧ Asm.Call.report ∉ calls ∧ ∀ w, (calls.foldl Asm.Mode.compressed.call w).out = w.out ++ t

theorem Wr.nil : Wr (.ok []) [] := ⟨[], rfl, by simp, fun w => by simp⟩

theorem Wr.and {a b : Asm.Out} {s t : Str} (ha : Wr a s) (hb : Wr b t) : Wr (Asm.andThen a b) (s ++ t) := by
  obtain ⟨x, rfl, h1, h2⟩ := ha
  obtain ⟨y, rfl, h3, h4⟩ := hb
  refine ⟨x ++ y, rfl, ?_, fun w => ?_⟩
  · rw [List.mem_append]; rintro (h | h); exact h1 h; exact h3 h
  · rw [List.foldl_append, h4, h2, List.append_assoc]

theorem Wr.raw (s : Str) : Wr (Asm.rawText s) s := ⟨_, rfl, by simp, fun _ => rfl⟩

theorem Wr.newline : Wr (Asm.one .newline) [] := ⟨_, rfl, by simp, fun w => (List.append_nil w.out).symm⟩
theorem Wr.indent : Wr (Asm.one .indent) [] := ⟨_, rfl, by simp, fun w => (List.append_nil w.out).symm⟩

theorem string_out (w : Asm.W) (s : Str) : (w.string s).out = w.out ++ s := by
  unfold Asm.W.string Asm.W.put Asm.W.set
  split <;> rfl

theorem Wr.op (s : Str) {f : Asm.Flag} (hf : f ≠ .optionalOperator) : Wr (Asm.operator s f) s := by
  refine ⟨_, rfl, by simp, fun w => ?_⟩
  show (Asm.opBase w s f).out = _
  unfold Asm.opBase
  rw [if_neg hf, string_out]

theorem Wr.optional (s : Str) : Wr (Asm.operator s .optionalOperator) [] := by
  refine ⟨_, rfl, by simp, fun w => ?_⟩
  show (Asm.opBase w s .optionalOperator).out = _
  unfold Asm.opBase
  rw [if_pos rfl, List.append_nil]

section
variable {p : Nat} {pow : Int → Fp}

/-- How a leaf is written. -/
def Leaf (p : Nat) (pow : Int → Fp) (w : Word) (s : Str) : Prop :=
  w.ty ≠ .PLACEHOLDER ∧ ∀ t : Tok, face t = wface w → Wr (Asm.output p (Pipeline.toTree pow (.leaf t))) s

theorem leaf_of {w : Word} {s : Str} (hp : w.ty ≠ .PLACEHOLDER)
    (h : ∀ d : Tree.Data, d.ty = w.ty → d.str = w.str → d.int = w.int → ∃ o, Asm.leafCalls p d = some o ∧ Wr o s) :
    Leaf p pow w s := by
  refine ⟨hp, fun t ht => ?_⟩
  obtain ⟨e1, e2⟩ := Prod.mk.inj ht
  obtain ⟨e2, e3⟩ := Prod.mk.inj e2
  obtain ⟨o, h1, h2⟩ := h (t.data pow) e1 e2 e3
  show Wr (Asm.output p (.mk (t.data pow) _)) s
  rw [Asm.output.eq_def]; dsimp only; rw [h1]
  exact h2

theorem Leaf.mark {ty : NT} (h : ty ∈ [.PERIOD, .COMMA, .COLON, .GREATER_THAN, .ADD, .PRECEDED]) (hc : ty ≠ .COMMA) :
    Leaf p pow { ty := ty } (Text { ty := ty }) := by
  simp only [List.mem_cons, List.not_mem_nil, or_false] at h
  refine leaf_of (by rcases h with rfl | rfl | rfl | rfl | rfl | rfl <;> simp) (fun d hd _ _ => ?_)
  unfold Asm.leafCalls
  rw [hd]
  rcases h with rfl | rfl | rfl | rfl | rfl | rfl
  · exact ⟨_, rfl, Wr.op _ (by simp)⟩
  · exact absurd rfl hc
  all_goals exact ⟨_, rfl, Wr.op _ (by simp)⟩

theorem Leaf.space : Leaf p pow ws [32] := by
  refine leaf_of (by simp [ws]) (fun d hd _ _ => ?_)
  unfold Asm.leafCalls
  rw [hd]
  exact ⟨_, rfl, Wr.raw _⟩

theorem Leaf.hash (s : Str) : Leaf p pow { ty := .HASH, str := s } (Text { ty := .HASH, str := s }) := by
  refine leaf_of (by simp) (fun d hd hs _ => ?_)
  unfold Asm.leafCalls
  rw [hd]
  refine ⟨_, rfl, ?_⟩
  rw [hs]
  exact Wr.raw _

theorem fair_le {c : Nat} (h : Fair c) : c ≤ 0x10FFFF := by
  have := h.1.1
  unfold Scalar at this
  omega

theorem escape_name {s : Str} (h : Name s) : Asm.escapeId s = some s := by
  obtain ⟨cs, hu, hc, hn, _⟩ := h
  obtain ⟨out, h1, h2⟩ := Lex.escapeId_bytes hu (fun c hcs => (hc c hcs).2.1.2.2)
  have e : Lex.escChars cs = cs := by
    obtain ⟨c, t, rfl, hst⟩ := hn
    unfold Lex.escChars
    dsimp only
    rw [if_pos ((Lex.isStart_name (fair_le (hc c (by simp)).2) (hc c (by simp)).2.2).2 hst)]
    have : ∀ t : List Nat, (∀ c ∈ t, NameChar c ∧ Fair c) → Lex.escTail t = t := by
      intro t ht
      induction t with
      | nil => rfl
      | cons c t ih =>
        rw [show Lex.escTail (c :: t) = (if Lex.isIdentifier c then [c] else [92, c]) ++ Lex.escTail t from rfl,
          if_pos ((Lex.isIdentifier_name (fair_le (ht c (by simp)).2)).2 (ht c (by simp)).1), ih (fun c hc => ht c (by simp [hc]))]
        rfl
    rw [this t (fun c h => hc c (by simp [h]))]
    rfl
  rw [e] at h2
  rw [h1, Written.utf8_unique h2 hu]

theorem Leaf.ident {s : Str} (h : Name s) : Leaf p pow { ty := .IDENTIFIER, str := s } (Text { ty := .IDENTIFIER, str := s }) := by
  refine leaf_of (by simp) (fun d hd hs _ => ?_)
  unfold Asm.leafCalls
  rw [hd]
  refine ⟨_, rfl, ?_⟩
  rw [hs, escape_name h]
  exact Wr.raw _

theorem Leaf.int {i : Int} {u : Str} (h : Unit u) (sg : Bool) :
    Leaf p pow { ty := .INTEGER, int := i, str := u, sign := sg } (Text { ty := .INTEGER, int := i, str := u, sign := sg }) := by
  refine leaf_of (by simp) (fun d hd hs hi => ?_)
  unfold Asm.leafCalls
  rw [hd]
  refine ⟨_, rfl, ?_⟩
  rw [hs, hi]
  have : Asm.verifyDimension u = .ok [] := by
    unfold Asm.verifyDimension
    rw [if_neg]
    rw [Bool.not_eq_true, List.any_eq_false]
    intro c hc
    have := h.1 c hc
    simp only [Bool.or_eq_true, beq_iff_eq]
    omega
  show Wr (Asm.andThen (Asm.verifyDimension u) _) _
  rw [this]
  exact Wr.nil.and (Wr.raw _)

theorem utf8_absent {cs : List Nat} {s : Str} (h : Utf8 cs s) {q : Nat} (hq : q < 0x80) (h0 : ∀ c ∈ cs, c ≠ q) : ∀ b ∈ s, b ≠ q := by
  induction h with
  | nil => intro b hb; cases hb
  | cons hc _ ih =>
    intro b hb
    rcases List.mem_append.1 hb with hb | hb
    · rcases Lex.charBytes_high hc with ⟨a, rfl, rfl, _⟩ | ⟨a, fs, rfl, ha, _, _, hf, _⟩
      · rw [List.mem_singleton.1 hb]; exact h0 _ (by simp)
      · rcases List.mem_cons.1 hb with rfl | hb
        · omega
        · have := hf b hb; simp [Lex.isFollow] at this; omega
    · exact ih (fun c hc => h0 c (by simp [hc])) b hb

theorem quoted_id {q : Nat} {s : Str} (h : ∀ b ∈ s, b ≠ q) : Asm.quoted q s = s := by
  unfold Asm.quoted
  induction s with
  | nil => rfl
  | cons c s ih =>
    rw [List.flatMap_cons, if_neg (h c (by simp)), ih (fun b hb => h b (by simp [hb]))]
    rfl

theorem Leaf.str {s : Str} (h : ∃ cs, Utf8 cs s ∧ ∀ c ∈ cs, Fair c ∧ c ≠ 10 ∧ c ≠ 12 ∧ c ≠ 13 ∧ c ≠ 92 ∧ c ≠ 34) :
    Leaf p pow { ty := .STRING, str := s } (Text { ty := .STRING, str := s }) := by
  refine leaf_of (by simp) (fun d hd hs _ => ?_)
  unfold Asm.leafCalls
  rw [hd]
  refine ⟨_, rfl, ?_⟩
  rw [hs]
  have : Asm.outputString s = 34 :: (s ++ [34]) := by
    obtain ⟨cs, hu, hc⟩ := h
    have h34 := utf8_absent hu (q := 34) (by omega) (fun c h => (hc c h).2.2.2.2.2)
    have h0 := utf8_absent hu (q := 0) (by omega) (fun c h => (hc c h).1.1.2.2)
    have e : Asm.cstr s = s := Lex.cstr_id h0
    unfold Asm.outputString
    rw [e]
    dsimp only
    rw [if_pos (by rw [List.count_eq_zero.2 (fun h => h34 34 h rfl)]; omega)]
    rw [quoted_id h34]
  rw [this]
  exact Wr.raw _

/-! ### The lists of words -/

/-- The words of a list are written as their text. -/
def Writes (p : Nat) (pow : Int → Fp) (l : List Item) : Prop := ∀ w, Item.word w ∈ l → Leaf p pow w (Text w)

theorem shortest_append (a b : List Item) : shortest (a ++ b) = shortest a ++ shortest b := by
  induction a with
  | nil => rfl
  | cons i a ih => cases i <;> simp [shortest, ih]

theorem words_out : ∀ {l : List Item}, Writes p pow l → ∀ {ks : List Tok}, ks.map face = (squeezed l).map wface →
    Wr (Asm.outAll p (Pipeline.toTrees pow (ks.map Nd.leaf))) (shortest l) ∧
      Asm.endsWithPlaceholder (Pipeline.toTrees pow (ks.map Nd.leaf)) = false
  | [], _, ks, h => by
    obtain rfl : ks = [] := by simpa [squeezed] using h
    exact ⟨by rw [List.map_nil, Pipeline.toTrees, Asm.outAll]; exact Wr.nil, by rw [List.map_nil, Pipeline.toTrees, Asm.endsWithPlaceholder]⟩
  | i :: l, hl, ks, h => by
    have hl' : Writes p pow l := fun w hw => hl w (List.mem_cons_of_mem _ hw)
    have go : ∀ {w : Word} {s : Str}, Leaf p pow w s → ks.map face = wface w :: (squeezed l).map wface →
        Wr (Asm.outAll p (Pipeline.toTrees pow (ks.map Nd.leaf))) (s ++ shortest l) ∧
          Asm.endsWithPlaceholder (Pipeline.toTrees pow (ks.map Nd.leaf)) = false := by
      intro w s hw h
      cases ks with
      | nil => cases h
      | cons t ks =>
        obtain ⟨e1, e2⟩ := List.cons.inj h
        obtain ⟨i1, i2⟩ := words_out hl' e2
        rw [List.map_cons, Pipeline.toTrees]
        refine ⟨by rw [Asm.outAll]; exact (hw.2 t e1).and i1, ?_⟩
        have hty : t.ty = w.ty := (Prod.mk.inj e1).1
        have ht : (Pipeline.toTree pow (.leaf t)).ty = t.ty := rfl
        generalize Pipeline.toTrees pow (ks.map Nd.leaf) = r at i2
        cases r with
        | nil =>
          rw [Asm.endsWithPlaceholder, ht, hty]
          simpa using hw.1
        | cons => rw [Asm.endsWithPlaceholder]; exact i2
    cases i with
    | word w => exact go (hl w (by simp)) h
    | must => exact go Leaf.space h
    | opt => exact words_out hl' h
    | semi => exact words_out hl' h

theorem arg_out {l : List Item} (hl : Writes p pow l) {n : Nd} (h : IsArg l n) :
    Wr (Asm.output p (Pipeline.toTree pow n)) (shortest l) ∧ ∃ d kids, Pipeline.toTree pow n = .mk d kids ∧ d.ty = .ARG ∧
      Asm.endsWithPlaceholder kids = false := by
  obtain ⟨q, i, ks, rfl, e⟩ := h
  obtain ⟨h1, h2⟩ := words_out hl e
  rw [Pipeline.toTree]
  refine ⟨?_, _, _, rfl, rfl, h2⟩
  rw [Asm.output.eq_def]
  exact h1

theorem Writes.append {a b : List Item} (ha : Writes p pow a) (hb : Writes p pow b) : Writes p pow (a ++ b) := by
  intro w hw
  rcases List.mem_append.1 hw with hw | hw
  · exact ha w hw
  · exact hb w hw

theorem Writes.flatMap {α : Type} {f : α → List Item} {l : List α} (h : ∀ a ∈ l, Writes p pow (f a)) : Writes p pow (l.flatMap f) := by
  intro w hw
  obtain ⟨a, ha, hw⟩ := List.mem_flatMap.1 hw
  exact h a ha w hw

theorem val_writes {v : Val} (h : v.Ok) : Leaf p pow v.word' (Text v.word') := by
  cases v with
  | var => exact h.elim
  | word s => exact Leaf.ident h.1
  | int i u => exact Leaf.int h.2.2 _
  | str s => exact Leaf.str h
  | sum i more u => exact Leaf.int h.2.2 _

theorem join_map {α β : Type} (f : β → List Item) (g : α → β) (sep : List Item) : ∀ l : List α,
    join f sep (l.map g) = join (fun x => f (g x)) sep l
  | [] => rfl
  | [_] => rfl
  | x :: y :: l => by
    have ih := join_map f g sep (y :: l)
    rw [List.map_cons] at ih
    rw [List.map_cons, List.map_cons, join, join, ih]

theorem value_items (v : Val) : v.value.items = [.word v.word'] := by cases v <;> rfl

theorem values_computed (l : List (List Val)) : valueItems (l.map (·.map Val.value)) = join group [.opt, mark .COMMA, .opt] l := by
  unfold valueItems
  rw [join_map]
  congr 1
  funext g
  rw [join_map]
  unfold group
  congr 1
  funext v
  exact value_items v

theorem group_writes {g : List Val} (h : ∀ v ∈ g, v.Ok) : Writes p pow (group g) := by
  intro w hw
  rcases mem_group hw with e | ⟨v, hv, e⟩
  · cases e
  · injection e with e; rw [e]; exact val_writes (h v hv)

theorem simple_writes {s : Simple} (h : s.Ok) : Writes p pow s.items := by
  intro w hw
  cases s with
  | tag s =>
    have e := List.mem_singleton.1 hw; injection e with e; rw [e]; exact Leaf.ident h
  | cls s =>
    rcases List.mem_cons.1 hw with e | hw
    · injection e with e; rw [e]; exact Leaf.mark (by simp) (by simp)
    · have e := List.mem_singleton.1 hw; injection e with e; rw [e]; exact Leaf.ident h
  | id s => have e := List.mem_singleton.1 hw; injection e with e; rw [e]; exact Leaf.hash s

theorem comb_writes (c : Comb) : Writes p pow c.items := by
  intro w hw
  have go : ∀ {ty : NT}, ty ∈ [NT.GREATER_THAN, .ADD, .PRECEDED] → Item.word w ∈ [.opt, mark ty, .opt] → Leaf p pow w (Text w) := by
    intro ty ht hw
    simp only [List.mem_cons, List.not_mem_nil, or_false, reduceCtorEq, false_or] at hw ht
    injection hw with e
    rw [e]
    refine Leaf.mark ?_ ?_ <;> rcases ht with rfl | rfl | rfl <;> simp
  cases c with
  | desc => simp [Comb.items] at hw
  | child => exact go (by simp) hw
  | next => exact go (by simp) hw
  | sibling => exact go (by simp) hw

theorem sel_writes {s : Sel} (h : s.Ok) : Writes p pow s.items := by
  refine Writes.append (Writes.flatMap fun x hx => simple_writes (h.1.2.1 x hx)) (Writes.flatMap fun x hx => ?_)
  exact Writes.append (comb_writes _) (Writes.flatMap fun y hy => simple_writes ((h.2.1 x hx).2.1 y hy))

/-! ### The rules -/

theorem shortest_join {α : Type} (f : α → List Item) (sep : List Item) (x y : α) (l : List α) :
    shortest (join f sep (x :: y :: l)) = shortest (f x) ++ (shortest sep ++ shortest (join f sep (y :: l))) := by
  rw [join, shortest_append, shortest_append, List.append_assoc]

/-- outAfter(). -/
theorem after_out {α : Type} {f : α → List Item} {R : α → Nd → Prop} {ty : NT} {sep : NT} {fl : Asm.Flag} (hf : fl ≠ .optionalOperator)
    {l : List α} (hR : ∀ a ∈ l, ∀ n, R a n → Wr (Asm.output p (Pipeline.toTree pow n)) (shortest (f a)) ∧ (Pipeline.toTree pow n).ty = ty)
    {ns : List Nd} (h : Each R l ns) :
    Wr (Asm.outAfter p ty (.op (Text { ty := sep }) fl) (Pipeline.toTrees pow ns)) (shortest (join f [.opt, mark sep, .opt] l)) := by
  induction h with
  | nil => rw [Pipeline.toTrees, Asm.outAfter]; exact Wr.nil
  | cons h1 h2 ih =>
    rename_i a n l ns
    obtain ⟨e1, e2⟩ := hR a (by simp) n h1
    have ih := ih (fun a ha => hR a (by simp [ha]))
    rw [Pipeline.toTrees, Asm.outAfter]
    cases h2 with
    | nil =>
      rw [Pipeline.toTrees, Asm.outAfter, if_neg (by simp)]
      have := e1.and (Wr.nil.and Wr.nil)
      rw [List.append_nil, List.append_nil] at this
      exact this
    | cons h3 h4 =>
      rw [shortest_join]
      refine e1.and (Wr.and ?_ ih)
      rw [if_pos ⟨e2, by rw [Pipeline.toTrees]; simp⟩]
      have := Wr.op (Text { ty := sep }) hf
      show Wr _ (Text { ty := sep } ++ [])
      rw [List.append_nil]
      exact this

theorem decl_out {d : Decl} (hd : d.Ok) {n : Nd} (h : CDecl d n) :
    Wr (Asm.output p (Pipeline.toTree pow n)) (shortest d.computed.items) ∧ (Pipeline.toTree pow n).ty = .DECLARATION := by
  obtain ⟨q, args, rfl, ha⟩ := h
  refine ⟨?_, rfl⟩
  rw [Pipeline.toTree, Asm.output.eq_def]
  have h1 := after_out (p := p) (pow := pow) (f := group) (ty := .ARG) (sep := .COMMA) (fl := .spaceAfter) (by simp)
    (R := fun g a => IsArg (group g) a) (l := d.values) (fun g hg n hn => by
      obtain ⟨i1, a, b, e, i2, _⟩ := arg_out (group_writes (hd.2.2 g hg).2) hn
      exact ⟨i1, by rw [e]; exact i2⟩) ha
  have h2 := Wr.indent.and ((Wr.raw d.name).and ((Wr.op b!":" (f := .spaceAfter) (by simp)).and (h1.and Wr.nil)))
  rw [List.append_nil, List.nil_append, ← values_computed] at h2
  exact h2

theorem body_out {ds : List Decl} (hd : ∀ d ∈ ds, d.Ok) {l : List Nd} (h : CBody ds l) :
    Wr (Asm.outAfter p .DECLARATION (.op b!";" .spaceAfterOrNewline) (Pipeline.toTrees pow l)) (shortest (body (ds.map Decl.computed))) := by
  have e : ∀ ds, shortest (body ds) = shortest (join Decl.items [.opt, mark .SEMICOLON, .opt] ds) := by
    intro ds
    unfold body
    rw [shortest_append, shortest_append, show shortest (if ds.isEmpty then [] else [.opt]) = [] by split <;> rfl, List.nil_append]
    exact List.append_nil _
  rw [e, join_map]
  rcases h with ⟨rfl, rfl⟩ | ⟨hne, q, ns, hn, h⟩
  · rw [Pipeline.toTrees, Asm.outAfter]; exact Wr.nil
  · have h1 := after_out (p := p) (pow := pow) (f := fun d => d.computed.items) (ty := .DECLARATION) (sep := .SEMICOLON) (fl := .spaceAfterOrNewline) (by simp)
      (R := CDecl) (fun d h n hn => decl_out (hd d h) hn) hn
    rcases h with ⟨rfl, _⟩ | rfl
    · exact h1
    · rw [Pipeline.toTrees, Pipeline.toTree, Pipeline.toTrees, Asm.outAfter, Asm.outAfter, if_neg (by simp), Asm.output.eq_def]
      have := h1.and (Wr.nil.and Wr.nil)
      rw [List.append_nil, List.append_nil] at this
      exact this

theorem sels_out {l : List Sel} (hl : ∀ s ∈ l, s.Ok) {args : List Nd} (h : Each (fun s a => IsArg (Sel.items s) a) l args)
    {b : Nd} (hb : b.ty = .OPEN_CURLYBRACKET) {t : Str} (ht : Wr (Asm.output p (Pipeline.toTree pow b)) t) :
    Wr (Asm.outCV p false (Pipeline.toTrees pow (args ++ [b]))) (l.flatMap (fun s => 44 :: shortest s.items) ++ t) ∧
      (l ≠ [] → Wr (Asm.outCV p true (Pipeline.toTrees pow (args ++ [b]))) (shortest (join Sel.items [.opt, mark .COMMA, .opt] l) ++ t)) := by
  have ej : ∀ (s : Sel) (l : List Sel), shortest (join Sel.items [.opt, mark .COMMA, .opt] (s :: l)) =
      shortest s.items ++ l.flatMap (fun s => 44 :: shortest s.items) := by
    intro s l
    induction l generalizing s with
    | nil => simp [join]
    | cons s' l ih => rw [shortest_join, ih]; rfl
  induction h with
  | nil =>
    refine ⟨?_, fun h => absurd rfl h⟩
    cases b with
    | mk tb kb =>
      rw [List.nil_append, Pipeline.toTrees, Pipeline.toTrees]
      have e : Pipeline.toTree pow (.mk tb kb) = .mk (tb.data pow) (Pipeline.toTrees pow kb) := by rw [Pipeline.toTree]
      rw [e] at ht ⊢
      rw [Asm.outCV, if_pos (show (tb.data pow).ty = _ from hb), if_neg (by simp), Asm.outCV]
      have := ht.and Wr.nil
      rw [List.append_nil] at this
      exact this
  | cons h1 h2 ih =>
    rename_i s n l args
    obtain ⟨i1, i2⟩ := ih (fun s h => hl s (by simp [h]))
    obtain ⟨j1, d, k, e, j2, j3⟩ := arg_out (sel_writes (p := p) (pow := pow) (hl s (by simp))) h1
    have ecv : ∀ (first : Bool) (r : List Tree.Tree), Asm.outCV p first (.mk d k :: r) =
        Asm.andThen (if first then .ok [] else Asm.operator b!"," .spaceAfter) (Asm.andThen (Asm.output p (.mk d k)) (Asm.outCV p false r)) := by
      intro first r
      rw [Asm.outCV, if_neg (by rw [j2]; simp), if_neg (by rw [j2]; simp), if_neg (by rw [j3]; simp)]
    rw [List.cons_append, Pipeline.toTrees, e, ecv, ecv]
    rw [e] at j1
    refine ⟨?_, fun _ => ?_⟩
    · rw [if_neg (by simp), List.flatMap_cons, List.append_assoc]
      exact (Wr.op [44] (f := .spaceAfter) (by simp)).and (j1.and i1)
    · rw [if_pos rfl, ej, List.append_assoc]
      exact Wr.nil.and (j1.and i1)

theorem rule_out {r : Rule} (hr : r.Ok) {n : Nd} (h : CRule r n) :
    Wr (Asm.output p (Pipeline.toTree pow n)) (shortest r.computed.items) ∧ (Pipeline.toTree pow n).ty = .COMPONENT_VALUE := by
  obtain ⟨q, args, o, b, rfl, ha, ho, hb⟩ := h
  refine ⟨?_, rfl⟩
  have hblock : Wr (Asm.output p (Pipeline.toTree pow (.mk o b))) (123 :: (shortest (body (r.decls.map Decl.computed)) ++ [125])) := by
    rw [Pipeline.toTree, Asm.output.eq_def]
    dsimp only
    rw [show Asm.leafCalls p (o.data pow) = none by unfold Asm.leafCalls; rw [show (o.data pow).ty = _ from ho]]
    dsimp only
    rw [show (o.data pow).ty = _ from ho]
    have h2 := (Wr.optional b!";").and ((Wr.op b!"}" (f := .spaceBeforeOrNewline) (by simp)).and Wr.newline)
    have h1 := (Wr.op b!"{" (f := .spacesOrNewlines) (by simp)).and ((body_out (p := p) (pow := pow) hr.2.2 hb).and h2)
    exact h1
  have h3 := (sels_out hr.2.1 ha (b := .mk o b) ho hblock).2 hr.1
  rw [Pipeline.toTree, Asm.output.eq_def]
  have e : shortest r.computed.items = shortest (join Sel.items [.opt, mark .COMMA, .opt] r.sels) ++ 123 :: (shortest (body (r.decls.map Decl.computed)) ++ [125]) := by
    unfold Rule.items
    rw [shortest_append, shortest_append, shortest_append, List.append_assoc]
    rfl
  rw [e]
  exact h3

theorem sheet_out {S : Sheet} (hS : S.Ok) {ns : List Nd} (h : Each CRule S ns) (q : Pos) :
    Wr (Asm.output p (Pipeline.toTree pow (.mk { ty := .LIST, pos := q } ns))) (shortest (items S.computed)) := by
  rw [Pipeline.toTree, Asm.output.eq_def]
  show Wr (Asm.outAfter p .DECLARATION _ _) (shortest ((S.map Rule.computed).flatMap (fun r => r.items ++ [.opt])))
  induction h with
  | nil => rw [Pipeline.toTrees, Asm.outAfter]; exact Wr.nil
  | cons h1 h2 ih =>
    obtain ⟨i1, i2⟩ := rule_out (p := p) (pow := pow) (hS _ (by simp)) h1
    have ih := ih (fun r hr => hS r (by simp [hr]))
    rw [Pipeline.toTrees, Asm.outAfter, if_neg (by rw [i2]; simp), List.map_cons, List.flatMap_cons, shortest_append, shortest_append]
    have := i1.and (Wr.nil.and ih)
    rw [show shortest [Item.opt] = [] from rfl, List.append_nil]
    exact this

end

end Csspp.Spec.Plain
