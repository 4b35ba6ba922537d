import Verif.Props.NodeTextRead

/-!
C88: the text of the variables, the placeholders and the comments.
-/

namespace Csspp.Text
open Csspp.Spec Csspp.Tree Csspp.Written
open Csspp.Lex (lexAll init utf8_append utf8_ascii)

/-- The text is read as this one token, with this string and this warning. -/
def ReadAs (s : Str) (ty : NT) (str : Str) (int : Int) (err : List Lex.Rpt) : Prop :=
  ∀ f, s.length < f → ∃ t, (lexAll f (init s)).1 = [t] ∧ t.ty = ty ∧ t.str = str ∧ t.int = int ∧
    (lexAll f (init s)).2.err = err ∧ (lexAll f (init s)).2.exn = none

theorem ReadAs.of {cs : List Nat} {s str : Str} {l : Lexeme} (hu : Utf8 cs s) (hc : Clean cs) (h : Reads cs l [])
    (hl : l.ty ≠ .EOF_TOKEN) (ht : Utf8 l.text str) : ReadAs s l.ty str l.int l.warn.toList := by
  intro f hf
  obtain ⟨h1, h2, h3, _⟩ := Lex.C47_complete cs s hu (fun c hm => ⟨(hc c hm).1, (hc c hm).2.1⟩) [l]
    (by rw [clean_newlines hc]; exact .token h hl .eof) f hf
  generalize (lexAll f (init s)).1 = ts at h1 ⊢
  cases h1 with
  | cons ha hb =>
    cases hb
    refine ⟨_, rfl, ha.ty, utf8_unique ha.text ht, ha.int, ?_, h3⟩
    rw [h2, List.filterMap_cons]
    cases l.warn <;> rfl

/-- C88: the text of a variable (lowercase letters, digits and underscores, as the lexer gives them) is read as this
variable. -/
theorem C88_variable (E : Env) (fl : Flags) (d : Data) (kids : List Tree) (hd : d.ty = .VARIABLE) (hne : d.str ≠ [])
    (hs : ∀ c ∈ d.str, (48 ≤ c ∧ c ≤ 57) ∨ (97 ≤ c ∧ c ≤ 122) ∨ c = 95) :
    ∃ s, text E fl (.mk d kids) = .ok s ∧ ReadAs s .VARIABLE d.str 0 [] := by
  refine ⟨36 :: d.str, by rw [text]; unfold leaf; rw [hd]; rfl, ?_⟩
  have hm : d.str.map (fun c => if c = 45 then 95 else lowerByte c) = d.str := by
    conv => rhs; rw [← List.map_id d.str]
    refine List.map_congr_left fun c hc => ?_
    have := hs c hc
    rw [if_neg (by omega)]
    unfold lowerByte
    rw [if_neg (by omega)]
    rfl
  have hr := Reads.variableName (vs := d.str) (rest := []) (fun c hc => by
    have := hs c hc; unfold VarChar Dec Letter; omega) hne (by rintro ⟨c, t, h, _⟩; cases h) (by simp)
  rw [List.append_nil, hm] at hr
  refine ReadAs.of (cs := 36 :: d.str) (utf8_ascii ?_) ?_ hr (by simp) (utf8_ascii ?_)
  · intro c hc
    rcases List.mem_cons.1 hc with rfl | hc
    · decide
    · have := hs c hc; omega
  · intro c hc
    rcases List.mem_cons.1 hc with rfl | hc
    · decide
    · have := hs c hc; omega
  · intro c hc
    have := hs c hc; omega

/-- C88: the text of a placeholder is read as this placeholder. -/
theorem C88_placeholder (E : Env) (fl : Flags) (d : Data) (kids : List Tree) (hd : d.ty = .PLACEHOLDER)
    (cs : List Nat) (hu : Utf8 cs d.str) (hn : PlainName cs) (hs : NextIs NameStart cs) :
    ∃ s, text E fl (.mk d kids) = .ok s ∧ ReadAs s .PLACEHOLDER d.str 0 [] := by
  refine ⟨37 :: d.str, by rw [text]; unfold leaf; rw [hd]; rfl, ?_⟩
  have hname := name_plain hn (rest := []) (by rintro ⟨c, t, h, _⟩; cases h)
  rw [List.append_nil] at hname
  refine ReadAs.of (cs := 37 :: cs) (utf8_append (a := [37]) (x := [37]) (utf8_ascii (by decide)) hu) ?_
    (.placeholder hs hname (.inr (by simp))) (by simp) hu
  intro c hc
  rcases List.mem_cons.1 hc with rfl | hc
  · decide
  · exact name_clean (hn.1 c hc)

/-- C88: a variable which is called is written as a function with a `$` in front. -/
theorem C88_call (E : Env) (fl : Flags) (d : Data) (kids : List Tree) (hd : d.ty = .VARIABLE_FUNCTION) :
    text E fl (.mk d kids) = (put b!"$" ⊕ text E fl (.mk { d with ty := .FUNCTION } kids)) := by
  rw [text, text, leaf_kids (by rw [hd]; decide), leaf_kids (d := { d with ty := .FUNCTION }) (by simp [withKids])]
  simp only [hd]
  cases textSep E fl b!"," true kids with
  | error e => rfl
  | ok x => rfl

/-- C88: a comment between `/*` and `*/` which has to be kept is read as the same comment. -/
theorem C88_comment (E : Env) (fl : Flags) (d : Data) (kids : List Tree) (hd : d.ty = .COMMENT) (hi : d.int = 1)
    (cs : List Nat) (hu : Utf8 cs d.str) (hv : ∀ c ∈ cs, Fair c ∧ c ≠ 12 ∧ c ≠ 13) (hp : b!"@preserve" <:+: d.str)
    (hstart : ¬ NextIs Blank cs) (hend : ∀ c t, cs = t ++ [c] → ¬ Blank c) (hc : ∀ a b, cs ≠ a ++ (42 :: 47 :: b)) :
    ∃ s, text E fl (.mk d kids) = .ok s ∧ ReadAs s .COMMENT d.str 1 [] := by
  refine ⟨b!"/* " ++ d.str ++ b!" */", by rw [text]; unfold leaf; rw [hd]; simp only [symbol, hi]; rfl, ?_⟩
  have hr : Reads (b!"/* " ++ cs ++ b!" */") { ty := .COMMENT, text := cs, int := 1 } [] := by
    refine .comment (body := 32 :: (cs ++ [32])) (left := cs ++ [32]) ⟨by simp, ?_, ?_⟩ ⟨[32], rfl, by simp [Blank], ?_⟩ ?_
      ⟨[32], rfl, by simp [Blank], hend⟩
    · intro a b h
      cases a with
      | nil => simp at h
      | cons x a =>
        injection h with _ h
        replace h : cs ++ [32] ++ [42] = a ++ (42 :: 47 :: b) := h
        rw [List.append_assoc] at h
        rcases List.append_eq_append_iff.1 h with ⟨m, h1, h2⟩ | ⟨m, h1, h2⟩
        · match m, h2 with
          | [], h2 => simp at h2
          | [_], h2 => simp at h2
          | _ :: _ :: m, h2 => simp at h2
        · match m, h2 with
          | [], h2 => simp at h2
          | [y], h2 => simp at h2
          | y :: z :: m, h2 =>
            simp only [List.cons_append, List.cons.injEq] at h2
            obtain ⟨rfl, rfl, _⟩ := h2
            exact hc a m h1
    · intro c hm
      simp only [List.mem_cons, List.mem_append, List.not_mem_nil, or_false] at hm
      rcases hm with rfl | hm | rfl
      · unfold Valid Scalar Nonchar; omega
      · exact (hv c hm).1.1
      · unfold Valid Scalar Nonchar; omega
    · rintro ⟨c, t, h, hb⟩
      cases cs with
      | nil =>
        have e : d.str = [] := utf8_unique hu .nil
        obtain ⟨a, b, h'⟩ := hp
        have := congrArg List.length h'
        rw [e] at this
        simp at this
      | cons x xs =>
        injection h with h _
        subst h
        exact hstart ⟨x, xs, rfl, hb⟩
    · obtain ⟨a, b, h⟩ := hp
      exact ⟨d.str ++ [32], utf8_append hu (utf8_ascii (s := [32]) (by decide)), a, b ++ [32], by rw [← h]; simp⟩
  refine ReadAs.of (l := { ty := .COMMENT, text := cs, int := 1 })
    (utf8_append (utf8_append (utf8_ascii (s := b!"/* ") (by decide)) hu) (utf8_ascii (s := b!" */") (by decide))) ?_ hr
    (by simp) hu
  intro c hm
  simp only [List.mem_cons, List.mem_append, List.not_mem_nil, or_false] at hm
  rcases hm with ((rfl | rfl | rfl) | hm) | rfl | rfl | rfl
  all_goals first
    | exact ⟨(hv c hm).1.1.2.2, (hv c hm).1.2, (hv c hm).2⟩
    | decide

/-- C88: the lines of a comment which starts with `//`: each of them has a `// ` in front and a line feed after; a line feed at
the end of the comment does not add a line. -/
theorem C88_lines (E : Env) (fl : Flags) (d : Data) (kids : List Tree) (hd : d.ty = .COMMENT) (hi : d.int = 0)
    (lines : List Str) (last : Str) (hl : ∀ l ∈ lines, 10 ∉ l) (h0 : 10 ∉ last)
    (hs : d.str = lines.flatMap (fun l => l ++ [10]) ++ last) :
    text E fl (.mk d kids) =
      .ok ((lines ++ (if last = [] then [] else [last])).flatMap (fun l => b!"// " ++ l ++ [10])) := by
  have one : ∀ (l cur rest : Str), 10 ∉ l →
      lineComment cur (l ++ 10 :: rest) = b!"// " ++ (cur ++ l) ++ [10] ++ lineComment [] rest := by
    intro l
    induction l with
    | nil => intro cur rest _; rw [List.nil_append, lineComment, if_pos rfl, List.append_nil]
    | cons c l ih =>
      intro cur rest h
      have h' : 10 ≠ c ∧ 10 ∉ l := by simpa using h
      rw [List.cons_append, lineComment, if_neg (fun e => h'.1 e.symm), ih _ _ h'.2]
      simp
  have fin : ∀ (l cur : Str), 10 ∉ l →
      lineComment cur l = if cur ++ l = [] then [] else b!"// " ++ (cur ++ l) ++ [10] := by
    intro l
    induction l with
    | nil => intro cur _; rw [lineComment, List.append_nil]
    | cons c l ih =>
      intro cur h
      have h' : 10 ≠ c ∧ 10 ∉ l := by simpa using h
      rw [lineComment, if_neg (fun e => h'.1 e.symm), ih _ h'.2]
      simp
  have all : ∀ ls : List Str, (∀ l ∈ ls, 10 ∉ l) → lineComment [] (ls.flatMap (fun l => l ++ [10]) ++ last) =
      (ls ++ (if last = [] then [] else [last])).flatMap (fun l => b!"// " ++ l ++ [10]) := by
    intro ls
    induction ls with
    | nil =>
      intro _
      rw [List.flatMap_nil, List.nil_append, fin last [] h0, List.nil_append, List.nil_append]
      by_cases h : last = []
      · rw [if_pos h, if_pos h]; rfl
      · rw [if_neg h, if_neg h]; simp
    | cons l ls ih =>
      intro h
      rw [List.flatMap_cons, List.append_assoc, List.append_assoc, List.singleton_append,
        one l [] _ (h l (List.mem_cons_self ..)), ih (fun x hx => h x (List.mem_cons_of_mem _ hx))]
      simp
  rw [text]
  unfold leaf
  rw [hd]
  simp only [symbol, hi]
  rw [if_pos trivial, hs, all lines hl]
  rfl

/-! ### Examples -/

example (E : Env) : text E {} (.leaf { ty := .VARIABLE, str := b!"my_size1" }) = .ok b!"$my_size1" := rfl
example : ∀ c ∈ b!"my_size1", (48 ≤ c ∧ c ≤ 57) ∨ (97 ≤ c ∧ c ≤ 122) ∨ c = 95 := by decide
example (E : Env) : text E {} (.leaf { ty := .PLACEHOLDER, str := b!"big" }) = .ok b!"%big" := rfl
example (E : Env) : text E {} (.leaf { ty := .COMMENT, int := 1, str := b!"@preserve me" }) = .ok b!"/* @preserve me */" := rfl
example (E : Env) : text E {} (.leaf { ty := .COMMENT, str := b!"a\nb" }) = .ok b!"// a\n// b\n" := rfl
example : b!"a\nb" = [b!"a"].flatMap (fun l => l ++ [10]) ++ b!"b" := rfl
example (E : Env) : text E {} (.mk { ty := .VARIABLE_FUNCTION, str := b!"f" } [.leaf { ty := .INTEGER, int := 1 },
    .leaf { ty := .INTEGER, int := 2 }]) = .ok b!"$f(1,2)" := rfl

end Csspp.Text
