import Verif.Model.Dates
import Verif.Props.CompilerState

/-!
C86: the variables of the date and of the time.
-/

namespace Csspp.Comp
open Csspp.Node

/-! ### Specification -/

/-- The two digits of a number. -/
def Two (n : Nat) (s : Str) : Prop := ∃ a b, a < 10 ∧ b < 10 ∧ n = 10 * a + b ∧ s = [48 + a, 48 + b]
/-- The four digits of a number. -/
def Four (n : Int) (s : Str) : Prop :=
  ∃ a b c d : Nat, a < 10 ∧ b < 10 ∧ c < 10 ∧ d < 10 ∧ n = 1000 * a + 100 * b + 10 * c + d ∧ s = [48 + a, 48 + b, 48 + c, 48 + d]

/-- What a variable holds at a date. -/
inductive Says (t : Tm) : Str → Str → Prop where
  | usdate {m d y : Str} : Two t.mon m → Two t.mday d → Four t.year y → Says t b!"_csspp_usdate" (m ++ b!"/" ++ d ++ b!"/" ++ y)
  | month {s : Str} : Two t.mon s → Says t b!"_csspp_month" s
  | day {s : Str} : Two t.mday s → Says t b!"_csspp_day" s
  | year {s : Str} : Four t.year s → Says t b!"_csspp_year" s
  | time {a b c : Str} : Two t.hour a → Two t.min b → Two t.sec c → Says t b!"_csspp_time" (a ++ b!":" ++ b ++ b!":" ++ c)
  | hour {s : Str} : Two t.hour s → Says t b!"_csspp_hour" s
  | minute {s : Str} : Two t.min s → Says t b!"_csspp_minute" s
  | second {s : Str} : Two t.sec s → Says t b!"_csspp_second" s

/-- The names. -/
def dateNames : List Str := [b!"_csspp_usdate", b!"_csspp_month", b!"_csspp_day", b!"_csspp_year", b!"_csspp_time",
  b!"_csspp_hour", b!"_csspp_minute", b!"_csspp_second"]

/-- A date in our era (gmtime_r() never gives anything else for these years). -/
def Dated (t : Tm) : Prop := t.mon < 100 ∧ t.mday < 100 ∧ t.hour < 100 ∧ t.min < 100 ∧ t.sec < 100

/-- `v` is what set_variable() saves for a string: a list with the variable and the string. -/
def Shows (h : Heap) (v : Ref) (name text : Str) : Prop :=
  ∃ a b p q r, shape h v = some (.LIST, false, p, [], [a, b]) ∧ shape h a = some (.VARIABLE, false, q, name, []) ∧
    shape h b = some (.STRING, false, r, text, [])

/-! ### The proof -/

theorem shape_lt {h : Heap} {r : Ref} {x : NT × Bool × Lex.Pos × Str × List Ref} (e : shape h r = some x) : r < h.length := by
  unfold shape at e
  by_cases hr : r < h.length
  · exact hr
  · rw [List.getElem?_eq_none (Nat.not_lt.1 hr)] at e
    cases e

theorem Shows.mono {h h' : Heap} {v : Ref} {name text : Str} (hs : Shows h v name text)
    (he : ∀ r < h.length, shape h' r = shape h r) : Shows h' v name text := by
  obtain ⟨a, b, p, q, r, h1, h2, h3⟩ := hs
  exact ⟨a, b, p, q, r, by rw [he _ (shape_lt h1), h1], by rw [he _ (shape_lt h2), h2], by rw [he _ (shape_lt h3), h3]⟩

theorem addVariable_effect {h : Heap} {s : State} (hr : s.root < h.length) (pos : Lex.Pos) (name text : Str) :
    ∃ h', addVariable h s pos name text = .ok h' ∧ h.length ≤ h'.length ∧
      (∃ v, varOf h' s.root name = some v ∧ Shows h' v name text) ∧
      (∀ r m, r < h.length → ¬ (r = s.root ∧ m = name) → varOf h' r m = varOf h r m) ∧
      ∀ r < h.length, shape h' r = shape h r := by
  unfold addVariable
  generalize hg : h ++ [({ ty := .VARIABLE, pos := pos, str := name } : Node), { ty := .STRING, pos := pos, str := text }] = g
  have hlen : g.length = h.length + 2 := by rw [← hg]; simp
  have hold : ∀ r, r < h.length → g[r]? = h[r]? := by
    intro r hr
    rw [← hg, List.getElem?_append_left hr]
  have hn : g[h.length]? = some { ty := .VARIABLE, pos := pos, str := name } := by
    rw [← hg, List.getElem?_append_right (Nat.le_refl _)]
    simp
  have hv : g[h.length + 1]? = some { ty := .STRING, pos := pos, str := text } := by
    rw [← hg, List.getElem?_append_right (by omega)]
    simp
  have hok := setVariable_eq (s := s) (g := true) hn hv (by rfl)
  obtain ⟨n, v, e1, e2, e3, e4, e5, e6, e7, e8, e9⟩ := setVariable_effect hok (by rw [hlen]; exact Nat.lt_add_right 2 hr)
  rw [hn] at e1
  rw [hv] at e2
  injection e1 with e1
  injection e2 with e2
  subst e1 e2
  generalize (g ++ [entry _ _ _]).modify _ _ = h' at *
  refine ⟨h', hok, by omega, ⟨g.length, e7, ?_⟩, ?_, ?_⟩
  · refine ⟨h.length, h.length + 1, pos, pos, pos, ?_, ?_, ?_⟩
    · rw [e4]
      rfl
    · rw [e6 _ (by omega)]
      unfold shape
      rw [hn]
      rfl
    · rw [e6 _ (by omega)]
      unfold shape
      rw [hv]
      rfl
  · intro r m hr' hne
    rw [e8 r m (by exact hne)]
    unfold varOf
    rw [hold r hr']
  · intro r hr'
    rw [e6 r (by rw [hlen]; exact Nat.lt_add_right 2 hr')]
    unfold shape
    rw [hold r hr']

theorem addSlices_effect (s : State) (pos : Lex.Pos) (buf : Str) : ∀ (l : List (Str × Nat × Nat)) (h : Heap),
    s.root < h.length → (l.map (·.1)).Nodup → (∀ p ∈ l, p.2.1 + p.2.2 ≤ buf.length) →
    ∃ h', addSlices s pos buf l h = .ok h' ∧ h.length ≤ h'.length ∧
      (∀ p ∈ l, ∃ v, varOf h' s.root p.1 = some v ∧ Shows h' v p.1 ((buf.drop p.2.1).take p.2.2)) ∧
      (∀ r m, r < h.length → ¬ (r = s.root ∧ m ∈ l.map (·.1)) → varOf h' r m = varOf h r m) ∧
      ∀ r < h.length, shape h' r = shape h r
  | [], h, _, _, _ => ⟨h, rfl, Nat.le_refl _, (by intro p hp; cases hp), fun _ _ _ _ => rfl, fun _ _ => rfl⟩
  | (name, at', n) :: l, h, hr, hd, hb => by
    have h0 := hb _ (List.mem_cons_self ..)
    dsimp only at h0
    obtain ⟨h1, e1, e2, ⟨v, e3, e4⟩, e5, e6⟩ := addVariable_effect hr pos name ((buf.drop at').take n)
    rw [List.map_cons, List.nodup_cons] at hd
    obtain ⟨h2, g1, g2, g3, g4, g5⟩ := addSlices_effect s pos buf l h1 (Nat.lt_of_lt_of_le hr e2) hd.2
      (fun p hp => hb p (List.mem_cons_of_mem _ hp))
    refine ⟨h2, ?_, by omega, ?_, ?_, ?_⟩
    · unfold addSlices slice
      rw [if_pos h0]
      dsimp only
      rw [e1]
      exact g1
    · intro p hp
      rcases List.mem_cons.1 hp with rfl | hp
      · refine ⟨v, ?_, e4.mono g5⟩
        rw [g4 _ _ (Nat.lt_of_lt_of_le hr e2) (fun h => hd.1 h.2), e3]
      · exact g3 p hp
    · intro r m hr' hne
      rw [g4 r m (Nat.lt_of_lt_of_le hr' e2) (fun h => hne ⟨h.1, List.mem_cons_of_mem _ h.2⟩),
        e5 r m hr' (fun h => hne ⟨h.1, h.2 ▸ List.mem_cons_self ..⟩)]
    · intro r hr'
      rw [g5 r (Nat.lt_of_lt_of_le hr' e2), e6 r hr']

theorem two_twoDigits {n : Nat} {s : Str} (h : Two n s) : s = twoDigits n := by
  obtain ⟨a, b, ha, hb, rfl, rfl⟩ := h
  unfold twoDigits
  rw [show (10 * a + b) / 10 = a by omega, show (10 * a + b) % 10 = b by omega]

theorem natDigits_four (a b c d : Nat) (ha : 0 < a) (ha' : a < 10) (hb : b < 10) (hc : c < 10) (hd : d < 10) :
    natDigits (1000 * a + 100 * b + 10 * c + d) = [48 + a, 48 + b, 48 + c, 48 + d] := by
  generalize hn : 1000 * a + 100 * b + 10 * c + d = n
  obtain ⟨k, rfl⟩ : ∃ k, n = k + 3 := ⟨n - 3, by omega⟩
  unfold natDigits
  rw [natDigitsAux, if_neg (by omega), natDigitsAux, if_neg (by omega), natDigitsAux, if_neg (by omega), natDigitsAux,
    if_pos (by omega)]
  rw [show (k + 3) / 10 / 10 / 10 = a by omega, show (k + 3) / 10 / 10 % 10 = b by omega, show (k + 3) / 10 % 10 = c by omega,
    show (k + 3) % 10 = d by omega]

theorem four_digits {n : Int} {s : Str} (h : Four n s) (hn : 1000 ≤ n) : s = intDigits n ∧ s.length = 4 := by
  obtain ⟨a, b, c, d, ha, hb, hc, hd, rfl, rfl⟩ := h
  refine ⟨?_, rfl⟩
  unfold intDigits
  rw [if_neg (by omega)]
  rw [show (1000 * (a : Int) + 100 * b + 10 * c + d).natAbs = 1000 * a + 100 * b + 10 * c + d by omega]
  rw [natDigits_four a b c d (by omega) ha hb hc hd]

theorem exists_four {n : Int} (h0 : 0 ≤ n) (h1 : n ≤ 9999) : ∃ s, Four n s := by
  obtain ⟨k, rfl⟩ : ∃ k : Nat, n = k := ⟨n.toNat, by omega⟩
  exact ⟨_, k / 1000, k / 100 % 10, k / 10 % 10, k % 10, by omega, by omega, by omega, by omega, by omega, rfl⟩

theorem exists_two {n : Nat} (h : n < 100) : ∃ s, Two n s := ⟨_, n / 10, n % 10, by omega, by omega, by omega, rfl⟩

/-- C86: for a date of the years 1000 to 9999 the eight variables are set in the root: `_csspp_usdate` is month/day/year,
`_csspp_time` is hour:minute:second and the six other ones are the parts. Nothing else changes. -/
theorem C86_date (h : Heap) (s : State) (hr : s.root < h.length) (t : Tm) (h1 : 1000 ≤ t.year) (h2 : t.year ≤ 9999) :
    ∃ h', setDateTime h s t = .ok h' ∧
      (∀ name text, Says t name text → ∃ v, getVariable h' s name true = some v ∧ Shows h' v name text) ∧
      (∀ r m, r < h.length → ¬ (r = s.root ∧ m ∈ dateNames) → varOf h' r m = varOf h r m) ∧
      ∀ r < h.length, shape h' r = shape h r := by
  obtain ⟨y, hy⟩ := exists_four (by omega) h2
  obtain ⟨y1, y2⟩ := four_digits hy h1
  have hlen : (dateText t).length = 18 := by
    unfold dateText
    rw [← y1]
    simp [twoDigits, y2]
  unfold setDateTime
  rw [List.getElem?_eq_getElem hr]
  dsimp only
  unfold dateBuf
  rw [if_pos (by omega)]
  dsimp only
  obtain ⟨h', g1, g2, g3, g4, g5⟩ := addSlices_effect s (h[s.root]).pos (dateText t ++ [0]) dateSlices h hr (by decide) (by
    intro p hp
    have := (show ∀ p ∈ dateSlices, p.2.1 + p.2.2 ≤ 19 by decide) p hp
    rw [List.length_append, hlen]
    exact this)
  refine ⟨h', g1, ?_, fun r m hr' hne => g4 r m hr' hne, g5⟩
  have key : ∀ (name : Str) (at' n : Nat) (text : Str), (name, at', n) ∈ dateSlices →
      ((dateText t ++ [0]).drop at').take n = text →
      ∃ v, getVariable h' s name true = some v ∧ Shows h' v name text := by
    intro name at' n text hm he
    obtain ⟨v, e1, e2⟩ := g3 _ hm
    exact ⟨v, e1, he ▸ e2⟩
  obtain ⟨a, b, c, d, rfl⟩ : ∃ a b c d, y = [a, b, c, d] := by
    obtain ⟨a, b, c, d, _, _, _, _, _, rfl⟩ := hy
    exact ⟨_, _, _, _, rfl⟩
  have hText : dateText t = twoDigits t.mon ++ 47 :: (twoDigits t.mday ++ 47 :: ([a, b, c, d] ++
    (twoDigits t.hour ++ 58 :: (twoDigits t.min ++ 58 :: twoDigits t.sec)))) := by
    unfold dateText
    rw [← y1]
  rw [hText] at key
  have hfour : ∀ s, Four t.year s → s = [a, b, c, d] := by
    intro s hs
    rw [(four_digits hs h1).1, y1]
  intro name text hs
  cases hs with
  | usdate hm hd' hy' =>
    rw [two_twoDigits hm, two_twoDigits hd', hfour _ hy']
    exact key _ 0 10 _ (by decide) rfl
  | month hm => rw [two_twoDigits hm]; exact key _ 0 2 _ (by decide) rfl
  | day hm => rw [two_twoDigits hm]; exact key _ 3 2 _ (by decide) rfl
  | year hy' => rw [hfour _ hy']; exact key _ 6 4 _ (by decide) rfl
  | time ha hb hc =>
    rw [two_twoDigits ha, two_twoDigits hb, two_twoDigits hc]
    exact key _ 10 8 _ (by decide) rfl
  | hour hm => rw [two_twoDigits hm]; exact key _ 10 2 _ (by decide) rfl
  | minute hm => rw [two_twoDigits hm]; exact key _ 13 2 _ (by decide) rfl
  | second hm => rw [two_twoDigits hm]; exact key _ 16 2 _ (by decide) rfl

/-- C86: every one of the eight variables has a value. -/
theorem C86_all (t : Tm) (ht : Dated t) (h1 : 1000 ≤ t.year) (h2 : t.year ≤ 9999) (name : Str) (hn : name ∈ dateNames) :
    ∃ text, Says t name text := by
  obtain ⟨h3, h4, h5, h6, h7⟩ := ht
  obtain ⟨a, ha⟩ := exists_two h3
  obtain ⟨b, hb⟩ := exists_two h4
  obtain ⟨c, hc⟩ := exists_two h5
  obtain ⟨d, hd⟩ := exists_two h6
  obtain ⟨e, he⟩ := exists_two h7
  obtain ⟨y, hy⟩ := exists_four (by omega) h2
  simp only [dateNames, List.mem_cons, List.not_mem_nil, or_false] at hn
  rcases hn with rfl | rfl | rfl | rfl | rfl | rfl | rfl | rfl
  · exact ⟨_, .usdate ha hb hy⟩
  · exact ⟨_, .month ha⟩
  · exact ⟨_, .day hb⟩
  · exact ⟨_, .year hy⟩
  · exact ⟨_, .time hc hd he⟩
  · exact ⟨_, .hour hc⟩
  · exact ⟨_, .minute hd⟩
  · exact ⟨_, .second he⟩

/-- C86: known defect: a year with five digits is cut after its fourth digit and shifts the time, and with a longer one the
bytes of a buffer that was not written are read. -/
theorem C86_late (h : Heap) (s : State) (hr : s.root < h.length) (t : Tm) :
    (∀ a b c d e : Nat, intDigits t.year = [a, b, c, d, e] → ∃ h', setDateTime h s t = .ok h' ∧
      (∃ v, getVariable h' s b!"_csspp_year" true = some v ∧ Shows h' v b!"_csspp_year" [a, b, c, d]) ∧
      ∃ v, getVariable h' s b!"_csspp_hour" true = some v ∧ Shows h' v b!"_csspp_hour" [e, 48 + t.hour / 10]) ∧
    (6 ≤ (intDigits t.year).length → setDateTime h s t = .undef) := by
  constructor
  · intro a b c d e hy
    have hText : dateText t = twoDigits t.mon ++ 47 :: (twoDigits t.mday ++ 47 :: ([a, b, c, d, e] ++
      (twoDigits t.hour ++ 58 :: (twoDigits t.min ++ 58 :: twoDigits t.sec)))) := by
      unfold dateText
      rw [← hy]
    have hlen : (dateText t).length = 19 := by rw [hText]; simp [twoDigits]
    unfold setDateTime
    rw [List.getElem?_eq_getElem hr]
    dsimp only
    unfold dateBuf
    rw [if_pos (by omega)]
    dsimp only
    obtain ⟨h', g1, g2, g3, g4, g5⟩ := addSlices_effect s (h[s.root]).pos (dateText t ++ [0]) dateSlices h hr (by decide) (by
      intro p hp
      have := (show ∀ p ∈ dateSlices, p.2.1 + p.2.2 ≤ 20 by decide) p hp
      rw [List.length_append, hlen]
      exact this)
    refine ⟨h', g1, ?_, ?_⟩
    · obtain ⟨v, e1, e2⟩ := g3 (b!"_csspp_year", 6, 4) (by decide)
      rw [hText] at e2
      exact ⟨v, e1, e2⟩
    · obtain ⟨v, e1, e2⟩ := g3 (b!"_csspp_hour", 10, 2) (by decide)
      rw [hText] at e2
      exact ⟨v, e1, e2⟩
  · intro hy
    unfold setDateTime
    rw [List.getElem?_eq_getElem hr]
    dsimp only
    unfold dateBuf
    rw [if_neg]
    unfold dateText
    simp [twoDigits]
    omega

/-- C86: without a root, the call is refused. -/
theorem C86_no_root (h : Heap) (s : State) (hr : h.length ≤ s.root) (t : Tm) : setDateTime h s t = .throws := by
  unfold setDateTime
  rw [List.getElem?_eq_none hr]

/-! ### Examples -/

/-- February 1st, 2026 at 13:05:59. -/
def sampleTm : Tm := ⟨2026, 2, 1, 13, 5, 59⟩

example : Says sampleTm b!"_csspp_usdate" b!"02/01/2026" :=
  .usdate (m := b!"02") (d := b!"01") (y := b!"2026") ⟨0, 2, by decide⟩ ⟨0, 1, by decide⟩ ⟨2, 0, 2, 6, by decide⟩
example : Says sampleTm b!"_csspp_time" b!"13:05:59" :=
  .time (a := b!"13") (b := b!"05") (c := b!"59") ⟨1, 3, by decide⟩ ⟨0, 5, by decide⟩ ⟨5, 9, by decide⟩
example : ∃ h', setDateTime [{ ty := .LIST, pos := ⟨1, 1, 1⟩ }] { root := 0 } sampleTm = .ok h' :=
  let ⟨h', e, _⟩ := C86_date [{ ty := .LIST, pos := ⟨1, 1, 1⟩ }] { root := 0 } (by decide) sampleTm (by decide) (by decide)
  ⟨h', e⟩
example : intDigits 12345 = b!"12345" := by decide +kernel

end Csspp.Comp
