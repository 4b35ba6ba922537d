import Verif.Model.ErrorMod

/-!
C17 and C18: error counters, what is printed, and the RAII objects.

Specification: with the flags fixed, a message counts as an error when it is an error, a fatal
error, or a warning while warnings count as errors; as a warning when it is a warning that is
neither counted as an error nor hidden; and it is printed according to `Shown`.
-/

namespace Csspp.Err

/-- Counts as an error. -/
def CountsError (wae : Bool) (m : Mode) : Bool :=
  m == .error || m == .fatal || (m == .warning && wae)

/-- Counts as a warning. -/
def CountsWarning (wae hide : Bool) (m : Mode) : Bool := m == .warning && !wae && !hide

/-- Is printed. Errors always are; the rest can be hidden; debug messages have to be asked for;
`dec` and `hex` only change the number base. -/
def Shown (wae hide dbg : Bool) (m : Mode) : Bool :=
  match m with
  | .error | .fatal => true
  | .warning => wae || !hide
  | .info => !hide
  | .debug => dbg && !hide
  | .dec | .hex => false

/-- C17: after any sequence of messages the counters and the printed messages are exactly those of
the specification; nothing else changes. -/
theorem C17_counts (s : St) (ms : List Mode) (he : s.errorCount < 4294967296)
    (hw : s.warningCount < 4294967296) :
    run s (ms.map .emit) =
      ({ s with
          errorCount := (s.errorCount + ms.countP (CountsError s.warningsAsErrors)) % 4294967296
          warningCount :=
            (s.warningCount + ms.countP (CountsWarning s.warningsAsErrors s.hideAll)) % 4294967296
          printed := s.printed ++
            (ms.filter (Shown s.warningsAsErrors s.hideAll s.showDebug)).map (s.stream, ·) },
        false) := by
  induction ms generalizing s with
  | nil =>
    simp only [List.map_nil, run, List.countP_nil, Nat.add_zero, Nat.mod_eq_of_lt he,
      Nat.mod_eq_of_lt hw, List.filter_nil, List.append_nil]
  | cons m ms ih =>
    rw [List.map_cons, run]
    simp only [run1]
    have hstep : (s.emit m).errorCount < 4294967296 ∧ (s.emit m).warningCount < 4294967296 := by
      cases m <;> simp only [St.emit, St.print, inc32] <;> (repeat' split) <;>
        first
        | exact ⟨he, hw⟩
        | exact ⟨Nat.mod_lt _ (by omega), hw⟩
        | exact ⟨he, Nat.mod_lt _ (by omega)⟩
    rw [ih _ hstep.1 hstep.2]
    rw [List.countP_cons, List.countP_cons, List.filter_cons]
    rcases s with ⟨st, ec, wc, wae, hide, dbg, pr, out⟩
    cases m <;> cases wae <;> cases hide <;> cases dbg <;>
      simp [St.emit, St.print, inc32, CountsError, CountsWarning, Shown] <;> omega

/-- C17: `error_happened_t` reports an error exactly when the number of errors since its
construction is not a multiple of 2^32 (and likewise for warnings). -/
theorem C17_error_happened (s : St) (ms : List Mode) (he : s.errorCount < 4294967296)
    (hw : s.warningCount < 4294967296) :
    ((Happened.ofSt s).error (run s (ms.map .emit)).1 = true ↔
      ¬ (4294967296 ∣ ms.countP (CountsError s.warningsAsErrors))) ∧
    ((Happened.ofSt s).warning (run s (ms.map .emit)).1 = true ↔
      ¬ (4294967296 ∣ ms.countP (CountsWarning s.warningsAsErrors s.hideAll))) := by
  rw [C17_counts s ms he hw]
  simp only [Happened.ofSt, Happened.error, Happened.warning, bne_iff_ne, ne_eq]
  constructor <;> omega

/-- C17: a safe_error_t block leaves both counters as they were, whatever the block does (messages,
explicit changes of the counters, nested blocks, exceptions), and a safe_error_stream_t block
restores the stream. -/
theorem C17_safe_error (s : St) (body : List Prog) (n : Nat) :
    (run1 s (.safeError body)).1.errorCount = s.errorCount ∧
    (run1 s (.safeError body)).1.warningCount = s.warningCount ∧
    (run1 s (.safeStream n body)).1.stream = s.stream := by
  simp [run1]

/-- Statements whose every change of the counters is inside a safe_error_t block. -/
inductive Guarded : Prog → Prop
  | safe (body) : Guarded (.safeError body)
  | hide (b) : Guarded (.setHideAll b)
  | debug (b) : Guarded (.setShowDebug b)
  | wae (b) : Guarded (.setWarningsAsErrors b)
  | info : Guarded (.emit .info)
  | prec (p) : Guarded (.setPrecision p)
  | throw_ : Guarded .throw_

/-- C17: a whole history of guarded statements, of any length, leaves the counters as they were. -/
theorem C17_guarded_history (s : St) (ps : List Prog) (h : ∀ p ∈ ps, Guarded p) :
    (run s ps).1.errorCount = s.errorCount ∧ (run s ps).1.warningCount = s.warningCount := by
  induction ps generalizing s with
  | nil => exact ⟨rfl, rfl⟩
  | cons p ps ih =>
    have h1 : (run1 s p).1.errorCount = s.errorCount ∧
        (run1 s p).1.warningCount = s.warningCount := by
      have := h p List.mem_cons_self
      cases this with
      | safe body => exact ⟨(C17_safe_error s body 0).1, (C17_safe_error s body 0).2.1⟩
      | info =>
        simp only [run1, St.emit, St.print]
        split <;> exact ⟨rfl, rfl⟩
      | prec p =>
        simp only [run1, St.setPrecision]
        split <;> exact ⟨rfl, rfl⟩
      | _ => exact ⟨rfl, rfl⟩
    rw [run]
    split
    · exact h1
    · have := ih (run1 s p).1 (fun q hq => h q (List.mem_cons_of_mem _ hq))
      rw [this.1, this.2]; exact h1

/-- C18: `set_precision` accepts exactly 0..10, stores it, and throws otherwise leaving everything
unchanged. -/
theorem C18_set_precision (s : St) (p : Int) :
    (0 ≤ p ∧ p ≤ 10 → run1 s (.setPrecision p) = ({ s with precision := p }, false)) ∧
    (¬ (0 ≤ p ∧ p ≤ 10) → run1 s (.setPrecision p) = (s, true)) := by
  constructor
  · intro h; simp only [run1, St.setPrecision]; rw [if_neg (by omega)]
  · intro h; simp only [run1, St.setPrecision]; rw [if_pos (by omega)]

mutual
/-- The precision is between 0 and 10 after any statement. -/
theorem run1_precision (s : St) (p : Prog) (h : 0 ≤ s.precision ∧ s.precision ≤ 10) :
    0 ≤ (run1 s p).1.precision ∧ (run1 s p).1.precision ≤ 10 := by
  match p with
  | .emit m =>
    simp only [run1]
    cases m <;> simp only [St.emit, St.print] <;> repeat' split
    all_goals exact h
  | .setWarningsAsErrors _ | .setHideAll _ | .setShowDebug _ | .setErrorCount _
  | .setWarningCount _ | .setStream _ | .throw_ => simpa only [run1] using h
  | .setPrecision p =>
    simp only [run1, St.setPrecision]
    split
    · exact h
    · dsimp only; omega
  | .safeError body =>
    simp only [run1]
    exact run_precision s body h
  | .safeStream n body =>
    simp only [run1]
    exact run_precision { s with stream := some n } body h
  | .safePrecision body =>
    simp only [run1, St.restorePrecision, St.setPrecision]
    rw [if_neg (by omega)]
    exact h
  | .safePrecisionTo p body =>
    simp only [run1, St.restorePrecision, St.setPrecision]
    by_cases hp : p < 0 ∨ p > 10
    · simp only [if_pos hp]; exact h
    · simp only [if_neg hp]
      rw [if_neg (by omega)]
      exact h
  | .try_ body =>
    simp only [run1]
    exact run_precision s body h
/-- The precision is between 0 and 10 after any block. -/
theorem run_precision (s : St) (ps : List Prog) (h : 0 ≤ s.precision ∧ s.precision ≤ 10) :
    0 ≤ (run s ps).1.precision ∧ (run s ps).1.precision ≤ 10 := by
  match ps with
  | [] => simpa only [run] using h
  | p :: ps =>
    simp only [run]
    have h1 := run1_precision s p h
    split
    · exact h1
    · exact run_precision _ ps h1
end

/-- C18: in every history (messages, settings, exceptions, nested blocks of any depth) starting
from the initial state the precision stays between 0 and 10. -/
theorem C18_precision_bounded (ps : List Prog) :
    0 ≤ (run {} ps).1.precision ∧ (run {} ps).1.precision ≤ 10 :=
  run_precision {} ps (by decide)

/-- C18: both forms of safe_precision_t restore the precision, whatever their block does, with or
without an exception, in every state a program can reach. -/
theorem C18_safe_precision (pre body : List Prog) (p : Int) :
    (run1 (run {} pre).1 (.safePrecision body)).1.precision = (run {} pre).1.precision ∧
    (run1 (run {} pre).1 (.safePrecisionTo p body)).1.precision = (run {} pre).1.precision := by
  have h := C18_precision_bounded pre
  generalize (run {} pre).1 = s at *
  constructor
  · simp only [run1, St.restorePrecision, St.setPrecision]
    rw [if_neg (by omega)]
  · simp only [run1, St.restorePrecision, St.setPrecision]
    by_cases hp : p < 0 ∨ p > 10
    · simp only [if_pos hp]
    · simp only [if_neg hp]
      rw [if_neg (by omega)]

example : (run {} [.safeError [.emit .error, .safePrecisionTo 7 [.emit .warning, .throw_]],
    .emit .error]).1 = { printed := [(none, .error), (none, .warning)] } := by decide
example : (run {} [.emit .error, .setHideAll true, .emit .warning, .emit .info]).1.errorCount = 1 := by
  decide
example : (run {} [.setPrecision 7]).1.precision = 7 := by decide
example : (run {} [.setPrecision 11]).2 = true := by decide
example : Guarded (.safeError [.emit .fatal]) := .safe _

end Csspp.Err
