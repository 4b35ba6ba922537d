import Verif.Model.Basic

/-!
Model of csspp/error.cpp / error.h (counters, modes, RAII objects) and of the precision variable
of csspp.cpp:62-84 with its RAII object (csspp.h.in:93-120).

The text of the messages is not modelled: a message is its mode. `f_error` (the stream) is a
stream number, `none` being the null pointer of error.h:82.
-/

namespace Csspp.Err

/-- error.h:32-41. -/
inductive Mode where
  | debug | dec | error | fatal | hex | info | warning
  deriving DecidableEq, Repr

/-- error.h:80-88 (without the message under construction), and `g_precision` of csspp.cpp:62.
`printed` is the list of messages written so far, oldest first, with the stream written to
(`none` is std::cerr). -/
structure St where
  stream : Option Nat := none
  errorCount : Nat := 0
  warningCount : Nat := 0
  warningsAsErrors : Bool := false
  hideAll : Bool := false
  showDebug : Bool := false
  precision : Int := 3
  printed : List (Option Nat × Mode) := []
  deriving DecidableEq, Repr

/-- `++` on an error_count_t (uint32_t, error.h:43). -/
def inc32 (n : Nat) : Nat := (1 + n) % 4294967296

/-- error.cpp:190-208, the `print_error` label. -/
def St.print (s : St) (m : Mode) : St := { s with printed := s.printed ++ [(s.stream, m)] }

/-- error.cpp:146-218 `operator << (error_mode_t)`. -/
def St.emit (s : St) (m : Mode) : St :=
  match m with
  | .dec => s
  | .fatal => ({ s with errorCount := inc32 s.errorCount }).print .fatal
  | .error => ({ s with errorCount := inc32 s.errorCount }).print .error
  | .warning =>
    if s.warningsAsErrors then ({ s with errorCount := inc32 s.errorCount }).print .warning
    else if s.hideAll then s
    else ({ s with warningCount := inc32 s.warningCount }).print .warning
  | .debug =>
    if !s.showDebug then s
    else if s.hideAll then s
    else s.print .debug
  | .info => if s.hideAll then s else s.print .info
  | .hex => s

/-- csspp.cpp:76-84 `set_precision`: the state after the call, and whether it threw. -/
def St.setPrecision (s : St) (p : Int) : St × Bool :=
  if p < 0 ∨ p > 10 then (s, true) else ({ s with precision := p }, false)

/-- A program using the error and precision API. Blocks are C++ scopes in which an RAII object is
alive; `throw_` is any exception; a block is left by falling off its end or by an exception. -/
inductive Prog where
  | emit (m : Mode)
  | setWarningsAsErrors (b : Bool)          -- error.cpp:100-103
  | setHideAll (b : Bool)                   -- error.cpp:125-128
  | setShowDebug (b : Bool)                 -- error.cpp:130-133
  | setErrorCount (n : Nat)                 -- error.cpp:110-113
  | setWarningCount (n : Nat)               -- error.cpp:120-123
  | setStream (n : Nat)                     -- error.cpp:95-98
  | setPrecision (p : Int)                  -- csspp.cpp:76-84
  | throw_
  | safeError (body : List Prog)            -- safe_error_t, error.cpp:257-267
  | safeStream (n : Nat) (body : List Prog) -- safe_error_stream_t, error.cpp:269-278
  | safePrecision (body : List Prog)        -- safe_precision_t(), csspp.h.in:96-99
  | safePrecisionTo (p : Int) (body : List Prog) -- safe_precision_t(int), csspp.h.in:101-105
  | try_ (body : List Prog)                 -- try { body } catch(...) {}

/-- csspp.h.in:107-116, the destructor of safe_precision_t: the exception is swallowed. -/
def St.restorePrecision (s : St) (p : Int) : St := (s.setPrecision p).1

mutual
/-- One statement: the state after it and whether it ended with an exception. -/
def run1 (s : St) : Prog → St × Bool
  | .emit m => (s.emit m, false)
  | .setWarningsAsErrors b => ({ s with warningsAsErrors := b }, false)
  | .setHideAll b => ({ s with hideAll := b }, false)
  | .setShowDebug b => ({ s with showDebug := b }, false)
  | .setErrorCount n => ({ s with errorCount := n % 4294967296 }, false)
  | .setWarningCount n => ({ s with warningCount := n % 4294967296 }, false)
  | .setStream n => ({ s with stream := some n }, false)
  | .setPrecision p => s.setPrecision p
  | .throw_ => (s, true)
  | .safeError body =>
    let r := run s body
    ({ r.1 with errorCount := s.errorCount, warningCount := s.warningCount }, r.2)
  | .safeStream n body =>
    let r := run { s with stream := some n } body
    ({ r.1 with stream := s.stream }, r.2)
  | .safePrecision body =>
    let r := run s body
    (r.1.restorePrecision s.precision, r.2)
  | .safePrecisionTo p body =>
    -- when the constructor throws, the destructor does not run
    let c := s.setPrecision p
    match c.2 with
    | true => c
    | false =>
      let r := run c.1 body
      (r.1.restorePrecision s.precision, r.2)
  | .try_ body => ((run s body).1, false)
/-- A block: statements run in order until one throws. -/
def run (s : St) : List Prog → St × Bool
  | [] => (s, false)
  | p :: ps =>
    let r := run1 s p
    match r.2 with
    | true => r
    | false => run r.1 ps
end

/-- error.cpp:280-294: error_happened_t remembers the counters. -/
structure Happened where
  errorCount : Nat
  warningCount : Nat

/-- error.cpp:280-284. -/
def Happened.ofSt (s : St) : Happened := ⟨s.errorCount, s.warningCount⟩
/-- error.cpp:286-289. -/
def Happened.error (h : Happened) (s : St) : Bool := h.errorCount != s.errorCount
/-- error.cpp:291-294. -/
def Happened.warning (h : Happened) (s : St) : Bool := h.warningCount != s.warningCount

end Csspp.Err
