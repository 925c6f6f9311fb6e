import Verif.Basic
import Verif.Spec.Numeral
import Mathlib.Logic.Function.Basic
/-
Model of error handling (/repo/src/c4/error.hpp, /repo/src/c4/error.cpp): the settings, `handle_error`, `handle_warning`, `ScopedErrorSettings` and
`is_debugger_attached` on Linux.
-/
namespace C4.Err

/-- `ErrorFlags_e` (/repo/src/c4/error.hpp:110-128), as bits. -/
def ON_ERROR_DEBUGBREAK : Nat := 1
def ON_ERROR_LOG : Nat := 2
def ON_ERROR_CALLBACK : Nat := 4
def ON_ERROR_ABORT : Nat := 8
def ON_ERROR_THROW : Nat := 16
def ON_ERROR_DEFAULTS : Nat := ON_ERROR_DEBUGBREAK ||| ON_ERROR_LOG ||| ON_ERROR_CALLBACK ||| ON_ERROR_ABORT

/-- `s_error_flags` and `s_error_callback` (/repo/src/c4/error.cpp:48-49); the callback is a name for a function, `none` for the null pointer. -/
structure Settings where
  flags : Nat
  callback : Option Nat
deriving DecidableEq, Repr

/-- What a callback does with the message it gets: it leaves new settings, and may leave by an exception. -/
abbrev Callback := List Nat → Settings → Settings × Bool

/-- What is seen from outside: characters on stderr, and calls of callbacks (the characters pointed to, up to the given size, whether a zero follows, the size). -/
inductive Event
  | log (text : List Nat)
  | call (callback : Nat) (msg : List Nat) (terminated : Bool) (size : Nat)
deriving DecidableEq, Repr

/-- How control leaves `handle_error`. -/
inductive Exit
  | aborted
  | threw (what : List Nat)
  | callbackThrew
deriving DecidableEq, Repr

/-- `srcloc` and the macros that say what of it is shown (/repo/src/c4/error.hpp:199-226); `line` is an `int`, but comes from __LINE__. -/
inductive Where
  | nothing
  | fileLine (file : List Nat) (line : Nat)
  | fileLineFunc (file func : List Nat) (line : Nat)
deriving DecidableEq, Repr

/-- `vsnprintf(buf, 1024, fmt, args)` into an uninitialised array (C standard, 7.21.6.12; trusted): `text` is the formatted text, `none` for an encoding error, after
which the contents of the array are not specified.  `none` in the array: not initialised. -/
def vsnprintf (text : Option (List Nat)) : Int × List (Option Nat) :=
  match text with
  | none => (-1, List.replicate 1024 none)
  | some t => (t.length, (t.take 1023).map some ++ some 0 :: List.replicate (1023 - (t.take 1023).length) none)

/-- The string at the start of an array, as `%s` and `std::runtime_error(const char*)` read it: an uninitialised character or a missing terminator is undefined. -/
def cstring : List (Option Nat) → Res (List Nat)
  | [] => .ub
  | none :: _ => .ub
  | some c :: r => if c = 0 then .ok [] else do .ok (c :: (← cstring r))

/-- The first `n` characters of an array, as a callback reads them. -/
def chars : Nat → List (Option Nat) → Res (List Nat)
  | 0, _ => .ok []
  | _ + 1, [] => .ub
  | _ + 1, none :: _ => .ub
  | n + 1, some c :: r => do .ok (c :: (← chars n r))

/-- What is logged for an error or warning (/repo/src/c4/error.cpp:87-97, 134-142): `kind` is "ERROR", or "WARNING" with `sep` between it and "here". -/
def logText (kind sep : List Nat) (loc : Where) (msg : List Nat) : List Nat :=
  match loc with
  | .fileLineFunc file func line =>
    [10] ++ file ++ [58] ++ Spec.numeralText 10 line ++ S ": " ++ kind ++ S ": " ++ msg ++ [10] ++
      file ++ [58] ++ Spec.numeralText 10 line ++ S ": " ++ kind ++ sep ++ S " here: " ++ func ++ [10]
  | .fileLine file line => [10] ++ file ++ [58] ++ Spec.numeralText 10 line ++ S ": " ++ kind ++ S ": " ++ msg ++ [10]
  | .nothing => [10] ++ kind ++ S ": " ++ msg ++ [10]

/-- The place that is shown. -/
def Where.place : Where → Option (List Nat × Nat)
  | .nothing => none
  | .fileLine file line => some (file, line)
  | .fileLineFunc file _ line => some (file, line)

/-- `s_error_flags & bits`. -/
def has (s : Settings) (bits : Nat) : Bool := s.flags &&& bits ≠ 0

/-- `handle_error(where, fmt, ...)` (/repo/src/c4/error.cpp:74-121).  `text` is the formatted message; `throws` says whether C4_EXCEPTIONS_ENABLED and
C4_ERROR_THROWS_EXCEPTION are defined; `cbs` are the functions the callbacks are names of. -/
def handleError (throws : Bool) (cbs : Nat → Callback) (loc : Where) (text : Option (List Nat)) (s : Settings) : Res (List Event × Settings × Exit) := do
  let (ilen, buf) := if has s (ON_ERROR_LOG ||| ON_ERROR_CALLBACK) then vsnprintf text else (0, List.replicate 1024 none)
  let msglen : Nat := if 0 ≤ ilen ∧ ilen < 1024 then ilen.toNat else 1023
  let log ← if has s ON_ERROR_LOG then do .ok [Event.log (logText (S "ERROR") [] loc (← cstring buf))] else .ok []
  let (call, s, left) ← match has s ON_ERROR_CALLBACK, s.callback with
    | true, some cb => do
      let msg ← chars msglen buf
      let (s, left) := cbs cb msg s
      .ok ([Event.call cb msg (buf[msglen]? = some (some 0)) msglen], s, left)
    | _, _ => .ok ([], s, false)
  if left then .ok (log ++ call, s, .callbackThrew)
  else if has s ON_ERROR_THROW && throws then do .ok (log ++ call, s, .threw (← cstring buf))
  else if has s ON_ERROR_ABORT then .ok (log ++ call, s, .aborted)
  else .ok (log ++ call, s, .aborted)

/-- `handle_warning(where, fmt, ...)` (/repo/src/c4/error.cpp:125-143). -/
def handleWarning (loc : Where) (text : Option (List Nat)) : Res (List Event) := do
  let (_, buf) := vsnprintf text
  .ok [.log (logText (S "WARNING") (S ":") loc (← cstring buf))]

/-- Statements about the settings: the setters (/repo/src/c4/error.cpp:54-70), and the constructors, the implicit copy constructor and the destructor of
`ScopedErrorSettings` (/repo/src/c4/error.hpp:142-173) for the object `obj`. -/
inductive Op
  | setFlags (flags : Nat)
  | setCallback (cb : Option Nat)
  | scopeCallback (obj : Nat) (cb : Option Nat)
  | scopeFlags (obj : Nat) (flags : Nat)
  | scopeBoth (obj : Nat) (flags : Nat) (cb : Option Nat)
  | copy (obj src : Nat)
  | destroy (obj : Nat)
deriving DecidableEq, Repr

/-- The settings, and the members `m_flags` and `m_callback` of the objects alive. -/
structure State where
  now : Settings
  saved : Nat → Option Settings

/-- One statement; using an object that is not alive is undefined, as is constructing one over another that is. -/
def step (st : State) : Op → Res State
  | .setFlags f => .ok { st with now := { st.now with flags := f } }
  | .setCallback cb => .ok { st with now := { st.now with callback := cb } }
  | .scopeCallback o cb =>
    if (st.saved o).isSome then .ub else .ok ⟨{ st.now with callback := cb }, Function.update st.saved o (some st.now)⟩
  | .scopeFlags o f =>
    if (st.saved o).isSome then .ub else .ok ⟨{ st.now with flags := f }, Function.update st.saved o (some st.now)⟩
  | .scopeBoth o f cb =>
    if (st.saved o).isSome then .ub else .ok ⟨⟨f, cb⟩, Function.update st.saved o (some st.now)⟩
  | .copy o src =>
    match st.saved src with
    | none => .ub
    | some v => if (st.saved o).isSome then .ub else .ok { st with saved := Function.update st.saved o (some v) }
  | .destroy o =>
    match st.saved o with
    | none => .ub
    | some v => .ok ⟨v, Function.update st.saved o none⟩

/-- A sequence of statements. -/
def run : List Op → State → Res State
  | [], st => .ok st
  | op :: ops, st => do run ops (← step st op)

/-- `strstr(buf, pat)`: the position of `pat` in the string at the start of the array.  The standard asks for a terminated string; this reads it from left to right as far as needed only,
and is undefined if it comes to the end of the array. -/
def strstr (pat : List Nat) : List Nat → Nat → Res (Option Nat)
  | [], _ => .ub
  | c :: r, pos =>
    if pat <+: c :: r then .ok (some pos)
    else if c = 0 then .ok none
    else strstr pat r (pos + 1)

/-- The digits `atoi` of the C library reads; coming to the end of the array is undefined. -/
def atoiDigits : List Nat → Nat → Res Nat
  | [], _ => .ub
  | c :: r, n => if 48 ≤ c ∧ c ≤ 57 then atoiDigits r (n * 10 + (c - 48)) else .ok n

/-- The blanks before the number. -/
def atoiBlanks : List Nat → Res (List Nat)
  | [] => .ub
  | c :: r => if c = 32 ∨ (9 ≤ c ∧ c ≤ 13) then atoiBlanks r else .ok (c :: r)

/-- `::atoi(s)` of the C library (C standard, 7.22.1.2), undefined if the number is not an `int`. -/
def libAtoi (s : List Nat) : Res Int := do
  match ← atoiBlanks s with
  | 45 :: r => do
    let n ← atoiDigits r 0
    if n ≤ 2 ^ 31 then .ok (-n) else .ub
  | 43 :: r => do
    let n ← atoiDigits r 0
    if n < 2 ^ 31 then .ok n else .ub
  | r => do
    let n ← atoiDigits r 0
    if n < 2 ^ 31 then .ok n else .ub

/-- The static variables of `is_debugger_attached` (/repo/src/c4/error.cpp:149-150). -/
structure Dbg where
  first : Bool
  result : Bool
deriving DecidableEq, Repr

/-- What the file /proc/self/status gives: it cannot be opened, it cannot be read, or `read` with room for 1024 characters gives some of them. -/
inductive Status
  | closed
  | failed
  | bytes (bs : List Nat)
deriving DecidableEq, Repr

/-- `is_debugger_attached()` (/repo/src/c4/error.cpp:146-188): what it returns and the static variables afterwards. -/
def isDebuggerAttached (status : Status) (d : Dbg) : Res (Bool × Dbg) := do
  if d.first then
    match status with
    | .closed => .ok (false, { d with first := false })
    | .failed => .ok (d.result, { d with first := false })
    | .bytes bs =>
      if 0 < bs.length then do
        let buf := bs ++ List.replicate (1024 - bs.length) 0
        match ← strstr (S "TracerPid:") buf 0 with
        | some pos => do
          let pid ← libAtoi (buf.drop (pos + (S "TracerPid:").length))
          .ok (decide (pid ≠ 0), ⟨false, decide (pid ≠ 0)⟩)
        | none => .ok (d.result, { d with first := false })
      else .ok (d.result, { d with first := false })
  else .ok (d.result, d)

end C4.Err
