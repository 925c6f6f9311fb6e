import Verif.Error
/-
Model of the macros for errors and checks (/repo/src/c4/error.hpp:61-79, 184-191, 262-368), with the formatting of their messages by `vsnprintf`
(/repo/src/c4/error.cpp:78-85), and of the messages of the library's own checks.
-/
namespace C4.Err

/-- An argument after the format: an `int` (also a `char`, which is promoted), a `size_t` or `unsigned long` (the same type on 64-bit Unix), a `ptrdiff_t`, or a pointer to
characters, known by the characters from there to the end of the object. -/
inductive PfArg
  | int (v : Int)
  | size (v : Nat)
  | diff (v : Int)
  | str (mem : List Nat)
deriving DecidableEq, Repr

/-- The string at a pointer; undefined if there is no terminator. -/
def pfString : List Nat → Res (List Nat)
  | [] => .ub
  | c :: r => if c = 0 then .ok [] else do .ok (c :: (← pfString r))

/-- At most `n` characters of the string at a pointer: no terminator is needed after `n` of them. -/
def pfUpTo : Nat → List Nat → Res (List Nat)
  | 0, _ => .ok []
  | _ + 1, [] => .ub
  | n + 1, c :: r => if c = 0 then .ok [] else do .ok (c :: (← pfUpTo n r))

def pfInt (v : Int) : List Nat := (if v < 0 then [45] else []) ++ Spec.numeralText 10 v.natAbs

/-- Formatting by `vsnprintf` (C standard, 7.21.6.1; trusted), for the conversions that occur in the library: %%, %s, %d, %c, %zu, %lu, %zd and %.*s.  Missing arguments and arguments
of other types are undefined.  Simplification: other conversions are taken to be undefined here, also those that are not. -/
def pf : List Nat → List PfArg → Res (List Nat)
  | [], _ => .ok []
  | c :: f, as =>
    if c ≠ 37 then do .ok (c :: (← pf f as))
    else match f, as with
      | 37 :: f, as => do .ok (37 :: (← pf f as))
      | 115 :: f, .str m :: as => do .ok ((← pfString m) ++ (← pf f as))
      | 100 :: f, .int v :: as => do .ok (pfInt v ++ (← pf f as))
      | 99 :: f, .int v :: as => do .ok ((v % 256).toNat :: (← pf f as))
      | 122 :: 117 :: f, .size v :: as => do .ok (Spec.numeralText 10 v ++ (← pf f as))
      | 108 :: 117 :: f, .size v :: as => do .ok (Spec.numeralText 10 v ++ (← pf f as))
      | 122 :: 100 :: f, .diff v :: as => do .ok (pfInt v ++ (← pf f as))
      | 46 :: 42 :: 115 :: f, .int n :: .str m :: as => do .ok ((← if n < 0 then pfString m else pfUpTo n.toNat m) ++ (← pf f as))
      | _, _ => .ub

/-- The configuration: whether exceptions are thrown, and whether `C4_DEBUG_BREAK()` is not empty (/repo/src/c4/error.hpp:61-78). -/
structure Build where
  throws : Bool
  breaks : Bool
deriving DecidableEq, Repr

/-- `C4_ERROR(fmt, args...)` (/repo/src/c4/error.hpp:184-191): whether there is a breakpoint (`attached`: `is_debugger_attached()`), and what `handle_error` does.  The message is
formatted only for logging and the callback. -/
def cError (b : Build) (attached : Bool) (cbs : Nat → Callback) (loc : Where) (fmt : List Nat) (as : List PfArg) (s : Settings) : Res (Bool × List Event × Settings × Exit) := do
  let broke := has s ON_ERROR_DEBUGBREAK && b.breaks && attached
  let text ← if has s (ON_ERROR_LOG ||| ON_ERROR_CALLBACK) then pf fmt as else .ok []
  let r ← handleError b.throws cbs loc (some text) s
  .ok (broke, r)

/-- `C4_CHECK(cond)` (/repo/src/c4/error.hpp:325-331), where `cond` is the spelling of the condition and `v` its value; `none`: the execution goes on. -/
def cCheck (b : Build) (attached : Bool) (cbs : Nat → Callback) (loc : Where) (cond : List Nat) (v : Bool) (s : Settings) : Res (Option (Bool × List Event × Settings × Exit)) :=
  if !v then do .ok (some (← cError b attached cbs loc (S "check failed: %s") [.str (cond ++ [0])] s)) else .ok none

/-- `C4_CHECK_MSG(cond, fmt, args...)` (/repo/src/c4/error.hpp:337-343): the spelling of the condition becomes part of the format. -/
def cCheckMsg (b : Build) (attached : Bool) (cbs : Nat → Callback) (loc : Where) (cond : List Nat) (v : Bool) (fmt : List Nat) (as : List PfArg) (s : Settings) :
    Res (Option (Bool × List Event × Settings × Exit)) :=
  if !v then do .ok (some (← cError b attached cbs loc (S "check failed: " ++ cond ++ [10] ++ fmt) as s)) else .ok none

/-- `C4_ASSERT(cond)` and `C4_XASSERT(cond)` (/repo/src/c4/error.hpp:262-272, 299-309), `use` being C4_USE_ASSERT or C4_USE_XASSERT. -/
def cAssert (use : Bool) (b : Build) (attached : Bool) (cbs : Nat → Callback) (loc : Where) (cond : List Nat) (v : Bool) (s : Settings) : Res (Option (Bool × List Event × Settings × Exit)) :=
  if use then cCheck b attached cbs loc cond v s else .ok none

/-! ### The messages of the library -/

/-- The conversion `(int)` of a `size_t`. -/
def toInt (n : Nat) : Int := if n % 2 ^ 32 < 2 ^ 31 then (n % 2 ^ 32 : Nat) else (n % 2 ^ 32 : Nat) - 2 ^ 32

/-- `MemoryResource::allocate` without memory (/repo/src/c4/memory_resource.hpp:125). -/
def msgAllocate (sz : Nat) : Res (List Nat) := pf (S "check failed: mem != nullptr\n" ++ S "could not allocate %lu bytes") [.size sz]

/-- `MemoryResource::reallocate` without memory (/repo/src/c4/memory_resource.hpp:132). -/
def msgReallocate (old new : Nat) : Res (List Nat) := pf (S "check failed: mem != nullptr\n" ++ S "could not reallocate from %lu to %lu bytes") [.size old, .size new]

/-- `aalloc_impl` without memory (/repo/src/c4/memory_resource.cpp:59-60). -/
def msgNoMemory (size _al : Nat) : Res (List Nat) :=
  pf (S "There was insufficient memory to fulfill the allocation request of %zu bytes (alignment=%lu)") [.size size, .size size]

/-- `szconv` of a size that does not fit (/repo/src/c4/szconv.hpp:59). -/
def msgSzconv (sz : Nat) : Res (List Nat) :=
  pf (S "check failed: (SizeIn)sz <= (SizeIn)std::numeric_limits<SizeOut>::max()\n" ++ S "size conversion overflow: in=%zu") [.size sz]

/-- `EnumSymbols::get(v)` (/repo/src/c4/enum.hpp:64). -/
def msgEnumValue (v : Int) : Res (List Nat) := pf (S "check failed: p != nullptr\n" ++ S "could not find symbol=%zd") [.diff v]

/-- `EnumSymbols::get(s)` (/repo/src/c4/enum.hpp:65); `mem` is what is at `s`. -/
def msgEnumName (mem : List Nat) : Res (List Nat) := pf (S "check failed: p != nullptr\n" ++ S "could not find symbol \"%s\"") [.str mem]

/-- `EnumSymbols::get(s, len)` (/repo/src/c4/enum.hpp:66). -/
def msgEnumNameLen (mem : List Nat) (len : Nat) : Res (List Nat) := pf (S "check failed: p != nullptr\n" ++ S "could not find symbol \"%.*s\"") [.size len, .str mem]

/-- `eoffs(which)` (/repo/src/c4/enum.hpp:141). -/
def msgEoffs (which : Int) : Res (List Nat) := pf (S "unknown offset type %d") [.int which]

/-- `bm2str` without room (/repo/src/c4/bitmask.hpp:111-112, 125-126). -/
def msgBmWrite (pos num sz : Nat) : Res (List Nat) := pf (S "cannot write to string pos=%d num=%d sz=%d") [.int (toInt pos), .int (toInt num), .int (toInt sz)]

/-- `str2bm_read_one` of a name (/repo/src/c4/bitmask.hpp:241). -/
def msgBmName (mem : List Nat) (sz : Nat) : Res (List Nat) := pf (S "check failed: p != nullptr\n" ++ S "no valid enum pair name for '%.*s'") [.int (toInt sz), .str mem]

/-- `str2bm_read_one` of a number (/repo/src/c4/bitmask.hpp:246). -/
def msgBmNumber (mem : List Nat) (sz : Nat) : Res (List Nat) :=
  pf (S "check failed: len != csubstr::npos\n" ++ S "could not read string as an integral type: '%.*s'") [.int (toInt sz), .str mem]

/-- `str2bm` of a text with a bad character (/repo/src/c4/bitmask.hpp:305), `c` being a signed `char` converted to `int`. -/
def msgBmChar (c : Nat) : Res (List Nat) := pf (S "bad character '%c' in bitmask string") [.int (if c < 128 then (c : Int) else (c : Int) - 256)]

end C4.Err
