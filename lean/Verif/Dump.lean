import Verif.Format
/-
Model of /repo/src/c4/dump.hpp.  The sink is the list of character sequences passed to the dump function, in order.  The
overloads taking the dump function as template argument and as function argument have the same bodies and are modelled
once.

Simplifications: the number of arguments is below 2^64-1, so the index `noarg` = 2^64-1 is never an argument;
it is `none` here.
-/
namespace C4

/-- Arguments: `csubstr` and character arrays have their own overload of `dump`; all other types go through `to_chars`. -/
inductive DArg where
  | val (f : Writer)
  | str (s : List Nat)

/-- What the sink has received. -/
abbrev Chunks := List (List Nat)

/-- `dump(dumpfn, buf, a)` (/repo/src/c4/dump.hpp:22-70): returned size, buffer afterwards, chunks sent. -/
def dump : DArg → List Nat → Res (Nat × List Nat × Chunks)
  | .val f, buf => do
    let (sz, b) ← f buf
    .ok (sz, b, if sz ≤ buf.length then [b.take sz] else [])
  | .str s, buf => .ok (0, buf, if buf.length ≠ 0 then [s] else [])

/-- `if(sz > buf.len) buf = buf.first(0);` -/
def shut (sz : Nat) (buf : List Nat) : List Nat := if sz > buf.length then [] else buf

/-- `cat_dump(dumpfn, buf, args...)` (/repo/src/c4/dump.hpp:95-129). -/
def catDump : List DArg → List Nat → Res (Nat × Chunks)
  | [], _ => .ok (0, [])
  | a :: more, buf => do
    let (sa, b, o) ← dump a buf
    let (sm, om) ← catDump more (shut sa b)
    .ok (if sm > sa then sm else sa, o ++ om)

/-- `catsep_dump(dumpfn, buf, sep, args...)` (/repo/src/c4/dump.hpp:219-267). -/
def catsepDump (sep : DArg) : List DArg → List Nat → Res (Nat × Chunks)
  | [], _ => .ok (0, [])
  | [a], buf => do
    let (sz, b, o) ← dump a buf
    let (sm, om) ← catsepDump sep [] (shut sz b)
    .ok (if sm > sz then sm else sz, o ++ om)
  | a :: a2 :: more, buf => do
    let (sz, b, o) ← dump a buf
    let (szsep, b, os) ← dump sep (shut sz b)
    let (sm, om) ← catsepDump sep (a2 :: more) (shut szsep b)
    let sz := if sz > szsep then sz else szsep
    .ok (if sm > sz then sm else sz, o ++ (os ++ om))

/-- `format_dump(dumpfn, buf, fmt, args...)` (/repo/src/c4/dump.hpp:373-441). -/
def formatDump (fmt : List Nat) : List DArg → List Nat → Res (Nat × Chunks)
  | [], buf => .ok (0, if buf.length > 0 ∧ fmt.length > 0 then [fmt] else [])
  | a :: more, buf => do
    match ← findS fmt [123, 125] 0 with
    | none => .ok (0, if buf.length > 0 ∧ fmt.length > 0 then [fmt] else [])
    | some pos => do
      let (sa, b, o) ← dump a buf
      let (sm, om) ← formatDump (fmt.drop (pos + 2)) more (shut sa b)
      .ok (if sm > sa then sm else sa, (if buf.length > 0 ∧ pos > 0 then [fmt.take pos] else []) ++ (o ++ om))

/-! ### Resuming -/

/-- `DumpResults` (/repo/src/c4/dump.hpp:78-86). -/
structure DumpResults where
  bufsize : Nat := 0
  lastok : Option Nat := none
  deriving DecidableEq, Repr

/-- `success_until(expected)`. -/
def DumpResults.successUntil (r : DumpResults) (expected : Nat) : Bool :=
  match r.lastok with
  | none => false
  | some k => decide (k ≥ expected)
/-- `write_arg(arg)`. -/
def DumpResults.writeArg (r : DumpResults) (arg : Nat) : Bool :=
  match r.lastok with
  | none => true
  | some k => decide (arg > k)
/-- `argfail()`, i.e. `lastok + 1`, which wraps to 0 for `noarg`. -/
def DumpResults.argfail (r : DumpResults) : Nat :=
  match r.lastok with
  | none => 0
  | some k => k + 1

/-- `results.bufsize = sz > results.bufsize ? sz : results.bufsize;` -/
def DumpResults.grow (r : DumpResults) (sz : Nat) : DumpResults :=
  { r with bufsize := if sz > r.bufsize then sz else r.bufsize }

/-- `detail::cat_dump_resume` for one argument (/repo/src/c4/dump.hpp:140-165). -/
def catResume1 (curr : Nat) (r : DumpResults) (buf : List Nat) (a : DArg) : Res (DumpResults × List Nat × Chunks) :=
  if r.writeArg curr then do
    let (sz, b, o) ← dump a buf
    let r := if curr = r.argfail ∧ sz ≤ buf.length then { r with lastok := some curr } else r
    .ok (r.grow sz, b, o)
  else .ok (r, buf, [])

/-- `detail::cat_dump_resume` (/repo/src/c4/dump.hpp:167-179). -/
def catResumeFrom : Nat → DumpResults → List Nat → List DArg → Res (DumpResults × Chunks)
  | _, r, _, [] => .ok (r, [])
  | curr, r, buf, a :: more => do
    let (r, b, o) ← catResume1 curr r buf a
    let (r, om) ← catResumeFrom (curr + 1) r b more
    .ok (r, o ++ om)

/-- `cat_dump_resume(dumpfn, results, buf, args...)` (/repo/src/c4/dump.hpp:184-198); the overload without results (200-210)
starts from `DumpResults{}`. -/
def catDumpResume (l : List DArg) (r : DumpResults) (buf : List Nat) : Res (DumpResults × Chunks) :=
  if r.bufsize > buf.length then .ok (r, []) else catResumeFrom 0 r buf l

/-- `detail::catsep_dump_resume_` for one argument (/repo/src/c4/dump.hpp:278-303). -/
def catsepResume1 (curr : Nat) (r : DumpResults) (buf : List Nat) (a : DArg) : Res (DumpResults × List Nat × Chunks) :=
  if r.writeArg curr then do
    let (sz, b, o) ← dump a buf
    let r := r.grow sz
    if sz ≤ buf.length then .ok ({ r with lastok := some curr }, b, o) else .ok (r, [], o)
  else .ok (r, buf, [])

/-- `detail::catsep_dump_resume` (/repo/src/c4/dump.hpp:305-331). -/
def catsepResumeFrom (sep : DArg) : Nat → DumpResults → List Nat → List DArg → Res (DumpResults × Chunks)
  | _, r, _, [] => .ok (r, [])
  | curr, r, buf, [a] => do
    let (r, _, o) ← catsepResume1 curr r buf a
    .ok (r, o)
  | curr, r, buf, a :: a2 :: more => do
    let (r, b, o) ← catsepResume1 curr r buf a
    let (r, b, os) ← catsepResume1 (curr + 1) r b sep
    let (r, om) ← catsepResumeFrom sep (curr + 2) r b (a2 :: more)
    .ok (r, o ++ (os ++ om))

/-- `catsep_dump_resume(dumpfn, results, buf, sep, args...)` (/repo/src/c4/dump.hpp:336-363). -/
def catsepDumpResume (sep : DArg) (l : List DArg) (r : DumpResults) (buf : List Nat) : Res (DumpResults × Chunks) :=
  catsepResumeFrom sep 0 r buf l

/-- `if(buf.len > 0) { results.lastok = currarg; dumpfn(text); }` (/repo/src/c4/dump.hpp:456-460, 469-473, 489-493, 496-500, 527-531,
534-538). -/
def dumpText (curr : Nat) (r : DumpResults) (buf text : List Nat) : DumpResults × Chunks :=
  if buf.length > 0 then ({ r with lastok := some curr }, [text]) else (r, [])

/-- The argument part of `detail::format_dump_resume` (/repo/src/c4/dump.hpp:503-511, 541-549). -/
def formatResumeArg (curr : Nat) (r : DumpResults) (buf : List Nat) (a : DArg) : Res (DumpResults × List Nat × Chunks) :=
  if r.writeArg curr then do
    let (sz, b, o) ← dump a buf
    let r := r.grow sz
    if sz ≤ buf.length then .ok ({ r with lastok := some curr }, b, o) else .ok (r, [], o)
  else .ok (r, buf, [])

/-- `detail::format_dump_resume` (/repo/src/c4/dump.hpp:451-553).  If the text before the next mark was already sent and there is
no mark, `fmt.sub(npos + 2)` is `fmt.sub(1)`. -/
def formatResumeFrom : Nat → DumpResults → List Nat → List Nat → List DArg → Res (DumpResults × Chunks)
  | curr, r, buf, fmt, [] => .ok (dumpText curr r buf fmt)
  | curr, r, buf, fmt, a :: more => do
    match ← findS fmt [123, 125] 0 with
    | none =>
      if r.writeArg curr then .ok (dumpText curr r buf fmt)
      else if 1 ≤ fmt.length then do
        let (r, b, oa) ← formatResumeArg (curr + 1) r buf a
        let (r, om) ← formatResumeFrom (curr + 2) r b (fmt.drop 1) more
        .ok (r, oa ++ om)
      else .ub
    | some pos => do
      let (r, o) := if r.writeArg curr then dumpText curr r buf (fmt.take pos) else (r, [])
      let (r, b, oa) ← formatResumeArg (curr + 1) r buf a
      let (r, om) ← formatResumeFrom (curr + 2) r b (fmt.drop (pos + 2)) more
      .ok (r, o ++ (oa ++ om))

/-- `format_dump_resume(dumpfn, results, buf, fmt, args...)` (/repo/src/c4/dump.hpp:556-580). -/
def formatDumpResume (fmt : List Nat) (l : List DArg) (r : DumpResults) (buf : List Nat) : Res (DumpResults × Chunks) :=
  formatResumeFrom 0 r buf fmt l

/-- The user's retry loop (see /repo/test/test_dump.cpp:398-): call with the results of the call before and the next buffer, until
`success_until(last)` or no buffers are left. -/
def resumeLoop (call : DumpResults → List Nat → Res (DumpResults × Chunks)) (last : Nat) :
    List (List Nat) → DumpResults → Res (DumpResults × Chunks)
  | [], r => .ok (r, [])
  | b :: bs, r => do
    let (r, o) ← call r b
    if r.successUntil last then .ok (r, o)
    else do
      let (r, om) ← resumeLoop call last bs r
      .ok (r, o ++ om)

end C4
