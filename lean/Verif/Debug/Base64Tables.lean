import Verif.Base64
import Verif.SpanAssert
/-
Model of the self test of the base64 tables (/repo/src/c4/base64.cpp:75-93), in builds with assertions.
-/
namespace C4

/-- `table[(int)c]` for a `char` with byte `c`; `sgn` tells if `char` is signed. -/
def rdChar (sgn : Bool) (table : List Nat) (c : Nat) : Res Nat :=
  if sgn = true ∧ c ≥ 128 then .ub else rd table c

/-- `(size_t)c` for a `char` with byte `c`. -/
def sizeOfChar (sgn : Bool) (c : Nat) : Nat := if sgn = true ∧ c ≥ 128 then 2 ^ 64 - 256 + c else c

/-- The first loop (/repo/src/c4/base64.cpp:78-83) over the rest of the table of characters, `i` being its index.  The tables are parameters here. -/
def testSextets (sgn : Bool) (c2sTable : List Nat) : List Nat → Nat → Res Unit
  | [], _ => .ok ()
  | s2c :: t, i => do
    let c2s ← rdChar sgn c2sTable s2c
    if sizeOfChar sgn c2s = i then testSextets sgn c2sTable t (i + 1) else .abort

/-- The second loop (/repo/src/c4/base64.cpp:84-91) over the rest of the table of sextets. -/
def testChars (sgn : Bool) (s2cTable : List Nat) : List Nat → Nat → Res Unit
  | [], _ => .ok ()
  | c2s :: t, i =>
    if c2s = 255 then testChars sgn s2cTable t (i + 1)
    else do
      let s2c ← rdChar sgn s2cTable c2s
      if sizeOfChar sgn s2c = i then testChars sgn s2cTable t (i + 1) else .abort

/-- `base64_test_tables()` (/repo/src/c4/base64.cpp:76-92) with the tables as parameters; `C4_CHECK` that fails is an abort. -/
def base64TestTables (sgn : Bool) (s2cTable c2sTable : List Nat) : Res Unit := do
  testSextets sgn c2sTable s2cTable 0
  testChars sgn s2cTable c2sTable 0

end C4
