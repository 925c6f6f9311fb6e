import Verif.Utf
import Verif.Debug.Read
import Verif.Substr.Trim
/-
Model of /repo/src/c4/utf.cpp in builds with assertions.
-/
namespace C4

/-- `decode_code_point(buf, buflen, code)` (/repo/src/c4/utf.cpp:8-39). -/
def decodeCodePointD (code : Nat) (buf : List Nat) : Res (Nat × List Nat) := do
  assertThat (buf.length ≥ 4)
  decodeCodePoint code buf

/-- `decode_code_point(out, code_point)` (/repo/src/c4/utf.cpp:41-56), with the assertion of `first` (/repo/src/c4/substr.hpp:349-353). -/
def decodeCodePointSD (s buf : List Nat) : Res (Nat × List Nat) := do
  assertThat (buf.length ≥ 4)
  let b ← beginsWith s (S "U+")
  assertThat (b = false)
  let b ← beginsWith s (S "\\x")
  assertThat (b = false)
  let b ← beginsWith s (S "\\u")
  assertThat (b = false)
  let b ← beginsWith s (S "\\U")
  assertThat (b = false)
  let b ← beginsWithC s 48
  assertThat (b = false)
  assertThat (s.length ≤ 8)
  assertThat (s.length > 0)
  let (ok, v, _) ← readHexD ⟨.w32, false⟩ s
  if ok then do
    let (n, buf) ← decodeCodePointD v.toNat buf
    assertThat (n ≤ 4)
    assertThat (n ≤ buf.length)
    .ok (n, buf)
  else .abort

end C4
