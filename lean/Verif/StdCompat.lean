import Verif.Substr.Compare
import Verif.Base64
/-
Model of the comparisons of string views with standard containers (/repo/src/c4/std/string.hpp, vector.hpp, string_view.hpp), of `type_name`
(/repo/src/c4/type_name.hpp) and of blobs (/repo/src/c4/blob.hpp, and their use in /repo/src/c4/base64.hpp).
-/
namespace C4

/-- The six comparisons. -/
inductive Rel
  | eq | ne | lt | gt | le | ge
deriving DecidableEq, Repr

/-- The comparison of the result of `compare` with 0. -/
def Rel.of : Rel → Int → Bool
  | .eq => opEq
  | .ne => opNe
  | .lt => opLt
  | .gt => opGt
  | .le => opLe
  | .ge => opGe

/-- `to_csubstr(std::string)` (/repo/src/c4/std/string.hpp:35-42): never null. -/
def viewOfString (s : List Nat) : CView := ⟨false, s⟩

/-- `to_csubstr(std::vector<char>)` (/repo/src/c4/std/vector.hpp:28-33): null if empty. -/
def viewOfVector (s : List Nat) : CView := ⟨s.isEmpty, s⟩

/-- `csubstr op std::string` (/repo/src/c4/std/string.hpp:46-51). -/
def viewOpString (sgn : Bool) (rel : Rel) (ss : CView) (s : List Nat) : Res Bool := do .ok (rel.of (← compareS sgn ss (viewOfString s)))

/-- `std::string op csubstr` (/repo/src/c4/std/string.hpp:53-58). -/
def stringOpView (sgn : Bool) (rel : Rel) (s : List Nat) (ss : CView) : Res Bool := do
  let r ← compareS sgn ss (viewOfString s)
  .ok (match rel with
    | .eq => r == 0
    | .ne => r != 0
    | .ge => r ≤ 0
    | .gt => r < 0
    | .le => r ≥ 0
    | .lt => r > 0)

/-- `csubstr op std::vector<char>` (/repo/src/c4/std/vector.hpp:38-43). -/
def viewOpVector (sgn : Bool) (rel : Rel) (ss : CView) (s : List Nat) : Res Bool := do .ok (rel.of (← compareS sgn ss (viewOfVector s)))

/-- `std::vector<char> op csubstr` (/repo/src/c4/std/vector.hpp:45-50). -/
def vectorOpView (sgn : Bool) (rel : Rel) (s : List Nat) (ss : CView) : Res Bool :=
  match rel with
  | .ne => viewOpVector sgn .ne ss s
  | .eq => viewOpVector sgn .eq ss s
  | .ge => viewOpVector sgn .le ss s
  | .gt => viewOpVector sgn .lt ss s
  | .le => viewOpVector sgn .ge ss s
  | .lt => viewOpVector sgn .gt ss s

/-- `csubstr op std::string_view` (/repo/src/c4/std/string_view.hpp:32-37); the view may be null. -/
def viewOpStringView (sgn : Bool) (rel : Rel) (ss s : CView) : Res Bool := do .ok (rel.of (← compareS sgn ss s))

/-- `std::string_view op csubstr` (/repo/src/c4/std/string_view.hpp:39-44). -/
def stringViewOpView (sgn : Bool) (rel : Rel) (s ss : CView) : Res Bool := do
  let r ← compareS sgn ss s
  .ok (match rel with
    | .eq => r == 0
    | .ne => r != 0
    | .le => r ≥ 0
    | .lt => r > 0
    | .ge => r ≤ 0
    | .gt => r < 0)

/-- The compilers `type_name` knows (/repo/src/c4/type_name.hpp:50-108). -/
inductive Compiler
  | msvcClang2022 | msvcClang | msvc | icc | clang | gcc7 | gcc
deriving DecidableEq, Repr

/-- `type_name<T>()` (/repo/src/c4/type_name.hpp:36-115): the part of the text of C4_PRETTY_FUNC that it returns, `str` without the terminating zero.  The lengths are computed
modulo 2^64 in the program; a result that is not part of the text is undefined here. -/
def typeName (c : Compiler) (str : List Nat) : Res (List Nat) := do
  let (tstart, tend) ← match c with
    | .msvcClang2022 => .ok (30, 1)
    | .msvcClang => .ok (26, 1)
    | .msvc => do
      let s := str.drop 26
      if str.length > 6 ∧ s.take 6 = S "class " then .ok (26 + 6, 7)
      else if str.length > 7 ∧ s.take 7 = S "struct " then .ok (26 + 7, 7)
      else .ok (26, 7)
    | .icc => .ok (23, 1)
    | .clang => .ok (18, 1)
    | .gcc7 => .ok (33, 1)
    | .gcc => .ok (23, 1)
  if tstart + tend ≤ str.length then .ok ((str.drop tstart).take (str.length - tstart - tend)) else .ub

/-- A blob into the memory: where its bytes begin, and how many they are (/repo/src/c4/blob.hpp:21-30). -/
structure Blob where
  buf : Nat
  len : Nat
deriving DecidableEq, Repr

namespace Blob

/-- `blob_(void *ptr, size_t n)` (/repo/src/c4/blob.hpp:45-46). -/
def ofPtr (ptr n : Nat) : Blob := ⟨ptr, n⟩
/-- `blob_(U &var)` and `operator=(U &var)` (/repo/src/c4/blob.hpp:49, 51), `size` is `sizeof(U)`. -/
def ofVar (var size : Nat) : Blob := ⟨var, size⟩
/-- `blob_(U *ptr, size_t n)` (/repo/src/c4/blob.hpp:50). -/
def ofElems (ptr size n : Nat) : Blob := ⟨ptr, size * n⟩
/-- `blob_(U (&arr)[N])` and `operator=(U (&arr)[N])` (/repo/src/c4/blob.hpp:52-53). -/
def ofArray (arr size n : Nat) : Blob := ⟨arr, size * n⟩
/-- The converting constructors from `blob` to `cblob` (/repo/src/c4/blob.hpp:40-41). -/
def convert (that : Blob) : Blob := ⟨that.buf, that.len⟩
/-- The converting assignments from `blob` to `cblob` (/repo/src/c4/blob.hpp:42-43): control comes to the end of a function that has to return something. -/
def assignConvert (_ _that : Blob) : Res Blob := .ub

/-- The bytes of a blob. -/
def read (mem : List Nat) (b : Blob) : List Nat := (mem.drop b.buf).take b.len
/-- The memory after the bytes of a blob were replaced by others, of the same number. -/
def write (mem : List Nat) (b : Blob) (bytes : List Nat) : List Nat := mem.take b.buf ++ bytes ++ mem.drop (b.buf + b.len)

end Blob

/-- `to_chars(buf, fmt::base64(...))` for bytes in the memory (/repo/src/c4/base64.hpp:127-130). -/
def toCharsBase64 (mem : List Nat) (b : Blob) (buf : List Nat) : Res (Nat × List Nat) := base64Encode (b.read mem) buf

/-- `from_chars(text, &fmt::base64(...))` for bytes in the memory (/repo/src/c4/base64.hpp:134-137): the size and the memory afterwards. -/
def fromCharsBase64 (sgn : Bool) (text mem : List Nat) (b : Blob) : Res (Nat × List Nat) := do
  let (n, bytes) ← base64Decode sgn text (b.read mem)
  .ok (n, b.write mem bytes)

end C4
