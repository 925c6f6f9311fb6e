import Verif.Format
/-
Model of the specifiers of integers (/repo/src/c4/format.hpp:99-324): `fmt::integral`, `fmt::hex`, `fmt::oct`, `fmt::bin`, `fmt::zpad`, of numbers, pointers and null.
-/
namespace C4.Fmt

/-- `integral_<T>` (/repo/src/c4/format.hpp:108-115). -/
structure Integral where
  t : ITy
  val : Int
  radix : Nat
deriving DecidableEq, Repr

/-- `integral_padded_<T>` (/repo/src/c4/format.hpp:118-126). -/
structure Padded where
  t : ITy
  val : Int
  radix : Nat
  digits : Nat
deriving DecidableEq, Repr

/-- `intptr_t` (/repo/src/c4/format.hpp:138), for 64-bit addresses. -/
def intptr : ITy := ⟨.w64, true⟩

/-- `reinterpret_cast<intptr_t>(p)` (/repo/src/c4/format.hpp:139), `p` an address. -/
def ofPtr (p : Nat) : Int := intptr.wrap p

/-- `integral(T val, T radix)` (/repo/src/c4/format.hpp:130-134). -/
def integral (t : ITy) (v : Int) (radix : Nat) : Integral := ⟨t, v, radix⟩
/-- `integral(T const* val, T radix)` (/repo/src/c4/format.hpp:136-140). -/
def integralPtr (p radix : Nat) : Integral := ⟨intptr, ofPtr p, radix⟩
/-- `integral(nullptr, T radix)` (/repo/src/c4/format.hpp:142-146). -/
def integralNull (radix : Nat) : Integral := ⟨intptr, 0, radix⟩

/-- `hex(T v)` (/repo/src/c4/format.hpp:167-172). -/
def hex (t : ITy) (v : Int) : Integral := ⟨t, v, 16⟩
/-- `hex(T *v)`, `hex(T const *v)` (/repo/src/c4/format.hpp:148-160). -/
def hexPtr (p : Nat) : Integral := ⟨intptr, ofPtr p, 16⟩
/-- `hex(nullptr)` (/repo/src/c4/format.hpp:161-166). -/
def hexNull : Integral := ⟨intptr, 0, 16⟩

/-- `oct(T v)` (/repo/src/c4/format.hpp:191-196). -/
def oct (t : ITy) (v : Int) : Integral := ⟨t, v, 8⟩
/-- `oct(T const *v)`, `oct(T *v)` (/repo/src/c4/format.hpp:174-185). -/
def octPtr (p : Nat) : Integral := ⟨intptr, ofPtr p, 8⟩
/-- `oct(nullptr)` (/repo/src/c4/format.hpp:186-190). -/
def octNull : Integral := ⟨intptr, 0, 8⟩

/-- `bin(T v)` (/repo/src/c4/format.hpp:218-224). -/
def bin (t : ITy) (v : Int) : Integral := ⟨t, v, 2⟩
/-- `bin(T const *v)`, `bin(T *v)` (/repo/src/c4/format.hpp:198-211). -/
def binPtr (p : Nat) : Integral := ⟨intptr, ofPtr p, 2⟩
/-- `bin(nullptr)` (/repo/src/c4/format.hpp:212-217). -/
def binNull : Integral := ⟨intptr, 0, 2⟩

/-- `zpad(T val, size_t num_digits)` (/repo/src/c4/format.hpp:231-237). -/
def zpad (t : ITy) (v : Int) (nd : Nat) : Padded := ⟨t, v, 10, nd⟩
/-- `zpad(integral_<T> val, size_t num_digits)` (/repo/src/c4/format.hpp:238-243). -/
def zpadIntegral (i : Integral) (nd : Nat) : Padded := ⟨i.t, i.val, i.radix, nd⟩
/-- `zpad(nullptr, size_t num_digits)` (/repo/src/c4/format.hpp:244-248). -/
def zpadNull (nd : Nat) : Padded := ⟨intptr, 0, 16, nd⟩
/-- `zpad(T const *val, size_t num_digits)`, `zpad(T *val, size_t num_digits)` (/repo/src/c4/format.hpp:249-259). -/
def zpadPtr (p nd : Nat) : Padded := ⟨intptr, ofPtr p, 16, nd⟩

/-- `to_chars(buf, integral_<T>)` (/repo/src/c4/format.hpp:288-296, 307-315). -/
def Integral.toChars (i : Integral) : Writer :=
  if i.t.sgn then itoaRadix i.t.w i.val i.radix else utoaRadix i.t.w i.val.toNat i.radix

/-- `to_chars(buf, integral_padded_<T>)` (/repo/src/c4/format.hpp:297-305, 316-324). -/
def Padded.toChars (i : Padded) : Writer :=
  if i.t.sgn then itoaRadixPad i.t.w i.val i.radix i.digits else utoaRadixPad i.t.w i.val.toNat i.radix i.digits

end C4.Fmt
