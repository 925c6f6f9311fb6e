import Verif.StdCompat
import Verif.Props.SubstrCompare
import Verif.Props.Base64
/-
Properties C128-C130: names of types, comparisons with standard containers, blobs.
-/
namespace C4
open Spec

/-- What a comparison of two strings means, for the order of the characters. -/
def Rel.Holds (sgn : Bool) (a b : List Nat) : Rel → Prop
  | .eq => a = b
  | .ne => a ≠ b
  | .lt => LexLt sgn a b
  | .gt => LexLt sgn b a
  | .le => LexLt sgn a b ∨ a = b
  | .ge => LexLt sgn b a ∨ a = b

/-- Comparing the result of `compare` with 0 is comparing the strings. -/
theorem rel_of (sgn : Bool) (s t : CView) (hs : s.wf) (ht : t.wf) : ∃ r, compareS sgn s t = .ok r ∧
    (r < 0 ↔ LexLt sgn s.chars t.chars) ∧ (r = 0 ↔ s.chars = t.chars) ∧ (0 < r ↔ LexLt sgn t.chars s.chars) := by
  obtain ⟨r, h1, h2, h3, h4, h5⟩ := C28_compare sgn s t hs ht
  refine ⟨r, h1, ?_, h3, ?_⟩
  · rw [← h2]; omega
  · rw [← h4]; omega

theorem viewOfString_wf {s : List Nat} (h : Bytes s) : (viewOfString s).wf := ⟨fun e => (by cases e), h⟩
theorem viewOfVector_wf {s : List Nat} (h : Bytes s) : (viewOfVector s).wf := ⟨fun e => (by simpa [viewOfVector] using e), h⟩

/-- C129: the six comparisons of a string view with a standard string, vector of characters or string view, in both orders of the arguments, are those of the order of `compare`. -/
theorem C129_compare (sgn : Bool) (rel : Rel) (ss sv : CView) (s : List Nat) (hs : ss.wf) (hv : sv.wf) (hb : Bytes s) :
    (∃ b, viewOpString sgn rel ss s = .ok b ∧ (b = true ↔ rel.Holds sgn ss.chars s)) ∧
    (∃ b, stringOpView sgn rel s ss = .ok b ∧ (b = true ↔ rel.Holds sgn s ss.chars)) ∧
    (∃ b, viewOpVector sgn rel ss s = .ok b ∧ (b = true ↔ rel.Holds sgn ss.chars s)) ∧
    (∃ b, vectorOpView sgn rel s ss = .ok b ∧ (b = true ↔ rel.Holds sgn s ss.chars)) ∧
    (∃ b, viewOpStringView sgn rel ss sv = .ok b ∧ (b = true ↔ rel.Holds sgn ss.chars sv.chars)) ∧
    (∃ b, stringViewOpView sgn rel sv ss = .ok b ∧ (b = true ↔ rel.Holds sgn sv.chars ss.chars)) := by
  obtain ⟨r1, a1, a2, a3, a4⟩ := rel_of sgn ss (viewOfString s) hs (viewOfString_wf hb)
  obtain ⟨r2, b1, b2, b3, b4⟩ := rel_of sgn ss (viewOfVector s) hs (viewOfVector_wf hb)
  obtain ⟨r3, c1, c2, c3, c4⟩ := rel_of sgn ss sv hs hv
  simp only [viewOfString, viewOfVector] at a2 a3 a4 b2 b3 b4
  unfold viewOpString stringOpView viewOpStringView stringViewOpView
  refine ⟨?_, ?_, ?_, ?_, ?_, ?_⟩
  · rw [a1]
    refine ⟨_, rfl, ?_⟩
    cases rel <;> simp [Rel.of, opEq, opNe, opLt, opGt, opLe, opGe, Rel.Holds, ← a2, ← a3, ← a4] <;> omega
  · rw [a1]
    refine ⟨_, rfl, ?_⟩
    cases rel <;> simp [Rel.Holds, ← a2, ← a4, eq_comm (a := s), ← a3] <;> omega
  · unfold viewOpVector
    rw [b1]
    refine ⟨_, rfl, ?_⟩
    cases rel <;> simp [Rel.of, opEq, opNe, opLt, opGt, opLe, opGe, Rel.Holds, ← b2, ← b3, ← b4] <;> omega
  · unfold vectorOpView viewOpVector
    cases rel <;> simp only [b1, Res.ok_bind] <;> refine ⟨_, rfl, ?_⟩ <;>
      simp [Rel.of, opEq, opNe, opLt, opGt, opLe, opGe, Rel.Holds, ← b2, ← b4, eq_comm (a := s), ← b3] <;> omega
  · rw [c1]
    refine ⟨_, rfl, ?_⟩
    cases rel <;> simp [Rel.of, opEq, opNe, opLt, opGt, opLe, opGe, Rel.Holds, ← c2, ← c3, ← c4] <;> omega
  · rw [c1]
    refine ⟨_, rfl, ?_⟩
    cases rel <;> simp [Rel.Holds, ← c2, ← c4, eq_comm (a := sv.chars), ← c3] <;> omega

example : (⟨true, []⟩ : CView).wf ∧ Bytes (S "abc") ∧ vectorOpView true .gt (S "abc") ⟨true, []⟩ = .ok true := by
  refine ⟨⟨fun _ => rfl, fun _ h => by cases h⟩, by unfold Bytes; decide, by decide +kernel⟩

/-- On texts where no character is negative, the order is that of the standard strings, which compares characters as unsigned ones. -/
theorem lexLt_ascii (sgn : Bool) {a b : List Nat} (h : sgn = false ∨ ((∀ c ∈ a, c < 128) ∧ ∀ c ∈ b, c < 128)) : LexLt sgn a b ↔ LexLt false a b := by
  rcases h with rfl | ⟨ha, hb⟩
  · rfl
  · unfold LexLt
    have hv : ∀ c, c < 128 → Spec.charValue sgn c = Spec.charValue false c := by
      intro c hc
      unfold Spec.charValue
      split
      · simp
      · rw [if_pos (by omega)]; simp
    refine or_congr Iff.rfl ⟨?_, ?_⟩
    · rintro ⟨pre, x, y, s', t', rfl, rfl, h⟩
      refine ⟨pre, x, y, s', t', rfl, rfl, ?_⟩
      rwa [hv x (ha x (by simp)), hv y (hb y (by simp))] at h
    · rintro ⟨pre, x, y, s', t', rfl, rfl, h⟩
      refine ⟨pre, x, y, s', t', rfl, rfl, ?_⟩
      rwa [hv x (ha x (by simp)), hv y (hb y (by simp))]

/-- C129, agreement with the standard library, as far as it holds: comparing a string view with a standard string gives what comparing two standard strings gives (characters compared as unsigned
ones), if `char` is unsigned, or if all characters are below 128. -/
theorem C129_standard_partial (sgn : Bool) (rel : Rel) (ss : CView) (s : List Nat) (hs : ss.wf) (hb : Bytes s)
    (h : sgn = false ∨ ((∀ c ∈ ss.chars, c < 128) ∧ ∀ c ∈ s, c < 128)) :
    (∃ b, viewOpString sgn rel ss s = .ok b ∧ (b = true ↔ rel.Holds false ss.chars s)) ∧ (∃ b, stringOpView sgn rel s ss = .ok b ∧ (b = true ↔ rel.Holds false s ss.chars)) := by
  have h' : sgn = false ∨ ((∀ c ∈ s, c < 128) ∧ ∀ c ∈ ss.chars, c < 128) := h.imp id And.symm
  obtain ⟨⟨b1, h1, h2⟩, ⟨b2, h3, h4⟩, -⟩ := C129_compare sgn rel ss ss s hs hs hb
  have e1 : rel.Holds sgn ss.chars s ↔ rel.Holds false ss.chars s := by
    cases rel <;> simp only [Rel.Holds, lexLt_ascii sgn h, lexLt_ascii sgn h']
  have e2 : rel.Holds sgn s ss.chars ↔ rel.Holds false s ss.chars := by
    cases rel <;> simp only [Rel.Holds, lexLt_ascii sgn h, lexLt_ascii sgn h']
  exact ⟨⟨b1, h1, h2.trans e1⟩, ⟨b2, h3, h4.trans e2⟩⟩

/-- C129, agreement with the standard library, does not hold in general: with signed `char`, the view of "é" is less than the string "z", and as standard strings it is greater. -/
theorem C129_standard_refuted : viewOpString true .lt ⟨false, [195, 169]⟩ (S "z") = .ok true ∧ LexLt false (S "z") [195, 169] := by
  refine ⟨by decide +kernel, Or.inr ⟨[], 122, 195, [], [169], rfl, rfl, by decide⟩⟩

/-- What the compilers write for the function, as the comments in the source say (/repo/src/c4/type_name.hpp:50-108); with MSVC, `key` is "class ", "struct ", "enum ", "union " or empty. -/
def prettyFunc (key name : List Nat) : Compiler → List Nat
  | .msvcClang2022 => S "_c4t __cdecl _c4tn(void) [T = " ++ name ++ S "]"
  | .msvcClang => S "_c4t __cdecl _c4tn() [T = " ++ name ++ S "]"
  | .msvc => S "struct _c4t __cdecl _c4tn<" ++ (key ++ name) ++ S ">(void)"
  | .icc => S "_c4t _c4tn() [with T = " ++ name ++ S "]"
  | .clang => S "_c4t _c4tn() [T = " ++ name ++ S "]"
  | .gcc7 => S "constexpr _c4t _c4tn() [with T = " ++ name ++ S "]"
  | .gcc => S "_c4t _c4tn() [with T = " ++ name ++ S "]"

theorem cut (a b c : List Nat) : ((a ++ b ++ c).drop a.length).take ((a ++ b ++ c).length - a.length - c.length) = b := by
  rw [List.append_assoc, List.drop_left]
  have : (a ++ (b ++ c)).length - a.length - c.length = b.length := by simp
  rw [this, List.take_left]

/-- C128, as far as it holds: `type_name` gives the name of the type: with all compilers but MSVC, and with MSVC for classes, structures and types without keyword. -/
theorem C128_partial (c : Compiler) (key name : List Nat) (hkey : key = S "class " ∨ key = S "struct " ∨ (key = [] ∧ ¬ S "class " <+: name ++ S ">(void)" ∧ ¬ S "struct " <+: name ++ S ">(void)")) :
    typeName c (prettyFunc key name c) = .ok name := by
  have key1 : ∀ a z : List Nat, a.length + z.length ≤ (a ++ name ++ z).length := by intro a z; simp only [List.length_append]; omega
  cases c with
  | msvc =>
    have hp : prettyFunc key name .msvc = (S "struct _c4t __cdecl _c4tn<" ++ key) ++ name ++ S ">(void)" := by simp [prettyFunc]
    have hd : (prettyFunc key name .msvc).drop 26 = key ++ (name ++ S ">(void)") := by
      rw [hp, List.append_assoc, List.append_assoc]
      exact List.drop_left (l₁ := S "struct _c4t __cdecl _c4tn<")
    have hl : 7 < (prettyFunc key name .msvc).length := by
      rw [hp]
      simp only [List.length_append]
      have : (S "struct _c4t __cdecl _c4tn<").length = 26 := rfl
      omega
    have fin : ∀ n, n = (S "struct _c4t __cdecl _c4tn<" ++ key).length →
        (if n + 7 ≤ (prettyFunc key name .msvc).length then Res.ok (((prettyFunc key name .msvc).drop n).take ((prettyFunc key name .msvc).length - n - 7)) else .ub) = .ok name := by
      rintro n rfl
      rw [hp]
      refine (if_pos (key1 (S "struct _c4t __cdecl _c4tn<" ++ key) (S ">(void)"))).trans ?_
      exact congrArg Res.ok (cut (S "struct _c4t __cdecl _c4tn<" ++ key) name (S ">(void)"))
    unfold typeName
    dsimp only
    rw [hd]
    rcases hkey with rfl | rfl | ⟨rfl, h1, h2⟩
    · rw [if_pos ⟨by omega, by simp [S]⟩, Res.ok_bind]
      exact fin _ rfl
    · rw [if_neg (by simp [S]), if_pos ⟨by omega, by simp [S]⟩, Res.ok_bind]
      exact fin _ rfl
    · rw [if_neg, if_neg, Res.ok_bind]
      · exact fin _ rfl
      · rintro ⟨-, h⟩
        exact h2 ⟨_, by rw [← h]; exact List.take_append_drop 7 _⟩
      · rintro ⟨-, h⟩
        exact h1 ⟨_, by rw [← h]; exact List.take_append_drop 6 _⟩
  | msvcClang2022 => exact (if_pos (key1 (S "_c4t __cdecl _c4tn(void) [T = ") (S "]"))).trans (congrArg Res.ok (cut (S "_c4t __cdecl _c4tn(void) [T = ") name (S "]")))
  | msvcClang => exact (if_pos (key1 (S "_c4t __cdecl _c4tn() [T = ") (S "]"))).trans (congrArg Res.ok (cut (S "_c4t __cdecl _c4tn() [T = ") name (S "]")))
  | icc => exact (if_pos (key1 (S "_c4t _c4tn() [with T = ") (S "]"))).trans (congrArg Res.ok (cut (S "_c4t _c4tn() [with T = ") name (S "]")))
  | clang => exact (if_pos (key1 (S "_c4t _c4tn() [T = ") (S "]"))).trans (congrArg Res.ok (cut (S "_c4t _c4tn() [T = ") name (S "]")))
  | gcc7 => exact (if_pos (key1 (S "constexpr _c4t _c4tn() [with T = ") (S "]"))).trans (congrArg Res.ok (cut (S "constexpr _c4t _c4tn() [with T = ") name (S "]")))
  | gcc => exact (if_pos (key1 (S "_c4t _c4tn() [with T = ") (S "]"))).trans (congrArg Res.ok (cut (S "_c4t _c4tn() [with T = ") name (S "]")))

example : ¬ S "class " <+: S "int" ++ S ">(void)" ∧ ¬ S "struct " <+: S "int" ++ S ">(void)" := by decide

/-- C128 does not hold in general: with MSVC, the keyword of an enumeration or union is part of what is returned. -/
theorem C128_refuted : typeName .msvc (prettyFunc (S "enum ") (S "Color") .msvc) = .ok (S "enum Color") := by decide +kernel

/-- The ways to give the `n` elements of `size` bytes at `p` as bytes: a pointer to bytes, a variable, a pointer to elements, an array, and a `cblob` from any of these. -/
def blobsOf (p size n : Nat) : List Blob :=
  let l := [Blob.ofPtr p (size * n), Blob.ofVar p (size * n), Blob.ofElems p size n, Blob.ofArray p size n]
  l ++ l.map Blob.convert

theorem blobsOf_eq {p size n : Nat} {b : Blob} (h : b ∈ blobsOf p size n) : b = .ofArray p size n := by
  simp only [blobsOf, List.map_cons, List.map_nil, List.cons_append, List.nil_append, List.mem_cons, List.not_mem_nil, or_false] at h
  rcases h with h | h | h | h | h | h | h | h <;> exact h

/-- C130: an array of `n` elements of `size` bytes, or a variable, written as base64 and read into another of the same size: this one has the bytes of the first, all other memory is unchanged, and the
size returned is that of the array. -/
theorem C130_round_trip (sgn : Bool) (mem buf : List Nat) (hm : Bytes mem) (src dst size n : Nat) (hs : src + size * n ≤ mem.length) (hd : dst + size * n ≤ mem.length)
    (hb : 4 * ((size * n + 2) / 3) ≤ buf.length) (from_ to_ : Blob) (hfrom : from_ ∈ blobsOf src size n) (hto : to_ ∈ blobsOf dst size n) :
    ∃ len out mem', toCharsBase64 mem from_ buf = .ok (len, out) ∧ len ≤ buf.length ∧
      fromCharsBase64 sgn (out.take len) mem to_ = .ok (size * n, mem') ∧ mem'.length = mem.length ∧
      (∀ i < size * n, mem'[dst + i]? = mem[src + i]?) ∧ (∀ i, i < dst ∨ dst + size * n ≤ i → mem'[i]? = mem[i]?) := by
  obtain rfl := blobsOf_eq hfrom
  obtain rfl := blobsOf_eq hto
  have hr : ∀ p, p + size * n ≤ mem.length → ((Blob.ofArray p size n).read mem).length = size * n := by
    intro p hp
    unfold Blob.read Blob.ofArray
    simp
    omega
  have hbytes : Bytes ((Blob.ofArray src size n).read mem) := fun c hc => hm c (List.drop_subset _ _ (List.take_subset _ _ hc))
  obtain ⟨len, out, h1, -, h2⟩ := C57_roundtrip sgn _ hbytes buf ((Blob.ofArray dst size n).read mem) (by rw [hr src hs]; exact hb) (by rw [hr src hs, hr dst hd]; exact Nat.le_refl _)
  have hlen : len = 4 * ((size * n + 2) / 3) := by
    have := C56_encode _ hbytes buf
    rw [h1, C56_size _ hbytes, hr src hs] at this
    cases this
    rfl
  rw [hr src hs] at h2
  have how : overwrite ((Blob.ofArray src size n).read mem) ((Blob.ofArray dst size n).read mem) = (Blob.ofArray src size n).read mem := by
    unfold overwrite
    rw [List.drop_eq_nil_of_le (by rw [hr src hs, hr dst hd]; exact Nat.le_refl _), List.append_nil]
  rw [how] at h2
  refine ⟨len, out, _, h1, by omega, by unfold fromCharsBase64; rw [h2]; rfl, ?_, ?_, ?_⟩
  · unfold Blob.write
    simp only [List.length_append, hr src hs, List.length_take, List.length_drop]
    simp only [Blob.ofArray]
    omega
  · intro i hi
    unfold Blob.write
    rw [List.append_assoc, List.getElem?_append_right (by simp [Blob.ofArray]; omega), List.getElem?_append_left (by rw [hr src hs]; simp [Blob.ofArray]; omega)]
    unfold Blob.read
    simp only [Blob.ofArray, List.length_take]
    rw [List.getElem?_take_of_lt (by omega), List.getElem?_drop]
    congr 1
    omega
  · intro i hi
    have hrl := hr src hs
    unfold Blob.write
    generalize Blob.read mem (Blob.ofArray src size n) = R at hrl ⊢
    simp only [Blob.ofArray]
    rcases hi with hi | hi
    · rw [List.append_assoc, List.getElem?_append_left (by simp; omega)]
      exact List.getElem?_take_of_lt hi
    · rw [List.getElem?_append_right (by simp only [List.length_append, List.length_take]; omega)]
      simp only [List.length_append, List.length_take, List.getElem?_drop]
      congr 1
      omega

example : Bytes (S "abcdefgh....") ∧ 0 + 4 * 2 ≤ (S "abcdefgh....").length ∧ 4 * ((4 * 2 + 2) / 3) ≤ (S "................").length := by
  refine ⟨by unfold Bytes; decide, by decide, by decide⟩
example : Blob.convert (.ofElems 0 4 2) ∈ blobsOf 0 4 2 := by decide

end C4
