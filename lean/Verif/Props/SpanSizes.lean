import Verif.SpanSizes
import Verif.Props.Small
import Verif.Props.IPow
/-
Properties of the sizes and element accesses of spans.
-/
namespace C4
open Spec

/-- The elements of a span: those of the memory from its address on. -/
def Spec.spanElems (mem : List Nat) (ptr : Nat) (size : Int) : List Nat := (mem.drop ptr).take size.toNat

/-! ### C138 -/

/-- **C138 is false**: 64 integers of 4 bytes have a size of 0 bytes if the index type is `uint8_t`, 32 of them a negative one
if it is `int8_t`, and a span assigned an array of 256 elements is empty. -/
theorem C138_refuted :
    spanByteSize ⟨.w8, false⟩ 64 4 = 0 ∧ spanByteSize ⟨.w8, true⟩ 32 4 = -128 ∧ spanAssignSize ⟨.w8, false⟩ 256 = 0 := by
  decide +kernel

theorem wrap_fits (t : ITy) (x : Int) : t.min ≤ t.wrap x ∧ t.wrap x ≤ t.max :=
  ⟨(wrap_stored t x).1, (wrap_stored t x).2.1⟩

theorem max_lt_64 (t : ITy) : t.max < (2 ^ 64 : Nat) := by
  obtain ⟨w, s⟩ := t
  cases w <;> cases s <;> decide +kernel

theorem min_le_zero (t : ITy) : t.min ≤ 0 := by
  obtain ⟨w, s⟩ := t
  cases w <;> cases s <;> decide +kernel

/-- **C138**, what holds: the size in bytes, and the size of an array assigned, are exact if and only if the index type has
that value.  Missing: other sizes (false, see `C138_refuted`). -/
theorem C138_sizes_partial (t : ITy) :
    (∀ (size : Int) (elem : Nat), 0 ≤ size → (spanByteSize t size elem = size * elem ↔ size * elem ≤ t.max)) ∧
    (∀ n : Nat, spanAssignSize t n = n ↔ (n : Int) ≤ t.max) := by
  have hmin := min_le_zero t
  have hmax := max_lt_64 t
  refine ⟨fun size elem h0 => ⟨fun h => ?_, fun h => ?_⟩, fun n => ⟨fun h => ?_, fun h => ?_⟩⟩
  · rw [← h]; exact (wrap_fits t _).2
  · have hp : 0 ≤ size * elem := Int.mul_nonneg h0 (Int.natCast_nonneg _)
    unfold spanByteSize
    rw [Int.emod_eq_of_lt hp (Int.lt_of_le_of_lt h hmax)]
    exact wrap_of_fits (Int.le_trans hmin hp) h
  · rw [← h]; exact (wrap_fits t _).2
  · exact wrap_of_fits (Int.le_trans hmin (Int.natCast_nonneg _)) h

example : spanByteSize ⟨.w16, true⟩ 100 8 = 800 := ((C138_sizes_partial _).1 100 8 (by decide)).2 (by decide +kernel)
example : spanAssignSize ⟨.w8, true⟩ 127 = 127 := ((C138_sizes_partial _).2 127).2 (by decide +kernel)
example : ¬ spanAssignSize ⟨.w8, true⟩ 128 = 128 := fun h => absurd (((C138_sizes_partial _).2 128).1 h) (by decide +kernel)

/-! ### C139 -/

theorem spanElems_get {mem : List Nat} {ptr : Nat} {size : Int} {i : Nat} (hi : (i : Int) < size) :
    (spanElems mem ptr size)[i]? = mem[ptr + i]? := by
  unfold spanElems
  rw [List.getElem?_take, if_pos (by omega), List.getElem?_drop]

theorem readElem_elems {mem : List Nat} {ptr : Nat} {size : Int} (hm : ptr + size ≤ mem.length) {i : Nat} (hi : (i : Int) < size) :
    ∃ x, (spanElems mem ptr size)[i]? = some x ∧ readElem mem ((ptr : Int) + i) = .ok x := by
  have hl : ptr + i < mem.length := by omega
  refine ⟨mem[ptr + i], ?_, ?_⟩
  · rw [spanElems_get hi, List.getElem?_eq_getElem hl]
  · have e : ((ptr : Int) + i).toNat = ptr + i := by omega
    unfold readElem
    rw [if_neg (by omega), e, List.getElem?_eq_getElem hl]

/-- **C139**: for every index type, elements are accessed within the span, and accesses outside of it are reported: the first,
the last and the element at an index are those of the elements of the span. -/
theorem C139_access (t : ITy) {mem : List Nat} {ptr : Nat} {size : Int} (h0 : 0 ≤ size) (h1 : size ≤ t.max)
    (hm : ptr + size ≤ mem.length) :
    spanFront mem ptr size = (match (spanElems mem ptr size).head? with | some x => .ok x | none => .abort) ∧
    spanBack t mem ptr size = (match (spanElems mem ptr size).getLast? with | some x => .ok x | none => .abort) ∧
    (∀ i : Int, 0 ≤ i → spanAt mem ptr size i =
      (match (spanElems mem ptr size)[i.toNat]? with | some x => .ok x | none => .abort)) ∧
    (∀ i : Int, i < 0 → spanAt mem ptr size i = .abort) := by
  have hlen : (spanElems mem ptr size).length = size.toNat := by
    unfold spanElems
    rw [List.length_take, List.length_drop]
    omega
  refine ⟨?_, ?_, fun i hi => ?_, fun i hi => ?_⟩
  · unfold spanFront
    by_cases hz : size = 0
    · subst hz
      simp [spanElems]
    · obtain ⟨x, hx, hr⟩ := readElem_elems hm (i := 0) (by omega)
      rw [List.head?_eq_getElem?, hx]
      simpa [hz] using hr
  · unfold spanBack
    by_cases hz : size = 0
    · subst hz
      simp [spanElems]
    · have hf := fits_prom (t := t) (x := size - 1) ⟨Int.le_trans (min_le_zero t) (by omega), by omega⟩
      have ha := arith_no_overflow hf.1 hf.2
      obtain ⟨x, hx, hr⟩ := readElem_elems hm (i := size.toNat - 1) (by omega)
      have e : ((size.toNat - 1 : Nat) : Int) = size - 1 := by omega
      rw [e] at hr
      rw [List.getLast?_eq_getElem?, hlen, hx, ha]
      simpa [hz] using hr
  · unfold spanAt
    by_cases hs : i < size
    · obtain ⟨x, hx, hr⟩ := readElem_elems hm (i := i.toNat) (by omega)
      have e : ((i.toNat : Nat) : Int) = i := by omega
      rw [e] at hr
      rw [if_pos ⟨hi, hs⟩, hx, hr]
    · rw [if_neg (by omega), List.getElem?_eq_none (by omega)]
  · unfold spanAt
    rw [if_neg (by omega)]

/-- **C139**: spans with different index types are the same if and only if the addresses and the sizes are equal; a size that
the index type of the left span does not have is reported. -/
theorem C139_same_span (t u : ITy) {ptr thatPtr : Nat} {size thatSize : Int}
    (h0 : 0 ≤ thatSize) (h1 : thatSize ≤ u.max) :
    (thatSize ≤ t.max → ∃ b, sameSpanOther t u ptr size thatPtr thatSize = .ok b ∧ (b = true ↔ size = thatSize ∧ ptr = thatPtr)) ∧
    (t.max < thatSize → sameSpanOther t u ptr size thatPtr thatSize = .abort) := by
  have hs := (C78_szconv_partial t u (Int.le_trans (min_le_zero u) h0) h1).1 h0
  unfold sameSpanOther
  rw [hs]
  refine ⟨fun h => ?_, fun h => ?_⟩
  · rw [if_pos h]
    exact ⟨_, rfl, by simp⟩
  · rw [if_neg (by omega)]
    rfl

example : spanBack ⟨.w8, false⟩ [7, 8, 9, 10] 1 2 = .ok 9 := (C139_access ⟨.w8, false⟩ (by decide) (by decide +kernel) (by decide)).2.1
example : spanAt [7, 8, 9, 10] 1 2 2 = .abort := (C139_access ⟨.w8, true⟩ (by decide) (by decide +kernel) (by decide)).2.2.1 2 (by decide)
example : sameSpanOther ⟨.w8, false⟩ ⟨.w64, false⟩ 3 0 3 256 = .abort :=
  (C139_same_span _ _ (by decide) (by decide +kernel)).2 (by decide +kernel)
example : sameSpanOther ⟨.w8, false⟩ ⟨.w64, true⟩ 3 5 3 5 = .ok true := by decide +kernel

end C4
