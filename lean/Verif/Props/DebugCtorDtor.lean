import Verif.Debug.CtorDtor
import Verif.Props.Room
/-
Property C175: the assertions of ctor_dtor.hpp.
-/
namespace C4

variable {α : Type}

/-- The value is one of the type. -/
def Spec.InType (t : ITy) (x : Int) : Prop := t.min ≤ x ∧ x ≤ t.max

open Spec

theorem bits_facts (w : W) : (2 : Nat) ^ w.bits = 2 * 2 ^ (w.bits - 1) ∧ 128 ≤ 2 ^ (w.bits - 1) := by cases w <;> decide

/-- A sum that the type has is computed exactly. -/
theorem calc_exact {t : ITy} {x : Int} (h : InType t.prom x) : t.calc x = .ok x := by
  obtain ⟨h1, h2⟩ := h
  have hb := bits_facts t.prom.w
  unfold ITy.calc ITy.arith
  have hw : t.prom.wrap x = x := by
    unfold ITy.wrap
    unfold ITy.min at h1
    unfold ITy.max at h2
    generalize t.prom = p at *
    cases hs : p.sgn with
    | true =>
      rw [hs] at h1 h2
      simp only [if_true] at h1 h2 ⊢
      rw [Int.bmod_def]
      obtain ⟨hb1, hb2⟩ := hb
      generalize 2 ^ p.w.bits = A at *
      generalize 2 ^ (p.w.bits - 1) = B at *
      subst hb1
      by_cases hx : 0 ≤ x
      · rw [Int.emod_eq_of_lt hx (by omega), if_pos (by omega)]
      · have : x % ((2 * B : Nat) : Int) = x + (2 * B : Nat) := by
          rw [← Int.add_emod_right]
          exact Int.emod_eq_of_lt (by omega) (by omega)
        rw [this, if_neg (by omega)]; omega
    | false =>
      rw [hs] at h1 h2
      simp only [Bool.false_eq_true, if_false] at h1 h2 ⊢
      exact Int.emod_eq_of_lt h1 (by omega)
  rw [hw]
  have : (t.prom.sgn && (decide (x < t.prom.min) || decide (x > t.prom.max))) = false := by
    rw [decide_eq_false (by omega), decide_eq_false (by omega)]; simp
  rw [this]; rfl

theorem prom_wide {t : ITy} {x : Int} (h : InType t x) : InType t.prom x := by
  obtain ⟨w, sg⟩ := t
  unfold InType ITy.min ITy.max ITy.prom at *
  cases w <;> cases sg <;> simp [W.bits] at h ⊢ <;> omega

theorem min_nonpos (t : ITy) : t.min ≤ 0 := by
  obtain ⟨w, sg⟩ := t
  cases w <;> cases sg <;> decide

theorem assert_bind {β : Type} {c : Prop} [Decidable c] {k : Res β} : (assertThat c >>= fun _ => k) = if c then k else .abort := by
  unfold assertThat; split <;> rfl

/-- **C175**, making room in a buffer: if the type has the sum of the size and the gap, then the assertions accept exactly the positions in the buffer and gaps for which the buffer suffices,
and the elements are moved as they are without assertions.  Missing: sums that the type does not have (false, see `C175_refuted_wrap`). -/
theorem C175_make_room_partial {t : ITy} (m : Slots α) (b : Nat) {bufsz currsz pos room : Int} (triv : Bool) (h2 : InType t currsz)
    (hs : InType t (room + currsz)) :
    makeRoomPosD t m b bufsz currsz pos room triv =
      if 0 ≤ pos ∧ pos ≤ currsz ∧ 0 ≤ room ∧ currsz + room ≤ bufsz then makeRoomPos m b currsz.toNat pos.toNat room.toNat triv else .abort := by
  unfold makeRoomPosD
  rw [calc_exact (prom_wide hs), Res.ok_bind, assert_bind, assert_bind, assert_bind]
  by_cases hp : pos ≥ 0 ∧ pos ≤ currsz
  · have hd : t.calc (currsz - pos) = .ok (currsz - pos) := calc_exact (prom_wide (by unfold InType at *; have := min_nonpos t; omega))
    rw [if_pos hp, hd, Res.ok_bind]
    unfold makeRoomD
    rw [assert_bind]
    by_cases hr : 0 ≤ room ∧ currsz + room ≤ bufsz
    · rw [if_pos (by omega), if_pos (by omega), if_pos (by omega), if_pos (by omega)]
      unfold makeRoomPos
      congr 1
      omega
    · by_cases hc : currsz ≤ bufsz
      · rw [if_pos hc]
        by_cases hc' : room + currsz ≤ bufsz
        · rw [if_pos hc', if_neg (by omega), if_neg (by omega)]
        · rw [if_neg hc', if_neg (by omega)]
      · rw [if_neg hc, if_neg (by omega)]
  · rw [if_neg hp, if_neg (by omega)]

example : InType ⟨.w32, true⟩ 4 ∧ makeRoomPosD ⟨.w32, true⟩ ⟨[.live 1, .live 2, .live 3, .raw], 0⟩ 0 4 3 1 1 false = .ok ⟨[.live 1, .moved, .live 2, .live 3], 1⟩ ∧
    makeRoomPosD ⟨.w32, true⟩ ⟨[.live 1, .live 2, .live 3, .raw], 0⟩ 0 4 3 1 2 false = .abort ∧
    makeRoomPosD ⟨.w32, true⟩ ⟨[.live 1, .live 2, .live 3, .raw], 0⟩ 0 4 3 1 (-1) false = .abort := by
  refine ⟨by unfold InType ITy.min ITy.max; decide, by decide, by decide, by decide⟩

/-- **C175** fails for sums that the type does not have: with an unsigned type a gap of almost its whole range is accepted for a full buffer of a single element, and the element is moved out of the buffer;
with a signed type the sum in the assertion is undefined. -/
theorem C175_refuted_wrap (v : α) (m : Slots α) (b : Nat) (triv : Bool) :
    makeRoomPosD ⟨.w64, false⟩ ⟨[.live v], 0⟩ 0 1 1 0 (2 ^ 64 - 1) triv = .ub ∧ makeRoomPosD ⟨.w32, true⟩ ⟨[.live v], 0⟩ 0 1 1 0 (2 ^ 31 - 1) triv = .ub ∧
    makeRoomPosD ⟨.w64, false⟩ m b 1 1 0 (2 ^ 64 - 1) triv = makeRoomPos m b 1 0 (2 ^ 64 - 1) triv := by
  refine ⟨by cases triv <;> rfl, by cases triv <;> rfl, ?_⟩
  unfold makeRoomPosD makeRoomD makeRoomPos
  have h1 : (⟨.w64, false⟩ : ITy).calc (2 ^ 64 - 1 + 1) = .ok 0 := by decide
  have h2 : (⟨.w64, false⟩ : ITy).calc (1 - 0) = .ok 1 := by decide
  rw [h1, h2]
  simp only [Res.ok_bind, assert_bind]
  rw [if_pos (by omega), if_pos (by omega), if_pos (by omega), if_pos (by omega)]
  congr 1

/-- The arguments of make_room with two buffers that make sense. -/
def Spec.RoomTo (dstsz srcsz room pos : Int) : Prop := 0 ≤ pos ∧ pos ≤ srcsz ∧ 0 ≤ room ∧ srcsz + room ≤ dstsz

/-- **C175**, making room in a copy: the assertions accept exactly the calls that make sense, but for a gap at the end.  Missing: this gap (false, see `C175_refuted_end`), and sums that the type does not have. -/
theorem C175_make_room_to_partial {t : ITy} (m : Slots α) (src : List (Cell α)) {dstsz srcsz room pos : Int} (triv : Bool) (hs : InType t (srcsz + room)) :
    (RoomTo dstsz srcsz room pos → pos ≠ srcsz ∨ srcsz = 0 →
      makeRoomToSizedD t m dstsz src srcsz room pos triv = makeRoomTo m src srcsz.toNat room.toNat pos.toNat triv ∧
      makeRoomToD m src srcsz room pos triv = makeRoomTo m src srcsz.toNat room.toNat pos.toNat triv) ∧
    (¬ RoomTo dstsz srcsz room pos → makeRoomToSizedD t m dstsz src srcsz room pos triv = .abort) := by
  unfold makeRoomToSizedD makeRoomToD RoomTo
  rw [calc_exact (prom_wide hs), Res.ok_bind]
  simp only [assert_bind]
  refine ⟨fun h1 h2 => ⟨?_, ?_⟩, fun h => ?_⟩
  · rw [if_pos (by omega), if_pos (by omega), if_pos (by omega), if_pos (by omega), if_pos (by omega)]
  · rw [if_pos (by omega), if_pos (by omega)]
  · split
    · split
      · split
        · rw [if_neg (by omega)]
        · rfl
      · rfl
    · rfl

/-- **C175** fails for a gap at the end of the copy: the assertions reject it, though without them the elements are copied (`C81_make_room_to`). -/
theorem C175_refuted_end {t : ITy} (m : Slots α) (src : List (Cell α)) (dstsz srcsz room : Int) (triv : Bool) (h : 0 < srcsz) :
    makeRoomToSizedD t m dstsz src srcsz room srcsz triv = .abort ∧ makeRoomToD m src srcsz room srcsz triv = .abort := by
  unfold makeRoomToSizedD makeRoomToD
  simp only [assert_bind]
  refine ⟨by rw [if_neg (by omega)], ?_⟩
  split
  · rw [if_neg (by omega)]
  · rfl

example : RoomTo 3 2 1 2 ∧ makeRoomTo ⟨[.raw, .raw, .raw], 0⟩ [.live 1, .live 2] 2 1 2 false = .ok ⟨[.live 1, .live 2, .raw], 0⟩ ∧ InType ⟨.w64, false⟩ (2 + 1) :=
  ⟨by unfold RoomTo; decide, by decide, by unfold InType ITy.min ITy.max; decide⟩

/-- **C175**, removing: in a buffer the assertions accept exactly the gaps within the elements; with a copy, exactly the gaps within them that begin at one of them, if the type has the sum. -/
theorem C175_destroy_room_partial {t : ITy} (m : Slots α) (b : Nat) (src : List (Cell α)) {n room pos : Int} (triv : Bool) (hs : InType t (pos + room)) :
    destroyRoomD m b n room triv = (if 0 ≤ room ∧ room ≤ n then destroyRoom m b n.toNat room.toNat triv else .abort) ∧
    destroyRoomToD t m src n room pos triv =
      (if 0 ≤ pos ∧ pos < n ∧ 0 ≤ room ∧ pos + room ≤ n then destroyRoomTo m src n.toNat room.toNat pos.toNat triv else .abort) := by
  unfold destroyRoomD destroyRoomToD
  rw [calc_exact (prom_wide hs), Res.ok_bind]
  simp only [assert_bind]
  constructor
  · by_cases h : 0 ≤ room ∧ room ≤ n
    · rw [if_pos (by omega), if_pos (by omega), if_pos h]
    · rw [if_neg h]
      split
      · rw [if_neg (by omega)]
      · rfl
  · by_cases h : 0 ≤ pos ∧ pos < n ∧ 0 ≤ room ∧ pos + room ≤ n
    · rw [if_pos (by omega), if_pos (by omega), if_pos (by omega), if_pos h]
    · rw [if_neg h]
      split
      · split
        · rw [if_neg (by omega)]
        · rfl
      · rfl

/-- **C175** fails for removing nothing at the end, also from an empty buffer: it is rejected, though without assertions all elements are copied. -/
theorem C175_refuted_nothing {t : ITy} (m : Slots α) (src : List (Cell α)) (n : Int) (triv : Bool) :
    destroyRoomToD t m src n 0 n triv = .abort ∧ destroyRoomTo (⟨[], 0⟩ : Slots α) [] 0 0 0 triv = .ok ⟨[], 0⟩ := by
  unfold destroyRoomToD
  simp only [assert_bind]
  refine ⟨?_, by cases triv <;> rfl⟩
  split
  · rw [if_neg (by omega)]
  · rfl

/-- **C175**, functions for `n` objects and a source: rejected exactly if the source is the destination; nothing else changes.  Missing: other ranges with a common element are accepted
(`C175_refuted_overlap`), and no objects are rejected if source and destination are the same. -/
theorem C175_copies_partial (c : NCall) (m : Slots α) (d s n : Nat) (triv : Bool) : c.runD m d s n triv = if d = s then .abort else c.run m d s n triv := by
  unfold NCall.runD
  rw [assert_bind]
  by_cases h : d = s
  · rw [if_pos h, if_neg (by simpa using h)]
  · rw [if_neg h, if_pos h]

/-- **C175** fails for copies: ranges of trivial objects that have an element in common but do not begin at the same place are accepted, which is undefined; and no objects are rejected
at the same place, though nothing would be done. -/
theorem C175_refuted_overlap (c : NCall) (m : Slots α) (d s n : Nat) (triv : Bool) :
    (d ≠ s → d < s + n → s < d + n → c.runD m d s n true = .ub) ∧ c.runD m d d 0 triv = .abort ∧ (d ≤ m.cells.length → c.run m d d 0 triv = .ok m) := by
  refine ⟨fun h1 h2 h3 => ?_, ?_, fun h => ?_⟩
  · rw [C175_copies_partial, if_neg h1]
    have : m.memcpy d s n = .ub := by unfold Slots.memcpy; rw [if_neg (by omega)]
    cases c <;> exact this
  · rw [C175_copies_partial, if_pos rfl]
  · have : m.memcpy d d 0 = .ok m := by
      unfold Slots.memcpy Slots.memmove
      rw [if_pos (by omega), if_pos (by omega)]
      simp
    cases triv
    · cases c <;> rfl
    · cases c <;> exact this

example : NCall.runD ⟨[.live 1, .live 2, .live 3], 0⟩ 1 0 2 true .copyAssign = .ub ∧ NCall.runD ⟨[.live 1, .live 2, .raw], 0⟩ 2 0 1 true .copyConstruct = .ok ⟨[.live 1, .live 2, .live 1], 0⟩ := by decide

end C4
