import Verif.Props.Bulk
/-
Property C106: copying and moving n objects between ranges that overlap.
-/
namespace C4

variable {α : Type}

/-- Where the `k`-th object comes from when objects are copied one after the other from `s` to `d`: from its place, or, if the destination begins behind the source, from one of the objects before the destination. -/
def Spec.fromIdx (d s k : Nat) : Nat := if d ≤ s then s + k else s + k % (d - s)

/-- The slots from `d` hold what is described by `fromIdx`, all others are unchanged. -/
def Spec.SlotsRepeated (m m' : Slots α) (d s n : Nat) : Prop :=
  m'.cells.length = m.cells.length ∧ (∀ k, k < n → m'.cells[d + k]? = m.cells[Spec.fromIdx d s k]?) ∧ ∀ j, j < d ∨ d + n ≤ j → m'.cells[j]? = m.cells[j]?

/-- After moving n objects one after the other.  If the destination begins before the source, it holds the objects, and what remains of the source is moved from; otherwise the whole source is moved from,
and what remains of the destination holds what is described by `fromIdx`. -/
def Spec.SlotsShifted (m m' : Slots α) (d s n : Nat) : Prop :=
  m'.cells.length = m.cells.length ∧
  (∀ k, k < n → d < s → m'.cells[d + k]? = m.cells[s + k]?) ∧ (∀ k, k < n → d < s → d + n ≤ s + k → m'.cells[s + k]? = some .moved) ∧
  (∀ k, k < n → s ≤ d → m'.cells[s + k]? = some .moved) ∧ (∀ k, k < n → s ≤ d → s + n ≤ d + k → m'.cells[d + k]? = m.cells[Spec.fromIdx d s k]?) ∧
  ∀ j, j < d ∨ d + n ≤ j → j < s ∨ s + n ≤ j → m'.cells[j]? = m.cells[j]?

open Spec

theorem fromIdx_read {β : Type} (g : Nat → β) (d s i : Nat) : (if d ≤ s + i ∧ s + i < d + i then g (fromIdx d s (s + i - d)) else g (s + i)) = g (fromIdx d s i) := by
  unfold fromIdx
  by_cases h : d ≤ s
  · rw [if_neg (by omega), if_pos h]
  · rw [if_neg h, if_neg h]
    by_cases h2 : d ≤ s + i
    · rw [if_pos (by omega), show s + i - d = i - (d - s) by omega, ← Nat.mod_eq_sub_mod (by omega)]
    · rw [if_neg (by omega), Nat.mod_eq_of_lt (by omega)]

theorem fromIdx_obj {m : Slots α} {d s n i : Nat} (hs : Objs m s n) (hi : i < n) : ∃ c, m.cells[fromIdx d s i]? = some c ∧ c.isObj = true := by
  unfold fromIdx
  split
  · exact hs i hi
  · exact hs _ (Nat.lt_of_le_of_lt (Nat.mod_le _ _) hi)

theorem repeated_of_shape {m m' : Slots α} {d s n k : Nat} (hd : d + n ≤ m.cells.length)
    (h : Shape m' m.cells.length (fun j => if d ≤ j ∧ j < d + n then m.cells[fromIdx d s (j - d)]? else m.cells[j]?) k) : SlotsRepeated m m' d s n := by
  refine ⟨h.1, fun i hi => ?_, fun j hj => h.out fun _ => if_neg (by omega)⟩
  rw [h.get (by omega)]
  rw [if_pos (by omega), Nat.add_sub_cancel_left]

theorem repeated_next {m : Slots α} {d s i j : Nat} {c : Cell α} (hc : m.cells[fromIdx d s i]? = some c) :
    (if j = d + i then some c else if d ≤ j ∧ j < d + i then m.cells[fromIdx d s (j - d)]? else m.cells[j]?) =
      if d ≤ j ∧ j < d + (i + 1) then m.cells[fromIdx d s (j - d)]? else m.cells[j]? := by
  by_cases c1 : j = d + i
  · rw [if_pos c1, if_pos (by omega), ← hc]; congr 2; omega
  · rw [if_neg c1]
    by_cases c2 : d ≤ j ∧ j < d + i
    · rw [if_pos c2, if_pos (by omega)]
    · rw [if_neg c2, if_neg (by omega)]

/-- **C106**, `copy_assign_n` of types that are not trivial, for all ranges. -/
theorem C106_copy_assign_exact {m : Slots α} {d s n : Nat} (hd' : d + n ≤ m.cells.length) (hd : Objs m d n) (hs' : s + n ≤ m.cells.length) (hs : Objs m s n) :
    ∃ m', copyAssignN m d s n false = .ok m' ∧ SlotsRepeated m m' d s n := by
  obtain ⟨m', e, h⟩ := forN_inv (n := n) (s := m) (f := fun i m => m.copyAssign (d + i) (s + i))
    (fun i m' => Shape m' m.cells.length (fun j => if d ≤ j ∧ j < d + i then m.cells[fromIdx d s (j - d)]? else m.cells[j]?) m.dropped)
    ((Shape.of m).congr (fun j _ => by rw [if_neg (by omega)]) rfl)
    (by
      intro i hi m1 h
      obtain ⟨old, ho, hoo⟩ := hd i hi
      obtain ⟨c, hc, hco⟩ := fromIdx_obj (d := d) hs hi
      obtain ⟨m2, e2, h2⟩ := copyAssign_ok h (d := d + i) (s := s + i) (by omega) (by omega)
        ((fromIdx_read (fun j => m.cells[j]?) d s i).trans hc) hco (by rw [if_neg (by omega)]; exact ho) hoo
      exact ⟨m2, e2, h2.congr (fun j hj => repeated_next hc) rfl⟩)
  exact ⟨m', e, repeated_of_shape hd' h⟩

example : copyAssignN ⟨[.live 1, .live 2, .live 3, .live 4, .live 5, .live 6], 0⟩ 2 0 4 false = .ok ⟨[.live 1, .live 2, .live 1, .live 2, .live 1, .live 2], 0⟩ ∧ fromIdx 2 0 3 = 1 := by decide

/-- **C106**, `copy_construct_n` of types that are not trivial, for all ranges that do not begin together; if they do, it is undefined. -/
theorem C106_copy_construct_exact {m : Slots α} {d s n : Nat} (hd : d + n ≤ m.cells.length) (hs' : s + n ≤ m.cells.length) (hs : Objs m s n) :
    (d ≠ s → ∃ m', copyConstructN m d s n false = .ok m' ∧ SlotsRepeated m m' d s n) ∧ (d = s → 0 < n → copyConstructN m d s n false = .ub) := by
  constructor
  · intro hne
    obtain ⟨m', e, k, h⟩ := forN_inv (n := n) (s := m) (f := fun i m => m.copyConstruct (d + i) (s + i))
      (fun i m' => ∃ k, Shape m' m.cells.length (fun j => if d ≤ j ∧ j < d + i then m.cells[fromIdx d s (j - d)]? else m.cells[j]?) k)
      ⟨_, (Shape.of m).congr (fun j _ => by rw [if_neg (by omega)]) rfl⟩
      (by
        rintro i hi m1 ⟨k, h⟩
        obtain ⟨old, ho⟩ := slot_some (m := m) (j := d + i) (by omega)
        obtain ⟨c, hc, hco⟩ := fromIdx_obj (d := d) hs hi
        obtain ⟨m2, e2, h2⟩ := copyConstruct_ok h (d := d + i) (s := s + i) (by omega) (by omega) (by omega)
          ((fromIdx_read (fun j => m.cells[j]?) d s i).trans hc) hco (by rw [if_neg (by omega)]; exact ho)
        exact ⟨m2, e2, _, h2.congr (fun j hj => repeated_next hc) rfl⟩)
    exact ⟨m', e, repeated_of_shape hd h⟩
  · rintro rfl hn
    obtain ⟨c, hc, hco⟩ := hs 0 hn
    obtain ⟨n, rfl⟩ : ∃ k, n = k + 1 := ⟨n - 1, by omega⟩
    have e : m.copyConstruct (d + 0) (d + 0) = .ub := by
      unfold Slots.copyConstruct
      rw [hc]
      cases c <;> first | (cases hco; done) | (simp only [if_true])
    unfold copyConstructN forN
    simp only [Bool.false_eq_true, if_false, forFrom, e]
    rfl

example : copyConstructN ⟨[.live 1, .raw, .raw], 0⟩ 1 0 1 false = .ok ⟨[.live 1, .live 1, .raw], 0⟩ ∧ copyConstructN ⟨[.live 1, .live 2, .live 3], 0⟩ 1 0 2 false = .ok ⟨[.live 1, .live 1, .live 1], 2⟩ := by decide

/-- The slots while objects are moved, after `i` of them. -/
def shiftF (m : Slots α) (d s i j : Nat) : Option (Cell α) :=
  if d < s then (if d ≤ j ∧ j < d + i then m.cells[s + (j - d)]? else if s ≤ j ∧ j < s + i then some .moved else m.cells[j]?)
  else if s ≤ j ∧ j < s + i then some .moved else if d ≤ j ∧ j < d + i then m.cells[fromIdx d s (j - d)]? else m.cells[j]?

theorem shiftF_zero (m : Slots α) (d s j : Nat) : shiftF m d s 0 j = m.cells[j]? := by
  unfold shiftF
  split <;> rw [if_neg (by omega), if_neg (by omega)]

theorem shiftF_read (m : Slots α) (d s i : Nat) : shiftF m d s i (s + i) = m.cells[fromIdx d s i]? := by
  unfold shiftF
  split
  · rw [if_neg (by omega), if_neg (by omega)]
    unfold fromIdx
    rw [if_pos (by omega)]
  · rw [if_neg (by omega)]
    exact fromIdx_read (fun j => m.cells[j]?) d s i

theorem shiftF_old (m : Slots α) (d s i : Nat) : shiftF m d s i (d + i) = m.cells[d + i]? ∨ shiftF m d s i (d + i) = some .moved := by
  unfold shiftF
  split
  · rw [if_neg (by omega)]
    split
    · exact .inr rfl
    · exact .inl rfl
  · rw [if_neg (by omega), if_neg (by omega)]
    exact .inl rfl

theorem shiftF_next {m : Slots α} {d s i j : Nat} {c : Cell α} (hc : m.cells[fromIdx d s i]? = some c) :
    (if j = s + i then some .moved else if j = d + i then some c else shiftF m d s i j) = shiftF m d s (i + 1) j := by
  unfold shiftF
  by_cases h : d < s
  · simp only [if_pos h]
    unfold fromIdx at hc
    rw [if_pos (by omega)] at hc
    by_cases c0 : j = s + i
    · rw [if_pos c0, if_neg (by omega), if_pos (by omega)]
    · rw [if_neg c0]
      by_cases c1 : j = d + i
      · rw [if_pos c1, if_pos (by omega), ← hc]; congr 1; omega
      · rw [if_neg c1]
        by_cases c2 : d ≤ j ∧ j < d + i
        · rw [if_pos c2, if_pos (by omega)]
        · rw [if_neg c2, if_neg (c := d ≤ j ∧ j < d + (i + 1)) (by omega)]
          by_cases c3 : s ≤ j ∧ j < s + i
          · rw [if_pos c3, if_pos (by omega)]
          · rw [if_neg c3, if_neg (by omega)]
  · simp only [if_neg h]
    by_cases c0 : j = s + i
    · rw [if_pos c0, if_pos (by omega)]
    · rw [if_neg c0]
      by_cases c1 : j = d + i
      · rw [if_pos c1, if_neg (by omega), if_pos (by omega), ← hc]; congr 2; omega
      · rw [if_neg c1]
        by_cases c2 : s ≤ j ∧ j < s + i
        · rw [if_pos c2, if_pos (by omega)]
        · rw [if_neg c2, if_neg (c := s ≤ j ∧ j < s + (i + 1)) (by omega)]
          by_cases c3 : d ≤ j ∧ j < d + i
          · rw [if_pos c3, if_pos (by omega)]
          · rw [if_neg c3, if_neg (by omega)]

theorem shifted_of_shape {m m' : Slots α} {d s n k : Nat} (hd : d + n ≤ m.cells.length) (hs : s + n ≤ m.cells.length) (h : Shape m' m.cells.length (shiftF m d s n) k) :
    SlotsShifted m m' d s n := by
  refine ⟨h.1, ?_, ?_, ?_, ?_, ?_⟩
  · intro i hi hds
    rw [h.get (by omega)]
    unfold shiftF
    rw [if_pos hds, if_pos (by omega), Nat.add_sub_cancel_left]
  · intro i hi hds ho
    rw [h.get (by omega)]
    unfold shiftF
    rw [if_pos hds, if_neg (by omega), if_pos (by omega)]
  · intro i hi hds
    rw [h.get (by omega)]
    unfold shiftF
    rw [if_neg (by omega), if_pos (by omega)]
  · intro i hi hds ho
    rw [h.get (by omega)]
    unfold shiftF
    rw [if_neg (by omega), if_neg (by omega), if_pos (by omega), Nat.add_sub_cancel_left]
  · intro j h1 h2
    apply h.out
    intro _
    unfold shiftF
    split <;> rw [if_neg (by omega), if_neg (by omega)]

/-- **C106**, `move_assign_n` of types that are not trivial, for all ranges. -/
theorem C106_move_assign_exact {m : Slots α} {d s n : Nat} (hd' : d + n ≤ m.cells.length) (hd : Objs m d n) (hs' : s + n ≤ m.cells.length) (hs : Objs m s n) :
    ∃ m', moveAssignN m d s n false = .ok m' ∧ SlotsShifted m m' d s n := by
  obtain ⟨m', e, h⟩ := forN_inv (n := n) (s := m) (f := fun i m => m.moveAssign (d + i) (s + i))
    (fun i m' => Shape m' m.cells.length (shiftF m d s i) m.dropped)
    ((Shape.of m).congr (fun j _ => (shiftF_zero m d s j).symm) rfl)
    (by
      intro i hi m1 h
      obtain ⟨c, hc, hco⟩ := fromIdx_obj (d := d) hs hi
      obtain ⟨old, ho, hoo⟩ : ∃ c, shiftF m d s i (d + i) = some c ∧ c.isObj = true := by
        rcases shiftF_old m d s i with h' | h'
        · rw [h']; exact hd i hi
        · exact ⟨_, h', rfl⟩
      obtain ⟨m2, e2, h2⟩ := moveAssign_ok h (d := d + i) (s := s + i) (by omega) (by omega) ((shiftF_read m d s i).trans hc) hco ho hoo
      exact ⟨m2, e2, h2.congr (fun j hj => shiftF_next hc) rfl⟩)
  exact ⟨m', e, shifted_of_shape hd' hs' h⟩

example : moveAssignN ⟨[.live 1, .live 2, .live 3, .live 4], 0⟩ 0 1 3 false = .ok ⟨[.live 2, .live 3, .live 4, .moved], 0⟩ ∧
    moveAssignN ⟨[.live 1, .live 2, .live 3, .live 4], 0⟩ 1 0 3 false = .ok ⟨[.moved, .moved, .moved, .live 1], 0⟩ ∧
    moveAssignN ⟨[.live 1, .live 2], 0⟩ 0 0 2 false = .ok ⟨[.moved, .moved], 0⟩ := by decide

/-- **C106**, `move_construct_n` of types that are not trivial, for all ranges that do not begin together. -/
theorem C106_move_construct_exact {m : Slots α} {d s n : Nat} (hd : d + n ≤ m.cells.length) (hs' : s + n ≤ m.cells.length) (hs : Objs m s n) (hne : d ≠ s) :
    ∃ m', moveConstructN m d s n false = .ok m' ∧ SlotsShifted m m' d s n := by
  obtain ⟨m', e, k, h⟩ := forN_inv (n := n) (s := m) (f := fun i m => m.moveConstruct (d + i) (s + i))
    (fun i m' => ∃ k, Shape m' m.cells.length (shiftF m d s i) k)
    ⟨_, (Shape.of m).congr (fun j _ => (shiftF_zero m d s j).symm) rfl⟩
    (by
      rintro i hi m1 ⟨k, h⟩
      obtain ⟨c, hc, hco⟩ := fromIdx_obj (d := d) hs hi
      obtain ⟨old, ho⟩ : ∃ c, shiftF m d s i (d + i) = some c := by
        rcases shiftF_old m d s i with h' | h'
        · rw [h']; exact slot_some (by omega)
        · exact ⟨_, h'⟩
      obtain ⟨m2, e2, h2⟩ := moveConstruct_ok h (d := d + i) (s := s + i) (by omega) (by omega) (by omega) ((shiftF_read m d s i).trans hc) hco ho
      exact ⟨m2, e2, _, h2.congr (fun j hj => shiftF_next hc) rfl⟩)
  exact ⟨m', e, shifted_of_shape hd hs' h⟩

example : moveConstructN ⟨[.raw, .live 2, .live 3], 0⟩ 0 1 2 false = .ok ⟨[.live 2, .live 3, .moved], 1⟩ := by decide

/-- **C106**, trivial types: all four functions are undefined if and only if the ranges have a slot in common. -/
theorem C106_trivial_exact {m : Slots α} {d s n : Nat} (hd : d + n ≤ m.cells.length) (hs : s + n ≤ m.cells.length) :
    (copyAssignN m d s n true = .ub ↔ ∃ j, (d ≤ j ∧ j < d + n) ∧ (s ≤ j ∧ j < s + n)) ∧
    copyConstructN m d s n true = copyAssignN m d s n true ∧ moveAssignN m d s n true = copyAssignN m d s n true ∧ moveConstructN m d s n true = copyAssignN m d s n true := by
  refine ⟨?_, rfl, rfl, rfl⟩
  unfold copyAssignN
  simp only [if_true]
  constructor
  · intro h
    by_cases c : d + n ≤ s ∨ s + n ≤ d ∨ n = 0
    · obtain ⟨m', e, _⟩ := memcpy_ok (Shape.of m) hd hs c
      rw [e] at h; cases h
    · exact ⟨max d s, by omega, by omega⟩
  · rintro ⟨j, h1, h2⟩
    unfold Slots.memcpy
    rw [if_neg (by omega)]

example : copyAssignN ⟨[.live 1, .live 2, .live 3], 0⟩ 0 1 2 true = .ub ∧ copyAssignN ⟨[.live 1, .live 2, .live 3], 0⟩ 0 1 1 true = .ok ⟨[.live 2, .live 2, .live 3], 0⟩ := by decide

end C4
