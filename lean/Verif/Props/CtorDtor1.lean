import Verif.CtorDtor1
import Verif.Props.Bulk
import Verif.Props.Room
/-
Properties C150-C153: exceptions while n objects are constructed, functions on one object and on scalars, room in a copy of an array, and
the values of objects constructed without arguments.
-/
namespace C4

variable {α : Type}

/-- `k` is the number of elements processed before the first that throws: `n` if none does. -/
structure Spec.FirstThrow (throws : Nat → Bool) (n k : Nat) : Prop where
  le : k ≤ n
  before : ∀ i, i < k → throws i = false
  at_end : k < n → throws k = true

open Spec

/-! ### C150 -/

theorem forThrow_eq {σ : Type} {f : Nat → σ → Res σ} {throws : Nat → Bool} : ∀ (j n i : Nat) (s : σ), j ≤ n →
    (∀ a, a < j → throws (i + a) = false) → (j < n → throws (i + j) = true) →
    forThrow f throws n i s = (forFrom f j i s).bind fun s => .ok (s, decide (j < n)) := by
  intro j
  induction j with
  | zero =>
    intro n i s _ _ h2
    cases n with
    | zero => rfl
    | succ n =>
      have := h2 (by omega)
      rw [Nat.add_zero] at this
      rw [forThrow, this, if_pos rfl]
      simp [forFrom, Res.bind]
  | succ j ih =>
    intro n i s hj h1 h2
    obtain ⟨n, rfl⟩ : ∃ n', n = n' + 1 := ⟨n - 1, by omega⟩
    have h0 := h1 0 (by omega)
    rw [Nat.add_zero] at h0
    rw [forThrow, h0, if_neg (by decide), forFrom]
    have := fun s => ih n (i + 1) s (by omega) (fun a ha => by rw [show i + 1 + a = i + (a + 1) by omega]; exact h1 _ (by omega))
      (fun h => by rw [show i + 1 + j = i + (j + 1) by omega]; exact h2 (by omega))
    cases hf : f i s with
    | ok s' =>
      rw [Res.ok_bind, Res.ok_bind, this s']
      congr 1; funext s; congr 2; simp
    | ub => rfl
    | abort => rfl
    | loop => rfl

theorem forThrow_first {σ : Type} {f : Nat → σ → Res σ} {throws : Nat → Bool} {n k : Nat} (h : FirstThrow throws n k) (s : σ) :
    forThrow f throws n 0 s = (forN k f s).bind fun s => .ok (s, decide (k < n)) :=
  forThrow_eq k n 0 s h.le (fun a ha => by rw [Nat.zero_add]; exact h.before a ha) (fun hk => by rw [Nat.zero_add]; exact h.at_end hk)

/-- **C150 is false**: the objects constructed before the exception are not destroyed. -/
theorem C150_refuted :
    copyConstructNT ⟨[.live 1, .live 2, .raw, .raw], 0⟩ 2 0 2 (fun i => i == 1) = .ok (⟨[.live 1, .live 2, .live 1, .raw], 0⟩, true) ∧
    constructNArgsT ⟨[.raw, .raw, .raw], 0⟩ 7 0 3 (fun i => i == 2) = .ok (⟨[.live 7, .live 7, .raw], 0⟩, true) ∧
    makeRoomToT ⟨[.raw, .raw, .raw, .raw], 0⟩ [.live 1, .live 2, .live 3] 3 1 1 (fun i => i == 2) =
      .ok (⟨[.live 1, .raw, .live 2, .raw], 0⟩, true) := by decide

/-- **C150 is false**: without arguments, an exception ends the program. -/
theorem C150_refuted_terminate : constructNT ⟨[.raw, .raw, .raw], 0⟩ 0 0 3 (fun i => i == 2) = .abort := by decide

/-- **C150**, what holds for `construct_n` with arguments and `copy_construct_n`: if the constructor of element `k` is the first to throw,
the exception reaches the caller with exactly the first `k` objects constructed; if none throws, all are.
Missing: destroying them (false, see above). -/
theorem C150_construct_partial {m : Slots α} (v : α) {d s n k : Nat} {throws : Nat → Bool} (ht : FirstThrow throws n k)
    (hd : d + n ≤ m.cells.length) :
    (∃ m', constructNArgsT m v d n throws = .ok (m', decide (k < n)) ∧ SlotsFilled m m' d k (.live v)) ∧
    (s + n ≤ m.cells.length → Objs m s n → Disjoint d s n →
      ∃ m', copyConstructNT m d s n throws = .ok (m', decide (k < n)) ∧ SlotsCopied m m' d s k) ∧
    (∀ c, m.cells[s]? = some c → c.isObj = true → s < d ∨ d + n ≤ s →
      ∃ m', fillConstructNT m d s n throws = .ok (m', decide (k < n)) ∧ SlotsFilled m m' d k c) := by
  have hk := ht.le
  refine ⟨?_, fun hs' hs hdis => ?_, fun c hc hco hout => ?_⟩
  · obtain ⟨m', e, h⟩ := C106_construct_args (m := m) v (d := d) (n := k) (by omega)
    refine ⟨m', ?_, h⟩
    unfold constructNArgsT
    unfold constructNArgs at e
    rw [forThrow_first ht, e]; rfl
  · obtain ⟨m', e, h⟩ := C106_copy_construct_partial (m := m) (d := d) (s := s) (n := k) (by omega) (by omega)
      (fun i hi => hs i (by omega)) (by unfold Disjoint at *; omega) false
    refine ⟨m', ?_, h⟩
    unfold copyConstructNT
    unfold copyConstructN at e
    rw [if_neg (by decide)] at e
    rw [forThrow_first ht, e]; rfl
  · obtain ⟨m', e, h⟩ := C106_fill_construct_partial (m := m) (d := d) (s := s) (n := k) (by omega) hc hco (by omega)
    refine ⟨m', ?_, h⟩
    unfold fillConstructNT
    unfold fillConstructN at e
    rw [forThrow_first ht, e]; rfl

/-- **C150**, what holds for `make_room` to another buffer: the elements before the one that throws are copied to their places, and
nothing else is written.  Missing: destroying them (false, see above). -/
theorem C150_make_room_partial {m : Slots α} {src : List (Cell α)} {n room pos k : Nat} {throws : Nat → Bool} (ht : FirstThrow throws n k)
    (hp : pos ≤ n) (hobj : ∀ i, i < n → ∃ c, src[i]? = some c ∧ c.isObj = true) (hd : n + room ≤ m.cells.length) :
    ∃ m', makeRoomToT m src n room pos throws = .ok (m', decide (k < n)) ∧ m'.cells.length = m.cells.length ∧
      (∀ i, i < k → m'.cells[if i < pos then i else i + room]? = src[i]?) ∧
      (∀ j, (∀ i, i < k → j ≠ if i < pos then i else i + room) → m'.cells[j]? = m.cells[j]?) := by
  have hk := ht.le
  unfold makeRoomToT
  rcases Nat.lt_or_ge k pos with hkp | hkp
  · have t1 : FirstThrow throws pos k := ⟨by omega, ht.before, fun _ => ht.at_end (by omega)⟩
    obtain ⟨m1, k1, e1, h1⟩ := copyRange_shape (src := src) (Shape.of m) (d := 0) (s := 0) (n := k)
      (fun j hj => slot_some hj) (by omega) (fun i hi => by rw [Nat.zero_add]; exact hobj i (by omega))
    simp only [Nat.zero_add] at e1
    refine ⟨m1, ?_, h1.1, fun i hi => ?_, fun j hj => ?_⟩
    · rw [forThrow_first t1, e1]
      simp only [Res.bind, hkp, decide_true]
      rw [Res.ok_bind]
      simp; omega
    · rw [if_pos (by omega), h1.get (by omega), if_pos (by omega)]
      congr 1; omega
    · refine h1.out fun hj' => if_neg fun c => ?_
      have := hj j (by omega)
      rw [if_pos (by omega)] at this
      omega
  · have t1 : FirstThrow throws pos pos := ⟨Nat.le_refl _, fun i hi => ht.before i (by omega), fun h => absurd h (by omega)⟩
    have t2 : FirstThrow (fun i => throws (pos + i)) (n - pos) (k - pos) :=
      ⟨by omega, fun i hi => ht.before _ (by omega), fun h => by rw [show pos + (k - pos) = k by omega]; exact ht.at_end (by omega)⟩
    obtain ⟨m1, k1, e1, h1⟩ := copyRange_shape (src := src) (Shape.of m) (d := 0) (s := 0) (n := pos)
      (fun j hj => slot_some hj) (by omega) (fun i hi => by rw [Nat.zero_add]; exact hobj i (by omega))
    simp only [Nat.zero_add] at e1
    obtain ⟨m2, k2, e2, h2⟩ := copyRange_shape (src := src) h1 (d := room + pos) (s := pos) (n := k - pos)
      (fun j hj => by
        by_cases c : 0 ≤ j ∧ j < 0 + pos
        · rw [if_pos c]
          obtain ⟨c', hc', _⟩ := hobj (0 + (j - 0)) (by omega)
          exact ⟨c', hc'⟩
        · rw [if_neg c]; exact slot_some hj)
      (by omega) (fun i hi => hobj _ (by omega))
    refine ⟨m2, ?_, h2.1, fun i hi => ?_, fun j hj => ?_⟩
    · rw [forThrow_first t1, e1]
      simp only [Res.bind, Nat.lt_irrefl, decide_false]
      rw [Res.ok_bind]
      simp only [Bool.false_eq_true, if_false]
      rw [forThrow_first t2, e2]
      simp only [Res.bind]
      congr 2
      rw [decide_eq_decide]; omega
    · by_cases c : i < pos
      · rw [if_pos c, h2.get (by omega), if_neg (by omega), if_pos (by omega)]
        congr 1; omega
      · rw [if_neg c, h2.get (by omega), if_pos (by omega)]
        congr 1; omega
    · refine h2.out fun hj' => ?_
      by_cases c1 : room + pos ≤ j ∧ j < room + pos + (k - pos)
      · have := hj (j - room) (by omega)
        rw [if_neg (by omega)] at this
        omega
      · rw [if_neg c1]
        refine if_neg fun c => ?_
        have := hj j (by omega)
        rw [if_pos (by omega)] at this
        omega

theorem noexcept_first {σ : Type} {f : Nat → σ → Res σ} {throws : Nat → Bool} {n k : Nat} (h : FirstThrow throws n k) {s s' : σ}
    (e : forN k f s = .ok s') : noexcept (forThrow f throws n 0 s) = if k < n then .abort else .ok (s', false) := by
  rw [forThrow_first h, e]
  unfold noexcept
  simp only [Res.bind]
  rw [Res.ok_bind]
  by_cases c : k < n <;> simp [c]

/-- **C150**, what holds for the functions declared `noexcept`: the program ends if a constructor or assignment that is reached throws;
otherwise all objects are constructed, assigned or moved.  Missing: handing the exception to the caller (false, see above). -/
theorem C150_noexcept_partial {m : Slots α} (zero : α) {d s n k : Nat} {throws : Nat → Bool} (ht : FirstThrow throws n k)
    (hd : d + n ≤ m.cells.length) :
    (if k < n then constructNT m zero d n throws = .abort else
      ∃ m', constructNT m zero d n throws = .ok (m', false) ∧ SlotsFilled m m' d n (.live zero)) ∧
    (s + n ≤ m.cells.length → Objs m s n → Disjoint d s n →
      (if k < n then moveConstructNT m d s n throws = .abort else
        ∃ m', moveConstructNT m d s n throws = .ok (m', false) ∧ SlotsMoved m m' d s n) ∧
      (Objs m d n → if k < n then copyAssignNT m d s n throws = .abort else
        ∃ m', copyAssignNT m d s n throws = .ok (m', false) ∧ SlotsCopied m m' d s n)) := by
  have hk := ht.le
  refine ⟨?_, fun hs' hs hdis => ⟨?_, fun hdo => ?_⟩⟩
  · obtain ⟨m', e, h⟩ := C106_construct_args (m := m) zero (d := d) (n := k) (by omega)
    have := noexcept_first ht e
    unfold constructNT
    rw [this]
    split
    · rfl
    · exact ⟨m', rfl, (show k = n by omega) ▸ h⟩
  · obtain ⟨m', e, h⟩ := C106_move_construct_partial (m := m) (d := d) (s := s) (n := k) (by omega) (by omega)
      (fun i hi => hs i (by omega)) (by unfold Disjoint at *; omega) false
    unfold moveConstructN at e
    rw [if_neg (by decide)] at e
    have := noexcept_first ht e
    unfold moveConstructNT
    rw [this]
    split
    · rfl
    · exact ⟨m', rfl, (show k = n by omega) ▸ h⟩
  · obtain ⟨m', e, h⟩ := C106_copy_assign_partial (m := m) (d := d) (s := s) (n := k) (by omega) (fun i hi => hdo i (by omega)) (by omega)
      (fun i hi => hs i (by omega)) (by unfold Disjoint at *; omega) false
    unfold copyAssignN at e
    rw [if_neg (by decide)] at e
    have := noexcept_first ht e
    unfold copyAssignNT
    rw [this]
    split
    · rfl
    · exact ⟨m', rfl, (show k = n by omega) ▸ h⟩

/-- The third of four constructors throws. -/
example : FirstThrow (fun i => i == 2) 4 2 ∧ Objs ⟨[Cell.live 1, .live 2, .live 3, .live 4, .raw, .raw, .raw, .raw], 0⟩ 0 4 ∧
    copyConstructNT ⟨[.live 1, .live 2, .live 3, .live 4, .raw, .raw, .raw, .raw], 0⟩ 4 0 4 (fun i => i == 2) =
      .ok (⟨[.live 1, .live 2, .live 3, .live 4, .live 1, .live 2, .raw, .raw], 0⟩, true) ∧
    moveConstructNT ⟨[.live 1, .live 2, .raw, .raw], 0⟩ 2 0 2 (fun i => i == 1) = .abort ∧
    moveConstructNT ⟨[.live 1, .live 2, .raw, .raw], 0⟩ 2 0 2 (fun i => i == 2) = .ok (⟨[.moved, .moved, .live 1, .live 2], 0⟩, false) ∧
    copyAssignNT ⟨[.live 1, .live 2, .moved, .live 9], 0⟩ 2 0 2 (fun _ => false) = .ok (⟨[.live 1, .live 2, .live 1, .live 2], 0⟩, false) ∧
    fillConstructNT ⟨[.live 1, .raw, .raw], 0⟩ 1 0 2 (fun i => i == 1) = .ok (⟨[.live 1, .live 1, .raw], 0⟩, true) := by
  refine ⟨⟨by decide, by decide, by decide⟩, ?_, by decide, by decide, by decide, by decide, by decide⟩
  intro i hi
  have : i = 0 ∨ i = 1 ∨ i = 2 ∨ i = 3 := by omega
  rcases this with rfl | rfl | rfl | rfl <;> exact ⟨_, rfl, rfl⟩

/-! ### C151 -/

theorem forN_one {σ : Type} (f : Nat → σ → Res σ) (s : σ) : forN 1 f s = f 0 s := by
  unfold forN
  rw [forFrom]
  cases f 0 s <;> rfl

/-- **C151**: constructing one object: the memory at `d` holds the new object, everything else is unchanged. -/
theorem C151_construct {m : Slots α} (v : α) {d : Nat} (hd : d < m.cells.length) (triv : Bool) :
    (∃ m', construct1 m v d triv = .ok m' ∧ SlotsFilled m m' d 1 (.live v)) ∧
    (∃ m', construct1Args m v d = .ok m' ∧ SlotsFilled m m' d 1 (.live v)) := by
  have e : construct1 m v d triv = constructN m v d 1 triv := by
    unfold construct1 constructN
    rw [forN_one]
    cases triv
    · rfl
    · rfl
  have e' : construct1Args m v d = constructNArgs m v d 1 := by
    unfold construct1Args constructNArgs
    rw [forN_one]; rfl
  rw [e, e']
  exact ⟨C106_construct v (by omega) triv, C106_construct_args v (by omega)⟩

/-- **C151**: copying and moving one object to another place. -/
theorem C151_copy_move {m : Slots α} {d s : Nat} {c : Cell α} (hd : d < m.cells.length) (hs : m.cells[s]? = some c) (hc : c.isObj = true)
    (hne : d ≠ s) (triv : Bool) :
    (∃ m', copyConstruct1 m d s triv = .ok m' ∧ SlotsCopied m m' d s 1) ∧
    (∃ m', moveConstruct1 m d s triv = .ok m' ∧ SlotsMoved m m' d s 1) ∧
    (Objs m d 1 → (∃ m', copyAssign1 m d s triv = .ok m' ∧ SlotsCopied m m' d s 1) ∧
      ∃ m', moveAssign1 m d s triv = .ok m' ∧ SlotsMoved m m' d s 1) := by
  have hsl : s < m.cells.length := (List.getElem?_eq_some_iff.mp hs).1
  have ho : Objs m s 1 := fun i hi => ⟨c, by rw [show s + i = s by omega]; exact hs, hc⟩
  have hdis : Disjoint d s 1 := by unfold Disjoint; omega
  have e1 : copyConstruct1 m d s triv = copyConstructN m d s 1 triv := by
    unfold copyConstruct1 copyConstructN; rw [forN_one]; rfl
  have e2 : moveConstruct1 m d s triv = moveConstructN m d s 1 triv := by
    unfold moveConstruct1 moveConstructN; rw [forN_one]; rfl
  have e3 : copyAssign1 m d s triv = copyAssignN m d s 1 triv := by
    unfold copyAssign1 copyAssignN; rw [forN_one]; rfl
  have e4 : moveAssign1 m d s triv = moveAssignN m d s 1 triv := by
    unfold moveAssign1 moveAssignN; rw [forN_one]; rfl
  rw [e1, e2, e3, e4]
  exact ⟨C106_copy_construct_partial (by omega) (by omega) ho hdis triv, C106_move_construct_partial (by omega) (by omega) ho hdis triv,
    fun hdo => ⟨C106_copy_assign_partial (by omega) hdo (by omega) ho hdis triv, C106_move_assign_partial (by omega) hdo (by omega) ho hdis triv⟩⟩

/-- **C151**: destroying one object ends its lifetime and no other; nothing happens for trivial types. -/
theorem C151_destroy {m : Slots α} {d : Nat} (hd : Objs m d 1) :
    (∃ m', destroy1 m d false = .ok m' ∧ SlotsFilled m m' d 1 .raw) ∧ destroy1 m d true = .ok m := by
  have hl := hd.lt (i := 0) (by omega)
  have e : ∀ t, destroy1 m d t = destroyN m d 1 t := fun t => by
    unfold destroy1 destroyN; rw [forN_one]; rfl
  rw [e, e]
  exact C106_destroy (by omega) hd

theorem scalarFill_shape {m : Slots α} (v : α) {d n : Nat} (hd : d + n ≤ m.cells.length) :
    ∃ m', forN n (fun i m => m.storeScalar (d + i) v) m = .ok m' ∧ m'.dropped = m.dropped ∧ SlotsFilled m m' d n (.live v) := by
  obtain ⟨m', e, h⟩ := forN_inv (n := n) (s := m) (f := fun i m => m.storeScalar (d + i) v)
    (fun i m' => Shape m' m.cells.length (fun j => if d ≤ j ∧ j < d + i then some (.live v) else m.cells[j]?) m.dropped)
    ((Shape.of m).congr (fun j _ => by rw [if_neg (by omega)]) rfl)
    (by
      intro i hi m1 h
      obtain ⟨h1, h2, h3⟩ := h
      unfold Slots.storeScalar
      rw [if_pos (by omega)]
      refine ⟨_, rfl, by simp [h1], fun j hj => ?_, h3⟩
      simp only [List.getElem?_set]
      by_cases c1 : d + i = j
      · rw [if_pos c1, if_pos (by omega), if_pos (by omega)]
      · rw [if_neg c1, h2 j hj]
        dsimp only
        by_cases c2 : d ≤ j ∧ j < d + i
        · rw [if_pos c2, if_pos (by omega)]
        · rw [if_neg c2, if_neg (by omega)])
  exact ⟨m', e, h.2.2, h.1, fun i hi => (h.get (by omega)).trans (if_pos (by omega)), fun j hj => h.out fun _ => if_neg (by omega)⟩

/-- **C151**: filling with a scalar, which is passed by value: also with an element of the range that is filled (for other types see
C106), and of memory without objects. -/
theorem C151_scalars {m : Slots α} {d s n : Nat} {v : α} (hd : d + n ≤ m.cells.length) (hs : m.cells[s]? = some (.live v)) :
    (∃ m', scalarFillN m d s n = .ok m' ∧ m'.dropped = m.dropped ∧ SlotsFilled m m' d n (.live v)) ∧
    (0 < n → ∃ m', scalarStore1 m d s = .ok m' ∧ m'.dropped = m.dropped ∧ SlotsFilled m m' d 1 (.live v)) := by
  have hl : m.load s = .ok v := by unfold Slots.load; rw [hs]
  refine ⟨?_, fun hn => ?_⟩
  · unfold scalarFillN
    rw [hl, Res.ok_bind]
    exact scalarFill_shape v hd
  · unfold scalarStore1
    rw [hl, Res.ok_bind]
    obtain ⟨m', e, h⟩ := scalarFill_shape (m := m) v (d := d) (n := 1) (by omega)
    rw [forN_one] at e
    exact ⟨m', e, h⟩

example : scalarFillN ⟨[.raw, .live 5, .live 6, .live 7], 0⟩ 0 1 3 = .ok ⟨[.live 5, .live 5, .live 5, .live 7], 0⟩ ∧
    scalarStore1 ⟨[.raw, .live 5], 0⟩ 0 1 = .ok ⟨[.live 5, .live 5], 0⟩ ∧
    construct1 ⟨[.raw, .live 5], 0⟩ 0 0 true = .ok ⟨[.live 0, .live 5], 0⟩ ∧
    construct1Args ⟨[.raw, .live 5], 0⟩ 3 0 = .ok ⟨[.live 3, .live 5], 0⟩ ∧
    copyConstruct1 ⟨[.raw, .live 5], 0⟩ 0 1 false = .ok ⟨[.live 5, .live 5], 0⟩ ∧
    moveConstruct1 ⟨[.raw, .live 5], 0⟩ 0 1 false = .ok ⟨[.live 5, .moved], 0⟩ ∧
    copyAssign1 ⟨[.live 2, .live 5], 0⟩ 0 1 true = .ok ⟨[.live 5, .live 5], 0⟩ ∧
    moveAssign1 ⟨[.live 2, .live 5], 0⟩ 0 1 false = .ok ⟨[.live 5, .moved], 0⟩ ∧
    destroy1 ⟨[.live 2, .live 5], 0⟩ 0 false = .ok ⟨[.raw, .live 5], 0⟩ := by decide

/-! ### C152 -/

/-- **C152 is false** for room after the last element: an assertion fails, though it can be made (as the other function does in place). -/
theorem C152_refuted (m : Slots α) (src : List (Cell α)) (dstsz n room : Nat) (hn : 0 < n) (triv : Bool) :
    makeRoomToSized m dstsz src n room n triv = none := by
  unfold makeRoomToSized
  exact if_neg (by omega)

/-- **C152**, what holds: room is made before any element, if the sizes fit: the elements before and after are at their places, the room
and what follows is unchanged; without elements, nothing is written.  Missing: room after the last element (false, see above). -/
theorem C152_make_room_partial (xs ys : List α) (more a gap b rest : List (Cell α)) (d : Nat) (triv : Bool) (ha : a.length = xs.length)
    (hb : b.length = ys.length) (hp : ys ≠ [] ∨ xs = []) {dstsz : Nat} (hz : dstsz = (a ++ gap ++ b ++ rest).length) :
    ∃ d', makeRoomToSized ⟨a ++ gap ++ b ++ rest, d⟩ dstsz (xs.map .live ++ ys.map .live ++ more) (xs.length + ys.length) gap.length
      xs.length triv = some (.ok ⟨xs.map .live ++ gap ++ ys.map .live ++ rest, d'⟩) := by
  obtain ⟨d', e⟩ := C81_make_room_to xs ys more a gap b rest d triv ha hb
  refine ⟨d', ?_⟩
  unfold makeRoomToSized
  have hy : ys.length ≠ 0 ∨ xs.length = 0 := hp.imp (fun h => by simpa using h) (fun h => by simp [h])
  rw [if_pos ?_, e]
  have hz' : dstsz = xs.length + gap.length + ys.length + rest.length := by rw [hz]; simp [ha, hb]; omega
  omega

/-- **C152**, what the assertions accept: exactly sizes that fit and places before an element. -/
theorem C152_assertions (m : Slots α) (src : List (Cell α)) (dstsz n room pos : Nat) (triv : Bool) :
    (makeRoomToSized m dstsz src n room pos triv).isSome ↔ (pos < n ∨ n = 0 ∧ pos = 0) ∧ n + room ≤ dstsz := by
  unfold makeRoomToSized
  split
  · next h => simp; omega
  · next h => simp; omega

example : makeRoomToSized ⟨[.raw, .raw, .raw, .raw], 0⟩ 4 [.live 1, .live 2] 2 1 1 false = some (.ok ⟨[.live 1, .raw, .live 2, .raw], 0⟩) ∧
    makeRoomToSized ⟨[.raw, .raw, .raw, .raw], 0⟩ 4 [.live 1, .live 2] 2 1 2 false = none := by decide

/-! ### C153 -/

/-- **C153 is false** for types with pointers to data members: all bits clear is the first member, not null. -/
theorem C153_refuted : valueInitBytes [⟨8, true⟩] = List.replicate 8 255 ∧ constructBytes [⟨8, true⟩] 1 = List.replicate 8 0 := by decide

/-- **C153**: constructing n objects of a trivial type without arguments gives value-initialized objects exactly if the type has no
pointers to data members. -/
theorem C153_iff_partial (ty : List ScalarPart) (n : Nat) (hn : 0 < n) (hpos : ∀ p ∈ ty, 0 < p.size) :
    constructBytes ty n = (List.replicate n (valueInitBytes ty)).flatten ↔ ∀ p ∈ ty, p.memberPtr = false := by
  have len : ∀ t : List ScalarPart, (valueInitBytes t).length = (t.map (·.size)).sum := by
    intro t
    induction t with
    | nil => rfl
    | cons p t ih =>
      unfold valueInitBytes at ih ⊢
      simp [ih]
  constructor
  · intro h p hp
    refine Bool.eq_false_iff.mpr fun hc => ?_
    have h255 : (255 : Nat) ∈ constructBytes ty n := by
      rw [h, List.mem_flatten]
      refine ⟨valueInitBytes ty, List.mem_replicate.mpr ⟨by omega, rfl⟩, ?_⟩
      unfold valueInitBytes
      rw [List.mem_flatMap]
      refine ⟨p, hp, ?_⟩
      rw [hc, if_pos rfl]
      exact List.mem_replicate.mpr ⟨by have := hpos p hp; omega, rfl⟩
    unfold constructBytes at h255
    have := (List.mem_replicate.mp h255).2
    omega
  · intro h
    unfold constructBytes
    symm
    rw [List.eq_replicate_iff]
    refine ⟨?_, fun b hb => ?_⟩
    · simp [len]
    · rw [List.mem_flatten] at hb
      obtain ⟨l, hl, hb⟩ := hb
      rw [(List.mem_replicate.mp hl).2] at hb
      unfold valueInitBytes at hb
      rw [List.mem_flatMap] at hb
      obtain ⟨p, hp, hb⟩ := hb
      rw [h p hp] at hb
      exact (List.mem_replicate.mp hb).2

example : constructBytes [⟨4, false⟩, ⟨8, false⟩] 2 = List.replicate 24 0 := by decide

end C4
