import Verif.Props.CtorDtor
/-
Property C106: constructing, copying, moving and destroying n objects.
-/
namespace C4

variable {α : Type}

/-- The slots from `d` hold what the ones from `s` held, all others are unchanged. -/
def Spec.SlotsCopied (m m' : Slots α) (d s n : Nat) : Prop :=
  m'.cells.length = m.cells.length ∧ (∀ k, k < n → m'.cells[d + k]? = m.cells[s + k]?) ∧
    ∀ j, j < d ∨ d + n ≤ j → m'.cells[j]? = m.cells[j]?

/-- The same, but the slots from `s` hold objects whose values are not specified. -/
def Spec.SlotsMoved (m m' : Slots α) (d s n : Nat) : Prop :=
  m'.cells.length = m.cells.length ∧ (∀ k, k < n → m'.cells[d + k]? = m.cells[s + k]?) ∧
    (∀ k, k < n → ∃ c, m'.cells[s + k]? = some c ∧ c.isObj = true) ∧
    ∀ j, j < d ∨ d + n ≤ j → j < s ∨ s + n ≤ j → m'.cells[j]? = m.cells[j]?

/-- The slots from `d` hold `c`, all others are unchanged. -/
def Spec.SlotsFilled (m m' : Slots α) (d n : Nat) (c : Cell α) : Prop :=
  m'.cells.length = m.cells.length ∧ (∀ k, k < n → m'.cells[d + k]? = some c) ∧
    ∀ j, j < d ∨ d + n ≤ j → m'.cells[j]? = m.cells[j]?

open Spec

/-- Ranges without common slots. -/
abbrev Disjoint (d s n : Nat) : Prop := d + n ≤ s ∨ s + n ≤ d

theorem Shape.get {m : Slots α} {L k j : Nat} {F : Nat → Option (Cell α)} (h : Shape m L F k) (hj : j < L) : m.cells[j]? = F j := h.2.1 j hj

theorem Shape.out {m m0 : Slots α} {k j : Nat} {F : Nat → Option (Cell α)} (h : Shape m m0.cells.length F k)
    (hF : j < m0.cells.length → F j = m0.cells[j]?) : m.cells[j]? = m0.cells[j]? := by
  rcases Nat.lt_or_ge j m0.cells.length with hj | hj
  · exact (h.get hj).trans (hF hj)
  · rw [List.getElem?_eq_none (by rw [h.1]; exact hj), List.getElem?_eq_none hj]

theorem copied_of_shape {m m' : Slots α} {d s n k : Nat} (hd : d + n ≤ m.cells.length)
    (h : Shape m' m.cells.length (fun j => if d ≤ j ∧ j < d + n then m.cells[s + (j - d)]? else m.cells[j]?) k) : SlotsCopied m m' d s n := by
  refine ⟨h.1, fun i hi => ?_, fun j hj => h.out fun _ => if_neg (by omega)⟩
  rw [h.get (by omega)]
  rw [if_pos (by omega), Nat.add_sub_cancel_left]

theorem moved_of_memcpy {m m' : Slots α} {d s n k : Nat} (hd : d + n ≤ m.cells.length) (hs : Objs m s n) (hdis : Disjoint d s n)
    (h : Shape m' m.cells.length (fun j => if d ≤ j ∧ j < d + n then m.cells[s + (j - d)]? else m.cells[j]?) k) : SlotsMoved m m' d s n := by
  obtain ⟨h1, h2, h3⟩ := copied_of_shape hd h
  refine ⟨h1, h2, fun i hi => ?_, fun j hj _ => h3 j hj⟩
  rw [h3 (s + i) (by omega)]
  exact hs i hi

theorem range_end {m : Slots α} {s n : Nat} (h : Objs m s n) (hn : 0 < n) : s + n ≤ m.cells.length := by
  have := h.lt (i := n - 1) (by omega)
  omega

/-- **C106 is false** for ranges that overlap, which the assertions do not exclude: the version for trivial types has undefined
behaviour where the other one is fine, and that one repeats elements if the ranges overlap the other way. -/
theorem C106_refuted :
    copyAssignN ⟨[.live 1, .live 2, .live 3], 0⟩ 0 1 2 true = .ub ∧
    copyAssignN ⟨[.live 1, .live 2, .live 3], 0⟩ 0 1 2 false = .ok ⟨[.live 2, .live 3, .live 3], 0⟩ ∧
    copyAssignN ⟨[.live 1, .live 2, .live 3], 0⟩ 1 0 2 false = .ok ⟨[.live 1, .live 1, .live 1], 0⟩ := by decide

/-- **C106 is false** for a value that is an element of the range other than the first, which the assertion does not exclude. -/
theorem C106_refuted_alias : fillConstructN ⟨[.raw, .live 5, .raw], 0⟩ 0 1 3 = .ub := by decide

/-- **C106**, `construct_n`: for trivial and other types alike. -/
theorem C106_construct {m : Slots α} (zero : α) {d n : Nat} (hd : d + n ≤ m.cells.length) (triv : Bool) :
    ∃ m', constructN m zero d n triv = .ok m' ∧ SlotsFilled m m' d n (.live zero) := by
  have key : ∃ m' k, forN n (fun i m => m.begin (d + i) (.live zero)) m = .ok m' ∧
      Shape m' m.cells.length (fun j => if d ≤ j ∧ j < d + n then some (.live zero) else m.cells[j]?) k := by
    obtain ⟨m', e, k, h⟩ := forN_inv (n := n) (s := m) (f := fun i m => m.begin (d + i) (.live zero))
      (fun i m' => ∃ k, Shape m' m.cells.length (fun j => if d ≤ j ∧ j < d + i then some (.live zero) else m.cells[j]?) k)
      ⟨_, (Shape.of m).congr (fun j _ => by rw [if_neg (by omega)]) rfl⟩
      (by
        rintro i hi m1 ⟨k, h⟩
        obtain ⟨old, ho⟩ := slot_some (m := m) (j := d + i) (by omega)
        obtain ⟨m2, e2, h2⟩ := begin_ok h (d := d + i) (by omega) (by rw [if_neg (by omega)]; exact ho) (.live zero)
        refine ⟨m2, e2, _, h2.congr (fun j hj => ?_) rfl⟩
        by_cases c1 : j = d + i
        · rw [if_pos c1, if_pos (by omega)]
        · rw [if_neg c1]
          by_cases c2 : d ≤ j ∧ j < d + i
          · rw [if_pos c2, if_pos (by omega)]
          · rw [if_neg c2, if_neg (by omega)])
    exact ⟨m', k, e, h⟩
  have fin : ∀ m' k, Shape m' m.cells.length (fun j => if d ≤ j ∧ j < d + n then some (.live zero) else m.cells[j]?) k →
      SlotsFilled m m' d n (.live zero) := fun m' k h =>
    ⟨h.1, fun i hi => (h.get (by omega)).trans (if_pos (by omega)), fun j hj => h.out fun _ => if_neg (by omega)⟩
  unfold constructN
  cases triv with
  | true =>
    rw [if_pos rfl, if_pos hd]
    refine ⟨_, rfl, fin _ m.dropped ⟨by simp; omega, fun j hj => ?_, rfl⟩⟩
    simp only [List.getElem?_append, List.length_append, List.length_take, List.length_replicate, List.getElem?_take, List.getElem?_drop,
      List.getElem?_replicate]
    by_cases c1 : j < d
    · rw [if_pos (by omega), if_pos (by omega), if_pos c1, if_neg (by omega)]
    · by_cases c2 : j < d + n
      · rw [if_pos (by omega), if_neg (by omega), if_pos (by omega), if_pos (by omega)]
      · rw [if_neg (by omega), if_neg (by omega)]
        congr 1; omega
  | false =>
    rw [if_neg (by decide)]
    obtain ⟨m', k, e, h⟩ := key
    exact ⟨m', e, fin m' k h⟩

/-- **C106**, `construct_n` with arguments. -/
theorem C106_construct_args {m : Slots α} (v : α) {d n : Nat} (hd : d + n ≤ m.cells.length) :
    ∃ m', constructNArgs m v d n = .ok m' ∧ SlotsFilled m m' d n (.live v) := by
  obtain ⟨m', e, h⟩ := C106_construct v hd false
  unfold constructN at e
  rw [if_neg (by decide)] at e
  exact ⟨m', e, h⟩

/-- **C106**, `copy_construct_n`.  Missing: ranges that overlap (false, see above). -/
theorem C106_copy_construct_partial {m : Slots α} {d s n : Nat} (hd : d + n ≤ m.cells.length) (hs' : s + n ≤ m.cells.length)
    (hs : Objs m s n) (hdis : Disjoint d s n) (triv : Bool) :
    ∃ m', copyConstructN m d s n triv = .ok m' ∧ SlotsCopied m m' d s n := by
  unfold copyConstructN
  cases triv with
  | true =>
    obtain ⟨m', e, h⟩ := memcpy_ok (Shape.of m) (d := d) (s := s) (n := n) hd hs' (by omega)
    exact ⟨m', e, copied_of_shape hd h⟩
  | false =>
    obtain ⟨m', e, k, h⟩ := forN_inv (n := n) (s := m) (f := fun i m => m.copyConstruct (d + i) (s + i))
      (fun i m' => ∃ k, Shape m' m.cells.length (fun j => if d ≤ j ∧ j < d + i then m.cells[s + (j - d)]? else m.cells[j]?) k)
      ⟨_, (Shape.of m).congr (fun j _ => by rw [if_neg (by omega)]) rfl⟩
      (by
        rintro i hi m1 ⟨k, h⟩
        obtain ⟨old, ho⟩ := slot_some (m := m) (j := d + i) (by omega)
        obtain ⟨c, hc, hco⟩ := hs i hi
        obtain ⟨m2, e2, h2⟩ := copyConstruct_ok h (d := d + i) (s := s + i) (by omega) (by omega) (by omega)
          (by rw [if_neg (by omega)]; exact hc) hco (by rw [if_neg (by omega)]; exact ho)
        refine ⟨m2, e2, _, h2.congr (fun j hj => ?_) rfl⟩
        by_cases c1 : j = d + i
        · rw [if_pos c1, if_pos (by omega), ← hc]; congr 1; omega
        · rw [if_neg c1]
          by_cases c2 : d ≤ j ∧ j < d + i
          · rw [if_pos c2, if_pos (by omega)]
          · rw [if_neg c2, if_neg (by omega)])
    exact ⟨m', e, copied_of_shape hd h⟩

/-- **C106**, `copy_assign_n`.  Missing: ranges that overlap (false, see above). -/
theorem C106_copy_assign_partial {m : Slots α} {d s n : Nat} (hd' : d + n ≤ m.cells.length) (hd : Objs m d n)
    (hs' : s + n ≤ m.cells.length) (hs : Objs m s n) (hdis : Disjoint d s n) (triv : Bool) :
    ∃ m', copyAssignN m d s n triv = .ok m' ∧ SlotsCopied m m' d s n := by
  unfold copyAssignN
  cases triv with
  | true =>
    obtain ⟨m', e, h⟩ := memcpy_ok (Shape.of m) (d := d) (s := s) (n := n) hd' hs' (by omega)
    exact ⟨m', e, copied_of_shape hd' h⟩
  | false =>
    obtain ⟨m', e, h⟩ := forN_inv (n := n) (s := m) (f := fun i m => m.copyAssign (d + i) (s + i))
      (fun i m' => Shape m' m.cells.length (fun j => if d ≤ j ∧ j < d + i then m.cells[s + (j - d)]? else m.cells[j]?) m.dropped)
      ((Shape.of m).congr (fun j _ => by rw [if_neg (by omega)]) rfl)
      (by
        intro i hi m1 h
        obtain ⟨old, ho, hoo⟩ := hd i hi
        obtain ⟨c, hc, hco⟩ := hs i hi
        obtain ⟨m2, e2, h2⟩ := copyAssign_ok h (d := d + i) (s := s + i) (by omega) (by omega)
          (by rw [if_neg (by omega)]; exact hc) hco (by rw [if_neg (by omega)]; exact ho) hoo
        refine ⟨m2, e2, h2.congr (fun j hj => ?_) rfl⟩
        by_cases c1 : j = d + i
        · rw [if_pos c1, if_pos (by omega), ← hc]; congr 1; omega
        · rw [if_neg c1]
          by_cases c2 : d ≤ j ∧ j < d + i
          · rw [if_pos c2, if_pos (by omega)]
          · rw [if_neg c2, if_neg (by omega)])
    exact ⟨m', e, copied_of_shape hd' h⟩

theorem moved_of_shape {m m' : Slots α} {d s n k : Nat} (hd : d + n ≤ m.cells.length) (hs : s + n ≤ m.cells.length) (hdis : Disjoint d s n)
    (h : Shape m' m.cells.length (fun j => if s ≤ j ∧ j < s + n then some .moved else if d ≤ j ∧ j < d + n then m.cells[s + (j - d)]?
      else m.cells[j]?) k) : SlotsMoved m m' d s n := by
  refine ⟨h.1, fun i hi => ?_, fun i hi => ?_, fun j hj hj2 => h.out fun _ => by rw [if_neg (by omega), if_neg (by omega)]⟩
  · rw [h.get (by omega), if_neg (by omega), if_pos (by omega), Nat.add_sub_cancel_left]
  · exact ⟨.moved, by rw [h.get (by omega), if_pos (by omega)], rfl⟩

/-- **C106**, `move_construct_n`.  Missing: ranges that overlap (false, see above). -/
theorem C106_move_construct_partial {m : Slots α} {d s n : Nat} (hd : d + n ≤ m.cells.length) (hs' : s + n ≤ m.cells.length)
    (hs : Objs m s n) (hdis : Disjoint d s n) (triv : Bool) :
    ∃ m', moveConstructN m d s n triv = .ok m' ∧ SlotsMoved m m' d s n := by
  unfold moveConstructN
  cases triv with
  | true =>
    obtain ⟨m', e, h⟩ := memcpy_ok (Shape.of m) (d := d) (s := s) (n := n) hd hs' (by omega)
    exact ⟨m', e, moved_of_memcpy hd hs hdis h⟩
  | false =>
    obtain ⟨m', e, k, h⟩ := forN_inv (n := n) (s := m) (f := fun i m => m.moveConstruct (d + i) (s + i))
      (fun i m' => ∃ k, Shape m' m.cells.length (fun j => if s ≤ j ∧ j < s + i then some .moved else
        if d ≤ j ∧ j < d + i then m.cells[s + (j - d)]? else m.cells[j]?) k)
      ⟨_, (Shape.of m).congr (fun j _ => by rw [if_neg (by omega), if_neg (by omega)]) rfl⟩
      (by
        rintro i hi m1 ⟨k, h⟩
        obtain ⟨old, ho⟩ := slot_some (m := m) (j := d + i) (by omega)
        obtain ⟨c, hc, hco⟩ := hs i hi
        obtain ⟨m2, e2, h2⟩ := moveConstruct_ok h (d := d + i) (s := s + i) (by omega) (by omega) (by omega)
          (by rw [if_neg (by omega), if_neg (by omega)]; exact hc) hco (by rw [if_neg (by omega), if_neg (by omega)]; exact ho)
        refine ⟨m2, e2, _, h2.congr (fun j hj => ?_) rfl⟩
        by_cases c0 : j = s + i
        · rw [if_pos c0, if_pos (by omega)]
        · rw [if_neg c0]
          by_cases c1 : j = d + i
          · rw [if_pos c1, if_neg (by omega), if_pos (by omega), ← hc]; congr 1; omega
          · rw [if_neg c1]
            by_cases c2 : s ≤ j ∧ j < s + i
            · rw [if_pos c2, if_pos (by omega)]
            · rw [if_neg c2, if_neg (c := s ≤ j ∧ j < s + (i + 1)) (by omega)]
              by_cases c3 : d ≤ j ∧ j < d + i
              · rw [if_pos c3, if_pos (by omega)]
              · rw [if_neg c3, if_neg (by omega)])
    exact ⟨m', e, moved_of_shape hd hs' hdis h⟩

/-- **C106**, `move_assign_n`.  Missing: ranges that overlap (false, see above). -/
theorem C106_move_assign_partial {m : Slots α} {d s n : Nat} (hd' : d + n ≤ m.cells.length) (hd : Objs m d n)
    (hs' : s + n ≤ m.cells.length) (hs : Objs m s n) (hdis : Disjoint d s n) (triv : Bool) :
    ∃ m', moveAssignN m d s n triv = .ok m' ∧ SlotsMoved m m' d s n := by
  unfold moveAssignN
  cases triv with
  | true =>
    obtain ⟨m', e, h⟩ := memcpy_ok (Shape.of m) (d := d) (s := s) (n := n) hd' hs' (by omega)
    exact ⟨m', e, moved_of_memcpy hd' hs hdis h⟩
  | false =>
    obtain ⟨m', e, h⟩ := forN_inv (n := n) (s := m) (f := fun i m => m.moveAssign (d + i) (s + i))
      (fun i m' => Shape m' m.cells.length (fun j => if s ≤ j ∧ j < s + i then some .moved else
        if d ≤ j ∧ j < d + i then m.cells[s + (j - d)]? else m.cells[j]?) m.dropped)
      ((Shape.of m).congr (fun j _ => by rw [if_neg (by omega), if_neg (by omega)]) rfl)
      (by
        intro i hi m1 h
        obtain ⟨old, ho, hoo⟩ := hd i hi
        obtain ⟨c, hc, hco⟩ := hs i hi
        obtain ⟨m2, e2, h2⟩ := moveAssign_ok h (d := d + i) (s := s + i) (by omega) (by omega)
          (by rw [if_neg (by omega), if_neg (by omega)]; exact hc) hco (by rw [if_neg (by omega), if_neg (by omega)]; exact ho) hoo
        refine ⟨m2, e2, h2.congr (fun j hj => ?_) rfl⟩
        by_cases c0 : j = s + i
        · rw [if_pos c0, if_pos (by omega)]
        · rw [if_neg c0]
          by_cases c1 : j = d + i
          · rw [if_pos c1, if_neg (by omega), if_pos (by omega), ← hc]; congr 1; omega
          · rw [if_neg c1]
            by_cases c2 : s ≤ j ∧ j < s + i
            · rw [if_pos c2, if_pos (by omega)]
            · rw [if_neg c2, if_neg (c := s ≤ j ∧ j < s + (i + 1)) (by omega)]
              by_cases c3 : d ≤ j ∧ j < d + i
              · rw [if_pos c3, if_pos (by omega)]
              · rw [if_neg c3, if_neg (by omega)])
    exact ⟨m', e, moved_of_shape hd' hs' hdis h⟩

/-- **C106**, n copies of a value into raw memory or over other objects.  Missing: a value within the range (false, see above). -/
theorem C106_fill_construct_partial {m : Slots α} {d s n : Nat} {c : Cell α} (hd : d + n ≤ m.cells.length) (hs : m.cells[s]? = some c)
    (hc : c.isObj = true) (hout : s < d ∨ d + n ≤ s) : ∃ m', fillConstructN m d s n = .ok m' ∧ SlotsFilled m m' d n c := by
  have hsl : s < m.cells.length := (List.getElem?_eq_some_iff.mp hs).1
  obtain ⟨m', e, k, h⟩ := forN_inv (n := n) (s := m) (f := fun i m => m.copyConstruct (d + i) s)
    (fun i m' => ∃ k, Shape m' m.cells.length (fun j => if d ≤ j ∧ j < d + i then some c else m.cells[j]?) k)
    ⟨_, (Shape.of m).congr (fun j _ => by rw [if_neg (by omega)]) rfl⟩
    (by
      rintro i hi m1 ⟨k, h⟩
      obtain ⟨old, ho⟩ := slot_some (m := m) (j := d + i) (by omega)
      obtain ⟨m2, e2, h2⟩ := copyConstruct_ok h (d := d + i) (s := s) (by omega) hsl (by omega)
        (by rw [if_neg (by omega)]; exact hs) hc (by rw [if_neg (by omega)]; exact ho)
      refine ⟨m2, e2, _, h2.congr (fun j hj => ?_) rfl⟩
      by_cases c1 : j = d + i
      · rw [if_pos c1, if_pos (by omega)]
      · rw [if_neg c1]
        by_cases c2 : d ≤ j ∧ j < d + i
        · rw [if_pos c2, if_pos (by omega)]
        · rw [if_neg c2, if_neg (by omega)])
  exact ⟨m', e, h.1, fun i hi => (h.get (by omega)).trans (if_pos (by omega)), fun j hj => h.out fun _ => if_neg (by omega)⟩

/-- **C106**, n objects assigned a value, which may be one of them. -/
theorem C106_fill_assign {m : Slots α} {d s n : Nat} {c : Cell α} (hd' : d + n ≤ m.cells.length) (hd : Objs m d n)
    (hs : m.cells[s]? = some c) (hc : c.isObj = true) : ∃ m', fillAssignN m d s n = .ok m' ∧ SlotsFilled m m' d n c := by
  have hsl : s < m.cells.length := (List.getElem?_eq_some_iff.mp hs).1
  obtain ⟨m', e, h⟩ := forN_inv (n := n) (s := m) (f := fun i m => m.copyAssign (d + i) s)
    (fun i m' => Shape m' m.cells.length (fun j => if d ≤ j ∧ j < d + i then some c else m.cells[j]?) m.dropped)
    ((Shape.of m).congr (fun j _ => by rw [if_neg (by omega)]) rfl)
    (by
      intro i hi m1 h
      obtain ⟨old, ho, hoo⟩ := hd i hi
      obtain ⟨m2, e2, h2⟩ := copyAssign_ok h (d := d + i) (s := s) (c := c) (by omega) hsl
        (by split
            · rfl
            · exact hs) hc (by rw [if_neg (by omega)]; exact ho) hoo
      refine ⟨m2, e2, h2.congr (fun j hj => ?_) rfl⟩
      by_cases c1 : j = d + i
      · rw [if_pos c1, if_pos (by omega)]
      · rw [if_neg c1]
        by_cases c2 : d ≤ j ∧ j < d + i
        · rw [if_pos c2, if_pos (by omega)]
        · rw [if_neg c2, if_neg (by omega)])
  exact ⟨m', e, h.1, fun i hi => (h.get (by omega)).trans (if_pos (by omega)), fun j hj => h.out fun _ => if_neg (by omega)⟩

/-- **C106**, `destroy_n`: exactly the n objects are destroyed (for trivial types nothing happens). -/
theorem C106_destroy {m : Slots α} {d n : Nat} (hd' : d + n ≤ m.cells.length) (hd : Objs m d n) :
    (∃ m', destroyN m d n false = .ok m' ∧ SlotsFilled m m' d n .raw) ∧ destroyN m d n true = .ok m := by
  refine ⟨?_, rfl⟩
  unfold destroyN
  rw [if_neg (by decide)]
  obtain ⟨m', e, h⟩ := forN_inv (n := n) (s := m) (f := fun i m => m.destroy (d + i))
    (fun i m' => Shape m' m.cells.length (fun j => if d ≤ j ∧ j < d + i then some .raw else m.cells[j]?) m.dropped)
    ((Shape.of m).congr (fun j _ => by rw [if_neg (by omega)]) rfl)
    (by
      intro i hi m1 h
      obtain ⟨old, ho, hoo⟩ := hd i hi
      obtain ⟨m2, e2, h2⟩ := destroy_ok h (d := d + i) (by omega) (by rw [if_neg (by omega)]; exact ho) hoo
      refine ⟨m2, e2, h2.congr (fun j hj => ?_) rfl⟩
      by_cases c1 : j = d + i
      · rw [if_pos c1, if_pos (by omega)]
      · rw [if_neg c1]
        by_cases c2 : d ≤ j ∧ j < d + i
        · rw [if_pos c2, if_pos (by omega)]
        · rw [if_neg c2, if_neg (by omega)])
  exact ⟨m', e, h.1, fun i hi => (h.get (by omega)).trans (if_pos (by omega)), fun j hj => h.out fun _ => if_neg (by omega)⟩

example : copyConstructN ⟨[.live 1, .live 2, .raw, .raw], 0⟩ 2 0 2 false = .ok ⟨[.live 1, .live 2, .live 1, .live 2], 0⟩ ∧
    moveConstructN ⟨[.live 1, .live 2, .raw, .raw], 0⟩ 2 0 2 false = .ok ⟨[.moved, .moved, .live 1, .live 2], 0⟩ ∧
    moveConstructN ⟨[.live 1, .live 2, .raw, .raw], 0⟩ 2 0 2 true = .ok ⟨[.live 1, .live 2, .live 1, .live 2], 0⟩ ∧
    moveAssignN ⟨[.live 1, .live 2, .live 8, .moved], 0⟩ 2 0 2 false = .ok ⟨[.moved, .moved, .live 1, .live 2], 0⟩ ∧
    fillAssignN ⟨[.live 1, .live 2, .live 3], 0⟩ 0 1 3 = .ok ⟨[.live 2, .live 2, .live 2], 0⟩ ∧
    fillConstructN ⟨[.live 1, .raw, .raw], 0⟩ 1 0 2 = .ok ⟨[.live 1, .live 1, .live 1], 0⟩ ∧
    constructN ⟨[.raw, .raw, .live 4], 0⟩ 0 0 2 true = .ok ⟨[.live 0, .live 0, .live 4], 0⟩ ∧
    destroyN ⟨[.live 1, .moved, .live 3], 0⟩ 0 2 false = .ok ⟨[.raw, .raw, .live 3], 0⟩ := by decide

end C4
