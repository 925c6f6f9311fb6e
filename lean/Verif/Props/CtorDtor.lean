import Verif.CtorDtor
/-
Properties C81, C99, C106, C107: making and removing room in arrays of objects, and functions on n objects.
-/
namespace C4

variable {α : Type}

/-! ### Loops and single steps -/

theorem forFrom_inv {σ : Type} {f : Nat → σ → Res σ} (P : Nat → σ → Prop) :
    ∀ (k i : Nat) (s : σ), P i s → (∀ j, i ≤ j → j < i + k → ∀ s, P j s → ∃ s', f j s = .ok s' ∧ P (j + 1) s') →
      ∃ s', forFrom f k i s = .ok s' ∧ P (i + k) s' := by
  intro k
  induction k with
  | zero => intro i s h _; exact ⟨s, rfl, h⟩
  | succ k ih =>
    intro i s h hs
    obtain ⟨s1, e1, h1⟩ := hs i (Nat.le_refl _) (by omega) s h
    obtain ⟨s2, e2, h2⟩ := ih (i + 1) s1 h1 (fun j hj hj2 => hs j (by omega) (by omega))
    refine ⟨s2, ?_, by rw [show i + (k + 1) = i + 1 + k by omega]; exact h2⟩
    rw [forFrom, e1, Res.ok_bind, e2]

theorem forN_inv {σ : Type} {f : Nat → σ → Res σ} (P : Nat → σ → Prop) {n : Nat} {s : σ} (h : P 0 s)
    (hs : ∀ j, j < n → ∀ s, P j s → ∃ s', f j s = .ok s' ∧ P (j + 1) s') : ∃ s', forN n f s = .ok s' ∧ P n s' := by
  obtain ⟨s', e, h'⟩ := forFrom_inv P n 0 s h (fun j _ hj => hs j (by omega))
  rw [Nat.zero_add] at h'
  exact ⟨s', e, h'⟩

/-- `m` has `L` slots with the contents given by `F`, and `k` objects were dropped. -/
def Shape (m : Slots α) (L : Nat) (F : Nat → Option (Cell α)) (k : Nat) : Prop :=
  m.cells.length = L ∧ (∀ j, j < L → m.cells[j]? = F j) ∧ m.dropped = k

theorem begin_ok {m : Slots α} {L k d : Nat} {F : Nat → Option (Cell α)} {old : Cell α} (h : Shape m L F k) (hd : d < L)
    (ho : F d = some old) (c : Cell α) :
    ∃ m', m.begin d c = .ok m' ∧ Shape m' L (fun j => if j = d then some c else F j) (k + if old.isObj then 1 else 0) := by
  obtain ⟨h1, h2, h3⟩ := h
  unfold Slots.begin
  rw [h2 d hd, ho]
  refine ⟨_, rfl, by simp [h1], ?_, by simp [h3]⟩
  intro j hj
  simp only [List.getElem?_set]
  split
  · next e => subst e; rw [if_pos (by omega), if_pos rfl]
  · next e => rw [h2 j hj, if_neg (by omega)]

theorem moveConstruct_ok {m : Slots α} {L k d s : Nat} {F : Nat → Option (Cell α)} {c old : Cell α} (h : Shape m L F k) (hd : d < L)
    (hs : s < L) (hne : d ≠ s) (hc : F s = some c) (hobj : c.isObj = true) (ho : F d = some old) :
    ∃ m', m.moveConstruct d s = .ok m' ∧
      Shape m' L (fun j => if j = s then some .moved else if j = d then some c else F j) (k + if old.isObj then 1 else 0) := by
  obtain ⟨m1, e1, g1, g2, g3⟩ := begin_ok h hd ho c
  have e : m.moveConstruct d s = .ok ⟨m1.cells.set s .moved, m1.dropped⟩ := by
    unfold Slots.moveConstruct
    rw [h.2.1 s hs, hc]
    cases c with
    | raw => cases hobj
    | live v => simp only []; rw [if_neg hne, e1, Res.ok_bind]
    | moved => simp only []; rw [if_neg hne, e1, Res.ok_bind]
  refine ⟨_, e, by simp [g1], ?_, g3⟩
  intro j hj
  simp only [List.getElem?_set]
  split
  · next e => subst e; rw [if_pos (by omega), if_pos rfl]
  · next e => rw [g2 j hj, if_neg (c := j = s) (by omega)]

theorem copyConstruct_ok {m : Slots α} {L k d s : Nat} {F : Nat → Option (Cell α)} {c old : Cell α} (h : Shape m L F k) (hd : d < L)
    (hs : s < L) (hne : d ≠ s) (hc : F s = some c) (hobj : c.isObj = true) (ho : F d = some old) :
    ∃ m', m.copyConstruct d s = .ok m' ∧ Shape m' L (fun j => if j = d then some c else F j) (k + if old.isObj then 1 else 0) := by
  obtain ⟨m1, e1, g⟩ := begin_ok h hd ho c
  refine ⟨m1, ?_, g⟩
  unfold Slots.copyConstruct
  rw [h.2.1 s hs, hc]
  cases c with
  | raw => cases hobj
  | live v => simp only []; rw [if_neg hne, e1]
  | moved => simp only []; rw [if_neg hne, e1]

theorem copyFrom_ok {m : Slots α} {src : List (Cell α)} {L k d s : Nat} {F : Nat → Option (Cell α)} {c old : Cell α}
    (h : Shape m L F k) (hd : d < L) (hc : src[s]? = some c) (hobj : c.isObj = true) (ho : F d = some old) :
    ∃ m', m.copyFrom src d s = .ok m' ∧ Shape m' L (fun j => if j = d then some c else F j) (k + if old.isObj then 1 else 0) := by
  obtain ⟨m1, e1, g⟩ := begin_ok h hd ho c
  refine ⟨m1, ?_, g⟩
  unfold Slots.copyFrom
  rw [hc]
  cases c with
  | raw => cases hobj
  | live v => exact e1
  | moved => exact e1

theorem moveAssign_ok {m : Slots α} {L k d s : Nat} {F : Nat → Option (Cell α)} {c old : Cell α} (h : Shape m L F k) (hd : d < L)
    (hs : s < L) (hc : F s = some c) (hobj : c.isObj = true) (ho : F d = some old) (hold : old.isObj = true) :
    ∃ m', m.moveAssign d s = .ok m' ∧ Shape m' L (fun j => if j = s then some .moved else if j = d then some c else F j) k := by
  have e : m.moveAssign d s = .ok ⟨(m.cells.set d c).set s .moved, m.dropped⟩ := by
    unfold Slots.moveAssign
    rw [h.2.1 s hs, hc, h.2.1 d hd, ho]
    cases c <;> cases old <;> first | (cases hobj; done) | (cases hold; done) | rfl
  obtain ⟨h1, h2, h3⟩ := h
  refine ⟨_, e, by simp [h1], ?_, h3⟩
  intro j hj
  simp only [List.getElem?_set, List.length_set]
  by_cases ejs : j = s
  · rw [if_pos ejs.symm, if_pos (by omega), if_pos ejs]
  · rw [if_neg (Ne.symm ejs), if_neg ejs]
    by_cases ejd : j = d
    · rw [if_pos ejd.symm, if_pos (by omega), if_pos ejd]
    · rw [if_neg (Ne.symm ejd), if_neg ejd, h2 j hj]

theorem copyAssign_ok {m : Slots α} {L k d s : Nat} {F : Nat → Option (Cell α)} {c old : Cell α} (h : Shape m L F k) (hd : d < L)
    (hs : s < L) (hc : F s = some c) (hobj : c.isObj = true) (ho : F d = some old) (hold : old.isObj = true) :
    ∃ m', m.copyAssign d s = .ok m' ∧ Shape m' L (fun j => if j = d then some c else F j) k := by
  have e : m.copyAssign d s = .ok ⟨m.cells.set d c, m.dropped⟩ := by
    unfold Slots.copyAssign
    rw [h.2.1 s hs, hc, h.2.1 d hd, ho]
    cases c <;> cases old <;> first | (cases hobj; done) | (cases hold; done) | rfl
  obtain ⟨h1, h2, h3⟩ := h
  refine ⟨_, e, by simp [h1], ?_, h3⟩
  intro j hj
  simp only [List.getElem?_set]
  by_cases ejd : j = d
  · rw [if_pos ejd.symm, if_pos (by omega), if_pos ejd]
  · rw [if_neg (Ne.symm ejd), if_neg ejd, h2 j hj]

theorem destroy_ok {m : Slots α} {L k d : Nat} {F : Nat → Option (Cell α)} {old : Cell α} (h : Shape m L F k) (hd : d < L)
    (ho : F d = some old) (hold : old.isObj = true) :
    ∃ m', m.destroy d = .ok m' ∧ Shape m' L (fun j => if j = d then some .raw else F j) k := by
  have e : m.destroy d = .ok ⟨m.cells.set d .raw, m.dropped⟩ := by
    unfold Slots.destroy
    rw [h.2.1 d hd, ho]
    cases old <;> first | (cases hold; done) | rfl
  obtain ⟨h1, h2, h3⟩ := h
  refine ⟨_, e, by simp [h1], ?_, h3⟩
  intro j hj
  simp only [List.getElem?_set]
  by_cases ejd : j = d
  · rw [if_pos ejd.symm, if_pos (by omega), if_pos ejd]
  · rw [if_neg (Ne.symm ejd), if_neg ejd, h2 j hj]

theorem memmove_ok {m : Slots α} {L k d s n : Nat} {F : Nat → Option (Cell α)} (h : Shape m L F k) (hd : d + n ≤ L) (hs : s + n ≤ L) :
    ∃ m', m.memmove d s n = .ok m' ∧ Shape m' L (fun j => if d ≤ j ∧ j < d + n then F (s + (j - d)) else F j) k := by
  obtain ⟨h1, h2, h3⟩ := h
  unfold Slots.memmove
  rw [if_pos ⟨by omega, by omega⟩]
  refine ⟨_, rfl, ?_, ?_, h3⟩
  · simp; omega
  · intro j hj
    simp only [List.getElem?_append, List.length_append, List.length_take, List.length_drop, List.getElem?_take, List.getElem?_drop]
    by_cases c1 : j < d
    · rw [if_pos (by omega), if_pos (by omega), if_pos c1, if_neg (by omega), h2 j hj]
    · by_cases c2 : j < d + n
      · rw [if_pos (by omega), if_neg (by omega), if_pos (by omega), if_pos (by omega), ← h2 _ (by omega)]
        congr 2; omega
      · rw [if_neg (by omega), if_neg (by omega), ← h2 j hj]
        congr 1; omega

theorem memcpy_ok {m : Slots α} {L k d s n : Nat} {F : Nat → Option (Cell α)} (h : Shape m L F k) (hd : d + n ≤ L) (hs : s + n ≤ L)
    (hdis : d + n ≤ s ∨ s + n ≤ d ∨ n = 0) :
    ∃ m', m.memcpy d s n = .ok m' ∧ Shape m' L (fun j => if d ≤ j ∧ j < d + n then F (s + (j - d)) else F j) k := by
  unfold Slots.memcpy
  rw [if_pos hdis]
  exact memmove_ok h hd hs

theorem memcpyFrom_ok {m : Slots α} {src : List (Cell α)} {L k d s n : Nat} {F : Nat → Option (Cell α)} (h : Shape m L F k)
    (hd : d + n ≤ L) (hs : s + n ≤ src.length) :
    ∃ m', m.memcpyFrom src d s n = .ok m' ∧ Shape m' L (fun j => if d ≤ j ∧ j < d + n then src[s + (j - d)]? else F j) k := by
  obtain ⟨h1, h2, h3⟩ := h
  unfold Slots.memcpyFrom
  rw [if_pos ⟨by omega, by omega⟩]
  refine ⟨_, rfl, ?_, ?_, h3⟩
  · simp; omega
  · intro j hj
    simp only [List.getElem?_append, List.length_append, List.length_take, List.length_drop, List.getElem?_take, List.getElem?_drop]
    by_cases c1 : j < d
    · rw [if_pos (by omega), if_pos (by omega), if_pos c1, if_neg (by omega), h2 j hj]
    · by_cases c2 : j < d + n
      · rw [if_pos (by omega), if_neg (by omega), if_pos (by omega), if_pos (by omega)]
        congr 2; omega
      · rw [if_neg (by omega), if_neg (by omega), ← h2 j hj]
        congr 1; omega

theorem Shape.congr {m : Slots α} {L k k' : Nat} {F G : Nat → Option (Cell α)} (h : Shape m L F k) (hFG : ∀ j, j < L → F j = G j)
    (hk : k = k') : Shape m L G k' := ⟨h.1, fun j hj => (h.2.1 j hj).trans (hFG j hj), h.2.2.trans hk⟩

theorem Shape.of (m : Slots α) : Shape m m.cells.length (fun j => m.cells[j]?) m.dropped := ⟨rfl, fun _ _ => rfl, rfl⟩

/-- A range of slots that all hold objects. -/
def Objs (m : Slots α) (s n : Nat) : Prop := ∀ i, i < n → ∃ c, m.cells[s + i]? = some c ∧ c.isObj = true

theorem Objs.lt {m : Slots α} {s n i : Nat} (h : Objs m s n) (hi : i < n) : s + i < m.cells.length := by
  obtain ⟨c, hc, _⟩ := h i hi
  exact (List.getElem?_eq_some_iff.mp hc).1

/-- All slots of `m` exist up to index `L`. -/
theorem slot_some {m : Slots α} {j : Nat} (h : j < m.cells.length) : ∃ c, m.cells[j]? = some c :=
  ⟨m.cells[j], List.getElem?_eq_getElem h⟩

/-! ### make_room and destroy_room, slot by slot -/

theorem makeRoom_shape {m : Slots α} {b n room : Nat} (hobj : Objs m b n) (hL : b + n + room ≤ m.cells.length) (hr : 0 < room ∨ n = 0) :
    ∃ m' k, makeRoom m b n room false = .ok m' ∧
      Shape m' m.cells.length (fun j => if b + room ≤ j ∧ j < b + room + n then m.cells[j - room]?
        else if b ≤ j ∧ j < b + n then some .moved else m.cells[j]?) k ∧
      ((∀ j, b + n ≤ j → j < b + n + room → m.cells[j]? = some .raw) → k = m.dropped + (n - room)) := by
  unfold makeRoom
  rw [if_neg (by decide)]
  by_cases hc : room ≥ n
  · rw [if_pos hc]
    obtain ⟨m', e, k, h, hk⟩ := forN_inv (n := n) (s := m)
      (f := fun i m => m.moveConstruct (b + (i + room)) (b + i))
      (fun i m' => ∃ k, Shape m' m.cells.length (fun j => if b + room ≤ j ∧ j < b + room + i then m.cells[j - room]?
        else if b ≤ j ∧ j < b + i then some .moved else m.cells[j]?) k ∧
        ((∀ j, b + n ≤ j → j < b + n + room → m.cells[j]? = some .raw) → k = m.dropped))
      ⟨_, (Shape.of m).congr (fun j _ => by rw [if_neg (by omega), if_neg (by omega)]) rfl, fun _ => rfl⟩
      (by
        rintro i hi m1 ⟨k, h, hk⟩
        obtain ⟨c, hcs, hco⟩ := hobj i hi
        obtain ⟨old, ho⟩ := slot_some (m := m) (j := b + (i + room)) (by omega)
        obtain ⟨m2, e2, h2⟩ := moveConstruct_ok h (d := b + (i + room)) (s := b + i) (c := c) (old := old) (by omega) (by omega) (by omega)
          (by rw [if_neg (by omega), if_neg (by omega)]; exact hcs) hco (by rw [if_neg (by omega), if_neg (by omega)]; exact ho)
        refine ⟨m2, e2, _, h2.congr (fun j hj => ?_) rfl, fun hraw => ?_⟩
        · by_cases c1 : j = b + i
          · rw [if_pos c1, if_neg (by omega), if_pos (by omega)]
          · rw [if_neg c1]
            by_cases c2 : j = b + (i + room)
            · rw [if_pos c2, if_pos (by omega), ← hcs]
              congr 1; omega
            · rw [if_neg c2]
              by_cases c3 : b + room ≤ j ∧ j < b + room + i
              · rw [if_pos c3, if_pos (by omega)]
              · rw [if_neg c3, if_neg (c := b + room ≤ j ∧ _) (by omega)]
                by_cases c4 : b ≤ j ∧ j < b + i
                · rw [if_pos c4, if_pos (by omega)]
                · rw [if_neg c4, if_neg (by omega)]
        · have := hraw (b + (i + room)) (by omega) (by omega)
          rw [this] at ho
          cases ho
          rw [hk hraw]; rfl)
    exact ⟨m', k, e, h, fun hraw => by rw [hk hraw]; omega⟩
  · rw [if_neg hc]
    obtain ⟨m', e, k, h, hk⟩ := forN_inv (n := n) (s := m)
      (f := fun i m => m.moveConstruct (b + ((n - 1 - i) + room)) (b + (n - 1 - i)))
      (fun i m' => ∃ k, Shape m' m.cells.length (fun j => if b + room + (n - i) ≤ j ∧ j < b + room + n then m.cells[j - room]?
        else if b + (n - i) ≤ j ∧ j < b + n then some .moved else m.cells[j]?) k ∧
        ((∀ j, b + n ≤ j → j < b + n + room → m.cells[j]? = some .raw) → k = m.dropped + (i - room)))
      ⟨_, (Shape.of m).congr (fun j _ => by rw [if_neg (by omega), if_neg (by omega)]) rfl, fun _ => by omega⟩
      (by
        rintro i hi m1 ⟨k, h, hk⟩
        obtain ⟨c, hcs, hco⟩ := hobj (n - 1 - i) (by omega)
        obtain ⟨old, ho, hod⟩ : ∃ old, (if b + (n - i) ≤ b + ((n - 1 - i) + room) ∧ b + ((n - 1 - i) + room) < b + n then some Cell.moved
            else m.cells[b + ((n - 1 - i) + room)]?) = some old ∧
            ((∀ j, b + n ≤ j → j < b + n + room → m.cells[j]? = some .raw) → (if old.isObj then 1 else 0) = if room ≤ i then 1 else 0) := by
          by_cases c1 : room ≤ i
          · rw [if_pos (by omega)]
            exact ⟨.moved, rfl, fun _ => by rw [if_pos c1]; rfl⟩
          · rw [if_neg (by omega)]
            obtain ⟨old, ho⟩ := slot_some (m := m) (j := b + ((n - 1 - i) + room)) (by omega)
            refine ⟨old, ho, fun hraw => ?_⟩
            rw [hraw _ (by omega) (by omega)] at ho
            cases ho
            rw [if_neg c1]; rfl
        obtain ⟨m2, e2, h2⟩ := moveConstruct_ok h (d := b + ((n - 1 - i) + room)) (s := b + (n - 1 - i)) (c := c) (old := old) (by omega)
          (by omega) (by omega)
          (by rw [if_neg (by omega), if_neg (by omega)]; exact hcs) hco (by rw [if_neg (by omega)]; exact ho)
        refine ⟨m2, e2, _, h2.congr (fun j hj => ?_) rfl, fun hraw => ?_⟩
        · by_cases c1 : j = b + (n - 1 - i)
          · rw [if_pos c1, if_neg (by omega), if_pos (by omega)]
          · rw [if_neg c1]
            by_cases c2 : j = b + ((n - 1 - i) + room)
            · rw [if_pos c2, if_pos (by omega), ← hcs]
              congr 1; omega
            · rw [if_neg c2]
              by_cases c3 : b + room + (n - i) ≤ j ∧ j < b + room + n
              · rw [if_pos c3, if_pos (by omega)]
              · rw [if_neg c3, if_neg (c := b + room + _ ≤ j ∧ _) (by omega)]
                by_cases c4 : b + (n - i) ≤ j ∧ j < b + n
                · rw [if_pos c4, if_pos (by omega)]
                · rw [if_neg c4, if_neg (by omega)]
        · rw [hod hraw, hk hraw]
          split <;> omega)
    refine ⟨m', k, e, h.congr (fun j hj => ?_) rfl, hk⟩
    rw [Nat.sub_self, Nat.add_zero, Nat.add_zero]

theorem makeRoom_triv_shape {m : Slots α} {b n room : Nat} (hL : b + n + room ≤ m.cells.length) :
    ∃ m', makeRoom m b n room true = .ok m' ∧
      Shape m' m.cells.length (fun j => if b + room ≤ j ∧ j < b + room + n then m.cells[j - room]? else m.cells[j]?) m.dropped := by
  have hF : ∀ j, (if b + room ≤ j ∧ j < b + room + n then m.cells[b + (j - (b + room))]? else m.cells[j]?) =
      if b + room ≤ j ∧ j < b + room + n then m.cells[j - room]? else m.cells[j]? := by
    intro j
    split
    · congr 1; omega
    · rfl
  unfold makeRoom
  rw [if_pos rfl]
  split
  · obtain ⟨m', e, h⟩ := memcpy_ok (Shape.of m) (d := b + room) (s := b) (n := n) (by omega) (by omega) (by omega)
    exact ⟨m', e, h.congr (fun j _ => hF j) rfl⟩
  · obtain ⟨m', e, h⟩ := memmove_ok (Shape.of m) (d := b + room) (s := b) (n := n) (by omega) (by omega)
    exact ⟨m', e, h.congr (fun j _ => hF j) rfl⟩

theorem destroyRoom_shape {m : Slots α} {b n room : Nat} (hobj : Objs m b n) (hrn : room ≤ n) (hr : 0 < room ∨ n = 0) :
    ∃ m', destroyRoom m b n room false = .ok m' ∧
      Shape m' m.cells.length (fun j => if b ≤ j ∧ j < b + (n - room) then m.cells[j + room]?
        else if b + (n - room) ≤ j ∧ j < b + n then
          (if room = n then some .raw else if b + room ≤ j then some .moved else m.cells[j]?)
        else m.cells[j]?) m.dropped := by
  unfold destroyRoom
  rw [if_neg (by decide)]
  by_cases hc : room < n
  · rw [if_pos hc]
    obtain ⟨m', e, h⟩ := forN_inv (n := n - room) (s := m)
      (f := fun i m => m.moveAssign (b + i) (b + (i + room)))
      (fun i m' => Shape m' m.cells.length (fun j => if b ≤ j ∧ j < b + i then m.cells[j + room]?
        else if b + room ≤ j ∧ j < b + room + i then some .moved else m.cells[j]?) m.dropped)
      ((Shape.of m).congr (fun j _ => by rw [if_neg (by omega), if_neg (by omega)]) rfl)
      (by
        intro i hi m1 h
        obtain ⟨c, hcs, hco⟩ := hobj (i + room) (by omega)
        have hlt := hobj.lt (i := i + room) (by omega)
        obtain ⟨old, ho, hoo⟩ : ∃ old, (if b + room ≤ b + i ∧ b + i < b + room + i then some Cell.moved else m.cells[b + i]?) = some old ∧
            old.isObj = true := by
          split
          · exact ⟨.moved, rfl, rfl⟩
          · exact hobj i (by omega)
        obtain ⟨m2, e2, h2⟩ := moveAssign_ok h (d := b + i) (s := b + (i + room)) (c := c) (old := old) (by omega) (by omega)
          (by rw [if_neg (by omega), if_neg (by omega)]; exact hcs) hco (by rw [if_neg (by omega)]; exact ho) hoo
        refine ⟨m2, e2, h2.congr (fun j hj => ?_) rfl⟩
        by_cases c1 : j = b + (i + room)
        · rw [if_pos c1, if_neg (by omega), if_pos (by omega)]
        · rw [if_neg c1]
          by_cases c2 : j = b + i
          · rw [if_pos c2, if_pos (by omega), ← hcs]
            congr 1; omega
          · rw [if_neg c2]
            by_cases c3 : b ≤ j ∧ j < b + i
            · rw [if_pos c3, if_pos (by omega)]
            · rw [if_neg c3, if_neg (c := b ≤ j ∧ _) (by omega)]
              by_cases c4 : b + room ≤ j ∧ j < b + room + i
              · rw [if_pos c4, if_pos (by omega)]
              · rw [if_neg c4, if_neg (by omega)])
    refine ⟨m', e, h.congr (fun j hj => ?_) rfl⟩
    by_cases c1 : b ≤ j ∧ j < b + (n - room)
    · rw [if_pos c1, if_pos c1]
    · rw [if_neg c1, if_neg c1]
      by_cases c2 : b + (n - room) ≤ j ∧ j < b + n
      · rw [if_pos c2, if_neg (c := room = n) (by omega)]
        by_cases c3 : b + room ≤ j
        · rw [if_pos c3, if_pos (by omega)]
        · rw [if_neg c3, if_neg (by omega)]
      · rw [if_neg c2, if_neg (by omega)]
  · rw [if_neg hc]
    obtain rfl : room = n := by omega
    obtain ⟨m', e, h⟩ := forN_inv (n := room) (s := m) (f := fun i m => m.destroy (b + i))
      (fun i m' => Shape m' m.cells.length (fun j => if b ≤ j ∧ j < b + i then some .raw else m.cells[j]?) m.dropped)
      ((Shape.of m).congr (fun j _ => by rw [if_neg (by omega)]) rfl)
      (by
        intro i hi m1 h
        obtain ⟨c, hcs, hco⟩ := hobj i hi
        have hlt := hobj.lt hi
        obtain ⟨m2, e2, h2⟩ := destroy_ok h (d := b + i) (old := c) (by omega) (by rw [if_neg (by omega)]; exact hcs) hco
        refine ⟨m2, e2, h2.congr (fun j hj => ?_) rfl⟩
        by_cases c1 : j = b + i
        · rw [if_pos c1, if_pos (by omega)]
        · rw [if_neg c1]
          by_cases c2 : b ≤ j ∧ j < b + i
          · rw [if_pos c2, if_pos (by omega)]
          · rw [if_neg c2, if_neg (by omega)])
    refine ⟨m', e, h.congr (fun j hj => ?_) rfl⟩
    rw [if_neg (c := b ≤ j ∧ j < b + (room - room)) (by omega)]
    by_cases c1 : b ≤ j ∧ j < b + room
    · rw [if_pos c1, if_pos (by omega), if_pos rfl]
    · rw [if_neg c1, if_neg (by omega)]

theorem destroyRoom_triv_shape {m : Slots α} {b n room : Nat} (hrn : room ≤ n) (hL : b + n ≤ m.cells.length) :
    ∃ m', destroyRoom m b n room true = .ok m' ∧
      Shape m' m.cells.length (fun j => if b ≤ j ∧ j < b + (n - room) then m.cells[j + room]? else m.cells[j]?) m.dropped := by
  unfold destroyRoom
  rw [if_pos rfl]
  split
  · obtain ⟨m', e, h⟩ := memmove_ok (Shape.of m) (d := b) (s := b + room) (n := n - room) (by omega) (by omega)
    refine ⟨m', e, h.congr (fun j _ => ?_) rfl⟩
    split
    · congr 1; omega
    · rfl
  · exact ⟨m, rfl, (Shape.of m).congr (fun j _ => by rw [if_neg (by omega)]) rfl⟩

end C4
