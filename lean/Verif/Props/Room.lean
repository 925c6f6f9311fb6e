import Verif.Props.CtorDtor
/-
Properties C81, C99, C106, C107: making and removing room in arrays of objects, and functions on n objects.
-/
namespace C4

variable {α : Type}

theorem getElem?_cat {β : Type} (a b : List β) (j : Nat) : (a ++ b)[j]? = if j < a.length then a[j]? else b[j - a.length]? :=
  List.getElem?_append

/-- Slots given one after the other. -/
theorem Shape.cells_eq {m : Slots α} {L k : Nat} {F : Nat → Option (Cell α)} (h : Shape m L F k) {T : List (Cell α)} (hT : T.length = L)
    (hF : ∀ j, j < L → F j = T[j]?) : m = ⟨T, k⟩ := by
  obtain ⟨h1, h2, h3⟩ := h
  cases m with
  | mk cells dropped =>
    simp only [Slots.mk.injEq]
    refine ⟨?_, h3⟩
    apply List.ext_getElem?
    intro j
    rcases Nat.lt_or_ge j L with hj | hj
    · exact (h2 j hj).trans (hF j hj)
    · rw [List.getElem?_eq_none (by simp only [] at h1; omega), List.getElem?_eq_none (by omega)]

theorem objs_mid {pre xs post : List (Cell α)} {d : Nat} (h : ∀ c ∈ xs, c.isObj = true) :
    Objs ⟨pre ++ xs ++ post, d⟩ pre.length xs.length := by
  intro i hi
  refine ⟨xs[i], ?_, h _ (List.getElem_mem hi)⟩
  simp only [getElem?_cat, List.length_append]
  rw [if_pos (by omega), if_neg (by omega), Nat.add_sub_cancel_left, List.getElem?_eq_getElem hi]

theorem live_obj (xs : List α) : ∀ c ∈ xs.map Cell.live, c.isObj = true := by
  intro c hc
  obtain ⟨v, _, rfl⟩ := List.mem_map.mp hc
  rfl

/-! ### C81 -/

/-- **C81 is false** for types that are not trivial if there is nothing to make room for: every element is constructed from
itself. -/
theorem C81_refuted_make {n : Nat} (m : Slots α) (b : Nat) (h : Objs m b n) (hn : 0 < n) : makeRoom m b n 0 false = .ub := by
  unfold makeRoom
  rw [if_neg (by decide), if_neg (by omega)]
  obtain ⟨k, rfl⟩ : ∃ k, n = k + 1 := ⟨n - 1, by omega⟩
  obtain ⟨c, hc, hco⟩ := h k (by omega)
  unfold forN
  rw [forFrom]
  have : m.moveConstruct (b + ((k + 1 - 1 - 0) + 0)) (b + (k + 1 - 1 - 0)) = .ub := by
    unfold Slots.moveConstruct
    rw [show b + (k + 1 - 1 - 0) = b + k by omega, hc]
    cases c with
    | raw => rfl
    | live v => simp
    | moved => simp
  rw [this]
  rfl

/-- **C81 is false** for types that are not trivial if there is nothing to remove: every element is moved to itself. -/
theorem C81_refuted_destroy :
    destroyRoom ⟨[.live 1, .live 2], 0⟩ 0 2 0 false = .ok ⟨[.moved, .moved], 0⟩ ∧
      destroyRoom ⟨[.live 1, .live 2], 0⟩ 0 2 0 true = .ok ⟨[.live 1, .live 2], 0⟩ := by decide

/-- **C81**, `make_room` in place: the elements move up by the size of the gap, in order, for every overlap; everything else keeps its
place; trivial and other types agree.  Missing: an empty gap for types that are not trivial (false, see above). -/
theorem C81_make_room_partial (pre : List (Cell α)) (xs : List α) (gap rest : List (Cell α)) (d : Nat) (triv : Bool)
    (h : triv = true ∨ gap ≠ [] ∨ xs = []) :
    ∃ gap' d', gap'.length = gap.length ∧
      makeRoom ⟨pre ++ xs.map .live ++ gap ++ rest, d⟩ pre.length xs.length gap.length triv =
        .ok ⟨pre ++ gap' ++ xs.map .live ++ rest, d'⟩ := by
  generalize hm : (⟨pre ++ xs.map .live ++ gap ++ rest, d⟩ : Slots α) = m
  have hcells : m.cells = pre ++ xs.map .live ++ gap ++ rest := by rw [← hm]
  have hlen : m.cells.length = pre.length + xs.length + gap.length + rest.length := by rw [hcells]; simp; omega
  obtain ⟨m', k, G, e, hs⟩ : ∃ (m' : Slots α) (k : Nat) (G : Nat → Option (Cell α)), makeRoom m pre.length xs.length gap.length triv = .ok m' ∧
      Shape m' m.cells.length (fun j => if pre.length + gap.length ≤ j ∧ j < pre.length + gap.length + xs.length
        then m.cells[j - gap.length]? else if pre.length ≤ j ∧ j < pre.length + gap.length then G j else m.cells[j]?) k := by
    cases triv with
    | true =>
      obtain ⟨m', e, hs⟩ := makeRoom_triv_shape (m := m) (b := pre.length) (n := xs.length) (room := gap.length) (by omega)
      refine ⟨m', _, fun j => m.cells[j]?, e, hs.congr (fun j hj => ?_) rfl⟩
      split
      · rfl
      · split <;> rfl
    | false =>
      have hobj : Objs m pre.length xs.length := by
        have := objs_mid (pre := pre) (post := gap ++ rest) (d := d) (live_obj xs)
        rw [← List.append_assoc, hm, List.length_map] at this
        exact this
      have hr : 0 < gap.length ∨ xs.length = 0 := by
        rcases h with h | h | h
        · cases h
        · exact .inl (List.length_pos_iff.mpr h)
        · rw [h]; exact .inr rfl
      obtain ⟨m', k, e, hs, _⟩ := makeRoom_shape hobj (room := gap.length) (by omega) hr
      refine ⟨m', k, fun j => if pre.length ≤ j ∧ j < pre.length + xs.length then some .moved else m.cells[j]?, e,
        hs.congr (fun j hj => ?_) rfl⟩
      split
      · rfl
      · next c1 =>
        by_cases c2 : pre.length ≤ j ∧ j < pre.length + gap.length
        · rw [if_pos c2]
        · rw [if_neg c2, if_neg (by omega)]
  refine ⟨(m'.cells.drop pre.length).take gap.length, k, ?_, ?_⟩
  · have := hs.1
    simp; omega
  · rw [e]
    congr 1
    have hl := hs.1
    have hsj := hs.2.1
    dsimp only at hsj
    apply Shape.cells_eq (L := m.cells.length) (F := fun j => m'.cells[j]?) ⟨hl, fun _ _ => rfl, hs.2.2⟩
    · simp; omega
    · intro j hj
      have hgl : ((m'.cells.drop pre.length).take gap.length).length = gap.length := by simp; omega
      simp only [getElem?_cat, List.length_append, hgl, List.length_map]
      by_cases c1 : j < pre.length
      · rw [if_pos (by omega), if_pos (by omega), if_pos (by omega), hsj j hj, if_neg (by omega), if_neg (by omega), hcells]
        simp only [getElem?_cat, List.length_append, List.length_map]
        rw [if_pos (by omega), if_pos (by omega), if_pos (by omega)]
      · by_cases c2 : j < pre.length + gap.length
        · rw [if_pos (by omega), if_pos (by omega), if_neg (by omega), List.getElem?_take, if_pos (by omega), List.getElem?_drop]
          congr 1; omega
        · by_cases c3 : j < pre.length + gap.length + xs.length
          · rw [if_pos (by omega), if_neg (by omega), hsj j hj, if_pos (by omega), hcells]
            simp only [getElem?_cat, List.length_append, List.length_map]
            rw [if_pos (by omega), if_pos (by omega), if_neg (by omega)]
            congr 1; omega
          · rw [if_neg (by omega), hsj j hj, if_neg (by omega), if_neg (by omega), hcells]
            simp only [getElem?_cat, List.length_append, List.length_map]
            rw [if_neg (by omega)]
            congr 1; omega

/-- **C81**, `make_room` at a position: the elements before it keep their place. -/
theorem C81_make_room_pos_partial (pre : List (Cell α)) (xs ys : List α) (gap rest : List (Cell α)) (d : Nat) (triv : Bool)
    (h : triv = true ∨ gap ≠ [] ∨ ys = []) :
    ∃ gap' d', gap'.length = gap.length ∧
      makeRoomPos ⟨pre ++ xs.map .live ++ ys.map .live ++ gap ++ rest, d⟩ pre.length (xs.length + ys.length) xs.length gap.length triv =
        .ok ⟨pre ++ xs.map .live ++ gap' ++ ys.map .live ++ rest, d'⟩ := by
  obtain ⟨gap', d', hl, e⟩ := C81_make_room_partial (pre ++ xs.map .live) ys gap rest d triv h
  refine ⟨gap', d', hl, ?_⟩
  unfold makeRoomPos
  rw [List.length_append, List.length_map] at e
  rw [Nat.add_sub_cancel_left, e]

/-- **C81**, `destroy_room` in place: the remaining elements move down, in order.  Missing: nothing to remove, for types that are not
trivial (false, see above). -/
theorem C81_destroy_room_partial (pre : List (Cell α)) (gone xs : List α) (rest : List (Cell α)) (d : Nat) (triv : Bool)
    (h : triv = true ∨ gone ≠ [] ∨ xs = []) :
    ∃ tail, tail.length = gone.length ∧
      destroyRoom ⟨pre ++ gone.map .live ++ xs.map .live ++ rest, d⟩ pre.length (gone.length + xs.length) gone.length triv =
        .ok ⟨pre ++ xs.map .live ++ tail ++ rest, d⟩ := by
  generalize hm : (⟨pre ++ gone.map .live ++ xs.map .live ++ rest, d⟩ : Slots α) = m
  have hcells : m.cells = pre ++ gone.map .live ++ xs.map .live ++ rest := by rw [← hm]
  have hd : m.dropped = d := by rw [← hm]
  have hlen : m.cells.length = pre.length + gone.length + xs.length + rest.length := by rw [hcells]; simp; omega
  obtain ⟨m', G, e, hs⟩ : ∃ (m' : Slots α) (G : Nat → Option (Cell α)), destroyRoom m pre.length (gone.length + xs.length) gone.length triv = .ok m' ∧
      Shape m' m.cells.length (fun j => if pre.length ≤ j ∧ j < pre.length + xs.length
        then m.cells[j + gone.length]? else if pre.length + xs.length ≤ j ∧ j < pre.length + xs.length + gone.length then G j
        else m.cells[j]?) d := by
    cases triv with
    | true =>
      obtain ⟨m', e, hs⟩ := destroyRoom_triv_shape (m := m) (b := pre.length) (n := gone.length + xs.length) (room := gone.length)
        (by omega) (by omega)
      refine ⟨m', fun j => m.cells[j]?, e, hs.congr (fun j hj => ?_) hd⟩
      rw [Nat.add_sub_cancel_left]
      split
      · rfl
      · split <;> rfl
    | false =>
      have hobj : Objs m pre.length (gone.length + xs.length) := by
        have := objs_mid (pre := pre) (post := rest) (d := d) (live_obj (gone ++ xs))
        rw [List.map_append, ← List.append_assoc, hm, List.length_append, List.length_map, List.length_map] at this
        exact this
      have hr : 0 < gone.length ∨ gone.length + xs.length = 0 := by
        rcases h with h | h | h
        · cases h
        · exact .inl (List.length_pos_iff.mpr h)
        · rw [h]; rcases Nat.eq_zero_or_pos gone.length with h0 | h0
          · exact .inr (by simp [h0])
          · exact .inl h0
      obtain ⟨m', e, hs⟩ := destroyRoom_shape hobj (room := gone.length) (by omega) hr
      refine ⟨m', fun j => if gone.length = gone.length + xs.length then some .raw else if pre.length + gone.length ≤ j then some .moved
        else m.cells[j]?, e, hs.congr (fun j hj => ?_) hd⟩
      rw [Nat.add_sub_cancel_left]
      split
      · rfl
      · next c1 =>
        by_cases c2 : pre.length + xs.length ≤ j ∧ j < pre.length + (gone.length + xs.length)
        · rw [if_pos c2, if_pos (c := _ ∧ _) (by omega)]
        · rw [if_neg c2, if_neg (by omega)]
  refine ⟨(m'.cells.drop (pre.length + xs.length)).take gone.length, ?_, ?_⟩
  · have := hs.1
    simp; omega
  · rw [e]
    congr 1
    have hl := hs.1
    have hsj := hs.2.1
    dsimp only at hsj
    apply Shape.cells_eq (L := m.cells.length) (F := fun j => m'.cells[j]?) ⟨hl, fun _ _ => rfl, hs.2.2⟩
    · simp; omega
    · intro j hj
      have hgl : ((m'.cells.drop (pre.length + xs.length)).take gone.length).length = gone.length := by simp; omega
      simp only [getElem?_cat, List.length_append, hgl, List.length_map]
      by_cases c1 : j < pre.length
      · rw [if_pos (by omega), if_pos (by omega), if_pos (by omega), hsj j hj, if_neg (by omega), if_neg (by omega), hcells]
        simp only [getElem?_cat, List.length_append, List.length_map]
        rw [if_pos (by omega), if_pos (by omega), if_pos (by omega)]
      · by_cases c2 : j < pre.length + xs.length
        · rw [if_pos (by omega), if_pos (by omega), if_neg (by omega), hsj j hj, if_pos (by omega), hcells]
          simp only [getElem?_cat, List.length_append, List.length_map]
          rw [if_pos (by omega), if_neg (by omega)]
          congr 1; omega
        · by_cases c3 : j < pre.length + xs.length + gone.length
          · rw [if_pos (by omega), if_neg (by omega), List.getElem?_take, if_pos (by omega), List.getElem?_drop]
            congr 1; omega
          · rw [if_neg (by omega), hsj j hj, if_neg (by omega), if_neg (by omega), hcells]
            simp only [getElem?_cat, List.length_append, List.length_map]
            rw [if_neg (by omega)]
            congr 1; omega

/-- Copying n objects from another buffer, for trivial and other types. -/
theorem copyRange_shape {m : Slots α} {src : List (Cell α)} {L k d s n : Nat} {F : Nat → Option (Cell α)} (h : Shape m L F k)
    (hF : ∀ j, j < L → ∃ c, F j = some c) (hd : d + n ≤ L) (hs : ∀ i, i < n → ∃ c, src[s + i]? = some c ∧ c.isObj = true) :
    ∃ m' k', forN n (fun i m => m.copyFrom src (d + i) (s + i)) m = .ok m' ∧
      Shape m' L (fun j => if d ≤ j ∧ j < d + n then src[s + (j - d)]? else F j) k' := by
  obtain ⟨m', e, k', h'⟩ := forN_inv (n := n) (s := m) (f := fun i m => m.copyFrom src (d + i) (s + i))
    (fun i m' => ∃ k', Shape m' L (fun j => if d ≤ j ∧ j < d + i then src[s + (j - d)]? else F j) k')
    ⟨k, h.congr (fun j _ => by rw [if_neg (by omega)]) rfl⟩
    (by
      rintro i hi m1 ⟨k1, h1⟩
      obtain ⟨c, hc, hco⟩ := hs i hi
      obtain ⟨old, ho⟩ := hF (d + i) (by omega)
      obtain ⟨m2, e2, h2⟩ := copyFrom_ok h1 (d := d + i) (s := s + i) (by omega) hc hco (by rw [if_neg (by omega)]; exact ho)
      refine ⟨m2, e2, _, h2.congr (fun j hj => ?_) rfl⟩
      by_cases c1 : j = d + i
      · rw [if_pos c1, if_pos (by omega), ← hc]; congr 1; omega
      · rw [if_neg c1]
        by_cases c2 : d ≤ j ∧ j < d + i
        · rw [if_pos c2, if_pos (by omega)]
        · rw [if_neg c2, if_neg (by omega)])
  exact ⟨m', k', e, h'⟩

/-- **C81**, `make_room` from another buffer: the elements are copied around the gap, for trivial and other types alike, and the
rest of the destination (the gap too) is unchanged. -/
theorem C81_make_room_to (xs ys : List α) (more a gap b rest : List (Cell α)) (d : Nat) (triv : Bool)
    (ha : a.length = xs.length) (hb : b.length = ys.length) :
    ∃ d', makeRoomTo ⟨a ++ gap ++ b ++ rest, d⟩ (xs.map .live ++ ys.map .live ++ more) (xs.length + ys.length) gap.length xs.length triv =
      .ok ⟨xs.map .live ++ gap ++ ys.map .live ++ rest, d'⟩ := by
  generalize hm : (⟨a ++ gap ++ b ++ rest, d⟩ : Slots α) = m
  have hcells : m.cells = a ++ gap ++ b ++ rest := by rw [← hm]
  have hlen : m.cells.length = xs.length + gap.length + ys.length + rest.length := by rw [hcells]; simp [ha, hb]; omega
  have hsrc : ∀ i, i < xs.length + ys.length → ∃ c, (xs.map Cell.live ++ ys.map .live ++ more)[0 + i]? = some c ∧ c.isObj = true := by
    intro i hi
    have h := objs_mid (pre := []) (post := more) (d := 0) (live_obj (xs ++ ys)) i (by simp; omega)
    simpa using h
  generalize hS : xs.map Cell.live ++ ys.map .live ++ more = src at *
  have hslen : src.length = xs.length + ys.length + more.length := by rw [← hS]; simp; omega
  obtain ⟨m', k, e, hs⟩ : ∃ m' k, makeRoomTo m src (xs.length + ys.length) gap.length xs.length triv = .ok m' ∧
      Shape m' m.cells.length (fun j => if gap.length + xs.length ≤ j ∧ j < gap.length + xs.length + ys.length
        then src[xs.length + (j - (gap.length + xs.length))]? else if 0 ≤ j ∧ j < 0 + xs.length then src[0 + (j - 0)]?
        else m.cells[j]?) k := by
    unfold makeRoomTo
    rw [Nat.add_sub_cancel_left]
    cases triv with
    | true =>
      rw [if_pos rfl]
      obtain ⟨m1, e1, h1⟩ := memcpyFrom_ok (src := src) (Shape.of m) (d := 0) (s := 0) (n := xs.length) (by omega) (by omega)
      obtain ⟨m2, e2, h2⟩ := memcpyFrom_ok (src := src) h1 (d := gap.length + xs.length) (s := xs.length) (n := ys.length)
        (by omega) (by omega)
      exact ⟨m2, _, by rw [e1, Res.ok_bind, e2], h2⟩
    | false =>
      rw [if_neg (by decide)]
      obtain ⟨m1, k1, e1, h1⟩ := copyRange_shape (src := src) (Shape.of m) (d := 0) (s := 0) (n := xs.length)
        (fun j hj => slot_some hj) (by omega) (fun i hi => hsrc i (by omega))
      obtain ⟨m2, k2, e2, h2⟩ := copyRange_shape (src := src) h1 (d := gap.length + xs.length) (s := xs.length) (n := ys.length)
        (fun j hj => by
          split
          · obtain ⟨c, hc, _⟩ := hsrc (j - 0) (by omega)
            exact ⟨c, hc⟩
          · exact slot_some hj)
        (by omega) (fun i hi => by have := hsrc (xs.length + i) (by omega); rwa [Nat.zero_add] at this)
      simp only [Nat.zero_add] at e1
      exact ⟨m2, _, by rw [e1, Res.ok_bind, e2], h2⟩
  refine ⟨k, ?_⟩
  rw [e]
  congr 1
  apply hs.cells_eq
  · simp; omega
  · intro j hj
    simp only [getElem?_cat, List.length_append, List.length_map]
    by_cases c1 : j < xs.length
    · rw [if_neg (by omega), if_pos (by omega), if_pos (by omega), if_pos (by omega), if_pos (by omega), ← hS]
      simp only [getElem?_cat, List.length_append, List.length_map]
      rw [if_pos (by omega), if_pos (by omega)]
      congr 1; omega
    · by_cases c2 : j < xs.length + gap.length
      · rw [if_neg (by omega), if_neg (by omega), if_pos (by omega), if_pos (by omega), if_neg (by omega), hcells]
        simp only [getElem?_cat, List.length_append]
        rw [if_pos (by omega), if_pos (by omega), if_neg (by omega), ha]
      · by_cases c3 : j < xs.length + gap.length + ys.length
        · rw [if_pos (by omega), if_pos (by omega), if_neg (by omega), ← hS]
          simp only [getElem?_cat, List.length_append, List.length_map]
          rw [if_pos (by omega), if_neg (by omega)]
          congr 1; omega
        · rw [if_neg (by omega), if_neg (by omega), if_neg (by omega), hcells]
          simp only [getElem?_cat, List.length_append]
          rw [if_neg (by omega), ha, hb]

/-- **C81**, `destroy_room` to another buffer: the elements around the gap are copied one after the other. -/
theorem C81_destroy_room_to (xs gone ys : List α) (more a rest : List (Cell α)) (d : Nat) (triv : Bool)
    (ha : a.length = xs.length + ys.length) :
    ∃ d', destroyRoomTo ⟨a ++ rest, d⟩ (xs.map .live ++ gone.map .live ++ ys.map .live ++ more) (xs.length + gone.length + ys.length)
        gone.length xs.length triv = .ok ⟨xs.map .live ++ ys.map .live ++ rest, d'⟩ := by
  generalize hm : (⟨a ++ rest, d⟩ : Slots α) = m
  have hcells : m.cells = a ++ rest := by rw [← hm]
  have hlen : m.cells.length = xs.length + ys.length + rest.length := by rw [hcells]; simp [ha]
  have hsrc : ∀ i, i < xs.length + gone.length + ys.length →
      ∃ c, (xs.map Cell.live ++ gone.map .live ++ ys.map .live ++ more)[0 + i]? = some c ∧ c.isObj = true := by
    intro i hi
    have h := objs_mid (pre := []) (post := more) (d := 0) (live_obj (xs ++ gone ++ ys)) i (by simp; omega)
    simpa using h
  generalize hS : xs.map Cell.live ++ gone.map .live ++ ys.map .live ++ more = src at *
  have hslen : src.length = xs.length + gone.length + ys.length + more.length := by rw [← hS]; simp; omega
  obtain ⟨m', k, e, hs⟩ : ∃ m' k, destroyRoomTo m src (xs.length + gone.length + ys.length) gone.length xs.length triv = .ok m' ∧
      Shape m' m.cells.length (fun j => if xs.length ≤ j ∧ j < xs.length + ys.length
        then src[gone.length + xs.length + (j - xs.length)]? else if 0 ≤ j ∧ j < 0 + xs.length then src[0 + (j - 0)]?
        else m.cells[j]?) k := by
    unfold destroyRoomTo
    rw [show xs.length + gone.length + ys.length - xs.length - gone.length = ys.length by omega]
    cases triv with
    | true =>
      rw [if_pos rfl]
      obtain ⟨m1, e1, h1⟩ := memcpyFrom_ok (src := src) (Shape.of m) (d := 0) (s := 0) (n := xs.length) (by omega) (by omega)
      obtain ⟨m2, e2, h2⟩ := memcpyFrom_ok (src := src) h1 (d := xs.length) (s := gone.length + xs.length) (n := ys.length)
        (by omega) (by omega)
      exact ⟨m2, _, by rw [e1, Res.ok_bind, e2], h2⟩
    | false =>
      rw [if_neg (by decide)]
      obtain ⟨m1, k1, e1, h1⟩ := copyRange_shape (src := src) (Shape.of m) (d := 0) (s := 0) (n := xs.length)
        (fun j hj => slot_some hj) (by omega) (fun i hi => hsrc i (by omega))
      obtain ⟨m2, k2, e2, h2⟩ := copyRange_shape (src := src) h1 (d := xs.length) (s := gone.length + xs.length) (n := ys.length)
        (fun j hj => by
          split
          · obtain ⟨c, hc, _⟩ := hsrc (j - 0) (by omega)
            exact ⟨c, hc⟩
          · exact slot_some hj)
        (by omega) (fun i hi => by have := hsrc (gone.length + xs.length + i) (by omega); rwa [Nat.zero_add] at this)
      simp only [Nat.zero_add] at e1
      exact ⟨m2, _, by rw [e1, Res.ok_bind, e2], h2⟩
  refine ⟨k, ?_⟩
  rw [e]
  congr 1
  apply hs.cells_eq
  · simp; omega
  · intro j hj
    simp only [getElem?_cat, List.length_append, List.length_map]
    by_cases c1 : j < xs.length
    · rw [if_neg (by omega), if_pos (by omega), if_pos (by omega), if_pos (by omega), ← hS]
      simp only [getElem?_cat, List.length_append, List.length_map]
      rw [if_pos (by omega), if_pos (by omega), if_pos (by omega)]
      congr 1; omega
    · by_cases c3 : j < xs.length + ys.length
      · rw [if_pos (by omega), if_pos (by omega), if_neg (by omega), ← hS]
        simp only [getElem?_cat, List.length_append, List.length_map]
        rw [if_pos (by omega), if_neg (by omega)]
        congr 1; omega
      · rw [if_neg (by omega), if_neg (by omega), if_neg (by omega), hcells]
        simp only [getElem?_cat]
        rw [if_neg (by omega), ha]

example : makeRoomPos (⟨[.live 1, .live 2, .live 3], 0⟩ : Slots Nat) 0 3 1 1 true = .ub ∧ makeRoomPos (⟨[.live 1, .live 2, .live 3], 0⟩ : Slots Nat) 0 3 1 1 false = .ub := by decide
example : makeRoomPos ⟨[.live 1, .live 2, .live 3, .raw], 0⟩ 0 3 1 1 false = .ok ⟨[.live 1, .moved, .live 2, .live 3], 1⟩ ∧
    makeRoomPos ⟨[.live 1, .live 2, .live 3, .raw], 0⟩ 0 3 1 1 true = .ok ⟨[.live 1, .live 2, .live 2, .live 3], 0⟩ := by decide
example : destroyRoom ⟨[.live 1, .live 2, .live 3], 0⟩ 0 3 1 false = .ok ⟨[.live 2, .live 3, .moved], 0⟩ := by decide
example : makeRoomTo ⟨[.raw, .raw, .raw, .raw], 0⟩ [.live 1, .live 2] 2 1 1 false = .ok ⟨[.live 1, .raw, .live 2, .raw], 0⟩ := by decide
example : destroyRoomTo ⟨[.raw, .raw, .raw], 0⟩ [.live 1, .live 2, .live 3] 3 1 1 true = .ok ⟨[.live 1, .live 3, .raw], 0⟩ := by decide

/-! ### C99 -/

/-- **C99 is false** whenever elements remain: nothing is destroyed, the removed slots still hold objects. -/
theorem C99_refuted {m : Slots α} {b n room : Nat} (hobj : Objs m b n) (h0 : 0 < room) (hrn : room < n) :
    ∃ m', destroyRoom m b n room false = .ok m' ∧ Objs m' b n := by
  obtain ⟨m', e, hs⟩ := destroyRoom_shape hobj (room := room) (by omega) (.inl h0)
  refine ⟨m', e, fun i hi => ?_⟩
  have hlt := hobj.lt hi
  rw [hs.2.1 (b + i) hlt]
  dsimp only
  by_cases c1 : b ≤ b + i ∧ b + i < b + (n - room)
  · rw [if_pos c1, Nat.add_assoc]
    exact hobj (i + room) (by omega)
  · rw [if_neg c1, if_pos (by omega), if_neg (by omega)]
    split
    · exact ⟨.moved, rfl, rfl⟩
    · exact hobj i hi

example : Objs (⟨[.live 1, .live 2, .live 3], 0⟩ : Slots Nat) 0 3 ∧ destroyRoom (⟨[.live 1, .live 2, .live 3], 0⟩ : Slots Nat) 0 3 1 false =
    .ok ⟨[.live 2, .live 3, .moved], 0⟩ := by
  refine ⟨fun i hi => ?_, by decide⟩
  exact objs_mid (pre := []) (post := []) (d := 0) (live_obj [1, 2, 3]) i hi

/-- **C99**, what holds: if all elements are removed, all are destroyed and everything else is as before.  Missing: removing
some (false, see above). -/
theorem C99_all_partial (pre : List (Cell α)) (gone : List α) (rest : List (Cell α)) (d : Nat) :
    destroyRoom ⟨pre ++ gone.map .live ++ rest, d⟩ pre.length gone.length gone.length false =
      .ok ⟨pre ++ List.replicate gone.length .raw ++ rest, d⟩ := by
  have hobj := objs_mid (pre := pre) (post := rest) (d := d) (live_obj gone)
  rw [List.length_map] at hobj
  obtain ⟨m', e, hs⟩ := destroyRoom_shape hobj (room := gone.length) (by omega) (by omega)
  rw [e]
  congr 1
  apply hs.cells_eq
  · simp
  · intro j hj
    simp only [getElem?_cat, List.length_append, List.length_map, List.length_replicate]
    rw [if_neg (c := _ ∧ j < pre.length + (_ - _)) (by omega)]
    by_cases c1 : j < pre.length
    · rw [if_neg (by omega), if_pos (by omega), if_pos c1, if_pos (by omega), if_pos c1]
    · by_cases c2 : j < pre.length + gone.length
      · rw [if_pos (by omega), if_pos (by trivial), if_pos (by omega), if_neg (by omega), List.getElem?_replicate, if_pos (by omega)]
      · rw [if_neg (by omega), if_neg (by omega), if_neg (by omega)]

example : destroyRoom ⟨[.live 7, .live 1, .live 2, .live 8], 0⟩ 1 2 2 false = .ok ⟨[.live 7, .raw, .raw, .live 8], 0⟩ := by decide

/-! ### C107: memory of objects is not reused without destroying them -/

/-- **C107 is false**: if the gap is smaller than the number of elements, `n - room` objects are constructed in the memory of others
that were never destroyed. -/
theorem C107_refuted (pre : List (Cell α)) (xs : List α) (room d : Nat) (rest : List (Cell α)) (h0 : 0 < room) :
    ∃ m', makeRoom ⟨pre ++ xs.map .live ++ List.replicate room .raw ++ rest, d⟩ pre.length xs.length room false = .ok m' ∧
      m'.dropped = d + (xs.length - room) := by
  have hobj := objs_mid (pre := pre) (post := List.replicate room .raw ++ rest) (d := d) (live_obj xs)
  rw [← List.append_assoc, List.length_map] at hobj
  obtain ⟨m', k, e, hs, hk⟩ := makeRoom_shape hobj (room := room) (by simp; omega) (.inl h0)
  refine ⟨m', e, ?_⟩
  rw [hs.2.2, hk]
  intro j h1 h2
  simp only [getElem?_cat, List.length_append, List.length_map, List.length_replicate]
  rw [if_pos (by omega), if_neg (by omega), List.getElem?_replicate, if_pos (by omega)]

/-- **C107**, what holds: if the gap is at least as large, no object is dropped and the elements' old slots are the only ones left with
objects moved from, so the gap is these followed by raw memory.  Missing: smaller gaps (false, see above). -/
theorem C107_large_partial (pre : List (Cell α)) (xs : List α) (room d : Nat) (rest : List (Cell α)) (h : xs.length ≤ room) :
    makeRoom ⟨pre ++ xs.map .live ++ List.replicate room .raw ++ rest, d⟩ pre.length xs.length room false =
      .ok ⟨pre ++ (List.replicate xs.length .moved ++ List.replicate (room - xs.length) .raw) ++ xs.map .live ++ rest, d⟩ := by
  have hobj := objs_mid (pre := pre) (post := List.replicate room .raw ++ rest) (d := d) (live_obj xs)
  rw [← List.append_assoc, List.length_map] at hobj
  obtain ⟨m', k, e, hs, hk⟩ := makeRoom_shape hobj (room := room) (by simp; omega) (by omega)
  rw [e]
  congr 1
  have hkd : k = d := by
    rw [hk]
    · simp only []; omega
    · intro j h1 h2
      simp only [getElem?_cat, List.length_append, List.length_map, List.length_replicate]
      rw [if_pos (by omega), if_neg (by omega), List.getElem?_replicate, if_pos (by omega)]
  rw [hkd] at hs
  apply hs.cells_eq
  · simp; omega
  · intro j hj
    simp only [getElem?_cat, List.length_append, List.length_map, List.length_replicate]
    by_cases c1 : j < pre.length
    · rw [if_neg (by omega), if_neg (by omega), if_pos (by omega), if_pos (by omega), if_pos (by omega), if_pos (by omega),
        if_pos (by omega), if_pos (by omega)]
    · by_cases c2 : j < pre.length + xs.length
      · rw [if_neg (by omega), if_pos (by omega), if_pos (by omega), if_pos (by omega), if_neg (by omega), if_pos (by omega),
          List.getElem?_replicate, if_pos (by omega)]
      · by_cases c3 : j < pre.length + room
        · rw [if_neg (by omega), if_neg (by omega), if_pos (by omega), if_neg (by omega), if_pos (by omega), if_pos (by omega),
            if_neg (by omega), if_neg (by omega), List.getElem?_replicate, List.getElem?_replicate, if_pos (by omega), if_pos (by omega)]
        · by_cases c4 : j < pre.length + room + xs.length
          · rw [if_pos (by omega), if_pos (by omega), if_pos (by omega), if_neg (by omega), if_pos (by omega), if_neg (by omega)]
            congr 1; omega
          · rw [if_neg (by omega), if_neg (by omega), if_neg (by omega), if_neg (by omega)]
            congr 1; omega

example : makeRoom ⟨[.live 1, .raw, .raw], 0⟩ 0 1 2 false = .ok ⟨[.moved, .raw, .live 1], 0⟩ := by decide
example : makeRoom ⟨[.live 1, .live 2, .raw], 0⟩ 0 2 1 false = .ok ⟨[.moved, .live 1, .live 2], 1⟩ := by decide

end C4
