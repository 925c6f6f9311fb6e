import Verif.Small2
import Verif.Props.Alloc
import Verif.Props.DebugCtorDtor
/-
Property C71: exactly which blocks of a small allocator overlap, for all orders of release.  Property C177: copies of small allocators.
-/
namespace C4

open Spec

/-- Histories of a small allocator with blocks released in any order: the state and the live blocks, each with the number of objects that were alive when it was allocated.  What the memory resource hands out
does not overlap the allocator's array nor live blocks; the number of objects alive is below 2^64. -/
inductive SmallAny (arr n elem : Nat) : Small → List (Nat × Block) → Prop where
  | start : SmallAny arr n elem ⟨arr, n, elem, 0⟩ []
  | alloc {s live r k p s'} : SmallAny arr n elem s live → (live.map (·.2.al)).sum + k < 2 ^ 64 →
      (∀ q, r = .ok q → ∀ b ∈ smallArr arr n elem :: live.map (·.2), Block.Disjoint ⟨q, k * elem, 1⟩ b) →
      smallAllocate s r k = .ok (p, s') → SmallAny arr n elem s' (((live.map (·.2.al)).sum, ⟨p, k * elem, k⟩) :: live)
  | dealloc {s l1 x l2 d s'} : SmallAny arr n elem s (l1 ++ x :: l2) → smallDeallocate s x.2.addr x.2.al = (d, s') →
      SmallAny arr n elem s' (l1 ++ l2)

/-- Two blocks that were placed in the array when `x.1` and `y.1` objects were alive have an object in common. -/
def Spec.Collide (n elem : Nat) (x y : Nat × Block) : Prop :=
  0 < elem ∧ x.1 + x.2.al ≤ n ∧ y.1 + y.2.al ≤ n ∧ ∃ o, (x.1 ≤ o ∧ o < x.1 + x.2.al) ∧ (y.1 ≤ o ∧ o < y.1 + y.2.al)

theorem collide_iff {arr n elem : Nat} {x y : Nat × Block} (hx : x.2.sz = x.2.al * elem) (hy : y.2.sz = y.2.al * elem)
    (ax : x.2.addr = arr + x.1 * elem) (ay : y.2.addr = arr + y.1 * elem) (ix : x.1 + x.2.al ≤ n) (iy : y.1 + y.2.al ≤ n) :
    ¬ Block.Disjoint x.2 y.2 ↔ Collide n elem x y := by
  unfold Block.Disjoint Block.Has Collide
  rw [hx, hy, ax, ay]
  constructor
  · intro h
    rw [Classical.not_forall] at h
    obtain ⟨b, hb⟩ := h
    rw [Classical.not_not] at hb
    obtain ⟨⟨b1, b2⟩, b3, b4⟩ := hb
    have he : 0 < elem := by
      rcases Nat.eq_zero_or_pos elem with e | e
      · subst e; omega
      · exact e
    refine ⟨he, ix, iy, (b - arr) / elem, ⟨?_, ?_⟩, ?_, ?_⟩
    · rw [Nat.le_div_iff_mul_le he]; omega
    · rw [Nat.div_lt_iff_lt_mul he, Nat.add_mul]; omega
    · rw [Nat.le_div_iff_mul_le he]; omega
    · rw [Nat.div_lt_iff_lt_mul he, Nat.add_mul]; omega
  · rintro ⟨he, _, _, o, ⟨o1, o2⟩, o3, o4⟩ h
    refine h (arr + o * elem) ?_
    have e1 := Nat.mul_le_mul_right elem o1
    have e2 := Nat.mul_le_mul_right elem o3
    have e3 := Nat.mul_le_mul_right elem (show o + 1 ≤ x.1 + x.2.al by omega)
    have e4 := Nat.mul_le_mul_right elem (show o + 1 ≤ y.1 + y.2.al by omega)
    simp only [Nat.add_mul, Nat.one_mul] at e3 e4
    omega

theorem inArr_disjoint {arr n elem : Nat} {b c : Block} {m : Nat} (hb : b.sz = b.al * elem) (ab : b.addr = arr + m * elem) (ib : m + b.al ≤ n)
    (h : Block.Disjoint c (smallArr arr n elem)) : Block.Disjoint c b := by
  rintro x ⟨hx, x1, x2⟩
  refine h x ⟨hx, ?_⟩
  unfold Block.Has smallArr
  have := Nat.mul_le_mul_right elem ib
  rw [Nat.add_mul] at this
  rw [hb] at x2
  simp only
  omega

/-- **C71**, exactly, for all orders of release: the number of objects alive is counted; a block is in the array if and only if it fits behind as many objects as were alive when it was allocated,
and that is its place; and two live blocks overlap exactly if their places have an object in common. -/
theorem C71_exact {arr n elem : Nat} {s : Small} {live : List (Nat × Block)} (h : SmallAny arr n elem s live) :
    s = ⟨arr, n, elem, (live.map (·.2.al)).sum⟩ ∧
    (∀ x ∈ live, x.2.sz = x.2.al * elem ∧ (x.1 + x.2.al ≤ n → x.2.addr = arr + x.1 * elem) ∧ (n < x.1 + x.2.al → x.2.Disjoint (smallArr arr n elem))) ∧
    live.Pairwise (fun x y => ¬ Block.Disjoint x.2 y.2 ↔ Collide n elem x y) := by
  suffices H : (live.map (·.2.al)).sum < 2 ^ 64 ∧ s = ⟨arr, n, elem, (live.map (·.2.al)).sum⟩ ∧
    (∀ x ∈ live, x.2.sz = x.2.al * elem ∧ (x.1 + x.2.al ≤ n → x.2.addr = arr + x.1 * elem) ∧ (n < x.1 + x.2.al → x.2.Disjoint (smallArr arr n elem))) ∧
    live.Pairwise (fun x y => ¬ Block.Disjoint x.2 y.2 ↔ Collide n elem x y) from H.2
  induction h with
  | start => exact ⟨by simp, rfl, by simp, .nil⟩
  | @alloc s live r k p s' _ hk hr e ih =>
    obtain ⟨h0, rfl, h2, h3⟩ := ih
    generalize hnum : (live.map (·.2.al)).sum = num at *
    have hsum : (((num, (⟨p, k * elem, k⟩ : Block)) :: live).map (·.2.al)).sum = num + k := by
      simp only [List.map_cons, List.sum_cons, hnum]; omega
    rw [hsum]
    unfold smallAllocate at e
    simp only [wrap64_of_lt hk] at e
    by_cases hn : num + k ≤ n
    · rw [if_pos hn, if_pos (by omega), Res.ok_bind] at e
      cases e
      refine ⟨hk, rfl, ?_, List.pairwise_cons.mpr ⟨?_, h3⟩⟩
      · intro x hx
        rcases List.mem_cons.mp hx with rfl | hx
        · exact ⟨rfl, fun _ => rfl, fun h => absurd hn (by simp only at h; omega)⟩
        · exact h2 x hx
      · intro y hy
        obtain ⟨y1, y2, y3⟩ := h2 y hy
        rcases Nat.lt_or_ge n (y.1 + y.2.al) with hlt | hge
        · have hd := inArr_disjoint (b := ⟨arr + num * elem, k * elem, k⟩) (c := y.2) rfl rfl hn (y3 hlt)
          exact ⟨fun h => absurd hd.symm h, fun h => by have := h.2.2.1; omega⟩
        · exact collide_iff rfl y1 rfl (y2 hge) hn hge
    · rw [if_neg hn] at e
      cases r with
      | ok q =>
        rw [Res.ok_bind] at e
        cases e
        have hr := hr p rfl
        refine ⟨hk, rfl, ?_, List.pairwise_cons.mpr ⟨?_, h3⟩⟩
        · intro x hx
          rcases List.mem_cons.mp hx with rfl | hx
          · exact ⟨rfl, fun h => absurd h hn, fun _ => hr _ (.head _)⟩
          · exact h2 x hx
        · intro y hy
          have hd : Block.Disjoint (⟨p, k * elem, k⟩ : Block) y.2 := hr y.2 (.tail _ (List.mem_map_of_mem hy))
          exact ⟨fun h => absurd hd h, fun h => absurd h.2.1 hn⟩
      | ub => cases e
      | abort => cases e
      | loop => cases e
  | @dealloc s l1 x l2 d s' _ e ih =>
    obtain ⟨h0, rfl, h2, h3⟩ := ih
    have hsum : ((l1 ++ x :: l2).map (·.2.al)).sum = ((l1 ++ l2).map (·.2.al)).sum + x.2.al := by
      simp only [List.map_append, List.map_cons, List.sum_append, List.sum_cons]; omega
    rw [hsum] at h0 e
    unfold smallDeallocate at e
    cases e
    refine ⟨by omega, ?_, ?_, ?_⟩
    · congr 1
      unfold wrap64
      simp only
      omega
    · intro y hy
      apply h2 y
      rcases List.mem_append.mp hy with hy | hy
      · exact List.mem_append_left _ hy
      · exact List.mem_append_right _ (.tail _ hy)
    · exact h3.sublist (List.Sublist.append_left (List.sublist_cons_self _ _) _)

example : ∃ s, SmallAny 1024 16 4 s [(4, ⟨1040, 16, 4⟩), (4, ⟨1040, 16, 4⟩)] ∧ Collide 16 4 (4, ⟨1040, 16, 4⟩) (4, ⟨1040, 16, 4⟩) := by
  have h1 := SmallAny.alloc (arr := 1024) (n := 16) (elem := 4) (r := .abort) (k := 4) (p := 1024) (s' := ⟨1024, 16, 4, 4⟩) .start (by decide) (by simp) (by decide +kernel)
  have h2 := SmallAny.alloc (r := .abort) (k := 4) (p := 1040) (s' := ⟨1024, 16, 4, 8⟩) h1 (by decide) (by simp) (by decide +kernel)
  have h3 := SmallAny.dealloc (l1 := [(4, ⟨1040, 16, 4⟩)]) (x := (0, ⟨1024, 16, 4⟩)) (l2 := []) (d := none) (s' := ⟨1024, 16, 4, 4⟩) h2 (by decide +kernel)
  have h4 := SmallAny.alloc (r := .abort) (k := 4) (p := 1040) (s' := ⟨1024, 16, 4, 8⟩) h3 (by decide) (by simp) (by decide +kernel)
  exact ⟨_, h4, by decide, by decide, by decide, 4, by decide⟩

/-! ### C177 -/

/-- **C177 is false**: a small allocator differs from itself, which no type of allocators may do. -/
theorem C177_refuted : ∀ s, smallEq s s = false ∧ smallNe s s = true := fun _ => ⟨rfl, rfl⟩

/-- **C177 is false**: a copy passes the blocks in the array of the original to the memory resource, which they do not come from: all of them, if the arrays are apart. -/
theorem C177_refuted_release {s : Small} {r : Res Nat} {k p arr : Nat} {s' : Small} (h64 : s.num + k < 2 ^ 64) (hin : s.num + k ≤ s.n) (he : 0 < s.elem) (hk : 0 < k)
    (ha : Block.Disjoint (smallArr s.arr s.n s.elem) (smallArr arr s.n s.elem)) (e : smallAllocate s r k = .ok (p, s')) :
    (smallDeallocate (smallCopy s' arr) p k).1 = some p := by
  unfold smallAllocate at e
  rw [wrap64_of_lt h64, if_pos hin, if_pos (by omega), Res.ok_bind] at e
  cases e
  unfold smallDeallocate smallCopy
  simp only
  rw [if_neg]
  rintro ⟨h1, h2⟩
  refine ha (s.arr + s.num * s.elem) ⟨⟨by simp only [smallArr]; omega, ?_⟩, h1, h2⟩
  have := Nat.mul_lt_mul_of_pos_right (show s.num < s.n by omega) he
  simp only [smallArr]
  omega

example : smallAllocate ⟨1024, 16, 4, 0⟩ .abort 4 = .ok (1024, ⟨1024, 16, 4, 4⟩) ∧ smallDeallocate (smallCopy ⟨1024, 16, 4, 4⟩ 2048) 1024 4 = (some 1024, ⟨2048, 16, 4, 0⟩) := by decide +kernel

/-- **C177**, what holds: a copy hands out memory of its own array or of the resource, never of the original; but its array is filled only from the number of objects alive in the original on.
Missing: equality, and releasing blocks of the original (false, see above). -/
theorem C177_copy_partial {s : Small} {r : Res Nat} {k p arr : Nat} {s' : Small} (h64 : s.num + k < 2 ^ 64)
    (ha : Block.Disjoint (smallArr s.arr s.n s.elem) (smallArr arr s.n s.elem)) (hr : ∀ q, r = .ok q → Block.Disjoint ⟨q, k * s.elem, 1⟩ (smallArr s.arr s.n s.elem))
    (e : smallAllocate (smallCopy s arr) r k = .ok (p, s')) :
    Block.Disjoint ⟨p, k * s.elem, 1⟩ (smallArr s.arr s.n s.elem) ∧ s' = smallCopy ⟨s.arr, s.n, s.elem, s.num + k⟩ arr ∧
      (if s.num + k ≤ s.n then p = arr + s.num * s.elem else r = .ok p) := by
  unfold smallAllocate smallCopy at e
  simp only [wrap64_of_lt h64] at e
  by_cases hn : s.num + k ≤ s.n
  · rw [if_pos hn, if_pos (by omega), Res.ok_bind] at e
    cases e
    refine ⟨?_, rfl, by rw [if_pos hn]⟩
    exact (inArr_disjoint (b := ⟨arr + s.num * s.elem, k * s.elem, k⟩) rfl rfl hn ha).symm
  · rw [if_neg hn] at e
    cases r with
    | ok q =>
      rw [Res.ok_bind] at e
      cases e
      exact ⟨hr _ rfl, rfl, by rw [if_neg hn]⟩
    | ub => cases e
    | abort => cases e
    | loop => cases e

example : smallAllocate (smallCopy ⟨1024, 16, 4, 12⟩ 2048) (.ok 5000) 4 = .ok (2096, ⟨2048, 16, 4, 16⟩) ∧ smallAllocate (smallCopy ⟨1024, 16, 4, 13⟩ 2048) (.ok 5000) 4 = .ok (5000, ⟨2048, 16, 4, 17⟩) := by decide +kernel

/-- **C177**: an allocator made from one for another type begins empty, with all of its own array; with assertions only from one without live objects. -/
theorem C177_convert (that : Small) (arr n elem : Nat) :
    SmallAny arr n elem ⟨arr, n, elem, 0⟩ [] ∧ smallConvert false that arr n elem = .ok ⟨arr, n, elem, 0⟩ ∧
    (that.num = 0 → smallConvert true that arr n elem = .ok ⟨arr, n, elem, 0⟩) ∧ (that.num ≠ 0 → smallConvert true that arr n elem = .abort) := by
  refine ⟨.start, rfl, ?_, ?_⟩ <;> intro h <;> simp only [smallConvert, if_true] <;> rw [assert_bind]
  · rw [if_pos h]
  · rw [if_neg h]

example : smallConvert true ⟨1024, 16, 4, 1⟩ 2048 16 8 = .abort ∧ smallConvert false ⟨1024, 16, 4, 1⟩ 2048 16 8 = .ok ⟨2048, 16, 8, 0⟩ := by decide

/-- **C177**, assignment: the number of objects alive is taken over though the blocks are not.  So after assigning a new allocator, the next block lies on the live ones;
a block overlaps a live one in the array exactly as in `C71_exact`, with the number of objects of the other allocator for its place. -/
theorem C177_refuted_assign :
    smallAllocate ⟨1024, 16, 4, 0⟩ .abort 4 = .ok (1024, ⟨1024, 16, 4, 4⟩) ∧
    smallAllocate (smallAssign ⟨1024, 16, 4, 4⟩ ⟨2048, 16, 4, 0⟩) .abort 4 = .ok (1024, ⟨1024, 16, 4, 4⟩) := by decide +kernel

end C4
