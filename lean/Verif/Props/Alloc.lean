import Verif.Props.MemRes
/-
Properties C70-C72, C89-C93: allocation counts, scoped resources, allocators.
-/
namespace C4
open Spec

/-! ### C70 -/

/-- Histories of a counting resource: calls that return normally, on live blocks (address, size) or the null pointer.  The
counters, the live blocks, the sizes of all blocks handed out, and the values `curr` had after each call. -/
inductive CntHist : Counts → List (Nat × Nat) → List Nat → List CntItem → Prop where
  | start : CntHist {} [] [] [⟨0, 0⟩]
  | alloc {c live all hist r sz p c'} : CntHist c live all hist → countsAllocate c r sz = (.ok p, c') →
      CntHist c' ((p, sz) :: live) (sz :: all) (c'.curr :: hist)
  | dealloc {c live all hist b c'} : CntHist c live all hist → b ∈ live → countsDeallocate c b.1 b.2 = c' →
      CntHist c' (live.erase b) all (c'.curr :: hist)
  | deallocNull {c live all hist sz c'} : CntHist c live all hist → countsDeallocate c 0 sz = c' →
      CntHist c' live all (c'.curr :: hist)
  | realloc {c live all hist b r n p c'} : CntHist c live all hist → b ∈ live →
      countsReallocate c r b.1 b.2 n = (.ok p, c') →
      CntHist c' ((p, n) :: live.erase b) (n :: all) (c'.curr :: hist)
  | reallocNull {c live all hist r old n p c'} : CntHist c live all hist → countsReallocate c r 0 old n = (.ok p, c') →
      CntHist c' ((p, n) :: live) (n :: all) (c'.curr :: hist)

/-- Number and total size of some sizes. -/
def Spec.tally (l : List Nat) : CntItem := ⟨l.length, l.sum⟩

def Spec.itemLe (a b : CntItem) : Prop := a.allocs ≤ b.allocs ∧ a.size ≤ b.size

/-- `m` is the componentwise maximum of the non-empty list. -/
def Spec.itemMax (m : CntItem) (l : List CntItem) : Prop :=
  (∀ a ∈ l, itemLe a m) ∧ (∃ a ∈ l, a.allocs = m.allocs) ∧ (∃ a ∈ l, a.size = m.size)

structure CntInv (c : Counts) (live : List (Nat × Nat)) (all : List Nat) (hist : List CntItem) : Prop where
  nn : ∀ b ∈ live, b.1 ≠ 0
  curr : c.curr = tally (live.map (·.2))
  total : c.total = tally all
  max : itemMax c.max hist
  le1 : live.length ≤ all.length
  le2 : (live.map (·.2)).sum ≤ all.sum
  mt : itemLe c.max c.total
  cm : itemLe c.curr c.max

theorem cnt_erase {live : List (Nat × Nat)} {b : Nat × Nat} (hb : b ∈ live) :
    live.length = (live.erase b).length + 1 ∧
      (live.map (·.2)).sum = b.2 + ((live.erase b).map (·.2)).sum := by
  have hp := List.perm_cons_erase hb
  exact ⟨by simpa using hp.length_eq, by simpa using (hp.map (·.2)).sum_nat⟩

theorem itemMax_cons {m x : CntItem} {l : List CntItem} (h : itemMax m l) : itemMax (m.max x) (x :: l) := by
  obtain ⟨h1, ⟨a, ha, ea⟩, ⟨b, hb, eb⟩⟩ := h
  unfold CntItem.max
  refine ⟨fun y hy => ?_, ?_, ?_⟩
  · rcases List.mem_cons.mp hy with rfl | hy
    · constructor <;> simp only <;> split <;> omega
    · have := h1 y hy
      unfold itemLe at this ⊢
      constructor <;> simp only <;> split <;> omega
  · simp only
    split
    · exact ⟨a, .tail _ ha, ea⟩
    · exact ⟨x, .head _, rfl⟩
  · simp only
    split
    · exact ⟨b, .tail _ hb, eb⟩
    · exact ⟨x, .head _, rfl⟩

theorem itemMax_le {m x : CntItem} {l : List CntItem} (h : itemMax m l) (hx : itemLe x m) : itemMax m (x :: l) := by
  obtain ⟨h1, ⟨a, ha, ea⟩, ⟨b, hb, eb⟩⟩ := h
  refine ⟨fun y hy => ?_, ⟨a, .tail _ ha, ea⟩, ⟨b, .tail _ hb, eb⟩⟩
  rcases List.mem_cons.mp hy with rfl | hy
  · exact hx
  · exact h1 y hy

theorem cnt_add {c : Counts} {live : List (Nat × Nat)} {all : List Nat} {hist : List CntItem} (h : CntInv c live all hist)
    {p : Nat} (hp : p ≠ 0) (sz : Nat) :
    CntInv (c.addCounts p sz) ((p, sz) :: live) (sz :: all) ((c.addCounts p sz).curr :: hist) := by
  obtain ⟨h1, h2, h3, h4, h5, h6, h7, h8⟩ := h
  unfold Counts.addCounts
  simp only [if_neg hp]
  have hc : c.curr.add sz = tally (((p, sz) :: live).map (·.2)) := by
    rw [h2]; simp [CntItem.add, tally]; omega
  have ht : c.total.add sz = tally (sz :: all) := by
    rw [h3]; simp [CntItem.add, tally]; omega
  refine ⟨?_, hc, ht, itemMax_cons h4, by simp; exact h5, by simp; omega, ?_, ?_⟩
  · intro b hb
    rcases List.mem_cons.mp hb with rfl | hb
    · exact hp
    · exact h1 b hb
  · rw [h3, h2] at *
    unfold itemLe tally CntItem.max CntItem.add at *
    simp only [List.length_map] at *
    refine ⟨?_, ?_⟩ <;> split <;> omega
  · unfold itemLe CntItem.max
    refine ⟨?_, ?_⟩ <;> simp only <;> split <;> omega

theorem cnt_rem {c : Counts} {live : List (Nat × Nat)} {all : List Nat} {hist : List CntItem} (h : CntInv c live all hist)
    {b : Nat × Nat} (hb : b ∈ live) :
    CntInv (c.remCounts b.1 b.2) (live.erase b) all ((c.remCounts b.1 b.2).curr :: hist) := by
  obtain ⟨h1, h2, h3, h4, h5, h6, h7, h8⟩ := h
  obtain ⟨e1, e2⟩ := cnt_erase hb
  unfold Counts.remCounts
  simp only [if_neg (h1 b hb)]
  have hle : itemLe (c.curr.rem b.2) c.max := by
    unfold itemLe CntItem.rem at *
    simp only
    omega
  refine ⟨fun x hx => h1 x (List.mem_of_mem_erase hx), ?_, h3, itemMax_le h4 hle, by omega, by omega, h7, hle⟩
  rw [h2]
  unfold CntItem.rem tally
  simp only [List.length_map, CntItem.mk.injEq]
  omega

theorem countsAllocate_ok {c c' : Counts} {r : Res Nat} {sz p : Nat} (h : countsAllocate c r sz = (.ok p, c')) :
    p ≠ 0 ∧ c' = c.addCounts p sz := by
  unfold countsAllocate at h
  cases r with
  | ok q =>
    simp only [Prod.mk.injEq] at h
    obtain ⟨h1, h2⟩ := h
    by_cases h0 : q = 0
    · rw [if_pos h0] at h1; cases h1
    · rw [if_neg h0] at h1; cases h1; exact ⟨h0, h2.symm⟩
  | _ => simp at h

theorem countsReallocate_ok {c c' : Counts} {r : Res Nat} {o old n p : Nat} (h : countsReallocate c r o old n = (.ok p, c')) :
    p ≠ 0 ∧ c' = (c.remCounts o old).addCounts p n := by
  unfold countsReallocate at h
  cases r with
  | ok q =>
    simp only [Prod.mk.injEq] at h
    obtain ⟨h1, h2⟩ := h
    by_cases h0 : q = 0
    · rw [if_pos h0] at h1; cases h1
    · rw [if_neg h0] at h1; cases h1; exact ⟨h0, h2.symm⟩
  | _ => simp at h

theorem CntInv.drop {c : Counts} {live : List (Nat × Nat)} {all : List Nat} {hist : List CntItem} {x y : CntItem}
    (h : CntInv c live all (x :: y :: hist)) (hyx : itemLe y x) : CntInv c live all (x :: hist) := by
  obtain ⟨h1, h2, h3, ⟨m1, ⟨a, ha, ea⟩, ⟨b, hb, eb⟩⟩, h5, h6, h7, h8⟩ := h
  have hx := m1 x (.head _)
  refine ⟨h1, h2, h3, ⟨fun z hz => ?_, ?_, ?_⟩, h5, h6, h7, h8⟩
  · rcases List.mem_cons.mp hz with rfl | hz
    · exact hx
    · exact m1 z (.tail _ (.tail _ hz))
  · rcases List.mem_cons.mp ha with rfl | ha
    · exact ⟨_, .head _, ea⟩
    · rcases List.mem_cons.mp ha with rfl | ha
      · exact ⟨x, .head _, by unfold itemLe at *; omega⟩
      · exact ⟨a, .tail _ ha, ea⟩
  · rcases List.mem_cons.mp hb with rfl | hb
    · exact ⟨_, .head _, eb⟩
    · rcases List.mem_cons.mp hb with rfl | hb
      · exact ⟨x, .head _, by unfold itemLe at *; omega⟩
      · exact ⟨b, .tail _ hb, eb⟩

theorem cntHist_inv {c : Counts} {live : List (Nat × Nat)} {all : List Nat} {hist : List CntItem}
    (h : CntHist c live all hist) : CntInv c live all hist ∧ ∃ t, hist = c.curr :: t := by
  induction h with
  | start =>
    exact ⟨⟨by simp, rfl, rfl, ⟨by simp [itemLe], ⟨_, .head _, rfl⟩, ⟨_, .head _, rfl⟩⟩, by simp, by simp,
      by simp [itemLe], by simp [itemLe]⟩, _, rfl⟩
  | alloc _ e ih =>
    obtain ⟨hp, rfl⟩ := countsAllocate_ok e
    exact ⟨cnt_add ih.1 hp _, _, rfl⟩
  | dealloc _ hb e ih => subst e; exact ⟨cnt_rem ih.1 hb, _, rfl⟩
  | @deallocNull c live all hist sz c' _ e ih =>
    have : c' = c := by rw [← e]; rfl
    subst this
    exact ⟨{ ih.1 with max := itemMax_le ih.1.max ih.1.cm }, _, rfl⟩
  | @realloc c live all hist b r n p c' _ hb e ih =>
    obtain ⟨hp, rfl⟩ := countsReallocate_ok e
    have h1 := cnt_add (cnt_rem ih.1 hb) hp n
    refine ⟨h1.drop ?_, _, rfl⟩
    unfold Counts.addCounts
    simp only [if_neg hp]
    unfold itemLe CntItem.add
    simp only
    omega
  | reallocNull _ e ih =>
    obtain ⟨hp, rfl⟩ := countsReallocate_ok e
    exact ⟨cnt_add ih.1 hp _, _, rfl⟩

/-- **C70**: after any history of calls that return normally the counters are exact and ordered. -/
theorem C70_counts {c : Counts} {live : List (Nat × Nat)} {all : List Nat} {hist : List CntItem}
    (h : CntHist c live all hist) :
    c.curr = tally (live.map (·.2)) ∧ c.total = tally all ∧ itemMax c.max hist ∧
      itemLe c.curr c.max ∧ itemLe c.max c.total := by
  have hI := (cntHist_inv h).1
  exact ⟨hI.curr, hI.total, hI.max, hI.cm, hI.mt⟩

/-- When everything was released the counters are at zero. -/
theorem C70_no_leak {c : Counts} {all : List Nat} {hist : List CntItem} (h : CntHist c [] all hist) : c.curr = ⟨0, 0⟩ :=
  (C70_counts h).1

example : ∃ c hist, CntHist c [(40, 7)] [7, 5, 3] hist ∧ c = ⟨⟨1, 7⟩, ⟨3, 15⟩, ⟨2, 12⟩⟩ := by
  have h1 := CntHist.alloc (r := .ok 10) (sz := 3) .start rfl
  have h2 := CntHist.alloc (r := .ok 20) (sz := 5) h1 rfl
  have h3 := CntHist.realloc (b := (10, 3)) (r := .ok 40) (n := 7) h2 (by decide) rfl
  have h4 := CntHist.dealloc (b := (20, 5)) h3 (by decide) rfl
  exact ⟨_, _, h4, by decide⟩

/-! ### C89 -/

/-- **C89 is false**: when the counted resource fails to reallocate, the live block is no longer counted. -/
theorem C89_refuted : ∃ c hist, CntHist c [(10, 3)] [3] hist ∧
    countsReallocate c .abort 10 3 100 = (.abort, { c with curr := ⟨0, 0⟩ }) ∧ c.curr = ⟨1, 3⟩ := by
  have h1 := CntHist.alloc (r := .ok 10) (sz := 3) .start rfl
  exact ⟨_, _, h1, by decide, by decide⟩

/-- **C89** for `allocate`: a failure of the counted resource leaves the counters alone. -/
theorem C89_allocate_partial (c : Counts) (r : Res Nat) (sz : Nat) (h : ∀ p, r ≠ .ok p) :
    countsAllocate c r sz = (r, c) := by
  unfold countsAllocate
  cases r with
  | ok p => exact absurd rfl (h p)
  | _ => rfl

/-- **C89** for `reallocate`, exactly: after a failure the counters are as if the block had been released, so they describe the other live blocks; nothing else changes. -/
theorem C89_reallocate_partial (c : Counts) (r : Res Nat) (p oldsz newsz : Nat) (h : ∀ p, r ≠ .ok p) :
    countsReallocate c r p oldsz newsz = (r, countsDeallocate c p oldsz) := by
  unfold countsReallocate countsDeallocate
  cases r with
  | ok p => exact absurd rfl (h p)
  | _ => rfl

example : countsReallocate ⟨⟨2, 8⟩, ⟨2, 8⟩, ⟨2, 8⟩⟩ .abort 10 3 100 = (.abort, ⟨⟨1, 5⟩, ⟨2, 8⟩, ⟨2, 8⟩⟩) := by decide

/-! ### C72 -/

/-- No scope names explicitly a resource to be counted. -/
def Spec.plain : Prog → Prop
  | .use => True
  | .seq a b => plain a ∧ plain b
  | .scope s body => (∀ self m, s ≠ .countsOf self m) ∧ plain body

/-- The resource a scope is meant to install. -/
def Spec.installs : Scope → Nat
  | .res r => r
  | .counts self => self
  | .countsOf self _ => self

/-- What the program should see: every use is served by the innermost scope around it, or by the resource outside. -/
def Spec.served : Prog → Nat → List Nat
  | .use, g => [g]
  | .seq a b, g => served a g ++ served b g
  | .scope s body, _ => served body (installs s)

/-- **C72 is false**: `ScopedMemoryResourceCounts(m)` leaves `m` as the global resource, whatever it was before. -/
theorem C72_refuted (g self m : Nat) (body : Prog) : ((Prog.scope (.countsOf self m) body).run g).1 = m := rfl

/-- **C72**, what holds: without that constructor, after any nesting the resource is the one before, and inside every use is served by
the innermost scope.  Missing: `ScopedMemoryResourceCounts(m)` (false, see above; but see `C72_counts_of_current_partial`). -/
theorem C72_nesting_partial (p : Prog) (h : plain p) (g : Nat) : p.run g = (g, served p g) := by
  induction p generalizing g with
  | use => rfl
  | seq a b iha ihb =>
    simp only [Prog.run, iha h.1, ihb h.2, served]
  | scope s body ih =>
    simp only [Prog.run, ih h.2, served]
    cases s with
    | res r => rfl
    | counts c => rfl
    | countsOf c m => exact absurd rfl (h.1 c m)

/-- Every scope that names a resource to be counted names the one that is current there. -/
def Spec.countsCurrent : Prog → Nat → Prop
  | .use, _ => True
  | .seq a b, g => countsCurrent a g ∧ countsCurrent b g
  | .scope s body, g => (∀ self m, s = .countsOf self m → m = g) ∧ countsCurrent body (installs s)

/-- **C72** also holds if the resource named is always the current one. -/
theorem C72_counts_of_current_partial (p : Prog) (g : Nat) (h : countsCurrent p g) : p.run g = (g, served p g) := by
  induction p generalizing g with
  | use => rfl
  | seq a b iha ihb =>
    simp only [Prog.run, iha g h.1, ihb g h.2, served]
  | scope s body ih =>
    have ih := ih _ h.2
    cases s with
    | res r => simp only [Prog.run, served, installs, Scope.enter, Scope.saved] at ih ⊢; rw [ih]
    | counts c => simp only [Prog.run, served, installs, Scope.enter, Scope.saved] at ih ⊢; rw [ih]
    | countsOf c m =>
      simp only [Prog.run, served, installs, Scope.enter, Scope.saved] at ih ⊢
      rw [ih, h.1 c m rfl]

example : plain (.seq (.scope (.res 5) (.seq .use (.scope (.counts 6) .use))) .use) ∧
    served (.seq (.scope (.res 5) (.seq .use (.scope (.counts 6) .use))) .use) 1 = [5, 6, 1] := by
  simp [plain, served, installs]
example : countsCurrent (.scope (.res 5) (.scope (.countsOf 6 5) .use)) 1 := by simp [countsCurrent, installs]

/-! ### C92: Allocator -/

/-- **C92 is false**: the product wraps, so a request for 2^60 + 1 objects of 16 bytes asks for 16 bytes. -/
theorem C92_refuted : allocatorRequest 16 (2 ^ 60 + 1) = 16 := by decide +kernel

/-- **C92**, what holds: if the size in bytes is below 2^64 the request is for exactly that size. -/
theorem C92_request_partial (elem k : Nat) (h : k * elem < 2 ^ 64) : allocatorRequest elem k = k * elem :=
  wrap64_of_lt h

/-- **C92**, for all other sizes: less is asked for, by a multiple of 2^64. -/
theorem C92_smaller (elem k : Nat) (h : 2 ^ 64 ≤ k * elem) : allocatorRequest elem k < k * elem ∧ ∃ m, allocatorRequest elem k + m * 2 ^ 64 = k * elem := by
  unfold allocatorRequest wrap64
  refine ⟨by omega, k * elem / 2 ^ 64, by omega⟩

example : allocatorRequest 16 (2 ^ 61 + 3) = 48 ∧ 2 ^ 64 ≤ (2 ^ 61 + 3) * 16 := by decide +kernel

/-! ### C71, C90, C91, C93: SmallAllocator -/

/-- The array inside the allocator as a block. -/
def Spec.smallArr (arr n elem : Nat) : Block := ⟨arr, n * elem, 1⟩

/-- Histories of a small allocator in which blocks are released in the reverse order of allocation: the state and the live blocks,
last allocated first.  What the memory resource hands out does not overlap the allocator's array nor live blocks; the number of
objects alive is below 2^64. -/
inductive SmallHist (arr n elem : Nat) : Small → List Block → Prop where
  | start : SmallHist arr n elem ⟨arr, n, elem, 0⟩ []
  | alloc {s live r k p s'} : SmallHist arr n elem s live → s.num + k < 2 ^ 64 →
      (∀ q, r = .ok q → ∀ b ∈ smallArr arr n elem :: live, Block.Disjoint ⟨q, k * elem, 1⟩ b) →
      smallAllocate s r k = .ok (p, s') → SmallHist arr n elem s' (⟨p, k * elem, k⟩ :: live)
  | dealloc {s live b d s'} : SmallHist arr n elem s (b :: live) → smallDeallocate s b.addr b.al = (d, s') →
      SmallHist arr n elem s' live

/-- **C71 is false**: after releasing the first of two blocks, the next block overlaps the second (16 objects of 4 bytes). -/
theorem C71_refuted :
    smallAllocate ⟨1024, 16, 4, 0⟩ .abort 4 = .ok (1024, ⟨1024, 16, 4, 4⟩) ∧
    smallAllocate ⟨1024, 16, 4, 4⟩ .abort 4 = .ok (1040, ⟨1024, 16, 4, 8⟩) ∧
    smallDeallocate ⟨1024, 16, 4, 8⟩ 1024 4 = (none, ⟨1024, 16, 4, 4⟩) ∧
    smallAllocate ⟨1024, 16, 4, 4⟩ .abort 4 = .ok (1040, ⟨1024, 16, 4, 8⟩) := by decide +kernel

/-- **C71 is false** also for one block and a huge request: the count wraps, and 2^64-1 objects are handed out in the array. -/
theorem C71_refuted_wrap :
    smallAllocate ⟨1024, 16, 4, 1⟩ .abort (2 ^ 64 - 1) = .ok (1028, ⟨1024, 16, 4, 0⟩) := by decide +kernel

/-- The live blocks on a stack: sizes are counted, array blocks are placed one after the other. -/
def SmallStack (arr n elem : Nat) : Nat → List Block → Prop
  | num, [] => num = 0
  | num, b :: live => ∃ m, SmallStack arr n elem m live ∧ b.sz = b.al * elem ∧ num = m + b.al ∧
      ((m + b.al ≤ n ∧ b.addr = arr + m * elem) ∨
        (n < m + b.al ∧ ∀ c ∈ smallArr arr n elem :: live, Block.Disjoint b c))

theorem smallHist_inv {arr n elem : Nat} {s : Small} {live : List Block} (h : SmallHist arr n elem s live) :
    s.arr = arr ∧ s.n = n ∧ s.elem = elem ∧ s.num < 2 ^ 64 ∧ SmallStack arr n elem s.num live := by
  induction h with
  | start => exact ⟨rfl, rfl, rfl, by simp, rfl⟩
  | @alloc s live r k p s' _ hk hr e ih =>
    obtain ⟨rfl, rfl, rfl, h4, h5⟩ := ih
    unfold smallAllocate at e
    rw [wrap64_of_lt hk] at e
    by_cases hn : s.num + k ≤ s.n
    · rw [if_pos hn, if_pos (by omega), Res.ok_bind] at e
      cases e
      exact ⟨rfl, rfl, rfl, hk, s.num, h5, rfl, rfl, .inl ⟨hn, rfl⟩⟩
    · rw [if_neg hn] at e
      cases r with
      | ok q =>
        rw [Res.ok_bind] at e
        cases e
        refine ⟨rfl, rfl, rfl, hk, s.num, h5, rfl, rfl, .inr ⟨by simp; omega, hr _ rfl⟩⟩
      | ub => cases e
      | abort => cases e
      | loop => cases e
  | @dealloc s live b d s' _ e ih =>
    obtain ⟨rfl, rfl, rfl, h4, m, h5, h6, h7, h8⟩ := ih
    unfold smallDeallocate at e
    cases e
    have hw : wrap64 (s.num + 18446744073709551616 - b.al) = m := by unfold wrap64; omega
    refine ⟨rfl, rfl, rfl, by simp only [hw]; omega, ?_⟩
    simp only []
    rw [hw]
    exact h5

theorem smallStack_below {arr n elem : Nat} : ∀ {num : Nat} {live : List Block}, SmallStack arr n elem num live →
    ∀ b ∈ live, (∃ m, m + b.al ≤ num ∧ m + b.al ≤ n ∧ b.addr = arr + m * elem ∧ b.sz = b.al * elem) ∨
      Block.Disjoint b (smallArr arr n elem) := by
  intro num live
  induction live generalizing num with
  | nil => intro _ b hb; cases hb
  | cons c live ih =>
    intro ⟨m, h1, h2, h3, h4⟩ b hb
    rcases List.mem_cons.mp hb with rfl | hb
    · rcases h4 with ⟨h4, h5⟩ | ⟨h4, h5⟩
      · exact .inl ⟨m, by omega, h4, h5, h2⟩
      · exact .inr (h5 _ (.head _))
    · rcases ih h1 b hb with ⟨m', e1, e2⟩ | h
      · exact .inl ⟨m', by omega, e2⟩
      · exact .inr h

theorem Spec.Block.Disjoint.symm {a b : Block} (h : a.Disjoint b) : b.Disjoint a := fun x ⟨h1, h2⟩ => h x ⟨h2, h1⟩

theorem smallStack_disjoint {arr n elem : Nat} : ∀ {num : Nat} {live : List Block}, SmallStack arr n elem num live →
    live.Pairwise Block.Disjoint := by
  intro num live
  induction live generalizing num with
  | nil => intro _; exact .nil
  | cons c live ih =>
    intro ⟨m, h1, h2, h3, h4⟩
    refine List.pairwise_cons.mpr ⟨fun b hb => ?_, ih h1⟩
    rcases h4 with ⟨h4, h5⟩ | ⟨_, h5⟩
    · rcases smallStack_below h1 b hb with ⟨m', e1, e2, e3, e4⟩ | h
      · intro x ⟨⟨x1, x2⟩, ⟨x3, x4⟩⟩
        rw [h5] at x1
        rw [e3, e4] at x4
        have : (m' + b.al) * elem ≤ m * elem := Nat.mul_le_mul_right _ e1
        rw [Nat.add_mul] at this
        omega
      · intro x ⟨⟨x1, x2⟩, hx⟩
        refine h x ⟨hx, ?_⟩
        unfold Block.Has smallArr
        rw [h5, h2] at x2
        rw [h5] at x1
        have : (m + c.al) * elem ≤ n * elem := Nat.mul_le_mul_right _ h4
        rw [Nat.add_mul] at this
        simp only
        omega
    · exact h5 b (.tail _ hb)

/-- **C71**, what holds: if blocks are released in the reverse order of allocation, live blocks are pairwise disjoint, and every block
is inside the array or outside of it.  Missing: other orders of release (false, see `C71_refuted`) and counts of objects
beyond 2^64 (false, see `C71_refuted_wrap`). -/
theorem C71_lifo_partial {arr n elem : Nat} {s : Small} {live : List Block} (h : SmallHist arr n elem s live) :
    live.Pairwise Block.Disjoint ∧
      ∀ b ∈ live, b.Inside arr (n * elem) ∨ b.Disjoint (smallArr arr n elem) := by
  obtain ⟨_, _, _, _, h5⟩ := smallHist_inv h
  refine ⟨smallStack_disjoint h5, fun b hb => ?_⟩
  rcases smallStack_below h5 b hb with ⟨m, e1, e2, e3, e4⟩ | h
  · have : (m + b.al) * elem ≤ n * elem := Nat.mul_le_mul_right _ e2
    rw [Nat.add_mul] at this
    refine .inl ⟨fun x ⟨x1, x2⟩ => ?_, by omega, by omega⟩
    rw [e3] at x1 x2
    rw [e4] at x2
    omega
  · exact .inr h

example : ∃ s, SmallHist 1024 16 4 s [⟨5000, 80, 20⟩, ⟨1040, 8, 2⟩, ⟨1024, 16, 4⟩] := by
  have h1 := SmallHist.alloc (arr := 1024) (n := 16) (elem := 4) (r := .abort) (k := 4) (p := 1024)
    (s' := ⟨1024, 16, 4, 4⟩) .start (by decide) (by simp) (by decide +kernel)
  have h2 := SmallHist.alloc (r := .abort) (k := 2) (p := 1040) (s' := ⟨1024, 16, 4, 6⟩) h1 (by decide) (by simp)
    (by decide +kernel)
  have h3 := SmallHist.alloc (r := .abort) (k := 3) (p := 1048) (s' := ⟨1024, 16, 4, 9⟩) h2 (by decide) (by simp)
    (by decide +kernel)
  have h4 := SmallHist.dealloc (d := none) (s' := ⟨1024, 16, 4, 6⟩) h3 (by decide +kernel)
  have h5 := SmallHist.alloc (r := .ok 5000) (k := 20) (p := 5000) (s' := ⟨1024, 16, 4, 26⟩) h4 (by decide) (by
    intro q hq b hb x
    cases hq
    simp [smallArr, Block.Has] at hb ⊢
    rcases hb with rfl | rfl | rfl <;> simp only <;> omega) (by decide +kernel)
  exact ⟨_, h5⟩

/-! C90 -/

/-- **C90 is false**: the second block of a `SmallAllocator<char,16,8>`, by default aligned to 8, is at an odd address. -/
theorem C90_refuted :
    smallAllocate ⟨1024, 16, 1, 0⟩ .abort 1 = .ok (1024, ⟨1024, 16, 1, 1⟩) ∧
    smallAllocate ⟨1024, 16, 1, 1⟩ .abort 1 = .ok (1025, ⟨1024, 16, 1, 2⟩) := by decide +kernel

/-- **C90**, what holds: blocks in the array are aligned to `al` if the array is and the element size is a multiple of `al`.
Missing: alignments that do not divide `sizeof(T)` (false, see `C90_refuted`). -/
theorem C90_aligned_partial {s s' : Small} {r : Res Nat} {k p al : Nat} (ha : al ∣ s.arr) (he : al ∣ s.elem)
    (hr : ∀ q, r = .ok q → al ∣ q) (e : smallAllocate s r k = .ok (p, s')) : al ∣ p := by
  unfold smallAllocate at e
  split at e
  · split at e
    case isFalse => cases e
    rw [Res.ok_bind] at e
    cases e
    exact Nat.dvd_add ha (Nat.dvd_trans he (Nat.dvd_mul_left ..))
  · cases r with
    | ok q => rw [Res.ok_bind] at e; cases e; exact hr _ rfl
    | ub => cases e
    | abort => cases e
    | loop => cases e

/-! C91 -/

/-- **C91 is false**: reallocating the second block returns the address of the first one, which is live. -/
theorem C91_refuted :
    smallAllocate ⟨1024, 16, 1, 0⟩ .abort 2 = .ok (1024, ⟨1024, 16, 1, 2⟩) ∧
    smallAllocate ⟨1024, 16, 1, 2⟩ .abort 2 = .ok (1026, ⟨1024, 16, 1, 4⟩) ∧
    smallReallocate ⟨1024, 16, 1, 4⟩ .abort 1026 2 3 = .ok ((1024, none), ⟨1024, 16, 1, 4⟩) := by decide +kernel

/-- **C91 is false** also for a single block: the growth is not counted, and the next block overlaps it. -/
theorem C91_refuted_single :
    smallAllocate ⟨1024, 16, 1, 0⟩ .abort 2 = .ok (1024, ⟨1024, 16, 1, 2⟩) ∧
    smallReallocate ⟨1024, 16, 1, 2⟩ .abort 1024 2 8 = .ok ((1024, none), ⟨1024, 16, 1, 2⟩) ∧
    smallAllocate ⟨1024, 16, 1, 2⟩ .abort 4 = .ok (1026, ⟨1024, 16, 1, 6⟩) := by decide +kernel

/-- **C91 is false** also for what follows: after a reallocation within the array, releasing the block makes the count of objects wrap around, and the next
allocation computes an address outside of the array. -/
theorem C91_refuted_release :
    smallReallocate ⟨1024, 16, 1, 2⟩ .abort 1024 2 8 = .ok ((1024, none), ⟨1024, 16, 1, 2⟩) ∧
    smallDeallocate ⟨1024, 16, 1, 2⟩ 1024 8 = (none, ⟨1024, 16, 1, 2 ^ 64 - 6⟩) ∧
    smallAllocate ⟨1024, 16, 1, 2 ^ 64 - 6⟩ .abort 6 = .ub := by decide +kernel

/-- **C91**, what holds: the only live block of the allocator keeps its place, hence its contents, when it stays within the array.
Missing: everything else (false, see above). -/
theorem C91_only_block_partial {arr n elem : Nat} {s : Small} {b : Block} (h : SmallHist arr n elem s [b])
    (r : Res Nat) {newn : Nat} (h1 : b.al ≤ n) (h2 : newn ≤ n) :
    smallReallocate s r b.addr b.al newn = .ok ((b.addr, none), s) := by
  obtain ⟨e1, e2, e3, _, m, h5, h6, h7, h8⟩ := smallHist_inv h
  have hm : m = 0 := h5
  subst hm
  unfold smallReallocate
  rw [if_pos (by omega)]
  rcases h8 with ⟨_, h8⟩ | ⟨h8, _⟩
  · rw [h8, e1]; simp
  · omega

/-- **C91**, where the new block is: at the start of the array whenever that many objects fit, whatever else is there; the old block is
released only if it had more objects than fit and is not in the array.  Beyond that the memory resource is asked. -/
theorem C91_place_partial (s : Small) (r : Res Nat) (p oldn newn : Nat) :
    (newn ≤ s.n → ∃ d s', smallReallocate s r p oldn newn = .ok ((s.arr, d), s') ∧ s'.arr = s.arr ∧
      (d = some p ↔ s.n < oldn ∧ ¬ (s.arr ≤ p ∧ p < s.arr + s.n * s.elem)) ∧ (d = none ∨ d = some p)) ∧
    (s.n < newn → s.n < oldn → ∀ q, r = .ok q → smallReallocate s r p oldn newn = .ok ((q, none), s)) := by
  refine ⟨fun h => ?_, fun h1 h2 q hq => ?_⟩
  · unfold smallReallocate
    by_cases ho : oldn ≤ s.n
    · rw [if_pos ⟨ho, h⟩]
      exact ⟨none, s, rfl, rfl, by simp; omega, .inl rfl⟩
    · rw [if_neg (by omega), if_neg (by omega), if_pos (by omega)]
      refine ⟨_, _, rfl, ?_, ?_, ?_⟩
      · rfl
      · split <;> simp <;> omega
      · split <;> simp
  · unfold smallReallocate
    rw [if_neg (by omega), if_neg (by omega), if_neg (by omega), hq]
    rfl

example : smallReallocate ⟨1024, 16, 1, 20⟩ .abort 5000 20 16 = .ok ((1024, some 5000), ⟨1024, 16, 1, 0⟩) := by decide +kernel

/-! C93 -/

/-- **C93 is false**: with a full array, an empty block is placed at the end of the array, and releasing it passes that
address to the memory resource, which did not hand it out. -/
theorem C93_refuted :
    smallAllocate ⟨1024, 16, 4, 0⟩ .abort 16 = .ok (1024, ⟨1024, 16, 4, 16⟩) ∧
    smallAllocate ⟨1024, 16, 4, 16⟩ .abort 0 = .ok (1088, ⟨1024, 16, 4, 16⟩) ∧
    smallDeallocate ⟨1024, 16, 4, 16⟩ 1088 0 = (some 1088, ⟨1024, 16, 4, 16⟩) := by decide +kernel

/-- **C93**, what holds: a live block that is not empty is passed to the memory resource on release exactly if it is not in the
array.  Missing: empty blocks (false, see above). -/
theorem C93_release_partial {arr n elem : Nat} {s : Small} {live : List Block} (h : SmallHist arr n elem s live)
    {b : Block} (hb : b ∈ live) (h0 : 0 < b.sz) :
    (b.Inside arr (n * elem) ∧ (smallDeallocate s b.addr b.al).1 = none) ∨
      (b.Disjoint (smallArr arr n elem) ∧ (smallDeallocate s b.addr b.al).1 = some b.addr) := by
  obtain ⟨e1, e2, e3, _, _⟩ := smallHist_inv h
  unfold smallDeallocate
  rw [e1, e2, e3]
  rcases (C71_lifo_partial h).2 b hb with hi | hd
  · refine .inl ⟨hi, ?_⟩
    have := hi.1 b.addr ⟨Nat.le_refl _, by omega⟩
    simp only []
    rw [if_pos (by omega)]
  · refine .inr ⟨hd, ?_⟩
    have := hd b.addr
    simp only []
    rw [if_neg]
    intro hc
    exact this ⟨⟨Nat.le_refl _, by omega⟩, ⟨hc.1, by simp [smallArr]; omega⟩⟩

end C4
