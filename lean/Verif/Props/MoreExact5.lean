import Verif.Props.Resources
import Verif.Props.FastFloatChars
/-
Exact outcomes for further properties that are false of the code: C120 (the bounds of the fast path for `double`), C137 (the
maximum in a difference of counts), C91 (what a block reallocated in the array of a small allocator overlaps).
-/
namespace C4
open Spec FF

/-! ### C120 -/

/-- **C120** for `double`, exactly: up to the power 13 the bound is the largest integer whose product with 5^p is at most 2^52;
from the power 14 on it is the largest integer whose product with 5^(p+1) is at most 2^52. -/
theorem C120_double_exact (p : Nat) (hp : p ≤ 22) (v : Nat) :
    v ≤ maxMantissaFastPathPower dbl p ↔ v * 5 ^ (if p < 14 then p else p + 1) ≤ 2 ^ 52 := by
  have : ∀ p ≤ 22, maxMantissaFastPathPower dbl p = 2 ^ 52 / 5 ^ (if p < 14 then p else p + 1) := by decide +kernel
  rw [this p hp]
  exact Nat.le_div_iff_mul_le (by positivity)

example : (6 * 10 ^ 5) * 5 ^ 14 ≤ 2 ^ 52 ∧ ¬ (6 * 10 ^ 5) * 5 ^ 15 ≤ 2 ^ 52 := by decide

/-! ### C137 -/

/-- The largest value that the sum of the first changes reaches, at least zero. -/
def Spec.peak : List Int → Int
  | [] => 0
  | x :: l => max 0 (x + peak l)

/-- What a call does to the number of blocks. -/
def Spec.Call.blocks : Call → Int
  | .add p _ => if p = 0 then 0 else 1
  | .rem p _ => if p = 0 then 0 else -1

/-- What a call does to the number of bytes. -/
def Spec.Call.bytes : Call → Int
  | .add p sz => if p = 0 then 0 else sz
  | .rem p sz => if p = 0 then 0 else -sz

theorem peak_nonneg (l : List Int) : 0 ≤ peak l := by
  cases l with
  | nil => exact Int.le_refl 0
  | cons x l => simp only [peak]; omega

/-- The peak is the largest of the sums of the first changes. -/
theorem peak_le_iff (l : List Int) : ∀ b : Int, peak l ≤ b ↔ ∀ n, (l.take n).sum ≤ b := by
  induction l with
  | nil => intro b; simp [peak]
  | cons x l ih =>
    intro b
    have h := ih (b - x)
    constructor
    · intro hb n
      cases n with
      | zero => simp only [peak] at hb; simp; omega
      | succ n =>
        have := (h.1 (by simp only [peak] at hb; omega)) n
        simp only [List.take_succ_cons, List.sum_cons]
        omega
    · intro hb
      have h0 := hb 0
      have := h.2 (fun n => by
        have := hb (n + 1)
        simp only [List.take_succ_cons, List.sum_cons] at this
        omega)
      simp only [List.take_zero, List.sum_nil] at h0
      simp only [peak]
      omega

/-- The maximum after some calls, from any counts whose maximum is not below the current. -/
theorem countsRun_max (l : List Call) : ∀ c : Counts, itemLe c.curr c.max →
    (countsRun c l).max.allocs = max c.max.allocs (c.curr.allocs + peak (l.map Call.blocks)) ∧
    (countsRun c l).max.size = max c.max.size (c.curr.size + peak (l.map Call.bytes)) := by
  induction l with
  | nil => intro c h; have h1 := h.1; have h2 := h.2; simp only [countsRun, List.map_nil, peak]; omega
  | cons x l ih =>
    intro c h
    have h1 := h.1
    have h2 := h.2
    have n1 := peak_nonneg (l.map Call.blocks)
    have n2 := peak_nonneg (l.map Call.bytes)
    cases x with
    | add p sz =>
      simp only [countsRun, List.map_cons, peak]
      by_cases hp : p = 0
      · have e : c.addCounts p sz = c := by simp only [Counts.addCounts, hp, if_true]
        obtain ⟨a, b⟩ := ih c h
        rw [e, a, b]
        simp only [Call.blocks, Call.bytes, hp, if_true]
        omega
      · obtain ⟨a, b⟩ := ih (c.addCounts p sz) (by rw [addCounts_eq _ hp]; constructor <;> dsimp only <;> omega)
        rw [a, b, addCounts_eq _ hp]
        simp only [Call.blocks, Call.bytes, hp, if_false]
        omega
    | rem p sz =>
      simp only [countsRun, List.map_cons, peak]
      by_cases hp : p = 0
      · have e : c.remCounts p sz = c := by simp only [Counts.remCounts, hp, if_true]
        obtain ⟨a, b⟩ := ih c h
        rw [e, a, b]
        simp only [Call.blocks, Call.bytes, hp, if_true]
        omega
      · have e : c.remCounts p sz = { c with curr := ⟨c.curr.allocs - 1, c.curr.size - sz⟩ } := by simp only [Counts.remCounts, hp, if_false, CntItem.rem]
        obtain ⟨a, b⟩ := ih (c.remCounts p sz) (by rw [e]; constructor <;> dsimp only <;> omega)
        rw [a, b, e]
        simp only [Call.blocks, Call.bytes, hp, if_false]
        omega

/-- **C137**, exactly for the maximum: the difference has what the peak of the calls, on top of the current count before them,
exceeds the maximum before them. -/
theorem C137_difference_exact (c : Counts) (l : List Call) (h : itemLe c.curr c.max) :
    ((countsRun c l).minus c).max = ⟨max 0 (c.curr.allocs + peak (l.map Call.blocks) - c.max.allocs), max 0 (c.curr.size + peak (l.map Call.bytes) - c.max.size)⟩ := by
  obtain ⟨a, b⟩ := countsRun_max l c h
  simp only [Counts.minus, a, b, CntItem.mk.injEq]
  omega

/-- So it is the maximum of the calls alone if the current counts before them are the maximum so far, and in the number of blocks only
then, unless the calls never have a block more than before them. -/
theorem C137_max_iff (c : Counts) (l : List Call) (h : itemLe c.curr c.max) :
    ((countsRun c l).minus c).max = (countsRun {} l).max ↔
      (c.curr.allocs = c.max.allocs ∨ peak (l.map Call.blocks) = 0) ∧ (c.curr.size = c.max.size ∨ peak (l.map Call.bytes) = 0) := by
  have h1 := h.1
  have h2 := h.2
  have n1 := peak_nonneg (l.map Call.blocks)
  have n2 := peak_nonneg (l.map Call.bytes)
  obtain ⟨a, b⟩ := countsRun_max l {} ⟨by decide, by decide⟩
  have e : (countsRun {} l).max = ⟨(countsRun {} l).max.allocs, (countsRun {} l).max.size⟩ := rfl
  rw [C137_difference_exact c l h, e, a, b]
  simp only [CntItem.mk.injEq]
  omega

example : ((countsRun (countsRun {} [.add 8 9, .rem 8 9]) [.add 8 5, .add 16 7, .rem 8 5]).minus (countsRun {} [.add 8 9, .rem 8 9])).max = ⟨1, 3⟩ := by decide
example : peak ([Call.add 8 5, .add 16 7, .rem 8 5].map Call.bytes) = 12 := by decide

/-! ### C91 -/

/-- **C91**, exactly for blocks that stay below the size of the array: the block is moved to the start of the array.  It overlaps the live blocks that
are in the array and begin before its end, and the next block in the array if fewer objects are alive than it has now. -/
theorem C91_overlap_exact {arr n elem : Nat} {s : Small} {live : List Block} (h : SmallHist arr n elem s live) (he : 0 < elem) {b : Block}
    (r : Res Nat) {newn : Nat} (h0 : 0 < newn) (h1 : b.al ≤ n) (h2 : newn ≤ n) :
    smallReallocate s r b.addr b.al newn = .ok ((arr, none), s) ∧
    (∀ c ∈ live, 0 < c.sz → (¬ Block.Disjoint ⟨arr, newn * elem, newn⟩ c ↔ c.Inside arr (n * elem) ∧ c.addr < arr + newn * elem)) ∧
    ∀ k, 0 < k → s.num + k ≤ n → ∃ p s', smallAllocate s r k = .ok (p, s') ∧ (Block.Disjoint ⟨arr, newn * elem, newn⟩ ⟨p, k * elem, k⟩ ↔ newn ≤ s.num) := by
  obtain ⟨e1, e2, e3, e4, _⟩ := smallHist_inv h
  have hm : newn * elem ≤ n * elem := Nat.mul_le_mul_right _ h2
  have hp : 0 < newn * elem := Nat.mul_pos h0 he
  refine ⟨by unfold smallReallocate; rw [if_pos (by omega), e1], fun c hc hz => ?_, fun k hk hn => ?_⟩
  · constructor
    · intro hd
      rcases (C71_lifo_partial h).2 c hc with hi | ho
      · refine ⟨hi, Nat.lt_of_not_le fun hle => hd fun x hx => ?_⟩
        have a := hx.1.2
        have b := hx.2.1
        dsimp only at a
        omega
      · refine absurd (fun x hx => ho x ⟨hx.2, hx.1.1, ?_⟩) hd
        have a := hx.1.2
        show x < arr + n * elem
        dsimp only at a
        omega
    · rintro ⟨hi, hlt⟩ hd
      exact hd c.addr ⟨⟨hi.2.1, hlt⟩, Nat.le_refl _, by omega⟩
  · have hn64 : s.num + k ≤ s.n := by omega
    refine ⟨arr + s.num * elem, { s with num := wrap64 (s.num + k) }, ?_, ?_⟩
    · unfold smallAllocate
      have hw : wrap64 (s.num + k) ≤ s.n := Nat.le_trans (Nat.mod_le _ _) hn64
      rw [if_pos hw, if_pos (by omega), e1, e3]
      rfl
    · have hk2 : 0 < k * elem := Nat.mul_pos hk he
      constructor
      · intro hd
        refine Nat.le_of_not_lt fun hlt => hd (arr + s.num * elem) ⟨⟨Nat.le_add_right _ _, ?_⟩, Nat.le_refl _, Nat.lt_add_of_pos_right hk2⟩
        exact Nat.add_lt_add_left (Nat.mul_lt_mul_of_pos_right hlt he) _
      · intro hle x hx
        have a := hx.1.2
        have b := hx.2.1
        have := Nat.mul_le_mul_right elem hle
        dsimp only at a b
        omega

/-- Two blocks of two objects; the second is reallocated to three: it overlaps the first, but not the next block. -/
example : ∃ s, SmallHist 1024 16 1 s [⟨1026, 2, 2⟩, ⟨1024, 2, 2⟩] ∧ s.num = 4 :=
  ⟨_, .alloc (r := .abort) (k := 2) (.alloc (r := .abort) (k := 2) .start (by decide) (fun _ h => by cases h) rfl) (by decide) (fun _ h => by cases h) rfl, rfl⟩

end C4
