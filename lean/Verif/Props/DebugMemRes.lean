import Verif.Debug.MemRes
import Verif.Props.Alloc
import Verif.Props.DebugSpans
import Verif.Props.DebugRead
/-
C167: the assertions of the linear memory resource and of `SmallAllocator`.
-/
namespace C4
open Spec

theorem linDoAllocateD_eq {s : Lin} (hp : s.pos ≤ s.size) {sz al : Nat} (hz : sz < 2 ^ 64) :
    linDoAllocateD s sz al = linDoAllocate s sz al := by
  unfold linDoAllocateD linDoAllocate
  by_cases h0 : sz = 0
  · rw [if_pos h0, if_pos h0]
  rw [if_neg h0, if_neg h0]
  split
  · rfl
  rename_i h1
  rw [if_neg (by omega), if_neg (by omega)]
  cases hd : stdAlign (s.mem + s.pos) al sz (s.size - s.pos) with
  | none => rfl
  | some d =>
    have hfit : d + sz ≤ s.size - s.pos := by
      unfold stdAlign at hd
      dsimp only at hd
      split at hd
      · cases hd; assumption
      · cases hd
    simp only []
    rw [assertThat_pos hp, Res.ok_bind, assertThat_pos (by omega), Res.ok_bind, assertThat_pos (by omega)]
    rfl

theorem linDoReallocateD_eq {s : Lin} (hp : s.pos ≤ s.size) {ptr o n al : Nat} (hz : n < 2 ^ 64) :
    linDoReallocateD s ptr o n al = linDoReallocate s ptr o n al := by
  unfold linDoReallocateD linDoReallocate
  rw [linDoAllocateD_eq hp hz]

/-- **C167**, the linear resource: after any history, allocating any number of bytes, reallocating and asking for the slack fail no assertion, unless a
reallocation exceeded the address space. -/
theorem C167_linear_partial {mem size : Nat} (hms : mem + size < 2 ^ 64) {s : Lin} {live : List Block} (h : LinHist mem size s live)
    (ptr oldsz sz al : Nat) (hz : sz < 2 ^ 64) :
    linDoAllocateD s sz al = linDoAllocate s sz al ∧ linDoReallocateD s ptr oldsz sz al = linDoReallocate s ptr oldsz sz al ∧
    linSlackD s = .ok (linSlack s) := by
  have i := linHist_inv hms h
  have hs : s.size < 2 ^ 64 := by have := i.hsize; omega
  refine ⟨linDoAllocateD_eq i.hpos hz, linDoReallocateD_eq i.hpos hz, ?_⟩
  unfold linSlackD
  rw [assertThat_pos i.hpos, linSlack_of_le i.hpos hs]; rfl

theorem smallStack_num {arr n elem : Nat} : ∀ {num : Nat} {live : List Block}, SmallStack arr n elem num live → ∀ b ∈ live, b.al ≤ num := by
  intro num live
  induction live generalizing num with
  | nil => intro _ b hb; cases hb
  | cons c live ih =>
    rintro ⟨m, h1, _, h3, _⟩ b hb
    rcases List.mem_cons.1 hb with rfl | hb
    · omega
    · have := ih h1 b hb; omega

/-- **C167**, the small allocator: after any history of allocations and releases in reverse order, allocating, and releasing any block, with an alignment no
less than that of the type, fail no assertion. -/
theorem C167_small_partial {arr n elem : Nat} {s : Small} {live : List Block} (h : SmallHist arr n elem s live) {alt al : Nat} (ha : alt ≤ al)
    (r : Res Nat) (k : Nat) :
    smallAllocateD alt s r k al = smallAllocate s r k ∧
    ∀ b ∈ live, smallDeallocateD alt s b.addr b.al al = .ok (smallDeallocate s b.addr b.al) ∧
      ∀ newn, smallReallocateD alt s r b.addr b.al newn al = smallReallocate s r b.addr b.al newn := by
  obtain ⟨h1, h2, h3, h4, h5⟩ := smallHist_inv h
  refine ⟨by unfold smallAllocateD; rw [assertThat_pos ha]; rfl, fun b hb => ?_⟩
  have hd : smallDeallocateD alt s b.addr b.al al = .ok (smallDeallocate s b.addr b.al) := by
    unfold smallDeallocateD
    rw [assertThat_pos (smallStack_num h5 b hb), Res.ok_bind]
    obtain ⟨d, s'⟩ := smallDeallocate s b.addr b.al
    cases d with
    | none => rfl
    | some q => simp only []; rw [assertThat_pos ha]; rfl
  refine ⟨hd, fun newn => ?_⟩
  unfold smallReallocateD smallReallocate
  rw [assertThat_pos ha, Res.ok_bind, hd]
  unfold smallAllocateD
  rw [assertThat_pos ha]
  rfl

/-- **C167 is false**: a reallocation of the last block to nearly all of the address space moves the position beyond the end, where `slack`
fails an assertion, and says 65 without; and releasing a block of the small allocator that was reallocated within its array fails one. -/
theorem C167_refuted :
    (linDoReallocateD ⟨4096, 64, 8⟩ 4096 8 (2 ^ 64 - 1) 8 = .ok (4096, ⟨4096, 64, 2 ^ 64 - 1⟩) ∧ linSlackD ⟨4096, 64, 2 ^ 64 - 1⟩ = .abort ∧
      linSlack ⟨4096, 64, 2 ^ 64 - 1⟩ = 65) ∧
    smallReallocateD 1 ⟨1024, 16, 1, 2⟩ .abort 1024 2 8 1 = .ok ((1024, none), ⟨1024, 16, 1, 2⟩) ∧
    smallDeallocateD 1 ⟨1024, 16, 1, 2⟩ 1024 8 1 = .abort := by
  decide +kernel

/-- An alignment less than that of the type is refused, also where it is not used. -/
theorem C167_alignment {alt al : Nat} (ha : al < alt) (s : Small) (r : Res Nat) (p k n : Nat) :
    smallAllocateD alt s r k al = .abort ∧ smallReallocateD alt s r p k n al = .abort ∧
    ((smallDeallocate s p k).1 ≠ none → smallDeallocateD alt s p k al = .abort) := by
  refine ⟨?_, ?_, fun h => ?_⟩
  · unfold smallAllocateD; rw [assertThat_neg (by omega)]; rfl
  · unfold smallReallocateD; rw [assertThat_neg (by omega)]; rfl
  · unfold smallDeallocateD
    by_cases hk : s.num ≥ k
    · rw [assertThat_pos hk, Res.ok_bind]
      revert h
      obtain ⟨d, s'⟩ := smallDeallocate s p k
      intro h
      cases d with
      | none => exact absurd rfl h
      | some q => simp only []; rw [assertThat_neg (by omega)]; rfl
    · rw [assertThat_neg hk]; rfl

example : linDoAllocateD ⟨4100, 64, 3⟩ 10 8 = .ok (4104, ⟨4100, 64, 14⟩) ∧ linSlackD ⟨4100, 64, 14⟩ = .ok 50 ∧
    smallDeallocateD 4 ⟨1024, 16, 4, 26⟩ 5000 20 4 = .ok (some 5000, ⟨1024, 16, 4, 6⟩) := by decide +kernel

end C4
