import Verif.MemRes
import Verif.Props.FormatAlign
/-
Properties C67-C69, C88: the linear memory resource and arealloc.
-/
namespace C4
open Spec

/-! ### Specification -/

/-- A block of memory handed out: address, size, alignment asked for. -/
structure Spec.Block where
  addr : Nat
  sz : Nat
  al : Nat
deriving DecidableEq, Repr

/-- The block contains the byte at address `x`. -/
def Spec.Block.Has (b : Block) (x : Nat) : Prop := b.addr ≤ x ∧ x < b.addr + b.sz

/-- No byte belongs to both. -/
def Spec.Block.Disjoint (a b : Block) : Prop := ∀ x, ¬ (a.Has x ∧ b.Has x)

/-- Every byte of the block belongs to the buffer of `size` bytes at `mem`, and the address is in it or at its end. -/
def Spec.Block.Inside (b : Block) (mem size : Nat) : Prop :=
  (∀ x, b.Has x → mem ≤ x ∧ x < mem + size) ∧ mem ≤ b.addr ∧ b.addr ≤ mem + size

/-- The histories of a linear resource over the buffer of `size` bytes at `mem`: calls that return normally, on blocks that
are live; a block is reallocated with the alignment it was allocated with, and to a size that does not exceed the address
space.  The state reached and the live blocks. -/
inductive LinHist (mem size : Nat) : Lin → List Block → Prop where
  | start : LinHist mem size ⟨mem, size, 0⟩ []
  | alloc {s live sz al p s'} : LinHist mem size s live → 0 < al → linAllocate s sz al = .ok (p, s') →
      LinHist mem size s' (⟨p, sz, al⟩ :: live)
  | dealloc {s live b} : LinHist mem size s live → b ∈ live →
      LinHist mem size (linDeallocate s b.addr b.sz b.al) (live.erase b)
  | realloc {s live b newsz p s'} : LinHist mem size s live → b ∈ live → b.addr + newsz < 2 ^ 64 →
      linReallocate s b.addr b.sz newsz b.al = .ok (p, s') →
      LinHist mem size s' (⟨p, newsz, b.al⟩ :: live.erase b)
  | clear {s live} : LinHist mem size s live → LinHist mem size (linClear s) []

/-! ### Invariant -/

/-- Arithmetic form of disjointness. -/
def Sep (a b : Block) : Prop := a.sz = 0 ∨ b.sz = 0 ∨ a.addr + a.sz ≤ b.addr ∨ b.addr + b.sz ≤ a.addr

theorem Sep.symm {a b : Block} (h : Sep a b) : Sep b a := by unfold Sep at *; omega

theorem Sep.disjoint {a b : Block} (h : Sep a b) : a.Disjoint b := by
  intro x ⟨h1, h2⟩
  unfold Sep at h; unfold Block.Has at h1 h2
  omega

/-- Where a live block may be when the linear resource is in state `s`. -/
def BlockOk (s : Lin) (b : Block) : Prop :=
  0 < b.al ∧ b.al ∣ b.addr ∧ s.mem ≤ b.addr ∧ b.addr + b.sz ≤ s.mem + s.size ∧
    (0 < b.sz → b.addr + b.sz ≤ s.mem + s.pos)

structure LinInv (mem size : Nat) (s : Lin) (live : List Block) : Prop where
  hmem : s.mem = mem
  hsize : s.size = size
  hpos : s.pos ≤ s.size
  ok : ∀ b ∈ live, BlockOk s b
  sep : live.Pairwise Sep

theorem checkNonNull_ok {r : Res (Nat × σ)} {p : Nat} {s : σ} (h : checkNonNull r = .ok (p, s)) :
    r = .ok (p, s) ∧ p ≠ 0 := by
  unfold checkNonNull at h
  cases r with
  | ok x =>
    obtain ⟨q, t⟩ := x
    rw [Res.ok_bind] at h
    simp only [] at h
    by_cases h0 : q = 0
    · rw [if_pos h0] at h; cases h
    · rw [if_neg h0] at h; cases h; exact ⟨rfl, h0⟩
  | ub => cases h
  | abort => cases h
  | loop => cases h

/-- Outcome of `do_allocate` in terms of the distance to the next aligned address. -/
theorem linDoAllocate_eq (s : Lin) (hp : s.pos ≤ s.size) (hs : s.size < 2 ^ 64) {sz al d : Nat} (h0 : sz ≠ 0) (ha : 0 < al)
    (hz : sz < 2 ^ 64) (hd : NextAligned (s.mem + s.pos) al d) :
    linDoAllocate s sz al = if s.pos + d + sz ≤ s.size then .ok (s.mem + s.pos + d, { s with pos := s.pos + d + sz })
      else .abort := by
  have hu := hd.unique (alignDist _ ha)
  unfold linDoAllocate stdAlign
  simp only [← hu, if_neg h0]
  by_cases h1 : s.pos + d + sz ≤ s.size
  · rw [if_pos h1, wrap64_of_lt (by omega), if_neg (by omega), if_neg (by omega), if_pos (by omega)]
    simp only []
    congr 3
    omega
  · rw [if_neg h1, if_neg (show ¬ s.pos > s.size by omega), if_neg (show ¬ d + sz ≤ s.size - s.pos by omega)]
    split <;> rfl

theorem linSlack_of_le {s : Lin} (hp : s.pos ≤ s.size) (hs : s.size < 2 ^ 64) : linSlack s = s.size - s.pos := by
  unfold linSlack wrap64; omega

theorem linDoAllocate_inv {mem size : Nat} {s : Lin} {live : List Block} (h : LinInv mem size s live)
    (hms : mem + size < 2 ^ 64) {sz al p : Nat} {s' : Lin} (ha : 0 < al) (hp : p ≠ 0) (hz : sz < 2 ^ 64)
    (e : linDoAllocate s sz al = .ok (p, s')) : LinInv mem size s' (⟨p, sz, al⟩ :: live) := by
  obtain ⟨hmem, hsize, hpos, hok, hsep⟩ := h
  have h0 : sz ≠ 0 := by
    intro h0
    unfold linDoAllocate at e
    rw [if_pos h0] at e
    cases e; exact hp rfl
  have hd := alignDist (s.mem + s.pos) ha
  rw [linDoAllocate_eq s hpos (by omega) h0 ha hz hd] at e
  generalize (al - (s.mem + s.pos) % al) % al = d at *
  split at e
  · next hfit =>
    cases e
    refine ⟨hmem, hsize, hfit, fun b hb => ?_, ?_⟩
    · rcases List.mem_cons.mp hb with rfl | hb
      · exact ⟨ha, hd.1, by simp; omega, by simp; omega, fun _ => by simp; omega⟩
      · obtain ⟨h1, h2, h3, h4, h5⟩ := hok b hb
        exact ⟨h1, h2, h3, h4, fun hz => by have := h5 hz; simp; omega⟩
    · refine List.pairwise_cons.mpr ⟨fun b hb => ?_, hsep⟩
      obtain ⟨h1, h2, h3, h4, h5⟩ := hok b hb
      unfold Sep
      by_cases hz : b.sz = 0
      · exact .inr (.inl hz)
      · have := h5 (by omega); simp; omega
  · cases e

theorem linInv_erase {mem size : Nat} {s : Lin} {live : List Block} (h : LinInv mem size s live) (b : Block) :
    LinInv mem size s (live.erase b) :=
  ⟨h.hmem, h.hsize, h.hpos, fun c hc => h.ok c (List.mem_of_mem_erase hc), h.sep.sublist List.erase_sublist⟩

theorem linInv_sep {mem size : Nat} {s : Lin} {live : List Block} (h : LinInv mem size s live) {b : Block} (hb : b ∈ live) :
    ∀ c ∈ live.erase b, Sep b c := by
  have hp : (b :: live.erase b).Pairwise Sep :=
    ((List.perm_cons_erase hb).pairwise_iff (fun h => Sep.symm h)).mp h.sep
  exact (List.pairwise_cons.mp hp).1

theorem linDoReallocate_inv {mem size : Nat} {s : Lin} {live : List Block} (h : LinInv mem size s live)
    (hms : mem + size < 2 ^ 64) {b : Block} (hb : b ∈ live) {newsz p : Nat} {s' : Lin} (hp : p ≠ 0)
    (hn : b.addr + newsz < 2 ^ 64)
    (e : linDoReallocate s b.addr b.sz newsz b.al = .ok (p, s')) :
    LinInv mem size s' (⟨p, newsz, b.al⟩ :: live.erase b) := by
  have hE := linInv_erase h b
  have hS := linInv_sep h hb
  have hB := h.ok b hb
  obtain ⟨b1, b2, b3, b4, b5⟩ := hB
  obtain ⟨hmem, hsize, hpos, _, _⟩ := h
  unfold linDoReallocate at e
  split at e
  · next he =>
    cases e
    subst he
    exact ⟨hmem, hsize, hpos, fun c hc => by
      rcases List.mem_cons.mp hc with rfl | hc
      · exact ⟨b1, b2, b3, b4, b5⟩
      · exact hE.ok c hc, List.pairwise_cons.mpr ⟨hS, hE.sep⟩⟩
  · next hne =>
    simp only [] at e
    rw [wrap64_of_lt (show s.mem + s.pos < 2 ^ 64 by omega), wrap64_of_lt (show b.addr + b.sz < 2 ^ 64 by omega),
      wrap64_of_lt hn, wrap64_of_lt (show s.mem + s.size < 2 ^ 64 by omega)] at e
    split at e
    · next hlt =>
      split at e
      · next hsame =>
        cases e
        refine ⟨hmem, hsize, by simp; omega, fun c hc => ?_, List.pairwise_cons.mpr ⟨fun c hc => ?_, hE.sep⟩⟩
        · rcases List.mem_cons.mp hc with rfl | hc
          · exact ⟨b1, b2, b3, by simp; omega, fun _ => by simp; omega⟩
          · obtain ⟨c1, c2, c3, c4, c5⟩ := hE.ok c hc
            have hs := hS c hc
            refine ⟨c1, c2, c3, c4, fun hz => ?_⟩
            have := c5 hz
            unfold Sep at hs
            simp
            omega
        · have hs := hS c hc
          unfold Sep at hs ⊢
          simp
          omega
      · cases e
        refine ⟨hmem, hsize, hpos, fun c hc => ?_, List.pairwise_cons.mpr ⟨fun c hc => ?_, hE.sep⟩⟩
        · rcases List.mem_cons.mp hc with rfl | hc
          · exact ⟨b1, b2, b3, by simp; omega, fun _ => by simp; omega⟩
          · exact hE.ok c hc
        · have hs := hS c hc
          unfold Sep at hs ⊢
          simp
          omega
    · split at e
      · next hc =>
        obtain ⟨hsame, hle⟩ := hc
        cases e
        have hw : wrap64 (s.pos + (newsz - b.sz)) = s.pos + (newsz - b.sz) := wrap64_of_lt (by omega)
        refine ⟨hmem, hsize, by simp only [hw]; omega, fun c hc => ?_,
          List.pairwise_cons.mpr ⟨fun c hc => ?_, hE.sep⟩⟩
        · rcases List.mem_cons.mp hc with rfl | hc
          · exact ⟨b1, b2, b3, by simp; omega, fun _ => by simp only [hw]; omega⟩
          · obtain ⟨c1, c2, c3, c4, c5⟩ := hE.ok c hc
            refine ⟨c1, c2, c3, c4, fun hz => ?_⟩
            have := c5 hz
            simp only [hw]
            omega
        · have hs := hS c hc
          obtain ⟨c1, c2, c3, c4, c5⟩ := hE.ok c hc
          unfold Sep at hs ⊢
          simp
          omega
      · exact linDoAllocate_inv hE hms b1 hp (by omega) e

theorem linDoAllocate_big {s : Lin} (hp : s.pos ≤ s.size) {sz al p : Nat} {s' : Lin}
    (e : linDoAllocate s sz al = .ok (p, s')) : sz ≤ s.size := by
  unfold linDoAllocate at e
  split at e
  · omega
  · split at e
    · cases e
    · rw [if_neg (by omega)] at e
      cases hst : stdAlign (s.mem + s.pos) al sz (s.size - s.pos) with
      | none => rw [hst] at e; cases e
      | some d =>
        unfold stdAlign at hst
        simp only [] at hst
        split at hst
        · omega
        · cases hst

theorem linHist_inv {mem size : Nat} (hms : mem + size < 2 ^ 64) {s : Lin} {live : List Block}
    (h : LinHist mem size s live) : LinInv mem size s live := by
  induction h with
  | start => exact ⟨rfl, rfl, Nat.zero_le _, by simp, List.Pairwise.nil⟩
  | alloc _ ha e ih =>
    obtain ⟨e, hp⟩ := checkNonNull_ok e
    have := linDoAllocate_big ih.hpos e
    have := ih.hsize
    exact linDoAllocate_inv ih hms ha hp (by omega) e
  | dealloc _ hb ih => exact linInv_erase ih _
  | realloc _ hb hn e ih =>
    obtain ⟨e, hp⟩ := checkNonNull_ok e
    exact linDoReallocate_inv ih hms hb hp hn e
  | clear _ ih => exact ⟨ih.hmem, ih.hsize, Nat.zero_le _, by simp, List.Pairwise.nil⟩

/-! ### C67 -/

/-- **C67**: after any history, every live block lies in the buffer and is aligned as asked, live blocks are pairwise disjoint, and
the resource still is over the same buffer. -/
theorem C67_blocks {mem size : Nat} (hms : mem + size < 2 ^ 64) {s : Lin} {live : List Block}
    (h : LinHist mem size s live) :
    (∀ b ∈ live, b.Inside mem size ∧ b.al ∣ b.addr) ∧ live.Pairwise Block.Disjoint ∧
      s.mem = mem ∧ s.size = size ∧ s.pos ≤ size := by
  have hI := linHist_inv hms h
  refine ⟨fun b hb => ?_, hI.sep.imp Sep.disjoint, hI.hmem, hI.hsize, hI.hsize ▸ hI.hpos⟩
  obtain ⟨b1, b2, b3, b4, _⟩ := hI.ok b hb
  have := hI.hmem; have := hI.hsize
  refine ⟨⟨fun x hx => ?_, by omega, by omega⟩, b2⟩
  unfold Block.Has at hx
  omega

/-- **C67**: in every state reached, `allocate` succeeds exactly if the block fits after the next aligned address, and then returns
that address; otherwise an error is reported (also for size zero). -/
theorem C67_reports {mem size : Nat} (hm : mem ≠ 0) (hms : mem + size < 2 ^ 64) {s : Lin} {live : List Block}
    (h : LinHist mem size s live) {sz al d : Nat} (ha : 0 < al) (hz : sz < 2 ^ 64)
    (hd : NextAligned (mem + s.pos) al d) :
    if sz ≠ 0 ∧ s.pos + d + sz ≤ size then ∃ s', linAllocate s sz al = .ok (mem + s.pos + d, s') ∧
      s'.pos = s.pos + d + sz
    else linAllocate s sz al = .abort := by
  have hI := linHist_inv hms h
  have e1 := hI.hmem; have e2 := hI.hsize; have e3 := hI.hpos
  by_cases h0 : sz = 0
  · rw [if_neg (by omega)]
    unfold linAllocate linDoAllocate
    rw [if_pos h0]
    unfold checkNonNull
    rw [Res.ok_bind]
    rfl
  · unfold linAllocate
    rw [linDoAllocate_eq s e3 (by omega) h0 ha hz (e1 ▸ hd)]
    unfold checkNonNull
    by_cases h1 : s.pos + d + sz ≤ size
    · rw [if_pos ⟨h0, h1⟩, if_pos (by omega), Res.ok_bind]
      refine ⟨_, by rw [← e1]; exact if_neg (by omega), rfl⟩
    · rw [if_neg (by omega), if_neg (by omega)]
      rfl

/-- **C67**: in every state reached, reallocating a live block to a size that cannot be had is reported; it never fails for a
block that shrinks. -/
theorem C67_realloc_reports {mem size : Nat} (hm : mem ≠ 0) (hms : mem + size < 2 ^ 64) {s : Lin} {live : List Block}
    (h : LinHist mem size s live) {b : Block} (hb : b ∈ live) {newsz : Nat} (hn : b.addr + newsz < 2 ^ 64) :
    (∃ p s', linReallocate s b.addr b.sz newsz b.al = .ok (p, s')) ∨
      (linReallocate s b.addr b.sz newsz b.al = .abort ∧ b.sz < newsz ∧ size < s.pos + newsz + b.al) := by
  have hI := linHist_inv hms h
  have e1 := hI.hmem; have e2 := hI.hsize; have e3 := hI.hpos
  obtain ⟨b1, b2, b3, b4, b5⟩ := hI.ok b hb
  have hok : ∀ t : Lin, ∃ p s', checkNonNull (Res.ok (b.addr, t)) = .ok (p, s') := fun t => by
    unfold checkNonNull
    rw [Res.ok_bind]
    exact ⟨_, _, if_neg (by omega)⟩
  unfold linReallocate linDoReallocate
  split
  · exact .inl (hok _)
  · simp only []
    split
    · split <;> exact .inl (hok _)
    · split
      · exact .inl (hok _)
      · have hd := alignDist (mem + s.pos) b1
        have := hd.lt b1
        have hr := C67_reports hm hms h b1 (sz := newsz) (by omega) hd
        unfold linAllocate at hr
        split at hr
        · obtain ⟨s', e, _⟩ := hr
          exact .inl ⟨_, _, e⟩
        · exact .inr ⟨hr, by omega, by omega⟩

/-- **C67**: after `clear()` the whole buffer is available again, whatever the history: the resource is as it was at the start. -/
theorem C67_clear {mem size : Nat} (hms : mem + size < 2 ^ 64) {s : Lin} {live : List Block} (h : LinHist mem size s live) :
    linClear s = ⟨mem, size, 0⟩ ∧ linSlack (linClear s) = size ∧ ∀ sz al, linAllocate (linClear s) sz al = linAllocate ⟨mem, size, 0⟩ sz al := by
  have hI := linHist_inv hms h
  have e : linClear s = ⟨mem, size, 0⟩ := by rw [← hI.hmem, ← hI.hsize]; rfl
  exact ⟨e, by rw [e, linSlack_of_le (Nat.zero_le _) (by show size < 2 ^ 64; omega)]; rfl, fun sz al => by rw [e]⟩

/-- A history with three live blocks, one of them reallocated at another place. -/
example : ∃ s, LinHist 1001 64 s [⟨1032, 8, 8⟩, ⟨1024, 5, 4⟩] := by
  have h0 : LinHist 1001 64 ⟨1001, 64, 0⟩ [] := .start
  have h1 := LinHist.alloc (sz := 4) (al := 8) h0 (by omega) (p := 1008) (s' := ⟨1001, 64, 11⟩) (by decide +kernel)
  have h2 := LinHist.alloc (sz := 3) (al := 4) h1 (by omega) (p := 1012) (s' := ⟨1001, 64, 14⟩) (by decide +kernel)
  have h3 := LinHist.realloc (b := ⟨1012, 3, 4⟩) (newsz := 9) h2 (by simp) (by decide) (p := 1012) (s' := ⟨1001, 64, 20⟩)
    (by decide +kernel)
  have h4 := LinHist.alloc (sz := 5) (al := 4) h3 (by omega) (p := 1024) (s' := ⟨1001, 64, 28⟩) (by decide +kernel)
  have h5 := LinHist.realloc (b := ⟨1008, 4, 8⟩) (newsz := 8) h4 (by simp) (by decide) (p := 1032) (s' := ⟨1001, 64, 39⟩)
    (by decide +kernel)
  have h6 := LinHist.dealloc (b := ⟨1012, 9, 4⟩) h5 (by decide)
  exact ⟨_, h6⟩

/-! ### C88: sizes beyond the address space -/

/-- **C88 is false**: growing the last block to a size that wraps around the address space succeeds, and the next allocation
overlaps live blocks.  (In C++ terms the pointer comparison is undefined.) -/
theorem C88_refuted :
    linAllocate ⟨1024, 64, 0⟩ 16 16 = .ok (1024, ⟨1024, 64, 16⟩) ∧
    linAllocate ⟨1024, 64, 16⟩ 16 16 = .ok (1040, ⟨1024, 64, 32⟩) ∧
    linReallocate ⟨1024, 64, 32⟩ 1040 16 (2 ^ 64 - 16) 16 = .ok (1040, ⟨1024, 64, 0⟩) ∧
    linAllocate ⟨1024, 64, 0⟩ 16 16 = .ok (1024, ⟨1024, 64, 16⟩) := by decide +kernel

/-- **C88** for `allocate`: whatever size is asked for, success means that it fits in the buffer. -/
theorem C88_allocate_partial {mem size : Nat} (hms : mem + size < 2 ^ 64) {s : Lin} {live : List Block}
    (h : LinHist mem size s live) {sz al p : Nat} {s' : Lin} (ha : 0 < al) (e : linAllocate s sz al = .ok (p, s')) :
    mem ≤ p ∧ p + sz ≤ mem + size := by
  have hI := linHist_inv hms (.alloc h ha e)
  obtain ⟨_, _, h3, h4, _⟩ := hI.ok _ (List.mem_cons_self ..)
  have := hI.hmem; have := hI.hsize
  simp at h3 h4
  omega

/-- **C88** for `reallocate`, exactly: success means that the new size fits in the buffer, but for one case: the block is the last one and its end would be beyond the address space, at a
place that is not behind the buffer after wrapping around; then it always succeeds.  (In this case property C88 is false, see `C88_refuted`.) -/
theorem C88_reallocate_partial {mem size : Nat} (hm : 0 < mem) (hms : mem + size < 2 ^ 64) {s : Lin} {live : List Block}
    (h : LinHist mem size s live) {b : Block} (hb : b ∈ live) {newsz : Nat} (hn : newsz < 2 ^ 64) :
    (∀ p s', linReallocate s b.addr b.sz newsz b.al = .ok (p, s') →
      (mem ≤ p ∧ p + newsz ≤ mem + size) ∨ (b.addr + b.sz = mem + s.pos ∧ 2 ^ 64 ≤ b.addr + newsz ∧ b.addr + newsz - 2 ^ 64 ≤ mem + size ∧ p = b.addr)) ∧
    (b.addr + b.sz = mem + s.pos → 2 ^ 64 ≤ b.addr + newsz → b.addr + newsz - 2 ^ 64 ≤ mem + size → ∃ s', linReallocate s b.addr b.sz newsz b.al = .ok (b.addr, s')) := by
  have hI := linHist_inv hms h
  obtain ⟨b1, b2, b3, b4, b5⟩ := hI.ok b hb
  have h1 := hI.hmem; have h2 := hI.hsize; have h3 := hI.hpos
  rw [h1] at b3 b4
  rw [h2] at b4
  constructor
  · intro p s' e
    by_cases hlt : b.addr + newsz < 2 ^ 64
    · left
      have hI' := linHist_inv hms (.realloc h hb hlt e)
      obtain ⟨_, _, h3', h4', _⟩ := hI'.ok _ (List.mem_cons_self ..)
      have := hI'.hmem; have := hI'.hsize
      simp only at h3' h4'
      omega
    · have hbig : b.sz < newsz := by omega
      obtain ⟨e, hp⟩ := checkNonNull_ok e
      unfold linDoReallocate at e
      rw [if_neg (by omega)] at e
      simp only [] at e
      rw [if_neg (by omega)] at e
      have w1 : wrap64 (s.mem + s.pos) = mem + s.pos := by rw [h1]; exact wrap64_of_lt (by omega)
      have w2 : wrap64 (b.addr + b.sz) = b.addr + b.sz := wrap64_of_lt (by omega)
      have w3 : wrap64 (s.mem + s.size) = mem + size := by rw [h1, h2]; exact wrap64_of_lt (by omega)
      have w4 : wrap64 (b.addr + newsz) = b.addr + newsz - 2 ^ 64 := by unfold wrap64; omega
      rw [w1, w2, w3, w4] at e
      split at e
      · next hc =>
        right
        cases e
        exact ⟨hc.1.symm, by omega, hc.2, rfl⟩
      · left
        have e' : linAllocate s newsz b.al = .ok (p, s') := by
          unfold linAllocate checkNonNull
          rw [e, Res.ok_bind]
          simp only []
          rw [if_neg hp]
        exact C88_allocate_partial hms h b1 e'
  · intro c1 c2 c3
    have w1 : wrap64 (s.mem + s.pos) = mem + s.pos := by rw [h1]; exact wrap64_of_lt (by omega)
    have w2 : wrap64 (b.addr + b.sz) = b.addr + b.sz := wrap64_of_lt (by omega)
    have w3 : wrap64 (s.mem + s.size) = mem + size := by rw [h1, h2]; exact wrap64_of_lt (by omega)
    have w4 : wrap64 (b.addr + newsz) = b.addr + newsz - 2 ^ 64 := by unfold wrap64; omega
    unfold linReallocate linDoReallocate
    rw [if_neg (by omega)]
    simp only []
    rw [if_neg (by omega), w1, w2, w3, w4, if_pos ⟨c1.symm, c3⟩]
    unfold checkNonNull
    rw [Res.ok_bind]
    simp only []
    rw [if_neg (by omega)]
    exact ⟨_, rfl⟩

/-- The history of `C88_refuted` meets the hypotheses of `C88_reallocate_partial`. -/
example : LinHist 1024 64 ⟨1024, 64, 32⟩ [⟨1040, 16, 16⟩, ⟨1024, 16, 16⟩] :=
  .alloc (.alloc .start (by omega) C88_refuted.1) (by omega) C88_refuted.2.1

/-! ### C68 -/

/-- **C68 is false** for `MemoryResourceLinear`: a block that is not the last one is moved when it grows; the resource performs
no write to memory, so the new block holds whatever was there (`m` is the memory, here zero outside the old block). -/
theorem C68_refuted : ∃ (m : Nat → Nat),
    linAllocate ⟨1024, 64, 0⟩ 4 1 = .ok (1024, ⟨1024, 64, 4⟩) ∧
    linAllocate ⟨1024, 64, 4⟩ 4 1 = .ok (1028, ⟨1024, 64, 8⟩) ∧
    linReallocate ⟨1024, 64, 8⟩ 1024 4 8 1 = .ok (1032, ⟨1024, 64, 16⟩) ∧
    m 1032 ≠ m 1024 :=
  ⟨fun x => if x = 1024 then 7 else 0, by decide +kernel, by decide +kernel, by decide +kernel, by decide⟩

/-- **C68** for `MemoryResourceLinear`, what holds: a live block keeps its place, hence its contents, if its size does not grow or
if it is the last block and the buffer has room.  Missing: other blocks that grow (false, see `C68_refuted`). -/
theorem C68_linear_partial {mem size : Nat} (hm : mem ≠ 0) (hms : mem + size < 2 ^ 64) {s : Lin} {live : List Block}
    (h : LinHist mem size s live) {b : Block} (hb : b ∈ live) {newsz : Nat} (hn : b.addr + newsz < 2 ^ 64)
    (hc : newsz ≤ b.sz ∨ (b.addr + b.sz = mem + s.pos ∧ b.addr + newsz ≤ mem + size)) :
    ∃ s', linReallocate s b.addr b.sz newsz b.al = .ok (b.addr, s') := by
  have hI := linHist_inv hms h
  have e1 := hI.hmem; have e2 := hI.hsize; have e3 := hI.hpos
  obtain ⟨b1, b2, b3, b4, b5⟩ := hI.ok b hb
  have hok : ∀ t : Lin, ∃ s', checkNonNull (Res.ok (b.addr, t)) = .ok (b.addr, s') := fun t => by
    unfold checkNonNull
    rw [Res.ok_bind]
    exact ⟨t, if_neg (by omega)⟩
  unfold linReallocate linDoReallocate
  split
  · exact hok _
  · simp only []
    rw [wrap64_of_lt (show s.mem + s.pos < 2 ^ 64 by omega), wrap64_of_lt (show b.addr + b.sz < 2 ^ 64 by omega),
      wrap64_of_lt hn, wrap64_of_lt (show s.mem + s.size < 2 ^ 64 by omega)]
    split
    · split <;> exact hok _
    · rw [if_pos (by omega)]
      exact hok _

theorem memmove_content {m : List Nat} {dst src n : Nat} (h1 : dst + n ≤ m.length) (h2 : src + n ≤ m.length) :
    ∃ m', memmove m dst src n = .ok m' ∧ m'.length = m.length ∧
      (m'.drop dst).take n = (m.drop src).take n ∧
      ∀ i, (i < dst ∨ dst + n ≤ i) → m'[i]? = m[i]? := by
  have hl : ((m.drop src).take n).length = n := by simp; omega
  unfold memmove
  rw [if_pos h2, memcpyTo_ok (by omega)]
  refine ⟨_, rfl, by simp; omega, ?_, fun i hi => ?_⟩
  · have hd : (m.take dst).length = dst := by simp; omega
    rw [List.append_assoc, List.drop_left' hd, List.take_left' hl]
  · rw [hl]
    have hd : (m.take dst).length = dst := by simp; omega
    rcases hi with hi | hi
    · rw [List.append_assoc, List.getElem?_append_left (by omega), List.getElem?_take_of_lt hi]
    · rw [List.getElem?_append_right (by simp; omega), List.getElem?_drop]
      congr 1
      simp
      omega

/-- **C68** for `arealloc`: for every memory contents, every block and every new block in memory (overlapping or not) the new block
starts with the contents of the old one and nothing outside the new block changes. -/
theorem C68_arealloc (m : List Nat) (tmp ptr oldsz newsz : Nat) (h1 : ptr + oldsz ≤ m.length)
    (h2 : tmp + newsz ≤ m.length) :
    ∃ m', arealloc m tmp ptr oldsz newsz = .ok m' ∧ m'.length = m.length ∧
      (m'.drop tmp).take (min oldsz newsz) = (m.drop ptr).take (min oldsz newsz) ∧
      ∀ i, (i < tmp ∨ tmp + newsz ≤ i) → m'[i]? = m[i]? := by
  have hmn : (if newsz < oldsz then newsz else oldsz) = min oldsz newsz := by
    rw [Nat.min_def]; split <;> split <;> omega
  unfold arealloc
  simp only [hmn]
  have hle1 : min oldsz newsz ≤ oldsz := Nat.min_le_left ..
  have hle2 : min oldsz newsz ≤ newsz := Nat.min_le_right ..
  generalize min oldsz newsz = n at *
  obtain ⟨m', e, hl, hc, ho⟩ := memmove_content (m := m) (dst := tmp) (src := ptr) (n := n) (by omega) (by omega)
  have ho' : ∀ i, (i < tmp ∨ tmp + newsz ≤ i) → m'[i]? = m[i]? := fun i hi => ho i (by omega)
  split
  · exact ⟨m', e, hl, hc, ho'⟩
  · next hov =>
    unfold memcpyIn
    split
    · next h0 => exact ⟨m, rfl, rfl, by subst h0; simp, fun _ _ => rfl⟩
    · rw [if_pos, e]
      · exact ⟨m', rfl, hl, hc, ho'⟩
      · unfold memOverlaps at hov
        simp at hov
        omega

example : arealloc [0, 1, 2, 3, 4, 5, 6, 7] 5 1 2 3 = .ok [0, 1, 2, 3, 4, 1, 2, 7] := by decide +kernel
example : arealloc [0, 1, 2, 3, 4, 5, 6, 7] 2 1 3 3 = .ok [0, 1, 1, 2, 3, 5, 6, 7] := by decide +kernel

/-! ### C69 -/

/-- **C69 is false**: `acquire(sz)` on a live resource without memory does not ask the parent, it reports an error. -/
theorem C69_refuted_acquire (o : Bool) (sz : Nat) : chunkAcquire (chunkEmpty o) sz = .abort := by
  unfold chunkAcquire chunkEmpty linAllocate linDoAllocate linClear checkNonNull stdAlign wrap64
  by_cases h0 : sz = 0
  · simp [h0]
  · simp only [if_neg h0]
    split
    · rfl
    · simp only [Nat.add_zero, Nat.sub_zero]
      rw [if_neg (by simp), if_neg (by simp; omega)]
      rfl

/-- **C69 is false**: `acquire(sz)` on a live resource with memory takes a part of its own buffer, without asking the parent, and
its destructor returns to the parent a chunk that is not the one obtained from it (here: another address or size). -/
theorem C69_refuted_destructor :
    (chunkAcquire (chunkCtorOwned false 1032 64) 16).bind (fun c => .ok (chunkDtor c).log) =
      .ok [.alloc 1032 64, .dealloc 1040 16] := by decide +kernel

/-- **C69 is false**: borrowed memory is returned to the parent, which never handed it out, after `acquire(sz)`. -/
theorem C69_refuted_borrowed :
    (chunkAcquire (chunkAcquireBorrowed (chunkEmpty false) 1024 64) 16).bind (fun c => .ok (chunkDtor c).log) =
      .ok [.dealloc 1024 16] := by decide +kernel

/-- **C69 is false**: `release()` never returns the chunk to the parent: it is leaked. -/
theorem C69_refuted_release (c : Chunk) : (chunkRelease c).log = c.log ∧ (chunkDtor (chunkRelease c)).log = c.log := by
  have h : (chunkRelease c).log = c.log := by
    unfold chunkRelease; split <;> rfl
  refine ⟨h, ?_⟩
  unfold chunkDtor
  rw [if_neg (by simp [chunkRelease])]
  exact h

/-- **C69 is false**: acquiring borrowed memory leaks an owned chunk. -/
theorem C69_refuted_leak (o : Bool) (p sz q sz' : Nat) :
    (chunkDtor (chunkAcquireBorrowed (chunkCtorOwned o p sz) q sz')).log = [.alloc p sz] := by
  unfold chunkDtor
  rw [if_neg (by simp [chunkAcquireBorrowed])]
  rfl

/-- Calls that leave the chunk alone: everything but acquire and release. -/
inductive ChunkUse : Chunk → Chunk → Prop where
  | refl (c) : ChunkUse c c
  | alloc {c c' sz al p s} : ChunkUse c c' → linAllocate c'.lin sz al = .ok (p, s) → ChunkUse c { c' with lin := s }
  | realloc {c c' p o n al q s} : ChunkUse c c' → linReallocate c'.lin p o n al = .ok (q, s) →
      ChunkUse c { c' with lin := s }
  | dealloc {c c' p sz al} : ChunkUse c c' → ChunkUse c { c' with lin := linDeallocate c'.lin p sz al }
  | clear {c c'} : ChunkUse c c' → ChunkUse c { c' with lin := linClear c'.lin }

theorem linDoAllocate_same {s s' : Lin} {sz al p : Nat} (e : linDoAllocate s sz al = .ok (p, s')) :
    s'.mem = s.mem ∧ s'.size = s.size := by
  unfold linDoAllocate at e
  split at e
  · cases e; exact ⟨rfl, rfl⟩
  · split at e
    · cases e
    · split at e
      · cases e
      · split at e
        · cases e
        · cases e; exact ⟨rfl, rfl⟩

theorem linDoReallocate_same {s s' : Lin} {p o n al q : Nat} (e : linDoReallocate s p o n al = .ok (q, s')) :
    s'.mem = s.mem ∧ s'.size = s.size := by
  unfold linDoReallocate at e
  split at e
  · cases e; exact ⟨rfl, rfl⟩
  · simp only [] at e
    split at e
    · split at e <;> cases e <;> exact ⟨rfl, rfl⟩
    · split at e
      · cases e; exact ⟨rfl, rfl⟩
      · exact linDoAllocate_same e

theorem chunkUse_same {c c' : Chunk} (h : ChunkUse c c') :
    c'.lin.mem = c.lin.mem ∧ c'.lin.size = c.lin.size ∧ c'.owner = c.owner ∧ c'.log = c.log := by
  induction h with
  | refl => exact ⟨rfl, rfl, rfl, rfl⟩
  | alloc _ e ih =>
    obtain ⟨h1, h2⟩ := linDoAllocate_same (checkNonNull_ok e).1
    exact ⟨h1.trans ih.1, h2.trans ih.2.1, ih.2.2⟩
  | realloc _ e ih =>
    obtain ⟨h1, h2⟩ := linDoReallocate_same (checkNonNull_ok e).1
    exact ⟨h1.trans ih.1, h2.trans ih.2.1, ih.2.2⟩
  | dealloc _ ih => exact ih
  | clear _ ih => exact ih

/-- **C69**, what holds: a resource constructed with owned memory asks the parent for it once, and whatever blocks are then allocated
and released, its destructor returns exactly that chunk; one constructed on borrowed memory never calls the parent.
Missing: acquire and release on a constructed object (false, see above). -/
theorem C69_lifetime_partial (o : Bool) (p sz : Nat) (hp : p ≠ 0) {c : Chunk} :
    (ChunkUse (chunkCtorOwned o p sz) c → (chunkDtor c).log = [.alloc p sz, .dealloc p sz]) ∧
    (ChunkUse (chunkAcquireBorrowed (chunkEmpty o) p sz) c → (chunkDtor c).log = []) := by
  refine ⟨fun h => ?_, fun h => ?_⟩
  · obtain ⟨h1, h2, h3, h4⟩ := chunkUse_same h
    unfold chunkDtor
    rw [h1, h2, h3]
    simp only [chunkCtorOwned] at h4 ⊢
    rw [if_pos ⟨hp, trivial⟩]
    simp only [h4]
    rfl
  · obtain ⟨h1, h2, h3, h4⟩ := chunkUse_same h
    unfold chunkDtor
    rw [h3, if_neg (by simp [chunkAcquireBorrowed])]
    exact h4

/-- **C69**, what holds: a resource constructed with owned memory, and one given borrowed memory whatever it had before, begins with all of that memory
free: `sz` bytes are left, and the first allocation gets the first aligned address in it and is an error only if the block does not fit from there.
Missing: see above. -/
theorem C69_start_partial (o : Bool) (c0 : Chunk) {p sz n al d : Nat} (hp : p ≠ 0) (hs : p + sz < 2 ^ 64) (ha : 0 < al) (hn : n < 2 ^ 64)
    (hd : NextAligned p al d) {c : Chunk} (hc : c = chunkCtorOwned o p sz ∨ c = chunkAcquireBorrowed c0 p sz) :
    linSlack c.lin = sz ∧
    (if n ≠ 0 ∧ d + n ≤ sz then ∃ s, linAllocate c.lin n al = .ok (p + d, s) ∧ linSlack s = sz - (d + n) else linAllocate c.lin n al = .abort) := by
  have e : c.lin = ⟨p, sz, 0⟩ := by rcases hc with rfl | rfl <;> rfl
  rw [e]
  refine ⟨linSlack_of_le (Nat.zero_le _) (by show sz < 2 ^ 64; omega), ?_⟩
  have h := C67_reports hp hs (LinHist.start (mem := p) (size := sz)) (sz := n) (al := al) (d := d) ha hn hd
  simp only [Nat.add_zero, Nat.zero_add] at h
  split
  · next hh =>
    rw [if_pos hh] at h
    obtain ⟨s', h1, h2⟩ := h
    refine ⟨s', h1, ?_⟩
    have h3 : s'.size = sz := (linDoAllocate_same (checkNonNull_ok h1).1).2
    rw [linSlack_of_le (by omega) (by omega)]; omega
  · next hh =>
    rw [if_neg hh] at h
    exact h

example : NextAligned 1032 16 8 ∧ linAllocate (chunkAcquireBorrowed (chunkCtorOwned true 4096 8) 1032 64).lin 56 16 = .ok (1040, ⟨1032, 64, 64⟩) ∧
    linAllocate (chunkAcquireBorrowed (chunkCtorOwned true 4096 8) 1032 64).lin 57 16 = .abort :=
  ⟨by have := alignDist 1032 (al := 16) (by omega); simpa using this, by decide +kernel, by decide +kernel⟩

/-- **C69**, what `acquire(sz)` does to a live resource with memory: without a call of the parent, the resource goes on with the first `sz` bytes of its
own memory that are aligned to 16, none of them used, and says that it owns them; an error is reported if they do not fit.  Missing: that it obtains
memory from the parent and returns what it had (false, see above). -/
theorem C69_acquire_partial (c : Chunk) {sz d : Nat} (hm : c.lin.mem ≠ 0) (hms : c.lin.mem + c.lin.size < 2 ^ 64) (hz : sz < 2 ^ 64)
    (hd : NextAligned c.lin.mem 16 d) :
    if sz ≠ 0 ∧ d + sz ≤ c.lin.size then ∃ c', chunkAcquire c sz = .ok c' ∧ c'.lin.mem = c.lin.mem + d ∧ c'.lin.size = sz ∧ c'.lin.pos = 0 ∧
      linSlack c'.lin = sz ∧ c'.owner = true ∧ c'.log = c.log
    else chunkAcquire c sz = .abort := by
  have h := C67_reports hm hms (LinHist.start (mem := c.lin.mem) (size := c.lin.size)) (sz := sz) (al := 16) (d := d) (by omega) hz hd
  simp only [Nat.add_zero, Nat.zero_add] at h
  unfold chunkAcquire
  dsimp only
  rw [show linClear c.lin = ⟨c.lin.mem, c.lin.size, 0⟩ from rfl]
  split
  · next hc =>
    rw [if_pos hc] at h
    obtain ⟨s', h1, _⟩ := h
    rw [h1]
    exact ⟨_, rfl, rfl, rfl, rfl, linSlack_of_le (Nat.zero_le _) hz, rfl, rfl⟩
  · next hc =>
    rw [if_neg hc] at h
    rw [h]; rfl

example : chunkAcquire ⟨⟨1032, 64, 40⟩, true, [.alloc 1032 64]⟩ 50 = .ok ⟨⟨1040, 50, 0⟩, true, [.alloc 1032 64]⟩ ∧
    chunkAcquire ⟨⟨1032, 64, 40⟩, true, [.alloc 1032 64]⟩ 57 = .abort := by decide +kernel

/-- **C69**, what holds for a resource constructed without memory, and for one that was released: nothing is used and nothing is left,
every allocation is reported as an error, and the parent is not called by the destructor, whatever value the uninitialized member
`m_owner` has. -/
theorem C69_empty_partial (o : Bool) (c0 : Chunk) (sz al : Nat) {c : Chunk} :
    (chunkEmpty o).lin = (chunkRelease c0).lin ∧ (chunkEmpty o).lin.pos = 0 ∧ linSlack (chunkEmpty o).lin = 0 ∧
    linAllocate (chunkEmpty o).lin sz al = .abort ∧ (ChunkUse (chunkEmpty o) c → (chunkDtor c).log = []) := by
  refine ⟨?_, rfl, by cases o <;> decide +kernel, ?_, fun h => ?_⟩
  · unfold chunkRelease; split <;> rfl
  · unfold chunkEmpty linAllocate linDoAllocate checkNonNull stdAlign wrap64
    by_cases h0 : sz = 0
    · simp [h0]
    · simp only [if_neg h0]
      split
      · rfl
      · simp only [Nat.add_zero, Nat.sub_zero]
        rw [if_neg (by simp), if_neg (by simp; omega)]
        rfl
  · obtain ⟨h1, h2, h3, h4⟩ := chunkUse_same h
    unfold chunkDtor
    rw [h1, if_neg (by simp [chunkEmpty])]
    exact h4

example : ∃ c, ChunkUse (chunkCtorOwned true 1024 64) c ∧ c.lin.pos = 24 :=
  ⟨_, .realloc (p := 1024) (o := 8) (n := 24) (al := 8) (q := 1024) (s := ⟨1024, 64, 24⟩)
    (.alloc (sz := 8) (al := 8) (p := 1024) (s := ⟨1024, 64, 8⟩) (.refl _) (by decide +kernel)) (by decide +kernel), rfl⟩

end C4
