import Verif.Resources
import Verif.Props.Alloc
/-
Properties C134-C137: aligned allocation, stacked resources, the resource of an allocator, differences of counts.
-/
namespace C4
open Spec

/-! ### C134 -/

theorem and_pred_iff (n : Nat) (hn : 0 < n) : n &&& (n - 1) = 0 ↔ ∃ k, n = 2 ^ k := by
  constructor
  · induction n using Nat.strongRecOn with
    | _ n ih =>
      intro h
      have h2 : (n &&& (n - 1)) / 2 = 0 := by rw [h]
      rw [Nat.and_div_two] at h2
      rcases Nat.mod_two_eq_zero_or_one n with he | ho
      · have e : (n - 1) / 2 = n / 2 - 1 := by omega
        rw [e] at h2
        obtain ⟨k, hk⟩ := ih (n / 2) (by omega) (by omega) h2
        exact ⟨k + 1, by rw [Nat.pow_succ]; omega⟩
      · have e : (n - 1) / 2 = n / 2 := by omega
        rw [e, Nat.and_self] at h2
        exact ⟨0, by simp; omega⟩
  · rintro ⟨k, rfl⟩
    rw [Nat.and_two_pow_sub_one_eq_mod, Nat.mod_self]

theorem and_seven (n : Nat) : n &&& (8 - 1) = n % 8 := Nat.and_two_pow_sub_one_eq_mod n 3

/-- What `posix_memalign` does: the address is a multiple of the alignment. -/
def Spec.Aligning (os : Nat → Nat → MemAlign) : Prop := ∀ al sz p, os al sz = .ok p → al ∣ p

theorem sysAlign_dvd {k : Nat} : 2 ^ k ∣ sysAlign (2 ^ k) ∧ sysAlign (2 ^ k) % 8 = 0 := by
  unfold sysAlign
  split
  · next h =>
    have : k < 3 := by
      rcases Nat.lt_or_ge k 3 with hk | hk
      · exact hk
      · have := Nat.pow_le_pow_right (n := 2) (by decide) hk
        omega
    rcases (by omega : k = 0 ∨ k = 1 ∨ k = 2) with rfl | rfl | rfl <;> decide
  · next h =>
    have : 3 ≤ k := by
      rcases Nat.lt_or_ge k 3 with hk | hk
      · rcases (by omega : k = 0 ∨ k = 1 ∨ k = 2) with rfl | rfl | rfl <;> simp at h
      · exact hk
    exact ⟨Nat.dvd_refl _, Nat.mod_eq_zero_of_dvd (Nat.pow_dvd_pow 2 this)⟩

theorem aallocImpl_pow (os : Nat → Nat → MemAlign) (sz k : Nat) :
    aallocImpl os sz (2 ^ k) = match os (sysAlign (2 ^ k)) sz with | .ok p => .ok p | .enomem => .abort | .other => .ok 0 := by
  have hp : 0 < 2 ^ k := Nat.two_pow_pos k
  unfold aallocImpl
  rw [if_neg (by simp only [not_not]; exact ⟨hp, (and_pred_iff _ hp).mpr ⟨k, rfl⟩⟩)]
  simp only
  rw [if_neg (by rw [and_seven]; exact not_not.mpr sysAlign_dvd.2)]
  rfl

theorem aallocImpl_bad (os : Nat → Nat → MemAlign) (sz al : Nat) (h : ¬ ∃ k, al = 2 ^ k) : aallocImpl os sz al = .abort := by
  unfold aallocImpl
  rw [if_pos]
  rintro ⟨h1, h2⟩
  exact h ((and_pred_iff al h1).mp h2)

/-- **C134**: aligned allocation reports an alignment that is not a power of two, whatever the size; otherwise the address is a multiple of the alignment, also for the
alignments below the size of a pointer; lack of memory is reported.  The system is asked for an alignment that is a power of two and a multiple of the size of a pointer, as it demands. -/
theorem C134_aalloc (os : Nat → Nat → MemAlign) (h : Aligning os) (sz al : Nat) :
    ((¬ ∃ k, al = 2 ^ k) → aallocImpl os sz al = .abort) ∧
    (∀ p, aallocImpl os sz al = .ok p → al ∣ p) ∧
    (∀ k, al = 2 ^ k → ∃ j, 8 ∣ 2 ^ j ∧ al ≤ 2 ^ j ∧ (∀ p, os (2 ^ j) sz = .ok p → aallocImpl os sz al = .ok p) ∧ (os (2 ^ j) sz = .enomem → aallocImpl os sz al = .abort)) := by
  refine ⟨aallocImpl_bad os sz al, fun p hp => ?_, fun k hk => ?_⟩
  · by_cases hk : ∃ k, al = 2 ^ k
    · obtain ⟨k, rfl⟩ := hk
      rw [aallocImpl_pow] at hp
      split at hp
      · next q e => cases hp; exact Nat.dvd_trans sysAlign_dvd.1 (h _ _ _ e)
      · cases hp
      · cases hp; exact ⟨0, rfl⟩
    · rw [aallocImpl_bad os sz al hk] at hp; cases hp
  · subst hk
    rw [aallocImpl_pow]
    have : ∃ j, sysAlign (2 ^ k) = 2 ^ j ∧ 8 ∣ 2 ^ j ∧ 2 ^ k ≤ 2 ^ j := by
      unfold sysAlign
      split
      · exact ⟨3, rfl, by decide, by omega⟩
      · next hh =>
        have h8 := (sysAlign_dvd (k := k)).2
        unfold sysAlign at h8
        rw [if_neg hh] at h8
        exact ⟨k, rfl, Nat.dvd_of_mod_eq_zero h8, Nat.le_refl _⟩
    obtain ⟨j, e, h1, h2⟩ := this
    rw [e]
    exact ⟨j, h1, h2, fun p hp => by rw [hp], fun hp => by rw [hp]⟩

example : Aligning (fun al _ => .ok (5 * al)) ∧ aallocImpl (fun al _ => .ok (5 * al)) 100 4 = .ok 40 ∧ aallocImpl (fun al _ => .ok (5 * al)) 100 24 = .abort := by
  refine ⟨fun al _ p h => ?_, by decide, by decide⟩
  cases h; exact ⟨5, Nat.mul_comm _ _⟩

/-- **C134** fails for requests of no bytes through a memory resource: the system may answer null, which is reported as an error. -/
theorem C134_refuted : ∃ os, Aligning os ∧ os 16 0 = .ok 0 ∧ ∀ cnt, (sysAllocate 1 os ⟨[.malloc], cnt, []⟩ 0 0 16).1 = .abort :=
  ⟨fun _ _ => .ok 0, fun _ _ _ h => by cases h; exact ⟨0, rfl⟩, rfl, fun _ => rfl⟩

/-! ### C135 -/

/-- Every resource is made after the one it gets its memory from. -/
def Spec.Built (nodes : List Node) : Prop := ∀ r j : Nat, nodes[r]? = some (.derived j) ∨ nodes[r]? = some (.counts j) → j < r

/-- The counting resources a request to resource `r` passes through (the first argument bounds their number). -/
def Spec.counters (nodes : List Node) : Nat → Nat → List Nat
  | 0, _ => []
  | f + 1, r =>
    match nodes[r]? with
    | some (.derived j) => counters nodes f j
    | some (.counts j) => r :: counters nodes f j
    | _ => []

theorem counters_le {nodes : List Node} (hb : Built nodes) : ∀ (f r i : Nat), i ∈ counters nodes f r → i ≤ r := by
  intro f
  induction f with
  | zero => intro r i h; cases h
  | succ f ih =>
    intro r i h
    unfold counters at h
    split at h
    · next j e => have := ih _ _ h; have := hb r j (.inl e); omega
    · next j e =>
      rcases List.mem_cons.mp h with rfl | h
      · omega
      · have := ih _ _ h; have := hb r j (.inr e); omega
    · cases h

/-- The system after a successful request of resource `r`. -/
theorem sysAllocate_eq {nodes : List Node} (hb : Built nodes) (os : Nat → Nat → MemAlign) (sz al : Nat) : ∀ (f r : Nat) (s : Sys), s.nodes = nodes → r < nodes.length → r < f →
    sysAllocate f os s r sz al = match notNull (aallocImpl os sz al) with
      | .ok p => (.ok p, ⟨nodes, fun i => if i ∈ counters nodes f r then (s.cnt i).addCounts p sz else s.cnt i, s.log ++ [.got p sz (sysAlign al)]⟩)
      | e => (e, s) := by
  intro f
  induction f with
  | zero => intro r s _ _ h; omega
  | succ f ih =>
    intro r s hs hr hf
    have hx : ∃ x, nodes[r]? = some x := ⟨nodes[r], List.getElem?_eq_getElem hr⟩
    obtain ⟨x, hx⟩ := hx
    unfold sysAllocate counters
    rw [hs, hx]
    cases x with
    | malloc =>
      simp only
      cases e : notNull (aallocImpl os sz al) <;> simp
    | derived j =>
      have hj := hb r j (.inl hx)
      simp only
      rw [ih j s hs (by omega) (by omega)]
      cases e : notNull (aallocImpl os sz al) with
      | ok p =>
        have hp : p ≠ 0 := by
          cases e' : aallocImpl os sz al with
          | ok q => rw [e'] at e; unfold notNull at e; simp only at e; split at e <;> simp_all
          | _ => rw [e'] at e; cases e
        simp [notNull, hp]
      | _ => simp [notNull]
    | counts j =>
      have hj := hb r j (.inr hx)
      simp only
      rw [ih j s hs (by omega) (by omega)]
      have hnm : r ∉ counters nodes f j := fun h => by have := counters_le hb f j r h; omega
      cases e : notNull (aallocImpl os sz al) with
      | ok p =>
        have hp : p ≠ 0 := by
          cases e' : aallocImpl os sz al with
          | ok q => rw [e'] at e; unfold notNull at e; simp only at e; split at e <;> simp_all
          | _ => rw [e'] at e; cases e
        simp only [countsAllocate, if_neg hp, Sys.setCnt, if_neg hnm, Prod.mk.injEq, true_and, Sys.mk.injEq, and_true]
        funext i
        by_cases hi : i = r
        · subst hi; simp
        · simp [hi]
      | _ =>
        simp only [countsAllocate, Sys.setCnt, Prod.mk.injEq, true_and]
        obtain ⟨n, c, l⟩ := s
        simp only [Sys.mk.injEq, true_and, and_true]
        funext i
        split <;> simp_all

theorem sysDeallocate_eq {nodes : List Node} (hb : Built nodes) (p sz : Nat) : ∀ (f r : Nat) (s : Sys), s.nodes = nodes → r < nodes.length → r < f →
    sysDeallocate f s r p sz = .ok ⟨nodes, fun i => if i ∈ counters nodes f r then (s.cnt i).remCounts p sz else s.cnt i, s.log ++ [.freed p]⟩ := by
  intro f
  induction f with
  | zero => intro r s _ _ h; omega
  | succ f ih =>
    intro r s hs hr hf
    obtain ⟨x, hx⟩ : ∃ x, nodes[r]? = some x := ⟨nodes[r], List.getElem?_eq_getElem hr⟩
    unfold sysDeallocate counters
    rw [hs, hx]
    cases x with
    | malloc => simp
    | derived j =>
      have hj := hb r j (.inl hx)
      simp only
      rw [ih j s hs (by omega) (by omega)]
    | counts j =>
      have hj := hb r j (.inr hx)
      simp only
      rw [ih j _ (by simpa [Sys.setCnt] using hs) (by omega) (by omega)]
      have hnm : r ∉ counters nodes f j := fun h => by have := counters_le hb f j r h; omega
      simp only [Sys.setCnt, countsDeallocate, Res.ok.injEq, Sys.mk.injEq, true_and, and_true]
      funext i
      by_cases hi : i = r
      · subst hi; simp [hnm]
      · simp [hi]

theorem sysReallocate_eq {nodes : List Node} (hb : Built nodes) (os : Nat → Nat → MemAlign) (p old new al q : Nat) : ∀ (f r : Nat) (s s' : Sys), s.nodes = nodes → r < nodes.length → r < f →
    sysReallocate f os s r p old new al = (.ok q, s') →
    q ≠ 0 ∧ s' = ⟨nodes, fun i => if i ∈ counters nodes f r then ((s.cnt i).remCounts p old).addCounts q new else s.cnt i, s.log ++ [.got q new (sysAlign al), .freed p]⟩ := by
  intro f
  induction f with
  | zero => intro r s _ _ _ h; omega
  | succ f ih =>
    intro r s s' hs hr hf h
    obtain ⟨x, hx⟩ : ∃ x, nodes[r]? = some x := ⟨nodes[r], List.getElem?_eq_getElem hr⟩
    unfold sysReallocate at h
    unfold counters
    rw [hs, hx] at h
    rw [hx]
    cases x with
    | malloc =>
      simp only at h
      cases e : aallocImpl os new al with
      | ok v =>
        rw [e] at h
        simp only at h
        split at h
        · cases h
        · next hv => cases h; exact ⟨hv, by simp⟩
      | _ => rw [e] at h; simp at h
    | derived j =>
      have hj := hb r j (.inl hx)
      simp only at h ⊢
      cases e : sysReallocate f os s j p old new al with
      | mk a b =>
        rw [e] at h
        simp only [Prod.mk.injEq] at h
        obtain ⟨h1, rfl⟩ := h
        cases a with
        | ok v =>
          unfold notNull at h1
          simp only at h1
          split at h1
          · cases h1
          · cases h1; exact ih j s _ hs (by omega) (by omega) e
        | _ => cases h1
    | counts j =>
      have hj := hb r j (.inr hx)
      have hnm : r ∉ counters nodes f j := fun h => by have := counters_le hb f j r h; omega
      simp only at h ⊢
      cases e : sysReallocate f os (s.setCnt r ((s.cnt r).remCounts p old)) j p old new al with
      | mk a b =>
        rw [e] at h
        simp only at h
        cases a with
        | ok v =>
          simp only [Prod.mk.injEq] at h
          obtain ⟨h1, h2⟩ := h
          split at h1
          · cases h1
          · next hv =>
            cases h1
            obtain ⟨_, hb'⟩ := ih j _ _ (by simpa [Sys.setCnt] using hs) (by omega) (by omega) e
            refine ⟨hv, ?_⟩
            rw [← h2, hb']
            simp only [Sys.setCnt, Sys.mk.injEq, true_and, and_true]
            funext i
            by_cases hi : i = r
            · subst hi; simp [hnm]
            · simp [hi]
        | _ => simp only [Prod.mk.injEq] at h; exact absurd h.1 (by simp)

/-- A block: the resource it was asked of, its address, size and alignment. -/
structure Spec.Blk where
  res : Nat
  ptr : Nat
  size : Nat
  al : Nat
deriving DecidableEq, Repr

/-- Histories of resources that get their memory from one another: requests to any of them, which may fail, and releases and successful reallocations of live blocks, to the resource
the block is from.  Afterwards: the system, the live blocks, and all the blocks there were, last one first. -/
inductive SysHist (nodes : List Node) : Sys → List Blk → List Blk → Prop where
  | start : SysHist nodes ⟨nodes, fun _ => {}, []⟩ [] []
  | alloc {s s' live all os r sz al p} : SysHist nodes s live all → r < nodes.length → sysAllocate nodes.length os s r sz al = (.ok p, s') →
      SysHist nodes s' (⟨r, p, sz, al⟩ :: live) (⟨r, p, sz, al⟩ :: all)
  | allocFails {s s' live all os r sz al} : SysHist nodes s live all → r < nodes.length → sysAllocate nodes.length os s r sz al = (.abort, s') → SysHist nodes s' live all
  | dealloc {s s' live all b} : SysHist nodes s live all → b ∈ live → sysDeallocate nodes.length s b.res b.ptr b.size = .ok s' → SysHist nodes s' (live.erase b) all
  | realloc {s s' live all os b n p} : SysHist nodes s live all → b ∈ live → sysReallocate nodes.length os s b.res b.ptr b.size n b.al = (.ok p, s') →
      SysHist nodes s' (⟨b.res, p, n, b.al⟩ :: live.erase b) (⟨b.res, p, n, b.al⟩ :: all)

/-- The blocks that pass through the counting resource `i`. -/
def Spec.through (nodes : List Node) (i : Nat) (l : List Blk) : List Blk := l.filter fun b => i ∈ counters nodes nodes.length b.res

def Spec.gotOf : SysEv → Option (Nat × Nat × Nat)
  | .got p sz al => some (p, sz, al)
  | .freed _ => none

def Spec.freedOf : SysEv → Option Nat
  | .got _ _ _ => none
  | .freed p => some p

structure SysInv (nodes : List Node) (s : Sys) (live all : List Blk) : Prop where
  same : s.nodes = nodes
  valid : ∀ b ∈ live, b.res < nodes.length
  cnt : ∀ i, ∃ hist, CntInv (s.cnt i) ((through nodes i live).map fun b => (b.ptr, b.size)) ((through nodes i all).map (·.size)) hist
  got : s.log.filterMap gotOf = all.reverse.map fun b => (b.ptr, b.size, sysAlign b.al)
  out : ∀ p, ((s.log.filterMap gotOf).map (·.1)).count p = (s.log.filterMap freedOf).count p + (live.map (·.ptr)).count p

theorem CntInv.perm {c : Counts} {l l' : List (Nat × Nat)} {all : List Nat} {hist : List CntItem} (h : CntInv c l all hist) (hp : l.Perm l') : CntInv c l' all hist := by
  obtain ⟨h1, h2, h3, h4, h5, h6, h7, h8⟩ := h
  have e1 := hp.length_eq
  have e2 : (l.map (·.2)).sum = (l'.map (·.2)).sum := (hp.map (·.2)).sum_nat
  refine ⟨fun b hb => h1 b (hp.mem_iff.mpr hb), ?_, h3, h4, by omega, by omega, h7, h8⟩
  rw [h2]
  unfold tally
  simp [e1, e2]

theorem through_erase {nodes : List Node} {i : Nat} {live : List Blk} {b : Blk} (hb : b ∈ live) :
    (through nodes i live).Perm (if i ∈ counters nodes nodes.length b.res then b :: through nodes i (live.erase b) else through nodes i (live.erase b)) := by
  have h := (List.perm_cons_erase hb).filter fun b => decide (i ∈ counters nodes nodes.length b.res)
  unfold through
  rw [List.filter_cons] at h
  simp only [decide_eq_true_eq] at h
  exact h

/-- Removing a block from the counters. -/
theorem cnt_remove {nodes : List Node} {i : Nat} {live : List Blk} {b : Blk} (hb : b ∈ live) {c : Counts} {all : List Nat} {hist : List CntItem}
    (h : CntInv c ((through nodes i live).map fun b => (b.ptr, b.size)) all hist) :
    ∃ hist, CntInv (if i ∈ counters nodes nodes.length b.res then c.remCounts b.ptr b.size else c) ((through nodes i (live.erase b)).map fun b => (b.ptr, b.size)) all hist := by
  have hp := (through_erase (nodes := nodes) (i := i) hb).map fun b => (b.ptr, b.size)
  by_cases hi : i ∈ counters nodes nodes.length b.res
  · rw [if_pos hi] at hp ⊢
    have h' := h.perm hp
    have h2 := cnt_rem (b := (b.ptr, b.size)) h' (by simp)
    simp only [List.map_cons, List.erase_cons_head] at h2
    exact ⟨_, h2⟩
  · rw [if_neg hi] at hp ⊢
    exact ⟨_, h.perm hp⟩

theorem cnt_insert {nodes : List Node} {i : Nat} {live all : List Blk} {b : Blk} (hp : b.ptr ≠ 0) {c : Counts} {hist : List CntItem}
    (h : CntInv c ((through nodes i live).map fun b => (b.ptr, b.size)) ((through nodes i all).map (·.size)) hist) :
    ∃ hist, CntInv (if i ∈ counters nodes nodes.length b.res then c.addCounts b.ptr b.size else c) ((through nodes i (b :: live)).map fun b => (b.ptr, b.size))
      ((through nodes i (b :: all)).map (·.size)) hist := by
  unfold through at *
  by_cases hi : i ∈ counters nodes nodes.length b.res
  · simp only [List.filter_cons, hi, decide_true, if_true, List.map_cons]
    exact ⟨_, cnt_add h hp b.size⟩
  · simp only [List.filter_cons, hi, decide_false, if_false, Bool.false_eq_true]
    exact ⟨_, h⟩

theorem notNull_ok {r : Res Nat} {p : Nat} (h : notNull r = .ok p) : p ≠ 0 ∧ r = .ok p := by
  cases r with
  | ok q =>
    unfold notNull at h
    simp only at h
    split at h
    · cases h
    · next hq => cases h; exact ⟨hq, rfl⟩
  | _ => cases h

theorem sysHist_inv {nodes : List Node} (hb : Built nodes) {s : Sys} {live all : List Blk} (h : SysHist nodes s live all) : SysInv nodes s live all := by
  induction h with
  | start =>
    refine ⟨rfl, by simp, fun i => ⟨[⟨0, 0⟩], ?_⟩, rfl, by simp⟩
    exact ⟨by simp [through], rfl, rfl, ⟨by simp [itemLe], ⟨_, .head _, rfl⟩, ⟨_, .head _, rfl⟩⟩, by simp [through], by simp [through], by simp [itemLe], by simp [itemLe]⟩
  | @alloc s s' live all os r sz al p _ hr e ih =>
    rw [sysAllocate_eq hb os sz al _ r s ih.same hr hr] at e
    cases e' : notNull (aallocImpl os sz al) with
    | ok q =>
      rw [e'] at e
      simp only [Prod.mk.injEq, Res.ok.injEq] at e
      obtain ⟨rfl, rfl⟩ := e
      have hq := (notNull_ok e').1
      refine ⟨rfl, ?_, fun i => ?_, ?_, fun p => ?_⟩
      · intro b hb
        rcases List.mem_cons.mp hb with rfl | hb
        · exact hr
        · exact ih.valid b hb
      · obtain ⟨hist, hc⟩ := ih.cnt i
        exact cnt_insert (b := ⟨r, q, sz, al⟩) hq hc
      · simp [ih.got, gotOf]
      · have := ih.out p
        simp only [List.filterMap_append, List.map_append, List.count_append, List.filterMap_cons, gotOf, freedOf, List.filterMap_nil, List.map_cons, List.map_nil, List.count_cons, List.count_nil] at this ⊢
        omega
    | _ => rw [e'] at e; simp at e
  | @allocFails s s' live all os r sz al _ hr e ih =>
    rw [sysAllocate_eq hb os sz al _ r s ih.same hr hr] at e
    cases e' : notNull (aallocImpl os sz al) with
    | ok q => rw [e'] at e; simp at e
    | _ => rw [e'] at e; simp only [Prod.mk.injEq] at e; rw [← e.2]; exact ih
  | @dealloc s s' live all b _ hm e ih =>
    have hr := ih.valid b hm
    rw [sysDeallocate_eq hb _ _ _ _ s ih.same hr hr] at e
    cases e
    refine ⟨rfl, fun x hx => ih.valid x (List.mem_of_mem_erase hx), fun i => ?_, ?_, fun p => ?_⟩
    · obtain ⟨hist, hc⟩ := ih.cnt i
      exact cnt_remove hm hc
    · simp [ih.got, gotOf]
    · have := ih.out p
      have hp := ((List.perm_cons_erase hm).map (·.ptr)).count_eq p
      simp only [List.filterMap_append, List.map_append, List.count_append, List.filterMap_cons, gotOf, freedOf, List.filterMap_nil, List.map_cons, List.map_nil, List.count_cons, List.count_nil] at this hp ⊢
      omega
  | @realloc s s' live all os b n q _ hm e ih =>
    have hr := ih.valid b hm
    obtain ⟨hq, rfl⟩ := sysReallocate_eq hb os _ _ _ _ _ _ _ s _ ih.same hr hr e
    refine ⟨rfl, ?_, fun i => ?_, ?_, fun p => ?_⟩
    · intro x hx
      rcases List.mem_cons.mp hx with rfl | hx
      · exact hr
      · exact ih.valid x (List.mem_of_mem_erase hx)
    · obtain ⟨hist, hc⟩ := ih.cnt i
      obtain ⟨hist', hc'⟩ := cnt_remove hm hc
      have := cnt_insert (b := ⟨b.res, q, n, b.al⟩) hq hc'
      by_cases hi : i ∈ counters nodes nodes.length b.res
      · simpa only [if_pos hi] using this
      · simpa only [if_neg hi] using this
    · simp [ih.got, gotOf]
    · have := ih.out p
      have hp := ((List.perm_cons_erase hm).map (·.ptr)).count_eq p
      simp only [List.filterMap_append, List.map_append, List.count_append, List.filterMap_cons, gotOf, freedOf, List.filterMap_nil, List.map_cons, List.map_nil, List.count_cons, List.count_nil] at this hp ⊢
      omega

/-- **C135**: of resources that get their memory from one another, each counting resource counts exactly the blocks asked of it or of resources on top of it; and the system is
asked exactly once for every block, for the same size and at least the alignment, and the memory obtained and not freed is that of the live blocks.  (If reallocation fails, see C89.) -/
theorem C135_stacked_partial {nodes : List Node} (hb : Built nodes) {s : Sys} {live all : List Blk} (h : SysHist nodes s live all) :
    (∀ i, (s.cnt i).curr = tally ((through nodes i live).map (·.size)) ∧ (s.cnt i).total = tally ((through nodes i all).map (·.size)) ∧
      itemLe (s.cnt i).curr (s.cnt i).max ∧ itemLe (s.cnt i).max (s.cnt i).total) ∧
    s.log.filterMap gotOf = all.reverse.map (fun b => (b.ptr, b.size, max 8 b.al)) ∧
    ∀ p, ((s.log.filterMap gotOf).map (·.1)).count p = (s.log.filterMap freedOf).count p + (live.map (·.ptr)).count p := by
  have hi := sysHist_inv hb h
  refine ⟨fun i => ?_, ?_, hi.out⟩
  · obtain ⟨hist, hc⟩ := hi.cnt i
    have h1 := hc.curr
    rw [List.map_map] at h1
    exact ⟨h1, hc.total, hc.cm, hc.mt⟩
  · rw [hi.got]
    congr 1
    funext b
    unfold sysAlign
    have : (if b.al < 8 then 8 else b.al) = max 8 b.al := by split <;> omega
    rw [this]

example : ∃ s, SysHist [.malloc, .counts 0, .derived 1, .counts 2] s [⟨3, 80, 5, 2⟩] [⟨3, 80, 5, 2⟩, ⟨1, 64, 3, 16⟩] ∧
    s.cnt 1 = ⟨⟨1, 5⟩, ⟨2, 8⟩, ⟨2, 8⟩⟩ ∧ s.cnt 3 = ⟨⟨1, 5⟩, ⟨1, 5⟩, ⟨1, 5⟩⟩ ∧ s.log = [.got 64 3 16, .got 80 5 8, .freed 64] := by
  have h1 := SysHist.alloc (nodes := [.malloc, .counts 0, .derived 1, .counts 2]) (os := fun _ _ => .ok 64) (r := 1) (sz := 3) (al := 16) .start (by decide) rfl
  have h2 := SysHist.alloc (os := fun _ _ => .ok 80) (r := 3) (sz := 5) (al := 2) h1 (by decide) rfl
  have h3 := SysHist.dealloc (b := ⟨1, 64, 3, 16⟩) h2 (by decide) rfl
  exact ⟨_, h3, rfl, rfl, rfl⟩

/-- No request to a resource loops or uses a resource that is not there. -/
theorem C135_defined {nodes : List Node} (hb : Built nodes) {s : Sys} {live all : List Blk} (h : SysHist nodes s live all) (os : Nat → Nat → MemAlign) (r sz al : Nat) (hr : r < nodes.length) :
    (∃ p s', sysAllocate nodes.length os s r sz al = (.ok p, s')) ∨ sysAllocate nodes.length os s r sz al = (.abort, s) := by
  rw [sysAllocate_eq hb os sz al _ r s (sysHist_inv hb h).same hr hr]
  have hn : aallocImpl os sz al = .abort ∨ ∃ p, aallocImpl os sz al = .ok p := by
    by_cases hk : ∃ k, al = 2 ^ k
    · obtain ⟨k, rfl⟩ := hk
      rw [aallocImpl_pow]
      split <;> simp
    · exact .inl (aallocImpl_bad os sz al hk)
  rcases hn with e | ⟨p, e⟩
  · rw [e]; exact .inr rfl
  · rw [e]
    by_cases h0 : p = 0
    · subst h0; exact .inr rfl
    · left
      simp only [notNull, if_neg h0]
      exact ⟨_, _, rfl⟩

/-- A reallocation that fails does not change the memory, but the block is uncounted in every counting resource it passed through, and counted in none again. -/
theorem C135_reallocFails {nodes : List Node} (hb : Built nodes) (os : Nat → Nat → MemAlign) (p old new al : Nat) : ∀ (f r : Nat) (s s' : Sys), s.nodes = nodes → r < nodes.length → r < f →
    sysReallocate f os s r p old new al = (.abort, s') →
    s' = ⟨nodes, fun i => if i ∈ counters nodes f r then (s.cnt i).remCounts p old else s.cnt i, s.log⟩ := by
  intro f
  induction f with
  | zero => intro r s _ _ _ h; omega
  | succ f ih =>
    intro r s s' hs hr hf h
    obtain ⟨x, hx⟩ : ∃ x, nodes[r]? = some x := ⟨nodes[r], List.getElem?_eq_getElem hr⟩
    unfold sysReallocate at h
    unfold counters
    rw [hs, hx] at h
    rw [hx]
    cases x with
    | malloc =>
      simp only at h
      have : s' = s := by
        cases e : aallocImpl os new al with
        | ok q =>
          rw [e] at h
          simp only at h
          split at h <;> cases h
        | abort => rw [e] at h; exact ((Prod.mk.injEq _ _ _ _ ▸ h).2).symm
        | _ => rw [e] at h; cases h
      rw [this]
      obtain ⟨n, c, l⟩ := s
      cases hs
      simp
    | derived j =>
      have hj := hb r j (.inl hx)
      simp only [Prod.mk.injEq] at h
      obtain ⟨h1, rfl⟩ := h
      refine ih j s _ hs (by omega) (by omega) (Prod.ext ?_ rfl)
      cases e : (sysReallocate f os s j p old new al).1 with
      | ok q =>
        have hq := (sysReallocate_eq hb os p old new al q f j s _ hs (by omega) (by omega) (Prod.ext e rfl)).1
        rw [e] at h1
        simp [notNull, hq] at h1
      | abort => rfl
      | ub => rw [e] at h1; cases h1
      | loop => rw [e] at h1; cases h1
    | counts j =>
      have hj := hb r j (.inr hx)
      simp only at h
      have hnm : r ∉ counters nodes f j := fun h => by have := counters_le hb f j r h; omega
      have hab : (sysReallocate f os (s.setCnt r ((s.cnt r).remCounts p old)) j p old new al).1 = .abort := by
        cases e : (sysReallocate f os (s.setCnt r ((s.cnt r).remCounts p old)) j p old new al).1 with
        | ok q =>
          have hq := (sysReallocate_eq hb os p old new al q f j (s.setCnt r ((s.cnt r).remCounts p old)) _ hs (by omega) (by omega) (Prod.ext e rfl)).1
          rw [e] at h
          simp [hq] at h
        | abort => rfl
        | ub => rw [e] at h; cases h
        | loop => rw [e] at h; cases h
      rw [hab] at h
      have h2 := ih j (s.setCnt r ((s.cnt r).remCounts p old)) _ hs (by omega) (by omega) (Prod.ext hab rfl)
      simp only [Prod.mk.injEq, true_and] at h
      refine h.symm.trans (h2.trans ?_)
      simp only [Sys.setCnt, Sys.mk.injEq, and_true, true_and, List.mem_cons]
      funext i
      by_cases hi : i = r
      · subst hi
        simp [hnm]
      · simp [hi]

/-- **C135** fails: the block of 16 bytes asked of the counting resource is still there after a reallocation that found no memory, and no longer counted. -/
theorem C135_refuted : ∃ (s s' : Sys) (os : Nat → Nat → MemAlign),
    SysHist [.malloc, .counts 0] s [⟨1, 64, 16, 8⟩] [⟨1, 64, 16, 8⟩] ∧
    sysReallocate 2 os s 1 64 16 32 8 = (.abort, s') ∧ s'.log = [.got 64 16 8] ∧ (s.cnt 1).curr = ⟨1, 16⟩ ∧ (s'.cnt 1).curr = ⟨0, 0⟩ := by
  have h1 := SysHist.alloc (nodes := [.malloc, .counts 0]) (os := fun _ _ => .ok 64) (r := 1) (sz := 16) (al := 8) .start (by decide) rfl
  exact ⟨_, _, fun _ _ => .enomem, h1, rfl, rfl, rfl, rfl⟩

/-! ### C136 -/

/-- An allocator with its own resource. -/
def Spec.HasOwn (a : Provider) : Prop := ∃ r, a = .own r

/-- **C136**: for allocators with their own resource, equality at any time means that what one allocates can be released by the other at any time; copies and allocators made from
one for another type are equal to it for good. -/
theorem C136_equality (a b : Provider) (ha : HasOwn a) (hb : HasOwn b) (g : Nat) :
    (allocatorEq g a b = true ↔ ∀ g1 g2, a.resource g1 = b.resource g2) ∧ ∀ g1 g2, (allocatorFrom g a).resource g1 = a.resource g2 ∧ (allocatorOwn g none).resource g1 = g := by
  obtain ⟨r, rfl⟩ := ha
  obtain ⟨r', rfl⟩ := hb
  simp [allocatorEq, Provider.resource, allocatorFrom, allocatorOwn]

/-- Programs with allocators that have their own resources: the global resource is changed at will, `k` objects of size `elem` are allocated with an allocator, and released with an equal
one.  The global resource, the system, the live blocks with the allocator each is from. -/
inductive AllocHist (nodes : List Node) : Nat → Sys → List (Provider × Blk) → Prop where
  | start {g} : AllocHist nodes g ⟨nodes, fun _ => {}, []⟩ []
  | setGlobal {g g' s live} : AllocHist nodes g s live → AllocHist nodes g' s live
  | alloc {g s s' live os a elem k al p} : AllocHist nodes g s live → HasOwn a → a.resource g < nodes.length →
      sysAllocate nodes.length os s (a.resource g) (allocatorRequest elem k) al = (.ok p, s') → AllocHist nodes g s' ((a, ⟨a.resource g, p, allocatorRequest elem k, al⟩) :: live)
  | dealloc {g s s' live a b blk elem k} : AllocHist nodes g s live → (a, blk) ∈ live → HasOwn b → allocatorEq g a b = true → blk.size = allocatorRequest elem k →
      sysDeallocate nodes.length s (b.resource g) blk.ptr (allocatorRequest elem k) = .ok s' → AllocHist nodes g s' (live.erase (a, blk))

theorem allocHist_sys {nodes : List Node} {g : Nat} {s : Sys} {live : List (Provider × Blk)} (h : AllocHist nodes g s live) :
    (∀ x ∈ live, x.1 = .own x.2.res) ∧ ∃ l all, SysHist nodes s l all ∧ l.Perm (live.map (·.2)) := by
  induction h with
  | start => exact ⟨by simp, [], [], .start, .refl _⟩
  | setGlobal _ ih => exact ih
  | @alloc g s s' live os a elem k al p _ ho hr e ih =>
    obtain ⟨hx, l, all, hs, hp⟩ := ih
    obtain ⟨r, rfl⟩ := ho
    refine ⟨?_, _, _, hs.alloc hr e, hp.cons _⟩
    intro x hm
    rcases List.mem_cons.mp hm with rfl | hm
    · rfl
    · exact hx x hm
  | @dealloc g s s' live a b blk elem k _ hm ho heq hsz e ih =>
    obtain ⟨hx, l, all, hs, hp⟩ := ih
    obtain ⟨r, rfl⟩ := ho
    have ha := hx _ hm
    simp only at ha
    subst ha
    simp only [allocatorEq, Provider.resource, beq_iff_eq] at heq e
    subst heq
    rw [← hsz] at e
    have hml : blk ∈ l := hp.mem_iff.mpr (List.mem_map.mpr ⟨_, hm, rfl⟩)
    refine ⟨fun x hx' => hx x (List.mem_of_mem_erase hx'), _, _, hs.dealloc hml e, ?_⟩
    have h1 := (List.perm_cons_erase hml).symm.trans hp
    have h2 := (List.perm_cons_erase hm).map (·.2)
    exact (List.perm_cons _).mp (h1.trans h2)

/-- **C136**: with such allocators, whatever the changes of the global resource, every block goes back to the resource it came from: the counting resources count the live
blocks, and when all are released all the counters are at zero and what was obtained from the system has been freed. -/
theorem C136_own_partial {nodes : List Node} (hb : Built nodes) {g : Nat} {s : Sys} {live : List (Provider × Blk)} (h : AllocHist nodes g s live) :
    (∀ i, (s.cnt i).curr = tally ((through nodes i (live.map (·.2))).map (·.size))) ∧
    (live = [] → (∀ i, (s.cnt i).curr = ⟨0, 0⟩) ∧ ∀ p, ((s.log.filterMap gotOf).map (·.1)).count p = (s.log.filterMap freedOf).count p) := by
  obtain ⟨_, l, all, hs, hp⟩ := allocHist_sys h
  obtain ⟨h1, _, h3⟩ := C135_stacked_partial hb hs
  have hc : ∀ i, (s.cnt i).curr = tally ((through nodes i (live.map (·.2))).map (·.size)) := by
    intro i
    rw [(h1 i).1]
    have hq := (hp.filter fun b => decide (i ∈ counters nodes nodes.length b.res)).map (·.size)
    unfold tally through
    rw [hq.length_eq, hq.sum_nat]
  refine ⟨hc, ?_⟩
  rintro rfl
  refine ⟨fun i => by rw [hc i]; rfl, fun p => ?_⟩
  have : l = [] := by simpa using hp
  subst this
  simpa using h3 p

example : ∃ s, AllocHist [.malloc, .counts 0] 1 s [] ∧ s.cnt 1 = ⟨⟨0, 0⟩, ⟨1, 12⟩, ⟨1, 12⟩⟩ := by
  have h1 := AllocHist.alloc (nodes := [.malloc, .counts 0]) (g := 0) (os := fun _ _ => .ok 64) (a := .own 1) (elem := 4) (k := 3) (al := 4) .start ⟨1, rfl⟩ (by decide) rfl
  have h2 := AllocHist.dealloc (b := .own 1) (elem := 4) (k := 3) (h1.setGlobal (g' := 1)) (.head _) ⟨1, rfl⟩ rfl rfl rfl
  exact ⟨_, h2, rfl⟩

/-- **C136** fails for allocators with the global resource, the default: they are all equal at any time, but what is allocated before the global resource is changed is released to the new
one, whose counters become negative.  And `select_on_container_copy_construct` is not the default constructed allocator it is said to be. -/
theorem C136_refuted :
    (∀ g, allocatorEq g .global .global = true) ∧
    (∃ s s', sysAllocate 3 (fun _ _ => .ok 64) ⟨[.malloc, .counts 0, .counts 0], fun _ => {}, []⟩ (Provider.global.resource 1) 5 8 = (.ok 64, s) ∧
      sysDeallocate 3 s (Provider.global.resource 2) 64 5 = .ok s' ∧ (s'.cnt 1).curr = ⟨1, 5⟩ ∧ (s'.cnt 2).curr = ⟨-1, -5⟩) ∧
    allocatorSelect (.own 1) ≠ allocatorOwn 2 none :=
  ⟨fun g => by simp [allocatorEq], ⟨_, _, rfl, rfl, rfl, rfl⟩, by decide⟩

/-- **C136**: what `select_on_container_copy_construct` of an allocator gives has its resource at any time and is equal to it; so it is the default constructed allocator exactly if it has
no resource of its own, or that one is the global resource at the time. -/
theorem C136_select (a : Provider) (g : Nat) :
    (∀ g', (allocatorSelect a).resource g' = a.resource g' ∧ allocatorEq g' (allocatorSelect a) a = true) ∧
    (HasOwn a → ((∀ g', (allocatorSelect a).resource g' = (allocatorOwn g none).resource g') ↔ a.resource g = g)) ∧
    (¬ HasOwn a → ∀ g', (allocatorSelect a).resource g' = g') := by
  refine ⟨fun g' => ⟨rfl, by simp [allocatorEq, allocatorSelect]⟩, ?_, ?_⟩
  · rintro ⟨r, rfl⟩
    exact ⟨fun h => h g, fun h g' => h⟩
  · intro h g'
    cases a with
    | own r => exact absurd ⟨r, rfl⟩ h
    | global => rfl

example : HasOwn (.own 3) ∧ (allocatorSelect (.own 3)).resource 5 = 3 ∧ (allocatorOwn 5 none).resource 7 = 5 ∧ ¬ HasOwn .global := ⟨⟨3, rfl⟩, rfl, rfl, by rintro ⟨r, h⟩; cases h⟩

/-! ### C137 -/

/-- A call counted: a block obtained or returned. -/
inductive Spec.Call where
  | add (p sz : Nat)
  | rem (p sz : Nat)
deriving DecidableEq, Repr

/-- The counters after some calls. -/
def countsRun (c : Counts) : List Call → Counts
  | [] => c
  | .add p sz :: l => countsRun (c.addCounts p sz) l
  | .rem p sz :: l => countsRun (c.remCounts p sz) l

theorem item_max (a b : CntItem) : a.max b = ⟨max a.allocs b.allocs, max a.size b.size⟩ := by
  unfold CntItem.max
  simp only [CntItem.mk.injEq]
  constructor <;> split <;> omega

theorem addCounts_eq (c : Counts) {p : Nat} (hp : p ≠ 0) (sz : Nat) : c.addCounts p sz = ⟨⟨c.curr.allocs + 1, c.curr.size + sz⟩, ⟨c.total.allocs + 1, c.total.size + sz⟩,
    ⟨max c.max.allocs (c.curr.allocs + 1), max c.max.size (c.curr.size + sz)⟩⟩ := by
  simp only [Counts.addCounts, if_neg hp, item_max, CntItem.add]

/-- Counters that differ by constants do so after the same calls; the maximum by at most as much. -/
theorem countsRun_shift (l : List Call) : ∀ (c d : Counts) (k k' t t' m m' : Int), c.curr = ⟨d.curr.allocs + k, d.curr.size + k'⟩ → c.total = ⟨d.total.allocs + t, d.total.size + t'⟩ →
    c.max.allocs ≤ d.max.allocs + m → c.max.size ≤ d.max.size + m' → k ≤ m → k' ≤ m' →
    (countsRun c l).curr = ⟨(countsRun d l).curr.allocs + k, (countsRun d l).curr.size + k'⟩ ∧ (countsRun c l).total = ⟨(countsRun d l).total.allocs + t, (countsRun d l).total.size + t'⟩ ∧
    (countsRun c l).max.allocs ≤ (countsRun d l).max.allocs + m ∧ (countsRun c l).max.size ≤ (countsRun d l).max.size + m' := by
  induction l with
  | nil => intro c d k k' t t' m m' h1 h2 h3 h4 _ _; exact ⟨h1, h2, h3, h4⟩
  | cons x l ih =>
    intro c d k k' t t' m m' h1 h2 h3 h4 h5 h6
    cases x with
    | add p sz =>
      simp only [countsRun]
      by_cases hp : p = 0
      · simp only [Counts.addCounts, hp, if_true]; exact ih c d k k' t t' m m' h1 h2 h3 h4 h5 h6
      · refine ih _ _ k k' t t' m m' ?_ ?_ ?_ ?_ h5 h6
        · simp only [addCounts_eq _ hp, h1, CntItem.mk.injEq]; omega
        · simp only [addCounts_eq _ hp, h2, CntItem.mk.injEq]; omega
        · simp only [addCounts_eq _ hp, h1]; omega
        · simp only [addCounts_eq _ hp, h1]; omega
    | rem p sz =>
      simp only [countsRun]
      by_cases hp : p = 0
      · simp only [Counts.remCounts, hp, if_true]; exact ih c d k k' t t' m m' h1 h2 h3 h4 h5 h6
      · refine ih _ _ k k' t t' m m' ?_ ?_ ?_ ?_ h5 h6
        · simp only [Counts.remCounts, hp, if_false, CntItem.rem, h1, CntItem.mk.injEq]; omega
        · simp only [Counts.remCounts, hp, if_false, h2]
        · simpa only [Counts.remCounts, hp, if_false] using h3
        · simpa only [Counts.remCounts, hp, if_false] using h4

/-- **C137**, as far as it holds: the difference of the counts after and before some calls has the current and total counts of these calls alone, and a maximum that is not above that
of the calls alone. -/
theorem C137_difference_partial (c : Counts) (l : List Call) (h : itemLe c.curr c.max) :
    ((countsRun c l).minus c).curr = (countsRun {} l).curr ∧ ((countsRun c l).minus c).total = (countsRun {} l).total ∧ itemLe ((countsRun c l).minus c).max (countsRun {} l).max := by
  obtain ⟨h1, h2, h3, h4⟩ := countsRun_shift l c {} c.curr.allocs c.curr.size c.total.allocs c.total.size c.max.allocs c.max.size (by simp) (by simp) (by simp) (by simp) h.1 h.2
  refine ⟨?_, ?_, ?_, ?_⟩
  · simp only [Counts.minus, h1]
    cases (countsRun {} l).curr; simp only [CntItem.mk.injEq]; omega
  · simp only [Counts.minus, h2]
    cases (countsRun {} l).total; simp only [CntItem.mk.injEq]; omega
  · simp only [Counts.minus]; omega
  · simp only [Counts.minus]; omega

/-- **C137** fails for the maximum: it is that of the whole history, so the difference is zero if the calls do not exceed it. -/
theorem C137_difference_refuted : ∃ c l, (∃ l0, c = countsRun {} l0) ∧ ((countsRun c l).minus c).max = ⟨0, 0⟩ ∧ (countsRun {} l).max = ⟨1, 5⟩ :=
  ⟨_, [.add 8 5], ⟨[.add 8 9, .rem 8 9], rfl⟩, by decide, by decide⟩

example : itemLe (countsRun {} [.add 8 9, .rem 8 9]).curr (countsRun {} [.add 8 9, .rem 8 9]).max := ⟨by decide, by decide⟩

/-- **C137**: the sum of the counts of two resources has the current and total counts of all their calls, in whichever order they were made, and a maximum that is not below the largest
amount in use at a time. -/
theorem C137_sum (calls : List (Bool × Call)) :
    let left := countsRun {} ((calls.filter (·.1)).map (·.2))
    let right := countsRun {} ((calls.filter (fun x => !x.1)).map (·.2))
    let both := countsRun {} (calls.map (·.2))
    (left.plus right).curr = both.curr ∧ (left.plus right).total = both.total ∧ itemLe both.max (left.plus right).max ∧ (left.plus right).minus right = left := by
  have key : ∀ (calls : List (Bool × Call)) (a b c : Counts), c.curr = (a.plus b).curr → c.total = (a.plus b).total → itemLe c.max (a.plus b).max →
      itemLe a.curr a.max → itemLe b.curr b.max →
      let left := countsRun a ((calls.filter (·.1)).map (·.2))
      let right := countsRun b ((calls.filter (fun x => !x.1)).map (·.2))
      let both := countsRun c (calls.map (·.2))
      both.curr = (left.plus right).curr ∧ both.total = (left.plus right).total ∧ itemLe both.max (left.plus right).max := by
    intro calls
    induction calls with
    | nil => intro a b c h1 h2 h3 _ _; exact ⟨h1, h2, h3⟩
    | cons x calls ih =>
      intro a b c h1 h2 h3 h4 h5
      obtain ⟨side, call⟩ := x
      cases side with
      | true =>
        cases call with
        | add p sz =>
          simp only [List.filter_cons, if_true, List.map_cons, countsRun, Bool.not_true, Bool.false_eq_true, if_false]
          refine ih _ _ _ ?_ ?_ ?_ ?_ h5
          all_goals
            by_cases hp : p = 0
            · simp only [Counts.addCounts, hp, if_true]; assumption
            · simp only [addCounts_eq _ hp, Counts.plus, itemLe] at *
              first
                | (rw [h1]; simp only [CntItem.mk.injEq]; omega)
                | (rw [h2]; simp only [CntItem.mk.injEq]; omega)
                | omega
        | rem p sz =>
          simp only [List.filter_cons, if_true, List.map_cons, countsRun, Bool.not_true, Bool.false_eq_true, if_false]
          refine ih _ _ _ ?_ ?_ ?_ ?_ h5
          all_goals
            by_cases hp : p = 0
            · simp only [Counts.remCounts, hp, if_true]; assumption
            · simp only [Counts.remCounts, hp, if_false, CntItem.rem, Counts.plus, itemLe] at *
              first
                | assumption
                | (rw [h1]; simp only [CntItem.mk.injEq]; omega)
                | omega
      | false =>
        cases call with
        | add p sz =>
          simp only [List.filter_cons, if_true, List.map_cons, countsRun, Bool.not_false, Bool.false_eq_true, if_false]
          refine ih _ _ _ ?_ ?_ ?_ h4 ?_
          all_goals
            by_cases hp : p = 0
            · simp only [Counts.addCounts, hp, if_true]; assumption
            · simp only [addCounts_eq _ hp, Counts.plus, itemLe] at *
              first
                | (rw [h1]; simp only [CntItem.mk.injEq]; omega)
                | (rw [h2]; simp only [CntItem.mk.injEq]; omega)
                | omega
        | rem p sz =>
          simp only [List.filter_cons, if_true, List.map_cons, countsRun, Bool.not_false, Bool.false_eq_true, if_false]
          refine ih _ _ _ ?_ ?_ ?_ h4 ?_
          all_goals
            by_cases hp : p = 0
            · simp only [Counts.remCounts, hp, if_true]; assumption
            · simp only [Counts.remCounts, hp, if_false, CntItem.rem, Counts.plus, itemLe] at *
              first
                | assumption
                | (rw [h1]; simp only [CntItem.mk.injEq]; omega)
                | omega
  obtain ⟨h1, h2, h3⟩ := key calls {} {} {} (by decide) (by decide) ⟨by decide, by decide⟩ ⟨by decide, by decide⟩ ⟨by decide, by decide⟩
  refine ⟨h1.symm, h2.symm, h3, ?_⟩
  generalize countsRun {} ((calls.filter (·.1)).map (·.2)) = a
  generalize countsRun {} ((calls.filter (fun x => !x.1)).map (·.2)) = b
  obtain ⟨⟨a1, a2⟩, ⟨a3, a4⟩, ⟨a5, a6⟩⟩ := a
  simp only [Counts.plus, Counts.minus, Counts.mk.injEq, CntItem.mk.injEq]
  omega

example : ((countsRun {} [.add 8 9, .rem 8 9]).plus (countsRun {} [.add 16 4])).max = ⟨2, 13⟩ ∧ (countsRun {} [.add 8 9, .rem 8 9, .add 16 4]).max = ⟨1, 9⟩ := by decide

end C4
