import Verif.AllocTyped
import Verif.Props.Resources
/-
Property C136, exactly: histories of allocators of any kind, with objects of any type, while the global memory resource changes.
-/
namespace C4
open Spec

/-- Objects held by a program: the allocator they are from, their size, number and alignment, their address, and the resource that gave the memory. -/
structure Spec.Held where
  owner : Provider
  elem : Nat
  num : Nat
  res : Nat
  ptr : Nat
  al : Nat
deriving DecidableEq, Repr

/-- Their memory, if it had been asked of resource `r`. -/
def Spec.Held.blk (h : Held) (r : Nat) : Blk := ⟨r, h.ptr, h.num * h.elem % 2 ^ 64, h.al⟩

/-- Programs with allocators with their own or with the global resource: the global resource is changed at will, objects are allocated, and released or reallocated (successfully) with an
allocator that is equal at that time to the one they are from.  The global resource, the system, the objects held, and those given back with the resource they went to. -/
inductive TypedHist (nodes : List Node) : Nat → Sys → List Held → List (Held × Nat) → Prop where
  | start {g} : TypedHist nodes g ⟨nodes, fun _ => {}, []⟩ [] []
  | setGlobal {g g' s live back} : TypedHist nodes g s live back → TypedHist nodes g' s live back
  | alloc {g s s' live back os a elem k al p} : TypedHist nodes g s live back → a.resource g < nodes.length → typedAllocate nodes.length os s g a elem k al = (.ok p, s') →
      TypedHist nodes g s' (⟨a, elem, k, a.resource g, p, al⟩ :: live) back
  | dealloc {g s s' live back b h} : TypedHist nodes g s live back → h ∈ live → allocatorEq g h.owner b = true → b.resource g < nodes.length →
      typedDeallocate nodes.length s g b h.elem h.ptr h.num = .ok s' → TypedHist nodes g s' (live.erase h) ((h, b.resource g) :: back)
  | realloc {g s s' live back os b h k p} : TypedHist nodes g s live back → h ∈ live → allocatorEq g h.owner b = true → b.resource g < nodes.length →
      typedReallocate nodes.length os s g b h.elem h.ptr h.num k h.al = (.ok p, s') →
      TypedHist nodes g s' (⟨b, h.elem, k, b.resource g, p, h.al⟩ :: live.erase h) ((h, b.resource g) :: back)

/-- All there were, with the resource each is from. -/
def Spec.given (live : List Held) (back : List (Held × Nat)) : List Blk := live.map (fun h => h.blk h.res) ++ back.map (fun x => x.1.blk x.1.res)
/-- Those given back, with the resource each went to. -/
def Spec.givenBack (back : List (Held × Nat)) : List Blk := back.map fun x => x.1.blk x.2

/-- Difference of counts. -/
def Spec.diff (a b : CntItem) : CntItem := ⟨a.allocs - b.allocs, a.size - b.size⟩

structure TypedInv (nodes : List Node) (s : Sys) (live : List Held) (back : List (Held × Nat)) : Prop where
  same : s.nodes = nodes
  ptr : ∀ h ∈ live, h.ptr ≠ 0
  own : ∀ h ∈ live, h.owner = .own h.res ∨ h.owner = .global
  cnt : ∀ i, (s.cnt i).curr = diff (tally ((through nodes i (given live back)).map (·.size))) (tally ((through nodes i (givenBack back)).map (·.size)))
  out : ∀ p, ((s.log.filterMap gotOf).map (·.1)).count p = (s.log.filterMap freedOf).count p + (live.map (·.ptr)).count p

theorem request_eq (elem k : Nat) : allocatorRequest elem k = k * elem % 2 ^ 64 := rfl

theorem tally_perm {l l' : List Nat} (h : l.Perm l') : tally l = tally l' := by
  unfold tally
  rw [h.length_eq, h.sum_nat]

theorem tally_through_cons (nodes : List Node) (i : Nat) (b : Blk) (l : List Blk) :
    tally ((through nodes i (b :: l)).map (·.size)) =
      if i ∈ counters nodes nodes.length b.res then (tally ((through nodes i l).map (·.size))).add b.size else tally ((through nodes i l).map (·.size)) := by
  unfold through
  by_cases hi : i ∈ counters nodes nodes.length b.res
  · simp only [List.filter_cons, hi, decide_true, if_true, List.map_cons, tally, CntItem.add, List.length_cons, List.sum_cons, CntItem.mk.injEq]
    constructor <;> omega
  · simp only [List.filter_cons, hi, decide_false, if_false, Bool.false_eq_true]

/-- What was given, after one was given back. -/
theorem given_back {live : List Held} {back : List (Held × Nat)} {h : Held} (hm : h ∈ live) (r : Nat) : (given (live.erase h) ((h, r) :: back)).Perm (given live back) := by
  unfold given
  have := (List.perm_cons_erase hm).map fun h => h.blk h.res
  simp only [List.map_cons] at this ⊢
  exact List.perm_middle.trans ((this.symm).append_right _)

theorem tally_given_back {nodes : List Node} {i : Nat} {live : List Held} {back : List (Held × Nat)} {h : Held} (hm : h ∈ live) {r : Nat} :
    tally ((through nodes i (given (live.erase h) ((h, r) :: back))).map (·.size)) = tally ((through nodes i (given live back)).map (·.size)) :=
  tally_perm (((given_back hm r).filter _).map _)

theorem addCounts_curr {c : Counts} {p : Nat} (hp : p ≠ 0) (sz : Nat) : (c.addCounts p sz).curr = c.curr.add sz := by
  unfold Counts.addCounts
  rw [if_neg hp]

theorem remCounts_curr {c : Counts} {p : Nat} (hp : p ≠ 0) (sz : Nat) : (c.remCounts p sz).curr = c.curr.rem sz := by
  unfold Counts.remCounts
  rw [if_neg hp]

theorem eq_of_allocatorEq {g : Nat} {a b : Provider} (h : allocatorEq g a b = true) : a.resource g = b.resource g := by
  simpa [allocatorEq] using h

theorem provider_cases (g : Nat) (a : Provider) : a = .own (a.resource g) ∨ a = .global := by
  cases a <;> simp [Provider.resource]

theorem typedHist_inv {nodes : List Node} (hb : Built nodes) {g : Nat} {s : Sys} {live : List Held} {back : List (Held × Nat)} (h : TypedHist nodes g s live back) :
    TypedInv nodes s live back := by
  induction h with
  | start => exact ⟨rfl, by simp, by simp, fun i => by simp [given, givenBack, through, tally, diff], by simp⟩
  | setGlobal _ ih => exact ih
  | @alloc g s s' live back os a elem k al p _ hr e ih =>
    unfold typedAllocate at e
    rw [sysAllocate_eq hb os _ al _ _ s ih.same hr hr] at e
    cases e' : notNull (aallocImpl os (allocatorRequest elem k) al) with
    | ok q =>
      rw [e'] at e
      simp only [Prod.mk.injEq, Res.ok.injEq] at e
      obtain ⟨rfl, rfl⟩ := e
      have hq := (notNull_ok e').1
      refine ⟨rfl, ?_, ?_, fun i => ?_, fun p => ?_⟩
      · intro x hx
        rcases List.mem_cons.mp hx with rfl | hx
        · exact hq
        · exact ih.ptr x hx
      · intro x hx
        rcases List.mem_cons.mp hx with rfl | hx
        · exact provider_cases g a
        · exact ih.own x hx
      · have hc := ih.cnt i
        have hg : given (⟨a, elem, k, a.resource g, q, al⟩ :: live) back = ⟨a.resource g, q, k * elem % 2 ^ 64, al⟩ :: given live back := rfl
        rw [hg, tally_through_cons]
        by_cases hi : i ∈ counters nodes nodes.length (a.resource g)
        · simp only [if_pos hi]
          rw [addCounts_curr hq, hc, request_eq]
          simp only [diff, CntItem.add, CntItem.mk.injEq]
          constructor <;> omega
        · simp only [if_neg hi]
          exact hc
      · have := ih.out p
        simp only [List.filterMap_append, List.map_append, List.count_append, List.filterMap_cons, gotOf, freedOf, List.filterMap_nil, List.map_cons, List.map_nil, List.count_cons, List.count_nil] at this ⊢
        omega
    | _ => rw [e'] at e; simp at e
  | @dealloc g s s' live back b h _ hm he hr e ih =>
    unfold typedDeallocate at e
    rw [sysDeallocate_eq hb _ _ _ _ s ih.same hr hr] at e
    cases e
    refine ⟨rfl, fun x hx => ih.ptr x (List.mem_of_mem_erase hx), fun x hx => ih.own x (List.mem_of_mem_erase hx), fun i => ?_, fun p => ?_⟩
    · have hc := ih.cnt i
      rw [tally_given_back hm]
      have ht : givenBack ((h, b.resource g) :: back) = ⟨b.resource g, h.ptr, h.num * h.elem % 2 ^ 64, h.al⟩ :: givenBack back := rfl
      rw [ht, tally_through_cons]
      by_cases hi : i ∈ counters nodes nodes.length (b.resource g)
      · simp only [if_pos hi]
        rw [remCounts_curr (ih.ptr h hm), hc, request_eq]
        simp only [diff, CntItem.add, CntItem.rem, CntItem.mk.injEq, through]
        constructor <;> omega
      · simp only [if_neg hi]
        exact hc
    · have := ih.out p
      have hp := ((List.perm_cons_erase hm).map (·.ptr)).count_eq p
      simp only [List.filterMap_append, List.map_append, List.count_append, List.filterMap_cons, gotOf, freedOf, List.filterMap_nil, List.map_cons, List.map_nil, List.count_cons, List.count_nil] at this hp ⊢
      omega
  | @realloc g s s' live back os b h k q _ hm he hr e ih =>
    unfold typedReallocate at e
    obtain ⟨hq, rfl⟩ := sysReallocate_eq hb os _ _ _ _ _ _ _ s _ ih.same hr hr e
    refine ⟨rfl, ?_, ?_, fun i => ?_, fun p => ?_⟩
    · intro x hx
      rcases List.mem_cons.mp hx with rfl | hx
      · exact hq
      · exact ih.ptr x (List.mem_of_mem_erase hx)
    · intro x hx
      rcases List.mem_cons.mp hx with rfl | hx
      · exact provider_cases g b
      · exact ih.own x (List.mem_of_mem_erase hx)
    · have hc := ih.cnt i
      have hg : given (⟨b, h.elem, k, b.resource g, q, h.al⟩ :: live.erase h) ((h, b.resource g) :: back) =
          ⟨b.resource g, q, k * h.elem % 2 ^ 64, h.al⟩ :: given (live.erase h) ((h, b.resource g) :: back) := rfl
      rw [hg, tally_through_cons, tally_given_back hm]
      have ht : givenBack ((h, b.resource g) :: back) = ⟨b.resource g, h.ptr, h.num * h.elem % 2 ^ 64, h.al⟩ :: givenBack back := rfl
      rw [ht, tally_through_cons]
      by_cases hi : i ∈ counters nodes nodes.length (b.resource g)
      · simp only [if_pos hi]
        rw [addCounts_curr hq, remCounts_curr (ih.ptr h hm), hc, request_eq, request_eq]
        simp only [diff, CntItem.add, CntItem.rem, CntItem.mk.injEq, through]
        constructor <;> omega
      · simp only [if_neg hi]
        exact hc
    · have := ih.out p
      have hp := ((List.perm_cons_erase hm).map (·.ptr)).count_eq p
      simp only [List.filterMap_append, List.map_append, List.count_append, List.filterMap_cons, gotOf, freedOf, List.filterMap_nil, List.map_cons, List.map_nil, List.count_cons, List.count_nil] at this hp ⊢
      omega

/-- **C136**, exactly, for allocators of both kinds: every counting resource counts what it gave minus what was given back to it, wherever that came from; and what was obtained from
the system and not freed is the memory of the objects held, always.  So a change of the global resource loses no memory, only the counts go wrong. -/
theorem C136_exact {nodes : List Node} (hb : Built nodes) {g : Nat} {s : Sys} {live : List Held} {back : List (Held × Nat)} (h : TypedHist nodes g s live back) :
    (∀ i, (s.cnt i).curr = diff (tally ((through nodes i (given live back)).map (·.size))) (tally ((through nodes i (givenBack back)).map (·.size)))) ∧
    ∀ p, ((s.log.filterMap gotOf).map (·.1)).count p = (s.log.filterMap freedOf).count p + (live.map (·.ptr)).count p :=
  ⟨(typedHist_inv hb h).cnt, (typedHist_inv hb h).out⟩

/-- **C136**: when everything went back to the resource it is from the counts are those of the objects held. -/
theorem C136_counts {nodes : List Node} (hb : Built nodes) {g : Nat} {s : Sys} {live : List Held} {back : List (Held × Nat)} (h : TypedHist nodes g s live back)
    (hsame : ∀ x ∈ back, x.2 = x.1.res) (i : Nat) : (s.cnt i).curr = tally ((through nodes i (live.map fun h => h.blk h.res)).map (·.size)) := by
  rw [(C136_exact hb h).1 i]
  have ht : givenBack back = back.map fun x => x.1.blk x.1.res := List.map_congr_left fun x hx => by rw [hsame x hx]
  unfold given
  rw [ht]
  unfold through
  rw [List.filter_append, List.map_append]
  simp only [tally, diff, List.length_append, List.sum_append, CntItem.mk.injEq]
  constructor <;> omega

/-- **C136**: which objects go back to the resource they are from: those of an allocator with its own resource, always; those of an allocator with the global resource, if and only if the global
resource is the one that was global when they were allocated. -/
theorem C136_back {nodes : List Node} (hb : Built nodes) {g : Nat} {s : Sys} {live : List Held} {back : List (Held × Nat)} (hh : TypedHist nodes g s live back) {h : Held} (hm : h ∈ live)
    {b : Provider} (he : allocatorEq g h.owner b = true) :
    (h.owner ≠ .global → b.resource g = h.res) ∧ (h.owner = .global → (b.resource g = h.res ↔ g = h.res)) := by
  have h1 := eq_of_allocatorEq he
  refine ⟨fun hg => ?_, fun hg => ?_⟩
  · rcases (typedHist_inv hb hh).own h hm with h2 | h2
    · rw [← h1, h2]; rfl
    · exact absurd h2 hg
  · rw [← h1, hg]; rfl

/-- `!=` is the opposite of `==`. -/
theorem C136_ne (g : Nat) (a b : Provider) : allocatorNe g a b = true ↔ ¬ allocatorEq g a b = true := by
  simp [allocatorNe, allocatorEq]

/-- Three objects of four bytes from the global resource 1, given back to the global resource 2: counted by neither as it should be. -/
example : ∃ s, TypedHist [.malloc, .counts 0, .counts 0] 2 s [] [(⟨.global, 4, 3, 1, 64, 4⟩, 2)] ∧ (s.cnt 1).curr = ⟨1, 12⟩ ∧ (s.cnt 2).curr = ⟨-1, -12⟩ := by
  have h1 := TypedHist.alloc (nodes := [.malloc, .counts 0, .counts 0]) (g := 1) (os := fun _ _ => .ok 64) (a := .global) (elem := 4) (k := 3) (al := 4) .start (by decide) rfl
  have h2 := TypedHist.dealloc (b := .global) (h1.setGlobal (g' := 2)) (.head _) rfl (by decide) rfl
  exact ⟨_, h2, rfl, rfl⟩

example : ∃ s, TypedHist [.malloc, .counts 0] 1 s [⟨.own 1, 4, 5, 1, 96, 4⟩] [(⟨.global, 4, 3, 1, 64, 4⟩, 1)] ∧ (s.cnt 1).curr = ⟨1, 20⟩ := by
  have h1 := TypedHist.alloc (nodes := [.malloc, .counts 0]) (g := 1) (os := fun _ _ => .ok 64) (a := .global) (elem := 4) (k := 3) (al := 4) .start (by decide) rfl
  have h2 := TypedHist.realloc (os := fun _ _ => .ok 96) (b := .own 1) (k := 5) h1 (.head _) rfl (by decide) rfl
  exact ⟨_, h2, rfl⟩

end C4
