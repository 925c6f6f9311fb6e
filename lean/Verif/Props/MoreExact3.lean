import Verif.Props.SubstrView
import Verif.Props.MemRes
import Verif.Props.Alloc
/-
Properties C33, C68 and C72, exactly: for which arguments, blocks and programs they hold.
-/
namespace C4
open View Spec

/-! ### C33 -/

/-- **C33**, exactly: which arguments no larger than the length give views inside the original, for the selectors with a boundary
at which they do not. -/
theorem C33_exact (v : View) (hv : v.len < NPOS) (a b : Nat) (ha : a ≤ v.len) (hb : b ≤ v.len) :
    (Inside (v.offs a b) v ↔ a + b ≤ v.len) ∧ (Inside (v.sub2 a b) v ↔ a + b ≤ v.len) ∧ (Inside (v.range a b) v ↔ a ≤ b) ∧
    (Inside (v.rightOf a) v ↔ a < v.len) ∧ (Inside (v.rightOfInc a false) v ↔ a < v.len) ∧ Inside (v.rightOfInc a true) v ∧
    (Inside (v.leftOfInc a true) v ↔ a < v.len) ∧ Inside (v.leftOfInc a false) v := by
  have hN : NPOS = 18446744073709551615 := rfl
  have h64 : v.len < 2 ^ 64 := by omega
  have han : a ≠ NPOS := by omega
  have hbn : b ≠ NPOS := by omega
  have wrapBack : ∀ x y, x < y → y < 2 ^ 64 → szSub x y = x + 2 ^ 64 - y := by
    intro x y h1 h2
    unfold szSub
    omega
  simp only [Inside, offs, sub2, View.range, rightOf, rightOfInc, leftOfInc, if_pos han, if_pos hbn, szSub_eq h64 hb, Bool.toNat_true,
    Bool.toNat_false, Bool.not_true, Bool.not_false, Nat.add_zero, szSub_eq h64 ha]
  refine ⟨?_, by omega, ?_, ?_, ?_, by omega, ?_, by omega⟩
  · by_cases h : a + b ≤ v.len
    · rw [szSub_eq (by omega) (by omega)]; omega
    · rw [wrapBack _ _ (by omega) (by omega)]; omega
  · by_cases h : a ≤ b
    · rw [szSub_eq (by omega) h]; omega
    · rw [wrapBack _ _ (by omega) (by omega)]; omega
  · by_cases h : a < v.len
    · rw [szSub_eq h64 (by omega)]; omega
    · rw [wrapBack _ _ (by omega) (by omega)]; omega
  · by_cases h : a < v.len
    · rw [szSub_eq h64 (by omega)]; omega
    · rw [wrapBack _ _ (by omega) (by omega)]; omega
  · rw [Nat.mod_eq_of_lt (by omega)]
    omega

example : Inside ((⟨1000, 3⟩ : View).offs 1 2) ⟨1000, 3⟩ ∧ ¬ Inside ((⟨1000, 3⟩ : View).offs 2 2) ⟨1000, 3⟩ :=
  ⟨((C33_exact ⟨1000, 3⟩ (by decide) 1 2 (by decide) (by decide)).1).mpr (by decide),
    fun h => absurd (((C33_exact ⟨1000, 3⟩ (by decide) 2 2 (by decide) (by decide)).1).mp h) (by decide)⟩

/-! ### C68 -/

/-- **C68** for `MemoryResourceLinear`, exactly: when a live block is reallocated, it keeps its place, hence its contents, exactly if it does not
grow or is the last block with room behind it; otherwise the new block begins behind everything allocated so far, and as the resource
writes no memory, what it holds has nothing to do with the old block. -/
theorem C68_linear_exact {mem size : Nat} (hms : mem + size < 2 ^ 64) {s : Lin} {live : List Block}
    (h : LinHist mem size s live) {b : Block} (hb : b ∈ live) (h0 : 0 < b.sz) {newsz p : Nat} (hn : b.addr + newsz < 2 ^ 64) {s' : Lin}
    (e : linReallocate s b.addr b.sz newsz b.al = .ok (p, s')) :
    (p = b.addr ↔ newsz ≤ b.sz ∨ (b.addr + b.sz = mem + s.pos ∧ b.addr + newsz ≤ mem + size)) ∧
    (p ≠ b.addr → mem + s.pos ≤ p ∧ ∀ c ∈ live, 0 < c.sz → c.addr + c.sz ≤ p) := by
  have hI := linHist_inv hms h
  have e1 := hI.hmem; have e2 := hI.hsize; have e3 := hI.hpos
  obtain ⟨b1, b2, b3, b4, b5⟩ := hI.ok b hb
  have b5 := b5 h0
  obtain ⟨e, hp0⟩ := checkNonNull_ok e
  unfold linDoReallocate at e
  have keep : p = b.addr → (newsz ≤ b.sz ∨ (b.addr + b.sz = mem + s.pos ∧ b.addr + newsz ≤ mem + size)) →
      (p = b.addr ↔ newsz ≤ b.sz ∨ (b.addr + b.sz = mem + s.pos ∧ b.addr + newsz ≤ mem + size)) ∧
      (p ≠ b.addr → mem + s.pos ≤ p ∧ ∀ c ∈ live, 0 < c.sz → c.addr + c.sz ≤ p) :=
    fun g1 g2 => ⟨⟨fun _ => g2, fun _ => g1⟩, fun g => absurd g1 g⟩
  by_cases hc1 : newsz = b.sz
  · rw [if_pos hc1] at e
    cases e
    exact keep rfl (.inl (by omega))
  · rw [if_neg hc1] at e
    simp only [] at e
    rw [wrap64_of_lt (show s.mem + s.pos < 2 ^ 64 by omega), wrap64_of_lt (show b.addr + b.sz < 2 ^ 64 by omega),
      wrap64_of_lt hn, wrap64_of_lt (show s.mem + s.size < 2 ^ 64 by omega)] at e
    by_cases hc2 : newsz < b.sz
    · rw [if_pos hc2] at e
      by_cases hc3 : s.mem + s.pos = b.addr + b.sz
      · rw [if_pos hc3] at e; cases e; exact keep rfl (.inl (by omega))
      · rw [if_neg hc3] at e; cases e; exact keep rfl (.inl (by omega))
    · rw [if_neg hc2] at e
      by_cases hc3 : s.mem + s.pos = b.addr + b.sz ∧ b.addr + newsz ≤ s.mem + s.size
      · rw [if_pos hc3] at e; cases e
        exact keep rfl (.inr ⟨by omega, by omega⟩)
      · rw [if_neg hc3, linDoAllocate_eq s e3 (by omega) (by omega) b1 (by omega) (alignDist (s.mem + s.pos) b1)] at e
        split at e
        · injection e with e
          injection e with ep es
          have hge : mem + s.pos ≤ p := by rw [← ep, ← e1]; omega
          refine ⟨⟨fun g => ?_, fun g => ?_⟩, fun _ => ⟨hge, fun c hc hcz => ?_⟩⟩
          · omega
          · exact absurd ⟨by omega, by omega⟩ hc3
          · have := (hI.ok c hc).2.2.2.2 hcz
            omega
        · cases e

example : ∃ s live, LinHist 1024 64 s live ∧ (⟨1024, 4, 1⟩ : Block) ∈ live ∧
    linReallocate s 1024 4 8 1 = .ok (1032, ⟨1024, 64, 16⟩) ∧ linReallocate s 1024 4 3 1 = .ok (1024, ⟨1024, 64, 8⟩) :=
  ⟨_, _, .alloc (sz := 4) (al := 1) (p := 1028) (s' := ⟨1024, 64, 8⟩)
    (.alloc (sz := 4) (al := 1) (p := 1024) (s' := ⟨1024, 64, 4⟩) .start (by omega) (by decide)) (by omega) (by decide),
    by decide, by decide, by decide⟩

/-! ### C72 -/

/-- The scopes that are not inside another one, in order. -/
def Spec.outerScopes : Prog → List Scope
  | .use => []
  | .seq a b => outerScopes a ++ outerScopes b
  | .scope s _ => [s]

/-- The resources named by scopes `ScopedMemoryResourceCounts(m)`, in order. -/
def Spec.namedCounts (l : List Scope) : List Nat := l.filterMap fun s => match s with | .countsOf _ m => some m | _ => none

/-- **C72**, exactly: after any program the global resource is the one named by the last scope `ScopedMemoryResourceCounts(m)` that is
not inside another scope, and the one before if there is none.  So it is the one before exactly if that last scope named it. -/
theorem C72_exact (p : Prog) (g : Nat) : (p.run g).1 = (namedCounts (outerScopes p)).getLast?.getD g := by
  induction p generalizing g with
  | use => rfl
  | seq a b iha ihb =>
    simp only [Prog.run, outerScopes, namedCounts, List.filterMap_append] at iha ihb ⊢
    rw [ihb, iha, List.getLast?_append]
    cases (List.filterMap (fun s => match s with | .countsOf _ m => some m | _ => none) (outerScopes b)).getLast? <;> rfl
  | scope s body ih => cases s <;> rfl

/-- **C72**, exactly, for what programs see: a use directly after a program, inside the same scope, is served by the resource that the last
such scope of the program named, and by the innermost scope around it if there is none. -/
theorem C72_exact_use (p : Prog) (g : Nat) :
    ((Prog.seq p .use).run g).2 = (p.run g).2 ++ [(namedCounts (outerScopes p)).getLast?.getD g] := by
  simp only [Prog.run]
  rw [C72_exact]

example : ((Prog.seq (.scope (.countsOf 6 9) (.scope (.countsOf 7 8) .use)) (.seq (.scope (.res 5) .use) .use)).run 1) = (9, [7, 5, 9]) := by
  decide

end C4
