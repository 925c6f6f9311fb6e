import Verif.Props.Enum
import Verif.Props.FormatAlign
import Verif.Props.Alloc
import Verif.Props.Span
/-
What the code does exactly where properties C54, C63, C73, C74, C90 and C93 fail.
-/
namespace C4
open Spec

/-- The first symbol of the table of which `P` holds. -/
def Spec.FirstSym (t : ETab) (P : List Nat → Prop) (p : ESym) : Prop := ∃ before after, t.syms = before ++ p :: after ∧ P p.name ∧ ∀ q ∈ before, ¬ P q.name

theorem find_first {t : ETab} {P : List Nat → Prop} [DecidablePred P] {p : ESym} (h : t.syms.find? (fun p => decide (P p.name)) = some p) : FirstSym t P p := by
  rw [List.find?_eq_some_iff_append] at h
  obtain ⟨h1, a, b, h2, h3⟩ := h
  exact ⟨a, b, h2, by simpa using h1, fun q hq => by have := h3 q hq; simpa using this⟩

/-- **C73**, exactly: `str2e` gives the value of the first symbol that is spelled like the string, and reports an error if there is none. -/
theorem C73_first {t : ETab} (h : TabOk t) (s : List Nat) :
    (∃ p, FirstSym t (fun n => Spells t n s) p ∧ str2e t s = .ok p.value) ∨ ((∀ p ∈ t.syms, ¬ Spells t p.name s) ∧ str2e t s = .abort) := by
  unfold str2e
  rw [findName_eq h s, Res.ok_bind]
  cases e : t.syms.find? (fun p => decide (Spells t p.name s)) with
  | some p => exact .inl ⟨p, find_first e, rfl⟩
  | none => exact .inr ⟨fun p hp => by have := List.find?_eq_none.mp e p hp; simpa using this, rfl⟩

/-- **C74**, exactly: `find(s, len)` gives the first symbol that is spelled like the string or whose name begins with it, or none if there is none. -/
theorem C74_first {t : ETab} (h : TabOk t) {s : List Nat} (hs : ∀ c ∈ s, c ≠ 0) :
    (∃ p, FirstSym t (fun n => s <+: n ∨ Spells t n s) p ∧ findNameLen t s = .ok (some p)) ∨
    ((∀ p ∈ t.syms, ¬ (s <+: p.name ∨ Spells t p.name s)) ∧ findNameLen t s = .ok none) := by
  rw [findNameLen_eq h hs]
  cases e : t.syms.find? (fun p => decide (SpellsLen t p.name s)) with
  | some p => exact .inl ⟨p, find_first e, rfl⟩
  | none => exact .inr ⟨fun p hp => by have := List.find?_eq_none.mp e p hp; exact fun h' => this (decide_eq_true (p := SpellsLen t p.name s) h'), rfl⟩

example : TabOk ⟨[⟨1, S "ABC"⟩, ⟨2, S "AB"⟩], 0, 0⟩ ∧ findNameLen ⟨[⟨1, S "ABC"⟩, ⟨2, S "AB"⟩], 0, 0⟩ (S "AB") = .ok (some ⟨1, S "ABC"⟩) ∧ str2e ⟨[⟨1, S "ABC"⟩, ⟨2, S "AB"⟩], 0, 0⟩ (S "AB") = .ok 2 := by
  refine ⟨?_, by decide +kernel, by decide +kernel⟩
  intro p hp
  simp only [List.mem_cons, List.not_mem_nil, or_false] at hp
  rcases hp with rfl | rfl <;> decide

/-- **C54**, exactly: in all other cases than those of `C54_left_partial` and `C54_right_partial` the padding is written outside of the buffer. -/
theorem C54_exact {f : Writer} {t : List Nat} (hf : Writes f t) (width pad : Nat) (buf : List Nat) :
    (buf.length < width → t.length < width → t.length < buf.length → toCharsLeft f width pad buf = .ub) ∧
    (buf.length < width - t.length → t.length < buf.length → toCharsRight f width pad buf = .ub) := by
  obtain ⟨b, e, hl, hfit⟩ := hf buf
  unfold toCharsLeft toCharsRight
  simp only [e, Res.ok_bind]
  constructor
  · intro h1 h2 h3
    rw [if_neg (by omega)]
    have : memset b t.length pad (width - t.length) = .ub := by unfold memset memcpyTo; rw [if_neg (by rw [List.length_replicate]; omega), if_neg (by rw [List.length_replicate]; omega)]
    rw [this]; rfl
  · intro h1 h3
    rw [if_neg (by omega)]
    have : memset b 0 pad (width - t.length) = .ub := by unfold memset memcpyTo; rw [if_neg (by rw [List.length_replicate]; omega), if_neg (by rw [List.length_replicate]; omega)]
    rw [this]; rfl

example : Writes (toCharsStr (S "ab")) (S "ab") ∧ toCharsLeft (toCharsStr (S "ab")) 5 32 [0, 0, 0, 0] = .ub ∧ toCharsRight (toCharsStr (S "ab")) 8 32 [0, 0, 0, 0] = .ub :=
  ⟨writes_str _, by decide, by decide⟩

/-- **C63** in C++11, exactly: spans of any sizes compare equal if the elements of the left one are the first elements of the right one; if the right one is shorter and all its elements agree,
the comparison reads outside of it. -/
theorem C63_exact11 {α : Type} [DecidableEq α] (l r : List α) :
    spanEq11 false l r = if l <+: r then .ok true else if r <+: l then .ub else .ok false := by
  unfold spanEq11
  simp only [Bool.false_eq_true, if_false]
  induction l generalizing r with
  | nil => rw [if_pos (List.nil_prefix)]; rfl
  | cons a l ih =>
    cases r with
    | nil => rw [if_neg (by simp), if_pos (List.nil_prefix)]; rfl
    | cons b r =>
      rw [stdEqual3]
      by_cases h : a = b
      · subst h
        rw [if_pos rfl, ih]
        simp only [List.cons_prefix_cons, true_and]
      · have h' : ¬ b = a := fun e => h e.symm
        rw [if_neg h, if_neg (by simp [List.cons_prefix_cons, h]), if_neg (by simp [List.cons_prefix_cons, h'])]

example : spanEq11 false [1, 2] [1, 3, 4] = .ok false ∧ spanEq11 false [1, 2] [1, 2, 4] = .ok true ∧ spanEq11 false [1, 2, 4] [1, 2] = .ub := by decide

/-- **C90**, exactly: in an array that is aligned to `al` a block is aligned to it if and only if the bytes counted before it are a multiple of `al`. -/
theorem C90_exact {s s' : Small} {r : Res Nat} {k p al : Nat} (ha : al ∣ s.arr) (hk : s.num + k ≤ s.n) (h64 : s.num + k < 2 ^ 64) (e : smallAllocate s r k = .ok (p, s')) :
    al ∣ p ↔ al ∣ s.num * s.elem := by
  unfold smallAllocate at e
  rw [wrap64_of_lt h64, if_pos hk, if_pos (by omega), Res.ok_bind] at e
  cases e
  exact (Nat.dvd_add_right ha)

example : smallAllocate ⟨1024, 16, 4, 2⟩ .abort 3 = .ok (1032, ⟨1024, 16, 4, 5⟩) ∧ 8 ∣ 1024 ∧ 8 ∣ 2 * 4 := by decide +kernel

/-- **C93**, exactly: what is released is passed to the memory resource if and only if its address is not that of a byte of the array; so of all blocks at places of the array,
only those at its very end are. -/
theorem C93_exact (s : Small) (num k : Nat) (hn : num ≤ s.n) (he : 0 < s.elem) :
    (smallDeallocate s (s.arr + num * s.elem) k).1 = if num = s.n then some (s.arr + s.n * s.elem) else none := by
  unfold smallDeallocate
  by_cases h : num = s.n
  · rw [if_pos h, h]
    simp only [Nat.lt_irrefl, and_false, if_false]
  · have : num * s.elem < s.n * s.elem := Nat.mul_lt_mul_of_pos_right (by omega) he
    rw [if_neg h, if_pos (by constructor <;> omega)]

example : (smallDeallocate ⟨1024, 16, 4, 16⟩ (1024 + 16 * 4) 0).1 = some 1088 ∧ (smallDeallocate ⟨1024, 16, 4, 16⟩ (1024 + 15 * 4) 1).1 = none := by decide +kernel

end C4
