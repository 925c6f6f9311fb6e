import Verif.TightPair
/-
Properties of `tight_pair`.
-/
namespace C4
namespace Tight

/-! ### C140 -/

/-- **C140 is false**: of a default-constructed pair of two objects of one class with state, the second is not initialized. -/
theorem C140_refuted :
    first (whichCase true false false) (mkDefault (whichCase true false false)) = some 0 ∧
    second (whichCase true false false) (mkDefault (whichCase true false false)) = none := by
  decide

/-- **C140**, what holds, for every pair of types: the constructor stores the two values, except those of empty classes, which
have none; an assignment to one of them leaves the other, unless both are empty; default construction initializes the first,
and the second unless the types are the same.  Missing: default construction of the second of two equal types (false, see
`C140_refuted`). -/
theorem C140_pair_partial (same e1 e2 : Bool) (hsame : same = true → e1 = e2) :
    (∀ f s, (e1 = false → first (whichCase same e1 e2) (mk (whichCase same e1 e2) f s) = some f) ∧
      (e2 = false → second (whichCase same e1 e2) (mk (whichCase same e1 e2) f s) = some s)) ∧
    (∀ p v, first (whichCase same e1 e2) (setFirst (whichCase same e1 e2) p v) = some v ∧
      second (whichCase same e1 e2) (setSecond (whichCase same e1 e2) p v) = some v ∧
      (e1 = false ∨ e2 = false →
        second (whichCase same e1 e2) (setFirst (whichCase same e1 e2) p v) = second (whichCase same e1 e2) p ∧
        first (whichCase same e1 e2) (setSecond (whichCase same e1 e2) p v) = first (whichCase same e1 e2) p)) ∧
    (e1 = false → first (whichCase same e1 e2) (mkDefault (whichCase same e1 e2)) = some 0) ∧
    (e2 = false → same = false → second (whichCase same e1 e2) (mkDefault (whichCase same e1 e2)) = some 0) := by
  cases same <;> cases e1 <;> cases e2 <;>
    simp_all [whichCase, first, second, setFirst, setSecond, mk, mkDefault, valueInit, defaultInit, firstSlot, secondSlot, write]

/-- **C140**: the two are different parts of the pair, unless the types are one empty class: then they are the same object. -/
theorem C140_distinct (same e1 e2 : Bool) (hsame : same = true → e1 = e2) :
    firstSlot (whichCase same e1 e2) = secondSlot (whichCase same e1 e2) ↔ same = true ∧ e1 = true := by
  cases same <;> cases e1 <;> cases e2 <;> simp_all [whichCase, firstSlot, secondSlot]

/-- **C140**: an empty class takes no space: it is a base class of the pair, not a member. -/
theorem C140_tight (same e1 e2 : Bool) (hsame : same = true → e1 = e2) :
    (e1 = true → firstSlot (whichCase same e1 e2) ≠ .memFirst ∧ firstSlot (whichCase same e1 e2) ≠ .memSecond) ∧
    (e2 = true → secondSlot (whichCase same e1 e2) ≠ .memFirst ∧ secondSlot (whichCase same e1 e2) ≠ .memSecond) := by
  cases same <;> cases e1 <;> cases e2 <;> simp_all [whichCase, firstSlot, secondSlot]

example : firstSlot (whichCase false true false) = .baseFirst := by decide
example : second (whichCase false false true) (mkDefault (whichCase false false true)) = some 0 := by decide
example : first (whichCase true false false) (setSecond (whichCase true false false) (mk (whichCase true false false) 3 4) 5) = some 3 := by
  decide

end Tight
end C4
