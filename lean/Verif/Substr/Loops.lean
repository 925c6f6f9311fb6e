import Verif.Basic
/-
Counted loops with early return, as they occur in /repo/src/c4/substr.hpp.  `Option` plays the role of
"return from inside the loop"; `none` as a position stands for `npos`.
-/
namespace C4

/-- `n` iterations of a loop body starting at index `i`, counting up; stops at the first `some`. -/
def forUpN {α : Type u} (body : Nat → Res (Option α)) : Nat → Nat → Res (Option α)
  | 0, _ => .ok none
  | n+1, i => do
    match ← body i with
    | some r => .ok (some r)
    | none => forUpN body n (i + 1)

/-- `for(size_t i = lo; i < hi; ++i) { body }`. -/
def forUp {α : Type u} (lo hi : Nat) (body : Nat → Res (Option α)) : Res (Option α) :=
  forUpN body (hi - lo) lo

/-- `for(size_t i = n-1; i != size_t(-1); --i) { body }`. -/
def forDown {α : Type u} (body : Nat → Res (Option α)) : Nat → Res (Option α)
  | 0 => .ok none
  | n+1 => do
    match ← body n with
    | some r => .ok (some r)
    | none => forDown body n

theorem forUpN_congr {α : Type u} {f g : Nat → Res (Option α)} : ∀ n i,
    (∀ j, i ≤ j → j < i + n → f j = g j) → forUpN f n i = forUpN g n i
  | 0, _, _ => rfl
  | n+1, i, h => by
    unfold forUpN
    rw [h i (by omega) (by omega), forUpN_congr n (i+1) (fun j h1 h2 => h j (by omega) (by omega))]

theorem forUp_congr {α : Type u} {f g : Nat → Res (Option α)} {lo hi : Nat}
    (h : ∀ j, lo ≤ j → j < hi → f j = g j) : forUp lo hi f = forUp lo hi g :=
  forUpN_congr _ _ (fun j h1 h2 => h j h1 (by omega))

theorem forDown_congr {α : Type u} {f g : Nat → Res (Option α)} : ∀ n,
    (∀ j, j < n → f j = g j) → forDown f n = forDown g n
  | 0, _ => rfl
  | n+1, h => by
    unfold forDown
    rw [h n (by omega), forDown_congr n (fun j h1 => h j (by omega))]

theorem forUpN_ok {α : Type u} {body : Nat → Res (Option α)} {g : Nat → Option α} : ∀ n i,
    (∀ j, i ≤ j → j < i + n → body j = .ok (g j)) →
    (forUpN body n i = .ok none ∧ ∀ j, i ≤ j → j < i + n → g j = none) ∨
    (∃ k r, forUpN body n i = .ok (some r) ∧ i ≤ k ∧ k < i + n ∧ g k = some r ∧
      ∀ j, i ≤ j → j < k → g j = none)
  | 0, i, _ => by left; refine ⟨rfl, fun j _ _ => ?_⟩; omega
  | n+1, i, h => by
    unfold forUpN
    rw [h i (by omega) (by omega)]
    cases hg : g i with
    | some r => right; exact ⟨i, r, by simp, by omega, by omega, hg, fun j _ _ => by omega⟩
    | none =>
      simp only [Res.ok_bind]
      rcases forUpN_ok n (i+1) (fun j h1 h2 => h j (by omega) (by omega)) with ⟨h1, h2⟩ | ⟨k, r, h1, h2, h3, h4, h5⟩
      · left; refine ⟨h1, fun j h3 h4 => ?_⟩
        by_cases e : j = i
        · subst e; exact hg
        · exact h2 j (by omega) (by omega)
      · right; refine ⟨k, r, h1, by omega, by omega, h4, fun j h6 h7 => ?_⟩
        by_cases e : j = i
        · subst e; exact hg
        · exact h5 j (by omega) (by omega)

/-- What a counting-up loop computes when its body is defined on the whole range. -/
theorem forUp_ok {α : Type u} {body : Nat → Res (Option α)} {g : Nat → Option α} {lo hi : Nat}
    (h : ∀ j, lo ≤ j → j < hi → body j = .ok (g j)) :
    (forUp lo hi body = .ok none ∧ ∀ j, lo ≤ j → j < hi → g j = none) ∨
    (∃ k r, forUp lo hi body = .ok (some r) ∧ lo ≤ k ∧ k < hi ∧ g k = some r ∧
      ∀ j, lo ≤ j → j < k → g j = none) := by
  unfold forUp
  rcases forUpN_ok (hi - lo) lo (fun j h1 h2 => h j h1 (by omega)) with ⟨h1, h2⟩ | ⟨k, r, h1, h2, h3, h4, h5⟩
  · left; exact ⟨h1, fun j h3 h4 => h2 j h3 (by omega)⟩
  · right; exact ⟨k, r, h1, h2, by omega, h4, h5⟩

/-- What a counting-down loop computes when its body is defined on the whole range. -/
theorem forDown_ok {α : Type u} {body : Nat → Res (Option α)} {g : Nat → Option α} : ∀ n,
    (∀ j, j < n → body j = .ok (g j)) →
    (forDown body n = .ok none ∧ ∀ j, j < n → g j = none) ∨
    (∃ k r, forDown body n = .ok (some r) ∧ k < n ∧ g k = some r ∧ ∀ j, k < j → j < n → g j = none)
  | 0, _ => by left; refine ⟨rfl, fun j _ => ?_⟩; omega
  | n+1, h => by
    unfold forDown
    rw [h n (by omega)]
    cases hg : g n with
    | some r => right; exact ⟨n, r, by simp, by omega, hg, fun j _ _ => by omega⟩
    | none =>
      simp only [Res.ok_bind]
      rcases forDown_ok n (fun j h1 => h j (by omega)) with ⟨h1, h2⟩ | ⟨k, r, h1, h2, h3, h4⟩
      · left; refine ⟨h1, fun j h3 => ?_⟩
        by_cases e : j = n
        · subst e; exact hg
        · exact h2 j (by omega)
      · right; refine ⟨k, r, h1, by omega, h3, fun j h5 h6 => ?_⟩
        by_cases e : j = n
        · subst e; exact hg
        · exact h4 j (by omega) (by omega)

end C4
