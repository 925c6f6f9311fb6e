import Verif.Substr.Split
import Verif.Substr.SearchLemmas
import Mathlib.Tactic.ByContra
/-
The character searches as list decompositions.
-/
namespace C4
open Spec

theorem firstOf_split (s : List Nat) (c start : Nat) (hs : start ≤ s.length) :
    (firstOf s c start = .ok none ∧ c ∉ s.drop start) ∨
    (∃ a b, s.drop start = a ++ c :: b ∧ c ∉ a ∧ firstOf s c start = .ok (some (start + a.length))) := by
  obtain ⟨r, h1, h2⟩ := firstOf_spec s c start
  rw [h1]
  cases r with
  | none =>
    left
    refine ⟨rfl, fun hc => ?_⟩
    obtain ⟨i, hi, e⟩ := List.getElem_of_mem hc
    rw [List.getElem_drop] at e
    rw [List.length_drop] at hi
    exact h2 (start + i) (by omega) (by omega) ⟨c, by rw [List.getElem?_eq_getElem (by omega), e], rfl⟩
  | some i =>
    right
    obtain ⟨h3, h4, ⟨x, hx, rfl⟩, h5⟩ := h2
    refine ⟨(s.drop start).take (i - start), s.drop (i + 1), ?_, ?_, ?_⟩
    · have hi : s[i] = x := by rw [List.getElem?_eq_getElem h4] at hx; simpa using hx
      have : s.drop start = (s.drop start).take (i - start) ++ (s.drop start).drop (i - start) :=
        (List.take_append_drop _ _).symm
      rw [List.drop_drop, show start + (i - start) = i by omega, List.drop_eq_getElem_cons h4, hi] at this
      exact this
    · intro hc
      obtain ⟨j, hj, e⟩ := List.getElem_of_mem hc
      rw [List.getElem_take, List.getElem_drop] at e
      rw [List.length_take] at hj
      refine h5 (start + j) (by omega) (by omega) ⟨x, ?_, rfl⟩
      rw [List.getElem?_eq_getElem (by omega), e]
    · rw [List.length_take, List.length_drop]; congr 2; omega

theorem lastOf_split_at (s : List Nat) (c n : Nat) (hn : n ≤ s.length) (start : Option Nat) (hst : startOr s start = n) :
    (lastOf s c start = .ok none ∧ c ∉ s.take n) ∨
    (∃ a b, s.take n = a ++ c :: b ∧ c ∉ b ∧ lastOf s c start = .ok (some a.length)) := by
  obtain ⟨r, h1, h2⟩ := lastOf_spec s c start (by omega)
  rw [h1]
  rw [hst] at h2
  cases r with
  | none =>
    left
    refine ⟨rfl, fun hc => ?_⟩
    obtain ⟨i, hi, e⟩ := List.getElem_of_mem hc
    rw [List.getElem_take] at e
    rw [List.length_take] at hi
    exact h2 i (by omega) ⟨c, by rw [List.getElem?_eq_getElem (by omega), e], rfl⟩
  | some i =>
    right
    obtain ⟨h4, ⟨x, hx, rfl⟩, h5⟩ := h2
    have hi : i < s.length := by omega
    refine ⟨s.take i, (s.take n).drop (i + 1), ?_, ?_, ?_⟩
    · have hxi : s[i] = x := by rw [List.getElem?_eq_getElem hi] at hx; simpa using hx
      have h6 : (s.take n).drop i = x :: (s.take n).drop (i + 1) := by
        rw [List.drop_eq_getElem_cons (by rw [List.length_take]; omega), List.getElem_take, hxi]
      have : s.take n = (s.take n).take i ++ (s.take n).drop i := by simp
      rw [h6, List.take_take, show min i n = i by omega] at this
      exact this
    · intro hc
      obtain ⟨j, hj, e⟩ := List.getElem_of_mem hc
      rw [List.getElem_drop, List.getElem_take] at e
      rw [List.length_drop, List.length_take] at hj
      refine h5 (i + 1 + j) (by omega) (by omega) ⟨x, ?_, rfl⟩
      rw [List.getElem?_eq_getElem (by omega), e]
    · rw [List.length_take]; congr 2; omega

theorem lastOf_split (s : List Nat) (c : Nat) :
    (lastOf s c none = .ok none ∧ c ∉ s) ∨
    (∃ a b, s = a ++ c :: b ∧ c ∉ b ∧ lastOf s c none = .ok (some a.length)) := by
  have := lastOf_split_at s c s.length (Nat.le_refl _) none rfl
  rwa [List.take_length] at this

theorem eq_replicate_of {s : List Nat} {c : Nat} (h : ∀ x ∈ s, x = c) : s = List.replicate s.length c :=
  List.eq_replicate_iff.mpr ⟨rfl, h⟩

theorem lastNotOf_split (s : List Nat) (c : Nat) :
    (lastNotOf s c none = .ok none ∧ s = List.replicate s.length c) ∨
    (∃ a x k, s = a ++ x :: List.replicate k c ∧ x ≠ c ∧ lastNotOf s c none = .ok (some a.length)) := by
  obtain ⟨r, h1, h2⟩ := lastNotOf_spec s c none (Nat.le_refl _)
  rw [h1]
  cases r with
  | none =>
    left
    refine ⟨rfl, eq_replicate_of fun x hx => ?_⟩
    obtain ⟨i, hi, e⟩ := List.getElem_of_mem hx
    by_contra hne
    exact h2 i hi ⟨x, by rw [List.getElem?_eq_getElem hi, e], hne⟩
  | some i =>
    right
    obtain ⟨h4, ⟨x, hx, hne⟩, h5⟩ := h2
    have hi : i < s.length := h4
    have hxi : s[i] = x := by rw [List.getElem?_eq_getElem hi] at hx; simpa using hx
    have hrep : s.drop (i + 1) = List.replicate (s.drop (i + 1)).length c := by
      refine eq_replicate_of fun y hy => ?_
      obtain ⟨j, hj, e⟩ := List.getElem_of_mem hy
      rw [List.getElem_drop] at e
      rw [List.length_drop] at hj
      by_contra hyne
      exact h5 (i + 1 + j) (by omega) (by simp only [startOr]; omega)
        ⟨y, by rw [List.getElem?_eq_getElem (by omega), e], hyne⟩
    refine ⟨s.take i, x, (s.drop (i + 1)).length, ?_, hne, ?_⟩
    · rw [← hrep]
      have : s = s.take i ++ s.drop i := by simp
      rw [List.drop_eq_getElem_cons hi, hxi] at this
      exact this
    · rw [List.length_take]; congr 2; omega

theorem firstNotOf_split (s : List Nat) (c : Nat) :
    (firstNotOf s c 0 = .ok none ∧ s = List.replicate s.length c) ∨
    (∃ k x b, s = List.replicate k c ++ x :: b ∧ x ≠ c ∧ firstNotOf s c 0 = .ok (some k)) := by
  obtain ⟨r, h1, h2⟩ := firstNotOf_spec s c 0
  rw [h1]
  cases r with
  | none =>
    left
    refine ⟨rfl, eq_replicate_of fun x hx => ?_⟩
    obtain ⟨i, hi, e⟩ := List.getElem_of_mem hx
    by_contra hne
    exact h2 i (by omega) hi ⟨x, by rw [List.getElem?_eq_getElem hi, e], hne⟩
  | some i =>
    right
    obtain ⟨_, hi, ⟨x, hx, hne⟩, h5⟩ := h2
    have hxi : s[i] = x := by rw [List.getElem?_eq_getElem hi] at hx; simpa using hx
    have hrep : s.take i = List.replicate (s.take i).length c := by
      refine eq_replicate_of fun y hy => ?_
      obtain ⟨j, hj, e⟩ := List.getElem_of_mem hy
      rw [List.getElem_take] at e
      rw [List.length_take] at hj
      by_contra hyne
      exact h5 j (by omega) (by omega) ⟨y, by rw [List.getElem?_eq_getElem (by omega), e], hyne⟩
    refine ⟨i, x, s.drop (i + 1), ?_, hne, rfl⟩
    have hl : (s.take i).length = i := by rw [List.length_take]; omega
    rw [hl] at hrep
    rw [← hrep]
    have : s = s.take i ++ s.drop i := by simp
    rw [List.drop_eq_getElem_cons hi, hxi] at this
    exact this

theorem beginsWithC_eq (c x : Nat) (s : List Nat) : beginsWithC (x :: s) c = .ok (x == c) := by
  simp [beginsWithC, rd]

theorem endsWithC_eq (c x : Nat) (s : List Nat) : endsWithC (s ++ [x]) c = .ok (x == c) := by
  simp [endsWithC, rd]

end C4
