import Verif.Props.Rng
/-
Property C101: the exact period of pcg, for every state and increment.
-/
namespace C4

theorem two_pow_mul_odd (d : Nat) (h : 0 < d) : ∃ v o, Odd o ∧ d = 2 ^ v * o := by
  induction d using Nat.strongRecOn with
  | _ d ih =>
    rcases Nat.mod_two_eq_zero_or_one d with h2 | h2
    · obtain ⟨v, o, ho, e⟩ := ih (d / 2) (by omega) (by omega)
      exact ⟨v + 1, o, ho, by rw [Nat.pow_succ, Nat.mul_right_comm, ← e]; omega⟩
    · exact ⟨0, d, Nat.odd_iff.mpr h2, by simp⟩

theorem geo_dvd_mul {a : Nat} (ha : a % 4 = 1) (k d n : Nat) : 2 ^ k ∣ d * geo a n ↔ 2 ^ k ∣ d * n := by
  rcases Nat.eq_zero_or_pos d with h | h
  · subst h; simp
  · obtain ⟨v, o, ho, rfl⟩ := two_pow_mul_odd d h
    rcases Nat.lt_or_ge v k with hv | hv
    · obtain ⟨j, rfl⟩ : ∃ j, k = v + j := ⟨k - v, by omega⟩
      have hc : Nat.Coprime (2 ^ j) o := Nat.Coprime.pow_left _ (Nat.coprime_two_left.mpr ho)
      rw [Nat.pow_add, Nat.mul_assoc, Nat.mul_assoc, Nat.mul_dvd_mul_iff_left (Nat.pow_pos (by decide)), Nat.mul_dvd_mul_iff_left (Nat.pow_pos (by decide)),
        hc.dvd_mul_left, hc.dvd_mul_left, geo_dvd ha]
    · have hd : ∀ x, 2 ^ k ∣ 2 ^ v * o * x := fun x => Nat.dvd_trans (Nat.pow_dvd_pow 2 hv) (by rw [Nat.mul_assoc]; exact Nat.dvd_mul_right ..)
      exact ⟨fun _ => hd _, fun _ => hd _⟩

/-- **C101**, exactly, for every state and every increment: the state returns to its value after `n` steps if and only if 2^64 divides `n` times (multiplier - 1) times the state plus the increment. -/
theorem C101_exact {inc s : Nat} (hs : s < 2 ^ 64) (n : Nat) : iter (pcgNext inc) n s = s ↔ 2 ^ 64 ∣ (s * 6364136223846793004 + inc) * n := by
  show iter (fun x => (x * 6364136223846793005 + inc) % 2 ^ 64) n s = s ↔ _
  rw [iter_lcg s n hs, ← geo_dvd_mul (a := 6364136223846793005) (by decide) 64]
  have hg : geo 6364136223846793005 n * 6364136223846793004 + 1 = 6364136223846793005 ^ n := (geo_mul _ n).resolve_right (by decide)
  rw [← hg]
  generalize geo 6364136223846793005 n = g
  have e : s * (g * 6364136223846793004 + 1) + inc * g = s + (s * 6364136223846793004 + inc) * g := by ring
  rw [e]
  generalize (s * 6364136223846793004 + inc) * g = y
  constructor <;> intro h <;> omega

example : iter (pcgNext (2 ^ 63)) 2 0 = 0 ∧ iter (pcgNext (2 ^ 63)) 1 0 ≠ 0 := by decide +kernel

/-- **C101**, exactly, for a generator constructed with a number: its period is 2^63 divided by the largest power of two that divides the seed (1 for the seeds 0 and 2^63). -/
theorem C101_seeded {s : Nat} (hs : s < 2 ^ 64) (n : Nat) : iter (pcgNext (pcgSeeded s).2) n (pcgSeeded s).1 = (pcgSeeded s).1 ↔ 2 ^ 63 ∣ s * n := by
  have e1 : (pcgSeeded s).2 = s * 2 % 2 ^ 64 := by unfold pcgSeeded; rw [Nat.shiftLeft_eq, Nat.pow_one]
  rw [show (pcgSeeded s).1 = s from rfl, C101_exact hs, e1]
  have h1 : 2 ^ 64 ∣ (s * 6364136223846793004 + s * 2 % 2 ^ 64) * n ↔ 2 ^ 64 ∣ (s * 6364136223846793004 + s * 2) * n := by
    refine Nat.ModEq.dvd_iff (((Nat.mod_modEq _ _).add_left _).mul_right _) (Nat.dvd_refl _)
  rw [h1, show (s * 6364136223846793004 + s * 2) * n = 2 * ((s * n) * 3182068111923396503) by ring, show (2 : Nat) ^ 64 = 2 * 2 ^ 63 by decide,
    Nat.mul_dvd_mul_iff_left (by decide)]
  have hc : Nat.Coprime (2 ^ 63) 3182068111923396503 := Nat.Coprime.pow_left _ (Nat.coprime_two_left.mpr (by decide))
  exact hc.dvd_mul_right

/-- The number of steps, for a seed written as a power of two times an odd number. -/
theorem C101_seeded_period {v o : Nat} (hv : v ≤ 63) (ho : o % 2 = 1) (hs : 2 ^ v * o < 2 ^ 64) (n : Nat) :
    iter (pcgNext (pcgSeeded (2 ^ v * o)).2) n (pcgSeeded (2 ^ v * o)).1 = (pcgSeeded (2 ^ v * o)).1 ↔ 2 ^ (63 - v) ∣ n := by
  rw [C101_seeded hs]
  obtain ⟨j, hj⟩ : ∃ j, 63 = v + j := ⟨63 - v, by omega⟩
  have hc : Nat.Coprime (2 ^ j) o := Nat.Coprime.pow_left _ (Nat.coprime_two_left.mpr (Nat.odd_iff.mpr ho))
  rw [show 63 - v = j by omega, hj, Nat.pow_add, Nat.mul_assoc, Nat.mul_dvd_mul_iff_left (Nat.pow_pos (by decide)), hc.dvd_mul_left]

example : iter (pcgNext (pcgSeeded (2 ^ 60 * 3)).2) 8 (2 ^ 60 * 3) = 2 ^ 60 * 3 ∧ iter (pcgNext (pcgSeeded (2 ^ 60 * 3)).2) 4 (2 ^ 60 * 3) ≠ 2 ^ 60 * 3 := by decide +kernel

end C4
