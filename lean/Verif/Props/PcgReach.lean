import Verif.Props.RngUniform
import Verif.Props.RngExact
/-
Property C83: from which states a pcg comes to an undefined call.
-/
namespace C4

theorem iter_one (f : Nat → Nat) (x : Nat) : iter f 1 x = f x := by rw [iter, iter]

/-- A state that changes comes to one with the other value of the highest bit. -/
theorem pcg_opposite {inc s : Nat} (hs : s < 2 ^ 64) (h : pcgNext inc s ≠ s) : ∃ n ≤ 2 ^ 63, iter (pcgNext inc) n s = (s + 2 ^ 63) % 2 ^ 64 := by
  have h1 : ¬ 2 ^ 64 ∣ s * 6364136223846793004 + inc := by
    intro hd
    have h2 := (C101_exact (inc := inc) hs 1).mpr (by rw [Nat.mul_one]; exact hd)
    rw [iter_one] at h2
    exact h h2
  have hv : ∀ k, ¬ 2 ^ k ∣ s * 6364136223846793004 + inc → ∃ v < k, 2 ^ v ∣ s * 6364136223846793004 + inc ∧ ¬ 2 ^ (v + 1) ∣ s * 6364136223846793004 + inc := by
    intro k
    induction k with
    | zero => intro hk; exact absurd (Nat.one_dvd _) hk
    | succ k ih =>
      intro hk
      by_cases hk' : 2 ^ k ∣ s * 6364136223846793004 + inc
      · exact ⟨k, Nat.lt_succ_self k, hk', hk⟩
      · obtain ⟨v, hv, h⟩ := ih hk'
        exact ⟨v, Nat.lt_succ_of_lt hv, h⟩
  obtain ⟨v, hv, hd, hd'⟩ := hv 64 h1
  obtain ⟨j, hj⟩ : ∃ j, v + j = 63 := ⟨63 - v, by omega⟩
  refine ⟨2 ^ j, Nat.pow_le_pow_right (by decide) (by omega), ?_⟩
  have e63 : (2 : Nat) ^ 63 = 2 ^ v * 2 ^ j := by rw [← Nat.pow_add, hj]
  have e64 : (2 : Nat) ^ 64 = 2 ^ (v + 1) * 2 ^ j := by rw [← Nat.pow_add, show v + 1 + j = 64 by omega]
  have p1 : 2 ^ 63 ∣ (s * 6364136223846793004 + inc) * 2 ^ j := by rw [e63]; exact Nat.mul_dvd_mul_right hd _
  have p2 : ¬ 2 ^ 64 ∣ (s * 6364136223846793004 + inc) * 2 ^ j := by
    rw [e64, Nat.mul_dvd_mul_iff_right (Nat.two_pow_pos j)]
    exact hd'
  rw [← geo_dvd_mul (a := 6364136223846793005) (by decide)] at p1 p2
  show iter (fun x => (x * 6364136223846793005 + inc) % 2 ^ 64) (2 ^ j) s = _
  rw [iter_lcg s (2 ^ j) hs]
  have hg : geo 6364136223846793005 (2 ^ j) * 6364136223846793004 + 1 = 6364136223846793005 ^ (2 ^ j) := (geo_mul _ _).resolve_right (by decide)
  rw [← hg]
  generalize geo 6364136223846793005 (2 ^ j) = g at *
  have e : s * (g * 6364136223846793004 + 1) + inc * g = s + (s * 6364136223846793004 + inc) * g := by ring
  rw [e]
  generalize (s * 6364136223846793004 + inc) * g = y at *
  omega

/-- **C83**, exactly: sooner or later a call is undefined, within 2^63 + 1 calls, unless the state is one that no call changes and has its highest bit clear. -/
theorem C83_reached_exact {g : Pcg} (hs : g.state < 2 ^ 64) :
    (∃ n ≤ 2 ^ 63 + 1, rngDraw Pcg.step n g = .ub) ↔ ¬ (g.state < 2 ^ 63 ∧ ∃ r, g.step = .ok (g, r)) := by
  constructor
  · rintro ⟨n, -, h⟩ ⟨-, r, e⟩
    have : ∀ n, rngDraw Pcg.step n g = .ok (g, List.replicate n r) := by
      intro n
      induction n with
      | zero => rfl
      | succ n ih =>
        rw [rngDraw, e, Res.ok_bind]
        dsimp only
        rw [ih, Res.ok_bind, List.replicate_succ]
    rw [this n] at h
    cases h
  · intro h
    by_cases h1 : 2 ^ 63 ≤ g.state
    · exact ⟨1, by decide, pcg_draw_ub 0 hs h1⟩
    · have h2 : pcgNext g.inc g.state ≠ g.state := by
        intro e
        apply h
        refine ⟨Nat.lt_of_not_le h1, Spec.rotr32 (((g.state >>> 18 ^^^ g.state) >>> 27) % 2 ^ 32) (g.state >>> 59), ?_⟩
        rw [Pcg.step, C83_shifts_partial g.inc (Nat.lt_of_not_le h1), e]
        rfl
      obtain ⟨n, hn, e⟩ := pcg_opposite hs h2
      refine ⟨n + 1, Nat.succ_le_succ hn, pcg_draw_ub n hs ?_⟩
      rw [e]
      omega

/-- **C83** for a pcg constructed with a number: a call is undefined sooner or later, unless the number is 0. -/
theorem C83_seeded {s : Nat} (hs : s < 2 ^ 64) : (∃ n ≤ 2 ^ 63 + 1, rngDraw Pcg.step n (Pcg.ctor s) = .ub) ↔ s ≠ 0 := by
  have e0 : (Pcg.ctor s).state = s := rfl
  have ei : (Pcg.ctor s).inc = (pcgSeeded s).2 := rfl
  rw [C83_reached_exact (by rw [e0]; exact hs), e0]
  constructor
  · rintro h rfl
    exact h ⟨by decide, 0, by decide +kernel⟩
  · rintro h ⟨h1, r, e⟩
    rw [Pcg.step, e0, C83_shifts_partial _ h1, Res.ok_bind] at e
    injection e with e
    injection e with e
    have e := congrArg Pcg.state e
    have h3 := (C101_seeded hs 1).mp (by rw [iter_one]; exact e)
    rw [Nat.mul_one] at h3
    exact h (Nat.eq_zero_of_dvd_of_lt h3 h1)

example : (Pcg.ctor 1).state < 2 ^ 64 ∧ (rngDraw Pcg.step 2 (Pcg.ctor 1) ≠ .ub) := by decide +kernel
/-- A state that no call changes,. -/
example : (Pcg.mk 3 (2 ^ 64 - 3 * 6364136223846793004 % 2 ^ 64)).step = .ok (Pcg.mk 3 (2 ^ 64 - 3 * 6364136223846793004 % 2 ^ 64), 0) := by decide +kernel
end C4
