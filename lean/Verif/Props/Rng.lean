import Verif.Props.Small
import Mathlib.Tactic.Ring
import Mathlib.Data.Nat.ModEq
import Mathlib.Data.Nat.Prime.Basic
import Mathlib.Algebra.Order.Group.Nat
import Mathlib.Algebra.Ring.Parity
/-
Properties C83 and C101 to C103: random generators.
-/
namespace C4

/-! ### C83 -/

/-- **C83 is false**: the very first call of a default-constructed `pcg` shifts by a negative amount. -/
theorem C83_refuted : pcg 0x853c49e6748fea9b 0xda3e39cb94b95bdb = .ub := by decide +kernel

/-- **C83 is false** for half of all states. -/
theorem C83_refuted_half {s : Nat} (inc : Nat) (h1 : 2 ^ 63 ≤ s) (h2 : s < 2 ^ 64) : pcg s inc = .ub := by
  unfold pcg shr32
  have : ((if s < 2 ^ 63 then (s : Int) else (s : Int) - 2 ^ 64) / 2 ^ 59) < 0 := by
    rw [if_neg (by omega)]
    omega
  simp only []
  rw [if_neg (by omega)]
  rfl

/-- Rotation to the right of a 32-bit value. -/
def Spec.rotr32 (x r : Nat) : Nat := x / 2 ^ r + (x % 2 ^ r) * 2 ^ (32 - r)

open Spec

/-- **C83**, what holds: for states below 2^63 all shifts are defined, and the result is the 32-bit value rotated by the upper bits of
the state, as in the published generator.  Missing: the other states (false, see above). -/
theorem C83_shifts_partial {s : Nat} (inc : Nat) (h : s < 2 ^ 63) :
    pcg s inc = .ok (pcgNext inc s, rotr32 (((s >>> 18 ^^^ s) >>> 27) % 2 ^ 32) (s >>> 59)) := by
  unfold pcg
  generalize hx : ((s >>> 18 ^^^ s) >>> 27) % 2 ^ 32 = x
  have hxlt : x < 2 ^ 32 := by rw [← hx]; exact Nat.mod_lt _ (by decide)
  have hr : s >>> 59 = s / 2 ^ 59 := Nat.shiftRight_eq_div_pow s 59
  have hr16 : s / 2 ^ 59 < 16 := by omega
  have hrot : ((if s < 2 ^ 63 then (s : Int) else (s : Int) - 2 ^ 64) / 2 ^ 59) = ((s / 2 ^ 59 : Nat) : Int) := by
    rw [if_pos h]; omega
  rw [hr]
  generalize s / 2 ^ 59 = r at *
  simp only [hrot]
  unfold shr32 shl32
  rw [if_pos ⟨by omega, by omega⟩, Res.ok_bind, Int.toNat_natCast]
  have hneg : ((-(r : Int) % 2 ^ 64).toNat &&& 31) = if r = 0 then 0 else 32 - r := by
    have e : ((-(r : Int) % 2 ^ 64).toNat) = if r = 0 then 0 else 2 ^ 64 - r := by
      split
      · next h => subst h; rfl
      · omega
    have e31 : 31 = 2 ^ 5 - 1 := rfl
    rw [e31, Nat.and_two_pow_sub_one_eq_mod, e]
    split
    · rfl
    · omega
  rw [hneg]
  by_cases h0 : r = 0
  · subst h0
    rw [if_pos rfl, if_pos ⟨by omega, by omega⟩, Res.ok_bind]
    unfold rotr32
    simp only [Int.toNat_natCast, Nat.shiftRight_zero, Nat.shiftLeft_zero, Nat.pow_zero, Nat.div_one, Nat.mod_one, Nat.zero_mul,
      Nat.add_zero]
    rw [Nat.mod_eq_of_lt hxlt, Nat.or_self]
  · rw [if_neg h0, if_pos ⟨by omega, by omega⟩, Res.ok_bind, Int.toNat_natCast]
    congr 2
    rw [Nat.shiftRight_eq_div_pow, Nat.shiftLeft_eq]
    have e1 : x * 2 ^ (32 - r) % 2 ^ 32 = (x % 2 ^ r) * 2 ^ (32 - r) := by
      have : (2 : Nat) ^ 32 = 2 ^ r * 2 ^ (32 - r) := by rw [← Nat.pow_add]; congr 1; omega
      rw [this, Nat.mul_mod_mul_right]
    rw [e1]
    unfold rotr32
    have e2 : x / 2 ^ r < 2 ^ (32 - r) := by
      apply Nat.div_lt_of_lt_mul
      rw [← Nat.pow_add]
      have : r + (32 - r) = 32 := by omega
      rw [this]; exact hxlt
    rw [Nat.or_comm, Nat.add_comm, Nat.mul_comm, ← Nat.two_pow_add_eq_or_of_lt e2]

example : pcg 0x7000000012345678 1 = .ok (pcgNext 1 0x7000000012345678, rotr32 0x00038002 14) := by decide +kernel

/-! ### C101: period of the state of pcg -/

def iter (f : Nat → Nat) : Nat → Nat → Nat
  | 0, x => x
  | n + 1, x => iter f n (f x)

/-- **C101 is false**: `pcg(0)` gives zero forever. -/
theorem C101_refuted (n : Nat) : pcgSeeded 0 = (0, 0) ∧ pcgRun 0 n 0 = .ok (0, List.replicate n 0) := by
  refine ⟨rfl, ?_⟩
  induction n with
  | zero => rfl
  | succ n ih =>
    have e : pcg 0 0 = .ok (0, 0) := by decide +kernel
    rw [pcgRun, e, Res.ok_bind]
    simp only []
    rw [ih, Res.ok_bind]
    rfl

/-- **C101 is false** for every seed given as a number: the increment is even, so the state keeps its parity and goes through at
most half of the states. -/
theorem C101_refuted_parity (s n : Nat) :
    iter (pcgNext (pcgSeeded s).2) n (pcgSeeded s).1 % 2 = s % 2 := by
  have hinc : (pcgSeeded s).2 % 2 = 0 := by
    unfold pcgSeeded
    simp only [Nat.shiftLeft_eq]
    omega
  show iter (pcgNext (pcgSeeded s).2) n s % 2 = s % 2
  generalize (pcgSeeded s).2 = inc at hinc
  induction n generalizing s with
  | zero => rfl
  | succ n ih =>
    rw [iter, ih]
    unfold pcgNext
    omega

theorem iter_pcg_linear (n s x y : Nat) (h : x ≡ s * y [MOD 2 ^ 64]) :
    iter (pcgNext (s * 2 % 2 ^ 64)) n x ≡ s * iter (pcgNext 2) n y [MOD 2 ^ 64] := by
  induction n generalizing x y with
  | zero => exact h
  | succ n ih =>
    rw [iter, iter]
    refine ih _ _ ?_
    unfold pcgNext
    generalize (2 : Nat) ^ 64 = M at *
    refine (Nat.mod_modEq _ _).trans ?_
    refine Nat.ModEq.trans ?_ ((Nat.mod_modEq _ _).symm.mul_left s)
    rw [Nat.mul_add, ← Nat.mul_assoc]
    exact (h.mul_right _).add (Nat.mod_modEq _ _)

/-- **C101 is false** for a generator seeded with a number: its states are the multiples, by the seed, of those of the generator seeded with 1.  So two
seeds give proportional states, and the states of a seed divisible by 2^k are all divisible by 2^k. -/
theorem C101_refuted_linear (s n : Nat) (hs : s < 2 ^ 64) :
    iter (pcgNext (pcgSeeded s).2) n (pcgSeeded s).1 = s * iter (pcgNext (pcgSeeded 1).2) n (pcgSeeded 1).1 % 2 ^ 64 := by
  have h := iter_pcg_linear n s s 1 (by rw [Nat.mul_one])
  have e1 : (pcgSeeded s).2 = s * 2 % 2 ^ 64 := by unfold pcgSeeded; rw [Nat.shiftLeft_eq, Nat.pow_one]
  have e2 : (pcgSeeded 1).2 = 2 := by unfold pcgSeeded; decide +kernel
  have hlt : ∀ inc, iter (pcgNext inc) n s < 2 ^ 64 := by
    intro inc
    clear h e1
    induction n generalizing s with
    | zero => exact hs
    | succ n ih => rw [iter]; exact ih _ (Nat.mod_lt _ (by omega))
  rw [e1, e2]
  have f1 : ∀ s, (pcgSeeded s).1 = s := fun _ => rfl
  rw [f1, f1, ← Nat.mod_eq_of_lt (hlt _)]
  exact h

example : iter (pcgNext (pcgSeeded (2 ^ 60 + 3)).2) 5 (2 ^ 60 + 3) = (2 ^ 60 + 3) * iter (pcgNext 2) 5 1 % 2 ^ 64 ∧
    iter (pcgNext (pcgSeeded (2 ^ 63)).2) 5 (2 ^ 63) = 2 ^ 63 := by decide +kernel

/-- The sum 1 + a + ... + a^(n-1). -/
def geo (a : Nat) : Nat → Nat
  | 0 => 0
  | n + 1 => geo a n * a + 1

theorem pow_mod4 {a : Nat} (ha : a % 4 = 1) (n : Nat) : a ^ n % 4 = 1 := by
  induction n with
  | zero => rfl
  | succ n ih => rw [Nat.pow_succ, Nat.mul_mod, ih, ha]

theorem geo_mul (a n : Nat) : geo a n * (a - 1) + 1 = a ^ n ∨ a = 0 := by
  rcases Nat.eq_zero_or_pos a with h | h
  · exact .inr h
  · left
    induction n with
    | zero => rw [geo, Nat.zero_mul, Nat.pow_zero]
    | succ n ih =>
      obtain ⟨b, rfl⟩ : ∃ b, a = b + 1 := ⟨a - 1, by omega⟩
      rw [Nat.add_sub_cancel] at ih ⊢
      rw [geo, Nat.pow_succ, ← ih]
      ring

theorem geo_add (a m n : Nat) : geo a (m + n) = geo a m * a ^ n + geo a n := by
  induction n with
  | zero => simp [geo]
  | succ n ih =>
    rw [← Nat.add_assoc, geo, ih, geo, Nat.pow_succ]
    ring

/-- For a ≡ 1 modulo 4, the sum is divisible by the same powers of two as the number of terms. -/
theorem geo_dvd {a : Nat} (ha : a % 4 = 1) (k : Nat) : ∀ n, 2 ^ k ∣ geo a n ↔ 2 ^ k ∣ n := by
  have hpar : ∀ n, geo a n % 2 = n % 2 := by
    intro n
    induction n with
    | zero => rfl
    | succ n ih =>
      rw [geo, Nat.add_mod, Nat.mul_mod, ih]
      have : a % 2 = 1 := by omega
      rw [this]
      omega
  induction k with
  | zero => intro n; simp
  | succ k ih =>
    intro n
    rcases Nat.mod_two_eq_zero_or_one n with h | h
    · obtain ⟨m, rfl⟩ : ∃ m, n = m + m := ⟨n / 2, by omega⟩
      rw [geo_add]
      obtain ⟨b, hb⟩ : ∃ b, a ^ m + 1 = 2 * b ∧ b % 2 = 1 := ⟨(a ^ m + 1) / 2, by have := pow_mod4 ha m; omega, by have := pow_mod4 ha m; omega⟩
      have e : geo a m * a ^ m + geo a m = 2 * (geo a m * b) := by
        have : geo a m * a ^ m + geo a m = geo a m * (a ^ m + 1) := by ring
        rw [this, hb.1]; ring
      have e2 : m + m = 2 * m := by ring
      rw [e, e2, Nat.pow_succ, Nat.mul_comm (2 ^ k) 2, Nat.mul_dvd_mul_iff_left (by decide), Nat.mul_dvd_mul_iff_left (by decide), ← ih m]
      constructor
      · intro hd
        have hcop : Nat.Coprime (2 ^ k) b := by
          apply Nat.Coprime.pow_left
          rw [Nat.coprime_two_left]
          exact Nat.odd_iff.mpr hb.2
        exact hcop.dvd_of_dvd_mul_right hd
      · exact fun hd => Nat.dvd_mul_right_of_dvd hd b
    · constructor
      · intro hd
        have : 2 ∣ geo a n := Nat.dvd_trans ⟨2 ^ k, by rw [Nat.pow_succ]; ring⟩ hd
        have := hpar n
        omega
      · intro hd
        have : 2 ∣ n := Nat.dvd_trans ⟨2 ^ k, by rw [Nat.pow_succ]; ring⟩ hd
        omega

theorem iter_lcg {a c m : Nat} (x n : Nat) (hx : x < m) :
    iter (fun x => (x * a + c) % m) n x = (x * a ^ n + c * geo a n) % m := by
  induction n generalizing x with
  | zero => simp [iter, geo, Nat.mod_eq_of_lt hx]
  | succ n ih =>
    have hm : 0 < m := by omega
    rw [iter, ih _ (Nat.mod_lt _ hm)]
    have e : x * a ^ (n + 1) + c * geo a (n + 1) = (x * a + c) * a ^ n + c * geo a n := by
      have := geo_add a 1 n
      rw [Nat.add_comm 1 n] at this
      rw [this]
      simp only [geo]
      rw [Nat.pow_succ]; ring
    rw [e, Nat.add_mod, Nat.mod_mul_mod, ← Nat.add_mod]

/-- A linear congruential generator modulo a power of two with a ≡ 1 modulo 4 and odd increment has full period. -/
theorem lcg_period {a c k : Nat} (ha : a % 4 = 1) (hc : c % 2 = 1) {x : Nat} (hx : x < 2 ^ k) (n : Nat) :
    iter (fun x => (x * a + c) % 2 ^ k) n x = x ↔ 2 ^ k ∣ n := by
  rw [iter_lcg x n hx, ← geo_dvd ha k n]
  have hg : geo a n * (a - 1) + 1 = a ^ n := (geo_mul a n).resolve_right (by omega)
  have e : x * a ^ n + c * geo a n = x + (x * (a - 1) + c) * geo a n := by
    rw [← hg]; ring
  have hodd : Nat.Coprime (2 ^ k) (x * (a - 1) + c) := by
    apply Nat.Coprime.pow_left
    rw [Nat.coprime_two_left, Nat.odd_iff, Nat.add_mod, Nat.mul_mod]
    have : (a - 1) % 2 = 0 := by omega
    rw [this, hc]; simp
  rw [e]
  constructor
  · intro h
    apply hodd.dvd_of_dvd_mul_left
    have h1 : (x + (x * (a - 1) + c) * geo a n) % 2 ^ k = (x + 0) % 2 ^ k := by rw [h, Nat.add_zero, Nat.mod_eq_of_lt hx]
    have h2 := (Nat.modEq_iff_dvd' (Nat.le_add_right _ _)).mp (show (x + 0) % 2 ^ k = _ from h1.symm)
    rwa [Nat.add_zero, Nat.add_sub_cancel_left] at h2
  · intro h
    obtain ⟨j, hj⟩ := Nat.dvd_mul_left_of_dvd h (x * (a - 1) + c)
    rw [hj, Nat.add_mul_mod_self_left, Nat.mod_eq_of_lt hx]

/-- **C101**, what holds: with an odd increment, as set by the default constructor and by `seed(random_device)`, the state returns to
its value after 2^64 steps and not before, from every state.  Missing: generators constructed with a number (false, see above). -/
theorem C101_period_partial {inc s : Nat} (hi : inc % 2 = 1) (hs : s < 2 ^ 64) (n : Nat) :
    iter (pcgNext inc) n s = s ↔ 2 ^ 64 ∣ n :=
  lcg_period (by decide) hi hs n

example : (0xda3e39cb94b95bdb : Nat) % 2 = 1 ∧ (0x853c49e6748fea9b : Nat) < 2 ^ 64 := by decide

/-! ### C102: splitmix -/

/-- **C102**: the state of `splitmix` returns to its value after 2^64 steps and not before, from every seed. -/
theorem C102_period {s : Nat} (hs : s < 2 ^ 64) (n : Nat) : iter splitmixNext n s = s ↔ 2 ^ 64 ∣ n := by
  have h := lcg_period (a := 1) (c := 0x9E3779B97F4A7C15) (k := 64) (by decide) (by decide) hs n
  have e : (fun x => (x * 1 + 0x9E3779B97F4A7C15) % 2 ^ 64) = splitmixNext := by
    funext x; unfold splitmixNext; rw [Nat.mul_one]
  rw [e] at h
  exact h

/-- `z ^ (z >> k)` is injective for k > 0. -/
theorem xorshr_inj {k : Nat} (hk : 0 < k) {x y : Nat} (h : x ^^^ (x >>> k) = y ^^^ (y >>> k)) : x = y := by
  obtain ⟨w, hx, hy⟩ : ∃ w, x < 2 ^ w ∧ y < 2 ^ w := by
    refine ⟨x + y, Nat.lt_of_lt_of_le (Nat.lt_two_pow_self (n := x)) (Nat.pow_le_pow_right (by decide) (by omega)),
      Nat.lt_of_lt_of_le (Nat.lt_two_pow_self (n := y)) (Nat.pow_le_pow_right (by decide) (by omega))⟩
  have key : ∀ n i, w ≤ i + n → x.testBit i = y.testBit i := by
    intro n
    induction n with
    | zero =>
      intro i hi
      have hp : 2 ^ w ≤ 2 ^ i := Nat.pow_le_pow_right (by decide) hi
      rw [Nat.testBit_lt_two_pow (Nat.lt_of_lt_of_le hx hp), Nat.testBit_lt_two_pow (Nat.lt_of_lt_of_le hy hp)]
    | succ n ih =>
      intro i hi
      have h1 := congrArg (fun z => z.testBit i) h
      simp only [Nat.testBit_xor, Nat.testBit_shiftRight] at h1
      rw [ih (k + i) (by omega)] at h1
      cases hxi : x.testBit i <;> cases hyi : y.testBit i <;> simp [hxi, hyi] at h1 ⊢
  exact Nat.eq_of_testBit_eq fun i => key w i (by omega)

theorem xorshr_lt {x k w : Nat} (hx : x < 2 ^ w) : x ^^^ (x >>> k) < 2 ^ w := by
  apply Nat.xor_lt_two_pow hx
  rw [Nat.shiftRight_eq_div_pow]
  exact Nat.lt_of_le_of_lt (Nat.div_le_self _ _) hx

/-- **C102**: the mixing of the state is injective: different states give different 64-bit values (of which 32 bits are returned). -/
theorem C102_mix {x y : Nat} (hx : x < 2 ^ 64) (hy : y < 2 ^ 64) (h : splitmixMix x = splitmixMix y) : x = y := by
  unfold splitmixMix at h
  simp only [] at h
  have h1 := xorshr_inj (by decide) h
  have lt : ∀ z, (z % 2 ^ 64) < 2 ^ 64 := fun z => Nat.mod_lt _ (by decide)
  have h2 := mul_inj (m := 2 ^ 64) (q := 3573116690164977347) (by decide) (xorshr_lt (lt _)) (xorshr_lt (lt _)) h1
  have h3 := xorshr_inj (by decide) h2
  have h4 := mul_inj (m := 2 ^ 64) (q := 10871156337175269513) (by decide) (xorshr_lt hx) (xorshr_lt hy) h3
  exact xorshr_inj (by decide) h4

example : splitmix 1 = (0x9E3779B97F4A7C16, (splitmixMix 0x9E3779B97F4A7C16 >>> 31) % 2 ^ 32) := rfl
example : splitmixMix 1 ≠ splitmixMix 2 := by decide

/-! ### C103: xorshift -/

/-- `z ^ (z << k)` modulo 2^64 is injective for k > 0. -/
theorem xorshl_inj {k w : Nat} (hk : 0 < k) {x y : Nat}
    (h : x ^^^ ((x <<< k) % 2 ^ w) = y ^^^ ((y <<< k) % 2 ^ w)) : x = y := by
  apply Nat.eq_of_testBit_eq
  intro i
  induction i using Nat.strongRecOn with
  | _ i ih =>
    have h1 := congrArg (fun z => z.testBit i) h
    simp only [Nat.testBit_xor, Nat.testBit_mod_two_pow, Nat.testBit_shiftLeft] at h1
    by_cases hki : i ≥ k
    · rw [ih (i - k) (by omega)] at h1
      generalize (decide (i < w) && (decide (i ≥ k) && y.testBit (i - k))) = z at h1
      cases hxi : x.testBit i <;> cases hyi : y.testBit i <;> cases z <;> simp [hxi, hyi] at h1 ⊢
    · simp only [ge_iff_le, hki, decide_false, Bool.false_and, Bool.and_false, Bool.xor_false] at h1
      exact h1

/-- **C103**: the step of `xorshift` is injective on the states. -/
theorem C103_injective {x y : Nat} (h : (xorshift x).1 = (xorshift y).1) : x = y := by
  unfold xorshift at h
  simp only [] at h
  have h1 := xorshr_inj (by decide) h
  have h2 := xorshl_inj (by decide) h1
  exact xorshr_inj (by decide) h2

/-- **C103**: a generator whose state is not zero never gets stuck at zero, however many numbers are drawn. -/
theorem C103_nonzero {s : Nat} (hs : s < 2 ^ 64) (h0 : s ≠ 0) (n : Nat) :
    iter (fun s => (xorshift s).1) n s ≠ 0 ∧ iter (fun s => (xorshift s).1) n s < 2 ^ 64 := by
  induction n generalizing s with
  | zero => exact ⟨h0, hs⟩
  | succ n ih =>
    rw [iter]
    apply ih
    · unfold xorshift
      simp only []
      have h1 := xorshr_lt (k := 11) hs
      exact xorshr_lt (Nat.xor_lt_two_pow h1 (Nat.mod_lt _ (by decide)))
    · intro e
      have z : (xorshift 0).1 = 0 := by decide
      exact h0 (C103_injective (e.trans z.symm))

example : (xorshift 0xc1f651c67c62c6e0).1 ≠ 0 := by decide

end C4
