import Verif.Props.Rng
import Mathlib.Tactic.NormNum.Prime
/-
Property C103: the period of xorshift.  The step is linear over the field with two elements; polynomials in it are represented by the
bits of a number, and computed with modulo its characteristic polynomial.
-/
namespace C4
namespace Xs

/-- The step of the state. -/
def f (s : Nat) : Nat := (xorshift s).1

theorem f_def (s : Nat) : f s = (s ^^^ (s >>> 11) ^^^ (((s ^^^ (s >>> 11)) <<< 31) % 2 ^ 64)) ^^^
    ((s ^^^ (s >>> 11) ^^^ (((s ^^^ (s >>> 11)) <<< 31) % 2 ^ 64)) >>> 18) := rfl

theorem shr_xor (k x y : Nat) : (x ^^^ y) ^^^ ((x ^^^ y) >>> k) = (x ^^^ (x >>> k)) ^^^ (y ^^^ (y >>> k)) := by
  rw [Nat.shiftRight_xor_distrib]
  ac_rfl

theorem shl_xor (k x y : Nat) : (x ^^^ y) ^^^ (((x ^^^ y) <<< k) % 2 ^ 64) = (x ^^^ ((x <<< k) % 2 ^ 64)) ^^^ (y ^^^ ((y <<< k) % 2 ^ 64)) := by
  rw [Nat.shiftLeft_xor_distrib, Nat.xor_mod_two_pow]
  ac_rfl

theorem f_xor (x y : Nat) : f (x ^^^ y) = f x ^^^ f y := by
  rw [f_def, f_def, f_def, shr_xor 11, shl_xor, shr_xor]

theorem f_zero : f 0 = 0 := by decide

theorem f_lt {x : Nat} (h : x < 2 ^ 64) : f x < 2 ^ 64 := by
  rw [f_def]
  have h1 := xorshr_lt (k := 11) h
  exact xorshr_lt (Nat.xor_lt_two_pow h1 (Nat.mod_lt _ (by decide)))

/-- The polynomial with the `k` lowest bits of `p` as coefficients, evaluated at the step and applied to `x`. -/
def ev : Nat → Nat → Nat → Nat
  | 0, _, _ => 0
  | k + 1, p, x => (if p % 2 = 1 then x else 0) ^^^ ev k (p / 2) (f x)

theorem ev_zero (k p : Nat) : ev k p 0 = 0 := by
  induction k generalizing p with
  | zero => rfl
  | succ k ih => rw [ev, f_zero, ih]; simp

theorem ev_poly_zero (k x : Nat) : ev k 0 x = 0 := by
  induction k generalizing x with
  | zero => rfl
  | succ k ih => rw [ev, ih]; simp

theorem ev_xor (k p x y : Nat) : ev k p (x ^^^ y) = ev k p x ^^^ ev k p y := by
  induction k generalizing p x y with
  | zero => simp [ev]
  | succ k ih =>
    rw [ev, ev, ev, f_xor, ih]
    split
    · ac_rfl
    · simp

theorem ev_f (k p x : Nat) : ev k p (f x) = f (ev k p x) := by
  induction k generalizing p x with
  | zero => rw [ev, ev, f_zero]
  | succ k ih =>
    rw [ev, ev, f_xor, ← ih]
    split
    · rfl
    · rw [f_zero]

theorem ev_poly_xor (k p q x : Nat) : ev k (p ^^^ q) x = ev k p x ^^^ ev k q x := by
  induction k generalizing p q x with
  | zero => simp [ev]
  | succ k ih =>
    rw [ev, ev, ev, Nat.xor_div_two, ih]
    simp only [Nat.xor_mod_two_eq_one]
    have h1 := Nat.mod_two_eq_zero_or_one p
    have h2 := Nat.mod_two_eq_zero_or_one q
    rcases h1 with h1 | h1 <;> rcases h2 with h2 | h2 <;> simp [h1, h2]
    · ac_rfl
    · ac_rfl
    · rw [show x ^^^ ev k (p / 2) (f x) ^^^ (x ^^^ ev k (q / 2) (f x)) =
        (x ^^^ x) ^^^ (ev k (p / 2) (f x) ^^^ ev k (q / 2) (f x)) by ac_rfl]
      simp

theorem ev_lt {k p x : Nat} (h : x < 2 ^ 64) : ev k p x < 2 ^ 64 := by
  induction k generalizing p x with
  | zero => rw [ev]; decide
  | succ k ih =>
    rw [ev]
    apply Nat.xor_lt_two_pow _ (ih (f_lt h))
    split
    · exact h
    · decide

theorem ev_succ {k p x : Nat} (h : p < 2 ^ k) : ev (k + 1) p x = ev k p x := by
  induction k generalizing p x with
  | zero =>
    have : p = 0 := by omega
    subst this
    simp [ev]
  | succ k ih =>
    rw [ev, ih (by omega)]
    exact (ev.eq_2 p x k).symm

/-- The characteristic polynomial of the step. -/
def P : Nat := 0x101503d18a830d1d5

theorem char_basis : ∀ i < 64, ev 65 P (2 ^ i) = 0 := by decide +kernel

/-- Numbers below 2^k are sums of powers of two. -/
theorem linear_zero {g : Nat → Nat} (h0 : g 0 = 0) (hx : ∀ x y, g (x ^^^ y) = g x ^^^ g y) (k : Nat) (hb : ∀ i < k, g (2 ^ i) = 0) :
    ∀ x < 2 ^ k, g x = 0 := by
  induction k with
  | zero =>
    intro x h
    have : x = 0 := by omega
    rw [this, h0]
  | succ k ih =>
    intro x h
    have ih := ih fun i hi => hb i (by omega)
    by_cases hk : x < 2 ^ k
    · exact ih x hk
    · have e : x = (x ^^^ 2 ^ k) ^^^ 2 ^ k := by rw [Nat.xor_assoc, Nat.xor_self, Nat.xor_zero]
      rw [e, hx, hb k (by omega), Nat.xor_zero]
      apply ih
      have hb : x.testBit k = true := by
        rw [Nat.testBit_eq_decide_div_mod_eq]
        have : x / 2 ^ k = 1 := by
          apply Nat.div_eq_of_lt_le <;> omega
        simp [this]
      apply Nat.lt_pow_two_of_testBit
      intro j hj
      rcases Nat.eq_or_lt_of_le hj with rfl | hj
      · rw [Nat.testBit_xor, hb, Nat.testBit_two_pow_self]
        rfl
      rw [Nat.testBit_xor, Nat.testBit_lt_two_pow (Nat.lt_of_lt_of_le h (Nat.pow_le_pow_right (by decide) hj)),
        Nat.testBit_two_pow_of_ne (by omega)]
      rfl

theorem char_zero {x : Nat} (h : x < 2 ^ 64) : ev 65 P x = 0 :=
  linear_zero (ev_zero _ _) (ev_xor _ _) 64 char_basis x h

/-- Multiplication by the variable, modulo `P`. -/
def xtimes (r : Nat) : Nat := if 2 * r < 2 ^ 64 then 2 * r else (2 * r) ^^^ P

theorem xtimes_lt {r : Nat} (h : r < 2 ^ 64) : xtimes r < 2 ^ 64 := by
  unfold xtimes
  split
  · assumption
  · next h1 =>
    have hb : (2 * r).testBit 64 = true := by
      rw [Nat.testBit_eq_decide_div_mod_eq]
      rw [show 2 * r / 2 ^ 64 = 1 by omega]
      rfl
    have h2 : 2 * r < 2 ^ 65 := by omega
    apply Nat.lt_pow_two_of_testBit
    intro j hj
    rcases Nat.eq_or_lt_of_le hj with rfl | hj
    · rw [Nat.testBit_xor, hb]
      decide
    rw [Nat.testBit_xor, Nat.testBit_lt_two_pow (Nat.lt_of_lt_of_le h2 (Nat.pow_le_pow_right (by decide) hj)),
      Nat.testBit_lt_two_pow (x := P) (Nat.lt_of_lt_of_le (show P < 2 ^ 65 by decide) (Nat.pow_le_pow_right (by decide) hj))]
    rfl

theorem ev_xtimes {r x : Nat} (hr : r < 2 ^ 64) (hx : x < 2 ^ 64) : ev 64 (xtimes r) x = f (ev 64 r x) := by
  have h2 : ev 65 (2 * r) x = f (ev 64 r x) := by
    rw [ev, show 2 * r % 2 = 0 by omega, show 2 * r / 2 = r by omega, if_neg (by decide), Nat.zero_xor, ev_f]
  rw [← ev_succ (xtimes_lt hr)]
  unfold xtimes
  split
  · exact h2
  · rw [ev_poly_xor, char_zero hx, Nat.xor_zero, h2]

/-- The product of polynomials modulo `P`, with the `k` lowest coefficients of the first. -/
def mulAux : Nat → Nat → Nat → Nat
  | 0, _, _ => 0
  | k + 1, a, b => (if a % 2 = 1 then b else 0) ^^^ mulAux k (a / 2) (xtimes b)

theorem mulAux_lt {k a b : Nat} (h : b < 2 ^ 64) : mulAux k a b < 2 ^ 64 := by
  induction k generalizing a b with
  | zero => rw [mulAux]; decide
  | succ k ih =>
    rw [mulAux]
    apply Nat.xor_lt_two_pow _ (ih (xtimes_lt h))
    split
    · exact h
    · decide

theorem ev_mulAux {k a b x : Nat} (hb : b < 2 ^ 64) (hx : x < 2 ^ 64) : ev 64 (mulAux k a b) x = ev k a (ev 64 b x) := by
  induction k generalizing a b with
  | zero => rw [mulAux, ev, ev_poly_zero]
  | succ k ih =>
    rw [mulAux, ev_poly_xor, ev.eq_2 a (ev 64 b x) k, ih (xtimes_lt hb), ev_xtimes hb hx]
    split
    · rfl
    · rw [ev_poly_zero]

def mul (a b : Nat) : Nat := mulAux 64 a b

/-- Powers, by the bits of the exponent. -/
def pw : Nat → Nat → Nat → Nat
  | 0, _, _ => 1
  | k + 1, a, n => if n % 2 = 1 then mul a (pw k (mul a a) (n / 2)) else pw k (mul a a) (n / 2)

theorem iter_add (g : Nat → Nat) (m n x : Nat) : iter g (m + n) x = iter g n (iter g m x) := by
  induction m generalizing x with
  | zero => rw [Nat.zero_add]; rfl
  | succ m ih => rw [Nat.succ_add, iter, iter, ih]

theorem iter_lt {x : Nat} (h : x < 2 ^ 64) (n : Nat) : iter f n x < 2 ^ 64 := by
  induction n generalizing x with
  | zero => exact h
  | succ n ih => exact ih (f_lt h)

/-- The polynomial stands for `n` steps. -/
def Steps (p n : Nat) : Prop := p < 2 ^ 64 ∧ ∀ x < 2 ^ 64, ev 64 p x = iter f n x

theorem steps_mul {p q m n : Nat} (hp : Steps p m) (hq : Steps q n) : Steps (mul p q) (m + n) := by
  refine ⟨mulAux_lt hq.1, fun x hx => ?_⟩
  unfold mul
  rw [ev_mulAux hq.1 hx, hq.2 x hx, hp.2 _ (iter_lt hx n), ← iter_add, Nat.add_comm]

theorem steps_one : Steps 1 0 := by
  refine ⟨by decide, fun x _ => ?_⟩
  rw [ev, show 1 / 2 = 0 from rfl, ev_poly_zero]
  simp [iter]

theorem steps_two : Steps 2 1 := by
  refine ⟨by decide, fun x _ => ?_⟩
  rw [ev, ev, show 2 / 2 / 2 = 0 from rfl, ev_poly_zero]
  simp [iter]

theorem steps_pw {k a m n : Nat} (h : Steps a m) (hn : n < 2 ^ k) : Steps (pw k a n) (m * n) := by
  induction k generalizing a m n with
  | zero =>
    have : n = 0 := by omega
    subst this
    exact steps_one
  | succ k ih =>
    have h2 := ih (steps_mul h h) (n := n / 2) (by omega)
    rw [pw]
    split
    · have h3 := steps_mul h h2
      rwa [show m + (m + m) * (n / 2) = m * n by
        conv_rhs => rw [← Nat.div_add_mod n 2, show n % 2 = 1 from by assumption]
        ring] at h3
    · rwa [show (m + m) * (n / 2) = m * n by
        conv_rhs => rw [← Nat.div_add_mod n 2, show n % 2 = 0 by omega]
        ring] at h2

/-- The number of non-zero states. -/
def N : Nat := 2 ^ 64 - 1

theorem pw_N : pw 64 2 N = 1 := by decide +kernel

theorem iter_N {x : Nat} (h : x < 2 ^ 64) : iter f N x = x := by
  have h1 := steps_pw (k := 64) (n := N) steps_two (by decide)
  rw [pw_N, Nat.one_mul] at h1
  rw [← h1.2 x h, steps_one.2 x h]
  rfl

/-- An inverse of `f^n - 1` shows that no state but zero is left unchanged by `n` steps. -/
theorem no_fixed {n i : Nat} (hn : n < 2 ^ 64) (hi : mul i (pw 64 2 n ^^^ 1) = 1) {x : Nat} (hx : x < 2 ^ 64) (h : iter f n x = x) : x = 0 := by
  have h1 := steps_pw (k := 64) (n := n) steps_two hn
  rw [Nat.one_mul] at h1
  have h2 : ev 64 (pw 64 2 n ^^^ 1) x = 0 := by
    rw [ev_poly_xor, h1.2 x hx, steps_one.2 x hx, h]
    exact Nat.xor_self x
  have h3 := ev_mulAux (k := 64) (a := i) (b := pw 64 2 n ^^^ 1) (x := x) (Nat.xor_lt_two_pow h1.1 (by decide)) hx
  rw [h2, ev_zero] at h3
  have h4 := steps_one.2 x hx
  unfold mul at hi
  rw [← hi, h3] at h4
  exact h4.symm

theorem inv_3 : mul 0x84a9da65e3e080b4 (pw 64 2 (N / 3) ^^^ 1) = 1 := by decide +kernel
theorem inv_5 : mul 0x48ee62e4f07eed13 (pw 64 2 (N / 5) ^^^ 1) = 1 := by decide +kernel
theorem inv_17 : mul 0x9895609f84d958f2 (pw 64 2 (N / 17) ^^^ 1) = 1 := by decide +kernel
theorem inv_257 : mul 0x87d270b784089c3c (pw 64 2 (N / 257) ^^^ 1) = 1 := by decide +kernel
theorem inv_641 : mul 0x46ebb65051f085f6 (pw 64 2 (N / 641) ^^^ 1) = 1 := by decide +kernel
theorem inv_65537 : mul 0x90bd7a3db4a0f930 (pw 64 2 (N / 65537) ^^^ 1) = 1 := by decide +kernel
theorem inv_6700417 : mul 0x127a51e3081c07d0 (pw 64 2 (N / 6700417) ^^^ 1) = 1 := by decide +kernel

theorem N_factors : N = 3 * 5 * 17 * 257 * 641 * 65537 * 6700417 := by decide

theorem prime_factor {q : Nat} (hq : q.Prime) (h : q ∣ N) :
    q = 3 ∨ q = 5 ∨ q = 17 ∨ q = 257 ∨ q = 641 ∨ q = 65537 ∨ q = 6700417 := by
  rw [N_factors] at h
  have pr : ∀ r : Nat, r.Prime → q ∣ r → q = r := fun r hr hd => (Nat.prime_dvd_prime_iff_eq hq hr).mp hd
  simp only [hq.dvd_mul] at h
  rcases h with (((((h | h) | h) | h) | h) | h) | h
  · exact .inl (pr 3 (by norm_num) h)
  · exact .inr (.inl (pr 5 (by norm_num) h))
  · exact .inr (.inr (.inl (pr 17 (by norm_num) h)))
  · exact .inr (.inr (.inr (.inl (pr 257 (by norm_num) h))))
  · exact .inr (.inr (.inr (.inr (.inl (pr 641 (by norm_num) h)))))
  · exact .inr (.inr (.inr (.inr (.inr (.inl (pr 65537 (by norm_num) h))))))
  · exact .inr (.inr (.inr (.inr (.inr (.inr (pr 6700417 (by norm_num) h))))))

theorem no_fixed_div {q : Nat} (hq : q.Prime) (h : q ∣ N) {x : Nat} (hx : x < 2 ^ 64) (he : iter f (N / q) x = x) : x = 0 := by
  have hlt : N / q < 2 ^ 64 := Nat.lt_of_le_of_lt (Nat.div_le_self _ _) (by decide)
  rcases prime_factor hq h with rfl | rfl | rfl | rfl | rfl | rfl | rfl
  · exact no_fixed hlt inv_3 hx he
  · exact no_fixed hlt inv_5 hx he
  · exact no_fixed hlt inv_17 hx he
  · exact no_fixed hlt inv_257 hx he
  · exact no_fixed hlt inv_641 hx he
  · exact no_fixed hlt inv_65537 hx he
  · exact no_fixed hlt inv_6700417 hx he

theorem iter_mul_fixed {g : Nat → Nat} {n x : Nat} (h : iter g n x = x) (k : Nat) : iter g (n * k) x = x := by
  induction k with
  | zero => rfl
  | succ k ih => rw [Nat.mul_succ, iter_add, ih, h]

theorem iter_mod_fixed {g : Nat → Nat} {m n x : Nat} (hm : iter g m x = x) (hn : iter g n x = x) : iter g (n % m) x = x := by
  have h := hn
  rw [← Nat.div_add_mod n m, iter_add, iter_mul_fixed hm] at h
  exact h

theorem iter_gcd_fixed {g : Nat → Nat} {m n x : Nat} (hm : iter g m x = x) (hn : iter g n x = x) : iter g (Nat.gcd m n) x = x := by
  induction m, n using Nat.gcd.induction with
  | H0 n => rwa [Nat.gcd_zero_left]
  | H1 m n _ ih =>
    rw [Nat.gcd_rec]
    exact ih (iter_mod_fixed hm hn) hm

end Xs

open Xs in
/-- **C103**: the state of `xorshift` returns to its value after 2^64 - 1 calls and not before, from every state but zero: it goes through
all of the other states. -/
theorem C103_period {s : Nat} (hs : s < 2 ^ 64) (h0 : s ≠ 0) (n : Nat) :
    iter (fun s => (xorshift s).1) n s = s ↔ 2 ^ 64 - 1 ∣ n := by
  show iter f n s = s ↔ N ∣ n
  constructor
  · intro h
    have hg := iter_gcd_fixed (iter_N hs) h
    by_contra hd
    have hdvd : Nat.gcd N n ∣ N := Nat.gcd_dvd_left _ _
    obtain ⟨c, hc⟩ := hdvd
    have hc1 : c ≠ 1 := by
      rintro rfl
      rw [Nat.mul_one] at hc
      exact hd (hc ▸ Nat.gcd_dvd_right N n)
    obtain ⟨q, hq, hqc⟩ := Nat.exists_prime_and_dvd hc1
    obtain ⟨e, rfl⟩ := hqc
    apply h0
    refine no_fixed_div hq ⟨Nat.gcd N n * e, by rw [← Nat.mul_assoc, Nat.mul_comm q, Nat.mul_assoc]; exact hc⟩ hs ?_
    have : N / q = Nat.gcd N n * e := by
      apply Nat.div_eq_of_eq_mul_right hq.pos
      rw [← Nat.mul_assoc, Nat.mul_comm q, Nat.mul_assoc]
      exact hc
    rw [this]
    exact iter_mul_fixed hg e
  · rintro ⟨k, rfl⟩
    exact iter_mul_fixed (iter_N hs) k

example : (0xc1f651c67c62c6e0 : Nat) ≠ 0 ∧ (0xc1f651c67c62c6e0 : Nat) < 2 ^ 64 := by decide

end C4
