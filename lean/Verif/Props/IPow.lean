import Verif.IPow
import Verif.Charconv.ReadLemmas
import Mathlib.Tactic.Linarith
/-
Property C24 (`ipow`).
-/
namespace C4
open Spec

/-- The type has the value `x`. -/
def Spec.Fits (t : ITy) (x : Int) : Prop := t.min ≤ x ∧ x ≤ t.max

instance (t : ITy) (x : Int) : Decidable (Fits t x) := by unfold Fits; infer_instance

theorem fits_prom {t : ITy} {x : Int} (h : Fits t x) : Fits t.prom x := by
  obtain ⟨w, sgn⟩ := t
  obtain ⟨h1, h2⟩ := h
  cases w <;> cases sgn <;> simp [Fits, ITy.min, ITy.max, ITy.prom, W.bits] at h1 h2 ⊢ <;> omega

theorem step_fits {t : ITy} {x : Int} (h : Fits t x) : (t.arith x).2 = false ∧ t.wrap (t.arith x).1 = x := by
  have hp := fits_prom h
  rw [arith_no_overflow hp.1 hp.2]
  exact ⟨rfl, wrap_of_fits h.1 h.2⟩

theorem fits_small {t : ITy} {x : Int} (h1 : x.natAbs ≤ 1) (h2 : t.sgn = false → 0 ≤ x) : Fits t x := by
  obtain ⟨w, sgn⟩ := t
  cases w <;> cases sgn <;> simp [Fits, ITy.min, ITy.max, W.bits] at h2 ⊢ <;> omega

theorem natAbs_pow_le_one {b : Int} (h : b.natAbs ≤ 1) (k : Nat) : (b ^ k).natAbs ≤ 1 := by
  rw [Int.natAbs_pow]
  exact (Nat.pow_le_pow_left h k).trans (by simp)

theorem fits_mono {t : ITy} {b : Int} {e k : Nat} (hb : Fits t b) (he : Fits t (b ^ e)) (hk : k ≤ e) : Fits t (b ^ k) := by
  have h0 : t.sgn = false → 0 ≤ b := by
    intro h
    have := hb.1
    unfold ITy.min at this
    rw [h] at this
    simpa using this
  rcases Nat.eq_or_lt_of_le hk with rfl | hk
  · exact he
  by_cases h1 : b.natAbs ≤ 1
  · exact fits_small (natAbs_pow_le_one h1 k) (fun h => Int.pow_nonneg (h0 h))
  · have h2 : 2 * (b ^ k).natAbs ≤ (b ^ e).natAbs := by
      rw [Int.natAbs_pow, Int.natAbs_pow]
      obtain ⟨j, rfl⟩ : ∃ j, e = k + (j + 1) := ⟨e - k - 1, by omega⟩
      have h3 : 2 ≤ b.natAbs ^ (j + 1) := by
        rw [Nat.pow_succ]
        have : 1 ≤ b.natAbs ^ j := Nat.one_le_pow _ _ (by omega)
        calc 2 ≤ 1 * b.natAbs := by omega
          _ ≤ _ := Nat.mul_le_mul_right _ this
      rw [Nat.pow_add, Nat.mul_comm]
      exact Nat.mul_le_mul_left _ h3
    have h4 : t.sgn = false → 0 ≤ b ^ k := fun h => Int.pow_nonneg (h0 h)
    obtain ⟨w, sgn⟩ := t
    obtain ⟨a1, a2⟩ := he
    cases w <;> cases sgn <;> simp [Fits, ITy.min, ITy.max, W.bits] at a1 a2 h4 ⊢ <;> omega

theorem ipowMul_exact {t : ITy} {b : Int} (hb : Fits t b) : ∀ n j, Fits t (b ^ (j + n)) → ipowMul t b n (b ^ j) = .ok (b ^ (j + n)) := by
  intro n
  induction n with
  | zero => intro j _; rfl
  | succ n ih =>
    intro j h
    have h1 : Fits t (b ^ j * b) := by
      rw [← Int.pow_succ]
      exact fits_mono hb h (by omega)
    obtain ⟨h2, h3⟩ := step_fits h1
    unfold ipowMul
    rw [h2, h3, ← Int.pow_succ]
    have h4 : j + 1 + n = j + (n + 1) := by omega
    have := ih (j + 1) (by rw [h4]; exact h)
    rw [h4] at this
    exact this

theorem ipow_nonneg (t te : ITy) (b e : Int) (he : 0 ≤ e) : ipow t te b e = ipowMul t b e.toNat 1 := by
  unfold ipow
  cases te.sgn with
  | false => rfl
  | true => rw [if_pos rfl, if_pos he]

/-- C24: if the power can be represented in the type, it is returned, for all integer types of the base and the exponent;
no intermediate product overflows. -/
theorem C24_ipow_exact (t te : ITy) (b e : Int) (hb : Fits t b) (he : 0 ≤ e) (h : Fits t (b ^ e.toNat)) : ipow t te b e = .ok (b ^ e.toNat) := by
  rw [ipow_nonneg t te b e he]
  have := ipowMul_exact hb e.toNat 0 (by simpa using h)
  simpa using this

example : Fits ⟨.w32, true⟩ (-2) ∧ Fits ⟨.w32, true⟩ ((-2) ^ 31) := by decide
example : ipow ⟨.w32, true⟩ ⟨.w8, false⟩ (-2) 31 = .ok (-2147483648) := by decide +kernel

theorem arith_mul_dvd {t : ITy} {b k r : Int} (h : StoredAs t k r) : StoredAs t (k * b) (t.wrap (t.arith (r * b)).1) := by
  refine (wrap_stored t _).congr ?_
  have h1 := arith_dvd t (r * b)
  have h2 : (2 ^ t.w.bits : Int) ∣ r * b - k * b := by
    rw [← Int.sub_mul]
    exact Dvd.dvd.mul_right h.2.2 b
  have := Int.dvd_add h1 h2
  simpa using this

/-- Types and bases for which no product overflows in the promoted type. -/
def Spec.Wrapping (t : ITy) (b : Int) : Prop :=
  match t.w with
  | .w8 => True
  | .w16 => t.sgn = true ∨ b ≤ 2 ^ 15
  | .w32 | .w64 => t.sgn = false

theorem no_flag {t : ITy} {b r : Int} (hb : Fits t b) (hw : Wrapping t b) (hr : Fits t r) : (t.arith (r * b)).2 = false := by
  have key : ∀ A B : Nat, r.natAbs ≤ A → b.natAbs ≤ B → A * B ≤ 2 ^ 31 - 1 → Fits ⟨.w32, true⟩ (r * b) := by
    intro A B h1 h2 h3
    have h4 : (r * b).natAbs ≤ A * B := by rw [Int.natAbs_mul]; exact Nat.mul_le_mul h1 h2
    have h5 : (r * b).natAbs ≤ 2 ^ 31 - 1 := h4.trans h3
    simp [Fits, ITy.min, ITy.max, W.bits]
    omega
  obtain ⟨w, sgn⟩ := t
  obtain ⟨b1, b2⟩ := hb
  obtain ⟨r1, r2⟩ := hr
  cases w
  · have := key 255 255 (by cases sgn <;> simp [ITy.min, ITy.max, W.bits] at r1 r2 <;> omega) (by cases sgn <;> simp [ITy.min, ITy.max, W.bits] at b1 b2 <;> omega) (by decide)
    exact congrArg Prod.snd (arith_no_overflow (t := ⟨.w8, sgn⟩) this.1 this.2)
  · have := key 65535 32768 (by cases sgn <;> simp [ITy.min, ITy.max, W.bits] at r1 r2 <;> omega)
      (by cases sgn <;> simp [ITy.min, ITy.max, W.bits, Wrapping] at b1 b2 hw <;> omega) (by decide)
    exact congrArg Prod.snd (arith_no_overflow (t := ⟨.w16, sgn⟩) this.1 this.2)
  · have hs : sgn = false := hw
    subst hs; rfl
  · have hs : sgn = false := hw
    subst hs; rfl

theorem ipowMul_wraps {t : ITy} {b : Int} (hb : Fits t b) (hw : Wrapping t b) : ∀ n k r, StoredAs t k r → ∃ v, ipowMul t b n r = .ok v ∧ StoredAs t (k * b ^ n) v := by
  intro n
  induction n with
  | zero => intro k r h; exact ⟨r, rfl, by simpa using h⟩
  | succ n ih =>
    intro k r h
    obtain ⟨v, h1, h2⟩ := ih (k * b) _ (arith_mul_dvd h)
    refine ⟨v, ?_, ?_⟩
    · unfold ipowMul
      rw [no_flag hb hw ⟨h.1, h.2.1⟩]
      exact h1
    · rw [Int.pow_succ, Int.mul_comm (b ^ n) b, ← Int.mul_assoc]
      exact h2

/-- C24: otherwise the power is reduced modulo 2^width, for unsigned types and those narrower than `int`, except unsigned
16-bit integers above 2^15. -/
theorem C24_ipow_wraps_partial (t te : ITy) (b e : Int) (hb : Fits t b) (hw : Wrapping t b) (he : 0 ≤ e) :
    ∃ v, ipow t te b e = .ok v ∧ t.min ≤ v ∧ v ≤ t.max ∧ (2 ^ t.w.bits : Int) ∣ v - b ^ e.toNat := by
  rw [ipow_nonneg t te b e he]
  obtain ⟨v, h1, h2⟩ := ipowMul_wraps hb hw e.toNat 1 1 ⟨by have := min_nonpos t; omega, max_pos t, by simp⟩
  rw [Int.one_mul] at h2
  exact ⟨v, h1, h2⟩

example : Wrapping ⟨.w64, false⟩ 10 ∧ Wrapping ⟨.w8, true⟩ (-7) ∧ ipow ⟨.w8, true⟩ ⟨.w32, true⟩ (-7) 3 = .ok (-87) := by
  refine ⟨rfl, trivial, by decide +kernel⟩

theorem ipowMul_overflow {w : W} (h32 : w = .w32 ∨ w = .w64) {b : Int} : ∀ n j, Fits ⟨w, true⟩ (b ^ j) → ¬ Fits ⟨w, true⟩ (b ^ (j + n)) → ipowMul ⟨w, true⟩ b n (b ^ j) = .ub := by
  intro n
  induction n with
  | zero => intro j h1 h2; exact absurd h1 h2
  | succ n ih =>
    intro j h1 h2
    unfold ipowMul
    have h4 : j + 1 + n = j + (n + 1) := by omega
    by_cases h3 : Fits ⟨w, true⟩ (b ^ (j + 1))
    · obtain ⟨h5, h6⟩ := step_fits (t := ⟨w, true⟩) (x := b ^ j * b) (by rw [← Int.pow_succ]; exact h3)
      rw [h5, h6, ← Int.pow_succ]
      exact ih (j + 1) h3 (by rw [h4]; exact h2)
    · rw [← Int.pow_succ]
      have : ((⟨w, true⟩ : ITy).arith (b ^ (j + 1))).2 = true := by
        unfold Fits at h3
        unfold ITy.arith
        have hp : (⟨w, true⟩ : ITy).prom = ⟨w, true⟩ := by rcases h32 with rfl | rfl <;> rfl
        rw [hp]
        simp only [Bool.true_and, Bool.or_eq_true, decide_eq_true_eq]
        omega
      rw [this]; rfl

/-- C24: in the signed types of 32 and 64 bits a power that cannot be represented is undefined behaviour. -/
theorem C24_ipow_overflow (w : W) (te : ITy) (h32 : w = .w32 ∨ w = .w64) (b e : Int) (he : 0 ≤ e) (h : ¬ Fits ⟨w, true⟩ (b ^ e.toNat)) : ipow ⟨w, true⟩ te b e = .ub := by
  rw [ipow_nonneg _ te b e he]
  have := ipowMul_overflow h32 (b := b) e.toNat 0 (by rcases h32 with rfl | rfl <;> simp <;> decide) (by simpa using h)
  simpa using this

example : ¬ Fits ⟨.w32, true⟩ (2 ^ 31) ∧ ipow ⟨.w32, true⟩ ⟨.w32, true⟩ 2 31 = .ub := by decide +kernel

theorem tdiv_eq_zero_of_natAbs_lt {a b : Int} (h : a.natAbs < b.natAbs) : Int.tdiv a b = 0 := by
  have := Int.natAbs_tdiv a b
  have h2 : a.natAbs.div b.natAbs = 0 := Nat.div_eq_of_lt h
  omega

theorem ipowDiv_zero {t : ITy} {b : Int} (hb : b ≠ 0) : ∀ n, ipowDiv t b n 0 = .ok 0 := by
  intro n
  induction n with
  | zero => rfl
  | succ n ih =>
    obtain ⟨h1, h2⟩ := step_fits (t := t) (x := 0) (fits_small (by decide) (fun _ => Int.le_refl _))
    unfold ipowDiv
    rw [if_neg hb, Int.zero_tdiv, h1, h2]
    exact ih

theorem ipowDiv_unit {t : ITy} {b : Int} (hb : Fits t b) (h1 : b.natAbs = 1) : ∀ n r, r.natAbs = 1 → (t.sgn = false → 0 ≤ r) → ipowDiv t b n r = .ok (r * b ^ n) := by
  have h0 : t.sgn = false → 0 ≤ b := by
    intro h
    have := hb.1
    unfold ITy.min at this
    rw [h] at this
    simpa using this
  intro n
  induction n with
  | zero => intro r _ _; simp [ipowDiv]
  | succ n ih =>
    intro r hr hs
    have hq : Int.tdiv r b = r * b := by
      have : b = 1 ∨ b = -1 := by omega
      rcases this with rfl | rfl <;> simp
    have hrb : (r * b).natAbs = 1 := by rw [Int.natAbs_mul, hr, h1]
    have hrs : t.sgn = false → 0 ≤ r * b := fun h => Int.mul_nonneg (hs h) (h0 h)
    obtain ⟨h2, h3⟩ := step_fits (t := t) (x := r * b) (fits_small (by omega) hrs)
    unfold ipowDiv
    rw [if_neg (by omega), hq, h2, h3]
    refine (ih (r * b) hrb hrs).trans ?_
    rw [Int.pow_succ, Int.mul_comm (b ^ n) b, Int.mul_assoc]

/-- C24 for negative exponents, except the smallest of the type: the truncated quotient 1/base^e, i.e. 0, or 1 or -1 for these bases;
undefined behaviour for base 0. -/
theorem C24_ipow_neg_partial (t te : ITy) (b e : Int) (hb : Fits t b) (hte : Fits te e) (he : e < 0) (hmin : e ≠ te.min) :
    ipow t te b e = if b = 0 then .ub else if b.natAbs = 1 then .ok (b ^ e.natAbs) else .ok 0 := by
  have hsgn : te.sgn = true := by
    by_contra h
    have h' : te.sgn = false := by simpa using h
    have := hte.1
    unfold ITy.min at this
    rw [h'] at this
    simp at this
    omega
  have hneg : Fits te (e * -1) := by
    obtain ⟨w, sgn⟩ := te
    have hsgn : sgn = true := hsgn
    subst hsgn
    obtain ⟨h1, h2⟩ := hte
    cases w <;> simp [Fits, ITy.min, ITy.max, W.bits] at h1 h2 hmin ⊢ <;> omega
  obtain ⟨h2, h3⟩ := step_fits hneg
  unfold ipow
  rw [if_pos hsgn, if_neg (by omega), h2, h3]
  obtain ⟨n, hn⟩ : ∃ n, (e * -1).toNat = n + 1 := ⟨(e * -1).toNat - 1, by omega⟩
  have hn' : e.natAbs = n + 1 := by omega
  rw [hn, hn']
  refine (if_neg (by simp)).trans ?_
  by_cases hb0 : b = 0
  · rw [if_pos hb0]; unfold ipowDiv; rw [if_pos hb0]
  rw [if_neg hb0]
  by_cases h1 : b.natAbs = 1
  · rw [if_pos h1, ipowDiv_unit hb h1 _ 1 (by decide) (fun _ => by decide), Int.one_mul]
  · rw [if_neg h1]
    obtain ⟨h5, h6⟩ := step_fits (t := t) (x := 0) (fits_small (by decide) (fun _ => Int.le_refl _))
    unfold ipowDiv
    rw [if_neg hb0, tdiv_eq_zero_of_natAbs_lt (a := 1) (b := b) (by omega), h5, h6]
    exact ipowDiv_zero hb0 n

example : Fits ⟨.w16, true⟩ (-3) ∧ ipow ⟨.w32, true⟩ ⟨.w16, true⟩ 10 (-3) = .ok 0 ∧ ipow ⟨.w32, true⟩ ⟨.w16, true⟩ (-1) (-3) = .ok (-1) := by decide +kernel

/-- C24, the overload taking the base in another type: same as with the converted base. -/
theorem C24_ipow_base (t te : ITy) (b e : Int) (hb : Fits t b) : ipowBase t te b e = ipow t te b e := by
  unfold ipowBase
  rw [wrap_of_fits hb.1 hb.2]

example : Fits ⟨.w8, false⟩ 16 ∧ ipowBase ⟨.w8, false⟩ ⟨.w32, true⟩ (16 + 256) 1 = .ok 16 := by decide +kernel

/-- C24 fails.  The product of two unsigned 16-bit integers is computed as `int` and may overflow.  The smallest exponent of a signed type cannot be
negated: with 8 or 16 bits the result is 1 for all bases, otherwise the behaviour is undefined. -/
theorem C24_ipow_refuted :
    (∀ te : ITy, ipow ⟨.w16, false⟩ te 65535 2 = .ub) ∧
    (∀ t b, ipow t ⟨.w8, true⟩ b (-128) = .ok 1 ∧ ipow t ⟨.w16, true⟩ b (-32768) = .ok 1) ∧
    (∀ t b, ipow t ⟨.w32, true⟩ b (-2147483648) = .ub ∧ ipow t ⟨.w64, true⟩ b (-9223372036854775808) = .ub) := by
  refine ⟨fun te => ?_, fun t b => ⟨rfl, rfl⟩, fun t b => ⟨rfl, rfl⟩⟩
  rw [ipow_nonneg _ te _ _ (by decide)]
  decide +kernel

end C4
