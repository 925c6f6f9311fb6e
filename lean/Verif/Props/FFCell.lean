import Verif.Props.FFCompute
import Verif.Props.FFMantissa
/-
Rounding of an extended number: the two floating point numbers around it.
-/
namespace C4.FF
open Spec

/-- The form of every result: the fraction without the highest bit and the exponent field; or the smallest normal number with this bit. -/
def Canon (f : Fmt) (am : AM) : Prop := (am.mantissa < 2 ^ f.mantissaExplicitBits ∨ am = ⟨2 ^ f.mantissaExplicitBits, 1⟩) ∧ 0 ≤ am.power2

theorem Canon.bits {f : Fmt} {am : AM} (h : Canon f am) :
    toFloat f false am = am.power2.toNat * 2 ^ f.mantissaExplicitBits + am.mantissa ∨
    (am = ⟨2 ^ f.mantissaExplicitBits, 1⟩ ∧ toFloat f false am = 2 ^ f.mantissaExplicitBits) := by
  obtain ⟨h1, h2⟩ := h
  rcases h1 with h1 | h1
  · left
    obtain ⟨m, e⟩ := am
    dsimp only at h1 h2
    obtain ⟨e', rfl⟩ := Int.eq_ofNat_of_zero_le h2
    rw [toFloat_add f m e' h1]
    rfl
  · right
    refine ⟨h1, ?_⟩
    rw [h1, toFloat_pos, Nat.shiftLeft_eq, show (1 : Int).toNat = 1 by rfl, Nat.one_mul, Nat.or_self]

theorem Canon.zero {f : Fmt} {am : AM} (h : Canon f am) : toFloat f false am = 0 ↔ am.mantissa = 0 ∧ am.power2 = 0 := by
  have hp := Nat.two_pow_pos f.mantissaExplicitBits
  have h2 := h.2
  rcases h.bits with hb | ⟨he, hb⟩
  · rw [hb, Nat.add_eq_zero_iff, Nat.mul_eq_zero]
    constructor
    · rintro ⟨a | a, c⟩
      · exact ⟨c, by omega⟩
      · omega
    · rintro ⟨a, c⟩
      exact ⟨Or.inl (by omega), a⟩
  · rw [hb, he]
    dsimp only
    omega

theorem Canon.inf {f : Fmt} {F : Ieee} (hok : FmtOk f F) {am : AM} (h : Canon f am) (hle : toFloat f false am ≤ F.infBits) :
    (toFloat f false am = F.infBits ↔ am.power2 = f.infinitePower) ∧ (toFloat f false am = F.infBits → am = ⟨0, f.infinitePower⟩) := by
  have hp := Nat.two_pow_pos f.mantissaExplicitBits
  have h2 := h.2
  have hinf : 2 ≤ f.infinitePower := by have := hok.infb; have := hok.bias; have := hok.emin; omega
  rw [hok.infBits] at hle ⊢
  rcases h.bits with hb | ⟨he, hb⟩
  · have hm : am.mantissa < 2 ^ f.mantissaExplicitBits ∨ am = ⟨2 ^ f.mantissaExplicitBits, 1⟩ := h.1
    rw [hb] at hle ⊢
    rcases hm with hm | hm
    · have key : am.power2.toNat * 2 ^ f.mantissaExplicitBits + am.mantissa = f.infinitePower.toNat * 2 ^ f.mantissaExplicitBits →
          am.power2.toNat = f.infinitePower.toNat ∧ am.mantissa = 0 := by
        intro heq
        have h3 : am.power2.toNat = f.infinitePower.toNat := by
          have := congrArg (· / 2 ^ f.mantissaExplicitBits) heq
          beta_reduce at this
          rw [Nat.mul_comm, Nat.mul_add_div hp, Nat.div_eq_of_lt hm, Nat.add_zero, Nat.mul_div_cancel _ hp] at this
          exact this
        rw [h3] at heq
        exact ⟨h3, by omega⟩
      refine ⟨⟨fun heq => ?_, fun heq => ?_⟩, fun heq => ?_⟩
      · have := key heq; omega
      · rw [heq] at hle ⊢; omega
      · obtain ⟨k1, k2⟩ := key heq
        obtain ⟨m, e⟩ := am
        dsimp only at k1 k2 h2
        rw [k2, show e = f.infinitePower by omega]
    · rw [hm] at hb
      dsimp only at hb
      have hb2 : toFloat f false ⟨2 ^ f.mantissaExplicitBits, 1⟩ = 2 ^ f.mantissaExplicitBits := by
        rw [toFloat_pos, Nat.shiftLeft_eq, show (1 : Int).toNat = 1 by rfl, Nat.one_mul, Nat.or_self]
      rw [hb2, show (1 : Int).toNat = 1 by rfl] at hb
      omega
  · rw [hb]
    have : 2 * 2 ^ f.mantissaExplicitBits ≤ f.infinitePower.toNat * 2 ^ f.mantissaExplicitBits := Nat.mul_le_mul_right _ (by omega)
    refine ⟨⟨fun heq => by omega, fun heq => ?_⟩, fun heq => by omega⟩
    rw [he] at heq
    dsimp only at heq
    omega

/-- `round` applied to `A * 2^(P - bias)`: `s` bits are cut off, `b` are the bits of the floating point number below, which is `c * 2^U`. -/
structure Cell (f : Fmt) (F : Ieee) (A : Nat) (P : Int) (s b c : Nat) (U : Int) : Prop where
  s1 : 1 ≤ s
  s64 : s ≤ 64
  s63 : 63 ≤ s + f.mantissaExplicitBits
  hc : c = A / 2 ^ s
  round : ∀ cb up, up ≤ 1 → cb ⟨A, P⟩ s = ⟨c + up, P + s⟩ → toFloat f false (roundAM f ⟨A, P⟩ cb) = b + up ∧ Canon f (roundAM f ⟨A, P⟩ cb)
  binf : b + 1 ≤ F.infBits
  par : b % 2 = c % 2
  val0 : F.val b = (c : ℚ) * 2 ^ U
  val1 : F.val (b + 1) = ((c : ℚ) + 1) * 2 ^ U
  hU : U = P + s - (F.bias + F.fracBits) ∨ (s = 64 ∧ P + 64 - (F.bias + F.fracBits) < U)
  half : toExtendedHalfway f b = ⟨2 * c + 1, U - 1⟩
  U1 : 1 - (F.bias + F.fracBits) ≤ U
  U2 : U ≤ F.bias - F.fracBits
  c2 : c < 2 ^ (f.mantissaExplicitBits + 1)
  c0 : c < 2 ^ f.mantissaExplicitBits → U = 1 - (F.bias + F.fracBits)

theorem mod_two_of_mul (p c k : Nat) (hk : 1 ≤ k) : (p * 2 ^ k + c) % 2 = c % 2 := by
  obtain ⟨j, rfl⟩ : ∃ j, k = j + 1 := ⟨k - 1, by omega⟩
  rw [Nat.pow_succ, ← Nat.mul_assoc]
  omega

theorem round_cell {f : Fmt} {F : Ieee} (hok : FmtOk f F) {A : Nat} {P : Int} (hA1 : 2 ^ 63 ≤ A) (hA2 : A < 2 ^ 64)
    (hfin : P + 63 - f.mantissaExplicitBits < f.infinitePower) : ∃ s b c U, Cell f F A P s b c U := by
  have hbias := hok.bias
  have hemin := hok.emin
  have hemin' := hok.emin'
  have hinfb := hok.infb
  have hmb1 := hok.mb1
  have hmb2 := hok.mb2
  have hfrac := hok.frac
  have hsign := hok.sign
  have hinf := hok.inf
  have hp := Nat.two_pow_pos f.mantissaExplicitBits
  have hexp : f.signIndex - f.mantissaExplicitBits = F.expBits := by omega
  have hpow : f.infinitePower.toNat + 1 = 2 ^ F.expBits := by
    have := Nat.two_pow_pos F.expBits
    omega
  have hibits := hok.infBits
  obtain ⟨mb, emb⟩ : ∃ mb, f.mantissaExplicitBits = mb := ⟨_, rfl⟩
  have hm2 : 2 ^ (mb + 1) = 2 ^ mb * 2 := Nat.pow_succ 2 mb
  by_cases hden : -P ≥ ((63 - mb : Nat) : Int)
  · -- subnormal
    obtain ⟨s, hs⟩ : ∃ s : Nat, min (-P + 1) 64 = (s : Int) := ⟨(min (-P + 1) 64).toNat, by omega⟩
    obtain ⟨c, hc⟩ : ∃ c, c = A / 2 ^ s := ⟨_, rfl⟩
    have hclt : c < 2 ^ mb := by
      rw [hc, Nat.div_lt_iff_lt_mul (Nat.two_pow_pos _), ← Nat.pow_add]
      exact lt_of_lt_of_le hA2 (Nat.pow_le_pow_right (by omega) (by omega))
    have hv := fun (m : Nat) (hm : m ≤ 2 ^ (F.fracBits + 1)) => val_eq F 0 m hm (Or.inr rfl)
    simp only [Nat.zero_mul, Nat.zero_add] at hv
    rw [emb] at hfrac hibits hp hfin
    refine ⟨s, c, c, 1 - (F.bias + F.fracBits), ⟨by omega, by omega, by omega, hc, ?_, ?_, rfl, ?_, ?_, ?_, ?_, by omega, by omega, by rw [emb]; omega, fun _ => rfl⟩⟩
    · intro cb up hup hcb
      unfold roundAM
      dsimp only
      rw [emb, if_pos (by rw [show 64 - mb - 1 = 63 - mb by omega]; exact hden), hs, Int.toNat_natCast, hcb]
      dsimp only
      rw [Nat.shiftLeft_eq, Nat.one_mul]
      by_cases hlt : c + up < 2 ^ mb
      · rw [if_pos hlt]
        refine ⟨?_, Or.inl (by rw [emb]; exact hlt), le_refl _⟩
        rw [show (0 : Int) = ((0 : Nat) : Int) by rfl, toFloat_add f (c + up) 0 (by rw [emb]; exact hlt), Nat.zero_mul, Nat.zero_add]
      · have he : c + up = 2 ^ mb := by omega
        rw [if_neg hlt, he]
        refine ⟨?_, Or.inr (by rw [emb]), by dsimp only; omega⟩
        rw [toFloat_pos, emb, Nat.shiftLeft_eq, show (1 : Int).toNat = 1 by rfl, Nat.one_mul, Nat.or_self]
    · rw [hibits]
      have : 2 * 2 ^ mb ≤ f.infinitePower.toNat * 2 ^ mb := Nat.mul_le_mul_right _ (by omega)
      omega
    · rw [hv c (by rw [hfrac]; omega)]
      congr 2
      push_cast
      omega
    · rw [hv (c + 1) (by rw [hfrac]; omega)]
      push_cast
      congr 2
      omega
    · by_cases h64 : -P + 1 ≤ 64
      · left; omega
      · right; omega
    · unfold toExtendedHalfway toExtended
      dsimp only
      rw [emb, Nat.shiftRight_eq_div_pow, Nat.div_eq_of_lt hclt, Nat.zero_mod, if_pos rfl, Nat.mod_eq_of_lt hclt]
      dsimp only
      have h52 : 2 ^ mb ≤ 2 ^ 52 := Nat.pow_le_pow_right (by omega) (by omega)
      rw [Nat.shiftLeft_eq, Nat.pow_one, Nat.mod_eq_of_lt (by omega), Nat.mul_comm c 2]
      congr 1
      omega
  · -- normal
    obtain ⟨p, hpe⟩ : ∃ p : Nat, P + 62 - mb = (p : Int) := ⟨(P + 62 - mb).toNat, by omega⟩
    obtain ⟨c, hc⟩ : ∃ c, c = A / 2 ^ (63 - mb) := ⟨_, rfl⟩
    rw [emb] at hfrac hibits hp hfin hexp
    have hc1 : 2 ^ mb ≤ c := by
      rw [hc, Nat.le_div_iff_mul_le (Nat.two_pow_pos _), ← Nat.pow_add]
      exact le_trans (Nat.pow_le_pow_right (by omega) (by omega)) hA1
    have hc2 : c < 2 ^ (mb + 1) := by
      rw [hc, Nat.div_lt_iff_lt_mul (Nat.two_pow_pos _), ← Nat.pow_add]
      exact lt_of_lt_of_le hA2 (Nat.pow_le_pow_right (by omega) (by omega))
    have hple : p + 1 < f.infinitePower.toNat := by omega
    refine ⟨63 - mb, p * 2 ^ mb + c, c, (p : Int) + 1 - (F.bias + F.fracBits),
      ⟨by omega, by omega, by omega, hc, ?_, ?_, mod_two_of_mul _ _ _ (by omega), ?_, ?_, ?_, ?_, by omega, by omega, by rw [emb]; exact hc2,
        fun h => by rw [emb] at h; omega⟩⟩
    · intro cb up hup hcb
      unfold roundAM
      dsimp only
      rw [emb, show 64 - mb - 1 = 63 - mb by omega, if_neg hden, hcb]
      dsimp only
      have hand := fun r (hr : r < 2 ^ mb) => and_not_bit mb r hr (by omega)
      simp only [Nat.shiftLeft_eq, Nat.one_mul] at hand ⊢
      by_cases hge : c + up ≥ 2 * 2 ^ mb
      · have he : c + up = 2 * 2 ^ mb := by omega
        have h0 := hand 0 hp
        rw [Nat.add_zero] at h0
        rw [if_pos hge]
        dsimp only
        rw [h0]
        by_cases hi : P + ((63 - mb : Nat) : Int) + 1 ≥ f.infinitePower
        · rw [if_pos hi]
          refine ⟨?_, Or.inl (by rw [emb]; exact hp), by dsimp only; omega⟩
          rw [toFloat_inf hok, hibits, show f.infinitePower.toNat = p + 2 by omega, Nat.add_assoc, he]
          ring
        · rw [if_neg hi]
          refine ⟨?_, Or.inl (by rw [emb]; exact hp), by dsimp only; omega⟩
          rw [show P + ((63 - mb : Nat) : Int) + 1 = ((p + 2 : Nat) : Int) by push_cast; omega, toFloat_add f 0 _ (by rw [emb]; exact hp), emb, Nat.add_assoc, he]
          ring
      · rw [if_neg hge]
        dsimp only
        obtain ⟨r, hr⟩ : ∃ r, c + up = 2 ^ mb + r := ⟨c + up - 2 ^ mb, by omega⟩
        have hrlt : r < 2 ^ mb := by omega
        rw [hr, hand r hrlt, if_neg (by omega)]
        refine ⟨?_, Or.inl (by rw [emb]; exact hrlt), by dsimp only; omega⟩
        rw [show P + ((63 - mb : Nat) : Int) = ((p + 1 : Nat) : Int) by push_cast; omega, toFloat_add f r _ (by rw [emb]; exact hrlt), emb, Nat.add_assoc, hr]
        ring
    · rw [hibits]
      have : (p + 2) * 2 ^ mb ≤ f.infinitePower.toNat * 2 ^ mb := Nat.mul_le_mul_right _ hple
      rw [Nat.add_mul] at this
      omega
    · have := val_eq F p c (by rw [hfrac]; omega) (Or.inl (by rw [hfrac]; exact hc1))
      rw [hfrac] at this
      rw [this, hfrac]
      congr 2
      omega
    · have := val_eq F p (c + 1) (by rw [hfrac]; omega) (Or.inl (by rw [hfrac]; omega))
      rw [hfrac] at this
      rw [Nat.add_assoc, this, hfrac]
      push_cast
      congr 2
      omega
    · left
      omega
    · unfold toExtendedHalfway toExtended
      dsimp only
      obtain ⟨r, hr⟩ : ∃ r, c = 2 ^ mb + r := ⟨c - 2 ^ mb, by omega⟩
      have hrlt : r < 2 ^ mb := by omega
      have hb : p * 2 ^ mb + c = 2 ^ mb * (p + 1) + r := by rw [hr]; ring
      have hdiv : (p * 2 ^ mb + c) / 2 ^ mb = p + 1 := by rw [hb, Nat.mul_add_div hp, Nat.div_eq_of_lt hrlt]
      have hmod : (p * 2 ^ mb + c) % 2 ^ mb = r := by rw [hb, Nat.mul_add_mod, Nat.mod_eq_of_lt hrlt]
      rw [emb, hexp, Nat.shiftRight_eq_div_pow, hdiv, hmod, Nat.mod_eq_of_lt (show p + 1 < 2 ^ F.expBits by omega), if_neg (Nat.succ_ne_zero p)]
      dsimp only
      have h52 : 2 ^ mb ≤ 2 ^ 52 := Nat.pow_le_pow_right (by omega) (by omega)
      rw [or_shift mb r 1 hrlt, Nat.one_mul, ← hr, Nat.shiftLeft_eq, Nat.pow_one, Nat.mod_eq_of_lt (by omega), Nat.mul_comm c 2]
      congr 1
      push_cast
      omega

/-- Beyond the largest number. -/
theorem round_inf {f : Fmt} {F : Ieee} (hok : FmtOk f F) {A : Nat} {P : Int}
    (hinf : P + 63 - f.mantissaExplicitBits ≥ f.infinitePower) (cb : AM → Nat → AM) (m : Nat)
    (hcb : cb ⟨A, P⟩ (63 - f.mantissaExplicitBits) = ⟨m, P + (63 - f.mantissaExplicitBits : Nat)⟩) :
    roundAM f ⟨A, P⟩ cb = ⟨0, f.infinitePower⟩ := by
  have hinfb := hok.infb
  have hbias := hok.bias
  have hemin := hok.emin
  have hmb2 := hok.mb2
  unfold roundAM
  dsimp only
  rw [show 64 - f.mantissaExplicitBits - 1 = 63 - f.mantissaExplicitBits by omega, if_neg (by omega), hcb]
  dsimp only
  by_cases hge : m ≥ 2 <<< f.mantissaExplicitBits
  · rw [if_pos hge]; dsimp only; rw [if_pos (by omega)]
  · rw [if_neg hge]; dsimp only; rw [if_pos (by omega)]

/-- A number a little above the next floating point number is still nearest to it. -/
theorem nearest_up' (F : Ieee) {x : ℚ} {b : Nat} (hb : b + 1 ≤ F.infBits) (h1 : x < F.val (b + 1) + F.val (b + 1) / 2 ^ (F.fracBits + 2))
    (h2 : F.val b + F.val (b + 1) < 2 * x ∨ (2 * x = F.val b + F.val (b + 1) ∧ b % 2 = 1)) : F.Nearest x (b + 1) := by
  by_cases h : x ≤ F.val (b + 1)
  · exact nearest_up F hb h h2
  · rw [not_le] at h
    by_cases hi : b + 1 = F.infBits
    · rw [hi] at h ⊢
      exact nearest_inf F h.le
    · refine nearest_down F (by omega) h.le (Or.inl ?_)
      obtain ⟨p, m, e, hm, hp⟩ := bits_split F (b + 1)
      have v0 := val_eq F p m (by omega) hp
      have v1 := val_eq F p (m + 1) (by omega) (by omega)
      rw [← Nat.add_assoc, ← e] at v1
      rw [← e] at v0
      rw [v0] at h1 ⊢
      rw [v1]
      have hpos := zpow2_pos ((p : ℤ) + 1 - F.bias - F.fracBits)
      generalize (2 : ℚ) ^ ((p : ℤ) + 1 - F.bias - F.fracBits) = z at h1 hpos ⊢
      have hm' : (m : ℚ) < 2 ^ (F.fracBits + 1) := by exact_mod_cast hm
      have hd : (m : ℚ) * z / 2 ^ (F.fracBits + 2) < z / 2 := by
        rw [div_lt_div_iff₀ (by positivity) (by norm_num)]
        have : (2 : ℚ) ^ (F.fracBits + 2) = 2 ^ (F.fracBits + 1) * 2 := by ring
        rw [this]
        nlinarith
      push_cast
      linarith

end C4.FF
