import Verif.Charconv.RhexF
import Verif.Props.Rhex
import Verif.Props.FpuRound
import Mathlib.Tactic.Linarith
/-
Property C22: hexadecimal real numbers, with the arithmetic of the floating point types.
-/
namespace C4
open Spec

theorem hf_bias {F : Ieee} (hF : F = binary32 ∨ F = binary64) : F.bias = 2 ^ (F.expBits - 1) - 1 ∧ 2 ≤ F.expBits ∧ 1 ≤ F.bias ∧ (F.fracBits : Int) + 8 < F.bias ∧ 4 ≤ F.fracBits := by
  rcases hF with rfl | rfl <;> decide

/-- A number of the format is not changed by rounding. -/
theorem round_exact {F : Ieee} (hF : F = binary32 ∨ F = binary64) (fpu : Fpu) {n : Nat} (hn : n ≤ 2 ^ (F.fracBits + 1)) {j : Int} (h1 : 1 - F.bias ≤ j)
    (hj : F.fracBits + j < F.bias) {x : ℚ} (hx : x = (n : ℚ) * 2 ^ j) : ∃ b, HF.ofBits F (fpu.round F x) = .num b ∧ F.val b = x := by
  obtain ⟨b, b1, b2⟩ := val_of_int F (hf_bias hF).1 (hf_bias hF).2.1 n hn j h1 hj
  have hx0 : 0 ≤ x := by rw [hx]; positivity
  have hr := fpu.rounded F hF x hx0
  rw [hx, ← b2] at hr
  have := rounded_exact F b1 hr
  refine ⟨b, ?_, by rw [b2, hx]⟩
  rw [hx, ← b2, this, HF.ofBits, if_neg (by omega)]

/-- The value has the exact value `n * 2^j`. -/
def IsHF (F : Ieee) (v : HF) (x : ℚ) : Prop := ∃ b, v = .num b ∧ F.val b = x

theorem isHF_ofRat {F : Ieee} (hF : F = binary32 ∨ F = binary64) (fpu : Fpu) {n : Nat} (hn : n ≤ 16) : IsHF F (.ofRat F fpu n) n := by
  have h := hf_bias hF
  refine round_exact hF fpu (n := n) (j := 0) ?_ (by omega) (by omega) (by simp)
  calc n ≤ 2 ^ 4 := hn
    _ ≤ _ := Nat.pow_le_pow_right (by omega) (by omega)

theorem isHF_mul {F : Ieee} (hF : F = binary32 ∨ F = binary64) (fpu : Fpu) {v w : HF} {x y : ℚ} (hv : IsHF F v x) (hw : IsHF F w y) {n : Nat}
    (hn : n ≤ 2 ^ (F.fracBits + 1)) {j : Int} (h1 : 1 - F.bias ≤ j) (hj : F.fracBits + j < F.bias) (hx : x * y = (n : ℚ) * 2 ^ j) : IsHF F (v.mul F fpu w) (x * y) := by
  obtain ⟨a, rfl, ha⟩ := hv
  obtain ⟨b, rfl, hb⟩ := hw
  rw [HF.mul, ha, hb]
  exact round_exact hF fpu hn h1 hj hx

theorem isHF_add {F : Ieee} (hF : F = binary32 ∨ F = binary64) (fpu : Fpu) {v w : HF} {x y : ℚ} (hv : IsHF F v x) (hw : IsHF F w y) {n : Nat}
    (hn : n ≤ 2 ^ (F.fracBits + 1)) {j : Int} (h1 : 1 - F.bias ≤ j) (hj : F.fracBits + j < F.bias) (hx : x + y = (n : ℚ) * 2 ^ j) : IsHF F (v.add F fpu w) (x + y) := by
  obtain ⟨a, rfl, ha⟩ := hv
  obtain ⟨b, rfl, hb⟩ := hw
  rw [HF.add, ha, hb]
  exact round_exact hF fpu hn h1 hj hx

theorem isHF_div {F : Ieee} (hF : F = binary32 ∨ F = binary64) (fpu : Fpu) {v : HF} {x : ℚ} (hv : IsHF F v x) {n : Nat}
    (hn : n ≤ 2 ^ (F.fracBits + 1)) {j : Int} (h1 : 1 - F.bias ≤ j) (hj : F.fracBits + j < F.bias) (hx : x / 16 = (n : ℚ) * 2 ^ j) : IsHF F (v.div16 F fpu) (x / 16) := by
  obtain ⟨a, rfl, ha⟩ := hv
  rw [HF.div16, ha]
  exact round_exact hF fpu hn h1 hj hx

theorem value16_cons (d : Nat) (di : List Nat) : value 16 (d :: di) = d * 16 ^ di.length + value 16 di := by
  have := value_append 16 [d] di
  simpa [value] using this

/-- The digits before the point. -/
theorem rhexIntF_digits {F : Ieee} (hF : F = binary32 ∨ F = binary64) (fpu : Fpu) (rest : List Nat) : ∀ (ip di : List Nat) (v : HF) (m : Nat), IsDigits 10 ip di →
    IsHF F v m → m * 16 ^ di.length + value 16 di ≤ 2 ^ (F.fracBits + 1) →
    ∃ v', rhexIntF F fpu (ip ++ rest) v = rhexIntF F fpu rest v' ∧ IsHF F v' (m * 16 ^ di.length + value 16 di : Nat)
  | [], di, v, m, h, hv, _ => by
    rw [isDigits_nil] at h; subst h
    exact ⟨v, rfl, by simpa [value] using hv⟩
  | c :: ip, di, v, m, h, hv, hb => by
    rw [isDigits_cons] at h
    obtain ⟨d, di, rfl, h1, h2, h3⟩ := h
    have hbias := hf_bias hF
    rw [value16_cons, List.length_cons] at hb
    have hstep : m * 16 + d ≤ 2 ^ (F.fracBits + 1) := by
      refine le_trans ?_ hb
      have : 1 ≤ 16 ^ di.length := Nat.one_le_pow _ _ (by omega)
      have h2 : (m * 16 + d) * 1 ≤ (m * 16 + d) * 16 ^ di.length := Nat.mul_le_mul_left _ this
      rw [Nat.pow_succ]
      nlinarith
    have e1 : IsHF F (v.mul F fpu (.ofRat F fpu 16)) ((m : ℚ) * 16) := by
      have := isHF_ofRat hF fpu (n := 16) (by omega)
      exact isHF_mul hF fpu hv (by exact_mod_cast this) (n := m * 16) (by omega) (j := 0) (by omega) (by omega) (by push_cast; ring)
    have e2 : IsHF F ((v.mul F fpu (.ofRat F fpu 16)).add F fpu (.ofRat F fpu d)) ((m : ℚ) * 16 + d) :=
      isHF_add hF fpu e1 (isHF_ofRat hF fpu (by omega)) (n := m * 16 + d) hstep (j := 0) (by omega) (by omega) (by push_cast; ring)
    have e3 : IsHF F ((v.mul F fpu (.ofRat F fpu 16)).add F fpu (.ofRat F fpu d)) ((m * 16 + d : Nat) : ℚ) := by push_cast; exact e2
    have hb' : (m * 16 + d) * 16 ^ di.length + value 16 di ≤ 2 ^ (F.fracBits + 1) := by
      rw [Nat.pow_succ] at hb
      nlinarith
    obtain ⟨v', g1, g2⟩ := rhexIntF_digits hF fpu rest ip di _ (m * 16 + d) h3 e3 hb'
    refine ⟨v', ?_, ?_⟩
    · rw [List.cons_append, rhexIntF, rhexDigit_dec h1 h2]
      exact g1
    · rw [value16_cons, List.length_cons]
      have : m * 16 ^ (di.length + 1) + (d * 16 ^ di.length + value 16 di) = (m * 16 + d) * 16 ^ di.length + value 16 di := by
        rw [Nat.pow_succ]; ring
      rw [this]
      exact g2

/-- The digits after the point; `k` of them came before. -/
theorem rhexFracF_digits {F : Ieee} (hF : F = binary32 ∨ F = binary64) (fpu : Fpu) (rest : List Nat) : ∀ (f df : List Nat) (v dg : HF) (m k : Nat), IsDigits 10 f df →
    IsHF F v ((m : ℚ) * 2 ^ (-(4 * k : Nat) : ℤ)) → (df ≠ [] → IsHF F dg (2 ^ (-(4 * (k + 1) : Nat) : ℤ))) → m * 16 ^ df.length + value 16 df ≤ 2 ^ (F.fracBits + 1) →
    ((4 * (k + df.length) : Nat) : Int) ≤ F.bias - 1 →
    ∃ v' dg', rhexFracF F fpu (f ++ rest) dg v = rhexFracF F fpu rest dg' v' ∧
      IsHF F v' ((m * 16 ^ df.length + value 16 df : Nat) * 2 ^ (-(4 * (k + df.length) : Nat) : ℤ))
  | [], df, v, dg, m, k, h, hv, _, _, _ => by
    rw [isDigits_nil] at h; subst h
    exact ⟨v, dg, rfl, by simpa [value] using hv⟩
  | c :: f, df, v, dg, m, k, h, hv, hd, hb, hk => by
    rw [isDigits_cons] at h
    obtain ⟨d, df, rfl, h1, h2, h3⟩ := h
    have hbias := hf_bias hF
    rw [value16_cons, List.length_cons] at hb
    rw [List.length_cons] at hk
    have hd := hd (by simp)
    have hstep : m * 16 + d ≤ 2 ^ (F.fracBits + 1) := by
      refine le_trans ?_ hb
      have : 1 ≤ 16 ^ df.length := Nat.one_le_pow _ _ (by omega)
      have h2 : (m * 16 + d) * 1 ≤ (m * 16 + d) * 16 ^ df.length := Nat.mul_le_mul_left _ this
      rw [Nat.pow_succ]
      nlinarith
    have hd16 : d ≤ 2 ^ (F.fracBits + 1) := by omega
    have e1 : IsHF F (dg.mul F fpu (.ofRat F fpu d)) (2 ^ (-(4 * (k + 1) : Nat) : ℤ) * (d : ℚ)) :=
      isHF_mul hF fpu hd (isHF_ofRat hF fpu (by omega)) (n := d) hd16 (j := -(4 * (k + 1) : Nat)) (by omega) (by omega) (by ring)
    have hpow : (2 : ℚ) ^ (-(4 * k : Nat) : ℤ) = 16 * 2 ^ (-(4 * (k + 1) : Nat) : ℤ) := by
      rw [show (16 : ℚ) = 2 ^ (4 : ℤ) by norm_num, ← zpow_add₀ (by norm_num)]
      congr 1
      push_cast
      ring
    have heq : (m : ℚ) * 2 ^ (-(4 * k : Nat) : ℤ) + 2 ^ (-(4 * (k + 1) : Nat) : ℤ) * (d : ℚ) = ((m * 16 + d : Nat) : ℚ) * 2 ^ (-(4 * (k + 1) : Nat) : ℤ) := by
      rw [hpow]
      push_cast
      ring
    have e2 := isHF_add hF fpu hv e1 (n := m * 16 + d) hstep (j := -(4 * (k + 1) : Nat)) (by omega) (by omega) heq
    rw [heq] at e2
    have e3 : df ≠ [] → IsHF F (dg.div16 F fpu) (2 ^ (-(4 * (k + 1 + 1) : Nat) : ℤ)) := by
      intro hne
      have hl : 1 ≤ df.length := List.length_pos_iff.mpr hne
      have hp2 : (2 : ℚ) ^ (-(4 * (k + 1) : Nat) : ℤ) / 16 = 2 ^ (-(4 * (k + 1 + 1) : Nat) : ℤ) := by
        rw [show (16 : ℚ) = 2 ^ (4 : ℤ) by norm_num, ← zpow_sub₀ (by norm_num)]
        congr 1
      have := isHF_div hF fpu hd (n := 1) (Nat.one_le_two_pow) (j := -(4 * (k + 1 + 1) : Nat)) (by omega) (by omega) (by rw [hp2]; simp)
      rwa [hp2] at this
    have hb' : (m * 16 + d) * 16 ^ df.length + value 16 df ≤ 2 ^ (F.fracBits + 1) := by
      rw [Nat.pow_succ] at hb
      nlinarith
    obtain ⟨v', dg', g1, g2⟩ := rhexFracF_digits hF fpu rest f df _ _ (m * 16 + d) (k + 1) h3 e2 e3 hb' (by omega)
    refine ⟨v', dg', ?_, ?_⟩
    · rw [List.cons_append, rhexFracF, rhexDigit_dec h1 h2]
      exact g1
    · rw [value16_cons, List.length_cons]
      have : m * 16 ^ (df.length + 1) + (d * 16 ^ df.length + value 16 df) = (m * 16 + d) * 16 ^ df.length + value 16 df := by
        rw [Nat.pow_succ]; ring
      rw [this, show k + (df.length + 1) = k + 1 + df.length by omega]
      exact g2

/-- The power is exact while it is a number of the format that is not subnormal. -/
theorem hf_mulLoop {F : Ieee} (hF : F = binary32 ∨ F = binary64) (fpu : Fpu) : ∀ (n k : Nat) (v : HF), IsHF F v (2 ^ (4 * k : Nat) : ℚ) →
    ((4 * (k + n) : Nat) : Int) ≤ F.bias - 1 → IsHF F (HF.mulLoop F fpu n v) (2 ^ (4 * (k + n) : Nat) : ℚ)
  | 0, k, v, hv, _ => hv
  | n + 1, k, v, hv, hk => by
    have hb := hf_bias hF
    have h16 := isHF_ofRat hF fpu (n := 16) (by omega)
    have e : (2 : ℚ) ^ (4 * k) * ((16 : Nat) : ℚ) = 2 ^ (4 * (k + 1)) := by
      rw [show 4 * (k + 1) = 4 * k + 4 by ring, pow_add]; norm_num
    -- one or sixteen, times a power that leaves room above
    have hp : IsHF F (v.mul F fpu (.ofRat F fpu ((16 : Nat) : ℚ))) (2 ^ (4 * (k + 1)) : ℚ) := by
      obtain ⟨a, rfl, ha⟩ := hv
      obtain ⟨b, hb1, hb2⟩ := h16
      rw [hb1, HF.mul, ha, hb2, e]
      by_cases hbig : (4 * (k + 1) : Int) ≤ F.fracBits
      · exact round_exact hF fpu (n := 2 ^ (4 * (k + 1))) (Nat.pow_le_pow_right (by omega) (by omega)) (j := 0) (by omega) (by omega) (by push_cast; simp)
      · have : ∃ j : Nat, 4 * (k + 1) = F.fracBits + j := ⟨4 * (k + 1) - F.fracBits, by omega⟩
        obtain ⟨j, hj⟩ := this
        refine round_exact hF fpu (n := 2 ^ F.fracBits) (Nat.pow_le_pow_right (by omega) (by omega)) (j := j) (by omega) (by omega) ?_
        rw [hj, pow_add]
        push_cast
        rw [zpow_natCast]
    have := hf_mulLoop hF fpu n (k + 1) _ hp (by rw [show k + 1 + n = k + (n + 1) by omega]; exact hk)
    rw [show k + 1 + n = k + (n + 1) by omega] at this
    rw [HF.mulLoop]
    exact_mod_cast this

theorem hf_divLoop {F : Ieee} (hF : F = binary32 ∨ F = binary64) (fpu : Fpu) : ∀ (n k : Nat) (v : HF), IsHF F v (2 ^ (-(4 * k : Nat) : ℤ) : ℚ) →
    ((4 * (k + n) : Nat) : Int) ≤ F.bias - 1 → IsHF F (HF.divLoop F fpu n v) (2 ^ (-(4 * (k + n) : Nat) : ℤ) : ℚ)
  | 0, k, v, hv, _ => hv
  | n + 1, k, v, hv, hk => by
    have hb := hf_bias hF
    have e : (2 : ℚ) ^ (-(4 * k : Nat) : ℤ) / 16 = 2 ^ (-(4 * (k + 1) : Nat) : ℤ) := by
      rw [show (16 : ℚ) = 2 ^ (4 : ℤ) by norm_num, ← zpow_sub₀ (by norm_num)]
      congr 1
      push_cast
      ring
    have hd := isHF_div hF fpu hv (n := 1) Nat.one_le_two_pow (j := -(4 * (k + 1) : Nat)) (by omega) (by omega) (by rw [e]; simp)
    rw [e] at hd
    have := hf_divLoop hF fpu n (k + 1) _ hd (by rw [show k + 1 + n = k + (n + 1) by omega]; exact hk)
    rw [show k + 1 + n = k + (n + 1) by omega] at this
    exact this

theorem ipow16F_eq {F : Ieee} (hF : F = binary32 ∨ F = binary64) (fpu : Fpu) {e : Int} (h1 : 4 * e ≤ F.bias - 1) (h2 : -(4 * e) ≤ F.bias - 1) :
    IsHF F (ipow16F F fpu e) (2 ^ (4 * e) : ℚ) := by
  have hb : F.bias ≤ 1023 := by rcases hF with rfl | rfl <;> decide
  have one : IsHF F (.ofRat F fpu 1) (1 : ℚ) := by
    have := isHF_ofRat hF fpu (n := 1) (by omega)
    exact_mod_cast this
  unfold ipow16F
  split
  · have := hf_mulLoop hF fpu e.toNat 0 _ (by simpa using one) (by omega)
    have he : 4 * e = ((4 * (0 + e.toNat) : Nat) : ℤ) := by omega
    rw [he, zpow_natCast]
    exact this
  · have hw : (ITy.mk .w16 true).wrap (-e) = -e := by
      simp only [ITy.wrap, W.bits]
      simp [Int.bmod_def]; omega
    rw [hw]
    have := hf_divLoop hF fpu (-e).toNat 0 _ (by simpa using one) (by omega)
    have he : 4 * e = (-(4 * (0 + (-e).toNat) : Nat) : ℤ) := by omega
    rw [he]
    exact this

/-- The exponent multiplies by a power of 16. -/
theorem rhexPowerF_eq {F : Ieee} (hF : F = binary32 ∨ F = binary64) (fpu : Fpu) {ds sg : List Nat} {m : Nat} {e : Int} (h : DigitText 10 ds m)
    (he : (sg = [] ∧ e = m) ∨ (sg = [43] ∧ e = m) ∨ (sg = [45] ∧ e = -(m : Int))) (he1 : 4 * e ≤ F.bias - 1) (he2 : -(4 * e) ≤ F.bias - 1)
    {v : HF} {x : ℚ} (hv : IsHF F v x)
    (hx : ∃ (n : Nat) (j : Int), n ≤ 2 ^ (F.fracBits + 1) ∧ 1 - F.bias ≤ j ∧ F.fracBits + j < F.bias ∧ x * 2 ^ (4 * e) = (n : ℚ) * 2 ^ j) :
    ∃ v', rhexPowerF F fpu (sg ++ ds) v = .ok (true, v') ∧ IsHF F v' (x * 2 ^ (4 * e)) := by
  have hb : F.bias ≤ 1023 := by rcases hF with rfl | rfl <;> decide
  have h1 : IsHF F (v.mul F fpu (ipow16F F fpu e)) (x * 2 ^ (4 * e)) := by
    obtain ⟨n, j, a, b, c, eq⟩ := hx
    exact isHF_mul hF fpu hv (ipow16F_eq hF fpu he1 he2) a b c eq
  have key : ∀ s' : List Nat, IntDenotes s' e → s' ≠ [] →
      ∃ v', (if s'.length > 0 then do
        let (ok, p, _) ← atoi ⟨.w16, true⟩ s'
        .ok (if ok then (true, v.mul F fpu (ipow16F F fpu p)) else (false, v))
      else .ok (false, v)) = Res.ok (true, v') ∧ IsHF F v' (x * 2 ^ (4 * e)) := by
    intro s' hs hne
    obtain ⟨⟨b, p, o⟩, g1, g2, g3⟩ := C12_atoi ⟨.w16, true⟩ s'
    have hb' : b = true := g2.mpr ⟨e, hs⟩
    have hp : p = e := (g3 e hs).eq_of_fits (by show (-32768 : Int) ≤ e; omega) (by show e ≤ (32767 : Int); omega)
    refine ⟨_, ?_, h1⟩
    rw [if_pos (List.length_pos_iff.mpr hne), g1, hb', hp, Res.ok_bind]
    rfl
  obtain ⟨c, t, hct, hc1, hc2⟩ := (UintDenotes.dec h).head
  unfold rhexPowerF
  rcases he with ⟨rfl, rfl⟩ | ⟨rfl, rfl⟩ | ⟨rfl, rfl⟩
  · have hd : IntDenotes ds m := .pos (.dec h)
    have hm : (if ds.head? = some 43 then ds.drop 1 else ds) = ds := by
      rw [if_neg]; rw [hct]; simp; omega
    simp only [List.nil_append]
    rw [hm]
    exact key ds hd h.1
  · exact key ds (.pos (.dec h)) h.1
  · exact key (45 :: ds) (.neg (.dec h)) (by simp)

theorem power_two (e : Int) : power 2 e = (2 : ℚ) ^ e := by
  unfold power
  split
  · rename_i h
    obtain ⟨n, rfl⟩ := Int.eq_ofNat_of_zero_le h
    simp
  · rename_i h
    obtain ⟨n, rfl⟩ : ∃ n : Nat, e = -(n : Int) := ⟨(-e).toNat, by omega⟩
    simp

/-- **C22** with the arithmetic of `float` or `double` in any rounding direction, what the exponent does: for a hexadecimal real without letter digits
whose digits all fit in the precision of the type, and with an exponent `e` such that 16^`e` and the result are neither subnormal nor
infinite, `atof`/`atod` into a variable holding zero give exactly 8^`e` times its value, since the exponent is taken as a power of 16.  That is the value
only if the exponent is zero.
Missing: letter digits, more digits than the precision, and exponents for which a result is rounded. -/
theorem C22_float_power_partial {F : Ieee} (hF : F = binary32 ∨ F = binary64) (fpu : Fpu) {ip fp ep di df : List Nat} (hi : IsDigits 10 ip di)
    (hf : (fp = [] ∧ df = [] ∧ ip ≠ []) ∨ ∃ f, fp = 46 :: f ∧ IsDigits 10 f df ∧ (ip ≠ [] ∨ f ≠ []))
    {e : Int} (hep : (ep = [] ∧ e = 0) ∨ ∃ p sg ds n, ep = p :: (sg ++ ds) ∧ IsP p ∧ DigitText 10 ds n ∧
      ((sg = [] ∧ e = n) ∨ (sg = [43] ∧ e = n) ∨ (sg = [45] ∧ e = -(n : Int))))
    (hlen : value 16 (di ++ df) ≤ 2 ^ (F.fracBits + 1)) (hfrac : (4 * df.length : Int) ≤ F.bias - 1) (he1 : 4 * e ≤ F.bias - 1) (he2 : -(4 * e) ≤ F.bias - 1)
    (hr1 : 1 - F.bias ≤ 4 * (e - df.length)) (hr2 : F.fracBits + 4 * (e - df.length) < F.bias) {z : Nat} (hz : F.val z = 0) :
    ∃ x r, HexReal (ip ++ fp ++ ep) e x ∧ F.val r = x * 8 ^ e ∧ ∀ p ∈ [120, 88], ∀ sg neg, (sg = [] ∧ neg = false) ∨ (sg = [43] ∧ neg = false) ∨ (sg = [45] ∧ neg = true) →
      atofHexF F fpu (sg ++ 48 :: p :: (ip ++ fp ++ ep)) (.num z) = .ok (some (true, neg, .num r)) := by
  have hbias := hf_bias hF
  have hp0 : ∀ p, IsP p → rhexDigit p = none ∧ p ≠ 46 := by
    intro p hp; unfold IsP at hp; rcases hp with rfl | rfl <;> decide
  have d16 : ∀ {s ds : List Nat}, IsDigits 10 s ds → IsDigits 16 s ds := fun h => ⟨h.1, fun d hd => by have := h.2 d hd; omega⟩
  have hx : (value 16 (di ++ df) : ℚ) / (16 : ℚ) ^ df.length = (value 16 (di ++ df) : ℚ) * 2 ^ (-(4 * df.length : Nat) : ℤ) := by
    rw [div_eq_mul_inv, zpow_neg, zpow_natCast, pow_mul]
    norm_num
  obtain ⟨x, hxd⟩ : ∃ x : ℚ, x = (value 16 (di ++ df) : ℚ) * 2 ^ (-(4 * df.length : Nat) : ℤ) := ⟨_, rfl⟩
  have hrep : ∃ (n : Nat) (j : Int), n ≤ 2 ^ (F.fracBits + 1) ∧ 1 - F.bias ≤ j ∧ F.fracBits + j < F.bias ∧ x * 2 ^ (4 * e) = (n : ℚ) * 2 ^ j := by
    refine ⟨_, 4 * (e - df.length), hlen, hr1, hr2, ?_⟩
    rw [hxd, mul_assoc, ← zpow_add₀ (by norm_num)]
    congr 2
    push_cast
    ring
  have htail : ∀ v, IsHF F v x → ∃ v', IsHF F v' (x * 2 ^ (4 * e)) ∧ (fp = [] → rhexIntF F fpu ep v = .ok (true, v')) ∧ (∀ dg, rhexFracF F fpu ep dg v = .ok (true, v')) := by
    intro v hv
    rcases hep with ⟨rfl, rfl⟩ | ⟨p, sg, ds, n, rfl, hp, hds, he⟩
    · exact ⟨v, by simpa using hv, fun _ => rfl, fun _ => rfl⟩
    · obtain ⟨v', g1, g2⟩ := rhexPowerF_eq hF fpu hds he he1 he2 hv hrep
      refine ⟨v', g2, fun _ => ?_, fun dg => ?_⟩
      · rw [rhexIntF, (hp0 p hp).1]
        simp only [(hp0 p hp).2, if_false]
        rw [if_pos (show p = 112 ∨ p = 80 from hp), g1]
      · rw [rhexFracF, (hp0 p hp).1]
        simp only
        rw [if_pos (show p = 112 ∨ p = 80 from hp), g1]
  have hva := value_append 16 di df
  have hscan : ∃ v', scanRhexF F fpu (ip ++ fp ++ ep) (.num z) = .ok (true, v') ∧ IsHF F v' (x * 2 ^ (4 * e)) := by
    have hdi : 0 * 16 ^ di.length + value 16 di ≤ 2 ^ (F.fracBits + 1) := by
      have h1 : value 16 di * 1 ≤ value 16 di * 16 ^ df.length := Nat.mul_le_mul_left _ (Nat.one_le_pow _ _ (by omega))
      omega
    obtain ⟨v, g1, g2⟩ := rhexIntF_digits hF fpu (fp ++ ep) ip di (.num z) 0 hi ⟨z, rfl, by simpa using hz⟩ hdi
    unfold scanRhexF
    rw [List.append_assoc, g1]
    rw [Nat.zero_mul, Nat.zero_add] at g2
    rcases hf with ⟨rfl, rfl, _⟩ | ⟨f, rfl, hf, _⟩
    · have : IsHF F v x := by
        rw [hxd]
        simpa using g2
      obtain ⟨v', t1, t2, _⟩ := htail v this
      exact ⟨v', t2 rfl, t1⟩
    · rw [List.cons_append, rhexIntF, show rhexDigit 46 = none from rfl]
      simp only [if_true]
      have hdig : df ≠ [] → IsHF F (.ofRat F fpu (1 / 16)) (2 ^ (-(4 * (0 + 1) : Nat) : ℤ)) := by
        intro hne
        have hl : 1 ≤ df.length := List.length_pos_iff.mpr hne
        have e : (1 / 16 : ℚ) = 2 ^ (-(4 * (0 + 1) : Nat) : ℤ) := by norm_num [zpow_neg]
        have := round_exact hF fpu (n := 1) Nat.one_le_two_pow (j := -(4 * (0 + 1) : Nat)) (by omega) (by omega) (x := 1 / 16) (by rw [e]; simp)
        rw [← e]
        exact this
      obtain ⟨v2, dg2, t1, t2⟩ := rhexFracF_digits hF fpu ep f df v (.ofRat F fpu (1 / 16)) (value 16 di) 0 hf (by simpa using g2) hdig (by rw [← hva]; exact hlen) (by omega)
      rw [t1]
      have : IsHF F v2 x := by
        rw [hxd, hva]
        simpa using t2
      obtain ⟨v', s1, _, s3⟩ := htail v2 this
      exact ⟨v', s3 dg2, s1⟩
  obtain ⟨v', hs, r, rfl, hr⟩ := hscan
  have h8 : (2 : ℚ) ^ (4 * e) = 2 ^ e * 8 ^ e := by
    rw [show (8 : ℚ) = 2 ^ (3 : ℤ) by norm_num, ← zpow_mul, ← zpow_add₀ (by norm_num)]
    congr 1
    ring
  refine ⟨x * 2 ^ e, r, ?_, by rw [hr, h8, mul_assoc], ?_⟩
  · refine ⟨ip, fp, ep, di, df, rfl, d16 hi, ?_, ?_, ?_⟩
    · rcases hf with h | ⟨f, a, b, c⟩
      · exact .inl h
      · exact .inr ⟨f, a, d16 b, c⟩
    · rcases hep with h | ⟨p, sg, ds, n, a, b, c, d⟩
      · exact .inl h
      · exact .inr ⟨p, sg, ds, n, a, b, c, d⟩
    · rw [hx, hxd, power_two]
  · intro p hp sg neg hsg
    have hp' : p = 120 ∨ p = 88 := by simpa using hp
    rw [List.append_assoc] at hs
    rcases hsg with ⟨rfl, rfl⟩ | ⟨rfl, rfl⟩ | ⟨rfl, rfl⟩ <;> simp [atofHexF, rd, hs, hp']

/-- A case of `C22_float_power_partial`: `12.8p-2`, which is read as 18.5 / 256. -/
example : IsDigits 10 (S "12") [1, 2] ∧ IsDigits 10 (S "8") [8] ∧ DigitText 10 (S "2") 2 ∧ value 16 ([1, 2] ++ [8]) ≤ 2 ^ (binary32.fracBits + 1) ∧
    1 - binary32.bias ≤ 4 * (-2 - 1) ∧ -(4 * (-2)) ≤ binary32.bias - 1 :=
  ⟨⟨rfl, by decide⟩, ⟨rfl, by decide⟩, ⟨by decide, [2], ⟨rfl, by decide⟩, rfl⟩, by decide, by decide, by decide⟩

/-- **C22** with the arithmetic of `float` or `double` in any rounding direction, what holds: for a hexadecimal real without letter digits and
exponent zero (or none), whose digits all fit in the precision of the type, `atof`/`atod` into a variable holding zero give its exact
value, negated after a minus sign.
Missing: what is missing in `C22_value_partial`, and numbers with more digits, which are not rounded correctly (see `C22_refuted_rounding`). -/
theorem C22_float_partial {F : Ieee} (hF : F = binary32 ∨ F = binary64) (fpu : Fpu) {ip fp ep di df : List Nat} (hi : IsDigits 10 ip di)
    (hf : (fp = [] ∧ df = [] ∧ ip ≠ []) ∨ ∃ f, fp = 46 :: f ∧ IsDigits 10 f df ∧ (ip ≠ [] ∨ f ≠ []))
    (hep : ep = [] ∨ ∃ p sg ds, ep = p :: (sg ++ ds) ∧ IsP p ∧ DigitText 10 ds 0 ∧ (sg = [] ∨ sg = [43] ∨ sg = [45]))
    (hlen : value 16 (di ++ df) ≤ 2 ^ (F.fracBits + 1)) (hfrac : (4 * df.length : Int) ≤ F.bias - 1) {z : Nat} (hz : F.val z = 0) :
    ∃ x r, HexReal (ip ++ fp ++ ep) 0 x ∧ F.val r = x ∧ ∀ p ∈ [120, 88], ∀ sg neg, (sg = [] ∧ neg = false) ∨ (sg = [43] ∧ neg = false) ∨ (sg = [45] ∧ neg = true) →
      atofHexF F fpu (sg ++ 48 :: p :: (ip ++ fp ++ ep)) (.num z) = .ok (some (true, neg, .num r)) := by
  have hbias := hf_bias hF
  obtain ⟨x, r, h1, h2, h3⟩ := C22_float_power_partial hF fpu (ep := ep) (e := 0) hi hf (by
    rcases hep with h | ⟨p, sg, ds, a, b, c, d⟩
    · exact .inl ⟨h, rfl⟩
    · refine .inr ⟨p, sg, ds, 0, a, b, c, ?_⟩
      rcases d with d | d | d
      · exact .inl ⟨d, rfl⟩
      · exact .inr (.inl ⟨d, rfl⟩)
      · exact .inr (.inr ⟨d, rfl⟩)) hlen hfrac (by omega) (by omega) (by omega) (by omega) hz
  exact ⟨x, r, h1, by rw [h2]; simp, h3⟩

/-- A case of `C22_float_partial`: `12.8p-0`. -/
example : IsDigits 10 (S "12") [1, 2] ∧ IsDigits 10 (S "8") [8] ∧ IsP 112 ∧ DigitText 10 (S "0") 0 ∧ value 16 ([1, 2] ++ [8]) ≤ 2 ^ (binary32.fracBits + 1) ∧
    binary32.val 0 = 0 :=
  ⟨⟨rfl, by decide⟩, ⟨rfl, by decide⟩, .inl rfl, ⟨by decide, [0], ⟨rfl, by decide⟩, rfl⟩, by decide, by decide +kernel⟩

/-- The values of the `float`s around 2^24 and 2^28. -/
theorem vals32 : binary32.val (151 * 2 ^ 23) = 2 ^ 24 ∧ binary32.val (151 * 2 ^ 23 + 1) = 2 ^ 24 + 2 ∧ binary32.val (155 * 2 ^ 23) = 2 ^ 28 ∧
    binary32.val (155 * 2 ^ 23 + 1) = 2 ^ 28 + 32 := by decide +kernel

/-- **C22** refuted for numbers with more digits than the precision, also without letters: every digit is rounded on its own, so that
`0x10000011` is read into a `float` as 2^28, though 2^28 + 32 is nearer. -/
theorem C22_refuted_rounding (fpu : Fpu) (hm : fpu.mode = .nearest) : ∃ r, scanRhexF binary32 fpu (S "10000011") (.num 0) = .ok (true, .num r) ∧
    HexReal (S "10000011") 0 (2 ^ 28 + 17) ∧ binary32.val r = 2 ^ 28 ∧ ¬ binary32.Nearest (2 ^ 28 + 17) r := by
  have hF : binary32 = binary32 ∨ binary32 = binary64 := .inl rfl
  have near : ∀ x : ℚ, 0 ≤ x → binary32.Nearest x (fpu.round binary32 x) := by
    intro x hx
    have := fpu.rounded binary32 hF x hx
    rw [hm] at this
    exact this
  obtain ⟨v1, v2, v3, v4⟩ := vals32
  have z0 : binary32.val 0 = 0 := by decide +kernel
  obtain ⟨v, g1, g2⟩ := rhexIntF_digits hF fpu (S "11") (S "100000") [1, 0, 0, 0, 0, 0] (.num 0) 0 ⟨rfl, by decide⟩ ⟨0, rfl, by simpa using z0⟩ (by decide)
  have n16 := isHF_ofRat hF fpu (n := 16) (by omega)
  have n1 := isHF_ofRat hF fpu (n := 1) (by omega)
  -- a step at a number that is too large for a digit to be added
  have step : ∀ (w : HF) (y : ℚ) (b : Nat), IsHF binary32 w y → y * 16 = binary32.val b → b < binary32.infBits → b + 1 ≤ binary32.infBits →
      (2 * (binary32.val b + 1) < binary32.val b + binary32.val (b + 1) ∨ (2 * (binary32.val b + 1) = binary32.val b + binary32.val (b + 1) ∧ b % 2 = 0)) →
      (w.mul binary32 fpu (.ofRat binary32 fpu 16)).add binary32 fpu (.ofRat binary32 fpu 1) = .num b := by
    rintro w y b ⟨a, rfl, ha⟩ hy hb hb1 hr
    obtain ⟨c, hc, hc2⟩ := n16
    obtain ⟨d, hd, hd2⟩ := n1
    have pos : 0 ≤ binary32.val b := by
      have := (val_strictMono binary32).monotone (Nat.zero_le b)
      rw [z0] at this
      exact this
    have e1 : fpu.round binary32 (binary32.val b) = b := nearest_unique _ (near _ pos) (nearest_self _ hb.le)
    have e2 : fpu.round binary32 (binary32.val b + 1) = b := nearest_unique _ (near _ (by linarith)) (nearest_down _ hb1 (by linarith) hr)
    rw [show (16 : ℚ) = ((16 : Nat) : ℚ) by norm_num, hc, HF.mul, ha, hc2]
    rw [show y * ((16 : Nat) : ℚ) = binary32.val b by rw [← hy]; norm_num, e1, HF.ofBits, if_neg (by omega)]
    rw [show (1 : ℚ) = ((1 : Nat) : ℚ) by norm_num, hd, HF.add, hd2]
    rw [show binary32.val b + ((1 : Nat) : ℚ) = binary32.val b + 1 by norm_num, e2, HF.ofBits, if_neg (by omega)]
  have hinf : binary32.infBits = 255 * 2 ^ 23 := by decide
  have s1 := step v (2 ^ 20) (151 * 2 ^ 23) (by
    have e : ((0 * 16 ^ [1, 0, 0, 0, 0, 0].length + value 16 [1, 0, 0, 0, 0, 0] : Nat) : ℚ) = 2 ^ 20 := by
      rw [show 0 * 16 ^ [1, 0, 0, 0, 0, 0].length + value 16 [1, 0, 0, 0, 0, 0] = 2 ^ 20 by decide]; norm_num
    rw [← e]
    exact g2) (by rw [v1]; norm_num) (by omega) (by omega) (by right; rw [v1, v2]; norm_num)
  have s2 := step (.num (151 * 2 ^ 23)) (2 ^ 24) (155 * 2 ^ 23) ⟨_, rfl, v1⟩ (by rw [v3]; norm_num) (by omega) (by omega) (by left; rw [v3, v4]; norm_num)
  refine ⟨155 * 2 ^ 23, ?_, ?_, v3, ?_⟩
  · unfold scanRhexF
    rw [show S "10000011" = S "100000" ++ S "11" by decide, g1, show S "11" = [49, 49] by decide]
    rw [rhexIntF, show rhexDigit 49 = some 1 by decide]
    simp only [Nat.cast_one]
    rw [s1, rhexIntF, show rhexDigit 49 = some 1 by decide]
    simp only [Nat.cast_one]
    rw [s2]
    rfl
  · refine ⟨S "10000011", [], [], [1, 0, 0, 0, 0, 0, 1, 1], [], rfl, ⟨rfl, by decide⟩, Or.inl ⟨rfl, rfl, by decide⟩, Or.inl ⟨rfl, rfl⟩, ?_⟩
    decide +kernel
  · intro h
    have := nearest_unique _ h (nearest_up binary32 (b := 155 * 2 ^ 23) (by omega) (by rw [v4]; norm_num) (by left; rw [v3, v4]; norm_num))
    omega

/-- A product beyond the largest number becomes infinite, if the rounding direction is to nearest or up. -/
theorem round_inf {F : Ieee} (hF : F = binary32 ∨ F = binary64) (fpu : Fpu) (hm : fpu.mode = .nearest ∨ fpu.mode = .up) {x : ℚ} (h : F.val F.infBits ≤ x) :
    HF.ofBits F (fpu.round F x) = .inf := by
  have h0 : 0 ≤ x := le_trans (by rcases hF with rfl | rfl <;> decide +kernel) h
  have hr := fpu.rounded F hF x h0
  have : fpu.round F x = F.infBits := by
    rcases hm with hm | hm <;> rw [hm] at hr
    · exact nearest_unique _ hr (nearest_inf F h)
    · obtain ⟨h1, h2, _⟩ := hr
      rcases h2 with h2 | h2
      · by_contra hne
        have := val_strictMono F (lt_of_le_of_ne h1 hne)
        linarith
      · exact h2
  rw [HF.ofBits, if_pos this]

theorem hf_mulLoop_inf {F : Ieee} (hF : F = binary32 ∨ F = binary64) (fpu : Fpu) : ∀ n, HF.mulLoop F fpu n .inf = .inf
  | 0 => rfl
  | n + 1 => by
    obtain ⟨b, h1, h2⟩ := isHF_ofRat hF fpu (n := 16) (by omega)
    have hb : b ≠ 0 := by
      rintro rfl
      rw [show F.val 0 = 0 by rcases hF with rfl | rfl <;> decide +kernel] at h2
      norm_num at h2
    rw [HF.mulLoop, show (16 : ℚ) = ((16 : Nat) : ℚ) by norm_num, h1, HF.mul, if_neg hb]
    exact hf_mulLoop_inf hF fpu n

/-- The power of 16 is infinite once it is beyond the largest number. -/
theorem ipow16F_inf {F : Ieee} (hF : F = binary32 ∨ F = binary64) (fpu : Fpu) (hm : fpu.mode = .nearest ∨ fpu.mode = .up) {m : Nat} (h : F.bias < 4 * m) :
    ipow16F F fpu m = .inf := by
  obtain ⟨k, hk1, hk2⟩ : ∃ k : Nat, (4 * (k : Int)) ≤ F.bias - 1 ∧ F.bias < 4 * (k + 1) := by
    rcases hF with rfl | rfl
    · exact ⟨31, by decide, by decide⟩
    · exact ⟨255, by decide, by decide⟩
  have hv : F.val F.infBits ≤ 2 ^ (4 * (k + 1)) := by
    have e : F.val F.infBits = 2 ^ (F.bias + 1) := by rcases hF with rfl | rfl <;> decide +kernel
    rw [e, ← zpow_natCast]
    exact zpow_le_zpow_right₀ (by norm_num) (by push_cast; omega)
  have one : IsHF F (.ofRat F fpu 1) (1 : ℚ) := by
    have := isHF_ofRat hF fpu (n := 1) (by omega)
    exact_mod_cast this
  have split : ∀ a b v, HF.mulLoop F fpu (a + b) v = HF.mulLoop F fpu b (HF.mulLoop F fpu a v) := by
    intro a
    induction a with
    | zero => intro b v; rw [Nat.zero_add]; rfl
    | succ a ih => intro b v; rw [Nat.add_right_comm, HF.mulLoop, ih]; rfl
  obtain ⟨a, ha1, ha2⟩ := hf_mulLoop hF fpu k 0 _ (by simpa using one) (by omega)
  obtain ⟨b, hb1, hb2⟩ := isHF_ofRat hF fpu (n := 16) (by omega)
  unfold ipow16F
  rw [if_pos (by omega), Int.toNat_natCast, show m = k + (1 + (m - k - 1)) by omega, split, ha1, split, HF.mulLoop, HF.mulLoop,
    show (16 : ℚ) = ((16 : Nat) : ℚ) by norm_num, hb1, HF.mul, round_inf hF fpu hm, hf_mulLoop_inf hF]
  rw [ha2, hb2]
  refine le_trans hv (le_of_eq ?_)
  rw [Nat.zero_add, Nat.mul_add, pow_add]
  norm_num

/-- **C22 is false** for zero with a large exponent: `0x0p` and an exponent of at least 32 for `float`, 256 for `double`, is read as not-a-number, since
the power of 16 is infinite; and `0x1p` with such an exponent `m` is read as infinity, though 2^`m` may be a number of the type. -/
theorem C22_refuted_overflow {F : Ieee} (hF : F = binary32 ∨ F = binary64) (fpu : Fpu) (hm : fpu.mode = .nearest ∨ fpu.mode = .up) {ds : List Nat} {m : Nat}
    (h : DigitText 10 ds m) (h1 : F.bias < 4 * m) (h2 : m ≤ 32767) :
    (HexReal (S "0p" ++ ds) m 0 ∧ atofHexF F fpu (S "0x0p" ++ ds) (.num 0) = .ok (some (true, false, .nan))) ∧
    (HexReal (S "1p" ++ ds) m (2 ^ m) ∧ atofHexF F fpu (S "0x1p" ++ ds) (.num 0) = .ok (some (true, false, .inf))) := by
  have z0 : F.val 0 = 0 := by rcases hF with rfl | rfl <;> decide +kernel
  have hb := hf_bias hF
  have hpow : ∀ v, rhexPowerF F fpu ds v = .ok (true, v.mul F fpu .inf) := by
    intro v
    obtain ⟨c, t, hct, hc1, hc2⟩ := (UintDenotes.dec h).head
    have hd : IntDenotes ds m := .pos (.dec h)
    have hh : (if ds.head? = some 43 then ds.drop 1 else ds) = ds := by
      rw [if_neg]; rw [hct]; simp; omega
    obtain ⟨⟨b, p, o⟩, g1, g2, g3⟩ := C12_atoi ⟨.w16, true⟩ ds
    have hb' : b = true := g2.mpr ⟨m, hd⟩
    have hp : p = m := (g3 m hd).eq_of_fits (by show (-32768 : Int) ≤ m; omega) (by show (m : Int) ≤ (32767 : Int); omega)
    unfold rhexPowerF
    simp only [hh]
    rw [if_pos (List.length_pos_iff.mpr h.1), g1, hb', hp, Res.ok_bind, ← ipow16F_inf hF fpu hm h1]
    rfl
  have hdg : ∀ d, d ≤ 1 → [48 + d].map charDigit = [d].map some := by decide
  have read : ∀ d, d ≤ 1 → ∃ b, scanRhexF F fpu ((48 + d) :: 112 :: ds) (.num 0) = .ok (true, (HF.num b).mul F fpu .inf) ∧ F.val b = d := by
    intro d hd
    obtain ⟨v, g1, b, rfl, g2⟩ := rhexIntF_digits hF fpu (112 :: ds) [48 + d] [d] (.num 0) 0 ⟨hdg d hd, by simp; omega⟩ ⟨0, rfl, by simpa using z0⟩ (by
      simp only [value, List.foldl, List.length_singleton]
      calc _ ≤ 1 := by omega
        _ ≤ _ := Nat.one_le_two_pow)
    refine ⟨b, ?_, ?_⟩
    · unfold scanRhexF
      rw [show (48 + d) :: 112 :: ds = [48 + d] ++ 112 :: ds from rfl, g1, rhexIntF, show rhexDigit 112 = none from rfl]
      simp [hpow]
    · rw [g2]; simp [value]
  have real : ∀ d, d ≤ 1 → HexReal ((48 + d) :: 112 :: ds) m (d * 2 ^ m) := by
    intro d hd
    refine ⟨[48 + d], [], 112 :: ds, [d], [], rfl, ⟨hdg d hd, by simp; omega⟩, .inl ⟨rfl, rfl, by simp⟩, .inr ⟨112, [], ds, m, rfl, .inl rfl, h, .inl ⟨rfl, rfl⟩⟩, ?_⟩
    rw [power_two]
    simp [value]
  obtain ⟨b0, r0, e0⟩ := read 0 (by omega)
  obtain ⟨b1, r1, e1⟩ := read 1 (by omega)
  have hb0 : b0 = 0 := (val_strictMono F).injective (by rw [e0, z0]; simp)
  have hb1 : b1 ≠ 0 := by
    rintro rfl
    rw [z0] at e1
    norm_num at e1
  subst hb0
  refine ⟨⟨?_, ?_⟩, ?_, ?_⟩
  · have := real 0 (by omega)
    rw [Nat.cast_zero, zero_mul] at this
    exact this
  · show atofHexF F fpu (48 :: 120 :: (48 + 0) :: 112 :: ds) (.num 0) = _
    simp only [atofHexF, rd]
    simp [r0, HF.mul]
  · have := real 1 (by omega)
    rw [Nat.cast_one, one_mul] at this
    exact this
  · show atofHexF F fpu (48 :: 120 :: (48 + 1) :: 112 :: ds) (.num 0) = _
    simp only [atofHexF, rd]
    simp [r1, HF.mul, hb1]

example : DigitText 10 (S "32") 32 ∧ binary32.bias < 4 * 32 ∧ DigitText 10 (S "0256") 256 ∧ binary64.bias < 4 * 256 :=
  ⟨⟨by decide, [3, 2], ⟨rfl, by decide⟩, rfl⟩, by decide, ⟨by decide, [0, 2, 5, 6], ⟨rfl, by decide⟩, rfl⟩, by decide⟩

end C4
