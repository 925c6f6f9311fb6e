import Verif.Props.FFFromChars
import Verif.Props.FastFloat
/-
The result of `from_chars` for a text that begins with a number, and the exponent that is read up to a limit.
-/
namespace C4.FF
open Spec

/-- `float` or `double`. -/
def IsFmt (f : Fmt) (F : Ieee) : Prop := (f = dbl ∧ F = binary64) ∨ (f = flt ∧ F = binary32)

theorem IsFmt.ok {f : Fmt} {F : Ieee} (h : IsFmt f F) : FmtOk f F := by
  rcases h with ⟨rfl, rfl⟩ | ⟨rfl, rfl⟩
  · exact dbl_ok
  · exact flt_ok

theorem IsFmt.slow {f : Fmt} {F : Ieee} (h : IsFmt f F) : SlowOk f F := by
  rcases h with ⟨rfl, rfl⟩ | ⟨rfl, rfl⟩
  · exact dbl_slow
  · exact flt_slow

theorem IsFmt.fast {f : Fmt} {F : Ieee} (h : IsFmt f F) : ∃ K, FastOk f F K := by
  rcases h with ⟨rfl, rfl⟩ | ⟨rfl, rfl⟩
  · exact ⟨_, dbl_fast⟩
  · exact ⟨_, flt_fast⟩

theorem Handed.mantissa {a : PNS} {e : Int} (h : Handed a e) : a.mantissa = 0 ↔ digitsVal (a.integer ++ a.fraction.getD []) = 0 := by
  rcases h.cases with ⟨_, h2, _, _⟩ | ⟨s, hs, _, hlen, hsig, h2, _, h4, _⟩
  · rw [h2]
  · rw [← digitsVal_sig, hs]
    have := hsig.ge (by intro h; rw [h] at hlen; exact absurd hlen (by decide))
    have := Nat.pos_of_ne_zero (pow_ne_zero (s.length - 1) (by decide : (10 : Nat) ≠ 0))
    constructor <;> intro <;> omega

/-- The result for a number that was parsed. -/
theorem fromCharsPns_spec {f : Fmt} {F : Ieee} (hf : IsFmt f F) (fpu : Fpu) {a : PNS} {e : Int} (h : Handed a e) :
    ∃ b, F.Nearest ((digitsVal (a.integer ++ a.fraction.getD []) : ℚ) * 10 ^ e) b ∧
      fromCharsPns f fpu a = ⟨a.lastmatch,
        if b = F.infBits ∨ (b = 0 ∧ digitsVal (a.integer ++ a.fraction.getD []) ≠ 0) then .resultOutOfRange else .none,
        some (.bits (b + (if a.negative then F.signBit else 0)))⟩ := by
  have hok := hf.ok
  obtain ⟨K, hfo⟩ := hf.fast
  have hm := h.mantissa
  unfold fromCharsPns
  cases hfp : fastPath f fpu a with
  | some v =>
    obtain ⟨htm, b, hv, hn, hlt, hz⟩ := fastPath_nearest hfo fpu a hfp
    refine ⟨b, ?_, ?_⟩
    · rcases h.cases with ⟨_, h2, h3, _⟩ | ⟨s, hs, ht, _⟩
      · rw [← h2, ← h3]; exact hn
      · rw [htm] at ht; cases ht
    · dsimp only
      have hno : ¬ (b = F.infBits ∨ (b = 0 ∧ digitsVal (a.integer ++ a.fraction.getD []) ≠ 0)) := by
        rintro (h | h)
        · omega
        · exact h.2 (hm.1 (hz.1 h.1))
      rw [hv, negate_eq hok _ hlt.le, if_neg hno]
  | none =>
    obtain ⟨hn, hc⟩ := slowPath_nearest hok hf.slow h
    refine ⟨_, hn, ?_⟩
    dsimp only
    rw [toFloat_sign hok a.negative _ hn.1]
    have hzero := hc.zero
    have hinf := (hc.inf hok hn.1).1
    congr 1
    have hiff : (a.mantissa ≠ 0 ∧ (slowPath f a).mantissa = 0 ∧ (slowPath f a).power2 = 0 ∨ (slowPath f a).power2 = f.infinitePower) ↔
        (toFloat f false (slowPath f a) = F.infBits ∨ (toFloat f false (slowPath f a) = 0 ∧ digitsVal (a.integer ++ a.fraction.getD []) ≠ 0)) := by
      rw [hzero, hinf, Ne, Ne, hm]
      tauto
    simp only [hiff]

theorem Parsed.handed {a : PNS} {t : Decimal} {rest : List Nat} (h : Parsed a t rest) (ht : t.WF) : Handed a (capExp t.exp - ((t.frac.getD []).length : Int)) := by
  have e : a.integer ++ a.fraction.getD [] = t.digits := by rw [h.integer, h.fraction]; rfl
  constructor
  · rw [e]; exact ht.digits
  · rw [e]; exact h.number

/-- Reading the exponent only up to a limit does not change the result, unless there are about as many digits as the limit. -/
theorem cap_nearest {f : Fmt} {F : Ieee} (hok : FmtOk f F) {t : Decimal} (ht : t.WF) (hl : t.digits.length + 400 ≤ 2 ^ 28 ∨ |t.expVal| < 2 ^ 28) (b : Nat) :
    F.Nearest ((digitsVal t.digits : ℚ) * 10 ^ (capExp t.exp - ((t.frac.getD []).length : Int))) b → F.Nearest t.mag b := by
  intro h
  unfold Decimal.mag
  by_cases he : capExp t.exp = t.expVal
  · rwa [← he]
  cases hx : t.exp with
  | none => rw [Decimal.expVal, hx] at he; exact absurd rfl he
  | some v =>
    obtain ⟨ec, sg, ds⟩ := v
    obtain ⟨-, -, -, hds⟩ := ht.exp _ _ _ hx
    obtain ⟨hcap, -⟩ := capVal_spec ds hds
    have hev : t.expVal = if sg = some 45 then -(digitsVal ds : Int) else digitsVal ds := by rw [Decimal.expVal, hx]
    have hce : capExp t.exp = if sg = some 45 then -(capVal ds : Int) else capVal ds := by rw [hx]; rfl
    have hne : capVal ds ≠ digitsVal ds := by
      intro h
      apply he
      rw [hev, hce, h]
    have hge : 0x10000000 ≤ capVal ds ∧ capVal ds ≤ digitsVal ds := hcap.resolve_left hne
    have hlen : t.digits.length + 400 ≤ 2 ^ 28 := by
      rcases hl with h | h
      · exact h
      · exfalso
        rw [hev, abs_lt] at h
        split at h <;> omega
    have hD : t.digits.length = t.int.length + (t.frac.getD []).length := by rw [Decimal.digits, List.length_append]
    by_cases hz : digitsVal t.digits = 0
    · rw [hz, Nat.cast_zero, zero_mul] at h ⊢
      exact h
    have hlt := digitsVal_lt t.digits ht.digits
    have h1 : (1 : ℚ) ≤ digitsVal t.digits := by exact_mod_cast (by omega : 1 ≤ digitsVal t.digits)
    have h2 : (digitsVal t.digits : ℚ) < 10 ^ (t.digits.length : ℤ) := by rw [zpow_natCast]; exact_mod_cast hlt
    by_cases hsg : sg = some 45
    · rw [if_pos hsg] at hev hce
      have key : ∀ k : Int, k ≤ -2 ^ 28 → F.Nearest ((digitsVal t.digits : ℚ) * 10 ^ (k - ((t.frac.getD []).length : Int))) 0 := by
        intro k hk
        refine nearest_zero hok (by positivity) ?_
        calc (digitsVal t.digits : ℚ) * 10 ^ (k - ((t.frac.getD []).length : Int))
            < 10 ^ (t.digits.length : ℤ) * 10 ^ (k - ((t.frac.getD []).length : Int)) := mul_lt_mul_of_pos_right h2 (by positivity)
          _ = 10 ^ (t.digits.length + (k - ((t.frac.getD []).length : Int))) := by rw [zpow_add₀ (by norm_num)]
          _ ≤ 10 ^ (-(1 - f.smallestPowerOfTen)) := zpow_le_zpow_right₀ (by norm_num) (by have := hok.small; omega)
          _ ≤ 2 ^ (-(64 + f.mantissaExplicitBits + (-f.minimumExponent)) : ℤ) := by
            rw [zpow_neg, zpow_neg]
            apply inv_anti₀ (by positivity)
            have hz := hok.zero
            have hs := hok.small
            have hm := hok.emin
            obtain ⟨n, hn⟩ : ∃ n : Nat, 1 - f.smallestPowerOfTen = n := ⟨(1 - f.smallestPowerOfTen).toNat, by omega⟩
            obtain ⟨m, hm⟩ : ∃ m : Nat, -f.minimumExponent = m := ⟨(-f.minimumExponent).toNat, by omega⟩
            rw [hn, hm, Int.toNat_natCast, Int.toNat_natCast] at hz
            rw [hn, hm, show (64 + f.mantissaExplicitBits + m : ℤ) = ((64 + f.mantissaExplicitBits + m : ℕ) : ℤ) by push_cast; ring, zpow_natCast, zpow_natCast]
            exact_mod_cast hz
          _ ≤ 2 ^ (-F.bias - F.fracBits : ℤ) := zpow_le_zpow_right₀ (by norm_num) (by have := hok.bias; have := hok.frac; omega)
      rw [nearest_unique F h (key _ (by rw [hce]; omega)), hev]
      exact key _ (by omega)
    · rw [if_neg hsg] at hev hce
      have key : ∀ k : Int, 2 ^ 28 ≤ k → F.Nearest ((digitsVal t.digits : ℚ) * 10 ^ (k - ((t.frac.getD []).length : Int))) F.infBits := by
        intro k hk
        apply nearest_inf
        rw [val_inf hok]
        have hb := hok.bias
        have hm := hok.emin
        have hL := hok.large
        have hh := hok.huge
        obtain ⟨n, hn⟩ : ∃ n : Nat, f.largestPowerOfTen + 1 = n := ⟨(f.largestPowerOfTen + 1).toNat, by omega⟩
        obtain ⟨m, hm⟩ : ∃ m : Nat, F.bias + 1 = m := ⟨(F.bias + 1).toNat, by omega⟩
        rw [hn, hm, Int.toNat_natCast, Int.toNat_natCast] at hh
        calc (2 : ℚ) ^ (F.bias + 1) ≤ 10 ^ (f.largestPowerOfTen + 1) := by
              rw [hn, hm, zpow_natCast, zpow_natCast]; exact_mod_cast hh
          _ ≤ 10 ^ (k - ((t.frac.getD []).length : Int)) := zpow_le_zpow_right₀ (by norm_num) (by omega)
          _ ≤ (digitsVal t.digits : ℚ) * 10 ^ (k - ((t.frac.getD []).length : Int)) := le_mul_of_one_le_left (by positivity) h1
      rw [nearest_unique F h (key _ (by rw [hce]; omega)), hev]
      exact key _ (by omega)

theorem head_not_digit {c : Nat} {p : List Nat} (h : c = 46 ∨ c = 101 ∨ c = 69) : (c :: p).takeWhile isInteger = [] ∧ (c :: p).dropWhile isInteger = c :: p := by
  have : isInteger c = false := by rcases h with rfl | rfl | rfl <;> decide
  simp [this]

theorem takeWhile_app (a p : List Nat) (ha : ∀ c ∈ a, IsDigit c) (hp : p.takeWhile isInteger = [] ∧ p.dropWhile isInteger = p) :
    (a ++ p).takeWhile isInteger = a ∧ (a ++ p).dropWhile isInteger = p := by
  have : ∀ c ∈ a, isInteger c = true := fun c hc => (isInteger_iff c).2 (ha c hc)
  rw [List.takeWhile_append_of_pos this, List.dropWhile_append_of_pos this, hp.1, hp.2, List.append_nil]
  exact ⟨rfl, rfl⟩

theorem expText_head {ex : Option (Nat × Option Nat × List Nat)} (h : ExpWF ex) :
    (Decimal.expText ex).takeWhile isInteger = [] ∧ (Decimal.expText ex).dropWhile isInteger = Decimal.expText ex := by
  cases ex with
  | none => exact ⟨rfl, rfl⟩
  | some v =>
    obtain ⟨e, sg, ds⟩ := v
    exact head_not_digit (Or.inr (h e sg ds rfl).1)

theorem expText_inj {x y : Option (Nat × Option Nat × List Nat)} (hx : ExpWF x) (hy : ExpWF y) (h : Decimal.expText x = Decimal.expText y) : x = y := by
  cases x with
  | none => cases y with
    | none => rfl
    | some v => cases h
  | some v => cases y with
    | none => cases h
    | some w =>
      obtain ⟨e, sg, ds⟩ := v
      obtain ⟨e', sg', ds'⟩ := w
      obtain ⟨-, hs, hn, hd⟩ := hx _ _ _ rfl
      obtain ⟨-, hs', hn', hd'⟩ := hy _ _ _ rfl
      simp only [Decimal.expText, List.cons.injEq] at h
      obtain ⟨rfl, h⟩ := h
      have sign : ∀ {z : Nat} {ds ds' : List Nat}, (z = 43 ∨ z = 45) → (∀ c ∈ ds, IsDigit c) → z :: ds' ≠ ds := by
        intro z ds ds' hz hds heq
        have := hds z (by rw [← heq]; exact List.mem_cons_self)
        unfold IsDigit at this
        omega
      cases sg with
      | none => cases sg' with
        | none => simp at h; rw [h]
        | some z' => exact absurd h.symm (sign (by simpa using hs') hd)
      | some z => cases sg' with
        | none => exact absurd h (sign (by simpa using hs) hd')
        | some z' => simp at h; rw [h.1, h.2]

theorem fracOf_text {fr : Option (List Nat)} {ex : Option (Nat × Option Nat × List Nat)} (hf : ∀ c ∈ fr.getD [], IsDigit c) (he : ExpWF ex) :
    fracOf (Decimal.fracText fr ++ Decimal.expText ex) = fr ∧ afterFrac (Decimal.fracText fr ++ Decimal.expText ex) = Decimal.expText ex ∧
      (Decimal.fracText fr ++ Decimal.expText ex).takeWhile isInteger = [] ∧
      (Decimal.fracText fr ++ Decimal.expText ex).dropWhile isInteger = Decimal.fracText fr ++ Decimal.expText ex := by
  cases fr with
  | none =>
    simp only [Decimal.fracText, List.nil_append]
    refine ⟨?_, ?_, expText_head he⟩
    · cases ex with
      | none => rfl
      | some v =>
        obtain ⟨e, sg, ds⟩ := v
        have := (he _ _ _ rfl).1
        simp only [Decimal.expText, fracOf]
        rw [if_neg (by omega)]
    · cases ex with
      | none => rfl
      | some v =>
        obtain ⟨e, sg, ds⟩ := v
        have := (he _ _ _ rfl).1
        simp only [Decimal.expText, afterFrac]
        rw [if_neg (by omega)]
  | some f =>
    obtain ⟨h1, h2⟩ := takeWhile_app f _ hf (expText_head he)
    simp only [Decimal.fracText, List.cons_append, fracOf, afterFrac, if_true, h1, h2, true_and]
    exact head_not_digit (Or.inl rfl)

/-- A text is the text of one number only. -/
theorem text_inj {t u : Decimal} (ht : t.WF) (hu : u.WF) (h : t.text = u.text) : t = u := by
  have split : ∀ t : Decimal, t.WF → (t.int ++ (Decimal.fracText t.frac ++ Decimal.expText t.exp)).takeWhile isInteger = t.int ∧
      fracOf ((t.int ++ (Decimal.fracText t.frac ++ Decimal.expText t.exp)).dropWhile isInteger) = t.frac ∧
      afterFrac ((t.int ++ (Decimal.fracText t.frac ++ Decimal.expText t.exp)).dropWhile isInteger) = Decimal.expText t.exp ∧
      ∃ c s, t.int ++ (Decimal.fracText t.frac ++ Decimal.expText t.exp) = c :: s ∧ c ≠ 45 := by
    intro t ht
    have hf := fracOf_text (fr := t.frac) (ex := t.exp) (fun c hc => ht.digits c (List.mem_append_right _ hc)) ht.exp
    have hi := takeWhile_app t.int _ (fun c hc => ht.digits c (List.mem_append_left _ hc)) hf.2.2
    refine ⟨hi.1, by rw [hi.2]; exact hf.1, by rw [hi.2]; exact hf.2.1, ?_⟩
    have hne := ht.nonempty
    unfold Decimal.digits at hne
    cases hin : t.int with
    | cons d s =>
      refine ⟨d, _, rfl, ?_⟩
      have := ht.digits d (by simp [Decimal.digits, hin])
      unfold IsDigit at this
      omega
    | nil =>
      cases hfr : t.frac with
      | none => rw [hin, hfr] at hne; exact absurd rfl hne
      | some f => exact ⟨46, _, rfl, by decide⟩
  obtain ⟨t1, t2, t3, c, s, t4, t5⟩ := split t ht
  obtain ⟨u1, u2, u3, d, r, u4, u5⟩ := split u hu
  unfold Decimal.text at h
  have hneg : t.neg = u.neg ∧ t.int ++ (Decimal.fracText t.frac ++ Decimal.expText t.exp) = u.int ++ (Decimal.fracText u.frac ++ Decimal.expText u.exp) := by
    cases hn : t.neg <;> cases hm : u.neg <;> simp only [hn, hm, if_true, if_false, List.nil_append, Bool.false_eq_true] at h
    · exact ⟨rfl, h⟩
    · rw [t4] at h
      simp only [List.cons_append, List.cons.injEq] at h
      exact absurd h.1 t5
    · rw [u4] at h
      simp only [List.cons_append, List.cons.injEq] at h
      exact absurd h.1.symm u5
    · exact ⟨rfl, List.append_cancel_left h⟩
  obtain ⟨hneg, hbody⟩ := hneg
  rw [hbody] at t1 t2 t3
  cases t
  cases u
  simp only [Decimal.mk.injEq]
  exact ⟨hneg, t1.symm.trans u1, t2.symm.trans u2, expText_inj ht.exp hu.exp (t3.symm.trans u3)⟩

end C4.FF
