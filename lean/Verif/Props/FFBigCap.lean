import Verif.Props.FFBigint
/-
The arithmetic of `bigint` keeps within its 62 limbs whatever the numbers are, and answers true only for an exact result.
-/
namespace C4.FF
open Spec

/-- The outcome of an operation whose exact result is `n`. -/
structure Cap (r : List Nat × Bool) (n : Nat) : Prop where
  limbs : Limbs r.1
  len : r.1.length ≤ 62
  exact : r.2 = true → limbsVal r.1 = n

theorem Cap.fail {v : List Nat} {n : Nat} (hv : Limbs v) (hl : v.length ≤ 62) : Cap (v, false) n := ⟨hv, hl, fun h => Bool.noConfusion h⟩
theorem Cap.done {v : List Nat} (hv : Limbs v) (hl : v.length ≤ 62) : Cap (v, true) (limbsVal v) := ⟨hv, hl, fun _ => rfl⟩

theorem tryPush_cap {v : List Nat} {x n : Nat} (hv : Limbs v) (hl : v.length ≤ 62) (hx : x < 2 ^ 64) (hn : limbsVal v + (2 ^ 64) ^ v.length * x = n) :
    Cap (tryPush v x) n := by
  unfold tryPush
  split
  · rename_i h
    unfold bigintLimbs at h
    refine ⟨hv.append (Limbs.cons hx Limbs.nil), by rw [List.length_append]; simp only [List.length_cons, List.length_nil]; omega, fun _ => ?_⟩
    rw [limbsVal_append, ← hn]; simp [limbsVal]
  · exact Cap.fail hv hl

theorem smallMul_cap {v : List Nat} {y : Nat} (hv : Limbs v) (hl : v.length ≤ 62) (hy : y < 2 ^ 64) : Cap (smallMul v y) (limbsVal v * y) := by
  obtain ⟨h1, h2, h3, h4⟩ := smallMulLoop_spec y hy v 0 hv (by omega)
  rw [Nat.add_zero] at h4
  unfold smallMul
  dsimp only
  by_cases hc : (smallMulLoop y v 0).2 ≠ 0
  · rw [if_pos hc]
    exact tryPush_cap h2 (by omega) h3 (by rw [h1, h4])
  · rw [if_neg hc]
    have hc0 : (smallMulLoop y v 0).2 = 0 := by omega
    rw [hc0, Nat.mul_zero, Nat.add_zero] at h4
    exact ⟨h2, by dsimp only; omega, fun _ => h4⟩

theorem smallAddFrom_cap {v : List Nat} {y start : Nat} (hv : Limbs v) (hl : v.length ≤ 62) (hy : y < 2 ^ 64) (hst : start ≤ v.length) :
    Cap (smallAddFrom v y start) (limbsVal v + (2 ^ 64) ^ start * y) := by
  obtain ⟨h1, h2, h3, h4⟩ := smallAddLoop_spec (v.drop start) y (hv.drop start) hy
  have hval : limbsVal v = limbsVal (v.take start) + (2 ^ 64) ^ start * limbsVal (v.drop start) := by
    conv => lhs; rw [← List.take_append_drop start v]
    rw [limbsVal_append, List.length_take, Nat.min_eq_left hst]
  have hlen : (v.take start ++ (smallAddLoop (v.drop start) y).1).length = v.length := by
    rw [List.length_append, h1, ← List.length_append, List.take_append_drop]
  have hl2 : Limbs (v.take start ++ (smallAddLoop (v.drop start) y).1) := (hv.take start).append h2
  have hv2 : limbsVal (v.take start ++ (smallAddLoop (v.drop start) y).1) + (2 ^ 64) ^ v.length * (smallAddLoop (v.drop start) y).2 =
      limbsVal v + (2 ^ 64) ^ start * y := by
    rw [limbsVal_append, List.length_take, Nat.min_eq_left hst, hval]
    have e : (2 ^ 64) ^ v.length = (2 ^ 64) ^ start * (2 ^ 64) ^ (v.drop start).length := by
      rw [← Nat.pow_add, List.length_drop]; congr 1; omega
    rw [e]
    calc _ = limbsVal (v.take start) + (2 ^ 64) ^ start * (limbsVal (smallAddLoop (v.drop start) y).1 + (2 ^ 64) ^ (v.drop start).length *
          (smallAddLoop (v.drop start) y).2) := by ring
      _ = _ := by rw [h4]; ring
  unfold smallAddFrom
  dsimp only
  by_cases hc : (smallAddLoop (v.drop start) y).2 ≠ 0
  · rw [if_pos hc]
    exact tryPush_cap hl2 (by omega) h3 (by rw [hlen, hv2])
  · rw [if_neg hc]
    have hc0 : (smallAddLoop (v.drop start) y).2 = 0 := by omega
    rw [hc0, Nat.mul_zero, Nat.add_zero] at hv2
    exact ⟨hl2, by dsimp only; omega, fun _ => hv2⟩

theorem largeAddFrom_cap {x y : List Nat} {start : Nat} (hx : Limbs x) (hy : Limbs y) (hl : x.length ≤ 62) :
    Cap (largeAddFrom x y start) (limbsVal x + (2 ^ 64) ^ start * limbsVal y) := by
  have hres : (if x.length < start ∨ y.length > x.length - start then tryResize x (y.length + start) 0 else (x, true)) = (x, false) ∨
      ∃ x', (if x.length < start ∨ y.length > x.length - start then tryResize x (y.length + start) 0 else (x, true)) = (x', true) ∧
      Limbs x' ∧ limbsVal x' = limbsVal x ∧ y.length + start ≤ x'.length ∧ x'.length ≤ 62 := by
    by_cases h : x.length < start ∨ y.length > x.length - start
    · rw [if_pos h]
      unfold tryResize
      by_cases h62 : y.length + start > bigintLimbs
      · rw [if_pos h62]; exact Or.inl rfl
      · unfold bigintLimbs at h62
        rw [if_neg (by unfold bigintLimbs; exact h62), if_pos (by omega)]
        refine Or.inr ⟨x ++ List.replicate (y.length + start - x.length) 0, rfl, hx.append (limbs_replicate _), ?_, ?_, ?_⟩
        · rw [limbsVal_append, limbsVal_replicate, Nat.mul_zero, Nat.add_zero]
        · rw [List.length_append, List.length_replicate]; omega
        · rw [List.length_append, List.length_replicate]; omega
    · rw [if_neg h]
      exact Or.inr ⟨x, rfl, hx, rfl, by omega, hl⟩
  unfold largeAddFrom
  rcases hres with e | ⟨x', e, hx', hv', hl', hl62⟩
  · rw [e]
    exact Cap.fail hx hl
  rw [e]
  dsimp only
  simp only [Bool.not_true, Bool.false_eq_true, if_false]
  obtain ⟨h1, h2, h3⟩ := largeAddLoop_spec (x'.drop start) y false (hx'.drop start) hy (by rw [List.length_drop]; omega)
  rw [Bool.toNat_false, Nat.add_zero] at h3
  have hval : limbsVal x' = limbsVal (x'.take start) + (2 ^ 64) ^ start * limbsVal (x'.drop start) := by
    conv => lhs; rw [← List.take_append_drop start x']
    rw [limbsVal_append, List.length_take, Nat.min_eq_left (by omega)]
  obtain ⟨r, hr⟩ : ∃ r, x'.take start ++ (largeAddLoop (x'.drop start) y false).1 = r := ⟨_, rfl⟩
  have hrl : r.length = x'.length := by
    rw [← hr, List.length_append, h1, ← List.length_append, List.take_append_drop]
  have hrL : Limbs r := by rw [← hr]; exact (hx'.take start).append h2
  have hrv : limbsVal r + (2 ^ 64) ^ (y.length + start) * (largeAddLoop (x'.drop start) y false).2.toNat =
      limbsVal x + (2 ^ 64) ^ start * limbsVal y := by
    rw [← hr, limbsVal_append, List.length_take, Nat.min_eq_left (by omega), ← hv', hval, Nat.pow_add]
    calc _ = limbsVal (x'.take start) + (2 ^ 64) ^ start * (limbsVal (largeAddLoop (x'.drop start) y false).1 + (2 ^ 64) ^ y.length *
          (largeAddLoop (x'.drop start) y false).2.toNat) := by ring
      _ = _ := by rw [h3]; ring
  rw [hr]
  by_cases hc : (largeAddLoop (x'.drop start) y false).2 = true
  · rw [if_pos hc]
    rw [hc, Bool.toNat_true] at hrv
    have := smallAddFrom_cap (v := r) (y := 1) (start := y.length + start) hrL (by omega) (by omega) (by omega)
    rw [hrv] at this
    exact this
  · rw [if_neg hc]
    rw [Bool.eq_false_iff.mpr hc, Bool.toNat_false, Nat.mul_zero, Nat.add_zero] at hrv
    exact ⟨hrL, by dsimp only; omega, fun _ => hrv⟩

theorem longMulLoop_cap {z : List Nat} (hz : Limbs z) (hzl : z.length ≤ 62) : ∀ (y : List Nat) (index : Nat) (x : List Nat), Limbs y → Limbs x →
    x.length ≤ 62 → Cap (longMulLoop z y index x) (limbsVal x + (2 ^ 64) ^ index * (limbsVal z * limbsVal y)) := by
  intro y
  induction y with
  | nil => intro index x _ hx hl; exact ⟨hx, hl, fun _ => by simp [longMulLoop, limbsVal]⟩
  | cons yi y ih =>
    intro index x hy hx hl
    rw [longMulLoop]
    have hexp : limbsVal x + (2 ^ 64) ^ index * (limbsVal z * (yi + 2 ^ 64 * limbsVal y)) =
        limbsVal x + (2 ^ 64) ^ index * (limbsVal z * yi) + (2 ^ 64) ^ (index + 1) * (limbsVal z * limbsVal y) := by
      rw [Nat.pow_succ]; ring
    rw [limbsVal, hexp]
    have hyi := hy.head
    by_cases h0 : yi ≠ 0
    · rw [if_pos h0, tryExtend_nil z hzl]
      dsimp only
      simp only [Bool.not_true, Bool.false_eq_true, if_false]
      have hm := smallMul_cap hz hzl hyi
      generalize smallMul z yi = m at hm ⊢
      obtain ⟨zi, ok⟩ := m
      cases ok with
      | false => exact Cap.fail hx hl
      | true =>
        simp only [Bool.not_true, Bool.false_eq_true, if_false]
        have ha := largeAddFrom_cap (x := x) (y := zi) (start := index) hx hm.limbs hl
        rw [hm.exact rfl] at ha
        generalize largeAddFrom x zi index = a at ha ⊢
        obtain ⟨x', ok⟩ := a
        cases ok with
        | false => exact Cap.fail ha.limbs ha.len
        | true =>
          simp only [Bool.not_true, Bool.false_eq_true, if_false]
          have := ih (index + 1) x' hy.tail ha.limbs ha.len
          have he := ha.exact rfl
          dsimp only at he
          rw [he] at this
          exact this
    · rw [if_neg h0]
      have h00 : yi = 0 := by omega
      rw [h00, Nat.mul_zero, Nat.mul_zero, Nat.add_zero]
      exact ih (index + 1) x hy.tail hx hl

theorem normalize_cap {v : List Nat} {n : Nat} (h : Cap (v, true) n) : Cap (normalize v, true) n := by
  obtain ⟨h1, _, h3, h4⟩ := normalize_spec _ _ (le_refl _) h.limbs
  exact ⟨h1, le_trans h4 h.len, fun _ => by rw [h3]; exact h.exact rfl⟩

theorem longMul_cap {x y : List Nat} (hx : Limbs x) (hl : x.length ≤ 62) (hy : Limbs y) (hne : y ≠ []) : Cap (longMul x y) (limbsVal x * limbsVal y) := by
  unfold longMul
  rw [tryExtend_nil x hl]
  dsimp only
  cases y with
  | nil => exact absurd rfl hne
  | cons y0 y =>
    have hexp : limbsVal x * (y0 + 2 ^ 64 * limbsVal y) = limbsVal x * y0 + (2 ^ 64) ^ 1 * (limbsVal x * limbsVal y) := by ring
    rw [limbsVal, hexp]
    dsimp only
    have hm := smallMul_cap hx hl hy.head
    generalize smallMul x y0 = m at hm ⊢
    obtain ⟨x', ok⟩ := m
    cases ok with
    | false => exact Cap.fail hm.limbs hm.len
    | true =>
      simp only [Bool.not_true, Bool.false_eq_true, if_false]
      have hL := longMulLoop_cap hx hl y 1 x' hy.tail hm.limbs hm.len
      have he := hm.exact rfl
      dsimp only at he
      rw [he] at hL
      generalize longMulLoop x y 1 x' = a at hL ⊢
      obtain ⟨r, ok⟩ := a
      cases ok with
      | false => exact Cap.fail hL.limbs hL.len
      | true =>
        simp only [Bool.not_true, Bool.false_eq_true, if_false]
        exact normalize_cap hL

theorem largeMul_cap {x y : List Nat} (hx : Limbs x) (hl : x.length ≤ 62) (hy : Limbs y) (hne : y ≠ []) : Cap (largeMul x y) (limbsVal x * limbsVal y) := by
  unfold largeMul
  split
  · rename_i y0
    have e : limbsVal [y0] = y0 := by simp [limbsVal]
    rw [e]
    exact smallMul_cap hx hl hy.head
  · exact longMul_cap hx hl hy hne

theorem pow5Large_cap : ∀ (fuel exp : Nat) (v : List Nat), exp ≤ fuel → Limbs v → v.length ≤ 62 →
    Limbs (pow5Large fuel v exp).1 ∧ (pow5Large fuel v exp).1.length ≤ 62 ∧ ((pow5Large fuel v exp).2.2 = true →
      (pow5Large fuel v exp).2.1 < 135 ∧ limbsVal (pow5Large fuel v exp).1 * 5 ^ (pow5Large fuel v exp).2.1 = limbsVal v * 5 ^ exp) := by
  intro fuel
  induction fuel with
  | zero => intro exp v he hv hl; exact ⟨hv, hl, fun _ => ⟨by show exp < 135; omega, rfl⟩⟩
  | succ fuel ih =>
    intro exp v he hv hl
    rw [pow5Large]
    by_cases h : exp ≥ 135
    · rw [if_pos h]
      have hm := largeMul_cap hv hl limbs_largePowerOf5 (by decide)
      rw [limbsVal_largePowerOf5] at hm
      generalize largeMul v largePowerOf5 = m at hm ⊢
      obtain ⟨x', ok⟩ := m
      cases ok with
      | false => exact ⟨hm.limbs, hm.len, fun h => Bool.noConfusion h⟩
      | true =>
        simp only [Bool.not_true, Bool.false_eq_true, if_false]
        obtain ⟨a, b, c⟩ := ih (exp - 135) x' (by omega) hm.limbs hm.len
        refine ⟨a, b, fun hh => ⟨(c hh).1, ?_⟩⟩
        have he := hm.exact rfl
        dsimp only at he
        rw [(c hh).2, he, Nat.mul_assoc, ← Nat.pow_add, show 135 + (exp - 135) = exp by omega]
    · rw [if_neg h]
      exact ⟨hv, hl, fun _ => ⟨by dsimp only; omega, rfl⟩⟩

theorem pow5Small_cap : ∀ (fuel exp : Nat) (v : List Nat), exp ≤ fuel → Limbs v → v.length ≤ 62 →
    Limbs (pow5Small fuel v exp).1 ∧ (pow5Small fuel v exp).1.length ≤ 62 ∧ ((pow5Small fuel v exp).2.2 = true →
      (pow5Small fuel v exp).2.1 < 27 ∧ limbsVal (pow5Small fuel v exp).1 * 5 ^ (pow5Small fuel v exp).2.1 = limbsVal v * 5 ^ exp) := by
  intro fuel
  induction fuel with
  | zero => intro exp v he hv hl; exact ⟨hv, hl, fun _ => ⟨by show exp < 27; omega, rfl⟩⟩
  | succ fuel ih =>
    intro exp v he hv hl
    rw [pow5Small]
    by_cases h : exp ≥ 27
    · rw [if_pos h]
      have e27 : 7450580596923828125 = 5 ^ 27 := by decide
      have hm := smallMul_cap (y := 7450580596923828125) hv hl (by omega)
      generalize smallMul v 7450580596923828125 = m at hm ⊢
      obtain ⟨x', ok⟩ := m
      cases ok with
      | false => exact ⟨hm.limbs, hm.len, fun h => Bool.noConfusion h⟩
      | true =>
        simp only [Bool.not_true, Bool.false_eq_true, if_false]
        obtain ⟨a, b, c⟩ := ih (exp - 27) x' (by omega) hm.limbs hm.len
        refine ⟨a, b, fun hh => ⟨(c hh).1, ?_⟩⟩
        have he := hm.exact rfl
        dsimp only at he
        rw [(c hh).2, he, e27, Nat.mul_assoc, ← Nat.pow_add, show 27 + (exp - 27) = exp by omega]
    · rw [if_neg h]
      exact ⟨hv, hl, fun _ => ⟨by dsimp only; omega, rfl⟩⟩

theorem pow5_cap {v : List Nat} (hv : Limbs v) (hl : v.length ≤ 62) (e : Nat) : Cap (pow5 v e) (limbsVal v * 5 ^ e) := by
  unfold FF.pow5
  have h1 := pow5Large_cap e e v (le_refl _) hv hl
  generalize pow5Large e v e = p at h1 ⊢
  obtain ⟨v1, e1, ok⟩ := p
  obtain ⟨a1, b1, c1⟩ := h1
  cases ok with
  | false => exact Cap.fail a1 b1
  | true =>
    simp only [Bool.not_true, Bool.false_eq_true, if_false]
    dsimp only at a1 b1 c1
    have h2 := pow5Small_cap e1 e1 v1 (le_refl _) a1 b1
    generalize pow5Small e1 v1 e1 = p at h2 ⊢
    obtain ⟨v2, e2, ok⟩ := p
    obtain ⟨a2, b2, c2⟩ := h2
    dsimp only at a2 b2 c2
    cases ok with
    | false => exact Cap.fail a2 b2
    | true =>
      simp only [Bool.not_true, Bool.false_eq_true, if_false]
      obtain ⟨l2, r2⟩ := c2 rfl
      rw [← (c1 rfl).2, ← r2]
      by_cases h0 : e2 ≠ 0
      · rw [if_pos h0, smallPowerOf5_get e2 l2]
        exact smallMul_cap a2 b2 (lt_of_le_of_lt (Nat.pow_le_pow_right (by omega) (show e2 ≤ 27 by omega)) (by decide))
      · rw [if_neg h0]
        have : e2 = 0 := by omega
        rw [this, Nat.pow_zero, Nat.mul_one]
        exact Cap.done a2 b2

theorem shlBits_cap {v : List Nat} {k : Nat} (hv : Limbs v) (hl : v.length ≤ 62) (hk : 0 < k) (hk2 : k < 64) : Cap (shlBits v k) (limbsVal v * 2 ^ k) := by
  obtain ⟨h1, h2, h3, h4⟩ := shlBitsLoop_spec k hk hk2 v 0 hv (by omega)
  rw [Nat.zero_div, Nat.add_zero] at h4
  have hlt := shr_lt hk2 h3
  have hlt2 : 2 ^ k ≤ 2 ^ 64 := Nat.pow_le_pow_right (by omega) (by omega)
  unfold FF.shlBits
  dsimp only
  rw [Nat.shiftRight_eq_div_pow]
  by_cases hc : (shlBitsLoop k v 0).2 / 2 ^ (64 - k) ≠ 0
  · rw [if_pos hc]
    exact tryPush_cap h2 (by omega) (by omega) (by rw [h1, h4])
  · rw [if_neg hc]
    have hc0 : (shlBitsLoop k v 0).2 / 2 ^ (64 - k) = 0 := by omega
    rw [hc0, Nat.mul_zero, Nat.add_zero] at h4
    exact ⟨h2, by dsimp only; omega, fun _ => h4⟩

theorem shlLimbs_cap {v : List Nat} {k : Nat} (hv : Limbs v) (hl : v.length ≤ 62) : Cap (shlLimbs v k) (limbsVal v * (2 ^ 64) ^ k) := by
  unfold FF.shlLimbs
  split
  · exact Cap.fail hv hl
  · rename_i h
    unfold bigintLimbs at h
    split
    · refine ⟨(limbs_replicate k).append hv, by rw [List.length_append, List.length_replicate]; omega, fun _ => ?_⟩
      rw [limbsVal_append, limbsVal_replicate, List.length_replicate]; ring
    · rename_i h
      have : v = [] := by simpa using h
      subst this
      exact ⟨hv, hl, fun _ => by simp [limbsVal]⟩

theorem shl_cap {v : List Nat} (hv : Limbs v) (hl : v.length ≤ 62) (k : Nat) : Cap (shl v k) (limbsVal v * 2 ^ k) := by
  have hexp : limbsVal v * 2 ^ k = limbsVal v * 2 ^ (k % 64) * (2 ^ 64) ^ (k / 64) := by
    rw [← Nat.pow_mul, Nat.mul_assoc, ← Nat.pow_add]; congr 2; omega
  have h1 : Cap (if k % 64 ≠ 0 then FF.shlBits v (k % 64) else (v, true)) (limbsVal v * 2 ^ (k % 64)) := by
    by_cases h0 : k % 64 ≠ 0
    · rw [if_pos h0]
      exact shlBits_cap hv hl (by omega) (Nat.mod_lt _ (by omega))
    · rw [if_neg h0]
      have : k % 64 = 0 := by omega
      rw [this, Nat.pow_zero, Nat.mul_one]
      exact Cap.done hv hl
  unfold FF.shl
  dsimp only
  rw [hexp]
  generalize (if k % 64 ≠ 0 then FF.shlBits v (k % 64) else (v, true)) = p at h1 ⊢
  obtain ⟨v', ok⟩ := p
  cases ok with
  | false => exact Cap.fail h1.limbs h1.len
  | true =>
    simp only [Bool.not_true, Bool.false_eq_true, if_false]
    have he := h1.exact rfl
    dsimp only at he
    rw [← he]
    by_cases h0 : k / 64 ≠ 0
    · rw [if_pos h0]
      exact shlLimbs_cap h1.limbs h1.len
    · rw [if_neg h0]
      have : k / 64 = 0 := by omega
      rw [this, Nat.pow_zero, Nat.mul_one]
      exact Cap.done h1.limbs h1.len

theorem pow10_cap {v : List Nat} (hv : Limbs v) (hl : v.length ≤ 62) (e : Nat) : Cap (pow10 v e) (limbsVal v * 10 ^ e) := by
  have hexp : limbsVal v * 10 ^ e = limbsVal v * 5 ^ e * 2 ^ e := by rw [show (10 : Nat) = 5 * 2 by rfl, Nat.mul_pow]; ring
  have h := pow5_cap hv hl e
  unfold FF.pow10
  rw [hexp]
  generalize FF.pow5 v e = p at h ⊢
  obtain ⟨v', ok⟩ := p
  cases ok with
  | false => exact Cap.fail h.limbs h.len
  | true =>
    simp only [Bool.not_true, Bool.false_eq_true, if_false]
    have he := h.exact rfl
    dsimp only at he
    rw [← he]
    exact shl_cap h.limbs h.len e

theorem Cap.iff {r : List Nat × Bool} {n : Nat} (h : Cap r n) (hf : n < (2 ^ 64) ^ 62 → r.2 = true) : r.2 = true ↔ n < (2 ^ 64) ^ 62 := by
  refine ⟨fun ht => ?_, hf⟩
  rw [← h.exact ht]
  exact lt_of_lt_of_le (limbsVal_lt h.limbs) (Nat.pow_le_pow_right (by omega) h.len)

end C4.FF
