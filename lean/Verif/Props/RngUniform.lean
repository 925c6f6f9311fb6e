import Verif.Props.RngSeed
import Verif.Props.XorshiftPeriod
import Mathlib.Data.Finset.Card
import Mathlib.Data.Finset.Range
import Mathlib.Data.Finset.Image
/-
Property C182 (statements C182_splitmix and C182_xorshift, the rest are steps): over a whole period,
splitmix and xorshift return every 32-bit number equally often (xorshift gives 0 once less, as its state is never 0).
And C83_refuted_always: a pcg of odd increment comes to an undefined call.
The lemmas speak of `N` with `N = 2 ^ 64` so that nothing tries to run through 2^64 steps.
-/
namespace C4

/-- The numbers that are drawn, one by one. -/
theorem rngDraw_map (f : Nat → Nat × Nat) (n s : Nat) :
    rngDraw (fun s => .ok (f s)) n s = .ok (iter (fun s => (f s).1) n s, (List.range n).map fun i => (f (iter (fun s => (f s).1) i s)).2) := by
  induction n generalizing s with
  | zero => rfl
  | succ n ih =>
    rw [rngDraw, Res.ok_bind]
    dsimp only
    rw [ih, Res.ok_bind, List.range_succ_eq_map, List.map_cons, List.map_map]
    rfl

theorem count_range (h : Nat → Nat) (n r : Nat) : ((List.range n).map h).count r = ((Finset.range n).filter fun i => h i = r).card := by
  rw [List.count_eq_countP, List.countP_map, List.countP_eq_length_filter]
  have : ((Finset.range n).filter fun i => h i = r).card = ((List.range n).filter fun i => decide (h i = r)).length := rfl
  rw [this]
  congr 1

/-- A function that permutes the numbers below `N` keeps the number of those with a property. -/
theorem card_permuted {N : Nat} {f : Nat → Nat} (hlt : ∀ x < N, f x < N) (hinj : ∀ x < N, ∀ y < N, f x = f y → x = y) (P : Nat → Prop) [DecidablePred P] :
    ((Finset.range N).filter fun x => P (f x)).card = ((Finset.range N).filter P).card := by
  have hi : Set.InjOn f (Finset.range N : Set Nat) := fun x hx y hy h => hinj x (by simpa using hx) y (by simpa using hy) h
  have himg : (Finset.range N).image f = Finset.range N := by
    apply Finset.eq_of_subset_of_card_le
    · intro y hy
      obtain ⟨x, hx, rfl⟩ := Finset.mem_image.mp hy
      exact Finset.mem_range.mpr (hlt x (Finset.mem_range.mp hx))
    · rw [Finset.card_image_of_injOn hi]
  have : (Finset.range N).filter P = ((Finset.range N).filter fun x => P (f x)).image f := by
    conv_lhs => rw [← himg]
    rw [Finset.filter_image]
  rw [this, Finset.card_image_of_injOn (hi.mono (by intro x hx; simp at hx ⊢; exact hx.1))]

/-- The numbers below 2^64 of which 32 bits from bit `k` on are given. -/
theorem card_bits {k r N M : Nat} (hN : N = 2 ^ 64) (hM : M = 2 ^ 32) (hk : k ≤ 32) (hr : r < M) : ((Finset.range N).filter fun z => (z >>> k) % 2 ^ 32 = r).card = M := by
  have hr : r < 2 ^ 32 := hM ▸ hr
  have hA : 0 < 2 ^ k := Nat.two_pow_pos k
  have hAB : 2 ^ k * 2 ^ (32 - k) = 2 ^ 32 := by rw [← Nat.pow_add]; congr 1; omega
  have hB : 0 < 2 ^ (32 - k) := Nat.two_pow_pos _
  simp only [Nat.shiftRight_eq_div_pow]
  generalize 2 ^ k = A at *
  generalize 2 ^ (32 - k) = B at *
  refine Eq.trans (Eq.symm ?_) (Finset.card_range M)
  refine Finset.card_nbij' (fun j => j % A + A * (r + 2 ^ 32 * (j / A))) (fun z => z % A + A * (z / A / 2 ^ 32)) ?_ ?_ ?_ ?_
  · intro j hj
    have hj : j < 2 ^ 32 := by rw [← hM]; simpa using hj
    have h1 : j / A < B := by rw [Nat.div_lt_iff_lt_mul hA, Nat.mul_comm, hAB]; exact hj
    have h2 : j % A < A := Nat.mod_lt _ hA
    have e : (j % A + A * (r + 2 ^ 32 * (j / A))) / A = r + 2 ^ 32 * (j / A) := by
      rw [Nat.add_mul_div_left _ _ hA, Nat.div_eq_of_lt h2, Nat.zero_add]
    simp only [Finset.coe_filter, Finset.mem_range, Set.mem_ofPred_eq]
    refine ⟨?_, by rw [e, Nat.add_mul_mod_self_left, Nat.mod_eq_of_lt hr]⟩
    have h3 : r + 2 ^ 32 * (j / A) + 1 ≤ 2 ^ 32 * B := by
      have : 2 ^ 32 * (j / A + 1) ≤ 2 ^ 32 * B := Nat.mul_le_mul_left _ h1
      omega
    have h4 := Nat.mul_le_mul_left A h3
    have h5 : A * (2 ^ 32 * B) = 2 ^ 64 := by rw [Nat.mul_left_comm, hAB]; rfl
    rw [Nat.mul_add A _ 1, h5] at h4
    omega
  · intro z hz
    simp only [Finset.coe_filter, Finset.mem_range, Set.mem_ofPred_eq] at hz
    have h2 : z % A < A := Nat.mod_lt _ hA
    have h1 : z / A / 2 ^ 32 + 1 ≤ B := by
      have : z / A / 2 ^ 32 < B := by
        rw [Nat.div_div_eq_div_mul, Nat.div_lt_iff_lt_mul (Nat.mul_pos hA (by decide))]
        have h5 : B * (A * 2 ^ 32) = 2 ^ 64 := by rw [← Nat.mul_assoc, Nat.mul_comm B, hAB]; rfl
        rw [h5, ← hN]; exact hz.1
      omega
    have h4 := Nat.mul_le_mul_left A h1
    rw [hAB, Nat.mul_add] at h4
    simp only [Finset.coe_range, Set.mem_Iio]
    omega
  · intro j hj
    have h2 : j % A < A := Nat.mod_lt _ hA
    have e : (j % A + A * (r + 2 ^ 32 * (j / A))) / A = r + 2 ^ 32 * (j / A) := by
      rw [Nat.add_mul_div_left _ _ hA, Nat.div_eq_of_lt h2, Nat.zero_add]
    dsimp only
    rw [e, Nat.add_mul_div_left _ _ (by decide), Nat.div_eq_of_lt hr, Nat.zero_add, Nat.add_mul_mod_self_left, Nat.mod_mod]
    exact Nat.mod_add_div j A
  · intro z hz
    simp only [Finset.coe_filter, Finset.mem_range, Set.mem_ofPred_eq] at hz
    have h2 : z % A < A := Nat.mod_lt _ hA
    have e : (z % A + A * (z / A / 2 ^ 32)) / A = z / A / 2 ^ 32 := by
      rw [Nat.add_mul_div_left _ _ hA, Nat.div_eq_of_lt h2, Nat.zero_add]
    dsimp only
    rw [e, Nat.add_mul_mod_self_left, Nat.mod_mod, ← hz.2, Nat.mod_add_div, Nat.mod_add_div]

/-- If a state returns after exactly the multiples of `N` steps, the first `N` states are different. -/
theorem iter_inj_of_period {g : Nat → Nat} {N s : Nat} (h : ∀ n, ∀ x, (∃ m, x = iter g m s) → (iter g n x = x ↔ N ∣ n)) {i j : Nat} (hi : i < N) (hj : j < N) (e : iter g i s = iter g j s) : i = j := by
  have key : ∀ i j, i ≤ j → j < N → iter g i s = iter g j s → i = j := by
    intro i j hij hj e
    have h1 : iter g (j - i) (iter g i s) = iter g i s := by
      rw [← Xs.iter_add, show i + (j - i) = j by omega, e]
    have h2 := (h (j - i) (iter g i s) ⟨i, rfl⟩).mp h1
    have := Nat.eq_zero_of_dvd_of_lt h2 (by omega)
    omega
  rcases Nat.le_total i j with hij | hij
  · exact key i j hij hj e
  · exact (key j i hij hi e.symm).symm

theorem splitmixMix_lt {z : Nat} : splitmixMix z < 2 ^ 64 := by
  unfold splitmixMix
  exact xorshr_lt (Nat.mod_lt _ (by decide))

theorem splitmix_snd (x : Nat) : (splitmix x).2 = (splitmixMix (splitmixNext x) >>> 31) % 2 ^ 32 := rfl

theorem splitmixNext_lt {N : Nat} (hN : N = 2 ^ 64) (x : Nat) : splitmixNext x < N := by
  unfold splitmixNext; rw [hN]; exact Nat.mod_lt _ (by decide)

theorem splitmix_iter_lt {N s : Nat} (hN : N = 2 ^ 64) (hs : s < N) (i : Nat) : iter splitmixNext i s < N := by
  induction i generalizing s with
  | zero => exact hs
  | succ i ih =>
    rw [iter]
    exact ih (splitmixNext_lt hN s)

theorem splitmix_per {N : Nat} (hN : N = 2 ^ 64) (n x : Nat) (h : x < N) : iter splitmixNext n x = x ↔ N ∣ n := by
  rw [hN] at h ⊢; exact C102_period h n

theorem splitmixNext_inj {N x y : Nat} (hN : N = 2 ^ 64) (hx : x < N) (hy : y < N) (h : splitmixNext x = splitmixNext y) : x = y := by
  unfold splitmixNext at h
  omega

theorem splitmix_mixed_inj {N x y : Nat} (hN : N = 2 ^ 64) (hx : x < N) (hy : y < N) (e : splitmixMix (splitmixNext x) = splitmixMix (splitmixNext y)) : x = y :=
  splitmixNext_inj hN hx hy (C102_mix (splitmixNext_lt rfl x) (splitmixNext_lt rfl y) e)

theorem splitmix_draw (n s : Nat) : rngDraw splitmixStep n s = .ok (iter splitmixNext n s, (List.range n).map fun i => (splitmix (iter splitmixNext i s)).2) :=
  rngDraw_map splitmix n s

theorem splitmix_uniform {s N M : Nat} (hN : N = 2 ^ 64) (hM : M = 2 ^ 32) (hs : s < N) : ∃ l, rngDraw splitmixStep N s = .ok (s, l) ∧ l.length = N ∧ ∀ r < M, l.count r = M := by
  refine ⟨(List.range N).map fun i => (splitmix (iter splitmixNext i s)).2, ?_, ?_, fun r hr => ?_⟩
  · rw [splitmix_draw, (splitmix_per hN N s hs).mpr (Nat.dvd_refl _)]
  · rw [List.length_map, List.length_range]
  · rw [count_range]
    rw [card_permuted (f := fun i => iter splitmixNext i s) (P := fun x => (splitmix x).2 = r) (fun i _ => splitmix_iter_lt hN hs i)
      (fun i hi j hj e => iter_inj_of_period (fun n x ⟨m, hm⟩ => splitmix_per hN n x (hm ▸ splitmix_iter_lt hN hs m)) hi hj e)]
    have h1 : ((Finset.range N).filter fun x => (splitmix x).2 = r) = (Finset.range N).filter fun x => (splitmixMix (splitmixNext x) >>> 31) % 2 ^ 32 = r :=
      Finset.filter_congr fun x _ => by rw [splitmix_snd]
    rw [h1, card_permuted (f := fun x => splitmixMix (splitmixNext x)) (P := fun z => (z >>> 31) % 2 ^ 32 = r) (fun x _ => by rw [hN]; exact splitmixMix_lt)
      (fun x hx y hy e => splitmix_mixed_inj hN hx hy e)]
    exact card_bits hN hM (by decide) hr

/-- **C182** for splitmix: from every seed, among the first 2^64 numbers every 32-bit number occurs exactly 2^32 times; then they repeat. -/
theorem C182_splitmix {s : Nat} (hs : s < 2 ^ 64) : ∃ l, rngDraw splitmixStep (2 ^ 64) s = .ok (s, l) ∧ l.length = 2 ^ 64 ∧ ∀ r < 2 ^ 32, l.count r = 2 ^ 32 :=
  splitmix_uniform rfl rfl hs

example : splitmixDefault < 2 ^ 64 := by decide
example : (rngDraw splitmixStep 2 splitmixDefault >>= fun x => Res.ok (x.2.count (0x910A2DEC89025CC1 / 2 ^ 31 % 2 ^ 32))) = .ok 1 := by decide +kernel

/-! ### xorshift -/

theorem xorshift_snd (x : Nat) : (xorshift x).2 = ((x * 0xd989bcacc137dcd5 % 2 ^ 64) >>> 32) % 2 ^ 32 := rfl

theorem xorshift_mul_inj {N x y : Nat} (hN : N = 2 ^ 64) (hx : x < N) (hy : y < N) (e : x * 0xd989bcacc137dcd5 % 2 ^ 64 = y * 0xd989bcacc137dcd5 % 2 ^ 64) : x = y :=
  mul_inj (m := 2 ^ 64) (q := 10790937048185994365) (by decide) (hN ▸ hx) (hN ▸ hy) e

theorem xorshift_draw (n s : Nat) : rngDraw xorshiftStep n s = .ok (iter (fun s => (xorshift s).1) n s, (List.range n).map fun i => (xorshift (iter (fun s => (xorshift s).1) i s)).2) :=
  rngDraw_map xorshift n s

/-- Numbers below `N` other than 0, counted by a function that takes each of them once. -/
theorem card_permuted_nonzero {N : Nat} {f : Nat → Nat} (hlt : ∀ x < N, f x ≠ 0 ∧ f x < N + 1) (hinj : ∀ x < N, ∀ y < N, f x = f y → x = y) (P : Nat → Prop) [DecidablePred P] :
    ((Finset.range N).filter fun x => P (f x)).card + (if P 0 then 1 else 0) = ((Finset.range (N + 1)).filter P).card := by
  have h := card_permuted (N := N + 1) (f := fun x => if x = N then 0 else f x) (P := P) (fun x hx => by
      split
      · omega
      · exact (hlt x (by omega)).2) (fun x hx y hy e => by
      split at e <;> split at e
      · omega
      · exact absurd e.symm (hlt y (by omega)).1
      · exact absurd e (hlt x (by omega)).1
      · exact hinj x (by omega) y (by omega) e)
  rw [← h, Finset.range_add_one, Finset.filter_insert]
  have hf : ((Finset.range N).filter fun x => P (if x = N then 0 else f x)) = (Finset.range N).filter fun x => P (f x) := by
    apply Finset.filter_congr
    intro x hx
    rw [if_neg (by have := Finset.mem_range.mp hx; omega)]
  rw [if_pos rfl]
  split
  · rw [Finset.card_insert_of_notMem (by simp), hf]
  · rw [hf]; rfl

theorem xorshift_uniform {s N M : Nat} (hN : N + 1 = 2 ^ 64) (hM : M = 2 ^ 32) (hs : s < N + 1) (h0 : s ≠ 0) :
    ∃ l, rngDraw xorshiftStep N s = .ok (s, l) ∧ l.length = N ∧ ∀ r < M, l.count r + (if r = 0 then 1 else 0) = M := by
  have hper : ∀ n x, x < N + 1 → x ≠ 0 → (iter (fun s => (xorshift s).1) n x = x ↔ N ∣ n) := fun n x h h' => by
    have e : N = 2 ^ 64 - 1 := by omega
    rw [hN] at h
    rw [e]
    exact C103_period h h' n
  have hst : ∀ i, iter (fun s => (xorshift s).1) i s ≠ 0 ∧ iter (fun s => (xorshift s).1) i s < N + 1 := fun i => by
    rw [hN] at hs ⊢
    exact C103_nonzero hs h0 i
  refine ⟨(List.range N).map fun i => (xorshift (iter (fun s => (xorshift s).1) i s)).2, ?_, ?_, fun r hr => ?_⟩
  · rw [xorshift_draw, (hper N s hs h0).mpr (Nat.dvd_refl _)]
  · rw [List.length_map, List.length_range]
  · rw [count_range]
    have h1 := card_permuted_nonzero (N := N) (f := fun i => iter (fun s => (xorshift s).1) i s) (P := fun x => (xorshift x).2 = r) (fun i _ => hst i)
      (fun i hi j hj e => iter_inj_of_period (fun n x ⟨m, hm⟩ => hper n x (hm ▸ (hst m).2) (hm ▸ (hst m).1)) hi hj e)
    have hz : (xorshift 0).2 = 0 := rfl
    have h2 : (if (xorshift 0).2 = r then 1 else 0) = if r = 0 then 1 else 0 := by
      rw [hz]
      by_cases h : r = 0
      · rw [if_pos h.symm, if_pos h]
      · rw [if_neg (fun e => h e.symm), if_neg h]
    rw [h2] at h1
    rw [h1]
    have h3 : ((Finset.range (N + 1)).filter fun x => (xorshift x).2 = r) = (Finset.range (N + 1)).filter fun x => ((x * 0xd989bcacc137dcd5 % 2 ^ 64) >>> 32) % 2 ^ 32 = r :=
      Finset.filter_congr fun x _ => by rw [xorshift_snd]
    rw [h3, card_permuted (f := fun x => x * 0xd989bcacc137dcd5 % 2 ^ 64) (P := fun z => (z >>> 32) % 2 ^ 32 = r) (fun x _ => by rw [hN]; exact Nat.mod_lt _ (by decide))
      (fun x hx y hy e => xorshift_mul_inj hN hx hy e)]
    exact card_bits hN hM (by decide) hr

/-- **C182** for xorshift: from every seed but 0, among the first 2^64 - 1 numbers every 32-bit number occurs exactly 2^32 times, only 0 once less; then they repeat. -/
theorem C182_xorshift {s : Nat} (hs : s < 2 ^ 64) (h0 : s ≠ 0) :
    ∃ l, rngDraw xorshiftStep (2 ^ 64 - 1) s = .ok (s, l) ∧ l.length = 2 ^ 64 - 1 ∧ ∀ r < 2 ^ 32, l.count r + (if r = 0 then 1 else 0) = 2 ^ 32 :=
  xorshift_uniform (by decide) rfl hs h0

example : xorshiftDefault < 2 ^ 64 ∧ xorshiftDefault ≠ 0 := by decide
example : (rngDraw xorshiftStep 3 xorshiftDefault >>= fun x => Res.ok (x.2.count 1375651122)) = .ok 1 := by decide +kernel
/-- The seed 0 has to be left out: from there only 0 is returned. -/
example : rngDraw xorshiftStep 3 0 = .ok (0, [0, 0, 0]) := by decide +kernel

/-! ### pcg -/

/-- A function that permutes the numbers below `N` takes every value below `N`. -/
theorem permuted_surj {N : Nat} {f : Nat → Nat} (hlt : ∀ x < N, f x < N) (hinj : ∀ x < N, ∀ y < N, f x = f y → x = y) {y : Nat} (hy : y < N) : ∃ x < N, f x = y := by
  have h := card_permuted hlt hinj (P := fun x => x = y)
  have h1 : ((Finset.range N).filter fun x => x = y) = {y} := by
    ext z
    simp only [Finset.mem_filter, Finset.mem_range, Finset.mem_singleton]
    exact ⟨fun h => h.2, fun h => ⟨h ▸ hy, h⟩⟩
  rw [h1, Finset.card_singleton] at h
  obtain ⟨x, hx⟩ := Finset.card_pos.mp (by rw [h]; exact Nat.one_pos)
  obtain ⟨h2, h3⟩ := Finset.mem_filter.mp hx
  exact ⟨x, Finset.mem_range.mp h2, h3⟩

theorem pcgNext_lt (inc s : Nat) : pcgNext inc s < 2 ^ 64 := by
  unfold pcgNext; exact Nat.mod_lt _ (by decide)

theorem pcg_iter_lt {inc s N : Nat} (hN : N = 2 ^ 64) (hs : s < N) (i : Nat) : iter (pcgNext inc) i s < N := by
  induction i generalizing s with
  | zero => exact hs
  | succ i ih =>
    rw [iter]
    exact ih (by rw [hN]; exact pcgNext_lt inc s)

theorem pcg_draw_ub (i : Nat) {g : Pcg} (hs : g.state < 2 ^ 64) (h : 2 ^ 63 ≤ iter (pcgNext g.inc) i g.state) : rngDraw Pcg.step (i + 1) g = .ub := by
  obtain ⟨s, inc⟩ := g
  simp only at hs h
  induction i generalizing s with
  | zero =>
    rw [iter] at h
    rw [rngDraw, Pcg.step, C83_refuted_half inc h hs]
    rfl
  | succ i ih =>
    rw [rngDraw, Pcg.step]
    by_cases h' : 2 ^ 63 ≤ s
    · rw [C83_refuted_half inc h' hs]
      rfl
    · rw [C83_shifts_partial inc (Nat.lt_of_not_le h'), Res.ok_bind]
      dsimp only
      rw [Res.ok_bind]
      dsimp only
      rw [iter] at h
      rw [ih _ (pcgNext_lt inc s) h]
      rfl

theorem pcg_reaches {N : Nat} (hN : N = 2 ^ 64) {g : Pcg} (hi : g.inc % 2 = 1) (hs : g.state < N) : ∃ n < N, rngDraw Pcg.step (n + 1) g = .ub := by
  have hper : ∀ n x, x < N → (iter (pcgNext g.inc) n x = x ↔ N ∣ n) := fun n x h => by
    rw [hN] at h ⊢
    exact C101_period_partial hi h n
  obtain ⟨i, hi', e⟩ := permuted_surj (f := fun i => iter (pcgNext g.inc) i g.state) (fun i _ => pcg_iter_lt hN hs i)
    (fun i hi j hj e => iter_inj_of_period (fun n x ⟨m, hm⟩ => hper n x (hm ▸ pcg_iter_lt hN hs m)) hi hj e) (y := 2 ^ 63) (by rw [hN]; decide)
  exact ⟨i, hi', pcg_draw_ub i (hN ▸ hs) (Nat.le_of_eq e.symm)⟩

/-- **C83 is false** sooner or later for every pcg whose increment is odd, as that of the default one and of those seeded by a random device:
within 2^64 calls there is an undefined one, whatever the state. -/
theorem C83_refuted_always {g : Pcg} (hi : g.inc % 2 = 1) (hs : g.state < 2 ^ 64) : ∃ n < 2 ^ 64, rngDraw Pcg.step (n + 1) g = .ub :=
  pcg_reaches rfl hi hs

example : (Pcg.default.seed 1).inc % 2 = 1 ∧ (Pcg.default.seed 1).state < 2 ^ 64 := by decide
example : rngDraw Pcg.step 3 (Pcg.default.seed 1) = .ub := by decide +kernel
end C4
