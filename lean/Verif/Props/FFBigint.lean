import Verif.FastFloat.Bigint
import Verif.Spec.Limbs
import Verif.Props.FFBits
import Mathlib.Tactic.Ring
import Mathlib.Tactic.Linarith
/-
The arithmetic of `bigint` is exact as long as the result has no more than 62 limbs.
-/
namespace C4.FF
open Spec

theorem limbsVal_append (a b : List Nat) : limbsVal (a ++ b) = limbsVal a + (2 ^ 64) ^ a.length * limbsVal b := by
  induction a with
  | nil => simp [limbsVal]
  | cons x a ih =>
    rw [List.cons_append, limbsVal, ih, limbsVal, List.length_cons, Nat.pow_succ]
    ring

theorem _root_.C4.Spec.Limbs.append {a b : List Nat} (ha : Limbs a) (hb : Limbs b) : Limbs (a ++ b) := by
  intro x hx
  rw [List.mem_append] at hx
  exact hx.elim (ha x) (hb x)

theorem _root_.C4.Spec.Limbs.nil : Limbs [] := by intro x hx; cases hx

theorem _root_.C4.Spec.Limbs.cons {x : Nat} {v : List Nat} (hx : x < 2 ^ 64) (hv : Limbs v) : Limbs (x :: v) := by
  intro y hy
  rcases List.mem_cons.mp hy with rfl | h
  · exact hx
  · exact hv y h

theorem _root_.C4.Spec.Limbs.head {x : Nat} {v : List Nat} (h : Limbs (x :: v)) : x < 2 ^ 64 := h x (by simp)
theorem _root_.C4.Spec.Limbs.tail {x : Nat} {v : List Nat} (h : Limbs (x :: v)) : Limbs v := fun y hy => h y (List.mem_cons_of_mem _ hy)

theorem _root_.C4.Spec.Limbs.take {v : List Nat} (h : Limbs v) (n : Nat) : Limbs (v.take n) := fun x hx => h x (List.mem_of_mem_take hx)
theorem _root_.C4.Spec.Limbs.drop {v : List Nat} (h : Limbs v) (n : Nat) : Limbs (v.drop n) := fun x hx => h x (List.mem_of_mem_drop hx)

theorem limbsVal_lt {v : List Nat} (h : Limbs v) : limbsVal v < (2 ^ 64) ^ v.length := by
  induction v with
  | nil => simp [limbsVal]
  | cons x v ih =>
    have hx := h.head
    have := ih h.tail
    rw [limbsVal, List.length_cons, show (2 ^ 64) ^ (v.length + 1) = (2 ^ 64) ^ v.length * 2 ^ 64 from rfl]
    obtain ⟨P, hP⟩ : ∃ P, (2 ^ 64) ^ v.length = P := ⟨_, rfl⟩
    rw [hP] at this ⊢
    omega

theorem limbsVal_ge {v : List Nat} (hn : Norm v) (hne : v ≠ []) : (2 ^ 64) ^ (v.length - 1) ≤ limbsVal v := by
  have e := List.dropLast_concat_getLast hne
  have hl : v.getLast hne ≠ 0 := by
    intro h0
    apply hn
    rw [List.getLast?_eq_some_getLast hne, h0]
  conv => rhs; rw [← e]
  rw [limbsVal_append, List.length_dropLast]
  simp only [limbsVal, Nat.mul_zero, Nat.add_zero]
  have : (2 ^ 64) ^ (v.length - 1) * 1 ≤ (2 ^ 64) ^ (v.length - 1) * v.getLast hne := Nat.mul_le_mul_left _ (by omega)
  omega

theorem norm_of_ge {v : List Nat} (hv : Limbs v) (h : (2 ^ 64) ^ (v.length - 1) ≤ limbsVal v) : Norm v := by
  intro h0
  have hne : v ≠ [] := by rintro rfl; simp at h0
  rw [List.getLast?_eq_some_getLast hne] at h0
  have e := List.dropLast_concat_getLast hne
  have hl : Limbs v.dropLast := fun x hx => hv x (List.dropLast_subset v hx)
  have h1 := limbsVal_lt hl
  rw [List.length_dropLast] at h1
  rw [← e, limbsVal_append, Option.some.inj h0] at h
  simp only [limbsVal, Nat.mul_zero, Nat.add_zero, List.length_append, List.length_dropLast, List.length_cons, List.length_nil] at h
  rw [show v.length - 1 + (0 + 1) - 1 = v.length - 1 by omega] at h
  omega

theorem _root_.C4.Spec.Norm.nil : Norm [] := by simp [Norm]

/-- Few limbs, because the number is small. -/
theorem length_of_lt {v : List Nat} (hn : Norm v) {n : Nat} (h : limbsVal v < (2 ^ 64) ^ n) : v.length ≤ n := by
  by_contra hcon
  have hne : v ≠ [] := by rintro rfl; simp at hcon
  have h1 := limbsVal_ge hn hne
  have h2 : (2 ^ 64) ^ n ≤ (2 ^ 64) ^ (v.length - 1) := Nat.pow_le_pow_right (by omega) (by omega)
  omega

/-- A `bigint` with the value `n`. -/
structure Big (v : List Nat) (n : Nat) : Prop where
  limbs : Limbs v
  norm : Norm v
  val : limbsVal v = n

theorem tryPush_spec {v : List Nat} {x : Nat} (hv : Limbs v) (hx : x < 2 ^ 64) (hs : limbsVal v + (2 ^ 64) ^ v.length * x < (2 ^ 64) ^ 62) (hx0 : x ≠ 0) :
    tryPush v x = (v ++ [x], true) ∧ Limbs (v ++ [x]) ∧ limbsVal (v ++ [x]) = limbsVal v + (2 ^ 64) ^ v.length * x ∧ Norm (v ++ [x]) := by
  have hlen : v.length < 62 := by
    by_contra hcon
    have h1 : (2 ^ 64) ^ 62 ≤ (2 ^ 64) ^ v.length := Nat.pow_le_pow_right (by omega) (by omega)
    have h2 : (2 ^ 64) ^ v.length * 1 ≤ (2 ^ 64) ^ v.length * x := Nat.mul_le_mul_left _ (by omega)
    omega
  refine ⟨?_, hv.append (Limbs.cons hx Limbs.nil), ?_, ?_⟩
  · unfold tryPush
    rw [if_pos (by unfold bigintLimbs; omega)]
  · rw [limbsVal_append]; simp [limbsVal]
  · simp [Norm, hx0]

theorem scalarMul_eq (x y c : Nat) (hx : x < 2 ^ 64) (hy : y < 2 ^ 64) (hc : c < 2 ^ 64) :
    scalarMul x y c = ((x * y + c) % 2 ^ 64, (x * y + c) / 2 ^ 64) ∧ (x * y + c) / 2 ^ 64 < 2 ^ 64 := by
  have h1 : x * y ≤ (2 ^ 64 - 1) * (2 ^ 64 - 1) := Nat.mul_le_mul (by omega) (by omega)
  unfold scalarMul
  dsimp only
  rw [Nat.mod_eq_of_lt (a := x * y + c) (b := 2 ^ 128) (by omega)]
  exact ⟨rfl, by omega⟩

theorem smallMulLoop_spec (y : Nat) (hy : y < 2 ^ 64) : ∀ (v : List Nat) (c : Nat), Limbs v → c < 2 ^ 64 →
    (smallMulLoop y v c).1.length = v.length ∧ Limbs (smallMulLoop y v c).1 ∧ (smallMulLoop y v c).2 < 2 ^ 64 ∧
    limbsVal (smallMulLoop y v c).1 + (2 ^ 64) ^ v.length * (smallMulLoop y v c).2 = limbsVal v * y + c := by
  intro v
  induction v with
  | nil => intro c _ hc; simp [smallMulLoop, limbsVal, Limbs.nil]; omega
  | cons x v ih =>
    intro c hv hc
    obtain ⟨e, hlt⟩ := scalarMul_eq x y c hv.head hy hc
    obtain ⟨h1, h2, h3, h4⟩ := ih ((x * y + c) / 2 ^ 64) hv.tail hlt
    rw [smallMulLoop, e]
    dsimp only
    refine ⟨by rw [List.length_cons, h1, List.length_cons], Limbs.cons (Nat.mod_lt _ (by omega)) h2, h3, ?_⟩
    rw [limbsVal, limbsVal, List.length_cons, Nat.pow_succ]
    have e2 := Nat.div_add_mod (x * y + c) (2 ^ 64)
    calc (x * y + c) % 2 ^ 64 + 2 ^ 64 * limbsVal (smallMulLoop y v ((x * y + c) / 2 ^ 64)).1 +
          (2 ^ 64) ^ v.length * 2 ^ 64 * (smallMulLoop y v ((x * y + c) / 2 ^ 64)).2
        = (x * y + c) % 2 ^ 64 + 2 ^ 64 * (limbsVal (smallMulLoop y v ((x * y + c) / 2 ^ 64)).1 +
          (2 ^ 64) ^ v.length * (smallMulLoop y v ((x * y + c) / 2 ^ 64)).2) := by ring
      _ = (x * y + c) % 2 ^ 64 + 2 ^ 64 * (limbsVal v * y + (x * y + c) / 2 ^ 64) := by rw [h4]
      _ = (2 ^ 64 * ((x * y + c) / 2 ^ 64) + (x * y + c) % 2 ^ 64) + 2 ^ 64 * (limbsVal v * y) := by ring
      _ = (x * y + c) + 2 ^ 64 * (limbsVal v * y) := by rw [e2]
      _ = (x + 2 ^ 64 * limbsVal v) * y + c := by ring

theorem smallMul_spec {v : List Nat} {y : Nat} (hv : Limbs v) (hy : y < 2 ^ 64) (hs : limbsVal v * y < (2 ^ 64) ^ 62) :
    (smallMul v y).2 = true ∧ Limbs (smallMul v y).1 ∧ limbsVal (smallMul v y).1 = limbsVal v * y ∧ (Norm v → 0 < y → Norm (smallMul v y).1) := by
  obtain ⟨h1, h2, h3, h4⟩ := smallMulLoop_spec y hy v 0 hv (by omega)
  rw [Nat.add_zero] at h4
  unfold smallMul
  dsimp only
  by_cases hc : (smallMulLoop y v 0).2 ≠ 0
  · rw [if_pos hc]
    obtain ⟨p1, p2, p3, p4⟩ := tryPush_spec h2 h3 (by rw [h1]; omega) hc
    rw [p1]
    refine ⟨rfl, p2, ?_, fun _ _ => p4⟩
    rw [p3, h1, h4]
  · rw [if_neg hc]
    have hc0 : (smallMulLoop y v 0).2 = 0 := by omega
    rw [hc0, Nat.mul_zero, Nat.add_zero] at h4
    refine ⟨rfl, h2, h4, fun hn hy0 => ?_⟩
    cases v with
    | nil => exact Norm.nil
    | cons x v =>
      apply norm_of_ge h2
      have := limbsVal_ge hn (by simp)
      rw [h1, h4]
      exact le_trans this (Nat.le_mul_of_pos_right _ hy0)

theorem Big.mul {v : List Nat} {n y : Nat} (h : Big v n) (hy : y < 2 ^ 64) (hy0 : 0 < y) (hs : n * y < (2 ^ 64) ^ 62) :
    (smallMul v y).2 = true ∧ Big (smallMul v y).1 (n * y) := by
  obtain ⟨h1, h2, h3, h4⟩ := smallMul_spec h.limbs hy (by rw [h.val]; exact hs)
  exact ⟨h1, h2, h4 h.norm hy0, by rw [h3, h.val]⟩

theorem scalarAdd_spec (x y : Nat) (hx : x < 2 ^ 64) (hy : y < 2 ^ 64) : (scalarAdd x y).1 < 2 ^ 64 ∧
    (scalarAdd x y).1 + 2 ^ 64 * ((scalarAdd x y).2).toNat = x + y := by
  unfold scalarAdd
  dsimp only
  refine ⟨Nat.mod_lt _ (by omega), ?_⟩
  by_cases h : (x + y) % 2 ^ 64 < x
  · rw [decide_eq_true h, Bool.toNat_true]; omega
  · rw [decide_eq_false h, Bool.toNat_false]; omega

theorem smallAddLoop_spec : ∀ (v : List Nat) (c : Nat), Limbs v → c < 2 ^ 64 →
    (smallAddLoop v c).1.length = v.length ∧ Limbs (smallAddLoop v c).1 ∧ (smallAddLoop v c).2 < 2 ^ 64 ∧
    limbsVal (smallAddLoop v c).1 + (2 ^ 64) ^ v.length * (smallAddLoop v c).2 = limbsVal v + c := by
  intro v
  induction v with
  | nil => intro c _ hc; simp [smallAddLoop, limbsVal, Limbs.nil]; omega
  | cons x v ih =>
    intro c hv hc
    rw [smallAddLoop]
    by_cases h0 : c ≠ 0
    · rw [if_pos h0]
      obtain ⟨a1, a2⟩ := scalarAdd_spec x c hv.head hc
      obtain ⟨o, ho⟩ : ∃ o, ((scalarAdd x c).2).toNat = o := ⟨_, rfl⟩
      have ho2 : o ≤ 1 := by rw [← ho]; exact Bool.toNat_le _
      have ho3 : (if (scalarAdd x c).2 = true then 1 else 0) = o := by rw [← ho]; cases (scalarAdd x c).2 <;> rfl
      obtain ⟨h1, h2, h3, h4⟩ := ih o hv.tail (by omega)
      dsimp only
      rw [ho] at a2
      rw [ho3]
      refine ⟨by rw [List.length_cons, h1, List.length_cons], Limbs.cons a1 h2, h3, ?_⟩
      rw [limbsVal, limbsVal, List.length_cons, Nat.pow_succ]
      calc (scalarAdd x c).1 + 2 ^ 64 * limbsVal (smallAddLoop v o).1 + (2 ^ 64) ^ v.length * 2 ^ 64 * (smallAddLoop v o).2
          = (scalarAdd x c).1 + 2 ^ 64 * (limbsVal (smallAddLoop v o).1 + (2 ^ 64) ^ v.length * (smallAddLoop v o).2) := by ring
        _ = (scalarAdd x c).1 + 2 ^ 64 * (limbsVal v + o) := by rw [h4]
        _ = ((scalarAdd x c).1 + 2 ^ 64 * o) + 2 ^ 64 * limbsVal v := by ring
        _ = x + 2 ^ 64 * limbsVal v + c := by rw [a2]; ring
    · rw [if_neg h0]
      have : c = 0 := by omega
      subst this
      exact ⟨rfl, hv, by dsimp only; omega, by simp⟩

theorem smallAddFrom_spec {v : List Nat} {y start : Nat} (hv : Limbs v) (hy : y < 2 ^ 64) (hst : start ≤ v.length)
    (hs : limbsVal v + (2 ^ 64) ^ start * y < (2 ^ 64) ^ 62) :
    (smallAddFrom v y start).2 = true ∧ Limbs (smallAddFrom v y start).1 ∧
      limbsVal (smallAddFrom v y start).1 = limbsVal v + (2 ^ 64) ^ start * y ∧ (Norm v → Norm (smallAddFrom v y start).1) := by
  obtain ⟨h1, h2, h3, h4⟩ := smallAddLoop_spec (v.drop start) y (hv.drop start) hy
  have hval : limbsVal v = limbsVal (v.take start) + (2 ^ 64) ^ start * limbsVal (v.drop start) := by
    conv => lhs; rw [← List.take_append_drop start v]
    rw [limbsVal_append, List.length_take, Nat.min_eq_left hst]
  have hlen : (v.take start ++ (smallAddLoop (v.drop start) y).1).length = v.length := by
    rw [List.length_append, h1, ← List.length_append, List.take_append_drop]
  have hl2 : Limbs (v.take start ++ (smallAddLoop (v.drop start) y).1) := (hv.take start).append h2
  have hv2 : limbsVal (v.take start ++ (smallAddLoop (v.drop start) y).1) + (2 ^ 64) ^ v.length * (smallAddLoop (v.drop start) y).2 =
      limbsVal v + (2 ^ 64) ^ start * y := by
    rw [limbsVal_append, List.length_take, Nat.min_eq_left hst, hval]
    have e : (2 ^ 64) ^ v.length = (2 ^ 64) ^ start * (2 ^ 64) ^ (v.drop start).length := by
      rw [← Nat.pow_add, List.length_drop]; congr 1; omega
    rw [e]
    calc _ = limbsVal (v.take start) + (2 ^ 64) ^ start * (limbsVal (smallAddLoop (v.drop start) y).1 + (2 ^ 64) ^ (v.drop start).length *
          (smallAddLoop (v.drop start) y).2) := by ring
      _ = _ := by rw [h4]; ring
  unfold smallAddFrom
  dsimp only
  by_cases hc : (smallAddLoop (v.drop start) y).2 ≠ 0
  · rw [if_pos hc]
    obtain ⟨p1, p2, p3, p4⟩ := tryPush_spec hl2 h3 (by rw [hlen, hv2]; exact hs) hc
    rw [p1]
    refine ⟨rfl, p2, ?_, fun _ => p4⟩
    rw [p3, hlen, hv2]
  · rw [if_neg hc]
    have hc0 : (smallAddLoop (v.drop start) y).2 = 0 := by omega
    rw [hc0, Nat.mul_zero, Nat.add_zero] at hv2
    refine ⟨rfl, hl2, hv2, fun hn => ?_⟩
    by_cases hne : v = []
    · rw [hne] at hlen
      have : v.take start ++ (smallAddLoop (v.drop start) y).1 = [] := by
        rw [List.length_nil] at hlen
        exact List.length_eq_zero_iff.mp (by rw [hne]; exact hlen)
      dsimp only
      rw [this]
      exact Norm.nil
    · apply norm_of_ge hl2
      have := limbsVal_ge hn hne
      rw [hlen, hv2]
      omega

theorem Big.add {v : List Nat} {n y : Nat} (h : Big v n) (hy : y < 2 ^ 64) (hs : n + y < (2 ^ 64) ^ 62) :
    (smallAddFrom v y 0).2 = true ∧ Big (smallAddFrom v y 0).1 (n + y) := by
  obtain ⟨h1, h2, h3, h4⟩ := smallAddFrom_spec (v := v) (y := y) (start := 0) h.limbs hy (Nat.zero_le _) (by rw [h.val]; omega)
  refine ⟨h1, h2, h4 h.norm, ?_⟩
  rw [h3, h.val]
  omega

theorem largeAddLoop_spec : ∀ (x y : List Nat) (c : Bool), Limbs x → Limbs y → y.length ≤ x.length →
    (largeAddLoop x y c).1.length = x.length ∧ Limbs (largeAddLoop x y c).1 ∧
    limbsVal (largeAddLoop x y c).1 + (2 ^ 64) ^ y.length * ((largeAddLoop x y c).2).toNat = limbsVal x + limbsVal y + (c).toNat := by
  intro x
  induction x with
  | nil =>
    intro y c _ _ hl
    have : y = [] := List.length_eq_zero_iff.mp (by simpa using hl)
    subst this
    simp [largeAddLoop, limbsVal, Limbs.nil]
  | cons x v ih =>
    intro y c hx hy hl
    cases y with
    | nil => exact ⟨rfl, hx, by simp [largeAddLoop, limbsVal]⟩
    | cons y s =>
      rw [largeAddLoop]
      dsimp only
      obtain ⟨a1, a2⟩ := scalarAdd_spec x y hx.head hy.head
      obtain ⟨z1, hz1⟩ : ∃ z, (scalarAdd x y).1 = z := ⟨_, rfl⟩
      obtain ⟨c1, hc1⟩ : ∃ z, (scalarAdd x y).2 = z := ⟨_, rfl⟩
      rw [hz1] at a1
      rw [hz1, hc1] at a2
      obtain ⟨b1, b2⟩ := scalarAdd_spec z1 1 a1 (by omega)
      rw [hz1, hc1]
      obtain ⟨p, hp⟩ : ∃ p, (if c then scalarAdd z1 1 else (z1, false)) = p := ⟨_, rfl⟩
      have hp1 : p.1 < 2 ^ 64 ∧ p.1 + 2 ^ 64 * (p.2).toNat = z1 + (c).toNat := by
        rw [← hp]
        cases c with
        | true => exact ⟨b1, b2⟩
        | false => exact ⟨a1, rfl⟩
      rw [hp]
      obtain ⟨h1, h2, h3⟩ := ih s (c1 || p.2) hx.tail hy.tail (by simpa using hl)
      refine ⟨by rw [List.length_cons, h1, List.length_cons], Limbs.cons hp1.1 h2, ?_⟩
      rw [limbsVal, limbsVal, limbsVal, List.length_cons, Nat.pow_succ]
      have hor : ((c1 || p.2)).toNat = (c1).toNat + (p.2).toNat := by
        have := hy.head
        have := hx.head
        have hcc : c.toNat ≤ 1 := Bool.toNat_le _
        have h5 := hp1.2
        rcases c1 with _ | _ <;> rcases hp2 : p.2 with _ | _ <;> rw [hp2] at h5 <;> simp only [Bool.toNat_true, Bool.toNat_false] at h5 a2 <;>
          first | rfl | omega
      calc p.1 + 2 ^ 64 * limbsVal (largeAddLoop v s (c1 || p.2)).1 + (2 ^ 64) ^ s.length * 2 ^ 64 * ((largeAddLoop v s (c1 || p.2)).2).toNat
          = p.1 + 2 ^ 64 * (limbsVal (largeAddLoop v s (c1 || p.2)).1 + (2 ^ 64) ^ s.length * ((largeAddLoop v s (c1 || p.2)).2).toNat) := by ring
        _ = p.1 + 2 ^ 64 * (limbsVal v + limbsVal s + ((c1).toNat + (p.2).toNat)) := by rw [h3, hor]
        _ = (p.1 + 2 ^ 64 * (p.2).toNat) + 2 ^ 64 * (c1).toNat + 2 ^ 64 * limbsVal v + 2 ^ 64 * limbsVal s := by ring
        _ = (z1 + 2 ^ 64 * (c1).toNat) + (c).toNat + 2 ^ 64 * limbsVal v + 2 ^ 64 * limbsVal s := by rw [hp1.2]; ring
        _ = _ := by rw [a2]; ring

theorem limbsVal_replicate (n : Nat) : limbsVal (List.replicate n 0) = 0 := by
  induction n with
  | zero => rfl
  | succ n ih => rw [List.replicate_succ, limbsVal, ih]

theorem limbs_replicate (n : Nat) : Limbs (List.replicate n 0) := by
  intro x hx
  rw [List.eq_of_mem_replicate hx]
  omega

theorem largeAddFrom_spec {x y : List Nat} {start : Nat} (hx : Limbs x) (hy : Limbs y) (hl : y.length + start ≤ 62)
    (hs : limbsVal x + (2 ^ 64) ^ start * limbsVal y < (2 ^ 64) ^ 62) :
    (largeAddFrom x y start).2 = true ∧ Limbs (largeAddFrom x y start).1 ∧
      limbsVal (largeAddFrom x y start).1 = limbsVal x + (2 ^ 64) ^ start * limbsVal y := by
  have hres : ∃ x', (if x.length < start ∨ y.length > x.length - start then tryResize x (y.length + start) 0 else (x, true)) = (x', true) ∧
      Limbs x' ∧ limbsVal x' = limbsVal x ∧ y.length + start ≤ x'.length := by
    by_cases h : x.length < start ∨ y.length > x.length - start
    · rw [if_pos h]
      refine ⟨x ++ List.replicate (y.length + start - x.length) 0, ?_, hx.append (limbs_replicate _), ?_, ?_⟩
      · unfold tryResize
        rw [if_neg (by unfold bigintLimbs; omega), if_pos (by omega)]
      · rw [limbsVal_append, limbsVal_replicate, Nat.mul_zero, Nat.add_zero]
      · rw [List.length_append, List.length_replicate]; omega
    · rw [if_neg h]
      exact ⟨x, rfl, hx, rfl, by omega⟩
  obtain ⟨x', e, hx', hv', hl'⟩ := hres
  unfold largeAddFrom
  rw [e]
  dsimp only
  simp only [Bool.not_true, Bool.false_eq_true, if_false]
  obtain ⟨h1, h2, h3⟩ := largeAddLoop_spec (x'.drop start) y false (hx'.drop start) hy (by rw [List.length_drop]; omega)
  rw [Bool.toNat_false, Nat.add_zero] at h3
  have hval : limbsVal x' = limbsVal (x'.take start) + (2 ^ 64) ^ start * limbsVal (x'.drop start) := by
    conv => lhs; rw [← List.take_append_drop start x']
    rw [limbsVal_append, List.length_take, Nat.min_eq_left (by omega)]
  obtain ⟨r, hr⟩ : ∃ r, x'.take start ++ (largeAddLoop (x'.drop start) y false).1 = r := ⟨_, rfl⟩
  have hrl : r.length = x'.length := by
    rw [← hr, List.length_append, h1, ← List.length_append, List.take_append_drop]
  have hrL : Limbs r := by rw [← hr]; exact (hx'.take start).append h2
  have hrv : limbsVal r + (2 ^ 64) ^ (y.length + start) * (largeAddLoop (x'.drop start) y false).2.toNat =
      limbsVal x + (2 ^ 64) ^ start * limbsVal y := by
    rw [← hr, limbsVal_append, List.length_take, Nat.min_eq_left (by omega), ← hv', hval, Nat.pow_add]
    calc _ = limbsVal (x'.take start) + (2 ^ 64) ^ start * (limbsVal (largeAddLoop (x'.drop start) y false).1 + (2 ^ 64) ^ y.length *
          (largeAddLoop (x'.drop start) y false).2.toNat) := by ring
      _ = _ := by rw [h3]; ring
  rw [hr]
  by_cases hc : (largeAddLoop (x'.drop start) y false).2 = true
  · rw [if_pos hc]
    rw [hc, Bool.toNat_true] at hrv
    obtain ⟨p1, p2, p3, _⟩ := smallAddFrom_spec (v := r) (y := 1) (start := y.length + start) hrL (by omega) (by omega) (by omega)
    exact ⟨p1, p2, by rw [p3, hrv]⟩
  · rw [if_neg hc]
    rw [Bool.eq_false_iff.mpr hc, Bool.toNat_false, Nat.mul_zero, Nat.add_zero] at hrv
    exact ⟨rfl, hrL, hrv⟩

theorem getLast?_getD (v : List Nat) (h : 0 < v.length) : v.getLast? = some (rindex v 0) := by
  unfold rindex
  rw [List.getLast?_eq_getElem?]
  rw [Nat.sub_zero, List.getD_eq_getElem?_getD, List.getElem?_eq_getElem (by omega)]
  rfl

theorem normalize_spec : ∀ (n : Nat) (v : List Nat), v.length ≤ n → Limbs v →
    Limbs (normalize v) ∧ Norm (normalize v) ∧ limbsVal (normalize v) = limbsVal v ∧ (normalize v).length ≤ v.length := by
  intro n
  induction n with
  | zero =>
    intro v hn hv
    have : v = [] := List.length_eq_zero_iff.mp (by omega)
    subst this
    rw [normalize, dif_neg (by simp)]
    exact ⟨hv, Norm.nil, rfl, le_refl _⟩
  | succ n ih =>
    intro v hn hv
    rw [normalize]
    split
    · rename_i h
      have hne : v ≠ [] := by rintro rfl; simp at h
      obtain ⟨h1, h2, h3, h4⟩ := ih v.dropLast (by rw [List.length_dropLast]; omega) (fun x hx => hv x (List.dropLast_subset v hx))
      refine ⟨h1, h2, ?_, by rw [List.length_dropLast] at h4; omega⟩
      rw [h3]
      have e := List.dropLast_concat_getLast hne
      have hl : v.getLast hne = 0 := by
        have := getLast?_getD v h.1
        rw [List.getLast?_eq_some_getLast hne, h.2] at this
        exact Option.some.inj this
      conv => rhs; rw [← e]
      rw [limbsVal_append, hl]
      simp [limbsVal]
    · rename_i h
      refine ⟨hv, ?_, rfl, le_refl _⟩
      by_cases hl : 0 < v.length
      · unfold Norm
        rw [getLast?_getD v hl]
        intro hcon
        exact h ⟨hl, Option.some.inj hcon⟩
      · have : v = [] := List.length_eq_zero_iff.mp (by omega)
        subst this
        exact Norm.nil

theorem tryExtend_nil (z : List Nat) (h : z.length ≤ 62) : tryExtend [] z = (z, true) := by
  unfold tryExtend
  rw [if_pos (by unfold bigintLimbs; simpa using h)]
  simp

theorem longMulLoop_spec {z : List Nat} {n : Nat} (hz : Big z n) : ∀ (y : List Nat) (index : Nat) (x : List Nat), Limbs y → Limbs x →
    index + y.length ≤ 62 → limbsVal x + (2 ^ 64) ^ index * (n * limbsVal y) < (2 ^ 64) ^ 62 → z.length ≤ 62 →
    (longMulLoop z y index x).2 = true ∧ Limbs (longMulLoop z y index x).1 ∧
      limbsVal (longMulLoop z y index x).1 = limbsVal x + (2 ^ 64) ^ index * (n * limbsVal y) := by
  intro y
  induction y with
  | nil => intro index x _ hx _ _ _; simp [longMulLoop, limbsVal]; exact hx
  | cons yi y ih =>
    intro index x hy hx hi hs hzl
    rw [longMulLoop]
    rw [limbsVal] at hs
    have hexp : limbsVal x + (2 ^ 64) ^ index * (n * (yi + 2 ^ 64 * limbsVal y)) =
        limbsVal x + (2 ^ 64) ^ index * (n * yi) + (2 ^ 64) ^ (index + 1) * (n * limbsVal y) := by
      rw [Nat.pow_succ]; ring
    rw [hexp] at hs
    have hyi := hy.head
    by_cases h0 : yi ≠ 0
    · rw [if_pos h0, tryExtend_nil z hzl]
      dsimp only
      simp only [Bool.not_true, Bool.false_eq_true, if_false]
      have hle : n * yi ≤ (2 ^ 64) ^ index * (n * yi) := Nat.le_mul_of_pos_left _ (Nat.pow_pos (by omega))
      obtain ⟨m1, m2⟩ := hz.mul hyi (by omega) (by omega)
      rw [m1]
      simp only [Bool.not_true, Bool.false_eq_true, if_false]
      have hlen : (smallMul z yi).1.length + index ≤ 62 := by
        by_cases hne : (smallMul z yi).1 = []
        · rw [hne]; simp only [List.length_nil]; omega
        · have h1 := limbsVal_ge m2.norm hne
          rw [m2.val] at h1
          by_contra hcon
          have h2 : (2 ^ 64) ^ 62 ≤ (2 ^ 64) ^ (index + ((smallMul z yi).1.length - 1)) := by
            have : 0 < (smallMul z yi).1.length := List.length_pos_iff.mpr hne
            exact Nat.pow_le_pow_right (by omega) (by omega)
          rw [Nat.pow_add] at h2
          have h3 := Nat.mul_le_mul_left ((2 ^ 64) ^ index) h1
          omega
      obtain ⟨l1, l2, l3⟩ := largeAddFrom_spec (x := x) (y := (smallMul z yi).1) (start := index) hx m2.limbs hlen (by rw [m2.val]; omega)
      rw [l1]
      simp only [Bool.not_true, Bool.false_eq_true, if_false]
      rw [m2.val] at l3
      obtain ⟨i1, i2, i3⟩ := ih (index + 1) (largeAddFrom x (smallMul z yi).1 index).1 hy.tail l2 (by simp at hi; omega) (by rw [l3]; exact hs) hzl
      refine ⟨i1, i2, ?_⟩
      rw [i3, l3, limbsVal, hexp]
    · rw [if_neg h0]
      have h00 : yi = 0 := by omega
      rw [h00, Nat.mul_zero, Nat.mul_zero, Nat.add_zero] at hs
      obtain ⟨i1, i2, i3⟩ := ih (index + 1) x hy.tail hx (by simp at hi; omega) hs hzl
      refine ⟨i1, i2, ?_⟩
      rw [i3, limbsVal, hexp, h00, Nat.mul_zero, Nat.mul_zero]; rfl

theorem longMul_spec {x y : List Nat} {n : Nat} (hx : Big x n) (hy : Limbs y) (hyl : y.length ≤ 62) (hne : y ≠ []) (hs : n * limbsVal y < (2 ^ 64) ^ 62)
    (hxs : n < (2 ^ 64) ^ 62) : (longMul x y).2 = true ∧ Big (longMul x y).1 (n * limbsVal y) := by
  have hxl : x.length ≤ 62 := length_of_lt hx.norm (by rw [hx.val]; exact hxs)
  unfold longMul
  rw [tryExtend_nil x hxl]
  dsimp only
  cases y with
  | nil => exact absurd rfl hne
  | cons y0 y =>
    have hexp : n * (y0 + 2 ^ 64 * limbsVal y) = n * y0 + (2 ^ 64) ^ 1 * (n * limbsVal y) := by ring
    rw [limbsVal, hexp] at hs
    dsimp only
    obtain ⟨m1, m2, m3, _⟩ := smallMul_spec (v := x) (y := y0) hx.limbs hy.head (by rw [hx.val]; omega)
    rw [hx.val] at m3
    rw [m1]
    simp only [Bool.not_true, Bool.false_eq_true, if_false]
    obtain ⟨l1, l2, l3⟩ := longMulLoop_spec hx y 1 (smallMul x y0).1 hy.tail m2 (by rw [List.length_cons] at hyl; omega) (by rw [m3]; exact hs) hxl
    rw [l1]
    simp only [Bool.not_true, Bool.false_eq_true, if_false]
    obtain ⟨h1, h2, h3, _⟩ := normalize_spec _ _ (le_refl _) l2
    refine ⟨trivial, h1, h2, ?_⟩
    rw [h3, l3, m3, limbsVal, hexp]

theorem largeMul_spec {x y : List Nat} {n : Nat} (hx : Big x n) (hy : Limbs y) (hyl : y.length ≤ 62) (hne : y ≠ []) (hp : 0 < limbsVal y)
    (hs : n * limbsVal y < (2 ^ 64) ^ 62) (hxs : n < (2 ^ 64) ^ 62) : (largeMul x y).2 = true ∧ Big (largeMul x y).1 (n * limbsVal y) := by
  unfold largeMul
  split
  · rename_i y0
    have e : limbsVal [y0] = y0 := by simp [limbsVal]
    rw [e] at hs hp ⊢
    exact hx.mul hy.head hp hs
  · exact longMul_spec hx hy hyl hne hs hxs

theorem limbsVal_largePowerOf5 : limbsVal largePowerOf5 = 5 ^ 135 := by decide +kernel
theorem limbs_largePowerOf5 : Limbs largePowerOf5 := by unfold Limbs largePowerOf5; decide +kernel

theorem pow5Large_spec : ∀ (fuel exp : Nat) (v : List Nat) (n : Nat), exp ≤ fuel → Big v n → n * 5 ^ exp < (2 ^ 64) ^ 62 →
    ∃ v' e, pow5Large fuel v exp = (v', e, true) ∧ ∃ n', Big v' n' ∧ n' * 5 ^ e = n * 5 ^ exp ∧ e < 135 := by
  intro fuel
  induction fuel with
  | zero => intro exp v n he hv _; exact ⟨v, exp, rfl, n, hv, rfl, by omega⟩
  | succ fuel ih =>
    intro exp v n he hv hs
    rw [pow5Large]
    by_cases h : exp ≥ 135
    · rw [if_pos h]
      have hexp : n * 5 ^ exp = (n * 5 ^ 135) * 5 ^ (exp - 135) := by
        rw [Nat.mul_assoc, ← Nat.pow_add, show 135 + (exp - 135) = exp by omega]
      have hp : 0 < 5 ^ (exp - 135) := Nat.pow_pos (by omega)
      have h1 : n * 5 ^ 135 ≤ (n * 5 ^ 135) * 5 ^ (exp - 135) := Nat.le_mul_of_pos_right _ hp
      have h2 : n ≤ n * 5 ^ 135 := Nat.le_mul_of_pos_right _ (Nat.pow_pos (by omega))
      obtain ⟨m1, m2⟩ := largeMul_spec hv limbs_largePowerOf5 (by decide) (by decide) (by rw [limbsVal_largePowerOf5]; exact Nat.pow_pos (by omega))
        (by rw [limbsVal_largePowerOf5]; exact lt_of_le_of_lt h1 (hexp ▸ hs)) (lt_of_le_of_lt (le_trans h2 h1) (hexp ▸ hs))
      rw [limbsVal_largePowerOf5] at m2
      dsimp only
      rw [m1]
      simp only [Bool.not_true, Bool.false_eq_true, if_false]
      obtain ⟨v', e, q1, n', q2, q3, q4⟩ := ih (exp - 135) _ _ (by omega) m2 (by rw [← hexp]; exact hs)
      exact ⟨v', e, q1, n', q2, by rw [q3, hexp], q4⟩
    · rw [if_neg h]
      exact ⟨v, exp, rfl, n, hv, rfl, by omega⟩

theorem pow5Small_spec : ∀ (fuel exp : Nat) (v : List Nat) (n : Nat), exp ≤ fuel → Big v n → n * 5 ^ exp < (2 ^ 64) ^ 62 →
    ∃ v' e, pow5Small fuel v exp = (v', e, true) ∧ ∃ n', Big v' n' ∧ n' * 5 ^ e = n * 5 ^ exp ∧ e < 27 := by
  intro fuel
  induction fuel with
  | zero => intro exp v n he hv _; exact ⟨v, exp, rfl, n, hv, rfl, by omega⟩
  | succ fuel ih =>
    intro exp v n he hv hs
    rw [pow5Small]
    by_cases h : exp ≥ 27
    · rw [if_pos h]
      have e27 : 7450580596923828125 = 5 ^ 27 := by decide
      have hexp : n * 5 ^ exp = (n * 7450580596923828125) * 5 ^ (exp - 27) := by
        rw [e27, Nat.mul_assoc, ← Nat.pow_add]; congr 2; omega
      have hp : 0 < 5 ^ (exp - 27) := Nat.pow_pos (by omega)
      have h1 : n * 7450580596923828125 ≤ (n * 7450580596923828125) * 5 ^ (exp - 27) := Nat.le_mul_of_pos_right _ hp
      obtain ⟨m1, m2⟩ := hv.mul (y := 7450580596923828125) (by omega) (by omega) (lt_of_le_of_lt h1 (hexp ▸ hs))
      dsimp only
      rw [m1]
      simp only [Bool.not_true, Bool.false_eq_true, if_false]
      obtain ⟨v', e, q1, n', q2, q3, q4⟩ := ih (exp - 27) _ _ (by omega) m2 (by rw [← hexp]; exact hs)
      exact ⟨v', e, q1, n', q2, by rw [q3, hexp], q4⟩
    · rw [if_neg h]
      exact ⟨v, exp, rfl, n, hv, rfl, by omega⟩

theorem smallPowerOf5_get (e : Nat) (he : e < 27) : smallPowerOf5.getD e 0 = 5 ^ e := by
  revert e
  decide +kernel

theorem Big.pow5 {v : List Nat} {n e : Nat} (h : Big v n) (hs : n * 5 ^ e < (2 ^ 64) ^ 62) : (pow5 v e).2 = true ∧ Big (pow5 v e).1 (n * 5 ^ e) := by
  obtain ⟨v1, e1, q1, n1, b1, r1, l1⟩ := pow5Large_spec e e v n (le_refl _) h hs
  obtain ⟨v2, e2, q2, n2, b2, r2, l2⟩ := pow5Small_spec e1 e1 v1 n1 (le_refl _) b1 (by rw [r1]; exact hs)
  unfold FF.pow5
  rw [q1]
  dsimp only
  simp only [Bool.not_true, Bool.false_eq_true, if_false]
  rw [q2]
  dsimp only
  simp only [Bool.not_true, Bool.false_eq_true, if_false]
  by_cases h0 : e2 ≠ 0
  · rw [if_pos h0, smallPowerOf5_get e2 l2, ← r1, ← r2]
    refine b2.mul ?_ (Nat.pow_pos (by omega)) (by rw [r2, r1]; exact hs)
    exact lt_of_le_of_lt (Nat.pow_le_pow_right (by omega) (show e2 ≤ 27 by omega)) (by decide)
  · rw [if_neg h0]
    have : e2 = 0 := by omega
    rw [this, Nat.pow_zero, Nat.mul_one] at r2
    rw [← r1, ← r2]
    exact ⟨rfl, b2⟩

theorem shift_word (x n : Nat) (hn2 : n < 64) : (x <<< n) % 2 ^ 64 = (x % 2 ^ (64 - n)) <<< n ∧
    (x % 2 ^ (64 - n)) * 2 ^ n + 2 ^ 64 * (x / 2 ^ (64 - n)) = x * 2 ^ n := by
  have e : 2 ^ 64 = 2 ^ (64 - n) * 2 ^ n := by rw [← Nat.pow_add]; congr 1; omega
  constructor
  · rw [Nat.shiftLeft_eq, Nat.shiftLeft_eq, e, Nat.mul_mod_mul_right]
  · have := Nat.div_add_mod x (2 ^ (64 - n))
    calc (x % 2 ^ (64 - n)) * 2 ^ n + 2 ^ 64 * (x / 2 ^ (64 - n)) = (2 ^ (64 - n) * (x / 2 ^ (64 - n)) + x % 2 ^ (64 - n)) * 2 ^ n := by rw [e]; ring
      _ = _ := by rw [this]

theorem shr_lt {x n : Nat} (hn2 : n < 64) (hx : x < 2 ^ 64) : x / 2 ^ (64 - n) < 2 ^ n := by
  rw [Nat.div_lt_iff_lt_mul (Nat.pow_pos (by omega)), ← Nat.pow_add, show n + (64 - n) = 64 by omega]
  exact hx

theorem shlBitsLoop_spec (n : Nat) (hn : 0 < n) (hn2 : n < 64) : ∀ (v : List Nat) (prev : Nat), Limbs v → prev < 2 ^ 64 →
    (shlBitsLoop n v prev).1.length = v.length ∧ Limbs (shlBitsLoop n v prev).1 ∧ (shlBitsLoop n v prev).2 < 2 ^ 64 ∧
    limbsVal (shlBitsLoop n v prev).1 + (2 ^ 64) ^ v.length * ((shlBitsLoop n v prev).2 / 2 ^ (64 - n)) = limbsVal v * 2 ^ n + prev / 2 ^ (64 - n) := by
  intro v
  induction v with
  | nil => intro prev _ hp; exact ⟨rfl, Limbs.nil, hp, by simp [shlBitsLoop, limbsVal]⟩
  | cons x v ih =>
    intro prev hv hp
    obtain ⟨h1, h2, h3, h4⟩ := ih x hv.tail hv.head
    obtain ⟨w1, w2⟩ := shift_word x n hn2
    have hlt := shr_lt hn2 hp
    rw [shlBitsLoop]
    dsimp only
    rw [w1, Nat.shiftRight_eq_div_pow, ← Nat.shiftLeft_add_eq_or_of_lt hlt, Nat.shiftLeft_eq]
    refine ⟨by rw [List.length_cons, h1, List.length_cons], Limbs.cons ?_ h2, h3, ?_⟩
    · have hm : x % 2 ^ (64 - n) < 2 ^ (64 - n) := Nat.mod_lt _ (Nat.pow_pos (by omega))
      have e : 2 ^ 64 = 2 ^ (64 - n) * 2 ^ n := by rw [← Nat.pow_add]; congr 1; omega
      have : (x % 2 ^ (64 - n) + 1) * 2 ^ n ≤ 2 ^ (64 - n) * 2 ^ n := Nat.mul_le_mul_right _ hm
      rw [← e, Nat.add_mul, Nat.one_mul] at this
      omega
    · rw [limbsVal, limbsVal, List.length_cons, Nat.pow_succ]
      calc x % 2 ^ (64 - n) * 2 ^ n + prev / 2 ^ (64 - n) + 2 ^ 64 * limbsVal (shlBitsLoop n v x).1 +
            (2 ^ 64) ^ v.length * 2 ^ 64 * ((shlBitsLoop n v x).2 / 2 ^ (64 - n))
          = x % 2 ^ (64 - n) * 2 ^ n + prev / 2 ^ (64 - n) + 2 ^ 64 * (limbsVal (shlBitsLoop n v x).1 +
            (2 ^ 64) ^ v.length * ((shlBitsLoop n v x).2 / 2 ^ (64 - n))) := by ring
        _ = (x % 2 ^ (64 - n) * 2 ^ n + 2 ^ 64 * (x / 2 ^ (64 - n))) + prev / 2 ^ (64 - n) + 2 ^ 64 * (limbsVal v * 2 ^ n) := by rw [h4]; ring
        _ = _ := by rw [w2]; ring

theorem Big.shlBits {v : List Nat} {n k : Nat} (h : Big v n) (hk : 0 < k) (hk2 : k < 64) (hs : n * 2 ^ k < (2 ^ 64) ^ 62) :
    (shlBits v k).2 = true ∧ Big (shlBits v k).1 (n * 2 ^ k) := by
  obtain ⟨h1, h2, h3, h4⟩ := shlBitsLoop_spec k hk hk2 v 0 h.limbs (by omega)
  rw [h.val, Nat.zero_div, Nat.add_zero] at h4
  have hlt := shr_lt hk2 h3
  have hlt2 : 2 ^ k ≤ 2 ^ 64 := Nat.pow_le_pow_right (by omega) (by omega)
  unfold FF.shlBits
  dsimp only
  rw [Nat.shiftRight_eq_div_pow]
  by_cases hc : (shlBitsLoop k v 0).2 / 2 ^ (64 - k) ≠ 0
  · rw [if_pos hc]
    obtain ⟨p1, p2, p3, p4⟩ := tryPush_spec h2 (by omega) (by rw [h1, h4]; exact hs) hc
    rw [p1]
    exact ⟨rfl, p2, p4, by rw [p3, h1, h4]⟩
  · rw [if_neg hc]
    have hc0 : (shlBitsLoop k v 0).2 / 2 ^ (64 - k) = 0 := by omega
    rw [hc0, Nat.mul_zero, Nat.add_zero] at h4
    refine ⟨rfl, h2, ?_, h4⟩
    cases v with
    | nil => exact Norm.nil
    | cons x v =>
      apply norm_of_ge h2
      have := limbsVal_ge h.norm (by simp)
      rw [h1, h4, ← h.val]
      exact le_trans this (Nat.le_mul_of_pos_right _ (Nat.pow_pos (by omega)))

theorem Big.shlLimbs {v : List Nat} {n k : Nat} (h : Big v n) (hn : 0 < n) (hs : n * (2 ^ 64) ^ k < (2 ^ 64) ^ 62) :
    (shlLimbs v k).2 = true ∧ Big (shlLimbs v k).1 (n * (2 ^ 64) ^ k) := by
  have hne : v ≠ [] := by rintro rfl; have := h.val; simp [limbsVal] at this; omega
  have hL : Limbs (List.replicate k 0 ++ v) := (limbs_replicate k).append h.limbs
  have hV : limbsVal (List.replicate k 0 ++ v) = n * (2 ^ 64) ^ k := by
    rw [limbsVal_append, limbsVal_replicate, List.length_replicate, h.val]; ring
  have hN : Norm (List.replicate k 0 ++ v) := by
    have := h.norm
    unfold Norm at *
    rw [List.getLast?_append, List.getLast?_eq_some_getLast hne] at *
    exact this
  have hlen := length_of_lt hN (n := 62) (by rw [hV]; exact hs)
  rw [List.length_append, List.length_replicate] at hlen
  unfold FF.shlLimbs
  rw [if_neg (by unfold bigintLimbs; omega), if_pos hne]
  exact ⟨rfl, hL, hN, hV⟩

theorem Big.shl {v : List Nat} {n k : Nat} (h : Big v n) (hn : 0 < n) (hs : n * 2 ^ k < (2 ^ 64) ^ 62) : (shl v k).2 = true ∧ Big (shl v k).1 (n * 2 ^ k) := by
  have hexp : n * 2 ^ k = n * 2 ^ (k % 64) * (2 ^ 64) ^ (k / 64) := by
    rw [← Nat.pow_mul, Nat.mul_assoc, ← Nat.pow_add]; congr 2; omega
  have h1 : ∃ v', (if k % 64 ≠ 0 then FF.shlBits v (k % 64) else (v, true)) = (v', true) ∧ Big v' (n * 2 ^ (k % 64)) := by
    by_cases h0 : k % 64 ≠ 0
    · rw [if_pos h0]
      have hle : n * 2 ^ (k % 64) ≤ n * 2 ^ k := Nat.mul_le_mul_left _ (Nat.pow_le_pow_right (by omega) (Nat.mod_le _ _))
      obtain ⟨a, b⟩ := h.shlBits (k := k % 64) (by omega) (Nat.mod_lt _ (by omega)) (by omega)
      exact ⟨_, Prod.ext rfl a, b⟩
    · rw [if_neg h0]
      have : k % 64 = 0 := by omega
      exact ⟨v, rfl, by rw [this, Nat.pow_zero, Nat.mul_one]; exact h⟩
  obtain ⟨v', e, hv'⟩ := h1
  unfold FF.shl
  dsimp only
  rw [e]
  dsimp only
  simp only [Bool.not_true, Bool.false_eq_true, if_false]
  by_cases h0 : k / 64 ≠ 0
  · rw [if_pos h0, hexp]
    exact hv'.shlLimbs (Nat.mul_pos hn (Nat.pow_pos (by omega))) (by rw [← hexp]; exact hs)
  · rw [if_neg h0]
    have : k / 64 = 0 := by omega
    rw [this, Nat.pow_zero, Nat.mul_one] at hexp
    rw [hexp]
    exact ⟨rfl, hv'⟩

theorem Big.pow10 {v : List Nat} {n e : Nat} (h : Big v n) (hn : 0 < n) (hs : n * 10 ^ e < (2 ^ 64) ^ 62) :
    (pow10 v e).2 = true ∧ Big (pow10 v e).1 (n * 10 ^ e) := by
  have hexp : n * 10 ^ e = n * 5 ^ e * 2 ^ e := by rw [show (10 : Nat) = 5 * 2 by rfl, Nat.mul_pow]; ring
  have hle : n * 5 ^ e ≤ n * 5 ^ e * 2 ^ e := Nat.le_mul_of_pos_right _ (Nat.pow_pos (by omega))
  obtain ⟨a, b⟩ := h.pow5 (e := e) (by omega)
  unfold FF.pow10
  dsimp only
  rw [a]
  simp only [Bool.not_true, Bool.false_eq_true, if_false]
  rw [hexp]
  exact b.shl (Nat.mul_pos hn (Nat.pow_pos (by omega))) (by rw [← hexp]; exact hs)

theorem limbsVal_take_succ (v : List Nat) (k : Nat) (hk : k < v.length) : limbsVal (v.take (k + 1)) = limbsVal (v.take k) + (2 ^ 64) ^ k * v.getD k 0 := by
  rw [List.take_add_one, limbsVal_append, List.length_take, Nat.min_eq_left (by omega), List.getElem?_eq_getElem hk, List.getD_eq_getElem?_getD,
    List.getElem?_eq_getElem hk]
  simp [limbsVal]

/-- The sign of a comparison. -/
def ordOf (a b : Nat) : Int := if a > b then 1 else if a < b then -1 else 0

theorem compareLoop_spec {x y : List Nat} (hx : Limbs x) (hy : Limbs y) (hl : x.length = y.length) : ∀ k, k ≤ x.length →
    compareLoop x y k = ordOf (limbsVal (x.take k)) (limbsVal (y.take k)) := by
  intro k
  induction k with
  | zero => intro _; simp [compareLoop, ordOf, limbsVal]
  | succ k ih =>
    intro hk
    have ihk := ih (by omega)
    have h1 := limbsVal_lt (hx.take k)
    have h2 := limbsVal_lt (hy.take k)
    rw [List.length_take, Nat.min_eq_left (by omega)] at h1 h2
    rw [compareLoop, limbsVal_take_succ x k (by omega), limbsVal_take_succ y k (by omega)]
    obtain ⟨P, hP⟩ : ∃ P, (2 ^ 64) ^ k = P := ⟨_, rfl⟩
    rw [hP] at h1 h2 ⊢
    by_cases hgt : x.getD k 0 > y.getD k 0
    · rw [if_pos hgt]
      have : P * (y.getD k 0 + 1) ≤ P * x.getD k 0 := Nat.mul_le_mul_left _ hgt
      rw [Nat.mul_add, Nat.mul_one] at this
      unfold ordOf
      rw [if_pos (by omega)]
    · rw [if_neg hgt]
      by_cases hlt : x.getD k 0 < y.getD k 0
      · rw [if_pos hlt]
        have : P * (x.getD k 0 + 1) ≤ P * y.getD k 0 := Nat.mul_le_mul_left _ hlt
        rw [Nat.mul_add, Nat.mul_one] at this
        unfold ordOf
        rw [if_neg (by omega), if_pos (by omega)]
      · rw [if_neg hlt, ihk, show x.getD k 0 = y.getD k 0 by omega]
        unfold ordOf
        simp only [Nat.add_lt_add_iff_right, gt_iff_lt]

theorem compareBig_spec {x y : List Nat} {a b : Nat} (hx : Big x a) (hy : Big y b) : compareBig x y = ordOf a b := by
  have lt_of : ∀ {x y : List Nat} {a b : Nat}, Big x a → Big y b → x.length < y.length → a < b := by
    intro x y a b hx hy h
    have hne : y ≠ [] := by rintro rfl; simp at h
    have h1 := limbsVal_lt hx.limbs
    have h2 := limbsVal_ge hy.norm hne
    rw [hx.val] at h1
    rw [hy.val] at h2
    have : (2 ^ 64) ^ x.length ≤ (2 ^ 64) ^ (y.length - 1) := Nat.pow_le_pow_right (by omega) (by omega)
    omega
  unfold compareBig
  by_cases h1 : x.length > y.length
  · rw [if_pos h1]
    have := lt_of hy hx h1
    unfold ordOf
    rw [if_pos this]
  · rw [if_neg h1]
    by_cases h2 : x.length < y.length
    · rw [if_pos h2]
      have := lt_of hx hy h2
      unfold ordOf
      rw [if_neg (by omega), if_pos this]
    · rw [if_neg h2, compareLoop_spec hx.limbs hy.limbs (by omega) _ (le_refl _), List.take_length, show x.length = y.length by omega, List.take_length, hx.val, hy.val]

theorem bigintOf_spec (n : Nat) (h : n < 2 ^ 64) : Big (bigintOf n) n := by
  obtain ⟨h1, h2, h3, _⟩ := normalize_spec 1 [n] (by simp) (Limbs.cons h Limbs.nil)
  exact ⟨h1, h2, by rw [bigintOf, h3]; simp [limbsVal]⟩

theorem nonzero_spec {v : List Nat} : ∀ (k i : Nat), v.length = i + k → (nonzero v i = true ↔ limbsVal (v.take k) ≠ 0) := by
  intro k
  induction k with
  | zero =>
    intro i hi
    rw [nonzero, dif_neg (by omega)]
    simp [limbsVal]
  | succ k ih =>
    intro i hi
    have e := ih (i + 1) (by omega)
    rw [nonzero, dif_pos (by omega), limbsVal_take_succ v k (by omega)]
    have hr : rindex v i = v.getD k 0 := by unfold rindex; congr 1; omega
    rw [hr]
    have hp : 0 < (2 ^ 64) ^ k := Nat.pow_pos (by omega)
    by_cases h0 : v.getD k 0 ≠ 0
    · rw [if_pos h0]
      have := Nat.mul_pos hp (Nat.pos_of_ne_zero h0)
      simp only [true_iff]
      omega
    · rw [if_neg h0, e]
      have : v.getD k 0 = 0 := by omega
      rw [this, Nat.mul_zero, Nat.add_zero]

theorem hi64Two_spec (r0 r1 : Nat) (h0 : 0 < r0) (hr0 : r0 < 2 ^ 64) (hr1 : r1 < 2 ^ 64) :
    2 ^ 63 ≤ (hi64Two r0 r1).1 ∧ (hi64Two r0 r1).1 < 2 ^ 64 ∧
    (hi64Two r0 r1).1 * 2 ^ 64 ≤ (r0 * 2 ^ 64 + r1) * 2 ^ leadingZeroes r0 ∧
    (r0 * 2 ^ 64 + r1) * 2 ^ leadingZeroes r0 + 2 ^ leadingZeroes r0 ≤ ((hi64Two r0 r1).1 + 1) * 2 ^ 64 ∧
    ((hi64Two r0 r1).2 = false ↔ (hi64Two r0 r1).1 * 2 ^ 64 = (r0 * 2 ^ 64 + r1) * 2 ^ leadingZeroes r0) := by
  obtain ⟨z1, z2, z3⟩ := leadingZeroes_spec r0 h0 hr0
  unfold hi64Two
  dsimp only
  obtain ⟨lz, hlz⟩ : ∃ lz, leadingZeroes r0 = lz := ⟨_, rfl⟩
  rw [hlz] at z1 z2 z3 ⊢
  by_cases hz : lz = 0
  · subst hz
    rw [if_pos rfl]
    dsimp only
    simp only [decide_eq_false_iff_not, not_not]
    omega
  · rw [if_neg hz]
    dsimp only
    obtain ⟨a1, a2⟩ := shift_word r0 lz (by omega)
    obtain ⟨b1, b2⟩ := shift_word r1 lz (by omega)
    have hlt := shr_lt (n := lz) (by omega) hr1
    have ha : r0 % 2 ^ (64 - lz) = r0 := by
      apply Nat.mod_eq_of_lt
      by_contra hcon
      have : 2 ^ (64 - lz) * 2 ^ lz ≤ r0 * 2 ^ lz := Nat.mul_le_mul_right _ (by omega)
      rw [← Nat.pow_add, show 64 - lz + lz = 64 by omega] at this
      omega
    rw [a1, ha, b1, Nat.shiftRight_eq_div_pow, ← Nat.shiftLeft_add_eq_or_of_lt hlt, Nat.shiftLeft_eq, Nat.shiftLeft_eq]
    have hm : (r1 % 2 ^ (64 - lz) + 1) * 2 ^ lz ≤ 2 ^ (64 - lz) * 2 ^ lz := Nat.mul_le_mul_right _ (Nat.mod_lt _ (Nat.pow_pos (by omega)))
    rw [← Nat.pow_add, show 64 - lz + lz = 64 by omega, Nat.add_mul, Nat.one_mul] at hm
    simp only [decide_eq_false_iff_not, not_not]
    rw [show (r0 * 2 ^ 64 + r1) * 2 ^ lz = r0 * 2 ^ lz * 2 ^ 64 + r1 * 2 ^ lz by ring, ← b2]
    have hlt2 : r0 * 2 ^ lz + 2 ^ lz ≤ 2 ^ 64 := by
      have e : 2 ^ 64 = 2 ^ (64 - lz) * 2 ^ lz := by rw [← Nat.pow_add]; congr 1; omega
      have : (r0 + 1) * 2 ^ lz ≤ 2 ^ (64 - lz) * 2 ^ lz := by
        apply Nat.mul_le_mul_right
        rw [e] at z3
        exact Nat.lt_of_mul_lt_mul_right z3
      rw [← e, Nat.add_mul, Nat.one_mul] at this
      exact this
    obtain ⟨A, hA⟩ : ∃ A, r0 * 2 ^ lz = A := ⟨_, rfl⟩
    obtain ⟨Bm, hB⟩ : ∃ A, r1 % 2 ^ (64 - lz) * 2 ^ lz = A := ⟨_, rfl⟩
    obtain ⟨C, hC⟩ : ∃ A, r1 / 2 ^ (64 - lz) = A := ⟨_, rfl⟩
    obtain ⟨L, hL⟩ : ∃ A, 2 ^ lz = A := ⟨_, rfl⟩
    rw [hA] at z2 z3 hlt2 ⊢
    rw [hB] at hm ⊢
    rw [hC] at hlt ⊢
    rw [hL] at hlt hm hlt2 ⊢
    clear hA hB hC hL a1 a2 b1 b2 ha
    refine ⟨by omega, by omega, by omega, by omega, by omega⟩

theorem rindex_zero_pos {v : List Nat} {n : Nat} (h : Big v n) (hn : 0 < n) : v ≠ [] ∧ 0 < rindex v 0 ∧ rindex v 0 < 2 ^ 64 := by
  have hne : v ≠ [] := by rintro rfl; have := h.val; simp [limbsVal] at this; omega
  have hl : 0 < v.length := List.length_pos_iff.mpr hne
  have e := getLast?_getD v hl
  refine ⟨hne, ?_, h.limbs _ (List.mem_of_getLast? e)⟩
  have := h.norm
  unfold Norm at this
  rw [e] at this
  by_contra hcon
  exact this (by rw [show rindex v 0 = 0 by omega])

/-- The top 64 bits of a number, and whether bits were dropped. -/
theorem Big.hi64 {v : List Nat} {n : Nat} (h : Big v n) (hn : 0 < n) : 2 ^ 63 ≤ (hi64 v).1 ∧ (hi64 v).1 < 2 ^ 64 ∧
    (hi64 v).1 * (2 ^ 64) ^ v.length ≤ n * 2 ^ ctlz v * 2 ^ 64 ∧ n * 2 ^ ctlz v * 2 ^ 64 < ((hi64 v).1 + 1) * (2 ^ 64) ^ v.length ∧
    ((hi64 v).2 = false ↔ (hi64 v).1 * (2 ^ 64) ^ v.length = n * 2 ^ ctlz v * 2 ^ 64) := by
  obtain ⟨hne, hp, hw⟩ := rindex_zero_pos h hn
  have hl : 0 < v.length := List.length_pos_iff.mpr hne
  obtain ⟨z1, z2, z3⟩ := leadingZeroes_spec _ hp hw
  unfold FF.hi64 ctlz
  rw [if_neg hne, if_neg (by omega)]
  by_cases h1 : v.length = 1
  · rw [if_pos h1]
    obtain ⟨x, rfl⟩ := List.length_eq_one_iff.mp h1
    have hx : n = x := by rw [← h.val]; simp [limbsVal]
    have hr : rindex [x] 0 = x := rfl
    rw [hr] at z1 z2 z3 ⊢
    unfold hi64One
    dsimp only
    rw [Nat.shiftLeft_eq, Nat.mod_eq_of_lt z3, hx, List.length_singleton, Nat.pow_one]
    obtain ⟨L, hL⟩ : ∃ L, x * 2 ^ leadingZeroes x = L := ⟨_, rfl⟩
    rw [hL] at z2 z3 ⊢
    refine ⟨z2, z3, le_refl _, by omega, by simp⟩
  · rw [if_neg h1]
    obtain ⟨k, hk⟩ : ∃ k, v.length = k + 2 := ⟨v.length - 2, by omega⟩
    have e0 : rindex v 0 = v.getD (k + 1) 0 := by unfold rindex; congr 1; omega
    have e1 : rindex v 1 = v.getD k 0 := by unfold rindex; congr 1; omega
    have hr1 : rindex v 1 < 2 ^ 64 := by
      rw [e1, List.getD_eq_getElem?_getD, List.getElem?_eq_getElem (by omega)]
      exact h.limbs _ (List.getElem_mem _)
    obtain ⟨s1, s2, s3, s4, s5⟩ := hi64Two_spec (rindex v 0) (rindex v 1) hp hw hr1
    have hlo := limbsVal_lt (h.limbs.take k)
    rw [List.length_take, Nat.min_eq_left (by omega)] at hlo
    have hnz := nonzero_spec (v := v) k 2 (by omega)
    have hval : n = limbsVal (v.take k) + (2 ^ 64) ^ k * (rindex v 0 * 2 ^ 64 + rindex v 1) := by
      rw [← h.val]
      conv => lhs; rw [← List.take_length (l := v), hk]
      rw [limbsVal_take_succ v (k + 1) (by omega), limbsVal_take_succ v k (by omega), e0, e1]
      ring
    dsimp only
    obtain ⟨lz, hlz⟩ : ∃ lz, leadingZeroes (rindex v 0) = lz := ⟨_, rfl⟩
    obtain ⟨R, hR⟩ : ∃ R, rindex v 0 * 2 ^ 64 + rindex v 1 = R := ⟨_, rfl⟩
    obtain ⟨p, hP⟩ : ∃ p, hi64Two (rindex v 0) (rindex v 1) = p := ⟨_, rfl⟩
    obtain ⟨lo, hlo2⟩ : ∃ lo, limbsVal (v.take k) = lo := ⟨_, rfl⟩
    obtain ⟨W, hW⟩ : ∃ W, (2 ^ 64) ^ k = W := ⟨_, rfl⟩
    obtain ⟨L, hL⟩ : ∃ L, 2 ^ lz = L := ⟨_, rfl⟩
    have hLp : 0 < L := by rw [← hL]; exact Nat.pow_pos (by omega)
    rw [hlz, hR, hP] at s3 s4 s5
    rw [hP] at s1 s2
    rw [hR, hlo2, hW] at hval
    rw [hlo2, hW] at hlo
    rw [hlo2] at hnz
    rw [hP, hlz, hk, Nat.pow_add, hW, hval]
    rw [hL] at s3 s4 s5 ⊢
    clear hP hR hlz hL hW hval e0 e1 z1 z2 z3
    have hWp : 0 < W := by omega
    have t3 := Nat.mul_le_mul_left (W * 2 ^ 64) s3
    have t4 := Nat.mul_le_mul_left (W * 2 ^ 64) s4
    have t5 : (lo + 1) * (L * 2 ^ 64) ≤ W * (L * 2 ^ 64) := Nat.mul_le_mul_right _ hlo
    refine ⟨s1, s2, ?_, ?_, ?_⟩
    · calc p.1 * (W * (2 ^ 64) ^ 2) = W * 2 ^ 64 * (p.1 * 2 ^ 64) := by ring
        _ ≤ W * 2 ^ 64 * (R * L) := t3
        _ ≤ lo * L * 2 ^ 64 + W * 2 ^ 64 * (R * L) := Nat.le_add_left _ _
        _ = _ := by ring
    · calc (lo + W * R) * L * 2 ^ 64 = lo * (L * 2 ^ 64) + W * 2 ^ 64 * (R * L) := by ring
        _ < (lo + 1) * (L * 2 ^ 64) + W * 2 ^ 64 * (R * L) := by
          have : 0 < L * 2 ^ 64 := Nat.mul_pos hLp (by omega)
          rw [Nat.add_mul]; omega
        _ ≤ W * (L * 2 ^ 64) + W * 2 ^ 64 * (R * L) := Nat.add_le_add_right t5 _
        _ = W * 2 ^ 64 * (R * L + L) := by ring
        _ ≤ W * 2 ^ 64 * ((p.1 + 1) * 2 ^ 64) := t4
        _ = _ := by ring
    · have key : (p.2 || nonzero v 2) = false ↔ (p.1 * 2 ^ 64 = R * L ∧ lo = 0) := by
        rw [Bool.or_eq_false_iff, s5]
        constructor
        · rintro ⟨a, b⟩
          refine ⟨a, ?_⟩
          by_contra hcon
          rw [hnz.mpr hcon] at b
          cases b
        · rintro ⟨a, b⟩
          refine ⟨a, ?_⟩
          by_contra hcon
          exact hnz.mp (by simpa using hcon) b
      rw [key]
      constructor
      · rintro ⟨a, rfl⟩
        calc p.1 * (W * (2 ^ 64) ^ 2) = W * 2 ^ 64 * (p.1 * 2 ^ 64) := by ring
          _ = _ := by rw [a]; ring
      · intro e
        have e2 : W * 2 ^ 64 * (p.1 * 2 ^ 64) = lo * (L * 2 ^ 64) + W * 2 ^ 64 * (R * L) := by
          calc W * 2 ^ 64 * (p.1 * 2 ^ 64) = p.1 * (W * (2 ^ 64) ^ 2) := by ring
            _ = _ := by rw [e]; ring
        have e3 : lo * (L * 2 ^ 64) = 0 := by omega
        rcases Nat.mul_eq_zero.mp e3 with h0 | h0
        · refine ⟨?_, h0⟩
          rw [e3, Nat.zero_add] at e2
          exact Nat.eq_of_mul_eq_mul_left (Nat.mul_pos hWp (by omega)) e2
        · have : 0 < L * 2 ^ 64 := Nat.mul_pos hLp (by omega)
          omega

/-- The number of bits. -/
theorem Big.bitLength {v : List Nat} {n : Nat} (h : Big v n) (hn : 0 < n) : ∃ b : Nat, bitLength v = b ∧ 64 * v.length = b + ctlz v ∧ 0 < b ∧
    2 ^ (b - 1) ≤ n ∧ n < 2 ^ b := by
  obtain ⟨hne, hp, hw⟩ := rindex_zero_pos h hn
  have hl : 0 < v.length := List.length_pos_iff.mpr hne
  obtain ⟨z1, z2, z3⟩ := leadingZeroes_spec _ hp hw
  have hc : ctlz v ≤ 63 := by unfold ctlz; rw [if_neg hne]; exact z1
  obtain ⟨a1, a2, a3, a4, a5⟩ := h.hi64 hn
  obtain ⟨b, hb⟩ : ∃ b, 64 * v.length = b + ctlz v := ⟨64 * v.length - ctlz v, by omega⟩
  refine ⟨b, ?_, hb, by omega, ?_, ?_⟩
  · unfold FF.bitLength; omega
  · rw [← Nat.pow_mul, hb, Nat.pow_add] at a3
    have hcp : 0 < 2 ^ ctlz v := Nat.pow_pos (by omega)
    have h2 : 2 ^ 63 * (2 ^ b * 2 ^ ctlz v) ≤ n * 2 ^ ctlz v * 2 ^ 64 := le_trans (Nat.mul_le_mul_right _ a1) a3
    have e : 2 ^ b = 2 * 2 ^ (b - 1) := by rw [← Nat.pow_succ']; congr 1; omega
    have h3 : 2 ^ (b - 1) * (2 ^ ctlz v * 2 ^ 64) ≤ n * (2 ^ ctlz v * 2 ^ 64) := by
      calc 2 ^ (b - 1) * (2 ^ ctlz v * 2 ^ 64) = 2 ^ 63 * (2 * 2 ^ (b - 1) * 2 ^ ctlz v) := by ring
        _ = 2 ^ 63 * (2 ^ b * 2 ^ ctlz v) := by rw [e]
        _ ≤ _ := h2
        _ = _ := by ring
    exact Nat.le_of_mul_le_mul_right h3 (Nat.mul_pos hcp (by omega))
  · rw [← Nat.pow_mul, hb, Nat.pow_add] at a4
    have h2 : n * 2 ^ ctlz v * 2 ^ 64 < 2 ^ 64 * (2 ^ b * 2 ^ ctlz v) := lt_of_lt_of_le a4 (Nat.mul_le_mul_right _ a2)
    have h3 : n * (2 ^ ctlz v * 2 ^ 64) < 2 ^ b * (2 ^ ctlz v * 2 ^ 64) := by
      calc n * (2 ^ ctlz v * 2 ^ 64) = n * 2 ^ ctlz v * 2 ^ 64 := by ring
        _ < _ := h2
        _ = _ := by ring
    exact Nat.lt_of_mul_lt_mul_right h3

/-- The variant without a 128-bit type does the same. -/
theorem scalarMulGeneric_eq (x y c : Nat) (hx : x < 2 ^ 64) (hy : y < 2 ^ 64) (hc : c < 2 ^ 64) : scalarMulGeneric x y c = scalarMul x y c := by
  rw [(scalarMul_eq x y c hx hy hc).1]
  have hlt := (scalarMul_eq x y c hx hy hc).2
  unfold scalarMulGeneric
  rw [umul128Generic_eq x y hx hy]
  unfold fullMultiplication
  dsimp only
  obtain ⟨P, hP⟩ : ∃ P, x * y = P := ⟨_, rfl⟩
  rw [hP] at hlt ⊢
  have hm : P % 2 ^ 64 < 2 ^ 64 := Nat.mod_lt _ (by omega)
  obtain ⟨s1, s2⟩ := scalarAdd_spec (P % 2 ^ 64) c hm hc
  have ho : (if (scalarAdd (P % 2 ^ 64) c).2 = true then 1 else 0) = (scalarAdd (P % 2 ^ 64) c).2.toNat := by
    cases (scalarAdd (P % 2 ^ 64) c).2 <;> rfl
  rw [ho]
  have hb : (scalarAdd (P % 2 ^ 64) c).2.toNat ≤ 1 := Bool.toNat_le _
  obtain ⟨z, hz⟩ : ∃ z, (scalarAdd (P % 2 ^ 64) c).1 = z := ⟨_, rfl⟩
  obtain ⟨o, ho2⟩ : ∃ z, (scalarAdd (P % 2 ^ 64) c).2.toNat = z := ⟨_, rfl⟩
  rw [hz] at s1 s2 ⊢
  rw [ho2] at s2 hb ⊢
  ext
  · dsimp only; omega
  · dsimp only; omega

/-- The highest 64 bits, in terms of the bit length. -/
theorem Big.hi64_bits {v : List Nat} {n b : Nat} (h : Big v n) (hn : 0 < n) (hb : 64 * v.length = b + ctlz v) :
    (FF.hi64 v).1 * 2 ^ b ≤ n * 2 ^ 64 ∧ n * 2 ^ 64 < ((FF.hi64 v).1 + 1) * 2 ^ b ∧ ((FF.hi64 v).2 = false ↔ (FF.hi64 v).1 * 2 ^ b = n * 2 ^ 64) := by
  obtain ⟨_, _, h3, h4, h5⟩ := h.hi64 hn
  have e : (2 ^ 64) ^ v.length = 2 ^ b * 2 ^ ctlz v := by rw [← Nat.pow_mul, hb, Nat.pow_add]
  have hp : 0 < 2 ^ ctlz v := Nat.two_pow_pos _
  rw [e] at h3 h4 h5
  have e2 : n * 2 ^ ctlz v * 2 ^ 64 = n * 2 ^ 64 * 2 ^ ctlz v := by ring
  rw [e2, ← Nat.mul_assoc] at h3 h4 h5
  refine ⟨Nat.le_of_mul_le_mul_right h3 hp, Nat.lt_of_mul_lt_mul_right h4, ?_⟩
  rw [h5]
  exact Nat.mul_left_inj hp.ne'

end C4.FF
