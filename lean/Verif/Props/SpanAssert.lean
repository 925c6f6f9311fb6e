import Verif.SpanAssert
import Verif.Charconv.ReadLemmas
import Verif.Props.Span
/-
Properties C155 and C156: what the assertions of spans accept, and conversions between the classes of spans.
-/
namespace C4
open SpanImpl

/-! ### C155 -/

/-- Specification: the arguments are in range: a selection lies in the span, a new size is within the capacity, not more elements are
trimmed than there are. -/
def Spec.SpanCall.inRange (size cap : Int) : SpanCall → Prop
  | .item i => 0 ≤ i ∧ i < size
  | .subspan f n => 0 ≤ f ∧ 0 ≤ n ∧ f + n ≤ size
  | .subspanFrom f => 0 ≤ f ∧ f ≤ size
  | .range f l => 0 ≤ f ∧ f ≤ l ∧ l ≤ size
  | .rangeFrom f => 0 ≤ f ∧ f ≤ size
  | .first n => 0 ≤ n ∧ n ≤ size
  | .last n => 0 ≤ n ∧ n ≤ size
  | .resize sz => 0 ≤ sz ∧ sz ≤ cap
  | .rtrim n => 0 ≤ n ∧ n ≤ size
  | .ltrim n => 0 ≤ n ∧ n ≤ size

/-- Specification: all elements are trimmed (also: none, of an empty span). -/
def Spec.SpanCall.trimsAll (size : Int) : SpanCall → Prop
  | .rtrim n => n = size
  | .ltrim n => n = size
  | _ => False

/-- Specification: the calls out of range that are accepted: a negative number of elements to the right of enough others, a sum that
exceeds an unsigned type of 32 or 64 bits, a negative new size. -/
def Spec.SpanCall.mistaken (t : ITy) (size : Int) : SpanCall → Prop
  | .subspan f n => 0 ≤ f ∧ f < size ∧ ((n < 0 ∧ 0 ≤ f + n) ∨ (t.sgn = false ∧ 32 ≤ t.w.bits ∧ 2 ^ t.w.bits ≤ f + n))
  | .resize sz => sz < 0
  | _ => False

/-- Specification: the arguments are values of the index type. -/
def Spec.SpanCall.values (t : ITy) : SpanCall → Prop
  | .item i => t.min ≤ i ∧ i ≤ t.max
  | .subspan f n => (t.min ≤ f ∧ f ≤ t.max) ∧ (t.min ≤ n ∧ n ≤ t.max)
  | .subspanFrom f => t.min ≤ f ∧ f ≤ t.max
  | .range f l => (t.min ≤ f ∧ f ≤ t.max) ∧ (t.min ≤ l ∧ l ≤ t.max)
  | .rangeFrom f => t.min ≤ f ∧ f ≤ t.max
  | .first n => t.min ≤ n ∧ n ≤ t.max
  | .last n => t.min ≤ n ∧ n ≤ t.max
  | .resize n => t.min ≤ n ∧ n ≤ t.max
  | .rtrim n => t.min ≤ n ∧ n ≤ t.max
  | .ltrim n => t.min ≤ n ∧ n ≤ t.max

open Spec

theorem assertThat_ok {c : Prop} [Decidable c] : assertThat c = .ok () ↔ c := by
  unfold assertThat; split <;> simp_all

theorem assertThat_bind {c : Prop} [Decidable c] {f : Unit → Res Unit} : (assertThat c).bind f = .ok () ↔ c ∧ f () = .ok () := by
  unfold assertThat; split <;> simp_all [Res.bind]

/-- **C155 is false**: trimming all elements is in range (and leaves an empty span), but rejected. -/
theorem C155_refuted_trim (t : ITy) (size cap : Int) (h : 0 ≤ size) :
    SpanCall.inRange size cap (.rtrim size) ∧ (SpanCall.rtrim size).asserts t size cap = .abort ∧
    SpanCall.inRange size cap (.ltrim size) ∧ (SpanCall.ltrim size).asserts t size cap = .abort := by
  refine ⟨⟨h, Int.le_refl _⟩, ?_, ⟨h, Int.le_refl _⟩, ?_⟩ <;> simp [SpanCall.asserts, assertThat]

/-- **C155 is false** for signed index types: negative sizes are accepted. -/
theorem C155_refuted_negative : (SpanCall.subspan 3 (-2)).asserts ⟨.w32, true⟩ 10 10 = .ok () ∧
    (SpanCall.resize (-1)).asserts ⟨.w32, true⟩ 10 10 = .ok () := by decide +kernel

theorem arith_small {t : ITy} {f n : Int} (h : t.w.bits < 32 ∨ (t.min ≤ f + n ∧ f + n ≤ t.max)) (hf : t.min ≤ f ∧ f ≤ t.max)
    (hn : t.min ≤ n ∧ n ≤ t.max) : t.arith (f + n) = (f + n, false) := by
  obtain ⟨w, g⟩ := t
  refine arith_no_overflow ?_ ?_ <;>
  · cases w <;> cases g <;> simp [ITy.min, ITy.max, ITy.prom, W.bits] at * <;> omega

theorem arith_big_signed {t : ITy} {f n : Int} (hs : t.sgn = true) (h : 32 ≤ t.w.bits) (hf : t.max < f + n) :
    (t.arith (f + n)).2 = true := by
  obtain ⟨w, g⟩ := t
  subst hs
  cases w <;> simp [ITy.arith, ITy.max, ITy.prom, W.bits] at * <;> omega

theorem arith_big_unsigned {t : ITy} {f n : Int} (hs : t.sgn = false) (h : 32 ≤ t.w.bits) (hf : t.max < f + n)
    (hf1 : t.min ≤ f ∧ f ≤ t.max) (hn : t.min ≤ n ∧ n ≤ t.max) : t.arith (f + n) = (f + n - 2 ^ t.w.bits, false) := by
  obtain ⟨w, g⟩ := t
  subst hs
  cases w <;> simp [ITy.arith, ITy.max, ITy.min, ITy.prom, ITy.wrap, W.bits] at * <;> omega

theorem max_unsigned {t : ITy} (hs : t.sgn = false) : t.max = 2 ^ t.w.bits - 1 := by
  obtain ⟨w, g⟩ := t
  subst hs
  cases w <;> rfl

/-- **C155**, what holds: the assertions accept exactly the calls in range, except that trimming all elements is rejected, and
that negative sizes (for signed index types) and sums that wrap around (for unsigned ones of 32 and 64 bits) are accepted.
Missing: these three (false, see above and C87). -/
theorem C155_iff_partial (t : ITy) {size cap : Int} (hs : 0 ≤ size) (hs2 : size ≤ t.max) (hc : size ≤ cap) (c : SpanCall)
    (hv : SpanCall.values t c) :
    c.asserts t size cap = .ok () ↔
      (SpanCall.inRange size cap c ∧ ¬ SpanCall.trimsAll size c) ∨ SpanCall.mistaken t size c := by
  cases c with
  | subspan f n =>
    obtain ⟨hf, hn⟩ := hv
    simp only [SpanCall.asserts, SpanCall.inRange, SpanCall.trimsAll, SpanCall.mistaken, assertThat_bind, not_false_eq_true, and_true]
    by_cases hbig : 32 ≤ t.w.bits ∧ t.max < f + n
    · obtain ⟨hb, hg⟩ := hbig
      cases hsg : t.sgn with
      | true =>
        rw [if_pos (arith_big_signed hsg hb hg)]
        simp
        constructor
        · intros; omega
        · intros; omega
      | false =>
        rw [arith_big_unsigned hsg hb hg hf hn]
        have hm := max_unsigned hsg
        have hmin : t.min = 0 := by simp [ITy.min, hsg]
        simp only [Bool.false_eq_true, if_false, assertThat_ok]
        generalize (2 : Int) ^ t.w.bits = M at *
        simp only [hb, true_and]
        omega
    · have hmm : t.min ≤ 0 := by
        obtain ⟨w, g⟩ := t
        cases w <;> cases g <;> decide
      by_cases hneg : f < 0
      · constructor
        · rintro ⟨h1, -⟩; omega
        · intros; omega
      · rw [arith_small (by omega) hf hn]
        simp only [Bool.false_eq_true, if_false, assertThat_ok]
        have : ¬ (t.sgn = false ∧ 32 ≤ t.w.bits ∧ 2 ^ t.w.bits ≤ f + n) := by
          rintro ⟨h1, h2, h3⟩
          have hm := max_unsigned h1
          generalize (2 : Int) ^ t.w.bits = M at *
          omega
        simp only [this, or_false]
        omega
  | range f l =>
    simp only [SpanCall.asserts, SpanCall.inRange, SpanCall.trimsAll, SpanCall.mistaken, assertThat_bind, assertThat_ok, not_false_eq_true, and_true,
      or_false]
    omega
  | _ =>
    simp only [SpanCall.asserts, SpanCall.inRange, SpanCall.trimsAll, SpanCall.mistaken, assertThat_ok, not_false_eq_true, and_true,
      or_false]
    try omega

/-- Trimming some, an index type of 8 bits, and a sum that wraps around. -/
example : (SpanCall.rtrim 9).asserts ⟨.w64, false⟩ 10 10 = .ok () ∧ (SpanCall.subspan 4 6).asserts ⟨.w8, true⟩ 10 10 = .ok () ∧
    (SpanCall.subspan 4 7).asserts ⟨.w8, true⟩ 10 10 = .abort ∧
    (SpanCall.subspan 4 (2 ^ 32 - 1)).asserts ⟨.w32, false⟩ 10 10 = .ok () := by decide +kernel

/-! ### C156 -/

/-- Specification: the same call, on the converted span (an argument that is a span is converted too). -/
def Spec.SpanOp.conv {σ τ : Type} (f : σ → τ) : SpanOp σ → SpanOp τ
  | .subspan a b => .subspan a b
  | .subspanFrom a => .subspanFrom a
  | .range a b => .range a b
  | .rangeFrom a => .rangeFrom a
  | .first a => .first a
  | .last a => .last a
  | .compll ss => .compll (f ss)
  | .complr ss => .complr (f ss)
  | .resize n => .resize n
  | .rtrim n => .rtrim n
  | .ltrim n => .ltrim n
  | .clear => .clear

theorem conv_commutes {σ τ : Type} [SpanImpl σ] [SpanImpl τ] (f : σ → τ) (w : W) (hp : ∀ s, ptr (f s) = ptr s)
    (hz : ∀ s, size (f s) = size s) (hsel : ∀ s p n, f (select w s p n) = select w (f s) p n)
    (hset : ∀ s n, f (setSize s n) = setSize (f s) n) (hl : ∀ s n, f (SpanImpl.ltrim w s n) = SpanImpl.ltrim w (f s) n)
    (s : σ) (op : SpanOp σ) : f (op.run w s) = (SpanOp.conv f op).run w (f s) := by
  cases op <;>
    simp only [SpanOp.run, SpanOp.conv, Spn.subspan, Spn.subspanFrom, Spn.range, Spn.rangeFrom, Spn.first, Spn.last, Spn.compll,
      Spn.complr, Spn.resize, Spn.rtrim, Spn.clear, hp, hz, hsel, hset, hl] <;> (split <;> exact hsel ..)

theorem iSub_iDiff64 (w : W) (c : Nat) (p q : Int) : iSub w c (iDiff .w64 p q) = iSub w c (iDiff w p q) := by
  unfold iSub
  congr 3
  unfold iDiff
  have h1 : (2 ^ w.bits : Nat) ∣ 2 ^ W.w64.bits := by cases w <;> decide
  have h2 : 0 < 2 ^ w.bits := Nat.two_pow_pos _
  have h3 : 0 < 2 ^ W.w64.bits := Nat.two_pow_pos _
  generalize 2 ^ w.bits = M at *
  generalize 2 ^ W.w64.bits = N at *
  have h4 := Int.emod_nonneg (p - q) (b := (N : Int)) (by omega)
  have h5 := Int.emod_nonneg (p - q) (b := (M : Int)) (by omega)
  have h6 := Int.emod_emod_of_dvd (p - q) (Int.natCast_dvd_natCast.mpr h1)
  have h7 := Int.emod_emod (p - q) (M : Int)
  have : ((((p - q) % (N : Int)).toNat % M : Nat) : Int) = ((((p - q) % (M : Int)).toNat % M : Nat) : Int) := by
    rw [Int.natCast_emod, Int.natCast_emod, Int.toNat_of_nonneg h4, Int.toNat_of_nonneg h5, h6, h7]
  exact_mod_cast this

/-- **C156**: converting a span to a class with less information and then calling a function is the same as calling the function and
then converting, whatever the arguments. -/
theorem C156_commute (w : W) :
    (∀ (s : SpanRS) op, (op.run w s).toSpan = (SpanOp.conv SpanRS.toSpan op).run w s.toSpan) ∧
    (∀ (s : SpanRSL) op, (op.run w s).toSpan = (SpanOp.conv SpanRSL.toSpan op).run w s.toSpan) ∧
    (∀ (s : SpanRSL) op, (op.run w s).toRS = (SpanOp.conv SpanRSL.toRS op).run w s.toRS) := by
  refine ⟨fun s op => ?_, fun s op => ?_, fun s op => ?_⟩
  · exact conv_commutes SpanRS.toSpan w (fun _ => rfl) (fun _ => rfl) (fun _ _ _ => rfl) (fun _ _ => rfl) (fun _ _ => rfl) s op
  · exact conv_commutes SpanRSL.toSpan w (fun _ => rfl) (fun _ => rfl) (fun _ _ _ => rfl) (fun _ _ => rfl) (fun _ _ => rfl) s op
  · refine conv_commutes SpanRSL.toRS w (fun _ => rfl) (fun _ => rfl) (fun s p n => ?_) (fun _ _ => rfl) (fun _ _ => rfl) s op
    simp only [SpanRSL.toRS, SpanRS.ofCap, select]
    rw [iSub_iDiff64]

/-- **C156**: a converted span shows the same elements. -/
theorem C156_elements {α : Type} (m : Int → α) :
    (∀ s : SpanRS, Spn.elems m s.toSpan = Spn.elems m s) ∧
    (∀ s : SpanRSL, Spn.elems m s.toSpan = Spn.elems m s ∧ Spn.elems m s.toRS = Spn.elems m s) :=
  ⟨fun _ => rfl, fun _ => ⟨rfl, rfl⟩⟩

/-- **C156**: a span constructed (or assigned) from a pointer and sizes has that memory and no more: whatever calls in range follow, it
stays within it, and `original()` is the whole of it. -/
theorem C156_constructed (w : W) (p : Int) (sz cap : Nat) (hsz : sz ≤ cap) (hc : cap < 2 ^ w.bits) :
    (∀ s, SpanSteps w (SpanRSL.of p sz) s → s.original w = ⟨p, sz, sz, 0⟩ ∧ p ≤ s.ptr ∧ s.ptr + s.size ≤ p + sz) ∧
    (∀ s, SpanSteps w (SpanRSL.ofCap p sz cap) s → s.original w = ⟨p, cap, cap, 0⟩ ∧ p ≤ s.ptr ∧ s.ptr + s.size ≤ p + cap) ∧
    (∀ s, SpanSteps w (SpanRS.of p sz) s → p ≤ s.ptr ∧ s.ptr + s.size ≤ p + sz) ∧
    (∀ s, SpanSteps w (SpanRS.ofCap p sz cap) s → p ≤ s.ptr ∧ s.ptr + s.size ≤ p + cap) ∧
    (∀ s, SpanSteps w SpanRSL.null s → s = SpanRSL.null) ∧ (∀ s, SpanSteps w SpanRS.null s → s = SpanRS.null) ∧
    (∀ s, SpanSteps w Span.null s → s = Span.null) := by
  have hb : 0 < 2 ^ w.bits := Nat.two_pow_pos _
  refine ⟨fun s h => ?_, fun s h => ?_, fun s h => ?_, fun s h => ?_, fun s h => ?_, fun s h => ?_, fun s h => ?_⟩
  · obtain ⟨h1, -, h2, h3, h4⟩ := C61_original w p sz sz (Nat.le_refl _) (by omega) s h
    exact ⟨h1, h2, by omega⟩
  · obtain ⟨h1, -, h2, h3, h4⟩ := C61_original w p sz cap hsz hc s h
    exact ⟨h1, h2, by omega⟩
  · obtain ⟨h2, h3, h4⟩ := C62_spanrs w p sz sz (Nat.le_refl _) (by omega) s h
    exact ⟨h2, by omega⟩
  · obtain ⟨h2, h3, h4⟩ := C62_spanrs w p sz cap hsz hc s h
    exact ⟨h2, by omega⟩
  · obtain ⟨h1, -, h2, h3, h4⟩ := C61_original w 0 0 0 (Nat.le_refl _) hb s h
    obtain ⟨a, b, c, d⟩ := s
    simp only [SpanRSL.original, SpanRSL.mk.injEq, and_true] at h1
    simp only [SpanRSL.null, SpanRSL.mk.injEq] at *
    omega
  · obtain ⟨h2, h3, h4⟩ := C62_spanrs w 0 0 0 (Nat.le_refl _) hb s h
    obtain ⟨a, b, c⟩ := s
    simp only [SpanRS.null, SpanRS.mk.injEq] at *
    omega
  · obtain ⟨h2, h3, -⟩ := C62_span w 0 0 hb s h
    obtain ⟨a, b⟩ := s
    simp only [Span.null, Span.mk.injEq] at *
    omega

example : SpanSteps .w64 (SpanRSL.ofCap 1000 10 20) (⟨1003, 7, 17, 3⟩ : SpanRSL) :=
  SpanSteps.step (.subspanFrom 3) (.refl _) (by decide)

end C4
