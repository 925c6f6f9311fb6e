import Verif.Span
/-
Properties C61-C63, C87: spans.
-/
namespace C4
open SpanImpl

/-! ### Index arithmetic without wrap -/

theorem iAdd_eq {w : W} {a b : Nat} (h : a + b < 2 ^ w.bits) : iAdd w a b = a + b := Nat.mod_eq_of_lt h

theorem iSub_eq {w : W} {a b : Nat} (ha : a < 2 ^ w.bits) (h : b ≤ a) : iSub w a b = a - b := by
  unfold iSub
  rw [Nat.mod_eq_of_lt (by omega : b < 2 ^ w.bits), show a + (2 ^ w.bits - b) = a - b + 2 ^ w.bits by omega, Nat.add_mod_right,
    Nat.mod_eq_of_lt (by omega)]

theorem iDiff_eq {w : W} {p q : Int} {d : Nat} (hd : d < 2 ^ w.bits) (h : p = q + d) : iDiff w p q = d := by
  subst h
  unfold iDiff
  rw [show q + (d : Int) - q = d by omega, Int.emod_eq_of_lt (by omega) (by exact_mod_cast hd), Int.toNat_natCast]

theorem bits_le (w : W) : 2 ^ w.bits ≤ 2 ^ W.w64.bits := by cases w <;> decide

/-! ### Operations on any span class -/

/-- The resizing and subselecting members. -/
inductive SpanOp (σ : Type) where
  | subspan (first num : Nat)
  | subspanFrom (first : Nat)
  | range (first last : Nat)
  | rangeFrom (first : Nat)
  | first (num : Nat)
  | last (num : Nat)
  | compll (ss : σ)
  | complr (ss : σ)
  | resize (sz : Nat)
  | rtrim (n : Nat)
  | ltrim (n : Nat)
  | clear

variable {σ : Type} [SpanImpl σ]

/-- The call, on a span with indices of width `w`. -/
def SpanOp.run (w : W) (s : σ) : SpanOp σ → σ
  | .subspan f n => Spn.subspan w s f n
  | .subspanFrom f => Spn.subspanFrom w s f
  | .range f l => Spn.range w s f l
  | .rangeFrom f => Spn.rangeFrom w s f
  | .first n => Spn.first w s n
  | .last n => Spn.last w s n
  | .compll ss => Spn.compll w s ss
  | .complr ss => Spn.complr w s ss
  | .resize n => Spn.resize s n
  | .rtrim n => Spn.rtrim w s n
  | .ltrim n => SpanImpl.ltrim w s n
  | .clear => Spn.clear s

/-- Arguments in range: a selection lies in the span, a new size is within the capacity.  (`rtrim` and `ltrim` assert `n < size`;
`n = size` is allowed here too.) -/
def SpanOp.inRange (s : σ) : SpanOp σ → Prop
  | .subspan f n => f + n ≤ size s
  | .subspanFrom f => f ≤ size s
  | .range f l => f ≤ l ∧ l ≤ size s
  | .rangeFrom f => f ≤ size s
  | .first n => n ≤ size s
  | .last n => n ≤ size s
  | .compll _ => True
  | .complr _ => True
  | .resize n => n ≤ capacity s
  | .rtrim n => n ≤ size s
  | .ltrim n => n ≤ size s
  | .clear => True

instance (s : σ) (op : SpanOp σ) : Decidable (op.inRange s) := by
  cases op <;> (unfold SpanOp.inRange; infer_instance)

/-- `s'` is reached from `s` by any number of calls with arguments in range. -/
inductive SpanSteps (w : W) : σ → σ → Prop
  | refl (s : σ) : SpanSteps w s s
  | step {s t : σ} (op : SpanOp σ) : SpanSteps w s t → op.inRange t → SpanSteps w s (op.run w t)

/-- What every operation does to an implementation: it is the selection of a part, a change of size or a left trim. -/
theorem run_cases (w : W) (s : σ) (op : SpanOp σ) (hs : size s < 2 ^ w.bits) (hr : op.inRange s) :
    (∃ f n : Nat, f + n ≤ size s ∧ op.run w s = select w s (ptr s + f) n) ∨
    (∃ n, (n ≤ capacity s ∨ n ≤ size s) ∧ op.run w s = setSize s n) ∨
    (∃ n, n ≤ size s ∧ op.run w s = ltrim w s n) := by
  cases op with
  | subspan f n => exact .inl ⟨f, n, hr, rfl⟩
  | subspanFrom f =>
    have hr : f ≤ size s := hr
    exact .inl ⟨f, size s - f, by omega, by simp only [SpanOp.run, Spn.subspanFrom, iSub_eq hs hr]⟩
  | range f l =>
    have hr : f ≤ l ∧ l ≤ size s := hr
    exact .inl ⟨f, l - f, by omega, by simp only [SpanOp.run, Spn.range, iSub_eq (Nat.lt_of_le_of_lt hr.2 hs) hr.1]⟩
  | rangeFrom f =>
    have hr : f ≤ size s := hr
    exact .inl ⟨f, size s - f, by omega, by simp only [SpanOp.run, Spn.rangeFrom, iSub_eq hs hr]⟩
  | first n => exact .inl ⟨0, n, by have hr : n ≤ size s := hr; omega, by simp [SpanOp.run, Spn.first]⟩
  | last n =>
    have hr : n ≤ size s := hr
    refine .inl ⟨size s - n, n, by omega, ?_⟩
    simp only [SpanOp.run, Spn.last]
    congr 1
    omega
  | compll ss =>
    left
    simp only [SpanOp.run, Spn.compll, Spn.subspan]
    split
    · rename_i h
      refine ⟨0, (ptr ss - ptr s).toNat, by omega, ?_⟩
      rw [iDiff_eq (d := (ptr ss - ptr s).toNat) (by omega) (by omega)]
    · exact ⟨0, 0, by omega, rfl⟩
  | complr ss =>
    left
    simp only [SpanOp.run, Spn.complr, Spn.subspan]
    split
    · rename_i h
      refine ⟨(ptr ss + size ss - ptr s).toNat, (ptr s + size s - (ptr ss + size ss)).toNat, by omega, ?_⟩
      rw [iDiff_eq (d := (ptr ss + size ss - ptr s).toNat) (by omega) (by omega),
        iDiff_eq (d := (ptr s + size s - (ptr ss + size ss)).toNat) (by omega) (by omega)]
    · exact ⟨0, 0, by omega, rfl⟩
  | resize n => exact .inr (.inl ⟨n, .inl hr, rfl⟩)
  | rtrim n =>
    have hr : n ≤ size s := hr
    exact .inr (.inl ⟨size s - n, .inr (by omega), by simp only [SpanOp.run, Spn.rtrim, iSub_eq hs hr]⟩)
  | ltrim n => exact .inr (.inr ⟨n, hr, rfl⟩)
  | clear => exact .inr (.inl ⟨0, .inr (by omega), rfl⟩)

/-! ### C61 -/

/-- **C61**: start with any `spanrsl` over the block of `cap` elements at `p`; after any number of calls with arguments in
range, `original()` is the whole block again, and the span and its room to grow lie in it. -/
theorem C61_original (w : W) (p : Int) (sz cap : Nat) (hsz : sz ≤ cap) (hc : cap < 2 ^ w.bits) (s : SpanRSL)
    (h : SpanSteps w (⟨p, sz, cap, 0⟩ : SpanRSL) s) :
    s.original w = ⟨p, cap, cap, 0⟩ ∧ s.originalRS w = ⟨p, cap, cap⟩ ∧
    p ≤ s.ptr ∧ s.size ≤ s.cap ∧ s.ptr + s.cap = p + cap := by
  have key : s.ptr = p + s.offset ∧ s.cap + s.offset = cap ∧ s.size ≤ s.cap := by
    generalize e : (⟨p, sz, cap, 0⟩ : SpanRSL) = s0 at h
    induction h with
    | refl => subst e; exact ⟨by simp, by simp, hsz⟩
    | @step t op _ hr ih =>
      obtain ⟨h1, h2, h3⟩ := ih
      have hs : size t < 2 ^ w.bits := by show t.size < _; omega
      rcases run_cases w t op hs hr with ⟨f, n, h4, h5⟩ | ⟨n, h4, h5⟩ | ⟨n, h4, h5⟩
      · rw [h5]
        have h4 : f + n ≤ t.size := h4
        simp only [select, ptr]
        rw [iDiff_eq (d := f) (by omega) rfl, iSub_eq (by omega) (by omega), iAdd_eq (by omega)]
        omega
      · rw [h5]
        have h4 : n ≤ t.cap ∨ n ≤ t.size := h4
        simp only [setSize]
        omega
      · rw [h5]
        have h4 : n ≤ t.size := h4
        simp only [ltrim]
        rw [iSub_eq (by omega) (by omega), iSub_eq (by omega) (by omega), iAdd_eq (by omega)]
        omega
  obtain ⟨h1, h2, h3⟩ := key
  refine ⟨?_, ?_, by omega, h3, by omega⟩
  · simp only [SpanRSL.original, iAdd_eq (show s.cap + s.offset < 2 ^ w.bits by omega), h2, h1]
    congr 1
    omega
  · simp only [SpanRSL.originalRS, iAdd_eq (show s.cap + s.offset < 2 ^ w.bits by omega), h2, h1]
    congr 1
    omega

example : SpanSteps .w8 (⟨1000, 10, 200, 0⟩ : SpanRSL) ⟨1005, 100, 195, 5⟩ := by
  have h : ((SpanOp.resize 100).run .w8 ((SpanOp.ltrim 2).run .w8 ((SpanOp.subspan 3 4).run .w8
    (⟨1000, 10, 200, 0⟩ : SpanRSL)))) = ⟨1005, 100, 195, 5⟩ := by decide +kernel
  rw [← h]
  exact .step _ (.step _ (.step _ (.refl _) (by decide +kernel)) (by decide +kernel)) (by decide +kernel)

/-! ### C62 -/

/-- **C62** for `spanrs`: the span stays within its capacity and both inside the initial block; the end of the block is
kept. -/
theorem C62_spanrs (w : W) (p : Int) (sz cap : Nat) (hsz : sz ≤ cap) (hc : cap < 2 ^ w.bits) (s : SpanRS)
    (h : SpanSteps w (⟨p, sz, cap⟩ : SpanRS) s) : p ≤ s.ptr ∧ s.size ≤ s.cap ∧ s.ptr + s.cap = p + cap := by
  generalize e : (⟨p, sz, cap⟩ : SpanRS) = s0 at h
  induction h with
  | refl => subst e; exact ⟨by simp, hsz, rfl⟩
  | @step t op _ hr ih =>
    obtain ⟨h1, h2, h3⟩ := ih
    have hs : size t < 2 ^ w.bits := by show t.size < _; omega
    have hb := bits_le w
    rcases run_cases w t op hs hr with ⟨f, n, h4, h5⟩ | ⟨n, h4, h5⟩ | ⟨n, h4, h5⟩
    · rw [h5]
      have h4 : f + n ≤ t.size := h4
      simp only [select, ptr]
      rw [iDiff_eq (d := f) (by omega) rfl, iSub_eq (by omega) (by omega)]
      omega
    · rw [h5]
      have h4 : n ≤ t.cap ∨ n ≤ t.size := h4
      simp only [setSize]
      omega
    · rw [h5]
      have h4 : n ≤ t.size := h4
      simp only [ltrim]
      rw [iSub_eq (by omega) (by omega), iSub_eq (by omega) (by omega)]
      omega

/-- **C62** for `span`: it only shrinks inside the initial block. -/
theorem C62_span (w : W) (p : Int) (sz : Nat) (hc : sz < 2 ^ w.bits) (s : Span)
    (h : SpanSteps w (⟨p, sz⟩ : Span) s) : p ≤ s.ptr ∧ s.ptr + s.size ≤ p + sz ∧ capacity s = s.size := by
  refine ⟨?_, ?_, rfl⟩ <;>
  · revert h
    generalize e : (⟨p, sz⟩ : Span) = s0
    intro h
    suffices p ≤ s.ptr ∧ s.ptr + s.size ≤ p + sz by omega
    induction h with
    | refl => subst e; exact ⟨by simp, by simp⟩
    | @step t op _ hr ih =>
      obtain ⟨h1, h2⟩ := ih
      have hs : size t < 2 ^ w.bits := by show t.size < _; omega
      rcases run_cases w t op hs hr with ⟨f, n, h4, h5⟩ | ⟨n, h4, h5⟩ | ⟨n, h4, h5⟩
      · rw [h5]
        have h4 : f + n ≤ t.size := h4
        simp only [select, ptr]
        omega
      · rw [h5]
        have h4 : n ≤ t.size ∨ n ≤ t.size := h4
        simp only [setSize]
        omega
      · rw [h5]
        have h4 : n ≤ t.size := h4
        simp only [ltrim]
        rw [iSub_eq (by omega) (by omega)]
        omega

example : SpanSteps .w64 (⟨1000, 10⟩ : Span) ⟨1005, 1⟩ := by
  have h : ((SpanOp.first 1).run .w64 ((SpanOp.ltrim 2).run .w64 ((SpanOp.subspan 3 4).run .w64
    (⟨1000, 10⟩ : Span)))) = ⟨1005, 1⟩ := by decide +kernel
  rw [← h]
  exact .step _ (.step _ (.step _ (.refl _) (by decide +kernel)) (by decide +kernel)) (by decide +kernel)

/-! ### C62: what is seen -/

/-- A class in which a selection shows what was asked for. -/
def Faithful (σ : Type) [SpanImpl σ] : Prop :=
  (∀ (w : W) (s : σ) p n, ptr (select w s p n) = p ∧ size (select w s p n) = n) ∧
  (∀ (s : σ) n, ptr (setSize s n) = ptr s ∧ size (setSize s n) = n) ∧
  (∀ (w : W) (s : σ) n, ptr (ltrim w s n) = ptr s + n ∧ size (ltrim w s n) = iSub w (size s) n)

theorem faithful_span : Faithful Span := ⟨fun _ _ _ _ => ⟨rfl, rfl⟩, fun _ _ => ⟨rfl, rfl⟩, fun _ _ _ => ⟨rfl, rfl⟩⟩
theorem faithful_spanrs : Faithful SpanRS := ⟨fun _ _ _ _ => ⟨rfl, rfl⟩, fun _ _ => ⟨rfl, rfl⟩, fun _ _ _ => ⟨rfl, rfl⟩⟩
theorem faithful_spanrsl : Faithful SpanRSL := ⟨fun _ _ _ _ => ⟨rfl, rfl⟩, fun _ _ => ⟨rfl, rfl⟩, fun _ _ _ => ⟨rfl, rfl⟩⟩

theorem elems_of {α : Type} (m : Int → α) (s t : σ) (f n : Nat) (h : f + n ≤ size s) (hp : ptr t = ptr s + f) (hn : size t = n) :
    Spn.elems m t = ((Spn.elems m s).drop f).take n := by
  apply List.ext_getElem
  · simp [Spn.elems, hn]; omega
  · intro i hi1 hi2
    simp [Spn.elems, hn] at hi1 ⊢
    rw [hp]
    congr 1
    omega

/-- The part of the elements an operation selects; `resize` beyond the size is not covered. -/
def SpanOp.part (s : σ) : SpanOp σ → Nat × Nat
  | .subspan f n => (f, n)
  | .subspanFrom f => (f, size s - f)
  | .range f l => (f, l - f)
  | .rangeFrom f => (f, size s - f)
  | .first n => (0, n)
  | .last n => (size s - n, n)
  | .compll ss => if ptr s ≤ ptr ss ∧ ptr ss ≤ ptr s + size s then (0, (ptr ss - ptr s).toNat) else (0, 0)
  | .complr ss => if ptr s ≤ ptr ss + size ss ∧ ptr ss + size ss ≤ ptr s + size s then
      ((ptr ss + size ss - ptr s).toNat, (ptr s + size s - (ptr ss + size ss)).toNat) else (0, 0)
  | .resize n => (0, n)
  | .rtrim n => (0, size s - n)
  | .ltrim n => (n, size s - n)
  | .clear => (0, 0)

theorem elems_op (hσ : Faithful σ) {α : Type} (m : Int → α) (w : W) (s : σ) (op : SpanOp σ) (hs : size s < 2 ^ w.bits)
    (hr : op.inRange s) (hz : ∀ n, op = .resize n → n ≤ size s) :
    Spn.elems m (op.run w s) = ((Spn.elems m s).drop (op.part s).1).take (op.part s).2 := by
  obtain ⟨h1, h2, h3⟩ := hσ
  cases op with
  | subspan f n => exact elems_of m s _ _ _ hr (h1 ..).1 (h1 ..).2
  | subspanFrom f =>
    have hr : f ≤ size s := hr
    exact elems_of m s _ _ _ (by simp [SpanOp.part]; omega) (h1 ..).1 ((h1 ..).2.trans (iSub_eq hs hr))
  | range f l =>
    have hr : f ≤ l ∧ l ≤ size s := hr
    exact elems_of m s _ _ _ (by simp [SpanOp.part]; omega) (h1 ..).1 ((h1 ..).2.trans (iSub_eq (Nat.lt_of_le_of_lt hr.2 hs) hr.1))
  | rangeFrom f =>
    have hr : f ≤ size s := hr
    exact elems_of m s _ _ _ (by simp [SpanOp.part]; omega) (h1 ..).1 ((h1 ..).2.trans (iSub_eq hs hr))
  | first n =>
    have hr : n ≤ size s := hr
    exact elems_of m s _ _ _ (by simp [SpanOp.part]; omega) ((h1 ..).1.trans (by simp [SpanOp.part])) (h1 ..).2
  | last n =>
    have hr : n ≤ size s := hr
    exact elems_of m s _ _ _ (by simp [SpanOp.part]; omega) ((h1 ..).1.trans (by simp [SpanOp.part]; omega)) (h1 ..).2
  | compll ss =>
    simp only [SpanOp.run, Spn.compll, SpanOp.part, Spn.subspan, ge_iff_le]
    split
    · rename_i h
      refine elems_of m s _ _ _ (by omega) ((h1 ..).1) ((h1 ..).2.trans ?_)
      exact iDiff_eq (by omega) (by omega)
    · exact elems_of m s _ _ _ (by omega) (h1 ..).1 (h1 ..).2
  | complr ss =>
    simp only [SpanOp.run, Spn.complr, SpanOp.part, Spn.subspan, ge_iff_le]
    split
    · rename_i h
      refine elems_of m s _ _ _ (by omega) ((h1 ..).1.trans ?_) ((h1 ..).2.trans ?_)
      · rw [iDiff_eq (d := (ptr ss + size ss - ptr s).toNat) (by omega) (by omega)]
      · exact iDiff_eq (by omega) (by omega)
    · exact elems_of m s _ _ _ (by omega) (h1 ..).1 (h1 ..).2
  | resize n =>
    have := hz n rfl
    exact elems_of m s _ _ _ (by simp [SpanOp.part]; omega) ((h2 ..).1.trans (by simp [SpanOp.part])) (h2 ..).2
  | rtrim n =>
    have hr : n ≤ size s := hr
    exact elems_of m s _ _ _ (by simp [SpanOp.part]) ((h2 ..).1.trans (by simp [SpanOp.part])) ((h2 ..).2.trans (iSub_eq hs hr))
  | ltrim n =>
    have hr : n ≤ size s := hr
    exact elems_of m s _ _ _ (by simp [SpanOp.part]; omega) ((h3 ..).1) ((h3 ..).2.trans (iSub_eq hs hr))
  | clear => exact elems_of m s _ _ _ (by simp [SpanOp.part]) ((h2 ..).1.trans (by simp [SpanOp.part])) (h2 ..).2

/-- **C62**: in all three classes every operation with arguments in range shows the part of the elements asked for. -/
theorem C62_elements {α : Type} (m : Int → α) (w : W) :
    (∀ (s : Span) (op : SpanOp Span), s.size < 2 ^ w.bits → op.inRange s → (∀ n, op = .resize n → n ≤ s.size) →
      Spn.elems m (op.run w s) = ((Spn.elems m s).drop (op.part s).1).take (op.part s).2) ∧
    (∀ (s : SpanRS) (op : SpanOp SpanRS), s.size < 2 ^ w.bits → op.inRange s → (∀ n, op = .resize n → n ≤ s.size) →
      Spn.elems m (op.run w s) = ((Spn.elems m s).drop (op.part s).1).take (op.part s).2) ∧
    (∀ (s : SpanRSL) (op : SpanOp SpanRSL), s.size < 2 ^ w.bits → op.inRange s → (∀ n, op = .resize n → n ≤ s.size) →
      Spn.elems m (op.run w s) = ((Spn.elems m s).drop (op.part s).1).take (op.part s).2) :=
  ⟨fun s op => elems_op faithful_span m w s op, fun s op => elems_op faithful_spanrs m w s op,
    fun s op => elems_op faithful_spanrsl m w s op⟩

example : Spn.elems (fun i => i) (Spn.last .w8 (⟨100, 10, 20⟩ : SpanRS) 3) = [107, 108, 109] := by decide

/-! ### C87: the assertion of `subspan` -/

/-- **C87 is false** for 32- and 64-bit indices: the sum in the assertion of `subspan` wraps, so a selection far larger than the
span is admitted. -/
theorem C87_refuted : ∃ (s : Span) (f n : Nat), n < 2 ^ 64 ∧ f < 2 ^ 64 ∧ Spn.subspanAssert .w64 s f n ∧
    ¬ f + n ≤ s.size ∧ (Spn.subspan .w64 s f n).size > s.size :=
  ⟨⟨1000, 10⟩, 1, 2 ^ 64 - 1, by decide, by decide, ⟨by decide +kernel, by decide +kernel⟩, by decide, by decide +kernel⟩

/-- **C87**, the part that holds: if the sum does not wrap (always so for 8- and 16-bit indices) the assertion admits the
selections inside the span, and no others.  (Missing: sums of 2^32 or 2^64 and more.) -/
theorem C87_assert_partial (w : W) (s : σ) (f n : Nat) (hw : w = .w8 ∨ w = .w16 ∨ f + n < 2 ^ w.bits) :
    Spn.subspanAssert w s f n ↔ f + n ≤ size s := by
  unfold Spn.subspanAssert
  cases w with
  | w8 => dsimp only; omega
  | w16 => dsimp only; omega
  | w32 =>
    dsimp only
    rw [iAdd_eq (by simpa using hw)]
    omega
  | w64 =>
    dsimp only
    rw [iAdd_eq (by simpa using hw)]
    omega

/-- At and after the end only the empty selection at the end is admitted, also if the sum wraps. -/
theorem C87_end (w : W) (s : σ) (f n : Nat) (hf : size s ≤ f) (hw : size s < 2 ^ w.bits) : Spn.subspanAssert w s f n ↔ f = size s ∧ n = 0 := by
  unfold Spn.subspanAssert
  constructor
  · rintro ⟨h | h, -⟩
    · omega
    · exact h
  · rintro ⟨rfl, rfl⟩
    refine ⟨Or.inr ⟨rfl, rfl⟩, ?_⟩
    cases w with
    | w8 => exact Nat.le_refl _
    | w16 => exact Nat.le_refl _
    | w32 => dsimp only; rw [iAdd_eq (by simpa using hw)]; omega
    | w64 => dsimp only; rw [iAdd_eq (by simpa using hw)]; omega

example : ¬ Spn.subspanAssert .w64 (⟨1000, 10⟩ : Span) 10 (2 ^ 64 - 10) ∧ Spn.subspanAssert .w64 (⟨1000, 10⟩ : Span) 10 0 :=
  ⟨fun h => absurd ((C87_end .w64 (⟨1000, 10⟩ : Span) 10 _ (by decide) (by decide)).1 h).2 (by decide), (C87_end .w64 (⟨1000, 10⟩ : Span) 10 0 (by decide) (by decide)).2 ⟨rfl, rfl⟩⟩

/-! ### C63 -/

/-- Specification: lexicographic order: a proper prefix, or smaller at the first difference. -/
def LexBefore {α : Type} (lt : α → α → Bool) (l r : List α) : Prop :=
  (∃ x t, r = l ++ x :: t) ∨ (∃ c a b t u, l = c ++ a :: t ∧ r = c ++ b :: u ∧ lt a b = true)

/-- A strict total order. -/
structure StrictTotal {α : Type} (lt : α → α → Bool) : Prop where
  irrefl : ∀ a, lt a a = false
  asymm : ∀ a b, lt a b = true → lt b a = false
  total : ∀ a b, lt a b = false → lt b a = false → a = b

theorem lexLess_spec {α : Type} {lt : α → α → Bool} (ht : StrictTotal lt) (l r : List α) :
    stdLexLess lt l r = true ↔ LexBefore lt l r := by
  induction l generalizing r with
  | nil =>
    cases r with
    | nil => simp [stdLexLess, LexBefore]
    | cons b r => simp [stdLexLess, LexBefore]
  | cons a l ih =>
    cases r with
    | nil => simp [stdLexLess, LexBefore]
    | cons b r =>
      rw [stdLexLess]
      have hcons : a = b → (LexBefore lt (a :: l) (b :: r) ↔ LexBefore lt l r) := by
        rintro rfl
        constructor
        · rintro (⟨x, t, h⟩ | ⟨c, x, y, t, u, h1, h2, h3⟩)
          · exact .inl ⟨x, t, by simpa using h⟩
          · cases c with
            | nil =>
              simp only [List.nil_append, List.cons.injEq] at h1 h2
              rw [← h1.1, ← h2.1, ht.irrefl] at h3
              cases h3
            | cons z c =>
              simp only [List.cons_append, List.cons.injEq] at h1 h2
              exact .inr ⟨c, x, y, t, u, h1.2, h2.2, h3⟩
        · rintro (⟨x, t, h⟩ | ⟨c, x, y, t, u, h1, h2, h3⟩)
          · exact .inl ⟨x, t, by simp [h]⟩
          · exact .inr ⟨a :: c, x, y, t, u, by simp [h1], by simp [h2], h3⟩
      by_cases h1 : lt a b = true
      · rw [if_pos h1]
        simp only [true_iff]
        exact .inr ⟨[], a, b, l, r, rfl, rfl, h1⟩
      · rw [if_neg h1]
        by_cases h2 : lt b a = true
        · rw [if_pos h2]
          simp only [Bool.false_eq_true, false_iff]
          rintro (⟨x, t, h⟩ | ⟨c, x, y, t, u, e1, e2, h3⟩)
          · simp only [List.cons_append, List.cons.injEq] at h
            rw [h.1, ht.irrefl] at h2; cases h2
          · cases c with
            | nil =>
              simp only [List.nil_append, List.cons.injEq] at e1 e2
              rw [← e1.1, ← e2.1] at h3
              exact h1 h3
            | cons z c =>
              simp only [List.cons_append, List.cons.injEq] at e1 e2
              rw [e1.1, e2.1, ht.irrefl] at h2; cases h2
        · rw [if_neg h2, ih, hcons (ht.total a b (by simpa using h1) (by simpa using h2))]

/-- **C63**: `operator<` is the lexicographic order, for every element type with a strict total order. -/
theorem C63_less {α : Type} {lt : α → α → Bool} (ht : StrictTotal lt) (l r : List α) :
    spanLt lt l r = true ↔ LexBefore lt l r := lexLess_spec ht l r

/-- **C63**: from C++14 on `operator==` holds exactly when sizes and all elements agree. -/
theorem C63_equal14 {α : Type} [DecidableEq α] (l r : List α) : spanEq14 l r = true ↔ l = r := by
  unfold spanEq14
  induction l generalizing r with
  | nil => cases r <;> simp [stdEqual4]
  | cons a l ih =>
    cases r with
    | nil => simp [stdEqual4]
    | cons b r => by_cases h : a = b <;> simp [stdEqual4, h, ih]

theorem lex_total {α : Type} {lt : α → α → Bool} (ht : StrictTotal lt) (l r : List α)
    (h1 : stdLexLess lt l r = false) (h2 : stdLexLess lt r l = false) : l = r := by
  induction l generalizing r with
  | nil => cases r with
    | nil => rfl
    | cons b r => simp [stdLexLess] at h1
  | cons a l ih => cases r with
    | nil => simp [stdLexLess] at h2
    | cons b r =>
      rw [stdLexLess] at h1 h2
      by_cases h3 : lt a b = true
      · simp [h3] at h1
      · by_cases h4 : lt b a = true
        · simp [h4] at h2
        · rw [if_neg h3, if_neg h4] at h1
          rw [if_neg h4, if_neg h3] at h2
          rw [ht.total a b (by simpa using h3) (by simpa using h4), ih r h1 h2]

theorem lex_asymm {α : Type} {lt : α → α → Bool} (ht : StrictTotal lt) (l r : List α)
    (h1 : stdLexLess lt l r = true) : stdLexLess lt r l = false := by
  induction l generalizing r with
  | nil => cases r <;> simp [stdLexLess]
  | cons a l ih => cases r with
    | nil => simp [stdLexLess] at h1
    | cons b r =>
      rw [stdLexLess] at h1 ⊢
      by_cases h3 : lt a b = true
      · simp [ht.asymm a b h3, h3]
      · by_cases h4 : lt b a = true
        · simp [h3, h4] at h1
        · rw [if_neg h3, if_neg h4] at h1
          rw [if_neg h4, if_neg h3, ih r h1]

/-- **C63**: the other operators agree with these two: exactly one of `<`, `==`, `>` holds, `<=` is `<` or `==`, `>=` is `>` or
`==`, `!=` is not `==`. -/
theorem C63_operators {α : Type} [DecidableEq α] {lt : α → α → Bool} (ht : StrictTotal lt) (l r : List α) :
    (spanGt lt l r = true ↔ LexBefore lt r l) ∧ (spanNe14 l r = true ↔ l ≠ r) ∧
    (spanLe lt l r = true ↔ LexBefore lt l r ∨ l = r) ∧ (spanGe lt l r = true ↔ LexBefore lt r l ∨ l = r) ∧
    (LexBefore lt l r ∨ l = r ∨ LexBefore lt r l) ∧ ¬ (LexBefore lt l r ∧ LexBefore lt r l) ∧ ¬ LexBefore lt l l := by
  have irr : ∀ l, ¬ LexBefore lt l l := by
    intro l h
    have h := (lexLess_spec ht l l).mpr h
    rw [lex_asymm ht l l h] at h
    cases h
  refine ⟨lexLess_spec ht r l, ?_, ?_, ?_, ?_, ?_, irr l⟩
  · rw [spanNe14, Bool.not_eq_true', ← Bool.not_eq_true, C63_equal14]
  · rw [← lexLess_spec ht l r, spanLe, spanGt, spanLt]
    constructor
    · intro h
      by_cases h1 : stdLexLess lt l r = true
      · exact .inl h1
      · exact .inr (lex_total ht l r (by simpa using h1) (by simpa using h))
    · rintro (h | rfl)
      · simp [lex_asymm ht l r h]
      · have := irr l
        rw [← lexLess_spec ht] at this
        simpa using this
  · rw [← lexLess_spec ht r l, spanGe, spanLt]
    constructor
    · intro h
      by_cases h1 : stdLexLess lt r l = true
      · exact .inl h1
      · exact .inr (lex_total ht l r (by simpa using h) (by simpa using h1))
    · rintro (h | rfl)
      · simp [lex_asymm ht r l h]
      · have := irr l
        rw [← lexLess_spec ht] at this
        simpa using this
  · rw [← lexLess_spec ht r l, ← lexLess_spec ht l r]
    by_cases h1 : stdLexLess lt l r = true
    · exact .inl h1
    · by_cases h2 : stdLexLess lt r l = true
      · exact .inr (.inr h2)
      · exact .inr (.inl (lex_total ht l r (by simpa using h1) (by simpa using h2)))
  · rintro ⟨h1, h2⟩
    rw [← lexLess_spec ht] at h1 h2
    rw [lex_asymm ht l r h1] at h2
    cases h2

example : StrictTotal (fun a b : Int => decide (a < b)) :=
  ⟨fun a => by simp, fun a b h => by simp at h ⊢; omega, fun a b h1 h2 => by simp at h1 h2; omega⟩

/-- **C63 is false in C++11**: a span equals every span it is a prefix of, and comparing with a shorter span reads past its
end. -/
theorem C63_refuted_cpp11 : spanEq11 false [1] [1, 2] = .ok true ∧ spanEq11 false [1, 2] [1] = .ub := by decide

/-- **C63** in C++11, the part that holds: for spans of the same size. -/
theorem C63_equal11_partial {α : Type} [DecidableEq α] (same : Bool) (l r : List α) (hs : same = true → l = r)
    (hl : l.length = r.length) : spanEq11 same l r = .ok (decide (l = r)) := by
  unfold spanEq11
  split
  · rename_i h; simp [hs h]
  · clear hs
    induction l generalizing r with
    | nil => cases r with
      | nil => simp [stdEqual3]
      | cons _ _ => simp at hl
    | cons a l ih => cases r with
      | nil => simp at hl
      | cons b r =>
        by_cases h : a = b
        · simp [stdEqual3, h, ih r (by simpa using hl)]
        · simp [stdEqual3, h]

/-- **C63** in C++11, on spans in a memory: two spans of the same size compare as their elements do. -/
theorem C63_spans11_partial {α : Type} [DecidableEq α] (m : Int → α) (s t : σ) (h : size s = size t) :
    spanEq11 (Spn.sameSpan s t) (Spn.elems m s) (Spn.elems m t) = .ok (decide (Spn.elems m s = Spn.elems m t)) := by
  apply C63_equal11_partial
  · intro h1
    simp only [Spn.sameSpan, Bool.and_eq_true, decide_eq_true_eq] at h1
    simp only [Spn.elems, h, h1.2]
  · simp [Spn.elems, h]

/-- A selected part is a subspan of the span it came from, and nothing outside is. -/
theorem C62_is_subspan (s t : σ) (h : ptr s ≠ 0) :
    Spn.isSubspan s t = true ↔ ∃ f : Nat, ptr t = ptr s + f ∧ f + size t ≤ size s := by
  simp only [Spn.isSubspan, h, if_false, Bool.and_eq_true, decide_eq_true_eq]
  constructor
  · rintro ⟨h1, h2⟩
    exact ⟨(ptr t - ptr s).toNat, by omega, by omega⟩
  · rintro ⟨f, h1, h2⟩
    omega

/-- **C62**, for `same_span`: it tells if the two have the same elements in the same place: then they show the same in any memory, and
two spans with elements that show the same in a memory of different values are the same. -/
theorem C62_same_span (s t : σ) :
    (Spn.sameSpan s t = true → ∀ {α : Type} (m : Int → α), Spn.elems m s = Spn.elems m t) ∧
    (0 < size s → Spn.elems id s = Spn.elems id t → Spn.sameSpan s t = true) := by
  simp only [Spn.sameSpan, Bool.and_eq_true, beq_iff_eq, decide_eq_true_eq]
  constructor
  · rintro ⟨h1, h2⟩ α m
    simp only [Spn.elems, h1, h2]
  · intro h0 h
    have h1 : size s = size t := by simpa [Spn.elems] using congrArg List.length h
    refine ⟨h1, ?_⟩
    have h2 := congrArg (·[0]?) h
    simpa [Spn.elems, h0, h1 ▸ h0] using h2

example : Spn.isSubspan (⟨1000, 10⟩ : Span) ⟨1003, 7⟩ = true ∧ Spn.isSubspan (⟨1000, 10⟩ : Span) ⟨1003, 8⟩ = false := by decide

end C4
