import Verif.Charconv.Read
import Verif.Spec.IntText
import Mathlib.Tactic.Ring
import Mathlib.Tactic.ByContra
/-
Lemmas about the integer readers.
-/
namespace C4
open Spec

/-- `v` is the value of the type `t` congruent to `n` modulo 2^width. -/
def Spec.StoredAs (t : ITy) (n v : Int) : Prop :=
  t.min ≤ v ∧ v ≤ t.max ∧ (2 ^ t.w.bits : Int) ∣ v - n

theorem wrap_stored (t : ITy) (x : Int) : StoredAs t x (t.wrap x) := by
  obtain ⟨w, sgn⟩ := t
  unfold StoredAs
  cases w <;> cases sgn <;> simp [ITy.wrap, ITy.min, ITy.max, W.bits, Int.bmod] <;> omega

theorem Spec.StoredAs.unique {t : ITy} {n v v' : Int} (h : StoredAs t n v) (h' : StoredAs t n v') : v = v' := by
  obtain ⟨w, sgn⟩ := t
  unfold StoredAs at h h'
  cases w <;> cases sgn <;> simp [ITy.min, ITy.max, W.bits] at h h' <;> omega

theorem Spec.StoredAs.congr {t : ITy} {n m v : Int} (h : StoredAs t n v)
    (hd : (2 ^ t.w.bits : Int) ∣ n - m) : StoredAs t m v := by
  refine ⟨h.1, h.2.1, ?_⟩
  have := Int.dvd_add h.2.2 hd
  simpa using this

/-- A value in range is stored as itself. -/
theorem Spec.StoredAs.eq_of_fits {t : ITy} {n v : Int} (h : StoredAs t n v) (h1 : t.min ≤ n) (h2 : n ≤ t.max) :
    v = n := h.unique ⟨h1, h2, by simp⟩

theorem wrap_of_fits {t : ITy} {n : Int} (h1 : t.min ≤ n) (h2 : n ≤ t.max) : t.wrap n = n :=
  (wrap_stored t n).eq_of_fits h1 h2

theorem stored_wrap {t : ITy} {n v : Int} (h : StoredAs t n v) : v = t.wrap n :=
  h.unique (wrap_stored t n)

theorem prom_dvd (t : ITy) : (2 ^ t.w.bits : Int) ∣ 2 ^ t.prom.w.bits := by
  obtain ⟨w, sgn⟩ := t
  cases w <;> simp [ITy.prom, W.bits]

theorem arith_dvd (t : ITy) (x : Int) : (2 ^ t.w.bits : Int) ∣ (t.arith x).1 - x :=
  dvd_trans (prom_dvd t) (wrap_stored t.prom x).2.2

theorem mulAdd_stored (t : ITy) (b : Nat) (v : Int) (d : Nat) :
    StoredAs t (v * b + d) (mulAdd t b v d).1 := by
  refine (wrap_stored t _).congr ?_
  have h1 := arith_dvd t (v * b)
  have h2 := arith_dvd t ((t.arith (v * b)).1 + d)
  have := Int.dvd_add h2 h1
  simp only [ITy.arith] at this ⊢
  ring_nf at this ⊢
  exact this

theorem arith_no_overflow {t : ITy} {x : Int} (h1 : t.prom.min ≤ x) (h2 : x ≤ t.prom.max) :
    t.arith x = (x, false) := by
  unfold ITy.arith
  rw [wrap_of_fits h1 h2]
  have e1 : decide (x < t.prom.min) = false := by simp; omega
  have e2 : decide (x > t.prom.max) = false := by simp; omega
  rw [e1, e2]; simp

theorem min_nonpos (t : ITy) : t.min ≤ 0 := by
  obtain ⟨w, sgn⟩ := t
  cases w <;> cases sgn <;> simp [ITy.min, W.bits]

theorem mulAdd_no_overflow {t : ITy} {b : Nat} {v : Int} {d : Nat} (h0 : 0 ≤ v)
    (h : v * b + d ≤ t.prom.max) : (mulAdd t b v d).2 = false := by
  have hm := min_nonpos t.prom
  have hvb : 0 ≤ v * b := Int.mul_nonneg h0 (by omega)
  unfold mulAdd
  rw [arith_no_overflow (x := v * b) (by omega) (by omega)]
  simp only
  rw [arith_no_overflow (x := v * b + d) (by omega) (by omega)]
  rfl

/-- What one radix loop does, for digits and non-digits. -/
structure LoopOK (t : ITy) (b : Nat) (L : List Nat → Int → Bool → Bool × Int × Bool) : Prop where
  nil : ∀ v o, L [] v o = (true, v, o)
  digit : ∀ c s v o d, charDigit c = some d → d < b → t.min ≤ v → v ≤ t.max →
    ∃ v' o', L (c :: s) v o = L s v' (o || o') ∧ StoredAs t (v * b + d) v' ∧
      (0 ≤ v → v * b + d ≤ t.prom.max → o' = false)
  bad : ∀ c s v o, (∀ d, charDigit c = some d → b ≤ d) → ∃ v' o', L (c :: s) v o = (false, v', o')

theorem charDigit_lt10 {c d : Nat} (h : charDigit c = some d) (hd : d < 10) :
    48 ≤ c ∧ c ≤ 57 ∧ d = c - 48 := by
  unfold charDigit at h
  split at h
  · injection h; omega
  · split at h
    · injection h; omega
    · split at h
      · injection h; omega
      · cases h

theorem charDigit_dec {c : Nat} (h : 48 ≤ c ∧ c ≤ 57) : charDigit c = some (c - 48) := by
  simp [charDigit, h]

theorem readDec_loop (t : ITy) : LoopOK t 10 (readDecLoop t) where
  nil _ _ := rfl
  digit c s v o d hc hd _ _ := by
    obtain ⟨h1, h2, rfl⟩ := charDigit_lt10 hc hd
    refine ⟨(mulAdd t 10 v (c - 48)).1, (mulAdd t 10 v (c - 48)).2, ?_, mulAdd_stored .., mulAdd_no_overflow⟩
    rw [readDecLoop, if_neg (by omega)]
  bad c s v o h := by
    refine ⟨v, o, ?_⟩
    rw [readDecLoop, if_pos]
    by_contra hc
    have := h _ (charDigit_dec (c := c) (by omega))
    omega

theorem readOct_loop (t : ITy) : LoopOK t 8 (readOctLoop t) where
  nil _ _ := rfl
  digit c s v o d hc hd _ _ := by
    obtain ⟨h1, h2, rfl⟩ := charDigit_lt10 hc (by omega)
    refine ⟨(mulAdd t 8 v (c - 48)).1, (mulAdd t 8 v (c - 48)).2, ?_, mulAdd_stored .., mulAdd_no_overflow⟩
    rw [readOctLoop, if_neg (by omega)]
  bad c s v o h := by
    refine ⟨v, o, ?_⟩
    rw [readOctLoop, if_pos]
    by_contra hc
    have := h _ (charDigit_dec (c := c) (by omega))
    omega

theorem charDigit_cases {c d : Nat} (h : charDigit c = some d) :
    (48 ≤ c ∧ c ≤ 57 ∧ d = c - 48) ∨ (97 ≤ c ∧ c ≤ 102 ∧ d = 10 + (c - 97)) ∨
      (65 ≤ c ∧ c ≤ 70 ∧ d = 10 + (c - 65)) := by
  unfold charDigit at h
  split at h
  · injection h; omega
  · split at h
    · injection h; omega
    · split at h
      · injection h; omega
      · cases h

theorem charDigit_none {c : Nat} (h : ¬(48 ≤ c ∧ c ≤ 57)) (h2 : ¬(97 ≤ c ∧ c ≤ 102))
    (h3 : ¬(65 ≤ c ∧ c ≤ 70)) : charDigit c = none := by
  simp [charDigit, h, h2, h3]

theorem charDigit_lt16 {c d : Nat} (h : charDigit c = some d) : d < 16 := by
  rcases charDigit_cases h with h | h | h <;> omega

theorem readHex_loop (t : ITy) : LoopOK t 16 (readHexLoop t) where
  nil _ _ := rfl
  digit c s v o d hc hd _ _ := by
    refine ⟨(mulAdd t 16 v d).1, (mulAdd t 16 v d).2, ?_, mulAdd_stored .., mulAdd_no_overflow⟩
    rcases charDigit_cases hc with ⟨h1, h2, rfl⟩ | ⟨h1, h2, rfl⟩ | ⟨h1, h2, rfl⟩
    · rw [readHexLoop, if_pos (by omega)]
    · rw [readHexLoop, if_neg (by omega), if_pos (by omega)]
    · rw [readHexLoop, if_neg (by omega), if_neg (by omega), if_pos (by omega)]
  bad c s v o h := by
    refine ⟨v, o, ?_⟩
    have hn : charDigit c = none := by
      cases hc : charDigit c with
      | none => rfl
      | some d => have := h d hc; have := charDigit_lt16 hc; omega
    unfold charDigit at hn
    split at hn
    · cases hn
    · split at hn
      · cases hn
      · split at hn
        · cases hn
        · rw [readHexLoop, if_neg (by omega), if_neg (by omega), if_neg (by omega)]

theorem shl1_stored (t : ITy) (v : Int) : StoredAs t (v * 2) (shl1 t v).1 := by
  refine (wrap_stored t _).congr ?_
  exact dvd_trans (prom_dvd t) (wrap_stored t.prom _).2.2

theorem shl1_even_add (t : ITy) (v : Int) : StoredAs t (v * 2 + 1) ((shl1 t v).1 + 1) := by
  have h := shl1_stored t v
  revert h
  generalize (shl1 t v).1 = x
  obtain ⟨w, sgn⟩ := t
  unfold StoredAs
  cases w <;> cases sgn <;> simp [ITy.min, ITy.max, W.bits] <;> omega

theorem shl1_no_overflow {t : ITy} {v : Int} (h0 : 0 ≤ v) (h : v * 2 ≤ t.prom.max) :
    (shl1 t v).2 = false := by
  unfold shl1
  have e1 : decide (v < 0) = false := by simp; omega
  have e2 : decide (v * 2 ≥ (2 ^ t.prom.w.bits : Nat)) = false := by
    revert h
    generalize t.prom = p
    obtain ⟨w, sgn⟩ := p
    intro h
    rw [decide_eq_false_iff_not]
    cases w <;> cases sgn <;> simp [ITy.max, W.bits] at h ⊢ <;> omega
  simp only [e1, e2, Bool.or_false, Bool.and_false]

theorem readBin_loop (t : ITy) : LoopOK t 2 (readBinLoop t) where
  nil _ _ := rfl
  digit c s v o d hc hd _ _ := by
    obtain ⟨h1, h2, rfl⟩ := charDigit_lt10 hc (by omega)
    by_cases h49 : c = 49
    · subst h49
      refine ⟨(shl1 t v).1 + 1, (shl1 t v).2, ?_, shl1_even_add t v, fun h0 h => shl1_no_overflow h0 ?_⟩
      · rw [readBinLoop]; simp
      · simp at h; omega
    · have h48 : c = 48 := by omega
      subst h48
      refine ⟨(shl1 t v).1, (shl1 t v).2, ?_, by simpa using shl1_stored t v,
        fun h0 h => shl1_no_overflow h0 (by simpa using h)⟩
      rw [readBinLoop]; simp
  bad c s v o h := by
    refine ⟨(shl1 t v).1, o || (shl1 t v).2, ?_⟩
    rw [readBinLoop]
    have h1 : c ≠ 49 := by rintro rfl; have := h 1 rfl; omega
    have h2 : c ≠ 48 := by rintro rfl; have := h 0 rfl; omega
    simp [h1, h2]

/-- Running a radix loop over a digit string: accepted, and the value is stored modulo the type. -/
theorem LoopOK.digits {t : ITy} {b : Nat} {L : List Nat → Int → Bool → Bool × Int × Bool}
    (h : LoopOK t b L) {s ds : List Nat} (hd : IsDigits b s ds) : ∀ (v : Int) (a : Nat) (o : Bool),
    StoredAs t a v →
    ∃ v' o', L s v o = (true, v', o') ∧ StoredAs t (ds.foldl (fun a d => a * b + d) a : Nat) v' := by
  induction s generalizing ds with
  | nil =>
    intro v a o hv
    rw [isDigits_nil] at hd
    subst hd
    exact ⟨v, o, h.nil v o, by simpa using hv⟩
  | cons c s ih =>
    intro v a o hv
    rw [isDigits_cons] at hd
    obtain ⟨d, ds, rfl, hc, hdb, hds⟩ := hd
    obtain ⟨v', o', h1, h2, h3⟩ := h.digit c s v o d hc hdb hv.1 hv.2.1
    rw [h1]
    refine ih hds v' (a * b + d) (o || o') (h2.congr ?_)
    have := Dvd.dvd.mul_right hv.2.2 (b : Int)
    push_cast
    ring_nf at this ⊢
    exact this

theorem LoopOK.not_digits {t : ITy} {b : Nat} {L : List Nat → Int → Bool → Bool × Int × Bool}
    (h : LoopOK t b L) (s : List Nat) : ∀ (v : Int) (o : Bool), t.min ≤ v → v ≤ t.max →
    (¬ ∃ ds, IsDigits b s ds) → ∃ v' o', L s v o = (false, v', o') := by
  induction s with
  | nil => intro v o _ _ hn; exact absurd ⟨[], isDigits_nil.mpr rfl⟩ hn
  | cons c s ih =>
    intro v o h1 h2 hn
    by_cases hc : ∃ d, charDigit c = some d ∧ d < b
    · obtain ⟨d, hc, hdb⟩ := hc
      obtain ⟨v', o', e, hs, _⟩ := h.digit c s v o d hc hdb h1 h2
      rw [e]
      refine ih v' _ hs.1 hs.2.1 ?_
      rintro ⟨ds, hds⟩
      exact hn ⟨d :: ds, isDigits_cons.mpr ⟨d, ds, rfl, hc, hdb, hds⟩⟩
    · refine h.bad c s v o fun d hd => ?_
      by_contra hlt
      exact hc ⟨d, hd, by omega⟩

/-- Prefix values are bounded by the value of the whole string. -/
theorem le_foldl_value (b : Nat) (ds : List Nat) (a : Nat) :
    a * b ^ ds.length ≤ ds.foldl (fun a d => a * b + d) a := by
  rw [foldl_value]; omega

theorem max_pos (t : ITy) : 1 ≤ t.max := by
  obtain ⟨w, sgn⟩ := t
  cases w <;> cases sgn <;> simp [ITy.max, W.bits]

/-- No overflow while reading a digit string whose value fits the promoted type and is at most one above the
largest value of the type. -/
theorem LoopOK.no_overflow {t : ITy} {b : Nat} {L : List Nat → Int → Bool → Bool × Int × Bool}
    (h : LoopOK t b L) (hb : 2 ≤ b) {s ds : List Nat} (hd : IsDigits b s ds) : ∀ (v : Int) (a : Nat) (o : Bool),
    StoredAs t a v → (s ≠ [] → (a : Int) ≤ t.max) →
    ((ds.foldl (fun a d => a * b + d) a : Nat) : Int) ≤ t.prom.max →
    ((ds.foldl (fun a d => a * b + d) a : Nat) : Int) ≤ t.max + 1 →
    ∃ v', L s v o = (true, v', o) := by
  induction s generalizing ds with
  | nil =>
    intro v a o hv _ _ _
    exact ⟨v, h.nil v o⟩
  | cons c s ih =>
    intro v a o hv ha h1 h2
    have hva : v = a := hv.eq_of_fits (by have := min_nonpos t; omega) (ha (by simp))
    rw [isDigits_cons] at hd
    obtain ⟨d, ds, rfl, hc, hdb, hds⟩ := hd
    obtain ⟨v', o', e1, e2, e3⟩ := h.digit c s v o d hc hdb hv.1 hv.2.1
    rw [List.foldl_cons] at h1 h2
    have hle := le_foldl_value b ds (a * b + d)
    have hone : 1 ≤ b ^ ds.length := Nat.one_le_pow _ _ (by omega)
    have hle1 : (a * b + d) * 1 ≤ (a * b + d) * b ^ ds.length := Nat.mul_le_mul_left _ hone
    have ho : o' = false := by
      apply e3 (by omega)
      rw [hva]
      have : ((a * b + d : Nat) : Int) ≤ t.prom.max := by omega
      push_cast at this
      exact this
    rw [e1, ho, Bool.or_false]
    refine ih hds v' (a * b + d) o ?_ ?_ h1 h2
    · rw [hva] at e2; push_cast; exact e2
    · intro hs
      have hlen : ds ≠ [] := by
        rintro rfl
        cases s with
        | nil => simp at hs
        | cons c' s' => rw [isDigits_cons] at hds; obtain ⟨_, _, h, _⟩ := hds; simp at h
      obtain ⟨k, hk⟩ : ∃ k, ds.length = k + 1 := ⟨ds.length - 1, by
        have := List.length_pos_iff.mpr hlen; omega⟩
      have hpow : 2 ≤ b ^ ds.length := by
        rw [hk, Nat.pow_succ]
        have : 1 ≤ b ^ k := Nat.one_le_pow _ _ (by omega)
        have := Nat.mul_le_mul this hb
        omega
      have hle2 : (a * b + d) * 2 ≤ (a * b + d) * b ^ ds.length := Nat.mul_le_mul_left _ hpow
      have := max_pos t
      omega

end C4
