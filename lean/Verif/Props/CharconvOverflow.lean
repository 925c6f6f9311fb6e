import Verif.Props.CharconvRead
/-
Property C14, the other direction: when reading an integer does overflow.
-/
namespace C4
open Spec

/-- A radix loop that multiplies and adds. -/
structure MulLoop (t : ITy) (b : Nat) (L : List Nat → Int → Bool → Bool × Int × Bool) : Prop where
  nil : ∀ v o, L [] v o = (true, v, o)
  digit : ∀ c s v o d, charDigit c = some d → d < b → L (c :: s) v o = L s (mulAdd t b v d).1 (o || (mulAdd t b v d).2)

theorem readDec_mul (t : ITy) : MulLoop t 10 (readDecLoop t) where
  nil _ _ := rfl
  digit c s v o d hc hd := by
    obtain ⟨h1, h2, rfl⟩ := charDigit_lt10 hc hd
    rw [readDecLoop, if_neg (by omega)]

theorem readOct_mul (t : ITy) : MulLoop t 8 (readOctLoop t) where
  nil _ _ := rfl
  digit c s v o d hc hd := by
    obtain ⟨h1, h2, rfl⟩ := charDigit_lt10 hc (by omega)
    rw [readOctLoop, if_neg (by omega)]

theorem readHex_mul (t : ITy) : MulLoop t 16 (readHexLoop t) where
  nil _ _ := rfl
  digit c s v o d hc hd := by
    rcases charDigit_cases hc with ⟨h1, h2, rfl⟩ | ⟨h1, h2, rfl⟩ | ⟨h1, h2, rfl⟩
    · rw [readHexLoop, if_pos (by omega)]
    · rw [readHexLoop, if_neg (by omega), if_pos (by omega)]
    · rw [readHexLoop, if_neg (by omega), if_neg (by omega), if_pos (by omega)]

/-- A type whose arithmetic is its own and signed. -/
def Spec.OwnSigned (t : ITy) : Prop := t.sgn = true ∧ (t.w = .w32 ∨ t.w = .w64)

theorem own_prom {t : ITy} (h : OwnSigned t) : t.prom = t := by
  obtain ⟨w, sgn⟩ := t
  rcases h.2 with h | h <;> · simp only at h; subst h; rfl

theorem mulAdd_flag {t : ITy} (ht : OwnSigned t) {b : Nat} {v : Int} {d : Nat} (h0 : 0 ≤ v) :
    (mulAdd t b v d).2 = decide (v * b + d > t.max) := by
  have hvb : 0 ≤ v * b := Int.mul_nonneg h0 (by omega)
  have hm := min_nonpos t
  by_cases h : v * b + d > t.max
  · rw [decide_eq_true h]
    unfold mulAdd
    by_cases h2 : v * b > t.max
    · simp only [ITy.arith, own_prom ht, ht.1, decide_eq_true h2, Bool.or_true, Bool.and_true, Bool.true_or]
    · rw [arith_no_overflow (x := v * b) (by rw [own_prom ht]; omega) (by rw [own_prom ht]; omega)]
      simp only [ITy.arith, own_prom ht, ht.1, decide_eq_true h, Bool.or_true, Bool.and_true]
  · rw [decide_eq_false h]
    exact mulAdd_no_overflow h0 (by rw [own_prom ht]; omega)

theorem mulLoop_true {t : ITy} {b : Nat} {L : List Nat → Int → Bool → Bool × Int × Bool} (h : MulLoop t b L) {s ds : List Nat} (hd : IsDigits b s ds) :
    ∀ v, (L s v true).2.2 = true := by
  induction s generalizing ds with
  | nil => intro v; rw [h.nil]
  | cons c s ih =>
    intro v
    rw [isDigits_cons] at hd
    obtain ⟨d, ds, rfl, hc, hdb, hds⟩ := hd
    rw [h.digit c s v true d hc hdb, Bool.true_or]
    exact ih hds _

theorem mulLoop_flag {t : ITy} (ht : OwnSigned t) {b : Nat} (hb : 2 ≤ b) {L : List Nat → Int → Bool → Bool × Int × Bool} (h : MulLoop t b L)
    {s ds : List Nat} (hd : IsDigits b s ds) :
    ∀ a : Nat, (a : Int) ≤ t.max → (L s a false).2.2 = decide (((ds.foldl (fun a d => a * b + d) a : Nat) : Int) > t.max) := by
  induction s generalizing ds with
  | nil =>
    intro a ha
    rw [isDigits_nil] at hd
    subst hd
    rw [h.nil]
    symm
    rw [decide_eq_false_iff_not]
    simpa using ha
  | cons c s ih =>
    intro a ha
    rw [isDigits_cons] at hd
    obtain ⟨d, ds, rfl, hc, hdb, hds⟩ := hd
    rw [h.digit c s a false d hc hdb, Bool.false_or, mulAdd_flag ht (by omega), List.foldl_cons]
    by_cases hov : (a : Int) * b + d > t.max
    · rw [decide_eq_true hov, mulLoop_true h hds]
      symm
      rw [decide_eq_true_iff]
      have hle := le_foldl_value b ds (a * b + d)
      have hone : 1 ≤ b ^ ds.length := Nat.one_le_pow _ _ (by omega)
      have hle1 : (a * b + d) * 1 ≤ (a * b + d) * b ^ ds.length := Nat.mul_le_mul_left _ hone
      have : ((a * b + d : Nat) : Int) > t.max := by push_cast; exact hov
      omega
    · rw [decide_eq_false hov]
      have hv : (mulAdd t b a d).1 = ((a * b + d : Nat) : Int) := by
        have h0 : (0 : Int) ≤ (a : Int) * b := Int.mul_nonneg (by omega) (by omega)
        have hm := min_nonpos t
        rw [(mulAdd_stored t b a d).eq_of_fits (by omega) (by omega)]
        push_cast
        rfl
      rw [hv]
      exact ih hds (a * b + d) (by push_cast; omega)

/-- In the other types the promoted type has room for one more digit, or wraps. -/
theorem mulAdd_other {t : ITy} (ht : ¬ OwnSigned t) {b d : Nat} (hb : b ≤ 16) (hd : d < b) {v : Int} (h1 : t.min ≤ v) (h2 : v ≤ t.max) :
    (mulAdd t b v d).2 = false := by
  obtain ⟨w, sgn⟩ := t
  by_cases hs : (ITy.mk w sgn).prom.sgn = false
  · unfold mulAdd
    simp only [ITy.arith, hs, Bool.false_and, Bool.or_false]
  · have hw : w = .w8 ∨ w = .w16 := by
      cases w <;> cases sgn <;> simp_all [OwnSigned, ITy.prom]
    have hlo : -32768 ≤ v := by rcases hw with rfl | rfl <;> cases sgn <;> simp [ITy.min, W.bits] at h1 <;> omega
    have hhi : v ≤ 65535 := by rcases hw with rfl | rfl <;> cases sgn <;> simp [ITy.max, W.bits] at h2 <;> omega
    have hp : (ITy.mk w sgn).prom.min = -2147483648 ∧ (ITy.mk w sgn).prom.max = 2147483647 := by
      rcases hw with rfl | rfl <;> exact ⟨rfl, rfl⟩
    have hb0 : 0 < b := by omega
    have m1 : v * b ≤ 65535 * 16 := by
      by_cases h0 : 0 ≤ v
      · exact Int.mul_le_mul hhi (by omega) (by omega) (by omega)
      · have : v * b ≤ 0 := Int.mul_nonpos_of_nonpos_of_nonneg (by omega) (by omega)
        omega
    have m2 : -(32768 * 16) ≤ v * b := by
      have : -v * b ≤ 32768 * 16 ∨ 0 ≤ v * b := by
        by_cases h0 : 0 ≤ v
        · exact .inr (Int.mul_nonneg h0 (by omega))
        · exact .inl (Int.mul_le_mul (by omega) (by omega) (by omega) (by omega))
      rw [Int.neg_mul] at this
      omega
    unfold mulAdd
    rw [arith_no_overflow (x := v * b) (by omega) (by omega)]
    simp only
    rw [arith_no_overflow (x := v * b + d) (by omega) (by omega)]
    rfl

theorem mulLoop_other {t : ITy} (ht : ¬ OwnSigned t) {b : Nat} (hb : b ≤ 16) {L : List Nat → Int → Bool → Bool × Int × Bool} (h : MulLoop t b L)
    {s ds : List Nat} (hd : IsDigits b s ds) : ∀ v : Int, t.min ≤ v → v ≤ t.max → (L s v false).2.2 = false := by
  induction s generalizing ds with
  | nil => intro v _ _; rw [h.nil]
  | cons c s ih =>
    intro v h1 h2
    rw [isDigits_cons] at hd
    obtain ⟨d, ds, rfl, hc, hdb, hds⟩ := hd
    rw [h.digit c s v false d hc hdb, Bool.false_or, mulAdd_other ht hb hdb h1 h2]
    have := mulAdd_stored t b v d
    exact ih hds _ this.1 this.2.1

theorem mulLoop_exact {t : ITy} {b : Nat} (hb : 2 ≤ b) (hb2 : b ≤ 16) {L : List Nat → Int → Bool → Bool × Int × Bool} (h : MulLoop t b L)
    {s : List Nat} {n : Nat} (hd : DigitText b s n) : (L s 0 false).2.2 = true ↔ OwnSigned t ∧ (n : Int) > t.max := by
  obtain ⟨_, ds, hd, rfl⟩ := hd
  have hm := max_pos t
  by_cases ht : OwnSigned t
  · have := mulLoop_flag ht hb h hd 0 (by omega)
    rw [show ((0 : Nat) : Int) = 0 from rfl] at this
    rw [this, decide_eq_true_iff]
    exact ⟨fun h => ⟨ht, h⟩, fun h => h.2⟩
  · rw [mulLoop_other ht hb2 h hd 0 (min_nonpos t) (by omega)]
    simp [ht]

/-- The shifts. -/
theorem shl1_flag_signed {t : ITy} (ht : t.sgn = true) {v : Int} (h1 : t.min ≤ v) (h2 : v ≤ t.max) : (shl1 t v).2 = decide (v < 0) := by
  obtain ⟨w, sgn⟩ := t
  simp only at ht
  subst ht
  unfold shl1
  by_cases h0 : v < 0
  · rw [decide_eq_true h0]
    cases w <;> simp [ITy.prom]
  · rw [decide_eq_false h0]
    cases w <;> simp [ITy.prom, ITy.max, W.bits] at h2 ⊢ <;> omega

theorem shl1_flag_unsigned {t : ITy} (ht : t.sgn = false) {v : Int} (h1 : t.min ≤ v) (h2 : v ≤ t.max) : (shl1 t v).2 = false := by
  obtain ⟨w, sgn⟩ := t
  simp only at ht
  subst ht
  unfold shl1
  cases w <;> simp [ITy.prom, ITy.min, ITy.max, W.bits] at h1 h2 ⊢ <;> omega

theorem readBinLoop_step (t : ITy) (c : Nat) (s : List Nat) (v : Int) (o : Bool) (d : Nat) (hc : charDigit c = some d) (hd : d < 2) :
    readBinLoop t (c :: s) v o = readBinLoop t s ((shl1 t v).1 + d) (o || (shl1 t v).2) := by
  obtain ⟨h1, h2, rfl⟩ := charDigit_lt10 hc (by omega)
  rw [readBinLoop]
  have : c = 48 ∨ c = 49 := by omega
  rcases this with rfl | rfl <;> simp

theorem readBin_true {t : ITy} {s ds : List Nat} (hd : IsDigits 2 s ds) : ∀ v, (readBinLoop t s v true).2.2 = true := by
  induction s generalizing ds with
  | nil => intro v; rfl
  | cons c s ih =>
    intro v
    rw [isDigits_cons] at hd
    obtain ⟨d, ds, rfl, hc, hdb, hds⟩ := hd
    rw [readBinLoop_step t c s v true d hc hdb, Bool.true_or]
    exact ih hds _

theorem readBin_flag {t : ITy} (ht : t.sgn = true) {s ds : List Nat} (hd : IsDigits 2 s ds) :
    ∀ (a : Nat) (v : Int), a < 2 ^ t.w.bits → StoredAs t a v →
      (readBinLoop t s v false).2.2 = decide (ds.foldl (fun a d => a * 2 + d) a ≥ 2 ^ t.w.bits) := by
  induction s generalizing ds with
  | nil =>
    intro a v ha hv
    rw [isDigits_nil] at hd
    subst hd
    symm
    rw [readBinLoop, decide_eq_false_iff_not]
    simpa using ha
  | cons c s ih =>
    intro a v ha hv
    rw [isDigits_cons] at hd
    obtain ⟨d, ds, rfl, hc, hdb, hds⟩ := hd
    rw [readBinLoop_step t c s v false d hc hdb, Bool.false_or, shl1_flag_signed ht hv.1 hv.2.1, List.foldl_cons]
    have hneg : v < 0 ↔ a * 2 + d ≥ 2 ^ t.w.bits := by
      obtain ⟨w, sgn⟩ := t
      simp only at ht
      subst ht
      obtain ⟨q1, q2, q3⟩ := hv
      cases w <;> simp [ITy.min, ITy.max, W.bits] at q1 q2 q3 ha ⊢ <;> omega
    by_cases hov : v < 0
    · rw [decide_eq_true hov, readBin_true hds]
      symm
      rw [decide_eq_true_iff]
      have h5 := hneg.mp hov
      have hle := le_foldl_value 2 ds (a * 2 + d)
      have hone : 1 ≤ 2 ^ ds.length := Nat.one_le_pow _ _ (by omega)
      have hle1 : (a * 2 + d) * 1 ≤ (a * 2 + d) * 2 ^ ds.length := Nat.mul_le_mul_left _ hone
      omega
    · rw [decide_eq_false hov]
      refine ih hds (a * 2 + d) _ (by have := mt hneg.mpr hov; omega) ?_
      have hst : StoredAs t (v * 2 + d) ((shl1 t v).1 + d) := by
        have : d = 0 ∨ d = 1 := by omega
        rcases this with rfl | rfl
        · simpa using shl1_stored t v
        · exact_mod_cast shl1_even_add t v
      refine hst.congr ?_
      have := Dvd.dvd.mul_right hv.2.2 (2 : Int)
      push_cast
      ring_nf at this ⊢
      exact this

theorem readBin_other {t : ITy} (ht : t.sgn = false) {s ds : List Nat} (hd : IsDigits 2 s ds) :
    ∀ v : Int, t.min ≤ v → v ≤ t.max → (readBinLoop t s v false).2.2 = false := by
  induction s generalizing ds with
  | nil => intro v _ _; rfl
  | cons c s ih =>
    intro v h1 h2
    rw [isDigits_cons] at hd
    obtain ⟨d, ds, rfl, hc, hdb, hds⟩ := hd
    rw [readBinLoop_step t c s v false d hc hdb, Bool.false_or, shl1_flag_unsigned ht h1 h2]
    have hst : StoredAs t (v * 2 + d) ((shl1 t v).1 + d) := by
      have : d = 0 ∨ d = 1 := by omega
      rcases this with rfl | rfl
      · simpa using shl1_stored t v
      · exact_mod_cast shl1_even_add t v
    exact ih hds _ hst.1 hst.2.1

theorem readBin_exact {t : ITy} {s : List Nat} {n : Nat} (hd : DigitText 2 s n) : (readBin t s).2.2 = true ↔ t.sgn = true ∧ n ≥ 2 ^ t.w.bits := by
  obtain ⟨_, ds, hd, rfl⟩ := hd
  unfold readBin
  by_cases ht : t.sgn = true
  · rw [readBin_flag ht hd 0 0 (Nat.pow_pos (by omega)) (zero_stored t), decide_eq_true_iff]
    exact ⟨fun h => ⟨ht, h⟩, fun h => h.2⟩
  · have hf : t.sgn = false := by simpa using ht
    rw [readBin_other hf hd 0 (min_nonpos t) (by have := max_pos t; omega)]
    simp [hf]

/-- C14, exactly when reading digits overflows: decimal, hexadecimal and octal digits exactly if the type is `int` or a wider signed type and the number
is larger than its largest value; binary digits exactly if the type is signed, of any width, and the number has more bits than the type. -/
theorem C14_digits_exact (t : ITy) (s : List Nat) (n : Nat) :
    (DigitText 10 s n → ((readDec t s).2.2 = true ↔ (t.sgn = true ∧ (t.w = .w32 ∨ t.w = .w64)) ∧ (n : Int) > t.max)) ∧
    (DigitText 16 s n → ((readHex t s).2.2 = true ↔ (t.sgn = true ∧ (t.w = .w32 ∨ t.w = .w64)) ∧ (n : Int) > t.max)) ∧
    (DigitText 8 s n → ((readOct t s).2.2 = true ↔ (t.sgn = true ∧ (t.w = .w32 ∨ t.w = .w64)) ∧ (n : Int) > t.max)) ∧
    (DigitText 2 s n → ((readBin t s).2.2 = true ↔ t.sgn = true ∧ n ≥ 2 ^ t.w.bits)) :=
  ⟨mulLoop_exact (by omega) (by omega) (readDec_mul t), mulLoop_exact (by omega) (by omega) (readHex_mul t),
    mulLoop_exact (by omega) (by omega) (readOct_mul t), readBin_exact⟩

example : (readDec ⟨.w32, true⟩ (S "2147483647")).2.2 = false ∧ (readDec ⟨.w32, true⟩ (S "2147483648")).2.2 = true ∧
    (readDec ⟨.w16, true⟩ (S "99999999999")).2.2 = false ∧ (readBin ⟨.w8, true⟩ (S "11111111")).2.2 = false ∧
    (readBin ⟨.w8, true⟩ (S "111111111")).2.2 = true ∧ (readHex ⟨.w64, true⟩ (S "8000000000000000")).2.2 = true := by decide +kernel

theorem magBody_exact {t : ITy} (ht : OwnSigned t) {s : List Nat} {n : Nat} (hd : UintDenotes s n) (hbin : ¬ ∃ c r, s = 48 :: c :: r ∧ radixOf c = some 2) :
    (magBody t s).2.2 = true ↔ (n : Int) > t.max := by
  have hs : s ≠ [] := by obtain ⟨c, s', rfl, _⟩ := hd.head; simp
  have fin : ∀ {P : Prop} {b : Bool}, (b = true ↔ OwnSigned t ∧ P) → (b = true ↔ P) := fun h => h.trans ⟨fun h => h.2, fun h => ⟨ht, h⟩⟩
  unfold magBody
  split
  · rename_i c s'
    split
    · rename_i r hr
      obtain ⟨m, hm, e⟩ := (uintInt_pre hr n).mpr ⟨n, hd, rfl⟩
      have e' : n = m := by omega
      subst e'
      split
      · rename_i hnil
        subst hnil
        exact absurd rfl hm.1
      · rcases radixOf_cases hr with ⟨rfl, _⟩ | ⟨rfl, _⟩ | ⟨rfl, _⟩
        · rw [if_pos rfl]; exact fin (mulLoop_exact (by omega) (by omega) (readHex_mul t) hm)
        · rw [if_neg (by omega), if_neg (by omega)]; exact fin (mulLoop_exact (by omega) (by omega) (readOct_mul t) hm)
        · exact absurd ⟨c, s', rfl, hr⟩ hbin
    · rename_i hr
      obtain ⟨m, hm, e⟩ := (uintInt_dec (by
        rintro ⟨c', s'', _, h, h'⟩
        injection h with h1 h2
        rw [h1] at hr; rw [hr] at h'; simp at h') n).mpr ⟨n, hd, rfl⟩
      have e' : n = m := by omega
      subst e'
      exact fin (mulLoop_exact (by omega) (by omega) (readDec_mul t) hm)
  · rename_i hn
    cases s with
    | nil => exact absurd rfl hs
    | cons c s =>
      obtain ⟨m, hm, e⟩ := (uintInt_dec (by
        rintro ⟨c', s'', rfl, rfl, _⟩
        exact hn c' s'' rfl) n).mpr ⟨n, hd, rfl⟩
      have e' : n = m := by omega
      subst e'
      exact fin (mulLoop_exact (by omega) (by omega) (readDec_mul t) hm)

/-- C14, exactly when `atoi` overflows in `int` and the wider signed types, for a text that is not binary: if the number without its sign is
larger than the largest value.  So the smallest value is the only number in the range whose reading overflows. -/
theorem C14_atoi_exact (t : ITy) (ht : t.sgn = true ∧ (t.w = .w32 ∨ t.w = .w64)) (s : List Nat) (n : Nat) (hd : UintDenotes s n)
    (hbin : ¬ ∃ c r, s = 48 :: c :: r ∧ radixOf c = some 2) :
    ∃ v v', atoi t s = .ok (true, v, decide ((n : Int) > t.max)) ∧ atoi t (45 :: s) = .ok (true, v', decide ((n : Int) > t.max)) := by
  have hex := magBody_exact ht hd hbin
  obtain ⟨c, s', rfl, hc1, hc2⟩ := hd.head
  have hrd := magBody_reads t (s := c :: s') (by simp)
  have hok : (magBody t (c :: s')).1 = true := hrd.1.mpr ⟨n, n, hd, rfl⟩
  have hst := hrd.2 n ⟨n, hd, rfl⟩
  rw [atoi_eq_pos _ (by omega), atoi_eq_neg]
  generalize magBody t (c :: s') = r at hex hok hst ⊢
  obtain ⟨ok, v, o⟩ := r
  simp only at hex hok hst
  subst hok
  have ho : o = decide ((n : Int) > t.max) := by
    by_cases h : (n : Int) > t.max
    · rw [decide_eq_true h, hex.mpr h]
    · rw [decide_eq_false h]; exact Bool.eq_false_iff.mpr (mt hex.mp h)
  have hneg : ∀ sg : Int, sg = 1 ∨ sg = -1 → (o || (mulSign t v sg).2) = decide ((n : Int) > t.max) := by
    intro sg hsg
    by_cases h : (n : Int) > t.max
    · rw [ho, decide_eq_true h, Bool.true_or]
    · have hv : v = n := hst.eq_of_fits (by have := min_nonpos t; omega) (by omega)
      have hmm : t.min = -(t.max + 1) := by
        obtain ⟨w, sgn⟩ := t
        obtain ⟨h1, h2⟩ := ht
        simp only at h1 h2
        subst h1
        rcases h2 with rfl | rfl <;> rfl
      rw [ho, decide_eq_false h, Bool.false_or]
      unfold mulSign
      rw [arith_no_overflow]
      · rw [own_prom ht]; rcases hsg with rfl | rfl <;> omega
      · rw [own_prom ht]; rcases hsg with rfl | rfl <;> omega
  refine ⟨(mulSign t v 1).1, (mulSign t v (-1)).1, ?_, ?_⟩
  · simp only [withSign, if_true]
    rw [hneg 1 (.inl rfl)]
  · simp only [withSign, if_true]
    rw [hneg (-1) (.inr rfl)]

example : UintDenotes (S "2147483648") 2147483648 ∧ atoi ⟨.w32, true⟩ (S "-2147483648") = .ok (true, -2147483648, true) ∧
    atoi ⟨.w32, true⟩ (S "-0x7fffffff") = .ok (true, -2147483647, false) := by
  refine ⟨.dec ⟨by decide, [2, 1, 4, 7, 4, 8, 3, 6, 4, 8], ⟨rfl, by decide⟩, by decide⟩, by decide +kernel, by decide +kernel⟩

end C4
