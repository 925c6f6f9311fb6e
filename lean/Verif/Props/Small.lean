import Verif.Small
/-
Properties C77 to C80, C100, C104, C105: hashing, size conversions, sizes, integer sequences, character traits.
-/
namespace C4

/-! ### Multiplication by odd constants modulo 2^w -/

theorem mul_inv_cancel {m p q : Nat} (h : p * q % m = 1 % m) (x : Nat) : (x * p % m) * q % m = x % m := by
  rw [Nat.mod_mul_mod, Nat.mul_assoc, Nat.mul_mod, h, ← Nat.mul_mod, Nat.mul_one]

theorem mul_inj {m p q : Nat} (h : p * q % m = 1 % m) {x y : Nat} (hx : x < m) (hy : y < m) (e : x * p % m = y * p % m) : x = y := by
  have h1 := mul_inv_cancel h x
  have h2 := mul_inv_cancel h y
  rw [e, h2, Nat.mod_eq_of_lt hx, Nat.mod_eq_of_lt hy] at h1
  exact h1.symm

theorem xor_cancel_r (a c : Nat) : (a ^^^ c) ^^^ c = a := by rw [Nat.xor_assoc, Nat.xor_self, Nat.xor_zero]

theorem xor_inj_r {a b c : Nat} (h : a ^^^ c = b ^^^ c) : a = b := by
  rw [← xor_cancel_r a c, h, xor_cancel_r]

/-! ### C77 -/

/-- The hash functions provided. -/
def IsFnv (f : Fnv) : Prop := f = fnv32 ∨ f = fnv64

theorem fnv_step {f : Fnv} (h : IsFnv f) (acc c : Nat) : f.step acc c = ((acc ^^^ c) * f.prime) % 2 ^ f.w.bits := by
  unfold Fnv.step
  apply Nat.mod_mod_of_dvd
  apply Nat.pow_dvd_pow
  rcases h with rfl | rfl <;> decide

theorem fnv_inv {f : Fnv} (h : IsFnv f) : ∃ q, f.prime * q % 2 ^ f.w.bits = 1 % 2 ^ f.w.bits := by
  rcases h with rfl | rfl
  · exact ⟨899433627, by decide⟩
  · exact ⟨14886173955864302971, by decide⟩

theorem fnv_byte {f : Fnv} (h : IsFnv f) {c : Nat} (hc : c < 256) : c < 2 ^ f.w.bits := by
  rcases h with rfl | rfl
  · exact Nat.lt_of_lt_of_le hc (by decide)
  · exact Nat.lt_of_lt_of_le hc (by decide)

/-- **C77**: feeding data in any number of chunks is the same as feeding it at once. -/
theorem C77_chunks (f : Fnv) (s : Nat) (chunks : List (List Nat)) :
    chunks.foldl f.update s = f.update s chunks.flatten := by
  have happ : ∀ (a b : List Nat) (s : Nat), f.update s (a ++ b) = f.update (f.update s a) b := by
    intro a b
    induction a with
    | nil => intro s; rfl
    | cons c a ih => intro s; exact ih _
  induction chunks generalizing s with
  | nil => rfl
  | cons c cs ih => rw [List.foldl_cons, ih, List.flatten_cons, happ]

/-- **C77**: `hash_bytes` is FNV-1a with the published 64-bit parameters: from the offset basis, for each byte, XOR then multiply by the
prime modulo 2^64. -/
theorem C77_fnv1a (data : List Nat) :
    hashBytes data = data.foldl (fun h c => ((h ^^^ c) * 0x100000001b3) % 2 ^ 64) 0xcbf29ce484222325 := by
  unfold hashBytes
  have key : ∀ (data : List Nat) (s : Nat), fnv64.update s data = data.foldl (fun h c => ((h ^^^ c) * 0x100000001b3) % 2 ^ 64) s := by
    intro data
    induction data with
    | nil => intro s; rfl
    | cons c cs ih =>
      intro s
      rw [Fnv.update, ih, List.foldl_cons, fnv_step (.inr rfl)]
      rfl
  exact key data _

example : hashBytes [] = 0xcbf29ce484222325 ∧ hashBytes (S "a") = 0xaf63dc4c8601ec8c ∧ hashBytes (S "foobar") = 0x85944171f73967e8 ∧
    fnv32.update fnv32.basis (S "foobar") = 0xbf9cf968 := by decide +kernel

/-- **C77**: each step with a byte is a bijection of the states. -/
theorem C77_bijective {f : Fnv} (h : IsFnv f) {c : Nat} (hc : c < 256) :
    (∀ s, f.step s c < 2 ^ f.w.bits) ∧
    (∀ s s', s < 2 ^ f.w.bits → s' < 2 ^ f.w.bits → f.step s c = f.step s' c → s = s') ∧
    (∀ r, r < 2 ^ f.w.bits → ∃ s, s < 2 ^ f.w.bits ∧ f.step s c = r) := by
  obtain ⟨q, hq⟩ := fnv_inv h
  have hcw := fnv_byte h hc
  refine ⟨fun s => ?_, fun s s' hs hs' e => ?_, fun r hr => ?_⟩
  · rw [fnv_step h]; exact Nat.mod_lt _ (Nat.two_pow_pos _)
  · rw [fnv_step h, fnv_step h] at e
    have := mul_inj hq (Nat.xor_lt_two_pow hs hcw) (Nat.xor_lt_two_pow hs' hcw) e
    exact xor_inj_r this
  · refine ⟨(r * q % 2 ^ f.w.bits) ^^^ c, Nat.xor_lt_two_pow (Nat.mod_lt _ (Nat.two_pow_pos _)) hcw, ?_⟩
    rw [fnv_step h, xor_cancel_r]
    have := mul_inv_cancel (m := 2 ^ f.w.bits) (p := q) (q := f.prime) (by rw [Nat.mul_comm]; exact hq) r
    rw [this, Nat.mod_eq_of_lt hr]

/-- **C77**: data that differ in exactly one byte have different hashes, for any data before and after it. -/
theorem C77_one_byte {a b : List Nat} {c d : Nat} (hb : ∀ x ∈ b, x < 256) (hc : c < 256) (hd : d < 256) (hne : c ≠ d) :
    hashBytes (a ++ c :: b) ≠ hashBytes (a ++ d :: b) := by
  have hf : IsFnv fnv64 := .inr rfl
  have happ : ∀ (a b : List Nat) (s : Nat), fnv64.update s (a ++ b) = fnv64.update (fnv64.update s a) b := by
    intro a b
    induction a with
    | nil => intro s; rfl
    | cons c a ih => intro s; exact ih _
  have hlt : ∀ (l : List Nat) (s : Nat), s < 2 ^ 64 → fnv64.update s l < 2 ^ 64 := by
    intro l
    induction l with
    | nil => intro s hs; exact hs
    | cons c l ih =>
      intro s _
      apply ih
      rw [fnv_step hf]
      exact Nat.mod_lt _ (Nat.two_pow_pos _)
  have hinj : ∀ (l : List Nat), (∀ x ∈ l, x < 256) → ∀ s s', s < 2 ^ 64 → s' < 2 ^ 64 →
      fnv64.update s l = fnv64.update s' l → s = s' := by
    intro l
    induction l with
    | nil => intro _ s s' _ _ e; exact e
    | cons c l ih =>
      intro hl s s' hs hs' e
      have hc := hl c (.head _)
      obtain ⟨h1, h2, _⟩ := C77_bijective hf hc
      exact h2 s s' hs hs' (ih (fun x hx => hl x (.tail _ hx)) _ _ (h1 s) (h1 s') e)
  intro e
  unfold hashBytes at e
  rw [happ, happ, Fnv.update, Fnv.update] at e
  have hs : fnv64.update fnv64.basis a < 2 ^ 64 := hlt a _ (by decide)
  generalize fnv64.update fnv64.basis a = s at e hs
  have e2 := hinj b hb _ _ ((C77_bijective hf hc).1 s) ((C77_bijective hf hd).1 s) e
  rw [fnv_step hf, fnv_step hf] at e2
  obtain ⟨q, hq⟩ := fnv_inv hf
  have e3 := mul_inj hq (Nat.xor_lt_two_pow hs (fnv_byte hf hc)) (Nat.xor_lt_two_pow hs (fnv_byte hf hd)) e2
  rw [Nat.xor_comm s, Nat.xor_comm s] at e3
  exact hne (xor_inj_r e3)

example : hashBytes (S "ab") ≠ hashBytes (S "bb") := by decide +kernel

/-! ### C100 -/

/-- **C100 is false**: the overload for arrays hashes the terminator of a string literal too. -/
theorem C100_refuted : hashLiteral (S "abc") ≠ hashBytes (S "abc") := by decide +kernel

/-- **C100 is false** for almost every text: the two hashes are equal only if the hash of the text is 0 or 2^63. -/
theorem C100_refuted_iff (text : List Nat) : hashLiteral text = hashBytes text ↔ hashBytes text = 0 ∨ hashBytes text = 2 ^ 63 := by
  have e : hashLiteral text = hashBytes text * 0x100000001b3 % 2 ^ 64 := by
    have : hashLiteral text = hashBytes (text ++ [0]) := by unfold hashLiteral hashBytes; rfl
    rw [this, C77_fnv1a, List.foldl_append, ← C77_fnv1a, List.foldl_cons, List.foldl_nil, Nat.xor_zero]
  have hlt : hashBytes text < 2 ^ 64 := by
    rcases List.eq_nil_or_concat text with rfl | ⟨l, c, rfl⟩
    · decide +kernel
    · rw [C77_fnv1a, List.concat_eq_append, List.foldl_append, List.foldl_cons, List.foldl_nil]
      exact Nat.mod_lt _ (Nat.two_pow_pos _)
  rw [e]
  generalize hashBytes text = h at hlt
  have key : ∀ t, h * 0x100000001b3 = 2 ^ 64 * t + h → h = 0 ∨ h = 2 ^ 63 := by
    intro t ht
    have h1 : h * 549755814105 = 2 ^ 63 * t := by
      have e1 : (0x100000001b3 : Nat) = 549755814105 * 2 + 1 := by decide +kernel
      have e2 : (2 : Nat) ^ 64 = 2 ^ 63 * 2 := by decide +kernel
      rw [e1, e2, Nat.mul_add, Nat.mul_one, ← Nat.mul_assoc, Nat.mul_right_comm _ 2 t] at ht
      exact Nat.eq_of_mul_eq_mul_right (by decide) (Nat.add_right_cancel ht)
    have h2 : 2 ^ 63 ∣ h := by
      have hc : Nat.Coprime (2 ^ 63) 549755814105 := Nat.Coprime.pow_left 63 (by decide +kernel)
      exact hc.dvd_of_dvd_mul_right ⟨t, h1⟩
    obtain ⟨k, rfl⟩ := h2
    omega
  constructor
  · intro he
    have hd := Nat.div_add_mod (h * 0x100000001b3) (2 ^ 64)
    rw [he] at hd
    exact key _ hd.symm
  · rintro (rfl | rfl) <;> decide +kernel

/-- **C100**, what holds: it is the published FNV-1a of the text followed by a zero byte, so equal literals have equal hashes and
literals of equal length that differ in one byte have different ones.  Missing: the hash of the text alone (false, see above). -/
theorem C100_terminator_partial (text : List Nat) :
    hashLiteral text = (text ++ [0]).foldl (fun h c => ((h ^^^ c) * 0x100000001b3) % 2 ^ 64) 0xcbf29ce484222325 := by
  have : hashLiteral text = hashBytes (text ++ [0]) := by unfold hashLiteral hashBytes; rfl
  rw [this, C77_fnv1a]

example : hashLiteral (S "a") = hashBytes [97, 0] := by decide +kernel

/-! ### C78 -/

/-- **C78 is false**: a negative size is converted to an unsigned type of the same or a larger width without a check. -/
theorem C78_refuted :
    szconv ⟨.w64, false⟩ ⟨.w32, true⟩ (-1) = .ok (2 ^ 64 - 1) ∧ szconv ⟨.w32, false⟩ ⟨.w32, true⟩ (-1) = .ok (2 ^ 32 - 1) := by
  decide +kernel

/-- **C78**, what holds: every non-negative size is preserved if it is representable, and reported if not; negative sizes
are reported if the type is narrower.  Missing: negative sizes for other types (false, see `C78_refuted`). -/
theorem C78_szconv_partial (out inp : ITy) {sz : Int} (h1 : inp.min ≤ sz) (h2 : sz ≤ inp.max) :
    (0 ≤ sz → szconv out inp sz = if sz ≤ out.max then .ok sz else .abort) ∧
    (sz < 0 → isNarrower out inp = true → szconv out inp sz = .abort) := by
  have hmax : isNarrower out inp = true → szMax out inp = out.max := by
    obtain ⟨w1, s1⟩ := out
    obtain ⟨w2, s2⟩ := inp
    cases w1 <;> cases w2 <;> cases s1 <;> cases s2 <;> decide +kernel
  have hmax2 : isNarrower out inp = false → inp.max ≤ out.max := by
    obtain ⟨w1, s1⟩ := out
    obtain ⟨w2, s2⟩ := inp
    cases w1 <;> cases w2 <;> cases s1 <;> cases s2 <;> decide +kernel
  have hwrap : 0 ≤ sz → sz ≤ out.max → out.wrap sz = sz := by
    intro h0 hm
    obtain ⟨w1, s1⟩ := out
    unfold ITy.wrap
    unfold ITy.max at hm
    cases s1 with
    | false =>
      simp only [Bool.false_eq_true, if_false] at hm ⊢
      exact Int.emod_eq_of_lt h0 (by omega)
    | true =>
      simp only [if_true] at hm ⊢
      apply Int.bmod_eq_of_le
      · cases w1 <;> simp [W.bits] at * <;> omega
      · cases w1 <;> simp [W.bits] at * <;> omega
  unfold szconv
  constructor
  · intro h0
    cases hn : isNarrower out inp with
    | true =>
      rw [if_pos rfl, if_pos h0, hmax hn]
      split
      · next h => rw [hwrap h0 h]
      · rfl
    | false =>
      have := hmax2 hn
      rw [if_neg (by simp), hwrap h0 (by omega), if_pos (by omega)]
  · intro h0 hn
    rw [if_pos hn, if_neg (by omega)]

/-- **C78**, negative sizes for types that are not narrower, exactly: a signed type has the value, an unsigned one gets it modulo 2 to its width. -/
theorem C78_negative (out inp : ITy) {sz : Int} (h1 : inp.min ≤ sz) (h0 : sz < 0) (hn : isNarrower out inp = false) :
    szconv out inp sz = .ok (if out.sgn then sz else 2 ^ out.w.bits + sz) := by
  unfold szconv
  rw [hn, if_neg (by simp)]
  congr 1
  obtain ⟨w1, s1⟩ := out
  obtain ⟨w2, s2⟩ := inp
  unfold ITy.wrap
  cases s2
  · unfold ITy.min at h1
    simp only [Bool.false_eq_true, if_false] at h1
    omega
  · cases s1
    · simp only [Bool.false_eq_true, if_false]
      rw [← Int.add_emod_right]
      unfold ITy.min at h1
      cases w1 <;> cases w2 <;> simp [W.bits, W.bytes, isNarrower] at * <;> omega
    · simp only [if_true]
      unfold ITy.min at h1
      apply Int.bmod_eq_of_le
      · cases w1 <;> cases w2 <;> simp [W.bits, W.bytes, isNarrower] at * <;> omega
      · cases w1 <;> cases w2 <;> simp [W.bits, W.bytes, isNarrower] at * <;> omega

example : szconv ⟨.w64, true⟩ ⟨.w8, true⟩ (-5) = .ok (-5) ∧ szconv ⟨.w16, false⟩ ⟨.w8, true⟩ (-5) = .ok 65531 := by decide +kernel

example : szconv ⟨.w8, true⟩ ⟨.w64, false⟩ 127 = .ok 127 ∧ szconv ⟨.w8, true⟩ ⟨.w64, false⟩ 128 = .abort ∧
    szconv ⟨.w16, false⟩ ⟨.w64, true⟩ (-1) = .abort ∧ szconv ⟨.w64, true⟩ ⟨.w8, false⟩ 255 = .ok 255 := by decide +kernel

/-! ### C79 -/

theorem seqExtra_eq {n r : Nat} (hr : r < 8) (hn : r ≤ n) : seqExtra n r = (List.range r).map fun i => n - r + i := by
  have : r = 0 ∨ r = 1 ∨ r = 2 ∨ r = 3 ∨ r = 4 ∨ r = 5 ∨ r = 6 ∨ r = 7 := by omega
  rcases this with rfl | rfl | rfl | rfl | rfl | rfl | rfl | rfl <;>
    simp [seqExtra, List.range_succ] <;> omega

theorem range_split (a b : Nat) : List.range (a + b) = List.range a ++ (List.range b).map (a + ·) := by
  rw [List.range_add]

theorem seqMake_eq (fuel : Nat) : ∀ n, n ≤ fuel → seqMake fuel n = some (List.range n) := by
  induction fuel with
  | zero =>
    intro n hn
    have : n = 0 := by omega
    subst this
    rfl
  | succ fuel ih =>
    intro n hn
    by_cases h8 : n < 8
    · have : n = 0 ∨ n = 1 ∨ n = 2 ∨ n = 3 ∨ n = 4 ∨ n = 5 ∨ n = 6 ∨ n = 7 := by omega
      rcases this with rfl | rfl | rfl | rfl | rfl | rfl | rfl | rfl <;> rfl
    · have e : seqMake (fuel + 1) n = (seqMake fuel (n / 8)).map fun np => seqRepeat np (seqExtra n (n % 8)) := by
        conv => lhs; unfold seqMake
        split <;> first | omega | rfl | (next h _ _ _ _ _ _ _ _ => cases h; rfl)
      have hm := ih (n / 8) (by omega)
      rw [e, hm, Option.map_some]
      congr 1
      have hr : n % 8 < 8 := Nat.mod_lt _ (by omega)
      rw [seqExtra_eq hr (Nat.mod_le _ _)]
      generalize hm' : n / 8 = m at *
      generalize hr' : n % 8 = r at *
      have hn' : n = m + m + m + m + m + m + m + m + r := by omega
      have hsub : n - r = m + m + m + m + m + m + m + m := by omega
      rw [hsub]
      conv => rhs; rw [hn']
      unfold seqRepeat
      rw [range_split, range_split, range_split, range_split, range_split, range_split, range_split, range_split]
      simp only [List.length_range]
      have e2 : 2 * m = m + m := by omega
      have e3 : 3 * m = m + m + m := by omega
      have e4 : 4 * m = m + m + m + m := by omega
      have e5 : 5 * m = m + m + m + m + m := by omega
      have e6 : 6 * m = m + m + m + m + m + m := by omega
      have e7 : 7 * m = m + m + m + m + m + m + m := by omega
      rw [e2, e3, e4, e5, e6, e7]

/-- **C79**: `make_integer_sequence<T, N>` is 0, 1, ..., N-1 for every N representable in `T`. -/
theorem C79_sequence (t : ITy) {n : Nat} (hn : (n : Int) ≤ t.max) :
    makeIntegerSequence t n = some ((List.range n).map fun i : Nat => (i : Int)) := by
  unfold makeIntegerSequence
  rw [seqMake_eq n n (Nat.le_refl _), Option.map_some]
  congr 1
  apply List.map_congr_left
  intro i hi
  have hi := List.mem_range.mp hi
  obtain ⟨w1, s1⟩ := t
  unfold ITy.wrap
  unfold ITy.max at hn
  cases s1 with
  | false =>
    simp only [Bool.false_eq_true, if_false] at hn ⊢
    exact Int.emod_eq_of_lt (by omega) (by omega)
  | true =>
    simp only [if_true] at hn ⊢
    apply Int.bmod_eq_of_le
    · cases w1 <;> simp [W.bits] at * <;> omega
    · cases w1 <;> simp [W.bits] at * <;> omega

example : makeIntegerSequence ⟨.w8, true⟩ 100 = some ((List.range 100).map fun i : Nat => (i : Int)) := by decide +kernel

/-! ### C80 -/

/-- **C80**: `MinSized<T, Min>` has the smallest size that is at least that of `T` and at least `Min`. -/
theorem C80_min (size min : Nat) :
    size ≤ minSized size min ∧ min ≤ minSized size min ∧ ∀ k, size ≤ k → min ≤ k → minSized size min ≤ k := by
  unfold minSized paddedSize minRemainder
  split
  · exact ⟨by omega, by omega, fun k _ _ => by omega⟩
  · exact ⟨by omega, by omega, fun k _ _ => by omega⟩

/-- **C80**: `MultSized<T, Mult>` has the smallest size that is at least that of `T` and a multiple of `Mult`. -/
theorem C80_mult (size : Nat) {mult : Nat} (hm : 0 < mult) :
    size ≤ multSized size mult ∧ mult ∣ multSized size mult ∧ ∀ k, size ≤ k → mult ∣ k → multSized size mult ≤ k := by
  unfold multSized paddedSize multRemainder
  have hlt := Nat.mod_lt size hm
  have hd := Nat.div_add_mod size mult
  split
  · next h =>
    have e : size + (mult - size % mult) = mult * (size / mult + 1) := by
      rw [Nat.mul_add, Nat.mul_one]; omega
    refine ⟨by omega, ⟨size / mult + 1, e⟩, ?_⟩
    rintro k hk ⟨j, rfl⟩
    rw [e]
    apply Nat.mul_le_mul_left
    rcases Nat.lt_or_ge (size / mult) j with hj | hj
    · exact hj
    · have := Nat.mul_le_mul_left mult hj
      omega
  · next h =>
    have h0 : size % mult = 0 := by omega
    refine ⟨by omega, ?_, fun k hk _ => by omega⟩
    rw [Nat.add_zero]
    exact Nat.dvd_of_mod_eq_zero h0

/-- **C80**: `MinMultSized<T, Min, Mult>` has the smallest size that is at least that of `T`, at least `Min`, and a multiple of
`Mult`. -/
theorem C80_min_mult (size min : Nat) {mult : Nat} (hm : 0 < mult) :
    size ≤ minMultSized size min mult ∧ min ≤ minMultSized size min mult ∧ mult ∣ minMultSized size min mult ∧
      ∀ k, size ≤ k → min ≤ k → mult ∣ k → minMultSized size min mult ≤ k := by
  unfold minMultSized
  obtain ⟨a1, a2, a3⟩ := C80_min size min
  obtain ⟨b1, b2, b3⟩ := C80_mult (minSized size min) hm
  exact ⟨by omega, by omega, b2, fun k h1 h2 h3 => b3 k (a3 k h1 h2) h3⟩

/-- **C80**: a uniform buffer has at least 64 bytes, in multiples of 16. -/
theorem C80_ubuf (size : Nat) : size ≤ ubufSized size ∧ 64 ≤ ubufSized size ∧ 16 ∣ ubufSized size := by
  obtain ⟨h1, h2, h3, _⟩ := C80_min_mult size 64 (mult := 16) (by omega)
  exact ⟨h1, h2, h3⟩

example : minMultSized 5 64 24 = 72 ∧ minMultSized 100 64 16 = 112 ∧ minMultSized 64 64 16 = 64 := by decide

/-! ### C104, C105 -/

/-- **C104**: the number of `wchar_t` needed is the smallest that can hold the bytes, for any power-of-two size of `wchar_t`. -/
theorem C104_wchars {ws k : Nat} (hw : ws = 2 ^ k) (numBytes : Nat) :
    numBytes ≤ numNeededWchars ws numBytes * ws ∧ ∀ n, numBytes ≤ n * ws → numNeededWchars ws numBytes ≤ n := by
  subst hw
  unfold numNeededWchars
  rw [Nat.and_two_pow_sub_one_eq_mod]
  have hpos := Nat.two_pow_pos k
  have hlt := Nat.mod_lt numBytes hpos
  have hd := Nat.div_add_mod numBytes (2 ^ k)
  have hmin : ∀ n, numBytes ≤ n * 2 ^ k → numBytes / 2 ^ k ≤ n := fun n hn => by
    have := Nat.div_le_div_right (c := 2 ^ k) hn
    rwa [Nat.mul_div_cancel _ hpos] at this
  split
  · next h =>
    refine ⟨?_, fun n hn => ?_⟩
    · rw [Nat.add_mul, Nat.one_mul, Nat.mul_comm]; omega
    · have h1 := hmin n hn
      rcases Nat.lt_or_ge (numBytes / 2 ^ k) n with h2 | h2
      · omega
      · have : n = numBytes / 2 ^ k := by omega
        rw [this, Nat.mul_comm] at hn
        omega
  · next h =>
    refine ⟨?_, fun n hn => by have := hmin n hn; omega⟩
    rw [Nat.add_zero, Nat.mul_comm]; omega

example : numNeededWchars 4 9 = 3 ∧ numNeededWchars 4 8 = 2 ∧ numNeededWchars 2 0 = 0 := by decide

/-- **C105 is false** for `wchar_t` of 4 (or 2) bytes: the count is in bytes, and a scan of so many characters leaves the array. -/
theorem C105_refuted :
    numWhitespaceChars 4 = 27 ∧ numWhitespaceChars 2 = 13 ∧ (whitespaceChars.filter (· ≠ 0)).length = 6 := by decide

/-- **C105**, what holds: for `char` it is the number of whitespace characters, all characters for which `isspace` holds.  Missing:
`wchar_t` (false, see `C105_refuted`). -/
theorem C105_char_partial :
    numWhitespaceChars 1 = 6 ∧ ∀ c, c ∈ whitespaceChars.take (numWhitespaceChars 1) ↔ (c = 32 ∨ (9 ≤ c ∧ c ≤ 13)) := by
  refine ⟨rfl, fun c => ?_⟩
  have : whitespaceChars.take (numWhitespaceChars 1) = [32, 12, 10, 13, 9, 11] := rfl
  rw [this]
  simp only [List.mem_cons, List.not_mem_nil, or_false]
  omega

end C4
