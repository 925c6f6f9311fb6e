import Verif.Charconv.Rhex
import Verif.Props.CharconvRead
import Verif.Spec.Token
import Mathlib.Algebra.Field.Rat
import Mathlib.Tactic.Ring
import Mathlib.Tactic.FieldSimp
/-
Property C22: hexadecimal real numbers.
-/
namespace C4
open Spec

/-- Power of a rational with an integer exponent. -/
def Spec.power (b : Rat) (e : Int) : Rat := if 0 ≤ e then b ^ e.toNat else 1 / b ^ (-e).toNat

/-- Specification (C standard): the text `b` (what follows `0x`) is a hexadecimal real of value `x`: hexadecimal digits with an
optional point and an optional binary exponent `e` in decimal digits. -/
def Spec.HexReal (b : List Nat) (e : Int) (x : Rat) : Prop :=
  ∃ ip fp ep di df, b = ip ++ fp ++ ep ∧ IsDigits 16 ip di ∧
    ((fp = [] ∧ df = [] ∧ ip ≠ []) ∨ ∃ f, fp = 46 :: f ∧ IsDigits 16 f df ∧ (ip ≠ [] ∨ f ≠ [])) ∧
    ((ep = [] ∧ e = 0) ∨ ∃ p sg ds n, ep = p :: (sg ++ ds) ∧ IsP p ∧ DigitText 10 ds n ∧
      ((sg = [] ∧ e = n) ∨ (sg = [43] ∧ e = n) ∨ (sg = [45] ∧ e = -(n : Int)))) ∧
    x = (value 16 (di ++ df) : Nat) / (16 : Rat) ^ df.length * power 2 e

theorem ratMulLoop_eq (b : Rat) : ∀ n r, ratMulLoop b n r = r * b ^ n
  | 0, r => by simp [ratMulLoop]
  | n+1, r => by rw [ratMulLoop, ratMulLoop_eq b n]; ring

theorem ratDivLoop_eq (b : Rat) : ∀ n r, ratDivLoop b n r = r / b ^ n
  | 0, r => by simp [ratDivLoop]
  | n+1, r => by rw [ratDivLoop, ratDivLoop_eq b n, div_div, pow_succ']

theorem ipow16_eq (e : Int) (hl : -32768 < e) (hu : e < 32768) : ipow16 e = power 16 e := by
  unfold ipow16 power
  split
  · rw [ratMulLoop_eq, one_mul]
  · have : (ITy.mk .w16 true).wrap (-e) = -e := by
      simp only [ITy.wrap, W.bits]
      simp [Int.bmod_def]; omega
    rw [this, ratDivLoop_eq]

theorem value_append (b : Nat) (x y : List Nat) : value b (x ++ y) = value b x * b ^ y.length + value b y := by
  have key : ∀ (y : List Nat) (a : Nat), y.foldl (fun a d => a * b + d) a = a * b ^ y.length + value b y := by
    intro y
    induction y with
    | nil => intro a; simp [value]
    | cons d y ih =>
      intro a
      rw [List.foldl_cons, ih]
      have h2 : value b (d :: y) = (0 * b + d) * b ^ y.length + value b y := ih _
      rw [h2]
      simp only [List.length_cons, Nat.pow_succ]
      ring
  rw [value, List.foldl_append, key]; rfl

/-- A digit character of the mantissa other than a letter. -/
theorem rhexDigit_dec {c d : Nat} (h : charDigit c = some d) (hd : d < 10) : rhexDigit c = some d := by
  unfold charDigit at h
  unfold rhexDigit
  split at h
  · rename_i hc; rw [if_pos hc]; exact h
  · split at h
    · injection h; omega
    · split at h
      · injection h; omega
      · cases h

theorem rhexInt_digits (rest : List Nat) : ∀ (ip di : List Nat) (v : Rat), IsDigits 10 ip di →
    rhexInt (ip ++ rest) v = rhexInt rest (v * 16 ^ di.length + (value 16 di : Nat))
  | [], di, v, h => by
    rw [isDigits_nil] at h; subst h; simp [value]
  | c :: ip, di, v, h => by
    rw [isDigits_cons] at h
    obtain ⟨d, di, rfl, h1, h2, h3⟩ := h
    rw [List.cons_append, rhexInt, rhexDigit_dec h1 h2]
    simp only
    rw [rhexInt_digits rest ip di _ h3]
    congr 1
    have : value 16 (d :: di) = d * 16 ^ di.length + value 16 di := by
      have := value_append 16 [d] di
      simpa [value] using this
    rw [this]
    push_cast
    simp only [List.length_cons]
    ring

theorem rhexFrac_digits (rest : List Nat) : ∀ (f df : List Nat) (dg v : Rat), IsDigits 10 f df →
    rhexFrac (f ++ rest) dg v =
      rhexFrac rest (dg / 16 ^ df.length) (v + dg * 16 * ((value 16 df : Nat) / (16 : Rat) ^ df.length))
  | [], df, dg, v, h => by
    rw [isDigits_nil] at h; subst h; simp [value]
  | c :: f, df, dg, v, h => by
    rw [isDigits_cons] at h
    obtain ⟨d, df, rfl, h1, h2, h3⟩ := h
    rw [List.cons_append, rhexFrac, rhexDigit_dec h1 h2]
    simp only
    rw [rhexFrac_digits rest f df _ _ h3]
    have hv : value 16 (d :: df) = d * 16 ^ df.length + value 16 df := by
      have := value_append 16 [d] df
      simpa [value] using this
    rw [hv]
    have hp : (16 : Rat) ^ df.length ≠ 0 := pow_ne_zero _ (by decide)
    congr 1
    · simp only [List.length_cons, pow_succ]; field_simp
    · push_cast
      simp only [List.length_cons, pow_succ]; field_simp; ring

theorem rhexPower_eq {ds sg : List Nat} {n : Nat} {e : Int} (h : DigitText 10 ds n)
    (he : (sg = [] ∧ e = n) ∨ (sg = [43] ∧ e = n) ∨ (sg = [45] ∧ e = -(n : Int))) (hl : -32768 < e) (hu : e < 32768) (v : Rat) :
    rhexPower (sg ++ ds) v = .ok (true, v * power 16 e) := by
  have key : ∀ s' : List Nat, IntDenotes s' e → s' ≠ [] →
      (if s'.length > 0 then do
        let (ok, p, _) ← atoi ⟨.w16, true⟩ s'
        .ok (if ok then (true, v * ipow16 p) else (false, v))
      else .ok (false, v)) = Res.ok (true, v * power 16 e) := by
    intro s' hs hne
    obtain ⟨⟨b, p, o⟩, h1, h2, h3⟩ := C12_atoi ⟨.w16, true⟩ s'
    have hb : b = true := h2.mpr ⟨e, hs⟩
    have hp : p = e := by
      refine (h3 e hs).eq_of_fits ?_ ?_
      · simp [ITy.min, W.bits]; omega
      · simp [ITy.max, W.bits]; omega
    rw [if_pos (List.length_pos_iff.mpr hne), h1, hb, hp, Res.ok_bind, ← ipow16_eq e hl hu]
    rfl
  obtain ⟨c, t, hct, hc1, hc2⟩ := (UintDenotes.dec h).head
  unfold rhexPower
  rcases he with ⟨rfl, he⟩ | ⟨rfl, he⟩ | ⟨rfl, he⟩
  · have hd : IntDenotes ds e := he ▸ .pos (.dec h)
    have hm : (if ds.head? = some 43 then ds.drop 1 else ds) = ds := by
      rw [if_neg]; rw [hct]; simp; omega
    simp only [List.nil_append]
    rw [hm]
    exact key ds hd h.1
  · exact key ds (he ▸ .pos (.dec h)) h.1
  · exact key (45 :: ds) (he ▸ .neg (.dec h)) (by simp)

/-- What is computed for texts without letter digits: the exponent counts powers of 16, and the previous value of the
variable is taken as leading digits. -/
theorem scanRhex_eq {ip fp ep di df : List Nat} {e : Int} (hi : IsDigits 10 ip di)
    (hf : (fp = [] ∧ df = []) ∨ ∃ f, fp = 46 :: f ∧ IsDigits 10 f df)
    (hep : (ep = [] ∧ e = 0) ∨ ∃ p sg ds n, ep = p :: (sg ++ ds) ∧ IsP p ∧ DigitText 10 ds n ∧
      ((sg = [] ∧ e = n) ∨ (sg = [43] ∧ e = n) ∨ (sg = [45] ∧ e = -(n : Int))))
    (hl : -32768 < e) (hu : e < 32768) (v : Rat) :
    scanRhex (ip ++ fp ++ ep) v =
      .ok (true, (v * 16 ^ di.length + (value 16 (di ++ df) : Nat) / (16 : Rat) ^ df.length) * power 16 e) := by
  have hp0 : ∀ p, IsP p → rhexDigit p = none ∧ p ≠ 46 := by
    intro p hp; unfold IsP at hp; rcases hp with rfl | rfl <;> decide
  have h160 : (16 : Rat) ^ df.length ≠ 0 := pow_ne_zero _ (by decide)
  unfold scanRhex
  rw [List.append_assoc, rhexInt_digits _ ip di v hi]
  rcases hf with ⟨rfl, rfl⟩ | ⟨f, rfl, hf⟩
  · rw [List.nil_append]
    rcases hep with ⟨rfl, rfl⟩ | ⟨p, sg, ds, n, rfl, hp, hds, he⟩
    · simp [rhexInt, power]
    · rw [rhexInt, (hp0 p hp).1]
      simp only [(hp0 p hp).2, if_false]
      rw [if_pos (show p = 112 ∨ p = 80 from hp), rhexPower_eq hds he hl hu]
      simp
  · rw [List.cons_append, rhexInt, show rhexDigit 46 = none from rfl]
    simp only [if_true]
    rw [rhexFrac_digits _ f df _ _ hf, value_append]
    have hval : v * 16 ^ di.length + (value 16 di : Nat) + 1 / 16 * 16 * ((value 16 df : Nat) / (16 : Rat) ^ df.length) =
        v * 16 ^ di.length + ((value 16 di * 16 ^ df.length + value 16 df : Nat) : Rat) / (16 : Rat) ^ df.length := by
      push_cast; field_simp; ring
    rw [hval]
    rcases hep with ⟨rfl, rfl⟩ | ⟨p, sg, ds, n, rfl, hp, hds, he⟩
    · simp [rhexFrac, power]
    · rw [rhexFrac, (hp0 p hp).1]
      simp only
      rw [if_pos (show p = 112 ∨ p = 80 from hp), rhexPower_eq hds he hl hu]

/-- **C22** refuted: letter digits lose ten: `0xa` is read as 0 instead of 10. -/
theorem C22_refuted_letter : scanRhex (S "a") 0 = .ok (true, 0) ∧ HexReal (S "a") 0 10 := by
  refine ⟨by decide +kernel, S "a", [], [], [10], [], rfl, ⟨rfl, by decide⟩, Or.inl ⟨rfl, rfl, by decide⟩, Or.inl ⟨rfl, rfl⟩, ?_⟩
  decide +kernel

/-- **C22** refuted: upper case digits lose ten too: `0xF` is read as 5. -/
theorem C22_refuted_upper : scanRhex (S "F") 0 = .ok (true, 5) ∧ HexReal (S "F") 0 15 := by
  refine ⟨by decide +kernel, S "F", [], [], [15], [], rfl, ⟨rfl, by decide⟩, Or.inl ⟨rfl, rfl, by decide⟩, Or.inl ⟨rfl, rfl⟩, ?_⟩
  decide +kernel

/-- **C22** refuted: the exponent is taken as a power of 16: `0x1p+1` is read as 16 instead of 2. -/
theorem C22_refuted_exponent : scanRhex (S "1p+1") 0 = .ok (true, 16) ∧ HexReal (S "1p+1") 1 2 := by
  refine ⟨by decide +kernel, S "1", [], S "p+1", [1], [], rfl, ⟨rfl, by decide⟩, Or.inl ⟨rfl, rfl, by decide⟩,
    Or.inr ⟨112, [43], S "1", 1, rfl, Or.inl rfl, ⟨by decide, [1], ⟨rfl, by decide⟩, rfl⟩, Or.inr (Or.inl ⟨rfl, rfl⟩)⟩, ?_⟩
  decide +kernel

/-- **C22** refuted: neither `scan_rhex` nor `atof`/`atod` reset the result variable: reading `0x1` into a variable holding 5 gives
81. -/
theorem C22_refuted_stale : atofHex (S "0x1") 5 = .ok (some (true, 81)) ∧ HexReal (S "1") 0 1 := by
  refine ⟨by decide +kernel, S "1", [], [], [1], [], rfl, ⟨rfl, by decide⟩, Or.inl ⟨rfl, rfl, by decide⟩, Or.inl ⟨rfl, rfl⟩, ?_⟩
  decide +kernel

/-- **C22** refuted: texts that are no number are accepted: `0x` alone, and `0x1p+-2`. -/
theorem C22_refuted_language : atofHex (S "0x") 0 = .ok (some (true, 0)) ∧
    atofHex (S "0x1p+-2") 0 = .ok (some (true, 1 / 256)) := by decide +kernel

/-- **C22**, what holds: for a hexadecimal real without letter digits and with exponent zero (or none), `atof`/`atod` into a variable
holding zero give its exact value, negated after a minus sign.
Missing: letter digits, non-zero exponents and other initial values (all false, see above); for the arithmetic of
the floating point types see `C22_float_partial`. -/
theorem C22_value_partial (b : List Nat) (x : Rat) (h : HexReal b 0 x) (hdec : ∀ c ∈ b, ¬ (97 ≤ c ∧ c ≤ 102) ∧ ¬ (65 ≤ c ∧ c ≤ 70)) :
    scanRhex b 0 = .ok (true, x) ∧
    (∀ p ∈ [120, 88], atofHex (48 :: p :: b) 0 = .ok (some (true, x)) ∧ atofHex (43 :: 48 :: p :: b) 0 = .ok (some (true, x)) ∧
      atofHex (45 :: 48 :: p :: b) 0 = .ok (some (true, -x))) := by
  obtain ⟨ip, fp, ep, di, df, rfl, hi, hf, hep, hx⟩ := h
  have h10 : ∀ (s ds : List Nat), (∀ c ∈ s, ¬ (97 ≤ c ∧ c ≤ 102) ∧ ¬ (65 ≤ c ∧ c ≤ 70)) → IsDigits 16 s ds → IsDigits 10 s ds := by
    intro s
    induction s with
    | nil => intro ds _ h; rw [isDigits_nil] at h ⊢; exact h
    | cons c s ih =>
      intro ds hc h
      rw [isDigits_cons] at h ⊢
      obtain ⟨d, ds', rfl, h1, h2, h3⟩ := h
      refine ⟨d, ds', rfl, h1, ?_, ih ds' (fun x hx => hc x (by simp [hx])) h3⟩
      have := hc c (by simp)
      unfold charDigit at h1
      split at h1
      · injection h1; omega
      · rw [if_neg this.1, if_neg this.2] at h1; cases h1
  have hs : scanRhex (ip ++ fp ++ ep) 0 = .ok (true, x) := by
    rw [scanRhex_eq (e := 0) (df := df) (h10 ip di (fun c hc => hdec c (by simp [hc])) hi) ?_ hep (by omega) (by omega), hx]
    · simp [power]
    · rcases hf with ⟨h1, h2, _⟩ | ⟨f, rfl, h2, _⟩
      · exact Or.inl ⟨h1, h2⟩
      · exact Or.inr ⟨f, rfl, h10 f df (fun c hc => hdec c (by simp [hc])) h2⟩
  refine ⟨hs, fun p hp => ?_⟩
  have hp' : p = 120 ∨ p = 88 := by simpa using hp
  refine ⟨?_, ?_, ?_⟩ <;> (rw [List.append_assoc] at hs ⊢; simp [atofHex, rd, hs, hp'])

/-- What is computed with an exponent: the power of 16 instead of 2.  (For a non-zero mantissa and exponent this is not the
value of the text.) -/
theorem C22_computed_partial (ip di ds : List Nat) (n : Nat) (hi : IsDigits 10 ip di) (hd : DigitText 10 ds n) (hn : n < 32768) :
    scanRhex (ip ++ [] ++ 112 :: ([43] ++ ds)) 0 = .ok (true, (value 16 di : Nat) * (16 : Rat) ^ n) := by
  rw [scanRhex_eq (df := []) (e := n) hi (Or.inl ⟨rfl, rfl⟩) (Or.inr ⟨112, [43], ds, n, rfl, Or.inl rfl, hd, Or.inr (Or.inl ⟨rfl, rfl⟩)⟩)
    (by omega) (by omega)]
  simp [power]

example : HexReal (S "12.8p+0") 0 (37 / 2) := by
  refine ⟨S "12", S ".8", S "p+0", [1, 2], [8], rfl, ⟨rfl, by decide⟩, Or.inr ⟨S "8", rfl, ⟨rfl, by decide⟩, by decide⟩,
    Or.inr ⟨112, [43], S "0", 0, rfl, Or.inl rfl, ⟨by decide, [0], ⟨rfl, by decide⟩, rfl⟩, Or.inr (Or.inl ⟨rfl, rfl⟩)⟩, ?_⟩
  decide +kernel
example : scanRhex (S "12.8p+0") 0 = .ok (true, 37 / 2) := by decide +kernel

end C4
