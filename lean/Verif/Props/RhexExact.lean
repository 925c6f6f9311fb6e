import Verif.Props.Rhex
import Mathlib.Algebra.Order.Ring.Rat
import Mathlib.Algebra.Order.Field.Basic
/-
Property C22, exactly: what is computed for every hexadecimal real number and every previous value of the variable.
-/
namespace C4
open Spec

/-- What a digit is taken for: letters count from zero. -/
def Spec.misread (d : Nat) : Nat := if d < 10 then d else d - 10

/-- The exponent as a number of 16 bits with sign. -/
def Spec.exp16 (e : Int) : Int := (e + 32768) % 65536 - 32768

/-- The power of 16 taken for it; the negative of -32768 is itself, so that there is no division. -/
def Spec.taken16 (e : Int) : Rat := if exp16 e = -32768 then 1 else power 16 (exp16 e)

theorem rhexDigit_misread {c d : Nat} (h : charDigit c = some d) : rhexDigit c = some (misread d) := by
  unfold charDigit at h
  unfold rhexDigit misread
  split at h
  · next hc => injection h with h; subst h; rw [if_pos hc, if_pos (by omega)]
  · next hc =>
    split at h
    · next hc2 => injection h with h; subst h; rw [if_neg hc, if_pos hc2, if_neg (by omega)]; congr 1
    · next hc2 =>
      split at h
      · next hc3 => injection h with h; subst h; rw [if_neg hc, if_neg hc2, if_pos hc3, if_neg (by omega)]; congr 1
      · cases h

theorem rhexInt_any (rest : List Nat) : ∀ (ip di : List Nat) (v : Rat), IsDigits 16 ip di →
    rhexInt (ip ++ rest) v = rhexInt rest (v * 16 ^ di.length + (value 16 (di.map misread) : Nat))
  | [], di, v, h => by
    rw [isDigits_nil] at h; subst h; simp [value]
  | c :: ip, di, v, h => by
    rw [isDigits_cons] at h
    obtain ⟨d, di, rfl, h1, h2, h3⟩ := h
    rw [List.cons_append, rhexInt, rhexDigit_misread h1]
    simp only
    rw [rhexInt_any rest ip di _ h3]
    congr 1
    have : value 16 (misread d :: di.map misread) = misread d * 16 ^ di.length + value 16 (di.map misread) := by
      have := value_append 16 [misread d] (di.map misread)
      simpa [value] using this
    rw [List.map_cons, this]
    push_cast
    simp only [List.length_cons]
    ring

theorem rhexFrac_any (rest : List Nat) : ∀ (f df : List Nat) (dg v : Rat), IsDigits 16 f df →
    rhexFrac (f ++ rest) dg v =
      rhexFrac rest (dg / 16 ^ df.length) (v + dg * 16 * ((value 16 (df.map misread) : Nat) / (16 : Rat) ^ df.length))
  | [], df, dg, v, h => by
    rw [isDigits_nil] at h; subst h; simp [value]
  | c :: f, df, dg, v, h => by
    rw [isDigits_cons] at h
    obtain ⟨d, df, rfl, h1, h2, h3⟩ := h
    rw [List.cons_append, rhexFrac, rhexDigit_misread h1]
    simp only
    rw [rhexFrac_any rest f df _ _ h3]
    have hv : value 16 (misread d :: df.map misread) = misread d * 16 ^ df.length + value 16 (df.map misread) := by
      have := value_append 16 [misread d] (df.map misread)
      simpa [value] using this
    rw [List.map_cons, hv]
    have hp : (16 : Rat) ^ df.length ≠ 0 := pow_ne_zero _ (by decide)
    congr 1
    · simp only [List.length_cons, pow_succ]; field_simp
    · push_cast
      simp only [List.length_cons, pow_succ]; field_simp; ring

theorem exp16_stored {e p : Int} (h : StoredAs ⟨.w16, true⟩ e p) : p = exp16 e := by
  refine h.unique ⟨?_, ?_, ?_⟩
  · unfold exp16; simp [ITy.min, W.bits]; omega
  · unfold exp16; simp [ITy.max, W.bits]; omega
  · unfold exp16
    have h1 := Int.emod_add_mul_ediv (e + 32768) 65536
    simp only [W.bits]
    refine ⟨-((e + 32768) / 65536), ?_⟩
    omega

theorem ipow16_taken (e : Int) : ipow16 (exp16 e) = taken16 e := by
  unfold taken16
  split
  · next h => rw [h]; decide +kernel
  · next h =>
    refine ipow16_eq _ ?_ ?_
    · unfold exp16 at h ⊢; omega
    · unfold exp16; omega

theorem rhexPower_any {ds sg : List Nat} {n : Nat} {e : Int} (h : DigitText 10 ds n)
    (he : (sg = [] ∧ e = n) ∨ (sg = [43] ∧ e = n) ∨ (sg = [45] ∧ e = -(n : Int))) (v : Rat) :
    rhexPower (sg ++ ds) v = .ok (true, v * taken16 e) := by
  have key : ∀ s' : List Nat, IntDenotes s' e → s' ≠ [] →
      (if s'.length > 0 then do
        let (ok, p, _) ← atoi ⟨.w16, true⟩ s'
        .ok (if ok then (true, v * ipow16 p) else (false, v))
      else .ok (false, v)) = Res.ok (true, v * taken16 e) := by
    intro s' hs hne
    obtain ⟨⟨b, p, o⟩, h1, h2, h3⟩ := C12_atoi ⟨.w16, true⟩ s'
    have hb : b = true := h2.mpr ⟨e, hs⟩
    rw [if_pos (List.length_pos_iff.mpr hne), h1, hb, Res.ok_bind, show p = exp16 e from exp16_stored (h3 e hs), ← ipow16_taken e]
    rfl
  obtain ⟨c, t, hct, hc1, hc2⟩ := (UintDenotes.dec h).head
  unfold rhexPower
  rcases he with ⟨rfl, he⟩ | ⟨rfl, he⟩ | ⟨rfl, he⟩
  · have hd : IntDenotes ds e := he ▸ .pos (.dec h)
    have hm : (if ds.head? = some 43 then ds.drop 1 else ds) = ds := by
      rw [if_neg]; rw [hct]; simp; omega
    simp only [List.nil_append]
    rw [hm]
    exact key ds hd h.1
  · exact key ds (he ▸ .pos (.dec h)) h.1
  · exact key (45 :: ds) (he ▸ .neg (.dec h)) (by simp)

/-- **C22**, exactly, over the rationals: for every hexadecimal real number (digits `di`, a point, digits `df`, exponent `e`) and every previous value `v` of
the variable, `scan_rhex` succeeds, letters count from zero, the exponent counts powers of 16 modulo 2^16, and `v` is taken as leading digits. -/
theorem C22_exact {ip fp ep di df : List Nat} {e : Int} (hi : IsDigits 16 ip di)
    (hf : (fp = [] ∧ df = []) ∨ ∃ f, fp = 46 :: f ∧ IsDigits 16 f df)
    (hep : (ep = [] ∧ e = 0) ∨ ∃ p sg ds n, ep = p :: (sg ++ ds) ∧ IsP p ∧ DigitText 10 ds n ∧
      ((sg = [] ∧ e = n) ∨ (sg = [43] ∧ e = n) ∨ (sg = [45] ∧ e = -(n : Int)))) (v : Rat) :
    scanRhex (ip ++ fp ++ ep) v =
      .ok (true, (v * 16 ^ di.length + (value 16 ((di ++ df).map misread) : Nat) / (16 : Rat) ^ df.length) * taken16 e) := by
  have hp0 : ∀ p, IsP p → rhexDigit p = none ∧ p ≠ 46 := by
    intro p hp; unfold IsP at hp; rcases hp with rfl | rfl <;> decide
  have h160 : (16 : Rat) ^ df.length ≠ 0 := pow_ne_zero _ (by decide)
  have ht0 : taken16 0 = 1 := by decide +kernel
  unfold scanRhex
  rw [List.append_assoc, rhexInt_any _ ip di v hi]
  rcases hf with ⟨rfl, rfl⟩ | ⟨f, rfl, hf⟩
  · rw [List.nil_append]
    rcases hep with ⟨rfl, rfl⟩ | ⟨p, sg, ds, n, rfl, hp, hds, he⟩
    · simp [rhexInt, ht0]
    · rw [rhexInt, (hp0 p hp).1]
      simp only [(hp0 p hp).2, if_false]
      rw [if_pos (show p = 112 ∨ p = 80 from hp), rhexPower_any hds he]
      simp
  · rw [List.cons_append, rhexInt, show rhexDigit 46 = none from rfl]
    simp only [if_true]
    rw [rhexFrac_any _ f df _ _ hf, List.map_append, value_append]
    have hval : v * 16 ^ di.length + (value 16 (di.map misread) : Nat) +
          1 / 16 * 16 * ((value 16 (df.map misread) : Nat) / (16 : Rat) ^ df.length) =
        v * 16 ^ di.length + ((value 16 (di.map misread) * 16 ^ (df.map misread).length + value 16 (df.map misread) : Nat) : Rat) /
          (16 : Rat) ^ df.length := by
      rw [List.length_map]; push_cast; field_simp; ring
    rw [hval]
    rcases hep with ⟨rfl, rfl⟩ | ⟨p, sg, ds, n, rfl, hp, hds, he⟩
    · simp [rhexFrac, ht0]
    · rw [rhexFrac, (hp0 p hp).1]
      simp only
      rw [if_pos (show p = 112 ∨ p = 80 from hp), rhexPower_any hds he]

theorem misread_le (l : List Nat) : value 16 (l.map misread) ≤ value 16 l ∧ (value 16 (l.map misread) = value 16 l ↔ ∀ d ∈ l, d < 10) := by
  induction l with
  | nil => simp [value]
  | cons d l ih =>
    have h1 : value 16 (d :: l) = d * 16 ^ l.length + value 16 l := by
      have := value_append 16 [d] l
      simpa [value] using this
    have h2 : value 16 (misread d :: l.map misread) = misread d * 16 ^ l.length + value 16 (l.map misread) := by
      have := value_append 16 [misread d] (l.map misread)
      simpa [value] using this
    have hp : 0 < 16 ^ l.length := Nat.pow_pos (by decide)
    have hm : misread d ≤ d := by unfold misread; split <;> omega
    have hmul : misread d * 16 ^ l.length ≤ d * 16 ^ l.length := Nat.mul_le_mul_right _ hm
    rw [List.map_cons, h1, h2]
    refine ⟨by omega, ?_⟩
    rw [List.forall_mem_cons, ← ih.2]
    constructor
    · intro h
      refine ⟨?_, by omega⟩
      have : misread d * 16 ^ l.length = d * 16 ^ l.length := by omega
      have := Nat.eq_of_mul_eq_mul_right hp this
      unfold misread at this
      split at this <;> omega
    · rintro ⟨hd, hl⟩
      rw [hl, show misread d = d by unfold misread; rw [if_pos hd]]

/-- **C22**, exactly, for numbers without exponent read into a variable that holds zero: the value is right if and only if there is no letter
digit. -/
theorem C22_no_exponent_iff {ip fp di df : List Nat} (hi : IsDigits 16 ip di)
    (hf : (fp = [] ∧ df = [] ∧ ip ≠ []) ∨ ∃ f, fp = 46 :: f ∧ IsDigits 16 f df ∧ (ip ≠ [] ∨ f ≠ [])) :
    ∃ x y, HexReal (ip ++ fp ++ []) 0 x ∧ scanRhex (ip ++ fp ++ []) 0 = .ok (true, y) ∧ y ≤ x ∧ (y = x ↔ ∀ d ∈ di ++ df, d < 10) := by
  have h160 : (0 : Rat) < (16 : Rat) ^ df.length := pow_pos (by decide +kernel) _
  have hf' : (fp = [] ∧ df = []) ∨ ∃ f, fp = 46 :: f ∧ IsDigits 16 f df := by
    rcases hf with ⟨h1, h2, _⟩ | ⟨f, h1, h2, _⟩
    exacts [.inl ⟨h1, h2⟩, .inr ⟨f, h1, h2⟩]
  have ht0 : taken16 0 = 1 := by decide +kernel
  have hp0 : power 2 0 = 1 := by decide +kernel
  obtain ⟨hle, hiff⟩ := misread_le (di ++ df)
  refine ⟨_, _, ⟨ip, fp, [], di, df, rfl, hi, hf, .inl ⟨rfl, rfl⟩, rfl⟩, C22_exact (e := 0) hi hf' (.inl ⟨rfl, rfl⟩) 0, ?_, ?_⟩
  · rw [ht0, hp0, zero_mul, zero_add, mul_one, mul_one]
    exact div_le_div_of_nonneg_right (by exact_mod_cast hle) h160.le
  · rw [ht0, hp0, zero_mul, zero_add, mul_one, mul_one, div_left_inj' h160.ne', Nat.cast_inj, hiff]

/-- 0x1a.8 is read as 0x10.8, and with exponent 65536 (which has no effect) too. -/
example : scanRhex (S "1a.8") 0 = .ok (true, 33 / 2) ∧ scanRhex (S "1a.8p65536") 0 = .ok (true, 33 / 2) ∧
    scanRhex (S "1p-32768") 0 = .ok (true, 1) := by decide +kernel

/-! ### Accepted texts -/

/-- What is accepted as exponent: `p` and a text that `atoi` accepts, which may have a plus sign in front. -/
def Spec.PowerText (ep : List Nat) : Prop :=
  ep = [] ∨ ∃ p s e, IsP p ∧ IntDenotes s e ∧ (ep = p :: s ∨ ep = p :: 43 :: s)

/-- The texts accepted: hexadecimal digits, of which there may be none, with a point or without, and an exponent. -/
def Spec.RhexText (b : List Nat) : Prop :=
  ∃ ip fp ep, b = ip ++ fp ++ ep ∧ (∀ c ∈ ip, HexChar c) ∧ (fp = [] ∨ ∃ f, fp = 46 :: f ∧ ∀ c ∈ f, HexChar c) ∧ PowerText ep

theorem intDenotes_plus {s : List Nat} {e : Int} (h : IntDenotes s e) : s ≠ [] ∧ s.head? ≠ some 43 := by
  cases h with
  | pos h =>
    obtain ⟨c, t, rfl, h1, h2⟩ := h.head
    refine ⟨by simp, ?_⟩
    simp; omega
  | neg h => simp

theorem rhexPower_accepts (s : List Nat) (v : Rat) :
    ∃ ok x, rhexPower s v = .ok (ok, x) ∧ (ok = true ↔ ∃ s' e, IntDenotes s' e ∧ (s = s' ∨ s = 43 :: s')) := by
  have key : ∀ s' : List Nat, ∃ ok x, (if s'.length > 0 then do
        let (ok, p, _) ← atoi ⟨.w16, true⟩ s'
        .ok (if ok then (true, v * ipow16 p) else (false, v))
      else .ok (false, v)) = Res.ok (ok, x) ∧ (ok = true ↔ ∃ e, IntDenotes s' e) := by
    intro s'
    by_cases hl : s'.length > 0
    · obtain ⟨⟨b, p, o⟩, h1, h2, _⟩ := C12_atoi ⟨.w16, true⟩ s'
      rw [if_pos hl, h1, Res.ok_bind]
      cases b with
      | true => exact ⟨true, _, rfl, by simpa using h2⟩
      | false => exact ⟨false, _, rfl, by simpa using h2⟩
    · rw [if_neg hl]
      refine ⟨false, v, rfl, ?_⟩
      simp only [Bool.false_eq_true, false_iff]
      rintro ⟨e, he⟩
      have := List.length_pos_iff.mpr (intDenotes_plus he).1
      omega
  unfold rhexPower
  by_cases hh : s.head? = some 43
  · obtain ⟨t, rfl⟩ : ∃ t, s = 43 :: t := by
      cases s with
      | nil => simp at hh
      | cons c t => simp at hh; exact ⟨t, by rw [hh]⟩
    obtain ⟨ok, x, h1, h2⟩ := key t
    refine ⟨ok, x, h1, h2.trans ⟨fun ⟨e, he⟩ => ⟨t, e, he, .inr rfl⟩, ?_⟩⟩
    rintro ⟨s', e, he, rfl | h⟩
    · exact absurd rfl (intDenotes_plus he).2
    · injection h with _ h; subst h; exact ⟨e, he⟩
  · obtain ⟨ok, x, h1, h2⟩ := key s
    simp only [if_neg hh]
    refine ⟨ok, x, h1, h2.trans ⟨fun ⟨e, he⟩ => ⟨s, e, he, .inl rfl⟩, ?_⟩⟩
    rintro ⟨s', e, he, rfl | rfl⟩
    · exact ⟨e, he⟩
    · exact absurd rfl hh

theorem rhexDigit_iff (c : Nat) : (HexChar c → ∃ d, rhexDigit c = some d) ∧ (¬ HexChar c → rhexDigit c = none) := by
  unfold HexChar rhexDigit
  constructor
  · intro h
    split
    · exact ⟨_, rfl⟩
    · split
      · exact ⟨_, rfl⟩
      · split
        · exact ⟨_, rfl⟩
        · omega
  · intro h
    rw [if_neg (by omega), if_neg (by omega), if_neg (by omega)]

theorem isP_not {p : Nat} (h : IsP p) : ¬ HexChar p ∧ p ≠ 46 := by
  unfold IsP at h; unfold HexChar; omega

theorem rhexFrac_accepts (s : List Nat) : ∀ (dg v : Rat),
    ∃ ok x, rhexFrac s dg v = .ok (ok, x) ∧ (ok = true ↔ ∃ f ep, s = f ++ ep ∧ (∀ c ∈ f, HexChar c) ∧ PowerText ep) := by
  induction s with
  | nil => intro dg v; exact ⟨true, v, rfl, by simp; exact .inl rfl⟩
  | cons c s ih =>
    intro dg v
    rw [rhexFrac]
    by_cases hc : HexChar c
    · obtain ⟨d, hd⟩ := (rhexDigit_iff c).1 hc
      rw [hd]
      obtain ⟨ok, x, h1, h2⟩ := ih (dg / 16) (v + dg * d)
      refine ⟨ok, x, h1, h2.trans ⟨?_, ?_⟩⟩
      · rintro ⟨f, ep, rfl, h3, h4⟩
        exact ⟨c :: f, ep, rfl, by simpa using ⟨hc, h3⟩, h4⟩
      · rintro ⟨f, ep, h3, h4, h5⟩
        cases f with
        | nil =>
          simp only [List.nil_append] at h3
          subst h3
          rcases h5 with h5 | ⟨p, s', e, hp, _, h5 | h5⟩
          · cases h5
          · injection h5 with h5; subst h5; exact absurd hc (isP_not hp).1
          · injection h5 with h5; subst h5; exact absurd hc (isP_not hp).1
        | cons y f =>
          rw [List.cons_append] at h3
          injection h3 with h3 h6
          exact ⟨f, ep, h6, fun z hz => h4 z (.tail _ hz), h5⟩
    · rw [(rhexDigit_iff c).2 hc]
      have hnil : (∃ f ep, c :: s = f ++ ep ∧ (∀ c ∈ f, HexChar c) ∧ PowerText ep) ↔ PowerText (c :: s) := by
        constructor
        · rintro ⟨f, ep, h3, h4, h5⟩
          cases f with
          | nil => rw [h3]; exact h5
          | cons y f => rw [List.cons_append] at h3; injection h3 with h3 _; subst h3; exact absurd (h4 _ (.head _)) hc
        · intro h; exact ⟨[], _, rfl, by simp, h⟩
      simp only [hnil]
      by_cases hp : c = 112 ∨ c = 80
      · rw [if_pos hp]
        obtain ⟨ok, x, h1, h2⟩ := rhexPower_accepts s v
        refine ⟨ok, x, h1, h2.trans ⟨?_, ?_⟩⟩
        · rintro ⟨s', e, he, rfl | rfl⟩
          · exact .inr ⟨c, _, e, hp, he, .inl rfl⟩
          · exact .inr ⟨c, _, e, hp, he, .inr rfl⟩
        · rintro (h | ⟨p, s', e, _, he, h | h⟩)
          · cases h
          · injection h with _ h; exact ⟨s', e, he, .inl h⟩
          · injection h with _ h; exact ⟨s', e, he, .inr h⟩
      · rw [if_neg hp]
        refine ⟨false, v, rfl, ?_⟩
        simp only [Bool.false_eq_true, false_iff]
        rintro (h | ⟨p, s', e, hpp, _, h | h⟩)
        · cases h
        · injection h with h _; exact hp (h ▸ hpp)
        · injection h with h _; exact hp (h ▸ hpp)

/-- **C22**, the texts accepted, exactly: all hexadecimal real numbers, and also texts without any digit and with an exponent like `p+-2`. -/
theorem C22_accepts_exact (b : List Nat) (v : Rat) : ∃ ok x, scanRhex b v = .ok (ok, x) ∧ (ok = true ↔ RhexText b) := by
  unfold scanRhex
  induction b generalizing v with
  | nil => exact ⟨true, v, rfl, by simp; exact ⟨[], [], [], rfl, by simp, .inl rfl, .inl rfl⟩⟩
  | cons c s ih =>
    rw [rhexInt]
    by_cases hc : HexChar c
    · obtain ⟨d, hd⟩ := (rhexDigit_iff c).1 hc
      rw [hd]
      obtain ⟨ok, x, h1, h2⟩ := ih (v * 16 + d)
      refine ⟨ok, x, h1, h2.trans ⟨?_, ?_⟩⟩
      · rintro ⟨f, fp, ep, rfl, h3, h4⟩
        exact ⟨c :: f, fp, ep, rfl, by simpa using ⟨hc, h3⟩, h4⟩
      · rintro ⟨f, fp, ep, h3, h4, h6, h5⟩
        cases f with
        | nil =>
          exfalso
          simp only [List.nil_append] at h3
          rcases h6 with rfl | ⟨f, rfl, _⟩
          · rcases h5 with rfl | ⟨p, s', e, hp, _, rfl | rfl⟩
            · cases h3
            · injection h3 with h5; subst h5; exact absurd hc (isP_not hp).1
            · injection h3 with h5; subst h5; exact absurd hc (isP_not hp).1
          · injection h3 with h5; subst h5; unfold HexChar at hc; omega
        | cons y f =>
          rw [List.cons_append, List.cons_append] at h3
          injection h3 with h3 h7
          exact ⟨f, fp, ep, h7, fun z hz => h4 z (.tail _ hz), h6, h5⟩
    · rw [(rhexDigit_iff c).2 hc]
      have hnil : RhexText (c :: s) ↔ (c = 46 ∧ ∃ f ep, s = f ++ ep ∧ (∀ c ∈ f, HexChar c) ∧ PowerText ep) ∨ PowerText (c :: s) := by
        constructor
        · rintro ⟨f, fp, ep, h3, h4, h6, h5⟩
          cases f with
          | nil =>
            rcases h6 with rfl | ⟨f, rfl, hf⟩
            · right; rw [h3]; exact h5
            · left; simp only [List.nil_append, List.cons_append] at h3; injection h3 with h3 h7; exact ⟨h3, f, ep, h7, hf, h5⟩
          | cons y f => rw [List.cons_append] at h3; injection h3 with h3 _; subst h3; exact absurd (h4 _ (.head _)) hc
        · rintro (⟨rfl, f, ep, rfl, h1, h2⟩ | h)
          · exact ⟨[], 46 :: f, ep, rfl, by simp, .inr ⟨f, rfl, h1⟩, h2⟩
          · exact ⟨[], [], _, rfl, by simp, .inl rfl, h⟩
      simp only [hnil]
      by_cases h46 : c = 46
      · subst h46
        rw [if_pos rfl]
        obtain ⟨ok, x, h1, h2⟩ := rhexFrac_accepts s (1 / 16) v
        refine ⟨ok, x, h1, h2.trans ⟨fun h => .inl ⟨rfl, h⟩, ?_⟩⟩
        rintro (h | h | ⟨p, s', e, hp, _, h | h⟩)
        · exact h.2
        · cases h
        · injection h with h _; exact absurd h.symm (isP_not hp).2
        · injection h with h _; exact absurd h.symm (isP_not hp).2
      · rw [if_neg h46]
        by_cases hp : c = 112 ∨ c = 80
        · rw [if_pos hp]
          obtain ⟨ok, x, h1, h2⟩ := rhexPower_accepts s v
          refine ⟨ok, x, h1, h2.trans ⟨?_, ?_⟩⟩
          · rintro ⟨s', e, he, rfl | rfl⟩
            · exact .inr (.inr ⟨c, _, e, hp, he, .inl rfl⟩)
            · exact .inr (.inr ⟨c, _, e, hp, he, .inr rfl⟩)
          · rintro (⟨h, _⟩ | h | ⟨p, s', e, _, he, h | h⟩)
            · exact absurd h h46
            · cases h
            · injection h with _ h; exact ⟨s', e, he, .inl h⟩
            · injection h with _ h; exact ⟨s', e, he, .inr h⟩
        · rw [if_neg hp]
          refine ⟨false, v, rfl, ?_⟩
          simp only [Bool.false_eq_true, false_iff]
          rintro (⟨h, _⟩ | h | ⟨p, s', e, hpp, _, h | h⟩)
          · exact h46 h
          · cases h
          · injection h with h _; exact hp (h ▸ hpp)
          · injection h with h _; exact hp (h ▸ hpp)

example : scanRhex (S ".p+0x10") 0 = .ok (true, 0) ∧ scanRhex (S "1p") 0 = .ok (false, 1) ∧ scanRhex (S "1.2.") 0 = .ok (false, 9 / 8) := by
  decide +kernel

end C4
