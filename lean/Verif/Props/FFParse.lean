import Verif.Props.FFSwar
import Verif.Spec.Decimal
import Mathlib.Data.List.TakeWhile
import Mathlib.Tactic.Linarith
/-
`parse_number_string` reads the longest decimal number at the start of a text.
-/
namespace C4.FF
open Spec

theorem isInteger_iff (c : Nat) : isInteger c = true ↔ IsDigit c := by
  unfold isInteger IsDigit
  simp
  omega

theorem digitsVal_nil : digitsVal [] = 0 := rfl

theorem digitsVal_cons (c : Nat) (s : List Nat) : digitsVal (c :: s) = (c - 48) * 10 ^ s.length + digitsVal s := by
  unfold digitsVal
  rw [List.map_cons, value_cons, List.length_map]

theorem digitsVal_append (s t : List Nat) : digitsVal (s ++ t) = digitsVal s * 10 ^ t.length + digitsVal t := by
  unfold digitsVal
  rw [List.map_append, value_append_list, List.length_map]

theorem digitsVal_lt (s : List Nat) (h : ∀ c ∈ s, IsDigit c) : digitsVal s < 10 ^ s.length := by
  unfold digitsVal
  have := value_lt (b := 10) (ds := s.map (· - 48)) (by
    intro d hd
    rw [List.mem_map] at hd
    obtain ⟨c, hc, rfl⟩ := hd
    have := h c hc
    unfold IsDigit at this
    omega)
  rwa [List.length_map] at this

theorem digitLoop_eq : ∀ (s : List Nat) (i : Nat), i < 2 ^ 64 → digitLoop s i = (s.dropWhile isInteger,
    (i * 10 ^ (s.takeWhile isInteger).length + digitsVal (s.takeWhile isInteger)) % 2 ^ 64) := by
  intro s
  induction s with
  | nil => intro i hi; simp [digitLoop, digitsVal_nil]; omega
  | cons c s ih =>
    intro i hi
    unfold digitLoop
    by_cases h : isInteger c = true
    · rw [if_pos h, ih _ (Nat.mod_lt _ (by omega)), List.dropWhile_cons_of_pos h, List.takeWhile_cons_of_pos h, digitsVal_cons, List.length_cons]
      congr 1
      rw [Nat.add_mod, Nat.mod_mul_mod, ← Nat.add_mod, Nat.pow_succ]
      congr 1
      ring
    · rw [if_neg h, List.dropWhile_cons_of_neg h, List.takeWhile_cons_of_neg h]
      simp [digitsVal_nil]
      omega

theorem loopParseIfEightDigits_eq : ∀ (n : Nat) (s : List Nat) (i : Nat), s.length ≤ n → (∀ c ∈ s, c < 256) → i < 2 ^ 64 →
    ∃ pre, s = pre ++ (loopParseIfEightDigits s i).1 ∧ (∀ c ∈ pre, isInteger c = true) ∧
      (loopParseIfEightDigits s i).2 = (i * 10 ^ pre.length + digitsVal pre) % 2 ^ 64 := by
  intro n
  induction n with
  | zero =>
    intro s i hn _ hi
    have : s = [] := List.length_eq_zero_iff.mp (by omega)
    subst this
    exact ⟨[], by simp [loopParseIfEightDigits], by simp, by simp [loopParseIfEightDigits, digitsVal_nil]; omega⟩
  | succ n ih =>
    intro s i hn hb hi
    have hstop : loopParseIfEightDigits s i = (s, i) →
        ∃ pre, s = pre ++ (loopParseIfEightDigits s i).1 ∧ (∀ c ∈ pre, isInteger c = true) ∧
          (loopParseIfEightDigits s i).2 = (i * 10 ^ pre.length + digitsVal pre) % 2 ^ 64 := by
      intro h
      rw [h]
      exact ⟨[], rfl, by simp, by simp [digitsVal_nil]; omega⟩
    match s, hn, hb, hstop with
    | [], _, _, hstop => exact hstop rfl
    | [_], _, _, hstop => exact hstop rfl
    | [_, _], _, _, hstop => exact hstop rfl
    | [_, _, _], _, _, hstop => exact hstop rfl
    | [_, _, _, _], _, _, hstop => exact hstop rfl
    | [_, _, _, _, _], _, _, hstop => exact hstop rfl
    | [_, _, _, _, _, _], _, _, hstop => exact hstop rfl
    | [_, _, _, _, _, _, _], _, _, hstop => exact hstop rfl
    | c0 :: c1 :: c2 :: c3 :: c4 :: c5 :: c6 :: c7 :: s, hn, hb, hstop =>
      by_cases h : isMadeOfEightDigitsFast (read8 [c0, c1, c2, c3, c4, c5, c6, c7]) = true
      · have e : loopParseIfEightDigits (c0 :: c1 :: c2 :: c3 :: c4 :: c5 :: c6 :: c7 :: s) i =
            loopParseIfEightDigits s ((i * 100000000 + parseEightDigitsUnrolled (read8 [c0, c1, c2, c3, c4, c5, c6, c7])) % 2 ^ 64) := by
          rw [loopParseIfEightDigits, if_pos h]
        have hd := (isMadeOfEightDigitsFast_iff [c0, c1, c2, c3, c4, c5, c6, c7] rfl (by
          intro c hc; apply hb; simp only [List.mem_cons, List.not_mem_nil, or_false] at hc ⊢; tauto)).mp h
        obtain ⟨pre, h1, h2, h3⟩ := ih s ((i * 100000000 + parseEightDigitsUnrolled (read8 [c0, c1, c2, c3, c4, c5, c6, c7])) % 2 ^ 64)
          (by simp only [List.length_cons] at hn; omega) (fun c hc => hb c (by simp [hc])) (Nat.mod_lt _ (by omega))
        rw [e]
        refine ⟨[c0, c1, c2, c3, c4, c5, c6, c7] ++ pre, ?_, ?_, ?_⟩
        · rw [List.append_assoc, ← h1]; rfl
        · intro c hc
          rw [List.mem_append] at hc
          rcases hc with hc | hc
          · exact hd c hc
          · exact h2 c hc
        · rw [h3, digitsVal_append, List.length_append, Nat.pow_add]
          have hv : parseEightDigitsUnrolled (read8 [c0, c1, c2, c3, c4, c5, c6, c7]) = digitsVal [c0, c1, c2, c3, c4, c5, c6, c7] := by
            have hb' : ∀ c ∈ [c0, c1, c2, c3, c4, c5, c6, c7], 48 ≤ c ∧ c ≤ 57 := fun c hc => (isInteger_iff c).mp (hd c hc)
            simp only [List.mem_cons, List.not_mem_nil, or_false, forall_eq_or_imp, forall_eq] at hb'
            obtain ⟨b0, b1, b2, b3, b4, b5, b6, b7⟩ := hb'
            have := parseEight_digits (c0 - 48) (c1 - 48) (c2 - 48) (c3 - 48) (c4 - 48) (c5 - 48) (c6 - 48) (c7 - 48) (by omega) (by omega)
              (by omega) (by omega) (by omega) (by omega) (by omega) (by omega)
            rw [Nat.sub_add_cancel b0.1, Nat.sub_add_cancel b1.1, Nat.sub_add_cancel b2.1, Nat.sub_add_cancel b3.1, Nat.sub_add_cancel b4.1,
              Nat.sub_add_cancel b5.1, Nat.sub_add_cancel b6.1, Nat.sub_add_cancel b7.1] at this
            rw [this]
            rfl
          rw [hv]
          rw [Nat.add_mod, Nat.mod_mul_mod, ← Nat.add_mod]
          congr 1
          simp only [List.length_cons, List.length_nil]
          ring
      · exact hstop (by rw [loopParseIfEightDigits, if_neg h])

theorem takeWhile_append_all {α} (p : α → Bool) (a b : List α) (h : ∀ c ∈ a, p c = true) :
    (a ++ b).takeWhile p = a ++ b.takeWhile p ∧ (a ++ b).dropWhile p = b.dropWhile p := by
  induction a with
  | nil => simp
  | cons x a ih =>
    have hx := h x (by simp)
    have := ih (fun c hc => h c (List.mem_cons_of_mem _ hc))
    simp only [List.cons_append, List.takeWhile_cons_of_pos hx, List.dropWhile_cons_of_pos hx, this, and_self]

/-- The two loops over the digits after the point. -/
theorem fraction_loops (s : List Nat) (i : Nat) (hb : ∀ c ∈ s, c < 256) (hi : i < 2 ^ 64) :
    digitLoop (loopParseIfEightDigits s i).1 (loopParseIfEightDigits s i).2 = (s.dropWhile isInteger,
      (i * 10 ^ (s.takeWhile isInteger).length + digitsVal (s.takeWhile isInteger)) % 2 ^ 64) := by
  obtain ⟨pre, h1, h2, h3⟩ := loopParseIfEightDigits_eq s.length s i (le_refl _) hb hi
  obtain ⟨s', hs'⟩ : ∃ s', (loopParseIfEightDigits s i).1 = s' := ⟨_, rfl⟩
  rw [hs'] at h1
  rw [h3, hs', digitLoop_eq _ _ (Nat.mod_lt _ (by omega))]
  obtain ⟨t1, t2⟩ := takeWhile_append_all isInteger pre s' h2
  rw [h1, t1, t2, digitsVal_append, List.length_append, Nat.pow_add]
  congr 1
  rw [Nat.add_mod, Nat.mod_mul_mod, ← Nat.add_mod]
  congr 1
  ring

/-- The exponent as far as it is read. -/
def capVal (ds : List Nat) : Nat := (expLoop ds 0).2

theorem expLoop_eq : ∀ (s : List Nat) (e : Nat), expLoop s e = (s.dropWhile isInteger, (expLoop (s.takeWhile isInteger) e).2) := by
  intro s
  induction s with
  | nil => intro e; simp [expLoop]
  | cons c s ih =>
    intro e
    unfold expLoop
    by_cases h : isInteger c = true
    · rw [if_pos h, ih, List.dropWhile_cons_of_pos h, List.takeWhile_cons_of_pos h]
      simp only [h, if_true]
    · rw [if_neg h, List.dropWhile_cons_of_neg h, List.takeWhile_cons_of_neg h]

theorem expLoop_cap : ∀ (ds : List Nat) (e v : Nat), (∀ c ∈ ds, IsDigit c) → (e = v ∨ (0x10000000 ≤ e ∧ e ≤ v)) → e < 0xA0000000 →
    let e' := (expLoop ds e).2
    let v' := v * 10 ^ ds.length + digitsVal ds
    (e' = v' ∨ (0x10000000 ≤ e' ∧ e' ≤ v')) ∧ e' < 0xA0000000 := by
  intro ds
  induction ds with
  | nil => intro e v _ h hlt; simp [expLoop, digitsVal_nil, h, hlt]
  | cons c s ih =>
    intro e v hd h hlt
    have hc := hd c (by simp)
    have hi := (isInteger_iff c).mpr hc
    unfold IsDigit at hc
    simp only
    rw [expLoop, if_pos hi]
    have key := ih (if e < 0x10000000 then 10 * e + (c - 48) else e) (v * 10 + (c - 48)) (fun x hx => hd x (List.mem_cons_of_mem _ hx))
      (by split <;> omega) (by split <;> omega)
    simp only at key
    rw [digitsVal_cons, List.length_cons]
    have e2 : v * 10 ^ (s.length + 1) + ((c - 48) * 10 ^ s.length + digitsVal s) = (v * 10 + (c - 48)) * 10 ^ s.length + digitsVal s := by ring
    rw [e2]
    exact key

theorem capVal_spec (ds : List Nat) (h : ∀ c ∈ ds, IsDigit c) :
    (capVal ds = digitsVal ds ∨ (0x10000000 ≤ capVal ds ∧ capVal ds ≤ digitsVal ds)) ∧ capVal ds < 0xA0000000 := by
  have := expLoop_cap ds 0 0 h (Or.inl rfl) (by omega)
  simpa [capVal] using this

/-- The number that the exponent part adds to the exponent. -/
def capExp : Option (Nat × Option Nat × List Nat) → Int
  | none => 0
  | some (_, sg, ds) => if sg = some 45 then -(capVal ds : Int) else capVal ds

/-- A well formed exponent part. -/
def ExpWF (ex : Option (Nat × Option Nat × List Nat)) : Prop :=
  ∀ e sg ds, ex = some (e, sg, ds) → (e = 101 ∨ e = 69) ∧ (sg = none ∨ sg = some 43 ∨ sg = some 45) ∧ ds ≠ [] ∧ ∀ c ∈ ds, IsDigit c

theorem takeWhile_digits (s : List Nat) : ∀ c ∈ s.takeWhile isInteger, IsDigit c :=
  fun c hc => (isInteger_iff c).mp (List.mem_takeWhile_imp hc)

theorem exponentPart_spec (p : List Nat) : ∃ ex, p = Decimal.expText ex ++ (exponentPart p).1 ∧ ExpWF ex ∧ (exponentPart p).2 = capExp ex := by
  have hnone : exponentPart p = (p, 0) → ∃ ex, p = Decimal.expText ex ++ (exponentPart p).1 ∧ ExpWF ex ∧ (exponentPart p).2 = capExp ex := by
    intro h
    rw [h]
    exact ⟨none, rfl, (by intro e sg ds h; cases h), rfl⟩
  cases p with
  | nil => exact hnone rfl
  | cons c s =>
    by_cases hc : c = 101 ∨ c = 69
    · have key : ∀ (sg : Option Nat) (q : List Nat), (sg = none ∨ sg = some 43 ∨ sg = some 45) → s = sg.toList ++ q →
          exponentPart (c :: s) = (match q with
            | [] => (c :: s, 0)
            | d :: s' => if isInteger d then ((expLoop (d :: s') 0).1, if sg = some 45 then -((expLoop (d :: s') 0).2 : Int) else (expLoop (d :: s') 0).2)
              else (c :: s, 0)) →
          ∃ ex, c :: s = Decimal.expText ex ++ (exponentPart (c :: s)).1 ∧ ExpWF ex ∧ (exponentPart (c :: s)).2 = capExp ex := by
        intro sg q hsg hs he
        cases q with
        | nil => exact hnone he
        | cons d s' =>
          by_cases hd : isInteger d = true
          · simp only [hd, if_true] at he
            rw [he, expLoop_eq]
            refine ⟨some (c, sg, (d :: s').takeWhile isInteger), ?_, ?_, rfl⟩
            · simp only [Decimal.expText, List.cons_append, List.append_assoc, List.takeWhile_append_dropWhile]
              rw [← hs]
            · intro e sg' ds h
              cases h
              refine ⟨hc, hsg, ?_, takeWhile_digits _⟩
              rw [List.takeWhile_cons_of_pos hd]
              simp
          · simp only [hd] at he
            exact hnone he
      cases s with
      | nil => exact key none [] (Or.inl rfl) rfl (by unfold exponentPart; dsimp only; rw [if_pos hc])
      | cons d s' =>
        by_cases h1 : d = 45
        · exact key (some 45) s' (by simp) (by simp [h1]) (by
            unfold exponentPart
            dsimp only
            rw [if_pos hc]
            simp only [h1, if_true]
            cases s' <;> rfl)
        · by_cases h2 : d = 43
          · exact key (some 43) s' (by simp) (by simp [h2]) (by
              unfold exponentPart
              dsimp only
              rw [if_pos hc]
              simp [h2]
              cases s' <;> rfl)
          · exact key none (d :: s') (by simp) (by simp) (by
              unfold exponentPart
              dsimp only
              rw [if_pos hc]
              simp [h1, h2])
    · exact hnone (by unfold exponentPart; dsimp only; rw [if_neg hc])

theorem dropWhile_length (p : Nat → Bool) (s : List Nat) : (s.dropWhile p).length ≤ s.length := (List.dropWhile_sublist p).length_le

theorem exponentPart_length (p : List Nat) : (exponentPart p).1.length ≤ p.length := by
  obtain ⟨ex, h, _⟩ := exponentPart_spec p
  have := congrArg List.length h
  rw [List.length_append] at this
  omega

/-- Nothing that can be read is left. -/
theorem exponentPart_most (ex : Option (Nat × Option Nat × List Nat)) (rest : List Nat) (h : ExpWF ex) :
    (exponentPart ((Decimal.expText ex ++ rest).dropWhile isInteger)).1.length ≤ rest.length := by
  match ex with
  | none =>
    have := exponentPart_length (rest.dropWhile isInteger)
    have := dropWhile_length isInteger rest
    simp only [Decimal.expText, List.nil_append]
    omega
  | some (e, sg, ds) =>
    obtain ⟨he, hsg, hne, hd⟩ := h e sg ds rfl
    have hni : ¬ isInteger e = true := by rcases he with rfl | rfl <;> decide
    obtain ⟨d, ds', rfl⟩ := List.exists_cons_of_ne_nil hne
    have hdi : isInteger d = true := (isInteger_iff d).mpr (hd d (by simp))
    simp only [Decimal.expText, List.cons_append, List.append_assoc, List.dropWhile_cons_of_neg hni]
    have hall : ((d :: (ds' ++ rest)).dropWhile isInteger).length ≤ rest.length := by
      have := (takeWhile_append_all isInteger (d :: ds') rest (fun c hc => (isInteger_iff c).mpr (hd c hc))).2
      rw [List.cons_append] at this
      rw [this]
      exact dropWhile_length _ _
    have hd' := hd d (by simp)
    unfold IsDigit at hd'
    rcases hsg with rfl | rfl | rfl
    · unfold exponentPart
      dsimp only
      rw [if_pos he]
      simp only [Option.toList_none, List.nil_append, show ¬ d = 45 by omega, show ¬ d = 43 by omega, if_false, hdi, if_true]
      rw [expLoop_eq]
      exact hall
    · unfold exponentPart
      dsimp only
      rw [if_pos he]
      simp only [Option.toList_some, List.cons_append, List.nil_append, show ¬ (43 : Nat) = 45 by omega, if_false, hdi, if_true]
      rw [expLoop_eq]
      exact hall
    · unfold exponentPart
      dsimp only
      rw [if_pos he]
      simp only [Option.toList_some, List.cons_append, List.nil_append, hdi, if_true]
      rw [expLoop_eq]
      exact hall

theorem zeroLoop_digits : ∀ (ds tail : List Nat) (n : Int), (∀ c ∈ ds, IsDigit c) → zeroLoop (ds ++ tail) n =
    if ds.dropWhile (· == 48) = [] then zeroLoop tail (n - ds.length) else n - (ds.length - (ds.dropWhile (· == 48)).length) := by
  intro ds
  induction ds with
  | nil => intro tail n _; simp
  | cons c s ih =>
    intro tail n h
    have hc := h c (by simp)
    unfold IsDigit at hc
    rw [List.cons_append, zeroLoop]
    by_cases h0 : c = 48
    · rw [if_pos h0, List.dropWhile_cons_of_pos (by simp [h0]), ih _ _ (fun x hx => h x (List.mem_cons_of_mem _ hx)), List.length_cons]
      push_cast
      split
      · congr 1; omega
      · omega
    · rw [if_neg h0, if_neg (by omega), List.dropWhile_cons_of_neg (by simp [h0]), if_neg (by simp)]
      omega

theorem zeroLoop_le : ∀ (s : List Nat) (n : Int), zeroLoop s n ≤ n := by
  intro s
  induction s with
  | nil => intro n; simp [zeroLoop]
  | cons c s ih =>
    intro n
    unfold zeroLoop
    split
    · have := ih (n - 1); omega
    · split
      · exact ih n
      · exact le_refl _

theorem nineteenLoop_append : ∀ (a b : List Nat) (i : Nat), nineteenLoop (a ++ b) i =
    if (nineteenLoop a i).2 ≥ 1000000000000000000 then ((nineteenLoop a i).1 ++ b, (nineteenLoop a i).2) else nineteenLoop b (nineteenLoop a i).2 := by
  intro a
  induction a with
  | nil =>
    intro b i
    rw [show nineteenLoop [] i = ([], i) from rfl, List.nil_append]
    dsimp only
    by_cases h : i ≥ 1000000000000000000
    · rw [if_pos h]
      cases b with
      | nil => rfl
      | cons c b => rw [nineteenLoop, if_neg (by omega)]
    · rw [if_neg h]
  | cons c a ih =>
    intro b i
    rw [List.cons_append, nineteenLoop, nineteenLoop]
    by_cases h : i < 1000000000000000000
    · rw [if_pos h, if_pos h, ih]
    · rw [if_neg h, if_neg h, if_pos (by simpa using h)]
      rfl

theorem nineteenLoop_zeros : ∀ (ds : List Nat), nineteenLoop ds 0 = nineteenLoop (ds.dropWhile (· == 48)) 0 := by
  intro ds
  induction ds with
  | nil => rfl
  | cons c s ih =>
    by_cases h0 : c = 48
    · rw [List.dropWhile_cons_of_pos (by simp [h0]), ← ih, nineteenLoop, if_pos (by omega), h0]
    · rw [List.dropWhile_cons_of_neg (by simp [h0])]

theorem nineteenLoop_some : ∀ (ds : List Nat) (k i : Nat), (∀ c ∈ ds, IsDigit c) → k ≤ 18 → 10 ^ k ≤ i → i < 10 ^ (k + 1) →
    nineteenLoop ds i = (ds.drop (18 - k), i * 10 ^ (ds.take (18 - k)).length + digitsVal (ds.take (18 - k))) := by
  intro ds
  induction ds with
  | nil => intro k i _ _ _ _; simp [nineteenLoop, digitsVal_nil]
  | cons c s ih =>
    intro k i h hk h1 h2
    have hc := h c (by simp)
    unfold IsDigit at hc
    rw [nineteenLoop]
    by_cases h18 : k = 18
    · subst h18
      rw [if_neg (by omega)]
      simp [digitsVal_nil]
    · have hp : 10 ^ (k + 1) ≤ 10 ^ 18 := Nat.pow_le_pow_right (by omega) (by omega)
      have hp2 : 10 ^ (k + 1) = 10 * 10 ^ k := by rw [Nat.pow_succ, Nat.mul_comm]
      have hp3 : 10 ^ (k + 1 + 1) = 10 * 10 ^ (k + 1) := by rw [Nat.pow_succ, Nat.mul_comm]
      rw [if_pos (by omega), Nat.mod_eq_of_lt (by omega), ih (k + 1) _ (fun x hx => h x (List.mem_cons_of_mem _ hx)) (by omega) (by omega) (by omega)]
      obtain ⟨m, hm⟩ : ∃ m, 18 - k = m + 1 := ⟨18 - (k + 1), by omega⟩
      have hm' : 18 - (k + 1) = m := by omega
      rw [hm, hm', List.drop_succ_cons, List.take_succ_cons, digitsVal_cons, List.length_cons]
      congr 1
      rw [Nat.pow_succ]
      ring

theorem nineteenLoop_sig (c : Nat) (s : List Nat) (hc : IsDigit c) (h0 : c ≠ 48) (h : ∀ x ∈ s, IsDigit x) :
    nineteenLoop (c :: s) 0 = ((c :: s).drop 19, digitsVal ((c :: s).take 19)) := by
  unfold IsDigit at hc
  rw [nineteenLoop, if_pos (by omega), Nat.mod_eq_of_lt (by omega), nineteenLoop_some s 0 _ h (by omega) (by omega) (by omega),
    List.drop_succ_cons, List.take_succ_cons, digitsVal_cons]
  simp

/-- The significand as it is passed on: all digits if there are at most nineteen of them after leading zeros, otherwise nineteen. -/
def trunc (D : List Nat) (e : Int) : Nat × Int × Bool :=
  let sig := D.dropWhile (· == 48)
  if sig.length ≤ 19 then (digitsVal D, e, false) else (digitsVal (sig.take 19), e + (sig.length - 19), true)

theorem digitsVal_sig : ∀ (D : List Nat), digitsVal (D.dropWhile (· == 48)) = digitsVal D := by
  intro D
  induction D with
  | nil => rfl
  | cons c s ih =>
    by_cases h0 : c = 48
    · rw [List.dropWhile_cons_of_pos (by simp [h0]), ih, digitsVal_cons, h0]; simp
    · rw [List.dropWhile_cons_of_neg (by simp [h0])]

theorem dropWhile_digits (p : Nat → Bool) (D : List Nat) (h : ∀ c ∈ D, IsDigit c) : ∀ c ∈ D.dropWhile p, IsDigit c :=
  fun c hc => h c ((List.dropWhile_sublist p).subset hc)

theorem fixDigits_eq (int : List Nat) (frac : Option (List Nat)) (rest : List Nat) (en : Int) (hD : ∀ c ∈ int ++ frac.getD [], IsDigit c)
    (s : List Nat) (hs : s = int ++ (Decimal.fracText frac ++ rest)) :
    fixDigits s int frac ((int ++ frac.getD []).length : Int) (digitsVal (int ++ frac.getD []) % 2 ^ 64) (-((frac.getD []).length : Int) + en) en =
      trunc (int ++ frac.getD []) (en - ((frac.getD []).length : Int)) := by
  obtain ⟨D, hDe⟩ : ∃ D, int ++ frac.getD [] = D := ⟨_, rfl⟩
  obtain ⟨f, hf⟩ : ∃ f, frac.getD [] = f := ⟨_, rfl⟩
  have hsl : (D.dropWhile (· == 48)).length ≤ D.length := dropWhile_length _ _
  have hsmall : (D.dropWhile (· == 48)).length ≤ 19 → digitsVal D % 2 ^ 64 = digitsVal D := by
    intro h
    rw [Nat.mod_eq_of_lt]
    rw [← digitsVal_sig]
    rw [hDe] at hD
    have h1 := digitsVal_lt _ (dropWhile_digits (· == 48) D hD)
    have h2 : 10 ^ (D.dropWhile (· == 48)).length ≤ 10 ^ 19 := Nat.pow_le_pow_right (by omega) h
    omega
  have hz : (D.dropWhile (· == 48)).length ≤ 19 ∧ zeroLoop s D.length ≤ 19 ∨
      ¬ (D.dropWhile (· == 48)).length ≤ 19 ∧ zeroLoop s D.length = (D.dropWhile (· == 48)).length := by
    have hi : ∀ c ∈ int, IsDigit c := fun c hc => hD c (by simp [hc])
    have hf' : ∀ c ∈ frac.getD [], IsDigit c := fun c hc => hD c (by simp [hc])
    rw [hs, zeroLoop_digits _ _ _ hi, ← hDe, List.dropWhile_append]
    have hil : (int.dropWhile (· == 48)).length ≤ int.length := dropWhile_length _ _
    by_cases h1 : int.dropWhile (· == 48) = []
    · rw [if_pos h1]
      rw [if_pos (by rw [h1]; rfl)]
      cases frac with
      | none =>
        left
        refine ⟨by simp, ?_⟩
        have := zeroLoop_le rest ((((int ++ (none : Option (List Nat)).getD []).length : Nat) : Int) - int.length)
        simp only [Option.getD_none, List.append_nil, List.nil_append, Decimal.fracText] at *
        omega
      | some f =>
        simp only [Option.getD_some, List.cons_append, Decimal.fracText] at *
        rw [zeroLoop, if_neg (by omega), if_pos rfl, zeroLoop_digits _ _ _ hf', List.length_append]
        push_cast
        by_cases h2 : f.dropWhile (· == 48) = []
        · rw [if_pos h2, h2]
          left
          refine ⟨by simp, ?_⟩
          have := zeroLoop_le rest ((int.length : Int) + f.length - int.length - f.length)
          omega
        · rw [if_neg h2]
          have := dropWhile_length (· == 48) f
          omega
    · rw [if_neg h1, if_neg (by simpa using h1)]
      rw [List.length_append, List.length_append]
      push_cast
      omega
  unfold fixDigits trunc
  rw [hDe]
  simp only [hf]
  rcases hz with ⟨h1, h2⟩ | ⟨h1, h2⟩
  · rw [if_pos h1, hsmall h1]
    split
    · rw [if_neg (by omega), show -(f.length : Int) + en = en - f.length by omega]
    · rw [show -(f.length : Int) + en = en - f.length by omega]
  · rw [if_neg h1, if_pos (by omega), if_pos (by omega)]
    have hn : nineteenLoop D 0 = ((D.dropWhile (· == 48)).drop 19, digitsVal ((D.dropWhile (· == 48)).take 19)) := by
      rw [nineteenLoop_zeros]
      obtain ⟨sig, hsig⟩ : ∃ sig, D.dropWhile (· == 48) = sig := ⟨_, rfl⟩
      have hd := dropWhile_digits (· == 48) D (by rw [← hDe]; exact hD)
      have hne := List.head?_dropWhile_not (· == 48) D
      rw [hsig] at h1 hd hne ⊢
      cases sig with
      | nil => simp at h1
      | cons c sig =>
        simp only [List.head?_cons] at hne
        exact nineteenLoop_sig c sig (hd c (by simp)) (by simpa using hne) (fun x hx => hd x (List.mem_cons_of_mem _ hx))
    have hDf : int ++ f = D := by rw [← hf]; exact hDe
    rw [← hDe, nineteenLoop_append, hf, hDf] at hn
    split at hn
    · rename_i hbig
      rw [if_pos hbig]
      have e1 := congrArg (fun x => x.1.length) hn
      have e2 := congrArg (fun x => x.2) hn
      simp only [List.length_append, List.length_drop] at e1 e2
      rw [e2]
      simp only [Prod.mk.injEq, true_and, and_true]
      omega
    · rename_i hbig
      rw [if_neg hbig, hn]
      simp only [Prod.mk.injEq, true_and, and_true, List.length_drop]
      omega

/-- The digits after the point, if there is one. -/
def fracOf : List Nat → Option (List Nat)
  | [] => none
  | c :: b => if c = 46 then some (b.takeWhile isInteger) else none

/-- The text after the point and the digits after it. -/
def afterFrac : List Nat → List Nat
  | [] => []
  | c :: b => if c = 46 then b.dropWhile isInteger else c :: b

theorem frac_split (p : List Nat) : p = Decimal.fracText (fracOf p) ++ afterFrac p := by
  cases p with
  | nil => rfl
  | cons c b =>
    by_cases h : c = 46
    · simp [fracOf, afterFrac, Decimal.fracText, h]
    · simp [fracOf, afterFrac, Decimal.fracText, h]

theorem frac_digits (p : List Nat) : ∀ c ∈ (fracOf p).getD [], IsDigit c := by
  cases p with
  | nil => simp [fracOf]
  | cons c b =>
    by_cases h : c = 46
    · simp only [fracOf, h, if_true, Option.getD_some]
      exact takeWhile_digits b
    · simp [fracOf, h]

theorem take_sub_dropWhile (s : List Nat) : s.take (s.length - (s.dropWhile isInteger).length) = s.takeWhile isInteger ∧
    s.length - (s.dropWhile isInteger).length = (s.takeWhile isInteger).length := by
  obtain ⟨a, ha⟩ : ∃ a, s.takeWhile isInteger = a := ⟨_, rfl⟩
  obtain ⟨b, hb⟩ : ∃ b, s.dropWhile isInteger = b := ⟨_, rfl⟩
  have h : s = a ++ b := by rw [← ha, ← hb, List.takeWhile_append_dropWhile]
  rw [ha, hb, h]
  simp

theorem parseUnsigned_eq (neg : Bool) (s : List Nat) (hb : ∀ c ∈ s, c < 256) :
    parseUnsigned neg s =
      (let int := s.takeWhile isInteger
       let p := s.dropWhile isInteger
       let D := int ++ (fracOf p).getD []
       if D = [] then invalidPNS
       else
         let q := exponentPart (afterFrac p)
         let t := trunc D (q.2 - ((fracOf p).getD []).length)
         ⟨t.2.1, t.1, q.1, neg, true, t.2.2, int, fracOf p⟩) := by
  have hsplit : s = s.takeWhile isInteger ++ s.dropWhile isInteger := (List.takeWhile_append_dropWhile).symm
  have hint := takeWhile_digits s
  obtain ⟨e1, e2⟩ := take_sub_dropWhile s
  unfold parseUnsigned
  rw [digitLoop_eq s 0 (by omega)]
  dsimp only
  rw [e1, e2]
  obtain ⟨int, hi⟩ : ∃ a, s.takeWhile isInteger = a := ⟨_, rfl⟩
  obtain ⟨p, hp⟩ : ∃ b, s.dropWhile isInteger = b := ⟨_, rfl⟩
  rw [hi, hp] at hsplit
  rw [hi] at hint
  rw [hi, hp, Nat.zero_mul, Nat.zero_add]
  have hfd := frac_digits p
  have hfs := frac_split p
  have fix := fun en => fixDigits_eq int (fracOf p) (afterFrac p) en (by
    intro c hc
    rw [List.mem_append] at hc
    exact hc.elim (hint c) (hfd c)) s (by rw [← hfs]; exact hsplit)
  by_cases hdot : ∃ b, p = 46 :: b
  · obtain ⟨b, rfl⟩ := hdot
    have hbb : ∀ c ∈ b, c < 256 := fun c hc => hb c (by rw [hsplit]; simp [hc])
    have hf1 : fracOf (46 :: b) = some (b.takeWhile isInteger) := by simp [fracOf]
    have hf2 : afterFrac (46 :: b) = b.dropWhile isInteger := by simp [afterFrac]
    obtain ⟨e3, e4⟩ := take_sub_dropWhile b
    simp only [List.head?_cons, beq_self_eq_true, if_true, List.drop_succ_cons, List.drop_zero]
    rw [fraction_loops b _ hbb (Nat.mod_lt _ (by omega))]
    dsimp only
    have e5 : ((b.dropWhile isInteger).length : Int) - b.length = -((b.takeWhile isInteger).length : Int) := by
      have := dropWhile_length isInteger b
      omega
    have e6 : (digitsVal int % 2 ^ 64 * 10 ^ (b.takeWhile isInteger).length + digitsVal (b.takeWhile isInteger)) % 2 ^ 64 =
        digitsVal (int ++ b.takeWhile isInteger) % 2 ^ 64 := by
      rw [digitsVal_append, Nat.add_mod, Nat.mod_mul_mod, ← Nat.add_mod]
    rw [e3, e5, e6, hf1, hf2, Option.getD_some]
    rw [hf1, Option.getD_some] at fix
    have e7 : (int.length : Int) - -((b.takeWhile isInteger).length : Int) = ((int ++ b.takeWhile isInteger).length : Int) := by
      rw [List.length_append]; push_cast; omega
    rw [e7]
    by_cases hD : int ++ b.takeWhile isInteger = []
    · rw [if_pos hD, if_pos (by rw [hD]; rfl)]
    · rw [if_neg hD, if_neg (by
        intro h
        apply hD
        exact List.length_eq_zero_iff.mp (by omega))]
      rw [fix]
  · have hf1 : fracOf p = none := by
      cases p with
      | nil => rfl
      | cons c b =>
        have : c ≠ 46 := fun h => hdot ⟨b, by rw [h]⟩
        simp [fracOf, this]
    have hf2 : afterFrac p = p := by
      cases p with
      | nil => rfl
      | cons c b =>
        have : c ≠ 46 := fun h => hdot ⟨b, by rw [h]⟩
        simp [afterFrac, this]
    have hf3 : (p.head? == some 46) = false := by
      cases p with
      | nil => rfl
      | cons c b =>
        have : c ≠ 46 := fun h => hdot ⟨b, by rw [h]⟩
        simp [this]
    rw [hf3, hf1, hf2]
    rw [hf1] at fix
    simp only [Option.getD_none, List.append_nil, List.length_nil] at fix ⊢
    simp only [Bool.false_eq_true, if_false]
    by_cases hD : int = []
    · rw [if_pos hD, if_pos (by rw [hD]; rfl)]
    · rw [if_neg hD, if_neg (by
        intro h
        apply hD
        exact List.length_eq_zero_iff.mp (by omega))]
      have := fix (exponentPart p).2
      simp only [Nat.cast_zero, neg_zero, Int.zero_add, Int.sub_zero] at this ⊢
      rw [this]

/-- The members of a parsed number in terms of the decimal number. -/
structure Parsed (a : PNS) (t : Decimal) (rest : List Nat) : Prop where
  valid : a.valid = true
  rest : a.lastmatch = rest
  negative : a.negative = t.neg
  integer : a.integer = t.int
  fraction : a.fraction = t.frac
  number : (a.mantissa, a.exponent, a.tooManyDigits) = trunc t.digits (capExp t.exp - ((t.frac.getD []).length : Int))

theorem parseUnsigned_sound (neg : Bool) (s : List Nat) (hb : ∀ c ∈ s, c < 256) (hv : (parseUnsigned neg s).valid = true) :
    ∃ t : Decimal, t.WF ∧ t.neg = neg ∧ (if neg then [45] else []) ++ s = t.text ++ (parseUnsigned neg s).lastmatch ∧
      Parsed (parseUnsigned neg s) t (parseUnsigned neg s).lastmatch := by
  have hsplit : s = s.takeWhile isInteger ++ s.dropWhile isInteger := (List.takeWhile_append_dropWhile).symm
  have hfs := frac_split (s.dropWhile isInteger)
  obtain ⟨ex, h1, h2, h3⟩ := exponentPart_spec (afterFrac (s.dropWhile isInteger))
  rw [parseUnsigned_eq neg s hb] at hv ⊢
  dsimp only at hv ⊢
  split at hv
  · simp [invalidPNS] at hv
  · rename_i hD
    rw [if_neg hD]
    refine ⟨⟨neg, s.takeWhile isInteger, fracOf (s.dropWhile isInteger), ex⟩, ⟨?_, hD, h2⟩, rfl, ?_, ⟨rfl, rfl, rfl, rfl, rfl, ?_⟩⟩
    · intro c hc
      unfold Decimal.digits at hc
      rw [List.mem_append] at hc
      exact hc.elim (takeWhile_digits s c) (frac_digits _ c)
    · unfold Decimal.text
      simp only [List.append_assoc]
      rw [← h1, ← hfs, ← hsplit]
    · rw [h3]
      rfl

theorem parse_sound (s : List Nat) (hb : ∀ c ∈ s, c < 256) (a : PNS) (h : parseNumberString s = .ok a) (hv : a.valid = true) :
    ∃ t : Decimal, t.WF ∧ s = t.text ++ a.lastmatch ∧ Parsed a t a.lastmatch := by
  cases s with
  | nil => cases h
  | cons c s =>
    unfold parseNumberString at h
    dsimp only at h
    split at h
    · rename_i hc
      cases s with
      | nil => cases h; cases hv
      | cons d s' =>
        dsimp only at h
        split at h
        · cases h; cases hv
        · cases h
          obtain ⟨t, h1, h2, h3, h4⟩ := parseUnsigned_sound true (d :: s') (fun x hx => hb x (List.mem_cons_of_mem _ hx)) hv
          refine ⟨t, h1, ?_, h4⟩
          rw [← h3, hc]
          rfl
    · cases h
      obtain ⟨t, h1, h2, h3, h4⟩ := parseUnsigned_sound false (c :: s) hb hv
      exact ⟨t, h1, h3, h4⟩

theorem parseUnsigned_complete (t : Decimal) (rest : List Nat) (ht : t.WF) (neg : Bool)
    (hb : ∀ c ∈ t.int ++ (Decimal.fracText t.frac ++ (Decimal.expText t.exp ++ rest)), c < 256) :
    (parseUnsigned neg (t.int ++ (Decimal.fracText t.frac ++ (Decimal.expText t.exp ++ rest)))).valid = true ∧
    (parseUnsigned neg (t.int ++ (Decimal.fracText t.frac ++ (Decimal.expText t.exp ++ rest)))).lastmatch.length ≤ rest.length := by
  have hint : ∀ c ∈ t.int, isInteger c = true := fun c hc => (isInteger_iff c).mpr (ht.digits c (by simp [Decimal.digits, hc]))
  have hne := ht.nonempty
  unfold Decimal.digits at hne
  obtain ⟨w1, w2⟩ := takeWhile_append_all isInteger t.int (Decimal.fracText t.frac ++ (Decimal.expText t.exp ++ rest)) hint
  rw [parseUnsigned_eq neg _ hb]
  dsimp only
  rw [w1, w2]
  have most := exponentPart_most t.exp rest ht.exp
  cases hf : t.frac with
  | none =>
    rw [hf] at hne
    simp only [Option.getD_none, List.append_nil] at hne
    rw [show Decimal.fracText none = [] from rfl, List.nil_append]
    rw [if_neg (by simp [hne])]
    refine ⟨rfl, ?_⟩
    dsimp only
    cases hx : t.exp with
    | none =>
      simp only [Decimal.expText, List.nil_append]
      have h1 := exponentPart_length (afterFrac (rest.dropWhile isInteger))
      have h2 := congrArg List.length (frac_split (rest.dropWhile isInteger))
      rw [List.length_append] at h2
      have h3 := dropWhile_length isInteger rest
      omega
    | some x =>
      rw [hx] at most
      have hni : ¬ isInteger x.1 = true := by
        have := (ht.exp x.1 x.2.1 x.2.2 (by rw [hx])).1
        rcases this with h | h <;> rw [h] <;> decide
      have hnd : x.1 ≠ 46 := by
        have := (ht.exp x.1 x.2.1 x.2.2 (by rw [hx])).1
        omega
      obtain ⟨e, sg, ds⟩ := x
      simp only [Decimal.expText, List.cons_append, List.dropWhile_cons_of_neg hni] at most ⊢
      simp only [afterFrac, if_neg hnd]
      exact most
  | some f =>
    have hfi : ∀ c ∈ f, isInteger c = true := fun c hc => (isInteger_iff c).mpr (ht.digits c (by simp [Decimal.digits, hf, hc]))
    obtain ⟨v1, v2⟩ := takeWhile_append_all isInteger f (Decimal.expText t.exp ++ rest) hfi
    have hn46 : ¬ isInteger 46 = true := by decide
    rw [hf] at hne
    simp only [Option.getD_some] at hne
    rw [show Decimal.fracText (some f) ++ (Decimal.expText t.exp ++ rest) = 46 :: (f ++ (Decimal.expText t.exp ++ rest)) from rfl,
      List.dropWhile_cons_of_neg hn46, List.takeWhile_cons_of_neg hn46, List.append_nil,
      show fracOf (46 :: (f ++ (Decimal.expText t.exp ++ rest))) = some ((f ++ (Decimal.expText t.exp ++ rest)).takeWhile isInteger) from rfl,
      show afterFrac (46 :: (f ++ (Decimal.expText t.exp ++ rest))) = (f ++ (Decimal.expText t.exp ++ rest)).dropWhile isInteger from rfl,
      Option.getD_some]
    rw [v1, v2, if_neg (by
      intro h
      rw [List.append_eq_nil_iff, List.append_eq_nil_iff] at h
      exact hne (by rw [h.1, h.2.1]; rfl))]
    exact ⟨rfl, most⟩

theorem parse_complete (t : Decimal) (rest : List Nat) (ht : t.WF) (hb : ∀ c ∈ t.text ++ rest, c < 256) :
    ∃ a, parseNumberString (t.text ++ rest) = .ok a ∧ a.valid = true ∧ a.lastmatch.length ≤ rest.length := by
  have e : t.text ++ rest = (if t.neg then [45] else []) ++ (t.int ++ (Decimal.fracText t.frac ++ (Decimal.expText t.exp ++ rest))) := by
    simp [Decimal.text, List.append_assoc]
  have hhead : ∃ d s, t.int ++ (Decimal.fracText t.frac ++ (Decimal.expText t.exp ++ rest)) = d :: s ∧ (IsDigit d ∨ d = 46) := by
    have hne := ht.nonempty
    unfold Decimal.digits at hne
    cases hi : t.int with
    | cons d s => exact ⟨d, _, rfl, Or.inl (ht.digits d (by simp [Decimal.digits, hi]))⟩
    | nil =>
      cases hf : t.frac with
      | none => rw [hi, hf] at hne; exact absurd rfl hne
      | some f => exact ⟨46, _, rfl, Or.inr rfl⟩
  rw [e] at hb ⊢
  have hb' : ∀ c ∈ t.int ++ (Decimal.fracText t.frac ++ (Decimal.expText t.exp ++ rest)), c < 256 := fun c hc => hb c (by rw [List.mem_append]; exact Or.inr hc)
  have key := fun neg => parseUnsigned_complete t rest ht neg hb'
  obtain ⟨d, s, hds, hd⟩ := hhead
  rw [hds] at key ⊢
  cases hn : t.neg with
  | true =>
    refine ⟨_, ?_, key true⟩
    simp only [if_true, List.cons_append, List.nil_append, parseNumberString]
    rw [if_neg]
    rcases hd with hd | hd
    · simp [(isInteger_iff d).mpr hd]
    · simp [hd]
  | false =>
    refine ⟨_, ?_, key false⟩
    simp only [Bool.false_eq_true, if_false, List.nil_append, parseNumberString]
    rw [if_neg]
    rcases hd with hd | hd
    · unfold IsDigit at hd; omega
    · omega

end C4.FF
