import Verif.Spec.WideText
import Verif.Props.FFWide
import Verif.Props.FastFloatFormats
/-
Property C147: floating point numbers in texts of wide characters (fast_float).
-/
namespace C4.FF
open Spec

namespace Wd

theorem key {dp dp' c c' K : Nat} (h : StandsFor dp dp' c c') (hK : ¬ Other K) : c' = K ↔ c = K := by
  rcases h.2 with h | ⟨h1, h2⟩
  · rw [h]
  · constructor
    · rintro rfl; exact absurd h2 hK
    · rintro rfl; exact absurd h1 hK

theorem other_digit {c : Nat} (h : IsDigit c) : ¬ Other c := fun h' => h'.1.1 h

theorem stands_digit {dp dp' c c' : Nat} (h : StandsFor dp dp' c c') (hd : IsDigit c) : c' = c := (key h (other_digit hd)).2 rfl

theorem stands_isInteger {dp dp' c c' : Nat} (h : StandsFor dp dp' c c') : isInteger c' = isInteger c := by
  rw [Bool.eq_iff_iff, isInteger_iff, isInteger_iff]
  rcases h.2 with h | ⟨h1, h2⟩
  · rw [h]
  · exact ⟨fun h => absurd h h2.1.1, fun h => absurd h h1.1.1⟩

variable {dp dp' : Nat} {g : Nat → Nat}

theorem digitLoop_map : ∀ (s : List Nat), (∀ c ∈ s, StandsFor dp dp' c (g c)) → ∀ i, digitLoop (s.map g) i = ((digitLoop s i).1.map g, (digitLoop s i).2) := by
  intro s
  induction s with
  | nil => intro _ i; rfl
  | cons c s ih =>
    intro h i
    have hc := h c (by simp)
    rw [List.map_cons, digitLoop, digitLoop, stands_isInteger hc]
    split
    · rename_i hd
      rw [stands_digit hc ((isInteger_iff c).1 hd), ih (fun x hx => h x (List.mem_cons_of_mem _ hx))]
    · rfl

theorem expLoop_map : ∀ (s : List Nat), (∀ c ∈ s, StandsFor dp dp' c (g c)) → ∀ i, expLoop (s.map g) i = ((expLoop s i).1.map g, (expLoop s i).2) := by
  intro s
  induction s with
  | nil => intro _ i; rfl
  | cons c s ih =>
    intro h i
    have hc := h c (by simp)
    rw [List.map_cons, expLoop, expLoop, stands_isInteger hc]
    split
    · rename_i hd
      rw [stands_digit hc ((isInteger_iff c).1 hd), ih (fun x hx => h x (List.mem_cons_of_mem _ hx))]
    · rfl

theorem zeroLoop_map : ∀ (s : List Nat), (∀ c ∈ s, StandsFor dp dp' c (g c)) → ∀ n, zeroLoopO dp' (s.map g) n = zeroLoopO dp s n := by
  intro s
  induction s with
  | nil => intro _ i; rfl
  | cons c s ih =>
    intro h n
    have hc := h c (by simp)
    have ih := ih (fun x hx => h x (List.mem_cons_of_mem _ hx))
    rw [List.map_cons, zeroLoopO, zeroLoopO, ih, ih]
    simp only [key hc (other_digit (c := 48) (by unfold IsDigit; omega)), ← hc.1]

theorem head_key (p : List Nat) (h : ∀ c ∈ p, StandsFor dp dp' c (g c)) (K : Nat) (hK : ¬ Other K) : ((p.map g).head? == some K) = (p.head? == some K) := by
  cases p with
  | nil => rfl
  | cons c p =>
    rw [Bool.eq_iff_iff]
    simp only [List.map_cons, List.head?_cons, beq_iff_eq, Option.some.injEq]
    exact key (h c (by simp)) hK

theorem head_point (p : List Nat) (h : ∀ c ∈ p, StandsFor dp dp' c (g c)) : ((p.map g).head? == some dp') = (p.head? == some dp) := by
  cases p with
  | nil => rfl
  | cons c p =>
    rw [Bool.eq_iff_iff]
    simp only [List.map_cons, List.head?_cons, beq_iff_eq, Option.some.injEq]
    exact (h c (by simp)).1.symm

theorem not_other : ¬ Other 101 ∧ ¬ Other 69 ∧ ¬ Other 43 ∧ ¬ Other 45 ∧ ¬ Other 100 ∧ ¬ Other 68 := by
  unfold Other IsPoint
  omega

theorem exponentPart_map (fmt : Nat) (p : List Nat) (h : ∀ c ∈ p, StandsFor dp dp' c (g c)) :
    exponentPartO fmt (p.map g) = (exponentPartO fmt p).map (fun q => (q.1.map g, q.2)) := by
  obtain ⟨k1, k2, k3, k4, k5, k6⟩ := not_other
  unfold exponentPartO
  dsimp only
  rw [head_key p h 101 k1, head_key p h 69 k2, head_key p h 43 k3, head_key p h 45 k4, head_key p h 100 k5, head_key p h 68 k6]
  have hq : ∀ b : Bool, ∀ q : List Nat, (if b = true then (q.map g).drop 1 else q.map g) = (if b = true then q.drop 1 else q).map g := by
    intro b q
    split
    · rw [List.map_drop]
    · rfl
  rw [hq]
  have hG : ∀ (b : Bool) (q : List Nat), (∀ c ∈ q, StandsFor dp dp' c (g c)) → ∀ c ∈ (if b = true then q.drop 1 else q), StandsFor dp dp' c (g c) := by
    intro b q hq c hc
    split at hc
    · exact hq c (List.mem_of_mem_drop hc)
    · exact hq c hc
  have h1 := hG (p.head? == some 101 || p.head? == some 69 || p.head? == some 100 || p.head? == some 68) p h
  generalize (if (p.head? == some 101 || p.head? == some 69 || p.head? == some 100 || p.head? == some 68) = true then p.drop 1 else p) = q at h1 ⊢
  rw [head_key q h1 45 k4, head_key q h1 43 k3, hq]
  have h2 := hG (q.head? == some 45 || q.head? == some 43) q h1
  generalize (if (q.head? == some 45 || q.head? == some 43) = true then q.drop 1 else q) = r at h2 ⊢
  have hany : (r.map g).head?.any isInteger = r.head?.any isInteger := by
    cases r with
    | nil => rfl
    | cons c r => simp only [List.map_cons, List.head?_cons, Option.any_some]; exact stands_isInteger (h2 c (by simp))
  rw [hany, expLoop_map r h2]
  repeat' split
  all_goals rfl

theorem digitLoop_fst : ∀ (s : List Nat) (i : Nat), (digitLoop s i).1 = s.dropWhile isInteger := by
  intro s
  induction s with
  | nil => intro i; rfl
  | cons c s ih =>
    intro i
    rw [digitLoop]
    split
    · rename_i h; rw [ih, List.dropWhile_cons_of_pos h]
    · rename_i h; rw [List.dropWhile_cons_of_neg h]

theorem map_digits {s : List Nat} (h : ∀ c ∈ s, StandsFor dp dp' c (g c)) (hd : ∀ c ∈ s, IsDigit c) : s.map g = s :=
  (List.map_congr_left (g := id) (fun c hc => stands_digit (h c hc) (hd c hc))).trans (List.map_id s)

/-- The configuration of `char`. -/
def narrow : Cfg := ⟨.char, .none, false⟩

theorem loopEight_narrow (s : List Nat) (i : Nat) (hb : ∀ c ∈ s, c < 256) : loopParseIfEightDigits s i = narrow.loopEight s i := by
  fun_induction loopParseIfEightDigits s i with
  | case1 c0 c1 c2 c3 c4 c5 c6 c7 s i v h ih =>
    have hb8 : ∀ c ∈ [c0, c1, c2, c3, c4, c5, c6, c7], c < 256 := fun c hc => hb c (by
      simp only [List.mem_cons, List.not_mem_nil, or_false] at hc ⊢
      tauto)
    have hr : narrow.read8 [c0, c1, c2, c3, c4, c5, c6, c7] = v := by
      rw [cfg_read8 narrow _ _ _ _ _ _ _ _ (fun c hc => by simpa [narrow, Uc.bytes] using hb8 c hc), map_mod _ hb8]
    rw [ih (fun c hc => hb c (by simp [hc])), Cfg.loopEight, if_pos]
    · unfold Cfg.parseEight
      rw [if_neg (by decide), hr]
    · unfold Cfg.isEight
      rw [if_pos (show narrow.uc = .char by rfl), hr]
      exact h
  | case2 c0 c1 c2 c3 c4 c5 c6 c7 s i v h =>
    have hb8 : ∀ c ∈ [c0, c1, c2, c3, c4, c5, c6, c7], c < 256 := fun c hc => hb c (by
      simp only [List.mem_cons, List.not_mem_nil, or_false] at hc ⊢
      tauto)
    have hr : narrow.read8 [c0, c1, c2, c3, c4, c5, c6, c7] = v := by
      rw [cfg_read8 narrow _ _ _ _ _ _ _ _ (fun c hc => by simpa [narrow, Uc.bytes] using hb8 c hc), map_mod _ hb8]
    rw [Cfg.loopEight, if_neg]
    unfold Cfg.isEight
    rw [if_pos (show narrow.uc = .char by rfl), hr]
    exact h
  | case3 s i hs =>
    unfold Cfg.loopEight
    split
    · exact absurd rfl (hs _ _ _ _ _ _ _ _ _)
    · rfl

theorem digitLoop_step (c : Nat) (s : List Nat) (i : Nat) (h : IsDigit c) : digitLoop (c :: s) i = digitLoop s ((10 * i + (c - 48)) % 2 ^ 64) := by
  rw [digitLoop, if_pos ((isInteger_iff c).2 h)]

theorem wide_loops (k : Cfg) (s : List Nat) (i : Nat) (hr : k.uc.InRange s) : digitLoop (k.loopEight s i).1 (k.loopEight s i).2 = digitLoop s i :=
  loopEight_then k digitLoop digitLoop_step s i hr

theorem narrow_loops (s : List Nat) (i : Nat) (hb : ∀ c ∈ s, c < 256) :
    digitLoop (loopParseIfEightDigits s i).1 (loopParseIfEightDigits s i).2 = digitLoop s i := by
  rw [loopEight_narrow s i hb]
  exact wide_loops narrow s i (fun c hc => by simpa [narrow, Uc.bytes] using hb c hc)

/-- `parse_number_string` after the sign, with loops over single digits. -/
def ref (o : ParseOptions) (negative : Bool) (startDigits : List Nat) : PNS :=
  let (p, i) := digitLoop startDigits 0
  let integer := startDigits.take (startDigits.length - p.length)
  let digitCount : Int := (startDigits.length - p.length : Nat)
  let json := hasFlag o.format fmtJsonBit
  if json && (digitCount == 0 || (startDigits.head? == some 48 && digitCount > 1)) then invalidPNS
  else
    let hasDecimalPoint := p.head? == some o.decimalPoint
    let (p, i, exponent, fraction) :=
      if hasDecimalPoint then
        let before := p.drop 1
        let (p, i) := digitLoop before i
        (p, i, (p.length : Int) - before.length, some (before.take (before.length - p.length)))
      else (p, i, (0 : Int), none)
    let digitCount := digitCount - exponent
    if (if json then hasDecimalPoint && exponent == 0 else digitCount == 0) then invalidPNS
    else
      match exponentPartO o.format p with
      | none => invalidPNS
      | some (p, expNumber) =>
        let exponent := exponent + expNumber
        let (i, exponent, tooMany) := fixDigitsO o.decimalPoint startDigits integer fraction digitCount i exponent expNumber
        ⟨exponent, i, p, negative, true, tooMany, integer, fraction⟩

theorem digitLoop_suffix (s : List Nat) (i : Nat) : (digitLoop s i).1 <:+ s := by
  rw [digitLoop_fst]
  exact List.dropWhile_suffix _

theorem wide_ref (k : Cfg) (o : ParseOptions) (neg : Bool) (s : List Nat) (hr : k.uc.InRange s) : k.parseUnsigned o neg s = ref o neg s := by
  unfold Cfg.parseUnsigned ref
  have h1 := digitLoop_suffix s 0
  generalize digitLoop s 0 = q at h1 ⊢
  obtain ⟨p, i⟩ := q
  dsimp only at h1 ⊢
  rw [wide_loops k (p.drop 1) i (fun c hc => hr c (h1.subset (List.mem_of_mem_drop hc)))]
  rfl

theorem narrow_ref (o : ParseOptions) (neg : Bool) (s : List Nat) (hb : ∀ c ∈ s, c < 256) : parseUnsignedO o neg s = ref o neg s := by
  unfold parseUnsignedO ref
  have h1 := digitLoop_suffix s 0
  generalize digitLoop s 0 = q at h1 ⊢
  obtain ⟨p, i⟩ := q
  dsimp only at h1 ⊢
  rw [narrow_loops (p.drop 1) i (fun c hc => hb c (h1.subset (List.mem_of_mem_drop hc)))]
  rfl

/-- The part of a text that was read as digits. -/
theorem digitLoop_read (s : List Nat) (i : Nat) : ∀ c ∈ s.take (s.length - (digitLoop s i).1.length), IsDigit c := by
  rw [digitLoop_fst, (take_sub_dropWhile s).1]
  exact takeWhile_digits s

/-- The same, but for the text that is left. -/
def mapLast (g : Nat → Nat) (a : PNS) : PNS := ⟨a.exponent, a.mantissa, a.lastmatch.map g, a.negative, a.valid, a.tooManyDigits, a.integer, a.fraction⟩

theorem ref_map (o : ParseOptions) (dp' : Nat) (g : Nat → Nat) (neg : Bool) (s : List Nat)
    (hg : ∀ c ∈ s, StandsFor o.decimalPoint dp' c (g c)) : ref ⟨o.format, dp'⟩ neg (s.map g) = mapLast g (ref o neg s) := by
  unfold ref
  have h1 := digitLoop_suffix s 0
  have hd := digitLoop_read s 0
  rw [digitLoop_map s hg]
  generalize digitLoop s 0 = q at h1 hd ⊢
  obtain ⟨p, i⟩ := q
  dsimp only at h1 hd ⊢
  have hp : ∀ c ∈ p, StandsFor o.decimalPoint dp' c (g c) := fun c hc => hg c (h1.subset hc)
  rw [List.length_map, List.length_map, ← List.map_take, map_digits (fun c hc => hg c (List.mem_of_mem_take hc)) hd,
    head_key s hg 48 (other_digit (by unfold IsDigit; omega)), head_point p hp, ← List.map_drop,
    digitLoop_map (p.drop 1) (fun c hc => hp c (List.mem_of_mem_drop hc))]
  split
  · rfl
  · have h2 := digitLoop_suffix (p.drop 1) i
    have hd2 := digitLoop_read (p.drop 1) i
    generalize digitLoop (p.drop 1) i = q at h2 hd2 ⊢
    obtain ⟨p2, i2⟩ := q
    dsimp only at h2 hd2 ⊢
    have hp1 : ∀ c ∈ p.drop 1, StandsFor o.decimalPoint dp' c (g c) := fun c hc => hp c (List.mem_of_mem_drop hc)
    rw [List.length_map, List.length_map, ← List.map_take, map_digits (fun c hc => hp1 c (List.mem_of_mem_take hc)) hd2]
    generalize (p.head? == some o.decimalPoint) = b
    have hend : ∀ (q : List Nat) (j : Nat) (e : Int) (fr : Option (List Nat)) (b : Bool) (int : List Nat) (n : Int), (∀ c ∈ q, StandsFor o.decimalPoint dp' c (g c)) →
        (if b = true then invalidPNS else
          match exponentPartO o.format (q.map g) with
          | none => invalidPNS
          | some (p, expNumber) =>
            ⟨(fixDigitsO dp' (s.map g) int fr (n - e) j (e + expNumber) expNumber).2.1, (fixDigitsO dp' (s.map g) int fr (n - e) j (e + expNumber) expNumber).1, p, neg,
              true, (fixDigitsO dp' (s.map g) int fr (n - e) j (e + expNumber) expNumber).2.2, int, fr⟩) =
        mapLast g (if b = true then invalidPNS else
          match exponentPartO o.format q with
          | none => invalidPNS
          | some (p, expNumber) =>
            ⟨(fixDigitsO o.decimalPoint s int fr (n - e) j (e + expNumber) expNumber).2.1, (fixDigitsO o.decimalPoint s int fr (n - e) j (e + expNumber) expNumber).1, p, neg,
              true, (fixDigitsO o.decimalPoint s int fr (n - e) j (e + expNumber) expNumber).2.2, int, fr⟩) := by
      intro q j e fr b int n hq
      have hfix : ∀ x y z, fixDigitsO dp' (s.map g) int fr x j y z = fixDigitsO o.decimalPoint s int fr x j y z := by
        intro x y z
        unfold fixDigitsO
        rw [zeroLoop_map s hg]
      split
      · rfl
      · rw [exponentPart_map _ q hq]
        simp only [hfix]
        cases exponentPartO o.format q with
        | none => rfl
        | some r => rfl
    cases b
    · exact hend p i 0 none _ _ _ hp
    · exact hend p2 i2 _ (some _) _ _ _ (fun c hc => hp1 c (h2.subset hc))

theorem expLoop_suffix : ∀ (s : List Nat) (e : Nat), (expLoop s e).1 <:+ s := by
  intro s
  induction s with
  | nil => intro e; exact List.suffix_refl _
  | cons c s ih =>
    intro e
    rw [expLoop]
    split
    · exact (ih _).trans (List.suffix_cons _ _)
    · exact List.suffix_refl _

theorem exponentPart_suffix (fmt : Nat) (p : List Nat) (q : List Nat × Int) (h : exponentPartO fmt p = some q) : q.1 <:+ p := by
  have hif : ∀ (b : Bool) (q : List Nat), (if b = true then q.drop 1 else q) <:+ q := by
    intro b q
    split
    · exact List.drop_suffix _ _
    · exact List.suffix_refl _
  unfold exponentPartO at h
  dsimp only at h
  split at h
  · have h1 := hif (p.head? == some 101 || p.head? == some 69 || p.head? == some 100 || p.head? == some 68) p
    generalize (if (p.head? == some 101 || p.head? == some 69 || p.head? == some 100 || p.head? == some 68) = true then p.drop 1 else p) = u at h1 h
    have h2 := hif (u.head? == some 45 || u.head? == some 43) u
    generalize (if (u.head? == some 45 || u.head? == some 43) = true then u.drop 1 else u) = v at h2 h
    split at h
    · obtain rfl := Option.some.inj h
      exact (expLoop_suffix _ _).trans (h2.trans h1)
    · split at h
      · cases h
      · obtain rfl := Option.some.inj h
        exact List.suffix_refl _
  · split at h
    · cases h
    · obtain rfl := Option.some.inj h
      exact List.suffix_refl _

theorem ref_facts (o : ParseOptions) (neg : Bool) (s : List Nat) :
    (ref o neg s).lastmatch <:+ s ∧ (∀ c ∈ (ref o neg s).integer, IsDigit c) ∧ (∀ c ∈ (ref o neg s).fraction.getD [], IsDigit c) := by
  have hinv : invalidPNS.lastmatch <:+ s ∧ (∀ c ∈ invalidPNS.integer, IsDigit c) ∧ (∀ c ∈ invalidPNS.fraction.getD [], IsDigit c) :=
    ⟨List.nil_suffix, by simp [invalidPNS], by simp [invalidPNS]⟩
  unfold ref
  have h1 := digitLoop_suffix s 0
  have hd := digitLoop_read s 0
  generalize digitLoop s 0 = q at h1 hd ⊢
  obtain ⟨p, i⟩ := q
  dsimp only at h1 hd ⊢
  split
  · exact hinv
  · have h2 := digitLoop_suffix (p.drop 1) i
    have hd2 := digitLoop_read (p.drop 1) i
    generalize digitLoop (p.drop 1) i = q at h2 hd2 ⊢
    obtain ⟨p2, i2⟩ := q
    dsimp only at h2 hd2 ⊢
    have hw : (if (p.head? == some o.decimalPoint) = true then
          (p2, i2, ((p2.length : Int) - (p.drop 1).length), some ((p.drop 1).take ((p.drop 1).length - p2.length)))
        else (p, i, (0 : Int), none)).1 <:+ s ∧
        ∀ c ∈ (if (p.head? == some o.decimalPoint) = true then
          (p2, i2, ((p2.length : Int) - (p.drop 1).length), some ((p.drop 1).take ((p.drop 1).length - p2.length)))
        else (p, i, (0 : Int), none)).2.2.2.getD [], IsDigit c := by
      split
      · exact ⟨h2.trans ((List.drop_suffix _ _).trans h1), hd2⟩
      · exact ⟨h1, by simp⟩
    generalize (if (p.head? == some o.decimalPoint) = true then
          (p2, i2, ((p2.length : Int) - (p.drop 1).length), some ((p.drop 1).take ((p.drop 1).length - p2.length)))
        else (p, i, (0 : Int), none)) = w at hw ⊢
    generalize (if hasFlag o.format fmtJsonBit = true then p.head? == some o.decimalPoint && w.2.2.1 == 0
      else (((s.length - p.length : Nat) : Int) - w.2.2.1 == 0)) = b
    cases b
    · cases he : exponentPartO o.format w.1 with
      | none => exact hinv
      | some q => exact ⟨(exponentPart_suffix _ _ _ he).trans hw.1, hd, hw.2⟩
    · exact hinv

theorem parseNumberString_map (k : Cfg) (o : ParseOptions) (dp' : Nat) (g : Nat → Nat) (s : List Nat) (hne : s ≠ []) (hr : k.uc.InRange s)
    (hg : ∀ c ∈ s, StandsFor o.decimalPoint dp' c (g c)) (hb : ∀ c ∈ s, g c < 256) :
    ∃ a, k.parseNumberString o s = .ok a ∧ parseNumberStringO ⟨o.format, dp'⟩ (s.map g) = .ok (mapLast g a) ∧
      a.lastmatch <:+ s ∧ (∀ c ∈ a.integer, IsDigit c) ∧ (∀ c ∈ a.fraction.getD [], IsDigit c) := by
  have hinv : ∀ s : List Nat, invalidPNS.lastmatch <:+ s ∧ (∀ c ∈ invalidPNS.integer, IsDigit c) ∧ (∀ c ∈ invalidPNS.fraction.getD [], IsDigit c) :=
    fun s => ⟨List.nil_suffix, by simp [invalidPNS], by simp [invalidPNS]⟩
  have href : ∀ (neg : Bool) (t : List Nat), t <:+ s → parseUnsignedO ⟨o.format, dp'⟩ neg (t.map g) = mapLast g (ref o neg t) ∧ k.parseUnsigned o neg t = ref o neg t := by
    intro neg t ht
    refine ⟨?_, wide_ref k o neg t (fun c hc => hr c (ht.subset hc))⟩
    rw [narrow_ref _ _ _ (by
      intro c hc
      rw [List.mem_map] at hc
      obtain ⟨d, hd, rfl⟩ := hc
      exact hb d (ht.subset hd)), ref_map o dp' g neg t (fun c hc => hg c (ht.subset hc))]
  cases s with
  | nil => exact absurd rfl hne
  | cons c s =>
    rw [List.map_cons]
    unfold Cfg.parseNumberString parseNumberStringO
    dsimp only
    have h45 := key (hg c (by simp)) not_other.2.2.2.1
    by_cases hc : c = 45
    · rw [if_pos hc, if_pos (h45.2 hc)]
      cases s with
      | nil => exact ⟨_, rfl, rfl, hinv _⟩
      | cons d s =>
        rw [List.map_cons]
        have hd := hg d (by simp)
        dsimp only
        obtain ⟨r1, r2⟩ := href true (d :: s) (List.suffix_cons _ _)
        rw [List.map_cons] at r1
        rw [stands_isInteger hd, r1, r2]
        have f := ref_facts o true (d :: s)
        have f : (ref o true (d :: s)).lastmatch <:+ c :: d :: s ∧ _ := ⟨f.1.trans (List.suffix_cons _ _), f.2⟩
        have hpt : (decide (g d ≠ dp')) = (decide (d ≠ o.decimalPoint)) := by
          rw [Bool.eq_iff_iff]
          simp only [decide_eq_true_eq, Ne, hd.1]
        rw [hpt]
        split
        · split
          · exact ⟨_, rfl, rfl, hinv _⟩
          · exact ⟨_, rfl, rfl, f⟩
        · split
          · exact ⟨_, rfl, rfl, hinv _⟩
          · exact ⟨_, rfl, rfl, f⟩
    · rw [if_neg hc, if_neg (fun h => hc (h45.1 h))]
      obtain ⟨r1, r2⟩ := href false (c :: s) (List.suffix_refl _)
      rw [List.map_cons] at r1
      rw [r1, r2]
      exact ⟨_, rfl, rfl, ref_facts o false (c :: s)⟩

theorem strncasecmpW_eq (a w : List Nat) (hw : ∀ l ∈ w, l < 256) : strncasecmpW a w = strncasecmp (a.map (· % 256)) w := by
  unfold strncasecmpW strncasecmp
  have h : ∀ (a w : List Nat) (x : Nat), (∀ l ∈ w, l < 256) →
      (a.zip w).foldl (fun d p => d ||| ((p.1 % 256) ^^^ (p.2 % 256))) x = ((a.map (· % 256)).zip w).foldl (fun d p => d ||| (p.1 ^^^ p.2)) x := by
    intro a
    induction a with
    | nil => intro w x _; rfl
    | cons c a ih =>
      intro w x hw
      cases w with
      | nil => rfl
      | cons l w =>
        simp only [List.map_cons, List.zip_cons_cons, List.foldl_cons]
        rw [ih w _ (fun y hy => hw y (List.mem_cons_of_mem _ hy)), Nat.mod_eq_of_lt (hw l (by simp))]
  rw [h a w 0 hw]

/-- The letters of "nan" and "infinity". -/
def letters : List Nat := S "afinty"

theorem sameWord_map (a : List Nat) (g h : Nat → Nat) : ∀ (w : List Nat), (∀ c ∈ a, ∀ l ∈ w, (g c = l ∨ g c + 32 = l) ↔ (h c = l ∨ h c + 32 = l)) →
    (SameWord (a.map g) w ↔ SameWord (a.map h) w) := by
  unfold SameWord
  induction a with
  | nil => intro w _; rfl
  | cons c a ih =>
    intro w hh
    cases w with
    | nil => simp
    | cons l w =>
      simp only [List.map_cons, List.forall₂_cons]
      rw [hh c (by simp) l (by simp), ih w (fun x hx y hy => hh x (List.mem_cons_of_mem _ hx) y (List.mem_cons_of_mem _ hy))]

/-- No wide character has a letter of "nan" or "infinity" as its low byte. -/
def LowBytes (s : List Nat) : Prop := ∀ c ∈ s, 256 ≤ c → c % 256 ∉ S "afintyAFINTY"

theorem cmp_map (a w : List Nat) (hlen : a.length = w.length) (hw : ∀ l ∈ w, l ∈ letters) (hg : ∀ c ∈ a, StandsFor dp dp' c (g c)) (hb : ∀ c ∈ a, g c < 256)
    (hl : LowBytes a) : strncasecmp (a.map g) w = strncasecmpW a w := by
  have hlet : ∀ l ∈ letters, 97 ≤ l ∧ l ≤ 122 ∧ l ∈ S "afintyAFINTY" ∧ l - 32 ∈ S "afintyAFINTY" := by decide
  rw [strncasecmpW_eq a w (fun l hl => by have := hlet l (hw l hl); omega), Bool.eq_iff_iff,
    strncasecmp_iff w _ (fun l hl => ⟨(hlet l (hw l hl)).1, (hlet l (hw l hl)).2.1⟩) (by simpa using hlen),
    strncasecmp_iff w _ (fun l hl => ⟨(hlet l (hw l hl)).1, (hlet l (hw l hl)).2.1⟩) (by simpa using hlen)]
  apply sameWord_map
  intro c hc l hlw
  obtain ⟨l1, l2, l3, l4⟩ := hlet l (hw l hlw)
  have h1 := hg c hc
  have h2 := hb c hc
  by_cases h : c < 256
  · rw [Nat.mod_eq_of_lt h]
    rcases h1.2 with h1 | ⟨h1, h3⟩
    · rw [h1]
    · unfold Other IsPoint at h1 h3
      omega
  · have h3 := hl c hc (by omega)
    rcases h1.2 with h1 | ⟨h1, h4⟩
    · omega
    · unfold Other IsPoint at h4
      have e1 : c % 256 ≠ l := fun e => h3 (e ▸ l3)
      have e2 : c % 256 + 32 ≠ l := fun e => h3 (by rw [show c % 256 = l - 32 by omega]; exact l4)
      omega

theorem nanSeq_map : ∀ (s : List Nat), (∀ c ∈ s, StandsFor dp dp' c (g c)) → nanSeq (s.map g) = (nanSeq s).map (List.map g) := by
  intro s
  induction s with
  | nil => intro _; rfl
  | cons c s ih =>
    intro h
    have hc := h c (by simp)
    have k41 := key hc (K := 41) (by unfold Other; omega)
    have hok : ((97 ≤ g c && g c ≤ 122) || (65 ≤ g c && g c ≤ 90) || (48 ≤ g c && g c ≤ 57) || g c == 95) =
        ((97 ≤ c && c ≤ 122) || (65 ≤ c && c ≤ 90) || (48 ≤ c && c ≤ 57) || c == 95) := by
      rcases hc.2 with h | ⟨h1, h2⟩
      · rw [h]
      · unfold Other IsPoint IsDigit at h1 h2
        rw [Bool.eq_iff_iff]
        simp only [Bool.or_eq_true, Bool.and_eq_true, decide_eq_true_eq, beq_iff_eq]
        omega
    rw [List.map_cons, nanSeq, nanSeq, hok, ih (fun x hx => h x (List.mem_cons_of_mem _ hx))]
    simp only [k41]
    split
    · rfl
    · split <;> rfl

theorem nanSeq_suffix : ∀ (s r : List Nat), nanSeq s = some r → r <:+ s := by
  intro s
  induction s with
  | nil => intro r h; cases h
  | cons c s ih =>
    intro r h
    rw [nanSeq] at h
    split at h
    · obtain rfl := Option.some.inj h
      exact List.suffix_cons _ _
    · split at h
      · cases h
      · exact (ih r h).trans (List.suffix_cons _ _)

theorem infnan_map (f : Fmt) (s : List Nat) (hne : s ≠ []) (hg : ∀ c ∈ s, StandsFor dp dp' c (g c)) (hb : ∀ c ∈ s, g c < 256) (hl : LowBytes s) :
    ∃ r, parseInfnanW f s = .ok r ∧ parseInfnan f (s.map g) = .ok ⟨r.ptr.map g, r.ec, r.value⟩ ∧ r.ptr <:+ s := by
  cases s with
  | nil => exact absurd rfl hne
  | cons c s =>
    rw [List.map_cons]
    unfold parseInfnanW parseInfnan
    dsimp only
    have h45 : (g c == 45) = (c == 45) := by
      rw [Bool.eq_iff_iff, beq_iff_eq, beq_iff_eq]
      exact key (hg c (by simp)) not_other.2.2.2.1
    rw [h45]
    have hif : (if (c == 45) = true then s.map g else g c :: s.map g) = (if (c == 45) = true then s else c :: s).map g := by
      split <;> rfl
    have hsuf : (if (c == 45) = true then s else c :: s) <:+ c :: s := by
      split
      · exact List.suffix_cons _ _
      · exact List.suffix_refl _
    rw [hif]
    generalize (if (c == 45) = true then s else c :: s) = t at hsuf ⊢
    have hgt : ∀ x ∈ t, StandsFor dp dp' x (g x) := fun x hx => hg x (hsuf.subset hx)
    have hcmp : ∀ (n m : Nat) (w : List Nat), w.length = n → (∀ l ∈ w, l ∈ letters) → m + n ≤ t.length →
        strncasecmp (((t.drop m).take n).map g) w = strncasecmpW ((t.drop m).take n) w := by
      intro n m w h1 h2 h3
      have hsub : ∀ x ∈ (t.drop m).take n, x ∈ c :: s := fun x hx => hsuf.subset (List.mem_of_mem_drop (List.mem_of_mem_take hx))
      exact cmp_map _ w (by rw [List.length_take, List.length_drop]; omega) h2 (fun x hx => hg x (hsub x hx)) (fun x hx => hb x (hsub x hx))
        (fun x hx => hl x (hsub x hx))
    rw [List.length_map]
    split
    · rename_i h3
      have c1 := hcmp 3 0 (S "nan") (by decide) (by decide) (by omega)
      have c2 := hcmp 3 0 (S "inf") (by decide) (by decide) (by omega)
      rw [List.drop_zero] at c1 c2
      rw [← List.map_take, c1, c2]
      split
      · rw [← List.map_drop]
        have hs3 : t.drop 3 <:+ c :: s := (List.drop_suffix _ _).trans hsuf
        generalize t.drop 3 = u at hs3 ⊢
        cases u with
        | nil => exact ⟨_, rfl, rfl, hs3⟩
        | cons d u =>
          rw [List.map_cons]
          dsimp only
          have hgu : ∀ x ∈ d :: u, StandsFor dp dp' x (g x) := fun x hx => hg x (hs3.subset hx)
          simp only [key (hgu d (by simp)) (K := 40) (by unfold Other; omega)]
          rw [nanSeq_map u (fun x hx => hgu x (List.mem_cons_of_mem _ hx))]
          refine ⟨_, rfl, ?_, ?_⟩
          · congr 2
            dsimp only
            split
            · cases nanSeq u <;> rfl
            · rfl
          · dsimp only
            split
            · cases hn : nanSeq u with
              | none => exact hs3
              | some r => exact (nanSeq_suffix u r hn).trans ((List.suffix_cons _ _).trans hs3)
            · exact hs3
      · split
        · refine ⟨_, rfl, ?_, ?_⟩
          · congr 2
            dsimp only
            by_cases h8 : t.length ≥ 8
            · rw [← List.map_drop, ← List.map_take, hcmp 5 3 (S "inity") (by decide) (by decide) (by omega), ← List.map_drop]
              split <;> rfl
            · simp [h8, List.map_drop]
          · dsimp only
            split <;> exact (List.drop_suffix _ _).trans hsuf
        · exact ⟨_, rfl, rfl, List.suffix_refl _⟩
    · exact ⟨_, rfl, rfl, List.suffix_refl _⟩

theorem suffix_drop {p s : List Nat} (h : p <:+ s) : p = s.drop (s.length - p.length) := by
  obtain ⟨a, rfl⟩ := h
  simp

end Wd

open Wd in
/-- **C147**, the part that holds: whatever the character type, the SIMD instructions and the byte order, a text of wide characters is read as the text of
narrow characters that has the same characters, or characters that cannot be a part of a number for those that cannot either: the result and the value are the
same, and so is the position.  Missing: texts with wide characters whose low byte is a letter of "nan" or "infinity" (false, see `C147_refuted`). -/
theorem C147_same_partial (k : Cfg) (f : Fmt) (fpu : Fpu) (o : ParseOptions) (dp' : Nat) (g : Nat → Nat) (s : List Nat) (hr : k.uc.InRange s)
    (hg : ∀ c ∈ s, StandsFor o.decimalPoint dp' c (g c)) (hb : ∀ c ∈ s, g c < 256) (hl : ∀ c ∈ s, 256 ≤ c → c % 256 ∉ S "afintyAFINTY") :
    ∃ r r', k.fromCharsAdvanced f fpu o s = .ok r ∧ fromCharsAdvanced f fpu ⟨o.format, dp'⟩ (s.map g) = .ok r' ∧ r.ec = r'.ec ∧ r.value = r'.value ∧
      r.ptr = s.drop (s.length - r'.ptr.length) := by
  by_cases hne : s = []
  · subst hne
    exact ⟨_, _, rfl, rfl, rfl, rfl, rfl⟩
  obtain ⟨a, h1, h2, h3, h4, h5⟩ := parseNumberString_map k o dp' g s hne hr hg hb
  unfold Cfg.fromCharsAdvanced fromCharsAdvanced
  rw [if_neg hne, if_neg (show ¬ s.map g = [] by simpa using hne), h1, h2]
  dsimp only
  have hptr : ∀ a, (fromCharsPns f fpu a).ptr = a.lastmatch := by
    intro a
    unfold fromCharsPns
    split <;> rfl
  have hm : fromCharsPns f fpu (mapLast g a) = ⟨(fromCharsPns f fpu a).ptr.map g, (fromCharsPns f fpu a).ec, (fromCharsPns f fpu a).value⟩ := by
    unfold fromCharsPns
    rw [show fastPath f fpu (mapLast g a) = fastPath f fpu a from rfl, show slowPath f (mapLast g a) = slowPath f a from rfl]
    split <;> rfl
  rw [show (mapLast g a).valid = a.valid from rfl]
  split
  · rw [cfg_fromCharsPns k f fpu a h4 h5, hm]
    refine ⟨_, _, rfl, rfl, rfl, rfl, ?_⟩
    dsimp only
    rw [List.length_map, hptr]
    exact suffix_drop h3
  · split
    · exact ⟨_, _, rfl, rfl, rfl, rfl, by simp⟩
    · obtain ⟨r, h1, h2, h3⟩ := infnan_map f s hne hg hb hl
      refine ⟨_, _, h1, h2, rfl, rfl, ?_⟩
      dsimp only
      rw [List.length_map]
      exact suffix_drop h3

/-- A case of `C147_same_partial`: a text of 16-bit characters with an Arabic decimal separator as point and a euro sign at the end, and the text of narrow
characters that it is compared with. -/
example (f : Fmt) (fpu : Fpu) :=
  C147_same_partial ⟨.char16, .sse2, false⟩ f fpu ⟨fmtGeneral, 0x66B⟩ 46 (fun c => if c = 0x66B then 46 else if c = 46 ∨ 256 ≤ c then 63 else c)
    (S "-0012345678" ++ [0x66B] ++ S "123456789.e1" ++ [0x20AC]) (by unfold Uc.InRange; decide)
    (by unfold StandsFor Other IsPoint IsDigit; decide) (by decide) (by decide)

/-- What is read in this case; eight of the digits after the point are read at once. -/
example : (⟨.char16, .sse2, false⟩ : Cfg).parseNumberString ⟨fmtGeneral, 0x66B⟩ (S "-0012345678" ++ [0x66B] ++ S "123456789e1" ++ [0x20AC]) =
    .ok ⟨-8, 12345678123456789, [0x20AC], true, true, false, S "0012345678", some (S "123456789")⟩ := by decide +kernel

open Wd in
/-- **C147** for texts that have no wide characters: the result is the same for all character types, SIMD instructions and byte orders. -/
theorem C147_latin1 (k : Cfg) (f : Fmt) (fpu : Fpu) (o : ParseOptions) (s : List Nat) (hb : ∀ c ∈ s, c < 256) :
    k.fromCharsAdvanced f fpu o s = fromCharsAdvanced f fpu o s := by
  have hr : k.uc.InRange s := by
    intro c hc
    have := hb c hc
    cases k.uc <;> simp only [Uc.bytes] <;> omega
  have hg : ∀ c ∈ s, StandsFor o.decimalPoint o.decimalPoint c (id c) := fun c _ => ⟨Iff.rfl, Or.inl rfl⟩
  have hmap : s.map id = s := List.map_id s
  have hid : ∀ a : PNS, mapLast id a = a := fun a => by unfold mapLast; rw [List.map_id]
  by_cases hne : s = []
  · subst hne; rfl
  obtain ⟨a, h1, h2, h3, h4, h5⟩ := parseNumberString_map k o o.decimalPoint id s hne hr hg hb
  rw [hmap, hid] at h2
  obtain ⟨r, i1, i2, i3⟩ := infnan_map (dp := o.decimalPoint) (dp' := o.decimalPoint) (g := id) f s hne hg hb (fun c hc h => absurd (hb c hc) (by omega))
  rw [hmap, List.map_id] at i2
  unfold Cfg.fromCharsAdvanced fromCharsAdvanced
  rw [h1, show parseNumberStringO o s = .ok a from h2]
  dsimp only
  rw [cfg_fromCharsPns k f fpu a h4 h5, i1, i2]

/-- A case of `C147_latin1`. -/
example (f : Fmt) (fpu : Fpu) := C147_latin1 ⟨.char32, .none, true⟩ f fpu ⟨fmtFortran, 44⟩ (S "00000000000000012345678901234567890123,5d+3x") (by decide)

/-- **C147 is false** in general: three characters whose low bytes are those of "nan", the first being 'Ů', are read as NaN, though the text with question marks in their places is refused. -/
theorem C147_refuted (fpu : Fpu) : ¬ ∀ (k : Cfg) (f : Fmt) (o : ParseOptions) (dp' : Nat) (g : Nat → Nat) (s : List Nat), k.uc.InRange s →
    (∀ c ∈ s, StandsFor o.decimalPoint dp' c (g c)) → (∀ c ∈ s, g c < 256) →
    ∃ r r', k.fromCharsAdvanced f fpu o s = .ok r ∧ fromCharsAdvanced f fpu ⟨o.format, dp'⟩ (s.map g) = .ok r' ∧ r.ec = r'.ec := by
  intro h
  obtain ⟨r, r', h1, h2, h3⟩ := h ⟨.char16, .none, false⟩ dbl ⟨fmtGeneral, 46⟩ 46 (fun c => if 256 ≤ c then 63 else c) [0x16E, 97, 0x16E]
    (by unfold Uc.InRange; decide) (by unfold StandsFor Other IsPoint IsDigit; decide) (by decide)
  have e1 : (⟨.char16, .none, false⟩ : Cfg).fromCharsAdvanced dbl fpu ⟨fmtGeneral, 46⟩ [0x16E, 97, 0x16E] = .ok ⟨[], .none, some (.nan false)⟩ := by
    unfold Cfg.fromCharsAdvanced
    rw [show (⟨.char16, .none, false⟩ : Cfg).parseNumberString ⟨fmtGeneral, 46⟩ [0x16E, 97, 0x16E] = .ok invalidPNS by decide +kernel]
    rfl
  have e2 : fromCharsAdvanced dbl fpu ⟨fmtGeneral, 46⟩ [63, 97, 63] = .ok ⟨[63, 97, 63], .invalidArgument, none⟩ := by
    unfold fromCharsAdvanced
    rw [show parseNumberStringO ⟨fmtGeneral, 46⟩ [63, 97, 63] = .ok invalidPNS by decide +kernel]
    rfl
  rw [e1] at h1
  rw [show [0x16E, 97, 0x16E].map (fun c => if 256 ≤ c then 63 else c) = [63, 97, 63] by decide, e2] at h2
  obtain rfl := Res.ok.inj h1
  obtain rfl := Res.ok.inj h2
  cases h3

end C4.FF
