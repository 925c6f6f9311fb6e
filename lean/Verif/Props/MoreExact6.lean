import Verif.Props.DebuggerExact
import Verif.Props.ScanOne
import Verif.Props.SubstrView
/-
More of C127 (every number after "TracerPid:") and C131 (the number of characters that the conversion with `sscanf` reports); and of C33
(what is left and right of a view that is not a part).
-/
namespace C4
open Spec Err

/-- The text `atoi` reads: blanks, perhaps a sign, digits; what follows is not more of it. -/
structure Spec.IntText (ws sg ds rest : List Nat) : Prop where
  blanks : ∀ c ∈ ws, c = 32 ∨ (9 ≤ c ∧ c ≤ 13)
  sign : sg = [] ∨ sg = [43] ∨ sg = [45]
  digits : ∀ c ∈ ds, 48 ≤ c ∧ c ≤ 57
  stop : ∀ c ∈ rest.head?, ¬ (48 ≤ c ∧ c ≤ 57)
  bare : sg = [] → ds = [] → ∀ c ∈ rest.head?, ¬ (c = 32 ∨ (9 ≤ c ∧ c ≤ 13)) ∧ c ≠ 43 ∧ c ≠ 45

theorem atoiBlanks_append (ws r : List Nat) (h : ∀ c ∈ ws, c = 32 ∨ (9 ≤ c ∧ c ≤ 13)) (hr : ∀ c ∈ r.head?, ¬ (c = 32 ∨ (9 ≤ c ∧ c ≤ 13))) (hn : r ≠ []) :
    atoiBlanks (ws ++ r) = .ok r := by
  induction ws with
  | nil =>
    cases r with
    | nil => exact absurd rfl hn
    | cons c r =>
      have := hr c rfl
      rw [List.nil_append, atoiBlanks, if_neg this]
  | cons c ws ih =>
    rw [List.cons_append, atoiBlanks, if_pos (h c (by simp)), ih fun x hx => h x (by simp [hx])]

theorem libAtoi_text {ws sg ds rest : List Nat} (h : IntText ws sg ds rest) (hr : rest ≠ []) :
    libAtoi (ws ++ sg ++ ds ++ rest) =
      if sg = [45] then (if digitsVal ds ≤ 2 ^ 31 then .ok (-(digitsVal ds : Int)) else .ub)
      else if digitsVal ds < 2 ^ 31 then .ok (digitsVal ds : Int) else .ub := by
  obtain ⟨c, r, rfl⟩ := List.exists_cons_of_ne_nil hr
  have hc := h.stop c rfl
  have hv : atoiDigits (ds ++ c :: r) 0 = .ok (digitsVal ds) := atoiDigits_eq ds c r 0 h.digits hc
  have e : ws ++ sg ++ ds ++ c :: r = ws ++ (sg ++ (ds ++ c :: r)) := by simp
  have hb : atoiBlanks (ws ++ (sg ++ (ds ++ c :: r))) = .ok (sg ++ (ds ++ c :: r)) := by
    refine atoiBlanks_append _ _ h.blanks ?_ (by simp)
    intro x hx
    rcases h.sign with rfl | rfl | rfl
    · cases ds with
      | nil => exact (h.bare rfl rfl x hx).1
      | cons d ds =>
        obtain rfl : d = x := by simpa using hx
        have := h.digits d (by simp)
        omega
    · obtain rfl : 43 = x := by simpa using hx
      decide
    · obtain rfl : 45 = x := by simpa using hx
      decide
  rw [e]
  unfold libAtoi
  rw [hb, Res.ok_bind]
  rcases h.sign with rfl | rfl | rfl
  · have hx : ∃ x t, ds ++ c :: r = x :: t ∧ x ≠ 45 ∧ x ≠ 43 := by
      cases ds with
      | nil => exact ⟨c, r, rfl, (h.bare rfl rfl c rfl).2.2, (h.bare rfl rfl c rfl).2.1⟩
      | cons d ds =>
        have := h.digits d (by simp)
        exact ⟨d, _, rfl, by omega, by omega⟩
    obtain ⟨x, t, ex, h1, h2⟩ := hx
    rw [List.nil_append]
    split
    · rename_i g; rw [ex] at g; cases g; exact absurd rfl h1
    · rename_i g; rw [ex] at g; cases g; exact absurd rfl h2
    · rw [hv, Res.ok_bind, if_neg (show ¬ ([] : List Nat) = [45] by simp)]
  · show (atoiDigits (ds ++ c :: r) 0 >>= _) = _
    rw [hv, Res.ok_bind, if_neg (show ¬ ([43] : List Nat) = [45] by simp)]
  · show (atoiDigits (ds ++ c :: r) 0 >>= _) = _
    rw [hv, Res.ok_bind, if_pos rfl]

/-- **C127**, the contents with "TracerPid:": whatever blanks and sign come before the digits after the first of them, the first call says whether the number is not 0,
as long as it is an `int` (with no digits there is no debugger), and the behaviour is undefined if it is not.  `hend`: the number ends before the 1024 characters read do. -/
theorem C127_present_exact (pre ws sg ds rest : List Nat) (h : IntText ws sg ds rest) (h0 : 0 ∉ pre)
    (hfirst : ∀ i < pre.length, ¬ tracerKey <+: (pre ++ tracerKey).drop i) (d : Dbg) (hd : d.first = true)
    (hend : rest ≠ [] ∨ (pre ++ tracerKey ++ (ws ++ sg ++ ds)).length < 1024) :
    isDebuggerAttached (.bytes (pre ++ tracerKey ++ (ws ++ sg ++ ds ++ rest))) d =
      if digitsVal ds < 2 ^ 31 ∨ (sg = [45] ∧ digitsVal ds = 2 ^ 31) then .ok (decide (digitsVal ds ≠ 0), ⟨false, decide (digitsVal ds ≠ 0)⟩) else .ub := by
  unfold isDebuggerAttached
  rw [if_pos hd]
  dsimp only
  have hk : tracerKey.length = 10 := rfl
  rw [if_pos (by simp only [List.length_append, hk]; omega)]
  have hz : rest ++ List.replicate (1024 - (pre ++ tracerKey ++ (ws ++ sg ++ ds ++ rest)).length) 0 ≠ [] := by
    intro e
    obtain ⟨e1, e2⟩ := List.append_eq_nil_iff.1 e
    subst e1
    rcases hend with h | h
    · exact h rfl
    · rw [List.replicate_eq_nil_iff, List.append_nil] at e2
      omega
  generalize 1024 - (pre ++ tracerKey ++ (ws ++ sg ++ ds ++ rest)).length = k at hz ⊢
  have h' : IntText ws sg ds (rest ++ List.replicate k 0) := by
    have hh : ∀ c ∈ (rest ++ List.replicate k 0).head?, c ∈ rest.head? ∨ c = 0 := by
      intro c hc
      cases rest with
      | cons x t => exact .inl (by simpa using hc)
      | nil =>
        cases k with
        | zero => simp at hc
        | succ k => right; simpa [List.replicate_succ, eq_comm] using hc
    refine ⟨h.blanks, h.sign, h.digits, fun c hc => ?_, fun e1 e2 c hc => ?_⟩
    · rcases hh c hc with g | rfl
      · exact h.stop c g
      · decide
    · rcases hh c hc with g | rfl
      · exact h.bare e1 e2 c g
      · decide
  have hs := strstr_first tracerKey (by decide) (by decide) (ws ++ sg ++ ds ++ (rest ++ List.replicate k 0)) pre 0 h0 hfirst
  have e : pre ++ tracerKey ++ (ws ++ sg ++ ds ++ rest) ++ List.replicate k 0 = pre ++ tracerKey ++ (ws ++ sg ++ ds ++ (rest ++ List.replicate k 0)) := by simp
  rw [e, show (S "TracerPid:") = tracerKey from rfl, hs, Res.ok_bind]
  dsimp only
  have e2 : (pre ++ tracerKey ++ (ws ++ sg ++ ds ++ (rest ++ List.replicate k 0))).drop (0 + pre.length + tracerKey.length) = ws ++ sg ++ ds ++ (rest ++ List.replicate k 0) := by
    rw [Nat.zero_add, ← List.length_append, List.drop_left]
  rw [e2, libAtoi_text h' hz]
  generalize digitsVal ds = n
  by_cases hm : sg = [45]
  · rw [if_pos hm]
    by_cases hn : n ≤ 2 ^ 31
    · rw [if_pos hn, Res.ok_bind, if_pos (by simp only [hm, true_and]; omega)]
      simp
    · rw [if_neg hn, if_neg (by simp only [hm, true_and]; omega)]
      rfl
  · rw [if_neg hm]
    by_cases hn : n < 2 ^ 31
    · rw [if_pos hn, Res.ok_bind, if_pos (.inl hn)]
      simp
    · rw [if_neg hn, if_neg (by rintro (g | g); exacts [hn g, hm g.1])]
      rfl

example : IntText (S " \t") (S "+") (S "12") (S "\nUid:") := ⟨by decide, by decide, by decide, by decide, by decide⟩
example : IntText [14].tail [] [] [14] := ⟨by decide, by decide, by decide, by decide, by decide⟩
example : isDebuggerAttached (.bytes (S "TracerPid: +12\nUid:")) ⟨true, false⟩ = .ok (true, ⟨false, true⟩) := by decide +kernel

open Scan in
/-- **C131**: the number reported for a conversion from a view that does not begin with a blank is that of the characters converted, and they are the first characters of
the view. -/
theorem C131_count_partial (s after ty : List Nat) (hty : ty = S "f" ∨ ty = S "lf" ∨ ty = S "a" ∨ ty = S "la") (hs : 0 ∉ s) (hne : s ≠ []) (hl : s.length < 10 ^ 10)
    (hb : ∀ c ∈ s.head?, ¬ (c = 32 ∨ (9 ≤ c ∧ c ≤ 13))) (ha : 0 ∈ after) :
    scanOne (s ++ after) s.length ty = .ok (none, none) ∨ ∃ t, scanOne (s ++ after) s.length ty = .ok (some t.length, some t) ∧ t <+: s := by
  have hb' : ∀ c ∈ s.head?, blank c = false := by
    intro c hc
    have := hb c hc
    unfold blank
    simpa using this
  have hf := parse_width s.length (List.length_pos_iff.2 hne) hl ty hty
  have hle := (item_le s.length s .start).2
  unfold scanOne
  rw [sscanf_view s after _ hs hne hb' ha hf]
  cases (item s.length s .start).2.accepts
  · left; simp
  · right
    refine ⟨s.take (item s.length s .start).1, ?_, List.take_prefix _ _⟩
    simp [numChars, hle]

example : Scan.scanOne (S "1.5e3x" ++ [0]) 6 (S "lf") = .ok (some 5, some (S "1.5e3")) := by decide +kernel

/-- **C33**, views that are no parts (the assertion allows it for empty ones): what is left or right of one is still a part of the view, and if it begins (or ends) elsewhere,
it is the empty part at the beginning. -/
theorem C33_elsewhere (v t : View) (hv : v.len < NPOS) :
    Inside (v.leftOfSub t) v ∧ Inside (v.rightOfSub t) v ∧
    (t.str < v.str ∨ v.str + v.len < t.str → v.leftOfSub t = ⟨v.str, 0⟩) ∧
    (t.str + t.len < v.str ∨ v.str + v.len < t.str + t.len → v.rightOfSub t = ⟨v.str, 0⟩) ∧
    (t.len = 0 → v.str ≤ t.str → t.str ≤ v.str + v.len → v.leftOfSub t = ⟨v.str, t.str - v.str⟩ ∧ v.rightOfSub t = ⟨t.str, v.str + v.len - t.str⟩) := by
  have hN : NPOS = 18446744073709551615 := rfl
  have z : v.sub2 0 0 = ⟨v.str, 0⟩ := by unfold View.sub2; rw [if_pos (by omega)]; rfl
  have sb : ∀ a n, n ≤ v.len → v.sub2 a n = ⟨v.str + a, n⟩ := by intro a n h; unfold View.sub2; rw [if_pos (by omega)]
  unfold View.leftOfSub View.rightOfSub Inside
  dsimp only
  rw [z]
  refine ⟨?_, ?_, fun h => if_neg (by omega), fun h => if_neg (by omega), fun h0 h1 h2 => ⟨?_, ?_⟩⟩
  · split
    · rw [sb _ _ (by omega)]; dsimp only; omega
    · dsimp only; omega
  · split
    · rw [sb _ _ (by omega)]; dsimp only; omega
    · dsimp only; omega
  · rw [if_pos ⟨h1, h2⟩, sb _ _ (by omega)]; rfl
  · rw [if_pos (by omega), sb _ _ (by omega), h0]
    congr 1; omega

example : (⟨1000, 5⟩ : View).rightOfSub ⟨7, 0⟩ = ⟨1000, 0⟩ ∧ (⟨1000, 5⟩ : View).rightOfSub ⟨1005, 0⟩ = ⟨1005, 0⟩ := by decide

end C4
