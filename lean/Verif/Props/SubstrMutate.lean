import Verif.Substr.Mutate
import Verif.Props.SubstrSearch
/-
Properties C37-C40 and C48: methods modifying the contents of a view.
-/
namespace C4
open Spec

/-! ### C37 -/

theorem doReverse_eq : ∀ (n : Nat) (m : List Nat), m.length = n → ∀ (fuel : Nat) (a b : List Nat), n ≤ fuel →
    doReverse fuel (a ++ m ++ b) a.length (a.length + m.length) = .ok (a ++ m.reverse ++ b) := by
  intro n
  induction n using Nat.strongRecOn with
  | ind n ih =>
    intro m hm fuel a b hf
    by_cases h2 : m.length ≤ 1
    · have hr : m.reverse = m := by
        match m, h2 with
        | [], _ => rfl
        | [x], _ => rfl
      rw [hr]
      cases fuel <;> (unfold doReverse; rw [if_neg (by omega)])
    · obtain ⟨x, m1, rfl⟩ := List.exists_cons_of_length_pos (l := m) (by omega)
      have hne : m1 ≠ [] := by rintro rfl; simp at h2
      obtain ⟨m', y, rfl⟩ : ∃ m' y, m1 = m' ++ [y] := ⟨_, _, (List.dropLast_concat_getLast hne).symm⟩
      simp at hm
      obtain ⟨f, rfl⟩ : ∃ f, fuel = f + 1 := ⟨fuel - 1, by omega⟩
      have e1 : a.length + (x :: (m' ++ [y])).length - 1 = (a ++ x :: m').length := by simp
      rw [doReverse, if_pos (by omega), e1]
      have r1 : rd (a ++ x :: (m' ++ [y]) ++ b) (a ++ x :: m').length = .ok y := by
        apply rd_some
        rw [show a ++ x :: (m' ++ [y]) ++ b = (a ++ x :: m') ++ y :: b by simp]
        rw [List.getElem?_append_right (Nat.le_refl _)]; simp
      have r2 : rd (a ++ x :: (m' ++ [y]) ++ b) a.length = .ok x := by
        apply rd_some
        simp
      have w1 : wr (a ++ x :: (m' ++ [y]) ++ b) (a ++ x :: m').length x = .ok ((a ++ x :: m') ++ x :: b) := by
        rw [show a ++ x :: (m' ++ [y]) ++ b = (a ++ x :: m') ++ y :: b by simp]
        exact wr_append_left
      have w2 : wr ((a ++ x :: m') ++ x :: b) a.length y = .ok (a ++ y :: (m' ++ x :: b)) := by
        rw [show (a ++ x :: m') ++ x :: b = a ++ x :: (m' ++ x :: b) by simp]
        exact wr_append_left
      rw [r1, r2]
      simp only [Res.ok_bind, w1, w2]
      have := ih m'.length (by omega) m' rfl f (a ++ [y]) (x :: b) (by omega)
      have e2 : (a ++ x :: m').length = (a ++ [y]).length + m'.length := by simp; omega
      rw [e2, show a.length + 1 = (a ++ [y]).length by simp,
        show a ++ y :: (m' ++ x :: b) = (a ++ [y]) ++ m' ++ x :: b by simp, this]
      simp

/-- C37: `reverse()` reverses the contents (and terminates). -/
theorem C37_reverse (buf : List Nat) (fuel : Nat) (hf : buf.length ≤ fuel) : reverse fuel buf = .ok buf.reverse := by
  unfold reverse
  split
  · rename_i h; rw [List.length_eq_zero_iff.mp h]; rfl
  · have := doReverse_eq buf.length buf rfl fuel [] [] hf
    simpa using this

/-- C37: `reverse_sub(ifirst, num)` reverses the characters `[ifirst, ifirst+num)` and leaves the others. -/
theorem C37_reverse_sub (a m b : List Nat) (fuel : Nat) (hf : m.length ≤ fuel) :
    reverseSub fuel (a ++ m ++ b) a.length m.length = .ok (a ++ m.reverse ++ b) := by
  unfold reverseSub
  split
  · rename_i h; rw [List.length_eq_zero_iff.mp h]; rfl
  · exact doReverse_eq m.length m rfl fuel a b hf

/-- C37: `reverse_range(ifirst, ilast)` reverses the characters `[ifirst, ilast)` and leaves the others. -/
theorem C37_reverse_range (a m b : List Nat) (fuel : Nat) (hf : m.length ≤ fuel) :
    reverseRange fuel (a ++ m ++ b) a.length (a.length + m.length) = .ok (a ++ m.reverse ++ b) := by
  unfold reverseRange
  split
  · have h : m.length = 0 := by omega
    rw [List.length_eq_zero_iff.mp h]; rfl
  · exact doReverse_eq m.length m rfl fuel a b hf

/-- C37: the same in terms of positions, for every range admitted by the assertions; `reverse_range` with
`ilast ≤ ifirst` (also admitted) changes nothing. -/
theorem C37_ranges (buf : List Nat) (ifirst num : Nat) (h : ifirst + num ≤ buf.length) (fuel : Nat)
    (hf : buf.length ≤ fuel) :
    let rev := buf.take ifirst ++ ((buf.drop ifirst).take num).reverse ++ buf.drop (ifirst + num)
    reverseSub fuel buf ifirst num = .ok rev ∧ reverseRange fuel buf ifirst (ifirst + num) = .ok rev ∧
    ∀ ilast, ilast ≤ ifirst → reverseRange fuel buf ifirst ilast = .ok buf := by
  have e : buf.take ifirst ++ (buf.drop ifirst).take num ++ buf.drop (ifirst + num) = buf := by
    rw [List.append_assoc, ← List.drop_drop, List.take_append_drop, List.take_append_drop]
  have l1 : (buf.take ifirst).length = ifirst := by simp; omega
  have l2 : ((buf.drop ifirst).take num).length = num := by simp; omega
  have h1 := C37_reverse_sub (buf.take ifirst) ((buf.drop ifirst).take num) (buf.drop (ifirst + num)) fuel (by omega)
  have h2 := C37_reverse_range (buf.take ifirst) ((buf.drop ifirst).take num) (buf.drop (ifirst + num)) fuel (by omega)
  rw [e, l1, l2] at h1 h2
  refine ⟨h1, h2, fun ilast hl => ?_⟩
  unfold reverseRange
  split
  · rfl
  · cases fuel <;> (unfold doReverse; rw [if_neg (by omega)])

/-- C37: reversing twice restores the contents. -/
theorem C37_twice (buf : List Nat) (ifirst num : Nat) (h : ifirst + num ≤ buf.length) (fuel : Nat)
    (hf : buf.length ≤ fuel) :
    (reverse fuel buf >>= reverse fuel) = .ok buf ∧
    (reverseSub fuel buf ifirst num >>= fun b => reverseSub fuel b ifirst num) = .ok buf := by
  constructor
  · rw [C37_reverse buf fuel hf, Res.ok_bind, C37_reverse _ fuel (by simpa using hf), List.reverse_reverse]
  · have e : buf.take ifirst ++ (buf.drop ifirst).take num ++ buf.drop (ifirst + num) = buf := by
      rw [List.append_assoc, ← List.drop_drop, List.take_append_drop, List.take_append_drop]
    have l1 : (buf.take ifirst).length = ifirst := by simp; omega
    have l2 : ((buf.drop ifirst).take num).length = num := by simp; omega
    rw [(C37_ranges buf ifirst num h fuel hf).1, Res.ok_bind]
    have h1 := C37_reverse_sub (buf.take ifirst) ((buf.drop ifirst).take num).reverse (buf.drop (ifirst + num)) fuel
      (by simp; omega)
    rw [List.length_reverse, List.reverse_reverse, l1, l2, e] at h1
    exact h1

example : reverse 9 (S "abcde") = .ok (S "edcba") := by decide +kernel
example : reverseSub 9 (S "abcde") 1 3 = .ok (S "adcbe") := by decide +kernel
example : reverseRange 9 (S "abcde") 1 4 = .ok (S "adcbe") := by decide +kernel

/-! ### C38 -/

theorem szSub_of_le {a b : Nat} (h : b ≤ a) (ha : a < 2 ^ 64) : szSub a b = a - b := by unfold szSub; omega

/-- C38: `erase(pos, num)` returns the leading view of the length reduced by `num`, whose contents are the original
without the erased part; the bytes behind the returned view are what they were. -/
theorem C38_erase (a m b : List Nat) (h64 : (a ++ m ++ b).length < 2 ^ 64) :
    ∃ buf', erase (a ++ m ++ b) a.length m.length = .ok (buf', (a ++ b).length) ∧
      buf'.take (a ++ b).length = a ++ b ∧ buf'.drop (a ++ b).length = (a ++ m ++ b).drop (a ++ b).length ∧
      buf'.length = (a ++ m ++ b).length := by
  have hl : (a ++ m ++ b).length = a.length + m.length + b.length := by simp; omega
  have e1 : szSub (szSub (a ++ m ++ b).length a.length) m.length = b.length := by
    rw [szSub_of_le (by omega) h64, szSub_of_le (by omega) (by omega)]; omega
  have e2 : szSub (a ++ m ++ b).length m.length = (a ++ b).length := by
    rw [szSub_of_le (by omega) h64]; simp; omega
  have e3 : ((a ++ m ++ b).drop (a.length + m.length)).take b.length = b := by
    rw [← List.length_append, List.drop_left]; simp
  have hm : memmove (a ++ m ++ b) a.length (a.length + m.length) b.length =
      .ok (a ++ b ++ (a ++ m ++ b).drop (a ++ b).length) := by
    unfold memmove
    rw [if_pos (by omega), e3, memcpyTo_ok (by omega)]
    simp
  refine ⟨a ++ b ++ (a ++ m ++ b).drop (a ++ b).length, ?_, List.take_left' rfl, List.drop_left' rfl, ?_⟩
  · unfold erase
    simp only [e1, e2, hm, Res.ok_bind]
  · rw [List.length_append, List.length_drop, List.length_append]; omega

/-- C38: `erase_range(first, last)` erases the characters `[first, last)`, `erase(sub)` those of the sub-view. -/
theorem C38_erase_range (a m b : List Nat) (h64 : (a ++ m ++ b).length < 2 ^ 64) :
    ∃ buf', eraseRange (a ++ m ++ b) a.length (a.length + m.length) = .ok (buf', (a ++ b).length) ∧
      eraseSub (a ++ m ++ b) (a.length, m.length) = .ok (buf', (a ++ b).length) ∧
      buf'.take (a ++ b).length = a ++ b ∧ buf'.drop (a ++ b).length = (a ++ m ++ b).drop (a ++ b).length := by
  have hl : (a ++ m ++ b).length = a.length + m.length + b.length := by simp; omega
  obtain ⟨buf', h1, h2, h3, _⟩ := C38_erase a m b h64
  refine ⟨buf', ?_, h1, h2, h3⟩
  unfold eraseRange
  rw [szSub_of_le (by omega) (by omega), Nat.add_sub_cancel_left]
  exact h1

/-- C38, in terms of positions: every position and count with `pos + num ≤ len`. -/
theorem C38_positions (buf : List Nat) (pos num : Nat) (h : pos + num ≤ buf.length) (h64 : buf.length < 2 ^ 64) :
    ∃ buf', erase buf pos num = .ok (buf', buf.length - num) ∧ eraseRange buf pos (pos + num) = .ok (buf', buf.length - num) ∧
      buf'.take (buf.length - num) = buf.take pos ++ buf.drop (pos + num) ∧
      buf'.drop (buf.length - num) = buf.drop (buf.length - num) := by
  have e : buf.take pos ++ (buf.drop pos).take num ++ buf.drop (pos + num) = buf := by
    rw [List.append_assoc, ← List.drop_drop, List.take_append_drop, List.take_append_drop]
  have l1 : (buf.take pos).length = pos := by simp; omega
  have l2 : ((buf.drop pos).take num).length = num := by simp; omega
  have l3 : (buf.take pos ++ buf.drop (pos + num)).length = buf.length - num := by simp; omega
  obtain ⟨b1, h1, h2, h3⟩ := C38_erase_range (buf.take pos) ((buf.drop pos).take num) (buf.drop (pos + num)) (by rw [e]; exact h64)
  rw [e, l1, l2, l3] at *
  exact ⟨b1, h2, h1, h3⟩

example : erase (S "0123456789") 3 2 = .ok (S "0125678989", 8) := by decide +kernel

/-! ### C39 -/

/-- The characters satisfying `p` replaced by `repl`, at or after position `pos`. -/
def Spec.replaced (p : Nat → Bool) (repl : Nat) (s : List Nat) (pos : Nat) : List Nat :=
  s.take pos ++ (s.drop pos).map fun c => if p c then repl else c

theorem replaced_none (p : Nat → Bool) (repl pos : Nat) (s : List Nat)
    (h : ∀ j, pos ≤ j → j < s.length → ¬ CharSat s (fun c => p c = true) j) :
    replaced p repl s pos = s ∧ (s.drop pos).countP p = 0 := by
  have hf : ∀ c ∈ s.drop pos, p c = false := by
    intro c hc
    obtain ⟨j, hj, e⟩ := List.getElem_of_mem hc
    simp at hj e
    cases hp : p c with
    | false => rfl
    | true => exact absurd ⟨c, by rw [List.getElem?_eq_getElem (by omega), e], hp⟩ (h (pos + j) (by omega) (by omega))
  constructor
  · unfold replaced
    rw [List.map_congr_left (g := id)]
    · simp
    · intro c hc; rw [hf c hc]; rfl
  · rw [List.countP_eq_zero]
    intro c hc; rw [hf c hc]; simp

theorem replaced_some (p : Nat → Bool) (repl pos i : Nat) (s : List Nat) (h1 : pos ≤ i)
    (hi : CharSat s (fun c => p c = true) i) (h2 : ∀ j, pos ≤ j → j < i → ¬ CharSat s (fun c => p c = true) j) :
    replaced p repl s pos = replaced p repl (s.set i repl) (i + 1) ∧
    (s.drop pos).countP p = ((s.set i repl).drop (i + 1)).countP p + 1 := by
  obtain ⟨c, hc, hp⟩ := hi
  have hil : i < s.length := by
    have := List.getElem?_eq_some_iff.mp hc; exact this.1
  have hsplit : s = s.take pos ++ ((s.drop pos).take (i - pos) ++ c :: s.drop (i + 1)) := by
    have e1 : s.drop i = c :: s.drop (i + 1) := by
      rw [List.drop_eq_getElem_cons hil]
      congr 1
      exact (List.getElem?_eq_some_iff.mp hc).2
    have e2 : s.drop pos = (s.drop pos).take (i - pos) ++ s.drop i := by
      conv => lhs; rw [← List.take_append_drop (i - pos) (s.drop pos), List.drop_drop, Nat.add_sub_cancel' h1]
    rw [← e1, ← e2, List.take_append_drop]
  have hmid : ∀ x ∈ (s.drop pos).take (i - pos), p x = false := by
    intro x hx
    obtain ⟨j, hj, e⟩ := List.getElem_of_mem hx
    simp at hj e
    cases hpx : p x with
    | false => rfl
    | true => exact absurd ⟨x, by rw [List.getElem?_eq_getElem (by omega), e], hpx⟩ (h2 (pos + j) (by omega) (by omega))
  have hset : s.set i repl = s.take pos ++ ((s.drop pos).take (i - pos) ++ repl :: s.drop (i + 1)) := by
    rw [List.set_eq_take_append_cons_drop, if_pos hil]
    have : s.take i = s.take pos ++ (s.drop pos).take (i - pos) := by
      conv => lhs; rw [show i = pos + (i - pos) by omega, List.take_add]
    rw [this, List.append_assoc]
  have ltp : (s.take pos).length = pos := by simp; omega
  have ltm : ((s.drop pos).take (i - pos)).length = i - pos := by simp; omega
  have hd : (s.set i repl).drop (i + 1) = s.drop (i + 1) := by
    rw [hset]
    rw [show s.take pos ++ ((s.drop pos).take (i - pos) ++ repl :: s.drop (i + 1)) =
      (s.take pos ++ (s.drop pos).take (i - pos) ++ [repl]) ++ s.drop (i + 1) by simp]
    exact List.drop_left' (by simp only [List.length_append, ltp, ltm, List.length_singleton]; omega)
  have ht : (s.set i repl).take (i + 1) = s.take pos ++ (s.drop pos).take (i - pos) ++ [repl] := by
    rw [hset]
    have : s.take pos ++ ((s.drop pos).take (i - pos) ++ repl :: s.drop (i + 1)) =
      (s.take pos ++ (s.drop pos).take (i - pos) ++ [repl]) ++ s.drop (i + 1) := by simp
    rw [this, List.take_left' (by simp only [List.length_append, ltp, ltm, List.length_singleton]; omega)]
  have hdp : s.drop pos = (s.drop pos).take (i - pos) ++ c :: s.drop (i + 1) := by
    conv => lhs; rw [hsplit]
    rw [List.drop_left' ltp]
  constructor
  · have e1 : ((s.drop pos).take (i - pos)).map (fun c => if p c then repl else c) = (s.drop pos).take (i - pos) := by
      rw [List.map_congr_left (g := id)]
      · simp
      · intro x hx; rw [hmid x hx]; rfl
    have e2 : (s.drop pos).map (fun c => if p c then repl else c) =
        (s.drop pos).take (i - pos) ++ repl :: (s.drop (i + 1)).map (fun c => if p c then repl else c) := by
      conv => lhs; rw [hdp]
      rw [List.map_append, List.map_cons, if_pos hp, e1]
    unfold replaced
    rw [hd, ht, e2]
    simp only [List.append_assoc, List.singleton_append]
  · rw [hd, hdp, List.countP_append, List.countP_cons_of_pos hp]
    rw [List.countP_eq_zero.mpr]
    · omega
    · intro x hx; rw [hmid x hx]; simp

/-- C39: `replace(c, repl, pos)` replaces by `repl` exactly the characters equal to `c` at or after `pos`, and returns
their number. -/
theorem C39_replace_char (value repl : Nat) (buf : List Nat) (pos fuel : Nat) (hf : buf.length < fuel) :
    replaceC value repl fuel buf pos 0 = .ok (replaced (· == value) repl buf pos, (buf.drop pos).count value) := by
  have key : ∀ (fuel : Nat) (buf : List Nat) (pos did : Nat), buf.length < fuel + pos →
      0 < fuel → replaceC value repl fuel buf pos did =
        .ok (replaced (· == value) repl buf pos, did + (buf.drop pos).countP (· == value)) := by
    intro fuel
    induction fuel with
    | zero => intro buf pos did _ h; omega
    | succ f ih =>
      intro buf pos did hf _
      rw [replaceC]
      obtain ⟨r, h1, h2⟩ := firstOf_spec buf value pos
      rw [findC, h1]
      cases r with
      | none =>
        obtain ⟨e1, e2⟩ := replaced_none (· == value) repl pos buf (by
          intro j hj hj2 ⟨x, hx, hx2⟩
          exact h2 j hj hj2 ⟨x, hx, by simpa using hx2⟩)
        simp only [Res.ok_bind, e1, e2, Nat.add_zero]
      | some i =>
        obtain ⟨h3, h4, ⟨x, hx, hx2⟩, h5⟩ := h2
        obtain ⟨e1, e2⟩ := replaced_some (· == value) repl pos i buf h3 ⟨x, hx, by simpa using hx2⟩ (by
          intro j hj hj2 ⟨x, hx, hx2⟩
          exact h5 j hj hj2 ⟨x, hx, by simpa using hx2⟩)
        simp only [Res.ok_bind]
        rw [wr_ok h4, Res.ok_bind]
        by_cases hf0 : f = 0
        · subst hf0; omega
        · rw [ih _ _ _ (by simp; omega) (by omega), e1, e2]
          congr 2; omega
  rw [key fuel buf pos 0 (by omega) (by omega), Nat.zero_add]
  rfl

/-- C39: `replace(chars, repl, pos)` replaces by `repl` exactly the characters of the set at or after `pos`, and returns
their number. -/
theorem C39_replace_set (chars : List Nat) (repl : Nat) (buf : List Nat) (pos fuel : Nat) (hf : buf.length < fuel) :
    replaceSet chars repl fuel buf pos 0 =
      .ok (replaced (fun c => decide (c ∈ chars)) repl buf pos, (buf.drop pos).countP (fun c => decide (c ∈ chars))) := by
  have key : ∀ (fuel : Nat) (buf : List Nat) (pos did : Nat), buf.length < fuel + pos →
      0 < fuel → replaceSet chars repl fuel buf pos did =
        .ok (replaced (fun c => decide (c ∈ chars)) repl buf pos, did + (buf.drop pos).countP (fun c => decide (c ∈ chars))) := by
    intro fuel
    induction fuel with
    | zero => intro buf pos did _ h; omega
    | succ f ih =>
      intro buf pos did hf _
      rw [replaceSet]
      obtain ⟨r, h1, h2⟩ := firstOfSet_spec buf chars pos
      rw [h1]
      cases r with
      | none =>
        obtain ⟨e1, e2⟩ := replaced_none (fun c => decide (c ∈ chars)) repl pos buf (by
          intro j hj hj2 ⟨x, hx, hx2⟩
          exact h2 j hj hj2 ⟨x, hx, by simpa using hx2⟩)
        simp only [Res.ok_bind, e1, e2, Nat.add_zero]
      | some i =>
        obtain ⟨h3, h4, ⟨x, hx, hx2⟩, h5⟩ := h2
        obtain ⟨e1, e2⟩ := replaced_some (fun c => decide (c ∈ chars)) repl pos i buf h3 ⟨x, hx, by simpa using hx2⟩ (by
          intro j hj hj2 ⟨x, hx, hx2⟩
          exact h5 j hj hj2 ⟨x, hx, by simpa using hx2⟩)
        simp only [Res.ok_bind]
        rw [wr_ok h4, Res.ok_bind]
        by_cases hf0 : f = 0
        · subst hf0; omega
        · rw [ih _ _ _ (by simp; omega) (by omega), e1, e2]
          congr 2; omega
  rw [key fuel buf pos 0 (by omega) (by omega), Nat.zero_add]

example : replaceC 97 120 9 (S "banana") 2 0 = .ok (S "banxnx", 2) := by decide +kernel
example : replaceSet (S "an") 120 9 (S "banana") 2 0 = .ok (S "baxxxx", 4) := by decide +kernel

/-! ### C40 -/

/-- The text with the occurrences of `p` at the given positions replaced by `r`, from position `b` on. -/
def Spec.substFrom (s p r : List Nat) : Nat → List Nat → List Nat
  | b, [] => s.drop b
  | b, i :: is => (s.drop b).take (i - b) ++ r ++ substFrom s p r (i + p.length) is

/-- What a chunk does: the accumulated text `t` of which `dst` holds a copy if it fits. -/
def Holds (t dst0 : List Nat) (st : Nat × List Nat) : Prop :=
  st.1 = t.length ∧ st.2.length = dst0.length ∧ (t.length ≤ dst0.length → st.2 = t ++ dst0.drop t.length)

theorem appendChunk_eq {src dst0 t : List Nat} {first last : Nat} {st : Nat × List Nat} (hst : Holds t dst0 st)
    (h1 : first ≤ last) (h2 : last ≤ src.length) (h64 : t.length + (last - first) < 2 ^ 64) (hs : src.length < 2 ^ 64) :
    ∃ st', appendChunk src first last st = .ok st' ∧ Holds (t ++ (src.drop first).take (last - first)) dst0 st' := by
  obtain ⟨g1, g2, g3⟩ := hst
  have hn : szSub last first = last - first := szSub_of_le h1 (by omega)
  have hl : ((src.drop first).take (last - first)).length = last - first := by simp; omega
  unfold appendChunk
  simp only [hn, g1]
  rw [Nat.mod_eq_of_lt h64]
  by_cases hfit : t.length + (last - first) ≤ st.2.length
  · by_cases h0 : last - first = 0
    · rw [if_neg (by omega)]
      refine ⟨_, rfl, ?_⟩
      rw [h0]
      refine ⟨by simp, g2, ?_⟩
      simpa using g3
    · rw [if_pos ⟨by omega, hfit⟩, if_pos (by omega), memcpyTo_ok (by omega)]
      refine ⟨_, rfl, by simp; omega, by simp; omega, fun hlen => ?_⟩
      have e := g3 (by omega)
      simp only [hl]
      rw [e]
      rw [List.take_left' rfl, List.drop_append]
      rw [List.length_append, hl]
      rw [List.drop_of_length_le (l := t) (by omega), List.nil_append, List.drop_drop]
      rw [show t.length + (t.length + (last - first) - t.length) = t.length + (last - first) by omega]
  · rw [if_neg (fun h => hfit h.2)]
    refine ⟨_, rfl, by simp; omega, g2, fun hlen => ?_⟩
    simp at hlen; omega

theorem replaceAllLoop_none (s p r : List Nat) (f b : Nat) (st : Nat × List Nat) (h : findS s p b = .ok none) :
    replaceAllLoop s p r (f+1) b st = appendChunk s b s.length st := by
  rw [replaceAllLoop, h, Res.ok_bind]

theorem replaceAllLoop_some (s p r : List Nat) (f b e : Nat) (st : Nat × List Nat) (h : findS s p b = .ok (some e)) :
    replaceAllLoop s p r (f+1) b st = (do
      let st ← appendChunk s b e st
      let st ← appendChunk r 0 r.length st
      let b' := e + p.length
      if b' < s.length then replaceAllLoop s p r f b' st else .ok st) := by
  rw [replaceAllLoop, h, Res.ok_bind]

theorem replaceAllLoop_eq (s p r dst0 : List Nat) (hp : p ≠ []) (hs : s.length < 2 ^ 64) (hr : r.length < 2 ^ 64) :
    ∀ (fuel b : Nat) (t : List Nat) (st : Nat × List Nat), b ≤ s.length → s.length < fuel + b → 0 < fuel →
      Holds t dst0 st → ∃ occs, LeftmostOccs s p b occs ∧ ((t ++ substFrom s p r b occs).length < 2 ^ 64 →
        ∃ st', replaceAllLoop s p r fuel b st = .ok st' ∧ Holds (t ++ substFrom s p r b occs) dst0 st') := by
  intro fuel
  induction fuel with
  | zero => intro b t st _ _ h; omega
  | succ f ih =>
    intro b t st hb hf _ hst
    have hpl := List.length_pos_iff.mpr hp
    obtain ⟨q, h1, h2, h3⟩ := C29_find s p b
    cases q with
    | none =>
      rw [replaceAllLoop_none _ _ _ _ _ _ h1]
      refine ⟨[], .nil (h3.mp rfl), fun hlt => ?_⟩
      simp only [substFrom, List.length_append, List.length_drop] at hlt
      obtain ⟨st', e1, e2⟩ := appendChunk_eq (src := s) (first := b) (last := s.length) hst hb (Nat.le_refl _) (by omega) hs
      refine ⟨st', e1, ?_⟩
      rw [List.take_of_length_le (by simp)] at e2
      simp only [substFrom]
      exact e2
    | some i =>
      obtain ⟨a1, a2, a3⟩ := (h2 i).mp rfl
      have hb2 := (occursAt_iff.mp a2).1
      rw [replaceAllLoop_some _ _ _ _ _ _ _ h1]
      -- the rest of the occurrences, whatever the sizes
      by_cases hend : i + p.length < s.length
      · -- choose the occurrences independently of the state
        have hex : ∃ occs, LeftmostOccs s p (i + p.length) occs := by
          obtain ⟨o, ho, _⟩ := C30_count_pattern_partial s p hp (i + p.length) (s.length + 1) (by omega)
          exact ⟨o, ho⟩
        by_cases hsz : t.length + (i - b) + r.length < 2 ^ 64
        · obtain ⟨st1, e1, e2⟩ := appendChunk_eq (src := s) (first := b) (last := i) hst a1 (by omega) (by omega) hs
          have l1 : ((s.drop b).take (i - b)).length = i - b := by simp; omega
          obtain ⟨st2, e3, e4⟩ := appendChunk_eq (src := r) (first := 0) (last := r.length) e2 (by omega) (Nat.le_refl _)
            (by rw [List.length_append, l1]; omega) hr
          simp only [List.drop_zero, Nat.sub_zero, List.take_length] at e4
          have hf0 : f ≠ 0 := by rintro rfl; omega
          obtain ⟨occs, g1, g2⟩ := ih (i + p.length) _ st2 (by omega) (by omega) (by omega) e4
          refine ⟨i :: occs, .cons a1 a2 a3 g1, fun hlt => ?_⟩
          simp only [substFrom, List.append_assoc] at hlt g2 ⊢
          obtain ⟨st', g3, g4⟩ := g2 hlt
          refine ⟨st', ?_, g4⟩
          rw [e1, Res.ok_bind, e3, Res.ok_bind, if_pos hend]; exact g3
        · obtain ⟨occs, ho⟩ := hex
          refine ⟨i :: occs, .cons a1 a2 a3 ho, fun hlt => ?_⟩
          exfalso
          apply hsz
          simp only [substFrom, List.length_append, List.length_take, List.length_drop] at hlt
          have : min (i - b) (s.length - b) = i - b := by omega
          rw [this] at hlt
          omega
      · have hi : i + p.length = s.length := by omega
        have hnone : LeftmostOccs s p (i + p.length) [] := .nil (by
          intro j hj hocc
          have := (occursAt_iff.mp hocc).1
          omega)
        refine ⟨[i], .cons a1 a2 a3 hnone, fun hlt => ?_⟩
        have l1 : ((s.drop b).take (i - b)).length = i - b := by simp; omega
        simp only [substFrom, List.length_append, l1] at hlt
        obtain ⟨st1, e1, e2⟩ := appendChunk_eq (src := s) (first := b) (last := i) hst a1 (by omega) (by omega) hs
        obtain ⟨st2, e3, e4⟩ := appendChunk_eq (src := r) (first := 0) (last := r.length) e2 (by omega) (Nat.le_refl _)
          (by rw [List.length_append, l1]; omega) hr
        simp only [List.drop_zero, Nat.sub_zero, List.take_length] at e4
        refine ⟨st2, ?_, ?_⟩
        · rw [e1, Res.ok_bind, e3, Res.ok_bind, if_neg hend]
        · simp only [substFrom]
          rw [List.drop_of_length_le (i := i + p.length) (by omega), List.append_nil, ← List.append_assoc]
          exact e4

/-- C40, for positions inside the string: `replace_all(dst, pattern, repl, pos)` returns the size of the text obtained by
replacing the leftmost non-overlapping occurrences of the pattern at or after `pos`, whatever the destination; if
the destination is large enough it holds that text and its remaining bytes are unchanged; nothing outside of it is
touched.  (Sizes are `size_t`: the text is assumed shorter than `2^64`.)
Missing: `pos == npos`, which the first assertion admits, see `C40_refuted`. -/
theorem C40_replace_all_partial (s dst p r : List Nat) (pos fuel : Nat) (hp : p ≠ []) (hpos : pos ≤ s.length)
    (hs : s.length < 2 ^ 64) (hr : r.length < 2 ^ 64) (hf : s.length < fuel) :
    ∃ occs, LeftmostOccs s p pos occs ∧
      let text := s.take pos ++ substFrom s p r pos occs
      (text.length < 2 ^ 64 → ∃ dst', replaceAll fuel s dst p r pos = .ok (text.length, dst') ∧
        dst'.length = dst.length ∧ (text.length ≤ dst.length → dst' = text ++ dst.drop text.length)) := by
  obtain ⟨st, e1, e2⟩ := appendChunk_eq (src := s) (dst0 := dst) (t := []) (first := 0) (last := pos) (st := (0, dst))
    ⟨rfl, rfl, by simp⟩ (by omega) hpos (by simp; omega) hs
  simp only [List.drop_zero, Nat.sub_zero, List.nil_append] at e2
  obtain ⟨occs, h1, h2⟩ := replaceAllLoop_eq s p r dst hp hs hr fuel pos _ st hpos (by omega) (by omega) e2
  refine ⟨occs, h1, fun hlt => ?_⟩
  obtain ⟨st', h3, h4, h5, h6⟩ := h2 hlt
  refine ⟨st'.2, ?_, h5, h6⟩
  rw [replaceAll, e1, Res.ok_bind, h3, ← h4]

/-- The leftmost occurrences are determined, so the text in `C40_replace_all_partial` is. -/
theorem leftmostOccs_unique {s p : List Nat} {pos : Nat} {a b : List Nat} (ha : LeftmostOccs s p pos a)
    (hb : LeftmostOccs s p pos b) : a = b := by
  induction ha generalizing b with
  | nil h =>
    cases hb with
    | nil _ => rfl
    | cons h1 h2 _ _ => exact absurd h2 (h _ h1)
  | cons h1 h2 h3 _ ih =>
    cases hb with
    | nil h => exact absurd h2 (h _ h1)
    | @cons _ j js g1 g2 g3 g4 =>
      rename_i i is _
      have e : i = j := by
        rcases Nat.lt_trichotomy i j with h | h | h
        · exact absurd h2 (g3 i h1 h)
        · exact h
        · exact absurd g2 (h3 j g1 h)
      subst e
      rw [ih g4]

/-- C40 refuted for `pos == npos`: a copy of `len+1` characters from before the string to before the destination. -/
theorem C40_refuted : replaceAll 9 (S "abc") (List.replicate 8 0) (S "x") (S "y") NPOS = .ub := by decide +kernel

example : replaceAll 9 (S "banana") (List.replicate 8 0) (S "an") (S "xyz") 0 = .ok (8, S "bxyzxyza") := by
  decide +kernel
example : replaceAll 9 (S "banana") (List.replicate 4 0) (S "an") (S "xyz") 0 = .ok (8, S "bxyz") := by
  decide +kernel

/-! ### C48 -/

theorem mapInPlace_eq (f : Nat → Res Nat) (g : Nat → Nat) : ∀ (b a : List Nat), (∀ c ∈ b, f c = .ok (g c)) →
    mapInPlace f b.length a.length (a ++ b) = .ok (a ++ b.map g) := by
  intro b
  induction b with
  | nil => intro a _; simp [mapInPlace]
  | cons c b ih =>
    intro a h
    rw [List.length_cons, mapInPlace, rd_some (c := c) (by simp), Res.ok_bind, h c (by simp), Res.ok_bind,
      wr_append_left, Res.ok_bind]
    have := ih (a ++ [g c]) (fun x hx => h x (by simp [hx]))
    simpa using this

/-- Upper case of an ASCII letter: `'a'..'z'` go to `'A'..'Z'`, everything else stays. -/
def Spec.upperOf (c : Nat) : Nat := if 97 ≤ c ∧ c ≤ 122 then c - 32 else c
/-- Lower case of an ASCII letter. -/
def Spec.lowerOf (c : Nat) : Nat := if 65 ≤ c ∧ c ≤ 90 then c + 32 else c

/-- C48: where `char` is unsigned, `toupper`/`tolower` change exactly the ASCII letters. -/
theorem C48_case (buf : List Nat) : toupper false buf = .ok (buf.map upperOf) ∧ tolower false buf = .ok (buf.map lowerOf) := by
  constructor
  · exact mapInPlace_eq (cToupper false) upperOf buf [] (fun c _ => rfl)
  · exact mapInPlace_eq (cTolower false) lowerOf buf [] (fun c _ => rfl)

/-- C48, where `char` is signed: the same for every string without the bytes 128..254.
Missing: those bytes, passed to `::toupper` as negative numbers, see `C48_refuted`. -/
theorem C48_case_signed_partial (buf : List Nat) (h : ∀ c ∈ buf, c < 128 ∨ c = 255) :
    toupper true buf = .ok (buf.map upperOf) ∧ tolower true buf = .ok (buf.map lowerOf) := by
  constructor
  · refine mapInPlace_eq (cToupper true) upperOf buf [] (fun c hc => ?_)
    unfold cToupper upperOf
    rw [if_neg]
    have := h c hc
    simp; omega
  · refine mapInPlace_eq (cTolower true) lowerOf buf [] (fun c hc => ?_)
    unfold cTolower lowerOf
    rw [if_neg]
    have := h c hc
    simp; omega

/-- C48 refuted where `char` is signed: any string with a byte in 128..254 is undefined behaviour. -/
theorem C48_refuted (buf : List Nat) (h : ∃ c ∈ buf, 128 ≤ c ∧ c < 255) : toupper true buf = .ub ∧ tolower true buf = .ub := by
  have key : ∀ (f : Nat → Res Nat), (∀ c, (128 ≤ c ∧ c < 255 → f c = .ub) ∧ (¬ (128 ≤ c ∧ c < 255) → ∃ d, f c = .ok d)) →
      ∀ (b a : List Nat), (∃ c ∈ b, 128 ≤ c ∧ c < 255) → mapInPlace f b.length a.length (a ++ b) = .ub := by
    intro f hfc b
    induction b with
    | nil => intro a ⟨c, hc, _⟩; simp at hc
    | cons x b ih =>
      intro a ⟨c, hc, hc2⟩
      rw [List.length_cons, mapInPlace, rd_some (c := x) (by simp), Res.ok_bind]
      by_cases hx : 128 ≤ x ∧ x < 255
      · rw [(hfc x).1 hx]; rfl
      · obtain ⟨d, hd⟩ := (hfc x).2 hx
        rw [hd, Res.ok_bind, wr_append_left, Res.ok_bind]
        have hcb : c ∈ b := by
          rcases List.mem_cons.mp hc with rfl | h
          · exact absurd hc2 hx
          · exact h
        have := ih (a ++ [d]) ⟨c, hcb, hc2⟩
        simpa using this
  constructor
  · refine key _ (fun c => ⟨fun hc => ?_, fun hc => ?_⟩) buf [] h
    · unfold cToupper; rw [if_pos]; simpa using hc
    · unfold cToupper; rw [if_neg]; exact ⟨_, rfl⟩
      simp; omega
  · refine key _ (fun c => ⟨fun hc => ?_, fun hc => ?_⟩) buf [] h
    · unfold cTolower; rw [if_pos]; simpa using hc
    · unfold cTolower; rw [if_neg]; exact ⟨_, rfl⟩
      simp; omega

/-- C48: `fill(c)` sets every character. -/
theorem C48_fill (buf : List Nat) (val : Nat) : fill buf val = .ok (List.replicate buf.length val) := by
  have key : ∀ (b a : List Nat), fillLoop val b.length a.length (a ++ b) = .ok (a ++ List.replicate b.length val) := by
    intro b
    induction b with
    | nil => intro a; simp [fillLoop]
    | cons c b ih =>
      intro a
      rw [List.length_cons, fillLoop, wr_append_left, Res.ok_bind]
      have := ih (a ++ [val])
      simpa [List.replicate_succ] using this
  exact key buf []

/-- C48: `copy_from(that, ifirst)` copies as many characters of `that` as there are and fit from `ifirst` on, and changes
no other; with an explicit count (which must fit after clipping to `that`, as asserted) that many. -/
theorem C48_copy_from (buf that : List Nat) (ifirst : Nat) (h : ifirst ≤ buf.length) (h64 : buf.length < 2 ^ 64) :
    (let n := min (buf.length - ifirst) that.length
     copyFrom buf that ifirst none = .ok (buf.take ifirst ++ that.take n ++ buf.drop (ifirst + n))) ∧
    (∀ num, ifirst + min num that.length ≤ buf.length →
      let n := min num that.length
      copyFrom buf that ifirst (some num) = .ok (buf.take ifirst ++ that.take n ++ buf.drop (ifirst + n))) := by
  have key : ∀ m n, m = min n that.length → ifirst + m ≤ buf.length →
      (if m ≠ 0 then memcpyTo buf ifirst (that.take m) else .ok buf) =
        .ok (buf.take ifirst ++ that.take m ++ buf.drop (ifirst + m)) := by
    intro m n hm hfit
    have hl : (that.take m).length = m := by simp; omega
    by_cases h0 : m = 0
    · rw [if_neg (by simp [h0]), h0]; simp
    · rw [if_pos h0, memcpyTo_ok (by omega), hl]
  constructor
  · unfold copyFrom
    simp only [szSub_of_le h h64]
    have e : (if buf.length - ifirst < that.length then buf.length - ifirst else that.length) =
        min (buf.length - ifirst) that.length := by split <;> omega
    rw [e]
    exact key _ _ rfl (by omega)
  · intro num hn
    unfold copyFrom
    simp only
    have e : (if num < that.length then num else that.length) = min num that.length := by split <;> omega
    rw [e]
    exact key _ _ rfl hn

example : toupper true (S "a-Z9") = .ok (S "A-Z9") ∧ tolower true (S "a-Z9") = .ok (S "a-z9") := by decide +kernel
example : copyFrom (S "abcdef") (S "XYZ") 4 none = .ok (S "abcdXY") := by decide +kernel
example : copyFrom (S "abcdef") (S "XYZ") 1 (some 2) = .ok (S "aXYdef") := by decide +kernel

end C4
