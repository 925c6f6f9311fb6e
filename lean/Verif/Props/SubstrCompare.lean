import Verif.Substr.Compare
/-
Property C28: comparison is a total lexicographic order.
-/
namespace C4

/-- Specification: the value of the character with code `c`, if `char` is signed (`sgn`) or not. -/
def Spec.charValue (sgn : Bool) (c : Nat) : Int := if sgn = false then c else if c ≤ 127 then c else (c : Int) - 256

/-- Specification: `s` precedes `t` lexicographically: `s` is a proper prefix of `t`, or at the first
difference the character of `s` is smaller. -/
def LexLt (sgn : Bool) (s t : List Nat) : Prop :=
  (∃ z, z ≠ [] ∧ t = s ++ z) ∨
  (∃ pre x y s' t', s = pre ++ x :: s' ∧ t = pre ++ y :: t' ∧ Spec.charValue sgn x < Spec.charValue sgn y)

/-- All characters are bytes. -/
def Bytes (s : List Nat) : Prop := ∀ c ∈ s, c < 256

/-- A view is well formed: the null view is empty, characters are bytes. -/
def CView.wf (v : CView) : Prop := (v.null = true → v.chars = []) ∧ Bytes v.chars

theorem charVal_eq_spec (sgn : Bool) (c : Nat) : charVal sgn c = Spec.charValue sgn c := by
  unfold charVal Spec.charValue
  cases sgn
  · simp
  · simp only [true_and, Bool.true_eq_false, if_false]
    split <;> split <;> omega

theorem charVal_inj {sgn : Bool} {a b : Nat} (ha : a < 256) (hb : b < 256)
    (h : charVal sgn a = charVal sgn b) : a = b := by
  unfold charVal at h
  cases sgn
  · simp at h; omega
  · simp only [true_and] at h
    split at h <;> split at h <;> omega

theorem lexLt_cons {sgn : Bool} {c : Nat} {s t : List Nat} :
    LexLt sgn s t → LexLt sgn (c :: s) (c :: t) := by
  rintro (⟨z, hz, rfl⟩ | ⟨pre, x, y, s', t', rfl, rfl, h⟩)
  · exact Or.inl ⟨z, hz, rfl⟩
  · exact Or.inr ⟨c :: pre, x, y, s', t', rfl, rfl, h⟩

/-- Reference three-way comparison used in the proof only. -/
def cmpRef (sgn : Bool) : List Nat → List Nat → Int
  | [], [] => 0
  | [], _ :: _ => -1
  | _ :: _, [] => 1
  | a :: s, b :: t => if a ≠ b then (if charVal sgn a < charVal sgn b then -1 else 1) else cmpRef sgn s t

theorem compareS_eq_ref (sgn : Bool) (s t : CView) (hs : s.wf) (ht : t.wf) :
    compareS sgn s t = .ok (cmpRef sgn s.chars t.chars) := by
  have key : ∀ (l r pre pre' : List Nat), pre.length = pre'.length →
      (do let x ← forUpN (fun i => do
            let a ← rd (pre ++ l) i
            let b ← rd (pre' ++ r) i
            .ok (if a ≠ b then some (if charVal sgn a < charVal sgn b then (-1 : Int) else 1) else none))
            (if l.length < r.length then l.length else r.length) pre.length
          Res.ok (x.getD (if (pre ++ l).length < (pre' ++ r).length then -1 else
              if (pre ++ l).length = (pre' ++ r).length then 0 else 1))) = .ok (cmpRef sgn l r) := by
    intro l
    induction l with
    | nil =>
      intro r pre pre' he
      cases r with
      | nil => simp [forUpN, cmpRef, he]
      | cons b r => simp [forUpN, cmpRef, he]
    | cons a l ih =>
      intro r pre pre' he
      cases r with
      | nil => simp [forUpN, cmpRef, he]
      | cons b r =>
        have e : (if (a :: l).length < (b :: r).length then (a :: l).length else (b :: r).length) =
          (if l.length < r.length then l.length else r.length) + 1 := by
          simp only [List.length_cons]; split <;> split <;> omega
        rw [e, forUpN]
        have r1 : rd (pre ++ a :: l) pre.length = .ok a := by simp [rd]
        have r2 : rd (pre' ++ b :: r) pre.length = .ok b := by rw [he]; simp [rd]
        simp only [r1, r2, Res.ok_bind]
        by_cases hab : a = b
        · subst hab
          have := ih r (pre ++ [a]) (pre' ++ [a]) (by simp [he])
          simp only [List.append_assoc, List.singleton_append, List.length_append,
            List.length_cons, List.length_nil, Nat.zero_add] at this
          simp only [ne_eq, not_true, if_false, cmpRef, List.length_append, List.length_cons]
          rw [← this]
        · simp only [ne_eq, hab, not_false_eq_true, if_true, cmpRef]
          rfl
  unfold compareS
  by_cases hn : s.null = false ∧ t.null = false
  · obtain ⟨h1, h2⟩ := hn
    have := key s.chars t.chars [] [] rfl
    simp only [h1, h2, Bool.not_false, Bool.and_self, if_true, forUp]
    simpa using this
  · have hcond : (!s.null && !t.null) = false := by
      cases h1 : s.null <;> cases h2 : t.null <;> simp_all
    rw [hcond]
    simp only [Bool.false_eq_true, if_false]
    cases h1 : s.null with
    | true =>
      rw [hs.1 h1]
      cases t.chars <;> simp [cmpRef]
    | false =>
      have h2 : t.null = true := by cases h : t.null <;> simp_all
      rw [ht.1 h2]
      cases s.chars <;> simp [cmpRef]

theorem cmpRef_range (sgn : Bool) : ∀ s t, cmpRef sgn s t = -1 ∨ cmpRef sgn s t = 0 ∨ cmpRef sgn s t = 1
  | [], [] => by simp [cmpRef]
  | [], _ :: _ => by simp [cmpRef]
  | _ :: _, [] => by simp [cmpRef]
  | a :: s, b :: t => by
    unfold cmpRef
    split
    · split <;> simp
    · exact cmpRef_range sgn s t

theorem cmpRef_spec (sgn : Bool) : ∀ s t, Bytes s → Bytes t →
    (cmpRef sgn s t = -1 → LexLt sgn s t) ∧ (cmpRef sgn s t = 0 → s = t) ∧
    (cmpRef sgn s t = 1 → LexLt sgn t s)
  | [], [], _, _ => by simp [cmpRef]
  | [], b :: t, _, _ => by simp [cmpRef]; exact Or.inl ⟨b :: t, by simp, rfl⟩
  | a :: s, [], _, _ => by simp [cmpRef]; exact Or.inl ⟨a :: s, by simp, rfl⟩
  | a :: s, b :: t, hs, ht => by
    have ha := hs a (by simp)
    have hb := ht b (by simp)
    by_cases hab : a = b
    · subst hab
      have := cmpRef_spec sgn s t (fun c h => hs c (by simp [h])) (fun c h => ht c (by simp [h]))
      simp only [cmpRef, ne_eq, not_true, if_false]
      exact ⟨fun h => lexLt_cons (this.1 h), fun h => by rw [this.2.1 h], fun h => lexLt_cons (this.2.2 h)⟩
    · simp only [cmpRef, ne_eq, hab, not_false_eq_true, if_true]
      by_cases hlt : charVal sgn a < charVal sgn b
      · simp only [hlt, if_true]
        exact ⟨fun _ => Or.inr ⟨[], a, b, s, t, rfl, rfl, by simpa only [charVal_eq_spec] using hlt⟩, by simp, by simp⟩
      · simp only [hlt, if_false]
        have : charVal sgn b < charVal sgn a := by
          have : charVal sgn a ≠ charVal sgn b := fun h => hab (charVal_inj ha hb h)
          omega
        exact ⟨by simp, by simp, fun _ => Or.inr ⟨[], b, a, t, s, rfl, rfl, by simpa only [charVal_eq_spec] using this⟩⟩

theorem lexLt_cmpRef (sgn : Bool) {s t : List Nat} (h : LexLt sgn s t) : cmpRef sgn s t = -1 := by
  rcases h with ⟨z, hz, rfl⟩ | ⟨pre, x, y, s', t', rfl, rfl, h⟩
  · induction s with
    | nil => cases z with
      | nil => simp at hz
      | cons c z => rfl
    | cons c s ih => simp [cmpRef, ih]
  · rw [← charVal_eq_spec, ← charVal_eq_spec] at h
    induction pre with
    | nil =>
      have : x ≠ y := by rintro rfl; omega
      simp [cmpRef, this, h]
    | cons c pre ih => simp [cmpRef, ih]

theorem cmpRef_self (sgn : Bool) (s : List Nat) : cmpRef sgn s s = 0 := by
  induction s with
  | nil => rfl
  | cons c s ih => simp [cmpRef, ih]

/-- C28: `compare` never reads out of bounds, returns -1/0/1, and the result tells exactly if the first
string precedes, equals, or follows the second in lexicographic order. -/
theorem C28_compare (sgn : Bool) (s t : CView) (hs : s.wf) (ht : t.wf) :
    ∃ r, compareS sgn s t = .ok r ∧
      (r = -1 ↔ LexLt sgn s.chars t.chars) ∧ (r = 0 ↔ s.chars = t.chars) ∧
      (r = 1 ↔ LexLt sgn t.chars s.chars) ∧ (r = -1 ∨ r = 0 ∨ r = 1) := by
  refine ⟨_, compareS_eq_ref sgn s t hs ht, ?_, ?_, ?_, cmpRef_range sgn _ _⟩
  · exact ⟨(cmpRef_spec sgn _ _ hs.2 ht.2).1, lexLt_cmpRef sgn⟩
  · exact ⟨(cmpRef_spec sgn _ _ hs.2 ht.2).2.1, fun h => by rw [h]; exact cmpRef_self sgn _⟩
  · refine ⟨(cmpRef_spec sgn _ _ hs.2 ht.2).2.2, fun h => ?_⟩
    have h1 := lexLt_cmpRef sgn h
    rcases cmpRef_range sgn s.chars t.chars with h2 | h2 | h2
    · -- both precede: impossible
      have h3 := (cmpRef_spec sgn _ _ hs.2 ht.2).1 h2
      exfalso
      have key : ∀ a b : List Nat, cmpRef sgn a b = -1 → cmpRef sgn b a = -1 → False := by
        intro a
        induction a with
        | nil => intro b; cases b <;> simp [cmpRef]
        | cons x a ih =>
          intro b
          cases b with
          | nil => simp [cmpRef]
          | cons y b =>
            by_cases hxy : x = y
            · subst hxy; simp [cmpRef]; exact ih b
            · have hyx : y ≠ x := fun h => hxy h.symm
              simp only [cmpRef, ne_eq, hxy, hyx, not_false_eq_true, if_true]
              split <;> split <;> simp <;> omega
      exact key _ _ h2 h1
    · have := (cmpRef_spec sgn _ _ hs.2 ht.2).2.1 h2
      rw [this, cmpRef_self] at h1; omega
    · exact h2

/-- C28: the result of swapping the operands is the opposite. -/
theorem C28_antisymm (sgn : Bool) (s t : CView) (hs : s.wf) (ht : t.wf) :
    ∃ r, compareS sgn s t = .ok r ∧ compareS sgn t s = .ok (-r) := by
  obtain ⟨r, h1, a1, a2, a3, a4⟩ := C28_compare sgn s t hs ht
  obtain ⟨r', h2, b1, b2, b3, b4⟩ := C28_compare sgn t s ht hs
  refine ⟨r, h1, ?_⟩
  rw [h2]
  congr 1
  rcases a4 with h | h | h
  · rw [h, b3.mpr (a1.mp h)]; rfl
  · rw [h, b2.mpr (a2.mp h).symm]; rfl
  · rw [h, b1.mpr (a3.mp h)]

/-- C28: the order is transitive. -/
theorem C28_trans (sgn : Bool) (s t u : CView) (hs : s.wf) (ht : t.wf) (hu : u.wf) {a b c : Int}
    (h1 : compareS sgn s t = .ok a) (h2 : compareS sgn t u = .ok b) (h3 : compareS sgn s u = .ok c) :
    opLe a = true → opLe b = true → opLe c = true := by
  rw [compareS_eq_ref sgn s t hs ht] at h1
  rw [compareS_eq_ref sgn t u ht hu] at h2
  rw [compareS_eq_ref sgn s u hs hu] at h3
  cases h1; cases h2; cases h3
  simp only [opLe, decide_eq_true_eq]
  have key : ∀ x y z : List Nat, cmpRef sgn x y ≤ 0 → cmpRef sgn y z ≤ 0 → cmpRef sgn x z ≤ 0 := by
    intro x
    induction x with
    | nil => intro y z _ _; cases z <;> simp [cmpRef]
    | cons p x ih =>
      intro y z h1 h2
      cases y with
      | nil => simp [cmpRef] at h1
      | cons q y => cases z with
        | nil => simp [cmpRef] at h2
        | cons r z =>
          by_cases e1 : p = q
          · subst e1
            by_cases e2 : p = r
            · subst e2
              simp only [cmpRef, ne_eq, not_true, if_false] at h1 h2 ⊢
              exact ih y z h1 h2
            · simp only [cmpRef, ne_eq, e2, not_false_eq_true, if_true] at h2 ⊢
              exact h2
          · by_cases e2 : q = r
            · subst e2
              simp only [cmpRef, ne_eq, e1, not_false_eq_true, if_true] at h1 ⊢
              exact h1
            · simp only [cmpRef, ne_eq, e1, e2, not_false_eq_true, if_true] at h1 h2 ⊢
              have l1 : charVal sgn p < charVal sgn q := by
                by_cases h : charVal sgn p < charVal sgn q
                · exact h
                · simp [h] at h1
              have l2 : charVal sgn q < charVal sgn r := by
                by_cases h : charVal sgn q < charVal sgn r
                · exact h
                · simp [h] at h2
              have e3 : p ≠ r := by rintro rfl; omega
              have l3 : charVal sgn p < charVal sgn r := by omega
              simp [e3, l3]
  exact key _ _ _

/-- C28: the six operators are the order relations: exactly one of `<`, `==`, `>` holds, and the others are
their combinations. -/
theorem C28_operators (sgn : Bool) (s t : CView) (hs : s.wf) (ht : t.wf) :
    ∃ r, compareS sgn s t = .ok r ∧
      (opEq r = true ↔ s.chars = t.chars) ∧ (opNe r = true ↔ s.chars ≠ t.chars) ∧
      (opLt r = true ↔ LexLt sgn s.chars t.chars) ∧ (opGt r = true ↔ LexLt sgn t.chars s.chars) ∧
      (opLe r = true ↔ LexLt sgn s.chars t.chars ∨ s.chars = t.chars) ∧
      (opGe r = true ↔ LexLt sgn t.chars s.chars ∨ s.chars = t.chars) := by
  obtain ⟨r, h1, a1, a2, a3, a4⟩ := C28_compare sgn s t hs ht
  refine ⟨r, h1, ?_, ?_, ?_, ?_, ?_, ?_⟩
  · rw [← a2]; simp [opEq]
  · rw [ne_eq, ← a2]; simp [opNe]
  · rw [← a1]; simp [opLt]; omega
  · rw [← a3]; simp [opGt]; omega
  · rw [← a1, ← a2]; simp [opLe]; omega
  · rw [← a3, ← a2]; simp [opGe]; omega

example : compareS true ⟨false, S "abc"⟩ ⟨false, S "abcd"⟩ = .ok (-1) ∧
    compareS false ⟨false, [200]⟩ ⟨false, [100]⟩ = .ok 1 ∧
    compareS true ⟨false, [200]⟩ ⟨false, [100]⟩ = .ok (-1) ∧
    compareS true ⟨true, []⟩ ⟨false, []⟩ = .ok 0 := by decide +kernel

/-- C28, comparison with a single character, for lengths up to 2^31 - 1: the sign of the result is that of
comparing with the one-character string.  Missing: longer strings, see `C28_char_refuted`. -/
theorem C28_compare_char_partial (sgn : Bool) (s : CView) (c : Nat) (hs : s.wf) (hc : c < 256)
    (hlen : s.chars.length < 2 ^ 31) :
    ∃ r, compareC sgn s c = .ok r ∧
      (r < 0 ↔ LexLt sgn s.chars [c]) ∧ (r = 0 ↔ s.chars = [c]) ∧ (r > 0 ↔ LexLt sgn [c] s.chars) := by
  have href := C28_compare sgn ⟨false, s.chars⟩ ⟨false, [c]⟩ ⟨by simp, hs.2⟩
    ⟨by simp, by intro x hx; simp at hx; omega⟩
  obtain ⟨q, hq, a1, a2, a3, _⟩ := href
  rw [compareS_eq_ref sgn ⟨false, s.chars⟩ ⟨false, [c]⟩ ⟨by simp, hs.2⟩
    ⟨by simp, by intro x hx; simp at hx; omega⟩] at hq
  cases hq
  simp only at a1 a2 a3
  rw [← a1, ← a2, ← a3]
  unfold compareC
  cases hch : s.chars with
  | nil => refine ⟨-1, by simp, ?_, ?_, ?_⟩ <;> simp [cmpRef]
  | cons a l =>
    have hnn : s.null = false := by
      cases h : s.null with
      | false => rfl
      | true => rw [hs.1 h] at hch; simp at hch
    have ha : a < 256 := hs.2 a (by rw [hch]; simp)
    rw [hch] at hlen
    have hm : (a :: l).length % 2 ^ 32 = (a :: l).length := Nat.mod_eq_of_lt (by omega)
    have e0 : rd (a :: l) 0 = .ok a := rfl
    rw [hnn, e0]
    simp only [Bool.not_false, Bool.true_and, List.length_cons, Nat.zero_lt_succ, decide_true,
      if_true, Res.ok_bind, gt_iff_lt]
    simp only [List.length_cons] at hm hlen
    rw [hm, if_neg (show ¬ l.length + 1 = 2 ^ 31 by omega)]
    by_cases hac : a = c
    · subst hac
      simp only [ne_eq, not_true, if_false]
      have hi : toInt32 (l.length + 1) = (l.length + 1 : Int) := by
        unfold toInt32; rw [hm, if_pos hlen]; omega
      rw [hi]
      refine ⟨_, rfl, ?_⟩
      cases l with
      | nil => simp [cmpRef]
      | cons b l => simp [cmpRef]; omega
    · have hne : charVal sgn a ≠ charVal sgn c := fun h => hac (charVal_inj ha hc h)
      simp only [ne_eq, hac, not_false_eq_true, if_true]
      refine ⟨_, rfl, ?_⟩
      simp only [cmpRef, ne_eq, hac, not_false_eq_true, if_true]
      split <;> simp <;> omega

example : compareC true ⟨false, S "ab"⟩ 97 = .ok 1 ∧ compareC true ⟨false, S "a"⟩ 97 = .ok 0 := by
  decide +kernel

/-- C28 refuted for the single-character form on huge strings: a string of 2^32+1 times 'a' compares equal
to 'a' (the length is truncated to `int`). -/
theorem C28_char_refuted : ∃ s : CView, s.wf ∧ compareC true s 97 = .ok 0 ∧ s.chars ≠ [97] := by
  have hlen : (List.replicate (2 ^ 32 + 1) 97).length = 2 ^ 32 + 1 := List.length_replicate
  generalize hl : List.replicate (2 ^ 32 + 1) 97 = l at hlen
  have h0 : rd l 0 = .ok 97 := by
    have h1 : 0 < l.length := by omega
    rw [rd_ok h1]; subst hl
    congr 1
  refine ⟨⟨false, l⟩, ⟨by simp, ?_⟩, ?_, ?_⟩
  · intro c hc
    simp only at hc
    rw [← hl] at hc
    have := List.eq_of_mem_replicate hc
    omega
  · unfold compareC
    simp only [hlen, h0]
    rfl
  · simp only
    intro h; rw [h] at hlen; simp at hlen

end C4
