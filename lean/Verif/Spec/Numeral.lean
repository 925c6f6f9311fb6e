/-
Specification of positional numerals, independent of the model of c4core.
-/
namespace C4.Spec

/-- Positional value of a digit string, most significant digit first. -/
def value (b : Nat) (ds : List Nat) : Nat := ds.foldl (fun a d => a * b + d) 0

/-- `ds` is the canonical base-`b` numeral of `v`: digits in range, right value, and no leading zero
unless it is the single digit zero. -/
structure IsNumeral (b v : Nat) (ds : List Nat) : Prop where
  digits : ∀ d ∈ ds, d < b
  value : value b ds = v
  canonical : ds = [0] ∨ ∃ d ds', ds = d :: ds' ∧ d ≠ 0

/-- Executable canonical numeral (fuelled). -/
def numeralAux : Nat → Nat → Nat → List Nat
  | 0, _, _ => []
  | f+1, b, v => if v < b then [v] else numeralAux f b (v / b) ++ [v % b]

/-- The canonical numeral of `v` in base `b`, most significant digit first. `numeral_unique` below shows
that this is *the* numeral in the sense of `IsNumeral`. -/
def numeral (b v : Nat) : List Nat := numeralAux (v + 1) b v

/-- ASCII character of a digit below 16 (lower case). -/
def digitChar (d : Nat) : Nat := if d < 10 then 48 + d else 87 + d

/-- Canonical numeral as text. -/
def numeralText (b v : Nat) : List Nat := (numeral b v).map digitChar

/-- Canonical numeral left-padded with '0' to at least `n` digits. -/
def paddedText (b v n : Nat) : List Nat :=
  List.replicate (n - (numeral b v).length) 48 ++ numeralText b v

end C4.Spec

namespace C4.Spec

theorem numeralAux_fuel {b : Nat} (hb : 2 ≤ b) : ∀ (f g v : Nat), v < f → v < g →
    numeralAux f b v = numeralAux g b v := by
  intro f
  induction f with
  | zero => intro g v h; omega
  | succ f ih =>
    intro g v hf hg
    cases g with
    | zero => omega
    | succ g =>
      unfold numeralAux
      split
      · rfl
      · rename_i h
        have : v / b < v := Nat.div_lt_self (by omega) (by omega)
        rw [ih g (v/b) (by omega) (by omega)]

theorem numeral_eq {b : Nat} (hb : 2 ≤ b) (v : Nat) :
    numeral b v = if v < b then [v] else numeral b (v / b) ++ [v % b] := by
  conv => lhs; unfold numeral numeralAux
  split
  · rfl
  · rename_i h
    have : v / b < v := Nat.div_lt_self (by omega) (by omega)
    rw [numeral, numeralAux_fuel hb v (v/b+1) (v/b) this (by omega)]

theorem numeral_lt {b v : Nat} (h : v < b) : numeral b v = [v] := by
  unfold numeral numeralAux; simp [h]

theorem numeral_ge {b v : Nat} (hb : 2 ≤ b) (h : b ≤ v) :
    numeral b v = numeral b (v / b) ++ [v % b] := by
  rw [numeral_eq hb]; simp; omega

theorem numeral_ne_nil {b : Nat} (hb : 2 ≤ b) (v : Nat) : numeral b v ≠ [] := by
  rw [numeral_eq hb]; split <;> simp

theorem value_append (b : Nat) (xs : List Nat) (d : Nat) :
    value b (xs ++ [d]) = value b xs * b + d := by
  simp [value, List.foldl_append]

theorem foldl_value (b : Nat) (ds : List Nat) (a : Nat) :
    ds.foldl (fun a d => a * b + d) a = a * b ^ ds.length + value b ds := by
  induction ds generalizing a with
  | nil => simp [value]
  | cons d ds ih =>
    have h1 : value b (d :: ds) = ds.foldl (fun a d => a * b + d) d := by simp [value]
    rw [List.foldl_cons, ih, h1, ih d]
    simp [Nat.pow_succ, Nat.add_mul]
    rw [Nat.mul_assoc, Nat.mul_comm b, Nat.add_assoc]

theorem value_cons (b d : Nat) (ds : List Nat) :
    value b (d :: ds) = d * b ^ ds.length + value b ds := by
  have : value b (d :: ds) = ds.foldl (fun a d => a * b + d) d := by simp [value]
  rw [this, foldl_value]

theorem value_append_list (b : Nat) (xs ys : List Nat) :
    value b (xs ++ ys) = value b xs * b ^ ys.length + value b ys := by
  rw [value, List.foldl_append, foldl_value]; rfl

@[simp] theorem value_nil (b : Nat) : value b [] = 0 := rfl

theorem value_replicate_zero (b n : Nat) : value b (List.replicate n 0) = 0 := by
  induction n with
  | zero => rfl
  | succ n ih => rw [List.replicate_succ, value_cons, ih]; simp

theorem value_lt {b : Nat} {ds : List Nat} (h : ∀ d ∈ ds, d < b) :
    value b ds < b ^ ds.length := by
  induction ds with
  | nil => simp [value]
  | cons d ds ih =>
    rw [value_cons]
    have h1 := ih (fun x hx => h x (List.mem_cons_of_mem _ hx))
    have h2 : d < b := h d (by simp)
    have h3 : (d+1) * b ^ ds.length ≤ b * b ^ ds.length := Nat.mul_le_mul_right _ h2
    rw [Nat.add_mul] at h3
    rw [List.length_cons, Nat.pow_succ, Nat.mul_comm _ b]
    omega

theorem numeral_isNumeral {b : Nat} (hb : 2 ≤ b) (v : Nat) : IsNumeral b v (numeral b v) := by
  induction v using Nat.strongRecOn with
  | ind v ih =>
    rw [numeral_eq hb]
    split
    · rename_i h
      refine ⟨by simp [h], by simp [value], ?_⟩
      cases v with
      | zero => left; rfl
      | succ n => right; exact ⟨n+1, [], rfl, by simp⟩
    · rename_i h
      have hlt : v / b < v := Nat.div_lt_self (by omega) (by omega)
      have := ih (v/b) hlt
      refine ⟨?_, ?_, ?_⟩
      · intro d hd
        rw [List.mem_append] at hd
        cases hd with
        | inl hd => exact this.digits d hd
        | inr hd =>
          simp at hd
          subst hd; exact Nat.mod_lt _ (by omega)
      · rw [value_append, this.value, Nat.mul_comm]; exact Nat.div_add_mod v b
      · right
        have hpos : 1 ≤ v / b := Nat.div_pos (by omega) (by omega)
        cases this.canonical with
        | inl h0 =>
          exfalso
          have := this.value
          rw [h0] at this; simp [C4.Spec.value] at this; omega
        | inr h0 =>
          obtain ⟨d, ds', he, hd⟩ := h0
          exact ⟨d, ds' ++ [v % b], by rw [he]; rfl, hd⟩

theorem value_pos_of_head {b : Nat} {d : Nat} {ds : List Nat} (hd : d ≠ 0) :
    b ^ ds.length ≤ value b (d :: ds) := by
  rw [value_cons]
  have : 1 * b ^ ds.length ≤ d * b ^ ds.length := Nat.mul_le_mul_right _ (by omega)
  omega

/-- There is exactly one canonical numeral. -/
theorem numeral_unique {b : Nat} (hb : 2 ≤ b) (v : Nat) (ds : List Nat) :
    IsNumeral b v ds ↔ ds = numeral b v := by
  constructor
  · intro h
    -- induction on the reversed digit list
    have key : ∀ (n : Nat) (ds : List Nat) (v : Nat), ds.length = n → IsNumeral b v ds →
        ds = numeral b v := by
      intro n
      induction n with
      | zero =>
        intro ds v hl h
        have : ds = [] := List.length_eq_zero_iff.mp hl
        subst this
        cases h.canonical with
        | inl h => simp at h
        | inr h => obtain ⟨_, _, h, _⟩ := h; simp at h
      | succ n ih =>
        intro ds v hl h
        obtain ⟨init, last, rfl⟩ : ∃ init last, ds = init ++ [last] :=
          ⟨ds.dropLast, ds.getLast (by intro h; simp [h] at hl),
            (List.dropLast_concat_getLast _).symm⟩
        have hlast : last < b := h.digits last (by simp)
        have hv := h.value
        rw [value_append] at hv
        cases init with
        | nil =>
          simp [C4.Spec.value] at hv
          subst hv
          rw [numeral_lt hlast]; rfl
        | cons d init =>
          have hd : d ≠ 0 := by
            cases h.canonical with
            | inl h => simp at h
            | inr h =>
              obtain ⟨d', ds', he, hd'⟩ := h
              simp at he; omega
          have h1 : IsNumeral b (C4.Spec.value b (d :: init)) (d :: init) :=
            ⟨fun x hx => h.digits x (by simp at hx ⊢; cases hx with
              | inl h => exact Or.inl h
              | inr h => exact Or.inr (Or.inl h)), rfl, Or.inr ⟨d, init, rfl, hd⟩⟩
          have h2 := ih (d :: init) _ (by simpa using hl) h1
          have h3 := value_pos_of_head (b := b) (ds := init) hd
          have h4 : 1 ≤ b ^ init.length := Nat.pow_pos (by omega)
          have h5 : b ≤ v := by
            rw [← hv]
            have : 1 * b ≤ C4.Spec.value b (d::init) * b := Nat.mul_le_mul_right _ (by omega)
            omega
          rw [numeral_ge hb h5]
          have h6 : v / b = C4.Spec.value b (d::init) := by
            rw [← hv, Nat.add_comm, Nat.add_mul_div_right _ _ (by omega), Nat.div_eq_of_lt hlast]; omega
          have h7 : v % b = last := by
            rw [← hv, Nat.add_comm, Nat.add_mul_mod_self_right, Nat.mod_eq_of_lt hlast]
          rw [h6, h7, ← h2]
    exact key _ ds v rfl h
  · rintro rfl; exact numeral_isNumeral hb v

theorem numeral_digits {b v : Nat} (hb : 2 ≤ b) : ∀ d ∈ numeral b v, d < b :=
  (numeral_isNumeral hb v).digits

theorem value_numeral {b : Nat} (hb : 2 ≤ b) (v : Nat) : value b (numeral b v) = v :=
  (numeral_isNumeral hb v).value

/-- The length of the numeral brackets the value. -/
theorem numeral_length_spec {b v : Nat} (hb : 2 ≤ b) :
    v < b ^ (numeral b v).length ∧ (v = 0 ∨ b ^ ((numeral b v).length - 1) ≤ v) := by
  have h := numeral_isNumeral hb v
  constructor
  · have := value_lt h.digits
    rwa [h.value] at this
  · cases h.canonical with
    | inl h0 => left; rw [← h.value, h0]; simp [C4.Spec.value]
    | inr h0 =>
      right
      obtain ⟨d, ds, he, hd⟩ := h0
      have := value_pos_of_head (b := b) (ds := ds) hd
      rw [← he, h.value] at this
      rw [he]; simpa using this

theorem numeral_length_pos {b : Nat} (hb : 2 ≤ b) (v : Nat) : 0 < (numeral b v).length := by
  have := numeral_ne_nil hb v
  exact List.length_pos_iff.mpr this

/-- Number of digits from a bracket. -/
theorem numeral_length_of_bracket {b v n : Nat} (hb : 2 ≤ b) (h1 : v < b ^ (n+1))
    (h2 : n = 0 ∨ b ^ n ≤ v) : (numeral b v).length = n + 1 := by
  have ⟨h3, h4⟩ := numeral_length_spec (v := v) hb
  have h5 := numeral_length_pos hb v
  apply Nat.le_antisymm
  · -- length ≤ n+1
    apply Nat.le_of_not_lt
    intro hlt
    cases h4 with
    | inl h0 => subst h0; rw [numeral_lt (by omega)] at hlt; simp at hlt
    | inr h4 =>
      have : b ^ (n+1) ≤ b ^ ((numeral b v).length - 1) := Nat.pow_le_pow_right (by omega) (by omega)
      omega
  · cases h2 with
    | inl h => omega
    | inr h2 =>
      apply Nat.le_of_not_lt
      intro hlt
      have : b ^ (numeral b v).length ≤ b ^ n := Nat.pow_le_pow_right (by omega) (by omega)
      omega

theorem numeral_add_digit {b v d : Nat} (hb : 2 ≤ b) (hv : 1 ≤ v) (hd : d < b) :
    numeral b (v * b + d) = numeral b v ++ [d] := by
  have : 1 * b ≤ v * b := Nat.mul_le_mul_right _ hv
  rw [numeral_ge hb (by omega)]
  have h6 : (v * b + d) / b = v := by
    rw [Nat.add_comm, Nat.add_mul_div_right _ _ (by omega), Nat.div_eq_of_lt hd]; omega
  have h7 : (v * b + d) % b = d := by
    rw [Nat.add_comm, Nat.add_mul_mod_self_right, Nat.mod_eq_of_lt hd]
  rw [h6, h7]

@[simp] theorem numeralText_length (b v : Nat) : (numeralText b v).length = (numeral b v).length := by
  simp [numeralText]

theorem paddedText_length (b v n : Nat) :
    (paddedText b v n).length = max n (numeral b v).length := by
  simp [paddedText]; omega

example : numeralText 10 18446744073709551615 = [49,56,52,52,54,55,52,52,48,55,51,55,48,57,53,53,49,54,49,53] := by
  decide +kernel

end C4.Spec
