import Verif.Debug.Base64Tables
/-
Property C178: the self test of the base64 tables.
-/
namespace C4

/-- Tables of 64 characters below 128 and of 128 entries, each a number below 64 or the byte of `char(-1)`. -/
def Spec.TableShape (s2c c2s : List Nat) : Prop :=
  s2c.length = 64 ∧ c2s.length = 128 ∧ (∀ c ∈ s2c, c < 128) ∧ ∀ x ∈ c2s, x < 64 ∨ x = 255

/-- The tables are inverse to one another. -/
def Spec.TableInverse (s2c c2s : List Nat) : Prop :=
  (∀ i c : Nat, s2c[i]? = some c → c2s[c]? = some i) ∧ ∀ c i : Nat, c2s[c]? = some i → i ≠ 255 → s2c[i]? = some c

open Spec

theorem testSextets_eq (sgn : Bool) {c2s : List Nat} (h1 : c2s.length = 128) (h2 : ∀ x ∈ c2s, x < 64 ∨ x = 255) : ∀ (l : List Nat) (i : Nat), (∀ c ∈ l, c < 128) → i + l.length ≤ 64 →
    ((∀ j c : Nat, l[j]? = some c → c2s[c]? = some (i + j)) → testSextets sgn c2s l i = .ok ()) ∧
    ((¬ ∀ j c : Nat, l[j]? = some c → c2s[c]? = some (i + j)) → testSextets sgn c2s l i = .abort)
  | [], i, _, _ => by simp [testSextets]
  | a :: l, i, hl, hi => by
    have ha : a < c2s.length := by have := hl a (by simp); omega
    obtain ⟨ih1, ih2⟩ := testSextets_eq sgn h1 h2 l (i + 1) (fun c hc => hl c (by simp [hc])) (by simp at hi; omega)
    have hget : c2s[a]? = some c2s[a] := List.getElem?_eq_getElem ha
    have hr : rdChar sgn c2s a = .ok c2s[a] := by
      unfold rdChar
      rw [if_neg (by omega), rd_ok ha]
    have hx := h2 c2s[a] (List.getElem_mem ha)
    simp only [List.length_cons] at hi
    have hs : sizeOfChar sgn c2s[a] = i ↔ c2s[a] = i := by
      unfold sizeOfChar
      split <;> omega
    have hall : (∀ j c : Nat, (a :: l)[j]? = some c → c2s[c]? = some (i + j)) ↔ c2s[a] = i ∧ ∀ j c : Nat, l[j]? = some c → c2s[c]? = some (i + 1 + j) := by
      constructor
      · intro h
        refine ⟨?_, fun j c hj => ?_⟩
        · have := h 0 a rfl; rw [hget] at this; simpa using this
        · have := h (j + 1) c (by simpa using hj); rw [this]; congr 1; omega
      · rintro ⟨e, h⟩ j c hj
        cases j with
        | zero => simp at hj; subst hj; rw [hget, e]; rfl
        | succ j => have := h j c (by simpa using hj); rw [this]; congr 1; omega
    rw [hall]
    unfold testSextets
    rw [hr, Res.ok_bind]
    by_cases e : c2s[a] = i
    · rw [if_pos (hs.mpr e)]
      exact ⟨fun h => ih1 h.2, fun h => ih2 fun h' => h ⟨e, h'⟩⟩
    · rw [if_neg fun h => e (hs.mp h)]
      exact ⟨fun h => absurd h.1 e, fun _ => rfl⟩

theorem testChars_eq (sgn : Bool) {s2c : List Nat} (h1 : s2c.length = 64) (h2 : ∀ c ∈ s2c, c < 128) : ∀ (l : List Nat) (i : Nat), (∀ x ∈ l, x < 64 ∨ x = 255) → i + l.length ≤ 128 →
    ((∀ j x : Nat, l[j]? = some x → x ≠ 255 → s2c[x]? = some (i + j)) → testChars sgn s2c l i = .ok ()) ∧
    ((¬ ∀ j x : Nat, l[j]? = some x → x ≠ 255 → s2c[x]? = some (i + j)) → testChars sgn s2c l i = .abort)
  | [], i, _, _ => by simp [testChars]
  | a :: l, i, hl, hi => by
    obtain ⟨ih1, ih2⟩ := testChars_eq sgn h1 h2 l (i + 1) (fun c hc => hl c (by simp [hc])) (by simp at hi; omega)
    simp only [List.length_cons] at hi
    have hall : (∀ j x : Nat, (a :: l)[j]? = some x → x ≠ 255 → s2c[x]? = some (i + j)) ↔ (a ≠ 255 → s2c[a]? = some i) ∧ ∀ j x : Nat, l[j]? = some x → x ≠ 255 → s2c[x]? = some (i + 1 + j) := by
      constructor
      · intro h
        refine ⟨fun ha => by simpa using h 0 a rfl ha, fun j c hj hc => ?_⟩
        have := h (j + 1) c (by simpa using hj) hc; rw [this]; congr 1; omega
      · rintro ⟨e, h⟩ j c hj hc
        cases j with
        | zero => simp at hj; subst hj; rw [e hc]; rfl
        | succ j => have := h j c (by simpa using hj) hc; rw [this]; congr 1; omega
    rw [hall]
    unfold testChars
    by_cases h255 : a = 255
    · rw [if_pos h255]
      exact ⟨fun h => ih1 h.2, fun h => ih2 fun h' => h ⟨fun h => absurd h255 h, h'⟩⟩
    · rw [if_neg h255]
      have ha : a < s2c.length := by have := hl a (by simp); omega
      have hget : s2c[a]? = some s2c[a] := List.getElem?_eq_getElem ha
      have hr : rdChar sgn s2c a = .ok s2c[a] := by
        unfold rdChar
        rw [if_neg (by omega), rd_ok ha]
      have hx := h2 s2c[a] (List.getElem_mem ha)
      have hs : sizeOfChar sgn s2c[a] = i ↔ s2c[a]? = some i := by
        unfold sizeOfChar
        rw [if_neg (by omega), hget]
        simp
      rw [hr, Res.ok_bind]
      by_cases e : s2c[a]? = some i
      · rw [if_pos (hs.mpr e)]
        exact ⟨fun h => ih1 h.2, fun h => ih2 fun h' => h ⟨fun _ => e, h'⟩⟩
      · rw [if_neg fun h => e (hs.mp h)]
        exact ⟨fun h => absurd (h.1 h255) e, fun _ => rfl⟩

/-- **C178**: for tables of that shape, whatever their contents and the signedness of `char`, the self test reads nothing outside of them, succeeds if the tables are inverse to one another,
and reports an error otherwise. -/
theorem C178_detects (sgn : Bool) {s2c c2s : List Nat} (h : TableShape s2c c2s) :
    (TableInverse s2c c2s → base64TestTables sgn s2c c2s = .ok ()) ∧ (¬ TableInverse s2c c2s → base64TestTables sgn s2c c2s = .abort) := by
  obtain ⟨h1, h2, h3, h4⟩ := h
  obtain ⟨a1, a2⟩ := testSextets_eq sgn h2 h4 s2c 0 h3 (by omega)
  obtain ⟨b1, b2⟩ := testChars_eq sgn h1 h3 c2s 0 h4 (by omega)
  simp only [Nat.zero_add] at a1 a2 b1 b2
  unfold base64TestTables TableInverse
  constructor
  · rintro ⟨h, h'⟩
    rw [a1 h, Res.ok_bind, b1 h']
  · intro hn
    by_cases ha : ∀ i c : Nat, s2c[i]? = some c → c2s[c]? = some i
    · rw [a1 ha, Res.ok_bind, b2 fun hb => hn ⟨ha, hb⟩]
    · rw [a2 ha]; rfl

/-- **C178**: the tables of the library pass the test, and are inverse to one another. -/
theorem C178_tables (sgn : Bool) : base64TestTables sgn sextetToChar charToSextet = .ok () ∧ TableInverse sextetToChar charToSextet := by
  have hs : TableShape sextetToChar charToSextet := ⟨by decide +kernel, by decide +kernel, by decide +kernel, by decide +kernel⟩
  have hok : base64TestTables sgn sextetToChar charToSextet = .ok () := by cases sgn <;> decide +kernel
  refine ⟨hok, ?_⟩
  refine Classical.byContradiction fun hn => ?_
  rw [(C178_detects sgn hs).2 hn] at hok
  cases hok

/-- Two characters exchanged in one of the tables: this is found. -/
example : TableShape (sextetToChar.set 3 69 |>.set 4 68) charToSextet ∧ base64TestTables true (sextetToChar.set 3 69 |>.set 4 68) charToSextet = .abort :=
  ⟨⟨by decide +kernel, by decide +kernel, by decide +kernel, by decide +kernel⟩, by decide +kernel⟩

end C4
